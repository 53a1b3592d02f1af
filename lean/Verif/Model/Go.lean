/-!
# Go computations: panics and the clock

Every modelled Go function that can panic or read the clock is a `Go` computation.
A `Go` computation is a function from the current clock position to either a panic or a result together
with the new clock position.
-/

namespace Trypo

/-- The Go run-time panics reachable from the modelled code.
* `index`: slice index out of range (e.g. pkg/kmeans/centroid/centroid.go:155, :250).
* `makeNeg`: `make` with a negative length or capacity (e.g. pkg/searchutils/knn.go:89).
* `divZero`: integer division/modulus by zero (e.g. core/eventloop/eltask.go:10, :169).
* `nilDeref`: nil pointer dereference.
* `user`: an explicit `panic(...)` (e.g. pkg/kmeans/centroidmanager/cmanager.go:115, core/eventloop/cfg.go:157). -/
inductive Panic where
  | index | makeNeg | divZero | nilDeref | user
  deriving DecidableEq, Repr

/-- A Go computation. The state is the position in the clock stream (see `expired` in `Model/DataPoint.lean`). -/
abbrev Go (α : Type) : Type := StateT Nat (Except Panic) α

namespace Go

/-- A panicking computation. -/
def panic {α : Type} (e : Panic) : Go α := fun _ => .error e

/-- Lift a computation that may panic but does not read the clock. -/
def lift {α : Type} (x : Except Panic α) : Go α := fun p =>
  match x with
  | .ok a => .ok (a, p)
  | .error e => .error e

/-- Slice indexing `l[i]`: panics when out of range. -/
def idx {α : Type} (l : List α) (i : Nat) : Go α :=
  match l[i]? with
  | some a => pure a
  | none => panic .index

/-- The allocation `make([]T, 0, n)` / `make([]T, n)`: panics when `n < 0`.
Simplification: allocations that are too large for the machine are not modelled. -/
def checkMake (n : Int) : Go Unit :=
  if n < 0 then panic .makeNeg else pure ()

/-- Weakest precondition: the computation does not panic and its result satisfies `Q`. -/
def wp {α : Type} (m : Go α) (Q : α → Nat → Prop) (p : Nat) : Prop :=
  match m p with
  | .ok (a, p') => Q a p'
  | .error _ => False

theorem wp_iff {α : Type} {m : Go α} {Q : α → Nat → Prop} {p : Nat} :
    wp m Q p ↔ ∃ a p', m p = .ok (a, p') ∧ Q a p' := by
  unfold wp
  split
  · rename_i a p' h
    constructor
    · intro hq; exact ⟨a, p', h, hq⟩
    · rintro ⟨a', p'', h', hq⟩
      rw [h] at h'
      cases h'
      exact hq
  · rename_i e h
    constructor
    · intro hf; exact hf.elim
    · rintro ⟨a', p'', h', _⟩
      rw [h] at h'
      cases h'

theorem wp_of_run {α : Type} {m : Go α} {Q : α → Nat → Prop} {p : Nat} {a : α} {p' : Nat}
    (h : m p = .ok (a, p')) (hw : wp m Q p) : Q a p' := by
  unfold wp at hw
  rw [h] at hw
  exact hw

@[simp] theorem wp_pure {α : Type} (a : α) (Q : α → Nat → Prop) (p : Nat) :
    wp (pure a : Go α) Q p ↔ Q a p := Iff.rfl

@[simp] theorem wp_bind {α β : Type} (m : Go α) (f : α → Go β) (Q : β → Nat → Prop) (p : Nat) :
    wp (m >>= f) Q p ↔ wp m (fun a p' => wp (f a) Q p') p := by
  unfold wp
  show (match (StateT.bind m f p) with | .ok (a, p') => Q a p' | .error _ => False) ↔ _
  unfold StateT.bind
  show (match (Except.bind (m p) _) with | .ok (a, p') => Q a p' | .error _ => False) ↔ _
  cases h : m p with
  | error e => simp [Except.bind]
  | ok r => obtain ⟨a, p'⟩ := r; exact Iff.rfl

@[simp] theorem wp_map {α β : Type} (m : Go α) (f : α → β) (Q : β → Nat → Prop) (p : Nat) :
    wp (f <$> m) Q p ↔ wp m (fun a p' => Q (f a) p') p := by
  unfold wp
  show (match (StateT.map f m p) with | .ok (a, p') => Q a p' | .error _ => False) ↔ _
  unfold StateT.map
  show (match (Except.bind (m p) _) with | .ok (a, p') => Q a p' | .error _ => False) ↔ _
  cases h : m p with
  | error e => simp [Except.bind]
  | ok r => obtain ⟨a, p'⟩ := r; exact Iff.rfl

@[simp] theorem wp_panic {α : Type} (e : Panic) (Q : α → Nat → Prop) (p : Nat) :
    wp (panic e : Go α) Q p ↔ False := Iff.rfl

theorem wp_mono {α : Type} {m : Go α} {Q R : α → Nat → Prop} {p : Nat}
    (h : wp m Q p) (hqr : ∀ a p', Q a p' → R a p') : wp m R p := by
  rw [wp_iff] at *
  obtain ⟨a, p', h1, h2⟩ := h
  exact ⟨a, p', h1, hqr a p' h2⟩

theorem wp_and {α : Type} {m : Go α} {Q R : α → Nat → Prop} {p : Nat}
    (h : wp m Q p) (h' : wp m R p) : wp m (fun a p' => Q a p' ∧ R a p') p := by
  rw [wp_iff] at *
  obtain ⟨a, p', h1, h2⟩ := h
  obtain ⟨b, p'', h3, h4⟩ := h'
  rw [h1] at h3; cases h3
  exact ⟨a, p', h1, h2, h4⟩

@[simp] theorem wp_ite {α : Type} (c : Prop) [Decidable c] (m n : Go α) (Q : α → Nat → Prop) (p : Nat) :
    wp (if c then m else n) Q p ↔ (c → wp m Q p) ∧ (¬ c → wp n Q p) := by
  by_cases h : c <;> simp [h]

@[simp] theorem wp_checkMake (n : Int) (Q : Unit → Nat → Prop) (p : Nat) :
    wp (checkMake n) Q p ↔ 0 ≤ n ∧ Q () p := by
  unfold checkMake
  by_cases h : n < 0
  · simp only [h, if_true, wp_panic, false_iff]; omega
  · simp only [h, if_false, wp_pure]; constructor
    · intro hq; exact ⟨by omega, hq⟩
    · exact fun hq => hq.2

theorem wp_idx {α : Type} (l : List α) (i : Nat) (Q : α → Nat → Prop) (p : Nat) :
    wp (idx l i) Q p ↔ ∃ a, l[i]? = some a ∧ Q a p := by
  unfold idx
  cases h : l[i]? <;> simp

@[simp] theorem wp_lift {α : Type} (x : Except Panic α) (Q : α → Nat → Prop) (p : Nat) :
    wp (lift x) Q p ↔ ∃ a, x = .ok a ∧ Q a p := by
  unfold wp lift
  cases x <;> simp

end Go
end Trypo
