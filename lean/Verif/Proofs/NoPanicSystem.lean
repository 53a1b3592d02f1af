import Verif.Proofs.NoPanicManager
import Verif.Proofs.Jobs

/-!
# Nothing panics: servers, clients, event loops
-/

namespace Trypo
open Spec EventLoop

variable {F : Type} [GoFloat F]

set_option linter.unusedSectionVars false
set_option linter.unusedVariables false

/-- An invariant of everything that a service does, and when it holds. -/
structure Cond (F : Type) where
  /-- it holds from this time on -/
  time : Nat
  /-- what is known of managers from elsewhere -/
  ext : Manager F → Prop
  /-- the invariant of a slot -/
  slot : Nat → Manager F → Prop
  /-- where a table points to, or that it has no entry -/
  tab : Addr → NS → Option Nat → Prop
  /-- slots from this one on are new -/
  size : Nat
  /-- the datapoints of a centroid in an answer -/
  reply : List (DataPoint F) → Prop
  /-- centroids that were stolen -/
  stolen : Centroid F → Prop
  /-- how the manager of a slot changes -/
  rel : Manager F → Manager F → Prop
  refl : ∀ m, rel m m
  fresh : ∀ a ns i, size ≤ i → tab a ns (some i)

/-- An invariant of all managers at all times. -/
def Cond.of (I : Manager F → Prop) : Cond F := ⟨0, fun _ => True, fun _ => I, fun _ _ _ => True, 0, fun _ => True, CLax, fun _ _ => True, fun _ => trivial, fun _ _ _ _ => trivial⟩

/-- What is known of a manager in a slot. -/
structure Cond.At (I : Cond F) (i : Nat) (m : Manager F) (p : Nat) : Prop where
  time : I.time ≤ p
  ext : I.ext m
  slot : I.slot i m

/-- What is known of the manager of a slot after a change. -/
structure Cond.Next (I : Cond F) (i : Nat) (m m' : Manager F) : Prop where
  slot : I.slot i m'
  rel : I.rel m m'

theorem Cond.Next.same {I : Cond F} {i : Nat} {m : Manager F} (h : I.slot i m) : I.Next i m m := ⟨h, I.refl m⟩

theorem Cond.At.later {I : Cond F} {i p p' : Nat} {m : Manager F} (h : I.At i m p) (hp : p ≤ p') : I.At i m p' := ⟨Nat.le_trans h.1 hp, h.2, h.3⟩

/-- Tables point to slots, and the invariant holds. -/
structure WHas (I : Cond F) (w : World F) : Prop where
  points : ∀ a ns i, (ns, i) ∈ w.table a → i < w.heap.length
  slots : ∀ i s, w.heap[i]? = some s → I.slot i s.2
  tab : ∀ a ns, I.tab a ns (w.lookup a ns)
  size : I.size ≤ w.heap.length

/-- What happens to slots. -/
def Moved (I : Cond F) (w w' : World F) : Prop := ∀ (i : Nat) (s : NS × Manager F), w.heap[i]? = some s → ∃ s', w'.heap[i]? = some s' ∧ I.rel s.2 s'.2

theorem Moved.same (I : Cond F) (w : World F) : Moved I w w := fun i s h => ⟨s, h, I.refl _⟩

/-- A state in which the invariant is in force. -/
structure Cond.Ready (I : Cond F) (w : World F) (p : Nat) : Prop where
  time : I.time ≤ p
  ext : ∀ s ∈ w.heap, I.ext s.2
  has : WHas I w

theorem ready_of {I : Manager F → Prop} {w : World F} (h : WHas (.of I) w) (p : Nat) : (Cond.of I).Ready w p :=
  ⟨Nat.zero_le _, fun _ _ => trivial, h⟩

/-- `NearestCentroids` succeeds and keeps the invariant. -/
class Near (I : Cond F) : Prop where
  near : ∀ i m v (n : Int) drain p, I.At i m p → 0 ≤ n →
    Go.wp (m.nearestCentroids v n drain) (fun r _ => I.Next i m r.2 ∧ ∀ cs, r.1 = some cs → (cs.length : Int) ≤ n ∧ ∀ c ∈ cs, I.reply c.dps) p

/-- All methods succeed and keep the invariant. -/
class Ops (tk : Nat → Int) (I : Cond F) : Prop where
  add : ∀ i m d p, I.At i m p → Go.wp (m.addDataPoint tk d) (fun r _ => I.Next i m r.2) p
  expire : ∀ i m p, I.At i m p → Go.wp (m.expire tk) (fun r _ => I.Next i m r) p
  memTrim : ∀ i m p, I.At i m p → Go.wp (m.memTrim tk) (fun r _ => I.Next i m r) p
  moveVector : ∀ i m p, I.At i m p → Go.wp (m.moveVector tk) (fun r _ => I.Next i m r.2) p
  split : ∀ i m f p, I.At i m p → Go.wp (m.splitCentroids tk f) (fun r _ => I.Next i m r) p
  merge : ∀ i m f p, I.At i m p → Go.wp (m.mergeCentroids tk f) (fun r _ => I.Next i m r) p
  knn : ∀ i m v (k : Int) drain p, I.At i m p → 0 ≤ k → Go.wp (m.knnLookup tk v k drain) (fun r _ => I.Next i m r.2) p
  drainU : ∀ i m ord (n : Int) p, I.At i m p → (∀ l, (ord l).Perm l) → 0 ≤ n → Go.wp (m.drainUnordered tk ord n) (fun r _ => I.Next i m r.2) p
  drainO : ∀ i m ord (n : Int) p, I.At i m p → (∀ l, (ord l).Perm l) → 0 ≤ n → Go.wp (m.drainOrdered tk ord n) (fun r _ => I.Next i m r.2) p
  internal : ∀ i m ord (n : Int) p, I.At i m p → (∀ l, (ord l).Perm l) → Go.wp (m.distributeInternal tk ord n) (fun r _ => I.Next i m r) p
  reinit : ∀ d ds p, I.time ≤ p → I.reply (d :: ds) →
    Go.wp (Centroid.moveVector tk ⟨d.vec, d :: ds, knnCos, kfnCos⟩) (fun r p' => I.time ≤ p' ∧ I.stolen r.2) p

/-- The factory makes managers for new slots. -/
def Makes (fac : Factory F) (I : Cond F) : Prop :=
  ∀ v p, I.time ≤ p → Go.wp (fac.make v) (fun m p' => I.time ≤ p' ∧ I.ext m ∧ ∀ i, I.size ≤ i → I.slot i m) p

/-- Centroids from elsewhere can be appended. -/
def Grows (I : Cond F) : Prop := ∀ i m cs p, I.At i m p → (∀ c ∈ cs, I.stolen c) → I.Next i m { m with centroids := m.centroids ++ cs }

theorem wp_all {α β : Type} {m : Go α} {P : β → Prop} {Q : β → α → Nat → Prop} {p : Nat} (b : β) (hb : P b)
    (h : ∀ b, P b → Go.wp m (Q b) p) : Go.wp m (fun a p' => ∀ b, P b → Q b a p') p := by
  obtain ⟨a, p', e, _⟩ := Go.wp_iff.1 (h b hb)
  refine Go.wp_iff.2 ⟨a, p', e, fun b' hb' => ?_⟩
  obtain ⟨a', p2, e', hq⟩ := Go.wp_iff.1 (h b' hb')
  rw [e] at e'
  cases e'
  exact hq

/-- Every action of the program succeeds whatever other goroutines do in between; `n` slots are known to exist. -/
def Prog.NP (I : Cond F) {α : Type} : Prog F α → Nat → (α → Prop) → Prop
  | .ret a, _, Q => Q a
  | .act a k, n, Q => ∀ w p, I.Ready w p → n ≤ w.heap.length → ∃ r p', a.run w p = .ok (r, p') ∧ WHas I r.2 ∧
      Moved I w r.2 ∧ w.heap.length ≤ r.2.heap.length ∧ Prog.NP I (k r.1) r.2.heap.length Q

open Prog (NP)

variable {I : Cond F}

theorem np_mono {α : Type} {m : Prog F α} {n n' : Nat} (hn : n ≤ n') {Q R : α → Prop} (h : NP I m n Q) (hq : ∀ a, Q a → R a) : NP I m n' R := by
  induction m generalizing n n' with
  | ret a => exact hq a h
  | act a k ih =>
    intro w p hw hl
    obtain ⟨r, p', h1, h2, hmv, h3, h4⟩ := h w p hw (Nat.le_trans hn hl)
    exact ⟨r, p', h1, h2, hmv, h3, ih r.1 (Nat.le_refl _) h4⟩

theorem np_pure {α : Type} {a : α} {n : Nat} {Q : α → Prop} (h : Q a) : NP I (pure a : Prog F α) n Q := h

theorem np_bind' {α β : Type} {m : Prog F α} {f : α → Prog F β} {n : Nat} {Q : α → Prop} {R : β → Prop} (hm : NP I m n Q)
    (hf : ∀ a n', n ≤ n' → Q a → NP I (f a) n' R) : NP I (m.bind f) n R := by
  induction m generalizing n with
  | ret a => exact hf a n (Nat.le_refl _) hm
  | act a k ih =>
    intro w p hw hl
    obtain ⟨r, p', h1, h2, hmv, h3, h4⟩ := hm w p hw hl
    exact ⟨r, p', h1, h2, hmv, h3, ih r.1 h4 (fun a n' hn' => hf a n' (by omega))⟩

theorem np_bind {α β : Type} {m : Prog F α} {f : α → Prog F β} {n : Nat} {Q : α → Prop} {R : β → Prop} (hm : NP I m n Q)
    (hf : ∀ a n', n ≤ n' → Q a → NP I (f a) n' R) : NP I (m >>= f) n R := np_bind' hm hf

theorem np_loc {α : Type} {m : Go α} {n : Nat} {Q : α → Prop} (h : ∀ p, I.time ≤ p → Go.wp m (fun a _ => Q a) p) : NP I (Prog.loc m : Prog F α) n Q := by
  intro w p hw hl
  obtain ⟨a, p', e, hq⟩ := Go.wp_iff.1 (h p hw.time)
  refine ⟨(a, w), p', ?_, hw.has, .same _ _, Nat.le_refl _, hq⟩
  show (do let r ← m; pure (r, w) : Go (α × World F)) p = _
  simp only [bind, StateT.bind, e, Except.bind]
  rfl

theorem np_lift {α : Type} {m : Except Panic α} {a : α} {n : Nat} (h : m = .ok a) : NP I (Prog.loc (Go.lift m) : Prog F α) n (fun b => b = a) :=
  np_loc (fun p _ => by rw [Go.wp_lift]; exact ⟨a, h, rfl⟩)

theorem np_make {n : Nat} {k : Int} (h : 0 ≤ k) : NP I (Prog.loc (Go.checkMake k) : Prog F Unit) n (fun _ => True) :=
  np_loc (fun p _ => by rw [Go.wp_checkMake]; exact ⟨h, trivial⟩)

theorem np_each {α β : Type} {f : α → Prog F β} {R : α → β → Prop} : ∀ (l : List α) (n : Nat), (∀ a ∈ l, ∀ n', n ≤ n' → NP I (f a) n' (R a)) →
    NP I (Prog.each f l) n (fun r => List.Forall₂ R l r)
  | [], n, _ => List.Forall₂.nil
  | a :: l, n, h => by
    unfold Prog.each
    refine np_bind (h a (by simp) n (Nat.le_refl _)) (fun b n' hn hb => ?_)
    refine np_bind (np_each l n' (fun x hx n'' hn'' => h x (List.mem_cons_of_mem _ hx) n'' (by omega))) (fun bs n'' _ hbs => ?_)
    exact List.Forall₂.cons hb hbs

theorem np_access {β : Type} {f : Manager F → Go (β × Manager F)} {Q : β → Prop}
    (h : ∀ i m p, I.At i m p → Go.wp (f m) (fun r _ => I.Next i m r.2 ∧ Q r.1) p)
    (a : Addr) (ns : NS) (n : Nat) : NP I (Server.access a ns f) n (fun o => ∀ b, o = some b → Q b) := by
  unfold Server.access
  intro w p hw hl
  refine ⟨(w.lookup a ns, w), p, rfl, hw.has, .same _ _, Nat.le_refl _, ?_⟩
  simp only
  cases hi : w.lookup a ns with
  | none => exact fun b hb => by cases hb
  | some i =>
    have hmem : (ns, i) ∈ w.table a := by
      unfold World.lookup at hi
      exact mem_of_lookup hi
    intro w1 p1 hw1 hl1
    have hi1 : i < w1.heap.length := by have := hw.has.points a ns i hmem; omega
    obtain ⟨r, p', e, h1, h2⟩ := Go.wp_iff.1 (h i (w1.heap[i]).2 p1 ⟨hw1.time, hw1.ext _ (List.getElem_mem hi1),
      hw1.has.slots _ _ (List.getElem?_eq_getElem hi1)⟩)
    refine ⟨(r.1, { w1 with heap := w1.heap.set i ((w1.heap[i]).1, r.2) }), p', ?_, ⟨?_, ?_, hw1.has.tab, ?_⟩, ?_, by simp, ?_⟩
    · simp only [Act.run, List.getElem?_eq_getElem hi1]
      simp only [bind, StateT.bind, e, Except.bind]
      rfl
    · intro a' ns' j hj
      simpa using hw1.has.points a' ns' j hj
    · intro j s hs
      simp only [List.getElem?_set] at hs
      split at hs
      · rename_i e; subst e
        cases hs
        exact h1.slot
      · exact hw1.has.slots j s hs
    · simpa using hw1.has.size
    · intro j s hs
      simp only [List.getElem?_set]
      split
      · rename_i e; subst e
        rw [List.getElem?_eq_getElem hi1] at hs
        cases hs
        exact ⟨_, rfl, h1.rel⟩
      · exact ⟨s, hs, I.refl _⟩
    · exact fun b hb => by cases hb; exact h2

theorem np_names (a : Addr) (n : Nat) : NP I (Prog.ofAct (.names a) : Prog F _) n (fun l => ∀ ns, ¬ I.tab a ns none → ns ∈ l) := by
  intro w p hw hl
  refine ⟨(_, w), p, rfl, hw.has, .same _ _, Nat.le_refl _, fun ns hns => ?_⟩
  have h1 := hw.has.tab a ns
  cases hi : w.lookup a ns with
  | none => rw [hi] at h1; exact absurd h1 hns
  | some i =>
    unfold World.lookup at hi
    exact List.mem_map.2 ⟨_, mem_of_lookup hi, rfl⟩

theorem np_addSlot (a : Addr) (ns : NS) {m : Manager F} (hm : ∀ i, I.size ≤ i → I.slot i m) (n : Nat) :
    NP I (Prog.ofAct (.addSlot a ns m) : Prog F _) n (fun _ => True) := by
  intro w p hw hl
  have hw := hw.has
  refine ⟨((), w.addSlot a ns m), p, rfl, ⟨fun b ns' i hi => ?_, fun i s hs => ?_, fun b ns' => ?_, ?_⟩, fun i s hs => ⟨s, ?_, I.refl _⟩, by simp [World.addSlot], trivial⟩
  · simp only [World.addSlot, List.length_append, List.length_singleton] at hi ⊢
    split at hi
    · rcases List.mem_cons.1 hi with hi | hi
      · cases hi; omega
      · have := hw.points a ns' i (List.mem_filter.1 hi).1
        omega
    · have := hw.points b ns' i hi
      omega
  · simp only [World.addSlot, List.getElem?_append] at hs
    split at hs
    · exact hw.slots i s hs
    · rename_i hge
      rw [List.getElem?_singleton] at hs
      split at hs
      · cases hs
        exact hm i (by have := hw.size; omega)
      · cases hs
  · by_cases hb : b = a
    · subst hb
      by_cases hn : ns' = ns
      · subst hn
        rw [lookup_addSlot]
        exact I.fresh _ _ _ hw.size
      · rw [lookup_addSlot_ns w _ _ hn]
        exact hw.tab _ _
    · rw [lookup_addSlot_node w hb]
      exact hw.tab _ _
  · have := hw.size
    simp only [World.addSlot, List.length_append]
    omega
  · simp only [World.addSlot]
    rw [List.getElem?_append_left (List.getElem?_eq_some_iff.1 hs).1]
    exact hs

section
variable {env : Env} (he : EnvLax env)
include he

theorem np_shuffled {α : Type} (l : List α) (n : Nat) : NP I (Prog.loc (env.shuffled l) : Prog F _) n (fun r => r.Perm l) :=
  np_loc (fun p _ => Go.wp_iff.2 ⟨_, _, rfl, reorder_perm (he.perm p l.length)⟩)

theorem np_mapOrder {β : Type} {f : (List (Nat × Nat) → List (Nat × Nat)) → Go β} {Q : β → Nat → Prop} {p : Nat}
    (h : ∀ ord p', p ≤ p' → (∀ l, (ord l).Perm l) → Go.wp (f ord) Q p') : Go.wp (do let ord ← env.mapOrder; f ord) Q p := by
  rw [Go.wp_bind]
  exact Go.wp_iff.2 ⟨_, _, rfl, h _ _ (by omega) (fun l => reorder_perm (he.perm p l.length))⟩

theorem np_call {β : Type} {body : Prog F (Option β)} {Q : β → Prop} (a : Addr) (n : Nat)
    (h : ∀ n', n ≤ n' → NP I body n' (fun o => ∀ b, o = some b → Q b)) : NP I (Client.call env a body) n (fun o => ∀ b, o = some b → Q b) := by
  unfold Client.call
  refine np_bind (np_loc (Q := fun _ => True) (fun p _ => Go.wp_iff.2 ⟨_, _, rfl, trivial⟩)) (fun s n' hn _ => ?_)
  cases s with
  | false => exact np_pure (fun b hb => by cases hb)
  | true =>
    refine np_bind (h n' hn) (fun r n'' _ hr => ?_)
    refine np_bind (np_loc (Q := fun _ => True) (fun p _ => Go.wp_iff.2 ⟨_, _, rfl, trivial⟩)) (fun s n3 _ _ => ?_)
    cases s with
    | false => exact np_pure (fun b hb => by cases hb)
    | true => exact np_pure hr

/-- Calls whose answer is not looked at. -/
theorem np_call' {β γ : Type} {body : Prog F (Option β)} (a : Addr) (n : Nat) (f : Option β → γ)
    (h : ∀ n', n ≤ n' → NP I body n' (fun _ => True)) : NP I (do let r ← Client.call env a body; pure (f r)) n (fun _ => True) :=
  np_bind (np_call he (Q := fun _ => True) a n (fun n' hn => np_mono (Nat.le_refl _) (h n' hn) (fun _ _ _ _ => trivial))) (fun _ _ _ _ => trivial)

theorem np_server_namespaces (a : Addr) (n : Nat) : NP I (Server.namespaces env a : Prog F _) n (fun l => ∀ ns, ¬ I.tab a ns none → ns ∈ l) := by
  unfold Server.namespaces
  exact np_bind (np_names a n) (fun l n' _ hl => np_mono (Nat.le_refl _) (np_shuffled he l n') (fun _ hp ns hns => hp.symm.subset (hl ns hns)))

end

/-- An access whose answer is not looked at. -/
theorem np_access' {β : Type} {f : Manager F → Go (β × Manager F)} (h : ∀ i m p, I.At i m p → Go.wp (f m) (fun r _ => I.Next i m r.2) p)
    (a : Addr) (ns : NS) (n : Nat) : NP I (Server.access a ns f) n (fun _ => True) :=
  np_mono (Nat.le_refl _) (np_access (Q := fun _ => True) (fun i m p hm => Go.wp_mono (h i m p hm) (fun _ _ h => ⟨h, trivial⟩)) a ns n) (fun _ _ => trivial)

theorem np_factory {fac : Factory F} (hf : FacLax fac) : Makes fac (.of MLax) := by
  intro v p _
  unfold Factory.make Manager.new
  simp only [Go.wp_bind, Go.wp_checkMake, Go.wp_pure]
  exact ⟨hf.cap, Nat.zero_le _, trivial, fun _ _ => ⟨hf.cap, hf.knn, hf.kfn, fun c hc => by simp at hc⟩⟩

section
variable {env : Env} (he : EnvLax env) {fac : Factory F} (hf : Makes fac I) [Near I] [Ops env.tk I]

theorem np_server_vec (a : Addr) (ns : NS) (n : Nat) : NP I (Server.vec a ns : Prog F _) n (fun _ => True) :=
  np_access' (fun i m p hm => by rw [Go.wp_pure]; exact .same hm.slot) a ns n

theorem np_server_lenDP (a : Addr) (ns : NS) (n : Nat) : NP I (Server.lenDP a ns : Prog F _) n (fun _ => True) :=
  np_access' (fun i m p hm => by rw [Go.wp_pure]; exact .same hm.slot) a ns n

include hf in
theorem np_server_add (a : Addr) (ns : NS) (d : DataPoint F) (n : Nat) : NP I (Server.addDataPoint env fac a ns d) n (fun _ => True) := by
  unfold Server.addDataPoint
  refine np_bind (np_access' (fun i m p hm => Ops.add i m d p hm) a ns n) (fun o n' _ _ => ?_)
  cases o with
  | some b => exact np_pure trivial
  | none =>
    refine np_bind (np_loc (Q := fun m => ∀ i, I.size ≤ i → I.slot i m) (fun p hp => ?_))
      (fun m n'' _ hm => np_bind (np_addSlot a ns hm n'') (fun _ _ _ _ => np_pure trivial))
    rw [Go.wp_bind]
    refine Go.wp_mono (hf d.vec p hp) (fun m p1 hm => ?_)
    refine wp_all I.size (Nat.le_refl _) (fun i hi => ?_)
    rw [Go.wp_bind]
    exact Go.wp_mono (Ops.add (tk := env.tk) i m d p1 ⟨hm.1, hm.2.1, hm.2.2 i hi⟩) (fun r p2 hr => hr.slot)

theorem np_server_expire (a : Addr) (ns : NS) (n : Nat) : NP I (Server.expire env a ns : Prog F _) n (fun _ => True) :=
  np_access' (fun i m p hm => by rw [Go.wp_bind]; exact Go.wp_mono (Ops.expire i m p hm) (fun _ _ h => h)) a ns n

theorem np_server_memTrim (a : Addr) (ns : NS) (n : Nat) : NP I (Server.memTrim env a ns : Prog F _) n (fun _ => True) :=
  np_access' (fun i m p hm => by rw [Go.wp_bind]; exact Go.wp_mono (Ops.memTrim i m p hm) (fun _ _ h => h)) a ns n

theorem np_server_moveVector (a : Addr) (ns : NS) (n : Nat) : NP I (Server.moveVector env a ns : Prog F _) n (fun _ => True) :=
  np_access' (fun i m p hm => Ops.moveVector i m p hm) a ns n

theorem np_server_split (a : Addr) (ns : NS) (mi ma : Int) (n : Nat) : NP I (Server.splitCentroids env a ns mi ma : Prog F _) n (fun _ => True) :=
  np_access' (fun i m p hm => by rw [Go.wp_bind]; exact Go.wp_mono (Ops.split i m _ p hm) (fun _ _ h => h)) a ns n

theorem np_server_merge (a : Addr) (ns : NS) (mi ma : Int) (n : Nat) : NP I (Server.mergeCentroids env a ns mi ma : Prog F _) n (fun _ => True) :=
  np_access' (fun i m p hm => by rw [Go.wp_bind]; exact Go.wp_mono (Ops.merge i m _ p hm) (fun _ _ h => h)) a ns n

theorem np_server_knnLookup (a : Addr) (ns : NS) (v : List F) {k : Int} (hk : 0 ≤ k) (drain : Bool) (n : Nat) :
    NP I (Server.knnLookup env a ns v k drain : Prog F _) n (fun _ => True) :=
  np_access' (fun i m p hm => Ops.knn i m v k drain p hm hk) a ns n

theorem np_server_nearestCentroids (a : Addr) (ns : NS) (v : List F) {k : Int} (hk : 0 ≤ k) (drain : Bool) (n : Nat) :
    NP I (Server.nearestCentroids a ns v k drain : Prog F _) n (fun o => ∀ l, o = some l → (l.length : Int) ≤ k ∧ ∀ x ∈ l, I.reply x) :=
  np_access (fun i m p hm => by
    rw [Go.wp_bind]
    refine Go.wp_mono (Near.near i m v k drain p hm hk) (fun r _ h => ⟨h.1, ?_⟩)
    cases hr : r.1 with
    | none => simpa using hk
    | some cs => simpa using h.2 cs hr) a ns n

theorem np_server_nearestCentroidVec (a : Addr) (ns : NS) (v : List F) (n : Nat) :
    NP I (Server.nearestCentroidVec a ns v : Prog F _) n (fun _ => True) :=
  np_access' (fun i m p hm => by
    rw [Go.wp_bind]
    refine Go.wp_mono (Near.near i m v 1 false p hm (by decide)) (fun r _ h => ?_)
    split <;> exact h.1) a ns n

include he

theorem np_server_drainUnordered (a : Addr) (ns : NS) {k : Int} (hk : 0 ≤ k) (n : Nat) :
    NP I (Server.drainUnordered env a ns k : Prog F _) n (fun _ => True) :=
  np_access' (fun i m p hm => np_mapOrder he (fun ord p' hp ho => Ops.drainU i m ord k p' (hm.later hp) ho hk)) a ns n

theorem np_server_drainOrdered (a : Addr) (ns : NS) {k : Int} (hk : 0 ≤ k) (n : Nat) :
    NP I (Server.drainOrdered env a ns k : Prog F _) n (fun _ => True) :=
  np_access' (fun i m p hm => np_mapOrder he (fun ord p' hp ho => Ops.drainO i m ord k p' (hm.later hp) ho hk)) a ns n

theorem np_server_distributeInternal (a : Addr) (ns : NS) (k : Int) (n : Nat) :
    NP I (Server.distributeInternal env a ns k : Prog F _) n (fun _ => True) :=
  np_access' (fun i m p hm => np_mapOrder he (fun ord p' hp ho => by
    rw [Go.wp_bind]; exact Go.wp_mono (Ops.internal i m ord k p' (hm.later hp) ho) (fun _ _ h => h))) a ns n

theorem np_server_getMeta (a : Addr) (n : Nat) : NP I (Server.getMeta env a : Prog F _) n (fun _ => True) := by
  unfold Server.getMeta
  refine np_bind (np_server_namespaces he a n) (fun l n' _ _ => ?_)
  refine np_bind (np_each (R := fun _ _ => True) l n' (fun ns _ n'' _ => ?_)) (fun _ _ _ _ => np_pure trivial)
  exact np_bind (np_access' (fun i m p hm => by rw [Go.wp_pure]; exact .same hm.slot) a ns n'') (fun _ _ _ _ => np_pure trivial)

/-! ### Clients -/

theorem np_some {β : Type} {m : Prog F β} {n : Nat} (h : NP I m n (fun _ => True)) : NP I (do let b ← m; pure (some b)) n (fun _ => True) :=
  np_bind h (fun _ _ _ _ => np_pure trivial)

theorem np_client_namespaces (a : Addr) (n : Nat) : NP I (Client.namespaces env a : Prog F _) n (fun _ => True) :=
  np_call' he a n _ (fun n' _ => np_bind (np_server_namespaces he a n') (fun _ _ _ _ => np_pure trivial))

theorem np_client_getMeta (a : Addr) (n : Nat) : NP I (Client.getMeta env a : Prog F _) n (fun _ => True) :=
  np_call' he a n _ (fun n' _ => np_bind (np_server_getMeta he a n') (fun _ _ _ _ => np_pure trivial))

theorem np_callT {β : Type} {body : Prog F (Option β)} (a : Addr) (n : Nat) (h : ∀ n', n ≤ n' → NP I body n' (fun _ => True)) :
    NP I (Client.call env a body) n (fun _ => True) :=
  np_mono (Nat.le_refl _) (np_call he (Q := fun _ => True) a n (fun n' hn => np_mono (Nat.le_refl _) (h n' hn) (fun _ _ _ _ => trivial))) (fun _ _ => trivial)

theorem np_client_vec (a : Addr) (ns : NS) (n : Nat) : NP I (Client.vec env a ns : Prog F _) n (fun _ => True) :=
  np_callT he a n (fun n' _ => np_server_vec a ns n')

theorem np_client_nearestCentroidVec (a : Addr) (ns : NS) (v : List F) (n : Nat) :
    NP I (Client.nearestCentroidVec env a ns v : Prog F _) n (fun _ => True) :=
  np_callT he a n (fun n' _ => np_server_nearestCentroidVec a ns v n')

theorem np_client_lenDP (a : Addr) (ns : NS) (n : Nat) : NP I (Client.lenDP env a ns : Prog F _) n (fun _ => True) :=
  np_call' he a n _ (fun n' _ => np_server_lenDP a ns n')

theorem np_client_knnLookup (a : Addr) (ns : NS) (v : List F) {k : Int} (hk : 0 ≤ k) (drain : Bool) (n : Nat) :
    NP I (Client.knnLookup env a ns v k drain : Prog F _) n (fun _ => True) := by
  unfold Client.knnLookup
  exact np_bind (np_make hk) (fun _ n' _ _ => np_call' he a n' _ (fun n'' _ => np_server_knnLookup a ns v hk drain n''))

include hf in
theorem np_client_add (a : Addr) (ns : NS) (d : DataPoint F) (n : Nat) : NP I (Client.addDataPoint env fac a ns d) n (fun _ => True) :=
  np_call' he a n _ (fun n' _ => np_bind (np_server_add hf a ns d n') (fun _ _ _ _ => np_pure trivial))

theorem np_call_prog (c : EventLoop.Call) (n : Nat) : NP I (c.prog env : Prog F _) n (fun _ => True) := by
  cases c with
  | expire a ns => exact np_call' he a n _ (fun n' _ => np_server_expire a ns n')
  | memTrim a ns => exact np_call' he a n _ (fun n' _ => np_server_memTrim a ns n')
  | distributeInternal a ns k => exact np_call' he a n _ (fun n' _ => np_server_distributeInternal he a ns k n')
  | splitCentroids a ns mi ma => exact np_call' he a n _ (fun n' _ => np_server_split a ns mi ma n')
  | mergeCentroids a ns mi ma => exact np_call' he a n _ (fun n' _ => np_server_merge a ns mi ma n')

theorem np_fetchVecs (addrs : List Addr) {fetch : Addr → Prog F (Option (List F))} (hfetch : ∀ a n, NP I (fetch a) n (fun _ => True)) (n : Nat) :
    NP I (fetchVecs env addrs fetch) n (fun _ => True) := by
  unfold fetchVecs
  refine np_bind (np_shuffled he addrs n) (fun l n' _ _ => ?_)
  refine np_bind (np_each (R := fun _ _ => True) l n' (fun a _ n'' _ => np_bind (hfetch a n'') (fun _ _ _ _ => np_pure trivial))) (fun r n'' _ _ => ?_)
  exact np_bind (np_shuffled he r n'') (fun _ _ _ _ => np_pure trivial)

end

section
variable [LawfulCmp F] {env : Env} (he : EnvLax env) {fac : Factory F} (hf : Makes fac I) [Near I] [Ops env.tk I]

theorem np_reinitAll : ∀ (l : List (List (DataPoint F))) (p : Nat), I.time ≤ p → (∀ x ∈ l, x ≠ []) → (∀ x ∈ l, I.reply x) →
    Go.wp (Client.reinitAll env.tk l) (fun cs _ => ∀ c ∈ cs, I.stolen c) p
  | [], p, _, _, _ => by unfold Client.reinitAll; rw [Go.wp_pure]; exact fun c hc => by simp at hc
  | [] :: l, p, _, h, _ => absurd rfl (h [] (by simp))
  | (d :: ds) :: l, p, hp, h, hr => by
    unfold Client.reinitAll Client.reinit Client.centroidFactory Centroid.new
    simp only [Go.wp_bind, Go.wp_idx]
    refine ⟨d, rfl, ?_⟩
    simp only [Go.wp_checkMake, Go.wp_pure]
    refine ⟨by omega, ?_⟩
    refine Go.wp_mono (Ops.reinit (tk := env.tk) d ds p hp (hr _ (by simp))) (fun r p1 hr1 => ?_)
    refine Go.wp_mono (np_reinitAll l p1 hr1.1 (fun x hx => h x (List.mem_cons_of_mem _ hx)) (fun x hx => hr x (List.mem_cons_of_mem _ hx)))
      (fun cs p2 hcs => ?_)
    intro c hc
    rcases List.mem_cons.1 hc with rfl | hc
    · exact hr1.2
    · exact hcs c hc

include he in
theorem np_client_nearest1 (a : Addr) (ns : NS) (v : List F) (drain : Bool) (n : Nat) :
    NP I (Client.nearestCentroids env a ns v 1 drain : Prog F _) n (fun r => ∀ cs, r.2 = some cs → ∀ c ∈ cs, I.stolen c) := by
  unfold Client.nearestCentroids
  refine np_bind (np_call he a n (fun n' _ => np_server_nearestCentroids a ns v (by decide) drain n')) (fun r n' _ hr => ?_)
  refine np_bind (np_loc (Q := fun o => ∀ cs, o = some cs → ∀ c ∈ cs, I.stolen c) (fun p hp => ?_)) (fun o _ _ ho => np_pure ho)
  unfold Client.unpack
  rw [Go.wp_ite]
  refine ⟨fun _ => by rw [Go.wp_pure]; exact fun cs h => (nomatch h), fun hl => ?_⟩
  rw [Go.wp_bind]
  cases r with
  | none => simp at hl
  | some l =>
    have h1 := hr l rfl
    match l, h1, hl with
    | [x], h1, _ =>
      have key : ∀ y ∈ Client.dropEmpty [x], y ≠ [] ∧ I.reply y := by
        intro y hy
        cases x with
        | nil => simp [Client.dropEmpty] at hy
        | cons z zs => simp [Client.dropEmpty] at hy; rw [hy]; exact ⟨by simp, h1.2 _ (by simp)⟩
      exact Go.wp_mono (np_reinitAll _ p hp (fun y hy => (key y hy).1) (fun y hy => (key y hy).2))
        (fun cs _ hcs => by rw [Go.wp_pure]; exact fun cs' h => by cases h; exact hcs)
    | x :: y :: l, h1, _ => have := h1.1; simp at this; omega
    | [], _, hl => simp at hl

theorem np_append (hg : Grows I) (a : Addr) (ns : NS) {cs : List (Centroid F)} (h : ∀ c ∈ cs, I.stolen c) (k : Nat) (n : Nat) :
    NP I (Server.access a ns (fun m => pure (k, { m with centroids := m.centroids ++ cs }))) n (fun _ => True) :=
  np_access' (fun i m p hm => by rw [Go.wp_pure]; exact hg i m cs p hm h) a ns n

include he in
theorem np_stealLoop (hg : Grows I) (a : Addr) (ns : NS) (src : Addr) (v : List F) (limit : Int) : ∀ (fuel k n : Nat),
    NP I (Server.stealLoop env a ns src v limit fuel k : Prog F _) n (fun _ => True)
  | 0, k, n => np_pure trivial
  | fuel + 1, k, n => by
    unfold Server.stealLoop
    split
    · refine np_bind (np_client_nearest1 he src ns v true n) (fun q n' _ hq => ?_)
      match hq2 : q.2 with
      | none => exact np_pure trivial
      | some [] => exact np_pure trivial
      | some (c :: cs) =>
        refine np_bind (np_append hg a ns (hq _ hq2) c.lenDP n') (fun o n'' _ _ => ?_)
        exact np_stealLoop hg a ns src v limit fuel _ n''
    · exact np_pure trivial

include he in
theorem np_stealWith (hg : Grows I) (fuel : Nat) (a : Addr) (ns : NS) (src : Addr) (limit : Int) (v : List F) (n : Nat) :
    NP I (Server.stealWith env fuel a ns src limit v : Prog F _) n (fun _ => True) := by
  unfold Server.stealWith
  refine np_bind (np_stealLoop he hg a ns src v limit fuel 0 n) (fun q n' _ _ => ?_)
  exact np_bind (np_server_moveVector a ns n') (fun _ _ _ _ => np_pure trivial)

include he hf in
theorem np_server_steal (hg : Grows I) (fuel : Nat) (a : Addr) (ns : NS) (src : Addr) (limit : Int) (n : Nat) :
    NP I (Server.stealCentroid env fac fuel a ns src limit) n (fun _ => True) := by
  unfold Server.stealCentroid
  refine np_bind (np_server_vec a ns n) (fun v n' _ _ => ?_)
  split
  · exact np_stealWith he hg fuel a ns src limit _ n'
  · refine np_bind (np_client_vec he src ns n') (fun rv n'' _ _ => ?_)
    split
    · exact np_pure trivial
    · refine np_bind (np_loc (Q := fun m => ∀ i, I.size ≤ i → I.slot i m) (fun p hp => Go.wp_mono (hf _ p hp) (fun m _ h => h.2.2))) (fun m n3 _ hm => ?_)
      exact np_bind (np_addSlot a ns hm n3) (fun _ n4 _ _ => np_stealWith he hg fuel a ns src limit _ n4)

include he hf in
theorem np_client_steal (hg : Grows I) (fuel : Nat) (a : Addr) (ns : NS) (src : Addr) (limit : Int) (n : Nat) :
    NP I (Client.stealCentroids env fac fuel a ns src limit) n (fun _ => True) := by
  unfold Client.stealCentroids
  refine np_bind (np_callT he a n (fun n' _ => np_bind (np_server_steal he hf hg fuel a ns src limit n') (fun _ _ _ _ => np_pure trivial))) (fun r n' _ _ => ?_)
  cases r <;> exact np_pure trivial

include he hf in
theorem np_distributeTo (ns : NS) (addrs : List Addr) (d : DataPoint F) : ∀ (is : List Nat) (n : Nat), (∀ i ∈ is, i < addrs.length) →
    NP I (Server.distributeTo env fac ns addrs d is) n (fun _ => True)
  | [], n, _ => np_pure trivial
  | i :: is, n, h => by
    unfold Server.distributeTo
    refine np_bind (np_loc (Q := fun _ => True) (fun p _ => by rw [Go.wp_idx]; exact ⟨_, List.getElem?_eq_getElem (h i (by simp)), trivial⟩)) (fun a n' _ _ => ?_)
    refine np_bind (np_client_add he hf a ns d n') (fun b n'' _ _ => ?_)
    cases b with
    | true => exact np_pure trivial
    | false => exact np_distributeTo ns addrs d is n'' (fun j hj => h j (List.mem_cons_of_mem _ hj))

include he hf in
theorem np_distributeDP (ns : NS) (remote : List (Addr × List F)) (d : DataPoint F) (n : Nat) :
    NP I (Server.distributeDP env fac ns remote d) n (fun _ => True) := by
  unfold Server.distributeDP
  obtain ⟨is, e, _, h2, _⟩ := (prefabs_goodSearch (F := F)).1 d.vec (remote.map (fun q => q.2)) remote.length (by omega)
  refine np_bind (np_lift e) (fun is' n' _ h => ?_)
  subst h
  exact np_distributeTo he hf ns _ d _ n' (fun i hi => by simpa using h2 i hi)

theorem np_putBack (a : Addr) (ns : NS) (d : DataPoint F) (n : Nat) : NP I (Server.putBack env a ns d : Prog F _) n (fun _ => True) :=
  np_bind (np_access' (fun i m p hm => Ops.add i m d p hm) a ns n) (fun _ _ _ _ => np_pure trivial)

include he hf in
theorem np_distributeFastLoop (a : Addr) (ns : NS) (remote : List (Addr × List F)) : ∀ (ds : List (DataPoint F)) (n : Nat),
    NP I (Server.distributeFastLoop env fac a ns remote ds) n (fun _ => True)
  | [], n => np_pure trivial
  | d :: ds, n => by
    unfold Server.distributeFastLoop
    refine np_bind (np_distributeDP he hf ns remote d n) (fun b n' _ _ => ?_)
    cases b with
    | true => exact np_distributeFastLoop a ns remote ds n'
    | false => exact np_bind (np_putBack a ns d n') (fun _ n'' _ _ => np_distributeFastLoop a ns remote ds n'')

include he hf in
theorem np_distributeAccurateLoop (a : Addr) (ns : NS) (addrs : List Addr) : ∀ (ds : List (DataPoint F)) (n : Nat),
    NP I (Server.distributeAccurateLoop env fac a ns addrs ds) n (fun _ => True)
  | [], n => np_pure trivial
  | d :: ds, n => by
    unfold Server.distributeAccurateLoop
    refine np_bind (np_fetchVecs he addrs (fun b n => np_client_nearestCentroidVec he b ns d.vec n) n) (fun remote n1 _ _ => ?_)
    refine np_bind (np_distributeDP he hf ns remote d n1) (fun b n' _ _ => ?_)
    cases b with
    | true => exact np_distributeAccurateLoop a ns addrs ds n'
    | false => exact np_bind (np_putBack a ns d n') (fun _ n'' _ _ => np_distributeAccurateLoop a ns addrs ds n'')

include he hf in
theorem np_server_distributeFast (a : Addr) (ns : NS) {k : Int} (hk : 0 ≤ k) (addrs : List Addr) (n : Nat) :
    NP I (Server.distributeFast env fac a ns k addrs) n (fun _ => True) := by
  unfold Server.distributeFast
  refine np_bind (np_make hk) (fun _ n' _ _ => np_bind (np_server_drainOrdered he a ns hk n') (fun o n'' _ _ => ?_))
  cases o with
  | none => exact np_pure trivial
  | some ds =>
    simp only
    split
    · exact np_pure trivial
    · refine np_bind (np_fetchVecs he addrs (fun b n => np_client_vec he b ns n) n'') (fun remote n1 _ _ => ?_)
      exact np_bind (np_distributeFastLoop he hf a ns remote ds n1) (fun _ _ _ _ => np_pure trivial)

include he hf in
theorem np_server_distributeAccurate (a : Addr) (ns : NS) {k : Int} (hk : 0 ≤ k) (addrs : List Addr) (n : Nat) :
    NP I (Server.distributeAccurate env fac a ns k addrs) n (fun _ => True) := by
  unfold Server.distributeAccurate
  refine np_bind (np_make hk) (fun _ n' _ _ => np_bind (np_server_drainOrdered he a ns hk n') (fun o n'' _ _ => ?_))
  cases o with
  | none => exact np_pure trivial
  | some ds =>
    simp only
    split
    · exact np_pure trivial
    · exact np_bind (np_distributeAccurateLoop he hf a ns addrs ds n'') (fun _ _ _ _ => np_pure trivial)

/-! ### Requests -/

theorem np_answer {β : Type} {g : β → Answer F} {m : Prog F (Option β)} {n : Nat} {Q : Option β → Prop} (h : NP I m n Q) :
    NP I (answer g m) n (fun _ => True) := by
  unfold answer
  refine np_bind h (fun o _ _ _ => ?_)
  cases o <;> exact np_pure trivial

include he hf in
theorem np_request {r : Request F} (hg : r.steals → Grows I) (hr : r.counts) (n : Nat) : NP I (r.serve env fac) n (fun _ => True) := by
  cases r with
  | add a ns d => exact np_bind (np_server_add hf a ns d n) (fun _ _ _ _ => np_pure trivial)
  | vec a ns => exact np_answer (np_server_vec a ns n)
  | lenDP a ns => exact np_answer (np_server_lenDP a ns n)
  | drainUnordered a ns k => exact np_answer (np_server_drainUnordered he a ns hr n)
  | drainOrdered a ns k => exact np_answer (np_server_drainOrdered he a ns hr n)
  | expire a ns => exact np_answer (np_server_expire a ns n)
  | memTrim a ns => exact np_answer (np_server_memTrim a ns n)
  | moveVector a ns => exact np_answer (np_server_moveVector a ns n)
  | distributeInternal a ns k => exact np_answer (np_server_distributeInternal he a ns k n)
  | distributeFast a ns k addrs => exact np_answer (np_server_distributeFast he hf a ns hr addrs n)
  | distributeAccurate a ns k addrs => exact np_answer (np_server_distributeAccurate he hf a ns hr addrs n)
  | knnLookup a ns v k drain => exact np_answer (np_server_knnLookup a ns v hr drain n)
  | nearestCentroids a ns v k drain => exact np_answer (np_server_nearestCentroids a ns v hr drain n)
  | nearestCentroidVec a ns v => exact np_answer (np_server_nearestCentroidVec a ns v n)
  | splitCentroids a ns mi ma => exact np_answer (np_server_split a ns mi ma n)
  | mergeCentroids a ns mi ma => exact np_answer (np_server_merge a ns mi ma n)
  | stealCentroid a ns src limit fuel => exact np_bind (np_server_steal he hf (hg trivial) fuel a ns src limit n) (fun _ _ _ _ => np_pure trivial)

/-! ### Putting and querying -/

theorem np_pick (addrs : List Addr) : ∀ (is : List Nat) (p : Nat), (∀ i ∈ is, i < addrs.length) → Go.wp (pick addrs is) (fun _ _ => True) p
  | [], p, _ => trivial
  | i :: is, p, h => by
    unfold pick
    simp only [Go.wp_bind, Go.wp_idx]
    exact ⟨_, List.getElem?_eq_getElem (h i (by simp)), Go.wp_mono (np_pick addrs is p (fun j hj => h j (by simp [hj]))) (fun _ _ _ => trivial)⟩

include he in
theorem np_bestFit (addrs : List Addr) (v : List F) {fetch : Addr → Prog F (Option (List F))} (hfetch : ∀ a n, NP I (fetch a) n (fun _ => True)) (n : Nat) :
    NP I (Nodes.bestFitNodes env knnCos addrs v fetch) n (fun _ => True) := by
  unfold Nodes.bestFitNodes
  refine np_bind (np_fetchVecs he addrs hfetch n) (fun rsp n' _ _ => np_loc (fun p _ => ?_))
  rw [Go.wp_bind, Go.wp_lift]
  obtain ⟨is, e, _, h2, _⟩ := (prefabs_goodSearch (F := F)).1 v (rsp.map (fun q => q.2)) rsp.length (by omega)
  exact ⟨is, e, np_pick _ is p (fun i hi => by simpa using h2 i hi)⟩

theorem np_shuffleFrom {env : Env} (he : EnvLax env) {m : Nat} : ∀ (k i : Nat) (l : List Addr) (p : Nat), l.length = m → i + k ≤ m →
    Go.wp (Dps.shuffleFrom env m k i l) (fun _ _ => True) p
  | 0, i, l, p, _, _ => by unfold Dps.shuffleFrom; rw [Go.wp_pure]; trivial
  | k + 1, i, l, p, hl, hi => by
    unfold Dps.shuffleFrom
    rw [Go.wp_bind]
    refine Go.wp_iff.2 ⟨_, _, rfl, ?_⟩
    unfold Dps.swap
    have h1 : i < l.length := by omega
    have h2 : env.rand p m < l.length := by rw [hl]; exact he.rand p m (by omega)
    simp only [Go.wp_bind, Go.wp_idx, Go.wp_pure]
    refine ⟨_, List.getElem?_eq_getElem h1, _, List.getElem?_eq_getElem h2, ?_⟩
    exact np_shuffleFrom he k (i + 1) _ _ (by simpa using hl) (by omega)

include he hf in
theorem np_put (ns : NS) (d : DataPoint F) : ∀ (addrs : List Addr) (n : Nat), NP I (Dps.putDataPoint env fac ns d addrs) n (fun _ => True)
  | [], n => np_pure trivial
  | a :: as, n => by
    unfold Dps.putDataPoint
    refine np_bind (np_client_add he hf a ns d n) (fun b n' _ _ => ?_)
    cases b with
    | true => exact np_pure trivial
    | false => exact np_put ns d as n'

include he in
theorem np_getFrom (ns : NS) (v : List F) {k : Int} (hk : 0 ≤ k) (drain : Bool) : ∀ (addrs : List Addr) (res : List (DataPoint F)) (n : Nat),
    (res.length : Int) ≤ k → NP I (Dps.getFrom env ns v k drain addrs res) n (fun _ => True)
  | [], res, n, _ => np_pure trivial
  | a :: as, res, n, h => by
    unfold Dps.getFrom
    refine np_bind (np_client_knnLookup he a ns v (by omega) drain n) (fun l n' _ _ => ?_)
    split
    · exact np_pure trivial
    · exact np_getFrom ns v hk drain as _ n' (by omega)

include he in
theorem np_getDataPoints (addrs : List Addr) (ns : NS) (v : List F) {k : Int} (hk : 0 ≤ k) (drain : Bool) (n : Nat) :
    NP I (Dps.getDataPoints env addrs ns v k drain) n (fun _ => True) := by
  unfold Dps.getDataPoints
  exact np_bind (np_make hk) (fun _ n' _ _ => np_getFrom he ns v hk drain addrs [] n' (by simpa using hk))

include he hf in
theorem np_api_put (addrs : List Addr) (o : Option (Api.PutOpts F)) (n : Nat) : NP I (Api.putDataPoint env fac addrs o) n (fun _ => True) := by
  unfold Api.putDataPoint
  cases o with
  | none => exact np_pure trivial
  | some o =>
    simp only
    refine np_bind (Q := fun _ => True) ?_ (fun b n' _ _ => np_bind (Q := fun _ => True) ?_ (fun _ _ _ _ => np_pure trivial))
    · split
      · exact np_bind (np_bestFit he addrs _ (fun a n => np_client_nearestCentroidVec he a o.ns _ n) n) (fun l n' _ _ => np_put he hf o.ns _ l n')
      · exact np_bind (np_bestFit he addrs _ (fun a n => np_client_vec he a o.ns n) n) (fun l n' _ _ => np_put he hf o.ns _ l n')
    · cases b with
      | true => exact np_pure trivial
      | false =>
        unfold Dps.putDataPointRand
        simp only [Bool.false_eq_true, if_false]
        refine np_bind (np_loc (Q := fun _ => True) (fun p _ => ?_)) (fun l n' _ _ => np_put he hf o.ns _ l n')
        exact np_shuffleFrom he _ 0 addrs p rfl (by omega)

include he in
theorem np_api_query (addrs : List Addr) (o : Option (Api.QueryOpts F)) (ho : ∀ q, o = some q → 0 ≤ q.n) (n : Nat) :
    NP I (Api.queryDataPoint env addrs o) n (fun _ => True) := by
  unfold Api.queryDataPoint
  cases o with
  | none => exact np_pure trivial
  | some o =>
    simp only
    refine np_bind (Q := fun _ => True) ?_ (fun b n' _ _ => np_pure trivial)
    split
    · exact np_bind (np_bestFit he addrs _ (fun a n => np_client_nearestCentroidVec he a o.ns _ n) n) (fun l n' _ _ => np_getDataPoints he l o.ns _ (ho o rfl) _ n')
    · exact np_bind (np_bestFit he addrs _ (fun a n => np_client_vec he a o.ns n) n) (fun l n' _ _ => np_getDataPoints he l o.ns _ (ho o rfl) _ n')

/-! ### The event loop -/

include he in
theorem np_namespaceTable (remotes : List Addr) (n : Nat) : NP I (namespaceTable env remotes : Prog F _) n (fun t =>
    (∀ ns ∈ t.map (fun e => e.1), addrsWithNamespace t ns ≠ []) ∧ (remotes = [] → t.map (fun e => e.1) = [])) := by
  unfold namespaceTable
  refine np_bind (np_each (R := fun _ _ => True) remotes n (fun a _ n' _ => np_bind (np_client_namespaces he a n') (fun _ _ _ _ => np_pure trivial)))
    (fun replies n' _ hr => np_pure ?_)
  obtain ⟨_, k2, k3⟩ := C54_table replies
  refine ⟨fun ns hns => ?_, fun h0 => ?_⟩
  · obtain ⟨r, hr1, hr2⟩ := (k2 ns).1 hns
    rw [k3 ns]
    intro hnil
    unfold reporters at hnil
    rw [List.flatMap_eq_nil_iff] at hnil
    have := hnil r hr1
    simp only [List.replicate_eq_nil_iff, List.count_eq_zero] at this
    exact this hr2
  · subst h0
    cases hr
    rfl

include he in
theorem np_fetchLens {addrs : List Addr} (ha : addrs ≠ []) (ns : NS) (n : Nat) : NP I (fetchLens env addrs ns : Prog F _) n (fun lens => lens ≠ []) := by
  unfold fetchLens
  refine np_bind (np_shuffled he addrs n) (fun started n' _ hst => ?_)
  refine np_bind (np_each (R := fun _ _ => True) started n' (fun a _ n'' _ => np_bind (np_client_lenDP he a ns n'') (fun _ _ _ _ => np_pure trivial)))
    (fun answers n'' _ hans => ?_)
  refine np_bind (np_shuffled he answers n'') (fun arrived _ _ har => np_pure ?_)
  obtain ⟨_, g2, _⟩ := fold_lens arrived [] (by simp)
  have hne : arrived ≠ [] := by
    intro h
    have h1 := har.length_eq
    have h2 := hst.length_eq
    rw [← hans.length_eq, h] at h1
    rw [← h1] at h2
    exact ha (List.length_eq_zero_iff.1 h2.symm)
  obtain ⟨q, hq⟩ := List.exists_mem_of_ne_nil _ hne
  intro h
  have := (g2 q.1).2 (.inl (List.mem_map_of_mem hq))
  rw [h] at this; simp at this

theorem np_balanceLoop {steal : Addr → Int → Prog F Int} (hs : ∀ a k n, NP I (steal a k) n (fun _ => True)) {nRemotes : Nat} (hr : nRemotes ≠ 0)
    (nAddrs : Nat) (loc : Addr) (mean mar : Int) : ∀ (keys : List Addr) (lens : Lens) (n : Nat),
    NP I (balanceLoop steal nRemotes nAddrs loc mean mar keys lens) n (fun _ => True)
  | [], lens, n => np_pure trivial
  | other :: rest, lens, n => by
    unfold balanceLoop
    obtain ⟨o, ho⟩ : ∃ o, want nRemotes nAddrs loc mean mar lens other (lens.get other) = .ok o := by
      unfold want
      simp only [hr, if_false]
      split
      · exact ⟨_, rfl⟩
      · split
        · exact ⟨_, rfl⟩
        · split
          · exact ⟨_, rfl⟩
          · split <;> exact ⟨_, rfl⟩
    refine np_bind (np_lift ho) (fun o' n' _ _ => ?_)
    cases o' with
    | none => exact np_balanceLoop hs hr nAddrs loc mean mar rest lens n'
    | some k =>
      refine np_bind (hs other k n') (fun got n'' _ _ => ?_)
      exact np_bind (np_balanceLoop hs hr nAddrs loc mean mar rest _ n'') (fun _ _ _ _ => np_pure trivial)

include he in
theorem np_balance {steal : Addr → Int → Prog F Int} (hs : ∀ a k n, NP I (steal a k) n (fun _ => True)) {nRemotes : Nat} (hr : nRemotes ≠ 0)
    (nAddrs : Nat) (loc : Addr) {lens : Lens} (hl : lens ≠ []) (n : Nat) : NP I (balance env steal nRemotes nAddrs loc lens) n (fun _ => True) := by
  unfold balance
  have hm : meanOf lens = .ok ((total lens).tdiv lens.length) := by
    unfold meanOf
    rw [if_neg (by simpa using hl)]
  refine np_bind (np_lift hm) (fun mean n' _ _ => np_bind (np_shuffled he _ n') (fun keys n'' _ _ => ?_))
  exact np_balanceLoop hs hr nAddrs loc mean _ keys lens n''

include he hf in
theorem np_task (fuel : Nat) {cfg : Config} (h1 : 0 ≤ cfg.fastN) (h2 : 0 ≤ cfg.accurateN) (t : TaskId) (hg : t = .loadBalancing → Grows I) (n : Nat) :
    NP I (EventLoop.task env fac fuel cfg t) n (fun _ => True) := by
  have hst : ∀ f, NP I (startAll env cfg f : Prog F _) n (fun _ => True) := fun f =>
    np_bind (np_client_namespaces he cfg.loc n) (fun _ _ _ _ => np_pure trivial)
  have hwa : ∀ task : NS → List Addr → Prog F Unit, (∀ ns addrs n, NP I (task ns addrs) n (fun _ => True)) → NP I (withAddrs env cfg task) n (fun _ => True) := by
    intro task ht
    unfold withAddrs
    refine np_bind (np_client_namespaces he cfg.loc n) (fun l n' _ _ => ?_)
    refine np_bind (np_each (R := fun _ _ => True) l n' (fun ns _ n'' _ => ?_)) (fun _ _ _ _ => np_pure trivial)
    exact np_bind (np_namespaceTable he cfg.remotes n'') (fun t n3 _ _ => ht ns _ n3)
  cases t with
  | getMeta =>
    unfold EventLoop.task
    refine np_bind (np_each (R := fun _ _ => True) _ n (fun a _ n' _ => np_bind (np_client_getMeta he a n') (fun _ _ _ _ => np_pure trivial)))
      (fun _ _ _ _ => np_pure trivial)
  | expire => exact hst _
  | memTrim => exact hst _
  | merge => exact hst _
  | split => exact hst _
  | distInternal => exact hst _
  | distFast => exact hwa (fun ns addrs => Client.distributeFast env fac cfg.loc ns addrs cfg.fastN) (fun ns addrs n => np_call' he _ n _ (fun n' _ => np_server_distributeFast he hf _ ns h1 addrs n'))
  | distAccurate => exact hwa (fun ns addrs => Client.distributeAccurate env fac cfg.loc ns addrs cfg.accurateN) (fun ns addrs n => np_call' he _ n _ (fun n' _ => np_server_distributeAccurate he hf _ ns h2 addrs n'))
  | loadBalancing =>
    unfold EventLoop.task
    refine np_bind (np_namespaceTable he cfg.remotes n) (fun t n' _ ht => ?_)
    refine np_bind (np_shuffled he _ n') (fun nss n'' _ hns => ?_)
    refine np_bind (np_each (R := fun _ _ => True) nss n'' (fun ns hn n3 _ => ?_)) (fun _ _ _ _ => np_pure trivial)
    have hm := hns.subset hn
    refine np_bind (Q := fun _ => True) ?_ (fun _ _ _ _ => np_pure trivial)
    unfold balanceNamespace
    refine np_bind (np_fetchLens he (ht.1 ns hm) ns n3) (fun lens n4 _ hl => ?_)
    refine np_bind (np_balance he (fun a k n => ?_) (fun h => ?_) _ cfg.loc hl n4) (fun _ _ _ _ => np_pure trivial)
    · exact np_bind (np_client_steal he hf (hg rfl) fuel cfg.loc ns a k n) (fun _ _ _ _ => np_pure trivial)
    · rw [ht.2 (List.length_eq_zero_iff.1 h)] at hm
      simp at hm

include he hf in
theorem np_loop (hg : Grows I) (fuel : Nat) {cfg : Config} (h1 : 0 ≤ cfg.fastN) (h2 : 0 ≤ cfg.accurateN) {skip : SkipConfig} (hs : ∀ t, skip.interval t ≠ 0) :
    ∀ (k : Nat) (iter : Int) (n : Nat), NP I (EventLoop.loop env fac fuel cfg skip k iter) n (fun _ => True)
  | 0, iter, n => np_pure trivial
  | k + 1, iter, n => by
    unfold EventLoop.loop oneIteration
    refine np_bind (np_each (R := fun _ _ => True) order n (fun t _ n' _ => ?_)) (fun l n' _ _ => ?_)
    · unfold EventLoop.turn
      have hw : withSkip iter (skip.interval t) = .ok (decide (iter.tmod (skip.interval t) = 0)) := by
        unfold withSkip; rw [if_neg (hs t)]
      refine np_bind (np_lift hw) (fun b n'' _ _ => ?_)
      cases b with
      | false => exact np_pure trivial
      | true => exact np_task he hf fuel h1 h2 t (fun _ => hg) n''
    · exact np_bind (np_loop hg fuel h1 h2 hs k _ n') (fun _ _ _ _ => np_pure trivial)

include he hf in
theorem np_job {j : Job F} (hg : j.steals → Grows I) (hj : j.counts) (n : Nat) : NP I (j.prog env fac) n (fun _ => True) := by
  cases j with
  | rpc r => exact np_bind (np_request he hf hg hj n) (fun _ _ _ _ => np_pure trivial)
  | call c => exact np_bind (np_call_prog he c n) (fun _ _ _ _ => np_pure trivial)
  | put addrs body => exact np_bind (np_api_put he hf addrs body n) (fun _ _ _ _ => np_pure trivial)
  | query addrs body =>
    refine np_bind (np_api_query he addrs body (fun q hq => ?_) n) (fun _ _ _ _ => np_pure trivial)
    subst hq
    exact hj
  | task cfg fuel t => exact np_bind (np_task he hf fuel hj.1 hj.2 t hg n) (fun _ _ _ _ => np_pure trivial)
  | loop cfg fuel skip k iter => exact np_bind (np_loop he hf (hg trivial) fuel hj.1.1 hj.1.2 hj.2 k iter n) (fun _ _ _ _ => np_pure trivial)

end

theorem np_pool {I : Manager F → Prop} {α : Type} : ∀ (sched : List Nat) (ts : List (Prog F α)) (w : World F) (p : Nat), WHas (.of I) w →
    (∀ t ∈ ts, NP (.of I) t w.heap.length (fun _ => True)) →
    ∃ ts' w' p', Pool.run sched ts w p = .ok (ts', w', p') ∧ WHas (.of I) w' ∧ ts'.length = ts.length ∧ w.heap.length ≤ w'.heap.length
  | [], ts, w, p, hw, _ => ⟨ts, w, p, rfl, hw, rfl, Nat.le_refl _⟩
  | i :: is, ts, w, p, hw, h => by
    unfold Pool.run
    cases hi : ts[i]? with
    | none => exact np_pool is ts w p hw h
    | some t =>
      have ht := h t (List.mem_of_getElem? hi)
      cases t with
      | ret a => exact np_pool is ts w p hw h
      | act a k =>
        obtain ⟨r, p', e, h1, _, h2, h3⟩ := ht w p (ready_of hw p) (Nat.le_refl _)
        simp only [e]
        obtain ⟨ts', w', p'', e', g1, g2, g3⟩ := np_pool is (ts.set i (k r.1)) r.2 p' h1 (fun t ht => by
          rcases List.mem_or_eq_of_mem_set ht with ht | rfl
          · exact np_mono h2 (h t ht) (fun _ h => h)
          · exact h3)
        exact ⟨ts', w', p'', e', g1, by rw [g2]; simp, by omega⟩

/-! ### The two invariants -/

theorem next_of {I : Manager F → Prop} {i : Nat} {m m' : Manager F} (h : I m') : (Cond.of I).Next i m m' := ⟨h, trivial⟩

theorem whas_of {I : Manager F → Prop} {w : World F} :
    WHas (.of I) w ↔ (∀ a ns i, (ns, i) ∈ w.table a → i < w.heap.length) ∧ ∀ s ∈ w.heap, I s.2 :=
  ⟨fun h => ⟨h.points, fun s hs => by
      obtain ⟨i, hi, rfl⟩ := List.mem_iff_getElem.1 hs
      exact h.slots i _ (List.getElem?_eq_getElem hi)⟩,
    fun h => ⟨h.1, fun i s hs => h.2 s (List.mem_of_getElem? hs), fun _ _ => trivial, Nat.zero_le _⟩⟩

instance : Near (F := F) (.of MLax) :=
  ⟨fun i m v n drain p hm hn => Go.wp_mono (Manager.np_nearestCentroids hm.slot v hn drain p) (fun _ _ h => ⟨next_of h.1, fun cs hc => ⟨h.2 cs hc, fun _ _ => trivial⟩⟩)⟩

theorem lax_reinit (tk : Nat → Int) [LawfulCmp F] (d : DataPoint F) (ds : List (DataPoint F)) (p : Nat) :
    Go.wp (Centroid.moveVector tk ⟨d.vec, d :: ds, knnCos, kfnCos⟩) (fun r p' => 0 ≤ p' ∧ CLax r.2) p :=
  Go.wp_mono (Centroid.np_moveVector tk _ p) (fun r _ hr => ⟨Nat.zero_le _, hr.lax ⟨prefabs_goodSearch.1, prefabs_goodSearch.2.1⟩⟩)

instance [LawfulCmp F] (tk : Nat → Int) : Ops (F := F) tk (.of MLax) where
  add := fun i m d p hm => Go.wp_mono (Manager.np_mAdd tk hm.slot d p) (fun _ _ h => next_of h)
  expire := fun i m p hm => Go.wp_mono (Manager.np_mExpire tk hm.slot p) (fun _ _ h => next_of h)
  memTrim := fun i m p hm => Go.wp_mono (Manager.np_mMemTrim tk hm.slot p) (fun _ _ h => next_of h)
  moveVector := fun i m p hm => Go.wp_mono (Manager.np_mMoveVector tk hm.slot p) (fun _ _ h => next_of h)
  split := fun i m f p hm => Go.wp_mono (Manager.np_splitCentroids tk hm.slot f p) (fun _ _ h => next_of h)
  merge := fun i m f p hm => Go.wp_mono (Manager.np_mergeCentroids tk hm.slot f p) (fun _ _ h => next_of h)
  knn := fun i m v k drain p hm hk => Go.wp_mono (Manager.np_mKnnLookup tk hm.slot v hk drain p) (fun _ _ h => next_of h)
  drainU := fun i m ord n p hm ho hn => Go.wp_mono (Manager.np_mDrainUnordered tk ho hm.slot hn p) (fun _ _ h => next_of h)
  drainO := fun i m ord n p hm ho hn => Go.wp_mono (Manager.np_mDrainOrdered tk ho hm.slot hn p) (fun _ _ h => next_of h)
  internal := fun i m ord n p hm ho => Go.wp_mono (Manager.np_mDistributeInternal tk ho hm.slot n p) (fun _ _ h => next_of h)
  reinit := fun d ds p _ _ => lax_reinit tk d ds p

theorem lax_grows : Grows (F := F) (.of MLax) := fun i m cs p hm h => next_of <| Manager.lax_centroids hm.slot (Manager.AllLax.append hm.slot.cs h)

theorem whas_lax {w : World F} : WHas (.of MLax) w ↔ WLax w := ⟨fun h => ⟨(whas_of.1 h).1, (whas_of.1 h).2⟩, fun h => whas_of.2 ⟨h.1, h.2⟩⟩

/-- A clock that does not run backwards, as a class. -/
class Mono (tk : Nat → Int) : Prop where
  mono : MonoClock tk

/-- What a method of `ManagerCall` does to a consistent manager. -/
theorem wf_call {tk : Nat → Int} [h : Mono tk] {m : Manager F} (hm : m.WF) (o : ManagerCall F) (ho : o.valid) (p : Nat) :
    Go.wp (o.run tk ⟨m, [], []⟩) (fun w _ => w.cm.WF) p :=
  Go.wp_mono (Manager.wp_managerCall h.mono ⟨m, [], []⟩ hm o ho p) (fun _ _ hr => hr.choose_spec.choose_spec.2.2.1.wf)

instance : Near (F := F) (.of Manager.WF) where
  near := fun i m v n drain p hm hn => by
    have hm : m.WF := hm.slot
    have h1 : MLax m := ⟨hm.cap, hm.good.1, hm.good.2, fun c hc => by
      obtain ⟨e1, e2⟩ := hm.search c hc
      exact ⟨e1 ▸ hm.good.1, e2 ▸ hm.good.2⟩⟩
    have h2 := wf_call (tk := fun _ => 0) (h := ⟨fun _ _ _ => Int.le_refl _⟩) hm (.nearestCentroids v n drain) hn p
    simp only [ManagerCall.run, Go.wp_bind, Go.wp_pure] at h2
    refine Go.wp_and (Go.wp_mono h2 (fun _ _ h => next_of h)) (Go.wp_mono (Manager.np_nearestCentroids h1 v hn drain p) (fun _ _ h cs hc => ⟨h.2 cs hc, fun _ _ => trivial⟩))

instance [LawfulCmp F] (tk : Nat → Int) [h : Mono tk] : Ops (F := F) tk (.of Manager.WF) where
  add := fun i m d p hm => by
    have := wf_call (tk := tk) hm.slot (.add d) trivial p
    simp only [ManagerCall.run, Go.wp_bind, Go.wp_pure] at this
    exact Go.wp_mono this (fun _ _ h => next_of h)
  expire := fun i m p hm => by
    have := wf_call (tk := tk) hm.slot .expire trivial p
    simp only [ManagerCall.run, Go.wp_bind, Go.wp_pure] at this
    exact Go.wp_mono this (fun _ _ h => next_of h)
  memTrim := fun i m p hm => by
    have := wf_call (tk := tk) hm.slot .memTrim trivial p
    simp only [ManagerCall.run, Go.wp_bind, Go.wp_pure] at this
    exact Go.wp_mono this (fun _ _ h => next_of h)
  moveVector := fun i m p hm => by
    have := wf_call (tk := tk) hm.slot .moveVector trivial p
    simp only [ManagerCall.run, Go.wp_bind, Go.wp_pure] at this
    exact Go.wp_mono this (fun _ _ h => next_of h)
  split := fun i m f p hm => by
    have := wf_call (tk := tk) hm.slot (.splitCentroids f) trivial p
    simp only [ManagerCall.run, Go.wp_bind, Go.wp_pure] at this
    exact Go.wp_mono this (fun _ _ h => next_of h)
  merge := fun i m f p hm => by
    have := wf_call (tk := tk) hm.slot (.mergeCentroids f) trivial p
    simp only [ManagerCall.run, Go.wp_bind, Go.wp_pure] at this
    exact Go.wp_mono this (fun _ _ h => next_of h)
  knn := fun i m v k drain p hm hk => by
    have := wf_call (tk := tk) hm.slot (.knnLookup v k drain) hk p
    simp only [ManagerCall.run, Go.wp_bind, Go.wp_pure] at this
    exact Go.wp_mono this (fun _ _ h => next_of h)
  drainU := fun i m ord n p hm ho hn => by
    have := wf_call (tk := tk) hm.slot (.drainUnordered n ord) ⟨hn, ho⟩ p
    simp only [ManagerCall.run, Go.wp_bind, Go.wp_pure] at this
    exact Go.wp_mono this (fun _ _ h => next_of h)
  drainO := fun i m ord n p hm ho hn => by
    have := wf_call (tk := tk) hm.slot (.drainOrdered n ord) ⟨hn, ho⟩ p
    simp only [ManagerCall.run, Go.wp_bind, Go.wp_pure] at this
    exact Go.wp_mono this (fun _ _ h => next_of h)
  internal := fun i m ord n p hm ho => Go.wp_mono (Manager.wp_distributeInternal h.mono ho hm.slot n p) (fun _ _ hr => next_of hr.1.wf)
  reinit := fun d ds p _ _ => lax_reinit tk d ds p

end Trypo
