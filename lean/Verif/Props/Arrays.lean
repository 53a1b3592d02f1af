import Verif.Spec.Arrays
import Verif.Props.Nodes
import Verif.Props.KNN

/-!
# Properties of vectors and lists of addresses as arrays: C100, C47
-/

namespace Trypo
open GoFloat Spec

namespace Arrays

set_option linter.unusedSectionVars false

variable {F α β σ : Type}

theorem untouched_append (m n : Heap α) : Untouched m (m ++ n) := fun i a h => by
  have := (List.getElem?_eq_some_iff.1 h).1
  rw [List.getElem?_append_left this]; exact h

theorem elems_append {m : Heap α} {s : Slice} (h : Within m s) (n : Heap α) : elems (m ++ n) s = elems m s := by
  obtain ⟨a, ha, _⟩ := h
  have := untouched_append m n _ _ ha
  simp [elems, ha, this]

theorem within_append {m : Heap α} {s : Slice} (h : Within m s) (n : Heap α) : Within (m ++ n) s := by
  obtain ⟨a, ha, hl⟩ := h
  exact ⟨a, untouched_append m n _ _ ha, hl⟩

theorem elems_length {m : Heap α} {s : Slice} (h : Within m s) : (elems m s).length = s.len := by
  obtain ⟨a, ha, hl⟩ := h
  simp [elems, ha]; omega

/-- The array made last. -/
def newest (m : Heap α) (n : Nat) : Slice := ⟨m.length, 0, n, n⟩

theorem elems_newest (m : Heap α) (a : List α) : elems (m ++ [a]) (newest m a.length) = a := by
  simp [elems, newest]

theorem newSlice_newest (m : Heap α) (a : List α) : NewSlice m (m ++ [a]) (newest m a.length) a :=
  ⟨untouched_append _ _, by simp [newest], ⟨a, by simp [newest], by simp [newest]⟩, elems_newest m a⟩

theorem get_old {m : Heap α} {s : Slice} (h : Within m s) {i : Nat} {x : α} (hx : (elems m s)[i]? = some x) (n : Heap α) (p : Nat) :
    get s i (m ++ n) p = .ok ((x, m ++ n), p) := by
  unfold get
  rw [elems_append h, hx]

theorem get_here {m : Heap α} {s : Slice} {i : Nat} {x : α} (hx : (elems m s)[i]? = some x) (p : Nat) :
    get s i m p = .ok ((x, m), p) := by
  unfold get
  rw [hx]

theorem get_newest {m : Heap α} {a : List α} {i : Nat} {x : α} (hx : a[i]? = some x) (p : Nat) :
    get (newest m a.length) i (m ++ [a]) p = .ok ((x, m ++ [a]), p) := get_here (by rw [elems_newest]; exact hx) p

theorem put_newest {m : Heap α} {a : List α} {i : Nat} (hi : i < a.length) (x : α) (p : Nat) :
    put (newest m a.length) i x (m ++ [a]) p = .ok (((), m ++ [a.set i x]), p) := by
  unfold put
  rw [elems_newest, if_pos hi]
  simp [newest]

theorem bind_ok {x : HGo α β} {f : β → HGo α σ} {m m' : Heap α} {p p' : Nat} {b : β} (h : x m p = .ok ((b, m'), p')) :
    (x >>= f) m p = f b m' p' := by
  show (StateT.bind x f) m p = _
  simp only [StateT.bind, bind, Except.bind, h]

/-- A loop that fills the newest array. -/
theorem loop_fill {m : Heap α} {body : Nat → Unit → HGo α Unit} {g : Nat → α → α} {n : Nat}
    (hb : ∀ (i : Nat) (a : List α) (x : α), a.length = n → a[i]? = some x → ∀ p, body i () (m ++ [a]) p = .ok (((), m ++ [a.set i (g i x)]), p)) :
    ∀ (r i : Nat) (a : List α), i + r = n → a.length = n → ∀ p,
      loop body r i () (m ++ [a]) p = .ok (((), m ++ [a.take i ++ (a.drop i).mapIdx (fun j x => g (i + j) x)]), p)
  | 0, i, a, hi, ha, p => by
    have : a.length = i := by omega
    subst this
    simp [loop, pure, StateT.pure, Except.pure]
  | r + 1, i, a, hi, ha, p => by
    have hlt : i < a.length := by omega
    unfold loop
    rw [bind_ok (hb i a a[i] ha (List.getElem?_eq_getElem hlt) p), loop_fill hb r (i + 1) (a.set i (g i a[i])) (by omega) (by simpa using ha) p]
    have e : (a.set i (g i a[i])).take (i + 1) ++ ((a.set i (g i a[i])).drop (i + 1)).mapIdx (fun j x => g (i + 1 + j) x) =
        a.take i ++ (a.drop i).mapIdx (fun j x => g (i + j) x) := by
      rw [List.drop_eq_getElem_cons hlt, List.mapIdx_cons, List.drop_set_of_lt (by omega), List.take_add_one]
      simp [List.take_set_of_le, hlt, Nat.add_assoc, Nat.add_comm 1]
    rw [e]

/-- A loop over the array just made. -/
theorem make_fill {m : Heap α} {z : α} {n : Nat} {body : Slice → Nat → Unit → HGo α Unit} {g : Nat → α → α}
    (hb : ∀ (i : Nat) (a : List α) (x : α), a.length = n → a[i]? = some x → ∀ p,
      body (newest m n) i () (m ++ [a]) p = .ok (((), m ++ [a.set i (g i x)]), p)) (p : Nat) :
    (do let res ← make z n; loop (body res) n 0 (); pure res : HGo α Slice) m p =
      .ok ((newest m n, m ++ [(List.replicate n z).mapIdx g]), p) := by
  rw [bind_ok (show make z n m p = .ok ((newest m n, m ++ [List.replicate n z]), p) from rfl),
    bind_ok (loop_fill hb n 0 (List.replicate n z) (by omega) (by simp) p)]
  simp [pure, StateT.pure, Except.pure]

/-- A loop that only reads. -/
theorem loop_reads {m : Heap α} {body : Nat → σ → HGo α σ} {γ : Type} {step : σ → γ → σ} : ∀ (l : List γ) (i : Nat)
    (_ : ∀ (j : Nat) (x : γ) (s : σ), l[j]? = some x → ∀ p, body (i + j) s m p = .ok ((step s x, m), p)) (s : σ) (p : Nat),
    loop body l.length i s m p = .ok ((l.foldl step s, m), p)
  | [], i, _, s, p => rfl
  | x :: l, i, hb, s, p => by
    show loop body (l.length + 1) i s m p = _
    unfold loop
    rw [bind_ok (show body i s m p = .ok ((step s x, m), p) from hb 0 x s rfl p), loop_reads l (i + 1) (fun j y s' hy q => by
      have := hb (j + 1) y s' (by simpa using hy) q
      rwa [show i + (j + 1) = i + 1 + j by omega] at this) _ p]
    rfl

theorem elems_at {m : Heap α} {s : Slice} (h : Within m s) {i : Nat} (hi : i < s.len) : ∃ x, (elems m s)[i]? = some x :=
  ⟨_, List.getElem?_eq_getElem (by rw [elems_length h]; exact hi)⟩

theorem newSlice_mapIdx {m : Heap α} {z : α} {n : Nat} {g : Nat → α → α} {l : List α} (h : (List.replicate n z).mapIdx g = l) :
    NewSlice m (m ++ [(List.replicate n z).mapIdx g]) (newest m n) l := by
  have := newSlice_newest m ((List.replicate n z).mapIdx g)
  rw [List.length_mapIdx, List.length_replicate] at this
  rwa [h] at this ⊢

section
variable [GoFloat F]

theorem unary_runs {m : Heap F} {v : Slice} (hv : Within m v) (f : F → F) (p : Nat) :
    ∃ s m', (do let res ← make zero v.len; loop (fun i _ => do put res i (f (← get v i))) v.len 0 (); pure res : HGo F Slice) m p = .ok ((s, m'), p) ∧
      NewSlice m m' s ((elems m v).map f) := by
  refine ⟨_, _, make_fill (g := fun i _ => f ((elems m v).getD i zero)) (fun i a x ha hx q => ?_) p, newSlice_mapIdx ?_⟩
  · have hi : i < v.len := by rw [← ha]; exact (List.getElem?_eq_some_iff.1 hx).1
    obtain ⟨y, hy⟩ := elems_at hv hi
    rw [bind_ok (get_old hv hy [a] q), ← ha, put_newest (by omega)]
    simp [hy]
  · refine List.ext_getElem (by simp [elems_length hv]) (fun i h1 h2 => ?_)
    have h3 : i < (elems m v).length := by simpa using h2
    simp [h3]

theorem binary_runs {m : Heap F} {v w : Slice} (hv : Within m v) (hw : Within m w) (he : v.len = w.len) (f : F → F → F) (p : Nat) :
    ∃ s m', (do let res ← make zero v.len; loop (fun i _ => do put res i (f (← get v i) (← get w i))) v.len 0 (); pure res : HGo F Slice) m p =
      .ok ((s, m'), p) ∧ NewSlice m m' s (List.zipWith f (elems m v) (elems m w)) := by
  refine ⟨_, _, make_fill (g := fun i _ => f ((elems m v).getD i zero) ((elems m w).getD i zero)) (fun i a x ha hx q => ?_) p, newSlice_mapIdx ?_⟩
  · have hi : i < v.len := by rw [← ha]; exact (List.getElem?_eq_some_iff.1 hx).1
    obtain ⟨y, hy⟩ := elems_at hv hi
    obtain ⟨z, hz⟩ := elems_at hw (he ▸ hi)
    rw [bind_ok (get_old hv hy [a] q), bind_ok (get_old hw hz [a] q), ← ha, put_newest (by omega)]
    simp [hy, hz]
  · refine List.ext_getElem (by simp [elems_length hv, elems_length hw, he]) (fun i h1 h2 => ?_)
    have h3 : i < (elems m v).length ∧ i < (elems m w).length := by simpa using h2
    simp [h3.1, h3.2]

/-! ### C100 -/

/-- C100, scaling: `VecMulScalar`, `VecDivScalar` and `Vec` write into none of the arrays there are; their answer is a new one, and holds what
the functions on lists compute. -/
theorem _root_.Trypo.C100_scale {m : Heap F} {v : Slice} (hv : Within m v) (x : F) (p : Nat) :
    (∃ s m', vecMulScalar v x m p = .ok ((s, m'), p) ∧ NewSlice m m' s (Trypo.vecMulScalar (elems m v) x)) ∧
    (∃ s m', vecDivScalar v x m p = .ok ((s, m'), p) ∧ NewSlice m m' s (Trypo.vecDivScalar (elems m v) x)) ∧
    (∃ s m', vec v m p = .ok ((s, m'), p) ∧ NewSlice m m' s (Trypo.vec (elems m v))) := by
  refine ⟨unary_runs hv (fun y => mul y x) p, unary_runs hv (fun y => div y x) p, ?_⟩
  obtain ⟨s, m', h1, h2⟩ := unary_runs hv id p
  exact ⟨s, m', h1, by rwa [List.map_id] at h2⟩

/-- C100, `VecAdd` and `VecSub`. -/
theorem _root_.Trypo.C100_add_sub {m : Heap F} {v w : Slice} (hv : Within m v) (hw : Within m w) (p : Nat) :
    (v.len ≠ w.len → vecAdd v w m p = .ok ((none, m), p) ∧ vecSub v w m p = .ok ((none, m), p) ∧
      (Trypo.vecAdd (elems m v) (elems m w)).2 = false ∧ (Trypo.vecSub (elems m v) (elems m w)).2 = false) ∧
    (v.len = w.len →
      (∃ s m', vecAdd v w m p = .ok ((some s, m'), p) ∧ NewSlice m m' s (Trypo.vecAdd (elems m v) (elems m w)).1 ∧
        (Trypo.vecAdd (elems m v) (elems m w)).2 = true) ∧
      (∃ s m', vecSub v w m p = .ok ((some s, m'), p) ∧ NewSlice m m' s (Trypo.vecSub (elems m v) (elems m w)).1 ∧
        (Trypo.vecSub (elems m v) (elems m w)).2 = true)) := by
  have l1 := elems_length hv
  have l2 := elems_length hw
  constructor
  · intro h
    simp [vecAdd, vecSub, Trypo.vecAdd, Trypo.vecSub, l1, l2, h, pure, StateT.pure, Except.pure]
  · intro h
    obtain ⟨s, m', h1, h2⟩ := binary_runs hv hw h add p
    obtain ⟨t, n', h3, h4⟩ := binary_runs hv hw h sub p
    have key : ∀ (f : F → F → F) (s : Slice) (m' : Heap F), (do let res ← make zero v.len; loop (fun i _ => do put res i (f (← get v i) (← get w i))) v.len 0 (); pure res : HGo F Slice) m p =
        .ok ((s, m'), p) → (do let res ← make zero v.len; loop (fun i _ => do put res i (f (← get v i) (← get w i))) v.len 0 (); pure (some res) : HGo F (Option Slice)) m p =
        .ok ((some s, m'), p) := by
      intro f s m' hs
      have : (do let res ← make zero v.len; loop (fun i _ => do put res i (f (← get v i) (← get w i))) v.len 0 (); pure (some res) : HGo F (Option Slice)) =
          (do let r ← (do let res ← make zero v.len; loop (fun i _ => do put res i (f (← get v i) (← get w i))) v.len 0 (); pure res : HGo F Slice); pure (some r)) := by
        simp only [bind_assoc, pure_bind]
      rw [this, bind_ok hs]
      rfl
    refine ⟨⟨s, m', ?_, ?_, ?_⟩, t, n', ?_, ?_, ?_⟩
    · unfold vecAdd; rw [if_neg (by simpa using h)]; exact key _ _ _ h1
    · simpa [Trypo.vecAdd, l1, l2, h] using h2
    · simp [Trypo.vecAdd, l1, l2, h]
    · unfold vecSub; rw [if_neg (by simpa using h)]; exact key _ _ _ h3
    · simpa [Trypo.vecSub, l1, l2, h] using h4
    · simp [Trypo.vecSub, l1, l2, h]

theorem zip_at {m : Heap F} {v w : Slice} {j : Nat} {x : F × F} (h : ((elems m v).zip (elems m w))[j]? = some x) :
    (elems m v)[j]? = some x.1 ∧ (elems m w)[j]? = some x.2 := by
  rw [List.getElem?_zip_eq_some] at h; exact h

theorem fold_runs {m : Heap F} {v w : Slice} (hv : Within m v) (hw : Within m w) (he : v.len = w.len) (step : F → F → F → F) (z : F) (p : Nat) :
    loop (fun i r => do
      let x ← get v i
      let y ← get w i
      pure (step r x y)) v.len 0 z m p = .ok ((((elems m v).zip (elems m w)).foldl (fun r q => step r q.1 q.2) z, m), p) := by
  have hl : ((elems m v).zip (elems m w)).length = v.len := by simp [elems_length hv, elems_length hw, he]
  rw [← hl]
  exact loop_reads (m := m) (step := fun r (q : F × F) => step r q.1 q.2) ((elems m v).zip (elems m w)) 0 (fun j x s hx q => by
    obtain ⟨h1, h2⟩ := zip_at hx
    rw [Nat.zero_add, bind_ok (get_here h1 q), bind_ok (get_here h2 q)]; rfl) z p

theorem norm_runs {m : Heap F} {v : Slice} (hv : Within m v) (p : Nat) : norm v m p = .ok ((Trypo.norm (elems m v), m), p) := by
  unfold norm
  have := loop_reads (m := m) (body := fun i r => do
    let x ← get v i
    pure (add r (mul x x))) (step := fun r (x : F) => add r (mul x x)) (elems m v) 0 (fun j x s hx q => by
      rw [Nat.zero_add, bind_ok (get_here hx q)]; rfl) zero p
  rw [elems_length hv] at this
  rw [bind_ok this]
  rfl

/-- C100, distances: they only read, and compute what the functions on lists do. -/
theorem _root_.Trypo.C100_distances {m : Heap F} {v w : Slice} (hv : Within m v) (hw : Within m w) (p : Nat) :
    euclideanDistance v w m p = .ok ((Trypo.euclideanDistance (elems m v) (elems m w), m), p) ∧
    cosineSimilarity v w m p = .ok ((Trypo.cosineSimilarity (elems m v) (elems m w), m), p) := by
  have l1 := elems_length hv
  have l2 := elems_length hw
  unfold euclideanDistance cosineSimilarity Trypo.euclideanDistance Trypo.cosineSimilarity
  rw [l1, l2]
  by_cases h : v.len = w.len
  · simp only [ne_eq, h, not_true, if_false]
    constructor
    · have := fold_runs hv hw h (fun r x y => add r (sqrt (mul (sub x y) (sub x y)))) zero p
      rw [← h, bind_ok this]; rfl
    · rw [bind_ok (norm_runs hv p), bind_ok (norm_runs hw p)]
      by_cases hz : (eq (Trypo.norm (elems m v)) zero && eq (Trypo.norm (elems m w)) zero) = true
      · rw [if_pos hz, if_pos hz]; rfl
      · have := fold_runs hv hw h (fun r x y => add r (mul x y)) zero p
        rw [if_neg hz, if_neg hz, ← h, bind_ok this]; rfl
  · simp [h, pure, StateT.pure, Except.pure]

theorem vecEqLoop_runs {m : Heap F} {v w : Slice} : ∀ (l : List (F × F)) (i : Nat)
    (_ : ∀ (j : Nat) (x : F × F), l[j]? = some x → (elems m v)[i + j]? = some x.1 ∧ (elems m w)[i + j]? = some x.2) (p : Nat),
    vecEqLoop v w l.length i m p = .ok ((l.all (fun q => eq q.1 q.2), m), p)
  | [], i, _, p => rfl
  | x :: l, i, h, p => by
    obtain ⟨h1, h2⟩ := h 0 x rfl
    rw [Nat.add_zero] at h1 h2
    show vecEqLoop v w (l.length + 1) i m p = _
    unfold vecEqLoop
    rw [bind_ok (get_here h1 p), bind_ok (get_here h2 p)]
    by_cases e : eq x.1 x.2 = true
    · rw [if_pos e, vecEqLoop_runs l (i + 1) (fun j y hy => by
        have := h (j + 1) y (by simpa using hy)
        rwa [show i + (j + 1) = i + 1 + j by omega] at this) p]
      simp [e]
    · rw [if_neg e]; simp [e, pure, StateT.pure, Except.pure]

theorem vecEq_runs {m : Heap F} {v w : Slice} (hv : Within m v) (hw : Within m w) (p : Nat) :
    vecEq v w m p = .ok ((Trypo.vecEq (elems m v) (elems m w), m), p) := by
  have l1 := elems_length hv
  have l2 := elems_length hw
  unfold vecEq Trypo.vecEq
  rw [l1, l2]
  by_cases h : v.len = w.len
  · have hl : ((elems m v).zip (elems m w)).length = v.len := by simp [l1, l2, h]
    rw [if_neg (by simpa using h), if_neg (by simpa using h), ← hl]
    exact vecEqLoop_runs _ 0 (fun j x hx => by rw [Nat.zero_add]; exact zip_at hx) p
  · rw [if_pos h, if_pos h]; rfl

/-- C100, `VecEq` and `VecIn` only read. -/
theorem _root_.Trypo.C100_eq_in {m : Heap F} {v : Slice} (hv : Within m v) (ws : List Slice) (hw : ∀ w ∈ ws, Within m w) (p : Nat) :
    (∀ w ∈ ws, vecEq v w m p = .ok ((Trypo.vecEq (elems m v) (elems m w), m), p)) ∧
    vecIn v ws m p = .ok ((Trypo.vecIn (elems m v) (ws.map (elems m)), m), p) := by
  refine ⟨fun w h => vecEq_runs hv (hw w h) p, ?_⟩
  induction ws with
  | nil => rfl
  | cons w ws ih =>
    unfold vecIn
    rw [bind_ok (vecEq_runs hv (hw w (by simp)) p)]
    by_cases e : Trypo.vecEq (elems m v) (elems m w) = true
    · rw [if_pos e]; simp [Trypo.vecIn, e, pure, StateT.pure, Except.pure]
    · rw [if_neg e, ih (fun x hx => hw x (by simp [hx]))]
      simp [Trypo.vecIn, e]

theorem vecMeanLoop_runs {m : Heap F} : ∀ (vs : List Slice) (_ : ∀ v ∈ vs, Within m v) (a : List F) (n : F) (p : Nat),
    ∃ o a', vecMeanLoop (newest m a.length) n vs (m ++ [a]) p = .ok ((o, m ++ [a']), p) ∧ a'.length = a.length ∧
      Trypo.vecMeanLoop a n (vs.map (elems m)) = (match o with | none => (a', false) | some k => (a'.map (fun x => div x k), true))
  | [], _, a, n, p => ⟨some n, a, rfl, rfl, rfl⟩
  | v :: vs, h, a, n, p => by
    have hv := h v (by simp)
    have l1 := elems_length hv
    unfold vecMeanLoop
    by_cases e : v.len = a.length
    · have hb := loop_fill (m := m) (n := a.length) (body := fun i _ => do put (newest m a.length) i (add (← get (newest m a.length) i) (← get v i)))
        (g := fun i x => add x ((elems m v).getD i zero)) (fun i b x hb hx q => by
          have hi : i < b.length := (List.getElem?_eq_some_iff.1 hx).1
          obtain ⟨y, hy⟩ := elems_at hv (i := i) (by omega)
          rw [← hb, bind_ok (get_newest hx q), bind_ok (get_old hv hy [b] q), put_newest hi]
          simp [hy]) a.length 0 a (by omega) rfl p
      have e2 : a.take 0 ++ (a.drop 0).mapIdx (fun j x => add x ((elems m v).getD (0 + j) zero)) = List.zipWith add a (elems m v) := by
        refine List.ext_getElem (by simp [l1, e]) (fun i h1 h2 => ?_)
        have h3 : i < a.length ∧ i < (elems m v).length := by simpa using h2
        simp [h3.2]
      rw [e2] at hb
      have e3 : (List.zipWith add a (elems m v)).length = a.length := by simp [l1, e]
      obtain ⟨o, a', h1, h2, h3⟩ := vecMeanLoop_runs vs (fun w hw => h w (by simp [hw])) (List.zipWith add a (elems m v)) (add n (ofNat 1)) p
      rw [e3] at h1 h2
      refine ⟨o, a', ?_, h2, ?_⟩
      · rw [if_neg (by simpa [newest] using e)]
        refine (bind_ok hb).trans h1
      · show Trypo.vecMeanLoop a n (elems m v :: vs.map (elems m)) = _
        unfold Trypo.vecMeanLoop
        rw [if_neg (by simp [l1, e]), h3]
    · refine ⟨none, a, ?_, rfl, ?_⟩
      · rw [if_pos (by simpa [newest] using e)]; rfl
      · show Trypo.vecMeanLoop a n (elems m v :: vs.map (elems m)) = _
        unfold Trypo.vecMeanLoop
        rw [if_pos (by simpa [l1] using e)]

theorem copy_runs {m : Heap α} {v : Slice} (hv : Within m v) (z : α) (p : Nat) :
    copy (newest m v.len) v (m ++ [List.replicate v.len z]) p = .ok (((), m ++ [elems m v]), p) := by
  have := loop_fill (m := m) (n := v.len) (body := fun i _ => do put (newest m v.len) i (← get v i))
    (g := fun i _ => (elems m v).getD i z) (fun i b x hb hx q => by
      have hi : i < b.length := (List.getElem?_eq_some_iff.1 hx).1
      obtain ⟨y, hy⟩ := elems_at hv (i := i) (by omega)
      rw [← hb, bind_ok (get_old hv hy [b] q), put_newest hi]
      simp [hy]) v.len 0 (List.replicate v.len z) (by omega) (by simp) p
  unfold copy
  rw [this]
  have l1 := elems_length hv
  have e : List.take 0 (List.replicate v.len z) ++ (List.drop 0 (List.replicate v.len z)).mapIdx (fun j _ => (elems m v).getD (0 + j) z) = elems m v := by
    refine List.ext_getElem (by simp [l1]) (fun i h1 h2 => ?_)
    simp [h2]
  rw [e]

/-- C100, `VecMean`: it sums up in an array of its own. -/
theorem _root_.Trypo.C100_mean {m : Heap F} {vs : List Slice} (hv : ∀ v ∈ vs, Within m v) (p : Nat) :
    (vs = [] → vecMean vs m p = .ok (((none, false), m), p)) ∧
    (vs ≠ [] → ∃ s m', vecMean vs m p = .ok (((some s, (Trypo.vecMean (vs.map (elems m))).2), m'), p) ∧
      NewSlice m m' s (Trypo.vecMean (vs.map (elems m))).1) := by
  refine ⟨fun h => by subst h; rfl, fun h => ?_⟩
  cases vs with
  | nil => exact absurd rfl h
  | cons v vs =>
    have hv0 := hv v (by simp)
    have l1 := elems_length hv0
    obtain ⟨o, a', h1, h2, h3⟩ := vecMeanLoop_runs vs (fun w hw => hv w (by simp [hw])) (elems m v) (ofNat 1) p
    rw [l1] at h1
    have ha : a'.length = v.len := by rw [h2, l1]
    show ∃ s m', _ = Except.ok (((some s, (Trypo.vecMeanLoop (elems m v) (ofNat 1) (vs.map (elems m))).2), m'), p) ∧
      NewSlice m m' s (Trypo.vecMeanLoop (elems m v) (ofNat 1) (vs.map (elems m))).1
    have hrun : vecMean (v :: vs) m p = (do
        let res ← make zero v.len
        copy res v
        let o ← vecMeanLoop res (ofNat 1) vs
        match o with
        | none => pure (some res, false)
        | some n => do
          loop (fun i _ => do put res i (div (← get res i) n)) res.len 0 ()
          pure (some res, true) : HGo F (Option Slice × Bool)) m p := rfl
    rw [hrun, bind_ok (show make zero v.len m p = .ok ((newest m v.len, m ++ [List.replicate v.len zero]), p) from rfl),
        bind_ok (copy_runs hv0 zero p), bind_ok h1, h3]
    cases o with
    | none => exact ⟨_, _, rfl, by rw [← ha]; exact newSlice_newest m a'⟩
    | some n =>
      have hb := loop_fill (m := m) (n := v.len) (body := fun i _ => do put (newest m v.len) i (div (← get (newest m v.len) i) n))
        (g := fun _ x => div x n) (fun i b x hb hx q => by
          have hi : i < b.length := (List.getElem?_eq_some_iff.1 hx).1
          rw [← hb, bind_ok (get_newest hx q), put_newest hi]) v.len 0 a' (by omega) ha p
      have e : List.take 0 a' ++ (List.drop 0 a').mapIdx (fun _ x => div x n) = a'.map (fun x => div x n) := by
        refine List.ext_getElem (by simp) (fun i h1 h2 => by simp)
      rw [e] at hb
      refine ⟨newest m v.len, _, (bind_ok hb).trans rfl, ?_⟩
      have := newSlice_newest m (a'.map (fun x => div x n))
      rwa [List.length_map, ha] at this

/-! ### Searches -/

/-- One round of `bubble`. -/
theorem bubble_step {m : Heap (ResultItem F)} {a : List (ResultItem F)} {i : Nat} {it ins : ResultItem F} (asc : Bool) (h : a[i]? = some it) (p : Nat) :
    ∃ ins' it', (do
      let it ← get (newest m a.length) i
      let ins ← (if (lt it.score ins.score || !it.set) && !asc then do put (newest m a.length) i ins; pure it else pure ins)
      let it ← get (newest m a.length) i
      if (lt ins.score it.score || !it.set) && asc then do put (newest m a.length) i ins; pure it else pure ins : HGo (ResultItem F) (ResultItem F))
        (m ++ [a]) p = .ok ((ins', m ++ [a.set i it']), p) ∧
      ∀ rest, Trypo.bubble ins (it :: rest) asc = it' :: Trypo.bubble ins' rest asc := by
  have hi : i < a.length := (List.getElem?_eq_some_iff.1 h).1
  have hself : ∀ {x}, a[i]? = some x → a.set i x = a := fun {x} hx => by
    rw [List.getElem?_eq_getElem hi] at hx; cases hx; exact List.set_getElem_self hi
  cases asc with
  | false =>
    by_cases c : (lt it.score ins.score || !it.set) = true
    · refine ⟨it, ins, ?_, fun rest => ?_⟩
      · rw [bind_ok (get_newest h p)]
        simp only [c, Bool.not_false, Bool.and_true, if_true, Bool.and_false]
        rw [bind_ok (show (do put (newest m a.length) i ins; pure it : HGo (ResultItem F) (ResultItem F)) (m ++ [a]) p = .ok ((it, m ++ [a.set i ins]), p) by
          rw [bind_ok (put_newest hi ins p)]; rfl)]
        rw [bind_ok (show get (newest m a.length) i (m ++ [a.set i ins]) p = .ok ((ins, m ++ [a.set i ins]), p) by
          have := get_newest (m := m) (a := a.set i ins) (i := i) (x := ins) (by simp [hi]) p
          rwa [List.length_set] at this)]
        rfl
      · simp [Trypo.bubble, c]
    · refine ⟨ins, it, ?_, fun rest => ?_⟩
      · rw [bind_ok (get_newest h p)]
        simp only [c, Bool.false_and, Bool.and_false]
        rw [hself h]
        rw [bind_ok (show (if false = true then do put (newest m a.length) i ins; pure it else pure ins : HGo (ResultItem F) (ResultItem F)) (m ++ [a]) p = .ok ((ins, m ++ [a]), p) from rfl),
          bind_ok (get_newest h p)]
        rfl
      · simp [Trypo.bubble, c]
  | true =>
    by_cases c : (lt ins.score it.score || !it.set) = true
    · refine ⟨it, ins, ?_, fun rest => ?_⟩
      · rw [bind_ok (get_newest h p)]
        simp only [Bool.not_true, Bool.and_false, Bool.and_true]
        rw [bind_ok (show (if false = true then do put (newest m a.length) i ins; pure it else pure ins : HGo (ResultItem F) (ResultItem F)) (m ++ [a]) p = .ok ((ins, m ++ [a]), p) from rfl),
          bind_ok (get_newest h p), if_pos c, bind_ok (put_newest hi ins p)]
        rfl
      · simp [Trypo.bubble, c]
    · refine ⟨ins, it, ?_, fun rest => ?_⟩
      · rw [bind_ok (get_newest h p)]
        simp only [Bool.not_true, Bool.and_false, Bool.and_true]
        rw [bind_ok (show (if false = true then do put (newest m a.length) i ins; pure it else pure ins : HGo (ResultItem F) (ResultItem F)) (m ++ [a]) p = .ok ((ins, m ++ [a]), p) from rfl),
          bind_ok (get_newest h p), if_neg c, hself h]
        rfl
      · simp [Trypo.bubble, c]

theorem bubble_loop {m : Heap (ResultItem F)} (asc : Bool) (n : Nat) : ∀ (r i : Nat) (a : List (ResultItem F)) (ins : ResultItem F) (p : Nat), i + r = n →
    a.length = n → ∃ ins', loop (fun i ins => do
      let it ← get (newest m n) i
      let ins ← (if (lt it.score ins.score || !it.set) && !asc then do put (newest m n) i ins; pure it else pure ins)
      let it ← get (newest m n) i
      if (lt ins.score it.score || !it.set) && asc then do put (newest m n) i ins; pure it else pure ins) r i ins (m ++ [a]) p =
        .ok ((ins', m ++ [a.take i ++ Trypo.bubble ins (a.drop i) asc]), p)
  | 0, i, a, ins, p, hi, ha => by
    have : a.length = i := by omega
    subst this
    exact ⟨ins, by simp [loop, Trypo.bubble, pure, StateT.pure, Except.pure]⟩
  | r + 1, i, a, ins, p, hi, ha => by
    have hlt : i < a.length := by omega
    obtain ⟨ins', it', h1, h2⟩ := bubble_step (m := m) (ins := ins) asc (List.getElem?_eq_getElem hlt) p
    rw [ha] at h1
    obtain ⟨ins2, h3⟩ := bubble_loop asc n r (i + 1) (a.set i it') ins' p (by omega) (by simpa using ha)
    refine ⟨ins2, ?_⟩
    unfold loop
    rw [bind_ok h1, h3, List.drop_eq_getElem_cons hlt, h2, List.drop_set_of_lt (by omega), List.take_add_one]
    simp [List.take_set_of_le, hlt]

theorem bubble_runs {m : Heap (ResultItem F)} (a : List (ResultItem F)) (ins : ResultItem F) (asc : Bool) (p : Nat) :
    bubble ins (newest m a.length) asc (m ++ [a]) p = .ok (((), m ++ [Trypo.bubble ins a asc]), p) := by
  obtain ⟨ins', h⟩ := bubble_loop (m := m) asc a.length a.length 0 a ins p (by omega) rfl
  refine (bind_ok h).trans ?_
  simp [pure, StateT.pure, Except.pure]

theorem bubble_len (ins : ResultItem F) (asc : Bool) (a : List (ResultItem F)) : (Trypo.bubble ins a asc).length = a.length := by
  induction a generalizing ins with
  | nil => rfl
  | cons it a ih => simp [Trypo.bubble, ih]

theorem bind_ok2 {γ δ : Type} {x : StateT (Heap F) (StateT (Heap (ResultItem F)) Go) γ} {f : γ → StateT (Heap F) (StateT (Heap (ResultItem F)) Go) δ}
    {m m' : Heap F} {n n' : Heap (ResultItem F)} {p p' : Nat} {b : γ} (h : x m n p = .ok (((b, m'), n'), p')) : (x >>= f) m n p = f b m' n' p' := by
  show (StateT.bind x f) m n p = _
  simp only [StateT.bind, bind, Except.bind, h]

theorem lift_ok2 {γ : Type} {x : HGo (ResultItem F) γ} {m : Heap F} {n n' : Heap (ResultItem F)} {p p' : Nat} {b : γ} (h : x n p = .ok ((b, n'), p')) :
    (StateT.lift x : StateT (Heap F) (StateT (Heap (ResultItem F)) Go) γ) m n p = .ok (((b, m), n'), p') := by
  simp only [StateT.lift, StateT.bind, bind, Except.bind, h]
  rfl

theorem knnLoop_runs {m : Heap F} {n : Heap (ResultItem F)} {target : Slice} {dist : Slice → Slice → HGo F (Option F)} {D : List F → List F → Option F}
    {asc : Bool} {k : Nat} : ∀ (pool : List Slice) (_ : ∀ v ∈ pool, ∀ p, dist target v m p = .ok ((D (elems m target) (elems m v), m), p)) (i : Nat)
    (a : List (ResultItem F)) (_ : a.length = k) (p : Nat),
    knnLoop target dist asc (newest n k) i pool m (n ++ [a]) p =
      .ok ((((), m), n ++ [Trypo.knnLoop (elems m target) D asc a i (pool.map (elems m))]), p) ∧
    (Trypo.knnLoop (elems m target) D asc a i (pool.map (elems m))).length = k
  | [], _, i, a, ha, p => ⟨rfl, ha⟩
  | v :: pool, hd, i, a, ha, p => by
    have h0 : (fun m items p => match dist target v m p with
        | .ok ((x, m'), p') => .ok (((x, m'), items), p')
        | .error e => .error e : StateT (Heap F) (StateT (Heap (ResultItem F)) Go) (Option F)) m (n ++ [a]) p =
        .ok (((D (elems m target) (elems m v), m), n ++ [a]), p) := by
      simp only [hd v (by simp) p]
    have ih := knnLoop_runs (n := n) (asc := asc) (k := k) pool (fun w hw => hd w (by simp [hw])) (i + 1)
    show knnLoop target dist asc (newest n k) i (v :: pool) m (n ++ [a]) p = Except.ok ((((), m), n ++ [Trypo.knnLoop _ D asc a i (elems m v :: pool.map (elems m))]), p) ∧
      (Trypo.knnLoop _ D asc a i (elems m v :: pool.map (elems m))).length = k
    unfold knnLoop Trypo.knnLoop
    rw [bind_ok2 h0]
    cases D (elems m target) (elems m v) with
    | none => exact ih a ha p
    | some score =>
      have hstep : ∀ (c b : Bool) (a : List (ResultItem F)) (K : StateT (Heap F) (StateT (Heap (ResultItem F)) Go) Unit), a.length = k →
          (if c = true then do StateT.lift (bubble ⟨i, score, true⟩ (newest n k) b); K else K) m (n ++ [a]) p =
          K m (n ++ [if c = true then Trypo.bubble ⟨i, score, true⟩ a b else a]) p := by
        intro c b a K ha
        cases c with
        | false => rfl
        | true =>
          simp only [if_true]
          refine bind_ok2 (b := ()) (lift_ok2 ?_)
          rw [← ha]; exact bubble_runs a _ b p
      have hlen : ∀ (c b : Bool) (a : List (ResultItem F)), a.length = k → (if c = true then Trypo.bubble ⟨i, score, true⟩ a b else a).length = k := by
        intro c b a ha
        cases c
        · exact ha
        · simpa [bubble_len] using ha
      simp only
      rw [hstep _ _ _ _ ha, hstep _ _ _ _ (hlen _ true a ha)]
      exact ih _ (hlen _ false _ (hlen _ true a ha)) p

theorem resItems_runs {m : Heap (ResultItem F)} (a : List (ResultItem F)) (p : Nat) :
    resItems2Indexes (newest m a.length) (m ++ [a]) p = .ok ((Trypo.resItems2Indexes a, m ++ [a]), p) := by
  unfold resItems2Indexes
  have := loop_reads (m := m ++ [a]) (body := fun i res => do
    let it ← get (newest m a.length) i
    if it.set then pure (res ++ [it.index]) else pure res) (step := fun (r : List Nat) (it : ResultItem F) => if it.set then r ++ [it.index] else r) a 0
    (fun j x s hx q => by
      rw [Nat.zero_add, bind_ok (get_newest hx q)]
      by_cases c : x.set = true
      · rw [if_pos c, if_pos c]; rfl
      · rw [if_neg c, if_neg c]; rfl) [] p
  show loop _ a.length 0 [] (m ++ [a]) p = _
  rw [this]
  have e : ∀ (l : List (ResultItem F)) (r : List Nat), l.foldl (fun (r : List Nat) (it : ResultItem F) => if it.set then r ++ [it.index] else r) r =
      r ++ Trypo.resItems2Indexes l := by
    intro l
    induction l with
    | nil => intro r; simp [Trypo.resItems2Indexes]
    | cons x l ih =>
      intro r
      rw [List.foldl_cons, ih]
      by_cases c : x.set = true
      · simp [Trypo.resItems2Indexes, c]
      · simp [Trypo.resItems2Indexes, c]
  rw [e]; rfl

/-- C100, searches, for any distance function that only reads. The search panics exactly for a negative `k`; its answer is what the function on lists
computes; it writes into an array of its own only. -/
theorem _root_.Trypo.C100_knnBrute {m : Heap F} {n : Heap (ResultItem F)} {target : Slice} {pool : List Slice} {dist : Slice → Slice → HGo F (Option F)}
    {D : List F → List F → Option F} (hd : ∀ v ∈ pool, ∀ p, dist target v m p = .ok ((D (elems m target) (elems m v), m), p)) (k : Int) (asc : Bool) (p : Nat) :
    (∀ e, Trypo.knnBrute (elems m target) (pool.map (elems m)) k asc D = .error e → knnBrute target pool k asc dist m n p = .error e) ∧
    (∀ r, Trypo.knnBrute (elems m target) (pool.map (elems m)) k asc D = .ok r →
      ∃ n', knnBrute target pool k asc dist m n p = .ok (((r, m), n'), p) ∧ Untouched n n') := by
  unfold Trypo.knnBrute
  by_cases hk : k < 0
  · rw [if_pos hk]
    refine ⟨fun e h => ?_, fun r h => by cases h⟩
    cases h
    simp [knnBrute, lift, Go.checkMake, hk, Go.panic, StateT.lift, StateT.bind, bind, Except.bind]
  · rw [if_neg hk]
    refine ⟨fun e h => (by cases h), fun r h => ?_⟩
    cases h
    have h1 : (lift (Go.checkMake k) : HGo (ResultItem F) Unit) n p = .ok (((), n), p) := by
      simp [lift, Go.checkMake, hk, pure, StateT.pure, Except.pure]
    have h2 : make (⟨0, zero, false⟩ : ResultItem F) k.toNat n p = .ok ((newest n k.toNat, n ++ [List.replicate k.toNat ⟨0, zero, false⟩]), p) := rfl
    have h3 := loop_fill (m := n) (n := k.toNat) (body := fun i _ => do put (newest n k.toNat) i { (← get (newest n k.toNat) i) with score := worstScore asc })
      (g := fun _ (x : ResultItem F) => { x with score := worstScore asc }) (fun i b x hb hx q => by
        have hi : i < b.length := (List.getElem?_eq_some_iff.1 hx).1
        rw [← hb, bind_ok (get_newest hx q), put_newest hi]) k.toNat 0 (List.replicate k.toNat ⟨0, zero, false⟩) (by omega) (by simp) p
    have e : List.take 0 (List.replicate k.toNat (⟨0, zero, false⟩ : ResultItem F)) ++ (List.drop 0 (List.replicate k.toNat (⟨0, zero, false⟩ : ResultItem F))).mapIdx
        (fun _ (x : ResultItem F) => { x with score := worstScore asc }) = List.replicate k.toNat ⟨0, worstScore asc, false⟩ := by
      refine List.ext_getElem (by simp) (fun i h1 h2 => by simp)
    rw [e] at h3
    obtain ⟨h4, h5⟩ := knnLoop_runs (n := n) (asc := asc) (k := k.toNat) pool hd 0 (List.replicate k.toNat ⟨0, worstScore asc, false⟩) (by simp) p
    have h6 := resItems_runs (m := n) (Trypo.knnLoop (elems m target) D asc (List.replicate k.toNat ⟨0, worstScore asc, false⟩) 0 (pool.map (elems m))) p
    rw [h5] at h6
    refine ⟨n ++ [Trypo.knnLoop (elems m target) D asc (List.replicate k.toNat ⟨0, worstScore asc, false⟩) 0 (pool.map (elems m))], ?_, untouched_append n _⟩
    unfold knnBrute
    rw [bind_ok2 (lift_ok2 h1), bind_ok2 (lift_ok2 h2), bind_ok2 (lift_ok2 h3), bind_ok2 h4]
    exact lift_ok2 h6

/-- C100, the four searches of the library. -/
theorem _root_.Trypo.C100_searches {m : Heap F} {n : Heap (ResultItem F)} {target : Slice} {pool : List Slice} (ht : Within m target) (hp : ∀ v ∈ pool, Within m v)
    (k : Nat) (p : Nat) : ∃ n1 n2 n3 n4 r1 r2 r3 r4,
    knnCos target pool k m n p = .ok (((r1, m), n1), p) ∧ Trypo.knnCos (elems m target) (pool.map (elems m)) k = .ok r1 ∧ Untouched n n1 ∧
    kfnCos target pool k m n p = .ok (((r2, m), n2), p) ∧ Trypo.kfnCos (elems m target) (pool.map (elems m)) k = .ok r2 ∧ Untouched n n2 ∧
    knnEuc target pool k m n p = .ok (((r3, m), n3), p) ∧ Trypo.knnEuc (elems m target) (pool.map (elems m)) k = .ok r3 ∧ Untouched n n3 ∧
    kfnEuc target pool k m n p = .ok (((r4, m), n4), p) ∧ Trypo.kfnEuc (elems m target) (pool.map (elems m)) k = .ok r4 ∧ Untouched n n4 := by
  have key : ∀ (asc : Bool) (dist : Slice → Slice → HGo F (Option F)) (D : List F → List F → Option F),
      (∀ v ∈ pool, ∀ p, dist target v m p = .ok ((D (elems m target) (elems m v), m), p)) →
      ∃ n' r, knnBrute target pool k asc dist m n p = .ok (((r, m), n'), p) ∧ Trypo.knnBrute (elems m target) (pool.map (elems m)) k asc D = .ok r ∧
        Untouched n n' := by
    intro asc dist D hd
    obtain ⟨r, hr⟩ : ∃ r, Trypo.knnBrute (elems m target) (pool.map (elems m)) k asc D = .ok r := by
      unfold Trypo.knnBrute; rw [if_neg (by omega)]; exact ⟨_, rfl⟩
    obtain ⟨n', h1, h2⟩ := (C100_knnBrute (n := n) hd k asc p).2 r hr
    exact ⟨n', r, h1, hr, h2⟩
  have hc : ∀ v ∈ pool, ∀ p, cosineSimilarity target v m p = .ok ((Trypo.cosineSimilarity (elems m target) (elems m v), m), p) :=
    fun v hv q => (C100_distances ht (hp v hv) q).2
  have he : ∀ v ∈ pool, ∀ p, euclideanDistance target v m p = .ok ((Trypo.euclideanDistance (elems m target) (elems m v), m), p) :=
    fun v hv q => (C100_distances ht (hp v hv) q).1
  obtain ⟨n1, r1, a1, b1, c1⟩ := key false _ _ hc
  obtain ⟨n2, r2, a2, b2, c2⟩ := key true _ _ hc
  obtain ⟨n3, r3, a3, b3, c3⟩ := key true _ _ he
  obtain ⟨n4, r4, a4, b4, c4⟩ := key false _ _ he
  exact ⟨n1, n2, n3, n4, r1, r2, r3, r4, a1, b1, c1, a2, b2, c2, a3, b3, c3, a4, b4, c4⟩

end

/-! ### Shuffling -/

theorem shuffle_loop {env : Env} {m : Heap Addr} {n : Nat} : ∀ (r i : Nat) (a : List Addr) (p : Nat), a.length = n → i + r = n →
    (∀ q, env.rand q n < n) → ∃ a' p', Dps.shuffleFrom env n r i a p = .ok (a', p') ∧ a'.length = n ∧
    loop (fun i _ => do
      let j ← lift (env.intn n)
      let x ← get (newest m n) j
      let y ← get (newest m n) i
      put (newest m n) i x
      put (newest m n) j y) r i () (m ++ [a]) p = .ok (((), m ++ [a']), p')
  | 0, i, a, p, ha, _, _ => ⟨a, p, rfl, ha, rfl⟩
  | r + 1, i, a, p, ha, hi, hr => by
    have hi' : i < a.length := by omega
    have hj' : env.rand p n < a.length := by rw [ha]; exact hr p
    have gi : a[i]? = some a[i] := List.getElem?_eq_getElem hi'
    have gj : a[env.rand p n]? = some a[env.rand p n] := List.getElem?_eq_getElem hj'
    obtain ⟨a', p', h1, h2, h3⟩ := shuffle_loop (m := m) r (i + 1) ((a.set i a[env.rand p n]).set (env.rand p n) a[i]) (p + 1) (by simpa using ha) (by omega) hr
    refine ⟨a', p', ?_, h2, ?_⟩
    · unfold Dps.shuffleFrom
      show (StateT.bind (env.intn n) _) p = _
      simp only [StateT.bind, Env.intn, bind, Except.bind, Dps.swap, Go.idx, gi, gj, pure, StateT.pure, Except.pure]
      exact h1
    · unfold loop
      rw [bind_ok (b := ()) (m' := m ++ [(a.set i a[env.rand p n]).set (env.rand p n) a[i]]) (p' := p + 1), h3]
      rw [bind_ok (show (lift (env.intn n) : HGo Addr Nat) (m ++ [a]) p = .ok ((env.rand p n, m ++ [a]), p + 1) from rfl)]
      have g1 := get_newest (m := m) gj (p + 1)
      have g2 := get_newest (m := m) gi (p + 1)
      have g3 := put_newest (m := m) hi' a[env.rand p n] (p + 1)
      have g4 := put_newest (m := m) (a := a.set i a[env.rand p n]) (i := env.rand p n) (by simpa using hj') a[i] (p + 1)
      rw [List.length_set] at g4
      rw [ha] at g1 g2 g3 g4
      rw [bind_ok g1, bind_ok g2, bind_ok g3]
      exact g4

/-- C47, the caller's list: `shuffleAddrs` writes into a new array only; what it answers is what the function on lists computes, a permutation of what it
was given. -/
theorem _root_.Trypo.C47_caller_unchanged {env : Env} (he : EnvOK env) {m : Heap Addr} {addrs : Slice} (hv : Within m addrs) (p : Nat) :
    ∃ s m' r p', shuffleAddrs env addrs m p = .ok ((s, m'), p') ∧ NewSlice m m' s r ∧ r.Perm (elems m addrs) ∧
      Dps.shuffleAddrs env (elems m addrs) p = .ok (r, p') := by
  have l1 := elems_length hv
  have hr : ∀ q, addrs.len ≠ 0 → env.rand q addrs.len < addrs.len := fun q h => he.rand q addrs.len (by omega)
  obtain ⟨a', p', h1, h2, h3⟩ : ∃ a' p', Dps.shuffleFrom env addrs.len addrs.len 0 (elems m addrs) p = .ok (a', p') ∧ a'.length = addrs.len ∧
      loop (fun i _ => do
        let j ← lift (env.intn addrs.len)
        let x ← get (newest m addrs.len) j
        let y ← get (newest m addrs.len) i
        put (newest m addrs.len) i x
        put (newest m addrs.len) j y) addrs.len 0 () (m ++ [elems m addrs]) p = .ok (((), m ++ [a']), p') := by
    by_cases h : addrs.len = 0
    · have : elems m addrs = [] := List.length_eq_zero_iff.1 (by rw [l1, h])
      rw [h, this]
      exact ⟨[], p, rfl, rfl, rfl⟩
    · exact shuffle_loop addrs.len 0 (elems m addrs) p l1 (by omega) (fun q => hr q h)
  have h4 : Dps.shuffleAddrs env (elems m addrs) p = .ok (a', p') := by unfold Dps.shuffleAddrs; rw [l1]; exact h1
  obtain ⟨r, p'', h5, h6⟩ := C47_shuffle he (elems m addrs) p
  rw [h4] at h5; cases h5
  refine ⟨newest m addrs.len, m ++ [a'], a', p', ?_, by rw [← h2]; exact newSlice_newest m a', h6, h4⟩
  unfold shuffleAddrs
  rw [bind_ok (show make 0 addrs.len m p = .ok ((newest m addrs.len, m ++ [List.replicate addrs.len 0]), p) from rfl),
    bind_ok (copy_runs hv 0 p), bind_ok h3]
  rfl

namespace Example

/-- Two arrays; the second one is longer than what the slices use. -/
def mem : Heap F64 := [[F64.ofInt 1, .ofInt 2], [.ofInt 9, .ofInt 3, .ofInt 4, .ofInt 9]]
def v : Slice := ⟨0, 0, 2, 2⟩
def w : Slice := ⟨1, 1, 2, 3⟩

theorem hv : Within mem v := ⟨_, rfl, by decide⟩
theorem hw : Within mem w := ⟨_, rfl, by decide⟩

/-- C100 for windows into arrays: the contents, and a run; the mean of (1,2) and (3,4) is (2,3), in a third array. -/
example : elems mem v = [F64.ofInt 1, .ofInt 2] ∧ elems mem w = [F64.ofInt 3, .ofInt 4] := by decide +kernel
example : (vecMean [v, w] mem 0).map (fun r => (r.1.1, r.1.2)) = .ok ((some ⟨2, 0, 2, 2⟩, true), mem ++ [[F64.ofInt 2, .ofInt 3]]) := by decide +kernel
example : (vecAdd v w mem 0).map (fun r => (r.1.1, r.1.2)) = .ok (some ⟨2, 0, 2, 2⟩, mem ++ [[F64.ofInt 4, .ofInt 6]]) := by decide +kernel
example : ∃ s m', vecMean [v, w] mem 0 = .ok (((some s, (Trypo.vecMean [elems mem v, elems mem w]).2), m'), 0) ∧
    NewSlice mem m' s (Trypo.vecMean [elems mem v, elems mem w]).1 :=
  (C100_mean (vs := [v, w]) (fun x hx => by
    rcases List.mem_cons.1 hx with rfl | hx
    · exact hv
    · rcases List.mem_cons.1 hx with rfl | hx
      · exact hw
      · cases hx) 0).2 (by simp)

/-- C100: the nearest of two vectors to the second one is the second one. -/
example : (knnEuc w [v, w] 1 mem [] 0).map (fun r => r.1.1.1) = .ok [1] := by decide +kernel

/-- C47: the list in the middle of an array, shuffled with the random numbers 2, 0, 1; the array stays. -/
example : (shuffleAddrs { ServerExample.env with rand := fun p n => (p + 2) % n } ⟨0, 1, 3, 3⟩ [[5, 10, 20, 30, 6]] 0).map (fun r => r.1) =
    .ok (⟨1, 0, 3, 3⟩, [[5, 10, 20, 30, 6], [20, 10, 30]]) := by decide

end Example

end Arrays

end Trypo
