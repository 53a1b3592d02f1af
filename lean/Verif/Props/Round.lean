import Verif.Props.Trim
import Verif.Props.Trip

/-!
# C147, for managers in float64
-/

namespace Trypo
open GoFloat Spec F64

namespace Round

section
variable {F : Type} [GoFloat F] {tk : Nat → Int}

theorem bound {β γ : Type} {m : Go β} {f : β → γ} {p p' : Nat} {c : γ} (h : (do let r ← m; pure (f r) : Go γ) p = .ok (c, p')) : ∃ r, f r = c := by
  change (m p).bind (fun x => .ok (f x.1, x.2)) = _ at h
  match hm : m p with
  | .error e => rw [hm] at h; exact absurd h (by simp [Except.bind])
  | .ok (r, q) =>
    rw [hm] at h
    simp only [Except.bind, Except.ok.injEq, Prod.mk.injEq] at h
    exact ⟨r, h.1⟩

theorem call_accepted {o : ManagerCall F} {w w' : ManagerWorld F} {p p' : Nat} (h : o.run tk w p = .ok (w', p')) :
    w'.accepted = w.accepted ∨ ∃ d, o = .add d ∧ w'.accepted = d :: w.accepted := by
  cases o with
  | add d =>
    obtain ⟨r, rfl⟩ := bound h
    cases hb : r.1 with
    | true => exact .inr ⟨d, rfl, by simp⟩
    | false => exact .inl (by simp)
  | _ => obtain ⟨r, rfl⟩ := bound h; exact .inl rfl

theorem calls_accepted : ∀ (os : List (ManagerCall F)) {w w' : ManagerWorld F} {p p' : Nat}, runManagerCalls tk os w p = .ok (w', p') →
    ∀ d ∈ w'.accepted, d ∈ w.accepted ∨ ManagerCall.add d ∈ os
  | [], w, w', p, p', h, d, hd => by
    cases h
    exact .inl hd
  | o :: os, w, w', p, p', h, d, hd => by
    change (o.run tk w p).bind (fun x => runManagerCalls tk os x.1 x.2) = _ at h
    match hm : o.run tk w p with
    | .error e => rw [hm] at h; exact absurd h (by simp [Except.bind])
    | .ok (r, q) =>
      rw [hm] at h
      rcases calls_accepted os h d hd with h1 | h1
      · rcases call_accepted hm with h2 | ⟨e, rfl, h2⟩
        · rw [h2] at h1; exact .inl h1
        · rw [h2] at h1
          rcases List.mem_cons.1 h1 with rfl | h1
          · exact .inr (by simp)
          · exact .inl h1
      · exact .inr (by simp [h1])

theorem run_accepted {v : List F} {a t : Int} {knn kfn : Search F} {os : List (ManagerCall F)} {w : ManagerWorld F} {p p' : Nat}
    (h : runManager tk v a t knn kfn os p = .ok (w, p')) : ∀ d ∈ w.accepted, ManagerCall.add d ∈ os := by
  change ((Manager.new v a t (some knn) (some kfn)) p).bind (fun x => (match x.1 with
    | some cm => runManagerCalls tk os ⟨cm, [], []⟩
    | none => Go.panic .user : Go _) x.2) = _ at h
  match hm : Manager.new v a t (some knn) (some kfn) p with
  | .error e => rw [hm] at h; exact absurd h (by simp [Except.bind])
  | .ok (none, q) => rw [hm] at h; cases h
  | .ok (some cm, q) =>
    rw [hm] at h
    intro d hd
    rcases calls_accepted os h d hd with h1 | h1
    · cases h1
    · exact h1

theorem run_append {v : List F} {a t : Int} {knn kfn : Search F} {x y : List (ManagerCall F)} {w w' : ManagerWorld F} {p p1 p2 : Nat}
    (h1 : runManager tk v a t knn kfn x p = .ok (w, p1)) (h2 : runManagerCalls tk y w p1 = .ok (w', p2)) :
    runManager tk v a t knn kfn (x ++ y) p = .ok (w', p2) := by
  obtain ⟨r, q, k1, rfl, rfl⟩ := Go.wp_iff.1 (TrimExample.wp_run_append (Q := fun r q => r = w' ∧ q = p2)
    (Go.wp_iff.2 ⟨w, p1, h1, Go.wp_iff.2 ⟨w', p2, h2, rfl, rfl⟩⟩))
  exact k1

theorem calls_one {o : ManagerCall F} {w w' : ManagerWorld F} {p p' : Nat} (h : o.run tk w p = .ok (w', p')) :
    runManagerCalls tk [o] w p = .ok (w', p') := by
  change (o.run tk w p).bind (fun x => Except.ok (x.1, x.2)) = _
  rw [h]
  rfl

omit [GoFloat F] in
theorem conserved_live {t : Int} {a b c : List (DataPoint F)} (h : Conserved t a b c) (hl : ∀ d ∈ a, d.expireEnabled = false) :
    (b ++ c).Perm a := by
  obtain ⟨lost, h1, h2⟩ := h
  cases lost with
  | nil => simpa using h1
  | cons x xs =>
    have := (h2 x (by simp)).1
    rw [hl x (h1.subset (by simp))] at this
    cases this

end

/-- What is asked of datapoints that are added. -/
structure Fine (lo hi : ℝ) (d : DataPoint F64) : Prop where
  ranged : Ranged lo hi d.vec
  ne : d.vec ≠ []
  len : d.vec.length ≤ 2 ^ 20
  live : d.expireEnabled = false

variable {tk : Nat → Int} {lo hi : ℝ} {N : Nat}

theorem puts (hm : MonoClock tk) (hr : Range lo hi) (hN : 16 * (N : ℝ) * (N + 2) * hi ≤ 2 ^ 53 * lo) (initVec : List F64)
    {initCap : Int} (hcap : 0 ≤ initCap) (threshold : Int) {kfn : Search F64} (hf : GoodSearch kfn) {os : List (ManagerCall F64)}
    (ho : ∀ o ∈ os, o.valid ∧ o.notTrim ∧ o.ranged lo hi) {w1 : ManagerWorld F64} {p1 : Nat}
    (hrun : runManager tk initVec initCap threshold knnCos kfn os 0 = .ok (w1, p1)) (hl : ∀ d ∈ w1.stored, d.expireEnabled = false)
    (ds : List (DataPoint F64)) (hd : ∀ d ∈ ds, Fine lo hi d ∧ d.vec.length = w1.cm.vec.length) :
    ∃ w2 p2, runManager tk initVec initCap threshold knnCos kfn (os ++ ds.map .add) 0 = .ok (w2, p2) ∧ p1 ≤ p2 ∧
      (p2 ≤ N → w2.accepted = ds.reverse ++ w1.accepted ∧ w2.stored.Perm (w1.stored ++ ds) ∧ w2.cm.vec.length = w1.cm.vec.length) := by
  induction ds using List.reverseRecOn with
  | nil => exact ⟨w1, p1, by simpa using hrun, le_refl _, fun _ => ⟨rfl, by simp, rfl⟩⟩
  | append_singleton ds d ih =>
    obtain ⟨w2, p2, h1, h2, h3⟩ := ih (fun x hx => hd x (by simp [hx]))
    obtain ⟨hfine, hlen⟩ := hd d (by simp)
    have ho2 : ∀ o ∈ os ++ ds.map ManagerCall.add, o.valid ∧ o.notTrim ∧ o.ranged lo hi := by
      intro o h
      rcases List.mem_append.1 h with h | h
      · exact ho o h
      · obtain ⟨e, he, rfl⟩ := List.mem_map.1 h
        exact ⟨trivial, trivial, (hd e (by simp [he])).1.ranged⟩
    obtain ⟨_, _, e1, hacc⟩ := C123_accepts_partial hm hr hN initVec hcap threshold hf _ ho2
    rw [h1] at e1
    cases e1
    obtain ⟨_, _, e1, hok⟩ := C19_manager_consistent hm initVec hcap threshold (prefabs_goodSearch (F := F64)).1 hf _ (fun o h => (ho2 o h).1) 0
    rw [h1] at e1
    cases e1
    obtain ⟨w3, p3, k1, acc, out, a1, a2, a3, _, _⟩ := Go.wp_iff.1 (Manager.wp_managerCall hm w2 hok.wf (.add d) trivial p2)
    refine ⟨w3, p3, ?_, h2.trans a3.le, fun hp => ?_⟩
    · rw [List.map_append, ← List.append_assoc]
      exact run_append h1 (calls_one k1)
    · obtain ⟨j1, j2, j3⟩ := h3 (a3.le.trans hp)
      have hlive : ¬ Dead (tk (p2 + 1)) d := fun h => by
        have := h.1
        rw [hfine.live] at this
        cases this
      obtain ⟨cm', p', i1, i2⟩ := hacc (a3.le.trans hp) d hfine.ranged hfine.ne hfine.len (.inr (by rw [hlen, j3])) hlive
      have k2 : (ManagerCall.add d).run tk w2 p2 = .ok ({ w2 with cm := cm', accepted := d :: w2.accepted }, p') := by
        change (w2.cm.addDataPoint tk d p2).bind (fun x => Except.ok
          (({ w2 with cm := x.1.2, accepted := if x.1.1 then d :: w2.accepted else w2.accepted } : ManagerWorld F64), x.2)) = _
        rw [i1]
        rfl
      rw [k1] at k2
      cases k2
      have hlv : ∀ x ∈ d :: stored w2.cm, x.expireEnabled = false := by
        intro x hx
        rcases List.mem_cons.1 hx with rfl | hx
        · exact hfine.live
        · rcases List.mem_append.1 (j2.subset hx) with hx | hx
          · exact hl x hx
          · exact (hd x (by simp [hx])).1.live
      have hperm := conserved_live i2 hlv
      rw [List.append_nil] at hperm
      refine ⟨by simp [j1], ?_, ?_⟩
      · refine List.Perm.trans hperm (List.Perm.trans (List.Perm.cons d j2) ?_)
        rw [← List.append_assoc]
        exact (List.perm_append_singleton d _).symm
      · have hacc : acc = [d] := by
          have := a1
          exact (List.append_left_inj _).1 (a1.symm : acc ++ w2.accepted = [d] ++ w2.accepted)
        rw [a3.len (by
          intro x hx
          rw [hacc, List.mem_singleton] at hx
          rw [hx, hlen, j3]), j3]

end Round

/-- C147 in part, in float64, for a manager: any history of calls other than `MemTrim`, whose datapoints do not expire and have positive components
that are not too different. Whatever a call `o` then hands out, be it all there is or a part, can be put back, in any order:
all of it is accepted, and what is stored is as before `o`. `N` bounds the number of times that the clock is read. -/
theorem C147_manager_partial {tk : Nat → Int} {lo hi : ℝ} {N : Nat} (hm : MonoClock tk) (hr : Range lo hi)
    (hN : 16 * (N : ℝ) * (N + 2) * hi ≤ 2 ^ 53 * lo) (initVec : List F64) {initCap : Int} (hcap : 0 ≤ initCap) (threshold : Int) {kfn : Search F64}
    (hf : GoodSearch kfn) (os : List (ManagerCall F64)) (ho : ∀ o ∈ os, o.valid ∧ o.notTrim ∧ o.ranged lo hi)
    (hd : ∀ d, ManagerCall.add d ∈ os → d.vec ≠ [] ∧ d.vec.length ≤ 2 ^ 20 ∧ d.expireEnabled = false)
    (o : ManagerCall F64) (hv : o.valid) (ht : o.notTrim) (hna : ∀ d, o ≠ .add d) :
    ∃ w p w1 p1 out, runManager tk initVec initCap threshold knnCos kfn os 0 = .ok (w, p) ∧
      runManager tk initVec initCap threshold knnCos kfn (os ++ [o]) 0 = .ok (w1, p1) ∧ w1.out = w.out ++ out ∧
      (w1.stored ++ out).Perm w.stored ∧
      ∀ ds : List (DataPoint F64), ds.Perm out →
        ∃ w2 p2, runManager tk initVec initCap threshold knnCos kfn (os ++ [o] ++ ds.map .add) 0 = .ok (w2, p2) ∧
          (p2 ≤ N → w2.accepted = ds.reverse ++ w.accepted ∧ w2.stored.Perm w.stored) := by
  have hk := (prefabs_goodSearch (F := F64)).1
  obtain ⟨w, p, hrun, hok⟩ := C19_manager_consistent hm initVec hcap threshold hk hf os (fun o h => (ho o h).1) 0
  obtain ⟨_, _, e1, hbag⟩ := C21_manager_is_a_bag hm initVec hcap threshold hk hf os (fun o h => (ho o h).1) 0
  rw [hrun] at e1
  cases e1
  have hfine : ∀ d ∈ w.stored, Round.Fine lo hi d := by
    intro d h
    obtain ⟨lost, h1, _⟩ := hbag
    have hadd := Round.run_accepted hrun d (h1.subset (by simp [h]))
    obtain ⟨k1, k2, k3⟩ := hd d hadd
    exact ⟨(ho _ hadd).2.2, k1, k2, k3⟩
  obtain ⟨w1, p1, k1, acc, out, a1, a2, a3, _, _⟩ := Go.wp_iff.1 (Manager.wp_managerCall hm w hok.wf o hv p)
  have hacc : acc = [] := by
    rcases Round.call_accepted k1 with h | ⟨d, rfl, _⟩
    · rw [h] at a1
      exact List.append_left_eq_self.1 a1.symm
    · exact absurd rfl (hna d)
  subst hacc
  have hrun1 := Round.run_append hrun (Round.calls_one k1)
  have hperm : (w1.stored ++ out).Perm w.stored := Round.conserved_live a3.conserved (fun d h => (hfine d h).live)
  have hlen : w1.cm.vec.length = w.cm.vec.length := a3.len (by simp)
  refine ⟨w, p, w1, p1, out, hrun, hrun1, a2, hperm, fun ds hds => ?_⟩
  have dims : ∀ d ∈ w.stored, d.vec.length = w.cm.vec.length := by
    intro d h
    obtain ⟨c, hc, h⟩ := List.mem_flatMap.1 h
    rw [(hok.dim c hc).2 d h, (hok.dim c hc).1]
  obtain ⟨w2, p2, j1, _, j2⟩ := Round.puts hm hr hN initVec hcap threshold hf (os := os ++ [o]) (by
      intro x hx
      rcases List.mem_append.1 hx with hx | hx
      · exact ho x hx
      · rw [List.mem_singleton.1 hx]
        refine ⟨hv, ht, ?_⟩
        cases o with
        | add d => exact absurd rfl (hna d)
        | _ => trivial) hrun1 (fun d h => (hfine d (hperm.subset (by simp [h]))).live) ds (by
      intro d h
      have hmem := hperm.subset (List.mem_append_right _ (hds.subset h))
      exact ⟨hfine d hmem, by rw [hlen]; exact dims d hmem⟩)
  refine ⟨w2, p2, j1, fun hp => ?_⟩
  obtain ⟨i1, i2, _⟩ := j2 hp
  refine ⟨by rw [i1, a1]; rfl, ?_⟩
  exact i2.trans (((List.Perm.refl _).append hds).trans hperm)

open PositiveExample

namespace RoundExample

/-- Three datapoints. -/
def three : List (ManagerCall F64) := [.add (pt 1 2), .add (pt 9 1), .add (pt 3 3)]

theorem three_ok : ∀ o ∈ three, ∃ d, o = .add d ∧ Ranged (1 : Nat) (9 : Nat) d.vec ∧ d.vec ≠ [] ∧ d.vec.length ≤ 2 ^ 20 ∧ d.expireEnabled = false := by
  intro o ho
  simp only [three, List.mem_cons, List.not_mem_nil, or_false] at ho
  rcases ho with rfl | rfl | rfl <;>
    exact ⟨_, rfl, ranged_nats (by simp) (by norm_num), by simp [pt, FloatExample.nats], by simp [pt, FloatExample.nats], rfl⟩

end RoundExample
open RoundExample

/-- C147: a draining lookup takes two of three out, and they are put back. -/
example : ∃ w p, runManager (fun _ => 0) (FloatExample.nats [1, 1]) 1 10 knnCos kfnCos
      (three ++ [.knnLookup (FloatExample.nats [1, 1]) 2 true] ++ [pt 1 2, pt 3 3].map .add) 0 = .ok (w, p) ∧
    (w.out, w.stored) = ([pt 3 3, pt 1 2], [pt 9 1, pt 1 2, pt 3 3]) :=
  exists_of_run (f := fun (w : ManagerWorld F64) => (w.out, w.stored)) (by decide +kernel)

/-- C147: the same for every number of datapoints to be taken out, and every order of putting them back. A million readings of the clock are allowed. -/
example (k : Int) (hk : 0 ≤ k) : ∃ w p w1 p1 out, runManager (fun _ => 0) (FloatExample.nats [1, 1]) 1 10 knnCos kfnCos three 0 = .ok (w, p) ∧
    runManager (fun _ => 0) (FloatExample.nats [1, 1]) 1 10 knnCos kfnCos (three ++ [.knnLookup (FloatExample.nats [1, 1]) k true]) 0 = .ok (w1, p1) ∧
    w1.out = w.out ++ out ∧ (w1.stored ++ out).Perm w.stored ∧ ∀ ds : List (DataPoint F64), ds.Perm out →
      ∃ w2 p2, runManager (fun _ => 0) (FloatExample.nats [1, 1]) 1 10 knnCos kfnCos
          (three ++ [.knnLookup (FloatExample.nats [1, 1]) k true] ++ ds.map .add) 0 = .ok (w2, p2) ∧
        (p2 ≤ 1000000 → w2.accepted = ds.reverse ++ w.accepted ∧ w2.stored.Perm w.stored) :=
  C147_manager_partial (tk := fun _ => 0) (N := 1000000) (fun _ _ _ => Int.le_refl _)
    (range_nat (a := 1) (b := 9) (by omega) (by omega) (by norm_num)) (by norm_num) (FloatExample.nats [1, 1]) (initCap := 1) (by omega) 10
    (prefabs_goodSearch (F := F64)).2.1 three (fun o h => by
      obtain ⟨d, rfl, h1, _⟩ := three_ok o h
      exact ⟨trivial, trivial, h1⟩) (fun d h => by
      obtain ⟨e, h0, _, h1⟩ := three_ok _ h
      cases h0
      exact h1) (.knnLookup (FloatExample.nats [1, 1]) k true) hk trivial (fun d h => by cases h)

end Trypo
