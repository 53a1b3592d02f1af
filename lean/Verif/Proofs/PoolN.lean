import Verif.Proofs.SafeN

/-!
# Any number of goroutines on any namespaces
-/

set_option linter.unusedSectionVars false
set_option linter.unusedVariables false

namespace Trypo
open GoFloat Spec

variable {F : Type} [GoFloat F] [LawfulCmp F] {α : Type}

/-- A goroutine with what is known about it. -/
structure NTask (F α : Type) where
  prog : Prog F α
  L : View
  H : Bags F
  M : Log F
  Q : α → View → Bags F → Log F → Prop

/-- What is known is true. -/
def NTask.Good (c : NCtx F) (t : NTask F α) : Prop := SafeN c t.prog t.L t.H t.M t.Q

/-- All that `f` finds in the tasks. -/
def sumN {β : Type} (f : NTask F α → NS → List β) (ts : List (NTask F α)) (ns : NS) : List β := ts.flatMap (fun t => f t ns)

theorem sumN_split {β : Type} (ns : NS) (f : NTask F α → NS → List β) {ts : List (NTask F α)} {i : Nat} {t : NTask F α}
    (h : ts[i]? = some t) : ∃ X, (sumN f ts ns).Perm (f t ns ++ X) ∧ ∀ t', (sumN f (ts.set i t') ns).Perm (f t' ns ++ X) := by
  obtain ⟨hlt, hg⟩ := List.getElem?_eq_some_iff.1 h
  have e1 : ts = ts.take i ++ t :: ts.drop (i + 1) := by
    rw [← hg, List.getElem_cons_drop, List.take_append_drop]
  have e2 : ∀ t', ts.set i t' = ts.take i ++ t' :: ts.drop (i + 1) := by
    intro t'; rw [List.set_eq_take_append_cons_drop, if_pos hlt]
  have key : ∀ (a b : List (NTask F α)) (x : NTask F α),
      (sumN f (a ++ x :: b) ns).Perm (f x ns ++ (sumN f a ns ++ sumN f b ns)) := by
    intro a b x
    unfold sumN
    rw [List.flatMap_append, List.flatMap_cons]
    exact List.perm_append_comm_assoc _ _ _
  refine ⟨_, (List.Perm.of_eq ?_).trans (key (ts.take i) (ts.drop (i + 1)) t), fun t' => ?_⟩
  · rw [← e1]
  · rw [e2]; exact key _ _ t'

/-- What a pool has done since the start. -/
structure PoolN (c : NCtx F) (ts : List (NTask F α)) (w : World F) (p : Nat) (ts' : List (NTask F α)) (w' : World F) (p' : Nat) :
    Prop where
  le : p ≤ p'
  inv : c.Inv w'
  good : ∀ t ∈ ts', t.Good c ∧ t.L.Le (view w')
  same : ts'.map NTask.Q = ts.map NTask.Q
  view : (view w).Le (view w')
  conserved : ∃ mint : Log F, (∀ nss : List NS, nss.Nodup → LostReplies c.env p p' (nss.flatMap mint).length) ∧
    ∀ ns, (sumN NTask.M ts' ns).Perm (mint ns ++ sumN NTask.M ts ns) ∧ (∀ e ∈ mint ns, (c.at ns).Fine e) ∧
    Conserved (c.env.tk p') (extras (mint ns) ++ (sumN NTask.H ts ns ++ held w ns)) (sumN NTask.H ts' ns ++ held w' ns) (losts (mint ns))

theorem map_set_sameN {β : Type*} {f : NTask F α → β} {ts : List (NTask F α)} {i : Nat} {t t' : NTask F α} (h : ts[i]? = some t)
    (hf : f t' = f t) : (ts.set i t').map f = ts.map f := by
  refine List.ext_getElem? (fun j => ?_)
  rw [List.getElem?_map, List.getElem?_map, List.getElem?_set]
  by_cases hj : i = j
  · subst hj
    rw [if_pos rfl, if_pos (List.getElem?_eq_some_iff.1 h).1, h]
    simp [hf]
  · rw [if_neg hj]

theorem pool_safeN {c : NCtx F} (hm : MonoClock c.env.tk) :
    ∀ (sched : List Nat) (ts : List (NTask F α)) (w : World F) (p : Nat), c.Inv w →
      (∀ t ∈ ts, t.Good c ∧ t.L.Le (view w)) → (∀ ns, ∀ d ∈ sumN NTask.H ts ns ++ held w ns, c.U ns d) →
      (∀ k ps w1 p1, Pool.run (sched.take k) (ts.map NTask.prog) w p = .ok (ps, w1, p1) → ∀ ns d, TurnedAway w1 ns d → c.R ns d) →
      ∃ ts' w' p', Pool.run sched (ts.map NTask.prog) w p = .ok (ts'.map NTask.prog, w', p') ∧ PoolN c ts w p ts' w' p'
  | [], ts, w, p, hw, hts, hu, ht =>
    ⟨ts, w, p, rfl, ⟨Nat.le_refl _, hw, hts, rfl, .refl _, fun _ => [], fun nss _ => LostReplies.zero.le (by simp),
      fun ns => ⟨.refl _, by simp, Conserved.refl _ _⟩⟩⟩
  | i :: is, ts, w, p, hw, hts, hu, hR => by
    have skip := fun h => pool_safeN hm is ts w p hw hts hu h
    rw [Pool.run, List.getElem?_map]
    cases ht : ts[i]? with
    | none => exact skip (fun k ps w1 p1 hk => hR (k + 1) ps w1 p1 (by
        rw [List.take_succ_cons, Pool.run, List.getElem?_map, ht]; exact hk))
    | some t =>
      obtain ⟨prog, L, H, M, Q⟩ := t
      obtain ⟨hg, hL⟩ := hts _ (List.mem_of_getElem? ht)
      cases prog with
      | ret x => exact skip (fun k ps w1 p1 hk => hR (k + 1) ps w1 p1 (by
          rw [List.take_succ_cons, Pool.run, List.getElem?_map, ht]; exact hk))
      | act a k =>
        obtain ⟨r, p1, hrun, H', mint, hs, hk⟩ := Go.wp_iff.1 (hg w p hw hL (by
          intro ns d hd
          refine hu ns d ?_
          obtain ⟨Y, y1, _⟩ := sumN_split ns NTask.H ht
          rcases List.mem_append.1 hd with h | h
          · exact List.mem_append.2 (.inl (y1.symm.subset (by simp [h])))
          · exact List.mem_append.2 (.inr h)) (hR 0 (ts.map NTask.prog) w p (by simp [Pool.run])))
        simp only [Option.map_some, hrun]
        have hin : ∀ t ∈ ts.set i ⟨k r.1, view r.2, H', Bags.add mint M, Q⟩, t.Good c ∧ t.L.Le (view r.2) := by
          intro t htm
          rcases List.mem_or_eq_of_mem_set htm with h | rfl
          · exact ⟨(hts t h).1, (hts t h).2.trans hs.view⟩
          · exact ⟨hk, .refl _⟩
        have hu' : ∀ ns, ∀ d ∈ sumN NTask.H (ts.set i ⟨k r.1, view r.2, H', Bags.add mint M, Q⟩) ns ++ held r.2 ns, c.U ns d := by
          intro ns d hd
          obtain ⟨Y, y1, y2⟩ := sumN_split ns NTask.H ht
          have y3 := y2 ⟨k r.1, view r.2, H', Bags.add mint M, Q⟩
          simp only at y1 y3
          obtain ⟨lost, c1, _⟩ := hs.conserved ns
          have hu1 := hu ns
          have h4 : d ∈ H' ns ++ held r.2 ns ∨ d ∈ Y := by
            rcases List.mem_append.1 hd with h | h
            · rcases List.mem_append.1 (y3.subset h) with h | h
              · exact .inl (by simp [h])
              · exact .inr h
            · exact .inl (by simp [h])
          rcases h4 with h | h
          · rcases List.mem_append.1 (c1.subset (show d ∈ _ from List.mem_append.2 (.inl (List.mem_append.2 (.inl h))))) with h | h
            · exact Ctx.fine_extras (hs.minted ns) d h
            · rcases List.mem_append.1 h with h | h
              · exact hu1 d (List.mem_append.2 (.inl (y1.symm.subset (by simp [h]))))
              · exact hu1 d (by simp [h])
          · exact hu1 d (List.mem_append.2 (.inl (y1.symm.subset (by simp [h]))))
        obtain ⟨ts', w', p', hrun', hp⟩ := pool_safeN hm is _ r.2 p1 hs.inv hin hu' (fun k' ps w1 p2 hk' => hR (k' + 1) ps w1 p2 (by
          rw [List.take_succ_cons, Pool.run, List.getElem?_map, ht]
          simp only [Option.map_some, hrun]
          rw [← hk', List.map_set]))
        refine ⟨ts', w', p', ?_, ?_⟩
        · rw [← hrun', List.map_set]
        · refine ⟨Nat.le_trans hs.le hp.le, hp.inv, hp.good, ?_, hs.view.trans hp.view, ?_⟩
          · rw [hp.same]
            exact map_set_sameN ht rfl
          · obtain ⟨m2, few, e0⟩ := hp.conserved
            refine ⟨fun ns => m2 ns ++ mint ns, fun nss hnd => ?_, fun ns => ?_⟩
            · refine ((hs.few nss hnd).append (few nss hnd) hs.le hp.le).le ?_
              rw [← List.length_append]
              refine Nat.le_of_eq (List.Perm.length_eq ?_)
              refine List.Perm.trans ?_ (List.flatMap_append_perm nss mint m2).symm
              exact List.Perm.flatMap_left _ (fun x _ => List.perm_append_comm)
            obtain ⟨e1, e1', e2⟩ := e0 ns
            obtain ⟨X, x1, x2⟩ := sumN_split ns NTask.M ht
            obtain ⟨Y, y1, y2⟩ := sumN_split ns NTask.H ht
            have x3 := x2 ⟨k r.1, view r.2, H', Bags.add mint M, Q⟩
            have y3 := y2 ⟨k r.1, view r.2, H', Bags.add mint M, Q⟩
            simp only [Bags.add] at x1 x3 y1 y3
            refine ⟨by permc [e1, x1, x3], fun d hd => (List.mem_append.1 hd).elim (e1' d) (hs.minted ns d), ?_⟩
            obtain ⟨l1, c1, c1'⟩ := (hs.conserved ns).mono hm hp.le
            obtain ⟨l2, c2, c2'⟩ := e2
            refine ⟨l1 ++ l2, by simp only [extras_append, losts_append]; permc [c1, c2, y1, y3], ?_⟩
            intro d hd
            exact (List.mem_append.1 hd).elim (c1' d) (c2' d)

end Trypo
