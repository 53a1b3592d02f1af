import Verif.Spec.Locks
import Verif.Proofs.Run

/-!
# Requests that access a namespace once, interleaved
-/

namespace Trypo

open Spec

variable {F : Type} [GoFloat F]

theorem serve_access (env : Env) (fac : Factory F) {r : Request F} (h : r.oneAccess) :
    ∃ (β : Type) (f : Manager F → Go (β × Manager F)) (g : β → Answer F) (k : Option Nat → Prog F (Answer F)),
      r.serve env fac = .act (.lookup r.node r.ns) k ∧ ∀ s, k (some s) = .act (.slot s f) (fun b => .ret (g b)) := by
  cases r with
  | distributeFast a ns n addrs => exact h.elim
  | distributeAccurate a ns n addrs => exact h.elim
  | stealCentroid a ns src limit fuel => exact h.elim
  | _ => exact ⟨_, _, _, _, rfl, fun _ => rfl⟩

/-- A request that is at its second step, for a slot. -/
def AtSlot (env : Env) (fac : Factory F) (r : Request F) (s : Nat) (t : Prog F (Answer F)) : Prop :=
  ∃ k, r.serve env fac = .act (.lookup r.node r.ns) k ∧ t = k (some s)

/-- Goroutines that serve `reqs`, the `i`-th after `c i` steps. -/
def Served (env : Env) (fac : Factory F) (w0 : World F) (reqs : List (Request F)) (c : Nat → Nat)
    (ts : List (Prog F (Answer F))) : Prop :=
  ts.length = reqs.length ∧ ∀ (i : Nat) (r : Request F), reqs[i]? = some r →
    (c i = 0 → ts[i]? = some (r.serve env fac)) ∧
    (c i = 1 → ∃ s t, w0.lookup r.node r.ns = some s ∧ ts[i]? = some t ∧ AtSlot env fac r s t) ∧
    (2 ≤ c i → ∃ a, ts[i]? = some (.ret a))

omit [GoFloat F] in
theorem slot_table {β : Type} {i : Nat} {f : Manager F → Go (β × Manager F)} {W : World F} {p p' : Nat}
    {r : β × World F} (h : (Act.slot i f).run W p = .ok (r, p')) : r.2.table = W.table := by
  match hs : W.heap[i]? with
  | none =>
    simp only [Act.run, hs] at h
    cases h
  | some s =>
    simp only [Act.run, hs] at h
    change (f s.2 p).bind (fun x => .ok ((x.1.1, { W with heap := W.heap.set i (s.1, x.1.2) }), x.2)) = _ at h
    match hf : f s.2 p with
    | .error e => rw [hf] at h; cases h
    | .ok x => rw [hf] at h; cases h; rfl

/-- What the sequential run of the requests at `order` has to be. -/
def Sequential (env : Env) (fac : Factory F) (reqs : List (Request F)) (order : List Nat) (W : World F) (p : Nat) :
    Except Panic (List (Prog F (Answer F)) × World F × Nat) → Prop
  | .ok (ts', w', p') => ∃ answers,
      (Prog.each (fun r => r.serve env fac) (order.filterMap (fun i => reqs[i]?))).run W p = .ok ((answers, w'), p') ∧
      List.Forall₂ (fun i a => ts'[i]? = some (.ret a)) order answers
  | .error e =>
      (Prog.each (fun r => r.serve env fac) (order.filterMap (fun i => reqs[i]?))).run W p = .error e

theorem run_each_cons {γ β : Type} (f : γ → Prog F β) (x : γ) (xs : List γ) (W : World F) (p : Nat) :
    (Prog.each f (x :: xs)).run W p = ((f x).run W p).bind (fun q =>
      ((Prog.each f xs).run q.1.2 q.2).bind (fun q' => .ok ((q.1.1 :: q'.1.1, q'.1.2), q'.2))) := by
  change ((f x) >>= fun y => (Prog.each f xs) >>= fun ys => pure (y :: ys) : Prog F (List β)).run W p = _
  rw [run_bind]
  change ((f x).run W p).bind _ = _
  congr 1
  funext q
  change ((Prog.each f xs >>= fun ys => pure (q.1.1 :: ys) : Prog F (List β)).run q.1.2) q.2 = _
  rw [run_bind]
  rfl

theorem linear {env : Env} {fac : Factory F} {w0 : World F} {reqs : List (Request F)}
    (hone : ∀ r ∈ reqs, r.oneAccess) (hex : ∀ r ∈ reqs, w0.lookup r.node r.ns ≠ none) (sched : List Nat) :
    ∀ (c : Nat → Nat) (ts : List (Prog F (Answer F))) (W : World F) (p : Nat), W.table = w0.table →
      Served env fac w0 reqs c ts →
      (∀ i ∈ seconds reqs.length c sched, c i ≤ 1) ∧ (seconds reqs.length c sched).Nodup ∧
      (∀ i ∈ seconds reqs.length c sched, i < reqs.length) ∧
      Sequential env fac reqs (seconds reqs.length c sched) W p (Pool.run sched ts W p) ∧
      ∀ ts' w' p', Pool.run sched ts W p = .ok (ts', w', p') →
        (∀ i, i < reqs.length → 2 ≤ c i → ts'[i]? = ts[i]?) ∧
        ∀ i a, i < reqs.length → ts'[i]? = some (.ret a) → i ∈ seconds reqs.length c sched ∨ 2 ≤ c i := by
  induction sched with
  | nil =>
    intro c ts W p htab hs
    refine ⟨by simp [seconds], by simp [seconds], by simp [seconds], ⟨[], rfl, .nil⟩, ?_⟩
    intro ts' w' p' e
    simp only [Pool.run, Except.ok.injEq, Prod.mk.injEq] at e
    obtain ⟨rfl, rfl, rfl⟩ := e
    refine ⟨fun _ _ _ => rfl, fun i a hi ha => .inr ?_⟩
    by_contra hc
    obtain ⟨h0, h1, _⟩ := hs.2 i _ (List.getElem?_eq_getElem hi)
    obtain ⟨β, f, g, k, hk1, hk2⟩ := serve_access env fac (hone _ (List.getElem_mem hi))
    have : c i = 0 ∨ c i = 1 := by omega
    rcases this with hc | hc
    · rw [h0 hc, hk1] at ha
      cases ha
    · obtain ⟨s, t, _, ht, k', hk', rfl⟩ := h1 hc
      rw [hk1] at hk'
      cases hk'
      rw [ht, hk2] at ha
      cases ha
  | cons i is ih =>
    intro c ts W p htab hs
    set c' : Nat → Nat := fun j => if j = i then c i + 1 else c j with hc'
    by_cases hi : i < reqs.length
    swap
    · -- no such goroutine
      have hnone : ts[i]? = none := List.getElem?_eq_none (by rw [hs.1]; omega)
      have hrun : Pool.run (i :: is) ts W p = Pool.run is ts W p := by simp only [Pool.run, hnone]
      have hsec : seconds reqs.length c (i :: is) = seconds reqs.length c' is := by
        simp only [seconds, hi, false_and, if_false, List.nil_append]
        rfl
      have hcc : ∀ j, j < reqs.length → c' j = c j := by
        intro j hj
        have : j ≠ i := by omega
        simp only [hc', if_neg this]
      have hs' : Served env fac w0 reqs c' ts := by
        refine ⟨hs.1, fun j r hj => ?_⟩
        have hj' : j < reqs.length := by
          by_contra hc
          rw [List.getElem?_eq_none (by omega)] at hj
          cases hj
        rw [hcc j hj']
        exact hs.2 j r hj
      obtain ⟨a1, a2, a3, a4, a5⟩ := ih c' ts W p htab hs'
      rw [hrun, hsec]
      refine ⟨fun j hj => ?_, a2, a3, a4, ?_⟩
      · rw [← hcc j (a3 j hj)]
        exact a1 j hj
      · intro ts' w' p' e
        obtain ⟨b1, b2⟩ := a5 ts' w' p' e
        refine ⟨fun j hj h => b1 j hj (by rw [hcc j hj]; exact h), fun j a hj h => ?_⟩
        rw [← hcc j hj]
        exact b2 j a hj h
    · have hlen : i < ts.length := by rw [hs.1]; exact hi
      have hr := List.getElem?_eq_getElem hi
      obtain ⟨h0, h1, h2⟩ := hs.2 i _ hr
      obtain ⟨β, f, g, k, hk1, hk2⟩ := serve_access env fac (hone _ (List.getElem_mem hi))
      obtain ⟨s, hslot⟩ := Option.ne_none_iff_exists'.1 (hex _ (List.getElem_mem hi))
      have hlook : W.lookup reqs[i].node reqs[i].ns = some s := by
        simpa only [World.lookup, htab] using hslot
      have hself : c' i = c i + 1 := by simp [hc']
      have hother : ∀ j, j ≠ i → c' j = c j := fun j hj => by simp [hc', hj]
      by_cases hc2 : 2 ≤ c i
      · -- already done
        obtain ⟨a, ha⟩ := h2 hc2
        have hrun : Pool.run (i :: is) ts W p = Pool.run is ts W p := by simp only [Pool.run, ha]
        have hne : c i ≠ 1 := by omega
        have hsec : seconds reqs.length c (i :: is) = seconds reqs.length c' is := by
          simp only [seconds, hne, and_false, if_false, List.nil_append]
          rfl
        have hs' : Served env fac w0 reqs c' ts := by
          refine ⟨hs.1, fun j r hj => ?_⟩
          by_cases hji : j = i
          · subst hji
            rw [hself]
            exact ⟨fun h => by omega, fun h => by omega, fun _ => ⟨a, ha⟩⟩
          · rw [hother j hji]
            exact hs.2 j r hj
        obtain ⟨a1, a2, a3, a4, a5⟩ := ih c' ts W p htab hs'
        rw [hrun, hsec]
        refine ⟨fun j hj => ?_, a2, a3, a4, ?_⟩
        · by_cases hji : j = i
          · subst hji
            have := a1 j hj
            omega
          · rw [← hother j hji]
            exact a1 j hj
        · intro ts' w' p' e
          obtain ⟨b1, b2⟩ := a5 ts' w' p' e
          refine ⟨fun j hj h => b1 j hj (by by_cases hji : j = i <;> [(subst hji; omega); (rw [hother j hji]; exact h)]),
            fun j a hj h => ?_⟩
          by_cases hji : j = i
          · subst hji
            exact .inr hc2
          · rw [← hother j hji]
            exact b2 j a hj h
      · by_cases hc0 : c i = 0
        · -- the slot is looked up
          have hti := h0 hc0
          rw [hk1] at hti
          have hrun : Pool.run (i :: is) ts W p = Pool.run is (ts.set i (k (some s))) W p := by
            simp only [Pool.run, hti]
            change Pool.run is (ts.set i (k (W.lookup reqs[i].node reqs[i].ns))) W p = _
            rw [hlook]
          have hne : c i ≠ 1 := by omega
          have hsec : seconds reqs.length c (i :: is) = seconds reqs.length c' is := by
            simp only [seconds, hne, and_false, if_false, List.nil_append]
            rfl
          have hs' : Served env fac w0 reqs c' (ts.set i (k (some s))) := by
            refine ⟨by simpa using hs.1, fun j r hj => ?_⟩
            by_cases hji : j = i
            · subst hji
              rw [hr] at hj
              cases hj
              rw [hself]
              refine ⟨fun h => by omega, fun _ => ⟨s, _, hslot, List.getElem?_set_self hlen, k, hk1, rfl⟩,
                fun h => by omega⟩
            · rw [hother j hji, List.getElem?_set_ne (Ne.symm hji)]
              exact hs.2 j r hj
          obtain ⟨a1, a2, a3, a4, a5⟩ := ih c' _ W p htab hs'
          rw [hrun, hsec]
          refine ⟨fun j hj => ?_, a2, a3, a4, ?_⟩
          · by_cases hji : j = i
            · subst hji
              omega
            · rw [← hother j hji]
              exact a1 j hj
          · intro ts' w' p' e
            obtain ⟨b1, b2⟩ := a5 ts' w' p' e
            refine ⟨fun j hj h => ?_, fun j a hj h => ?_⟩
            · have hji : j ≠ i := by rintro rfl; omega
              rw [b1 j hj (by rw [hother j hji]; exact h), List.getElem?_set_ne (Ne.symm hji)]
            · rcases b2 j a hj h with h' | h'
              · exact .inl h'
              · by_cases hji : j = i
                · subst hji
                  omega
                · exact .inr (by rw [← hother j hji]; exact h')
        · -- the access
          have hc1 : c i = 1 := by omega
          obtain ⟨s', t, hs1, hti, k', hk', rfl⟩ := h1 hc1
          rw [hk1] at hk'
          cases hk'
          obtain rfl : s = s' := by rw [hslot] at hs1; exact Option.some.inj hs1
          rw [hk2] at hti
          have hsec : seconds reqs.length c (i :: is) = i :: seconds reqs.length c' is := by
            simp only [seconds, hc1, hi, and_self, if_true, List.cons_append, List.nil_append]
            simp only [hc', hc1]
          have hserve : (reqs[i].serve env fac).run W p =
              ((Act.slot s f).run W p).bind (fun q => .ok ((g q.1.1, q.1.2), q.2)) := by
            rw [hk1]
            change ((k (W.lookup reqs[i].node reqs[i].ns)).run W p) = _
            rw [hlook, hk2]
            rfl
          match hrun1 : (Act.slot s f).run W p with
          | .error e =>
            have hrun : Pool.run (i :: is) ts W p = .error e := by simp only [Pool.run, hti, hrun1]
            -- the facts about the order do not depend on the run
            have hs' : Served env fac w0 reqs c' (ts.set i (.ret .done)) := by
              refine ⟨by simpa using hs.1, fun j r hj => ?_⟩
              by_cases hji : j = i
              · subst hji
                rw [hself]
                exact ⟨fun h => by omega, fun h => by omega, fun _ => ⟨_, List.getElem?_set_self hlen⟩⟩
              · rw [hother j hji, List.getElem?_set_ne (Ne.symm hji)]
                exact hs.2 j r hj
            obtain ⟨a1, a2, a3, _, _⟩ := ih c' _ W p htab hs'
            rw [hsec]
            refine ⟨?_, ?_, ?_, ?_, ?_⟩
            · intro j hj
              rcases List.mem_cons.1 hj with rfl | hj
              · omega
              · by_cases hji : j = i
                · subst hji; omega
                · rw [← hother j hji]
                  exact a1 j hj
            · refine List.nodup_cons.2 ⟨fun h => ?_, a2⟩
              have := a1 i h
              omega
            · intro j hj
              rcases List.mem_cons.1 hj with rfl | hj
              · exact hi
              · exact a3 j hj
            · rw [hrun]
              simp only [Sequential, List.filterMap_cons, hr]
              rw [run_each_cons, hserve, hrun1]
              rfl
            · intro ts' w' p' e'
              rw [hrun] at e'
              cases e'
          | .ok ((b, W'), p') =>
            have hrun : Pool.run (i :: is) ts W p = Pool.run is (ts.set i (.ret (g b))) W' p' := by
              simp only [Pool.run, hti, hrun1]
            have htab' : W'.table = w0.table := (slot_table hrun1).trans htab
            have hs' : Served env fac w0 reqs c' (ts.set i (.ret (g b))) := by
              refine ⟨by simpa using hs.1, fun j r hj => ?_⟩
              by_cases hji : j = i
              · subst hji
                rw [hself]
                exact ⟨fun h => by omega, fun h => by omega, fun _ => ⟨_, List.getElem?_set_self hlen⟩⟩
              · rw [hother j hji, List.getElem?_set_ne (Ne.symm hji)]
                exact hs.2 j r hj
            obtain ⟨a1, a2, a3, a4, a5⟩ := ih c' _ W' p' htab' hs'
            rw [hrun, hsec]
            refine ⟨?_, ?_, ?_, ?_, ?_⟩
            · intro j hj
              rcases List.mem_cons.1 hj with rfl | hj
              · omega
              · by_cases hji : j = i
                · subst hji; omega
                · rw [← hother j hji]
                  exact a1 j hj
            · refine List.nodup_cons.2 ⟨fun h => ?_, a2⟩
              have := a1 i h
              omega
            · intro j hj
              rcases List.mem_cons.1 hj with rfl | hj
              · exact hi
              · exact a3 j hj
            · match hrest : Pool.run is (ts.set i (.ret (g b))) W' p' with
              | .error e =>
                rw [hrest] at a4
                simp only [Sequential] at a4 ⊢
                simp only [List.filterMap_cons, hr]
                rw [run_each_cons, hserve, hrun1]
                simp only [Except.bind]
                rw [a4]
              | .ok (ts'', w'', p'') =>
                rw [hrest] at a4
                obtain ⟨answers, e1, e2⟩ := a4
                refine ⟨g b :: answers, ?_, .cons ?_ e2⟩
                · simp only [List.filterMap_cons, hr]
                  rw [run_each_cons, hserve, hrun1]
                  simp only [Except.bind]
                  rw [e1]
                · rw [(a5 _ _ _ hrest).1 i hi (by omega), List.getElem?_set_self hlen]
            · intro ts' w' p' e
              obtain ⟨b1, b2⟩ := a5 ts' w' p' e
              refine ⟨fun j hj h => ?_, fun j a hj h => ?_⟩
              · have hji : j ≠ i := by rintro rfl; omega
                rw [b1 j hj (by rw [hother j hji]; exact h), List.getElem?_set_ne (Ne.symm hji)]
              · by_cases hji : j = i
                · subst hji
                  exact .inl (by simp)
                · rcases b2 j a hj h with h' | h'
                  · exact .inl (List.mem_cons_of_mem _ h')
                  · exact .inr (by rw [← hother j hji]; exact h')

end Trypo
