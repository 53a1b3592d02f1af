import Verif.Spec.Lossy
import Verif.Props.Distribute

/-!
# C118: what lost replies can do to puts, queries and distributions
-/

set_option linter.unusedSectionVars false
set_option linter.unusedVariables false

namespace Trypo
open GoFloat Spec

variable {F : Type} [GoFloat F] [LawfulCmp F]

/-! ### Puts -/

/-- `AddDataPoint` of a client, when replies may be lost. -/
theorem wp_client_add_lossy {env : Env} (hm : MonoClock env.tk) {fac : Factory F} (hf : FactoryOK fac) {D : NS → Nat} {w : World F}
    (hw : WorldOK D w) (a : Addr) (ns : NS) (d : DataPoint F) (hd : d.vec.length = D ns) (p : Nat) :
    Go.wp ((Client.addDataPoint env fac a ns d).run w) (fun r p' => p ≤ p' ∧ WorldOK D r.2 ∧
      (r.1 = true → Acked (env.tk p') D a ns d w r.2) ∧
      (r.1 = false → (r.2 = w ∧ Down env a) ∨ (Unheard env a ∧ Acked (env.tk p') D a ns d w r.2))) p := by
  unfold Client.addDataPoint Client.call
  simp only [run_bind, Go.wp_bind, run_loc]
  refine wp_sent ?_
  rw [Go.wp_pure]
  cases hup : env.up p a with
  | false =>
    simp only [Bool.false_eq_true, if_false, run_pure, Go.wp_pure, Option.getD_none]
    exact ⟨by omega, hw, fun h => by simp at h, fun _ => .inl ⟨trivial, p, hup⟩⟩
  | true =>
    simp only [if_true, run_bind, Go.wp_bind]
    refine Go.wp_mono (wp_server_add hm hf hw a ns d (p + 1)) (fun r p1 hr => ?_)
    obtain ⟨h1, h2, h3, h4⟩ := hr
    rw [run_pure, Go.wp_pure, run_loc, Go.wp_bind]
    refine wp_arrived ?_
    rw [Go.wp_pure]
    cases hb : env.back p1 a with
    | false =>
      simp only [Bool.false_eq_true, if_false, run_pure, Go.wp_pure, Option.getD_none]
      exact ⟨by omega, h4 hd, fun h => by simp at h, fun _ => .inr ⟨⟨p1, hb⟩, h3.mono hm (by omega)⟩⟩
    | true =>
      simp only [if_true, run_pure, Go.wp_pure, Option.getD_some, h2]
      exact ⟨by omega, h4 hd, fun _ => h3.mono hm (by omega), fun h => by simp at h⟩

theorem _root_.Trypo.Spec.PutTried.mono {env : Env} (hm : MonoClock env.tk) {p q : Nat} (h : p ≤ q) {D : NS → Nat} {ns : NS}
    {d : DataPoint F} {as : List Addr} {w w' : World F} {s : List Addr} {ok : Bool} (hh : PutTried env (env.tk p) D ns d as w w' s ok) :
    PutTried env (env.tk q) D ns d as w w' s ok := by
  induction hh with
  | over => exact .over
  | down h1 _ ih => exact .down h1 ih
  | unheard hw h1 h2 _ ih => exact .unheard hw h1 (h2.mono hm h) ih
  | acked hw h1 => exact .acked hw (h1.mono hm h)

theorem wp_put_lossy {env : Env} (hm : MonoClock env.tk) {fac : Factory F} (hf : FactoryOK fac) {D : NS → Nat}
    (ns : NS) (d : DataPoint F) (hd : d.vec.length = D ns) : ∀ (as : List Addr) (w : World F) (p : Nat), WorldOK D w →
    Go.wp ((Dps.putDataPoint env fac ns d as).run w) (fun r p' => p ≤ p' ∧ WorldOK D r.2 ∧ ∃ s,
      PutTried env (env.tk p') D ns d as w r.2 s r.1) p
  | [], w, p, hw => by
    unfold Dps.putDataPoint
    rw [run_pure, Go.wp_pure]
    exact ⟨Nat.le_refl _, hw, [], .over⟩
  | a :: as, w, p, hw => by
    unfold Dps.putDataPoint
    rw [run_bind, Go.wp_bind]
    refine Go.wp_mono (wp_client_add_lossy hm hf hw a ns d hd p) (fun r p1 h => ?_)
    obtain ⟨h1, h2, h3, h4⟩ := h
    cases hb : r.1 with
    | true =>
      simp only [if_true, run_pure, Go.wp_pure]
      exact ⟨h1, h2, [], .acked hw (h3 hb)⟩
    | false =>
      simp only [Bool.false_eq_true, if_false]
      refine Go.wp_mono (wp_put_lossy hm hf ns d hd as r.2 p1 h2) (fun q p2 hq => ?_)
      obtain ⟨q1, q2, s, q3⟩ := hq
      refine ⟨Nat.le_trans h1 q1, q2, ?_⟩
      rcases h4 hb with ⟨h5, h6⟩ | ⟨h5, h6⟩
      · rw [h5] at q3
        exact ⟨s, .down h6 q3⟩
      · exact ⟨a :: s, .unheard hw h5 (h6.mono hm q1) q3⟩

/-- A change at one node with something added, seen from a list of nodes. -/
theorem conserved_nodes_add {t : Int} {w w' : World F} {a : Addr} {ns : NS} {new gone : List (DataPoint F)}
    (h : Conserved t (new ++ storedAt w [a] ns) (storedAt w' [a] ns) gone) (ho : ∀ b, b ≠ a → w'.get b ns = w.get b ns)
    {nodes : List Addr} (hn : nodes.Nodup) (ha : a ∈ nodes) : Conserved t (new ++ storedAt w nodes ns) (storedAt w' nodes ns) gone := by
  obtain ⟨l, l', rfl⟩ := List.append_of_mem ha
  rw [List.nodup_append, List.nodup_cons] at hn
  have e1 : storedAt w' l ns = storedAt w l ns := storedAt_congr (fun b hb => ho b (fun e => hn.2.2 b hb a (by simp) e))
  have e2 : storedAt w' l' ns = storedAt w l' ns := storedAt_congr (fun b hb => ho b (fun e => hn.2.1.1 (e ▸ hb)))
  simp only [storedAt_append, storedAt_cons w a l', storedAt_cons w' a l', e1, e2]
  obtain ⟨lost, h1, h2⟩ := h
  exact ⟨lost, by permc [h1], h2⟩

theorem conserved_add_trans {t : Int} {A B C X Y G G' : List (DataPoint F)} (h : Conserved t (X ++ A) B G) (h' : Conserved t (Y ++ B) C G') :
    Conserved t (X ++ Y ++ A) C (G ++ G') := by
  obtain ⟨l, h1, h2⟩ := h
  obtain ⟨l', h3, h4⟩ := h'
  refine ⟨l ++ l', by permc [h1, h3], fun d hd => ?_⟩
  rcases List.mem_append.1 hd with h | h
  · exact h2 d h
  · exact h4 d h

/-- An acknowledgement adds one copy, or none if the datapoint was refused. -/
theorem Spec.Acked.copies {t : Int} {D : NS → Nat} {a : Addr} {ns : NS} {d : DataPoint F} {w w' : World F} (hw : WorldOK D w)
    (h : Acked t D a ns d w w') : ∃ k, k ≤ 1 ∧ (k = 0 → RefusedSomewhere D ns d) ∧ ∀ nodes : List Addr, nodes.Nodup → a ∈ nodes →
      Conserved t (List.replicate k d ++ storedAt w nodes ns) (storedAt w' nodes ns) [] := by
  obtain ⟨⟨m', e1, e2 | ⟨e2, e3⟩⟩, e4⟩ := h
  · refine ⟨1, by omega, by simp, fun nodes hn ha => conserved_nodes_add ?_ (fun b hb => e4 b ns (.inl hb)) hn ha⟩
    rw [storedAt_one e1]
    exact e2
  · refine ⟨0, by omega, fun _ => ⟨w, a, m', hw, e2, e3⟩, fun nodes hn ha => ?_⟩
    rw [storedAt_congr (w := w) (w' := w')]
    · exact .refl _ _
    · intro b _
      by_cases hb : b = a
      · rw [hb, e1, e2]
      · exact e4 b ns (.inl hb)

/-- The copies made by a put. -/
theorem Spec.PutTried.copies {env : Env} {t : Int} {D : NS → Nat} {ns : NS} {d : DataPoint F} {as : List Addr} {w w' : World F}
    {s : List Addr} {ok : Bool} (h : PutTried env t D ns d as w w' s ok) : s.Sublist as ∧ (∀ a ∈ s, Unheard env a) ∧
      (∀ b ns', (b ∉ as ∨ ns' ≠ ns) → w'.get b ns' = w.get b ns') ∧
      ∃ k, k ≤ s.length + ok.toNat ∧ (k = 0 → ok = true → RefusedSomewhere D ns d) ∧
        ∀ nodes : List Addr, nodes.Nodup → (∀ a ∈ as, a ∈ nodes) →
        Conserved t (List.replicate k d ++ storedAt w nodes ns) (storedAt w' nodes ns) [] := by
  induction h with
  | over => exact ⟨.slnil, by simp, fun _ _ _ => rfl, 0, by simp, by simp, fun _ _ _ => .refl _ _⟩
  | down _ _ ih =>
    obtain ⟨i1, i2, i3, k, i4, i5, i6⟩ := ih
    exact ⟨i1.cons _, i2, fun b ns' hb => i3 b ns' (hb.imp_left (fun h e => h (by simp [e]))), k, i4, i5,
      fun nodes hn ha => i6 nodes hn (fun b hb => ha b (by simp [hb]))⟩
  | @unheard a as w w1 w' s ok hw h hk _ ih =>
    obtain ⟨i1, i2, i3, k, i4, i5, i6⟩ := ih
    obtain ⟨j, j1, j2, j3⟩ := hk.copies hw
    refine ⟨i1.cons_cons _, by simpa using ⟨h, i2⟩, fun b ns' hb => ?_, j + k, by simp only [List.length_cons]; omega,
      fun hh ho => i5 (by omega) ho, fun nodes hn ha => ?_⟩
    · rw [i3 b ns' (hb.imp_left (fun h e => h (by simp [e]))), hk.others b ns' (hb.imp_left (fun h e => h (by simp [e])))]
    · rw [List.replicate_add]
      exact conserved_add_trans (j3 nodes hn (ha a (by simp))) (i6 nodes hn (fun b hb => ha b (by simp [hb])))
  | @acked a as w w' hw h =>
    obtain ⟨j, j1, j2, j3⟩ := h.copies hw
    exact ⟨List.nil_sublist _, by simp, fun b ns' hb => h.others b ns' (hb.imp_left (fun h e => h (by simp [e]))), j, by simpa using j1,
      fun hh _ => j2 hh, fun nodes hn ha => j3 nodes hn (ha a (by simp))⟩

theorem Spec.PutTried.putCopies {env : Env} {t : Int} {D : NS → Nat} {ns : NS} {d : DataPoint F} {as : List Addr} {w w' : World F}
    {s : List Addr} {ok : Bool} (h : PutTried env t D ns d as w w' s ok) : PutCopies env t D ns d as w w' ok := by
  obtain ⟨h1, h2, h3, k, h4, h5, h6⟩ := h.copies
  refine ⟨⟨s, k, h1, h2, h4, h6⟩, ?_, ?_, h3⟩
  · intro hok
    clear h1 h2 h3 h4 h5 h6
    induction h with
    | over => cases hok
    | down _ _ ih => exact (ih hok).imp_right (fun ⟨a, ha, h⟩ => ⟨a, by simp [ha], h⟩)
    | unheard _ _ _ _ ih => exact (ih hok).imp_right (fun ⟨a, ha, h⟩ => ⟨a, by simp [ha], h⟩)
    | @acked a as w w' hw h =>
      obtain ⟨m', e1, e2 | ⟨e2, e3⟩⟩ := h.node
      · obtain ⟨lost, c1, c2⟩ := e2
        have := c1.symm.subset (List.mem_cons_self ..)
        simp only [List.append_nil, List.mem_append] at this
        rcases this with h | h
        · exact .inr ⟨a, by simp, .inl (by rw [storedAt_one e1]; exact h)⟩
        · exact .inl (c2 d h)
      · exact .inr ⟨a, by simp, .inr ⟨m', e1, e3⟩⟩
  · intro hok
    clear h1 h2 h3 h4 h5 h6
    induction h with
    | over => simp
    | down h _ ih => simpa using ⟨.inl h, ih hok⟩
    | unheard _ h _ _ ih => simpa using ⟨.inr h, ih hok⟩
    | acked => cases hok

/-- **C118.** A put at the nodes in the given order, on any network: at most one copy for the acknowledgement and one for each node whose
reply was lost. -/
theorem C118_put {env : Env} (hm : MonoClock env.tk) {fac : Factory F} (hf : FactoryOK fac) {D : NS → Nat} {w : World F} (hw : WorldOK D w)
    (ns : NS) (d : DataPoint F) (hd : d.vec.length = D ns) (as : List Addr) (p : Nat) :
    ∃ ok w' p', (Dps.putDataPoint env fac ns d as).run w p = .ok ((ok, w'), p') ∧ WorldOK D w' ∧
      PutCopies env (env.tk p') D ns d as w w' ok := by
  obtain ⟨r, p', h0, _, h1, s, h2⟩ := Go.wp_iff.1 (wp_put_lossy hm hf ns d hd as w p hw)
  exact ⟨r.1, r.2, p', h0, h1, h2.putCopies⟩

theorem wp_putRand_lossy {env : Env} (he : EnvOK env) {fac : Factory F} (hf : FactoryOK fac) {D : NS → Nat}
    {w : World F} (hw : WorldOK D w) (ns : NS) (d : DataPoint F) (hd : d.vec.length = D ns) (addrs : List Addr) (p : Nat) :
    Go.wp ((Dps.putDataPointRand env fac addrs ns d).run w) (fun r p' => p ≤ p' ∧ WorldOK D r.2 ∧ ∃ as s, as.Perm addrs ∧
      PutTried env (env.tk p') D ns d as w r.2 s r.1) p := by
  unfold Dps.putDataPointRand
  rw [run_bind, Go.wp_bind, run_loc, Go.wp_bind]
  unfold Dps.shuffleAddrs
  refine Go.wp_mono (wp_shuffleFrom he addrs.length 0 addrs p rfl (by omega)) (fun as p1 h => ?_)
  rw [Go.wp_pure]
  exact Go.wp_mono (wp_put_lossy he.clock hf ns d hd as w p1 hw) (fun q p2 ⟨q1, q2, s, q3⟩ => ⟨Nat.le_trans h.2 q1, q2, as, s, h.1, q3⟩)

theorem wp_putFast_lossy {env : Env} (he : EnvOK env) {fac : Factory F} (hf : FactoryOK fac) {D : NS → Nat}
    {w : World F} (hw : WorldOK D w) {search : Search F} {dist : List F → List F → Option F} {asc : Bool} (hs : SearchesBest search dist asc)
    (ns : NS) (d : DataPoint F) (hd : d.vec.length = D ns) (addrs : List Addr) (p : Nat) :
    Go.wp ((Dps.putDataPointFast env fac search addrs ns d).run w) (fun r p' => p ≤ p' ∧ WorldOK D r.2 ∧ ∃ answers as s,
      (answers.map (fun q => q.1)).Perm addrs ∧
      (∀ q ∈ answers, FastAnswer env w ns q) ∧ BestFit (dist d.vec) asc answers as ∧ PutTried env (env.tk p') D ns d as w r.2 s r.1) p := by
  unfold Dps.putDataPointFast
  rw [run_bind, Go.wp_bind]
  refine Go.wp_mono (wp_bestFast he hw hs addrs ns d.vec p) (fun r p1 h => ?_)
  obtain ⟨h1, h2, answers, h3, h4, h5⟩ := h
  rw [h2]
  exact Go.wp_mono (wp_put_lossy he.clock hf ns d hd r.1 w p1 hw)
    (fun q p2 ⟨q1, q2, s, q3⟩ => ⟨Nat.le_trans h1 q1, q2, answers, r.1, s, h3, h4, h5, q3⟩)

theorem wp_putAccurate_lossy {env : Env} (he : EnvOK env) {fac : Factory F} (hf : FactoryOK fac) {D : NS → Nat}
    {w : World F} (hw : WorldOK D w) {search : Search F} {dist : List F → List F → Option F} {asc : Bool} (hs : SearchesBest search dist asc)
    (ns : NS) (d : DataPoint F) (hd : d.vec.length = D ns) (addrs : List Addr) (p : Nat) :
    Go.wp ((Dps.putDataPointAccurate env fac search addrs ns d).run w) (fun r p' => p ≤ p' ∧ WorldOK D r.2 ∧ ∃ answers as s,
      (answers.map (fun q => q.1)).Perm addrs ∧
      (∀ q ∈ answers, AccurateAnswer env w ns d.vec q) ∧ BestFit (dist d.vec) asc answers as ∧
      PutTried env (env.tk p') D ns d as w r.2 s r.1) p := by
  unfold Dps.putDataPointAccurate
  rw [run_bind, Go.wp_bind]
  refine Go.wp_mono (wp_bestAccurate he hw hs addrs ns d.vec p) (fun r p1 h => ?_)
  obtain ⟨h1, h2, answers, h3, h4, h5⟩ := h
  rw [h2]
  exact Go.wp_mono (wp_put_lossy he.clock hf ns d hd r.1 w p1 hw)
    (fun q p2 ⟨q1, q2, s, q3⟩ => ⟨Nat.le_trans h1 q1, q2, answers, r.1, s, h3, h4, h5, q3⟩)

/-- **C118**, `PutDataPointRand`, with the nodes in some order. -/
theorem C118_putRand {env : Env} (he : EnvOK env) {fac : Factory F} (hf : FactoryOK fac) {D : NS → Nat} {w : World F} (hw : WorldOK D w)
    (ns : NS) (d : DataPoint F) (hd : d.vec.length = D ns) (addrs : List Addr) (p : Nat) :
    ∃ ok w' p' as, (Dps.putDataPointRand env fac addrs ns d).run w p = .ok ((ok, w'), p') ∧ WorldOK D w' ∧ as.Perm addrs ∧
      PutCopies env (env.tk p') D ns d as w w' ok := by
  obtain ⟨r, p', h0, _, h1, as, s, h2, h3⟩ := Go.wp_iff.1 (wp_putRand_lossy he hf hw ns d hd addrs p)
  exact ⟨r.1, r.2, p', as, h0, h1, h2, h3.putCopies⟩

/-- **C118**, `PutDataPointFast`, with the nodes by fitness. -/
theorem C118_putFast {env : Env} (he : EnvOK env) {fac : Factory F} (hf : FactoryOK fac) {D : NS → Nat} {w : World F} (hw : WorldOK D w)
    {search : Search F} {dist : List F → List F → Option F} {asc : Bool} (hs : SearchesBest search dist asc)
    (ns : NS) (d : DataPoint F) (hd : d.vec.length = D ns) (addrs : List Addr) (p : Nat) :
    ∃ ok w' p' answers as, (Dps.putDataPointFast env fac search addrs ns d).run w p = .ok ((ok, w'), p') ∧ WorldOK D w' ∧
      (answers.map (fun q => q.1)).Perm addrs ∧ (∀ q ∈ answers, FastAnswer env w ns q) ∧ BestFit (dist d.vec) asc answers as ∧
      PutCopies env (env.tk p') D ns d as w w' ok := by
  obtain ⟨r, p', h0, _, h1, answers, as, s, h2, h3, h4, h5⟩ := Go.wp_iff.1 (wp_putFast_lossy he hf hw hs ns d hd addrs p)
  exact ⟨r.1, r.2, p', answers, as, h0, h1, h2, h3, h4, h5.putCopies⟩

/-- **C118**, `PutDataPointAccurate`, with the nodes by fitness. -/
theorem C118_putAccurate {env : Env} (he : EnvOK env) {fac : Factory F} (hf : FactoryOK fac) {D : NS → Nat} {w : World F} (hw : WorldOK D w)
    {search : Search F} {dist : List F → List F → Option F} {asc : Bool} (hs : SearchesBest search dist asc)
    (ns : NS) (d : DataPoint F) (hd : d.vec.length = D ns) (addrs : List Addr) (p : Nat) :
    ∃ ok w' p' answers as, (Dps.putDataPointAccurate env fac search addrs ns d).run w p = .ok ((ok, w'), p') ∧ WorldOK D w' ∧
      (answers.map (fun q => q.1)).Perm addrs ∧ (∀ q ∈ answers, AccurateAnswer env w ns d.vec q) ∧ BestFit (dist d.vec) asc answers as ∧
      PutCopies env (env.tk p') D ns d as w w' ok := by
  obtain ⟨r, p', h0, _, h1, answers, as, s, h2, h3, h4, h5⟩ := Go.wp_iff.1 (wp_putAccurate_lossy he hf hw hs ns d hd addrs p)
  exact ⟨r.1, r.2, p', answers, as, h0, h1, h2, h3, h4, h5.putCopies⟩

/-! ### Queries -/

theorem wp_client_knn_lossy {env : Env} (hm : MonoClock env.tk) {D : NS → Nat} {w : World F}
    (hw : WorldOK D w) (a : Addr) (ns : NS) (v : List F) {k : Int} (hk : 0 ≤ k) (p : Nat) :
    Go.wp ((Client.knnLookup env a ns v k true).run w) (fun r p' => p ≤ p' ∧ WorldOK D r.2 ∧ (r.1.length : Int) ≤ k ∧
      (∀ b, b ≠ a → r.2.get b ns = w.get b ns) ∧ ∃ lost, (lost = [] ∨ Unheard env a ∧ (lost.length : Int) ≤ k) ∧
        Conserved (env.tk p') (storedAt w [a] ns) (storedAt r.2 [a] ns) (r.1 ++ lost)) p := by
  unfold Client.knnLookup Client.call
  simp only [run_bind, Go.wp_bind, run_loc, Go.wp_checkMake]
  refine ⟨hk, ?_⟩
  rw [Go.wp_pure]
  refine wp_sent ?_
  rw [Go.wp_pure]
  cases hup : env.up p a with
  | false =>
    simp only [Bool.false_eq_true, if_false, run_pure, Go.wp_pure, Option.getD_none]
    exact ⟨by omega, hw, by simpa using hk, by simp, [], .inl rfl, .refl _ _⟩
  | true =>
    simp only [if_true, run_bind, Go.wp_bind]
    refine Go.wp_mono (wp_server_knn hm hw a ns v hk true (p + 1)) (fun r p1 hr => ?_)
    obtain ⟨h1, h2, h3⟩ := hr
    rw [if_pos rfl] at h3
    rw [run_loc, Go.wp_bind]
    refine wp_arrived ?_
    rw [Go.wp_pure]
    cases hb : env.back p1 a with
    | false =>
      simp only [Bool.false_eq_true, if_false, run_pure, Go.wp_pure, Option.getD_none]
      exact ⟨by omega, h2.ok, by simpa using hk, fun b hb => h2.others b ns (.inl hb), _, .inr ⟨⟨p1, hb⟩, h2.count⟩, h3.mono hm (by omega)⟩
    | true =>
      simp only [if_true, run_pure, Go.wp_pure]
      exact ⟨by omega, h2.ok, h2.count, fun b hb => h2.others b ns (.inl hb), [], .inl rfl, by
        rw [List.append_nil]; exact h3.mono hm (by omega)⟩

theorem wp_getFrom_lossy {env : Env} (hm : MonoClock env.tk) {D : NS → Nat} (ns : NS) (v : List F) (n : Int) :
    ∀ (as : List Addr) (w : World F) (res : List (DataPoint F)) (p : Nat), WorldOK D w → (res.length : Int) ≤ n →
    Go.wp ((Dps.getFrom env ns v n true as res).run w) (fun r p' => p ≤ p' ∧ ∃ out, r.1 = res ++ out ∧
      DrainedFrom env (env.tk p') ns n as w r.2 out) p
  | [], w, res, p, hw, hn => by
    unfold Dps.getFrom
    rw [run_pure, Go.wp_pure]
    exact ⟨Nat.le_refl _, [], by simp, [], [], .slnil, by simp, by simp, fun _ _ _ => .refl _ _⟩
  | a :: as, w, res, p, hw, hn => by
    unfold Dps.getFrom
    rw [run_bind, Go.wp_bind]
    refine Go.wp_mono (wp_client_knn_lossy hm hw a ns v (k := n - res.length) (by omega) p) (fun r p1 hr => ?_)
    obtain ⟨h1, h2, h3, h4, lost, h5, h6⟩ := hr
    have hn0 : 0 ≤ n := by omega
    -- the node that did not answer
    obtain ⟨s, s1, s2, s3⟩ : ∃ s : List Addr, s.Sublist [a] ∧ (∀ b ∈ s, Unheard env b) ∧ (lost.length : Int) ≤ n * s.length := by
      rcases h5 with h5 | ⟨h5, h5'⟩
      · exact ⟨[], by simp, by simp, by simp [h5]⟩
      · exact ⟨[a], by simp, by simpa using h5, by simp; omega⟩
    by_cases hfull : (((res ++ r.1).length : Nat) : Int) ≥ n
    · rw [if_pos hfull, run_pure, Go.wp_pure]
      exact ⟨h1, r.1, rfl, s, lost, s1.trans (by simp), s2, s3, fun nodes hnd hall => conserved_nodes h6 h4 hnd (hall a (by simp))⟩
    · rw [if_neg hfull]
      refine Go.wp_mono (wp_getFrom_lossy hm ns v n as r.2 (res ++ r.1) p1 h2 (by omega)) (fun q p2 hq => ?_)
      obtain ⟨q1, out, q2, s', lost', q3, q4, q5, q6⟩ := hq
      refine ⟨Nat.le_trans h1 q1, r.1 ++ out, by rw [q2, List.append_assoc], s ++ s', lost ++ lost', s1.append q3, fun b hb => ?_, ?_,
        fun nodes hnd hall => ?_⟩
      · exact (List.mem_append.1 hb).elim (s2 b) (q4 b)
      · simp only [List.length_append, Nat.cast_add, mul_add]; omega
      · have e1 := (conserved_nodes h6 h4 hnd (hall a (by simp))).mono hm q1
        obtain ⟨l, e2, e3⟩ := e1.trans (q6 nodes hnd (fun b hb => hall b (by simp [hb])))
        exact ⟨l, by permc [e2], e3⟩

theorem wp_get_lossy {env : Env} (hm : MonoClock env.tk) {D : NS → Nat} {w : World F} (hw : WorldOK D w) (ns : NS) (v : List F) {n : Int}
    (hn : 0 ≤ n) (drain : Bool) (as : List Addr) (p : Nat) :
    Go.wp ((Dps.getDataPoints env as ns v n drain).run w) (fun r p' => p ≤ p' ∧
      (drain = true → DrainedFrom env (env.tk p') ns n as w r.2 r.1)) p := by
  cases drain with
  | false => exact Go.wp_mono (wp_get hm hw ns v hn false as p) (fun r p' h => ⟨h.1, by simp⟩)
  | true =>
    unfold Dps.getDataPoints
    simp only [run_bind, Go.wp_bind, run_loc, Go.wp_checkMake]
    refine ⟨hn, ?_⟩
    rw [Go.wp_pure]
    refine Go.wp_mono (wp_getFrom_lossy hm ns v n as w [] p hw (by simpa using hn)) (fun r p' hr => ?_)
    obtain ⟨h1, out, h2, h3⟩ := hr
    rw [List.nil_append] at h2
    rw [h2]
    exact ⟨h1, fun _ => h3⟩

/-- **C118.** A query at the nodes in the given order, on any network: what a draining query took out of the nodes is in the answer or was
in a lost reply, at most `n` datapoints for each lost reply. -/
theorem C118_get {env : Env} (hm : MonoClock env.tk) {D : NS → Nat} {w : World F} (hw : WorldOK D w) (ns : NS) (v : List F) {n : Int}
    (hn : 0 ≤ n) (drain : Bool) (as : List Addr) (p : Nat) :
    ∃ out w' p', (Dps.getDataPoints env as ns v n drain).run w p = .ok ((out, w'), p') ∧
      GotFrom env (env.tk p) (env.tk p') D ns n drain as w w' out ∧ (drain = true → DrainedFrom env (env.tk p') ns n as w w' out) := by
  obtain ⟨r, p', h0, h1, h2⟩ := Go.wp_iff.1 (Go.wp_and (wp_get hm hw ns v hn drain as p) (wp_get_lossy hm hw ns v hn drain as p))
  exact ⟨r.1, r.2, p', h0, h1.2, h2.2⟩

/-- **C118**, `GetDataPointsRand`. -/
theorem C118_getRand {env : Env} (he : EnvOK env) {D : NS → Nat} {w : World F} (hw : WorldOK D w) (ns : NS) (v : List F) {n : Int}
    (hn : 0 ≤ n) (drain : Bool) (addrs : List Addr) (p : Nat) :
    ∃ out w' p' as, (Dps.getDataPointsRand env addrs ns v n drain).run w p = .ok ((out, w'), p') ∧ as.Perm addrs ∧
      GotFrom env (env.tk p) (env.tk p') D ns n drain as w w' out ∧ (drain = true → DrainedFrom env (env.tk p') ns n as w w' out) := by
  have key : Go.wp ((Dps.getDataPointsRand env addrs ns v n drain).run w) (fun r p' => ∃ as, as.Perm addrs ∧
      GotFrom env (env.tk p) (env.tk p') D ns n drain as w r.2 r.1 ∧ (drain = true → DrainedFrom env (env.tk p') ns n as w r.2 r.1)) p := by
    unfold Dps.getDataPointsRand
    rw [run_bind, Go.wp_bind, run_loc, Go.wp_bind]
    unfold Dps.shuffleAddrs
    refine Go.wp_mono (wp_shuffleFrom he addrs.length 0 addrs p rfl (by omega)) (fun as p1 h => ?_)
    rw [Go.wp_pure]
    exact Go.wp_mono (Go.wp_and (wp_get he.clock hw ns v hn drain as p1) (wp_get_lossy he.clock hw ns v hn drain as p1))
      (fun q p2 hq => ⟨as, h.1, hq.1.2.earlier he.clock h.2, hq.2.2⟩)
  obtain ⟨r, p', h0, as, h1, h2⟩ := Go.wp_iff.1 key
  exact ⟨r.1, r.2, p', as, h0, h1, h2⟩

theorem wp_getFast_lossy {env : Env} (he : EnvOK env) {D : NS → Nat} {w : World F} (hw : WorldOK D w) {search : Search F}
    {dist : List F → List F → Option F} {asc : Bool} (hs : SearchesBest search dist asc) (ns : NS) (v : List F) {n : Int}
    (hn : 0 ≤ n) (drain : Bool) (addrs : List Addr) (p : Nat) :
    Go.wp ((Dps.getDataPointsFast env search addrs ns v n drain).run w) (fun r p' => ∃ answers as, (answers.map (fun q => q.1)).Perm addrs ∧
      (∀ q ∈ answers, FastAnswer env w ns q) ∧ BestFit (dist v) asc answers as ∧
      GotFrom env (env.tk p) (env.tk p') D ns n drain as w r.2 r.1 ∧ (drain = true → DrainedFrom env (env.tk p') ns n as w r.2 r.1)) p := by
  unfold Dps.getDataPointsFast
  rw [run_bind, Go.wp_bind]
  refine Go.wp_mono (wp_bestFast he hw hs addrs ns v p) (fun r p1 h => ?_)
  obtain ⟨h1, h2, answers, h3, h4, h5⟩ := h
  rw [h2]
  exact Go.wp_mono (Go.wp_and (wp_get he.clock hw ns v hn drain r.1 p1) (wp_get_lossy he.clock hw ns v hn drain r.1 p1))
    (fun q p2 hq => ⟨answers, r.1, h3, h4, h5, hq.1.2.earlier he.clock h1, hq.2.2⟩)

theorem wp_getAccurate_lossy {env : Env} (he : EnvOK env) {D : NS → Nat} {w : World F} (hw : WorldOK D w) {search : Search F}
    {dist : List F → List F → Option F} {asc : Bool} (hs : SearchesBest search dist asc) (ns : NS) (v : List F) {n : Int}
    (hn : 0 ≤ n) (drain : Bool) (addrs : List Addr) (p : Nat) :
    Go.wp ((Dps.getDataPointsAccurate env search addrs ns v n drain).run w) (fun r p' => ∃ answers as, (answers.map (fun q => q.1)).Perm addrs ∧
      (∀ q ∈ answers, AccurateAnswer env w ns v q) ∧ BestFit (dist v) asc answers as ∧
      GotFrom env (env.tk p) (env.tk p') D ns n drain as w r.2 r.1 ∧ (drain = true → DrainedFrom env (env.tk p') ns n as w r.2 r.1)) p := by
  unfold Dps.getDataPointsAccurate
  rw [run_bind, Go.wp_bind]
  refine Go.wp_mono (wp_bestAccurate he hw hs addrs ns v p) (fun r p1 h => ?_)
  obtain ⟨h1, h2, answers, h3, h4, h5⟩ := h
  rw [h2]
  exact Go.wp_mono (Go.wp_and (wp_get he.clock hw ns v hn drain r.1 p1) (wp_get_lossy he.clock hw ns v hn drain r.1 p1))
    (fun q p2 hq => ⟨answers, r.1, h3, h4, h5, hq.1.2.earlier he.clock h1, hq.2.2⟩)

/-- **C118**, `GetDataPointsFast`. -/
theorem C118_getFast {env : Env} (he : EnvOK env) {D : NS → Nat} {w : World F} (hw : WorldOK D w) {search : Search F}
    {dist : List F → List F → Option F} {asc : Bool} (hs : SearchesBest search dist asc) (ns : NS) (v : List F) {n : Int}
    (hn : 0 ≤ n) (drain : Bool) (addrs : List Addr) (p : Nat) :
    ∃ out w' p' answers as, (Dps.getDataPointsFast env search addrs ns v n drain).run w p = .ok ((out, w'), p') ∧
      (answers.map (fun q => q.1)).Perm addrs ∧ (∀ q ∈ answers, FastAnswer env w ns q) ∧ BestFit (dist v) asc answers as ∧
      GotFrom env (env.tk p) (env.tk p') D ns n drain as w w' out ∧ (drain = true → DrainedFrom env (env.tk p') ns n as w w' out) := by
  obtain ⟨r, p', h0, answers, as, h1⟩ := Go.wp_iff.1 (wp_getFast_lossy he hw hs ns v hn drain addrs p)
  exact ⟨r.1, r.2, p', answers, as, h0, h1⟩

/-- **C118**, `GetDataPointsAccurate`. -/
theorem C118_getAccurate {env : Env} (he : EnvOK env) {D : NS → Nat} {w : World F} (hw : WorldOK D w) {search : Search F}
    {dist : List F → List F → Option F} {asc : Bool} (hs : SearchesBest search dist asc) (ns : NS) (v : List F) {n : Int}
    (hn : 0 ≤ n) (drain : Bool) (addrs : List Addr) (p : Nat) :
    ∃ out w' p' answers as, (Dps.getDataPointsAccurate env search addrs ns v n drain).run w p = .ok ((out, w'), p') ∧
      (answers.map (fun q => q.1)).Perm addrs ∧ (∀ q ∈ answers, AccurateAnswer env w ns v q) ∧ BestFit (dist v) asc answers as ∧
      GotFrom env (env.tk p) (env.tk p') D ns n drain as w w' out ∧ (drain = true → DrainedFrom env (env.tk p') ns n as w w' out) := by
  obtain ⟨r, p', h0, answers, as, h1⟩ := Go.wp_iff.1 (wp_getAccurate_lossy he hw hs ns v hn drain addrs p)
  exact ⟨r.1, r.2, p', answers, as, h0, h1⟩

/-! ### The HTTP handlers -/

/-- **C118**, the HTTP query. -/
theorem C118_query {env : Env} (he : EnvOK env) {D : NS → Nat} {w : World F} (hw : WorldOK D w) (addrs : List Addr)
    (o : Api.QueryOpts F) (hn : 0 ≤ o.n) (p : Nat) :
    ∃ ans w' p', (Api.queryDataPoint env addrs (some o)).run w p = .ok (((200, ans), w'), p') ∧
      ∃ out as, ans = out.map (fun d => ⟨d.vec, d.payload, d.expires, d.expireEnabled⟩) ∧ (∀ a ∈ as, a ∈ addrs) ∧
        GotFrom env (env.tk p) (env.tk p') D o.ns o.n o.drain as w w' out ∧
        (o.drain = true → DrainedFrom env (env.tk p') o.ns o.n as w w' out) := by
  have key : Go.wp ((Api.queryDataPoint env addrs (some o)).run w) (fun r p' => r.1.1 = 200 ∧ ∃ out as,
      r.1.2 = out.map (fun d => ⟨d.vec, d.payload, d.expires, d.expireEnabled⟩) ∧
      (∀ a ∈ as, a ∈ addrs) ∧ GotFrom env (env.tk p) (env.tk p') D o.ns o.n o.drain as w r.2 out ∧
        (o.drain = true → DrainedFrom env (env.tk p') o.ns o.n as w r.2 out)) p := by
    unfold Api.queryDataPoint
    simp only [run_bind, Go.wp_bind]
    by_cases ha : o.accurate
    · rw [if_pos ha]
      refine Go.wp_mono (wp_getAccurate_lossy he hw knnCos_searchesBest o.ns o.vec hn o.drain addrs p) (fun r p1 h => ?_)
      obtain ⟨answers, as, h1, _, h3, h4⟩ := h
      rw [run_pure, Go.wp_pure]
      exact ⟨rfl, r.1, as, rfl, bestFit_mem h1 h3, h4⟩
    · rw [if_neg ha]
      refine Go.wp_mono (wp_getFast_lossy he hw knnCos_searchesBest o.ns o.vec hn o.drain addrs p) (fun r p1 h => ?_)
      obtain ⟨answers, as, h1, _, h3, h4⟩ := h
      rw [run_pure, Go.wp_pure]
      exact ⟨rfl, r.1, as, rfl, bestFit_mem h1 h3, h4⟩
  obtain ⟨⟨⟨s, ans⟩, w'⟩, p', h0, h1, h2⟩ := Go.wp_iff.1 key
  dsimp only at h1
  subst h1
  exact ⟨ans, w', p', h0, h2⟩

/-- Trying more nodes after no acknowledgement was heard. -/
theorem Spec.PutTried.append {env : Env} {t : Int} {D : NS → Nat} {ns : NS} {d : DataPoint F} {as bs : List Addr} {w w1 w' : World F}
    {s s' : List Addr} {b ok : Bool} (h : PutTried env t D ns d as w w1 s b) (hb : b = false) (h' : PutTried env t D ns d bs w1 w' s' ok) :
    PutTried env t D ns d (as ++ bs) w w' (s ++ s') ok := by
  induction h with
  | over => exact h'
  | down h _ ih => exact .down h (ih hb h')
  | unheard hw h hk _ ih => exact .unheard hw h hk (ih hb h')
  | acked => cases hb

theorem bestFit_length {dist : List F → Option F} {asc : Bool} {addrs : List Addr} {answers : List (Addr × Option (List F))} {as : List Addr}
    (h1 : (answers.map (fun q => q.1)).Perm addrs) (h : BestFit dist asc answers as) : as.length ≤ addrs.length := by
  obtain ⟨chosen, rfl, h2, _⟩ := h
  have e1 := h2.length_eq
  have e2 := h1.length_eq
  simp only [List.length_map] at e1 e2 ⊢
  rw [e1, ← e2]
  exact List.length_filter_le _ _

/-- **C118**, the HTTP put: the fitting nodes are tried, and if none is heard to acknowledge, all of them in some order. So at most two
copies per node, all but one of them because of lost replies. -/
theorem C118_httpPut {env : Env} (he : EnvOK env) {fac : Factory F} (hf : FactoryOK fac) {D : NS → Nat} {w : World F} (hw : WorldOK D w)
    (addrs : List Addr) (o : Api.PutOpts F) (hd : o.dp.vec.length = D o.ns) (p : Nat) :
    ∃ (ok : Bool) (w' : World F) (p' : Nat) (as : List Addr), (Api.putDataPoint env fac addrs (some o)).run w p =
        .ok ((if ok then 200 else 500, w'), p') ∧ WorldOK D w' ∧
      (∀ a ∈ as, a ∈ addrs) ∧ as.length ≤ 2 * addrs.length ∧ (ok = false → ∀ a ∈ addrs, Down env a ∨ Unheard env a) ∧
      PutCopies env (env.tk p') D o.ns ⟨o.dp.vec, o.dp.payload, o.dp.expires, o.dp.expireEnabled⟩ as w w' ok := by
  let d : DataPoint F := o.dp.toDataPoint
  have first : Go.wp ((if o.accurate = true then Dps.putDataPointAccurate env fac knnCos addrs o.ns d
      else Dps.putDataPointFast env fac knnCos addrs o.ns d).run w) (fun r p' => p ≤ p' ∧ WorldOK D r.2 ∧ ∃ as s, (∀ a ∈ as, a ∈ addrs) ∧
        as.length ≤ addrs.length ∧ PutTried env (env.tk p') D o.ns d as w r.2 s r.1) p := by
    by_cases ha : o.accurate
    · rw [if_pos ha]
      refine Go.wp_mono (wp_putAccurate_lossy he hf hw knnCos_searchesBest o.ns d hd addrs p) (fun r p1 h => ?_)
      obtain ⟨h1, h2, answers, as, s, h3, h4, h5, h6⟩ := h
      exact ⟨h1, h2, as, s, bestFit_mem h3 h5, bestFit_length h3 h5, h6⟩
    · rw [if_neg ha]
      refine Go.wp_mono (wp_putFast_lossy he hf hw knnCos_searchesBest o.ns d hd addrs p) (fun r p1 h => ?_)
      obtain ⟨h1, h2, answers, as, s, h3, h4, h5, h6⟩ := h
      exact ⟨h1, h2, as, s, bestFit_mem h3 h5, bestFit_length h3 h5, h6⟩
  have key : Go.wp ((Api.putDataPoint env fac addrs (some o)).run w) (fun r p' => ∃ (ok : Bool) (as : List Addr), r.1 = (if ok then 200 else 500) ∧
      WorldOK D r.2 ∧ (∀ a ∈ as, a ∈ addrs) ∧ as.length ≤ 2 * addrs.length ∧ (ok = false → ∀ a ∈ addrs, Down env a ∨ Unheard env a) ∧
      PutCopies env (env.tk p') D o.ns d as w r.2 ok) p := by
    unfold Api.putDataPoint
    simp only [run_bind, Go.wp_bind]
    refine Go.wp_mono first (fun r p1 h => ?_)
    obtain ⟨h1, h2, as, s, h3, h4, h5⟩ := h
    cases hb : r.1 with
    | false =>
      rw [if_neg (by simp)]
      rw [hb] at h5
      refine Go.wp_mono (wp_putRand_lossy he hf h2 o.ns d hd addrs p1) (fun q p2 hq => ?_)
      obtain ⟨q1, q2, bs, s', q3, q4⟩ := hq
      rw [run_pure, Go.wp_pure]
      refine ⟨q.1, as ++ bs, by cases q.1 <;> rfl, q2, fun a ha => (List.mem_append.1 ha).elim (h3 a) (fun h => q3.subset h), ?_,
        fun hf a ha => q4.putCopies.failed hf a (q3.symm.subset ha), ((h5.mono he.clock q1).append rfl q4).putCopies⟩
      have := q3.length_eq
      rw [List.length_append]; omega
    | true =>
      rw [hb] at h5
      rw [if_pos rfl, run_pure, Go.wp_pure, run_pure, Go.wp_pure]
      exact ⟨true, as, rfl, h2, h3, by omega, by simp, h5.putCopies⟩
  obtain ⟨⟨st, w'⟩, p', h0, ok, as, h1, h2⟩ := Go.wp_iff.1 key
  dsimp only at h1
  subst h1
  exact ⟨ok, w', p', as, h0, h2⟩

/-! ### Distributions -/

theorem wp_distributeDP_lossy {env : Env} (hm : MonoClock env.tk) {fac : Factory F} (hf : FactoryOK fac) {D : NS → Nat}
    {w : World F} (hw : WorldOK D w) (ns : NS) (d : DataPoint F) (hd : d.vec.length = D ns) {remote : List (Addr × List F)}
    {answers : List (Addr × Option (List F))}
    (ha : (remote.map (fun q => (q.1, some q.2))).Perm (answers.filter (fun q => match q.2 with
        | some v => decide (v ≠ [])
        | none => false))) (p : Nat) :
    Go.wp ((Server.distributeDP env fac ns remote d).run w) (fun r p' => p ≤ p' ∧ WorldOK D r.2 ∧ ∃ as s,
      BestFit (cosineSimilarity d.vec) false answers as ∧ PutTried env (env.tk p') D ns d as w r.2 s r.1) p := by
  unfold Server.distributeDP
  rw [run_bind, Go.wp_bind, run_loc]
  simp only [Go.wp_bind, Go.wp_lift]
  obtain ⟨res, k1, k2⟩ := knnCos_searchesBest d.vec (remote.map (fun q => q.2)) remote.length
  refine ⟨res, k1, ?_⟩
  obtain ⟨chosen, c1, c2, c3⟩ := kbest_all k2
  rw [Go.wp_pure, run_distributeTo (out := chosen.map (fun q => q.1))]
  · refine Go.wp_mono (wp_put_lossy hm hf ns d hd _ w p hw) (fun r p' hrr => ?_)
    obtain ⟨r1, r2, s, r3⟩ := hrr
    refine ⟨r1, r2, _, s, ⟨chosen, rfl, ?_, c3⟩, r3⟩
    let P : Addr × Option (List F) → Bool := fun q => match q.2 with | some u => isCandidate (cosineSimilarity d.vec) false u | none => false
    have e1 : (remote.filter (fun q => isCandidate (cosineSimilarity d.vec) false q.2)).map (fun q => (q.1, some q.2)) =
        (remote.map (fun q => (q.1, some q.2))).filter P := by rw [List.filter_map]; rfl
    refine (c2.map _).trans ((List.Perm.of_eq e1).trans ((ha.filter P).trans (List.Perm.of_eq ?_)))
    rw [List.filter_filter]
    refine List.filter_congr (fun q _ => ?_)
    obtain ⟨a, o⟩ := q
    cases o with
    | none => rfl
    | some u => exact Bool.and_comm _ _
  · rw [List.forall₂_map_right_iff]
    refine c1.imp (fun i q hq => ?_)
    rw [List.getElem?_map, hq]; rfl

theorem Spec.PutTried.get_ne_none {env : Env} {t : Int} {D : NS → Nat} {a : Addr} {ns : NS} {d : DataPoint F}
    {as : List Addr} {w w' : World F} {s : List Addr} {ok : Bool} (h : PutTried env t D ns d as w w' s ok) (hg : w.get a ns ≠ none) :
    w'.get a ns ≠ none := by
  induction h with
  | over => exact hg
  | down _ _ ih => exact ih hg
  | unheard _ _ hk _ ih => exact ih (hk.get_ne_none hg)
  | acked _ h => exact h.get_ne_none hg

/-- Handing out one datapoint and the rest. -/
theorem wp_handOne_lossy {env : Env} (hm : MonoClock env.tk) {D : NS → Nat} {a : Addr} {ns : NS}
    {choice : World F → DataPoint F → List Addr → Prop} {d : DataPoint F} {ds : List (DataPoint F)} (hd : d.vec.length = D ns)
    {w : World F} (hg : w.get a ns ≠ none) {send : Prog F Bool} {rest : Prog F Unit} {p : Nat}
    (hs : Go.wp (send.run w) (fun r p' => p ≤ p' ∧ WorldOK D r.2 ∧ ∃ as s, choice w d as ∧ PutTried env (env.tk p') D ns d as w r.2 s r.1) p)
    (hrest : ∀ w1 p1, WorldOK D w1 → w1.get a ns ≠ none →
      Go.wp (rest.run w1) (fun r p' => p1 ≤ p' ∧ WorldOK D r.2 ∧ ∃ s, HandedOut env (env.tk p') D a ns choice ds w1 r.2 s) p1) :
    Go.wp ((send >>= fun b => if b = true then rest else do Server.putBack env a ns d; rest).run w) (fun r p' => p ≤ p' ∧ WorldOK D r.2 ∧
      ∃ s, HandedOut env (env.tk p') D a ns choice (d :: ds) w r.2 s) p := by
  rw [run_bind, Go.wp_bind]
  refine Go.wp_mono hs (fun r p1 h => ?_)
  obtain ⟨h1, h2, as, s, h3, h4⟩ := h
  have hg1 := h4.get_ne_none hg
  cases hb : r.1 with
  | true =>
    rw [hb] at h4
    simp only [if_true]
    exact Go.wp_mono (hrest r.2 p1 h2 hg1) (fun q p2 ⟨q1, q2, s', q3⟩ => ⟨by omega, q2, s ++ s', .sent h3 (h4.mono hm q1) q3⟩)
  | false =>
    rw [hb] at h4
    simp only [Bool.false_eq_true, if_false]
    rw [run_bind, Go.wp_bind]
    refine Go.wp_mono (wp_putBack hm h2 hg1 hd p1) (fun q p2 hq => ?_)
    exact Go.wp_mono (hrest q.2 p2 hq.2.1 (hq.2.2.get_ne_none hg1)) (fun z p3 ⟨z1, z2, s', z3⟩ =>
      ⟨by omega, z2, s ++ s', .kept h3 (h4.mono hm (by omega)) h2 (hq.2.2.mono hm z1) z3⟩)

theorem wp_fastLoop_lossy {env : Env} (hm : MonoClock env.tk) {fac : Factory F} (hf : FactoryOK fac) {D : NS → Nat}
    (a : Addr) (ns : NS) {remote : List (Addr × List F)} {answers : List (Addr × Option (List F))}
    (ha : (remote.map (fun q => (q.1, some q.2))).Perm (answers.filter (fun q => match q.2 with
        | some v => decide (v ≠ [])
        | none => false))) : ∀ (ds : List (DataPoint F)) (w : World F) (p : Nat), WorldOK D w → w.get a ns ≠ none →
    (∀ d ∈ ds, d.vec.length = D ns) →
    Go.wp ((Server.distributeFastLoop env fac a ns remote ds).run w) (fun r p' => p ≤ p' ∧ WorldOK D r.2 ∧
      ∃ s, HandedOut env (env.tk p') D a ns (fastChoice answers) ds w r.2 s) p
  | [], w, p, hw, hg, hd => by
    unfold Server.distributeFastLoop
    rw [run_pure, Go.wp_pure]
    exact ⟨Nat.le_refl _, hw, [], .nil⟩
  | d :: ds, w, p, hw, hg, hd => by
    unfold Server.distributeFastLoop
    exact wp_handOne_lossy hm (hd d (by simp)) hg (wp_distributeDP_lossy hm hf hw ns d (hd d (by simp)) ha p)
      (fun w1 p1 hw1 hg1 => wp_fastLoop_lossy hm hf a ns ha ds w1 p1 hw1 hg1 (fun x hx => hd x (by simp [hx])))

theorem wp_accurateLoop_lossy {env : Env} (he : EnvOK env) {fac : Factory F} (hf : FactoryOK fac) {D : NS → Nat}
    (a : Addr) (ns : NS) (addrs : List Addr) : ∀ (ds : List (DataPoint F)) (w : World F) (p : Nat), WorldOK D w → w.get a ns ≠ none →
    (∀ d ∈ ds, d.vec.length = D ns) →
    Go.wp ((Server.distributeAccurateLoop env fac a ns addrs ds).run w) (fun r p' => p ≤ p' ∧ WorldOK D r.2 ∧
      ∃ s, HandedOut env (env.tk p') D a ns (accurateChoice env ns addrs) ds w r.2 s) p
  | [], w, p, hw, hg, hd => by
    unfold Server.distributeAccurateLoop
    rw [run_pure, Go.wp_pure]
    exact ⟨Nat.le_refl _, hw, [], .nil⟩
  | d :: ds, w, p, hw, hg, hd => by
    unfold Server.distributeAccurateLoop
    rw [run_bind, Go.wp_bind]
    refine Go.wp_mono (wp_fetchVecs he (R := fun a r => AccurateAnswer env w ns d.vec (a, r)) (fun b p => wp_nearestVec_heard hw b ns d.vec p) p)
      (fun r p1 h => ?_)
    obtain ⟨h1, h2, answers, h3, h4, h5⟩ := h
    rw [h2]
    refine Go.wp_mono (wp_handOne_lossy (choice := accurateChoice env ns addrs) he.clock (hd d (by simp)) hg (Go.wp_mono
      (wp_distributeDP_lossy he.clock hf hw ns d (hd d (by simp)) h5 p1) (fun q p2 hq => ?_))
      (fun w1 p1 hw1 hg1 => wp_accurateLoop_lossy he hf a ns addrs ds w1 p1 hw1 hg1 (fun x hx => hd x (by simp [hx]))))
      (fun q p2 hq => ⟨by omega, hq.2⟩)
    obtain ⟨e1, e2, as, s, e3, e4⟩ := hq
    exact ⟨e1, e2, as, s, ⟨answers, h3, h4, e3⟩, e4⟩

theorem wp_distributeFast_lossy {env : Env} (he : EnvOK env) {fac : Factory F} (hf : FactoryOK fac) {D : NS → Nat}
    {w : World F} (hw : WorldOK D w) {a : Addr} {ns : NS} {m : Manager F} (hg : w.get a ns = some m) {n : Int} (hn : 0 ≤ n)
    (addrs : List Addr) (p : Nat) :
    Go.wp ((Server.distributeFast env fac a ns n addrs).run w) (fun r p' => p ≤ p' ∧ WorldOK D r.2 ∧ r.1 = some () ∧
      HandedOutFast env (env.tk p) (env.tk p') D a ns n addrs m w r.2) p := by
  unfold Server.distributeFast
  rw [run_bind, Go.wp_bind, run_loc, Go.wp_bind, Go.wp_checkMake]
  refine ⟨hn, ?_⟩
  rw [Go.wp_pure, run_bind, Go.wp_bind]
  refine Go.wp_mono (wp_takeOut he hw hg hn p) (fun r p1 h => ?_)
  obtain ⟨h1, h2, h3, dps, h4, h5, h6⟩ := h
  rw [h4]
  simp only
  split
  · rename_i hor
    rw [run_pure, Go.wp_pure]
    exact ⟨h1, h2, rfl, dps, r.2, h6 p1 (Nat.le_refl _), .inl ⟨hor.imp List.length_eq_zero_iff.1 List.length_eq_zero_iff.1, rfl⟩⟩
  · rename_i hor
    rw [run_bind, Go.wp_bind]
    refine Go.wp_mono (wp_fetchVecs he (R := fun b r' => FastAnswer env r.2 ns (b, r')) (fun b p => wp_vec_heard h2 b ns p) p1)
      (fun q p2 hq => ?_)
    obtain ⟨e1, e2, answers, e3, e4, e5⟩ := hq
    rw [run_bind, Go.wp_bind, e2]
    refine Go.wp_mono (wp_fastLoop_lossy he.clock hf a ns e5 dps r.2 p2 h2 h3 h5) (fun z p3 hz => ?_)
    obtain ⟨z1, z2, s, z3⟩ := hz
    rw [run_pure, Go.wp_pure]
    exact ⟨by omega, z2, rfl, dps, r.2, h6 p3 (by omega), .inr ⟨answers, s, e3, e4, z3⟩⟩

theorem wp_distributeAccurate_lossy {env : Env} (he : EnvOK env) {fac : Factory F} (hf : FactoryOK fac) {D : NS → Nat}
    {w : World F} (hw : WorldOK D w) {a : Addr} {ns : NS} {m : Manager F} (hg : w.get a ns = some m) {n : Int} (hn : 0 ≤ n)
    (addrs : List Addr) (p : Nat) :
    Go.wp ((Server.distributeAccurate env fac a ns n addrs).run w) (fun r p' => p ≤ p' ∧ WorldOK D r.2 ∧ r.1 = some () ∧
      HandedOutAccurate env (env.tk p) (env.tk p') D a ns n addrs m w r.2) p := by
  unfold Server.distributeAccurate
  rw [run_bind, Go.wp_bind, run_loc, Go.wp_bind, Go.wp_checkMake]
  refine ⟨hn, ?_⟩
  rw [Go.wp_pure, run_bind, Go.wp_bind]
  refine Go.wp_mono (wp_takeOut he hw hg hn p) (fun r p1 h => ?_)
  obtain ⟨h1, h2, h3, dps, h4, h5, h6⟩ := h
  rw [h4]
  simp only
  split
  · rename_i hor
    rw [run_pure, Go.wp_pure]
    exact ⟨h1, h2, rfl, dps, r.2, h6 p1 (Nat.le_refl _), .inl ⟨hor.imp List.length_eq_zero_iff.1 List.length_eq_zero_iff.1, rfl⟩⟩
  · rename_i hor
    rw [run_bind, Go.wp_bind]
    refine Go.wp_mono (wp_accurateLoop_lossy he hf a ns addrs dps r.2 p1 h2 h3 h5) (fun z p3 hz => ?_)
    obtain ⟨z1, z2, s, z3⟩ := hz
    rw [run_pure, Go.wp_pure]
    exact ⟨by omega, z2, rfl, dps, r.2, h6 p3 (by omega), .inr ⟨s, z3⟩⟩

/-- The bags when datapoints are handed out. -/
theorem Spec.HandedOut.bags {env : Env} {t : Int} {D : NS → Nat} {a : Addr} {ns : NS} {choice : World F → DataPoint F → List Addr → Prop}
    {addrs : List Addr} (hc : ∀ w d as, choice w d as → ∀ b ∈ as, b ∈ addrs) {ds : List (DataPoint F)} {w w' : World F} {s : List Addr}
    (h : HandedOut env t D a ns choice ds w w' s) : (∀ b ∈ s, b ∈ addrs ∧ Unheard env b) ∧
      ∃ copies gone : List (DataPoint F), (∀ d ∈ copies, d ∈ ds) ∧ (∀ d ∈ gone, d ∈ ds ∧ RefusedSomewhere D ns d) ∧
        copies.length ≤ s.length ∧ ∀ nodes : List Addr, nodes.Nodup → a ∈ nodes → (∀ b ∈ addrs, b ∈ nodes) →
          Conserved t (copies ++ ds ++ storedAt w nodes ns) (storedAt w' nodes ns) gone := by
  induction h with
  | nil => exact ⟨by simp, [], [], by simp, by simp, by simp, fun _ _ _ _ => .refl _ _⟩
  | @sent d ds w w1 w2 as s s' h1 h2 h3 ih =>
    obtain ⟨i1, cs, gs, i2, i3, i4, i5⟩ := ih
    obtain ⟨j1, j2, _, k, j3, j4, j5⟩ := h2.copies
    refine ⟨fun b hb => ?_, List.replicate (k - 1) d ++ cs, (if k = 0 then [d] else []) ++ gs, fun x hx => ?_, fun x hx => ?_, ?_,
      fun nodes hn ha hall => ?_⟩
    · rcases List.mem_append.1 hb with hb | hb
      · exact ⟨hc _ _ _ h1 b (j1.subset hb), j2 b hb⟩
      · exact i1 b hb
    · rcases List.mem_append.1 hx with hx | hx
      · simp [List.eq_of_mem_replicate hx]
      · simp [i2 x hx]
    · rcases List.mem_append.1 hx with hx | hx
      · by_cases hk : k = 0
        · rw [if_pos hk, List.mem_singleton] at hx
          exact ⟨by simp [hx], by rw [hx]; exact j4 hk rfl⟩
        · rw [if_neg hk] at hx; cases hx
      · exact ⟨by simp [(i3 x hx).1], (i3 x hx).2⟩
    · simp only [List.length_append, List.length_replicate, Bool.toNat_true] at j3 ⊢; omega
    · obtain ⟨l, e1, e2⟩ := conserved_add_trans (j5 nodes hn (fun b hb => hall b (hc _ _ _ h1 b hb))) (i5 nodes hn ha hall)
      refine ⟨l, ?_, e2⟩
      rcases k with _ | k
      · simp only [if_true, List.replicate_zero, Nat.zero_sub] at e1 ⊢
        permc [e1]
      · rw [if_neg (by omega), Nat.add_sub_cancel]
        rw [List.replicate_succ] at e1
        permc [e1]
  | @kept d ds w w1 w2 w3 as s s' h1 h2 hw h3 h4 ih =>
    obtain ⟨i1, cs, gs, i2, i3, i4, i5⟩ := ih
    obtain ⟨j1, j2, _, k, j3, j4, j5⟩ := h2.copies
    obtain ⟨j, g1, g2, g3⟩ := h3.copies hw
    refine ⟨fun b hb => ?_, List.replicate (k + j - 1) d ++ cs, (if k + j = 0 then [d] else []) ++ gs, fun x hx => ?_, fun x hx => ?_, ?_,
      fun nodes hn ha hall => ?_⟩
    · rcases List.mem_append.1 hb with hb | hb
      · exact ⟨hc _ _ _ h1 b (j1.subset hb), j2 b hb⟩
      · exact i1 b hb
    · rcases List.mem_append.1 hx with hx | hx
      · simp [List.eq_of_mem_replicate hx]
      · simp [i2 x hx]
    · rcases List.mem_append.1 hx with hx | hx
      · by_cases hk : k + j = 0
        · rw [if_pos hk, List.mem_singleton] at hx
          exact ⟨by simp [hx], by rw [hx]; exact g2 (by omega)⟩
        · rw [if_neg hk] at hx; cases hx
      · exact ⟨by simp [(i3 x hx).1], (i3 x hx).2⟩
    · simp only [List.length_append, List.length_replicate, Bool.toNat_false] at j3 ⊢; omega
    · obtain ⟨l, e1, e2⟩ := conserved_add_trans (conserved_add_trans (j5 nodes hn (fun b hb => hall b (hc _ _ _ h1 b hb)))
        (g3 nodes hn ha)) (i5 nodes hn ha hall)
      refine ⟨l, ?_, e2⟩
      rw [← List.replicate_add] at e1
      generalize k + j = k at e1
      rcases k with _ | k
      · simp only [if_true, List.replicate_zero, Nat.zero_sub] at e1 ⊢
        permc [e1]
      · rw [if_neg (by omega), Nat.add_sub_cancel]
        rw [List.replicate_succ] at e1
        permc [e1]

theorem handedOut_spread {env : Env} {t0 t : Int} {D : NS → Nat} {a : Addr} {ns : NS} {n : Int} {addrs : List Addr} {m : Manager F}
    {w w' : World F} (hg : w.get a ns = some m)
    (h : HandedOutFast env t0 t D a ns n addrs m w w' ∨ HandedOutAccurate env t0 t D a ns n addrs m w w') :
    SpreadOut env t D a ns n addrs w w' := by
  have key : ∀ dps w1, TakenOut env t0 t a ns n m dps w w1 → (((dps = [] ∨ addrs = []) ∧ w' = w1) ∨ ∃ choice s,
      HandedOut env t D a ns choice dps w1 w' s ∧ ∀ w d as, choice w d as → ∀ b ∈ as, b ∈ addrs) →
      SpreadOut env t D a ns n addrs w w' := by
    intro dps w1 ht hh
    obtain ⟨m', e1, e2, e3⟩ := ht.node
    have e2' : Conserved t (storedAt w [a] ns) (storedAt w1 [a] ns) dps := by rw [storedAt_one hg, storedAt_one e1]; exact e2
    have hmem : ∀ d ∈ dps, d ∈ storedAt w [a] ns := fun d hd => by
      obtain ⟨lost, p1, _⟩ := e2'
      exact p1.subset (List.mem_append_left _ (List.mem_append_right _ hd))
    have hcons : ∀ nodes : List Addr, nodes.Nodup → a ∈ nodes → Conserved t (storedAt w nodes ns) (storedAt w1 nodes ns) dps :=
      fun nodes hn ha => conserved_nodes e2' (fun b hb => ht.others b ns (.inl hb)) hn ha
    rcases hh with ⟨hor, rfl⟩ | ⟨choice, s, hh, hch⟩
    · refine ⟨dps, [], dps, [], ht.few, hmem, by simp, fun d hd => ⟨hd, ?_⟩, by simp, by simp, fun nodes hn ha _ => hcons nodes hn ha⟩
      rcases hor with rfl | hor
      · simp at hd
      · exact .inl hor
    · obtain ⟨f1, cs, gs, f2, f3, f4, f5⟩ := hh.bags hch
      refine ⟨dps, cs, gs, s, ht.few, hmem, f2, fun d hd => ⟨(f3 d hd).1, .inr (f3 d hd).2⟩, f1, f4, fun nodes hn ha hall => ?_⟩
      obtain ⟨l, g1, g2⟩ := hcons nodes hn ha
      obtain ⟨l', g3, g4⟩ := f5 nodes hn ha hall
      exact ⟨l ++ l', by permc [g1, g3], fun d hd => (List.mem_append.1 hd).elim (g2 d) (g4 d)⟩
  rcases h with ⟨dps, w1, ht, h⟩ | ⟨dps, w1, ht, h⟩
  · exact key dps w1 ht (h.imp_right (fun ⟨answers, s, h1, _, h3⟩ => ⟨_, s, h3, fun w d as hb => bestFit_mem h1 hb⟩))
  · exact key dps w1 ht (h.imp_right (fun ⟨s, h3⟩ => ⟨_, s, h3, fun w d as ⟨answers, h1, _, hb⟩ => bestFit_mem h1 hb⟩))

/-- **C118.** `DistributeDataPointsFast` on any network: every datapoint goes to the best fitting nodes in order until one is heard to
acknowledge, or back. -/
theorem C118_fast {env : Env} (he : EnvOK env) {fac : Factory F} (hf : FactoryOK fac) {D : NS → Nat}
    {w : World F} (hw : WorldOK D w) {a : Addr} {ns : NS} {m : Manager F} (hg : w.get a ns = some m) {n : Int} (hn : 0 ≤ n)
    (addrs : List Addr) (p : Nat) :
    ∃ w' p', (Server.distributeFast env fac a ns n addrs).run w p = .ok ((some (), w'), p') ∧ WorldOK D w' ∧
      HandedOutFast env (env.tk p) (env.tk p') D a ns n addrs m w w' := by
  obtain ⟨⟨o, w'⟩, p', h0, _, h2, h3, h4⟩ := Go.wp_iff.1 (wp_distributeFast_lossy he hf hw hg hn addrs p)
  cases h3
  exact ⟨w', p', h0, h2, h4⟩

/-- **C118.** `DistributeDataPointsAccurate` on any network. -/
theorem C118_accurate {env : Env} (he : EnvOK env) {fac : Factory F} (hf : FactoryOK fac) {D : NS → Nat}
    {w : World F} (hw : WorldOK D w) {a : Addr} {ns : NS} {m : Manager F} (hg : w.get a ns = some m) {n : Int} (hn : 0 ≤ n)
    (addrs : List Addr) (p : Nat) :
    ∃ w' p', (Server.distributeAccurate env fac a ns n addrs).run w p = .ok ((some (), w'), p') ∧ WorldOK D w' ∧
      HandedOutAccurate env (env.tk p) (env.tk p') D a ns n addrs m w w' := by
  obtain ⟨⟨o, w'⟩, p', h0, _, h2, h3, h4⟩ := Go.wp_iff.1 (wp_distributeAccurate_lossy he hf hw hg hn addrs p)
  cases h3
  exact ⟨w', p', h0, h2, h4⟩

/-- **C118.** The balance of a distribution on any network: only refused datapoints are lost (and everything taken, if there are no
addresses), and there is at most one additional copy for each lost reply. -/
theorem C118_balance {env : Env} (he : EnvOK env) {fac : Factory F} (hf : FactoryOK fac) {D : NS → Nat}
    {w : World F} (hw : WorldOK D w) {a : Addr} {ns : NS} {m : Manager F} (hg : w.get a ns = some m) {n : Int} (hn : 0 ≤ n)
    (addrs : List Addr) (p : Nat) {prog : Prog F (Option Unit)}
    (hp : prog = Server.distributeFast env fac a ns n addrs ∨ prog = Server.distributeAccurate env fac a ns n addrs) :
    ∃ w' p', prog.run w p = .ok ((some (), w'), p') ∧ WorldOK D w' ∧ SpreadOut env (env.tk p') D a ns n addrs w w' := by
  rcases hp with rfl | rfl
  · obtain ⟨w', p', h1, h2, h3⟩ := C118_fast he hf hw hg hn addrs p
    exact ⟨w', p', h1, h2, handedOut_spread hg (.inl h3)⟩
  · obtain ⟨w', p', h1, h2, h3⟩ := C118_accurate he hf hw hg hn addrs p
    exact ⟨w', p', h1, h2, handedOut_spread hg (.inr h3)⟩

/-- In exact arithmetic no manager refuses a datapoint of the right dimension. -/
theorem not_refused_exact {D : NS → Nat} {ns : NS} {d : DataPoint ℝ} (hd : d.vec.length = D ns) : ¬ RefusedSomewhere D ns d := by
  rintro ⟨w, b, m, hw, hg, e3, e4⟩
  obtain ⟨i, hl, hi⟩ := lookup_of_get hw hg
  have hok := hw.mok hi
  rcases e4 with e4 | e4
  · obtain ⟨j, js, hj⟩ := knnCos_alwaysFinds d.vec (m.centroids.map (fun c => c.vec)) (by simpa using e3) (by
      intro v hv
      obtain ⟨x, hx, rfl⟩ := List.mem_map.1 hv
      rw [(hok.wf.dim x hx).1, hok.len, hd])
    rw [hj] at e4; simp at e4
  · exact e4 hd

/-- **C118** in exact arithmetic: a distribution to at least one address loses nothing, on any network, and multiplies datapoints only by
lost replies. -/
theorem C118_balance_exact {env : Env} (he : EnvOK env) {fac : Factory ℝ} (hf : FactoryOK fac) {D : NS → Nat}
    {w : World ℝ} (hw : WorldOK D w) {a : Addr} {ns : NS} {m : Manager ℝ} (hg : w.get a ns = some m) {n : Int} (hn : 0 ≤ n)
    (addrs : List Addr) (hne : addrs ≠ []) (p : Nat) {prog : Prog ℝ (Option Unit)}
    (hp : prog = Server.distributeFast env fac a ns n addrs ∨ prog = Server.distributeAccurate env fac a ns n addrs) :
    ∃ (w' : World ℝ) (p' : Nat) (copies : List (DataPoint ℝ)) (silent : List Addr), prog.run w p = .ok ((some (), w'), p') ∧ WorldOK D w' ∧
      (∀ d ∈ copies, d ∈ stored m) ∧ (∀ b ∈ silent, b ∈ addrs ∧ Unheard env b) ∧ copies.length ≤ silent.length ∧
      ∀ nodes : List Addr, nodes.Nodup → a ∈ nodes → (∀ b ∈ addrs, b ∈ nodes) →
        Conserved (env.tk p') (copies ++ storedAt w nodes ns) (storedAt w' nodes ns) [] := by
  obtain ⟨w', p', h1, h2, moved, copies, gone, silent, h3, h4, h5, h6, h7, h8, h9⟩ := C118_balance he hf hw hg hn addrs p hp
  have hlen : ∀ d ∈ moved, d.vec.length = D ns := fun d hd => by
    obtain ⟨i, hl, hi⟩ := lookup_of_get hw hg
    have hok := hw.mok hi
    have := h4 d hd
    rw [storedAt_one hg] at this
    obtain ⟨c, hc, hdc⟩ := List.mem_flatMap.1 this
    rw [(hok.wf.dim c hc).2 d hdc, (hok.wf.dim c hc).1, hok.len]
  have hgone : gone = [] := List.eq_nil_iff_forall_not_mem.2 (fun d hd => by
    obtain ⟨e1, e2⟩ := h6 d hd
    exact not_refused_exact (hlen d e1) (e2.resolve_left hne))
  subst hgone
  refine ⟨w', p', copies, silent, h1, h2, fun d hd => ?_, h7, h8, h9⟩
  rw [← storedAt_one hg]
  exact h4 d (h5 d hd)

open ServerExample

/-- C118: node 1 takes the datapoint but its reply is lost, so node 2 gets it too. -/
example : ∃ r p', (Dps.putDataPoint { env with back := fun _ a => a != 1 } fac 7 (dp 5 0) [1, 2]).run two 0 = .ok (r, p') ∧
    obsB r = (true, [dp 1 0, dp 2 0, dp 5 0], [dp 0 1, dp 5 0]) := exists_of_run (by decide +kernel)

/-- C118: both replies are lost, the put fails, and both nodes have the datapoint. -/
example : ∃ r p', (Dps.putDataPoint { env with back := fun _ _ => false } fac 7 (dp 5 0) [1, 2]).run two 0 = .ok (r, p') ∧
    obsB r = (false, [dp 1 0, dp 2 0, dp 5 0], [dp 0 1, dp 5 0]) := exists_of_run (by decide +kernel)

/-- C118: an HTTP put of which no reply arrives is answered 500, and every node has the datapoint. -/
example : ∃ r p', (Api.putDataPoint { env with back := fun _ _ => false } fac [1, 2] (some ⟨7, true, ⟨[.ofInt 5, .ofInt 0], [], 0, false⟩⟩)).run two 0 =
      .ok (r, p') ∧ obsS r = (500, [[dp 1 0, dp 2 0, dp 5 0], [dp 0 1, dp 5 0]]) := exists_of_run (by decide +kernel)

/-- C118: the reply to the only transfer is lost, and the datapoint is put back although node 2 has it. -/
example : ∃ r p', ((fun r => (r.1, storedAt r.2 [1] 7, storedAt r.2 [2] 7)) <$>
      (Server.distributeAccurate { env with back := fun p _ => p != 10 } fac 1 7 1 [2]).run two) 0 = .ok (r, p') ∧
    r = (some (), [dp 2 0, dp 1 0], [dp 0 1, dp 1 0]) := exists_of_run (f := id) (by decide +kernel)

/-- C118: the theorems for this world and any network. -/
example (up back : Nat → Addr → Bool) (as : List Addr) : ∃ ok w' p',
    (Dps.putDataPoint { env with up := up, back := back } fac 7 (dp 5 0) as).run two 0 = .ok ((ok, w'), p') ∧ WorldOK (fun _ => 2) w' ∧
    PutCopies { env with up := up, back := back } 0 (fun _ => 2) 7 (dp 5 0) as two w' ok :=
  C118_put (env := { env with up := up, back := back }) env_ok.clock fac_ok two_ok 7 (dp 5 0) rfl as 0

example (up back : Nat → Addr → Bool) (v : List F64) : ∃ out w' p',
    (Dps.getDataPoints { env with up := up, back := back } [1, 2] 7 v 2 true).run two 0 = .ok ((out, w'), p') ∧
    GotFrom { env with up := up, back := back } 0 0 (fun _ => 2) 7 2 true [1, 2] two w' out ∧
    (true = true → DrainedFrom { env with up := up, back := back } 0 7 2 [1, 2] two w' out) :=
  C118_get (env := { env with up := up, back := back }) env_ok.clock two_ok 7 v (by decide) true [1, 2] 0

end Trypo
