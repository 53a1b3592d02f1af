import Verif.Proofs.SafeServer

/-!
# Distribution between nodes and stealing, run interleaved with others
-/

set_option linter.unusedSectionVars false
set_option linter.unusedVariables false

namespace Trypo
open GoFloat Spec

variable {F : Type} [GoFloat F] [LawfulCmp F] {c : Ctx F} {α β : Type}

/-- Calling another node. When the reply is lost the caller may go on with a datapoint it has duplicated, or without the answer. -/
theorem safe_call {a : Addr} {body : Prog F (Option β)} {L : View} {H : List (DataPoint F)} {M : List (Entry F)}
    {Q : Option β → View → List (DataPoint F) → List (Entry F) → Prop}
    (h0 : ∀ L', L.Le L' → Q none L' H M)
    (h1 : (∀ d ∈ H, c.U d) → ∀ L', L.Le L' → Safe c body L' H M (fun r L'' H' M' => (∀ L3, L''.Le L3 → Q r L3 H' M') ∧
      (¬ NoLostReplies c.env → ∃ H3 mint, mint.length ≤ 1 ∧ (extras mint ++ H').Perm (H3 ++ losts mint) ∧ (∀ e ∈ mint, c.Fine e) ∧
        ∀ L3, L''.Le L3 → Q none L3 H3 (mint ++ M')))) :
    Safe c (Client.call c.env a body) L H M Q := by
  unfold Client.call
  refine safe_bind (safe_loc_mint (fun hu p => wp_sent ?_))
  refine ⟨Nat.le_succ _, H, [], Conserved.refl _ _, by simp, .zero, fun L' hL' => ?_⟩
  cases c.env.up p a with
  | false => simp only [Bool.false_eq_true, if_false]; exact safe_pure (h0 L' hL')
  | true =>
    simp only [if_true]
    refine safe_bind (safe_mono _ (h1 hu L' hL') (fun r L'' H' M' hq => ?_))
    refine safe_bind (safe_loc_mint (fun _ q => wp_arrived ?_))
    refine ⟨Nat.le_succ _, ?_⟩
    cases hb : c.env.back q a with
    | true => exact ⟨H', [], Conserved.refl _ _, by simp, .zero, fun L3 hL3 => by simp only [if_true]; exact safe_pure (hq.1 L3 hL3)⟩
    | false =>
      obtain ⟨H3, mint, e0, e1, e3, e2⟩ := hq.2 (fun hn => by have := hn q a; rw [hb] at this; simp at this)
      exact ⟨H3, mint, ⟨[], by permc [e1], by simp⟩, e3, (LostReplies.one hb).le e0, fun L3 hL3 => by
        simp only [Bool.false_eq_true, if_false]; exact safe_pure (e2 L3 hL3)⟩

/-- A call whose body leaves what is held alone. -/
theorem safe_call_same {a : Addr} {body : Prog F (Option β)} {L : View} {H : List (DataPoint F)} {M : List (Entry F)}
    {R : β → View → Prop} {Q : Option β → View → List (DataPoint F) → List (Entry F) → Prop}
    (hR : ∀ b L' L'', L'.Le L'' → R b L' → R b L'')
    (hb : ∀ L', L.Le L' → Safe c body L' H M (fun r L'' H' M' => L'.Le L'' ∧ H' = H ∧ M' = M ∧ ∀ b, r = some b → R b L''))
    (h : ∀ r L', L.Le L' → (∀ b, r = some b → R b L') → Q r L' H M) :
    Safe c (Client.call c.env a body) L H M Q := by
  refine safe_call (fun L' hL' => h none L' hL' (by simp)) (fun _ L' hL' => safe_mono _ (hb L' hL') ?_)
  rintro r L'' H' M' ⟨e0, rfl, rfl, e3⟩
  refine ⟨fun L3 hL3 => h r L3 ((hL'.trans e0).trans hL3) (fun b hb => hR b _ _ hL3 (e3 b hb)),
    fun _ => ⟨H', [], by simp, by simp, by simp, fun L3 hL3 => ?_⟩⟩
  exact h none L3 ((hL'.trans e0).trans hL3) (by simp)

theorem safe_each {f : β → Prog F α} {R : α → View → Prop} (hR : ∀ b L' L'', L'.Le L'' → R b L' → R b L'') :
    ∀ (l : List β) {L : View} {H : List (DataPoint F)} {M : List (Entry F)}
    {Q : List α → View → List (DataPoint F) → List (Entry F) → Prop}
    (hf : ∀ x ∈ l, ∀ L', L.Le L' → Safe c (f x) L' H M (fun r L'' H' M' => L'.Le L'' ∧ H' = H ∧ M' = M ∧ R r L''))
    (h : ∀ ys L', L.Le L' → (∀ y ∈ ys, R y L') → ys.length = l.length → Q ys L' H M), Safe c (Prog.each f l) L H M Q
  | [], L, H, M, Q, hf, h => safe_pure (h [] L (.refl _) (by simp) rfl)
  | x :: xs, L, H, M, Q, hf, h => by
    unfold Prog.each
    refine safe_bind (safe_mono _ (hf x (by simp) L (.refl _)) ?_)
    rintro r L' H' M' ⟨e0, rfl, rfl, e3⟩
    refine safe_bind (safe_each hR xs (fun y hy L'' hL'' => hf y (by simp [hy]) L'' (e0.trans hL'')) (fun ys L'' hL'' hy hlen => ?_))
    refine safe_pure (h _ _ (e0.trans hL'') ?_ (by simp [hlen]))
    intro y hy'
    rcases List.mem_cons.1 hy' with rfl | hy'
    · exact hR _ _ _ hL'' e3
    · exact hy y hy'

section net
variable (he : EnvOK c.env) {a : Addr} {L : View} {H : List (DataPoint F)} {M : List (Entry F)}
include he

theorem safe_fetchVecs {addrs : List Addr} {fetch : Addr → Prog F (Option (List F))}
    {Q : List (Addr × List F) → View → List (DataPoint F) → List (Entry F) → Prop}
    (hf : ∀ b L', Safe c (fetch b) L' H M (fun r L'' H' M' => L'.Le L'' ∧ H' = H ∧ M' = M ∧ ∀ v, r = some v → L''.has b c.own))
    (h : ∀ remote L', L.Le L' → (∀ q ∈ remote, q.1 ∈ addrs ∧ L'.has q.1 c.own) → Q remote L' H M) :
    Safe c (fetchVecs c.env addrs fetch) L H M Q := by
  unfold fetchVecs
  refine safe_bind (safe_loc_same (fun p => wp_shuffled he (fun started hs => ⟨Nat.le_succ _, fun L' hL' => ?_⟩)))
  refine safe_bind (safe_each (R := fun (q : Addr × Option (List F)) L => q.1 ∈ addrs ∧ ∀ v, q.2 = some v → L.has q.1 c.own)
    (fun q L' L'' hL h => ⟨h.1, fun v hv => hL.has _ _ (h.2 v hv)⟩) started
    (fun b hb L'' hL'' => safe_bind ?_) (fun ys L'' hL'' hy _ => ?_))
  · refine safe_mono _ (hf b L'') ?_
    rintro r L3 H' M' ⟨e0, rfl, rfl, e4⟩
    exact safe_pure ⟨e0, rfl, rfl, hs.subset hb, e4⟩
  · refine safe_bind (safe_loc_same (fun p => wp_shuffled he (fun ar har => ⟨Nat.le_succ _, fun L3 hL3 => ?_⟩)))
    refine safe_pure (h _ _ ((hL'.trans hL'').trans hL3) ?_)
    intro q hq
    obtain ⟨x, hx, e⟩ := List.mem_filterMap.1 hq
    obtain ⟨h1, h2⟩ := hy x (har.subset hx)
    split at e
    · rename_i y ys hv
      cases e; exact ⟨h1, hL3.has _ _ (h2 _ hv)⟩
    · simp at e

theorem safe_client_vec {Q : Option (List F) → View → List (DataPoint F) → List (Entry F) → Prop}
    (h : ∀ r L', L.Le L' → (∀ v, r = some v → v.length = c.D c.own ∧ L'.has a c.own) → Q r L' H M) :
    Safe c (Client.vec c.env a c.own) L H M Q :=
  safe_call_same (R := fun (v : List F) L => v.length = c.D c.own ∧ L.has a c.own) (fun b L' L'' hL h => ⟨h.1, hL.has _ _ h.2⟩)
    (fun L' hL' => safe_vec he (fun r L'' hL'' hr => ⟨hL'', rfl, rfl, hr⟩)) h

theorem safe_client_nearestCentroidVec {v : List F}
    {Q : Option (List F) → View → List (DataPoint F) → List (Entry F) → Prop}
    (h : ∀ r L', L.Le L' → (∀ v, r = some v → L'.has a c.own) → Q r L' H M) :
    Safe c (Client.nearestCentroidVec c.env a c.own v) L H M Q :=
  safe_call_same (R := fun _ L => L.has a c.own) (fun b L' L'' hL h => hL.has _ _ h)
    (fun L' hL' => safe_nearestCentroidVec he (fun r L'' hL'' hr => ⟨hL'', rfl, rfl, hr⟩)) h

/-- `AddDataPoint` of a client. -/
theorem safe_client_add {fac : Factory F} (hf : FactoryOK fac) (ho : c.Open a ∨ L.has a c.own) {d : DataPoint F}
    (hd : d.vec.length = c.D c.own) {H0 : List (DataPoint F)} (hH : H0.Perm (d :: H))
    {Q : Bool → View → List (DataPoint F) → List (Entry F) → Prop}
    (h : ∀ b L' X Y, L.Le L' → (X = [] ∨ X = [d]) → (Y = [] ∨ Y = [.twice d]) → (∀ x ∈ X, c.R x) →
      (NoLostReplies c.env → Y = []) → (b = true → Y = []) →
      ∀ H', H'.Perm ((if b then [] else [d]) ++ (X ++ H)) → Q b L' H' (Y ++ M)) :
    Safe c (Client.addDataPoint c.env fac a c.own d) L H0 M Q := by
  unfold Client.addDataPoint
  refine safe_bind (safe_call (fun L' hL' => safe_pure ?_) (fun hu L' hL' => safe_bind ?_))
  · exact h false L' [] [] hL' (.inl rfl) (.inl rfl) (by simp) (fun _ => rfl) (by simp) _ (by simpa using hH)
  · refine safe_addDataPoint he.clock hf hd (ho.imp_right (hL'.has _ _)) hH (fun L'' X hL'' _ hX hfX => ?_)
    refine safe_pure ⟨fun L3 hL3 => safe_pure ?_, fun hl => ⟨[d] ++ (X ++ H), [.twice d], by simp, by simp,
      by simpa [Ctx.Fine] using hu d (hH.symm.subset (by simp)), fun L3 hL3 => safe_pure ?_⟩⟩
    · exact h true L3 X [] ((hL'.trans hL'').trans hL3) hX (.inl rfl) hfX (fun _ => rfl) (fun _ => rfl) _ (by simp)
    · exact h false L3 X [.twice d] ((hL'.trans hL'').trans hL3) hX (.inr rfl) hfX (fun hn => absurd hn hl) (by simp) _ (by simp)

/-- The loop of `distributeDP`. -/
theorem safe_distributeTo {fac : Factory F} (hf : FactoryOK fac) {addrs : List Addr}
    {d : DataPoint F} (hd : d.vec.length = c.D c.own) : ∀ (is : List Nat) (L : View) (H H0 : List (DataPoint F)) (M : List (Entry F)),
    (∀ b ∈ addrs, L.has b c.own) → (∀ i ∈ is, i < addrs.length) → H0.Perm (d :: H) →
    ∀ {Q : Bool → View → List (DataPoint F) → List (Entry F) → Prop}
    (h : ∀ b L' X Y, L.Le L' → (∀ x ∈ X, x = d) → (∀ y ∈ Y, y = .twice d) → (∀ x ∈ X, c.R x) →
      (NoLostReplies c.env → Y = []) → ∀ H', H'.Perm ((if b then [] else [d]) ++ (X ++ H)) → Q b L' H' (Y ++ M)),
    Safe c (Server.distributeTo c.env fac c.own addrs d is) L H0 M Q
  | [], L, H, H0, M, _, _, hH, Q, h => by
    unfold Server.distributeTo
    exact safe_pure (h false L [] [] (.refl _) (by simp) (by simp) (by simp) (fun _ => rfl) _ (by simpa using hH))
  | i :: is, L, H, H0, M, ho, hi, hH, Q, h => by
    unfold Server.distributeTo
    refine safe_bind (safe_loc_same (fun p => ?_))
    rw [Go.wp_idx]
    have hlt := hi i (by simp)
    refine ⟨addrs[i], List.getElem?_eq_getElem hlt, Nat.le_refl _, fun L' hL' => ?_⟩
    refine safe_bind (safe_client_add he hf (.inr (hL'.has _ _ (ho _ (List.getElem_mem hlt)))) hd hH
      (fun b L'' X Y hL'' hX hY hXf hYn hbY H' hH' => ?_))
    have hX' : ∀ x ∈ X, x = d := by rcases hX with rfl | rfl <;> simp
    have hY' : ∀ y ∈ Y, y = .twice d := by rcases hY with rfl | rfl <;> simp
    cases b with
    | true =>
      simp only [if_true]
      exact safe_pure (h true L'' X Y (hL'.trans hL'') hX' hY' hXf hYn _ hH')
    | false =>
      simp only [Bool.false_eq_true, if_false] at hH' ⊢
      refine safe_distributeTo hf hd is L'' (X ++ H) H' (Y ++ M)
        (fun b hb => hL''.has _ _ (hL'.has _ _ (ho b hb))) (fun j hj => hi j (by simp [hj])) hH' ?_
      intro b L3 X2 Y2 hL3 hX2 hY2 hX2f hY2n H3 hH3
      have := h b L3 (X2 ++ X) (Y2 ++ Y) ((hL'.trans hL'').trans hL3)
        (fun x hx => (List.mem_append.1 hx).elim (hX2 x) (hX' x)) (fun x hx => (List.mem_append.1 hx).elim (hY2 x) (hY' x))
        (fun x hx => (List.mem_append.1 hx).elim (hX2f x) (hXf x)) (fun hf' => by rw [hY2n hf', hYn hf']; rfl) H3 (by simpa using hH3)
      simpa using this

/-- `distributeDP`. -/
theorem safe_distributeDP {fac : Factory F} (hf : FactoryOK fac)
    {remote : List (Addr × List F)} (hr : ∀ q ∈ remote, L.has q.1 c.own)
    {d : DataPoint F} (hd : d.vec.length = c.D c.own) {H0 : List (DataPoint F)} (hH : H0.Perm (d :: H))
    {Q : Bool → View → List (DataPoint F) → List (Entry F) → Prop}
    (h : ∀ b L' X Y, L.Le L' → (∀ x ∈ X, x = d) → (∀ y ∈ Y, y = .twice d) → (∀ x ∈ X, c.R x) →
      (NoLostReplies c.env → Y = []) → ∀ H', H'.Perm ((if b then [] else [d]) ++ (X ++ H)) → Q b L' H' (Y ++ M)) :
    Safe c (Server.distributeDP c.env fac c.own remote d) L H0 M Q := by
  unfold Server.distributeDP
  refine safe_bind (safe_loc_same (fun p => ?_))
  rw [Go.wp_lift]
  obtain ⟨is, h1, h2, h3, h4⟩ := (searchOK_prefabs (F := F)).1 d.vec (remote.map (fun q => q.2)) (remote.length : Int) (by omega)
  refine ⟨is, h1, Nat.le_refl _, fun L' hL' => ?_⟩
  refine safe_distributeTo he hf (addrs := remote.map (fun q => q.1)) hd is L' H H0 M ?_ (by simpa using h3) hH
    (fun b L'' X Y hL'' => h b L'' X Y (hL'.trans hL''))
  intro b hb
  obtain ⟨q, hq, rfl⟩ := List.mem_map.1 hb
  exact hL'.has _ _ (hr q hq)

/-- What is done with one drained datapoint. -/
theorem safe_distributeOne {fac : Factory F} (hf : FactoryOK fac)
    {remote : List (Addr × List F)} (hr : ∀ q ∈ remote, L.has q.1 c.own)
    {d : DataPoint F} (hd : d.vec.length = c.D c.own) {H0 : List (DataPoint F)} (hH : H0.Perm (d :: H)) (hh : L.has a c.own)
    {k : Prog F Unit} {Q : Unit → View → List (DataPoint F) → List (Entry F) → Prop}
    (h : ∀ L' X Y, L.Le L' → (∀ x ∈ X, x = d) → (∀ y ∈ Y, y = .twice d) → (∀ x ∈ X, c.R x) →
      (NoLostReplies c.env → Y = []) → ∀ H', H'.Perm (X ++ H) → Safe c k L' H' (Y ++ M) Q) :
    Safe c (do
      if (← Server.distributeDP c.env fac c.own remote d) then k
      else do
        Server.putBack c.env a c.own d
        k) L H0 M Q := by
  refine safe_bind (safe_distributeDP he hf hr hd hH (fun b L' X Y hL' hX hY hXf hYn H' hH' => ?_))
  cases b with
  | true =>
    simp only [if_true]
    exact h L' X Y hL' hX hY hXf hYn H' hH'
  | false =>
    simp only [Bool.false_eq_true, if_false] at hH' ⊢
    refine safe_bind (safe_putBack he.clock hd hH' (fun L'' X2 hL'' hX2 hX2f H2 hH2 => ?_))
    refine h L'' (X2 ++ X) Y (hL'.trans hL'') ?_ hY ?_ hYn H2 (by simpa using hH2)
    · intro x hx
      rcases List.mem_append.1 hx with hx | hx
      · rcases hX2 with rfl | rfl
        · simp at hx
        · simpa using hx
      · exact hX x hx
    · exact fun x hx => (List.mem_append.1 hx).elim (hX2f (hL'.has _ _ hh) x) (hXf x)

/-- The loop of `DistributeDataPointsFast`. -/
theorem safe_distributeFastLoop {fac : Factory F} (hf : FactoryOK fac) {remote : List (Addr × List F)} : ∀ (dps : List (DataPoint F)) (L : View)
    (H H0 : List (DataPoint F)) (M : List (Entry F)), (∀ q ∈ remote, L.has q.1 c.own) → (∀ d ∈ dps, d.vec.length = c.D c.own) →
    H0.Perm (dps ++ H) → L.has a c.own →
    ∀ {Q : Unit → View → List (DataPoint F) → List (Entry F) → Prop}
    (h : ∀ L' X Y, L.Le L' → (∀ x ∈ X, x ∈ dps) → (∀ y ∈ Y, ∃ d ∈ dps, y = .twice d) → (∀ x ∈ X, c.R x) →
      (NoLostReplies c.env → Y = []) → ∀ H', H'.Perm (X ++ H) → Q () L' H' (Y ++ M)),
    Safe c (Server.distributeFastLoop c.env fac a c.own remote dps) L H0 M Q
  | [], L, H, H0, M, _, _, hH, hh, Q, h =>
    safe_pure (h L [] [] (.refl _) (by simp) (by simp) (by simp) (fun _ => rfl) _ (by simpa using hH))
  | d :: dps, L, H, H0, M, hr, hd, hH, hh, Q, h => by
    unfold Server.distributeFastLoop
    refine safe_distributeOne he hf hr (hd d (by simp)) (H := dps ++ H) hH hh (fun L' X Y hL' hX hY hXf hYn H' hH' => ?_)
    refine safe_distributeFastLoop hf dps L' (X ++ H) H' (Y ++ M) (fun q hq => hL'.has _ _ (hr q hq)) (fun x hx => hd x (by simp [hx])) (by permc [hH'])
      (hL'.has _ _ hh) (fun L'' X2 Y2 hL'' hX2 hY2 hX2f hY2n H2 hH2 => ?_)
    have := h L'' (X2 ++ X) (Y2 ++ Y) (hL'.trans hL'')
      (fun x hx => (List.mem_append.1 hx).elim (fun hx => by simp [hX2 x hx]) (fun hx => by simp [hX x hx]))
      (fun x hx => (List.mem_append.1 hx).elim (fun hx => by obtain ⟨d, hd, e⟩ := hY2 x hx; exact ⟨d, by simp [hd], e⟩)
        (fun hx => ⟨d, by simp, hY x hx⟩))
      (fun x hx => (List.mem_append.1 hx).elim (hX2f x) (hXf x)) (fun hf' => by rw [hY2n hf', hYn hf']; rfl) H2 (by simpa using hH2)
    simpa using this

/-- The loop of `DistributeDataPointsAccurate`. -/
theorem safe_distributeAccurateLoop {fac : Factory F} (hf : FactoryOK fac) {addrs : List Addr} :
    ∀ (dps : List (DataPoint F)) (L : View)
    (H H0 : List (DataPoint F)) (M : List (Entry F)), (∀ d ∈ dps, d.vec.length = c.D c.own) → H0.Perm (dps ++ H) → L.has a c.own →
    ∀ {Q : Unit → View → List (DataPoint F) → List (Entry F) → Prop}
    (h : ∀ L' X Y, L.Le L' → (∀ x ∈ X, x ∈ dps) → (∀ y ∈ Y, ∃ d ∈ dps, y = .twice d) → (∀ x ∈ X, c.R x) →
      (NoLostReplies c.env → Y = []) → ∀ H', H'.Perm (X ++ H) → Q () L' H' (Y ++ M)),
    Safe c (Server.distributeAccurateLoop c.env fac a c.own addrs dps) L H0 M Q
  | [], L, H, H0, M, _, hH, hh, Q, h =>
    safe_pure (h L [] [] (.refl _) (by simp) (by simp) (by simp) (fun _ => rfl) _ (by simpa using hH))
  | d :: dps, L, H, H0, M, hd, hH, hh, Q, h => by
    unfold Server.distributeAccurateLoop
    refine safe_bind (safe_fetchVecs he (fun b L' => safe_client_nearestCentroidVec he (fun r L'' hL'' hr => ⟨hL'', rfl, rfl, hr⟩))
      (fun remote L0 hL0 hr => ?_))
    refine safe_distributeOne he hf (fun q hq => (hr q hq).2) (hd d (by simp)) (H := dps ++ H) hH (hL0.has _ _ hh)
      (fun L' X Y hL' hX hY hXf hYn H' hH' => ?_)
    refine safe_distributeAccurateLoop hf dps L' (X ++ H) H' (Y ++ M) (fun x hx => hd x (by simp [hx])) (by permc [hH'])
      (hL'.has _ _ (hL0.has _ _ hh)) (fun L'' X2 Y2 hL'' hX2 hY2 hX2f hY2n H2 hH2 => ?_)
    have := h L'' (X2 ++ X) (Y2 ++ Y) ((hL0.trans hL').trans hL'')
      (fun x hx => (List.mem_append.1 hx).elim (fun hx => by simp [hX2 x hx]) (fun hx => by simp [hX x hx]))
      (fun x hx => (List.mem_append.1 hx).elim (fun hx => by obtain ⟨d, hd, e⟩ := hY2 x hx; exact ⟨d, by simp [hd], e⟩)
        (fun hx => ⟨d, by simp, hY x hx⟩))
      (fun x hx => (List.mem_append.1 hx).elim (hX2f x) (hXf x)) (fun hf' => by rw [hY2n hf', hYn hf']; rfl) H2 (by simpa using hH2)
    simpa using this

/-- `DistributeDataPointsFast`. -/
theorem safe_distributeFast {fac : Factory F} (hf : FactoryOK fac) {addrs : List Addr}
    {n : Int} (hn : 0 ≤ n) {Q : Option Unit → View → List (DataPoint F) → List (Entry F) → Prop}
    (h : ∀ r L' X Y, L.Le L' → (addrs ≠ [] → ∀ x ∈ X, c.R x) → (NoLostReplies c.env → Y = []) →
      ∀ H', H'.Perm (X ++ H) → Q r L' H' (Y ++ M)) :
    Safe c (Server.distributeFast c.env fac a c.own n addrs) L H M Q := by
  unfold Server.distributeFast
  refine safe_bind (safe_loc_same (fun p => (Go.wp_checkMake _ _ _).2 ⟨hn, Nat.le_refl _, fun L' hL' => ?_⟩))
  refine safe_bind (safe_drainOrdered he hn (fun r L'' hL'' hr => ?_))
  cases r with
  | none => exact safe_pure (h _ _ [] [] (hL'.trans hL'') (by simp) (fun _ => rfl) _ (by simp))
  | some dps =>
    obtain ⟨hh, _, hd⟩ := hr dps rfl
    simp only [Option.getD_some]
    split
    · rename_i h0
      refine safe_pure (h _ _ dps [] (hL'.trans hL'') (fun hne => ?_) (fun _ => rfl) _ (.refl _))
      rcases h0 with h0 | h0
      · rw [List.length_eq_zero_iff.1 h0]; simp
      · exact absurd (List.length_eq_zero_iff.1 h0) hne
    · refine safe_bind (safe_fetchVecs he (fun b L' => safe_client_vec he (fun r L'' hL'' hr => ⟨hL'', rfl, rfl, fun v hv => (hr v hv).2⟩))
        (fun remote L3 hL3 hr => ?_))
      refine safe_bind (safe_distributeFastLoop he hf dps L3 H _ M (fun q hq => (hr q hq).2) hd (.refl _) (hL3.has _ _ hh)
        (fun L4 X Y hL4 hX hY hXf hYn H' hH' => ?_))
      exact safe_pure (h _ _ X Y (((hL'.trans hL'').trans hL3).trans hL4) (fun _ => hXf) hYn _ hH')

/-- `DistributeDataPointsAccurate`. -/
theorem safe_distributeAccurate {fac : Factory F} (hf : FactoryOK fac) {addrs : List Addr}
    {n : Int} (hn : 0 ≤ n) {Q : Option Unit → View → List (DataPoint F) → List (Entry F) → Prop}
    (h : ∀ r L' X Y, L.Le L' → (addrs ≠ [] → ∀ x ∈ X, c.R x) → (NoLostReplies c.env → Y = []) →
      ∀ H', H'.Perm (X ++ H) → Q r L' H' (Y ++ M)) :
    Safe c (Server.distributeAccurate c.env fac a c.own n addrs) L H M Q := by
  unfold Server.distributeAccurate
  refine safe_bind (safe_loc_same (fun p => (Go.wp_checkMake _ _ _).2 ⟨hn, Nat.le_refl _, fun L' hL' => ?_⟩))
  refine safe_bind (safe_drainOrdered he hn (fun r L'' hL'' hr => ?_))
  cases r with
  | none => exact safe_pure (h _ _ [] [] (hL'.trans hL'') (by simp) (fun _ => rfl) _ (by simp))
  | some dps =>
    obtain ⟨hh, _, hd⟩ := hr dps rfl
    simp only [Option.getD_some]
    split
    · rename_i h0
      refine safe_pure (h _ _ dps [] (hL'.trans hL'') (fun hne => ?_) (fun _ => rfl) _ (.refl _))
      rcases h0 with h0 | h0
      · rw [List.length_eq_zero_iff.1 h0]; simp
      · exact absurd (List.length_eq_zero_iff.1 h0) hne
    · refine safe_bind (safe_distributeAccurateLoop he hf dps L'' H _ M hd (.refl _) hh
        (fun L4 X Y hL4 hX hY hXf hYn H' hH' => ?_))
      exact safe_pure (h _ _ X Y ((hL'.trans hL'').trans hL4) (fun _ => hXf) hYn _ hH')

/-! ### Stealing -/

/-- Making a centroid of datapoints that came over the network. -/
theorem wp_reinit {n : Nat} {l : List (DataPoint F)} (hne : l ≠ []) (hl : ∀ d ∈ l, d.vec.length = n) (p : Nat) :
    Go.wp (Client.reinit c.env.tk l) (fun x p' => p ≤ p' ∧ x.knn = knnCos ∧ x.kfn = kfnCos ∧ x.vec.length = n ∧ x.DimOK ∧
      Conserved (c.env.tk p') l x.dps []) p := by
  cases l with
  | nil => exact absurd rfl hne
  | cons d l =>
    unfold Client.reinit Client.centroidFactory Centroid.new
    simp only [Go.wp_bind, Go.wp_idx]
    refine ⟨d, rfl, ?_⟩
    simp only [Go.wp_checkMake, Go.wp_pure]
    refine ⟨by omega, ?_⟩
    refine Go.wp_mono (Centroid.callOK_moveVector he.clock _ ?_ p) (fun r p' hr => ?_)
    · intro x hx
      show x.vec.length = d.vec.length
      rw [hl x hx, hl d (by simp)]
    · exact ⟨hr.le, hr.search.1, hr.search.2, by rw [hr.dim.1]; exact hl d (by simp), hr.dim.2, hr.conserved⟩

/-- One `NearestCentroids` call of the stealing loop. -/
theorem safe_client_nearest1 (hd : ¬ NoLostReplies c.env → c.Dr) {v : List F}
    {Q : Bool × Option (List (Centroid F)) → View → List (DataPoint F) → List (Entry F) → Prop}
    (h0 : ∀ b L' Y, L.Le L' → (NoLostReplies c.env → Y = []) → Q (b, none) L' H (Y ++ M))
    (h1 : ∀ b L', L.Le L' → Q (b, some []) L' H M)
    (h2 : ∀ b L' x, L.Le L' → x.knn = knnCos → x.kfn = kfnCos → x.vec.length = c.D c.own → x.DimOK →
      Q (b, some [x]) L' (x.dps ++ H) M) :
    Safe c (Client.nearestCentroids c.env a c.own v 1 true) L H M Q := by
  unfold Client.nearestCentroids
  have hnone : ∀ L' Y, L.Le L' → (NoLostReplies c.env → Y = []) →
      Safe c (Prog.loc (Client.unpack c.env.tk ((none : Option (List (List (DataPoint F)))).getD []))) L' H (Y ++ M)
        (fun cs L'' H' M' => Safe c (pure ((none : Option (List (List (DataPoint F)))).isNone, cs)) L'' H' M' Q) := by
    intro L' Y hL' hY
    refine safe_loc_same (fun p => ?_)
    unfold Client.unpack
    simp only [Option.getD_none, List.length_nil, if_true, Go.wp_pure]
    exact ⟨Nat.le_refl _, fun L'' hL'' => safe_pure (h0 _ _ Y (hL'.trans hL'') hY)⟩
  refine safe_bind (safe_call (fun L' hL' => safe_bind ?_) (fun _ L' hL' => ?_))
  · exact hnone L' [] hL' (fun _ => rfl)
  · refine safe_nearestCentroids he (by omega) (fun r L'' hL'' hr => ⟨fun L3 hL3 => ?_, fun hl => ?_⟩)
    · have hle := (hL'.trans hL'').trans hL3
      cases r with
      | none => exact safe_bind (hnone L3 [] hle (fun _ => rfl))
      | some l =>
        obtain ⟨hlen, hdim⟩ := hr l rfl
        simp only [Option.getD_some, if_true]
        refine safe_bind (safe_loc (fun p => ?_))
        unfold Client.unpack
        match l, hlen, hdim with
        | [], _, _ =>
          simp only [List.length_nil, if_true, Go.wp_pure]
          exact ⟨Nat.le_refl _, H, Conserved.refl _ _, fun L4 hL4 => safe_pure (h0 _ _ [] (hle.trans hL4) (fun _ => rfl))⟩
        | [[]], _, _ =>
          simp only [List.length_singleton, Nat.one_ne_zero, if_false, Client.dropEmpty, Client.reinitAll, Go.wp_bind, Go.wp_pure]
          exact ⟨Nat.le_refl _, H, Conserved.refl _ _, fun L4 hL4 => safe_pure (h1 _ _ (hle.trans hL4))⟩
        | [d :: ds], _, hdim =>
          simp only [List.length_singleton, Nat.one_ne_zero, if_false, Client.dropEmpty, Client.reinitAll, Go.wp_bind, Go.wp_pure]
          refine Go.wp_mono (wp_reinit he (by simp) (hdim (d :: ds) (by simp)) p) (fun x p' hx => ?_)
          obtain ⟨x1, x2, x3, x4, x5, lost, x6, x7⟩ := hx
          refine ⟨x1, x.dps ++ H, ⟨lost, ?_, x7⟩, fun L4 hL4 => safe_pure (h2 _ _ x (hle.trans hL4) x2 x3 x4 x5)⟩
          have x6' : (x.dps ++ [] ++ lost).Perm ([d :: ds].flatten) := by simpa using x6
          permc [x6']
        | _ :: _ :: _, hlen, _ => simp at hlen; omega
    · refine ⟨H, [.gone (r.getD []).flatten], by simp, by simpa using List.perm_append_comm, by simpa [Ctx.Fine] using hd hl, fun L3 hL3 => ?_⟩
      exact safe_bind (hnone L3 _ ((hL'.trans hL'').trans hL3) (fun hn => absurd hn hl))

theorem safe_stealLoop (hd : ¬ NoLostReplies c.env → c.Dr) {src : Addr} {v : List F} {limit : Int} : ∀ (fuel n : Nat) (L : View) (H : List (DataPoint F)) (M : List (Entry F)),
    L.has a c.own → ∀ {Q : Bool × Nat → View → List (DataPoint F) → List (Entry F) → Prop}
    (h : ∀ r L' Y, L.Le L' → (NoLostReplies c.env → Y = []) → Q r L' H (Y ++ M)),
    Safe c (Server.stealLoop c.env a c.own src v limit fuel n) L H M Q
  | 0, n, L, H, M, hh, Q, h => safe_pure (h _ L [] (.refl _) (fun _ => rfl))
  | fuel + 1, n, L, H, M, hh, Q, h => by
    unfold Server.stealLoop
    split
    · refine safe_bind (safe_client_nearest1 he hd (fun b L' Y hL' hY => ?_) (fun b L' hL' => ?_)
        (fun b L' x hL' x1 x2 x3 x4 => ?_))
      · exact safe_pure (h _ _ Y hL' hY)
      · exact safe_pure (h _ _ [] hL' (fun _ => rfl))
      · refine safe_bind (safe_access (fun m p hm _ => ?_) (fun w _ hl hlk => absurd hlk (hl.has _ _ (hL'.has _ _ hh))))
        rw [Go.wp_pure]
        refine ⟨Nat.le_refl _, ⟨?_, hm.knn, hm.kfn, hm.len⟩, H, ⟨[], ?_, by simp⟩, fun L'' hL'' _ => ?_⟩
        · refine hm.wf.append ?_ ?_
          · intro y hy
            rw [List.mem_singleton.1 hy, x1, x2, hm.knn, hm.kfn]; exact ⟨rfl, rfl⟩
          · intro y hy
            rw [List.mem_singleton.1 hy, x3, hm.len]; exact ⟨rfl, x4⟩
        · have : stored ({ m with centroids := m.centroids ++ [x] } : Manager F) = stored m ++ x.dps := by
            simp [stored]
          simp only [this]
          permc [List.Perm.refl ([] : List (DataPoint F))]
        · exact safe_stealLoop hd fuel _ L'' H M (hL''.has _ _ (hL'.has _ _ hh))
            (fun r L3 Y hL3 hY => h r L3 Y ((hL'.trans hL'').trans hL3) hY)
    · exact safe_pure (h _ L [] (.refl _) (fun _ => rfl))

theorem safe_stealWith (hd : ¬ NoLostReplies c.env → c.Dr) {src : Addr} {v : List F} {limit : Int} {fuel : Nat} (hh : L.has a c.own)
    {Q : Server.StealResp → View → List (DataPoint F) → List (Entry F) → Prop}
    (h : ∀ r L' Y, L.Le L' → (NoLostReplies c.env → Y = []) → Q r L' H (Y ++ M)) :
    Safe c (Server.stealWith c.env fuel a c.own src limit v) L H M Q := by
  unfold Server.stealWith
  refine safe_bind (safe_stealLoop he hd fuel 0 L H M hh (fun r L' Y hL' hY => ?_))
  have := safe_moveVector (a := a) (L := L') (H := H) (M := Y ++ M) he
    (Q := fun _ L'' H' M' => Safe c (pure ⟨r.2, !r.1⟩) L'' H' M' Q)
    (fun _ L'' hL'' => safe_pure (h _ _ Y (hL'.trans hL'') hY))
  exact safe_bind this

/-- `StealCentroid`. -/
theorem safe_stealCentroid {fac : Factory F} (hf : FactoryOK fac) (ho : c.Open a)
    (hd : ¬ NoLostReplies c.env → c.Dr) {src : Addr} {limit : Int} {fuel : Nat}
    {Q : Server.StealResp → View → List (DataPoint F) → List (Entry F) → Prop}
    (h : ∀ r L' Y, L.Le L' → (NoLostReplies c.env → Y = []) → Q r L' H (Y ++ M)) :
    Safe c (Server.stealCentroid c.env fac fuel a c.own src limit) L H M Q := by
  unfold Server.stealCentroid
  have key : ∀ L', L.Le L' → ¬ (∀ w, c.Inv w → w.lookup a c.own ≠ none) →
      Safe c (do
        let rv ← Client.vec c.env src c.own
        match rv.getD [] with
        | [] => pure ⟨0, false⟩
        | y :: ys => do
          let m ← Prog.loc (fac.make (y :: ys))
          Prog.ofAct (.addSlot a c.own m)
          Server.stealWith c.env fuel a c.own src limit (y :: ys)) L' H M Q := by
    intro L' hL' hD
    refine safe_bind (safe_client_vec he (fun r L'' hL'' hr => ?_))
    have hle := hL'.trans hL''
    cases hv : r.getD [] with
    | nil => exact safe_pure (h _ _ [] hle (fun _ => rfl))
    | cons y ys =>
      have hlen : (y :: ys).length = c.D c.own := by
        cases r with
        | none => simp at hv
        | some v => simp only [Option.getD_some] at hv; rw [← hv]; exact (hr v rfl).1
      rcases ho with ho | ho
      · refine safe_bind (safe_mono _ (safe_loc_same (Q := fun m L3 H' M' => MOK (c.D c.own) m ∧ m.centroids = [] ∧
          L''.Le L3 ∧ H' = H ∧ M' = M) (fun p => safe_make hf hlen p (fun m hm hc => ⟨Nat.le_refl _, fun L3 hL3 =>
            ⟨hm, hc, hL3, rfl, rfl⟩⟩))) ?_)
        rintro m L3 H' M' ⟨hm, hc, hL3, rfl, rfl⟩
        refine safe_bind (safe_addSlot hm (fun w hi => ho w m hi) (H' := H') (by simp [stored, hc]) (fun L4 hL4 hh => ?_))
        exact safe_stealWith he hd hh (fun r L5 Y hL5 hY => h _ _ Y (((hle.trans hL3).trans hL4).trans hL5) hY)
      · exact absurd ho hD
  refine safe_bind (safe_access (fun m p hm _ => ?_) (fun w hi hl hlk => ?_))
  · rw [Go.wp_pure]
    refine ⟨Nat.le_refl _, hm, H, Conserved.refl _ _, fun L' hL' hh => ?_⟩
    exact safe_stealWith he hd hh (fun r L'' Y hL'' hY => h r L'' Y (hL'.trans hL'') hY)
  · exact key _ hl (fun hx => absurd hlk (hx w hi))

end net
end Trypo
