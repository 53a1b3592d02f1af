import Verif.Proofs.Rest

/-!
# Load balancing feeds a node that is short of datapoints
-/

set_option linter.unusedSectionVars false
set_option linter.unusedVariables false

namespace Trypo
open GoFloat Spec EventLoop

theorem want_some {nRemotes nAddrs : Nat} (hr : 0 < nRemotes) {loc : Addr} {mean mar n : Int} (hm : 0 ≤ mar) {lens : Lens} {other : Addr} (hne : other ≠ loc)
    (h1 : lens.get loc ≤ mean - mar) (h2 : (mean - lens.get loc) / (nRemotes : Int) / 3 = n) (h3 : 0 < n) (h4 : mean + mar ≤ lens.get other - n) :
    want nRemotes nAddrs loc mean mar lens other (lens.get other) = .ok (some n) := by
  unfold want
  have hd : 0 ≤ mean - lens.get loc := by omega
  have e : ((mean - lens.get loc).tdiv nRemotes).tdiv 3 = n := by
    rw [Int.tdiv_eq_ediv_of_nonneg hd, Int.tdiv_eq_ediv_of_nonneg (Int.ediv_nonneg hd (by omega)), h2]
  rw [if_neg (by rintro (h | h); exact hne h.symm; omega), if_neg (by omega), if_neg (by omega)]
  simp only [e]
  rw [if_neg (by omega), if_neg (by rintro ⟨h, _⟩; omega)]

section
variable {F : Type} [GoFloat F] [LawfulCmp F]

theorem wp_balanceLoop_feed {env : Env} (he : EnvOK env) {fac : Factory F} (hf : FactoryOK fac) (hr : NoLostReplies env) {D : NS → Nat} {nodes : List Addr} (hn : nodes.Nodup)
    (hreach : ∀ a ∈ nodes, Reachable env a) {T : NS → Int} {B : NS → Nat} {fuel : Nat} {loc : Addr} (ha : loc ∈ nodes) {ns : NS}
    (hfinds : AlwaysFinds (knnCos : Search F)) (hD : D ns ≠ 0) {nRemotes nAddrs : Nat} (hrem : 0 < nRemotes) {mean mar : Int} (hm : 0 ≤ mar) (hm0 : 0 ≤ mean) :
    ∀ (keys : List Addr) (lens : Lens) (w : World F) (p : Nat), (∀ k ∈ keys, k ∈ nodes ∧ ∃ m, w.get k ns = some m) → Quiet D nodes T B fuel w →
    (∀ x ∈ nodes, lens.get x = sizeAt w ns x) → (∀ b ∈ nodes, b ≠ loc → ∀ c ∈ centroidsAt w b ns, c.dps ≠ []) → (nAddrs = 1 → keys.length ≤ 1) →
    Go.wp ((balanceLoop (fun other n => do
      let r ← Client.stealCentroids env fac fuel loc ns other n
      pure (r.1 : Int)) nRemotes nAddrs loc mean mar keys lens).run w) (fun r _ => Quiet D nodes T B fuel r.2 ∧
        (∀ b ns', ns' ≠ ns → r.2.get b ns' = w.get b ns') ∧ sizeAt w ns loc ≤ sizeAt r.2 ns loc ∧
        (∀ e ∈ r.1, 0 < e.want ∧ (nAddrs ≠ 1 → e.want ≤ e.got)) ∧
        ∀ n, (∃ o ∈ keys, o ≠ loc ∧ mean + mar ≤ sizeAt w ns o - n) → sizeAt w ns loc ≤ mean - mar → (mean - sizeAt w ns loc) / (nRemotes : Int) / 3 = n → 0 < n →
          sizeAt w ns loc + n ≤ sizeAt r.2 ns loc) p
  | [], lens, w, p, hk, hq, hl, hfull, hone => by
    unfold balanceLoop
    rw [run_pure, Go.wp_pure]
    exact ⟨hq, fun _ _ _ => rfl, le_refl _, by simp, fun n h => by obtain ⟨o, ho, _⟩ := h; cases ho⟩
  | other :: rest, lens, w, p, hk, hq, hl, hfull, hone => by
    unfold balanceLoop
    rw [run_bind, Go.wp_bind, run_loc, Go.wp_bind]
    obtain ⟨ho, hog⟩ := hk other (by simp)
    rcases want_ok hrem loc mean hm lens other with h | ⟨n, h, hg⟩
    · rw [h, Go.wp_lift]
      refine ⟨_, rfl, ?_⟩
      rw [Go.wp_pure]
      refine Go.wp_mono (wp_balanceLoop_feed he hf hr hn hreach ha hfinds hD hrem hm hm0 rest lens w p (fun k hk' => hk k (by simp [hk'])) hq hl hfull (fun h1 => by have := hone h1; simp only [List.length_cons] at this; omega))
        (fun r p1 hr1 => ⟨hr1.1, hr1.2.1, hr1.2.2.1, hr1.2.2.2.1, fun n hex h1 h2 h3 => ?_⟩)
      obtain ⟨o, hok, hne, hsp⟩ := hex
      refine hr1.2.2.2.2 n ⟨o, ?_, hne, hsp⟩ h1 h2 h3
      rcases List.mem_cons.1 hok with rfl | hok
      · exfalso
        rw [want_some hrem hm hne (by rw [hl loc ha]; exact h1) (by rw [hl loc ha]; exact h2) h3 (by rw [hl o ho]; exact hsp)] at h
        cases h
      · exact hok
    · rw [h, Go.wp_lift]
      refine ⟨_, rfl, ?_⟩
      rw [Go.wp_pure]
      simp only
      rw [run_bind, Go.wp_bind, run_bind, Go.wp_bind]
      have hgs := hg 0
      have hne : loc ≠ other := Ne.symm hgs.notSelf
      refine Go.wp_mono (wp_steal_quiet he hf hr hn hreach ha ho hne n hq hog p) (fun r p1 hr1 => ?_)
      obtain ⟨⟨⟨got, b⟩, w1⟩, hx⟩ : ∃ x, x = r := ⟨r, rfl⟩
      subst hx
      obtain ⟨hq1, hmv, _, hsub, hgot⟩ := hr1
      simp only at hq1 hmv hsub hgot ⊢
      rw [run_pure, Go.wp_pure, run_bind, Go.wp_bind]
      have hgot' := hgot hfinds hD (hfull other ho (Ne.symm hne))
      generalize hl2 : Lens.set (Lens.set lens loc (lens.get loc + (got : Int))) other ((Lens.set lens loc (lens.get loc + (got : Int))).get other - got) = lens2
      have hget : ∀ x ∈ nodes, lens2.get x = sizeAt w1 ns x := by
        intro x hx
        rw [← hl2, Lens.get_set, Lens.get_set, Lens.get_set, if_neg (Ne.symm hne)]
        by_cases h1 : x = other
        · subst h1; rw [if_pos rfl, hl x hx, hmv.gives]
        · rw [if_neg h1]
          by_cases h2 : x = loc
          · subst h2; rw [if_pos rfl, hl x hx, hmv.gains]
          · rw [if_neg h2, hl x hx, sizeAt_congr (hmv.others x ns (.inr ⟨h2, h1⟩))]
      refine Go.wp_mono (wp_balanceLoop_feed he hf hr hn hreach ha hfinds hD hrem hm hm0 rest lens2 w1 p1
        (fun k hk' => ⟨(hk k (by simp [hk'])).1, hmv.kept k ns (hk k (by simp [hk'])).2⟩) hq1 hget
        (fun b hbn hb c hc => hfull b hbn hb c ((hsub b hb).subset hc)) (fun h1 => by have := hone h1; simp only [List.length_cons] at this; omega)) (fun r2 p2 hr2 => ?_)
      rw [run_pure, Go.wp_pure]
      obtain ⟨k1, k2, k3, k4, _⟩ := hr2
      have hgains := hmv.gains
      have hgives := hmv.gives
      have hnn := hmv.nonneg
      refine ⟨k1, fun b ns' hb => (k2 b ns' hb).trans (hmv.others b ns' (.inl hb)), by show sizeAt w ns loc ≤ sizeAt r2.2 ns loc; omega, ?_, fun n' hex h1 h2 h3 => ?_⟩
      · intro e he
        rcases List.mem_cons.1 he with rfl | he
        · refine ⟨hgs.positive, fun h1 => ?_⟩
          have h2 := hgs.stays.resolve_right h1
          simp only [hl other ho] at h2
          show n ≤ (got : Int)
          rcases hgot' with h | h <;> omega
        · exact k4 e he
      · -- the amount that was asked for is `n'`, and the node that gave it had at least as much
        have hd : 0 ≤ mean - lens.get loc := by have := hgs.under; omega
        have hn' : n = n' := by
          have h' := h
          unfold want at h'
          rw [hl loc ha] at h' hd
          split at h'
          · cases h'
          · split at h'
            · cases h'
            · rw [if_neg (by omega)] at h'
              simp only [Int.tdiv_eq_ediv_of_nonneg hd, Int.tdiv_eq_ediv_of_nonneg (Int.ediv_nonneg hd (by omega : (0 : Int) ≤ nRemotes)), h2] at h'
              split at h'
              · cases h'
              · split at h'
                · cases h'
                · simp only [Except.ok.injEq, Option.some.injEq] at h'
                  exact h'.symm
        subst hn'
        show sizeAt w ns loc + n ≤ sizeAt r2.2 ns loc
        rcases hgot' with h5 | h5
        · omega
        · -- the other node gave everything
          have h6 : n ≤ sizeAt w ns other := by
            rcases hgs.stays with h7 | h7
            · simp only [hl other ho] at h7; omega
            · obtain ⟨o, hok, _, hsp⟩ := hex
              have hnil : rest = [] := List.length_eq_zero_iff.1 (by have := hone h7; simp only [List.length_cons] at this; omega)
              rw [hnil, List.mem_singleton] at hok
              subst hok; omega
          omega

theorem filter_has_length {t : Table} {ns : NS} {nodes : List Addr} {w : World F} (hn : nodes.Nodup) (hnd : (addrsWithNamespace t ns).Nodup)
    (hadd : ∀ a, a ∈ addrsWithNamespace t ns ↔ a ∈ nodes ∧ ∃ m, w.get a ns = some m) :
    (nodes.filter (fun a => (w.get a ns).isSome)).length = (addrsWithNamespace t ns).length := by
  refine ((List.perm_ext_iff_of_nodup (hn.filter _) hnd).2 (fun a => ?_)).length_eq
  rw [List.mem_filter, hadd, Option.isSome_iff_exists]

theorem wp_balanceNamespace_feed {env : Env} (he : EnvOK env) {fac : Factory F} (hf : FactoryOK fac) (hr : NoLostReplies env) {D : NS → Nat} {nodes : List Addr}
    (hn : nodes.Nodup) (hreach : ∀ a ∈ nodes, Reachable env a) {T : NS → Int} {B : NS → Nat} {fuel : Nat} {loc : Addr} (ha : loc ∈ nodes)
    (hfinds : AlwaysFinds (knnCos : Search F)) (hT : ∀ ns, T ns < 2 ^ 50) {remotes : List Addr} (hrem : remotes.Perm nodes)
    {t : Table} {ns : NS} (hD : D ns ≠ 0) {w : World F} (hq : Quiet D nodes T B fuel w) (hnd : (addrsWithNamespace t ns).Nodup) (hne : addrsWithNamespace t ns ≠ [])
    (hadd : ∀ a, a ∈ addrsWithNamespace t ns ↔ a ∈ nodes ∧ ∃ m, w.get a ns = some m) (hfull : ∀ b ∈ nodes, b ≠ loc → ∀ c ∈ centroidsAt w b ns, c.dps ≠ []) (p : Nat) :
    Go.wp ((balanceNamespace env fac fuel loc remotes t ns).run w) (fun r _ => Quiet D nodes T B fuel r.2 ∧
      (∀ b ns', ns' ≠ ns → r.2.get b ns' = w.get b ns') ∧ ∀ n, Short w nodes loc ns n → sizeAt w ns loc + n ≤ sizeAt r.2 ns loc) p := by
  have hT0 := total_nonneg hq ns
  have hmean : meanAt w nodes ns = T ns / ((addrsWithNamespace t ns).length : Int) := by
    unfold meanAt
    rw [filter_has_length hn hnd hadd, storedAt_length, hq.total]
  have hk1 : 1 ≤ (addrsWithNamespace t ns).length := List.length_pos_iff.2 hne
  have hmean0 : 0 ≤ T ns / ((addrsWithNamespace t ns).length : Int) := Int.ediv_nonneg hT0 (by omega)
  have hN : 0 < nodes.length := List.length_pos_iff.2 (List.ne_nil_of_mem ha)
  refine wp_balanceNamespace_of (Post := fun log w' => Quiet D nodes T B fuel w' ∧
      (∀ b ns', ns' ≠ ns → w'.get b ns' = w.get b ns') ∧ ∀ n, Short w nodes loc ns n → sizeAt w ns loc + n ≤ sizeAt w' ns loc)
    he hn hreach hT hq hnd hne hadd (fun keys lens p hkp hget => ?_) p
  refine Go.wp_mono (wp_balanceLoop_feed he hf hr hn hreach ha hfinds hD (by rw [hrem.length_eq]; omega) (by omega) hmean0 keys lens w p
    (fun k hk => (hadd k).1 (hkp.subset hk)) hq hget hfull (fun h1 => by rw [hkp.length_eq]; omega)) (fun r p1 hr1 => ?_)
  obtain ⟨k1, k2, _, _, k5⟩ := hr1
  refine ⟨k1, k2, fun n hs => k5 n ?_ ?_ ?_ hs.some⟩
  · obtain ⟨o, ho, hol, hsp⟩ := hs.spare
    rw [hmean] at hsp
    refine ⟨o, hkp.symm.subset ((hadd o).2 ⟨ho, ?_⟩), hol, hsp⟩
    by_contra h
    have h0 := sizeAt_none h
    unfold sizeAt at h0
    have := hs.some
    omega
  · have := hs.low
    rw [hmean] at this
    exact this
  · have := hs.share
    rw [hmean] at this
    rw [hrem.length_eq]
    exact this

theorem short_congr {w w' : World F} {nodes : List Addr} {loc : Addr} {ns : NS} {n : Int} (h : ∀ b, w'.get b ns = w.get b ns) (hs : Short w nodes loc ns n) :
    Short w' nodes loc ns n := by
  have h1 : ∀ l, storedAt w' l ns = storedAt w l ns := fun l => by simp only [storedAt, h]
  have h2 : meanAt w' nodes ns = meanAt w nodes ns := by simp only [meanAt, h1, h]
  obtain ⟨a, b, c, d⟩ := hs
  exact ⟨by rw [h1, h2]; exact a, by rw [h1, h2]; exact b, c, by simp only [h1, h2]; exact d⟩

theorem wp_balanceAll_feed {env : Env} (he : EnvOK env) {fac : Factory F} (hf : FactoryOK fac) (hr : NoLostReplies env) {D : NS → Nat} {nodes : List Addr}
    (hn : nodes.Nodup) (hreach : ∀ a ∈ nodes, Reachable env a) {T : NS → Int} {B : NS → Nat} {fuel : Nat} {loc : Addr} (ha : loc ∈ nodes)
    (hfinds : AlwaysFinds (knnCos : Search F)) (hT : ∀ ns, T ns < 2 ^ 50) {remotes : List Addr} (hrem : remotes.Perm nodes) (hD : ∀ ns, D ns ≠ 0)
    {t : Table} : ∀ (nss : List NS) (w : World F) (p : Nat), nss.Nodup → Quiet D nodes T B fuel w →
    (∀ ns ∈ nss, (addrsWithNamespace t ns).Nodup ∧ addrsWithNamespace t ns ≠ [] ∧
      ∀ a, a ∈ addrsWithNamespace t ns ↔ a ∈ nodes ∧ ∃ m, w.get a ns = some m) → (∀ ns ∈ nss, ∀ b ∈ nodes, b ≠ loc → ∀ c ∈ centroidsAt w b ns, c.dps ≠ []) →
    Go.wp ((Prog.each (fun ns => do
      let r ← balanceNamespace env fac fuel loc remotes t ns
      pure (ns, r)) nss).run w) (fun r _ => (∀ b ns, ns ∉ nss → r.2.get b ns = w.get b ns) ∧
        ∀ ns ∈ nss, ∀ n, Short w nodes loc ns n → sizeAt w ns loc + n ≤ sizeAt r.2 ns loc) p
  | [], w, p, _, hq, _, _ => by
    unfold Prog.each
    rw [run_pure, Go.wp_pure]
    exact ⟨fun _ _ _ => rfl, by simp⟩
  | ns :: nss, w, p, hnd, hq, h, hfull => by
    unfold Prog.each
    rw [List.nodup_cons] at hnd
    obtain ⟨g1, g2, g3⟩ := h ns (by simp)
    rw [run_bind, Go.wp_bind, run_bind, Go.wp_bind]
    refine Go.wp_mono (wp_balanceNamespace_feed he hf hr hn hreach ha hfinds hT hrem (hD ns) hq g1 g2 g3 (hfull ns (by simp)) p) (fun r p1 hr1 => ?_)
    rw [run_pure, Go.wp_pure, run_bind, Go.wp_bind]
    obtain ⟨hq1, hoth, hgot⟩ := hr1
    have hne : ∀ ns' ∈ nss, ns' ≠ ns := by rintro ns' h' rfl; exact hnd.1 h'
    refine Go.wp_mono (wp_balanceAll_feed he hf hr hn hreach ha hfinds hT hrem hD nss r.2 p1 hnd.2 hq1 (fun ns' hns' => ?_)
      (fun ns' hns' b hbn hb c hc => hfull ns' (by simp [hns']) b hbn hb c (by rwa [centroidsAt_congr (hoth b ns' (hne ns' hns'))] at hc))) (fun r2 p2 hr2 => ?_)
    · obtain ⟨k1, k2, k3⟩ := h ns' (by simp [hns'])
      refine ⟨k1, k2, fun a => ?_⟩
      rw [k3 a, hoth a ns' (hne ns' hns')]
    · rw [run_pure, Go.wp_pure]
      obtain ⟨h1, h2⟩ := hr2
      refine ⟨fun b ns' hns' => ?_, fun ns' hns' n hs => ?_⟩
      · rw [List.mem_cons, not_or] at hns'
        exact (h1 b ns' hns'.2).trans (hoth b ns' hns'.1)
      · rcases List.mem_cons.1 hns' with rfl | hns'
        · have := hgot n hs
          show _ ≤ sizeAt r2.2 ns' loc
          rw [sizeAt_congr (h1 loc ns' hnd.1)]; exact this
        · have := h2 ns' hns' n (short_congr (fun b => hoth b ns' (hne ns' hns')) hs)
          rwa [sizeAt_congr (hoth loc ns' (hne ns' hns'))] at this

theorem wp_task_feed {env : Env} (he : EnvOK env) {fac : Factory F} (hf : FactoryOK fac) (hr : NoLostReplies env) {D : NS → Nat} {nodes : List Addr}
    (hn : nodes.Nodup) (hreach : ∀ a ∈ nodes, Reachable env a) {T : NS → Int} {B : NS → Nat} {fuel : Nat} {cfg : Config} (ha : cfg.loc ∈ nodes)
    (hfinds : AlwaysFinds (knnCos : Search F)) (hT : ∀ ns, T ns < 2 ^ 50) (hrem : cfg.remotes.Perm nodes) (hD : ∀ ns, D ns ≠ 0)
    {w : World F} (hq : Quiet D nodes T B fuel w) (hfull : ∀ ns, ∀ b ∈ nodes, b ≠ cfg.loc → ∀ c ∈ centroidsAt w b ns, c.dps ≠ []) (p : Nat) :
    Go.wp ((task env fac fuel cfg .loadBalancing).run w) (fun r _ => ∀ ns n, Short w nodes cfg.loc ns n →
      sizeAt w ns cfg.loc + n ≤ sizeAt r.2 ns cfg.loc) p := by
  obtain ⟨t, replies, p1, _, h1, rfl, h3, h4⟩ := C54_run he hq.ok cfg.remotes p
  obtain ⟨t1, t2, t3⟩ := C54_table replies
  have h4 : ∀ r ∈ replies, r.2.Nodup ∧ ∀ ns, ns ∈ r.2 ↔ ∃ m, w.get r.1 ns = some m := by
    intro r hrm
    refine ⟨(h4 r hrm).1, ?_⟩
    rcases (h4 r hrm).2 with h | ⟨_, q, h⟩
    · exact h
    · have := hreach r.1 (hrem.subset (by rw [← h3]; exact List.mem_map_of_mem hrm))
      rcases h with h | h
      · rw [this.1 q] at h; cases h
      · rw [this.2 q] at h; cases h
  unfold task
  rw [run_bind, Go.wp_bind]
  refine Go.wp_iff.2 ⟨_, _, h1, ?_⟩
  rw [run_bind, Go.wp_bind, run_loc, Go.wp_bind]
  unfold EventLoop.namespaces
  refine wp_shuffled he (fun nss hnss => ?_)
  rw [Go.wp_pure, run_bind, Go.wp_bind]
  refine Go.wp_mono (wp_balanceAll_feed he hf hr hn hreach ha hfinds hT hrem hD nss w _ (hnss.nodup_iff.2 t1) hq (fun ns hns => ?_)
    (fun ns _ => hfull ns)) (fun r p2 hr2 => ?_)
  · rw [t3 ns]
    obtain ⟨r1, r2⟩ := reporters_nodup (ns := ns) (by rw [h3]; exact hrem.nodup_iff.2 hn) (fun r hrm => (h4 r hrm).1)
    obtain ⟨r, hrm, hr'⟩ := (t2 ns).1 (hnss.subset hns)
    refine ⟨r1, List.ne_nil_of_mem ((r2 r.1).2 ⟨r, hrm, rfl, hr'⟩), fun a => ?_⟩
    rw [r2]
    constructor
    · rintro ⟨r, hrm, rfl, hr'⟩
      exact ⟨hrem.subset (by rw [← h3]; exact List.mem_map_of_mem hrm), ((h4 r hrm).2 ns).1 hr'⟩
    · rintro ⟨hmem, hm⟩
      have : a ∈ replies.map (fun r => r.1) := by rw [h3]; exact hrem.symm.subset hmem
      obtain ⟨r, hrm, rfl⟩ := List.mem_map.1 this
      exact ⟨r, hrm, rfl, ((h4 r hrm).2 ns).2 hm⟩
  · rw [run_pure, Go.wp_pure]
    intro ns n hs
    refine hr2.2 ns (hnss.symm.subset ((t2 ns).2 ?_)) n hs
    -- the node that can spare datapoints has the namespace
    obtain ⟨o, ho, hol, hsp⟩ := hs.spare
    have hmean : 0 ≤ meanAt w nodes ns := Int.ediv_nonneg (by omega) (by omega)
    have hex : ∃ m, w.get o ns = some m := by
      by_contra h
      have h0 := sizeAt_none h
      unfold sizeAt at h0
      have := hs.some
      omega
    have : o ∈ replies.map (fun r => r.1) := by rw [h3]; exact hrem.symm.subset ho
    obtain ⟨r, hrm, rfl⟩ := List.mem_map.1 this
    exact ⟨r, hrm, ((h4 r hrm).2 ns).2 hex⟩

end
end Trypo
