import Verif.Spec.Rest
import Verif.Props.Jobs

/-!
# Load balancing as a descent
-/

set_option linter.unusedSectionVars false
set_option linter.unusedVariables false

namespace Trypo
open GoFloat Spec EventLoop

theorem two_of_nodes {nodes : List Addr} (hn : nodes.Nodup) {a b : Addr} (ha : a ∈ nodes) (hb : b ∈ nodes) (hne : a ≠ b) :
    ∃ rest, nodes.Perm (a :: b :: rest) ∧ ∀ x ∈ rest, x ≠ a ∧ x ≠ b ∧ x ∈ nodes := by
  have h1 := List.perm_cons_erase ha
  have hb' : b ∈ nodes.erase a := (List.mem_erase_of_ne (Ne.symm hne)).2 hb
  have h2 := List.perm_cons_erase hb'
  have hp : nodes.Perm (a :: b :: (nodes.erase a).erase b) := h1.trans (h2.cons a)
  refine ⟨_, hp, fun x hx => ?_⟩
  have hnd := hp.nodup_iff.1 hn
  rw [List.nodup_cons, List.nodup_cons] at hnd
  refine ⟨?_, ?_, hp.mem_iff.2 (by simp [hx])⟩
  · rintro rfl; exact hnd.1 (by simp [hx])
  · rintro rfl; exact hnd.2.1 hx

/-- A sum over the nodes when only two of the terms change. -/
theorem sum_two {nodes : List Addr} (hn : nodes.Nodup) {a b : Addr} (ha : a ∈ nodes) (hb : b ∈ nodes) (hne : a ≠ b) {f g : Addr → Int}
    (h : ∀ x ∈ nodes, x ≠ a → x ≠ b → g x = f x) : (nodes.map g).sum + f a + f b = (nodes.map f).sum + g a + g b := by
  obtain ⟨rest, hp, hr⟩ := two_of_nodes hn ha hb hne
  rw [(hp.map g).sum_eq, (hp.map f).sum_eq]
  simp only [List.map_cons, List.sum_cons]
  rw [List.map_congr_left (fun x hx => h x (hr x hx).2.2 (hr x hx).1 (hr x hx).2.1)]
  omega

section
variable {F : Type} [GoFloat F] [LawfulCmp F]

/-- The number of datapoints of a namespace at a node. -/
def sizeAt (w : World F) (ns : NS) (a : Addr) : Int := (storedAt w [a] ns).length

theorem storedAt_length (w : World F) (nodes : List Addr) (ns : NS) : ((storedAt w nodes ns).length : Int) = (nodes.map (sizeAt w ns)).sum := by
  induction nodes with
  | nil => rfl
  | cons a l ih =>
    have : storedAt w (a :: l) ns = storedAt w [a] ns ++ storedAt w l ns := by simp [storedAt]
    rw [this, List.length_append, List.map_cons, List.sum_cons, ← ih]
    simp [sizeAt]

/-- What a step of balancing keeps. -/
structure Quiet (D : NS → Nat) (nodes : List Addr) (T : NS → Int) (B : NS → Nat) (K : Int) (w : World F) : Prop where
  ok : WorldOK D w
  live : ∀ a ∈ nodes, ∀ ns, ∀ d ∈ storedAt w [a] ns, d.expireEnabled = false
  small : ∀ a ∈ nodes, ∀ ns, ∀ c ∈ centroidsAt w a ns, c.dps.length ≤ B ns
  total : ∀ ns, (nodes.map (sizeAt w ns)).sum = T ns
  fuel : ∀ ns, (nodes.map (fun a => ((centroidsAt w a ns).length : Int))).sum < K

theorem not_dead_of_stay {d : DataPoint F} (h : d.expireEnabled = false) (t : Int) : ¬ Dead t d := by
  unfold Dead; simp [h]

theorem conserved_stay {t : Int} {b a o : List (DataPoint F)} (h : Conserved t b a o) (hl : ∀ d ∈ b, d.expireEnabled = false) : (a ++ o).Perm b := by
  obtain ⟨lost, h1, h2⟩ := h
  have : lost = [] := by
    rw [List.eq_nil_iff_forall_not_mem]
    intro d hd
    exact not_dead_of_stay (hl d (h1.subset (by simp [hd]))) t (h2 d hd)
  subst this
  simpa using h1

theorem sizeAt_congr {w w' : World F} {ns : NS} {b : Addr} (h : w'.get b ns = w.get b ns) : sizeAt w' ns b = sizeAt w ns b := by
  simp [sizeAt, storedAt, h]

theorem centroidsAt_congr {w w' : World F} {ns : NS} {b : Addr} (h : w'.get b ns = w.get b ns) : centroidsAt w' b ns = centroidsAt w b ns := by
  simp [centroidsAt, h]

theorem storedAt_of_get {w w' : World F} {ns : NS} {b : Addr} (h : w'.get b ns = w.get b ns) : storedAt w' [b] ns = storedAt w [b] ns := by
  simp [storedAt, h]

/-- What a transfer from `src` to `a` changes. -/
structure Shifted (w w' : World F) (a src : Addr) (ns : NS) (g : Int) : Prop where
  others : ∀ b ns', (ns' ≠ ns ∨ b ≠ a ∧ b ≠ src) → w'.get b ns' = w.get b ns'
  kept : ∀ b ns', (∃ m, w.get b ns' = some m) → ∃ m, w'.get b ns' = some m
  nonneg : 0 ≤ g
  gains : sizeAt w' ns a = sizeAt w ns a + g
  gives : sizeAt w' ns src = sizeAt w ns src - g

theorem wp_steal_quiet {env : Env} (he : EnvOK env) {fac : Factory F} (hf : FactoryOK fac) (hr : NoLostReplies env) {D : NS → Nat} {nodes : List Addr} (hn : nodes.Nodup)
    (hreach : ∀ a ∈ nodes, Reachable env a) {T : NS → Int} {B : NS → Nat} {fuel : Nat} {a src : Addr} (ha : a ∈ nodes) (hs : src ∈ nodes) (hne : a ≠ src)
    {ns : NS} (limit : Int) {w : World F} (hq : Quiet D nodes T B fuel w) (hg : ∃ m, w.get src ns = some m) (p : Nat) :
    Go.wp ((Client.stealCentroids env fac fuel a ns src limit).run w) (fun r _ => Quiet D nodes T B fuel r.2 ∧
      Shifted w r.2 a src ns r.1.1 ∧ (0 < r.1.1 → (r.1.1 : Int) < limit + B ns) ∧
      (∀ b, b ≠ a → (centroidsAt r.2 b ns).Sublist (centroidsAt w b ns)) ∧
      (AlwaysFinds (knnCos : Search F) → D ns ≠ 0 → (∀ c ∈ centroidsAt w src ns, c.dps ≠ []) → limit ≤ r.1.1 ∨ sizeAt r.2 ns src = 0)) p := by
  obtain ⟨s, hgs⟩ := hg
  unfold Client.stealCentroids Client.call
  rw [run_bind, Go.wp_bind, run_bind, Go.wp_bind, run_loc, Go.wp_bind]
  refine wp_sent ?_
  rw [Go.wp_pure, (hreach a ha).1 p]
  simp only [if_true]
  rw [run_bind, Go.wp_bind, run_bind, Go.wp_bind]
  obtain ⟨rest, hp, hrest⟩ := two_of_nodes hn ha hs hne
  have hpos : 0 ≤ (rest.map (fun a => ((centroidsAt w a ns).length : Int))).sum := sum_nonneg (fun x hx => by
    obtain ⟨y, _, rfl⟩ := List.mem_map.1 hx; omega)
  have hfuel : s.centroids.length < fuel := by
    have := hq.fuel ns
    rw [(hp.map _).sum_eq] at this
    simp only [List.map_cons, List.sum_cons, centroidsAt_some hgs] at this
    omega
  obtain ⟨resp, w', p', moved, s', h1, h2⟩ := C37_steal he.clock hr hf hne limit hq.ok hgs hfuel (p + 1)
  refine Go.wp_iff.2 ⟨_, _, h1, ?_⟩
  rw [run_pure, Go.wp_pure, run_bind, Go.wp_bind, run_loc, Go.wp_bind]
  refine wp_arrived ?_
  rw [Go.wp_pure, hr _ _]
  simp only [if_true, run_pure, Go.wp_pure]
  have hlives : ∀ d ∈ stored s, d.expireEnabled = false := by
    have := hq.live src hs ns
    rwa [storedAt_one hgs] at this
  have hgive := conserved_stay h2.given hlives
  have hlivem : ∀ d ∈ storedAt w [a] ns ++ moved, d.expireEnabled = false := by
    intro d hd
    rcases List.mem_append.1 hd with h | h
    · exact hq.live a ha ns d h
    · exact hlives d (hgive.subset (by simp [h]))
  have hgain := conserved_stay h2.gained hlivem
  rw [List.append_nil] at hgain
  have hM : Shifted w w' a src ns resp.transferredN := by
    refine ⟨h2.others, fun b ns' hb => ?_, by omega, ?_, ?_⟩
    · by_cases hx : ns' ≠ ns ∨ b ≠ a ∧ b ≠ src
      · rw [h2.others b ns' hx]; exact hb
      · push Not at hx
        obtain ⟨rfl, hx⟩ := hx
        by_cases hba : b = a
        · subst hba; exact h2.kept hb
        · rw [hx hba]; exact ⟨_, h2.remote⟩
    · have := hgain.length_eq
      rw [List.length_append] at this
      unfold sizeAt
      rw [h2.count]; omega
    · have := hgive.length_eq
      rw [List.length_append] at this
      unfold sizeAt
      rw [storedAt_one hgs, storedAt_one h2.remote, h2.count]; omega
  refine ⟨⟨h2.ok, fun b hb ns' d hd => ?_, fun b hb ns' c hc => ?_, fun ns' => ?_, fun ns' => ?_⟩, hM, fun hpos' => ?_, fun b hb => ?_, fun hfinds hD hfull => ?_⟩
  · by_cases hx : ns' ≠ ns ∨ b ≠ a ∧ b ≠ src
    · rw [storedAt_of_get (h2.others b ns' hx)] at hd
      exact hq.live b hb ns' d hd
    · push Not at hx
      obtain ⟨rfl, hx⟩ := hx
      by_cases hba : b = a
      · subst hba; exact hlivem d (hgain.subset hd)
      · rw [hx hba, storedAt_one h2.remote] at hd
        exact hlives d (hgive.subset (by simp [hd]))
  · by_cases hx : ns' ≠ ns ∨ b ≠ a ∧ b ≠ src
    · rw [centroidsAt_congr (h2.others b ns' hx)] at hc
      exact hq.small b hb ns' c hc
    · push Not at hx
      obtain ⟨rfl, hx⟩ := hx
      by_cases hba : b = a
      · subst hba
        obtain ⟨c0, hc0, hle⟩ := h2.sizes c hc
        refine Nat.le_trans hle ?_
        rcases List.mem_append.1 hc0 with h | h
        · exact hq.small b hb _ c0 h
        · exact hq.small src hs _ c0 (by rw [centroidsAt_some hgs]; exact h)
      · rw [hx hba, centroidsAt_some h2.remote] at hc
        exact hq.small src hs _ c (by rw [centroidsAt_some hgs]; exact h2.whole.subset hc)
  · by_cases hx : ns' = ns
    · subst hx
      rw [← hq.total ns']
      have := sum_two hn ha hs hne (f := sizeAt w ns') (g := sizeAt w' ns') (fun x _ h3 h4 => sizeAt_congr (h2.others x ns' (.inr ⟨h3, h4⟩)))
      have := hM.gains
      have := hM.gives
      omega
    · rw [← hq.total ns']
      exact congrArg List.sum (List.map_congr_left (fun x _ => sizeAt_congr (h2.others x ns' (.inl hx))))
  · by_cases hx : ns' = ns
    · subst hx
      have h3 := sum_two hn ha hs hne (f := fun a => ((centroidsAt w a ns').length : Int)) (g := fun a => ((centroidsAt w' a ns').length : Int))
        (fun x _ h3 h4 => by simp only [centroidsAt_congr (h2.others x ns' (.inr ⟨h3, h4⟩))])
      have h4 := h2.number
      have h5 := hq.fuel ns'
      rw [centroidsAt_some hgs, centroidsAt_some h2.remote] at h3
      omega
    · have h5 := hq.fuel ns'
      rw [List.map_congr_left (g := fun a => ((centroidsAt w a ns').length : Int)) (fun x _ => by simp only [centroidsAt_congr (h2.others x ns' (.inl hx))])]
      exact h5
  · obtain ⟨c, hc, hlt⟩ := h2.limit_ok hpos'
    have := hq.small src hs ns c (by rw [centroidsAt_some hgs]; exact hc)
    omega
  · by_cases hbs : b = src
    · subst hbs; rw [centroidsAt_some hgs, centroidsAt_some h2.remote]; exact h2.whole
    · rw [centroidsAt_congr (h2.others b ns (.inr ⟨hb, hbs⟩))]
  · rw [centroidsAt_some hgs] at hfull
    have hok : resp.ok = true := by
      cases ho : resp.ok with
      | true => rfl
      | false =>
        rcases h2.heard ho with ⟨q, h⟩ | h
        · rw [(hreach src hs).1 q] at h; cases h
        · exact absurd h hD
    rcases h2.stop hok with h | ⟨v, hv, h⟩ | ⟨c, hc, h⟩
    · exact .inl h
    · right
      have hnil : s'.centroids = [] := by
        by_contra hne'
        obtain ⟨i, hl, hi⟩ := lookup_of_get h2.ok h2.remote
        have hmok := h2.ok.mok hi
        obtain ⟨j, js, hj⟩ := hfinds v (s'.centroids.map (fun c => c.vec)) (by simpa using hne') (by
          intro u hu
          obtain ⟨x, hx, rfl⟩ := List.mem_map.1 hu
          rw [(hmok.wf.dim x hx).1, hmok.len, hv])
        rw [hj] at h; simp at h
      unfold sizeAt
      rw [storedAt_one h2.remote]
      simp [stored, hnil]
    · exact absurd h (hfull c hc)

theorem unevenness_moved {nodes : List Addr} (hn : nodes.Nodup) {a src : Addr} (ha : a ∈ nodes) (hs : src ∈ nodes) (hne : a ≠ src) {w w' : World F}
    {ns : NS} {g : Int} (h : Shifted w w' a src ns g) (hg : g ≤ sizeAt w ns src - sizeAt w ns a - 1 ∨ g = 0) :
    unevenness w' nodes ns + 2 * g ≤ unevenness w nodes ns := by
  have h1 := sum_two hn ha hs hne (f := fun a => (sizeAt w ns a) ^ 2) (g := fun a => (sizeAt w' ns a) ^ 2)
    (fun x _ h3 h4 => by simp only [sizeAt_congr (h.others x ns (.inr ⟨h3, h4⟩))])
  simp only [h.gains, h.gives] at h1
  unfold unevenness
  unfold sizeAt at *
  have h0 := h.nonneg
  rcases hg with hg | hg
  · nlinarith [mul_nonneg h0 (by linarith : (0 : Int) ≤ ((storedAt w [src] ns).length : Int) - (storedAt w [a] ns).length - 1 - g)]
  · subst hg; nlinarith

/-- What a run of the balancing loop does to the nodes. -/
structure Descent (nodes : List Addr) (ns : NS) (w w' : World F) (log : List Stolen) : Prop where
  others : ∀ b ns', ns' ≠ ns → w'.get b ns' = w.get b ns'
  kept : ∀ b ns', (∃ m, w.get b ns' = some m) → ∃ m, w'.get b ns' = some m
  nonneg : ∀ e ∈ log, 0 ≤ e.got
  down : unevenness w' nodes ns + 2 * (log.map (fun e => e.got)).sum ≤ unevenness w nodes ns

theorem wp_balanceLoop_quiet {env : Env} (he : EnvOK env) {fac : Factory F} (hf : FactoryOK fac) (hr : NoLostReplies env) {D : NS → Nat} {nodes : List Addr} (hn : nodes.Nodup)
    (hreach : ∀ a ∈ nodes, Reachable env a) {T : NS → Int} {B : NS → Nat} {fuel : Nat} {loc : Addr} (ha : loc ∈ nodes) {ns : NS}
    {nRemotes nAddrs : Nat} (hrem : 0 < nRemotes) {mean mar : Int} (hm : 0 ≤ mar) (hB : (B ns : Int) ≤ 2 * mar) :
    ∀ (keys : List Addr) (lens : Lens) (w : World F) (p : Nat), (∀ k ∈ keys, k ∈ nodes ∧ ∃ m, w.get k ns = some m) → Quiet D nodes T B fuel w →
    (∀ x ∈ nodes, lens.get x = sizeAt w ns x) →
    (nAddrs = 1 → keys = [] ∨ ∃ o, keys = [o] ∧ (o ≠ loc → ∀ n, 3 * (nRemotes * n) ≤ mean - sizeAt w ns loc → n + B ns ≤ sizeAt w ns o - sizeAt w ns loc)) →
    Go.wp ((balanceLoop (fun other n => do
      let r ← Client.stealCentroids env fac fuel loc ns other n
      pure (r.1 : Int)) nRemotes nAddrs loc mean mar keys lens).run w) (fun r _ => Quiet D nodes T B fuel r.2 ∧ Descent nodes ns w r.2 r.1) p
  | [], lens, w, p, hk, hq, hl, hone => by
    unfold balanceLoop
    rw [run_pure, Go.wp_pure]
    exact ⟨hq, fun _ _ _ => rfl, fun _ _ h => h, by simp, by simp⟩
  | other :: rest, lens, w, p, hk, hq, hl, hone => by
    unfold balanceLoop
    rw [run_bind, Go.wp_bind, run_loc, Go.wp_bind]
    obtain ⟨ho, hog⟩ := hk other (by simp)
    rcases want_ok hrem loc mean hm lens other with h | ⟨n, h, hg⟩
    · rw [h, Go.wp_lift]
      refine ⟨_, rfl, ?_⟩
      rw [Go.wp_pure]
      refine wp_balanceLoop_quiet he hf hr hn hreach ha hrem hm hB rest lens w p (fun k hk' => hk k (by simp [hk'])) hq hl (fun h1 => ?_)
      rcases hone h1 with h | ⟨o, h, _⟩
      · cases h
      · cases h; exact .inl rfl
    · rw [h, Go.wp_lift]
      refine ⟨_, rfl, ?_⟩
      rw [Go.wp_pure]
      simp only
      rw [run_bind, Go.wp_bind, run_bind, Go.wp_bind]
      have hgs := hg 0
      have hne : loc ≠ other := Ne.symm hgs.notSelf
      refine Go.wp_mono (wp_steal_quiet he hf hr hn hreach ha ho hne n hq hog p) (fun r p1 hr1 => ?_)
      obtain ⟨⟨⟨got, b⟩, w1⟩, hx⟩ : ∃ x, x = r := ⟨r, rfl⟩
      subst hx
      obtain ⟨hq1, hmv, hlt, _⟩ := hr1
      simp only at hq1 hmv hlt ⊢
      rw [run_pure, Go.wp_pure, run_bind, Go.wp_bind]
      have hlim : n + B ns ≤ sizeAt w ns other - sizeAt w ns loc := by
        have h1 := hgs.under
        have h2 := hgs.stays
        have h3 := hgs.third
        simp only [hl loc ha, hl other ho] at h1 h2 h3
        by_cases hna : nAddrs = 1
        · rcases hone hna with h | ⟨o, h, hh⟩
          · cases h
          · cases h; exact hh (Ne.symm hne) n h3
        · rcases h2 with h2 | h2
          · omega
          · exact absurd h2 hna
      have hstep := unevenness_moved hn ha ho hne hmv (by
        by_cases h0 : 0 < got
        · have := hlt h0; left; omega
        · right; omega)
      generalize hl2 : Lens.set (Lens.set lens loc (lens.get loc + (got : Int))) other ((Lens.set lens loc (lens.get loc + (got : Int))).get other - got) = lens2
      have hget : ∀ x ∈ nodes, lens2.get x = sizeAt w1 ns x := by
        intro x hx
        rw [← hl2, Lens.get_set, Lens.get_set, Lens.get_set, if_neg (Ne.symm hne)]
        by_cases h1 : x = other
        · subst h1; rw [if_pos rfl, hl x hx, hmv.gives]
        · rw [if_neg h1]
          by_cases h2 : x = loc
          · subst h2; rw [if_pos rfl, hl x hx, hmv.gains]
          · rw [if_neg h2, hl x hx, sizeAt_congr (hmv.others x ns (.inr ⟨h2, h1⟩))]
      refine Go.wp_mono (wp_balanceLoop_quiet he hf hr hn hreach ha hrem hm hB rest lens2 w1 p1
        (fun k hk' => ⟨(hk k (by simp [hk'])).1, hmv.kept k ns (hk k (by simp [hk'])).2⟩) hq1 hget (fun h1 => ?_)) (fun r2 p2 hr2 => ?_)
      · rcases hone h1 with h | ⟨o, h, _⟩
        · cases h
        · cases h; exact .inl rfl
      · rw [run_pure, Go.wp_pure]
        obtain ⟨hq2, hd⟩ := hr2
        refine ⟨hq2, fun b ns' hb => (hd.others b ns' hb).trans (hmv.others b ns' (.inl hb)), fun b ns' hb => hd.kept b ns' (hmv.kept b ns' hb), ?_, ?_⟩
        · intro e he
          rcases List.mem_cons.1 he with rfl | he
          · exact hmv.nonneg
          · exact hd.nonneg e he
        · have := hd.down
          rw [List.map_cons, List.sum_cons]
          simp only
          omega

omit [LawfulCmp F] in
theorem lens_get_of {f : Addr → Int} {x : Addr} : ∀ {lens : Lens}, (∀ e ∈ lens, e.2 = f e.1) →
    lens.get x = if x ∈ lens.map (fun e => e.1) then f x else 0
  | [], _ => by simp [Lens.get]
  | e :: l, h => by
    have ih := lens_get_of (x := x) (lens := l) (fun e' he => h e' (by simp [he]))
    unfold Lens.get at ih ⊢
    obtain ⟨k, v⟩ := e
    have hv : v = f k := h (k, v) (by simp)
    by_cases hx : x = k
    · subst hx; simp [hv]
    · have : (x == k) = false := by simpa using hx
      rw [List.lookup_cons, this]
      simp only [List.map_cons, List.mem_cons, hx, false_or]
      exact ih

omit [LawfulCmp F] [GoFloat F] in
theorem sum_filter_zero {l : List Addr} {f : Addr → Int} {P : Addr → Bool} (h : ∀ x ∈ l, P x = false → f x = 0) :
    (l.map f).sum = ((l.filter P).map f).sum := by
  induction l with
  | nil => rfl
  | cons a l ih =>
    have ih := ih (fun x hx => h x (by simp [hx]))
    cases hp : P a with
    | true => rw [List.filter_cons_of_pos hp]; simp only [List.map_cons, List.sum_cons, ih]
    | false =>
      rw [List.filter_cons_of_neg (by simp [hp]), List.map_cons, List.sum_cons, h a (by simp) hp, ih]; omega

theorem sizeAt_none {w : World F} {ns : NS} {a : Addr} (h : ¬ ∃ m, w.get a ns = some m) : sizeAt w ns a = 0 := by
  have : w.get a ns = none := by
    cases hg : w.get a ns with
    | none => rfl
    | some m => exact absurd ⟨m, hg⟩ h
  simp [sizeAt, storedAt, this]

/-- The balancing of a namespace, given what is known about the loop: it runs over the nodes that have the namespace, with their sizes
and the average of those. -/
theorem wp_balanceNamespace_of {env : Env} (he : EnvOK env) {fac : Factory F} {D : NS → Nat} {nodes : List Addr}
    (hn : nodes.Nodup) (hreach : ∀ a ∈ nodes, Reachable env a) {T : NS → Int} {B : NS → Nat} {fuel : Nat} {K : Int} {loc : Addr}
    (hT : ∀ ns, T ns < 2 ^ 50) {remotes : List Addr}
    {t : Table} {ns : NS} {w : World F} (hq : Quiet D nodes T B K w) (hnd : (addrsWithNamespace t ns).Nodup) (hne : addrsWithNamespace t ns ≠ [])
    (hadd : ∀ a, a ∈ addrsWithNamespace t ns ↔ a ∈ nodes ∧ ∃ m, w.get a ns = some m) {Post : List Stolen → World F → Prop}
    (hloop : ∀ keys lens p, keys.Perm (addrsWithNamespace t ns) → (∀ x ∈ nodes, Lens.get lens x = sizeAt w ns x) →
      Go.wp ((balanceLoop (fun other n => do
        let r ← Client.stealCentroids env fac fuel loc ns other n
        pure (r.1 : Int)) remotes.length (addrsWithNamespace t ns).length loc (T ns / ((addrsWithNamespace t ns).length : Int))
        (2 * (T ns / ((addrsWithNamespace t ns).length : Int)) / 5) keys lens).run w) (fun r _ => Post r.1 r.2) p) (p : Nat) :
    Go.wp ((balanceNamespace env fac fuel loc remotes t ns).run w) (fun r _ => Post r.1.2 r.2) p := by
  unfold balanceNamespace
  rw [run_bind, Go.wp_bind]
  refine Go.wp_mono (wp_fetchLens he hq.ok (addrsWithNamespace t ns) ns p) (fun r p1 hr1 => ?_)
  obtain ⟨⟨lens, w1⟩, h1⟩ : ∃ x, x = r := ⟨r, rfl⟩
  subst h1
  obtain ⟨_, h2, h3, h4, h5⟩ := hr1
  simp only at h2 h3 h4 h5 ⊢
  subst h2
  have h5 : ∀ e ∈ lens, e.2 = sizeAt w1 ns e.1 := by
    intro e hem
    rcases h5 e hem with h | ⟨_, q, h⟩
    · exact h
    · have := hreach e.1 ((hadd e.1).1 ((h4 e.1).1 (List.mem_map_of_mem hem))).1
      rcases h with h | h
      · rw [this.1 q] at h; cases h
      · rw [this.2 q] at h; cases h
  have hkeys : (lens.map (fun e => e.1)).Perm (addrsWithNamespace t ns) := (List.perm_ext_iff_of_nodup h3 hnd).2 h4
  have hlen : lens.length = (addrsWithNamespace t ns).length := by simpa using hkeys.length_eq
  have hne' : lens ≠ [] := by
    rintro rfl
    simp at hlen
    exact hne (List.length_eq_zero_iff.1 hlen.symm)
  have hpos : ∀ e ∈ lens, 0 ≤ e.2 := fun e hem => by rw [h5 e hem]; unfold sizeAt; omega
  have hget : ∀ x ∈ nodes, lens.get x = sizeAt w1 ns x := by
    intro x hx
    rw [lens_get_of h5]
    split
    · rfl
    · rename_i h
      rw [h4, hadd] at h
      exact (sizeAt_none (fun hm => h ⟨hx, hm⟩)).symm
  have hsub : (addrsWithNamespace t ns).Perm (nodes.filter (fun a => decide (a ∈ addrsWithNamespace t ns))) := by
    refine (List.perm_ext_iff_of_nodup hnd (hn.filter _)).2 (fun a => ?_)
    simp only [List.mem_filter, decide_eq_true_eq]
    exact ⟨fun h => ⟨((hadd a).1 h).1, h⟩, fun h => h.2⟩
  have hsum : (lens.map (fun e => e.2)).sum = T ns := by
    rw [← hq.total ns, sum_filter_zero (P := fun a => decide (a ∈ addrsWithNamespace t ns)) (fun x hx h => sizeAt_none (fun hm => by
      simp only [decide_eq_false_iff_not] at h
      exact h ((hadd x).2 ⟨hx, hm⟩)))]
    rw [← ((hkeys.trans hsub).map (sizeAt w1 ns)).sum_eq, List.map_map]
    exact congrArg List.sum (List.map_congr_left h5)
  have hk1 : 1 ≤ lens.length := List.length_pos_iff.2 hne'
  have hkN : lens.length ≤ nodes.length := by
    rw [hlen, hsub.length_eq]; exact List.length_filter_le _ _
  have hT0 : 0 ≤ T ns := by
    rw [← hq.total ns]
    exact sum_nonneg (fun x hx => by
      obtain ⟨y, _, rfl⟩ := List.mem_map.1 hx
      unfold sizeAt; omega)
  have havg : average (lens.map (fun e => e.2)) = T ns / (lens.length : Int) := by
    unfold average; rw [hsum, List.length_map]
  have hmean0 : 0 ≤ T ns / (lens.length : Int) := Int.ediv_nonneg hT0 (by omega)
  have hmeanT : T ns / (lens.length : Int) ≤ T ns := Int.ediv_le_self _ hT0
  have hmargin : margin (T ns / (lens.length : Int)) = 2 * (T ns / (lens.length : Int)) / 5 :=
    margin_eq hmean0 (lt_of_le_of_lt hmeanT (hT ns))
  rw [run_bind, Go.wp_bind]
  unfold balance
  rw [run_bind, Go.wp_bind, run_loc, Go.wp_bind, meanOf_ok hne' hpos, Go.wp_lift]
  refine ⟨_, rfl, ?_⟩
  rw [Go.wp_pure, run_bind, Go.wp_bind, run_loc, Go.wp_bind]
  refine wp_shuffled he (fun keys hks => ?_)
  rw [Go.wp_pure]
  simp only [havg, hmargin]
  rw [hlen]
  refine Go.wp_mono (hloop keys lens _ (hks.trans hkeys) hget) (fun r2 p2 hr2 => ?_)
  rw [run_pure, Go.wp_pure]
  exact hr2

theorem total_nonneg {D : NS → Nat} {nodes : List Addr} {T : NS → Int} {B : NS → Nat} {K : Int} {w : World F} (hq : Quiet D nodes T B K w) (ns : NS) :
    0 ≤ T ns := by
  rw [← hq.total ns]
  exact sum_nonneg (fun x hx => by
    obtain ⟨y, _, rfl⟩ := List.mem_map.1 hx
    unfold sizeAt; omega)

theorem wp_balanceNamespace_quiet {env : Env} (he : EnvOK env) {fac : Factory F} (hf : FactoryOK fac) (hr : NoLostReplies env) {D : NS → Nat} {nodes : List Addr}
    (hn : nodes.Nodup) (hreach : ∀ a ∈ nodes, Reachable env a) {T : NS → Int} {B : NS → Nat} {fuel : Nat} {loc : Addr} (ha : loc ∈ nodes)
    (hT : ∀ ns, T ns < 2 ^ 50) (hB : ∀ ns, (B ns : Int) ≤ 2 * (2 * (T ns / nodes.length) / 5)) {remotes : List Addr} (hrem : remotes.Perm nodes)
    {t : Table} {ns : NS} {w : World F} (hq : Quiet D nodes T B fuel w) (hnd : (addrsWithNamespace t ns).Nodup) (hne : addrsWithNamespace t ns ≠ [])
    (hadd : ∀ a, a ∈ addrsWithNamespace t ns ↔ a ∈ nodes ∧ ∃ m, w.get a ns = some m) (p : Nat) :
    Go.wp ((balanceNamespace env fac fuel loc remotes t ns).run w) (fun r _ => Quiet D nodes T B fuel r.2 ∧ Descent nodes ns w r.2 r.1.2) p := by
  refine wp_balanceNamespace_of (Post := fun log w' => Quiet D nodes T B fuel w' ∧ Descent nodes ns w w' log) he hn hreach hT hq hnd hne hadd (fun keys lens p hkp hget => ?_) p
  have hT0 := total_nonneg hq ns
  have hsub : (addrsWithNamespace t ns).Perm (nodes.filter (fun a => decide (a ∈ addrsWithNamespace t ns))) := by
    refine (List.perm_ext_iff_of_nodup hnd (hn.filter _)).2 (fun a => ?_)
    simp only [List.mem_filter, decide_eq_true_eq]
    exact ⟨fun h => ⟨((hadd a).1 h).1, h⟩, fun h => h.2⟩
  have hk1 : 1 ≤ (addrsWithNamespace t ns).length := List.length_pos_iff.2 hne
  have hkN : (addrsWithNamespace t ns).length ≤ nodes.length := by
    rw [hsub.length_eq]; exact List.length_filter_le _ _
  have hmean0 : 0 ≤ T ns / ((addrsWithNamespace t ns).length : Int) := Int.ediv_nonneg hT0 (by omega)
  have hmono : T ns / (nodes.length : Int) ≤ T ns / ((addrsWithNamespace t ns).length : Int) := by
    refine Int.le_ediv_of_mul_le (by omega) ?_
    have h6 : T ns / (nodes.length : Int) * nodes.length ≤ T ns := Int.ediv_mul_le _ (by omega)
    have h7 : 0 ≤ T ns / (nodes.length : Int) := Int.ediv_nonneg hT0 (by omega)
    nlinarith [mul_nonneg h7 (by omega : (0 : Int) ≤ (nodes.length : Int) - (addrsWithNamespace t ns).length)]
  refine wp_balanceLoop_quiet he hf hr hn hreach ha (by rw [hrem.length_eq]; omega) (by omega) ((hB ns).trans (by omega)) keys lens w p
    (fun k hk => (hadd k).1 (hkp.subset hk)) hq hget (fun hone => ?_)
  refine .inr ?_
  have hl1 : keys.length = 1 := by rw [hkp.length_eq, hone]
  obtain ⟨o, rfl⟩ := List.length_eq_one_iff.1 hl1
  refine ⟨o, rfl, fun hol n hn3 => ?_⟩
  have hadd1 : addrsWithNamespace t ns = [o] := List.perm_singleton.1 hkp.symm
  have hloc0 : sizeAt w ns loc = 0 := by
    refine sizeAt_none (fun hm => ?_)
    have := (hadd loc).2 ⟨ha, hm⟩
    rw [hadd1, List.mem_singleton] at this
    exact hol this.symm
  have honode : o ∈ nodes := ((hadd o).1 (by rw [hadd1]; simp)).1
  have hoT : sizeAt w ns o = T ns := by
    rw [← hq.total ns, sum_filter_zero (P := fun a => decide (a ∈ addrsWithNamespace t ns)) (fun x hx h => sizeAt_none (fun hm => by
      simp only [decide_eq_false_iff_not] at h
      exact h ((hadd x).2 ⟨hx, hm⟩))), ← (hsub.map (sizeAt w ns)).sum_eq, hadd1]
    simp
  have hN2 : 2 ≤ nodes.length := by
    obtain ⟨rest, hp, _⟩ := two_of_nodes hn ha honode (Ne.symm hol)
    rw [hp.length_eq]; simp
  rw [hloc0, hoT]
  rw [hone, hloc0] at hn3
  rw [hrem.length_eq] at hn3
  have h8 := hB ns
  have h9 : T ns / (nodes.length : Int) ≤ T ns / 2 := by
    refine Int.le_ediv_of_mul_le (by omega) ?_
    have h6 : T ns / (nodes.length : Int) * nodes.length ≤ T ns := Int.ediv_mul_le _ (by omega)
    have h7 : 0 ≤ T ns / (nodes.length : Int) := Int.ediv_nonneg hT0 (by omega)
    nlinarith [mul_nonneg h7 (by omega : (0 : Int) ≤ (nodes.length : Int) - 2)]
  have h10 : 6 * n ≤ T ns ∨ n < 0 := by
    by_cases h : n < 0
    · exact .inr h
    · left
      have : 0 ≤ n * ((nodes.length : Int) - 2) := mul_nonneg (by omega) (by omega)
      simp only [Nat.cast_one, Int.ediv_one] at hn3
      nlinarith
  omega

theorem transfers_append (r s : List Report) (ns : NS) : transfers (r ++ s) ns = transfers r ns ++ transfers s ns := by
  simp [transfers]

theorem transfers_balanced (l : List (NS × Lens × List Stolen)) (ns : NS) : transfers [.balanced l] ns = l.flatMap (fun e => if e.1 = ns then e.2.2 else []) := by
  simp [transfers]

/-- Every namespace descends. -/
def Settles (nodes : List Addr) (w w' : World F) (log : NS → List Stolen) : Prop :=
  ∀ ns, (∀ e ∈ log ns, 0 ≤ e.got) ∧ unevenness w' nodes ns + 2 * ((log ns).map (fun e => e.got)).sum ≤ unevenness w nodes ns

theorem unevenness_of_get {w w' : World F} {nodes : List Addr} {ns : NS} (h : ∀ b, w'.get b ns = w.get b ns) : unevenness w' nodes ns = unevenness w nodes ns := by
  unfold unevenness
  exact congrArg List.sum (List.map_congr_left (fun a _ => by rw [storedAt_of_get (h a)]))

theorem Settles.refl (nodes : List Addr) (w : World F) : Settles nodes w w (fun _ => []) := fun ns => by simp

theorem Settles.trans {nodes : List Addr} {w w1 w2 : World F} {l1 l2 : NS → List Stolen} (h1 : Settles nodes w w1 l1) (h2 : Settles nodes w1 w2 l2) :
    Settles nodes w w2 (fun ns => l1 ns ++ l2 ns) := by
  intro ns
  obtain ⟨a1, a2⟩ := h1 ns
  obtain ⟨b1, b2⟩ := h2 ns
  refine ⟨fun e he => (List.mem_append.1 he).elim (a1 e) (b1 e), ?_⟩
  simp only [List.map_append, List.sum_append]
  omega

theorem wp_balanceAll_quiet {env : Env} (he : EnvOK env) {fac : Factory F} (hf : FactoryOK fac) (hr : NoLostReplies env) {D : NS → Nat} {nodes : List Addr}
    (hn : nodes.Nodup) (hreach : ∀ a ∈ nodes, Reachable env a) {T : NS → Int} {B : NS → Nat} {fuel : Nat} {loc : Addr} (ha : loc ∈ nodes)
    (hT : ∀ ns, T ns < 2 ^ 50) (hB : ∀ ns, (B ns : Int) ≤ 2 * (2 * (T ns / nodes.length) / 5)) {remotes : List Addr} (hrem : remotes.Perm nodes)
    {t : Table} : ∀ (nss : List NS) (w : World F) (p : Nat), nss.Nodup → Quiet D nodes T B fuel w →
    (∀ ns ∈ nss, (addrsWithNamespace t ns).Nodup ∧ addrsWithNamespace t ns ≠ [] ∧
      ∀ a, a ∈ addrsWithNamespace t ns ↔ a ∈ nodes ∧ ∃ m, w.get a ns = some m) →
    Go.wp ((Prog.each (fun ns => do
      let r ← balanceNamespace env fac fuel loc remotes t ns
      pure (ns, r)) nss).run w) (fun r _ => Quiet D nodes T B fuel r.2 ∧ Settles nodes w r.2 (transfers [.balanced r.1])) p
  | [], w, p, _, hq, _ => by
    unfold Prog.each
    rw [run_pure, Go.wp_pure]
    exact ⟨hq, Settles.refl _ _⟩
  | ns :: nss, w, p, hnd, hq, h => by
    unfold Prog.each
    rw [List.nodup_cons] at hnd
    obtain ⟨g1, g2, g3⟩ := h ns (by simp)
    rw [run_bind, Go.wp_bind, run_bind, Go.wp_bind]
    refine Go.wp_mono (wp_balanceNamespace_quiet he hf hr hn hreach ha hT hB hrem hq g1 g2 g3 p) (fun r p1 hr1 => ?_)
    rw [run_pure, Go.wp_pure, run_bind, Go.wp_bind]
    obtain ⟨hq1, hd⟩ := hr1
    refine Go.wp_mono (wp_balanceAll_quiet he hf hr hn hreach ha hT hB hrem nss r.2 p1 hnd.2 hq1 (fun ns' hns' => ?_)) (fun r2 p2 hr2 => ?_)
    · have hne : ns' ≠ ns := by rintro rfl; exact hnd.1 hns'
      obtain ⟨k1, k2, k3⟩ := h ns' (by simp [hns'])
      refine ⟨k1, k2, fun a => ?_⟩
      rw [k3 a, hd.others a ns' hne]
    · rw [run_pure, Go.wp_pure]
      refine ⟨hr2.1, ?_⟩
      have h1 : Settles nodes w r.2 (fun ns' => if ns = ns' then r.1.2 else []) := by
        intro ns'
        by_cases hx : ns = ns'
        · subst hx
          simp only [if_true]
          exact ⟨hd.nonneg, hd.down⟩
        · simp only [if_neg hx]
          rw [unevenness_of_get (fun b => hd.others b ns' (Ne.symm hx))]
          simp
      have := h1.trans hr2.2
      intro ns'
      have e : transfers [.balanced ((ns, r.1) :: r2.1)] ns' = (if ns = ns' then r.1.2 else []) ++ transfers [.balanced r2.1] ns' := by
        simp [transfers_balanced]
      rw [e]
      exact this ns'

theorem reporters_nodup {replies : List (Addr × List NS)} {ns : NS} (h1 : (replies.map (fun r => r.1)).Nodup) (h2 : ∀ r ∈ replies, r.2.Nodup) :
    (reporters replies ns).Nodup ∧ ∀ a, a ∈ reporters replies ns ↔ ∃ r ∈ replies, r.1 = a ∧ ns ∈ r.2 := by
  induction replies with
  | nil => simp [reporters]
  | cons r l ih =>
    rw [List.map_cons, List.nodup_cons] at h1
    obtain ⟨i1, i2⟩ := ih h1.2 (fun r hr => h2 r (by simp [hr]))
    have e : reporters (r :: l) ns = List.replicate (r.2.count ns) r.1 ++ reporters l ns := by simp [reporters]
    have hc := List.nodup_iff_count_le_one.1 (h2 r (by simp)) ns
    have hnot : r.1 ∉ reporters l ns := by
      rw [i2]
      rintro ⟨r', hr', he, _⟩
      exact h1.1 (by rw [← he]; exact List.mem_map_of_mem hr')
    rw [e]
    refine ⟨?_, fun a => ?_⟩
    · rcases Nat.le_one_iff_eq_zero_or_eq_one.1 hc with h | h
      · rw [h]; simpa using i1
      · rw [h]; simpa using ⟨hnot, i1⟩
    · rw [List.mem_append, i2, List.mem_replicate]
      simp only [List.mem_cons, exists_eq_or_imp, ← List.count_pos_iff (a := ns) (l := r.2)]
      constructor
      · rintro (⟨h, rfl⟩ | h)
        · exact .inl ⟨rfl, by omega⟩
        · exact .inr h
      · rintro (⟨rfl, h⟩ | h)
        · exact .inl ⟨by omega, rfl⟩
        · exact .inr h

theorem wp_task_quiet {env : Env} (he : EnvOK env) {fac : Factory F} (hf : FactoryOK fac) (hr : NoLostReplies env) {D : NS → Nat} {nodes : List Addr}
    (hn : nodes.Nodup) (hreach : ∀ a ∈ nodes, Reachable env a) {T : NS → Int} {B : NS → Nat} {fuel : Nat} {cfg : Config} (ha : cfg.loc ∈ nodes)
    (hT : ∀ ns, T ns < 2 ^ 50) (hB : ∀ ns, (B ns : Int) ≤ 2 * (2 * (T ns / nodes.length) / 5)) (hrem : cfg.remotes.Perm nodes)
    {w : World F} (hq : Quiet D nodes T B fuel w) (p : Nat) :
    Go.wp ((task env fac fuel cfg .loadBalancing).run w) (fun r _ => Quiet D nodes T B fuel r.2 ∧ Settles nodes w r.2 (transfers [r.1])) p := by
  obtain ⟨t, replies, p1, _, h1, rfl, h3, h4⟩ := C54_run he hq.ok cfg.remotes p
  obtain ⟨t1, t2, t3⟩ := C54_table replies
  have h4 : ∀ r ∈ replies, r.2.Nodup ∧ ∀ ns, ns ∈ r.2 ↔ ∃ m, w.get r.1 ns = some m := by
    intro r hrm
    refine ⟨(h4 r hrm).1, ?_⟩
    rcases (h4 r hrm).2 with h | ⟨_, q, h⟩
    · exact h
    · have := hreach r.1 (hrem.subset (by rw [← h3]; exact List.mem_map_of_mem hrm))
      rcases h with h | h
      · rw [this.1 q] at h; cases h
      · rw [this.2 q] at h; cases h
  unfold task
  rw [run_bind, Go.wp_bind]
  refine Go.wp_iff.2 ⟨_, _, h1, ?_⟩
  rw [run_bind, Go.wp_bind, run_loc, Go.wp_bind]
  unfold EventLoop.namespaces
  refine wp_shuffled he (fun nss hnss => ?_)
  rw [Go.wp_pure, run_bind, Go.wp_bind]
  refine Go.wp_mono (wp_balanceAll_quiet he hf hr hn hreach ha hT hB hrem nss w _ (hnss.nodup_iff.2 t1) hq (fun ns hns => ?_)) (fun r p2 hr2 => ?_)
  · rw [t3 ns]
    obtain ⟨r1, r2⟩ := reporters_nodup (ns := ns) (by rw [h3]; exact hrem.nodup_iff.2 hn) (fun r hrm => (h4 r hrm).1)
    obtain ⟨r, hrm, hr'⟩ := (t2 ns).1 (hnss.subset hns)
    refine ⟨r1, List.ne_nil_of_mem ((r2 r.1).2 ⟨r, hrm, rfl, hr'⟩), fun a => ?_⟩
    rw [r2]
    constructor
    · rintro ⟨r, hrm, rfl, hr'⟩
      exact ⟨hrem.subset (by rw [← h3]; exact List.mem_map_of_mem hrm), ((h4 r hrm).2 ns).1 hr'⟩
    · rintro ⟨hmem, hm⟩
      have : a ∈ replies.map (fun r => r.1) := by rw [h3]; exact hrem.symm.subset hmem
      obtain ⟨r, hrm, rfl⟩ := List.mem_map.1 this
      exact ⟨r, hrm, rfl, ((h4 r hrm).2 ns).2 hm⟩
  · rw [run_pure, Go.wp_pure]; exact hr2

theorem wp_tasks_quiet {env : Env} (he : EnvOK env) {fac : Factory F} (hf : FactoryOK fac) (hr : NoLostReplies env) {D : NS → Nat} {nodes : List Addr}
    (hn : nodes.Nodup) (hreach : ∀ a ∈ nodes, Reachable env a) {T : NS → Int} {B : NS → Nat} {fuel : Nat}
    (hT : ∀ ns, T ns < 2 ^ 50) (hB : ∀ ns, (B ns : Int) ≤ 2 * (2 * (T ns / nodes.length) / 5)) : ∀ (cfgs : List Config) (w : World F) (p : Nat),
    (∀ cfg ∈ cfgs, cfg.loc ∈ nodes ∧ cfg.remotes.Perm nodes) → Quiet D nodes T B fuel w →
    Go.wp ((Prog.each (fun cfg => task env fac fuel cfg .loadBalancing) cfgs).run w) (fun r _ => Quiet D nodes T B fuel r.2 ∧
      Settles nodes w r.2 (transfers r.1)) p
  | [], w, p, _, hq => by
    unfold Prog.each
    rw [run_pure, Go.wp_pure]
    exact ⟨hq, Settles.refl _ _⟩
  | cfg :: cfgs, w, p, hc, hq => by
    unfold Prog.each
    rw [run_bind, Go.wp_bind]
    obtain ⟨c1, c2⟩ := hc cfg (by simp)
    refine Go.wp_mono (wp_task_quiet he hf hr hn hreach c1 hT hB c2 hq p) (fun r p1 hr1 => ?_)
    rw [run_bind, Go.wp_bind]
    refine Go.wp_mono (wp_tasks_quiet he hf hr hn hreach hT hB cfgs r.2 p1 (fun c h => hc c (by simp [h])) hr1.1) (fun r2 p2 hr2 => ?_)
    rw [run_pure, Go.wp_pure]
    refine ⟨hr2.1, ?_⟩
    have := hr1.2.trans hr2.2
    intro ns
    rw [show r.1 :: r2.1 = [r.1] ++ r2.1 from rfl, transfers_append]
    exact this ns

end
end Trypo
