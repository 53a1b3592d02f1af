import Verif.Proofs.Run
import Verif.Props.Manager

/-!
# Properties of the RPC server and of the nodes together: C34–C36, C42
-/

set_option linter.unusedSectionVars false
set_option linter.unusedVariables false

namespace Trypo
open GoFloat Spec

variable {F : Type} [GoFloat F] [LawfulCmp F]

/-! ### C34: namespaces -/

/-- C34, isolation. Requests of every kind, to any nodes, in any number, interleaved in any way and with any network
failures, do not crash a node and leave every namespace that none of them names exactly as it was, at every node. -/
theorem C34_isolation {env : Env} (he : EnvOK env) {fac : Factory F} (hf : FactoryOK fac) {D : NS → Nat} {w : World F}
    (hw : WorldOK D w) {reqs : List (Request F)} (hv : ∀ r ∈ reqs, r.valid D) (sched : List Nat) (p : Nat) :
    ∃ progs w' p', Pool.run sched (reqs.map (fun r => r.serve env fac)) w p = .ok (progs, w', p') ∧ WorldOK D w' ∧
      ∀ ns, (∀ r ∈ reqs, r.ns ≠ ns) → ∀ a, w'.get a ns = w.get a ns := by
  obtain ⟨progs, w', p', h1, _, h3, _, _, _, h7, _⟩ := serve_pool (T := fun _ _ => True) he hf hw trivial hv
    (fun _ _ _ _ _ _ => .inl (fun _ _ _ => trivial)) sched p
  exact ⟨progs, w', p', h1, h3, h7⟩

theorem wp_answer_none {β : Type} {f : β → Answer F} {m : Prog F (Option β)} {w : World F} {p : Nat}
    (h : m.run w p = .ok ((none, w), p)) : (answer f m).run w p = .ok ((.noNamespace, w), p) := by
  unfold answer
  rw [run_bind]
  show (StateT.bind (m.run w) _) p = _
  unfold StateT.bind
  rw [h]; rfl

/-- C34, missing namespaces. Every request except `AddDataPoint` and `StealCentroid` answers `NamespaceErr` and changes
nothing. -/
theorem C34_missing {env : Env} {fac : Factory F} {D : NS → Nat} {w : World F} {r : Request F} (hv : r.valid D)
    (hc : ¬ r.mayCreate) (hn : w.lookup r.node r.ns = none) (p : Nat) :
    (r.serve env fac).run w p = .ok ((.noNamespace, w), p) := by
  cases r with
  | add => exact absurd trivial hc
  | stealCentroid => exact absurd trivial hc
  | distributeFast a ns n addrs =>
    refine wp_answer_none ?_
    unfold Server.distributeFast Server.drainOrdered
    rw [run_bind, run_loc]
    unfold Go.checkMake
    rw [if_neg (by simpa using (show 0 ≤ n from hv))]
    simp only [pure_bind]
    rw [run_bind, run_access_none (show w.lookup a ns = none from hn), pure_bind]; rfl
  | distributeAccurate a ns n addrs =>
    refine wp_answer_none ?_
    unfold Server.distributeAccurate Server.drainOrdered
    rw [run_bind, run_loc]
    unfold Go.checkMake
    rw [if_neg (by simpa using (show 0 ≤ n from hv))]
    simp only [pure_bind]
    rw [run_bind, run_access_none (show w.lookup a ns = none from hn), pure_bind]; rfl
  | _ => exact wp_answer_none (congrFun (run_access_none hn _) p)

/-- Writing to one slot leaves all other managers alone. -/
theorem get_put_other {D : NS → Nat} {w : World F} (hw : WorldOK D w) {a : Addr} {ns : NS} {i : Nat} {m m' : Manager F}
    (hl : w.lookup a ns = some i) (hm : w.heap[i]? = some (ns, m)) {b : Addr} {ns' : NS} (hn : b ≠ a ∨ ns' ≠ ns) :
    (w.put i ns m').get b ns' = w.get b ns' := by
  by_cases h : ns' = ns
  · subst h
    have hb : b ≠ a := hn.resolve_right (by simp)
    unfold World.get
    show (w.lookup b ns').bind _ = _
    cases hl' : w.lookup b ns' with
    | none => rfl
    | some j =>
      have hij : i ≠ j := by
        intro e
        subst e
        exact hb (hw.apart b a ns' i (mem_of_lookup hl') (mem_of_lookup hl))
      simp only [Option.bind_some]
      unfold World.put
      simp only
      rw [List.getElem?_set_ne hij]
  · exact get_put_ne hw hm h b

/-- C34, creation. `AddDataPoint` to a namespace that does not exist creates it, with the datapoint as its only content, or
empty if the datapoint has expired. Other nodes and namespaces are left alone. -/
theorem C34_add_creates {env : Env} (hm : MonoClock env.tk) {fac : Factory F} (hf : FactoryOK fac) {D : NS → Nat} {w : World F}
    (hw : WorldOK D w) {a : Addr} {ns : NS} (hn : w.lookup a ns = none) (d : DataPoint F) (p : Nat) :
    ∃ w' p' m, (Server.addDataPoint env fac a ns d).run w p = .ok ((true, w'), p') ∧ w'.get a ns = some m ∧
      m.vec.length = d.vec.length ∧ ManagerOK m ∧ m.knn = knnCos ∧ Conserved (env.tk p') [d] (stored m) [] ∧
      ∀ b ns', (b ≠ a ∨ ns' ≠ ns) → w'.get b ns' = w.get b ns' := by
  have key : Go.wp ((Server.addDataPoint env fac a ns d).run w) (fun r p' => r.1 = true ∧ ∃ m, r.2 = w.addSlot a ns m ∧
      MOK d.vec.length m ∧ Conserved (env.tk p') [d] (stored m) []) p := by
    unfold Server.addDataPoint
    rw [run_bind, run_access_none hn, pure_bind]
    show Go.wp ((Prog.loc _ >>= _).run w) _ _
    rw [run_bind, run_loc]
    simp only [bind_assoc, Go.wp_bind, Go.wp_pure]
    refine safe_make hf rfl p (fun m hmok h0 => ?_)
    refine Go.wp_mono (addDataPoint_mok (c := ⟨env, fun _ => d.vec.length, ns, fun _ _ => True, fun _ => True, True, fun _ => True⟩) hm hmok rfl [] p) (fun r p' hr => ?_)
    obtain ⟨h1, h2, X, h3, h4, h5⟩ := hr
    have hX : X = [] := by
      by_contra hx
      exact (h4 hx).1 h0
    rw [hX, show stored m = [] by simp [stored, h0]] at h5
    rw [run_bind, run_addSlot, pure_bind, run_pure, Go.wp_pure]
    exact ⟨rfl, r.2, rfl, h2, by simpa using h5⟩
  obtain ⟨r, p', h0, h1, m, h2, h3, h4⟩ := Go.wp_iff.1 key
  refine ⟨r.2, p', m, by rw [h0, ← h1], by rw [h2, get_addSlot], h3.len, h3.ok.1, h3.knn, h4, fun b ns' hb => ?_⟩
  rw [h2]
  rcases Classical.em (ns' = ns) with rfl | h
  · exact get_addSlot_of_lookup hw (lookup_addSlot_node w (hb.resolve_right (by simp)) ns' ns' m)
  · exact get_addSlot_ns hw a b h m

/-! ### C35: AddDataPoint -/

/-- C35, what holds. `AddDataPoint` on an existing namespace always answers true. Either the datapoint and everything else
in the namespace at this node is stored afterwards (minus what has expired), or nothing changed: then the datapoint had
the wrong dimension or the search found no centroid for it. Missing: in the latter cases, where the property is false
(see `C35_refuted`). -/
theorem C35_add_partial {env : Env} (hm : MonoClock env.tk) {fac : Factory F} {D : NS → Nat} {w : World F}
    (hw : WorldOK D w) {a : Addr} {ns : NS} {m : Manager F} (hg : w.get a ns = some m) (d : DataPoint F) (p : Nat) :
    ∃ w' p' m', (Server.addDataPoint env fac a ns d).run w p = .ok ((true, w'), p') ∧ w'.get a ns = some m' ∧
      (Conserved (env.tk p') (d :: stored m) (stored m') [] ∨
        (m' = m ∧ m.centroids ≠ [] ∧ (knnCos d.vec (m.centroids.map (fun c => c.vec)) 1 = .ok [] ∨ d.vec.length ≠ D ns))) ∧
      ∀ b ns', (b ≠ a ∨ ns' ≠ ns) → w'.get b ns' = w.get b ns' := by
  obtain ⟨i, hl, hi⟩ := lookup_of_get hw hg
  have hok := hw.mok hi
  have key : Go.wp ((Server.addDataPoint env fac a ns d).run w) (fun r p' => r.1 = true ∧ ∃ m', r.2 = w.put i ns m' ∧
      (Conserved (env.tk p') (d :: stored m) (stored m') [] ∨
        (m' = m ∧ m.centroids ≠ [] ∧ (knnCos d.vec (m.centroids.map (fun c => c.vec)) 1 = .ok [] ∨ d.vec.length ≠ D ns)))) p := by
    unfold Server.addDataPoint
    rw [run_bind, run_access_some hl hi, bind_assoc, Go.wp_bind]
    refine Go.wp_mono (Go.wp_and (Manager.wp_addDataPoint hm hok.wf d p) (Manager.wp_addDataPoint_refused hm hok.wf d p))
      (fun r p' hr => ?_)
    obtain ⟨⟨h1, h2, h3, h4, h5⟩, h6⟩ := hr
    rw [pure_bind, run_pure, Go.wp_pure]
    refine ⟨rfl, r.2, rfl, ?_⟩
    cases hb : r.1 with
    | true => exact .inl ((h3 hb).eff hm hok.wf).conserved
    | false =>
      rw [h2 hb]
      by_cases hd : Dead (env.tk p') d
      · exact .inl ⟨[d], by permc [List.Perm.refl ([] : List (DataPoint F))], by simpa using hd⟩
      · obtain ⟨h7, h8⟩ := h6 hb hd
        rw [hok.knn, hok.len] at h8
        exact .inr ⟨rfl, h7, h8⟩
  obtain ⟨r, p', h0, h1, m', h2, h3⟩ := Go.wp_iff.1 key
  refine ⟨r.2, p', m', by rw [h0, ← h1], by rw [h2, get_put_self hl hi], h3, fun b ns' hb => ?_⟩
  rw [h2, get_put_other hw hl hi hb]

/-- The hypothesis `AlwaysFinds` is met by the cosine search, in exact arithmetic (where the cosine of a zero vector is 0). -/
theorem knnCos_alwaysFinds : AlwaysFinds (knnCos : Search ℝ) := by
  intro t pool hne hl
  obtain ⟨r', h1, h2⟩ := knnBrute_kbest t cosineSimilarity false 1 pool
  have hcount : pool.countP (isCandidate (cosineSimilarity t) false) = pool.length := by
    rw [List.countP_eq_length]
    intro v hv
    obtain ⟨s, hs, hs1, hs2⟩ := cos_real_bound t v (hl v hv)
    unfold isCandidate
    rw [hs]
    simp only [decide_eq_true_eq, Comparable, Better, Bool.false_eq_true, if_false, rlt, rneg, rmaxFloat]
    have h53 : (2 : ℝ) ^ 1024 = 2 ^ 971 * 2 ^ 53 := by rw [← pow_add]
    have h971 : (1 : ℝ) ≤ 2 ^ 971 := one_le_pow₀ (by norm_num)
    rw [h53]
    generalize (2 : ℝ) ^ 971 = x at h971
    norm_num
    linarith
  have hlen := h2.length
  rw [hcount] at hlen
  have : 0 < pool.length := List.length_pos_iff.2 hne
  cases r' with
  | nil => simp at hlen; omega
  | cons j js => exact ⟨j, js, h1⟩

/-- C35 in exact arithmetic: a live datapoint of the namespace's dimension is stored, whether the namespace existed or not. -/
theorem C35_add_exact_partial {env : Env} (hm : MonoClock env.tk) {fac : Factory ℝ} (hf : FactoryOK fac) {D : NS → Nat}
    {w : World ℝ} (hw : WorldOK D w) (a : Addr) (ns : NS) (d : DataPoint ℝ) (hd : d.vec.length = D ns)
    (hlive : ∀ t, ¬ Dead t d) (p : Nat) :
    ∃ w' p' m', (Server.addDataPoint env fac a ns d).run w p = .ok ((true, w'), p') ∧ w'.get a ns = some m' ∧
      d ∈ stored m' := by
  have mem : ∀ {t : Int} {l l' : List (DataPoint ℝ)}, d ∈ l → Conserved t l l' [] → d ∈ l' := by
    rintro t l l' h ⟨lost, e1, e2⟩
    have := e1.symm.subset h
    simp only [List.append_nil, List.mem_append] at this
    exact this.resolve_right (fun h => hlive _ (e2 d h))
  cases hl : w.lookup a ns with
  | none =>
    obtain ⟨w', p', m, h1, h2, _, _, _, h3, _⟩ := C34_add_creates hm hf hw hl d p
    exact ⟨w', p', m, h1, h2, mem (by simp) h3⟩
  | some i =>
    obtain ⟨m, hi⟩ := lookup_lt hw hl
    have hok := hw.mok hi
    obtain ⟨w', p', m', h1, h2, h3, _⟩ := C35_add_partial (fac := fac) hm hw (get_of_lookup hl hi) d p
    refine ⟨w', p', m', h1, h2, ?_⟩
    rcases h3 with h3 | ⟨rfl, h4, h3 | h3⟩
    · exact mem (by simp) h3
    · obtain ⟨j, js, hj⟩ := knnCos_alwaysFinds d.vec (m'.centroids.map (fun c => c.vec)) (by simpa using h4) (by
        intro v hv
        obtain ⟨x, hx, rfl⟩ := List.mem_map.1 hv
        rw [(hok.wf.dim x hx).1, hok.len, hd])
      rw [hj] at h3; simp at h3
    · exact absurd hd h3

/-! ### C36: the nodes together -/

theorem noOrphans_of_same {w w' : World F} (hno : NoOrphans w) (ht : w'.table = w.table) (hl : labels w' = labels w) :
    NoOrphans w' := by
  intro i s hs
  have h1 : (labels w')[i]? = some s.1 := by unfold labels; rw [List.getElem?_map, hs]; rfl
  rw [hl] at h1
  unfold labels at h1
  rw [List.getElem?_map] at h1
  cases hx : w.heap[i]? with
  | none => rw [hx] at h1; simp at h1
  | some s0 =>
    rw [hx] at h1
    simp only [Option.map_some, Option.some.injEq] at h1
    obtain ⟨a, ha⟩ := hno i s0 hx
    exact ⟨a, by rw [ht, ← h1]; exact ha⟩

/-- Requests that create nothing: the namespace exists wherever a request may create one. -/
def Established (w : World F) (reqs : List (Request F)) : Prop := ∀ r ∈ reqs, r.mayCreate → w.lookup r.node r.ns ≠ none

/-- C36 for the whole system, what holds. Requests of all kinds (insertions, drains, lookups, splits, merges, distribution to
other nodes, stealing from other nodes) run interleaved in any way. When all are answered, the datapoints of every
namespace at all nodes together are those that were there before plus those that were brought, minus those that were
handed out, minus expired ones; none is lost and none is duplicated. Requests may be lost by the network, but no replies;
distribution has somewhere to distribute to; the search finds a nearest vector. Missing: these three hypotheses, each of
which is needed (see the refutations below). -/
theorem C36_system_conserves_partial {env : Env} (he : EnvOK env) (hb : NoLostReplies env) {fac : Factory F} (hf : FactoryOK fac)
    {D : NS → Nat} {w : World F} (hw : WorldOK D w) (hno : NoOrphans w) {reqs : List (Request F)} (hv : ∀ r ∈ reqs, r.valid D)
    (hc : Established w reqs) (hl : ∀ r ∈ reqs, r.lossless env) {nodes : List Addr} (hnd : nodes.Nodup)
    (hall : ∀ a ns, w.lookup a ns ≠ none → a ∈ nodes) (sched : List Nat) (p : Nat) :
    ∃ progs w' p', Pool.run sched (reqs.map (fun r => r.serve env fac)) w p = .ok (progs, w', p') ∧ WorldOK D w' ∧
      ∀ answers, progs = answers.map .ret → ∀ ns,
        Conserved (env.tk p') (storedAt w nodes ns ++ brought reqs ns) (storedAt w' nodes ns) (taken reqs answers ns) := by
  obtain ⟨progs, w', p', h1, _, h3, ⟨t1, t2⟩, _, _, _, h8⟩ := serve_pool
    (T := fun tab labs => tab = w.table ∧ labs = labels w) he hf hw ⟨rfl, rfl⟩ hv
    (fun r hr hm _ _ _ => .inr (fun w1 hi => by
      unfold World.lookup
      rw [hi.tab.1]
      exact hc r hr hm)) sched p
  refine ⟨progs, w', p', h1, h3, fun answers ha ns => ?_⟩
  obtain ⟨minted, inHands, c1, c3, c2⟩ := h8 ns
  obtain ⟨left, l1, l2, l3⟩ := c2 answers ha
  rw [l3 hb] at c1
  rw [l2 hl, List.append_nil] at l1
  have e1 := held_perm_storedAt hw hno hnd (ns := ns) (fun a ha => hall a ns ha)
  have e2 := held_perm_storedAt h3 (noOrphans_of_same hno t1 t2) hnd (ns := ns) (fun a ha => hall a ns (by
    unfold World.lookup at ha ⊢; rw [t1] at ha; exact ha))
  obtain ⟨lost, d1, d2⟩ := c1
  exact ⟨lost, by permc [d1, e1, e2, l1], d2⟩

/-- C36, lost replies included (except when centroids are stolen, where `lossless` excludes them): nothing is lost and nothing
is invented, but datapoints that were there may be duplicated. Missing: that they are not, which is false (see
`C36_refuted_lost_reply`). -/
theorem C36_nothing_lost_partial {env : Env} (he : EnvOK env) {fac : Factory F} (hf : FactoryOK fac)
    {D : NS → Nat} {w : World F} (hw : WorldOK D w) (hno : NoOrphans w) {reqs : List (Request F)} (hv : ∀ r ∈ reqs, r.valid D)
    (hc : Established w reqs) (hl : ∀ r ∈ reqs, r.lossless env) {nodes : List Addr} (hnd : nodes.Nodup)
    (hall : ∀ a ns, w.lookup a ns ≠ none → a ∈ nodes) (sched : List Nat) (p : Nat) :
    ∃ progs w' p', Pool.run sched (reqs.map (fun r => r.serve env fac)) w p = .ok (progs, w', p') ∧ WorldOK D w' ∧
      ∀ answers, progs = answers.map .ret → ∀ ns, ∃ duplicates, (∀ d ∈ duplicates, d ∈ storedAt w nodes ns ++ brought reqs ns) ∧
        Conserved (env.tk p') (duplicates ++ (storedAt w nodes ns ++ brought reqs ns)) (storedAt w' nodes ns)
          (taken reqs answers ns) := by
  obtain ⟨progs, w', p', h1, _, h3, ⟨t1, t2⟩, _, _, _, h8⟩ := serve_pool
    (T := fun tab labs => tab = w.table ∧ labs = labels w) he hf hw ⟨rfl, rfl⟩ hv
    (fun r hr hm _ _ _ => .inr (fun w1 hi => by
      unfold World.lookup
      rw [hi.tab.1]
      exact hc r hr hm)) sched p
  refine ⟨progs, w', p', h1, h3, fun answers ha ns => ?_⟩
  obtain ⟨minted, inHands, c1, c3, c2⟩ := h8 ns
  obtain ⟨left, l1, l2, l3⟩ := c2 answers ha
  rw [l2 hl, List.append_nil] at l1
  have e1 := held_perm_storedAt hw hno hnd (ns := ns) (fun a ha => hall a ns ha)
  have e2 := held_perm_storedAt h3 (noOrphans_of_same hno t1 t2) hnd (ns := ns) (fun a ha => hall a ns (by
    unfold World.lookup at ha ⊢; rw [t1] at ha; exact ha))
  obtain ⟨lost, d1, d2⟩ := c1
  refine ⟨minted, fun d hd => ?_, lost, by permc [d1, e1, e2, l1], d2⟩
  rcases List.mem_append.1 (c3 d hd) with h | h
  · exact List.mem_append.2 (.inr h)
  · exact List.mem_append.2 (.inl (e1.subset h))

/-! ### C42: concurrent insertions -/

/-- C42, what holds. Any number of `AddDataPoint` requests to a namespace that exists at their node, interleaved in any way:
when all are answered, the nodes hold what they held before and the inserted datapoints, minus expired ones. Missing: namespaces that do not exist yet, where it is false (`C42_refuted`). -/
theorem C42_concurrent_adds_partial {env : Env} (he : EnvOK env) {fac : Factory F} (hf : FactoryOK fac)
    (hfind : AlwaysFinds (knnCos (F := F))) {D : NS → Nat} {w : World F} (hw : WorldOK D w) (hno : NoOrphans w) {a : Addr} {ns : NS}
    (hex : w.lookup a ns ≠ none) {ds : List (DataPoint F)} (hd : ∀ d ∈ ds, d.vec.length = D ns) (sched : List Nat) (p : Nat)
    {nodes : List Addr} (hnd : nodes.Nodup) (hall : ∀ a ns, w.lookup a ns ≠ none → a ∈ nodes) :
    ∃ progs w' p', Pool.run sched (ds.map (fun d => (Request.add a ns d).serve env fac)) w p = .ok (progs, w', p') ∧
      ∀ answers : List (Answer F), progs = answers.map .ret →
        Conserved (env.tk p') (storedAt w nodes ns ++ ds) (storedAt w' nodes ns) [] := by
  have e : ds.map (fun d => (Request.add a ns d).serve env fac) =
      (ds.map (fun d => Request.add a ns d)).map (fun r => r.serve { env with back := fun _ _ => true } fac) := by
    rw [List.map_map]; rfl
  have hmem : ∀ r ∈ ds.map (fun d => Request.add a ns d), ∃ d ∈ ds, r = .add a ns d := by
    intro r hr
    obtain ⟨d, h1, h2⟩ := List.mem_map.1 hr
    exact ⟨d, h1, h2.symm⟩
  rw [e]
  obtain ⟨progs, w', p', h1, _, h3⟩ := C36_system_conserves_partial (env := { env with back := fun _ _ => true })
    ⟨he.clock, he.perm, he.rand⟩ (fun _ _ => rfl) hf hw hno (reqs := ds.map (fun d => Request.add a ns d))
    (fun r hr => by obtain ⟨d, h1, rfl⟩ := hmem r hr; exact hd d h1)
    (fun r hr _ => by obtain ⟨d, h1, rfl⟩ := hmem r hr; exact hex)
    (fun r hr => by obtain ⟨d, h1, rfl⟩ := hmem r hr; exact hfind) hnd hall sched p
  refine ⟨progs, w', p', h1, fun answers ha => ?_⟩
  have h4 := h3 answers ha ns
  have e1 : brought (ds.map (fun d => Request.add a ns d)) ns = ds := by
    unfold brought
    rw [List.flatMap_map]
    simp only [Request.ns, if_true, Request.brings]
    exact List.flatMap_singleton' ds
  have e2 : taken (ds.map (fun d => Request.add a ns d)) answers ns = [] := by
    unfold taken
    rw [List.flatMap_eq_nil_iff]
    intro q hq
    obtain ⟨d, _, hd⟩ := hmem q.1 (List.of_mem_zip hq).1
    rw [hd]
    exact if_pos rfl
  rwa [e1, e2] at h4

end Trypo
