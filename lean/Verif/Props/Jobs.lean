import Verif.Proofs.Jobs
import Verif.Props.Core

/-!
# The whole service: C60 to C63

Jobs of all kinds at any number of nodes run interleaved in any way.
-/

set_option linter.unusedSectionVars false
set_option linter.unusedVariables false

namespace Trypo
open GoFloat Spec EventLoop

variable {F : Type} [GoFloat F] [LawfulCmp F]

/-! ### C61: the service does not crash -/

/-- C61. RPC requests, HTTP requests, tasks, whole event loops and the goroutines they start, at any number of nodes,
interleaved in any way, with any failures of the network: nothing panics, and the state stays consistent. -/
theorem C61_no_panic {env : Env} (he : EnvOK env) {fac : Factory F} (hf : FactoryOK fac) {D : NS → Nat} {w : World F}
    (hw : WorldOK D w) {jobs : List (Job F)} (hv : ∀ j ∈ jobs, j.valid D) (sched : List Nat) (p : Nat) :
    ∃ progs w' p', Pool.run sched (jobs.map (fun j => j.prog env fac)) w p = .ok (progs, w', p') ∧ WorldOK D w' ∧
      progs.length = jobs.length ∧ ∀ a ns, w.lookup a ns ≠ none → w'.lookup a ns ≠ none := by
  obtain ⟨progs, w', p', h1, _, h3, _, h5, h6, _⟩ := job_pool (T := fun _ _ => True) he hf hw trivial hv (fun j hj U Dr R => by
    have ho : ∀ ns a, (ctxOf (F := F) env D (fun _ _ => True) U Dr R ns).Open a := fun ns a => .inl (fun _ _ _ => trivial)
    cases j with
    | rpc r => exact fun _ => ho _ _
    | put addrs body =>
      cases body with
      | none => trivial
      | some o => exact fun a _ => ho _ _
    | task cfg fuel t => exact fun _ ns _ => ho _ _
    | loop cfg fuel skip n iter => exact fun ns _ => ho _ _
    | call _ => trivial
    | query addrs body => trivial) sched p
  exact ⟨progs, w', p', h1, h3, h5, fun a ns h => h6.has a ns h⟩

/-! ### C60: conservation -/

theorem jobOpens_established {env : Env} {D : NS → Nat} {w : World F} {j : Job F} (h : j.established w) (U : NS → DataPoint F → Prop) (Dr : Prop)
    (R : NS → DataPoint F → Prop) : JobOpens (F := F) ⟨env, D, fun tab labs => tab = w.table ∧ labs = labels w, U, Dr, R⟩ j := by
  have ho : ∀ ns a, w.lookup a ns ≠ none →
      (ctxOf (F := F) env D (fun tab labs => tab = w.table ∧ labs = labels w) U Dr R ns).Open a := fun ns a h =>
    .inr (fun w1 hi => by
      unfold World.lookup
      rw [hi.tab.1]
      exact h)
  have hs : ∀ ns, (NCtx.mk (F := F) env D (fun tab labs => tab = w.table ∧ labs = labels w) U Dr R).Seen ns → ∃ a, w.lookup a ns ≠ none := by
    rintro ns ⟨w1, a, hi, h⟩
    refine ⟨a, ?_⟩
    unfold World.lookup at h ⊢
    rwa [hi.tab.1] at h
  cases j with
  | rpc r => exact fun hm => ho _ _ (h hm)
  | put addrs body =>
    cases body with
    | none => trivial
    | some o => exact fun a ha => ho _ _ (h a ha)
  | task cfg fuel t =>
    rintro rfl ns hns
    obtain ⟨a, ha⟩ := hs ns hns
    exact ho _ _ (h a ns ha)
  | loop cfg fuel skip n iter =>
    intro ns hns
    obtain ⟨a, ha⟩ := hs ns hns
    exact ho _ _ (h a ns ha)
  | call _ => trivial
  | query addrs body => trivial

/-- C60, lost replies included (except where `lossless` excludes them): when all jobs are done nothing is lost and nothing is
invented, but datapoints may be duplicated. Missing: that they are not; the hypotheses, see `C60_service_conserves_partial`. -/
theorem C60_nothing_lost_partial {env : Env} (he : EnvOK env) {fac : Factory F} (hf : FactoryOK fac)
    {D : NS → Nat} {w : World F} (hw : WorldOK D w) (hno : NoOrphans w) {jobs : List (Job F)} (hv : ∀ j ∈ jobs, j.valid D)
    (hc : ∀ j ∈ jobs, j.established w) (hl : ∀ j ∈ jobs, j.lossless env) {nodes : List Addr} (hnd : nodes.Nodup)
    (hall : ∀ a ns, w.lookup a ns ≠ none → a ∈ nodes) (sched : List Nat) (p : Nat) :
    ∃ progs w' p', Pool.run sched (jobs.map (fun j => j.prog env fac)) w p = .ok (progs, w', p') ∧ WorldOK D w' ∧
      ∀ outs, progs = outs.map .ret → ∀ ns, ∃ duplicates, (∀ d ∈ duplicates, d ∈ storedAt w nodes ns ++ broughtBy jobs ns) ∧
        (NoLostReplies env → duplicates = []) ∧
        Conserved (env.tk p') (duplicates ++ (storedAt w nodes ns ++ broughtBy jobs ns)) (storedAt w' nodes ns)
          (takenBy jobs outs ns) := by
  obtain ⟨progs, w', p', h1, _, h3, ⟨t1, t2⟩, _, _, h8⟩ := job_pool
    (T := fun tab labs => tab = w.table ∧ labs = labels w) he hf hw ⟨rfl, rfl⟩ hv
    (fun j hj U Dr R => jobOpens_established (hc j hj) U Dr R) sched p
  refine ⟨progs, w', p', h1, h3, fun outs ha ns => ?_⟩
  obtain ⟨minted, inHands, c1, c3, c2⟩ := h8 ns
  obtain ⟨left, l1, l2, l3⟩ := c2 outs ha
  rw [l2 hl, List.append_nil] at l1
  have e1 := held_perm_storedAt hw hno hnd (ns := ns) (fun a ha => hall a ns ha)
  have e2 := held_perm_storedAt h3 (noOrphans_of_same hno t1 t2) hnd (ns := ns) (fun a ha => hall a ns (by
    unfold World.lookup at ha ⊢; rw [t1] at ha; exact ha))
  obtain ⟨lost, d1, d2⟩ := c1
  refine ⟨minted, fun d hd => ?_, l3, lost, by permc [d1, e1, e2, l1], d2⟩
  rcases List.mem_append.1 (c3 d hd) with h | h
  · exact List.mem_append.2 (.inr h)
  · exact List.mem_append.2 (.inl (e1.subset h))

/-- C60, what holds. RPC requests, HTTP puts and queries, tasks of the event loop, whole event loops and the goroutines they
start, at any number of nodes, interleaved in any way. When all are done, the datapoints of every namespace at all nodes
together are those that were there before plus those that were brought, minus those that were handed out (or whose put was
answered with a failure), minus expired ones; none is lost and none is duplicated. Requests may be lost by the network, but
no replies; the search finds a nearest vector; a node whose event loop distributes can always reach itself and is among its
`RemoteAddrs`; namespaces are not created meanwhile. Missing: these four hypotheses; without them it is false (`C60_refuted`,
`C60_refuted_config`, `C35_refuted`, `C42_refuted`, `C36_refuted_lost_reply`). -/
theorem C60_service_conserves_partial {env : Env} (he : EnvOK env) (hb : NoLostReplies env) {fac : Factory F} (hf : FactoryOK fac)
    {D : NS → Nat} {w : World F} (hw : WorldOK D w) (hno : NoOrphans w) {jobs : List (Job F)} (hv : ∀ j ∈ jobs, j.valid D)
    (hc : ∀ j ∈ jobs, j.established w) (hl : ∀ j ∈ jobs, j.lossless env) {nodes : List Addr} (hnd : nodes.Nodup)
    (hall : ∀ a ns, w.lookup a ns ≠ none → a ∈ nodes) (sched : List Nat) (p : Nat) :
    ∃ progs w' p', Pool.run sched (jobs.map (fun j => j.prog env fac)) w p = .ok (progs, w', p') ∧ WorldOK D w' ∧
      ∀ outs, progs = outs.map .ret → ∀ ns,
        Conserved (env.tk p') (storedAt w nodes ns ++ broughtBy jobs ns) (storedAt w' nodes ns) (takenBy jobs outs ns) := by
  obtain ⟨progs, w', p', h1, h2, h3⟩ := C60_nothing_lost_partial he hf hw hno hv hc hl hnd hall sched p
  refine ⟨progs, w', p', h1, h2, fun outs ha ns => ?_⟩
  obtain ⟨dups, _, h4, h5⟩ := h3 outs ha ns
  rwa [h4 hb] at h5

theorem jobOpens_any {env : Env} {D : NS → Nat} (j : Job F) (U : NS → DataPoint F → Prop) (Dr : Prop)
    (R : NS → DataPoint F → Prop) : JobOpens (F := F) ⟨env, D, fun _ _ => True, U, Dr, R⟩ j := by
  have ho : ∀ ns a, (ctxOf (F := F) env D (fun _ _ => True) U Dr R ns).Open a := fun ns a => .inl (fun _ _ _ => trivial)
  cases j with
  | rpc r => exact fun _ => ho _ _
  | put addrs body =>
    cases body with
    | none => trivial
    | some o => exact fun a _ => ho _ _
  | task cfg fuel t => exact fun _ ns _ => ho _ _
  | loop cfg fuel skip n iter => exact fun ns _ => ho _ _
  | call _ => trivial
  | query addrs body => trivial

/-- C60, what holds when namespaces are created meanwhile, by any jobs: nothing is lost and nothing is duplicated as long as no
namespace was created twice at a node at the same time, so that one of the two replaced the other (C42). In general, what is missing
from the nodes is in managers that were replaced: all managers that there ever were are counted in `held`. -/
theorem C60_created_partial {env : Env} (he : EnvOK env) (hb : NoLostReplies env) {fac : Factory F} (hf : FactoryOK fac)
    {D : NS → Nat} {w : World F} (hw : WorldOK D w) {jobs : List (Job F)} (hv : ∀ j ∈ jobs, j.valid D)
    (hl : ∀ j ∈ jobs, j.lossless env) (sched : List Nat) (p : Nat) :
    ∃ progs w' p', Pool.run sched (jobs.map (fun j => j.prog env fac)) w p = .ok (progs, w', p') ∧ WorldOK D w' ∧
      ∀ outs, progs = outs.map .ret → ∀ ns,
        Conserved (env.tk p') (held w ns ++ broughtBy jobs ns) (held w' ns) (takenBy jobs outs ns) ∧
        ∀ nodes : List Addr, nodes.Nodup → (∀ a, w.lookup a ns ≠ none ∨ w'.lookup a ns ≠ none → a ∈ nodes) → NoOrphans w → NoOrphans w' →
          Conserved (env.tk p') (storedAt w nodes ns ++ broughtBy jobs ns) (storedAt w' nodes ns) (takenBy jobs outs ns) := by
  obtain ⟨progs, w', p', h1, _, h3, _, _, _, h8⟩ := job_pool (T := fun _ _ => True) he hf hw trivial hv
    (fun j _ U Dr R => jobOpens_any j U Dr R) sched p
  refine ⟨progs, w', p', h1, h3, fun outs ha ns => ?_⟩
  obtain ⟨minted, inHands, c1, _, c2⟩ := h8 ns
  obtain ⟨left, l1, l2, l3⟩ := c2 outs ha
  rw [l2 hl, List.append_nil] at l1
  rw [l3 hb, List.nil_append] at c1
  obtain ⟨lost, d1, d2⟩ := c1
  refine ⟨⟨lost, by permc [d1, l1], d2⟩, fun nodes hnd hall hno hno' => ?_⟩
  have e1 := held_perm_storedAt hw hno hnd (ns := ns) (fun a ha => hall a (.inl ha))
  have e2 := held_perm_storedAt h3 hno' hnd (ns := ns) (fun a ha => hall a (.inr ha))
  exact ⟨lost, by permc [d1, e1, e2, l1], d2⟩

/-! ### C55: the whole task -/

theorem wp_each_inv {α β : Type} {f : β → Prog F α} {I : World F → Prop} {R : β → α → Prop} : ∀ (l : List β) (w : World F) (p : Nat), I w →
    (∀ x ∈ l, ∀ w p, I w → Go.wp ((f x).run w) (fun r _ => I r.2 ∧ R x r.1) p) →
    Go.wp ((Prog.each f l).run w) (fun r _ => I r.2 ∧ List.Forall₂ R l r.1) p
  | [], w, p, hw, _ => by
    unfold Prog.each
    rw [run_pure, Go.wp_pure]; exact ⟨hw, .nil⟩
  | x :: xs, w, p, hw, h => by
    unfold Prog.each
    rw [run_bind, Go.wp_bind]
    refine Go.wp_mono (h x (by simp) w p hw) (fun r p1 hr => ?_)
    rw [run_bind, Go.wp_bind]
    refine Go.wp_mono (wp_each_inv xs r.2 p1 hr.1 (fun y hy => h y (by simp [hy]))) (fun r2 p2 hr2 => ?_)
    rw [run_pure, Go.wp_pure]
    exact ⟨hr2.1, .cons hr.2 hr2.2⟩

/-- C55 for a whole run of the task: for any configuration it never crashes; it visits every namespace that a node reported
once, in some order, and all transfers are in order. -/
theorem C55_task {env : Env} (he : EnvOK env) {fac : Factory F} (hf : FactoryOK fac) {D : NS → Nat} {w : World F} (hw : WorldOK D w)
    (fuel : Nat) (cfg : Config) (p : Nat) :
    ∃ replies l w' p', (task env fac fuel cfg .loadBalancing).run w p = .ok ((.balanced l, w'), p') ∧ WorldOK D w' ∧
      replies.map (fun r => r.1) = cfg.remotes ∧
      (∀ r ∈ replies, r.2.Nodup ∧ ((∀ ns, ns ∈ r.2 ↔ ∃ m, w.get r.1 ns = some m) ∨ r.2 = [] ∧ ¬ Reachable env r.1)) ∧
      (l.map (fun e => e.1)).Nodup ∧ (∀ ns, ns ∈ l.map (fun e => e.1) ↔ ∃ r ∈ replies, ns ∈ r.2) ∧
      ∀ e ∈ l, (∀ a, a ∈ e.2.1.map (fun x => x.1) ↔ a ∈ reporters replies e.1) ∧
        GoodLog cfg.remotes.length (reporters replies e.1).length cfg.loc (average (e.2.1.map (fun x => x.2)))
          (margin (average (e.2.1.map (fun x => x.2)))) (Lens.get e.2.1) (reporters replies e.1) e.2.2 := by
  obtain ⟨t, replies, p1, _, h1, rfl, h3, h4⟩ := C54_run he hw cfg.remotes p
  obtain ⟨t1, t2, t3⟩ := C54_table replies
  have key : Go.wp ((task env fac fuel cfg .loadBalancing).run w) (fun r p' => WorldOK D r.2 ∧ ∃ l, r.1 = .balanced l ∧
      (l.map (fun e => e.1)).Perm ((tableOf replies).map (fun e => e.1)) ∧
      ∀ e ∈ l, (∀ a, a ∈ e.2.1.map (fun x => x.1) ↔ a ∈ addrsWithNamespace (tableOf replies) e.1) ∧
        GoodLog cfg.remotes.length (addrsWithNamespace (tableOf replies) e.1).length cfg.loc (average (e.2.1.map (fun x => x.2)))
          (margin (average (e.2.1.map (fun x => x.2)))) (Lens.get e.2.1) (addrsWithNamespace (tableOf replies) e.1) e.2.2) p := by
    unfold task
    rw [run_bind, Go.wp_bind]
    refine Go.wp_iff.2 ⟨_, _, h1, ?_⟩
    rw [run_bind, Go.wp_bind, run_loc, Go.wp_bind]
    unfold EventLoop.namespaces
    refine wp_shuffled he (fun nss hnss => ?_)
    rw [Go.wp_pure, run_bind, Go.wp_bind]
    refine Go.wp_mono (wp_each_inv (I := WorldOK D) (R := fun ns (e : NS × Lens × List Stolen) => e.1 = ns ∧
      (∀ a, a ∈ e.2.1.map (fun x => x.1) ↔ a ∈ addrsWithNamespace (tableOf replies) e.1) ∧
        GoodLog cfg.remotes.length (addrsWithNamespace (tableOf replies) e.1).length cfg.loc (average (e.2.1.map (fun x => x.2)))
          (margin (average (e.2.1.map (fun x => x.2)))) (Lens.get e.2.1) (addrsWithNamespace (tableOf replies) e.1) e.2.2)
      nss w _ hw (fun ns hns w p hw => ?_)) (fun r p' hr => ?_)
    · have hm := (t2 ns).1 (hnss.subset hns)
      have hne : addrsWithNamespace (tableOf replies) ns ≠ [] := by
        rw [t3 ns]
        obtain ⟨r, hr, hr'⟩ := hm
        intro h
        unfold reporters at h
        rw [List.flatMap_eq_nil_iff] at h
        have := h r hr
        rw [List.replicate_eq_nil_iff] at this
        exact (List.count_pos_iff.2 hr').ne' this
      have hrem : cfg.remotes ≠ [] := by
        intro h
        rw [h] at h3
        obtain ⟨r, hr, _⟩ := hm
        rw [List.map_eq_nil_iff] at h3
        rw [h3] at hr; cases hr
      rw [run_bind, Go.wp_bind]
      obtain ⟨lens, log, w', p', g1, g2, g3, g4, g5, g6⟩ := C55_run he hf hw fuel cfg.loc hrem hne p
      refine Go.wp_iff.2 ⟨_, _, g1, ?_⟩
      rw [run_pure, Go.wp_pure]
      exact ⟨g2, rfl, g4, g6⟩
    · rw [run_pure, Go.wp_pure]
      obtain ⟨l, w1⟩ := r
      obtain ⟨hr1, hr2⟩ := hr
      simp only at hr1 hr2
      refine ⟨hr1, l, rfl, ?_, fun e hem => ?_⟩
      · have : l.map (fun e => e.1) = nss := by
          clear hr1 hnss
          induction hr2 with
          | nil => rfl
          | cons h _ ih => rw [List.map_cons, ih, h.1]
        rw [this]; exact hnss
      · clear hr1 hnss
        induction hr2 with
        | nil => cases hem
        | cons h _ ih =>
          rcases List.mem_cons.1 hem with rfl | hem
          · exact h.2
          · exact ih hem
  obtain ⟨⟨r, w'⟩, p', g1, g2, l, g3, g4, g5⟩ := Go.wp_iff.1 key
  simp only at g2 g3
  subst g3
  refine ⟨replies, l, w', p', g1, g2, h3, fun r hr => ⟨(h4 r hr).1, (h4 r hr).2.imp_right (fun h => ⟨h.1, fun hr' => ?_⟩)⟩,
    g4.nodup_iff.2 t1, fun ns => by rw [g4.mem_iff, t2], fun e hem => ?_⟩
  · obtain ⟨q, hq⟩ := h.2
    rcases hq with hq | hq
    · rw [hr'.1 q] at hq; cases hq
    · rw [hr'.2 q] at hq; cases hq
  · rw [← t3 e.1]; exact g5 e hem

/-! ### C62: the tasks that start goroutines -/

/-- C62. A task that starts goroutines starts exactly one for every namespace that the local node has, and none for others;
when the local node cannot be reached it starts none. It changes nothing itself. -/
theorem C62_starts {env : Env} (he : EnvOK env) (fac : Factory F) (fuel : Nat) {D : NS → Nat} {w : World F} (hw : WorldOK D w)
    (cfg : Config) {t : TaskId} {f : NS → Call} (ht : maintenance cfg t = some f) (p : Nat) :
    ∃ names p', (task env fac fuel cfg t).run w p = .ok ((.started (names.map f), w), p') ∧ names.Nodup ∧
      ((∀ ns, ns ∈ names ↔ ∃ m, w.get cfg.loc ns = some m) ∨ (names = [] ∧ ¬ Reachable env cfg.loc)) := by
  have e : task env fac fuel cfg t = startAll env cfg f := by
    cases t <;> simp only [maintenance, Option.some.injEq, reduceCtorEq] at ht <;> subst ht <;> rfl
  rw [e]
  have key : Go.wp ((startAll env cfg f : Prog F Report).run w) (fun r p' => r.2 = w ∧ ∃ names, r.1 = .started (names.map f) ∧
      names.Nodup ∧ ((∀ ns, ns ∈ names ↔ ∃ m, w.get cfg.loc ns = some m) ∨ (names = [] ∧ ¬ Reachable env cfg.loc))) p := by
    unfold startAll
    rw [run_bind, Go.wp_bind]
    refine Go.wp_mono (wp_client_namespaces he hw cfg.loc p) (fun r p' hr => ?_)
    rw [run_pure, Go.wp_pure]
    obtain ⟨_, h2, h3, h4⟩ := hr
    refine ⟨h2, r.1, rfl, h3, h4.imp_right (fun h => ⟨h.1, fun hr => ?_⟩)⟩
    obtain ⟨q, hq⟩ := h.2
    rcases hq with hq | hq
    · rw [hr.1 q] at hq; cases hq
    · rw [hr.2 q] at hq; cases hq
  obtain ⟨⟨r, w'⟩, p', h1, h2, names, h3, h4, h5⟩ := Go.wp_iff.1 key
  simp only at h2 h3
  subst h2 h3
  exact ⟨names, p', h1, h4, h5⟩

/-! ### C63: the Meta task -/

/-- C63. The Meta task passes to `LogMeta`, for the local node or for all `RemoteAddrs` in order, exactly the namespaces of
that node with the numbers of their centroids and datapoints, or nothing if the node could not be reached. It changes
nothing. -/
theorem C63_meta {env : Env} (he : EnvOK env) (fac : Factory F) (fuel : Nat) {D : NS → Nat} {w : World F} (hw : WorldOK D w)
    (cfg : Config) (p : Nat) :
    ∃ l p', (task env fac fuel cfg .getMeta).run w p = .ok ((.gathered l, w), p') ∧
      List.Forall₂ (MetaOf env w) (if cfg.logLocalOnly then [cfg.loc] else cfg.remotes) l := by
  have one : ∀ a p, Go.wp ((do let m ← Client.getMeta env a; pure (a, m) : Prog F (Addr × List (NS × Nat × Nat))).run w)
      (fun r p' => p ≤ p' ∧ r.2 = w ∧ MetaOf env w a r.1) p := by
    intro a p
    unfold Client.getMeta
    rw [run_bind, Go.wp_bind, run_bind, Go.wp_bind]
    refine Go.wp_mono (wp_call_same (R := fun r => ∃ l, r = some l ∧ (l.map (fun x => x.1)).Nodup ∧
      ∀ ns k n, (ns, k, n) ∈ l ↔ ∃ m, w.get a ns = some m ∧ k = m.centroids.length ∧ n = (stored m).length)
      (fun q => ?_) ?_ p) (fun r p' hr => ?_)
    · rw [run_bind, Go.wp_bind]
      refine Go.wp_mono (wp_meta he hw a q) (fun r p' hr => ?_)
      rw [run_pure, Go.wp_pure]
      exact ⟨hr.1, hr.2.1, r.1, rfl, hr.2.2⟩
    · obtain ⟨r, p', _, h⟩ := Go.wp_iff.1 (wp_meta he hw a 0)
      exact ⟨_, r.1, rfl, h.2.2⟩
    · obtain ⟨h1, h2, val, ⟨l, rfl, h3, h4⟩, h5⟩ := hr
      rw [run_pure, Go.wp_pure, run_pure, Go.wp_pure]
      refine ⟨h1, h2, rfl, ?_⟩
      simp only
      rcases h5 with h5 | ⟨h5, q', h6⟩
      · rw [h5]; exact ⟨h3, .inl h4⟩
      · rw [h5]
        refine ⟨by simp, .inr ⟨rfl, fun hr => ?_⟩⟩
        rcases h6 with hq | hq
        · rw [hr.1 q'] at hq; cases hq
        · rw [hr.2 q'] at hq; cases hq
  have key : Go.wp ((task env fac fuel cfg .getMeta).run w) (fun r p' => r.2 = w ∧ ∃ l, r.1 = .gathered l ∧
      List.Forall₂ (MetaOf env w) (if cfg.logLocalOnly then [cfg.loc] else cfg.remotes) l) p := by
    unfold task
    rw [run_bind, Go.wp_bind]
    refine Go.wp_mono (wp_each_same _ p (fun a _ q => one a q)) (fun r p' hr => ?_)
    rw [run_pure, Go.wp_pure]
    exact ⟨hr.2.1, r.1, rfl, hr.2.2⟩
  obtain ⟨⟨r, w'⟩, p', h1, h2, l, h3, h4⟩ := Go.wp_iff.1 key
  simp only at h2 h3
  subst h2 h3
  exact ⟨l, p', h1, h4⟩

/-! ### Refutations and examples -/

namespace JobsExample
open ServerExample

/-- Jobs one after the other, starting with nodes without data. -/
def seqJobs (env : Env) (jobs : List (Job F64)) : Go (List (Outcome F64) × World F64) :=
  (Prog.each (fun j => j.prog env fac) jobs).run start
/-- An HTTP put of a two-dimensional vector into namespace 7. -/
def put (x y : Int) : Job F64 := .put [1] (some ⟨7, false, ⟨[.ofInt x, .ofInt y], [], 0, false⟩⟩)
/-- The configuration of a single node. -/
def single : Config := ⟨1, [1], 10, 10, 10, 0, 10, 0, 10, true⟩
/-- The status codes of puts. -/
def statusOf : Outcome F64 → Option Nat
  | .status n => some n
  | _ => none
/-- The status codes, and what node 1 holds in namespace 7. -/
def obsJ (r : List (Outcome F64) × World F64) : List (Option Nat) × List (DataPoint F64) := (r.1.map statusOf, storedAt r.2 [1] 7)
/-- The status codes so far, and what nodes 1 and 2 hold in namespace 7. -/
def obsPJ (r : List (Prog F64 (Outcome F64)) × World F64 × Nat) :
    List (Option (Option Nat)) × List (DataPoint F64) × List (DataPoint F64) :=
  (r.1.map (fun | .ret o => some (statusOf o) | .act _ _ => none), at12 r.2.1)

end JobsExample
open ServerExample JobsExample

/-- C60 fails: a service of a single node, three datapoints acknowledged with 200, and one distribution task of the event loop
during which the node does not reach itself once. All three datapoints are gone. -/
theorem C60_refuted : ∃ r p', seqJobs { env with up := fun p _ => p != 28 } [put 1 0, put 1 1, put 0 1, .task single 10 .distFast] 0 = .ok (r, p') ∧
    obsJ r = ([some 200, some 200, some 200, none], []) :=
  exists_of_run (by decide +kernel)

/-- C60 fails, without any failure, if `RemoteAddrs` does not include `LocalAddr`, for both ways to distribute. -/
theorem C60_refuted_config :
    (∃ r p', seqJobs env [put 1 0, put 1 1, put 0 1, .task { single with remotes := [2] } 10 .distFast] 0 = .ok (r, p') ∧
      obsJ r = ([some 200, some 200, some 200, none], [])) ∧
    ∃ r p', seqJobs env [put 1 0, put 1 1, put 0 1, .task { single with remotes := [2] } 10 .distAccurate] 0 = .ok (r, p') ∧
      obsJ r = ([some 200, some 200, some 200, none], []) :=
  ⟨exists_of_run (by decide +kernel), exists_of_run (by decide +kernel)⟩

/-- C60: the same without the failure. -/
example : ∃ r p', seqJobs env [put 1 0, put 1 1, put 0 1, .task single 10 .distFast, .task single 10 .distAccurate] 0 = .ok (r, p') ∧
    obsJ r = ([some 200, some 200, some 200, none, none], [dp 1 0, dp 0 1, dp 1 1]) :=
  exists_of_run (by decide +kernel)

namespace JobsExample
/-- A node with two datapoints. -/
def lone : World F64 := ⟨fun a => if a = 1 then [(7, 0)] else [], [(7, man [.ofInt 1, .ofInt 1] [cen [.ofInt 1, .ofInt 1] [dp 1 0, dp 1 2]])]⟩
/-- Every task in every iteration. -/
def always : SkipConfig := ⟨1, 1, 1, 1, 1, 1, 1, 1, 1⟩
end JobsExample

/-- C60: two puts, an event loop and the goroutine of one of its tasks, interleaved. In the middle there is only one datapoint
at the node, the others are in transit; in the end all four are there. -/
example : (∃ r, Pool.run ((List.replicate 100 [0, 1, 2, 3]).flatten) ([put 1 1, put 2 1, .loop single 10 always 1 0,
      .call (.splitCentroids 1 7 0 10)].map (fun j => j.prog env fac)) lone 0 = .ok r ∧
      obsPJ r = ([some (some 200), some (some 200), none, some none], [dp 1 1], [])) ∧
    ∃ r, Pool.run ((List.replicate 200 [0, 1, 2, 3]).flatten) ([put 1 1, put 2 1, .loop single 10 always 1 0,
      .call (.splitCentroids 1 7 0 10)].map (fun j => j.prog env fac)) lone 0 = .ok r ∧
      obsPJ r = ([some (some 200), some (some 200), some none, some none], [dp 1 1, dp 1 2, dp 1 0, dp 2 1], []) :=
  ⟨exists_of_pool (by decide +kernel), exists_of_pool (by decide +kernel)⟩

namespace JobsExample

/-- An HTTP put and an HTTP query of namespace 7 at both nodes, the event loop of node 1, a goroutine it started, and a
load balancing task of node 1. -/
noncomputable def service : List (Job ℝ) := [.put [1, 2] (some ⟨7, true, ⟨[3, 4], [], 0, false⟩⟩), .query [1, 2] (some ⟨7, false, [1, 1], 2, true⟩),
  .loop ⟨1, [1, 2], 5, 5, 5, 0, 10, 0, 10, false⟩ 10 ⟨1, 1, 1, 1, 1, 1, 1, 1, 1⟩ 100 0, .call (.expire 1 8),
  .task ⟨1, [1, 2], 5, 5, 5, 0, 10, 0, 10, false⟩ 10 .loadBalancing]

theorem service_valid : ∀ j ∈ service, j.valid (fun _ => 2) := by
  intro j hj
  simp only [service, List.mem_cons, List.not_mem_nil, or_false] at hj
  rcases hj with rfl | rfl | rfl | rfl | rfl
  · rfl
  · simp [Job.valid]
  · exact ⟨⟨by decide, by decide⟩, fun t => by cases t <;> decide⟩
  · trivial
  · exact ⟨by decide, by decide⟩

theorem twoR_nodes {a : Addr} {ns : NS} (h : twoR.lookup a ns ≠ none) : (a = 1 ∨ a = 2) ∧ (ns = 7 ∨ ns = 8) := by
  by_cases h1 : a = 1
  · subst h1
    refine ⟨.inl rfl, ?_⟩
    by_contra hn
    exact h (by simp_all [World.lookup, twoR, nodes2])
  · by_cases h2 : a = 2
    · subst h2
      refine ⟨.inr rfl, ?_⟩
      by_contra hn
      exact h (by simp_all [World.lookup, twoR, nodes2])
    · exact absurd (by simp [World.lookup, twoR, nodes2, h1, h2]) h

theorem service_established : ∀ j ∈ service, j.established twoR := by
  have h1 : ∀ a ns, twoR.lookup a ns ≠ none → twoR.lookup 1 ns ≠ none := by
    intro a ns h
    rcases (twoR_nodes h).2 with rfl | rfl <;> simp [World.lookup, twoR, nodes2]
  intro j hj
  simp only [service, List.mem_cons, List.not_mem_nil, or_false] at hj
  rcases hj with rfl | rfl | rfl | rfl | rfl
  · intro a ha
    simp only [List.mem_cons, List.not_mem_nil, or_false] at ha
    rcases ha with rfl | rfl <;> simp [World.lookup, twoR, nodes2]
  · trivial
  · exact h1
  · trivial
  · exact h1

/-- C60, C61: this service over the reals, interleaved in any way; node 2 may be unreachable at any time. -/
example (up : Nat → Bool) (sched : List Nat) :
    let env := { env with up := fun p a => a = 1 || up p }
    ∃ progs w' p', Pool.run sched (service.map (fun j => j.prog env ⟨10, 100, knnCos, kfnCos⟩)) twoR 0 = .ok (progs, w', p') ∧
      WorldOK (fun _ => 2) w' ∧ ∀ outs, progs = outs.map .ret → ∀ ns,
        Conserved (env.tk p') (storedAt twoR [1, 2] ns ++ broughtBy service ns) (storedAt w' [1, 2] ns) (takenBy service outs ns) := by
  intro env'
  refine C60_service_conserves_partial (env := env') (fac := ⟨10, 100, knnCos, kfnCos⟩) (nodes := [1, 2])
    ⟨env_ok.clock, env_ok.perm, env_ok.rand⟩ (fun _ _ => rfl) ⟨by decide, rfl, rfl⟩ twoR_ok (nodes2_noOrphans _ _ _) service_valid
    service_established ?_ (by simp) (fun a ns h => by simpa using (twoR_nodes h).1) sched 0
  have hr : Reachable env' 1 := ⟨fun p => rfl, fun p => rfl⟩
  intro j hj
  simp only [service, List.mem_cons, List.not_mem_nil, or_false] at hj
  rcases hj with rfl | rfl | rfl | rfl | rfl
  · exact knnCos_alwaysFinds
  · exact fun _ _ _ => rfl
  · exact ⟨knnCos_alwaysFinds, ⟨hr, by simp⟩, fun _ _ => rfl⟩
  · trivial
  · exact fun _ _ => rfl

/-- C61: the same service in double precision arithmetic, with any failures. -/
example (up back : Nat → Addr → Bool) (sched : List Nat) (v : List F64) (d : Api.DP F64) (hd : d.vec.length = 2) :
    ∃ progs w' p', Pool.run sched ([Job.put [1, 2, 3] (some ⟨9, true, d⟩), .query [1, 2] (some ⟨7, false, v, 2, true⟩),
      .loop ⟨2, [], 5, 5, 5, 0, 10, 0, 10, false⟩ 10 ⟨1, 1, 1, 1, 1, 1, 1, 1, 1⟩ 100 0, .put [1] none].map
        (fun j => j.prog { env with up := up, back := back } fac)) two 0 = .ok (progs, w', p') ∧ WorldOK (fun _ => 2) w' := by
  obtain ⟨progs, w', p', h1, h2, _⟩ := C61_no_panic (env := { env with up := up, back := back }) ⟨env_ok.clock, env_ok.perm, env_ok.rand⟩
    fac_ok two_ok (jobs := [Job.put [1, 2, 3] (some ⟨9, true, d⟩), .query [1, 2] (some ⟨7, false, v, 2, true⟩),
      .loop ⟨2, [], 5, 5, 5, 0, 10, 0, 10, false⟩ 10 ⟨1, 1, 1, 1, 1, 1, 1, 1, 1⟩ 100 0, .put [1] none]) (by
      intro j hj
      simp only [List.mem_cons, List.not_mem_nil, or_false] at hj
      rcases hj with rfl | rfl | rfl | rfl
      · exact hd
      · simp [Job.valid]
      · exact ⟨⟨by decide, by decide⟩, fun t => by cases t <;> decide⟩
      · trivial) sched 0
  exact ⟨progs, w', p', h1, h2⟩

/-- The report of a run. -/
def reportOf (r : Report × World F64) : Report := r.1

end JobsExample

namespace JobsExample
/-- Node 2 has 40 datapoints in namespace 7, node 1 none. -/
def heavy : World F64 := nodes2 (man [.ofInt 1, .ofInt 0] []) (man [.ofInt 0, .ofInt 1] [cen [.ofInt 1, .ofInt 0] [dp 1 0],
  cen [.ofInt 0, .ofInt 1] (List.replicate 15 (dp 0 1)), cen [.ofInt 1, .ofInt 1] (List.replicate 24 (dp 1 1))]) (man [.ofInt 3, .ofInt 4] [])
/-- The report of a run, and the sizes of namespace 7 at the two nodes. -/
def obsLB (r : Report × World F64) : Report × Nat × Nat := (r.1, (storedAt r.2 [1] 7).length, (storedAt r.2 [2] 7).length)
end JobsExample

/-- C55: node 1 asks node 2 for three datapoints and gets the 25 of two centroids. -/
example : ∃ r p', (task env fac 10 { single with remotes := [1, 2] } .loadBalancing).run heavy 0 = .ok (r, p') ∧
    obsLB r = (.balanced [(7, [(1, 0), (2, 40)], [⟨2, 3, 25⟩]), (8, [(1, 0)], [])], 25, 15) :=
  exists_of_run (by decide +kernel)

/-- C62: node 1 has the namespaces 7 and 8. -/
example : ∃ (names : List NS) (p' : Nat), (task env fac 10 single .split).run two 0 = .ok ((.started (names.map (fun ns => .splitCentroids 1 ns 0 10)), two), p') ∧
    names.Nodup ∧ ∀ ns, ns ∈ names ↔ ∃ m, two.get 1 ns = some m := by
  obtain ⟨names, p', h1, h2, h3⟩ := C62_starts env_ok fac 10 two_ok single (t := .split) rfl 0
  exact ⟨names, p', h1, h2, h3.resolve_right (fun h => h.2 ⟨fun _ => rfl, fun _ => rfl⟩)⟩

/-- C62: what is started. -/
example : (∃ r p', (task env fac 10 single .split).run two 0 = .ok (r, p') ∧ reportOf r = .started [.splitCentroids 1 7 0 10, .splitCentroids 1 8 0 10]) ∧
    ∃ r p', (task { env with up := fun _ _ => false } fac 10 single .expire).run two 0 = .ok (r, p') ∧ reportOf r = .started [] :=
  ⟨exists_of_run (by decide +kernel), exists_of_run (by decide +kernel)⟩

/-- C63: node 3 has no namespaces, node 4 is down. -/
example : ∃ r p', (task { env with up := fun _ a => a != 4 } fac 10 { single with remotes := [2, 1, 4, 3], logLocalOnly := false } .getMeta).run two 0 = .ok (r, p') ∧
    reportOf r = .gathered [(2, [(7, 1, 1)]), (1, [(7, 1, 2), (8, 1, 1)]), (4, []), (3, [])] :=
  exists_of_run (by decide +kernel)

end Trypo
