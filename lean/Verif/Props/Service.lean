import Verif.Proofs.ServiceLive
import Verif.Props.Jobs
import Verif.Props.EventLoop
import Mathlib.Data.Nat.Pairing

/-!
# The running service: C83 to C86

Any number of nodes, each with an event loop that calls its tasks and starts their goroutines, and requests that arrive at any
time.
-/

set_option linter.unusedSectionVars false
set_option linter.unusedVariables false

namespace Trypo
open GoFloat Spec EventLoop Service

section
variable {F : Type} [GoFloat F] [LawfulCmp F]
variable {env : Env} {fac : Factory F} {nodes : List (Config × Nat × SkipConfig)} {w0 : World F} {p0 : Nat} {s s' : Sys F}

/-! ### C83: it runs -/

/-- An event adds the request that arrives, if any, to the requests. -/
theorem step_outside {e : Ev F} (h : Service.step env fac e s = .ok s') :
    jobsFrom .outside s' = jobsFrom .outside s ++ arrivals [e] := by
  cases e with
  | arrive j =>
    cases h
    rw [start_eq, jobsFrom_all env fac s (by simp)]
    simp [arrivals]
  | run i =>
    simp only [Service.step] at h
    split at h
    · cases h; simp [arrivals, jobsFrom]
    · cases h
  | loop k =>
    have e0 : arrivals [(Ev.loop k : Ev F)] = [] := rfl
    rw [e0, List.append_nil]
    simp only [Service.step] at h
    split at h
    · unfold loopStep at h
      split at h
      · split at h
        · rw [starts_eq] at h
          cases h
          rw [jobsFrom_ne]
          · rfl
          · intro x hx
            obtain ⟨c, _, rfl⟩ := List.mem_map.1 hx
            simp
        · cases h; rfl
      · split at h
        split at h
        · cases h
        · split at h
          · cases h
            rw [start_eq, jobsFrom_ne]
            · rfl
            · simp
          · cases h; rfl
    · cases h; rfl
  | stop k =>
    simp only [Service.step] at h
    split at h
    · cases h; simp [arrivals, jobsFrom]
    · cases h; simp [arrivals, jobsFrom]

theorem run_outside : ∀ (es : List (Ev F)) {s s' : Sys F}, Service.run env fac es s = .ok s' →
    jobsFrom .outside s' = jobsFrom .outside s ++ arrivals es
  | [], s, s', h => by cases h; simp [arrivals]
  | e :: es, s, s', h => by
    simp only [Service.run] at h
    split at h
    · rename_i s1 h1
      rw [run_outside es h, step_outside h1, List.append_assoc]
      congr 1
      rw [← List.singleton_append (l := es), arrivals, arrivals, arrivals, List.filterMap_append]
    · cases h

theorem Going.world (h : Going env fac nodes w0 p0 s) (he : EnvOK env) (hf : FactoryOK fac) {D : NS → Nat} (hw : WorldOK D w0)
    (hv : AllValid D s) : WorldOK D s.world ∧ ∀ a ns, w0.lookup a ns ≠ none → s.world.lookup a ns ≠ none := by
  obtain ⟨sched, h1, h2⟩ := h.static
  obtain ⟨progs, w', p', g1, g2, _, g4⟩ := C61_no_panic he hf hw (jobs := s.jobs.map (fun x => x.2)) (fun j hj => by
    obtain ⟨x, hx, rfl⟩ := List.mem_map.1 hj
    exact hv x hx) sched p0
  rw [List.map_map] at g1
  rw [show ((fun j : Job F => j.prog env fac) ∘ fun x : Source × Job F => x.2) = fun x => x.2.prog env fac from rfl, h2] at g1
  cases g1
  exact ⟨g2, g4⟩

/-- C83. Nodes that run event loops and answer requests that arrive at any time, everything interleaved in any way, with any
failures of the network and loops stopped at any time: nothing panics, the state stays consistent, and no namespace goes away. The
requests that are served are exactly those that arrived. -/
theorem C83_runs (he : EnvOK env) (hf : FactoryOK fac) {D : NS → Nat} (hw : WorldOK D w0) (hn : ∀ n ∈ nodes, NodeOK n)
    {es : List (Ev F)} (hv : ∀ j ∈ arrivals es, j.valid D) :
    ∃ s, Service.run env fac es (boot nodes w0 p0) = .ok s ∧ WorldOK D s.world ∧
      (∀ a ns, w0.lookup a ns ≠ none → s.world.lookup a ns ≠ none) ∧ jobsFrom .outside s = arrivals es ∧
      s.progs.length = s.jobs.length := by
  obtain ⟨s, h1, h2, h3⟩ := run_going he hf hw hn es _ (boot_going env fac nodes w0 p0) (fun x hx => by simp [boot] at hx) hv
  obtain ⟨h4, h5⟩ := h2.world he hf hw h3
  exact ⟨s, h1, h4, h5, by rw [run_outside es h1]; rfl, h2.length⟩

/-! ### C84: what the event loops do -/

/-- C84. In a running service every event loop does what it does alone: the tasks have their turns by the same schedule whatever
else is going on; each task is called once per turn and the loop waits for it; and when it has returned, exactly the goroutines of
its `go` statements have been started, and no others. -/
theorem C84_conduct (he : EnvOK env) (hf : FactoryOK fac) {D : NS → Nat} (hw : WorldOK D w0) (hn : ∀ n ∈ nodes, NodeOK n)
    {es : List (Ev F)} (hv : ∀ j ∈ arrivals es, j.valid D) :
    ∃ s, Service.run env fac es (boot nodes w0 p0) = .ok s ∧ Conduct nodes s := by
  obtain ⟨s, h1, h2, _⟩ := run_going he hf hw hn es _ (boot_going env fac nodes w0 p0) (fun x hx => by simp [boot] at hx) hv
  exact ⟨s, h1, h2.conduct⟩

/-- What an event does to an event loop. -/
theorem step_loop {e : Ev F} (h : Service.step env fac e s = .ok s') {k : Nat} {l : Loop} (hl : s.loops[k]? = some l) :
    ∃ l', s'.loops[k]? = some l' ∧ l'.skip = l.skip ∧ (l.stopped = true → l'.stopped = true) ∧
      ((l'.pos, l'.log) = (l.pos, l.log) ∨ ((l'.pos, l'.log) = ((EventLoop.step l.skip l.stopped l.pos).1, l.log ++ (EventLoop.step l.skip l.stopped l.pos).2))) := by
  by_cases h1 : e = .loop k
  · subst h1
    cases hb : l.busy with
    | none =>
      obtain ⟨b, hb⟩ := loopStep_free hl hb h
      exact ⟨_, hb, rfl, id, .inr rfl⟩
    | some i =>
      by_cases ho : ∃ o, s.progs[i]? = some (.ret o)
      · obtain ⟨o, ho⟩ := ho
        exact ⟨_, loopStep_done hl hb ho h, rfl, id, .inl rfl⟩
      · rw [loopStep_wait hl hb (fun o h => ho ⟨o, h⟩) h]
        exact ⟨l, hl, rfl, id, .inl rfl⟩
  · by_cases h2 : e = .stop k
    · subst h2
      simp only [Service.step, hl] at h
      cases h
      exact ⟨_, List.getElem?_set_self (List.getElem?_eq_some_iff.1 hl).1, rfl, fun _ => rfl, .inl rfl⟩
    · exact ⟨l, by rw [step_keeps_loop h h1 h2]; exact hl, rfl, id, .inl rfl⟩

theorem steps_const (skip : SkipConfig) (b : Bool) : ∀ (n k k' : Nat) (x : EventLoop.State),
    EventLoop.steps skip (fun _ => b) k n x = EventLoop.steps skip (fun _ => b) k' n x
  | 0, k, k', x => rfl
  | n + 1, k, k', x => by
    simp only [EventLoop.steps]
    rw [steps_const skip b n (k + 1) (k' + 1)]

/-- What events do to an event loop that is stopped. -/
theorem run_stopped : ∀ (es : List (Ev F)) {s s' : Sys F}, Service.run env fac es s = .ok s' → ∀ {k : Nat} {l : Loop}, s.loops[k]? = some l →
    l.stopped = true → ∃ l' n, s'.loops[k]? = some l' ∧ l'.stopped = true ∧
      l'.pos = (EventLoop.steps l.skip (fun _ => true) 0 n l.pos).1 ∧ l'.log = l.log ++ (EventLoop.steps l.skip (fun _ => true) 0 n l.pos).2
  | [], s, s', h, k, l, hl, hst => by
    cases h
    exact ⟨l, 0, hl, hst, rfl, by simp [EventLoop.steps]⟩
  | e :: es, s, s', h, k, l, hl, hst => by
    simp only [Service.run] at h
    split at h
    · rename_i s1 h1
      obtain ⟨l1, g1, g2, g3, g4⟩ := step_loop h1 hl
      obtain ⟨l2, n, k1, k2, k3, k4⟩ := run_stopped es h g1 (g3 hst)
      rw [g2] at k3 k4
      rcases g4 with g4 | g4
      · obtain ⟨e1, e2⟩ := Prod.mk.inj g4
        rw [e1] at k3 k4
        rw [e2] at k4
        exact ⟨l2, n, k1, k2, k3, k4⟩
      · obtain ⟨e1, e2⟩ := Prod.mk.inj g4
        rw [hst] at e1 e2
        refine ⟨l2, n + 1, k1, k2, ?_, ?_⟩
        · rw [k3, e1]
          simp only [EventLoop.steps]
          rw [steps_const l.skip true n 1 0]
        · rw [k4, e1, e2]
          simp only [EventLoop.steps]
          rw [steps_const l.skip true n 1 0, List.append_assoc]
    · cases h

/-- C84, stopping: after the stop function of an event loop was called, the loop goes to sleep or calls a task at most once more,
whatever else happens. -/
theorem C84_stop (he : EnvOK env) (hf : FactoryOK fac) {D : NS → Nat} (hw : WorldOK D w0) (hn : ∀ n ∈ nodes, NodeOK n)
    {es es' : List (Ev F)} {k : Nat} (hk : k < nodes.length) (hv : ∀ j ∈ arrivals es, j.valid D) (hv' : ∀ j ∈ arrivals es', j.valid D) :
    ∃ s l s' l' more, Service.run env fac es (boot nodes w0 p0) = .ok s ∧ s.loops[k]? = some l ∧
      Service.run env fac (es ++ .stop k :: es') (boot nodes w0 p0) = .ok s' ∧ s'.loops[k]? = some l' ∧ l'.log = l.log ++ more ∧ activity more ≤ 1 := by
  obtain ⟨s, h1, h2, h3⟩ := run_going (p0 := p0) he hf hw hn es _ (boot_going env fac nodes w0 p0) (fun x hx => by simp [boot] at hx) hv
  obtain ⟨l, hl⟩ : ∃ l, s.loops[k]? = some l := ⟨s.loops[k]'(by rw [h2.conduct.loops]; exact hk), List.getElem?_eq_getElem _⟩
  obtain ⟨s1, g1, g2, g3⟩ := step_going he hf hw hn h2 h3 (e := .stop k) (by simp)
  obtain ⟨s2, k1, _⟩ := run_going he hf hw hn es' s1 g2 g3 hv'
  have hl1 : s1.loops[k]? = some { l with stopped := true } := by
    simp only [Service.step, hl] at g1
    cases g1
    exact List.getElem?_set_self (List.getElem?_eq_some_iff.1 hl).1
  obtain ⟨l2, n, m1, _, _, m4⟩ := run_stopped es' k1 hl1 rfl
  refine ⟨s, l, s2, l2, _, h1, hl, ?_, m1, m4, ?_⟩
  · rw [service_run_append, h1]
    show Service.run env fac (.stop k :: es') s = _
    simp only [Service.run, g1]
    exact k1
  · have h5 := (steps_stopped l.skip (fun _ => true) n 0 l.pos (fun _ _ => rfl)).2
    have h6 := pending_le l.pos.pc
    simp only
    omega

/-! ### C85: conservation -/

/-- The jobs that are no requests are tasks and the goroutines of tasks. -/
theorem _root_.Trypo.Spec.Conduct.inside (h : Conduct nodes s) {x : Source × Job F} (hx : x ∈ s.jobs) :
    x.1 = .outside ∨ (∃ n ∈ nodes, ∃ t, x.2 = .task n.1 n.2.1 t) ∨ ∃ c, x.2 = .call c := by
  have hmem : x.2 ∈ jobsFrom x.1 s := List.mem_map.2 ⟨x, List.mem_filter.2 ⟨hx, by simp⟩, rfl⟩
  obtain ⟨src, j⟩ := x
  cases src with
  | outside => exact .inl rfl
  | loop k =>
    have hk := h.known k (by intro e; rw [e] at hmem; cases hmem)
    obtain ⟨l, hl⟩ : ∃ l, s.loops[k]? = some l := ⟨s.loops[k]'(by rw [h.loops]; exact hk), List.getElem?_eq_getElem _⟩
    obtain ⟨n, hnk, hc⟩ := h.each k l hl
    simp only at hmem
    rw [hc.tasks] at hmem
    obtain ⟨t, _, ht⟩ := List.mem_map.1 hmem
    exact .inr (.inl ⟨n, List.mem_of_getElem? hnk, t, ht.symm⟩)
  | task i =>
    obtain ⟨k, j', hj'⟩ := h.only i (by intro e; rw [e] at hmem; cases hmem)
    have hk := h.known k (by
      intro e
      have : j' ∈ jobsFrom (.loop k) s := List.mem_map.2 ⟨_, List.mem_filter.2 ⟨List.mem_of_getElem? hj', by simp⟩, rfl⟩
      rw [e] at this; cases this)
    obtain ⟨l, hl⟩ : ∃ l, s.loops[k]? = some l := ⟨s.loops[k]'(by rw [h.loops]; exact hk), List.getElem?_eq_getElem _⟩
    obtain ⟨n, hnk, hc⟩ := h.each k l hl
    simp only at hmem
    rcases hc.calls i j' hj' with ⟨_, e⟩ | ⟨_, o, _, e⟩
    · rw [e] at hmem; cases hmem
    · rw [e] at hmem
      obtain ⟨c, _, hc⟩ := List.mem_map.1 hmem
      exact .inr (.inr ⟨c, hc.symm⟩)

/-- Only requests bring datapoints. -/
theorem _root_.Trypo.Spec.Conduct.brought (h : Conduct nodes s) (ns : NS) : broughtBy (s.jobs.map (fun x => x.2)) ns = broughtBy (jobsFrom .outside s) ns := by
  have key : ∀ l : List (Source × Job F), (∀ x ∈ l, x ∈ s.jobs) →
      broughtBy (l.map (fun x => x.2)) ns = broughtBy ((l.filter (fun x => x.1 = .outside)).map (fun x => x.2)) ns := by
    intro l hl
    induction l with
    | nil => rfl
    | cons x l ih =>
      have e := ih (fun y hy => hl y (by simp [hy]))
      unfold broughtBy at e ⊢
      rw [List.map_cons, List.flatMap_cons, e, List.filter_cons]
      by_cases hx : x.1 = .outside
      · simp [hx]
      · simp only [hx, decide_false, Bool.false_eq_true, if_false]
        rcases h.inside (hl x (by simp)) with h' | ⟨_, _, _, h'⟩ | ⟨_, h'⟩
        · exact absurd h' hx
        · rw [h']; rfl
        · rw [h']; rfl
  exact key s.jobs (fun _ h => h)

theorem get_held {w : World F} {D : NS → Nat} (hw : WorldOK D w) {a : Addr} {ns : NS} {m : Manager F} (h : w.get a ns = some m)
    {d : DataPoint F} (hd : d ∈ stored m) : d ∈ held w ns := by
  have h0 := h
  unfold World.get at h
  cases hl : w.lookup a ns with
  | none => rw [hl] at h; cases h
  | some i =>
    obtain ⟨m', hm'⟩ := lookup_lt hw hl
    rw [show w.get a ns = some m' from get_of_lookup hl hm'] at h0
    cases h0
    obtain ⟨X, hX, _⟩ := held_split hm'
    exact hX.symm.subset (by simp [hd])

theorem run_held (he : EnvOK env) (hf : FactoryOK fac) {D : NS → Nat} (hw : WorldOK D w0) (hn : ∀ n ∈ nodes, NodeOK n)
    {es : List (Ev F)} (hv : ∀ j ∈ arrivals es, j.valid D) :
    ∃ s, Service.run env fac es (boot nodes w0 p0) = .ok s ∧ WorldOK D s.world ∧
      ∀ ns, ∀ d ∈ held s.world ns, d ∈ held w0 ns ++ broughtBy (arrivals es) ns := by
  obtain ⟨s, h1, h2, h3⟩ := run_going he hf hw hn es _ (boot_going env fac nodes w0 p0) (fun x hx => by simp [boot] at hx) hv
  refine ⟨s, h1, (h2.world he hf hw h3).1, fun ns d hh => ?_⟩
  obtain ⟨sched, g1, g2⟩ := h2.static
  obtain ⟨progs, w', p', e1, _, _, _, _, _, e7⟩ := job_pool (T := fun _ _ => True) he hf hw trivial (jobs := s.jobs.map (fun x => x.2))
    (fun j hj => by
      obtain ⟨x, hx, rfl⟩ := List.mem_map.1 hj
      exact h3 x hx) (fun j _ U Dr R => jobOpens_any j U Dr R) sched p0
  rw [List.map_map, show ((fun j : Job F => j.prog env fac) ∘ fun x : Source × Job F => x.2) = fun x => x.2.prog env fac from rfl, g2] at e1
  cases e1
  obtain ⟨minted, inHands, ⟨lost, c1, _⟩, c2, _⟩ := e7 ns
  rw [h2.conduct.brought, run_outside es h1, show jobsFrom .outside (boot nodes w0 p0) = [] from rfl, List.nil_append] at c1 c2
  have h5 : d ∈ minted ++ (broughtBy (arrivals es) ns ++ held w0 ns) := c1.subset (by simp [hh])
  have h6 : d ∈ broughtBy (arrivals es) ns ++ held w0 ns := (List.mem_append.1 h5).elim (c2 d) id
  exact (List.mem_append.1 h6).elim (fun h => by simp [h]) (fun h => by simp [h])

/-- C85 at any time, whatever fails: a datapoint that is stored in a namespace at some node was there in the same namespace in the
beginning (at some node) or was brought by a request for this namespace. -/
theorem C85_nothing_invented (he : EnvOK env) (hf : FactoryOK fac) {D : NS → Nat} (hw : WorldOK D w0) (hn : ∀ n ∈ nodes, NodeOK n)
    {es : List (Ev F)} (hv : ∀ j ∈ arrivals es, j.valid D) :
    ∃ s, Service.run env fac es (boot nodes w0 p0) = .ok s ∧
      ∀ a ns m, s.world.get a ns = some m → ∀ d ∈ stored m, d ∈ held w0 ns ++ broughtBy (arrivals es) ns := by
  obtain ⟨s, h1, h2, h3⟩ := run_held (p0 := p0) he hf hw hn hv
  exact ⟨s, h1, fun a ns m hm d hd => h3 ns d (get_held h2 hm hd)⟩

/-- C85, what holds: whenever everything that was started is done, the datapoints of every namespace at all nodes together are those
that were there in the beginning plus those that requests brought, minus those that were handed out, minus expired ones: the event
loops lose nothing and duplicate nothing. Requests may get lost in the network, but no replies; the search finds a nearest vector; every
node can reach itself, is among its own `RemoteAddrs`, and has all namespaces from the beginning. Missing: these hypotheses; without
them it is false, see C60. -/
theorem C85_conserves_partial (he : EnvOK env) (hb : NoLostReplies env) (hfind : AlwaysFinds (knnCos (F := F))) (hf : FactoryOK fac)
    {D : NS → Nat} (hw : WorldOK D w0) (hno : NoOrphans w0) (hn : ∀ n ∈ nodes, NodeOK n) (hself : ∀ n ∈ nodes, FindsItself env n.1)
    (hloc : ∀ n ∈ nodes, ∀ a ns, w0.lookup a ns ≠ none → w0.lookup n.1.loc ns ≠ none)
    {es : List (Ev F)} (hv : ∀ j ∈ arrivals es, j.valid D) (hc : ∀ j ∈ arrivals es, j.established w0) (hl : ∀ j ∈ arrivals es, j.lossless env)
    {addrs : List Addr} (hnd : addrs.Nodup) (hall : ∀ a ns, w0.lookup a ns ≠ none → a ∈ addrs) :
    ∃ s, Service.run env fac es (boot nodes w0 p0) = .ok s ∧ ∀ outs, Quiet s outs → ∀ ns,
      Conserved (env.tk s.now) (storedAt w0 addrs ns ++ broughtBy (arrivals es) ns) (storedAt s.world addrs ns)
        (takenBy (s.jobs.map (fun x => x.2)) outs ns) := by
  obtain ⟨s, h1, h2, h3⟩ := run_going he hf hw hn es _ (boot_going env fac nodes w0 p0) (fun x hx => by simp [boot] at hx) hv
  refine ⟨s, h1, fun outs hq ns => ?_⟩
  have hout : jobsFrom .outside s = arrivals es := by rw [run_outside es h1]; rfl
  have hjob : ∀ x ∈ s.jobs, x.2 ∈ arrivals es ∨ (∃ n ∈ nodes, ∃ t, x.2 = .task n.1 n.2.1 t) ∨ ∃ c, x.2 = .call c := by
    intro x hx
    rcases h2.conduct.inside hx with h | h
    · refine .inl ?_
      rw [← hout]
      exact List.mem_map.2 ⟨x, List.mem_filter.2 ⟨hx, by simp [h]⟩, rfl⟩
    · exact .inr h
  obtain ⟨sched, g1, g2⟩ := h2.static
  obtain ⟨progs, w', p', e1, _, e3⟩ := C60_service_conserves_partial he hb hf hw hno (jobs := s.jobs.map (fun x => x.2))
    (fun j hj => by
      obtain ⟨x, hx, rfl⟩ := List.mem_map.1 hj
      exact h3 x hx)
    (fun j hj => by
      obtain ⟨x, hx, rfl⟩ := List.mem_map.1 hj
      rcases hjob x hx with h | ⟨n, hnn, t, h⟩ | ⟨c, h⟩
      · exact hc _ h
      · rw [h]
        cases t <;> first | trivial | exact hloc n hnn
      · rw [h]; trivial)
    (fun j hj => by
      obtain ⟨x, hx, rfl⟩ := List.mem_map.1 hj
      rcases hjob x hx with h | ⟨n, hnn, t, h⟩ | ⟨c, h⟩
      · exact hl _ h
      · rw [h]
        cases t <;> first | trivial | exact ⟨hfind, hself n hnn⟩
      · rw [h]; trivial) hnd hall sched p0
  rw [List.map_map, show ((fun j : Job F => j.prog env fac) ∘ fun x : Source × Job F => x.2) = fun x => x.2.prog env fac from rfl, g2] at e1
  cases e1
  have := e3 outs hq ns
  rwa [h2.conduct.brought, hout] at this

/-- C85, what holds when namespaces are created while the service runs, at any node: nothing is lost and nothing is duplicated as
long as no namespace was created twice at a node at the same time (C42), that is, if in the end every manager is in the table of a
node. Requests may get lost in the network, but no replies; the search finds a nearest vector; every node can reach itself and is among
its own `RemoteAddrs`. Missing: these hypotheses. -/
theorem C85_created_partial (he : EnvOK env) (hb : NoLostReplies env) (hfind : AlwaysFinds (knnCos (F := F))) (hf : FactoryOK fac)
    {D : NS → Nat} (hw : WorldOK D w0) (hno : NoOrphans w0) (hn : ∀ n ∈ nodes, NodeOK n) (hself : ∀ n ∈ nodes, FindsItself env n.1)
    {es : List (Ev F)} (hv : ∀ j ∈ arrivals es, j.valid D) (hl : ∀ j ∈ arrivals es, j.lossless env) :
    ∃ s, Service.run env fac es (boot nodes w0 p0) = .ok s ∧ ∀ outs, Quiet s outs → NoOrphans s.world →
      ∀ ns (addrs : List Addr), addrs.Nodup → (∀ a, s.world.lookup a ns ≠ none → a ∈ addrs) →
        Conserved (env.tk s.now) (storedAt w0 addrs ns ++ broughtBy (arrivals es) ns) (storedAt s.world addrs ns)
          (takenBy (s.jobs.map (fun x => x.2)) outs ns) := by
  obtain ⟨s, h1, h2, h3⟩ := run_going he hf hw hn es _ (boot_going env fac nodes w0 p0) (fun x hx => by simp [boot] at hx) hv
  refine ⟨s, h1, fun outs hq hno' ns addrs hnd hall => ?_⟩
  have hout : jobsFrom .outside s = arrivals es := by rw [run_outside es h1]; rfl
  have hkeep := (h2.world he hf hw h3).2
  have hjob : ∀ x ∈ s.jobs, x.2 ∈ arrivals es ∨ (∃ n ∈ nodes, ∃ t, x.2 = .task n.1 n.2.1 t) ∨ ∃ c, x.2 = .call c := by
    intro x hx
    rcases h2.conduct.inside hx with h | h
    · refine .inl ?_
      rw [← hout]
      exact List.mem_map.2 ⟨x, List.mem_filter.2 ⟨hx, by simp [h]⟩, rfl⟩
    · exact .inr h
  obtain ⟨sched, g1, g2⟩ := h2.static
  obtain ⟨progs, w', p', e1, _, e3⟩ := C60_created_partial he hb hf hw (jobs := s.jobs.map (fun x => x.2))
    (fun j hj => by
      obtain ⟨x, hx, rfl⟩ := List.mem_map.1 hj
      exact h3 x hx)
    (fun j hj => by
      obtain ⟨x, hx, rfl⟩ := List.mem_map.1 hj
      rcases hjob x hx with h | ⟨n, hnn, t, h⟩ | ⟨c, h⟩
      · exact hl _ h
      · rw [h]
        cases t <;> first | trivial | exact ⟨hfind, hself n hnn⟩
      · rw [h]; trivial) sched p0
  rw [List.map_map, show ((fun j : Job F => j.prog env fac) ∘ fun x : Source × Job F => x.2) = fun x => x.2.prog env fac from rfl, g2] at e1
  cases e1
  have := (e3 outs hq ns).2 addrs hnd (fun a ha => ha.elim (fun h => hall a (hkeep a ns h)) (hall a)) hno hno'
  rwa [h2.conduct.brought, hout] at this

/-! ### C86: it makes progress -/

theorem step_jobs {e : Ev F} (h : Service.step env fac e s = .ok s') : ∃ L, s'.jobs = s.jobs ++ L := by
  cases e with
  | arrive j => cases h; exact ⟨_, rfl⟩
  | run i =>
    simp only [Service.step] at h
    split at h
    · cases h; exact ⟨[], by simp⟩
    · cases h
  | loop k =>
    simp only [Service.step] at h
    split at h
    · unfold loopStep at h
      split at h
      · split at h
        · rw [starts_eq] at h
          cases h
          exact ⟨_, rfl⟩
        · cases h; exact ⟨[], by simp⟩
      · split at h
        split at h
        · cases h
        · split at h
          · cases h; exact ⟨_, rfl⟩
          · cases h; exact ⟨[], by simp⟩
    · cases h; exact ⟨[], by simp⟩
  | stop k =>
    simp only [Service.step] at h
    split at h
    · cases h; exact ⟨[], by simp⟩
    · cases h; exact ⟨[], by simp⟩

theorem run_jobs {evs : Nat → Ev F} {s0 : Sys F} (hok : ∀ n, ∃ s, Service.run env fac (firstN evs n) s0 = .ok s) {n : Nat} : ∀ {d : Nat} {s s' : Sys F},
    Service.run env fac (firstN evs n) s0 = .ok s → Service.run env fac (firstN evs (n + d)) s0 = .ok s' → ∃ L, s'.jobs = s.jobs ++ L
  | 0, s, s', h, h' => by
    rw [Nat.add_zero, h] at h'
    cases h'
    exact ⟨[], by simp⟩
  | d + 1, s, s', h, h' => by
    obtain ⟨s1, h1⟩ := hok (n + d)
    obtain ⟨L, hL⟩ := run_jobs hok h h1
    rw [← Nat.add_assoc, run_firstN_succ h1] at h'
    obtain ⟨L', hL'⟩ := step_jobs h'
    exact ⟨L ++ L', by rw [hL', hL, List.append_assoc]⟩

/-- C86. When every goroutine gets to run again and again, every request is answered, every task returns and every goroutine that
was started ends, whatever the others do and however many requests arrive: no livelock and no deadlock. -/
theorem C86_everything_ends (he : EnvOK env) (hf : FactoryOK fac) {D : NS → Nat} (hw : WorldOK D w0) (hn : ∀ n ∈ nodes, NodeOK n)
    {evs : Nat → Ev F} (hv : ValidRun D evs) (hfair : FairRun evs) (n : Nat) :
    ∃ s, Service.run env fac (firstN evs n) (boot nodes w0 p0) = .ok s ∧ ∀ (i : Nat) (x : Source × Job F), s.jobs[i]? = some x →
      ∃ m, n ≤ m ∧ ∃ s' o, Service.run env fac (firstN evs m) (boot nodes w0 p0) = .ok s' ∧ s'.jobs[i]? = some x ∧ s'.progs[i]? = some (Prog.ret o) := by
  have hok : ∀ n, ∃ s, Service.run env fac (firstN evs n) (boot nodes w0 p0) = .ok s := fun n =>
    (at_going he hf hw hn hv n).imp (fun s h => h.1)
  obtain ⟨s, h1, h2, h3⟩ := at_going (p0 := p0) he hf hw hn hv n
  refine ⟨s, h1, fun i x hx => ?_⟩
  have hlt : i < s.progs.length := by rw [h2.length]; exact (List.getElem?_eq_some_iff.1 hx).1
  obtain ⟨m, hm, s', o, g1, g2⟩ := goroutine_ends hok hfair i _ n s h1 (List.getElem?_eq_getElem hlt)
  obtain ⟨d, rfl⟩ := Nat.exists_eq_add_of_le hm
  obtain ⟨L, hL⟩ := run_jobs hok h1 g1
  exact ⟨_, hm, s', o, g1, by rw [hL, List.getElem?_append_left (List.getElem?_eq_some_iff.1 hx).1]; exact hx, g2⟩

/-- After any number of steps of its own, an unstopped loop is where it would be alone. -/
theorem loop_reaches (he : EnvOK env) (hf : FactoryOK fac) {D : NS → Nat} (hw : WorldOK D w0) (hn : ∀ n ∈ nodes, NodeOK n)
    {evs : Nat → Ev F} (hv : ValidRun D evs) (hfair : FairRun evs) {k : Nat} {n : Config × Nat × SkipConfig} (hk : nodes[k]? = some n)
    (hstop : ∀ m, evs m ≠ .stop k) : ∀ M, ∃ m s l, Service.run env fac (firstN evs m) (boot nodes w0 p0) = .ok s ∧ s.loops[k]? = some l ∧
      l.stopped = false ∧ EventLoop.run n.2.2 (fun _ => false) M = (l.pos, l.log)
  | 0 => ⟨0, boot nodes w0 p0, Loop.new n.1 n.2.1 n.2.2, rfl, by simp [boot, hk], rfl, rfl⟩
  | M + 1 => by
    obtain ⟨m, s, l, h1, h2, h3, h4⟩ := loop_reaches he hf hw hn hv hfair hk hstop M
    have hok : ∀ n, ∃ s, Service.run env fac (firstN evs n) (boot nodes w0 p0) = .ok s := fun n =>
      (at_going he hf hw hn hv n).imp (fun s h => h.1)
    obtain ⟨m', hm', s', b, g1, g2⟩ := loop_progress hok hfair (n0 := 0) (fun m _ => hstop m) (fun n s l i hs hl hb => by
      obtain ⟨s2, e1, e2, _⟩ := at_going (p0 := p0) he hf hw hn hv n
      rw [hs] at e1; cases e1
      obtain ⟨_, _, hc⟩ := e2.conduct.each k l hl
      obtain ⟨j, hj⟩ := hc.waits i hb
      exact ⟨_, List.getElem?_eq_getElem (by rw [e2.length]; exact (List.getElem?_eq_some_iff.1 hj).1)⟩) (Nat.zero_le _) h1 h2
    obtain ⟨s2, e1, e2, _⟩ := at_going (p0 := p0) he hf hw hn hv m
    rw [h1] at e1; cases e1
    obtain ⟨n', hn', hc⟩ := e2.conduct.each k l h2
    rw [hk] at hn'; cases hn'
    refine ⟨m', s', l.went b, g1, g2, h3, ?_⟩
    unfold EventLoop.run at h4 ⊢
    rw [EventLoop.steps_add, h4]
    simp [EventLoop.steps, Loop.went, h3, hc.same.2.2]

/-- C86. An event loop that is not stopped goes through its whole schedule: for every number of iterations there is a time when exactly
the tasks of these iterations have been called, in order. -/
theorem C86_schedule (he : EnvOK env) (hf : FactoryOK fac) {D : NS → Nat} (hw : WorldOK D w0) (hn : ∀ n ∈ nodes, NodeOK n)
    {evs : Nat → Ev F} (hv : ValidRun D evs) (hfair : FairRun evs) {k : Nat} {n : Config × Nat × SkipConfig} (hk : nodes[k]? = some n)
    (hstop : ∀ m, evs m ≠ .stop k) (N : Nat) :
    ∃ m s, Service.run env fac (firstN evs m) (boot nodes w0 p0) = .ok s ∧
      jobsFrom (.loop k) s = (scheduled (fun t => effective t (n.2.2.interval t)) N).map (fun t => .task n.1 n.2.1 t) := by
  obtain ⟨m, s, l, h1, h2, h3, h4⟩ := loop_reaches (p0 := p0) he hf hw hn hv hfair hk hstop (39 * N)
  obtain ⟨s2, e1, e2, _⟩ := at_going (p0 := p0) he hf hw hn hv m
  rw [h1] at e1; cases e1
  obtain ⟨n', hn', hc⟩ := e2.conduct.each k l h2
  rw [hk] at hn'; cases hn'
  refine ⟨m, s, h1, ?_⟩
  rw [hc.tasks]
  have := (C50_schedule n.2.2 (hn n (List.mem_of_getElem? hk)).2.2 (fun _ => false) (fun _ => rfl) N).2
  rw [h4] at this
  rw [this]

/-- C86. A loop that has been stopped ends: its goroutine returns, after the task that is running, if any, has returned. -/
theorem C86_stop (he : EnvOK env) (hf : FactoryOK fac) {D : NS → Nat} (hw : WorldOK D w0) (hn : ∀ n ∈ nodes, NodeOK n)
    {evs : Nat → Ev F} (hv : ValidRun D evs) (hfair : FairRun evs) {k t : Nat} (hk : k < nodes.length) (ht : evs t = .stop k)
    (honce : ∀ m, t < m → evs m ≠ .stop k) :
    ∃ m s l, t ≤ m ∧ Service.run env fac (firstN evs m) (boot nodes w0 p0) = .ok s ∧ s.loops[k]? = some l ∧ l.pos.pc = .done := by
  have hok : ∀ n, ∃ s, Service.run env fac (firstN evs n) (boot nodes w0 p0) = .ok s := fun n =>
    (at_going he hf hw hn hv n).imp (fun s h => h.1)
  have hjobs : ∀ n s (l : Loop) i, Service.run env fac (firstN evs n) (boot nodes w0 p0) = .ok s → s.loops[k]? = some l → l.busy = some i →
      ∃ x, s.progs[i]? = some x := fun n s l i hs hl hb => by
    obtain ⟨s2, e1, e2, _⟩ := at_going (p0 := p0) he hf hw hn hv n
    rw [hs] at e1; cases e1
    obtain ⟨_, _, hc⟩ := e2.conduct.each k l hl
    obtain ⟨j, hj⟩ := hc.waits i hb
    exact ⟨_, List.getElem?_eq_getElem (by rw [e2.length]; exact (List.getElem?_eq_some_iff.1 hj).1)⟩
  obtain ⟨s, h1, h2, h3⟩ := at_going (p0 := p0) he hf hw hn hv t
  obtain ⟨l, hl⟩ : ∃ l, s.loops[k]? = some l := ⟨s.loops[k]'(by rw [h2.conduct.loops]; exact hk), List.getElem?_eq_getElem _⟩
  obtain ⟨s1, g1⟩ := hok (t + 1)
  have g2 := g1
  rw [run_firstN_succ h1, ht] at g2
  have hl1 : s1.loops[k]? = some { l with stopped := true } := by
    simp only [Service.step, hl] at g2
    cases g2
    exact List.getElem?_set_self (List.getElem?_eq_some_iff.1 hl).1
  have reach : ∀ M, ∃ m s l', t + 1 ≤ m ∧ Service.run env fac (firstN evs m) (boot nodes w0 p0) = .ok s ∧ s.loops[k]? = some l' ∧
      l'.stopped = true ∧ l'.skip = l.skip ∧ l'.pos = (EventLoop.steps l.skip (fun _ => true) 0 M l.pos).1 := by
    intro M
    induction M with
    | zero => exact ⟨t + 1, s1, _, Nat.le_refl _, g1, hl1, rfl, rfl, rfl⟩
    | succ M ih =>
      obtain ⟨m, s2, l2, i1, i2, i3, i4, i5, i6⟩ := ih
      obtain ⟨m', hm', s', b, j1, j2⟩ := loop_progress hok hfair (n0 := t + 1) (fun m hm => honce m (by omega)) hjobs i1 i2 i3
      refine ⟨m', s', _, by omega, j1, j2, i4, i5, ?_⟩
      rw [EventLoop.steps_add]
      simp [EventLoop.steps, Loop.went, i4, i5, i6]
  obtain ⟨m, s2, l2, i1, i2, i3, i4, i5, i6⟩ := reach 12
  refine ⟨m, s2, l2, by omega, i2, i3, ?_⟩
  have h5 := (steps_stopped l.skip (fun _ => true) 12 0 l.pos (fun _ _ => rfl)).1 (leftover_le _)
  rw [← i6] at h5
  refine h5.resolve_right ?_
  obtain ⟨s3, e1, e2, _⟩ := at_going (p0 := p0) he hf hw hn hv m
  rw [i2] at e1; cases e1
  obtain ⟨n', hn', hc⟩ := e2.conduct.each k l2 i3
  obtain ⟨st, M, _, _, hr⟩ := hc.alone
  have := (C51_partial n'.2.2).2 (hn n' (List.mem_of_getElem? hn')).2.2 st M
  rw [hr] at this
  exact this

end

/-! ### Examples -/

namespace ServiceExample
open ServerExample JobsExample

/-- The event loop and the goroutines 0 to 8 in turn. -/
def turns (n : Nat) : List (Ev F64) := (List.replicate n (.loop 0 :: (List.range 9).map .run)).flatten

/-- Who started the jobs, which tasks the loops called, what is stored at node 1, and which jobs are done. -/
def seen (r : Except Panic (Sys F64)) : Option (List Source × List TaskId × List (DataPoint F64) × List Bool) :=
  match r with
  | .ok s => some (s.jobs.map (fun x => x.1), s.loops.flatMap (fun l => ranTasks l.log), storedAt s.world [1] 7,
      s.progs.map (fun x => match x with | .ret _ => true | _ => false))
  | .error _ => none

/-- A node with two datapoints and an event loop; a put arrives, and while the loop runs, a query that drains. -/
def busyNode (n m : Nat) : Except Panic (Sys F64) :=
  Service.run env fac (.arrive (put 1 1) :: turns n ++ .arrive (.query [1] (some ⟨7, false, [.ofInt 1, .ofInt 0], 1, true⟩)) :: turns m)
    (boot [(single, 10, always)] lone 0)

/-- C83, C84: the put was done, `Meta`, `Expire`, `MemTrim` and `MergeCentroids` were called, one goroutine of each of the latter
three was started, `SplitCentroids` runs, and the query took away a datapoint. -/
example : seen (busyNode 12 30) = some
    ([.outside, .loop 0, .outside, .loop 0, .task 3, .loop 0, .task 5, .loop 0, .task 7, .loop 0],
      [.getMeta, .expire, .memTrim, .merge, .split], [dp 1 2, dp 1 1],
      [true, true, true, true, true, true, true, true, true, false]) := by decide +kernel

/-- C84: a loop that is stopped while `Meta` runs: the task is finished, the loop sleeps no more and calls no more. -/
example : seen (Service.run env fac (turns 7 ++ .stop 0 :: turns 30) (boot [(single, 10, always)] lone 0)) = some
    ([.loop 0], [.getMeta], [dp 1 0, dp 1 2], [true]) := by decide +kernel

theorem lone_ok : WorldOK (fun _ => 2) lone := by
  refine ⟨fun a => ?_, fun a ns i h => ?_, fun a b ns i h h' => ?_, fun s hs => ?_⟩
  · simp only [lone]
    split <;> simp
  · simp only [lone] at h
    split at h
    · cases List.mem_singleton.1 h; exact ⟨_, rfl⟩
    · simp at h
  · simp only [lone] at h h'
    split at h
    · split at h'
      · rename_i ha hb
        rw [ha, hb]
      · simp at h'
    · simp at h
  · cases List.mem_singleton.1 hs
    exact man_mok (by simp) (by
      intro c hc
      cases List.mem_singleton.1 hc
      refine ⟨by simp [cen], fun d hd => ?_⟩
      simp only [cen, List.mem_cons, List.not_mem_nil, or_false] at hd
      rcases hd with rfl | rfl <;> simp [dp, cen]) (by
      intro c hc
      cases List.mem_singleton.1 hc
      exact ⟨rfl, rfl⟩)

/-- Everything has its turn again and again, and again and again a put arrives. -/
def endless (n : Nat) : Ev F64 :=
  match n.unpair.1 with
  | 0 => .arrive (put 1 1)
  | c + 1 => if c % 2 = 0 then .run (c / 2) else .loop (c / 2)

theorem endless_fair : FairRun endless := by
  refine ⟨fun i n => ⟨Nat.pair (2 * i + 1) n, Nat.right_le_pair _ _, ?_⟩, fun k n => ⟨Nat.pair (2 * k + 1 + 1) n, Nat.right_le_pair _ _, ?_⟩⟩
  · unfold endless
    rw [Nat.unpair_pair]
    simp
  · unfold endless
    rw [Nat.unpair_pair]
    simp only
    rw [if_neg (by omega)]
    congr 1
    omega

theorem endless_valid : ValidRun (fun _ => 2) endless := by
  intro n j h
  unfold endless at h
  split at h
  · cases h; rfl
  · split at h <;> cases h

theorem endless_goes_on (k m : Nat) : endless m ≠ .stop k := by
  unfold endless
  split
  · simp
  · split <;> simp

/-- C86: although puts arrive all the time, the event loop gets to every iteration; in the first 3 iterations it calls `Meta` three
times, and `DistributeDataPointsInternal`, with interval 2, twice. -/
example : ∃ m s, Service.run env fac (firstN endless m) (boot [(single, 10, { always with distInternal := 2 })] lone 0) = .ok s ∧
    ((jobsFrom (.loop 0) s).length = 26) := by
  obtain ⟨m, s, h1, h2⟩ := C86_schedule (p0 := 0) env_ok fac_ok lone_ok (nodes := [(single, 10, { always with distInternal := 2 })])
    (by intro n hn; cases List.mem_singleton.1 hn; exact ⟨by decide, by decide, by decide⟩)
    endless_valid endless_fair (k := 0) rfl (endless_goes_on 0) 3
  refine ⟨m, s, h1, ?_⟩
  rw [h2, List.length_map]
  decide +kernel

/-- C85: two nodes over the reals, each with an event loop, and requests; node 1 can always be reached, so only it distributes. -/
example (up : Nat → Bool) (es : List (Ev ℝ)) (ha : ∀ j ∈ arrivals es, j ∈ service) :
    let env := { env with up := fun p a => a = 1 || up p }
    ∃ s, Service.run env ⟨10, 100, knnCos, kfnCos⟩ es (boot [({ single with remotes := [2, 1] }, 10, shippedSkip)] twoR 0) = .ok s ∧
      ∀ outs, Quiet s outs → ∀ ns,
        Conserved (env.tk s.now) (storedAt twoR [1, 2] ns ++ broughtBy (arrivals es) ns) (storedAt s.world [1, 2] ns)
          (takenBy (s.jobs.map (fun x => x.2)) outs ns) := by
  intro env'
  have hr : Reachable env' 1 := ⟨fun p => rfl, fun p => rfl⟩
  refine C85_conserves_partial (env := env') ⟨env_ok.clock, env_ok.perm, env_ok.rand⟩ (fun _ _ => rfl) knnCos_alwaysFinds
    ⟨by decide, rfl, rfl⟩ twoR_ok (nodes2_noOrphans _ _ _) (fun n hn => ?_) (fun n hn => ?_) (fun n hn a ns h => ?_)
    (fun j hj => service_valid j (ha j hj)) (fun j hj => service_established j (ha j hj)) (fun j hj => ?_) (by simp)
    (fun a ns h => by simpa using (twoR_nodes h).1)
  · cases List.mem_singleton.1 hn; exact ⟨by decide, by decide, by decide⟩
  · cases List.mem_singleton.1 hn; exact ⟨hr, by simp [single]⟩
  · cases List.mem_singleton.1 hn
    show twoR.lookup 1 ns ≠ none
    rcases (twoR_nodes h).2 with rfl | rfl <;> simp [World.lookup, twoR, nodes2]
  · have hj := ha j hj
    simp only [service, List.mem_cons, List.not_mem_nil, or_false] at hj
    rcases hj with rfl | rfl | rfl | rfl | rfl
    · exact knnCos_alwaysFinds
    · exact fun _ _ _ => rfl
    · exact ⟨knnCos_alwaysFinds, ⟨hr, by simp⟩, fun _ _ => rfl⟩
    · trivial
    · exact fun _ _ => rfl

/-- C85: everything that is stored at node 1 after the events of C83's example was stored or put there. -/
example : ∃ s, busyNode 12 30 = .ok s ∧ ∀ m, s.world.get 1 7 = some m → ∀ d ∈ stored m, d ∈ [dp 1 0, dp 1 2, dp 1 1] := by
  have ha : arrivals (.arrive (put 1 1) :: turns 12 ++ .arrive (.query [1] (some ⟨7, false, [.ofInt 1, .ofInt 0], 1, true⟩)) :: turns 30) =
      [put 1 1, .query [1] (some ⟨7, false, [.ofInt 1, .ofInt 0], 1, true⟩)] := by
    have ht : ∀ n, arrivals (turns n) = [] := by
      intro n
      unfold turns arrivals
      rw [List.filterMap_eq_nil_iff]
      intro e he
      simp only [List.mem_flatten, List.mem_replicate, ne_eq] at he
      obtain ⟨l, ⟨_, rfl⟩, he⟩ := he
      rcases List.mem_cons.1 he with rfl | he
      · rfl
      · obtain ⟨i, _, rfl⟩ := List.mem_map.1 he
        rfl
    have h1 := ht 12
    have h2 := ht 30
    unfold arrivals at h1 h2 ⊢
    rw [List.cons_append, List.filterMap_cons, List.filterMap_append, h1, List.filterMap_cons, h2]
    simp only [List.nil_append]
  obtain ⟨s, h1, h2⟩ := C85_nothing_invented (p0 := 0) env_ok fac_ok lone_ok (nodes := [(single, 10, always)])
    (by intro n hn; cases List.mem_singleton.1 hn; exact ⟨by decide, by decide, by decide⟩)
    (es := .arrive (put 1 1) :: turns 12 ++ .arrive (.query [1] (some ⟨7, false, [.ofInt 1, .ofInt 0], 1, true⟩)) :: turns 30) (by
      rw [ha]
      intro j hj
      simp only [List.mem_cons, List.not_mem_nil, or_false] at hj
      rcases hj with rfl | rfl
      · rfl
      · exact Int.zero_le_ofNat 1)
  refine ⟨s, h1, fun m hm d hd => ?_⟩
  have := h2 1 7 m hm d hd
  rw [ha] at this
  exact this

end ServiceExample

end Trypo
