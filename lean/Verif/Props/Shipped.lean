import Verif.Spec.Shipped
import Verif.Props.Expiry
import Verif.Props.Settle

/-!
# Property C89: the service with the shipped configuration
-/

namespace Trypo
open GoFloat Spec EventLoop Service

section
variable {F : Type} [GoFloat F] [LawfulCmp F]

omit [LawfulCmp F] in
theorem shippedFactory_ok : FactoryOK (shippedFactory (F := F)) := ⟨by simp [shippedFactory], rfl, rfl⟩

theorem shippedNode_ok (loc : Addr) (fuel : Nat) : NodeOK (shippedNode loc fuel) := ⟨show (0 : Int) ≤ 100 by decide, show (0 : Int) ≤ 50 by decide, show (1 : Int) ≠ 0 by decide⟩

omit [LawfulCmp F] in
theorem nothing_ok (D : NS → Nat) : WorldOK D (nothing (F := F)) :=
  ⟨fun a => by simp [nothing], fun a ns i h => by simp [nothing] at h, fun a b ns i h => by simp [nothing] at h, fun s h => by simp [nothing] at h⟩

/-- `validate` leaves the shipped intervals as they are. -/
theorem C89_validate : validate shippedSkip = shippedSkip := by decide

theorem shipped_turn (t : TaskId) (L : Nat) :
    Spec.turn (effective t (shippedSkip.interval t)) L = decide (L % 1001 % everyShipped t = 0) := by
  have key : ∀ n : Nat, decide (((n : Nat) : Int) ∣ ((L % 1001 : Nat) : Int)) = decide (L % 1001 % n = 0) := fun n => by
    exact decide_eq_decide.2 (by rw [Int.natCast_dvd_natCast, Nat.dvd_iff_mod_eq_zero])
  cases t <;> exact key _

/-- C89. The tasks in the first `N` iterations. -/
theorem C89_tasks (N : Nat) :
    scheduled (fun t => effective t (shippedSkip.interval t)) N = (List.range N).flatMap shippedTurn := by
  unfold scheduled shippedTurn
  simp only [shipped_turn]

/-- C89. In any `everyShipped t` iterations in a row each task has a turn. -/
theorem C89_how_often (t : TaskId) (L : Nat) : ∃ k, k < everyShipped t ∧ t ∈ shippedTurn (L + k) := by
  have hall : t ∈ documented := by cases t <;> decide
  have key : ∀ e : Nat, 0 < e → e ≤ 20 → ∃ k, k < e ∧ (L + k) % 1001 % e = 0 := by
    intro e he h20
    by_cases hw : L % 1001 % e = 0
    · exact ⟨0, he, hw⟩
    · have h1 : 0 < L % 1001 % e := Nat.pos_of_ne_zero hw
      have h2 := Nat.mod_lt (L % 1001) he
      by_cases h : L % 1001 + (e - L % 1001 % e) < 1001
      · refine ⟨e - L % 1001 % e, by omega, ?_⟩
        rw [Nat.add_mod, Nat.mod_eq_of_lt (a := e - L % 1001 % e) (by omega), Nat.mod_eq_of_lt h]
        obtain ⟨q, hq⟩ : ∃ q, L % 1001 = e * q + L % 1001 % e := ⟨L % 1001 / e, (Nat.div_add_mod _ _).symm⟩
        rw [show L % 1001 + (e - L % 1001 % e) = e * (q + 1) by rw [Nat.mul_add]; omega]
        exact Nat.mul_mod_right _ _
      · have hlt := Nat.mod_lt L (show 0 < 1001 by decide)
        refine ⟨1001 - L % 1001, by omega, ?_⟩
        rw [show (L + (1001 - L % 1001)) % 1001 = 0 by omega]
        exact Nat.zero_mod _
  obtain ⟨k, h1, h2⟩ := key (everyShipped t) (by cases t <;> decide) (by cases t <;> decide)
  exact ⟨k, h1, List.mem_filter.2 ⟨hall, by simpa using h2⟩⟩

/-- C89. The service with the shipped configuration, started with nothing stored at a node that reaches itself: whatever requests
arrive, valid ones for some dimension per namespace, nothing panics; if everything gets to run again and again, all requests are
answered, the event loop gets to every iteration and does there what cfg/cfg.go says, and datapoints that are expired at some
time are gone at some later time and never come back. -/
theorem C89_shipped {env : Env} (he : EnvOK env) {loc : Addr} (hr : Reachable env loc) (fuel : Nat) {D : NS → Nat} {p0 : Nat}
    {evs : Nat → Ev F} (hv : ValidRun D evs) :
    (∀ n, ∃ s, Service.run env shippedFactory (firstN evs n) (boot [shippedNode loc fuel] nothing p0) = .ok s ∧ WorldOK D s.world ∧
      jobsFrom .outside s = arrivals (firstN evs n)) ∧
    (FairRun evs →
      (∀ n, ∃ s, Service.run env shippedFactory (firstN evs n) (boot [shippedNode loc fuel] nothing p0) = .ok s ∧
        ∀ (i : Nat) (x : Source × Job F), s.jobs[i]? = some x → ∃ m, n ≤ m ∧ ∃ s' o,
          Service.run env shippedFactory (firstN evs m) (boot [shippedNode loc fuel] nothing p0) = .ok s' ∧ s'.jobs[i]? = some x ∧
          s'.progs[i]? = some (Prog.ret o)) ∧
      ((∀ m, evs m ≠ .stop 0) →
        (∀ N, ∃ m s, Service.run env shippedFactory (firstN evs m) (boot [shippedNode loc fuel] nothing p0) = .ok s ∧
          jobsFrom (.loop 0) s = ((List.range N).flatMap shippedTurn).map (fun t => .task (shippedConfig loc) fuel t)) ∧
        (∀ n0, ∃ s, Service.run env shippedFactory (firstN evs n0) (boot [shippedNode loc fuel] nothing p0) = .ok s ∧
          ∀ T, T ≤ env.tk s.now → ∃ m, ∀ n, m ≤ n → ∃ s',
            Service.run env shippedFactory (firstN evs n) (boot [shippedNode loc fuel] nothing p0) = .ok s' ∧
            ∀ ns mgr, s'.world.get loc ns = some mgr → ∀ d ∈ stored mgr, ¬ Dead T d))) := by
  have hn : ∀ n ∈ [shippedNode loc fuel], NodeOK n := fun n h => by cases List.mem_singleton.1 h; exact shippedNode_ok loc fuel
  refine ⟨fun n => ?_, fun hfair => ⟨fun n => ?_, fun hstop => ⟨fun N => ?_, fun n0 => ?_⟩⟩⟩
  · obtain ⟨s, h1, h2, _, h3, _⟩ := C83_runs (p0 := p0) he shippedFactory_ok (nothing_ok D) hn (es := firstN evs n) (fun j hj => by
      unfold arrivals at hj
      obtain ⟨e, he, hj⟩ := List.mem_filterMap.1 hj
      obtain ⟨i, _, hi⟩ := List.mem_map.1 he
      cases e with
      | arrive j' => cases hj; exact hv i _ hi
      | run _ => cases hj
      | loop _ => cases hj
      | stop _ => cases hj)
    exact ⟨s, h1, h2, h3⟩
  · exact C86_everything_ends he shippedFactory_ok (nothing_ok D) hn hv hfair n
  · obtain ⟨m, s, h1, h2⟩ := C86_schedule (p0 := p0) he shippedFactory_ok (nothing_ok D) hn hv hfair (k := 0) rfl hstop N
    exact ⟨m, s, h1, by rw [h2, ← C89_tasks N]; rfl⟩
  · exact C87_expiry he shippedFactory_ok (nothing_ok D) hn hv hfair (k := 0) rfl hstop hr n0

/-- C89. The ranges of cfg/cfg.go do not work against each other: in exact arithmetic, splitting and merging settle (C88). -/
theorem C89_ranges {tk : Nat → Int} (hm : MonoClock tk) {cm : Manager ℝ} (hok : ManagerOK cm) (hs : cm.knn = knnCos)
    (hl : ∀ x ∈ stored cm, ∀ q, ¬ Dead (tk q) x) (loc : Addr) (before after : List Bool) (hk : (stored cm).length ≤ 2 ^ after.count true) (p : Nat) :
    ∃ cm' p', runManagerCalls tk ((before ++ false :: after).map (upkeep (shippedConfig loc).splitMin (shippedConfig loc).splitMax
        (shippedConfig loc).mergeMin (shippedConfig loc).mergeMax)) ⟨cm, [], []⟩ p = .ok (⟨cm', [], []⟩, p') ∧
      (stored cm').Perm (stored cm) ∧ (∀ c ∈ cm'.centroids, ¬ (1000 < c.dps.length ∧ c.dps.length < 1000000)) ∧
      (cm'.centroids.length ≤ 1 ∨ ∀ c ∈ cm'.centroids, 100 ≤ c.dps.length) := by
  obtain ⟨cm', p', h1, h2, h3, _⟩ := C88_settles (a := 1000) (b := 1000000) (c := -1) (d := 100) hm hok (by rw [hs]; exact C29_knnCos_findsAll) hl
    (by decide) (by decide) [] [] before after hk p
  refine ⟨cm', p', h1, h2, fun c hc h => h3.split c hc ⟨by omega, by omega⟩, h3.merge.imp id (fun h c hc => ?_)⟩
  have := h c hc
  omega

/-- C85 for the service with the shipped configuration, started with nothing stored, in exact arithmetic. Whatever
puts and queries arrive: when everything is done, what the node stores in a namespace is what was put there minus what was handed out
(or whose put was not answered with 200), minus expired datapoints. The node reaches itself and no reply is lost; and no namespace was
created twice at the same time (C42). Missing: these hypotheses. -/
theorem C85_shipped_partial {env : Env} (he : EnvOK env) (hb : NoLostReplies env) {loc : Addr} (hr : Reachable env loc) (fuel : Nat) {D : NS → Nat} {p0 : Nat}
    {es : List (Ev ℝ)} (hv : ∀ j ∈ arrivals es, j.valid D)
    (hk : ∀ j ∈ arrivals es, (∃ o, j = .put [loc] o) ∨ (∃ o, j = .query [loc] o)) :
    ∃ s, Service.run env shippedFactory es (boot [shippedNode loc fuel] nothing p0) = .ok s ∧ ∀ outs, Quiet s outs → NoOrphans s.world →
      ∀ ns (addrs : List Addr), addrs.Nodup → (∀ a, s.world.lookup a ns ≠ none → a ∈ addrs) →
        Conserved (env.tk s.now) (broughtBy (arrivals es) ns) (storedAt s.world addrs ns) (takenBy (s.jobs.map (fun x => x.2)) outs ns) := by
  obtain ⟨s, h1, h2⟩ := C85_created_partial (p0 := p0) he hb knnCos_alwaysFinds shippedFactory_ok (nothing_ok D) (fun i s h => by simp [nothing] at h)
    (nodes := [shippedNode loc fuel]) (fun n h => by cases List.mem_singleton.1 h; exact shippedNode_ok loc fuel)
    (fun n h => by cases List.mem_singleton.1 h; exact ⟨hr, by simp [shippedNode, shippedConfig]⟩) hv (fun j hj => by
      rcases hk j hj with ⟨o, rfl⟩ | ⟨o, rfl⟩
      · exact knnCos_alwaysFinds
      · cases o with
        | none => trivial
        | some o => exact fun _ => hb)
  refine ⟨s, h1, fun outs hq hno ns addrs hnd hall => ?_⟩
  have := h2 outs hq hno ns addrs hnd hall
  have e : storedAt (nothing (F := ℝ)) addrs ns = [] := by simp [storedAt, nothing, World.get, World.lookup]
  rwa [e, List.nil_append] at this

end

namespace ShippedExample
open ServerExample JobsExample ServiceExample

/-- C89: iterations 0, 12 and the two around the end of the count. -/
example : shippedTurn 0 = [.getMeta, .expire, .memTrim, .merge, .split, .distInternal, .distFast, .distAccurate, .loadBalancing] ∧
    shippedTurn 12 = [.getMeta, .merge, .split, .distInternal, .distFast] ∧
    shippedTurn 1000 = [.getMeta, .expire, .memTrim, .distFast, .distAccurate] ∧ shippedTurn 1001 = shippedTurn 0 := by decide

/-- C89: a node that is given puts all the time. -/
example : ∃ m s, Service.run env shippedFactory (firstN endless m) (boot [shippedNode 1 10] nothing 0) = .ok s ∧
    jobsFrom (.loop 0) s = ((List.range 5).flatMap shippedTurn).map (fun t => .task (shippedConfig 1) 10 t) :=
  (((C89_shipped env_ok ⟨fun _ => rfl, fun _ => rfl⟩ 10 endless_valid).2 endless_fair).2 (endless_goes_on 0)).1 5

/-- C89, in numbers: a put arrives at the empty node; it is stored, and stays while the first tasks of the loop and their
goroutines run. -/
example : (match Service.run env shippedFactory (.arrive (put 1 1) :: (List.replicate 30 (.run 0)) ++ turns 40) (boot [shippedNode 1 10] nothing 0) with
    | .ok s => some (s.jobs.map (fun x => x.1), storedAt s.world [1] 7)
    | .error _ => none) = some
      ([.outside, .loop 0, .loop 0, .task 2, .loop 0, .task 4, .loop 0, .task 6, .loop 0], [dp 1 1]) := by decide +kernel

/-- C85: two puts, one after the other, and a query that drains one datapoint, while the loop runs. -/
example (p0 : Nat) (sched : List Nat) : ∃ s, Service.run env shippedFactory (.arrive (.put [1] (some ⟨7, false, ⟨[1, 2], [], 0, false⟩⟩)) ::
      sched.map .run ++ [.arrive (.put [1] (some ⟨7, true, ⟨[2, 1], [], 0, false⟩⟩)), .arrive (.query [1] (some ⟨7, true, [1, 0], 1, true⟩))] ++
      sched.map .run ++ sched.map .loop) (boot [shippedNode 1 10] (nothing (F := ℝ)) p0) = .ok s ∧
    ∀ outs, Quiet s outs → NoOrphans s.world → (∀ a, s.world.lookup a 7 ≠ none → a ∈ [1]) →
      Conserved (env.tk s.now) [⟨[1, 2], [], 0, false⟩, ⟨[2, 1], [], 0, false⟩] (storedAt s.world [1] 7) (takenBy (s.jobs.map (fun x => x.2)) outs 7) := by
  have hr : ∀ l : List Nat, arrivals (l.map (Ev.run (F := ℝ))) = [] := fun l => by
    induction l with
    | nil => rfl
    | cons _ _ _ => simp [arrivals]
  have hl : ∀ l : List Nat, arrivals (l.map (Ev.loop (F := ℝ))) = [] := fun l => by
    induction l with
    | nil => rfl
    | cons _ _ _ => simp [arrivals]
  have ha : arrivals (.arrive (.put [1] (some ⟨7, false, ⟨[1, 2], [], 0, false⟩⟩)) ::
      sched.map .run ++ [.arrive (.put [1] (some ⟨7, true, ⟨[2, 1], [], 0, false⟩⟩)), .arrive (.query [1] (some ⟨7, true, [1, 0], 1, true⟩))] ++
      sched.map .run ++ sched.map .loop) = ([.put [1] (some ⟨7, false, ⟨[1, 2], [], 0, false⟩⟩), .put [1] (some ⟨7, true, ⟨[2, 1], [], 0, false⟩⟩),
        .query [1] (some ⟨7, true, [1, 0], 1, true⟩)] : List (Job ℝ)) := by
    have h1 := hr sched
    have h2 := hl sched
    unfold arrivals at h1 h2 ⊢
    simp [List.filterMap_append, h1, h2]
  obtain ⟨s, h1, h2⟩ := C85_shipped_partial (D := fun _ => 2) env_ok (fun _ _ => rfl) (loc := 1) ⟨fun _ => rfl, fun _ => rfl⟩ 10 (p0 := p0) (es :=
      .arrive (.put [1] (some ⟨7, false, ⟨[1, 2], [], 0, false⟩⟩)) ::
      sched.map .run ++ [.arrive (.put [1] (some ⟨7, true, ⟨[2, 1], [], 0, false⟩⟩)), .arrive (.query [1] (some ⟨7, true, [1, 0], 1, true⟩))] ++
      sched.map .run ++ sched.map .loop) (by
    rw [ha]
    intro j hj
    simp only [List.mem_cons, List.not_mem_nil, or_false] at hj
    rcases hj with rfl | rfl | rfl
    · rfl
    · rfl
    · exact Int.zero_le_ofNat 1) (by
    rw [ha]
    intro j hj
    simp only [List.mem_cons, List.not_mem_nil, or_false] at hj
    rcases hj with rfl | rfl | rfl
    · exact .inl ⟨_, rfl⟩
    · exact .inl ⟨_, rfl⟩
    · exact .inr ⟨_, rfl⟩)
  refine ⟨s, h1, fun outs hq hno hall => ?_⟩
  have := h2 outs hq hno 7 [1] (by simp) hall
  rw [ha] at this
  exact this

end ShippedExample

end Trypo
