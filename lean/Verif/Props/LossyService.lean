import Verif.Props.Shipped

/-! C120: what lost replies cost. -/

namespace Trypo
open GoFloat Spec EventLoop Service

section
variable {F : Type} [GoFloat F] [LawfulCmp F] {env : Env} {fac : Factory F}

theorem length_log (mint : Log F) (nss : List NS) :
    (nss.flatMap (fun ns => extras (mint ns))).length + (nss.flatMap (fun ns => unarrived (mint ns))).length = (nss.flatMap mint).length := by
  induction nss with
  | nil => rfl
  | cons ns nss ih =>
    have := length_entries (mint ns)
    simp only [List.flatMap_cons, List.length_append] at ih ⊢
    omega

/-- If replies are lost only at some moments, no more than these count. -/
theorem _root_.Trypo.Spec.LostReplies.le_length {p p' k : Nat} (h : LostReplies env p p' k) {L : List Nat}
    (hL : ∀ q a, p ≤ q → q < p' → env.back q a = false → q ∈ L) : k ≤ L.length := by
  obtain ⟨times, h1, h2, h3⟩ := h
  refine h3.trans (List.Subperm.length_le (List.subperm_of_subset (h1.imp (fun h => Nat.ne_of_lt h)) fun q hq => ?_))
  obtain ⟨e1, e2, a, e3⟩ := h2 q hq
  exact hL q a e1 e2 e3

/-- C120, without any hypothesis about searches, reachability or the moment: whatever jobs run, interleaved in any way, done or
not, the datapoints of a namespace in all managers are at most those that were there, those that were brought, and one
further copy of one of these per lost reply, for all namespaces together. -/
theorem C120_copies (he : EnvOK env) (hf : FactoryOK fac) {D : NS → Nat} {w : World F} (hw : WorldOK D w) {jobs : List (Job F)}
    (hv : ∀ j ∈ jobs, j.valid D) (sched : List Nat) (p : Nat) :
    ∃ progs w' p', Pool.run sched (jobs.map (fun j => j.prog env fac)) w p = .ok (progs, w', p') ∧ WorldOK D w' ∧
      ∃ dup : NS → List (DataPoint F), (∀ nss : List NS, nss.Nodup → LostReplies env p p' (nss.flatMap dup).length) ∧
        ∀ ns, (∀ d ∈ dup ns, d ∈ held w ns ++ broughtBy jobs ns) ∧
          (held w' ns).Subperm (dup ns ++ (held w ns ++ broughtBy jobs ns)) := by
  obtain ⟨progs, w', p', h1, _, h3, _, _, _, mint, few, h8⟩ := job_pool_log (T := fun _ _ => True) he hf hw trivial hv
    (fun j _ U Dr R => jobOpens_any j U Dr R) sched p
  refine ⟨progs, w', p', h1, h3, fun ns => extras (mint ns), fun nss hn => (few nss hn).le ?_, fun ns => ?_⟩
  · have := length_log mint nss
    omega
  · obtain ⟨k1, _, inHands, ⟨lost, c1, _⟩, _⟩ := h8 ns
    refine ⟨fun d hd => (List.mem_append.1 (k1 d hd)).elim (fun h => by simp [h]) (fun h => by simp [h]), ?_⟩
    have e : (held w' ns ++ (inHands ++ losts (mint ns) ++ lost)).Perm (extras (mint ns) ++ (held w ns ++ broughtBy jobs ns)) := by
      permc [c1]
    exact ((List.sublist_append_left _ _).subperm).trans e.subperm

/-- C120: jobs interleaved in any way, on a network that loses requests and replies. When all are done, the datapoints of every
namespace are those that were there and those that were brought, minus what was handed out, minus expired ones, except for what
the lost replies cost: `dup` are the datapoints that are there once more, and `gone` the answers that were taken from a node
and never arrived. Each of the former and each of the latter had its own moment at which a reply was lost; and answers are gone
only if some job takes datapoints from another node. In general, all managers that there ever were are counted; if every
manager is in the table of a node, those at the nodes. -/
theorem C120_jobs (he : EnvOK env) (hf : FactoryOK fac) {D : NS → Nat} {w : World F} (hw : WorldOK D w) {jobs : List (Job F)}
    (hv : ∀ j ∈ jobs, j.valid D) (hl : ∀ j ∈ jobs, j.complete env) (sched : List Nat) (p : Nat) :
    ∃ progs w' p', Pool.run sched (jobs.map (fun j => j.prog env fac)) w p = .ok (progs, w', p') ∧ WorldOK D w' ∧
      ∃ (dup : NS → List (DataPoint F)) (gone : NS → List (List (DataPoint F))),
        (∀ nss : List NS, nss.Nodup → LostReplies env p p' ((nss.flatMap dup).length + (nss.flatMap gone).length)) ∧
        ∀ ns, (∀ d ∈ dup ns, d ∈ held w ns ++ broughtBy jobs ns) ∧ ((∀ j ∈ jobs, ¬ j.fetches) → gone ns = []) ∧
          ∀ outs, progs = outs.map .ret →
            Conserved (env.tk p') (dup ns ++ (held w ns ++ broughtBy jobs ns)) (held w' ns) (takenBy jobs outs ns ++ (gone ns).flatten) ∧
            ∀ nodes : List Addr, nodes.Nodup → (∀ a, w.lookup a ns ≠ none ∨ w'.lookup a ns ≠ none → a ∈ nodes) → NoOrphans w → NoOrphans w' →
              Conserved (env.tk p') (dup ns ++ (storedAt w nodes ns ++ broughtBy jobs ns)) (storedAt w' nodes ns)
                (takenBy jobs outs ns ++ (gone ns).flatten) := by
  obtain ⟨progs, w', p', h1, _, h3, _, _, _, mint, few, h8⟩ := job_pool_log (T := fun _ _ => True) he hf hw trivial hv
    (fun j _ U Dr R => jobOpens_any j U Dr R) sched p
  refine ⟨progs, w', p', h1, h3, fun ns => extras (mint ns), fun ns => unarrived (mint ns),
    fun nss hn => (few nss hn).le (length_log mint nss).le, fun ns => ?_⟩
  obtain ⟨k1, k2, inHands, ⟨lost, c1, c2⟩, k4⟩ := h8 ns
  refine ⟨fun d hd => (List.mem_append.1 (k1 d hd)).elim (fun h => by simp [h]) (fun h => by simp [h]),
    fun h => k2 (fun j hj hf => absurd hf (h j hj)), fun outs ho => ?_⟩
  obtain ⟨left, l1, l2⟩ := k4 outs ho
  rw [left_nil l2 (fun h => h.not_during) hl, List.append_nil] at l1
  rw [losts] at c1
  refine ⟨⟨lost, by permc [c1, l1], c2⟩, fun nodes hnd hall hno hno' => ?_⟩
  have e1 := held_perm_storedAt hw hno hnd (ns := ns) (fun a ha => hall a (.inl ha))
  have e2 := held_perm_storedAt h3 hno' hnd (ns := ns) (fun a ha => hall a (.inr ha))
  exact ⟨lost, by permc [c1, e1, e2, l1], c2⟩

variable {w0 : World F} {nodes : List (Config × Nat × SkipConfig)} {p0 : Nat}

/-- C120 for the running service: event loops, their tasks and goroutines, and arriving requests. Whenever everything is done, what
the nodes store is what was there and what was brought, minus what was handed out, minus expired datapoints, up to one
duplicated datapoint or one answer that is gone per lost reply since the start. -/
theorem C120_service (he : EnvOK env) (hfind : AlwaysFinds (knnCos (F := F))) (hf : FactoryOK fac)
    {D : NS → Nat} (hw : WorldOK D w0) (hno : NoOrphans w0) (hn : ∀ n ∈ nodes, NodeOK n) (hself : ∀ n ∈ nodes, FindsItself env n.1)
    {es : List (Ev F)} (hv : ∀ j ∈ arrivals es, j.valid D) (hl : ∀ j ∈ arrivals es, j.complete env) :
    ∃ s, Service.run env fac es (boot nodes w0 p0) = .ok s ∧
      ∃ (dup : NS → List (DataPoint F)) (gone : NS → List (List (DataPoint F))),
        (∀ nss : List NS, nss.Nodup → LostReplies env p0 s.now ((nss.flatMap dup).length + (nss.flatMap gone).length)) ∧
        ∀ outs, Quiet s outs → NoOrphans s.world →
          ∀ ns (addrs : List Addr), addrs.Nodup → (∀ a, s.world.lookup a ns ≠ none → a ∈ addrs) →
            (∀ d ∈ dup ns, d ∈ storedAt w0 addrs ns ++ broughtBy (arrivals es) ns) ∧
            Conserved (env.tk s.now) (dup ns ++ (storedAt w0 addrs ns ++ broughtBy (arrivals es) ns)) (storedAt s.world addrs ns)
              (takenBy (s.jobs.map (fun x => x.2)) outs ns ++ (gone ns).flatten) := by
  obtain ⟨s, h1, h2, h3⟩ := run_going he hf hw hn es _ (boot_going env fac nodes w0 p0) (fun x hx => by simp [boot] at hx) hv
  have hout : jobsFrom .outside s = arrivals es := by rw [run_outside es h1]; rfl
  have hkeep := (h2.world he hf hw h3).2
  have hjob : ∀ x ∈ s.jobs, x.2 ∈ arrivals es ∨ (∃ n ∈ nodes, ∃ t, x.2 = .task n.1 n.2.1 t) ∨ ∃ c, x.2 = .call c := by
    intro x hx
    rcases h2.conduct.inside hx with h | h
    · refine .inl ?_
      rw [← hout]
      exact List.mem_map.2 ⟨x, List.mem_filter.2 ⟨hx, by simp [h]⟩, rfl⟩
    · exact .inr h
  obtain ⟨sched, g1, g2⟩ := h2.static
  obtain ⟨progs, w', p', e1, _, dup, gone, few, e3⟩ := C120_jobs he hf hw (jobs := s.jobs.map (fun x => x.2))
    (fun j hj => by
      obtain ⟨x, hx, rfl⟩ := List.mem_map.1 hj
      exact h3 x hx)
    (fun j hj => by
      obtain ⟨x, hx, rfl⟩ := List.mem_map.1 hj
      rcases hjob x hx with h | ⟨n, hnn, t, h⟩ | ⟨c, h⟩
      · exact hl _ h
      · rw [h]
        cases t <;> first | trivial | exact ⟨hfind, hself n hnn⟩
      · rw [h]; trivial) sched p0
  rw [List.map_map, show ((fun j : Job F => j.prog env fac) ∘ fun x : Source × Job F => x.2) = fun x => x.2.prog env fac from rfl, g2] at e1
  cases e1
  refine ⟨s, h1, dup, gone, few, fun outs hq hno' ns addrs hnd hall => ?_⟩
  obtain ⟨k1, _, k2⟩ := e3 ns
  have hall' : ∀ a, w0.lookup a ns ≠ none ∨ s.world.lookup a ns ≠ none → a ∈ addrs :=
    fun a ha => ha.elim (fun h => hall a (hkeep a ns h)) (hall a)
  have := (k2 outs hq).2 addrs hnd hall' hno hno'
  rw [h2.conduct.brought, hout] at this k1
  refine ⟨fun d hd => ?_, this⟩
  have e := held_perm_storedAt hw hno hnd (ns := ns) (fun a ha => hall' a (.inl ha))
  rcases List.mem_append.1 (k1 d hd) with h | h
  · exact List.mem_append.2 (.inl (e.subset h))
  · exact List.mem_append.2 (.inr h)

/-- C120 at any moment of a running service, whatever the searches find, whoever can be reached and whatever is created twice: at most one
further copy per lost reply. -/
theorem C120_service_copies (he : EnvOK env) (hf : FactoryOK fac) {D : NS → Nat} (hw : WorldOK D w0) (hn : ∀ n ∈ nodes, NodeOK n)
    {es : List (Ev F)} (hv : ∀ j ∈ arrivals es, j.valid D) :
    ∃ s, Service.run env fac es (boot nodes w0 p0) = .ok s ∧
      ∃ dup : NS → List (DataPoint F), (∀ nss : List NS, nss.Nodup → LostReplies env p0 s.now (nss.flatMap dup).length) ∧
        ∀ ns, (∀ d ∈ dup ns, d ∈ held w0 ns ++ broughtBy (arrivals es) ns) ∧
          (held s.world ns).Subperm (dup ns ++ (held w0 ns ++ broughtBy (arrivals es) ns)) := by
  obtain ⟨s, h1, h2, h3⟩ := run_going he hf hw hn es _ (boot_going env fac nodes w0 p0) (fun x hx => by simp [boot] at hx) hv
  have hout : jobsFrom .outside s = arrivals es := by rw [run_outside es h1]; rfl
  obtain ⟨sched, g1, g2⟩ := h2.static
  obtain ⟨progs, w', p', e1, _, dup, few, e3⟩ := C120_copies he hf hw (jobs := s.jobs.map (fun x => x.2))
    (fun j hj => by
      obtain ⟨x, hx, rfl⟩ := List.mem_map.1 hj
      exact h3 x hx) sched p0
  rw [List.map_map, show ((fun j : Job F => j.prog env fac) ∘ fun x : Source × Job F => x.2) = fun x => x.2.prog env fac from rfl, g2] at e1
  cases e1
  refine ⟨s, h1, dup, few, fun ns => ?_⟩
  have := e3 ns
  rwa [h2.conduct.brought, hout] at this

end

namespace LossyServiceExample
open ServerExample JobsExample ServiceExample

/-- The replies of one moment are lost. -/
def envQ (q : Nat) : Env := { env with back := fun p _ => p != q }
/-- A put at nodes 1 and 2, and a query that drains a datapoint of node 2. -/
def jobsQ : List (Job F64) :=
  [.put [1, 2] (some ⟨7, false, ⟨[.ofInt 5, .ofInt 0], [], 0, false⟩⟩), .query [2] (some ⟨7, false, [.ofInt 0, .ofInt 1], 1, true⟩)]
/-- What nodes 1 and 2 store, and what was handed out. -/
def obsQ (r : List (Prog F64 (Outcome F64)) × World F64 × Nat) : List (DataPoint F64) × List (DataPoint F64) × List (DataPoint F64) :=
  (storedAt r.2.1 [1] 7, storedAt r.2.1 [2] 7, takenBy jobsQ (r.1.filterMap (fun x => match x with | .ret o => some o | .act _ _ => none)) 7)

theorem jobsQ_valid : ∀ j ∈ jobsQ, j.valid (fun _ => 2) := by
  intro j hj
  simp only [jobsQ, List.mem_cons, List.not_mem_nil, or_false] at hj
  rcases hj with rfl | rfl
  · rfl
  · exact Int.zero_le_ofNat 1

/-- C120: no reply is lost; the reply to the put is lost, and the datapoint is there twice; the reply to the query is lost, and the answer is
gone. -/
example : (∃ r, Pool.run (List.replicate 25 0 ++ List.replicate 25 1) (jobsQ.map (fun j => j.prog env fac)) two 0 = .ok r ∧
      obsQ r = ([dp 1 0, dp 2 0, dp 5 0], [], [dp 0 1])) ∧
    (∃ r, Pool.run (List.replicate 25 0 ++ List.replicate 25 1) (jobsQ.map (fun j => j.prog (envQ 9) fac)) two 0 = .ok r ∧
      obsQ r = ([dp 1 0, dp 2 0, dp 5 0], [dp 5 0], [dp 0 1])) ∧
    ∃ r, Pool.run (List.replicate 25 0 ++ List.replicate 25 1) (jobsQ.map (fun j => j.prog (envQ 16) fac)) two 0 = .ok r ∧
      obsQ r = ([dp 1 0, dp 2 0, dp 5 0], [], []) :=
  ⟨exists_of_pool (by decide +kernel), exists_of_pool (by decide +kernel), exists_of_pool (by decide +kernel)⟩

/-- C120: whatever moment it is at which replies are lost, and however the two are interleaved, there is at most one datapoint too
many. -/
example (q : Nat) (sched : List Nat) : ∃ progs w' p',
    Pool.run sched (jobsQ.map (fun j => j.prog (envQ q) fac)) two 0 = .ok (progs, w', p') ∧ ∃ dup : List (DataPoint F64), dup.length ≤ 1 ∧
      (held w' 7).Subperm (dup ++ (held two 7 ++ [dp 5 0])) := by
  obtain ⟨progs, w', p', h1, _, dup, h2, h3⟩ := C120_copies (env := envQ q) ⟨env_ok.clock, env_ok.perm, env_ok.rand⟩ fac_ok two_ok jobsQ_valid sched 0
  refine ⟨progs, w', p', h1, dup 7, ?_, (h3 7).2⟩
  have := (h2 [7] (by simp)).le_length (L := [q]) (fun q' a _ _ h => by simpa [envQ] using h)
  simpa using this

/-- C120: two nodes over the reals, an event loop and requests; node 1 always reaches itself, and at one moment the replies of node 2 are
lost. Then at most one datapoint is there twice or one answer is gone, in all namespaces together. -/
example (up : Nat → Bool) (q : Nat) (es : List (Ev ℝ)) (ha : ∀ j ∈ arrivals es, j ∈ service) :
    let env := { env with up := fun p a => a = 1 || up p, back := fun p a => a = 1 || p != q }
    ∃ s, Service.run env ⟨10, 100, knnCos, kfnCos⟩ es (boot [({ single with remotes := [2, 1] }, 10, shippedSkip)] twoR 0) = .ok s ∧
      ∃ (dup : NS → List (DataPoint ℝ)) (gone : NS → List (List (DataPoint ℝ))),
        (dup 7).length + (gone 7).length + ((dup 8).length + (gone 8).length) ≤ 1 ∧ ∀ outs, Quiet s outs → NoOrphans s.world →
        (∀ ns a, s.world.lookup a ns ≠ none → a ∈ [1, 2]) → ∀ ns,
          Conserved (env.tk s.now) (dup ns ++ (storedAt twoR [1, 2] ns ++ broughtBy (arrivals es) ns)) (storedAt s.world [1, 2] ns)
            (takenBy (s.jobs.map (fun x => x.2)) outs ns ++ (gone ns).flatten) := by
  intro env'
  have hr : Reachable env' 1 := ⟨fun p => rfl, fun p => rfl⟩
  obtain ⟨s, h1, dup, gone, h2, h3⟩ := C120_service (env := env') (fac := ⟨10, 100, knnCos, kfnCos⟩) (p0 := 0) ⟨env_ok.clock, env_ok.perm, env_ok.rand⟩ knnCos_alwaysFinds
    ⟨by decide, rfl, rfl⟩ twoR_ok (nodes2_noOrphans _ _ _) (nodes := [({ single with remotes := [2, 1] }, 10, shippedSkip)])
    (fun n hn => by cases List.mem_singleton.1 hn; exact ⟨by decide, by decide, by decide⟩)
    (fun n hn => by cases List.mem_singleton.1 hn; exact ⟨hr, by simp [single]⟩)
    (fun j hj => service_valid j (ha j hj)) (fun j hj => by
      have hj := ha j hj
      simp only [service, List.mem_cons, List.not_mem_nil, or_false] at hj
      rcases hj with rfl | rfl | rfl | rfl | rfl
      · exact knnCos_alwaysFinds
      · trivial
      · exact ⟨knnCos_alwaysFinds, hr, by simp⟩
      · trivial
      · trivial)
  refine ⟨s, h1, dup, gone, ?_, fun outs hq hno hall ns => (h3 outs hq hno ns [1, 2] (by simp) (hall ns)).2⟩
  have := (h2 [7, 8] (by simp)).le_length (L := [q]) (fun q' a _ _ h => by
    have : ¬ a = 1 ∧ q' = q := by simpa [env'] using h
    simp [this.2])
  simp at this
  omega

end LossyServiceExample

end Trypo
