import Verif.Spec.Refusal
import Verif.Proofs.ServiceLive
import Verif.Props.LossyService
import Verif.Props.Float
import Verif.Proofs.Found

/-! C121: datapoints that managers turn away. -/

namespace Trypo
open GoFloat Spec EventLoop Service

section
variable {F : Type} [GoFloat F] [LawfulCmp F] {env : Env} {fac : Factory F}

theorem knn_of_turnsAway {m : Manager F} {d : DataPoint F} (h : TurnsAway m d) : knnCos d.vec m.centroidVecs 1 = .ok [] := by
  obtain ⟨r, h1, h2⟩ := knnBrute_kbest d.vec cosineSimilarity false 1 m.centroidVecs
  have h1 : knnCos d.vec m.centroidVecs 1 = .ok r := h1
  rw [h1]
  cases r with
  | nil => rfl
  | cons j js =>
    obtain ⟨s, v, hv, hs, hc⟩ := h2.valid j (by simp)
    obtain ⟨x, hx, rfl⟩ := List.mem_map.1 (List.mem_of_getElem? hv)
    exact absurd hc ((h.2 x hx).2 s hs)

/-- C121, turned away: a node whose manager turns a datapoint away answers `true` to AddDataPoint and changes nothing. -/
theorem C121_dropped {D : NS → Nat} {w : World F} (hw : WorldOK D w) {a : Addr} {ns : NS} {m : Manager F} (hg : w.get a ns = some m)
    {d : DataPoint F} (ht : TurnsAway m d) (p : Nat) :
    ∃ p', (Server.addDataPoint env fac a ns d).run w p = .ok ((true, w), p') := by
  obtain ⟨i, hl, hi⟩ := lookup_of_get hw hg
  have hok := hw.mok hi
  have hadd : Go.wp (m.addDataPoint env.tk d) (fun r _ => r.2 = m) p := by
    unfold Manager.addDataPoint
    simp only [Go.wp_bind, DataPoint.wp_expired, Go.wp_ite]
    refine ⟨fun _ => by rw [Go.wp_pure], fun _ => ⟨fun h0 => absurd (List.length_eq_zero_iff.1 h0) ht.1, fun _ => ?_⟩⟩
    simp only [Go.wp_lift]
    refine ⟨[], by rw [hok.knn]; exact knn_of_turnsAway ht, ?_⟩
    simp only [Go.wp_pure]
  have key : Go.wp ((Server.addDataPoint env fac a ns d).run w) (fun r _ => r.1 = true ∧ r.2 = w.put i ns m) p := by
    unfold Server.addDataPoint
    rw [run_bind, run_access_some hl hi, bind_assoc, Go.wp_bind]
    refine Go.wp_mono hadd (fun r p' hr => ?_)
    rw [pure_bind, run_pure, Go.wp_pure]
    exact ⟨rfl, by rw [hr]⟩
  obtain ⟨r, p', h1, h2, h3⟩ := Go.wp_iff.1 key
  refine ⟨p', ?_⟩
  have hput : w.put i ns m = w := by
    obtain ⟨hlt, hm⟩ := List.getElem?_eq_some_iff.1 hi
    unfold World.put
    rw [← hm, List.set_getElem_self]
  rw [h1, ← h2, ← hput, ← h3]

/-- C121: jobs interleaved in any way, whatever the searches find, on a network that loses requests and replies. When all are done, the
datapoints of every namespace are those that were there and those that were brought, minus what was handed out, minus expired ones,
up to one duplicated datapoint or one answer that is gone per lost reply, and minus `refused`: for each of these there was a
moment at which a manager of the namespace turned it away. The jobs are those that hand all they have to some manager. -/
theorem C121_jobs (he : EnvOK env) (hf : FactoryOK fac) {D : NS → Nat} {w : World F} (hw : WorldOK D w) {jobs : List (Job F)}
    (hv : ∀ j ∈ jobs, j.valid D) (hl : ∀ j ∈ jobs, j.places env) (sched : List Nat) (p : Nat) :
    ∃ progs w' p', Pool.run sched (jobs.map (fun j => j.prog env fac)) w p = .ok (progs, w', p') ∧ WorldOK D w' ∧
      ∃ (dup : NS → List (DataPoint F)) (gone : NS → List (List (DataPoint F))),
        (∀ nss : List NS, nss.Nodup → LostReplies env p p' ((nss.flatMap dup).length + (nss.flatMap gone).length)) ∧
        ∀ ns, (∀ d ∈ dup ns, d ∈ held w ns ++ broughtBy jobs ns) ∧ ((∀ j ∈ jobs, ¬ j.fetches) → gone ns = []) ∧
          ∀ outs, progs = outs.map .ret → ∃ refused : List (DataPoint F),
            (∀ d ∈ refused, (∃ j ∈ jobs, j.adds) ∧ TurnedAwayDuring env fac jobs sched w p ns d) ∧
            Conserved (env.tk p') (dup ns ++ (held w ns ++ broughtBy jobs ns)) (held w' ns)
              (takenBy jobs outs ns ++ (gone ns).flatten ++ refused) ∧
            ∀ nodes : List Addr, nodes.Nodup → (∀ a, w.lookup a ns ≠ none ∨ w'.lookup a ns ≠ none → a ∈ nodes) → NoOrphans w → NoOrphans w' →
              Conserved (env.tk p') (dup ns ++ (storedAt w nodes ns ++ broughtBy jobs ns)) (storedAt w' nodes ns)
                (takenBy jobs outs ns ++ (gone ns).flatten ++ refused) := by
  obtain ⟨progs, w', p', h1, _, h3, _, _, _, mint, few, h8⟩ := job_pool_log (T := fun _ _ => True) he hf hw trivial hv
    (fun j _ U Dr R => jobOpens_any j U Dr R) sched p
  refine ⟨progs, w', p', h1, h3, fun ns => extras (mint ns), fun ns => unarrived (mint ns),
    fun nss hn => (few nss hn).le (length_log mint nss).le, fun ns => ?_⟩
  obtain ⟨k1, k2, inHands, ⟨lost, c1, c2⟩, k4⟩ := h8 ns
  refine ⟨fun d hd => (List.mem_append.1 (k1 d hd)).elim (fun h => by simp [h]) (fun h => by simp [h]),
    fun h => k2 (fun j hj hf => absurd hf (h j hj)), fun outs ho => ?_⟩
  obtain ⟨left, l1, l2⟩ := k4 outs ho
  rw [losts] at c1
  refine ⟨left, fun d hd => ?_, ⟨lost, by permc [c1, l1], c2⟩, fun nodes hnd hall hno hno' => ?_⟩
  · obtain ⟨j, hj, ha, hr⟩ := l2 d hd
    exact ⟨⟨j, hj, ha⟩, hr (hl j hj)⟩
  have e1 := held_perm_storedAt hw hno hnd (ns := ns) (fun a ha => hall a (.inl ha))
  have e2 := held_perm_storedAt h3 hno' hnd (ns := ns) (fun a ha => hall a (.inr ha))
  exact ⟨lost, by permc [c1, e1, e2, l1], c2⟩

variable {w0 : World F} {nodes : List (Config × Nat × SkipConfig)} {p0 : Nat}

/-- The goroutines of a service as a pool: all its worlds are those of the service after some of the events. -/
theorem run_static : ∀ (es : List (Ev F)) {s : Sys F}, Service.run env fac es (boot nodes w0 p0) = .ok s →
    ∃ sched, (∀ i ∈ sched, i < s.jobs.length) ∧ s.progs.length = s.jobs.length ∧
      Pool.run sched (s.jobs.map (fun x => x.2.prog env fac)) w0 p0 = .ok (s.progs, s.world, s.now) ∧
      ∀ k ps w1 p1, Pool.run (sched.take k) (s.jobs.map (fun x => x.2.prog env fac)) w0 p0 = .ok (ps, w1, p1) →
        ∃ n s1, Service.run env fac (es.take n) (boot nodes w0 p0) = .ok s1 ∧ s1.world = w1 := by
  intro es
  induction es using List.reverseRecOn with
  | nil =>
    intro s h
    cases h
    refine ⟨[], by simp, rfl, rfl, fun k ps w1 p1 h => ⟨0, boot nodes w0 p0, rfl, ?_⟩⟩
    rw [List.take_nil] at h
    cases h; rfl
  | append_singleton es e ih =>
    intro s h
    have hrun := h
    rw [service_run_append] at h
    cases hs : Service.run env fac es (boot nodes w0 p0) with
    | error x => rw [hs] at h; cases h
    | ok s0 =>
      rw [hs] at h
      have h : Service.step env fac e s0 = .ok s := by
        have h : Service.run env fac [e] s0 = .ok s := h
        simp only [Service.run] at h
        cases hx : Service.step env fac e s0 with
        | error x => rw [hx] at h; cases h
        | ok s' => rw [hx] at h; exact h
      obtain ⟨sched, g1, g2, g3, g4⟩ := ih hs
      obtain ⟨L, ts, n1, n2, n3, n4⟩ := step_new h
      have hlen : s.progs.length = s.jobs.length := by rw [n1, n2]; simp [n3, g2]
      have hpre : ∀ k ps w1 p1, Pool.run (sched.take k) (s.jobs.map (fun x => x.2.prog env fac)) w0 p0 = .ok (ps, w1, p1) →
          ∃ n s1, Service.run env fac ((es ++ [e]).take n) (boot nodes w0 p0) = .ok s1 ∧ s1.world = w1 := by
        intro k ps w1 p1 hk
        have hsplit : ∃ q, Pool.run (sched.take k) (s0.jobs.map (fun x => x.2.prog env fac)) w0 p0 = .ok q := by
          have := g3
          rw [← List.take_append_drop k sched, pool_append] at this
          cases hq : Pool.run (sched.take k) (s0.jobs.map (fun x => x.2.prog env fac)) w0 p0 with
          | ok q => exact ⟨q, rfl⟩
          | error x => rw [hq] at this; cases this
        obtain ⟨⟨ps', w', p'⟩, hq⟩ := hsplit
        have hx := pool_extend (us := L.map (fun x => x.2.prog env fac)) (fun i hi => by simpa using g1 i (List.mem_of_mem_take hi)) hq
        rw [n1, List.map_append, hx] at hk
        cases hk
        obtain ⟨n, s1, r1, r2⟩ := g4 k _ _ _ hq
        refine ⟨min n es.length, s1, ?_, r2⟩
        rw [List.take_append_of_le_length (Nat.min_le_right _ _), ← r1]
        congr 1
        rcases Nat.le_total n es.length with h | h
        · rw [Nat.min_eq_left h]
        · rw [Nat.min_eq_right h, List.take_of_length_le h, List.take_length]
      have hext := pool_extend (us := L.map (fun x => x.2.prog env fac)) (fun i hi => by simpa using g1 i hi) g3
      rcases n4 with ⟨rfl, m2, m3⟩ | ⟨rfl, i, β, a, k, q, rfl, m1, m2, rfl, m3, m4⟩
      · refine ⟨sched, fun i hi => ?_, hlen, ?_, hpre⟩
        · rw [n1, List.length_append]; exact Nat.lt_of_lt_of_le (g1 i hi) (Nat.le_add_right _ _)
        · rw [n1, List.map_append, hext, n2, m2, m3]
      · simp only [List.append_nil, List.map_nil] at n1 n2 hext
        have hfull : Pool.run (sched ++ [i]) (s.jobs.map (fun x => x.2.prog env fac)) w0 p0 = .ok (s.progs, s.world, s.now) := by
          rw [n1, pool_append_ok g3]
          simp only [Pool.run, m1, m2]
          rw [n2, m3, m4]
        refine ⟨sched ++ [i], fun x hx => ?_, hlen, hfull, fun k ps w1 p1 hk => ?_⟩
        · rw [n1]
          rcases List.mem_append.1 hx with hx | hx
          · exact g1 x hx
          · cases List.mem_singleton.1 hx
            rw [← g2]
            exact (List.getElem?_eq_some_iff.1 m1).1
        · rcases Nat.lt_or_ge sched.length k with h | h
          · rw [List.take_of_length_le (by simp; omega), hfull] at hk
            cases hk
            exact ⟨(es ++ [Ev.run i]).length, s, by rw [List.take_length]; exact hrun, rfl⟩
          · rw [List.take_append_of_le_length h] at hk
            exact hpre k ps w1 p1 hk

/-- C121 for the running service: event loops, their tasks and goroutines, and arriving requests. Whenever everything is done, what
the nodes store is what was there and what was brought, minus what was handed out, minus expired datapoints, up to one
duplicated datapoint or one answer that is gone per lost reply since the start, and minus `refused`: for each of these there was a
moment at which a manager of the namespace turned it away. -/
theorem C121_service (he : EnvOK env) (hf : FactoryOK fac)
    {D : NS → Nat} (hw : WorldOK D w0) (hno : NoOrphans w0) (hn : ∀ n ∈ nodes, NodeOK n) (hself : ∀ n ∈ nodes, FindsItself env n.1)
    {es : List (Ev F)} (hv : ∀ j ∈ arrivals es, j.valid D) (hl : ∀ j ∈ arrivals es, j.places env) :
    ∃ s, Service.run env fac es (boot nodes w0 p0) = .ok s ∧
      ∃ (dup : NS → List (DataPoint F)) (gone : NS → List (List (DataPoint F))),
        (∀ nss : List NS, nss.Nodup → LostReplies env p0 s.now ((nss.flatMap dup).length + (nss.flatMap gone).length)) ∧
        ∀ outs, Quiet s outs → NoOrphans s.world →
          ∀ ns, ∃ refused : List (DataPoint F),
            (∀ d ∈ refused, ∃ n s1, Service.run env fac (es.take n) (boot nodes w0 p0) = .ok s1 ∧ TurnedAway s1.world ns d) ∧
            ∀ addrs : List Addr, addrs.Nodup → (∀ a, s.world.lookup a ns ≠ none → a ∈ addrs) →
              (∀ d ∈ dup ns, d ∈ storedAt w0 addrs ns ++ broughtBy (arrivals es) ns) ∧
              Conserved (env.tk s.now) (dup ns ++ (storedAt w0 addrs ns ++ broughtBy (arrivals es) ns)) (storedAt s.world addrs ns)
                (takenBy (s.jobs.map (fun x => x.2)) outs ns ++ (gone ns).flatten ++ refused) := by
  obtain ⟨s, h1, h2, h3⟩ := run_going he hf hw hn es _ (boot_going env fac nodes w0 p0) (fun x hx => by simp [boot] at hx) hv
  have hout : jobsFrom .outside s = arrivals es := by rw [run_outside es h1]; rfl
  have hkeep := (h2.world he hf hw h3).2
  have hjob : ∀ x ∈ s.jobs, x.2 ∈ arrivals es ∨ (∃ n ∈ nodes, ∃ t, x.2 = .task n.1 n.2.1 t) ∨ ∃ c, x.2 = .call c := by
    intro x hx
    rcases h2.conduct.inside hx with h | h
    · refine .inl ?_
      rw [← hout]
      exact List.mem_map.2 ⟨x, List.mem_filter.2 ⟨hx, by simp [h]⟩, rfl⟩
    · exact .inr h
  obtain ⟨sched, _, _, g2, g3⟩ := run_static es h1
  obtain ⟨progs, w', p', e1, _, dup, gone, few, e3⟩ := C121_jobs he hf hw (jobs := s.jobs.map (fun x => x.2))
    (fun j hj => by
      obtain ⟨x, hx, rfl⟩ := List.mem_map.1 hj
      exact h3 x hx)
    (fun j hj => by
      obtain ⟨x, hx, rfl⟩ := List.mem_map.1 hj
      rcases hjob x hx with h | ⟨n, hnn, t, h⟩ | ⟨c, h⟩
      · exact hl _ h
      · rw [h]
        cases t <;> first | trivial | exact hself n hnn
      · rw [h]; trivial) sched p0
  have hmap : (s.jobs.map (fun x => x.2)).map (fun j : Job F => j.prog env fac) = s.jobs.map (fun x => x.2.prog env fac) := by
    rw [List.map_map]; rfl
  rw [hmap, g2] at e1
  cases e1
  refine ⟨s, h1, dup, gone, few, fun outs hq hno' ns => ?_⟩
  obtain ⟨k1, _, k2⟩ := e3 ns
  obtain ⟨refused, r1, _, r2⟩ := k2 outs hq
  refine ⟨refused, fun d hd => ?_, fun addrs hnd hall => ?_⟩
  · obtain ⟨_, k, ps, w1, p1, hr, ht⟩ := r1 d hd
    rw [hmap] at hr
    obtain ⟨n, s1, hs1, rfl⟩ := g3 k ps w1 p1 hr
    exact ⟨n, s1, hs1, ht⟩
  have hall' : ∀ a, w0.lookup a ns ≠ none ∨ s.world.lookup a ns ≠ none → a ∈ addrs :=
    fun a ha => ha.elim (fun h => hall a (hkeep a ns h)) (hall a)
  have := r2 addrs hnd hall' hno hno'
  rw [h2.conduct.brought, hout] at this k1
  refine ⟨fun d hd => ?_, this⟩
  have e := held_perm_storedAt hw hno hnd (ns := ns) (fun a ha => hall' a (.inl ha))
  rcases List.mem_append.1 (k1 d hd) with h | h
  · exact List.mem_append.2 (.inl (e.subset h))
  · exact List.mem_append.2 (.inr h)

end

open F64 in
/-- C121 with float64s: a manager turns a datapoint with moderate components (finite, not too large, not all tiny) away only if the
vectors of all its centroids are not moderate, for example zero. -/
theorem C121_float {m : Manager F64} {d : DataPoint F64} (h : TurnsAway m d) (hn : d.vec.length ≤ 2 ^ 20) (hd : Spec.Moderate d.vec) :
    ∀ x ∈ m.centroids, ¬ Spec.Moderate x.vec := by
  intro x hx hm
  obtain ⟨h1, h2⟩ := h.2 x hx
  obtain ⟨s, e1, e2, e3, e4⟩ := C69_cosine_error h1.symm hn hd hm
  refine h2 s e1 (comparable_of_small e2 (e4.trans ?_))
  have h5 := (second_le hn).2
  have hu1 : u ≤ 1 := by rw [u_val]; norm_num
  have h6 : (2 : ℝ) ^ 3 ≤ 2 ^ 1000 := pow_le_pow_right₀ (by norm_num) (by norm_num)
  have h7 : (2 * (d.vec.length : ℝ) + 8) * u = 2 * ((d.vec.length + 2) * u) + 4 * u := by ring
  have h8 : (1 : ℝ) / 2 ^ 32 ≤ 1 := by norm_num
  rw [h7]
  generalize (2 : ℝ) ^ 1000 = B at *
  linarith

namespace RefusedExample
open ServerExample JobsExample ServiceExample

/-- The insertions of `C35_refuted`. -/
def adds : List (Job F64) := [.rpc (.add 1 7 (dp 1 0)), .rpc (.add 1 7 (dp (-1) 0)), .rpc (.add 1 7 (dp 1 1))]
/-- What node 1 stores. -/
def obsR (r : List (Prog F64 (Outcome F64)) × World F64 × Nat) : List (DataPoint F64) := storedAt r.2.1 [1] 7

/-- C121: `(1, 1)` is refused if it comes after the two others, whose mean is zero, and stored if it comes between them. -/
example : (∃ r, Pool.run (List.replicate 9 0 ++ List.replicate 9 1 ++ List.replicate 9 2) (adds.map (fun j => j.prog env fac)) start 0 = .ok r ∧
      obsR r = [dp 1 0, dp (-1) 0]) ∧
    ∃ r, Pool.run (List.replicate 9 0 ++ List.replicate 9 2 ++ List.replicate 9 1) (adds.map (fun j => j.prog env fac)) start 0 = .ok r ∧
      obsR r = [dp 1 0, dp 1 1, dp (-1) 0] :=
  ⟨exists_of_pool (by decide +kernel), exists_of_pool (by decide +kernel)⟩

/-- The manager of node 1 after the first two insertions. -/
def zero : Manager F64 := man [.ofInt 0, .ofInt 0] [cen [.ofInt 0, .ofInt 0] [dp 1 0, dp (-1) 0]]

theorem zero_turnsAway : TurnsAway zero (dp 1 1) := by
  refine ⟨by simp [zero, man], fun x hx => ?_⟩
  have hx : x = cen [.ofInt 0, .ofInt 0] [dp 1 0, dp (-1) 0] := List.mem_singleton.1 hx
  subst hx
  refine ⟨by simp [cen, dp], fun s hs => ?_⟩
  have : cosineSimilarity (dp 1 1).vec [.ofInt 0, .ofInt 0] = some F64.nan := by decide +kernel
  rw [show (cen [.ofInt 0, .ofInt 0] [dp 1 0, dp (-1) 0]).vec = [F64.ofInt 0, F64.ofInt 0] from rfl, this] at hs
  rw [← Option.some.inj hs]
  exact F64.nan_not_comparable false

/-- C121: it turns `(1, 1)` away, which has moderate components; its centroid has not. -/
example : (∃ p', (Server.addDataPoint env fac 1 7 (dp 1 1)).run (nodes2 zero zero zero) 0 = .ok ((true, nodes2 zero zero zero), p')) ∧
    ¬ Spec.Moderate [F64.ofInt 0, F64.ofInt 0] := by
  refine ⟨C121_dropped (nodes2_ok (man_mok rfl (by simp [cen, dp]) (by simp [cen])) (man_mok rfl (by simp [cen, dp]) (by simp [cen]))
    (man_mok rfl (by simp [cen, dp]) (by simp [cen]))) (D := fun _ => 2) (a := 1) (ns := 7) rfl zero_turnsAway 0, ?_⟩
  have e : F64.ofInt 1 = F64.ofNat 1 := by decide +kernel
  have hm : Spec.Moderate (dp 1 1).vec := by
    rw [dp, e]
    exact FloatExample.moderate_nats (l := [1, 1]) (by simp) (n := 1) (by simp) (by simp)
  exact C121_float zero_turnsAway (by simp [dp]) hm
    (cen [.ofInt 0, .ofInt 0] [dp 1 0, dp (-1) 0]) (by simp [zero, man])

/-- C121: however the three insertions into an empty service, with float64s, are interleaved, all managers together hold what no manager
has turned away. -/
example (sched : List Nat) : ∃ progs w' p', Pool.run sched (adds.map (fun j => j.prog env fac)) start 0 = .ok (progs, w', p') ∧
    ∀ outs : List (Outcome F64), progs = outs.map .ret → ∃ refused, (∀ d ∈ refused, TurnedAwayDuring env fac adds sched start 0 7 d) ∧
      (held w' 7 ++ refused).Perm [dp 1 0, dp (-1) 0, dp 1 1] := by
  obtain ⟨progs, w', p', h1, _, dup, gone, few, h2⟩ := C121_jobs (env := env) (jobs := adds) env_ok fac_ok start_ok (fun j hj => by
      simp only [adds, List.mem_cons, List.not_mem_nil, or_false] at hj
      rcases hj with rfl | rfl | rfl <;> rfl) (fun j hj => by
      simp only [adds, List.mem_cons, List.not_mem_nil, or_false] at hj
      rcases hj with rfl | rfl | rfl <;> trivial) sched 0
  refine ⟨progs, w', p', h1, fun outs ho => ?_⟩
  have h3 := (few [7] (by simp)).le_length (L := []) (fun q a _ _ h => by simp [env] at h)
  obtain ⟨_, _, h4⟩ := h2 7
  obtain ⟨refused, r1, ⟨lost, r2, r3⟩, _⟩ := h4 outs ho
  obtain ⟨e1, e2⟩ : dup 7 = [] ∧ gone 7 = [] := by simpa using h3
  have e3 : takenBy adds outs 7 = [] := by
    unfold takenBy
    refine List.flatMap_eq_nil_iff.2 (fun q hq => ?_)
    have hj := (List.of_mem_zip hq).1
    simp only [adds, List.mem_cons, List.not_mem_nil, or_false] at hj
    obtain ⟨j, o⟩ := q
    rcases hj with rfl | rfl | rfl <;> cases o <;> simp [Job.takes, Request.takes]
  have e4 : held start 7 ++ broughtBy adds 7 = [dp 1 0, dp (-1) 0, dp 1 1] := by
    simp [held, start, broughtBy, adds, Job.brings, Request.brings, Request.ns]
  rw [e1, e2, e3, e4] at r2
  have e5 : lost = [] := by
    refine List.eq_nil_iff_forall_not_mem.2 (fun d hd => ?_)
    have : d ∈ [dp 1 0, dp (-1) 0, dp 1 1] := r2.subset (by simp [hd])
    have hdead := r3 d hd
    simp only [List.mem_cons, List.not_mem_nil, or_false] at this
    rcases this with rfl | rfl | rfl <;> simp [Dead, dp] at hdead
  rw [e5] at r2
  exact ⟨refused, fun d hd => (r1 d hd).2, by simpa using r2⟩

/-- C121: a node over float64s with its event loop, to which datapoints are put; it always reaches itself, and no replies are lost. When
everything is done, what it stores and what some manager has turned away at some moment is what was put. -/
example (up : Nat → Addr → Bool) (es : List (Ev F64)) (ha : ∀ j ∈ arrivals es, j = .put [1] (some ⟨7, false, ⟨[.ofInt 5, .ofInt 0], [], 0, false⟩⟩)) :
    let env := { env with up := fun p a => a = 1 || up p a }
    ∃ s, Service.run env shippedFactory es (boot [(shippedConfig 1, 10, shippedSkip)] start 0) = .ok s ∧
      ∀ outs, Quiet s outs → NoOrphans s.world → (∀ a, s.world.lookup a 7 ≠ none → a = 1) → ∃ refused,
        (∀ d ∈ refused, ∃ n s1, Service.run env shippedFactory (es.take n) (boot [(shippedConfig 1, 10, shippedSkip)] start 0) = .ok s1 ∧
          TurnedAway s1.world 7 d) ∧
        Conserved (env.tk s.now) (broughtBy (arrivals es) 7) (storedAt s.world [1] 7)
          (takenBy (s.jobs.map (fun x => x.2)) outs 7 ++ refused) := by
  intro env'
  obtain ⟨s, h1, dup, gone, few, h2⟩ := C121_service (env := env') (fac := shippedFactory) (p0 := 0) (D := fun _ => 2)
    ⟨env_ok.clock, env_ok.perm, env_ok.rand⟩ ⟨by decide, rfl, rfl⟩ start_ok (by simp [NoOrphans, start]) (nodes := [(shippedConfig 1, 10, shippedSkip)])
    (fun n hn => by cases List.mem_singleton.1 hn; exact ⟨by decide, by decide, by decide⟩)
    (fun n hn => by cases List.mem_singleton.1 hn; exact ⟨⟨fun p => rfl, fun p => rfl⟩, by simp [shippedConfig]⟩)
    (fun j hj => by rw [ha j hj]; rfl) (fun j hj => by rw [ha j hj]; trivial)
  refine ⟨s, h1, fun outs hq hno hall => ?_⟩
  have h3 := (few [7] (by simp)).le_length (L := []) (fun q a _ _ h => by simp [env', env] at h)
  obtain ⟨e1, e2⟩ : dup 7 = [] ∧ gone 7 = [] := by simpa using h3
  obtain ⟨refused, r1, r2⟩ := h2 outs hq hno 7
  have r3 := (r2 [1] (by simp) (fun a h => by simp [hall a h])).2
  rw [e1, e2] at r3
  exact ⟨refused, r1, by simpa [storedAt, start, World.get, World.lookup] using r3⟩

end RefusedExample

end Trypo
