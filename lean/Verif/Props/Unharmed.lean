import Verif.Proofs.Upheld
import Verif.Props.Positive

/-! C149: centroid vectors under concurrent requests, in float64. -/

namespace Trypo
open GoFloat Spec EventLoop F64

attribute [local irreducible] UNIT TOP

/-- HTTP puts and queries, tasks of the event loop, the goroutines that they start, and RPC requests; all but `MemTrim`,
`StealCentroid`, and load balancing, which steals. Datapoints have components between `lo` and `hi`. -/
def Spec.Job.gentle (lo hi : ℝ) : Job F64 → Prop
  | .put _ none => True
  | .put _ (some o) => Ranged lo hi o.dp.vec
  | .query _ _ => True
  | .call (.memTrim _ _) => False
  | .call _ => True
  | .rpc (.add _ _ d) => Ranged lo hi d.vec
  | .rpc (.memTrim _ _) => False
  | .rpc (.stealCentroid _ _ _ _ _) => False
  | .rpc _ => True
  | .task _ _ t => t ≠ .loadBalancing
  | .loop _ _ _ _ _ => False

section
variable {env : Env} {fac : Factory F64} {lo hi : ℝ} {N : Nat}

theorem Positive.upheld_job (he : EnvOK env) (hf : FactoryOK fac) (hr : Range lo hi) (hN : 16 * (N : ℝ) * (N + 2) * hi ≤ 2 ^ 53 * lo) {j : Job F64}
    (hj : j.gentle lo hi) (p : Nat) : Upheld (Life.Keeps knnCos kfnCos (Positive.Sound knnCos kfnCos lo hi N)) p (j.prog env fac) := by
  have L := Positive.life hr hN knnCos kfnCos
  have hm := he.clock
  cases j with
  | put addrs body =>
    cases body with
    | none => exact .ret _ _
    | some o => exact .bind L.later (L.upheld_httpPut he hf addrs o hj p) fun _ _ _ => .ret _ _
  | query addrs body =>
    cases body with
    | none => exact .ret _ _
    | some o => exact .bind L.later (L.upheld_query hm addrs o p) fun _ _ _ => .ret _ _
  | call c =>
    refine .bind L.later ?_ fun _ _ _ => .ret _ _
    cases c with
    | expire a ns => exact .unit L.later env a (L.upheld_expire hm a ns p)
    | memTrim a ns => exact hj.elim
    | distributeInternal a ns n => exact .unit L.later env a (L.upheld_internal hm a ns n p)
    | splitCentroids a ns x y => exact .unit L.later env a (L.upheld_split a ns x y p)
    | mergeCentroids a ns x y => exact .unit L.later env a (L.upheld_merge a ns x y p)
  | rpc r =>
    refine .bind L.later ?_ fun _ _ _ => .ret _ _
    cases r with
    | add a ns d => exact .bind L.later (L.upheld_add hf a ns hj p) fun _ _ _ => .ret _ _
    | vec a ns => exact .answered L.later (L.upheld_vec a ns p)
    | lenDP a ns => exact .answered L.later (.access a ns fun _ _ h => Go.wlp_pure ⟨Nat.le_refl _, h⟩)
    | drainUnordered a ns n => exact .answered L.later (L.upheld_unordered a ns n p)
    | drainOrdered a ns n => exact .answered L.later (L.upheld_ordered hm a ns n p)
    | expire a ns => exact .answered L.later (L.upheld_expire hm a ns p)
    | memTrim a ns => exact hj.elim
    | moveVector a ns => exact .answered L.later (.access a ns fun _ _ h => L.moveManager hm h)
    | distributeInternal a ns n => exact .answered L.later (L.upheld_internal hm a ns n p)
    | distributeFast a ns n as => exact .answered L.later (L.upheld_distributeFast hm hf a ns n as p)
    | distributeAccurate a ns n as => exact .answered L.later (L.upheld_distributeAccurate hm hf a ns n as p)
    | knnLookup a ns v k drain => exact .answered L.later (.access a ns fun _ _ h => L.managerKnn hm h v k drain)
    | nearestCentroids a ns v n drain =>
      exact .answered L.later (.access a ns fun _ _ h => Go.wlp_bind (Go.wlp_mono (Life.nearestCentroids h v n drain) fun _ _ hr => Go.wlp_pure hr))
    | nearestCentroidVec a ns v => exact .answered L.later (L.upheld_nearest a ns v p)
    | splitCentroids a ns x y => exact .answered L.later (L.upheld_split a ns x y p)
    | mergeCentroids a ns x y => exact .answered L.later (L.upheld_merge a ns x y p)
    | stealCentroid a ns src limit fuel => exact hj.elim
  | task cfg fuel t => exact .bind L.later (L.upheld_task hm hf fuel cfg hj p) fun _ _ _ => .ret _ _
  | loop cfg fuel skip n iter => exact hj.elim

/-- C149: whatever the schedule, and whatever messages are lost, at every moment all components of all centroid vectors of all nodes are about
as large as those of the datapoints, and all stored datapoints are such; namespaces that are created twice included. It is false with
`StealCentroid` (`C149_refuted`); missing are thefts of datapoints that do not expire. -/
theorem C149_concurrent_partial (he : EnvOK env) (hf : FactoryOK fac) (hr : Range lo hi) (hN : 16 * (N : ℝ) * (N + 2) * hi ≤ 2 ^ 53 * lo)
    (jobs : List (Job F64)) (hj : ∀ j ∈ jobs, j.gentle lo hi) (sched : List Nat) {ts : List (Prog F64 (Outcome F64))} {w : World F64} {p : Nat}
    (hrun : Pool.run sched (jobs.map (fun j => j.prog env fac)) ⟨fun _ => [], []⟩ 0 = .ok (ts, w, p)) (hp : p ≤ N) (a : Addr) (ns : NS)
    (m : Manager F64) (hm : w.get a ns = some m) :
    ∀ c ∈ m.centroids, Ranged (lo / 2) (2 * hi) c.vec ∧ ∀ d ∈ c.dps, Ranged lo hi d.vec := by
  obtain ⟨_, h⟩ := Upheld.pool (Positive.life hr hN knnCos kfnCos).later sched _ _ _ hrun (fun t ht => by
    obtain ⟨j, h1, rfl⟩ := List.mem_map.1 ht
    exact Positive.upheld_job he hf hr hN (hj j h1) 0) (by simp)
  unfold World.get at hm
  cases hl : w.lookup a ns with
  | none => rw [hl] at hm; cases hm
  | some i =>
    rw [hl] at hm
    cases hi : w.heap[i]? with
    | none => simp [hi] at hm
    | some s =>
      simp only [hi, Option.bind_some, Option.map_some, Option.some.injEq] at hm
      subst hm
      have hk := h s (List.mem_of_getElem? hi)
      exact fun c hc => ⟨(hk.all c hc).vec hp, (hk.all c hc).data⟩

end

namespace UnharmedExample
open ServerExample JobsExample ServiceExample PositiveExample

/-- Three puts, a draining query, a split, and a request to distribute a datapoint. -/
def crowd : List (Job F64) := [.put [1] (some ⟨7, false, ⟨(pt 2 2).vec, [], 0, false⟩⟩), .put [1] (some ⟨7, false, ⟨(pt 1 9).vec, [], 0, false⟩⟩),
  .rpc (.add 1 7 (pt 3 4)), .query [1] (some ⟨7, false, (pt 1 2).vec, 1, true⟩), .call (.splitCentroids 1 7 0 10), .rpc (.distributeFast 1 7 1 [1, 2])]

theorem crowd_gentle : ∀ j ∈ crowd, j.gentle (1 : Nat) (9 : Nat) := by
  intro j hj
  simp only [crowd, List.mem_cons, List.not_mem_nil, or_false] at hj
  rcases hj with rfl | rfl | rfl | rfl | rfl | rfl
  · exact ranged_nats (by simp) (by norm_num)
  · exact ranged_nats (by simp) (by norm_num)
  · exact ranged_nats (by simp) (by norm_num)
  all_goals trivial

/-- All take turns. -/
def turns : List Nat := (List.range 25).flatMap (fun _ => [0, 1, 2, 3, 4, 5])

/-- The clock was read at most 100 times, and node 1 holds a centroid. -/
def obsC (r : List (Prog F64 (Outcome F64)) × World F64 × Nat) : Bool :=
  decide (r.2.2 ≤ 100) && (match r.2.1.get 1 7 with | some m => decide (m.centroids ≠ []) | none => false)

/-- C149: taking turns, they leave centroid vectors with components between 1/2 and 18. -/
example : ∃ r, Pool.run turns (crowd.map (fun j => j.prog env fac)) start 0 = .ok r ∧ ∃ m, r.2.1.get 1 7 = some m ∧ m.centroids ≠ [] ∧
    ∀ c ∈ m.centroids, Ranged (1 / 2) (2 * 9) c.vec := by
  obtain ⟨⟨ts, w, p⟩, h1, h2⟩ := exists_of_pool (sched := turns) (ts := crowd.map (fun j => j.prog env fac)) (w := start) (p := 0) (f := obsC)
    (b := true) (by decide +kernel)
  simp only [obsC, Bool.and_eq_true, decide_eq_true_eq] at h2
  obtain ⟨hp, h2⟩ := h2
  refine ⟨_, h1, ?_⟩
  cases hm : w.get 1 7 with
  | none => rw [hm] at h2; cases h2
  | some m =>
    rw [hm] at h2
    refine ⟨m, rfl, of_decide_eq_true h2, fun c hc => ?_⟩
    have := (C149_concurrent_partial env_ok fac_ok (range_nat (a := 1) (b := 9) (by omega) (by omega) (by norm_num)) (N := 1000000) (by norm_num) crowd
      crowd_gentle turns h1 (by omega) 1 7 m hm c hc).1
    simpa using this

/-- A datapoint that expires at 50. -/
def brief (x y : Nat) : DataPoint F64 := ⟨FloatExample.nats [x, y], [], 50, true⟩

/-- The clock jumps from 0 to 100 at position 8. -/
def envJump : Env := { env with tk := fun p => if p < 8 then 0 else 100 }

/-- Three datapoints for node 1, a theft by node 2, and a datapoint for node 2. -/
def theft : List (Job F64) := [.rpc (.add 1 7 (brief 1 1)), .rpc (.add 1 7 (brief 2 2)), .rpc (.add 1 7 (brief 2 2)),
  .rpc (.stealCentroid 2 7 1 1 5), .rpc (.add 2 7 (pt 1 1))]

/-- The centroid vectors of node 2, and the datapoints it holds. -/
def obsT (r : List (Prog F64 (Outcome F64)) × World F64 × Nat) : List (List F64) × List (DataPoint F64) :=
  (match r.2.1.get 2 7 with | some m => m.centroids.map (fun c => c.vec) | none => [], storedAt r.2.1 [2] 7)

end UnharmedExample
open UnharmedExample ServerExample

/-- C149 is false: node 1 holds `(1, 1)`, `(2, 2)` and `(2, 2)`, which expire before node 2 steals their centroid. Node 2 begins the vector of
the stolen centroid with the first datapoint and then takes the three expired ones out of it again, as if it were their mean: the vector
is zero from then on. `(1, 1)`, which is sent to node 2 afterwards, is not stored. -/
theorem C149_refuted : ∃ r, Pool.run (List.replicate 30 0 ++ List.replicate 30 1 ++ List.replicate 30 2 ++ List.replicate 30 3 ++ List.replicate 30 4)
      (theft.map (fun j => j.prog envJump fac)) start 0 = .ok r ∧ obsT r = ([FloatExample.nats [0, 0]], []) :=
  exists_of_pool (by decide +kernel)

end Trypo
