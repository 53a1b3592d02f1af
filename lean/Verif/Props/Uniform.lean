import Verif.Props.NoPanic

/-!
# C82: all datapoints of a namespace at a node have one dimension
-/

namespace Trypo
open Spec EventLoop

variable {F : Type} [GoFloat F]

set_option linter.unusedSectionVars false

theorem whas_uniform {w : World F} : WHas (.of Manager.WF) w ↔ Uniform w :=
  ⟨fun h => ⟨h.1, fun s hs => ((whas_of.1 h).2 s hs).ok⟩, fun h => whas_of.2 ⟨h.1, fun s hs => (h.2 s hs).wf⟩⟩

theorem makes_wf {fac : Factory F} (hf : FacLax fac) : Makes fac (.of Manager.WF) := by
  intro v p _
  unfold Factory.make Manager.new
  simp only [Go.wp_bind, Go.wp_checkMake, Go.wp_pure]
  exact ⟨hf.cap, Nat.zero_le _, trivial, fun _ _ => ⟨hf.cap, ⟨hf.knn, hf.kfn⟩, fun c hc => by simp at hc, fun c hc => by simp at hc⟩⟩

/-- C82, what holds: as long as no centroids are taken from other nodes, every namespace of every node holds datapoints of one
dimension only, whatever datapoints clients send, in whatever interleaving, over whatever network. -/
theorem C82_uniform_partial [LawfulCmp F] {env : Env} (hm : MonoClock env.tk) (he : EnvLax env) {fac : Factory F} (hf : FacLax fac) {w : World F}
    (hw : Uniform w) {jobs : List (Job F)} (hv : ∀ j ∈ jobs, j.counts ∧ ¬ j.steals) (sched : List Nat) (p : Nat) :
    ∃ progs w' p', Pool.run sched (jobs.map (fun j => j.prog env fac)) w p = .ok (progs, w', p') ∧ Uniform w' ∧
      ∀ a ns m, w'.get a ns = some m → ∀ c ∈ m.centroids, c.vec.length = m.vec.length ∧ ∀ d ∈ c.dps, d.vec.length = m.vec.length := by
  have : Mono env.tk := ⟨hm⟩
  obtain ⟨ts, w', p', h1, h2, _, _⟩ := np_pool sched (jobs.map (fun j => j.prog env fac)) w p (whas_uniform.2 hw) (fun t ht => by
    obtain ⟨j, hj, rfl⟩ := List.mem_map.1 ht
    exact np_job he (makes_wf hf) (fun h => absurd h (hv j hj).2) (hv j hj).1 _)
  refine ⟨ts, w', p', h1, whas_uniform.1 h2, fun a ns m hm c hc => ?_⟩
  unfold World.get at hm
  cases hl : w'.lookup a ns with
  | none => rw [hl] at hm; cases hm
  | some i =>
    rw [hl] at hm
    simp only [Option.bind_some] at hm
    cases hi : w'.heap[i]? with
    | none => rw [hi] at hm; cases hm
    | some s =>
      rw [hi] at hm
      cases hm
      have := ((whas_uniform.1 h2).slots s (List.mem_of_getElem? hi)).dim c hc
      exact ⟨this.1, fun d hd => by rw [this.2 d hd, this.1]⟩

/-! ### Refutation and examples -/

open ServerExample JobsExample

/-- Node 1 has an empty manager, node 2 one with two datapoints. -/
def emptied : World F64 where
  table := fun a => if a = 1 then [(7, 0)] else if a = 2 then [(7, 1)] else []
  heap := [(7, man [.ofInt 1, .ofInt 1] []), (7, man [.ofInt 1, .ofInt 1] [cen [.ofInt 1, .ofInt 1] [dp 1 0, dp 1 2]])]

theorem emptied_uniform : Uniform emptied where
  points := fun a ns i h => by
    simp only [emptied] at h ⊢
    split at h
    · simp at h; simp [h.2]
    · split at h
      · simp at h; simp [h.2]
      · simp at h
  slots := fun s hs => by
    have hp := prefabs_goodSearch (F := F64)
    simp only [emptied, List.mem_cons, List.not_mem_nil, or_false] at hs
    rcases hs with rfl | rfl
    · exact ⟨by decide, ⟨hp.1, hp.2.1⟩, by simp [man], by simp [man]⟩
    · exact ⟨by decide, ⟨hp.1, hp.2.1⟩, by simp [man, cen], by simp [man, cen, dp]⟩

/-- Node 1 steals from node 2 while somebody adds a one-dimensional datapoint to it, then two more datapoints are added. -/
def raceJobs : List (Job F64) := [.rpc (.stealCentroid 1 7 2 10 5), .rpc (.add 1 7 ⟨[.ofInt 1], [], 0, false⟩), .rpc (.add 1 7 (dp 3 1)), .rpc (.vec 1 7)]

/-- The dimensions of what is stored at node 1, and the length of its vector. -/
def dims (w : World F64) : List Nat × Option Nat := ((storedAt w [1] 7).map (fun d => d.vec.length), (w.get 1 7).map (fun m => m.vec.length))

/-- C82 fails: the vector of node 1 is read, then the namespace gets its first datapoint, which has another dimension, then the
stolen centroids are appended. The next datapoint that is added leaves the node with a vector of length 0, so that it looks to
other nodes as if it did not have the namespace. -/
theorem C82_refuted :
    (∃ r, Pool.run ([0, 0, 1, 1] ++ List.replicate 30 0) (raceJobs.map (fun j => j.prog env fac)) emptied 0 = .ok r ∧ dims r.2.1 = ([1, 2, 2], some 1)) ∧
    ∃ r, Pool.run ([0, 0, 1, 1] ++ List.replicate 30 0 ++ [2, 2, 2, 2]) (raceJobs.map (fun j => j.prog env fac)) emptied 0 = .ok r ∧ dims r.2.1 = ([1, 2, 2, 2], some 0) :=
  ⟨exists_of_pool (by decide +kernel), exists_of_pool (by decide +kernel)⟩

/-- Jobs that do not steal: adding datapoints of all dimensions, draining, maintenance. -/
def adds : List (Job F64) := [.rpc (.add 1 7 ⟨[.ofInt 1], [], 0, false⟩), .rpc (.add 1 7 (dp 3 1)), .rpc (.add 1 9 ⟨[.ofInt 1, .ofInt 2, .ofInt 3], [], 0, false⟩),
  .rpc (.nearestCentroids 1 7 [.ofInt 1] 5 true), .rpc (.distributeFast 2 7 5 [1, 2]), .task ⟨1, [1, 2], 3, 3, 3, 1, 5, 1, 5, true⟩ 5 .distAccurate]

/-- C82: any interleaving of these, from the world above. -/
example (sched : List Nat) (p : Nat) : ∃ progs w' p', Pool.run sched (adds.map (fun j => j.prog env fac)) emptied p = .ok (progs, w', p') ∧ Uniform w' ∧
    ∀ a ns m, w'.get a ns = some m → ∀ c ∈ m.centroids, c.vec.length = m.vec.length ∧ ∀ d ∈ c.dps, d.vec.length = m.vec.length :=
  C82_uniform_partial env_ok.clock ⟨env_ok.perm, env_ok.rand⟩ ⟨by decide, prefabs_goodSearch.1, prefabs_goodSearch.2.1⟩ emptied_uniform
    (by simp [adds, Job.counts, Request.counts, Job.steals, Request.steals]) sched p

/-- C82: the dimension of a namespace does change, when it is empty. -/
example : ∃ r, Pool.run ((List.range 6).flatMap (fun i => List.replicate 60 i)) (adds.map (fun j => j.prog env fac)) emptied 0 = .ok r ∧
    dims r.2.1 = ([], some 1) :=
  exists_of_pool (by decide +kernel)

end Trypo
