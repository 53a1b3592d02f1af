import Verif.Props.Server

/-!
# The RPC server: refutations and examples
-/

set_option linter.unusedSectionVars false

namespace Trypo
open GoFloat Spec

namespace ServerExample

/-- A network without failures, a clock that stands still. -/
def env : Env := ⟨fun _ => 0, fun _ _ => true, fun _ _ => true, fun _ n => List.range n, fun _ _ => 0⟩
/-- The reply at position 13 is lost. -/
def envLost : Env := { env with back := fun p _ => p != 13 }
/-- The shipped factory, with a smaller capacity and threshold. -/
def fac : Factory F64 := ⟨10, 100, knnCos, kfnCos⟩
/-- A two-dimensional datapoint that does not expire. -/
def dp (x y : Int) : DataPoint F64 := ⟨[.ofInt x, .ofInt y], [], 0, false⟩
/-- Nodes without data. -/
def start : World F64 := ⟨fun _ => [], []⟩
/-- Requests one after the other. -/
def seq (env : Env) (reqs : List (Request F64)) : Go (List (Answer F64) × World F64) :=
  (Prog.each (fun r => r.serve env fac) reqs).run start
/-- What nodes 1 and 2 hold in namespace 7. -/
def at12 (w : World F64) : List (DataPoint F64) × List (DataPoint F64) := (storedAt w [1] 7, storedAt w [2] 7)

/-- The answers and what the nodes hold. -/
def obs (r : List (Answer F64) × World F64) : List (Answer F64) × List (DataPoint F64) × List (DataPoint F64) := (r.1, at12 r.2)

theorem env_ok : EnvOK env :=
  ⟨fun _ _ _ => Int.le_refl _, fun _ _ => List.Perm.refl _, fun _ _ h => h⟩
theorem fac_ok : FactoryOK fac := ⟨by decide, rfl, rfl⟩
theorem start_ok : WorldOK (fun _ => 2) start := ⟨by simp [start], by simp [start], by simp [start], by simp [start]⟩

/-- Insertions at node 2 after which its centroids have zero vectors but the node's vector is not zero. -/
def trap : List (Request F64) :=
  [.add 2 7 (dp 1 0), .add 2 7 (dp 1 0), .add 2 7 (dp (-1) 0), .splitCentroids 2 7 0 10, .add 2 7 (dp (-1) 0)]

end ServerExample
open ServerExample

/-- C35 fails: three insertions of live vectors of the same dimension, all acknowledged, the third is not stored. (The
first two cancel out, so that the cosine with their mean is NaN and the search finds nothing.) -/
theorem C35_refuted : ∃ r p', seq env [.add 1 7 (dp 1 0), .add 1 7 (dp (-1) 0), .add 1 7 (dp 1 1)] 0 = .ok (r, p') ∧
    obs r = ([.bool true, .bool true, .bool true], [dp 1 0, dp (-1) 0], []) :=
  exists_of_run (by decide +kernel)

/-- C36 fails when the receiving node refuses the datapoint: it still answers true, and the datapoint is gone. No network
failure is involved. -/
theorem C36_refuted_refused : ∃ r p', seq env (trap ++ [.add 1 7 (dp 3 4), .distributeFast 1 7 1 [2]]) 0 = .ok (r, p') ∧
    (obs r).2 = ([], [dp 1 0, dp (-1) 0, dp 1 0, dp (-1) 0]) :=
  exists_of_run (by decide +kernel)

/-- C36 fails when there is nowhere to distribute to: what was drained is not put back. -/
theorem C36_refuted_nowhere : ∃ r p', seq env [.add 1 7 (dp 1 0), .add 1 7 (dp 2 1), .distributeFast 1 7 1 []] 0 = .ok (r, p') ∧
    obs r = ([.bool true, .bool true, .done], [dp 2 1], []) :=
  exists_of_run (by decide +kernel)

/-- The same for `DistributeDataPointsAccurate`. -/
theorem C36_refuted_nowhere_accurate :
    ∃ r p', seq env [.add 1 7 (dp 1 0), .add 1 7 (dp 2 1), .distributeAccurate 1 7 1 []] 0 = .ok (r, p') ∧
    obs r = ([.bool true, .bool true, .done], [dp 2 1], []) :=
  exists_of_run (by decide +kernel)

/-- C36 fails when the reply to `AddDataPoint` is lost: the datapoint is put back although the other node has stored it. -/
theorem C36_refuted_lost_reply : ∃ r p', seq envLost [.add 1 7 (dp 1 0), .add 2 7 (dp 0 1), .distributeFast 1 7 1 [2]] 0 = .ok (r, p') ∧
    obs r = ([.bool true, .bool true, .done], [dp 1 0], [dp 0 1, dp 1 0]) :=
  exists_of_run (by decide +kernel)

/-- A witness computed by running goroutines. -/
theorem exists_of_pool {F α β : Type} [DecidableEq β] {sched : List Nat} {ts : List (Prog F α)} {w : World F} {p : Nat}
    {f : List (Prog F α) × World F × Nat → β} {b : β} (h : (Pool.run sched ts w p).map f = .ok b) :
    ∃ r, Pool.run sched ts w p = .ok r ∧ f r = b := by
  cases hm : Pool.run sched ts w p with
  | error e => rw [hm] at h; cases h
  | ok r => rw [hm] at h; exact ⟨r, rfl, by simpa [Except.map] using h⟩

namespace ServerExample

/-- The answer of a goroutine that is done. -/
def answerOf : Prog F64 (Answer F64) → Option (Answer F64)
  | .ret a => some a
  | .act _ _ => none

/-- The answers so far and what the nodes hold. -/
def obsP (r : List (Prog F64 (Answer F64)) × World F64 × Nat) :
    List (Option (Answer F64)) × List (DataPoint F64) × List (DataPoint F64) := (r.1.map answerOf, at12 r.2.1)

end ServerExample

/-- C42 fails: two concurrent first insertions into a namespace, both acknowledged, only one is stored. -/
theorem C42_refuted : ∃ r, Pool.run [0, 1, 0, 0, 1, 1] ([Request.add 1 7 (dp 1 0), .add 1 7 (dp 2 1)].map (fun r => r.serve env fac))
    start 0 = .ok r ∧ obsP r = ([some (.bool true), some (.bool true)], [dp 2 1], []) :=
  exists_of_pool (by decide +kernel)

namespace ServerExample

/-- A centroid of the shipped configuration. -/
def cen {F : Type} [GoFloat F] (v : List F) (l : List (DataPoint F)) : Centroid F := ⟨v, l, knnCos, kfnCos⟩
/-- A manager of the shipped configuration. -/
def man {F : Type} [GoFloat F] (v : List F) (cs : List (Centroid F)) : Manager F := ⟨v, 10, cs, 100, knnCos, kfnCos⟩
/-- Nodes 1 and 2 with the namespace 7, node 1 also with the namespace 8. -/
def nodes2 {F : Type} (m1 m2 m3 : Manager F) : World F where
  table := fun a => if a = 1 then [(7, 0), (8, 2)] else if a = 2 then [(7, 1)] else []
  heap := [(7, m1), (7, m2), (8, m3)]

section
variable {F : Type} [GoFloat F] [LawfulCmp F]

theorem nodes2_table {m1 m2 m3 : Manager F} {a : Addr} {ns : NS} {i : Nat} (h : (ns, i) ∈ (nodes2 m1 m2 m3).table a) :
    (a = 1 ∧ ns = 7 ∧ i = 0) ∨ (a = 1 ∧ ns = 8 ∧ i = 2) ∨ (a = 2 ∧ ns = 7 ∧ i = 1) := by
  simp only [nodes2] at h
  split at h
  · rename_i ha
    rcases List.mem_cons.1 h with h | h
    · cases h; exact .inl ⟨ha, rfl, rfl⟩
    · cases List.mem_singleton.1 h; exact .inr (.inl ⟨ha, rfl, rfl⟩)
  · split at h
    · rename_i ha
      cases List.mem_singleton.1 h; exact .inr (.inr ⟨ha, rfl, rfl⟩)
    · simp at h

theorem man_mok {n : Nat} {v : List F} {cs : List (Centroid F)} (hv : v.length = n)
    (h : ∀ c ∈ cs, c.vec.length = v.length ∧ ∀ d ∈ c.dps, d.vec.length = c.vec.length)
    (hk : ∀ c ∈ cs, c.knn = knnCos ∧ c.kfn = kfnCos) :
    ManagerOK (man v cs) ∧ (man v cs).knn = knnCos ∧ (man v cs).kfn = kfnCos ∧ (man v cs).vec.length = n :=
  ⟨⟨by simp [man], ⟨prefabs_goodSearch.1, prefabs_goodSearch.2.1⟩, hk, h⟩, rfl, rfl, hv⟩

theorem nodes2_ok {D : NS → Nat} {m1 m2 m3 : Manager F} (h1 : ManagerOK m1 ∧ m1.knn = knnCos ∧ m1.kfn = kfnCos ∧ m1.vec.length = D 7)
    (h2 : ManagerOK m2 ∧ m2.knn = knnCos ∧ m2.kfn = kfnCos ∧ m2.vec.length = D 7)
    (h3 : ManagerOK m3 ∧ m3.knn = knnCos ∧ m3.kfn = kfnCos ∧ m3.vec.length = D 8) : WorldOK D (nodes2 m1 m2 m3) := by
  refine ⟨fun a => ?_, fun a ns i h => ?_, fun a b ns i h h' => ?_, fun s hs => ?_⟩
  · simp only [nodes2]
    split
    · simp
    · split <;> simp
  · rcases nodes2_table h with ⟨rfl, rfl, rfl⟩ | ⟨rfl, rfl, rfl⟩ | ⟨rfl, rfl, rfl⟩ <;> exact ⟨_, rfl⟩
  · have e1 := nodes2_table h
    have e2 := nodes2_table h'
    rcases e1 with ⟨rfl, rfl, rfl⟩ | ⟨rfl, rfl, rfl⟩ | ⟨rfl, rfl, rfl⟩ <;>
      rcases e2 with ⟨rfl, e, e'⟩ | ⟨rfl, e, e'⟩ | ⟨rfl, e, e'⟩ <;> first | rfl | cases e'
  · simp only [nodes2, List.mem_cons, List.not_mem_nil, or_false] at hs
    rcases hs with rfl | rfl | rfl
    · exact h1
    · exact h2
    · exact h3

theorem nodes2_noOrphans (m1 m2 m3 : Manager F) : NoOrphans (nodes2 m1 m2 m3) := by
  intro i s h
  match i, h with
  | 0, h => cases h; exact ⟨1, by simp [nodes2]⟩
  | 1, h => cases h; exact ⟨2, by simp [nodes2]⟩
  | 2, h => cases h; exact ⟨1, by simp [nodes2]⟩
  | i + 3, h => simp [nodes2] at h

end

/-- Two nodes with data. -/
def two : World F64 := nodes2 (man [.ofInt 1, .ofInt 0] [cen [.ofInt 1, .ofInt 0] [dp 1 0, dp 2 0]])
  (man [.ofInt 0, .ofInt 1] [cen [.ofInt 0, .ofInt 1] [dp 0 1]]) (man [.ofInt 3, .ofInt 4] [cen [.ofInt 3, .ofInt 4] [dp 3 4]])

theorem two_ok : WorldOK (fun _ => 2) two :=
  nodes2_ok (man_mok rfl (by simp [cen, dp]) (by simp [cen])) (man_mok rfl (by simp [cen, dp]) (by simp [cen]))
    (man_mok rfl (by simp [cen, dp]) (by simp [cen]))

/-- Several requests at once. -/
def mixed : List (Request F64) := [.add 1 7 (dp 3 4), .distributeFast 1 7 2 [2], .drainUnordered 2 7 1, .lenDP 1 8, .vec 2 8,
  .stealCentroid 2 7 1 5 10]

/-- The answers so far, what the nodes hold in namespace 7, and what node 1 holds in namespace 8. -/
def obs8 (r : List (Prog F64 (Answer F64)) × World F64 × Nat) : List (Option (Answer F64)) × List (List (DataPoint F64)) :=
  (r.1.map answerOf, [storedAt r.2.1 [1] 7, storedAt r.2.1 [2] 7, storedAt r.2.1 [1] 8])

/-- C34, C36: six requests interleaved. All are answered, nothing is lost, namespace 8 is not touched. -/
example : ∃ r, Pool.run ((List.replicate 30 [0, 1, 2, 3, 4, 5]).flatten) (mixed.map (fun r => r.serve env fac)) two 0 = .ok r ∧
    obs8 r = ([some (.bool true), some .done, some (.dps [dp 0 1]), some (.num 1), some .noNamespace, some (.stolen 1 true)],
      [[], [dp 3 4, dp 1 0, dp 2 0], [dp 3 4]]) :=
  exists_of_pool (by decide +kernel)

/-- C34: the hypotheses are met by these requests. -/
example (sched : List Nat) (p : Nat) : ∃ progs w' p', Pool.run sched (mixed.map (fun r => r.serve env fac)) two p = .ok (progs, w', p') ∧
    WorldOK (fun _ => 2) w' ∧ ∀ ns, (∀ r ∈ mixed, r.ns ≠ ns) → ∀ a, w'.get a ns = two.get a ns :=
  C34_isolation env_ok fac_ok two_ok (by simp [mixed, Request.valid, dp]) sched p

/-- C34: a missing namespace, a created one. -/
example : ∃ r p', seq env [.lenDP 1 7, .drainOrdered 1 7 3, .add 1 7 (dp 3 4), .lenDP 1 7, .lenDP 2 7] 0 = .ok (r, p') ∧
    obs r = ([.noNamespace, .noNamespace, .bool true, .num 1, .noNamespace], [dp 3 4], []) :=
  exists_of_run (by decide +kernel)

/-- A datapoint with real components. -/
def rdp (x y : ℝ) : DataPoint ℝ := ⟨[x, y], [], 0, false⟩
/-- Two nodes with real data. -/
noncomputable def twoR : World ℝ := nodes2 (man [1, 0] [cen [1, 0] [rdp 1 0, rdp 2 0]]) (man [0, 1] [cen [0, 1] [rdp 0 1]]) (man [3, 4] [])

theorem twoR_ok : WorldOK (fun _ => 2) twoR :=
  nodes2_ok (man_mok rfl (by simp [cen, rdp]) (by simp [cen])) (man_mok rfl (by simp [cen, rdp]) (by simp [cen]))
    (man_mok rfl (by simp) (by simp))

/-- C36, C37: an insertion, a distribution, a drain and a steal, interleaved in any way, with any requests lost. -/
example (up : Nat → Addr → Bool) (sched : List Nat) :
    let reqs : List (Request ℝ) := [.add 1 7 (rdp 3 4), .distributeFast 1 7 2 [2], .drainUnordered 2 7 1, .stealCentroid 2 7 1 5 10]
    let env := { env with up := up }
    ∃ progs w' p', Pool.run sched (reqs.map (fun r => r.serve env ⟨10, 100, knnCos, kfnCos⟩)) twoR 0 = .ok (progs, w', p') ∧
      WorldOK (fun _ => 2) w' ∧ ∀ answers, progs = answers.map .ret → ∀ ns,
        Conserved (env.tk p') (storedAt twoR [1, 2] ns ++ brought reqs ns) (storedAt w' [1, 2] ns) (taken reqs answers ns) := by
  intro reqs env'
  refine C36_system_conserves_partial (env := env') (reqs := reqs) (fac := ⟨10, 100, knnCos, kfnCos⟩) (nodes := [1, 2]) ⟨env_ok.clock, env_ok.perm, env_ok.rand⟩ (fun _ _ => rfl) ⟨by decide, rfl, rfl⟩ twoR_ok
    (nodes2_noOrphans _ _ _) (by simp [reqs, Request.valid, rdp]) ?_ ?_ (by simp) ?_ sched 0
  · intro r hr hc
    simp only [reqs, List.mem_cons, List.not_mem_nil, or_false] at hr
    rcases hr with rfl | rfl | rfl | rfl <;> simp_all [Request.mayCreate, Request.node, Request.ns, World.lookup, twoR, nodes2]
  · intro r hr
    simp only [reqs, List.mem_cons, List.not_mem_nil, or_false] at hr
    rcases hr with rfl | rfl | rfl | rfl
    · exact knnCos_alwaysFinds
    · exact ⟨knnCos_alwaysFinds, by simp⟩
    · trivial
    · exact fun _ _ => rfl
  · intro a ns h
    by_cases h1 : a = 1
    · simp [h1]
    · by_cases h2 : a = 2
      · simp [h2]
      · exact absurd (by simp [World.lookup, twoR, nodes2, h1, h2]) h

end ServerExample

end Trypo
