import Verif.Proofs.Rename
import Verif.Props.Opaque

/-!
# C143: names of nodes and of namespaces
-/

set_option linter.unusedSectionVars false

namespace Trypo
open GoFloat Spec EventLoop Service

variable {F : Type} [GoFloat F]

/-- C143: giving other names to nodes and to namespaces commutes with everything that a service does: from any state of the nodes, for any jobs that
arrive at any moments and any schedule, the run with other names takes the same steps, panics in the same way, and ends in the same state but for
the names. -/
theorem C143_service (ρ : Equiv.Perm Addr) (σ : Equiv.Perm NS) (env : Env) (fac : Factory F) (nodes : List (Config × Nat × SkipConfig)) (w : World F)
    (p : Nat) (evs : List (Ev F)) :
    Agree (OtherNames ρ σ) (Service.run env fac evs (boot nodes w p))
      (Service.run (nameEnv ρ env) fac (evs.map (nameEv ρ σ)) (boot (nodes.map fun n => (nameConfig ρ n.1, n.2)) (nameWorld ρ σ w) p)) :=
  Ren.service fac nodes w p evs

/-- C143 for a single job, from the first to the last step. -/
theorem C143_job (ρ : Equiv.Perm Addr) (σ : Equiv.Perm NS) (env : Env) (fac : Factory F) (j : Job F) (w : World F) :
    ((nameJob ρ σ j).prog (nameEnv ρ env) fac).run (nameWorld ρ σ w) =
      (fun r => (nameOutcome ρ σ r.1, nameWorld ρ σ r.2)) <$> (j.prog env fac).run w := (Ren.job fac j).run w

/-- C143 for a request to a node: the answer is the same one. -/
theorem C143_request (ρ : Equiv.Perm Addr) (σ : Equiv.Perm NS) (env : Env) (fac : Factory F) (r : Request F) (w : World F) :
    ((nameRequest ρ σ r).serve (nameEnv ρ env) fac).run (nameWorld ρ σ w) =
      (fun x => (x.1, nameWorld ρ σ x.2)) <$> (r.serve env fac).run w := (Ren.serve fac r).run w

/-- C143 for an HTTP query: the same status and the same datapoints in the same order. -/
theorem C143_query (ρ : Equiv.Perm Addr) (σ : Equiv.Perm NS) (env : Env) (addrs : List Addr) (o : Api.QueryOpts F) (w : World F) :
    (Api.queryDataPoint (nameEnv ρ env) (addrs.map ρ) (some { o with ns := σ o.ns })).run (nameWorld ρ σ w) =
      (fun x => (x.1, nameWorld ρ σ x.2)) <$> (Api.queryDataPoint env addrs (some o)).run w := (Ren.query addrs (some o)).run w

/-- C143 for an HTTP put: the same status, and the datapoint is stored at the same node. -/
theorem C143_put (ρ : Equiv.Perm Addr) (σ : Equiv.Perm NS) (env : Env) (fac : Factory F) (addrs : List Addr) (o : Api.PutOpts F) (w : World F) :
    (Api.putDataPoint (nameEnv ρ env) fac (addrs.map ρ) (some { o with ns := σ o.ns })).run (nameWorld ρ σ w) =
      (fun x => (x.1, nameWorld ρ σ x.2)) <$> (Api.putDataPoint env fac addrs (some o)).run w := (Ren.put fac addrs (some o)).run w

/-- What is stored in a namespace of a node is stored in the namespace with the other name of the node with the other name. -/
theorem storedAt_names (ρ : Equiv.Perm Addr) (σ : Equiv.Perm NS) (w : World F) (as : List Addr) (ns : NS) :
    storedAt (nameWorld ρ σ w) (as.map ρ) (σ ns) = storedAt w as ns := by
  unfold storedAt
  rw [List.flatMap_map]
  refine List.flatMap_congr fun a _ => ?_
  have h : (nameWorld ρ σ w).lookup (ρ a) (σ ns) = w.lookup a ns := by
    unfold World.lookup nameWorld
    simp only [Equiv.symm_apply_apply]
    exact lookup_names σ ns _
  have hg : (nameWorld ρ σ w).get (ρ a) (σ ns) = w.get a ns := by
    unfold World.get
    rw [h]
    cases w.lookup a ns with
    | none => rfl
    | some i => simp [nameWorld, Function.comp_def]
  rw [hg]

namespace RenameExample
open ServerExample JobsExample ServiceExample

/-- Node 1 is called 4, and the other way round. -/
def ρ : Equiv.Perm Addr := Equiv.swap 1 4
/-- Namespace 7 is called 0, and the other way round. -/
def σ : Equiv.Perm NS := Equiv.swap 7 0

/-- As `lone`, under the other names. -/
def lone' : World F64 := ⟨fun a => if a = 4 then [(0, 0)] else [], [(0, man [.ofInt 1, .ofInt 1] [cen [.ofInt 1, .ofInt 1] [dp 1 0, dp 1 2]])]⟩

theorem lone_names : nameWorld ρ σ lone = lone' := by
  unfold nameWorld lone lone' ρ σ
  congr 1
  funext a
  simp only [Equiv.symm_swap]
  by_cases h : a = 4
  · subst h
    simp
  · have : ¬ Equiv.swap 1 4 a = 1 := by
      intro h'
      have := congrArg (Equiv.swap 1 4) h'
      simp at this
      exact h this
    simp [h, this]

/-- A put of namespace 0 to node 4. -/
def put' (x y : Int) : Job F64 := .put [4] (some ⟨0, false, ⟨[.ofInt x, .ofInt y], [], 0, false⟩⟩)

theorem turns_names (n : Nat) : (turns n).map (nameEv ρ σ) = turns n := by
  unfold turns
  rw [List.map_flatten, List.map_replicate]
  rfl

/-- As `seen`, of namespace 0 at node 4. -/
def seen' (r : Except Panic (Sys F64)) : Option (List Source × List TaskId × List (DataPoint F64) × List Bool) :=
  match r with
  | .ok s => some (s.jobs.map (fun x => x.1), s.loops.flatMap (fun l => ranTasks l.log), storedAt s.world [4] 0,
      s.progs.map (fun x => match x with | .ret _ => true | _ => false))
  | .error _ => none

end RenameExample
open RenameExample ServerExample JobsExample ServiceExample

/-- C143: the node 1 of the example with an event loop, a put and a query that drains, and the same node under the name 4 with namespace 0 for
namespace 7. -/
example (n m : Nat) : Agree (OtherNames ρ σ) (busyNode n m)
    (Service.run env fac (.arrive (put' 1 1) :: turns n ++ .arrive (.query [4] (some ⟨0, false, [.ofInt 1, .ofInt 0], 1, true⟩)) :: turns m)
      (boot [({ single with loc := 4, remotes := [4] }, 10, always)] lone' 0)) := by
  have h := C143_service ρ σ env fac [(single, 10, always)] lone 0
    (.arrive (put 1 1) :: turns n ++ .arrive (.query [1] (some ⟨7, false, [.ofInt 1, .ofInt 0], 1, true⟩)) :: turns m)
  rw [lone_names] at h
  simp only [List.map_append, List.map_cons, turns_names] at h
  simpa [nameEv, nameJob, put, put', nameConfig, single, nameEnv, env, ρ, σ, busyNode] using h

/-- C143, in numbers: as in the example of C83. -/
example : seen' (Service.run env fac (.arrive (put' 1 1) :: turns 12 ++ .arrive (.query [4] (some ⟨0, false, [.ofInt 1, .ofInt 0], 1, true⟩)) :: turns 30)
      (boot [({ single with loc := 4, remotes := [4] }, 10, always)] lone' 0)) = some
    ([.outside, .loop 0, .outside, .loop 0, .task 3, .loop 0, .task 5, .loop 0, .task 7, .loop 0],
      [.getMeta, .expire, .memTrim, .merge, .split], [dp 1 2, dp 1 1],
      [true, true, true, true, true, true, true, true, true, false]) := by decide +kernel

/-- C143: a request in a world whose nodes 1 and 2 change names. -/
example (v : List F64) : ((Request.knnLookup 2 7 v 3 true).serve env fac).run (nameWorld (Equiv.swap 1 2) 1 two) =
    (fun x => (x.1, nameWorld (Equiv.swap 1 2) 1 x.2)) <$> ((Request.knnLookup 1 7 v 3 true).serve env fac).run two := by
  have h := C143_request (Equiv.swap 1 2) 1 env fac (.knnLookup 1 7 v 3 true) two
  simpa [nameRequest, nameEnv, env] using h

end Trypo
