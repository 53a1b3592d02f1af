import Verif.Proofs.RecodeSystem
import Verif.Props.Symmetry
import Verif.Props.Answers
import Verif.Props.Expiry

/-!
# C137, C138: what a service does not look at

C137: the contents of payloads. C138: instants, other than to compare an expiry with the clock. Also C135 for a whole service.
-/

set_option linter.unusedSectionVars false

namespace Trypo
open GoFloat Spec EventLoop Service

variable {F : Type}

namespace Spec

/-- A datapoint with another payload. -/
def repay (f : List UInt8 → List UInt8) (d : DataPoint F) : DataPoint F := ⟨d.vec, f d.payload, d.expires, d.expireEnabled⟩

/-- A datapoint with another expiry: `τ` of it if expiry is enabled, `σ` of it if not. -/
def retime (τ σ : Int → Int) (d : DataPoint F) : DataPoint F :=
  ⟨d.vec, d.payload, if d.expireEnabled then τ d.expires else σ d.expires, d.expireEnabled⟩

/-- All nodes with other datapoints; everything but the datapoints stays. -/
def withDPs (g : DataPoint F → DataPoint F) (w : World F) : World F :=
  ⟨w.table, w.heap.map fun s => (s.1, { s.2 with centroids := s.2.centroids.map fun c => { c with dps := c.dps.map g } })⟩

/-- Two states of a service that cannot be told apart by someone who sees datapoints through `g`. -/
structure SameThrough (g : DataPoint F → DataPoint F) (s s' : Sys F) : Prop where
  loops : s'.loops = s.loops
  outcomes : (outcomes s').map (Option.map (codeOutcome g id)) = (outcomes s).map (Option.map (codeOutcome g id))
  world : withDPs g s'.world = withDPs g s.world
  now : s'.now = s.now

end Spec

namespace Opaque

theorem search_id (s : Search F) : moveSearch id s = s := by
  funext v pool k
  simp [moveSearch]

theorem centroid_id (g : DataPoint F → DataPoint F) (c : Centroid F) : codeCentroid g id id c = { c with dps := c.dps.map g } := by
  simp [codeCentroid, search_id]

theorem manager_id (g : DataPoint F → DataPoint F) (m : Manager F) :
    codeManager g id id m = { m with centroids := m.centroids.map fun c => { c with dps := c.dps.map g } } := by
  simp only [codeManager, search_id, id]
  congr 2
  funext c
  exact centroid_id g c

theorem world_id (g : DataPoint F → DataPoint F) (w : World F) : codeWorld g id id w = withDPs g w := by
  simp only [codeWorld, withDPs, manager_id]

theorem factory_id (fac : Factory F) : codeFactory id fac = fac := by simp [codeFactory, search_id]

variable [GoFloat F]

theorem equi_id : Equi (id : List F → List F) id := ⟨by simp, by simp, by simp, by simp, by simp, by simp, by simp⟩

theorem recode {g : DataPoint F → DataPoint F} {tk tk' : Nat → Int} (hv : ∀ d, (g d).vec = d.vec)
    (he : ∀ d p, (g d).expiredAt (tk' p) = d.expiredAt (tk p)) : RecodeCos g id id tk tk' where
  toEqui := equi_id
  vec := hv
  exp := he
  knn := search_id _
  kfn := search_id _

theorem repay_recode (f : List UInt8 → List UInt8) (tk : Nat → Int) : RecodeCos (F := F) (repay f) id id tk tk :=
  recode (fun _ => rfl) fun _ _ => rfl

theorem retime_recode {τ : Int → Int} (hτ : StrictMono τ) (σ : Int → Int) (tk : Nat → Int) :
    RecodeCos (F := F) (retime τ σ) id id tk fun p => τ (tk p) :=
  recode (fun _ => rfl) fun d p => by
    unfold DataPoint.expiredAt retime
    cases d.expireEnabled with
    | false => rfl
    | true => simp [hτ.lt_iff_lt]

theorem general {g : DataPoint F → DataPoint F} {env : Env} {tk' : Nat → Int} (e : RecodeCos g id id env.tk tk') (fac : Factory F)
    (nodes : List (Config × Nat × SkipConfig)) (w : World F) (p : Nat) (evs : List (Ev F)) :
    Agree (Recoded g id id) (Service.run env fac evs (boot nodes w p))
      (Service.run { env with tk := tk' } fac (evs.map (codeEv g id)) (boot nodes (withDPs g w) p)) := by
  have h := Par.service e fac nodes w p evs
  rwa [factory_id, world_id] at h

end Opaque

open Opaque

section
variable [GoFloat F]

/-- C137: replacing payloads, by any function, commutes with everything that a service does: from any state of the nodes, for any jobs that
arrive at any moments and any schedule, the run with other payloads takes the same steps, panics in the same way, has the same event loops and
the same goroutines, which have ended in the same cases; what they hand out and what is stored differs in the payloads only. -/
theorem C137_payloads (f : List UInt8 → List UInt8) (env : Env) (fac : Factory F) (nodes : List (Config × Nat × SkipConfig)) (w : World F) (p : Nat)
    (evs : List (Ev F)) :
    Agree (Recoded (repay f) id id) (Service.run env fac evs (boot nodes w p))
      (Service.run env fac (evs.map (codeEv (repay f) id)) (boot nodes (withDPs (repay f) w) p)) :=
  general (repay_recode f env.tk) fac nodes w p evs

/-- C137 for a single job, from the first to the last step. -/
theorem C137_job (f : List UInt8 → List UInt8) (env : Env) (fac : Factory F) (j : Job F) (w : World F) :
    ((codeJob (repay f) id j).prog env fac).run (withDPs (repay f) w) =
      (fun r => (codeOutcome (repay f) id r.1, withDPs (repay f) r.2)) <$> (j.prog env fac).run w := by
  have h := (Par.job (repay_recode f env.tk) fac j).run w
  rwa [factory_id, world_id, show (fun r : Outcome F × World F => (codeOutcome (repay f) id r.1, codeWorld (repay f) id id r.2)) =
    fun r => (codeOutcome (repay f) id r.1, withDPs (repay f) r.2) from funext fun r => by rw [world_id]] at h

/-- C137: nobody who cannot see payloads learns anything about them. Two services whose nodes and whose jobs differ in payloads only - each
payload can be replaced by any other - cannot be told apart. -/
theorem C137_secret (env : Env) (fac : Factory F) (nodes : List (Config × Nat × SkipConfig)) {w w' : World F} (p : Nat) {evs evs' : List (Ev F)}
    (hw : withDPs (repay fun _ => []) w' = withDPs (repay fun _ => []) w)
    (he : evs'.map (codeEv (repay fun _ => []) id) = evs.map (codeEv (repay fun _ => []) id)) :
    Agree (SameThrough (repay fun _ => [])) (Service.run env fac evs (boot nodes w p)) (Service.run env fac evs' (boot nodes w' p)) := by
  have h := C137_payloads (fun _ => []) env fac nodes w p evs
  have h' := C137_payloads (fun _ => []) env fac nodes w' p evs'
  rw [hw, he] at h'
  revert h h'
  generalize Service.run env fac evs (boot nodes w p) = x
  generalize Service.run env fac evs' (boot nodes w' p) = x'
  generalize Service.run env fac (evs.map (codeEv (repay fun _ => []) id)) (boot nodes (withDPs (repay fun _ => []) w) p) = y
  intro h h'
  cases h with
  | error e => cases h' with | error => exact .error e
  | ok r =>
    cases h' with
    | ok r' =>
      refine .ok ⟨?_, ?_, ?_, ?_⟩
      · rw [← r'.loops, r.loops]
      · rw [← r'.outcomes, r.outcomes]
      · rw [← world_id, ← world_id, ← r'.world, r.world]
      · rw [← r'.now, r.now]

/-- C138: instants are only compared. If all clock readings and all expiries are changed by a strictly monotone function - another epoch, another
unit, another calendar - and the expiries of datapoints without expiry by any function, everything else a service does stays the same. -/
theorem C138_instants {τ : Int → Int} (hτ : StrictMono τ) (σ : Int → Int) (env : Env) (fac : Factory F) (nodes : List (Config × Nat × SkipConfig))
    (w : World F) (p : Nat) (evs : List (Ev F)) :
    Agree (Recoded (retime τ σ) id id) (Service.run env fac evs (boot nodes w p))
      (Service.run { env with tk := fun p => τ (env.tk p) } fac (evs.map (codeEv (retime τ σ) id)) (boot nodes (withDPs (retime τ σ) w) p)) :=
  general (retime_recode hτ σ env.tk) fac nodes w p evs

/-- C138: only the time that is left matters. -/
theorem C138_left (δ : Int) (env : Env) (fac : Factory F) (nodes : List (Config × Nat × SkipConfig)) (w : World F) (p : Nat) (evs : List (Ev F)) :
    Agree (Recoded (retime (· + δ) (· + δ)) id id) (Service.run env fac evs (boot nodes w p))
      (Service.run { env with tk := fun p => env.tk p + δ } fac (evs.map (codeEv (retime (· + δ) (· + δ)) id))
        (boot nodes (withDPs (retime (· + δ) (· + δ)) w) p)) :=
  C138_instants (fun _ _ h => Int.add_lt_add_right h δ) _ env fac nodes w p evs

/-- C138: the expiry of a datapoint without expiry is never looked at. -/
theorem C138_disabled (σ : Int → Int) (env : Env) (fac : Factory F) (nodes : List (Config × Nat × SkipConfig)) (w : World F) (p : Nat) (evs : List (Ev F)) :
    Agree (Recoded (retime id σ) id id) (Service.run env fac evs (boot nodes w p))
      (Service.run env fac (evs.map (codeEv (retime id σ) id)) (boot nodes (withDPs (retime id σ) w) p)) :=
  C138_instants strictMono_id σ env fac nodes w p evs

/-- C138 for a single job, from the first to the last step. -/
theorem C138_job {τ : Int → Int} (hτ : StrictMono τ) (σ : Int → Int) (env : Env) (fac : Factory F) (j : Job F) (w : World F) :
    ((codeJob (retime τ σ) id j).prog { env with tk := fun p => τ (env.tk p) } fac).run (withDPs (retime τ σ) w) =
      (fun r => (codeOutcome (retime τ σ) id r.1, withDPs (retime τ σ) r.2)) <$> (j.prog env fac).run w := by
  have h := (Par.job (retime_recode hτ σ env.tk) fac j).run w
  rwa [factory_id, world_id, show (fun r : Outcome F × World F => (codeOutcome (retime τ σ) id r.1, codeWorld (retime τ σ) id id r.2)) =
    fun r => (codeOutcome (retime τ σ) id r.1, withDPs (retime τ σ) r.2) from funext fun r => by rw [world_id]] at h

end

/-- C135 for a whole service, in exact arithmetic: a similarity transformation of all vectors, stored or in requests, transforms the vectors
in all answers and on all nodes, and changes nothing else. -/
theorem C135_service_partial {φ ψ : List ℝ → List ℝ} (h : Similarity φ ψ) (env : Env) (fac : Factory ℝ) (hk : fac.knn = knnCos) (hf : fac.kfn = kfnCos)
    (nodes : List (Config × Nat × SkipConfig)) (w : World ℝ) (p : Nat) (evs : List (Ev ℝ)) :
    Agree (Recoded (moveDP φ) φ ψ) (Service.run env fac evs (boot nodes w p))
      (Service.run env fac (evs.map (codeEv (moveDP φ) φ)) (boot nodes (codeWorld (moveDP φ) φ ψ w) p)) := by
  obtain ⟨s1, s2⟩ := Similar.search h
  have e : RecodeCos (moveDP φ) φ ψ env.tk env.tk :=
    { toEqui := Similar.equi h, vec := fun _ => rfl, exp := fun _ _ => rfl, knn := s1, kfn := s2 }
  have q := Par.service e fac nodes w p evs
  have : codeFactory ψ fac = fac := by
    cases fac
    simp only at hk hf
    subst hk hf
    simp only [codeFactory, s1, s2]
  rwa [this] at q

/-! ### Examples -/

namespace OpaqueExample
open ServerExample JobsExample ServiceExample AnswersExample ExpiryExample

/-- The number of bytes of a payload. -/
def size (l : List UInt8) : List UInt8 := [UInt8.ofNat l.length]
/-- A put. -/
def putP (x y : Int) (l : List UInt8) : Job F64 := .put [1] (some ⟨7, false, ⟨[.ofInt x, .ofInt y], l, 0, false⟩⟩)
/-- Two datapoints that are put, and a query that is served meanwhile. -/
def busy (l l' : List UInt8) : List (Ev F64) := .arrive (putP 1 1 l) :: .arrive ask :: .arrive (putP 3 1 l') :: turns 16
/-- What the query is answered with: payloads and first coordinates. -/
def gets (r : Except Panic (Sys F64)) : Option (List (List UInt8 × F64)) := (answerOf 1 r).map fun a => a.2.map fun d => (d.payload, d.vec.headD (.ofInt 0))

/-- Other payloads in the requests. -/
theorem busy_map (f : List UInt8 → List UInt8) (l l' : List UInt8) : (busy l l').map (codeEv (repay f) id) = busy (f l) (f l') := by
  simp only [busy, List.map_cons]
  congr 1

theorem turns_map (g : DataPoint F64 → DataPoint F64) (n : Nat) : (turns n).map (codeEv g id) = turns n := by
  unfold turns
  rw [List.map_flatten, List.map_replicate]
  rfl

end OpaqueExample
open OpaqueExample ServerExample JobsExample ServiceExample AnswersExample ExpiryExample

/-- C137: a run with payloads `a` and `b` and a run with the lengths of those as payloads. -/
example (a b : List UInt8) : Agree (Recoded (repay size) id id) (Service.run env fac (busy a b) (boot [] lone 0))
    (Service.run env fac (busy (size a) (size b)) (boot [] (withDPs (repay size) lone) 0)) := by
  have h := C137_payloads size env fac [] lone 0 (busy a b)
  rwa [busy_map] at h

/-- C137, in numbers: the payloads go along with the datapoints. -/
example : gets (Service.run env fac (busy [5, 6, 7] [8]) (boot [] lone 0)) =
      some [([], .ofInt 1), ([8], .ofInt 3), ([5, 6, 7], .ofInt 1), ([], .ofInt 1)] ∧
    gets (Service.run env fac (busy [3] [1]) (boot [] (withDPs (repay size) lone) 0)) =
      some [([0], .ofInt 1), ([1], .ofInt 3), ([3], .ofInt 1), ([0], .ofInt 1)] := ⟨by decide +kernel, by decide +kernel⟩

/-- C137: whatever the payloads are, the runs cannot be told apart. -/
example (a b a' b' : List UInt8) : Agree (SameThrough (repay fun _ => [])) (Service.run env fac (busy a b) (boot [] lone 0))
    (Service.run env fac (busy a' b') (boot [] lone 0)) :=
  C137_secret env fac [] 0 rfl (by rw [busy_map, busy_map])

/-- C138: a service that is started with the clock at 4 and a datapoint that expires at 3, and one an hour later with a datapoint
that expires an hour later. -/
example (n : Nat) : Agree (Recoded (retime (· + 3600) (· + 3600)) id id) (Service.run ticking fac (turns n) (boot [(single, 10, always)] passing 4))
    (Service.run { ticking with tk := fun p => p + 3600 } fac (turns n)
      (boot [(single, 10, always)] (withDPs (retime (· + 3600) (· + 3600)) passing) 4)) := by
  have h := C138_left 3600 ticking fac [(single, 10, always)] passing 4 (turns n)
  rwa [turns_map] at h

/-- C138, in numbers: the datapoint that expires at 3603 is gone as well. If the clock is changed and the expiry is not, or the other way round,
all is different. -/
example : seen (Service.run { ticking with tk := fun p => p + 3600 } fac (turns 23)
      (boot [(single, 10, always)] (withDPs (retime (· + 3600) id) passing) 4)) =
      some ([.loop 0, .loop 0, .task 1], [.getMeta, .expire], [dp 1 0], [true, true, true]) ∧
    seen (Service.run ticking fac (turns 23) (boot [(single, 10, always)] (withDPs (retime (· + 3600) id) passing) 4)) =
      some ([.loop 0, .loop 0, .task 1], [.getMeta, .expire], [dp 1 0, ⟨[.ofInt 2, .ofInt 1], [], 3603, true⟩], [true, true, true]) :=
  ⟨by decide +kernel, by decide +kernel⟩

/-- C135: a service whose vectors are turned by a right angle and made twice as long. -/
example (env : Env) (nodes : List (Config × Nat × SkipConfig)) (w : World ℝ) (p : Nat) (evs : List (Ev ℝ)) :
    Agree (Recoded (moveDP (SymmetryExample.scale 2 ∘ SymmetryExample.turn 0 1)) (SymmetryExample.scale 2 ∘ SymmetryExample.turn 0 1)
        (SymmetryExample.turn 0 (-1) ∘ SymmetryExample.scale 2⁻¹))
      (Service.run env shippedFactory evs (boot nodes w p))
      (Service.run env shippedFactory (evs.map (codeEv (moveDP (SymmetryExample.scale 2 ∘ SymmetryExample.turn 0 1))
        (SymmetryExample.scale 2 ∘ SymmetryExample.turn 0 1))) (boot nodes (codeWorld (moveDP (SymmetryExample.scale 2 ∘ SymmetryExample.turn 0 1))
          (SymmetryExample.scale 2 ∘ SymmetryExample.turn 0 1) (SymmetryExample.turn 0 (-1) ∘ SymmetryExample.scale 2⁻¹) w) p)) :=
  C135_service_partial (Similar.comp (SymmetryExample.turn_similar (by norm_num)) (SymmetryExample.scale_similar (by norm_num))) env shippedFactory
    rfl rfl nodes w p evs

end Trypo
