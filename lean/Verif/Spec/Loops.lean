import Verif.Model.Server

/-!
# Specification: loops

A loop of the code is given by its body, which either goes on with a new state or leaves the loop with a value. There is no
bound on the number of iterations. The bodies are written down here a second time, directly from the Go source and without fuel.
-/

namespace Trypo.Spec
open GoFloat

/-- The loop with this body, entered in state `s` at clock position `p`, ends with the result `r` after finitely many iterations. -/
inductive Runs {σ α : Type} (body : σ → Go (σ ⊕ α)) : σ → Nat → Except Panic (α × Nat) → Prop
  | stop {s : σ} {p : Nat} {a : α} {p' : Nat} (h : body s p = .ok (.inr a, p')) : Runs body s p (.ok (a, p'))
  | next {s : σ} {p : Nat} {s' : σ} {p' : Nat} {r : Except Panic (α × Nat)} (h : body s p = .ok (.inl s', p'))
      (h' : Runs body s' p' r) : Runs body s p r
  | panic {s : σ} {p : Nat} {e : Panic} (h : body s p = .error e) : Runs body s p (.error e)

variable {F : Type} [GoFloat F]

/-- pkg/kmeans/centroid/centroid.go:120-122, the skipping loop of the generator at position `i`. -/
def skipBody (tk : Nat → Int) (i : Nat) (c : Centroid F) : Go (Centroid F ⊕ Centroid F) :=
  if i < c.dps.length then do
    let d ← Go.idx c.dps i
    if (← d.expired tk) then do
      let c' ← c.rm i
      pure (.inl c')
    else pure (.inr c)
  else pure (.inr c)

/-- pkg/searchutils/knn.go:101-123, the search loop, pulling the generator of the centroid `c` at position `i`; `j` is the local
variable `i` of the search. -/
def searchBody (tk : Nat → Int) (target : List F) (dist : List F → List F → Option F) (asc : Bool) :
    List (ResultItem F) × Nat × Centroid F × Nat → Go ((List (ResultItem F) × Nat × Centroid F × Nat) ⊕ (List (ResultItem F) × Centroid F))
  | (res, j, c, i) => do
    let r ← c.genNext tk i
    match r.1 with
    | none => pure (.inr (res, r.2.1))
    | some v =>
      match dist target v with
      | none => pure (.inl (res, j + 1, r.2))
      | some score =>
        if asc && lt score (worstScore asc) then pure (.inl (bubble ⟨j, score, true⟩ res true, j + 1, r.2))
        else if !asc && lt (worstScore asc) score then pure (.inl (bubble ⟨j, score, true⟩ res false, j + 1, r.2))
        else pure (.inl (res, j + 1, r.2))

/-- pkg/kmeans/centroid/centroid.go:135-140, the loop of `DrainUnordered`. -/
def drainBody (tk : Nat → Int) (n : Int) : Centroid F × List (DataPoint F) →
    Go ((Centroid F × List (DataPoint F)) ⊕ (List (DataPoint F) × Centroid F))
  | (c, res) =>
    if c.dps.length ≠ 0 ∧ (res.length : Int) < n then do
      let d ← Go.idx c.dps 0
      if (← d.expired tk) then do
        let c' ← c.rm 0
        pure (.inl (c', res))
      else do
        let c' ← c.rm 0
        pure (.inl (c', res ++ [d]))
    else pure (.inr (res, c))

/-- pkg/kmeans/centroid/centroid.go:171-177, the loop of `Expire`. -/
def expireBody (tk : Nat → Int) : Nat × Centroid F → Go ((Nat × Centroid F) ⊕ Centroid F)
  | (i, c) =>
    if i < c.dps.length then do
      let d ← Go.idx c.dps i
      if (← d.expired tk) then do
        let c' ← c.rm i
        pure (.inl (i, c'))
      else pure (.inl (i + 1, c))
    else pure (.inr c)

/-- pkg/kmeans/centroid/centroid.go:190-192, the loop of `MemTrim`. -/
def memTrimBody (tk : Nat → Int) : Centroid F × List (DataPoint F) →
    Go ((Centroid F × List (DataPoint F)) ⊕ (List (DataPoint F) × Centroid F))
  | (c, dps) =>
    if 0 < c.dps.length then do
      let r ← c.drainUnordered tk 1
      pure (.inl (r.2, dps ++ r.1))
    else pure (.inr (dps, c))

/-- pkg/mathutils/vectools.go:14-32, the loop of `VecMean` with the division after it, pulling the generator of the centroid `c`. -/
def meanBody (tk : Nat → Int) : List F × F × Centroid F × Nat →
    Go ((List F × F × Centroid F × Nat) ⊕ ((List F × Bool) × Centroid F))
  | (res, n, c, i) => do
    let r ← c.genNext tk i
    match r.1 with
    | none => pure (.inr ((res.map (fun x => div x n), true), r.2.1))
    | some v =>
      if v.length ≠ res.length then pure (.inr ((res, false), r.2.1))
      else pure (.inl (List.zipWith add res v, add n (ofNat 1), r.2))

/-- pkg/kmeans/centroidmanager/cmanager.go:132-152, the outer loop of `centroidDataPointPortions`: portions and `assigned`. -/
def portionsBody (n : Int) (sizes : List Nat) : List Nat × Int → Go ((List Nat × Int) ⊕ List Nat)
  | (portions, assigned) =>
    let r := Manager.portionsPass n sizes portions assigned
    if r.2.2 then pure (.inr r.1)
    else if assigned = r.2.1 then pure (.inr r.1)
    else pure (.inl (r.1, r.2.1))

/-- pkg/kmeans/rpc/client.go:218-222, the filtering loop of the client's `NearestCentroids` at index `i`; a centroid is given by its
datapoints, as they arrive. -/
def filterBody {α : Type} : Nat × List (List α) → Go ((Nat × List (List α)) ⊕ List (List α))
  | (i, resp) =>
    if i < resp.length then do
      let c ← Go.idx resp i
      if c.length = 0 then pure (.inl (i + 1, resp.take i ++ resp.drop (i + 1))) else pure (.inl (i + 1, resp))
    else pure (.inr resp)

/-- pkg/kmeans/rpc/server.go:376-390, the loop of `StealCentroid` while nothing else changes the nodes: the world and `TransferredN`. -/
def stealBody (env : Env) (a : Addr) (ns : NS) (src : Addr) (localVec : List F) (limit : Int) :
    World F × Nat → Go ((World F × Nat) ⊕ ((Bool × Nat) × World F))
  | (w, n) =>
    if (n : Int) < limit then do
      let q ← (Client.nearestCentroids env src ns localVec 1 true).run w
      match q.1.2 with
      | some (c :: cs) => do
        let k ← (Server.access a ns (fun m => pure (c.lenDP, { m with centroids := m.centroids ++ (c :: cs) }))).run q.2
        pure (.inl (k.2, n + k.1.getD 0))
      | _ => pure (.inr ((q.1.1, n), q.2))
    else pure (.inr ((false, n), w))

end Trypo.Spec
