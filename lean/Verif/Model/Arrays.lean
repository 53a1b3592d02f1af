import Verif.Model.Slice
import Verif.Model.Core

/-!
# Vectors and lists of addresses as arrays

`Model/MathUtils.lean`, `Model/KNN.lean` and `shuffleAddrs` of `Model/Core.lean` treat `[]float64`, `[]resultItem` and `[]Addr` as
lists. Here pkg/mathutils, pkg/searchutils and `shuffleAddrs` are written down once more as the loops over indexes that they are, on
slices of arrays in a memory: every access can be out of range, and every write can change what somebody else holds.
`Props/Arrays.lean` shows that the lists are right and that nothing that was there before is written to.

Simplifications. A generator is the list of slices that it yields. Arrays are never reclaimed. The answer `[]int` of a search is a list:
`resItems2Indexes` allocates enough capacity for its `append`s and hands the slice to nobody else.
-/

namespace Trypo
open GoFloat

namespace Arrays

/-- All arrays with elements of one type. -/
abbrev Heap (α : Type) := List (List α)

/-- A computation with the arrays. -/
abbrev HGo (α β : Type) : Type := StateT (Heap α) Go β

variable {F α σ : Type}

/-- A computation that does not use the arrays. -/
def lift {β : Type} (x : Go β) : HGo α β := fun m p =>
  match x p with
  | .ok (b, p') => .ok ((b, m), p')
  | .error e => .error e

/-- The elements of a slice. -/
def elems (m : Heap α) (s : Slice) : List α := (((m[s.arr]?).getD []).drop s.off).take s.len

/-- `make([]T, n)` with the zero value `z`. -/
def make (z : α) (n : Nat) : HGo α Slice := fun m p => .ok ((⟨m.length, 0, n, n⟩, m ++ [List.replicate n z]), p)

/-- `s[i]`. -/
def get (s : Slice) (i : Nat) : HGo α α := fun m p =>
  match (elems m s)[i]? with
  | some x => .ok ((x, m), p)
  | none => .error .index

/-- `s[i] = x`. -/
def put (s : Slice) (i : Nat) (x : α) : HGo α Unit := fun m p =>
  if i < (elems m s).length then .ok (((), m.set s.arr (((m[s.arr]?).getD []).set (s.off + i) x)), p) else .error .index

/-- `for i := ...; i < n; i++` with `r` rounds to go; `σ` are the local variables. -/
def loop (body : Nat → σ → HGo α σ) : Nat → Nat → σ → HGo α σ
  | 0, _, x => pure x
  | r + 1, i, x => do
    let y ← body i x
    loop body r (i + 1) y

/-- `copy(res, s)` for slices of the same length. -/
def copy (res s : Slice) : HGo α Unit :=
  loop (fun i _ => do put res i (← get s i)) s.len 0 ()

section
variable [GoFloat F]

/-- pkg/mathutils/vectools.go:69-75 `VecDivScalar`. -/
def vecDivScalar (v : Slice) (s : F) : HGo F Slice := do
  let res ← make zero v.len
  loop (fun i _ => do put res i (div (← get v i) s)) v.len 0 ()
  pure res

/-- pkg/mathutils/vectools.go:78-84 `VecMulScalar`. -/
def vecMulScalar (v : Slice) (s : F) : HGo F Slice := do
  let res ← make zero v.len
  loop (fun i _ => do put res i (mul (← get v i) s)) v.len 0 ()
  pure res

/-- pkg/mathutils/vectools.go:87-96 `VecAdd`; `none` is the nil slice with false. -/
def vecAdd (a b : Slice) : HGo F (Option Slice) :=
  if a.len ≠ b.len then pure none
  else do
    let res ← make zero a.len
    loop (fun i _ => do put res i (add (← get a i) (← get b i))) a.len 0 ()
    pure (some res)

/-- pkg/mathutils/vectools.go:99-108 `VecSub`; `none` is the nil slice with false. -/
def vecSub (a b : Slice) : HGo F (Option Slice) :=
  if a.len ≠ b.len then pure none
  else do
    let res ← make zero a.len
    loop (fun i _ => do put res i (sub (← get a i) (← get b i))) a.len 0 ()
    pure (some res)

/-- pkg/mathutils/vectools.go:36-42 `Vec`: the variadic arguments are a slice. -/
def vec (v : Slice) : HGo F Slice := do
  let res ← make zero v.len
  loop (fun i _ => do put res i (← get v i)) v.len 0 ()
  pure res

/-- pkg/mathutils/vectools.go:49-53: the loop of `VecEq` with `r` rounds to go. -/
def vecEqLoop (v w : Slice) : Nat → Nat → HGo F Bool
  | 0, _ => pure true
  | r + 1, i => do
    let x ← get v i
    let y ← get w i
    if eq x y then vecEqLoop v w r (i + 1) else pure false

/-- pkg/mathutils/vectools.go:45-55 `VecEq`. -/
def vecEq (v w : Slice) : HGo F Bool :=
  if v.len ≠ w.len then pure false else vecEqLoop v w v.len 0

/-- pkg/mathutils/vectools.go:58-65 `VecIn`. -/
def vecIn (v : Slice) : List Slice → HGo F Bool
  | [] => pure false
  | w :: ws => do if (← vecEq v w) then pure true else vecIn v ws

/-- pkg/mathutils/vectools.go:14-26: the loop of `VecMean` over what the generator still yields; the answer is `n`, or nothing for the
early return. -/
def vecMeanLoop (res : Slice) (n : F) : List Slice → HGo F (Option F)
  | [] => pure (some n)
  | v :: rest =>
    if v.len ≠ res.len then pure none
    else do
      loop (fun i _ => do put res i (add (← get res i) (← get v i))) res.len 0 ()
      vecMeanLoop res (add n (ofNat 1)) rest

/-- pkg/mathutils/vectools.go:4-33 `VecMean`; the slice of an empty generator is what it yields at its end, nil for those of this code. -/
def vecMean : List Slice → HGo F (Option Slice × Bool)
  | [] => pure (none, false)
  | v :: rest => do
    let res ← make zero v.len
    copy res v
    match (← vecMeanLoop res (ofNat 1) rest) with
    | none => pure (some res, false)
    | some n => do
      loop (fun i _ => do put res i (div (← get res i) n)) res.len 0 ()
      pure (some res, true)

/-- pkg/mathutils/distance.go:16-25 `EuclideanDistance`; `none` is the error return. -/
def euclideanDistance (v w : Slice) : HGo F (Option F) :=
  if v.len ≠ w.len then pure none
  else do
    let r ← loop (fun i r => do
      let x ← get v i
      let y ← get w i
      pure (add r (sqrt (mul (sub x y) (sub x y))))) v.len 0 zero
    pure (some r)

/-- pkg/mathutils/distance.go:28-34 `norm`. -/
def norm (v : Slice) : HGo F F := do
  let x ← loop (fun i r => do
    let x ← get v i
    pure (add r (mul x x))) v.len 0 zero
  pure (sqrt x)

/-- pkg/mathutils/distance.go:38-51 `CosineSimilarity`; `none` is the error return. -/
def cosineSimilarity (v w : Slice) : HGo F (Option F) :=
  if v.len ≠ w.len then pure none
  else do
    let n1 ← norm v
    let n2 ← norm w
    if eq n1 zero && eq n2 zero then pure (some zero)
    else do
      let d ← loop (fun i r => do
        let x ← get v i
        let y ← get w i
        pure (add r (mul x y))) v.len 0 zero
      pure (some (div (div d n1) n2))

/-- pkg/searchutils/knn.go:35-46 `bubble`, in place; the local variable is what `insertee` points to. -/
def bubble (insertee : ResultItem F) (items : Slice) (ascending : Bool) : HGo (ResultItem F) Unit := do
  let _ ← loop (fun i ins => do
    let it ← get items i
    let ins ← (if (lt it.score ins.score || !it.set) && !ascending then do put items i ins; pure it else pure ins)
    let it ← get items i
    if (lt ins.score it.score || !it.set) && ascending then do put items i ins; pure it else pure ins) items.len 0 insertee
  pure ()

/-- pkg/searchutils/knn.go:49-57 `resItems2Indexes`. -/
def resItems2Indexes (items : Slice) : HGo (ResultItem F) (List Nat) :=
  loop (fun i res => do
    let it ← get items i
    if it.set then pure (res ++ [it.index]) else pure res) items.len 0 []

/-- pkg/searchutils/knn.go:101-123: the loop of `KNNBrute` over what the generator still yields, `i` is the index of the next one. The
distance function works on the vectors, the rest on the array of items. -/
def knnLoop (target : Slice) (dist : Slice → Slice → HGo F (Option F)) (ascending : Bool) (res : Slice) (i : Nat) :
    List Slice → StateT (Heap F) (StateT (Heap (ResultItem F)) Go) Unit
  | [] => pure ()
  | v :: rest => do
    match (← (fun m items p => match dist target v m p with
        | .ok ((x, m'), p') => .ok (((x, m'), items), p')
        | .error e => .error e : StateT (Heap F) (StateT (Heap (ResultItem F)) Go) (Option F))) with
    | none => knnLoop target dist ascending res (i + 1) rest
    | some score => do
      if ascending && lt score (worstScore ascending) then StateT.lift (bubble ⟨i, score, true⟩ res true)
      if !ascending && lt (worstScore ascending) score then StateT.lift (bubble ⟨i, score, true⟩ res false)
      knnLoop target dist ascending res (i + 1) rest

/-- pkg/searchutils/knn.go:88-125 `KNNBrute`. -/
def knnBrute (target : Slice) (pool : List Slice) (k : Int) (ascending : Bool) (dist : Slice → Slice → HGo F (Option F)) :
    StateT (Heap F) (StateT (Heap (ResultItem F)) Go) (List Nat) := do
  StateT.lift (lift (Go.checkMake k))
  let res ← StateT.lift (make (⟨0, zero, false⟩ : ResultItem F) k.toNat)
  StateT.lift (loop (fun i _ => do put res i { (← get res i) with score := worstScore ascending }) k.toNat 0 ())
  knnLoop target dist ascending res 0 pool
  StateT.lift (resItems2Indexes res)

/-- pkg/searchutils/knn.go:130-138 `KNNCos`. -/
def knnCos (target : Slice) (pool : List Slice) (k : Int) : StateT (Heap F) (StateT (Heap (ResultItem F)) Go) (List Nat) :=
  knnBrute target pool k false cosineSimilarity

/-- pkg/searchutils/knn.go:141-149 `KFNCos`. -/
def kfnCos (target : Slice) (pool : List Slice) (k : Int) : StateT (Heap F) (StateT (Heap (ResultItem F)) Go) (List Nat) :=
  knnBrute target pool k true cosineSimilarity

/-- pkg/searchutils/knn.go:154-162 `KNNEuc`. -/
def knnEuc (target : Slice) (pool : List Slice) (k : Int) : StateT (Heap F) (StateT (Heap (ResultItem F)) Go) (List Nat) :=
  knnBrute target pool k true euclideanDistance

/-- pkg/searchutils/knn.go:165-173 `KFNEuc`. -/
def kfnEuc (target : Slice) (pool : List Slice) (k : Int) : StateT (Heap F) (StateT (Heap (ResultItem F)) Go) (List Nat) :=
  knnBrute target pool k false euclideanDistance

end

/-- core/dps/dps.go:25-35 `shuffleAddrs`. -/
def shuffleAddrs (env : Env) (addrs : Slice) : HGo Addr Slice := do
  let res ← make 0 addrs.len
  copy res addrs
  loop (fun i _ => do
    let j ← lift (env.intn addrs.len)
    let x ← get res j
    let y ← get res i
    put res i x
    put res j y) addrs.len 0 ()
  pure res

end Arrays

end Trypo
