import Verif.Model.System

/-!
# Mutexes: goroutines interleaved inside their critical sections

In `Verif/Model/System.lean` a critical section is a single action. Here it is not: a goroutine locks a mutex, reads,
writes and unlocks in separate steps, and any other goroutine may make steps in between. Nothing in this machine keeps a
program from reading or writing without a lock, from holding two locks, or from waiting for a lock while it holds one.
-/

namespace Trypo

/-- The mutexes: that of the table of the server at `a` (pkg/kmeans/rpc/rpc.go:121-124), that of the slot `i`
(rpc.go:102-105). -/
inductive Lock where
  | table (a : Addr)
  | slot (i : Nat)
  deriving DecidableEq

/-- A goroutine in small steps: it locks or unlocks a mutex, or it does something to the memory. -/
inductive Fine (F : Type) (α : Type) : Type 1
  | ret (a : α)
  | lock (l : Lock) (k : Fine F α)
  | unlock (l : Lock) (k : Fine F α)
  | step {β : Type} (g : World F → Go (β × World F)) (k : β → Fine F α)

namespace Fine

variable {F α : Type}

/-- The entry of the table of `a` for `ns` is read. -/
def readEntry (a : Addr) (ns : NS) (w : World F) : Go (Option Nat × World F) := pure (w.lookup a ns, w)

/-- The keys of the table of `a` are read. -/
def readNames (a : Addr) (w : World F) : Go (List NS × World F) := pure ((w.table a).map (fun e => e.1), w)

/-- The table of `a` is read. -/
def readTable (a : Addr) (w : World F) : Go (List (NS × Nat) × World F) := pure (w.table a, w)

/-- The table of `a`, as it was read (`t`), is written back with an entry for a new slot. -/
def writeTable (a : Addr) (ns : NS) (m : Manager F) (t : List (NS × Nat)) (w : World F) : Go (Unit × World F) :=
  pure ((), {
    table := fun b => if b = a then (ns, w.heap.length) :: t.filter (fun e => e.1 ≠ ns) else w.table b
    heap := w.heap ++ [(ns, m)] })

/-- The content of slot `i` is read. -/
def readSlot (i : Nat) (w : World F) : Go ((NS × Manager F) × World F) :=
  match w.heap[i]? with
  | none => Go.panic .nilDeref
  | some s => pure (s, w)

/-- The content of slot `i`, as it was read (`s`), is written back after an operation `f` on it. -/
def writeSlot {β : Type} (i : Nat) (f : Manager F → Go (β × Manager F)) (s : NS × Manager F) (w : World F) :
    Go (β × World F) := do
  let r ← f s.2
  pure (r.1, { w with heap := w.heap.set i (s.1, r.2) })

/-- A computation on data of the goroutine. -/
def compute {β : Type} (m : Go β) (w : World F) : Go (β × World F) := do
  let r ← m
  pure (r, w)

/-- Something is written to the manager in slot `i`. -/
def writeMid (i : Nat) (s : NS × Manager F) (m : Manager F) (w : World F) : Go (Unit × World F) :=
  pure ((), { w with heap := w.heap.set i (s.1, m) })

/-- The managers `ms` are written to slot `i` one after the other. -/
def scribble (i : Nat) (s : NS × Manager F) : List (Manager F) → Fine F α → Fine F α
  | [], k => k
  | m :: ms, k => .step (writeMid i s m) (fun _ => scribble i s ms k)

/-- What an operation on a slot writes to it before it is done: any number of half-finished managers, depending on the
operation and what it found. The code changes the manager in place, many times between lock and unlock. -/
abbrev Mids (F : Type) := {β : Type} → (Manager F → Go (β × Manager F)) → Manager F → List (Manager F)

/-- The critical sections in small steps. pkg/kmeans/rpc/rpc.go:159-162 (lookup), 111-114 (slot), 178-180 (`AddSlot`),
136-146 and server.go:24-31, 410-415 (names). An operation on a slot computes on what was read when the section was
entered, leaves half-finished managers in the slot, and writes its result at the end: were anybody to get in between,
they would see those, and what they wrote would be lost. -/
def sect (mid : Mids F) : {β : Type} → Act F β → (β → Fine F α) → Fine F α
  | _, .lookup a ns, k => .lock (.table a) (.step (readEntry a ns) (fun r => .unlock (.table a) (k r)))
  | _, .slot i f, k =>
    .lock (.slot i) (.step (readSlot i) (fun s => scribble i s (mid f s.2)
      (.step (writeSlot i f s) (fun r => .unlock (.slot i) (k r)))))
  | _, .addSlot a ns m, k =>
    .lock (.table a) (.step (readTable a) (fun t => .step (writeTable a ns m t) (fun r => .unlock (.table a) (k r))))
  | _, .names a, k => .lock (.table a) (.step (readNames a) (fun r => .unlock (.table a) (k r)))
  | _, .loc m, k => .step (compute m) k

/-- A goroutine of `Verif/Model/System.lean` in small steps. -/
def ofProg (mid : Mids F) : Prog F α → Fine F α
  | .ret a => .ret a
  | .act a k => sect mid a (fun r => ofProg mid (k r))

/-- The goroutine has returned. -/
def done : Fine F α → Prop
  | .ret _ => True
  | _ => False

end Fine

/-- Goroutines, mutexes, memory, position. -/
structure Mach (F α : Type) where
  ts : List (Fine F α)
  held : Lock → Bool
  w : World F
  p : Nat

namespace Mach

variable {F α : Type}

/-- Nobody holds a lock. -/
def init (ts : List (Fine F α)) (w : World F) (p : Nat) : Mach F α := ⟨ts, fun _ => false, w, p⟩

/-- The goroutine `i` gets to make a step. One that wants a lock that is held waits. `sync.Mutex` has no owner; unlocking
one that is not locked is fatal. -/
def step (M : Mach F α) (i : Nat) : Except Panic (Mach F α) :=
  match M.ts[i]? with
  | none => .ok M
  | some (.ret _) => .ok M
  | some (.lock l k) =>
    if M.held l then .ok M
    else .ok { M with ts := M.ts.set i k, held := fun l' => if l' = l then true else M.held l' }
  | some (.unlock l k) =>
    if M.held l then .ok { M with ts := M.ts.set i k, held := fun l' => if l' = l then false else M.held l' }
    else .error .user
  | some (.step g k) =>
    match g M.w M.p with
    | .ok (r, p') => .ok { M with ts := M.ts.set i (k r.1), w := r.2, p := p' }
    | .error e => .error e

/-- A run. -/
def run : List Nat → Mach F α → Except Panic (Mach F α)
  | [], M => .ok M
  | i :: is, M =>
    match M.step i with
    | .ok M' => run is M'
    | .error e => .error e

end Mach

end Trypo
