import Mathlib.Logic.Basic

/-!
# Starting and stopping a node: pkg/kmeans/rpc/rpc.go:215-243 `StartListen`

The accept loop is a goroutine of its own; the function `stop` runs in another one. Both use the listener and the
variable `conn` without a lock, so every access is a step of its own and the scheduler chooses whose step is next.

Simplifications. An assignment to `conn` is one step (it is two words in Go). Serving a connection
(net/rpc `ServeConn`) is a set of connections that are being served; a served connection that nobody has closed can have a request
handled at any time. A connection has the number in which it was accepted.
-/

namespace Trypo.Listen

/-- Where the accept loop is, pkg/kmeans/rpc/rpc.go:232-241. -/
inductive Acceptor where
  /-- At line 234, in `Accept`. -/
  | accept
  /-- At line 235, `conn = cxn`; nothing for an error. -/
  | assign (cxn : Option Nat)
  /-- At lines 236-239, the test of the error. -/
  | test (cxn : Option Nat)
  /-- Behind the loop. -/
  | ended
  deriving DecidableEq, Repr

/-- Where a call of `stop` is, pkg/kmeans/rpc/rpc.go:225-230. -/
inductive Stopper where
  /-- At line 226, `ln.Close()`. -/
  | closeLn
  /-- At line 227, `conn != nil`. -/
  | test
  /-- At line 228, `conn.Close()`. -/
  | closeConn
  /-- Returned. -/
  | returned
  deriving DecidableEq, Repr

/-- A node after `StartListen` returned. -/
structure State where
  /-- The listener is open. -/
  open_ : Bool
  /-- The variable `conn`, pkg/kmeans/rpc/rpc.go:224. -/
  conn : Option Nat
  acceptor : Acceptor
  /-- Connections accepted so far. -/
  accepted : Nat
  /-- Connections given to `ServeConn`, pkg/kmeans/rpc/rpc.go:239. -/
  serving : List Nat
  /-- Connections closed by either side. -/
  closed : List Nat
  /-- Calls of `stop`. -/
  stops : List Stopper
  /-- A goroutine panicked: the process is gone. -/
  crashed : Bool
  deriving DecidableEq, Repr

/-- After pkg/kmeans/rpc/rpc.go:242. -/
def init : State := ⟨true, none, .accept, 0, [], [], [], false⟩

/-- What is visible from outside. -/
inductive Event where
  | accepted (n : Nat)
  /-- `Accept` failed; was the listener still open? -/
  | acceptFailed (listening : Bool)
  | serving (n : Nat)
  | handled (n : Nat)
  | closed (n : Nat)
  | stopCalled
  | stopReturned
  | panicked
  deriving DecidableEq, Repr

/-- Whose step is next. -/
inductive Act where
  /-- `Accept` returns a connection. -/
  | connect
  /-- `Accept` returns an error (a closed listener, or the system is out of file descriptors, say). -/
  | fail
  /-- The accept loop goes on. -/
  | acceptor
  /-- A request on a connection is handled. -/
  | request (n : Nat)
  /-- The client closes a connection (pkg/kmeans/rpc/client.go:16-26 does after every call). -/
  | hangup (n : Nat)
  /-- Somebody calls `stop`. -/
  | callStop
  /-- The `i`-th call of `stop` goes on. -/
  | stopper (i : Nat)
  deriving DecidableEq, Repr

/-- One step; `none` if it is not possible now. -/
def step (s : State) (a : Act) : Option (State × List Event) :=
  if s.crashed then none
  else match a with
  | .connect =>
    if s.acceptor = .accept ∧ s.open_ then
      some ({ s with acceptor := .assign (some s.accepted), accepted := s.accepted + 1 }, [.accepted s.accepted])
    else none
  | .fail =>
    if s.acceptor = .accept then some ({ s with acceptor := .assign none }, [.acceptFailed s.open_])
    else none
  | .acceptor =>
    match s.acceptor with
    | .accept => none
    | .assign c => some ({ s with conn := c, acceptor := .test c }, [])
    | .test none => some ({ s with acceptor := .ended }, [])
    | .test (some n) => some ({ s with acceptor := .accept, serving := s.serving ++ [n] }, [.serving n])
    | .ended => none
  | .request n => if n ∈ s.serving ∧ n ∉ s.closed then some (s, [.handled n]) else none
  | .hangup n => if n < s.accepted ∧ n ∉ s.closed then some ({ s with closed := n :: s.closed }, [.closed n]) else none
  | .callStop => some ({ s with stops := s.stops ++ [.closeLn] }, [.stopCalled])
  | .stopper i =>
    match s.stops[i]? with
    | some .closeLn => some ({ s with open_ := false, stops := s.stops.set i .test }, [])
    | some .test =>
      match s.conn with
      | none => some ({ s with stops := s.stops.set i .returned }, [.stopReturned])
      | some _ => some ({ s with stops := s.stops.set i .closeConn }, [])
    | some .closeConn =>
      match s.conn with
      | none => some ({ s with crashed := true }, [.panicked])
      | some n => some ({ s with closed := n :: s.closed, stops := s.stops.set i .returned }, [.closed n, .stopReturned])
    | some .returned => none
    | none => none

/-- Any number of steps, and what was visible. -/
def run : List Act → State → Option (State × List Event)
  | [], s => some (s, [])
  | a :: as, s =>
    match step s a with
    | none => none
    | some (s', es) =>
      match run as s' with
      | none => none
      | some (s'', fs) => some (s'', es ++ fs)

end Trypo.Listen
