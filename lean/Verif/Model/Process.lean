import Verif.Model.System

/-!
# Starting a service: core/api/api.go:41-56 `Start`, core/api/handler.go:21-30 `setRoutes`, cmd/service/service.go:12-52 `main`

`setRoutes` registers the handlers with `http.Handle`, so in `http.DefaultServeMux`, which belongs to the process and which all
servers use that are started without a handler of their own, as in core/api/api.go:49-53. `http.Handle` panics when the path is
registered already. Several calls of `Start` may be under way at the same time; `http.Handle` is atomic (it takes the lock of the
mux), `net.Listen` is as well.

Simplifications. Addresses are numbers. `Start` never gets beyond serving: `ListenAndServe` returns only when listening fails
(nobody calls `Shutdown` or `Close`, the server is a local variable). A panic ends the process if nobody recovers; here the other
calls may go on, as they would if the caller recovers. The messages of core/api/handler.go:28 are left out.
-/

namespace Trypo.Process

/-- The paths of core/api/handler.go:22-25. -/
inductive Route where
  | put | query
  deriving DecidableEq, Repr

/-- core/api/api.go:19-31 `APIConfig`, without the time limits; `none` is nil. -/
structure APIConfig where
  addr : Addr
  rpcAddrs : Option (List Addr)
  deriving DecidableEq, Repr

/-- Where a call of `Start` is. -/
inductive At where
  /-- At core/api/api.go:42, `cfg.check()`. -/
  | check
  /-- In the loop at core/api/handler.go:26-29; these routes are still to be registered. -/
  | register (todo : List Route)
  /-- In `ListenAndServe`, core/api/api.go:55, before the listener is there. -/
  | listen
  /-- Accepting connections. -/
  | serving
  /-- `Start` returned an error. -/
  | failed
  /-- `Start` panicked. -/
  | panicked
  deriving DecidableEq, Repr

/-- A call of `Start`. -/
structure Call where
  cfg : APIConfig
  /-- The order in which the `range` over the map at core/api/handler.go:26 gives the routes: any order is possible. -/
  order : List Route
  pc : At
  deriving DecidableEq, Repr

/-- A process. -/
structure State where
  /-- The addresses that somebody listens at, in this process or in another one. -/
  bound : List Addr
  /-- `http.DefaultServeMux`: for each path the addresses of the handler, core/api/handler.go:13-19. -/
  mux : List (Route × List Addr)
  calls : List Call
  deriving DecidableEq, Repr

/-- What happens. -/
inductive Ev where
  /-- `Start` is called. -/
  | call (cfg : APIConfig) (order : List Route)
  /-- The call with this number goes on. -/
  | step (i : Nat)
  /-- Somebody else starts listening at an address. -/
  | taken (a : Addr)
  /-- Somebody stops listening at an address. -/
  | free (a : Addr)
  deriving DecidableEq, Repr

/-- A step of a call: core/api/api.go:33-38 `check` and 42-44; an `http.Handle` of core/api/handler.go:27; or the `net.Listen` in
`ListenAndServe`, core/api/api.go:55. The new address list, the new mux, and where the call is then. -/
def next (bound : List Addr) (mux : List (Route × List Addr)) (c : Call) : List Addr × List (Route × List Addr) × At :=
  match c.pc with
  | .check =>
    match c.cfg.rpcAddrs with
    | none => (bound, mux, .failed)
    | some _ => (bound, mux, .register c.order)
  | .register (r :: rest) =>
    if r ∈ mux.map (fun x => x.1) then (bound, mux, .panicked)
    else (bound, mux ++ [(r, c.cfg.rpcAddrs.getD [])], .register rest)
  | .register [] => (bound, mux, .listen)
  | .listen => if c.cfg.addr ∈ bound then (bound, mux, .failed) else (c.cfg.addr :: bound, mux, .serving)
  | .serving => (bound, mux, .serving)
  | .failed => (bound, mux, .failed)
  | .panicked => (bound, mux, .panicked)

/-- An event. -/
def State.happen (s : State) : Ev → State
  | .call cfg order => { s with calls := s.calls ++ [⟨cfg, order, .check⟩] }
  | .step i =>
    match s.calls[i]? with
    | none => s
    | some c =>
      let r := next s.bound s.mux c
      ⟨r.1, r.2.1, s.calls.set i { c with pc := r.2.2 }⟩
  | .taken a => { s with bound := a :: s.bound }
  | .free a => { s with bound := s.bound.filter (fun x => x ≠ a) }

/-- Any number of events. -/
def State.run : List Ev → State → State
  | [], s => s
  | e :: es, s => State.run es (s.happen e)

/-- A process when it begins: nothing is registered; other processes may listen already. -/
def State.new (bound : List Addr) : State := ⟨bound, [], []⟩

/-- What becomes of a request for a path at a server of this process: every one of them uses the same mux. The addresses are those
that the handler puts to or queries (core/api/handler.go:64, 109); `none` is status 404. -/
def State.answers (s : State) (path : Route) : Option (List Addr) := (s.mux.find? (fun x => x.1 = path)).map (fun x => x.2)

/-- How cmd/service/service.go:12-52 `main` goes on. -/
inductive MainEnd where
  /-- Line 34: `panic("failed to start rpc node")`. -/
  | noNode
  /-- Line 50: `panic(err)`, with the error of `api.Start`. -/
  | noAPI
  /-- `api.Start` panicked. -/
  | panicked
  /-- The node listens, the event loop runs and the API serves; `main` stays at line 43. -/
  | up
  deriving DecidableEq, Repr

/-- The addresses of cfg/cfg.go:24-33: where the node listens, the addresses of all nodes, where the API listens. -/
structure MainConfig where
  localRPC : Addr
  otherRPC : Option (List Addr)
  localAPI : Addr
  deriving DecidableEq, Repr

/-- cmd/service/service.go:12-52 `main`, in a new process: how it ends, and in what state. Lines 31-36: the node;
lines 39-40: the event loop, which cannot fail (core/eventloop/cfg.go:155-168, the pointer is not nil); lines 43-51: the API.
The deferred `rpcStop` (line 36) gives the address of the node free when `main` panics. -/
def main (cfg : MainConfig) (order : List Route) (bound : List Addr) : MainEnd × State :=
  if cfg.localRPC ∈ bound then (.noNode, State.new bound)
  else
    let s := State.run (.call ⟨cfg.localAPI, cfg.otherRPC⟩ order :: List.replicate (order.length + 3) (.step 0)) (State.new (cfg.localRPC :: bound))
    match s.calls[0]?.map Call.pc with
    | some At.serving => (.up, s)
    | some At.failed => (.noAPI, s.happen (.free cfg.localRPC))
    | _ => (.panicked, s.happen (.free cfg.localRPC))

end Trypo.Process
