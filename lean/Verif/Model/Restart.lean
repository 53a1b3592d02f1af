import Verif.Model.EventLoop

/-!
# core/eventloop/el.go: several event loops with the same configuration

`EventLoop` takes a pointer, and what belongs to a loop (`stopped`, `iter`) is kept in the configuration
(core/eventloop/cfg.go:81-84, 151-152). So all loops that were ever started with a configuration share them.

Simplifications as in `Verif/Model/EventLoop.lean`; in particular the tick (lines 48-51) is one step.
-/

namespace Trypo.EventLoop

/-- A configuration and the goroutines that were started with it. -/
structure Shared where
  /-- `cfg.TaskSkip` -/
  skip : SkipConfig
  /-- `cfg.internal.stopped` -/
  stopped : Bool
  /-- `cfg.internal.iter` -/
  iter : Int
  loops : List PC
  deriving DecidableEq, Repr

/-- What happens. -/
inductive SharedEv where
  /-- `EventLoop(cfg)` is called -/
  | start
  /-- the function is called that `EventLoop` gave back for the loop with this number -/
  | stop (i : Nat)
  /-- the goroutine of this loop makes a step -/
  | step (i : Nat)
  deriving DecidableEq, Repr

/-- core/eventloop/el.go:25-58 `EventLoop`: line 26 and the go statement; line 56; or a step of a goroutine. Nothing happens any more
once a goroutine has panicked. -/
def Shared.next (s : Shared) : SharedEv → Shared × List (Nat × Event)
  | .start => if .crashed ∈ s.loops then (s, []) else ({ s with skip := validate s.skip, loops := s.loops ++ [.head] }, [])
  | .stop _ => if .crashed ∈ s.loops then (s, []) else ({ s with stopped := true }, [])
  | .step i =>
    if .crashed ∈ s.loops then (s, [])
    else match s.loops[i]? with
      | none => (s, [])
      | some pc =>
        let r := EventLoop.step s.skip s.stopped ⟨pc, s.iter⟩
        ({ s with iter := r.1.iter, loops := s.loops.set i r.1.pc }, r.2.map (fun e => (i, e)))

/-- Any number of steps; the events, with the number of the loop. -/
def Shared.run : List SharedEv → Shared → Shared × List (Nat × Event)
  | [], s => (s, [])
  | e :: es, s =>
    let r := s.next e
    let q := Shared.run es r.1
    (q.1, r.2 ++ q.2)

/-- A new configuration, core/eventloop/cfg.go:81-84: `stopped` is false and `iter` is 0. -/
def Shared.new (skip : SkipConfig) : Shared := ⟨skip, false, 0, []⟩

end Trypo.EventLoop
