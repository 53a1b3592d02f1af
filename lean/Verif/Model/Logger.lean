import Verif.Model.Tasks

/-!
# core/eventloop/log.go: the default logger

Simplifications. Lines are records instead of formatted text; clearing the terminal (core/eventloop/log.go:61-65) is left out. The
text of a task is of any type `T`.
-/

namespace Trypo.EventLoop

/-- core/eventloop/log.go:46-51 `defaultLogger`. `items` are the assignments to the map `metaData.Items`, in order
(core/eventloop/eltask.go:230-236). -/
structure Logger where
  localOnly : Bool
  localAddr : Addr
  globalAddrs : List Addr
  items : List (Addr × List (NS × Nat × Nat))

/-- core/eventloop/cfg.go:155-165 `validate`: the logger of a configuration with none. -/
def Logger.new (cfg : Config) : Logger := ⟨cfg.logLocalOnly, cfg.loc, cfg.remotes, []⟩

/-- core/eventloop/log.go:53 `LogMeta`. -/
def Logger.logMeta (l : Logger) (m : List (Addr × List (NS × Nat × Nat))) : Logger := { l with items := m }

/-- A printed line, core/eventloop/log.go:57, 92-101. -/
structure Line (T : Type) where
  addr : Addr
  /-- namespaces, centroids and datapoints -/
  totals : Option (Nat × Nat × Nat)
  task : Option T
  deriving DecidableEq, Repr

/-- `l.metaData.Items[addr]`: the last assignment counts; empty maps if there is none. -/
def Logger.item (l : Logger) (a : Addr) : List (NS × Nat × Nat) :=
  match l.items.reverse.find? (fun e => e.1 = a) with
  | some e => e.2
  | none => []

/-- The loops of core/eventloop/log.go:79-87. -/
def addUp (f : Nat × Nat → Nat) (m : List (NS × Nat × Nat)) : Nat := m.foldl (fun n e => n + f e.2) 0

/-- core/eventloop/log.go:55-104 `LogTask`. -/
def Logger.logTask {T : Type} (l : Logger) (s : T) : List (Line T) :=
  if l.items.length = 0 then [⟨l.localAddr, none, some s⟩]
  else l.globalAddrs.filterMap (fun a =>
    if l.localOnly && !decide (a = l.localAddr) then none
    else some ⟨a, some ((l.item a).length, addUp (fun q => q.1) (l.item a), addUp (fun q => q.2) (l.item a)),
      if a = l.localAddr then some s else none⟩)

/-- The calls of `LogMeta` and `LogTask` during a run, in order. -/
inductive LogCall (T : Type) where
  | meta_ (m : List (Addr × List (NS × Nat × Nat)))
  | task (s : T)

/-- All calls, with everything that is printed. -/
def Logger.calls {T : Type} : List (LogCall T) → Logger → Logger × List (Line T)
  | [], l => (l, [])
  | .meta_ m :: cs, l => Logger.calls cs (l.logMeta m)
  | .task s :: cs, l =>
    let r := Logger.calls cs l
    (r.1, l.logTask s ++ r.2)

end Trypo.EventLoop
