import Verif.Model.Locks
import Verif.Spec.System

/-!
# Specification: deadlock, fairness, linearizability
-/

namespace Trypo.Spec

variable {F α : Type}

/-- Somebody has not returned, and everybody who has not waits for a lock that is held. -/
def Deadlocked (M : Mach F α) : Prop :=
  (∃ f ∈ M.ts, ¬ f.done) ∧ ∀ f ∈ M.ts, f.done ∨ ∃ l k, f = .lock l k ∧ M.held l = true

/-- A goroutine that holds the lock `h` and no other: it never asks for a lock while it has one, lets go only of what it
has, and returns without a lock. -/
def OneAtATime : Option Lock → Fine F α → Prop
  | h, .ret _ => h = none
  | h, .lock l k => h = none ∧ OneAtATime (some l) k
  | h, .unlock l k => h = some l ∧ OneAtATime none k
  | h, .step _ k => ∀ b, OneAtATime h (k b)

/-- Every one of the `n` goroutines gets its turn again and again. -/
def Fair (n : Nat) (s : Nat → Nat) : Prop := ∀ i < n, ∀ k, ∃ k', k ≤ k' ∧ s k' = i

/-- The requests that access their namespace once. The others are made of several accesses, to more than one node. -/
def Request.oneAccess : Request F → Prop
  | .distributeFast _ _ _ _ => False
  | .distributeAccurate _ _ _ _ => False
  | .stealCentroid _ _ _ _ _ => False
  | _ => True

/-- The goroutines below `n` in the order in which a schedule gives them their second steps, when `c i` steps have been
given to `i` before. A request that accesses an existing namespace once finds the slot with its first step and is done
with its second. -/
def seconds (n : Nat) : (Nat → Nat) → List Nat → List Nat
  | _, [] => []
  | c, i :: is => (if i < n ∧ c i = 1 then [i] else []) ++ seconds n (fun j => if j = i then c i + 1 else c j) is

end Trypo.Spec
