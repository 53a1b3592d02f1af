import Verif.Model.TestNet
import Verif.Spec.System

/-!
# Property C99: the test network
-/

namespace Trypo
open Spec TestNet

theorem startNodes_some : ∀ (addrs : List Addr) (nodes : List (Addr × Node)) (bound : List Addr), addrs.Nodup → (∀ a ∈ addrs, a ∉ bound) →
    startNodes addrs nodes bound = some (nodes ++ addrs.map (fun a => (a, ⟨a, none⟩)), addrs.reverse ++ bound)
  | [], nodes, bound, _, _ => by simp [startNodes]
  | a :: rest, nodes, bound, hn, hb => by
    rw [List.nodup_cons] at hn
    have h : a ∉ bound := hb a (by simp)
    simp only [startNodes, Node.startListen, h, if_false]
    rw [startNodes_some rest _ _ hn.2 (fun x hx => ?_)]
    · simp
    · simp only [List.mem_cons, not_or]
      exact ⟨fun e => hn.1 (e ▸ hx), hb x (by simp [hx])⟩

theorem startNodes_none : ∀ (addrs : List Addr) (nodes : List (Addr × Node)) (bound : List Addr), ¬ (addrs.Nodup ∧ ∀ a ∈ addrs, a ∉ bound) →
    startNodes addrs nodes bound = none
  | [], _, _, h => absurd ⟨List.nodup_nil, by simp⟩ h
  | a :: rest, nodes, bound, h => by
    by_cases ha : a ∈ bound
    · simp [startNodes, Node.startListen, ha]
    · simp only [startNodes, Node.startListen, ha, if_false]
      refine startNodes_none rest _ _ (fun h' => h ⟨List.nodup_cons.2 ⟨fun hr => h'.2 a hr (by simp), h'.1⟩, fun x hx => ?_⟩)
      rcases List.mem_cons.1 hx with rfl | hx
      · exact ha
      · exact fun hb => h'.2 x hx (by simp [hb])

/-- C99, what holds: a network can be created exactly if its addresses are free and differ from each other; then there is a node at
each of them. -/
theorem C99_new (addrs bound : List Addr) : (∃ r, TestNet.new addrs bound = some r) ↔ addrs.Nodup ∧ ∀ a ∈ addrs, a ∉ bound := by
  refine ⟨fun ⟨r, hr⟩ => ?_, fun ⟨h1, h2⟩ => ⟨_, by rw [TestNet.new, startNodes_some addrs [] bound h1 h2]; rfl⟩⟩
  refine Classical.byContradiction (fun h => ?_)
  rw [TestNet.new, startNodes_none addrs [] bound h] at hr
  cases hr

theorem new_eq {addrs bound b' : List Addr} {tn : TNetwork} (h : TestNet.new addrs bound = some (tn, b')) :
    tn = ⟨addrs, addrs.map (fun a => (a, ⟨a, none⟩))⟩ ∧ b' = addrs.reverse ++ bound := by
  obtain ⟨h1, h2⟩ := (C99_new addrs bound).1 ⟨_, h⟩
  rw [TestNet.new, startNodes_some addrs [] bound h1 h2] at h
  simp only [List.nil_append, Option.map_some, Option.some.injEq, Prod.mk.injEq] at h
  exact ⟨h.1.symm, h.2.symm⟩

/-- C99, what holds: the nodes listen at the given addresses; `Reset` takes all namespaces away from every node of the network,
touches no other node, and leaves a state in which everything works; `UnwrapCM` gives the manager of a namespace at a node of
the network, nil if there is none, and panics for any other address. -/
theorem C99_partial {F : Type} [GoFloat F] {addrs bound b' : List Addr} {tn : TNetwork} (h : TestNet.new addrs bound = some (tn, b')) (w : World F) :
    (∀ a, a ∈ b' ↔ a ∈ addrs ∨ a ∈ bound) ∧
    (∀ a ns, (tn.reset w).get a ns = if a ∈ addrs then none else w.get a ns) ∧
    (∀ D, WorldOK D w → WorldOK D (tn.reset w)) ∧
    (∀ a ns, tn.unwrapCM w a ns = if a ∈ addrs then .ok (w.get a ns) else .error .nilDeref) := by
  obtain ⟨rfl, rfl⟩ := new_eq h
  have hm : (addrs.map (fun a => (a, (⟨a, none⟩ : Node)))).map (fun n => n.1) = addrs := by simp [List.map_map, Function.comp_def]
  refine ⟨fun a => by simp, fun a ns => ?_, fun D hw => ?_, fun a ns => by unfold TNetwork.unwrapCM; rw [hm]⟩
  · unfold TNetwork.reset World.get World.lookup
    simp only [hm]
    split <;> simp
  · unfold TNetwork.reset
    rw [hm]
    refine ⟨fun a => ?_, fun a ns i hi => ?_, fun a b ns i hi hj => ?_, hw.slots⟩
    · simp only
      split
      · simp
      · exact hw.keys a
    · simp only at hi
      split at hi
      · simp at hi
      · exact hw.points a ns i hi
    · simp only at hi hj
      split at hi
      · simp at hi
      · split at hj
        · simp at hj
        · exact hw.apart a b ns i hi hj

/-- C99 fails: `Stop` stops nothing, for any network. All its nodes go on listening. -/
theorem C99_refuted_stop {addrs bound b' : List Addr} {tn : TNetwork} (h : TestNet.new addrs bound = some (tn, b')) (now : List Addr) :
    tn.stop now = now := by
  obtain ⟨rfl, rfl⟩ := new_eq h
  clear h
  unfold TNetwork.stop
  induction addrs generalizing now with
  | nil => rfl
  | cons a rest ih =>
    simp only [List.map_cons, List.foldl_cons]
    exact ih now

/-- C99 fails: a network with a node cannot be created, stopped and created again: `NewTNetwork` panics. -/
theorem C99_refuted_again {addrs bound b' : List Addr} {tn : TNetwork} (h : TestNet.new addrs bound = some (tn, b')) (hne : addrs ≠ []) :
    TestNet.new addrs (tn.stop b') = none := by
  rw [C99_refuted_stop h]
  obtain ⟨a, ha⟩ := List.exists_mem_of_ne_nil _ hne
  cases hc : TestNet.new addrs b' with
  | none => rfl
  | some r =>
    have := ((C99_new addrs b').1 ⟨r, hc⟩).2 a ha
    exact absurd (((new_eq h).2 ▸ by simp [ha] : a ∈ b')) this

/-- C99: two nodes, created, stopped, and not created again; nor a network with an address twice. -/
example : (TestNet.new [1, 2] [7]).map (fun r => (r.2, r.1.stop r.2, TestNet.new [1, 2] (r.1.stop r.2))) = some ([2, 1, 7], [2, 1, 7], none) ∧
    TestNet.new [1, 2, 1] [7] = none := by decide

end Trypo
