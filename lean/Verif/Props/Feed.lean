import Verif.Proofs.Feed
import Verif.Props.Rest

/-!
# C95: load balancing feeds a node that is short of datapoints
-/

set_option linter.unusedSectionVars false
set_option linter.unusedVariables false
set_option linter.unusedSimpArgs false

namespace Trypo
open GoFloat Spec EventLoop

section
variable {F : Type} [GoFloat F] [LawfulCmp F]

theorem dps_le_storedAt {w : World F} {nodes : List Addr} {a : Addr} (ha : a ∈ nodes) {ns : NS} {c : Centroid F} (hc : c ∈ centroidsAt w a ns) :
    c.dps.length ≤ (storedAt w nodes ns).length := by
  cases hg : w.get a ns with
  | none => rw [centroidsAt_none hg] at hc; cases hc
  | some m =>
    rw [centroidsAt_some hg] at hc
    have h1 : c.dps.Sublist (stored m) := by
      unfold stored
      obtain ⟨l1, l2, e⟩ := List.append_of_mem hc
      rw [e]
      simp only [List.flatMap_append, List.flatMap_cons]
      exact (List.sublist_append_left _ _).trans (List.sublist_append_right _ _)
    have h2 : (stored m).Sublist (storedAt w nodes ns) := by
      unfold storedAt
      obtain ⟨l1, l2, e⟩ := List.append_of_mem ha
      rw [e]
      simp only [List.flatMap_append, List.flatMap_cons, hg]
      exact (List.sublist_append_left _ _).trans (List.sublist_append_right _ _)
    exact (h1.trans h2).length_le

/-- **C95, what holds.** A node that has less than three fifths of the average number of datapoints and runs its load-balancing task gets
at least a third of its share of what it lacks, if another node can spare that much. This supposes that the nodes reach each other,
that no datapoint expires, that no other node has an empty centroid, and that the search always finds a centroid. (The last
hypothesis is about the model: it gives the loop of `StealCentroid` enough fuel.) Missing: the hypotheses on the centroids and on
the search; without the latter it is false (`C95_refuted`). -/
theorem C95_feeds_partial {env : Env} (he : EnvOK env) {fac : Factory F} (hf : FactoryOK fac) {D : NS → Nat} (hD : ∀ ns, D ns ≠ 0) {nodes : List Addr} {w : World F}
    (hw : WorldOK D w) (hr : NoLostReplies env) (hn : nodes.Nodup) (hreach : ∀ a ∈ nodes, Reachable env a)
    (hstay : ∀ ns, ∀ d ∈ storedAt w nodes ns, d.expireEnabled = false) (hexact : ∀ ns, (storedAt w nodes ns).length < 2 ^ 50)
    (hfinds : AlwaysFinds (knnCos : Search F)) {cfg : Config} (ha : cfg.loc ∈ nodes) (hrem : cfg.remotes.Perm nodes)
    (hfull : ∀ ns, ∀ b ∈ nodes, b ≠ cfg.loc → ∀ m, w.get b ns = some m → ∀ c ∈ m.centroids, c.dps ≠ [])
    {fuel : Nat} (hfuel : ∀ ns, ((nodes.flatMap (fun a => centroidsAt w a ns)).length < fuel)) (p : Nat) :
    ∃ report w' p', (task env fac fuel cfg .loadBalancing).run w p = .ok ((report, w'), p') ∧ ∀ ns n, Short w nodes cfg.loc ns n →
      ((storedAt w [cfg.loc] ns).length : Int) + n ≤ (storedAt w' [cfg.loc] ns).length := by
  have hq : Quiet D nodes (fun ns => (storedAt w nodes ns).length) (fun ns => (storedAt w nodes ns).length) fuel w := by
    refine ⟨hw, fun a ha ns d hd => hstay ns d ?_, fun a ha ns c hcm => dps_le_storedAt ha hcm, fun ns => (storedAt_length w nodes ns).symm, fun ns => ?_⟩
    · unfold storedAt at hd ⊢
      simp only [List.flatMap_cons, List.flatMap_nil, List.append_nil] at hd
      exact List.mem_flatMap.2 ⟨a, ha, hd⟩
    · have := hfuel ns
      rw [List.length_flatMap] at this
      have e : ∀ l : List Addr, (l.map (fun a => ((centroidsAt w a ns).length : Int))).sum = ((l.map (fun a => (centroidsAt w a ns).length)).sum : Nat) := by
        intro l
        induction l with
        | nil => rfl
        | cons a l ih => simp only [List.map_cons, List.sum_cons, ih]; push_cast; rfl
      rw [e]; exact_mod_cast this
  obtain ⟨⟨report, w'⟩, p', h1, h2⟩ := Go.wp_iff.1 (wp_task_feed he hf hr hn hreach ha hfinds (fun ns => by exact_mod_cast hexact ns) hrem hD hq
    (fun ns b hb hbl c hc => by
      cases hg : w.get b ns with
      | none => rw [centroidsAt_none hg] at hc; cases hc
      | some m => rw [centroidsAt_some hg] at hc; exact hfull ns b hb hbl m hg c hc) p)
  exact ⟨report, w', p', h1, h2⟩

end

open ServerExample JobsExample RestExample

namespace FeedExample

/-- Twelve datapoints are put at node 1, then node 2 balances. -/
def lopsided : Prog F64 (List (Answer F64) × Report) := do
  let l ← Prog.each (fun r => r.serve env fac) (List.replicate 12 (Request.add 1 7 (dp 1 1)))
  let r ← task env fac 10 (balanceAt 2) .loadBalancing
  pure (l, r)
/-- The nodes after that. -/
def starved : World F64 := match lopsided.run start 0 with
  | .ok ((_, w), _) => w
  | .error _ => start
/-- How many positions a run of the task at node 1 takes. -/
def askSteps : Nat := match (task env fac 10 (balanceAt 1) .loadBalancing).run starved 0 with
  | .ok (_, p) => p
  | .error _ => 0

set_option maxRecDepth 100000 in
theorem lopsided_run : ∃ out p, lopsided.run start 0 = .ok ((out, starved), p) := by
  have h : (match lopsided.run start 0 with | .ok _ => true | .error _ => false) = true := by decide +kernel
  unfold starved
  revert h
  cases lopsided.run start 0 with
  | error e => intro h; cases h
  | ok r => obtain ⟨⟨out, w⟩, p⟩ := r; exact fun _ => ⟨out, p, rfl⟩

set_option maxRecDepth 100000 in
theorem ask_run (p : Nat) : (task env fac 10 (balanceAt 1) .loadBalancing).run starved p =
    .ok ((.balanced [(7, [(1, 0), (2, 12)], [⟨2, 1, 0⟩])], starved), p + askSteps) := by
  kernel_rfl

theorem starved_short : Short starved [1, 2] 1 7 1 :=
  ⟨by decide +kernel, by decide +kernel, by decide, ⟨2, by decide, by decide, by decide +kernel⟩⟩

end FeedExample
open FeedExample

/-- **C95 fails.** Twelve datapoints are put at node 1, all the same; then node 2 balances, and fetches the only centroid with all of
them. From then on node 1 has no datapoints, it lacks six, node 2 could spare one, and however often node 1 balances, it asks for
one and gets none: the vector of its namespace is the mean of no vectors, which is not a number, and no centroid is near it. -/
theorem C95_refuted : (∃ out p, lopsided.run start 0 = .ok ((out, starved), p)) ∧ Short starved [1, 2] 1 7 1 ∧
    ∀ n p, ∃ p', (Prog.each (fun cfg => task env fac 10 cfg .loadBalancing) (List.replicate n (balanceAt 1))).run starved p =
      .ok ((List.replicate n (.balanced [(7, [(1, 0), (2, 12)], [⟨2, 1, 0⟩])]), starved), p') := by
  refine ⟨lopsided_run, starved_short, fun n => ?_⟩
  induction n with
  | zero => exact fun p => ⟨p, rfl⟩
  | succ n ih =>
    intro p
    obtain ⟨p', h⟩ := ih (p + askSteps)
    refine ⟨p', ?_⟩
    rw [List.replicate_succ, List.replicate_succ]
    show (Prog.each _ (_ :: _)).run _ _ = _
    unfold Prog.each
    rw [run_bind_ok (ask_run p), run_bind_ok h]
    rfl

namespace FeedExample

/-- Thirty datapoints at node 1, one per centroid; node 2 has the namespace and no datapoints. -/
noncomputable def wealthy : World ℝ := nodes2 (man [1, 0] (List.replicate 30 (cen [1, 0] [rdp 1 0]))) (man [0, 1] []) (man [3, 4] [])

theorem wealthy_ok : WorldOK (fun _ => 2) wealthy :=
  nodes2_ok (man_mok rfl (by simp [cen, rdp]) (by simp [cen])) (man_mok rfl (by simp) (by simp)) (man_mok rfl (by simp) (by simp))

theorem wealthy_get {a : Addr} {ns : NS} {m : Manager ℝ} (h : wealthy.get a ns = some m) :
    (a = 1 ∧ ns = 7 ∧ m = man [1, 0] (List.replicate 30 (cen [1, 0] [rdp 1 0]))) ∨ m.centroids = [] := by
  obtain ⟨i, hl, hi⟩ := lookup_of_get wealthy_ok h
  have hm : (ns, i) ∈ wealthy.table a := by
    unfold World.lookup at hl
    exact mem_of_lookup hl
  rcases nodes2_table hm with ⟨rfl, rfl, rfl⟩ | ⟨rfl, rfl, rfl⟩ | ⟨rfl, rfl, rfl⟩
  · cases hi; exact .inl ⟨rfl, rfl, rfl⟩
  · cases hi; exact .inr rfl
  · cases hi; exact .inr rfl

theorem wealthy_one : wealthy.get 1 7 = some (man [1, 0] (List.replicate 30 (cen [1, 0] [rdp 1 0]))) := rfl
theorem wealthy_two : wealthy.get 2 7 = some (man [0, 1] []) := rfl

theorem wealthy_sizes : (storedAt wealthy [1] 7).length = 30 ∧ (storedAt wealthy [2] 7).length = 0 ∧ (storedAt wealthy [1, 2] 7).length = 30 := by
  simp [storedAt, wealthy_one, wealthy_two, stored, man, cen, List.length_flatMap]

theorem wealthy_short : Short wealthy [1, 2] 2 7 2 := by
  have hm : meanAt wealthy [1, 2] 7 = 15 := by
    unfold meanAt
    rw [wealthy_sizes.2.2, show [1, 2].filter (fun a => (wealthy.get a 7).isSome) = [1, 2] by
      rw [List.filter_cons, List.filter_cons, wealthy_one, wealthy_two]; rfl]
    rfl
  refine ⟨?_, ?_, by decide, ⟨1, by simp, by decide, ?_⟩⟩
  · rw [hm, wealthy_sizes.2.1]; decide
  · rw [hm, wealthy_sizes.2.1]; decide
  · rw [hm, wealthy_sizes.1]; decide

end FeedExample

/-- C95: with exact arithmetic, node 2 gets at least two of the thirty datapoints of node 1. -/
example : ∃ report w' p', (task env ⟨10, 100, knnCos, kfnCos⟩ 100 (balanceAt 2) .loadBalancing).run wealthy 0 = .ok ((report, w'), p') ∧
    2 ≤ (storedAt w' [2] 7).length := by
  have hstored : ∀ a ns, ∀ d ∈ storedAt wealthy [a] ns, d.expireEnabled = false := by
    intro a ns d hd
    cases hg : wealthy.get a ns with
    | none => rw [storedAt_none hg] at hd; cases hd
    | some m =>
      rw [storedAt_one hg] at hd
      rcases wealthy_get hg with ⟨_, _, rfl⟩ | h
      · simp [stored, man, cen, rdp] at hd
        rw [hd]
      · simp [stored, h] at hd
  have hlen : ∀ a ns, (storedAt wealthy [a] ns).length ≤ 30 := by
    intro a ns
    cases hg : wealthy.get a ns with
    | none => rw [storedAt_none hg]; simp
    | some m =>
      rw [storedAt_one hg]
      rcases wealthy_get hg with ⟨_, _, rfl⟩ | h
      · simp [stored, man, cen, List.length_flatMap]
      · simp [stored, h]
  have hcs : ∀ a ns, (centroidsAt wealthy a ns).length ≤ 30 := by
    intro a ns
    cases hg : wealthy.get a ns with
    | none => rw [centroidsAt_none hg]; simp
    | some m =>
      rw [centroidsAt_some hg]
      rcases wealthy_get hg with ⟨_, _, rfl⟩ | h
      · simp [man]
      · simp [h]
  have hsplit : ∀ ns, storedAt wealthy [1, 2] ns = storedAt wealthy [1] ns ++ storedAt wealthy [2] ns := fun ns => by simp [storedAt]
  obtain ⟨report, w', p', h1, h2⟩ := C95_feeds_partial env_ok (fac := ⟨10, 100, knnCos, kfnCos⟩) ⟨by decide, rfl, rfl⟩ (D := fun _ => 2) (by simp)
    (nodes := [1, 2]) wealthy_ok (fun _ _ => rfl) (by simp) (fun a _ => ⟨fun _ => rfl, fun _ => rfl⟩)
    (fun ns d hd => by
      rw [hsplit] at hd
      exact (List.mem_append.1 hd).elim (hstored 1 ns d) (hstored 2 ns d))
    (fun ns => by
      have := hlen 1 ns
      have := hlen 2 ns
      rw [hsplit, List.length_append]; omega)
    knnCos_alwaysFinds (cfg := balanceAt 2) (by simp [balanceAt]) (.refl _)
    (fun ns b hb hbl m hg c hc => by
      rcases wealthy_get hg with ⟨_, _, rfl⟩ | h
      · simp only [man, List.mem_replicate] at hc
        rw [hc.2]; simp [cen]
      · rw [h] at hc; cases hc)
    (fuel := 100) (fun ns => by
      have := hcs 1 ns
      have := hcs 2 ns
      simp only [List.flatMap_cons, List.flatMap_nil, List.append_nil, List.length_append]
      omega) 0
  refine ⟨report, w', p', h1, ?_⟩
  · have := h2 7 2 wealthy_short
    have e : (balanceAt 2).loc = 2 := rfl
    rw [e, wealthy_sizes.2.1] at this
    exact_mod_cast this

end Trypo
