import Verif.Proofs.Rest
import Verif.Proofs.KernelRfl
import Verif.Props.Distribute
import Verif.Props.ClientCalls

/-!
# C94: load balancing comes to rest
-/

set_option linter.unusedSectionVars false
set_option linter.unusedVariables false
set_option linter.unusedSimpArgs false

namespace Trypo
open GoFloat Spec EventLoop

section
variable {F : Type} [GoFloat F] [LawfulCmp F]

theorem sum_got_nonneg {l : List Stolen} (h : ∀ e ∈ l, 0 ≤ e.got) : 0 ≤ (l.map (fun e => e.got)).sum :=
  sum_nonneg (fun x hx => by obtain ⟨e, he, rfl⟩ := List.mem_map.1 hx; exact h e he)

theorem count_moves {ns : NS} : ∀ {reports : List Report}, (∀ e ∈ transfers reports ns, 0 ≤ e.got) →
    ((reports.countP (fun r => decide (movedIn [r] ns ≠ 0)) : Nat) : Int) ≤ movedIn reports ns
  | [], _ => by simp [movedIn, transfers]
  | r :: rs, h => by
    have e : transfers (r :: rs) ns = transfers [r] ns ++ transfers rs ns := transfers_append [r] rs ns
    rw [e] at h
    have ih := count_moves (ns := ns) (reports := rs) (fun x hx => h x (by simp [hx]))
    have h1 : 0 ≤ movedIn [r] ns := sum_got_nonneg (fun x hx => h x (by simp [hx]))
    have h2 : movedIn (r :: rs) ns = movedIn [r] ns + movedIn rs ns := by
      unfold movedIn; rw [e, List.map_append, List.sum_append]
    rw [List.countP_cons, h2]
    split
    · rename_i h3
      simp only [ne_eq, decide_eq_true_eq] at h3
      push_cast; omega
    · push_cast; omega

/-- **C94, what holds.** Any number of runs of the load-balancing task, one after the other at any of the nodes, between which nothing
else happens. If the nodes reach each other, no datapoint expires and no centroid has more than four fifths of the average number
of datapoints per node, then all runs together move at most half as many datapoints as the sum of the squares of the nodes'
sizes says at the beginning; so no more runs than that move anything, however many there are. Every datapoint that is moved makes
that sum smaller. (The last hypothesis is about the model: it gives the loop of `StealCentroid` enough fuel.) Missing: the size
of the centroids; without it, it is false (`C94_refuted`). -/
theorem C94_rest_partial {env : Env} (he : EnvOK env) {fac : Factory F} (hf : FactoryOK fac) {D : NS → Nat} {nodes : List Addr} {w : World F}
    (hw : WorldOK D w) (hr : NoLostReplies env) (hc : Calm env nodes w) {cfgs : List Config} (hcfg : ∀ cfg ∈ cfgs, cfg.loc ∈ nodes ∧ cfg.remotes.Perm nodes)
    {fuel : Nat} (hfuel : ∀ ns, ((nodes.flatMap (fun a => centroidsAt w a ns)).length < fuel)) (p : Nat) :
    ∃ reports w' p', (Prog.each (fun cfg => task env fac fuel cfg .loadBalancing) cfgs).run w p = .ok ((reports, w'), p') ∧ ∀ ns,
      (∀ e ∈ transfers reports ns, 0 ≤ e.got) ∧ unevenness w' nodes ns + 2 * movedIn reports ns ≤ unevenness w nodes ns ∧
      2 * (reports.countP (fun r => decide (movedIn [r] ns ≠ 0)) : Int) ≤ unevenness w nodes ns := by
  have hq : Quiet D nodes (fun ns => (storedAt w nodes ns).length) (leeway w nodes) fuel w := by
    refine ⟨hw, fun a ha ns d hd => hc.stay ns d ?_, fun a ha ns c hcm => ?_, fun ns => (storedAt_length w nodes ns).symm, fun ns => ?_⟩
    · unfold storedAt at hd ⊢
      simp only [List.flatMap_cons, List.flatMap_nil, List.append_nil] at hd
      exact List.mem_flatMap.2 ⟨a, ha, hd⟩
    · cases hg : w.get a ns with
      | none => rw [centroidsAt_none hg] at hcm; cases hcm
      | some m => rw [centroidsAt_some hg] at hcm; exact hc.small a ha ns m hg c hcm
    · have := hfuel ns
      rw [List.length_flatMap] at this
      have e : ∀ l : List Addr, (l.map (fun a => ((centroidsAt w a ns).length : Int))).sum = ((l.map (fun a => (centroidsAt w a ns).length)).sum : Nat) := by
        intro l
        induction l with
        | nil => rfl
        | cons a l ih => simp only [List.map_cons, List.sum_cons, ih]; push_cast; rfl
      rw [e]; exact_mod_cast this
  obtain ⟨⟨reports, w'⟩, p', h1, h2, h3⟩ := Go.wp_iff.1 (wp_tasks_quiet he hf hr hc.nodup hc.reach (fun ns => by exact_mod_cast hc.exact ns)
    (fun ns => by unfold leeway; push_cast; exact le_refl _) cfgs w p hcfg hq)
  refine ⟨reports, w', p', h1, fun ns => ⟨(h3 ns).1, (h3 ns).2, ?_⟩⟩
  have h4 : unevenness w' nodes ns + 2 * movedIn reports ns ≤ unevenness w nodes ns := (h3 ns).2
  have h5 := count_moves (reports := reports) (h3 ns).1
  have h6 : 0 ≤ unevenness w' nodes ns := sum_nonneg (fun x hx => by
    obtain ⟨a, _, rfl⟩ := List.mem_map.1 hx
    positivity)
  omega

end

namespace RestExample
open ServerExample JobsExample

/-- Load balancing at node `a` of two. -/
def balanceAt (a : Addr) : Config := { single with loc := a, remotes := [1, 2] }
/-- Two nodes. One of them has twenty datapoints in one centroid, more than the average. -/
def seesaw : World F64 := nodes2
  (man [.ofInt 1, .div (.ofInt 1) (.ofInt 2)] [cen [.ofInt 1, .ofInt 0] [dp 1 0], cen [.ofInt 1, .ofInt 1] (List.replicate 20 (dp 1 1))])
  (man [.ofInt 0, .ofInt 1] [cen [.ofInt 0, .ofInt 1] [dp 0 1]]) (man [.ofInt 0, .ofInt 1] [])
/-- Both nodes balance, one after the other. -/
def both : Prog F64 (List Report) := Prog.each (fun cfg => task env fac 10 cfg .loadBalancing) [balanceAt 2, balanceAt 1]
/-- What they report. -/
def bothReports : List Report := match both.run seesaw 0 with
  | .ok ((r, _), _) => r
  | .error _ => []
/-- How many positions it takes. -/
def bothSteps : Nat := match both.run seesaw 0 with
  | .ok (_, p) => p
  | .error _ => 0

set_option maxRecDepth 100000 in
theorem both_run (p : Nat) : both.run seesaw p = .ok ((bothReports, seesaw), p + bothSteps) := by
  kernel_rfl

theorem both_moves : bothReports.length = 2 ∧ ∀ r ∈ bothReports, movedIn [r] 7 = 20 := ⟨by decide +kernel, by decide +kernel⟩

theorem seesaw_ok : WorldOK (fun _ => 2) seesaw :=
  nodes2_ok (man_mok rfl (by simp [cen, dp]) (by simp [cen])) (man_mok rfl (by simp [cen, dp]) (by simp [cen]))
    (man_mok rfl (by simp [cen, dp]) (by simp [cen]))

/-- Both nodes balance `n` times. -/
def turnsOf (n : Nat) : List Config := (List.replicate n [balanceAt 2, balanceAt 1]).flatten

end RestExample
open ServerExample JobsExample RestExample

/-- **C94 fails.** Two nodes that reach each other, and no datapoint expires. One has a centroid with twenty datapoints and the other
one wants one datapoint; it gets the whole centroid, and is now the one that has too many. However often the two nodes balance,
every run moves twenty datapoints. -/
theorem C94_refuted (n : Nat) : WorldOK (fun _ => 2) seesaw ∧ ∃ reports p',
    (Prog.each (fun cfg => task env fac 10 cfg .loadBalancing) (turnsOf n)).run seesaw 0 = .ok ((reports, seesaw), p') ∧
    reports.length = 2 * n ∧ ∀ r ∈ reports, movedIn [r] 7 = 20 := by
  refine ⟨seesaw_ok, ?_⟩
  suffices h : ∀ p, ∃ reports p', (Prog.each (fun cfg => task env fac 10 cfg .loadBalancing) (turnsOf n)).run seesaw p = .ok ((reports, seesaw), p') ∧
      reports.length = 2 * n ∧ ∀ r ∈ reports, movedIn [r] 7 = 20 from h 0
  induction n with
  | zero => exact fun p => ⟨[], p, rfl, rfl, by simp⟩
  | succ n ih =>
    intro p
    obtain ⟨reports, p', h1, h2, h3⟩ := ih (p + bothSteps)
    refine ⟨bothReports ++ reports, p', ?_, ?_, fun r hr => ?_⟩
    · have e : turnsOf (n + 1) = [balanceAt 2, balanceAt 1] ++ turnsOf n := by simp [turnsOf, List.replicate_succ]
      have hb := both_run p
      unfold both at hb
      rw [e, run_each_append, run_bind_ok hb, run_bind_ok h1]
      rfl
    · rw [List.length_append, h2, both_moves.1]; omega
    · exact (List.mem_append.1 hr).elim (both_moves.2 r) (h3 r)

namespace RestExample

/-- Two nodes. The first has forty datapoints, two in each centroid. -/
def heap40 : World F64 := nodes2
  (man [.ofInt 1, .ofInt 0] ((List.range 20).map (fun k => cen [.ofInt 1, .ofInt k] [dp 1 k, dp 1 k])))
  (man [.ofInt 0, .ofInt 1] []) (man [.ofInt 0, .ofInt 1] [])

theorem heap40_ok : WorldOK (fun _ => 2) heap40 :=
  nodes2_ok (man_mok rfl (by simp [cen, dp]) (by simp [cen])) (man_mok rfl (by simp [cen, dp]) (by simp [cen]))
    (man_mok rfl (by simp [cen, dp]) (by simp [cen]))

theorem heap40_get {a : Addr} {ns : NS} {m : Manager F64} (h : heap40.get a ns = some m) :
    (a = 1 ∧ ns = 7 ∧ m = man [.ofInt 1, .ofInt 0] ((List.range 20).map (fun k => cen [.ofInt 1, .ofInt k] [dp 1 k, dp 1 k]))) ∨ m = man [.ofInt 0, .ofInt 1] [] := by
  obtain ⟨i, hl, hi⟩ := lookup_of_get heap40_ok h
  have hm : (ns, i) ∈ heap40.table a := by
    unfold World.lookup at hl
    exact mem_of_lookup hl
  rcases nodes2_table hm with ⟨rfl, rfl, rfl⟩ | ⟨rfl, rfl, rfl⟩ | ⟨rfl, rfl, rfl⟩
  · cases hi; exact .inl ⟨rfl, rfl, rfl⟩
  · cases hi; exact .inr rfl
  · cases hi; exact .inr rfl

theorem heap40_calm : Calm env [1, 2] heap40 := by
  have hs : ∀ ns, ∀ d ∈ storedAt heap40 [1, 2] ns, d.expireEnabled = false := by
    intro ns d hd
    unfold storedAt at hd
    obtain ⟨a, _, hd⟩ := List.mem_flatMap.1 hd
    cases hg : heap40.get a ns with
    | none => rw [hg] at hd; cases hd
    | some m =>
      rw [hg] at hd
      rcases heap40_get hg with ⟨_, _, rfl⟩ | rfl
      · simp only [stored, man, List.mem_flatMap, List.mem_map] at hd
        obtain ⟨c, ⟨k, _, rfl⟩, hd⟩ := hd
        simp only [cen, List.mem_cons, List.not_mem_nil, or_false] at hd
        rcases hd with rfl | rfl <;> rfl
      · simp [stored, man] at hd
  refine ⟨by simp, fun a _ => ⟨fun _ => rfl, fun _ => rfl⟩, hs, fun a _ ns m hg c hcm => ?_, fun ns => ?_⟩
  · rcases heap40_get hg with ⟨_, rfl, rfl⟩ | rfl
    · simp only [man, List.mem_map] at hcm
      obtain ⟨k, _, rfl⟩ := hcm
      have : leeway heap40 [1, 2] 7 = 16 := by decide +kernel
      rw [this]; simp [cen]
    · simp [man] at hcm
  · have h1 : ∀ a, (storedAt heap40 [a] ns).length ≤ 40 := by
      intro a
      cases hg : heap40.get a ns with
      | none => rw [storedAt_none hg]; simp
      | some m =>
        rw [storedAt_one hg]
        rcases heap40_get hg with ⟨_, _, rfl⟩ | rfl
        · exact Nat.le_of_eq (by decide +kernel)
        · simp [stored, man]
    have h2 := h1 1
    have h3 := h1 2
    have h4 : storedAt heap40 [1, 2] ns = storedAt heap40 [1] ns ++ storedAt heap40 [2] ns := by simp [storedAt]
    rw [h4, List.length_append]
    omega

/-- How many datapoints the runs move, and what the nodes have in the end. -/
def outcomeOf (r : Except Panic ((List Report × World F64) × Nat)) : Option (List Int × List Nat) :=
  match r with
  | .ok ((reports, w), _) => some (reports.map (fun r => movedIn [r] 7), [1, 2].map (fun a => (storedAt w [a] 7).length))
  | .error _ => none

end RestExample

/-- C94: node 2 fetches datapoints five times, then there is rest, with 28 and 12 datapoints. -/
example : outcomeOf ((Prog.each (fun cfg => task env fac 50 cfg .loadBalancing) ((List.replicate 8 [balanceAt 2, balanceAt 1]).flatten)).run heap40 0) =
    some ([4, 0, 2, 0, 2, 0, 2, 0, 2, 0, 0, 0, 0, 0, 0, 0], [28, 12]) := by decide +kernel

/-- C94: the hypotheses are met; no more than 800 runs move something, of any number of runs. -/
example (n : Nat) : ∃ reports w' p', (Prog.each (fun cfg => task env fac 50 cfg .loadBalancing) (turnsOf n)).run heap40 0 = .ok ((reports, w'), p') ∧
    (reports.countP (fun r => decide (movedIn [r] 7 ≠ 0)) : Int) ≤ 800 := by
  obtain ⟨reports, w', p', h1, h2⟩ := C94_rest_partial env_ok fac_ok heap40_ok (fun _ _ => rfl) heap40_calm (cfgs := turnsOf n) (fuel := 50) (by
    intro cfg hcfg
    obtain ⟨l, hl, hc⟩ := List.mem_flatten.1 hcfg
    rw [(List.mem_replicate.1 hl).2] at hc
    simp only [List.mem_cons, List.not_mem_nil, or_false] at hc
    rcases hc with rfl | rfl <;> exact ⟨by decide, .refl _⟩) (by
    intro ns
    have h1 : ∀ a, (centroidsAt heap40 a ns).length ≤ 20 := by
      intro a
      cases hg : heap40.get a ns with
      | none => rw [centroidsAt_none hg]; simp
      | some m =>
        rw [centroidsAt_some hg]
        rcases heap40_get hg with ⟨_, _, rfl⟩ | rfl <;> simp [man]
    have h2 := h1 1
    have h3 := h1 2
    simp only [List.flatMap_cons, List.flatMap_nil, List.append_nil, List.length_append]
    omega) 0
  refine ⟨reports, w', p', h1, ?_⟩
  have h3 : unevenness heap40 [1, 2] 7 = 1600 := by decide +kernel
  have := (h2 7).2.2
  omega

end Trypo
