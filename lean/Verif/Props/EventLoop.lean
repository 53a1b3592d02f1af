import Verif.Spec.EventLoop

/-!
# Properties of the event loop's control flow: C50, C51, C52, C53
-/

set_option linter.unusedVariables false

namespace Trypo
open Spec EventLoop

namespace EventLoop

theorem steps_add (skip : SkipConfig) (st : Nat → Bool) : ∀ (n m k : Nat) (s : State),
    steps skip st k (n + m) s = ((steps skip st (k + n) m (steps skip st k n s).1).1,
      (steps skip st k n s).2 ++ (steps skip st (k + n) m (steps skip st k n s).1).2)
  | 0, m, k, s => by simp [steps]
  | n + 1, m, k, s => by
    rw [Nat.succ_add_eq_add_succ, Nat.add_comm n (m + 1), show m + 1 + n = (n + m) + 1 by omega]
    simp only [steps]
    rw [steps_add skip st n m (k + 1)]
    simp only [List.append_assoc, show k + 1 + n = k + (n + 1) by omega]

/-- One task when the loop is not stopped. -/
theorem four (skip : SkipConfig) (st : Nat → Bool) (k : Nat) (hs : ∀ j, k ≤ j → j < k + 4 → st j = false) (i : Nat) (t : TaskId)
    (ht : order[i]? = some t) (h0 : skip.interval t ≠ 0) (iter : Int) :
    steps skip st k 4 ⟨.check i, iter⟩ = (⟨next i, iter⟩,
      [.sleep, if iter.tmod (skip.interval t) = 0 then .ran t else .skipped t]) := by
  have e0 := hs k (by omega) (by omega)
  have e2 := hs (k + 1 + 1) (by omega) (by omega)
  by_cases h : iter.tmod (skip.interval t) = 0 <;>
    simp [steps, step, e0, e2, ht, withSkip, h0, h]

/-- One iteration of the loop when it is not stopped. -/
theorem iteration (skip : SkipConfig) (st : Nat → Bool) (k : Nat) (hs : ∀ j, k ≤ j → j < k + 39 → st j = false)
    (h0 : ∀ t, skip.interval t ≠ 0) (iter : Int) :
    (steps skip st k 39 ⟨.head, iter⟩).1 = ⟨.head, if iter + 1 > 1000 then 0 else iter + 1⟩ ∧
    ranTasks (steps skip st k 39 ⟨.head, iter⟩).2 = order.filter (fun t => decide (iter.tmod (skip.interval t) = 0)) := by
  have h : ∀ i t, order[i]? = some t → ∀ j, k ≤ j → j + 4 ≤ k + 39 → steps skip st j 4 ⟨.check i, iter⟩ = (⟨next i, iter⟩,
      [.sleep, if iter.tmod (skip.interval t) = 0 then .ran t else .skipped t]) := fun i t ht j h1 h2 =>
    four skip st j (fun j' h3 h4 => hs j' (by omega) (by omega)) i t ht (h0 t) iter
  have e0 : steps skip st k 2 ⟨.head, iter⟩ = (⟨.check 0, iter⟩, [.sleep]) := by
    simp [steps, step, hs k (by omega) (by omega)]
  have fin : ∀ j, steps skip st j 1 ⟨.tick, iter⟩ = (⟨.head, if iter + 1 > 1000 then 0 else iter + 1⟩, []) := by
    intro j; simp [steps, step]
  rw [show 39 = 2 + (4 + (4 + (4 + (4 + (4 + (4 + (4 + (4 + (4 + 1))))))))) from rfl]
  simp only [steps_add skip st, e0]
  rw [h 0 _ rfl _ (by omega) (by omega), show next 0 = .check 1 from rfl, h 1 _ rfl _ (by omega) (by omega), show next 1 = .check 2 from rfl,
    h 2 _ rfl _ (by omega) (by omega), show next 2 = .check 3 from rfl, h 3 _ rfl _ (by omega) (by omega), show next 3 = .check 4 from rfl,
    h 4 _ rfl _ (by omega) (by omega), show next 4 = .check 5 from rfl, h 5 _ rfl _ (by omega) (by omega), show next 5 = .check 6 from rfl,
    h 6 _ rfl _ (by omega) (by omega), show next 6 = .check 7 from rfl, h 7 _ rfl _ (by omega) (by omega), show next 7 = .check 8 from rfl,
    h 8 _ rfl _ (by omega) (by omega), show next 8 = .tick from rfl, fin]
  refine ⟨rfl, ?_⟩
  simp only [order, ranTasks]
  have key : ∀ (l : List TaskId), (l.flatMap (fun t => [Event.sleep, if iter.tmod (skip.interval t) = 0 then .ran t else .skipped t])).filterMap
      (fun e => match e with | .ran t => some t | _ => none) = l.filter (fun t => decide (iter.tmod (skip.interval t) = 0)) := by
    intro l
    induction l with
    | nil => rfl
    | cons t l ih =>
      rw [List.flatMap_cons, List.filterMap_append, ih, List.filter_cons]
      by_cases hc : iter.tmod (skip.interval t) = 0 <;> simp [hc]
  rw [← key]
  rfl

theorem iterations (skip : SkipConfig) (st : Nat → Bool) (hs : ∀ j, st j = false) (h0 : ∀ t, skip.interval t ≠ 0) : ∀ N : Nat,
    (steps skip st 0 (39 * N) ⟨.head, 0⟩).1 = ⟨.head, ((N % 1001 : Nat) : Int)⟩ ∧
    ranTasks (steps skip st 0 (39 * N) ⟨.head, 0⟩).2 = scheduled skip.interval N
  | 0 => by simp [steps, ranTasks, scheduled]
  | N + 1 => by
    obtain ⟨h1, h2⟩ := iterations skip st hs h0 N
    obtain ⟨h3, h4⟩ := iteration skip st (0 + 39 * N) (fun j _ _ => hs j) h0 ((N % 1001 : Nat) : Int)
    rw [show 39 * (N + 1) = 39 * N + 39 by omega, steps_add]
    simp only [h1]
    refine ⟨?_, ?_⟩
    · rw [h3]
      congr 1
      split <;> omega
    · unfold ranTasks at h2 h4 ⊢
      rw [List.filterMap_append, h2, h4]
      unfold scheduled
      rw [List.range_succ, List.flatMap_append]
      congr 1
      simp only [List.flatMap_cons, List.flatMap_nil, List.append_nil]
      refine List.filter_congr (fun t _ => ?_)
      unfold turn
      rw [decide_eq_decide]
      exact (Int.dvd_iff_tmod_eq_zero).symm

end EventLoop

theorem interval_validate (cfg : SkipConfig) (t : TaskId) (h : t ≠ .getMeta) :
    1 ≤ (validate cfg).interval t ∧ (validate cfg).interval t ≤ 1000 ∧
      (1 ≤ cfg.interval t → cfg.interval t ≤ 1000 → (validate cfg).interval t = cfg.interval t) := by
  have key : ∀ v : Int, 1 ≤ clampItem 1 1000 v ∧ clampItem 1 1000 v ≤ 1000 ∧ (1 ≤ v → v ≤ 1000 → clampItem 1 1000 v = v) := by
    intro v
    unfold clampItem
    simp only
    split <;> split <;> omega
  cases t <;> first | exact absurd rfl h | exact key _

theorem validate_effective (cfg : SkipConfig) (t : TaskId) : (validate cfg).interval t = effective t (cfg.interval t) := by
  have key : ∀ v : Int, clampItem 1 1000 v = max 1 (min v 1000) := by
    intro v
    unfold clampItem
    simp only
    split <;> split <;> omega
  cases t <;> first | rfl | exact key _

/-- C50. After the `N`-th iteration exactly the scheduled tasks have been run, in the documented order: in iteration `L` those
whose interval divides the tick `L mod 1001`. An iteration takes 39 steps. -/
theorem C50_schedule (cfg : SkipConfig) (h : cfg.getMeta ≠ 0) (st : Nat → Bool) (hs : ∀ j, st j = false) (N : Nat) :
    (EventLoop.run cfg st (39 * N)).1 = ⟨.head, ((N % 1001 : Nat) : Int)⟩ ∧
    ranTasks (EventLoop.run cfg st (39 * N)).2 = scheduled (fun t => effective t (cfg.interval t)) N := by
  have e : (validate cfg).interval = fun t => effective t (cfg.interval t) := funext (validate_effective cfg)
  obtain ⟨h1, h2⟩ := iterations (validate cfg) st hs (fun t => by
    by_cases ht : t = .getMeta
    · subst ht; exact h
    · have := (interval_validate cfg t ht).1; omega) N
  exact ⟨h1, by rw [← e]; exact h2⟩

/-- C50 for a configuration within the documented range. -/
theorem C50_schedule_in_range (cfg : SkipConfig) (h : ∀ t, 1 ≤ cfg.interval t) (h' : ∀ t, cfg.interval t ≤ 1000) (st : Nat → Bool)
    (hs : ∀ j, st j = false) (N : Nat) :
    ranTasks (EventLoop.run cfg st (39 * N)).2 = scheduled cfg.interval N := by
  have e : (fun t => effective t (cfg.interval t)) = cfg.interval := by
    funext t
    have h1 := h t
    have h2 := h' t
    unfold effective
    split
    · rfl
    · omega
  rw [← e]
  exact (C50_schedule cfg (by have := h .getMeta; simp only [SkipConfig.interval] at this; omega) st hs N).2

/-- C50. A task has its turn in iteration `L` exactly when its interval divides the tick: with interval 1 in each iteration,
with interval 2 in every second one. -/
theorem C50_turn (s : Nat) (L : Nat) (h : 0 < s) : turn s L = true ↔ (L % 1001) % s = 0 := by
  unfold turn
  rw [decide_eq_true_iff]
  constructor
  · intro hd
    exact Nat.mod_eq_zero_of_dvd (Int.natCast_dvd_natCast.1 hd)
  · intro hd
    exact Int.natCast_dvd_natCast.2 (Nat.dvd_of_mod_eq_zero hd)

/-- The configuration of the examples: everything in each iteration, except for `expire` (every second one) and `split` (every third one). -/
def exampleSkip : SkipConfig := ⟨2, 1, 1, 1, 1, 3, 1, 1, 1⟩

example : ranTasks (EventLoop.run exampleSkip (fun _ => false) (39 * 2)).2 =
    [.getMeta, .expire, .memTrim, .merge, .split, .distInternal, .distFast, .distAccurate, .loadBalancing,
     .getMeta, .memTrim, .merge, .distInternal, .distFast, .distAccurate, .loadBalancing] := by decide +kernel

example : (EventLoop.run exampleSkip (fun _ => false) (39 * 5000)).1 = ⟨.head, 996⟩ :=
  (C50_schedule exampleSkip (by decide) _ (fun _ => rfl) 5000).1

/-- Around the wraparound the second-iteration task runs twice in a row. -/
example : turn 2 999 = false ∧ turn 2 1000 = true ∧ turn 2 1001 = true ∧ turn 2 1002 = false := by decide

/-! ### C51 -/

theorem step_safe {skip : SkipConfig} (h0 : ∀ t, skip.interval t ≠ 0) (stopped : Bool) {s : State} (hs : s.pc ≠ .crashed)
    (hi : ∀ i, s.pc = .check i ∨ s.pc = .sleep i ∨ s.pc = .recheck i ∨ s.pc = .call i → i < order.length) :
    (step skip stopped s).1.pc ≠ .crashed ∧ ∀ i, (step skip stopped s).1.pc = .check i ∨ (step skip stopped s).1.pc = .sleep i ∨
      (step skip stopped s).1.pc = .recheck i ∨ (step skip stopped s).1.pc = .call i → i < order.length := by
  obtain ⟨pc, iter⟩ := s
  have hn : ∀ i, next i ≠ .crashed ∧ ∀ j, next i = .check j ∨ next i = .sleep j ∨ next i = .recheck j ∨ next i = .call j → j < order.length := by
    intro i
    unfold next
    split
    · rename_i h
      refine ⟨by simp, fun j hj => ?_⟩
      simp at hj; omega
    · simp
  cases pc with
  | head => cases stopped <;> simp [step]
  | sleepLoop => simp [step, order]
  | check i =>
    cases stopped <;> simp only [step, Bool.false_eq_true, if_true, if_false]
    · simpa using hi i (by simp)
    · exact hn i
  | sleep i => simp [step, hi i]
  | recheck i =>
    cases stopped <;> simp only [step, Bool.false_eq_true, if_true, if_false]
    · simpa using hi i (by simp)
    · exact hn i
  | call i =>
    have hlt := hi i (by simp)
    have ht : order[i]? = some order[i] := List.getElem?_eq_getElem hlt
    simp only [step, ht, withSkip, if_neg (h0 _)]
    by_cases hc : iter.tmod (skip.interval order[i]) = 0 <;> simp only [hc, decide_true, decide_false] <;> exact hn i
  | tick => simp [step]
  | done => simp [step]
  | crashed => exact absurd rfl hs

theorem steps_safe {skip : SkipConfig} (h0 : ∀ t, skip.interval t ≠ 0) (st : Nat → Bool) : ∀ (n k : Nat) (s : State), s.pc ≠ .crashed →
    (∀ i, s.pc = .check i ∨ s.pc = .sleep i ∨ s.pc = .recheck i ∨ s.pc = .call i → i < order.length) →
    (steps skip st k n s).1.pc ≠ .crashed
  | 0, k, s, hs, _ => hs
  | n + 1, k, s, hs, hi => by
    obtain ⟨h1, h2⟩ := step_safe h0 (st k) hs hi
    exact steps_safe h0 st n (k + 1) _ h1 h2

/-- C51 fails: the interval of `Meta` is not clamped; with the interval 0, as in a configuration that leaves it out, the process
crashes in the first iteration. -/
theorem C51_refuted : (EventLoop.run ⟨1, 1, 1, 1, 1, 1, 1, 1, 0⟩ (fun _ => false) 6).1.pc = .crashed := by decide

/-- C51, what holds: after validation all intervals except for that of `Meta` are between 1 and 1000; and if that one is not 0,
the loop never crashes, however long it runs and whenever it is stopped. -/
theorem C51_partial (cfg : SkipConfig) :
    (∀ t, t ≠ .getMeta → 1 ≤ (validate cfg).interval t ∧ (validate cfg).interval t ≤ 1000) ∧
    (cfg.getMeta ≠ 0 → ∀ st n, (EventLoop.run cfg st n).1.pc ≠ .crashed) := by
  refine ⟨fun t ht => ⟨(interval_validate cfg t ht).1, (interval_validate cfg t ht).2.1⟩, fun hm st n => ?_⟩
  refine steps_safe (fun t => ?_) st n 0 _ (by simp) (by simp)
  by_cases ht : t = .getMeta
  · subst ht; exact hm
  · have := (interval_validate cfg t ht).1; omega

example : (validate ⟨0, -5, 2000, 1000, 1, 7, 1001, 999, 3⟩) = ⟨1, 1, 1000, 1000, 1, 7, 1000, 999, 3⟩ := by decide

/-! ### C52 -/

/-- C52 fails: a task with interval 5000 is run in the first iteration (and again in iteration 1000). -/
theorem C52_refuted : TaskId.expire ∈ ranTasks (EventLoop.run ⟨5000, 1, 1, 1, 1, 1, 1, 1, 1⟩ (fun _ => false) 39).2 := by decide +kernel

/-- C52, what holds: a task whose interval is above 1000 is run in the iterations with tick 0 or 1000, twice in 1001 iterations. -/
theorem C52_partial (cfg : SkipConfig) (t : TaskId) (ht : t ≠ .getMeta) (h : 1000 < cfg.interval t) (L : Nat) :
    turn ((validate cfg).interval t) L = true ↔ L % 1001 = 0 ∨ L % 1001 = 1000 := by
  have e : (validate cfg).interval t = ((1000 : Nat) : Int) := by
    have key : ∀ v : Int, 1000 < v → clampItem 1 1000 v = 1000 := by
      intro v hv
      unfold clampItem
      simp only
      rw [if_neg (show ¬ v < 1 by omega), if_pos hv]
    cases t <;> first | exact absurd rfl ht | exact key _ h
  rw [e, C50_turn 1000 L (by decide)]
  have := Nat.mod_lt L (show 0 < 1001 by decide)
  omega

example : turn ((validate ⟨5000, 1, 1, 1, 1, 1, 1, 1, 1⟩).interval .expire) 0 = true ∧
    turn ((validate ⟨5000, 1, 1, 1, 1, 1, 1, 1, 1⟩).interval .expire) 500 = false := by decide

/-! ### C53 -/

/-- Steps left until a stopped loop ends. -/
def leftover : PC → Nat
  | .head => 1
  | .sleepLoop => 12
  | .check i => 3 + (8 - i)
  | .sleep i => 4 + (8 - i)
  | .recheck i => 3 + (8 - i)
  | .call i => 3 + (8 - i)
  | .tick => 2
  | .done => 0
  | .crashed => 0

/-- Sleeps and calls left once the loop is stopped. -/
def pending : PC → Nat
  | .sleepLoop => 1
  | .sleep _ => 1
  | .call _ => 1
  | _ => 0

theorem leftover_next (i : Nat) : leftover (next i) + 1 ≤ 3 + (8 - i) := by
  unfold next
  split
  · simp [leftover, order] at *; omega
  · simp [leftover]

theorem pending_next (i : Nat) : pending (next i) = 0 := by unfold next; split <;> rfl

theorem step_stopped (skip : SkipConfig) (s : State) :
    (leftover (step skip true s).1.pc + 1 ≤ leftover s.pc ∨ (step skip true s).1.pc = .done ∨ (step skip true s).1.pc = .crashed) ∧
    pending (step skip true s).1.pc + activity (step skip true s).2 ≤ pending s.pc := by
  obtain ⟨pc, iter⟩ := s
  cases pc with
  | head => simp [step, leftover, pending, activity]
  | sleepLoop => simp [step, leftover, pending, activity]
  | check i =>
    refine ⟨.inl (by simpa [step, leftover] using leftover_next i), ?_⟩
    simp [step, pending_next, activity]
  | sleep i => simp [step, leftover, pending, activity]; omega
  | recheck i =>
    refine ⟨.inl (by simpa [step, leftover] using leftover_next i), ?_⟩
    simp [step, pending_next, activity]
  | call i =>
    simp only [step]
    cases order[i]? with
    | none => simp [pending, activity]
    | some t =>
      simp only [withSkip]
      split
      · rename_i h; simp [pending, activity]
      · exact ⟨.inl (by simpa [leftover] using leftover_next i), by simp only [pending_next]; simp [activity, pending]⟩
      · exact ⟨.inl (by simpa [leftover] using leftover_next i), by simp only [pending_next]; simp [activity, pending]⟩
  | tick => simp [step, leftover, pending, activity]
  | done => simp [step, leftover, pending, activity]
  | crashed => simp [step, leftover, pending, activity]

theorem activity_append (a b : List Event) : activity (a ++ b) = activity a + activity b := by simp [activity]

theorem steps_stopped (skip : SkipConfig) (st : Nat → Bool) : ∀ (n k : Nat) (s : State), (∀ j, k ≤ j → st j = true) →
    (n ≥ leftover s.pc → (steps skip st k n s).1.pc = .done ∨ (steps skip st k n s).1.pc = .crashed) ∧
    pending (steps skip st k n s).1.pc + activity (steps skip st k n s).2 ≤ pending s.pc
  | 0, k, s, _ => by
    refine ⟨fun h => ?_, by simp [steps, activity]⟩
    obtain ⟨pc, iter⟩ := s
    cases pc <;> simp [leftover] at h ⊢ <;> simp [steps]
  | n + 1, k, s, hs => by
    have h1 := step_stopped skip s
    have h2 := steps_stopped skip st n (k + 1) (step skip true s).1 (fun j hj => hs j (by omega))
    simp only [steps, hs k (Nat.le_refl _), activity_append]
    refine ⟨fun hn => h2.1 ?_, by omega⟩
    rcases h1.1 with h | h | h
    · omega
    · simp [h, leftover]
    · simp [h, leftover]

theorem pending_le (pc : PC) : pending pc ≤ 1 := by cases pc <;> simp [pending]

theorem leftover_le (pc : PC) : leftover pc ≤ 12 := by cases pc <;> simp [leftover] <;> omega

/-- C53. Whenever the loop is stopped, at most one more sleep or call of a task follows (not both), and after at most 12 more
steps the goroutine is gone. -/
theorem C53_stop (cfg : SkipConfig) (st : Nat → Bool) (k : Nat) (hs : ∀ j, k ≤ j → st j = true) (n : Nat) :
    ∃ before after, (EventLoop.run cfg st (k + n)).2 = before ++ after ∧ (EventLoop.run cfg st k).2 = before ∧ activity after ≤ 1 ∧
      (12 ≤ n → (EventLoop.run cfg st (k + n)).1.pc = .done ∨ (EventLoop.run cfg st (k + n)).1.pc = .crashed) := by
  have h := steps_stopped (validate cfg) st n (0 + k) (steps (validate cfg) st 0 k ⟨.head, 0⟩).1 (fun j hj => hs j (by omega))
  refine ⟨(EventLoop.run cfg st k).2, (steps (validate cfg) st (0 + k) n (steps (validate cfg) st 0 k ⟨.head, 0⟩).1).2, ?_, rfl, ?_, fun hn => ?_⟩
  · unfold EventLoop.run; rw [steps_add]
  · have := pending_le (steps (validate cfg) st 0 k ⟨.head, 0⟩).1.pc
    omega
  · have h3 := leftover_le (steps (validate cfg) st 0 k ⟨.head, 0⟩).1.pc
    have h4 := h.1 (by omega)
    unfold EventLoop.run
    rw [steps_add]
    exact h4

/-- C53. A loop that has not crashed for another reason ends in the state `done`. -/
theorem C53_stop_done (cfg : SkipConfig) (hm : cfg.getMeta ≠ 0) (st : Nat → Bool) (k : Nat) (hs : ∀ j, k ≤ j → st j = true) (n : Nat) (hn : 12 ≤ n) :
    (EventLoop.run cfg st (k + n)).1.pc = .done := by
  obtain ⟨_, _, _, _, _, h⟩ := C53_stop cfg st k hs n
  exact (h hn).resolve_right ((C51_partial cfg).2 hm st _)

/-- C53: stopped before step 9, when the loop is about to call the second task, which still happens; and before step 7, when it is
about to sleep ahead of that task, which also still happens. -/
example : (EventLoop.run exampleSkip (fun j => decide (9 ≤ j)) 100) = (⟨.done, 1⟩, [.sleep, .sleep, .ran .getMeta, .sleep, .ran .expire]) ∧
    (EventLoop.run exampleSkip (fun j => decide (7 ≤ j)) 100) = (⟨.done, 1⟩, [.sleep, .sleep, .ran .getMeta, .sleep]) := by decide +kernel

end Trypo
