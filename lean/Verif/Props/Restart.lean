import Verif.Spec.Restart
import Verif.Props.EventLoop

/-!
# Property C91: several event loops with the same configuration
-/

namespace Trypo
open EventLoop Spec

theorem eventsOf_append (i : Nat) (a b : List (Nat × Event)) : eventsOf i (a ++ b) = eventsOf i a ++ eventsOf i b := by simp [eventsOf]

theorem eventsOf_own (i : Nat) (l : List Event) : eventsOf i (l.map (fun e => (i, e))) = l := by
  induction l with
  | nil => rfl
  | cons e l ih => simpa [eventsOf] using ih

theorem eventsOf_other {i j : Nat} (h : i ≠ j) (l : List Event) : eventsOf j (l.map (fun e => (i, e))) = [] := by
  simp [eventsOf, List.filterMap_map, Function.comp_def, h]

theorem shared_stays {e : SharedEv} {s : Shared} (h : s.stopped = true) : (s.next e).1.stopped = true := by
  cases e <;> simp only [Shared.next] <;> split <;> first | exact h | rfl | skip
  split <;> exact h

/-- Once stopped, a loop that is new or over stays so. -/
theorem shared_idle {s : Shared} (h : s.stopped = true) {N : Nat} (hN : N ≤ s.loops.length) (hl : ∀ i pc, N ≤ i → s.loops[i]? = some pc → pc = .head ∨ pc = .done)
    (e : SharedEv) : N ≤ (s.next e).1.loops.length ∧
      (∀ i pc, N ≤ i → (s.next e).1.loops[i]? = some pc → pc = .head ∨ pc = .done) ∧ ∀ i, N ≤ i → eventsOf i (s.next e).2 = [] := by
  cases e with
  | start =>
    simp only [Shared.next]
    split
    · exact ⟨hN, hl, fun _ _ => rfl⟩
    · refine ⟨by simp; omega, fun i pc hi hpc => ?_, fun _ _ => rfl⟩
      simp only at hpc
      rw [List.getElem?_append] at hpc
      split at hpc
      · exact hl i pc hi hpc
      · left
        have := List.mem_of_getElem? hpc
        simpa using this
  | stop j =>
    simp only [Shared.next]
    split <;> exact ⟨hN, hl, fun _ _ => rfl⟩
  | step j =>
    simp only [Shared.next]
    split
    · exact ⟨hN, hl, fun _ _ => rfl⟩
    · cases hj : s.loops[j]? with
      | none => exact ⟨hN, hl, fun _ _ => rfl⟩
      | some pc =>
        simp only
        refine ⟨by simpa using hN, fun i pc' hi hpc => ?_, fun i hi => ?_⟩
        · rw [List.getElem?_set] at hpc
          split at hpc
          · rename_i hji
            subst hji
            have h1 := hl j pc hi hj
            split at hpc
            · simp only [Option.some.injEq] at hpc
              rw [← hpc, h]
              rcases h1 with rfl | rfl <;> simp [EventLoop.step]
            · cases hpc
          · exact hl i pc' hi hpc
        · by_cases hji : j = i
          · subst hji
            rw [eventsOf_own, h]
            rcases hl j pc hi hj with rfl | rfl <;> simp [EventLoop.step]
          · exact eventsOf_other hji _

theorem shared_idle_run : ∀ (es : List SharedEv) {s : Shared}, s.stopped = true → ∀ {N : Nat}, N ≤ s.loops.length →
    (∀ i pc, N ≤ i → s.loops[i]? = some pc → pc = .head ∨ pc = .done) → ∀ i, N ≤ i → eventsOf i (Shared.run es s).2 = []
  | [], _, _, _, _, _, _, _ => rfl
  | e :: es, s, h, N, hN, hl, i, hi => by
    obtain ⟨h1, h2, h3⟩ := shared_idle h hN hl e
    simp only [Shared.run, eventsOf_append, h3 i hi, List.nil_append]
    exact shared_idle_run es (shared_stays h) h1 h2 i hi

theorem shared_run_append : ∀ (es fs : List SharedEv) (s : Shared),
    Shared.run (es ++ fs) s = ((Shared.run fs (Shared.run es s).1).1, (Shared.run es s).2 ++ (Shared.run fs (Shared.run es s).1).2)
  | [], _, _ => rfl
  | e :: es, fs, s => by simp only [List.cons_append, Shared.run, shared_run_append es fs, List.append_assoc]

theorem shared_stopped {s : Shared} (i : Nat) (hc : PC.crashed ∉ s.loops) : (s.next (.stop i)).1.stopped = true := by simp [Shared.next, hc]

/-- C91 fails: a loop that is started with a configuration of which some loop was stopped before never does anything, whatever
happens; it does not even sleep. -/
theorem C91_refuted_restart (s : Shared) (h : s.stopped = true) (es : List SharedEv) :
    eventsOf s.loops.length (Shared.run (.start :: es) s).2 = [] :=
  shared_idle_run _ h (N := s.loops.length) (Nat.le_refl _) (fun i pc hi hpc => by
    rw [List.getElem?_eq_none hi] at hpc; cases hpc) _ (Nat.le_refl _)

/-- C91: started, stopped, and started again. -/
example (skip : SkipConfig) (es : List SharedEv) :
    eventsOf 1 (Shared.run (.start :: es) (Shared.run [.start, .step 0, .step 0, .stop 0] (Shared.new skip)).1).2 = [] :=
  C91_refuted_restart (Shared.run [.start, .step 0, .step 0, .stop 0] (Shared.new skip)).1 rfl es

namespace RestartExample
/-- A loop makes 39 steps, an iteration. -/
def iteration (i : Nat) : List SharedEv := List.replicate 39 (.step i)
end RestartExample
open RestartExample

/-- C91 fails: the function that stops the first loop also stops the second one. -/
theorem C91_refuted_stop : (eventsOf 1 (Shared.run ([.start, .start] ++ iteration 1) (Shared.new exampleSkip)).2).length = 19 ∧
    eventsOf 1 (Shared.run ([.start, .start, .stop 0] ++ iteration 1) (Shared.new exampleSkip)).2 = [] ∧
    (Shared.run ([.start, .start, .stop 0] ++ iteration 1) (Shared.new exampleSkip)).1.loops = [.head, .done] :=
  ⟨by decide +kernel, by decide +kernel, by decide +kernel⟩

/-- C91 fails: two loops count their iterations together. Of two loops that take turns, each with `Expire` in every second
iteration, one does it in every iteration and the other never does. -/
theorem C91_refuted_turns :
    (ranTasks (eventsOf 0 (Shared.run ([.start, .start] ++ (List.replicate 10 (iteration 0 ++ iteration 1)).flatten) (Shared.new exampleSkip)).2)).count .expire = 10 ∧
    (ranTasks (eventsOf 1 (Shared.run ([.start, .start] ++ (List.replicate 10 (iteration 0 ++ iteration 1)).flatten) (Shared.new exampleSkip)).2)).count .expire = 0 :=
  ⟨by decide +kernel, by decide +kernel⟩

/-- C91 fails: a loop goes on with the count of the loops before it. With `Expire` in every second iteration, beginning with the first, a loop does
it in its first iteration, but not if another loop with the configuration has completed one. -/
theorem C91_refuted_count :
    (ranTasks (eventsOf 1 (Shared.run ([.start, .start] ++ iteration 1) (Shared.new exampleSkip)).2)).count .expire = 1 ∧
    (ranTasks (eventsOf 1 (Shared.run ([.start] ++ iteration 0 ++ [.start] ++ iteration 1) (Shared.new exampleSkip)).2)).count .expire = 0 :=
  ⟨by decide +kernel, by decide +kernel⟩

/-- A single loop. -/
theorem shared_single (skip : SkipConfig) (st : Nat → Bool) : ∀ (es : List SharedEv) (b : Bool) (pc : PC) (iter : Int) (k : Nat),
    (∀ e ∈ es, e ≠ .start) → (∀ j v, (stopSeen 0 b es)[j]? = some v → st (k + j) = v) →
    (Shared.run es ⟨skip, b, iter, [pc]⟩).1.loops = [(EventLoop.steps skip st k (stepsOf 0 es) ⟨pc, iter⟩).1.pc] ∧
    eventsOf 0 (Shared.run es ⟨skip, b, iter, [pc]⟩).2 = (EventLoop.steps skip st k (stepsOf 0 es) ⟨pc, iter⟩).2
  | [], _, _, _, _, _, _ => ⟨rfl, rfl⟩
  | e :: es, b, pc, iter, k, hn, hst => by
    have hn' : ∀ e ∈ es, e ≠ .start := fun x hx => hn x (by simp [hx])
    by_cases hc : pc = .crashed
    · -- nothing happens any more
      subst hc
      have key : ∀ (es : List SharedEv), Shared.run es ⟨skip, b, iter, [.crashed]⟩ = (⟨skip, b, iter, [.crashed]⟩, []) := by
        intro es
        induction es with
        | nil => rfl
        | cons e es ih =>
          have : Shared.next ⟨skip, b, iter, [.crashed]⟩ e = (⟨skip, b, iter, [.crashed]⟩, []) := by
            cases e <;> simp [Shared.next]
          simp [Shared.run, this, ih]
      have key2 : ∀ n k, EventLoop.steps skip st k n ⟨.crashed, iter⟩ = (⟨.crashed, iter⟩, []) := by
        intro n
        induction n with
        | zero => intro k; rfl
        | succ n ih => intro k; simp [EventLoop.steps, EventLoop.step, ih]
      rw [key, key2]
      exact ⟨rfl, rfl⟩
    · have hc' : PC.crashed ∉ [pc] := by simpa using fun h => hc h.symm
      cases e with
      | start => exact absurd rfl (hn _ (by simp))
      | stop i =>
        simp only [Shared.run, Shared.next, if_neg hc', List.nil_append]
        have := shared_single skip st es true pc iter k hn' (by simpa [stopSeen] using hst)
        simpa [stepsOf] using this
      | step i =>
        simp only [Shared.run, Shared.next, if_neg hc']
        cases i with
        | succ i =>
          simp only [List.getElem?_cons_succ, List.getElem?_nil, List.nil_append]
          have := shared_single skip st es b pc iter k hn' (by simpa [stopSeen] using hst)
          simpa [stepsOf] using this
        | zero =>
          simp only [List.getElem?_cons_zero, List.set_cons_zero, eventsOf_append, eventsOf_own]
          have h0 : st k = b := by simpa using hst 0 b (by simp [stopSeen])
          have ih := shared_single skip st es b (EventLoop.step skip b ⟨pc, iter⟩).1.pc (EventLoop.step skip b ⟨pc, iter⟩).1.iter (k + 1) hn'
            (fun j v hj => by
              have := hst (j + 1) v (by simpa [stopSeen] using hj)
              rw [← this]; congr 1; omega)
          have hs : stepsOf 0 (.step 0 :: es) = stepsOf 0 es + 1 := by simp [stepsOf]
          rw [hs]
          simp only [EventLoop.steps, h0]
          exact ⟨ih.1, by rw [ih.2]⟩

/-- C91, what holds. A configuration that is given to `EventLoop` once, later nothing but steps of the loop and calls of its stop function:
the loop is as in C50 to C53. -/
theorem C91_single_partial (cfg : SkipConfig) (es : List SharedEv) (h1 : ∀ e ∈ es, e ≠ .start) (st : Nat → Bool)
    (hst : ∀ k v, (stopSeen 0 false es)[k]? = some v → st k = v) :
    (Shared.run (.start :: es) (Shared.new cfg)).1.loops = [(EventLoop.run cfg st (stepsOf 0 es)).1.pc] ∧
      eventsOf 0 (Shared.run (.start :: es) (Shared.new cfg)).2 = (EventLoop.run cfg st (stepsOf 0 es)).2 := by
  have h := shared_single (validate cfg) st es false .head 0 0 h1 (by simpa using hst)
  exact h

/-- A step of one of many loops that are stopped. -/
theorem shared_stop_next {s : Shared} (h : s.stopped = true) (i : Nat) {pc : PC} (hi : s.loops[i]? = some pc) (e : SharedEv) :
    ∃ pc', (s.next e).1.loops[i]? = some pc' ∧ pending pc' + activity (eventsOf i (s.next e).2) ≤ pending pc ∧
      (leftover pc' + stepsOf i [e] ≤ leftover pc ∨ .crashed ∈ (s.next e).1.loops ∨ pc' = .done) := by
  have hlt : i < s.loops.length := (List.getElem?_eq_some_iff.1 hi).1
  by_cases hc : PC.crashed ∈ s.loops
  · have : s.next e = (s, []) := by cases e <;> simp [Shared.next, hc]
    rw [this]
    exact ⟨pc, hi, by simp [eventsOf, activity], .inr (.inl hc)⟩
  · cases e with
    | start =>
      simp only [Shared.next, if_neg hc]
      exact ⟨pc, by rw [List.getElem?_append_left hlt]; exact hi, by simp [eventsOf, activity], .inl (by simp [stepsOf])⟩
    | stop j =>
      simp only [Shared.next, if_neg hc]
      exact ⟨pc, hi, by simp [eventsOf, activity], .inl (by simp [stepsOf])⟩
    | step j =>
      simp only [Shared.next, if_neg hc]
      by_cases hji : j = i
      · subst hji
        simp only [hi, eventsOf_own, h]
        obtain ⟨h1, h2⟩ := step_stopped s.skip ⟨pc, s.iter⟩
        refine ⟨_, by rw [List.getElem?_set_self hlt], h2, ?_⟩
        rcases h1 with h1 | h1 | h1
        · exact .inl (by simpa [stepsOf] using h1)
        · exact .inr (.inr h1)
        · exact .inr (.inl (List.mem_iff_getElem?.2 ⟨j, by rw [List.getElem?_set_self hlt, h1]⟩))
      · have hs : stepsOf i [SharedEv.step j] = 0 := by simp [stepsOf, hji]
        rw [hs]
        cases s.loops[j]? with
        | none => exact ⟨pc, hi, by simp [eventsOf, activity], .inl (by simp)⟩
        | some pcj =>
          simp only [eventsOf_other hji]
          exact ⟨pc, by rw [List.getElem?_set_ne hji]; exact hi, by simp [activity], .inl (by simp)⟩

theorem shared_crashed : ∀ (es : List SharedEv) {s : Shared}, .crashed ∈ s.loops → .crashed ∈ (Shared.run es s).1.loops
  | [], _, h => h
  | e :: es, s, h => by
    have : s.next e = (s, []) := by cases e <;> simp [Shared.next, h]
    simp only [Shared.run, this]
    exact shared_crashed es h

theorem leftover_zero {pc : PC} (h : leftover pc = 0) : pc = .done ∨ pc = .crashed := by cases pc <;> simp [leftover] at h ⊢

theorem shared_stop_run : ∀ (es : List SharedEv) {s : Shared}, s.stopped = true → ∀ (i : Nat) {pc : PC}, s.loops[i]? = some pc →
    ∃ pc', (Shared.run es s).1.loops[i]? = some pc' ∧ pending pc' + activity (eventsOf i (Shared.run es s).2) ≤ pending pc ∧
      (leftover pc' + stepsOf i es ≤ leftover pc ∨ .crashed ∈ (Shared.run es s).1.loops ∨ pc' = .done)
  | [], s, h, i, pc, hi => ⟨pc, hi, by simp [Shared.run, eventsOf, activity], .inl (by simp [stepsOf])⟩
  | e :: es, s, h, i, pc, hi => by
    obtain ⟨p1, h1, h2, h3⟩ := shared_stop_next h i hi e
    obtain ⟨p2, g1, g2, g3⟩ := shared_stop_run es (shared_stays (e := e) h) i h1
    refine ⟨p2, g1, ?_, ?_⟩
    · simp only [Shared.run, eventsOf_append, activity_append]
      omega
    · have hs : stepsOf i (e :: es) = stepsOf i [e] + stepsOf i es := by
        unfold stepsOf
        rw [← List.length_append, ← List.filter_append]
        rfl
      rcases h3 with h3 | h3 | h3
      · rcases g3 with g3 | g3 | g3
        · exact .inl (by omega)
        · exact .inr (.inl g3)
        · exact .inr (.inr g3)
      · exact .inr (.inl (shared_crashed es h3))
      · rcases g3 with g3 | g3 | g3
        · subst h3
          have h0 : leftover p2 = 0 := by have : leftover PC.done = 0 := rfl; omega
          rcases leftover_zero h0 with rfl | rfl
          · exact .inr (.inr rfl)
          · exact .inr (.inl (List.mem_of_getElem? g1))
        · exact .inr (.inl g3)
        · exact .inr (.inr g3)

/-- C91, what holds. Any number of loops: once the stop function of one was called, each loop sleeps or calls a task at most once more,
and is over after at most 12 more steps of its own. (Nothing but a panic could end it in another way, C51.) -/
theorem C91_stop (s : Shared) (hc : .crashed ∉ s.loops) (j : Nat) (es : List SharedEv) (i : Nat) (hi : i < s.loops.length) :
    activity (eventsOf i (Shared.run (.stop j :: es) s).2) ≤ 1 ∧
      (12 ≤ stepsOf i es → (Shared.run (.stop j :: es) s).1.loops[i]? = some .done ∨ .crashed ∈ (Shared.run (.stop j :: es) s).1.loops) := by
  have h0 : s.next (.stop j) = ({ s with stopped := true }, []) := by simp [Shared.next, hc]
  obtain ⟨pc', h1, h2, h3⟩ := shared_stop_run es (s := { s with stopped := true }) rfl i (List.getElem?_eq_getElem hi)
  have h4 := pending_le s.loops[i]
  have h5 := leftover_le s.loops[i]
  simp only [Shared.run, h0, List.nil_append]
  refine ⟨by omega, fun hn => ?_⟩
  rcases h3 with h3 | h3 | h3
  · rcases leftover_zero (pc := pc') (by omega) with rfl | rfl
    · exact .inl h1
    · exact .inr (List.mem_of_getElem? h1)
  · exact .inr h3
  · exact .inl (h3 ▸ h1)

/-- C91: a single loop that is stopped during its first iteration, as in C53. -/
example : eventsOf 0 (Shared.run (.start :: (List.replicate 9 (.step 0) ++ .stop 0 :: iteration 0)) (Shared.new exampleSkip)).2 =
    [.sleep, .sleep, .ran .getMeta, .sleep, .ran .expire] := by decide +kernel

/-- C91: two loops, stopped when one is about to sleep and the other one about to call a task. -/
example : (Shared.run ([.step 0, .step 1, .step 1, .stop 1] ++ List.replicate 12 (.step 0) ++ List.replicate 12 (.step 1))
      ⟨exampleSkip, false, 4, [.sleep 3, .sleep 7]⟩) =
    (⟨exampleSkip, true, 6, [.done, .done]⟩, [(0, .sleep), (1, .sleep), (1, .ran .distAccurate)]) := by decide +kernel

end Trypo
