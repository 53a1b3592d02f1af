import Verif.Proofs.Reads

/-!
# Property C92: the answers of a running service
-/

set_option linter.unusedSectionVars false

namespace Trypo
open GoFloat Spec EventLoop Service

section
variable {F : Type} [GoFloat F] [LawfulCmp F]
variable {env : Env} {fac : Factory F} {nodes : List (Config × Nat × SkipConfig)} {w0 : World F} {p0 : Nat} {D : NS → Nat}
variable {evs : Nat → Ev F} {st : Nat → Sys F}

theorem brought_firstN {n m : Nat} (h : n ≤ m) {ns : NS} {d : DataPoint F} (hd : d ∈ broughtBy (arrivals (firstN evs n)) ns) :
    d ∈ broughtBy (arrivals (firstN evs m)) ns := by
  obtain ⟨k, rfl⟩ := Nat.exists_eq_add_of_le h
  have e : firstN evs (n + k) = firstN evs n ++ (List.range k).map (fun i => evs (n + i)) := by
    simp [firstN, List.range_add, List.map_append, Function.comp_def]
  rw [e]
  unfold arrivals broughtBy at *
  rw [List.filterMap_append, List.flatMap_append]
  exact List.mem_append_left _ hd

theorem mem_held {w : World F} {i : Nat} {ns : NS} {m : Manager F} (h : w.heap[i]? = some (ns, m)) {d : DataPoint F} (hd : d ∈ stored m) :
    d ∈ held w ns := by
  obtain ⟨X, hX, _⟩ := held_split h
  exact hX.symm.subset (List.mem_append_left _ hd)

namespace Trace

theorem known (t : Trace env fac nodes D w0 p0 evs st) (he : EnvOK env) (hf : FactoryOK fac) (hw : WorldOK D w0) (hn : ∀ n ∈ nodes, NodeOK n)
    (hv : ValidRun D evs) {n m : Nat} (h : n ≤ m) :
    Known D (fun ns d => d ∈ held w0 ns ++ broughtBy (arrivals (firstN evs m)) ns) (st n).world := by
  obtain ⟨s, h1, h2, h3⟩ := run_held (p0 := p0) he hf hw hn (validRun_arrivals hv n)
  rw [t.eq h1] at h2 h3
  refine ⟨h2, fun ns mg i hi d hd => ?_⟩
  rcases List.mem_append.1 (h3 ns d (mem_held hi hd)) with h4 | h4
  · exact List.mem_append_left _ h4
  · exact List.mem_append_right _ (brought_firstN h h4)

/-- A job that arrives, until some time later. -/
theorem reads (t : Trace env fac nodes D w0 p0 evs st) (he : EnvOK env) (hf : FactoryOK fac) (hw : WorldOK D w0) (hn : ∀ n ∈ nodes, NodeOK n)
    (hv : ValidRun D evs) {n : Nat} {j : Job F} (hj : evs n = .arrive j) (M : Nat) : ∀ m, n + 1 ≤ m → m ≤ M →
    ∃ x, (st m).progs[(st n).jobs.length]? = some x ∧
      Reads (Known D (fun ns d => d ∈ held w0 ns ++ broughtBy (arrivals (firstN evs M)) ns)) (st n).now x (st m).world
        (ShowsOK env (fun ns d => d ∈ held w0 ns ++ broughtBy (arrivals (firstN evs M)) ns) (st n).now j) := by
  intro m hm
  induction m, hm using Nat.le_induction with
  | base =>
    intro _
    have hst := t.step n
    rw [hj] at hst
    simp only [Service.step, Except.ok.injEq] at hst
    rw [← hst]
    refine ⟨j.prog env fac, ?_, reads_job he (hv n j hj) _⟩
    simp only [Sys.start]
    rw [← (t.going n).length, List.getElem?_append_right (Nat.le_refl _), Nat.sub_self]
    rfl
  | succ m hm ih =>
    intro hM
    obtain ⟨x, hx, hr⟩ := ih (by omega)
    obtain ⟨L, ts, e1, e2, e3, e4⟩ := step_new (t.step m)
    have hlt : (st n).jobs.length < ts.length := by rw [e3]; exact (List.getElem?_eq_some_iff.1 hx).1
    rw [e2, List.getElem?_append_left hlt]
    rcases e4 with ⟨rfl, e5, e6⟩ | ⟨_, i, β, a, k, q, g1, g2, g3, g4, g5, g6⟩
    · exact ⟨x, hx, by rw [e5]; exact hr⟩
    · rw [g5]
      by_cases hi : i = (st n).jobs.length
      · subst hi
        rw [hx] at g2
        cases g2
        refine ⟨k q.1.1, by rw [g4, List.getElem?_set_self (List.getElem?_eq_some_iff.1 hx).1], ?_⟩
        exact hr _ _ q (.refl _) (t.now_le he hf hw (by omega)) (t.known he hf hw hn hv (by omega)) g3
      · refine ⟨x, by rw [g4, List.getElem?_set_ne hi]; exact hx, ?_⟩
        exact reads_mono x (act_slotsStay a g3) (fun _ h => h) hr

end Trace

/-- C92. Whatever else goes on and whatever fails: all datapoints in an answer are from the namespace that was asked for, where they were in
the beginning or where a request brought them before the answer was complete; they had not expired when the request arrived; what was found for a vector can be compared with it; and there are at most as many as
were asked for. -/
theorem C92_answers (he : EnvOK env) (hf : FactoryOK fac) (hw : WorldOK D w0) (hn : ∀ n ∈ nodes, NodeOK n)
    {es es' : List (Ev F)} {j : Job F} (hv : ∀ r ∈ arrivals (es ++ .arrive j :: es'), r.valid D) :
    ∃ s s', Service.run env fac es (boot nodes w0 p0) = .ok s ∧ Service.run env fac (es ++ .arrive j :: es') (boot nodes w0 p0) = .ok s' ∧
      ∀ o, s'.progs[s.jobs.length]? = some (Prog.ret o) → ∀ ns,
        (∀ d ∈ j.shows o ns, d ∈ held w0 ns ++ broughtBy (arrivals (es ++ .arrive j :: es')) ns ∧
          (j.forDatapoints → ¬ Dead (env.tk s.now) d) ∧ ∀ v, j.target = some v → Similar v d.vec) ∧
        ∀ n, j.asksFor = some n → 0 ≤ n → ((j.shows o ns).length : Int) ≤ n := by
  let evs : Nat → Ev F := fun n => ((es ++ .arrive j :: es')[n]?).getD (.run 0)
  have hfirst : ∀ k, k ≤ (es ++ .arrive j :: es').length → firstN evs k = (es ++ .arrive j :: es').take k := by
    intro k hk
    apply List.ext_getElem?
    intro i
    simp only [firstN, List.getElem?_map]
    rcases Nat.lt_or_ge i k with h | h
    · rw [List.getElem?_range h, List.getElem?_take_of_lt h]
      simp only [Option.map_some, evs]
      rw [List.getElem?_eq_getElem (by omega)]
      rfl
    · rw [List.getElem?_eq_none (by simpa using h), List.getElem?_eq_none (by simp; omega)]
      rfl
  have h1 : firstN evs es.length = es := by rw [hfirst _ (by simp)]; simp
  have h2 : firstN evs (es ++ .arrive j :: es').length = es ++ .arrive j :: es' := by rw [hfirst _ (Nat.le_refl _)]; simp
  have hvr : ValidRun D evs := by
    intro n j' hj'
    simp only [evs] at hj'
    cases hx : (es ++ .arrive j :: es')[n]? with
    | none => rw [hx] at hj'; cases hj'
    | some e =>
      rw [hx] at hj'
      simp only [Option.getD_some] at hj'
      subst hj'
      exact hv j' (List.mem_filterMap.2 ⟨.arrive j', List.mem_of_getElem? hx, rfl⟩)
  obtain ⟨st, t⟩ := trace_exists (p0 := p0) he hf hw hn hvr
  have r1 := t.run es.length
  have r2 := t.run (es ++ .arrive j :: es').length
  rw [h1] at r1
  rw [h2] at r2
  refine ⟨_, _, r1, r2, fun o ho => ?_⟩
  obtain ⟨x, hx, hr⟩ := t.reads he hf hw hn hvr (n := es.length) (j := j) (by simp [evs]) (es ++ .arrive j :: es').length
    (es ++ .arrive j :: es').length (by simp) (Nat.le_refl _)
  rw [hx] at ho
  cases ho
  rw [h2] at hr
  exact hr

end

/-! ### Examples -/

namespace AnswersExample
open ServerExample JobsExample ServiceExample

/-- The answer that job `i` gives. -/
def answerOf (i : Nat) (r : Except Panic (Sys F64)) : Option (Nat × List (DataPoint F64)) :=
  match r with
  | .ok s =>
    match s.progs[i]? with
    | some (.ret (.found n l)) => some (n, l.map (fun d => d.toDataPoint))
    | _ => none
  | .error _ => none

/-- A query for up to four datapoints. -/
def ask : Job F64 := .query [1] (some ⟨7, false, [.ofInt 1, .ofInt 0], 4, false⟩)

/-- C92: a query, and a put that arrives while it is served: the answer has the datapoint of the put. -/
example : answerOf 0 (Service.run env fac (.arrive ask :: .arrive (put 1 1) :: (turns 2 ++ turns 12)) (boot [] lone 0)) =
    some (200, [dp 1 0, dp 1 1, dp 1 2]) := by decide +kernel

/-- C92: without the put it does not. -/
example : answerOf 0 (Service.run env fac (.arrive ask :: turns 14) (boot [] lone 0)) = some (200, [dp 1 0, dp 1 2]) := by decide +kernel

/-- A put of a datapoint that expires at the instant `t`, a query afterwards, and how many datapoints there are in the answer; with a clock
that runs. -/
def lateAsk (t : Int) : Option Nat :=
  (answerOf 1 (Service.run { env with tk := fun p => p } fac (.arrive (.put [1] (some ⟨7, false, ⟨[.ofInt 1, .ofInt 1], [], t, true⟩⟩)) ::
    turns 12 ++ .arrive ask :: turns 16) (boot [] lone 0))).map (fun r => r.2.length)

/-- C92: a datapoint that has not expired when the query arrives may be in the answer; one that has is not. -/
example : lateAsk 40 = some 3 ∧ lateAsk 5 = some 2 := ⟨by decide +kernel, by decide +kernel⟩

end AnswersExample
end Trypo
