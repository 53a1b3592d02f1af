import Verif.Model.Json
import Verif.Spec.Json
import Verif.Props.Answers
import Verif.Props.ClientCalls
import Verif.Props.NoPanic

/-!
# Property C93: the bodies of HTTP answers
-/

namespace Trypo
open GoFloat Spec EventLoop Service

section
variable {env : Env} {fac : Factory F64} {nodes : List (Config × Nat × SkipConfig)} {w0 : World F64} {p0 : Nat} {D : NS → Nat}

theorem similar_numbers {v w : List F64} (h : Similar v w) : v.length = w.length ∧ ∀ x ∈ w, IsNumber x := by
  obtain ⟨s, h1, h2⟩ := h
  obtain ⟨h3, h4⟩ := F64.comparable_finite h1 h2
  refine ⟨h3, fun x hx => ?_⟩
  have := h4 x hx
  cases x with
  | fin a k => exact ⟨a, k, rfl⟩
  | _ => cases this

/-- C93. What is found for a vector, by HTTP or by RPC, has the dimension of that vector, and all its components are numbers. A datapoint with a NaN or an
infinity in it can be added by RPC, and is never found by a search, whatever else goes on. -/
theorem C93_only_numbers (he : EnvOK env) (hf : FactoryOK fac) (hw : WorldOK D w0) (hn : ∀ n ∈ nodes, NodeOK n)
    {es es' : List (Ev F64)} {j : Job F64} (hv : ∀ r ∈ arrivals (es ++ .arrive j :: es'), r.valid D) :
    ∃ s s', Service.run env fac es (boot nodes w0 p0) = .ok s ∧ Service.run env fac (es ++ .arrive j :: es') (boot nodes w0 p0) = .ok s' ∧
      ∀ o, s'.progs[s.jobs.length]? = some (Prog.ret o) → ∀ v, j.target = some v → ∀ ns, ∀ d ∈ j.shows o ns,
        d.vec.length = v.length ∧ ∀ x ∈ d.vec, IsNumber x := by
  obtain ⟨s, s', h1, h2, h3⟩ := C92_answers (p0 := p0) he hf hw hn hv
  refine ⟨s, s', h1, h2, fun o ho v ht ns d hd => ?_⟩
  obtain ⟨e1, e2⟩ := similar_numbers (((h3 o ho ns).1 d hd).2.2 v ht)
  exact ⟨e1.symm, e2⟩

/-- C93, as far as it holds. If the expiry of every datapoint that was in the namespace in the beginning or was brought there has a year of four digits, the body
of an answer to a query lists all that was found, whatever else goes on. Missing: datapoints with other years, see `C93_refuted`. -/
theorem C93_body_partial (he : EnvOK env) (hf : FactoryOK fac) (hw : WorldOK D w0) (hn : ∀ n ∈ nodes, NodeOK n)
    {es es' : List (Ev F64)} {addrs : List Addr} {q : Api.QueryOpts F64}
    (hv : ∀ r ∈ arrivals (es ++ .arrive (.query addrs (some q)) :: es'), r.valid D)
    (hy : ∀ d ∈ held w0 q.ns ++ broughtBy (arrivals (es ++ .arrive (.query addrs (some q)) :: es')) q.ns, FourDigitYear d.expires) :
    ∃ s s', Service.run env fac es (boot nodes w0 p0) = .ok s ∧
      Service.run env fac (es ++ .arrive (.query addrs (some q)) :: es') (boot nodes w0 p0) = .ok s' ∧
      ∀ n l, s'.progs[s.jobs.length]? = some (Prog.ret (.found n l)) → n = 200 → Api.respond (n, l) = (200, some l) := by
  obtain ⟨s, s', h1, h2, h3⟩ := C92_answers (p0 := p0) he hf hw hn hv
  refine ⟨s, s', h1, h2, fun n l ho hn => ?_⟩
  subst hn
  have hall : l.all Api.jsonDP = true := by
    rw [List.all_eq_true]
    intro d hd
    have hs : d.toDataPoint ∈ (Job.query addrs (some q) : Job F64).shows (.found 200 l) q.ns := by
      simp only [Job.shows, if_true]
      exact List.mem_map.2 ⟨d, hd, rfl⟩
    obtain ⟨e1, e2, e3⟩ := (h3 _ ho q.ns).1 _ hs
    obtain ⟨_, e4⟩ := similar_numbers (e3 q.vec rfl)
    obtain ⟨y1, y2⟩ := hy _ e1
    simp only [Api.DP.toDataPoint] at e4 y1 y2
    simp only [Api.jsonDP, Bool.and_eq_true, List.all_eq_true, Api.jsonTime, decide_eq_true_eq]
    refine ⟨fun x hx => ?_, by omega, by omega⟩
    obtain ⟨a, k, rfl⟩ := e4 x hx
    rfl
  simp only [Api.respond, Api.marshal, hall, if_true]

end

theorem jsonDP_iff (d : Api.DP F64) : Api.jsonDP d = true ↔ Writable d := by
  simp only [Api.jsonDP, Api.jsonTime, Bool.and_eq_true, List.all_eq_true, decide_eq_true_eq, Writable, FourDigitYear]
  refine and_congr (forall₂_congr fun x _ => ?_) (and_congr (by omega) (by omega))
  cases x with
  | fin a k => exact ⟨fun _ => ⟨a, k, rfl⟩, fun _ => rfl⟩
  | nan => exact ⟨fun h => (by cases h), fun ⟨_, _, h⟩ => by cases h⟩
  | inf s => exact ⟨fun h => (by cases h), fun ⟨_, _, h⟩ => by cases h⟩

/-- C93. What a query over HTTP is answered with: the nodes are asked, and changed, as by `queryDataPoint`, whose status is sent; the body is empty unless the request
was understood and every single datapoint has a form in JSON, and then lists all that was found, in order. -/
theorem C93_answer (env : Env) (addrs : List Addr) (q : Option (Api.QueryOpts F64)) (w : World F64) (p : Nat) :
    (∀ n l w' p', (Api.queryDataPoint env addrs q).run w p = .ok (((n, l), w'), p') →
      ∃ body, (Api.queryHTTP env addrs q).run w p = .ok (((n, body), w'), p') ∧ BodyFor n l body) ∧
    ∀ e, (Api.queryDataPoint env addrs q).run w p = .error e → (Api.queryHTTP env addrs q).run w p = .error e := by
  constructor
  · intro n l w' p' h
    refine ⟨(Api.respond (n, l)).2, ?_, ?_⟩
    · rw [Api.queryHTTP, run_bind_ok h]
      rfl
    · simp only [Api.respond, Api.marshal, BodyFor]
      by_cases hn : n = 200
      · by_cases hl : l.all Api.jsonDP = true
        · left
          refine ⟨hn, fun d hd => (jsonDP_iff d).1 (List.all_eq_true.1 hl d hd), by rw [if_pos hn, if_pos hl]⟩
        · right
          refine ⟨.inr ?_, by rw [if_pos hn, if_neg hl]⟩
          simp only [List.all_eq_true, not_forall] at hl
          obtain ⟨d, hd, hx⟩ := hl
          exact ⟨d, hd, fun h => hx ((jsonDP_iff d).2 h)⟩
      · exact .inr ⟨.inl hn, by rw [if_neg hn]⟩
  · intro e h
    rw [Api.queryHTTP, run_bind_error h]

/-! ### Witnesses -/

namespace JsonExample
open ServerExample JobsExample ServiceExample

/-- A datapoint that expires at the instant `t`. -/
def until_ (t : Int) : DataPoint F64 := ⟨[.ofInt 1, .ofInt 0], [], t, true⟩

/-- The datapoint is added by RPC at node 1; then a query that drains. The answer, and what is left at the node. -/
def addAsk (d : DataPoint F64) : Option ((Nat × Option (List (Api.DP F64))) × List (DataPoint F64)) :=
  match (do
    let _ ← (Request.add 1 7 d).serve env fac
    Api.queryHTTP env [1] (some ⟨7, false, [.ofInt 1, .ofInt 1], 5, true⟩) : Prog F64 _).run start 0 with
  | .ok ((r, w), _) => some (r, storedAt w [1] 7)
  | .error _ => none

end JsonExample

open JsonExample in
/-- C93 is false: a datapoint whose expiry is in the year 10000 is added by RPC. A query that drains is answered with 200 and an empty body, and the datapoint is
gone. -/
theorem C93_refuted : addAsk (until_ 253402300800000000000) = some ((200, none), []) := by decide +kernel

namespace JsonExample
open ServerExample JobsExample ServiceExample AnswersExample

/-- C93: one nanosecond earlier, the datapoint is in the body. -/
example : addAsk (until_ 253402300799999999999) = some ((200, some [⟨[.ofInt 1, .ofInt 0], [], 253402300799999999999, true⟩]), []) := by
  decide +kernel

/-- C93: a datapoint with a NaN is not found, and it is still there. -/
example : addAsk ⟨[.nan, .ofInt 0], [], 0, false⟩ = some ((200, some []), [⟨[.nan, .ofInt 0], [], 0, false⟩]) := by decide +kernel

theorem one_number : IsNumber (.ofInt 1) := by
  have h : (match F64.ofInt 1 with | .fin _ _ => true | _ => false) = true := by decide +kernel
  revert h
  cases F64.ofInt 1 with
  | fin a k => exact fun _ => ⟨a, k, rfl⟩
  | nan => exact fun h => by cases h
  | inf s => exact fun h => by cases h

/-- C93: two datapoints, one of which has no form in JSON; a request that could not be decoded; an infinity. -/
example : BodyFor 200 [⟨[.ofInt 1], [], 0, false⟩, ⟨[.inf true], [], 0, false⟩] none ∧ BodyFor 400 [] none ∧
    BodyFor 200 [⟨[.ofInt 1], [], 0, false⟩] (some [⟨[.ofInt 1], [], 0, false⟩]) ∧ ¬ BodyFor 200 [⟨[.ofInt 1], [], 0, false⟩] none := by
  have h : Writable ⟨[.ofInt 1], [], 0, false⟩ :=
    ⟨by simp only [List.mem_singleton, forall_eq]; exact one_number, by decide, by decide⟩
  refine ⟨.inr ⟨.inr ⟨⟨[.inf true], [], 0, false⟩, by simp, fun h => ?_⟩, rfl⟩, .inr ⟨.inl (by decide), rfl⟩,
    .inl ⟨rfl, by simpa using h, rfl⟩, fun h' => ?_⟩
  · obtain ⟨_, _, h⟩ := h.1 (.inf true) (by simp)
    cases h
  · rcases h' with ⟨_, _, h'⟩ | ⟨h' | ⟨d, hd, hx⟩, _⟩
    · cases h'
    · exact h' rfl
    · simp only [List.mem_singleton] at hd
      subst hd
      exact hx h

/-- C93: a query while a put is served; the body lists what was found. -/
example : (answerOf 0 (Service.run env fac (.arrive ask :: .arrive (put 1 1) :: (turns 2 ++ turns 12)) (boot [] lone 0))).map
      (fun r => Api.respond (r.1, Api.dataPointsToDPs r.2)) =
    some (200, some (Api.dataPointsToDPs [dp 1 0, dp 1 1, dp 1 2])) := by decide +kernel

end JsonExample
end Trypo
