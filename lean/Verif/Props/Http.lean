import Verif.Model.Http
import Verif.Spec.Http
import Verif.Props.NoPanic
import Verif.Props.ClientCalls
import Verif.Proofs.Reads

/-!
# Property C101: HTTP requests cannot take a process down
-/

namespace Trypo
open GoFloat Spec EventLoop

variable {F : Type} [GoFloat F]

set_option linter.unusedSectionVars false

/-! ### No panics -/

open Prog (NP)

section
variable {I : Cond F}

theorem np_recovered {α : Type} (m : Prog F α) {n : Nat} {Q : α → Prop} (h : NP I m n Q) :
    NP I m.recovered n (fun o => ∃ a, o = some a ∧ Q a) := by
  induction m generalizing n with
  | ret a => exact ⟨a, rfl, h⟩
  | act a k ih =>
    cases a with
    | loc m =>
      rw [Prog.recovered, Act.recovered]
      intro w p hw hl
      obtain ⟨r, p', e, h1, h2, h3, h4⟩ := h w p hw hl
      obtain ⟨b, p1, e1, e2⟩ := go_bind_ok e
      cases e2
      refine ⟨(some b, w), p', ?_, h1, h2, h3, ih b h4⟩
      show (do let r ← m.recovered; pure (r, w) : Go _) p = _
      simp only [bind, StateT.bind, Go.recovered, e1, Except.bind]
      rfl
    | _ =>
      rw [Prog.recovered, Act.recovered]
      intro w p hw hl
      obtain ⟨r, p', e, h1, h2, h3, h4⟩ := h w p hw hl
      exact ⟨r, p', e, h1, h2, h3, ih r.1 h4⟩

theorem np_recovered_bind {α β : Type} (m : Prog F α) {f : α → Prog F β} {n : Nat} {Q : α → Prop} {R : Option β → Prop} (h : NP I m n Q)
    (hf : ∀ a n', n ≤ n' → Q a → NP I (f a).recovered n' R) : NP I (m.bind f).recovered n R := by
  induction m generalizing n with
  | ret a => exact hf a n (Nat.le_refl _) h
  | act a k ih =>
    rw [Prog.bind]
    cases a with
    | loc m =>
      rw [Prog.recovered, Act.recovered]
      intro w p hw hl
      obtain ⟨r, p', e, h1, h2, h3, h4⟩ := h w p hw hl
      obtain ⟨b, p1, e1, e2⟩ := go_bind_ok e
      cases e2
      refine ⟨(some b, w), p', ?_, h1, h2, h3, ih b h4 (fun a n' hn => hf a n' (Nat.le_trans hl hn))⟩
      show (do let r ← m.recovered; pure (r, w) : Go _) p = _
      simp only [bind, StateT.bind, Go.recovered, e1, Except.bind]
      rfl
    | _ =>
      rw [Prog.recovered, Act.recovered]
      intro w p hw hl
      obtain ⟨r, p', e, h1, h2, h3, h4⟩ := h w p hw hl
      exact ⟨r, p', e, h1, h2, h3, ih r.1 h4 (fun a n' hn => hf a n' (by omega))⟩

/-- A handler that makes a slice of negative length. -/
theorem np_recovered_negative {β : Type} {k : Int} (hk : k < 0) (f : Unit → Prog F β) (n : Nat) :
    NP I ((Prog.loc (Go.checkMake k) : Prog F Unit).bind f).recovered n (fun o => o = none) := by
  show NP I (Prog.act (.loc (Go.checkMake k).recovered) _) n _
  intro w p hw hl
  refine ⟨(none, w), p, ?_, hw.has, .same _ _, Nat.le_refl _, rfl⟩
  have e : Go.checkMake k p = .error .makeNeg := by
    unfold Go.checkMake
    rw [if_pos hk]
    rfl
  show (do let r ← (Go.checkMake k).recovered; pure (r, w) : Go _) p = _
  simp only [bind, StateT.bind, Go.recovered, e, Except.bind]
  rfl

theorem bind_assoc_prog {α β γ : Type} (m : Prog F α) (f : α → Prog F β) (g : β → Prog F γ) :
    (m.bind f).bind g = m.bind (fun a => (f a).bind g) := by
  induction m with
  | ret a => rfl
  | act a k ih => simp only [Prog.bind, ih]

variable [LawfulCmp F] {env : Env} [Near I] [Ops env.tk I]

theorem np_negative (he : EnvLax env) (addrs : List Addr) {q : Api.QueryOpts F} (hq : q.n < 0) (fac : Factory F) (n : Nat) :
    NP I (((Job.query addrs (some q)).prog env fac).recovered) n (fun o => o = none) := by
  have h : ∀ (m : Prog F (List Addr)) (g : List (DataPoint F) → Prog F (Outcome F)), NP I m n (fun _ => True) →
      NP I ((m.bind (fun as => (Dps.getDataPoints env as q.ns q.vec q.n q.drain))).bind g).recovered n (fun o => o = none) := by
    intro m g hm
    rw [bind_assoc_prog]
    refine np_recovered_bind m hm (fun as n' _ _ => ?_)
    show NP I (((Prog.loc (Go.checkMake q.n)).bind _).bind g).recovered n' _
    rw [bind_assoc_prog]
    exact np_recovered_negative hq _ n'
  show NP I (((if q.accurate then Dps.getDataPointsAccurate env knnCos addrs q.ns q.vec q.n q.drain
      else Dps.getDataPointsFast env knnCos addrs q.ns q.vec q.n q.drain : Prog F (List (DataPoint F))).bind _).bind _).recovered n _
  rw [bind_assoc_prog]
  split
  · exact h _ _ (np_bestFit he addrs _ (fun a n => np_client_nearestCentroidVec he a q.ns _ n) n)
  · exact h _ _ (np_bestFit he addrs _ (fun a n => np_client_vec he a q.ns n) n)

theorem np_served (he : EnvLax env) {fac : Factory F} (hf : Makes fac I) {j : Job F} (hg : j.steals → Grows I) (hj : j.counts') (n : Nat) :
    NP I (j.served env fac) n (fun o => o = none ↔ j.negative) := by
  have plain : ∀ j' : Job F, j'.counts → (j'.steals → Grows I) → ¬ j'.negative →
      NP I (do let o ← j'.prog env fac; pure (some o) : Prog F _) n (fun o => o = none ↔ j'.negative) := fun j' h hg' hn =>
    np_bind (np_job he hf hg' h n) (fun _ _ _ _ => np_pure ⟨fun h => (by cases h), fun h => absurd h hn⟩)
  have guarded : ∀ j' : Job F, j'.counts → (j'.steals → Grows I) → ¬ j'.negative →
      NP I ((j'.prog env fac).recovered) n (fun o => o = none ↔ j'.negative) := fun j' h hg' hn =>
    np_mono (Nat.le_refl _) (np_recovered _ (np_job he hf hg' h n)) (fun o ⟨a, ha, _⟩ => ⟨fun h => (by rw [ha] at h; cases h), fun h => absurd h hn⟩)
  cases j with
  | query addrs body =>
    cases body with
    | none => exact guarded _ trivial hg (fun h => h)
    | some q =>
      by_cases hq : q.n < 0
      · exact np_mono (Nat.le_refl _) (np_negative he addrs hq fac n) (fun o ho => ⟨fun _ => hq, fun _ => ho⟩)
      · exact guarded _ (Int.not_lt.1 hq) hg hq
  | put addrs body => exact guarded _ hj hg (fun h => h)
  | rpc r => exact plain _ hj hg (fun h => h)
  | call c => exact plain _ hj hg (fun h => h)
  | task cfg fuel t => exact plain _ hj hg (fun h => h)
  | loop cfg fuel skip k iter => exact plain _ hj hg (fun h => h)

end

theorem np_pool_ends {I : Manager F → Prop} {α : Type} (R : Nat → α → Prop) : ∀ (sched : List Nat) (ts : List (Prog F α)) (w : World F) (p : Nat),
    WHas (.of I) w → (∀ (i : Nat) (t : Prog F α), ts[i]? = some t → NP (.of I) t w.heap.length (R i)) →
    ∃ ts' w' p', Pool.run sched ts w p = .ok (ts', w', p') ∧ WHas (.of I) w' ∧ ts'.length = ts.length ∧
      ∀ (i : Nat) (a : α), ts'[i]? = some (.ret a) → R i a
  | [], ts, w, p, hw, h => ⟨ts, w, p, rfl, hw, rfl, fun i a hi => h i _ hi⟩
  | i :: is, ts, w, p, hw, h => by
    unfold Pool.run
    cases hi : ts[i]? with
    | none => exact np_pool_ends R is ts w p hw h
    | some t =>
      have ht := h i t hi
      cases t with
      | ret a => exact np_pool_ends R is ts w p hw h
      | act a k =>
        obtain ⟨r, p', e, h1, _, h2, h3⟩ := ht w p (ready_of hw p) (Nat.le_refl _)
        simp only [e]
        obtain ⟨ts', w', p'', e', g1, g2, g3⟩ := np_pool_ends R is (ts.set i (k r.1)) r.2 p' h1 (fun j t ht => by
          rw [List.getElem?_set] at ht
          split at ht
          · rename_i ej
            subst ej
            split at ht
            · cases ht; exact h3
            · cases ht
          · exact np_mono h2 (h j t ht) (fun _ h => h))
        exact ⟨ts', w', p'', e', g1, by rw [g2]; simp, g3⟩

/-! ### Nothing is changed -/

section
variable {α β : Type}

theorem onlyReads_bind {m : Prog F α} {f : α → Prog F β} (hm : OnlyReads m) (hf : ∀ a, OnlyReads (f a)) : OnlyReads (m.bind f) := by
  induction m with
  | ret a => exact hf a
  | act a k ih => exact fun w p r p' e => ⟨(hm w p r p' e).1, ih r.1 (hm w p r p' e).2⟩

theorem onlyReads_loc (m : Go α) : OnlyReads (Prog.loc m : Prog F α) := by
  intro w p r p' e
  obtain ⟨b, p1, e1, e2⟩ := go_bind_ok e
  cases e2
  exact ⟨rfl, trivial⟩

theorem onlyReads_access {f : Manager F → Go (β × Manager F)} (h : ∀ m p r p', f m p = .ok (r, p') → r.2 = m) (a : Addr) (ns : NS) :
    OnlyReads (Server.access a ns f) := by
  unfold Server.access
  intro w p r p' e
  cases e
  refine ⟨rfl, ?_⟩
  simp only
  cases w.lookup a ns with
  | none => exact trivial
  | some i =>
    intro w p r p' e
    simp only [Act.run] at e
    cases hs : w.heap[i]? with
    | none => rw [hs] at e; cases e
    | some s =>
      rw [hs] at e
      obtain ⟨b, p1, e1, e2⟩ := go_bind_ok e
      cases e2
      refine ⟨?_, trivial⟩
      simp only [h _ _ _ _ e1]
      obtain ⟨hi, e3⟩ := List.getElem?_eq_some_iff.1 hs
      have : w.heap.set i (s.1, s.2) = w.heap := by
        rw [← e3]
        exact List.set_getElem_self hi
      rw [this]

theorem onlyReads_each {f : α → Prog F β} (h : ∀ a, OnlyReads (f a)) : ∀ l, OnlyReads (Prog.each f l)
  | [] => trivial
  | a :: l => by
    unfold Prog.each
    exact onlyReads_bind (h a) (fun _ => onlyReads_bind (onlyReads_each h l) (fun _ => trivial))

theorem onlyReads_recovered {m : Prog F α} (h : OnlyReads m) : OnlyReads m.recovered := by
  induction m with
  | ret a => exact trivial
  | act a k ih =>
    cases a with
    | loc m =>
      rw [Prog.recovered, Act.recovered]
      intro w p r p' e
      obtain ⟨b, p1, e1, e2⟩ := go_bind_ok e
      cases e2
      refine ⟨rfl, ?_⟩
      cases b with
      | none => exact trivial
      | some b =>
        refine ih b (h w p (b, w) p' ?_).2
        unfold Go.recovered at e1
        show (do let r ← m; pure (r, w) : Go _) p = _
        cases hm : m p with
        | error e => rw [hm] at e1; cases e1
        | ok q =>
          rw [hm] at e1
          obtain ⟨q1, q2⟩ := q
          cases e1
          simp only [bind, StateT.bind, hm, Except.bind]
          rfl
    | _ =>
      rw [Prog.recovered, Act.recovered]
      exact fun w p r p' e => ⟨(h w p r p' e).1, ih r.1 (h w p r p' e).2⟩

end

section
variable {env : Env}

theorem onlyReads_call {β : Type} {a : Addr} {body : Prog F (Option β)} (h : OnlyReads body) : OnlyReads (Client.call env a body) := by
  unfold Client.call
  refine onlyReads_bind (onlyReads_loc _) (fun b => ?_)
  cases b with
  | false => exact trivial
  | true =>
    refine onlyReads_bind h (fun r => onlyReads_bind (onlyReads_loc _) (fun b => ?_))
    cases b <;> exact trivial

theorem nearest_keeps {m : Manager F} {v : List F} {n : Int} {p p' : Nat} {r : Option (List (Centroid F)) × Manager F}
    (h : m.nearestCentroids v n false p = .ok (r, p')) : r.2 = m := by
  unfold Manager.nearestCentroids at h
  obtain ⟨is, p1, _, h⟩ := go_bind_ok h
  split at h
  · cases h; rfl
  · obtain ⟨_, p2, _, h⟩ := go_bind_ok h
    obtain ⟨cs, p3, _, h⟩ := go_bind_ok h
    cases h; rfl

theorem onlyReads_bestFit {addrs : List Addr} {v : List F} {fetch : Addr → Prog F (Option (List F))} (h : ∀ a, OnlyReads (fetch a)) :
    OnlyReads (Nodes.bestFitNodes env knnCos addrs v fetch) := by
  unfold Nodes.bestFitNodes fetchVecs
  refine onlyReads_bind (onlyReads_bind (onlyReads_loc _) (fun l => onlyReads_bind (onlyReads_each (fun a => ?_) l) (fun r =>
    onlyReads_bind (onlyReads_loc _) (fun _ => trivial)))) (fun _ => onlyReads_loc _)
  exact onlyReads_bind (h a) (fun _ => trivial)

theorem onlyReads_vec (a : Addr) (ns : NS) : OnlyReads (Client.vec env a ns : Prog F _) :=
  onlyReads_call (onlyReads_access (fun m p r p' h => by cases h; rfl) a ns)

theorem onlyReads_nearestVec (a : Addr) (ns : NS) (v : List F) : OnlyReads (Client.nearestCentroidVec env a ns v) := by
  refine onlyReads_call (onlyReads_access (fun m p r p' h => ?_) a ns)
  obtain ⟨q, p1, h1, h⟩ := go_bind_ok h
  rw [← nearest_keeps h1]
  cases hq : q.1.getD [] with
  | nil => simp only [hq] at h; cases h; rfl
  | cons c cs => simp only [hq] at h; cases h; rfl

end

theorem recovered_run {α : Type} (m : Prog F α) {w w' : World F} {p p' : Nat} {a : α} (h : m.run w p = .ok ((a, w'), p')) :
    m.recovered.run w p = .ok ((some a, w'), p') := by
  induction m generalizing w p with
  | ret b => cases h; rfl
  | act b k ih =>
    obtain ⟨r, p1, h1, h2⟩ := go_bind_ok h
    cases b with
    | loc m =>
      rw [Prog.recovered, Act.recovered]
      obtain ⟨x, p2, h3, h4⟩ := go_bind_ok h1
      cases h4
      unfold Prog.run
      have e : (Act.loc m.recovered : Act F _).run w p = .ok ((some x, w), p1) := by
        show (do let r ← m.recovered; pure (r, w) : Go _) p = _
        simp only [bind, StateT.bind, Go.recovered, h3, Except.bind]
        rfl
      simp only [bind, StateT.bind, e, Except.bind]
      exact ih x h2
    | _ =>
      rw [Prog.recovered, Act.recovered]
      unfold Prog.run
      simp only [bind, StateT.bind, h1, Except.bind]
      exact ih r.1 h2

/-- **C101.** Everything a service does, interleaved in any way, with HTTP requests of any kind: no process panics, tables keep pointing to slots, and no namespace
goes away. An HTTP request stays without an answer exactly if it asks for a negative number of datapoints. -/
theorem C101_no_crash [LawfulCmp F] {env : Env} (he : EnvLax env) {fac : Factory F} (hf : FacLax fac) {w : World F} (hw : WLax w)
    {jobs : List (Job F)} (hv : ∀ j ∈ jobs, j.counts') (sched : List Nat) (p : Nat) :
    ∃ progs w' p', Pool.run sched (jobs.map (fun j => j.served env fac)) w p = .ok (progs, w', p') ∧ WLax w' ∧ progs.length = jobs.length ∧
      (∀ a ns, w.lookup a ns ≠ none → w'.lookup a ns ≠ none) ∧
      ∀ (i : Nat) (j : Job F) (o : Option (Outcome F)), jobs[i]? = some j → progs[i]? = some (.ret o) → (o = none ↔ j.negative) := by
  obtain ⟨ts, w', p', h1, h2, h3, h4⟩ := np_pool_ends (I := MLax)
    (fun i o => ∀ j, jobs[i]? = some j → (o = none ↔ Job.negative j)) sched (jobs.map (fun j => j.served env fac)) w p (whas_lax.2 hw)
    (fun i t ht => by
      rw [List.getElem?_map] at ht
      obtain ⟨j, hj, rfl⟩ := Option.map_eq_some_iff.1 ht
      refine np_mono (Nat.le_refl _) (np_served he (np_factory hf) (fun _ => lax_grows) (hv j (List.mem_of_getElem? hj)) _) (fun o ho j' hj' => ?_)
      rw [hj] at hj'
      cases hj'
      exact ho)
  exact ⟨ts, w', p', h1, whas_lax.1 h2, by simpa using h3, fun a ns h => lookup_pool sched _ w p h1 h, fun i j o hj ho => h4 i o ho j hj⟩

/-- **C101.** A query for a negative number of datapoints changes nothing at any node, at none of its steps and whatever else goes on. -/
theorem C101_negative_reads (env : Env) (fac : Factory F) (addrs : List Addr) {q : Api.QueryOpts F} (hq : q.n < 0) :
    OnlyReads ((Job.query addrs (some q) : Job F).served env fac) := by
  have h : ∀ m : Prog F (List Addr), OnlyReads m → OnlyReads (m.bind (fun as => Dps.getDataPoints env as q.ns q.vec q.n q.drain)) := fun m hm =>
    onlyReads_bind hm (fun as => by
      show OnlyReads (Prog.act (.loc (Go.checkMake q.n)) _)
      intro w p r p' e
      obtain ⟨x, p1, h1, _⟩ := go_bind_ok e
      unfold Go.checkMake at h1
      rw [if_pos hq] at h1
      cases h1)
  refine onlyReads_recovered (onlyReads_bind ?_ (fun _ => trivial))
  refine onlyReads_bind (m := if q.accurate then Dps.getDataPointsAccurate env knnCos addrs q.ns q.vec q.n q.drain
      else Dps.getDataPointsFast env knnCos addrs q.ns q.vec q.n q.drain) ?_ (fun _ => trivial)
  split
  · exact h _ (onlyReads_bestFit (fun a => onlyReads_nearestVec a _ _))
  · exact h _ (onlyReads_bestFit (fun a => onlyReads_vec a _))

/-- **C101.** Such a query panics in the handler, whatever the nodes hold; it is net/http that keeps the process alive. -/
theorem C101_handler_panics [LawfulCmp F] {env : Env} (he : EnvLax env) {w : World F} (hw : WLax w) (addrs : List Addr) {q : Api.QueryOpts F}
    (hq : q.n < 0) (p : Nat) : (Api.queryDataPoint env addrs (some q)).run w p = .error .makeNeg := by
  have h : ∀ m : Prog F (List Addr), Prog.NP (.of MLax) m w.heap.length (fun _ => True) →
      (m >>= (fun as => Dps.getDataPoints env as q.ns q.vec q.n q.drain)).run w p = .error .makeNeg := fun m hm => by
    obtain ⟨r, p', e, _, _⟩ := np_run m p hm (whas_lax.2 hw) (Nat.le_refl _)
    rw [run_bind_ok e]
    unfold Dps.getDataPoints
    refine run_bind_error ?_
    rw [run_loc]
    refine error_bind ?_
    unfold Go.checkMake
    rw [if_pos hq]
    rfl
  unfold Api.queryDataPoint
  refine run_bind_error ?_
  split
  · exact h _ (np_bestFit he addrs _ (fun a n => np_client_nearestCentroidVec he a q.ns _ n) _)
  · exact h _ (np_bestFit he addrs _ (fun a n => np_client_vec he a q.ns n) _)

/-- **C101.** For all other HTTP requests, net/http makes no difference: what the handler does, run alone, it does there, and it answers. -/
theorem C101_others [LawfulCmp F] {env : Env} (he : EnvLax env) {fac : Factory F} (hf : FacLax fac) {w : World F} (hw : WLax w) {j : Job F}
    (hj : j.counts) (p : Nat) :
    ∃ o w' p', (j.prog env fac).run w p = .ok ((o, w'), p') ∧ (j.served env fac).run w p = .ok ((some o, w'), p') := by
  obtain ⟨r, p', e, _, _⟩ := np_run (I := MLax) (j.prog env fac) p (np_job he (np_factory hf) (fun _ => lax_grows) hj _) (whas_lax.2 hw) (Nat.le_refl _)
  refine ⟨r.1, r.2, p', e, ?_⟩
  cases j with
  | put addrs body => exact recovered_run _ e
  | query addrs body => exact recovered_run _ e
  | _ => exact run_bind_ok e

/-! ### Examples -/

namespace HttpExample
open ServerExample JobsExample

/-- Queries for -1 and for 5 datapoints that drain, a put, an RPC and a query that cannot be decoded. -/
def mixed : List (Job F64) := [.query [1, 2] (some ⟨7, true, [.ofInt 1, .ofInt 1], -1, true⟩), .query [1, 2] (some ⟨7, true, [.ofInt 1, .ofInt 1], 5, true⟩),
  .put [1, 2] (some ⟨7, false, ⟨[.ofInt 3, .ofInt 1], [], 0, false⟩⟩), .rpc (.add 1 7 (dp 0 1)), .query [1] none]

/-- C101: whatever the schedule. -/
example (sched : List Nat) (p : Nat) : ∃ progs w' p', Pool.run sched (mixed.map (fun j => j.served env fac)) two p = .ok (progs, w', p') ∧ WLax w' ∧
    progs.length = mixed.length ∧ (∀ a ns, two.lookup a ns ≠ none → w'.lookup a ns ≠ none) ∧
    ∀ (i : Nat) (j : Job F64) (o : Option (Outcome F64)), mixed[i]? = some j → progs[i]? = some (.ret o) → (o = none ↔ j.negative) :=
  C101_no_crash ⟨env_ok.perm, env_ok.rand⟩ ⟨by decide, (prefabs_goodSearch).1, (prefabs_goodSearch).2.1⟩ (lax_of_ok two_ok)
    (by simp [mixed, Job.counts', Job.counts, Request.counts]) sched p

/-- What the goroutines have handed out: nothing yet, no answer, or some. -/
def states (r : List (Prog F64 (Option (Outcome F64))) × World F64 × Nat) : List Nat := r.1.map (fun t =>
  match t with
  | .act _ _ => 0
  | .ret none => 1
  | .ret (some _) => 2)

/-- C101: run one after the other. The first query gets no answer; the second one drains all three datapoints. (What the RPC brings
then is refused at node 1, see C35.) -/
example : ∃ r, Pool.run ((List.range 5).flatMap (fun i => List.replicate 60 i)) (mixed.map (fun j => j.served env fac)) two 0 = .ok r ∧
    (states r, storedAt r.2.1 [1, 2] 7) = ([1, 2, 2, 2, 2], [dp 3 1]) :=
  exists_of_pool (by decide +kernel)

end HttpExample
end Trypo
