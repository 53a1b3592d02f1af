import Verif.Proofs.NoPanicSystem
import Verif.Props.Jobs

/-!
# C61, C80: no panics, whatever the data and the clock; which requests panic
-/

namespace Trypo
open Spec EventLoop

variable {F : Type} [GoFloat F]

/-! ### C61 -/

theorem lookup_act {β : Type} (act : Act F β) {w w' : World F} {r : β} {p p' : Nat} (h : act.run w p = .ok ((r, w'), p')) {b : Addr} {ns : NS}
    (hb : w.lookup b ns ≠ none) : w'.lookup b ns ≠ none := by
  cases act with
  | lookup a n => cases h; exact hb
  | names a => cases h; exact hb
  | addSlot a n m =>
    cases h
    by_cases h1 : b = a
    · subst h1
      by_cases h2 : ns = n
      · subst h2; rw [lookup_addSlot]; simp
      · rw [lookup_addSlot_ns _ _ _ h2]; exact hb
    · rw [lookup_addSlot_node _ h1]; exact hb
  | slot i f =>
    simp only [Act.run] at h
    cases hc : w.heap[i]? with
    | none => rw [hc] at h; cases h
    | some s =>
      rw [hc] at h
      simp only [bind, StateT.bind] at h
      cases hf : f s.2 p with
      | error e => rw [hf] at h; cases h
      | ok q => rw [hf] at h; cases h; exact hb
  | loc m =>
    simp only [Act.run, bind, StateT.bind] at h
    cases hf : m p with
    | error e => rw [hf] at h; cases h
    | ok q => rw [hf] at h; cases h; exact hb

theorem lookup_pool {α : Type} {b : Addr} {ns : NS} : ∀ (sched : List Nat) (ts : List (Prog F α)) (w : World F) (p : Nat) {r : List (Prog F α) × World F × Nat},
    Pool.run sched ts w p = .ok r → w.lookup b ns ≠ none → r.2.1.lookup b ns ≠ none
  | [], ts, w, p, r, h, hb => by cases h; exact hb
  | i :: is, ts, w, p, r, h, hb => by
    unfold Pool.run at h
    cases hi : ts[i]? with
    | none => rw [hi] at h; exact lookup_pool is ts w p h hb
    | some t =>
      rw [hi] at h
      cases t with
      | ret a => exact lookup_pool is ts w p h hb
      | act a k =>
        simp only at h
        cases hr : a.run w p with
        | error e => rw [hr] at h; cases h
        | ok q =>
          rw [hr] at h
          exact lookup_pool is _ q.1.2 q.2 h (lookup_act a hr hb)

/-- C61. RPC requests, HTTP requests, tasks, whole event loops and the goroutines they start, at any number of nodes,
interleaved in any way, with any failures of the network, datapoints of any dimensions, a clock that jumps, and any search
functions: nothing panics, tables keep pointing to slots, and no namespace disappears. -/
theorem C61_any_data [LawfulCmp F] {env : Env} (he : EnvLax env) {fac : Factory F} (hf : FacLax fac) {w : World F} (hw : WLax w)
    {jobs : List (Job F)} (hv : ∀ j ∈ jobs, j.counts) (sched : List Nat) (p : Nat) :
    ∃ progs w' p', Pool.run sched (jobs.map (fun j => j.prog env fac)) w p = .ok (progs, w', p') ∧ WLax w' ∧
      progs.length = jobs.length ∧ ∀ a ns, w.lookup a ns ≠ none → w'.lookup a ns ≠ none := by
  obtain ⟨ts, w', p', h1, h2, h3, _⟩ := np_pool sched (jobs.map (fun j => j.prog env fac)) w p (whas_lax.2 hw) (fun t ht => by
    obtain ⟨j, hj, rfl⟩ := List.mem_map.1 ht
    exact np_job he (np_factory hf) (fun _ => lax_grows) (hv j hj) _)
  exact ⟨ts, w', p', h1, whas_lax.1 h2, by simpa using h3, fun a ns h => lookup_pool sched _ w p h1 h⟩

/-! ### C80: which requests crash a node -/

theorem np_run {I : Manager F → Prop} {α : Type} : ∀ (m : Prog F α) {n : Nat} {Q : α → Prop} {w : World F} (p : Nat), m.NP (.of I) n Q → WHas (.of I) w →
    n ≤ w.heap.length → ∃ r p', m.run w p = .ok (r, p') ∧ Q r.1 ∧ WHas (.of I) r.2 := by
  intro m
  induction m with
  | ret a => exact fun p h hw _ => ⟨_, p, rfl, h, hw⟩
  | act a k ih =>
    intro n Q w p h hw hn
    obtain ⟨r, p', e, h1, _, h2, h3⟩ := h w p (ready_of hw p) hn
    obtain ⟨q, p'', e', h4, h5⟩ := ih r.1 p' h3 h1 (Nat.le_refl _)
    refine ⟨q, p'', ?_, h4, h5⟩
    unfold Prog.run
    simp only [bind, StateT.bind, e, Except.bind]
    exact e'

theorem error_bind {α β : Type} {m : Go α} {f : α → Go β} {p : Nat} {e : Panic} (h : m p = .error e) : (m >>= f) p = .error e := by
  simp only [bind, StateT.bind, h, Except.bind]

theorem checkMake_neg {n : Int} (h : n < 0) (p : Nat) : Go.checkMake n p = .error .makeNeg := by
  unfold Go.checkMake
  rw [if_pos h]
  rfl

theorem run_bind_error {α β : Type} {m : Prog F α} {f : α → Prog F β} {w : World F} {p : Nat} {e : Panic} (h : m.run w p = .error e) :
    (m >>= f).run w p = .error e := by
  rw [run_bind]; exact error_bind h

theorem access_error {β : Type} {a : Addr} {ns : NS} {f : Manager F → Go (β × Manager F)} {w : World F} (hw : WLax w) (hl : w.lookup a ns ≠ none) {p : Nat}
    (h : ∀ s ∈ w.heap, ∃ e, f s.2 p = .error e) : ∃ e, (Server.access a ns f).run w p = .error e := by
  obtain ⟨i, hi⟩ := Option.ne_none_iff_exists'.1 hl
  have hlt := hw.points a ns i (mem_of_lookup hi)
  obtain ⟨e, he⟩ := h _ (List.getElem_mem hlt)
  refine ⟨e, ?_⟩
  unfold Server.access
  rw [run_bind, run_lookup, pure_bind, hi]
  show ((Prog.ofAct (.slot i f) >>= fun b => pure (some b)) : Prog F (Option β)).run w p = _
  refine run_bind_error ?_
  rw [run_ofAct]
  simp only [Act.run, List.getElem?_eq_getElem hlt]
  exact error_bind he

theorem answer_error {β : Type} {g : β → Answer F} {m : Prog F (Option β)} {w : World F} {p : Nat} (h : ∃ e, m.run w p = .error e) :
    ∃ e, (answer g m).run w p = .error e := by
  obtain ⟨e, he⟩ := h
  exact ⟨e, run_bind_error he⟩

theorem answer_none {β : Type} {g : β → Answer F} {a : Addr} {ns : NS} {f : Manager F → Go (β × Manager F)} {w : World F} (h : w.lookup a ns = none) (p : Nat) :
    ¬ ∃ e, (answer g (Server.access a ns f)).run w p = .error e := by
  rintro ⟨e, he⟩
  unfold answer at he
  rw [run_bind, run_access_none h, pure_bind] at he
  cases he

theorem mapOrder_error {β : Type} {env : Env} {f : (List (Nat × Nat) → List (Nat × Nat)) → Go β} {p : Nat}
    (h : ∀ ord q, ∃ e, f ord q = .error e) : ∃ e, (do let ord ← env.mapOrder; f ord : Go β) p = .error e := by
  obtain ⟨e, he⟩ := h (fun l => Env.reorder (env.perm p l.length) l) (p + 1)
  exact ⟨e, he⟩

/-- C80 as far as it is true: a request crashes the node exactly if it has a negative count and (for all but the two
distribution requests) its namespace exists. No other request panics, whatever the dimensions and the clock. -/
theorem C80_crash_iff_partial [LawfulCmp F] {env : Env} (he : EnvLax env) {fac : Factory F} (hf : FacLax fac) {w : World F} (hw : WLax w)
    (hs : SearchPanics w) (r : Request F) (p : Nat) : (∃ e, (r.serve env fac).run w p = .error e) ↔ r.crashes w := by
  have hok : r.counts → ¬ ∃ e, (r.serve env fac).run w p = .error e := by
    intro hc ⟨e, h⟩
    obtain ⟨q, p', h', _⟩ := np_run _ p (np_request he (np_factory hf) (fun _ => lax_grows) hc w.heap.length) (whas_lax.2 hw) (Nat.le_refl _)
    rw [h'] at h; cases h
  have hacc : ∀ {β : Type} {g : β → Answer F} {a : Addr} {ns : NS} {f : Manager F → Go (β × Manager F)} {k : Int},
      (¬ k < 0 → ¬ ∃ e, (answer g (Server.access a ns f)).run w p = .error e) →
      (k < 0 → ∀ s ∈ w.heap, ∃ e, f s.2 p = .error e) →
      ((∃ e, (answer g (Server.access a ns f)).run w p = .error e) ↔ k < 0 ∧ w.lookup a ns ≠ none) := by
    intro β g a ns f k h1 h2
    constructor
    · intro h
      refine ⟨?_, fun hn => answer_none hn p h⟩
      by_contra hk
      exact h1 hk h
    · exact fun h => answer_error (access_error hw h.2 (h2 h.1))
  have hdist : ∀ {g : Unit → Answer F} {m : Prog F (Option Unit)} {k : Int},
      (¬ k < 0 → ¬ ∃ e, (answer g (do Prog.loc (Go.checkMake k); m)).run w p = .error e) →
      ((∃ e, (answer g (do Prog.loc (Go.checkMake k); m)).run w p = .error e) ↔ k < 0) := by
    intro g m k h1
    constructor
    · intro h
      by_contra hk
      exact h1 hk h
    · intro hk
      refine answer_error ⟨.makeNeg, run_bind_error ?_⟩
      exact error_bind (error_bind (checkMake_neg hk p))
  cases r with
  | add a ns d => exact ⟨fun h => hok trivial h, fun h => h.elim⟩
  | vec a ns => exact ⟨fun h => hok trivial h, fun h => h.elim⟩
  | lenDP a ns => exact ⟨fun h => hok trivial h, fun h => h.elim⟩
  | expire a ns => exact ⟨fun h => hok trivial h, fun h => h.elim⟩
  | memTrim a ns => exact ⟨fun h => hok trivial h, fun h => h.elim⟩
  | moveVector a ns => exact ⟨fun h => hok trivial h, fun h => h.elim⟩
  | distributeInternal a ns k => exact ⟨fun h => hok trivial h, fun h => h.elim⟩
  | nearestCentroidVec a ns v => exact ⟨fun h => hok trivial h, fun h => h.elim⟩
  | splitCentroids a ns mi ma => exact ⟨fun h => hok trivial h, fun h => h.elim⟩
  | mergeCentroids a ns mi ma => exact ⟨fun h => hok trivial h, fun h => h.elim⟩
  | stealCentroid a ns src limit fuel => exact ⟨fun h => hok trivial h, fun h => h.elim⟩
  | drainUnordered a ns k =>
    exact hacc (fun hk => hok (by simpa [Request.counts] using hk)) (fun hk s _ => mapOrder_error (fun ord q => ⟨_, error_bind (checkMake_neg hk q)⟩))
  | drainOrdered a ns k =>
    exact hacc (fun hk => hok (by simpa [Request.counts] using hk)) (fun hk s _ => mapOrder_error (fun ord q => ⟨_, error_bind (checkMake_neg hk q)⟩))
  | distributeFast a ns k addrs => exact hdist (fun hk => hok (by simpa [Request.counts] using hk))
  | distributeAccurate a ns k addrs => exact hdist (fun hk => hok (by simpa [Request.counts] using hk))
  | knnLookup a ns v k drain =>
    exact hacc (fun hk => hok (by simpa [Request.counts] using hk)) (fun hk s _ => ⟨_, error_bind (checkMake_neg hk p)⟩)
  | nearestCentroids a ns v k drain =>
    refine hacc (fun hk => hok (by simpa [Request.counts] using hk)) (fun hk s hs' => ?_)
    obtain ⟨e, h⟩ := hs s hs' v s.2.centroidVecs k hk
    refine ⟨e, error_bind (error_bind ?_)⟩
    unfold Go.lift
    rw [h]

/-! ### Refutation and examples -/

open ServerExample JobsExample

/-- C80 fails: an RPC that looks up -1 neighbours takes the node down, and with it all its namespaces; so does one that distributes -1 datapoints, also in a namespace
that does not exist. (An HTTP query for -1 datapoints does not: C101.) -/
theorem C80_refuted : ((Request.knnLookup 1 7 [.ofInt 1, .ofInt 0] (-1) false).serve env fac).run two 0 = .error .makeNeg ∧
    ((Request.distributeFast 1 9 (-1) []).serve env fac).run two 0 = .error .makeNeg :=
  ⟨error_of_map (by decide +kernel), error_of_map (by decide +kernel)⟩

theorem lax_of_ok [LawfulCmp F] {D : NS → Nat} {w : World F} (h : WorldOK D w) : WLax w where
  points := fun a ns i hi => by
    obtain ⟨m, hm⟩ := h.points a ns i hi
    exact (List.getElem?_eq_some_iff.1 hm).1
  slots := fun s hs => by
    obtain ⟨h1, _⟩ := h.slots s hs
    refine ⟨h1.cap, h1.good.1, h1.good.2, fun c hc => ?_⟩
    obtain ⟨e1, e2⟩ := h1.search c hc
    exact ⟨e1 ▸ h1.good.1, e2 ▸ h1.good.2⟩

theorem panics_of_ok {D : NS → Nat} {w : World F} (h : WorldOK D w) : SearchPanics w := fun s hs v pool k hk => by
  rw [(h.slots s hs).2.1]
  exact ⟨.makeNeg, if_pos hk⟩

/-- A clock that runs backwards and forwards. -/
def jumpEnv : Env := { env with tk := fun p => if p % 2 = 0 then 100 else -50 }

theorem jumpEnv_lax : EnvLax jumpEnv := ⟨env_ok.perm, env_ok.rand⟩

/-- Datapoints of dimensions 0, 1 and 3 for namespaces of dimension 2, some of which expire, next to other requests. -/
def odd : List (Job F64) := [.rpc (.add 1 7 ⟨[], [1], 60, true⟩), .rpc (.add 1 7 ⟨[.ofInt 1], [1], 0, false⟩), .rpc (.add 2 8 ⟨[.ofInt 1, .ofInt 2, .ofInt 3], [], 70, true⟩),
  .rpc (.stealCentroid 1 7 2 10 5), .rpc (.drainOrdered 1 7 3), .rpc (.splitCentroids 1 7 0 5), .rpc (.mergeCentroids 2 7 0 5), .rpc (.knnLookup 1 7 [.ofInt 1] 4 true),
  .rpc (.distributeFast 1 7 2 [1, 2]), .rpc (.distributeAccurate 2 7 2 [1, 2]), .rpc (.nearestCentroids 2 7 [] 2 true)]

theorem odd_counts : ∀ j ∈ odd, j.counts := by simp [odd, Job.counts, Request.counts]

/-- C61: whatever the schedule. -/
example (sched : List Nat) (p : Nat) : ∃ progs w' p', Pool.run sched (odd.map (fun j => j.prog jumpEnv fac)) two p = .ok (progs, w', p') ∧ WLax w' ∧
    progs.length = odd.length ∧ ∀ a ns, two.lookup a ns ≠ none → w'.lookup a ns ≠ none :=
  C61_any_data jumpEnv_lax ⟨by decide, (prefabs_goodSearch).1, (prefabs_goodSearch).2.1⟩ (lax_of_ok two_ok) odd_counts sched p

/-- What is left is not trivial: the datapoints of other dimensions are refused by the namespace that exists (and stored in the
new one). -/
example : ∃ r, Pool.run ((List.range 4).flatMap (fun i => List.replicate 60 i)) ((odd.take 4).map (fun j => j.prog env fac)) two 0 = .ok r ∧
    ((storedAt r.2.1 [1, 2] 7).map (fun d => d.vec.length), (storedAt r.2.1 [2] 8).map (fun d => d.vec.length)) = ([2, 2, 2], [3]) :=
  exists_of_pool (by decide +kernel)

/-- C80: on the two nodes, exactly the requests that `crashes` names panic. -/
example (r : Request F64) (p : Nat) : (∃ e, (r.serve jumpEnv fac).run two p = .error e) ↔ r.crashes two :=
  C80_crash_iff_partial jumpEnv_lax ⟨by decide, (prefabs_goodSearch).1, (prefabs_goodSearch).2.1⟩ (lax_of_ok two_ok) (panics_of_ok two_ok) r p

/-- C80: a negative count in a namespace that does not exist is answered with an error. -/
example : ∃ r p', seq env [.knnLookup 1 9 [.ofInt 1, .ofInt 0] (-1) false, .drainOrdered 1 9 (-3), .lenDP 1 9] 0 = .ok (r, p') ∧
    obs r = ([.noNamespace, .noNamespace, .noNamespace], [], []) :=
  exists_of_run (by decide +kernel)

end Trypo
