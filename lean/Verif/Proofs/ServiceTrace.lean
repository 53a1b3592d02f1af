import Verif.Props.Service

/-!
# A running service: endless runs
-/

set_option linter.unusedSectionVars false
set_option linter.unusedVariables false

namespace Trypo
open GoFloat Spec EventLoop Service

section
variable {F : Type} [GoFloat F] [LawfulCmp F]
variable {env : Env} {fac : Factory F} {nodes : List (Config × Nat × SkipConfig)} {w0 : World F} {p0 : Nat} {D : NS → Nat}

/-- The states of an endless run. -/
structure Trace (env : Env) (fac : Factory F) (nodes : List (Config × Nat × SkipConfig)) (D : NS → Nat) (w0 : World F) (p0 : Nat)
    (evs : Nat → Ev F) (st : Nat → Sys F) : Prop where
  run : ∀ n, Service.run env fac (firstN evs n) (boot nodes w0 p0) = .ok (st n)
  step : ∀ n, Service.step env fac (evs n) (st n) = .ok (st (n + 1))
  going : ∀ n, Going env fac nodes w0 p0 (st n)
  valid : ∀ n, AllValid D (st n)

theorem trace_exists (he : EnvOK env) (hf : FactoryOK fac) (hw : WorldOK D w0) (hn : ∀ n ∈ nodes, NodeOK n) {evs : Nat → Ev F}
    (hv : ValidRun D evs) : ∃ st, Trace env fac nodes D w0 p0 evs st := by
  choose st h1 h2 h3 using fun n => at_going (p0 := p0) he hf hw hn hv n
  refine ⟨st, h1, fun n => ?_, h2, h3⟩
  rw [← run_firstN_succ (h1 n)]
  exact h1 (n + 1)

/-- What an event does to the jobs and goroutines. -/
theorem step_new {e : Ev F} {s s' : Sys F} (h : Service.step env fac e s = .ok s') : ∃ L ts, s'.jobs = s.jobs ++ L ∧
    s'.progs = ts ++ L.map (fun x => x.2.prog env fac) ∧ ts.length = s.progs.length ∧
    ((ts = s.progs ∧ s'.world = s.world ∧ s'.now = s.now) ∨ (L = [] ∧ ∃ i β, ∃ (a : Act F β) (k : β → Prog F (Outcome F)) (q : (β × World F) × Nat),
      e = .run i ∧ s.progs[i]? = some (.act a k) ∧ a.run s.world s.now = .ok q ∧ ts = s.progs.set i (k q.1.1) ∧ s'.world = q.1.2 ∧ s'.now = q.2)) := by
  cases e with
  | arrive j => cases h; exact ⟨_, _, rfl, rfl, rfl, .inl ⟨rfl, rfl, rfl⟩⟩
  | run i =>
    simp only [Service.step] at h
    cases hx : s.progs[i]? with
    | none =>
      simp only [Pool.run, hx] at h
      cases h
      exact ⟨[], s.progs, by simp, by simp, rfl, .inl ⟨rfl, rfl, rfl⟩⟩
    | some x =>
      cases x with
      | ret o =>
        simp only [Pool.run, hx] at h
        cases h
        exact ⟨[], s.progs, by simp, by simp, rfl, .inl ⟨rfl, rfl, rfl⟩⟩
      | act a k =>
        simp only [Pool.run, hx] at h
        cases hr : a.run s.world s.now with
        | error e => rw [hr] at h; cases h
        | ok q =>
          rw [hr] at h
          cases h
          exact ⟨[], _, by simp, (List.append_nil _).symm, by simp, .inr ⟨rfl, i, _, a, k, q, rfl, hx, hr, rfl, rfl, rfl⟩⟩
  | loop k =>
    simp only [Service.step] at h
    split at h
    · unfold loopStep at h
      split at h
      · split at h
        · rw [starts_eq] at h
          cases h
          exact ⟨_, _, rfl, rfl, rfl, .inl ⟨rfl, rfl, rfl⟩⟩
        · cases h; exact ⟨[], s.progs, by simp, by simp, rfl, .inl ⟨rfl, rfl, rfl⟩⟩
      · split at h
        split at h
        · cases h
        · split at h
          · cases h; exact ⟨_, _, rfl, rfl, rfl, .inl ⟨rfl, rfl, rfl⟩⟩
          · cases h; exact ⟨[], s.progs, by simp, by simp, rfl, .inl ⟨rfl, rfl, rfl⟩⟩
    · cases h; exact ⟨[], s.progs, by simp, by simp, rfl, .inl ⟨rfl, rfl, rfl⟩⟩
  | stop k =>
    simp only [Service.step] at h
    split at h
    · cases h; exact ⟨[], s.progs, by simp, by simp, rfl, .inl ⟨rfl, rfl, rfl⟩⟩
    · cases h; exact ⟨[], s.progs, by simp, by simp, rfl, .inl ⟨rfl, rfl, rfl⟩⟩

variable {evs : Nat → Ev F} {st : Nat → Sys F}

namespace Trace

theorem ok (t : Trace env fac nodes D w0 p0 evs st) (n : Nat) : ∃ s, Service.run env fac (firstN evs n) (boot nodes w0 p0) = .ok s := ⟨_, t.run n⟩

theorem eq (t : Trace env fac nodes D w0 p0 evs st) {n : Nat} {s : Sys F} (h : Service.run env fac (firstN evs n) (boot nodes w0 p0) = .ok s) : s = st n := by
  rw [t.run n] at h; cases h; rfl

/-- The clock of a running service does not go back. -/
theorem now_step (t : Trace env fac nodes D w0 p0 evs st) (he : EnvOK env) (hf : FactoryOK fac) (hw : WorldOK D w0) (n : Nat) :
    (st n).now ≤ (st (n + 1)).now := by
  obtain ⟨L, ts, _, _, _, h | ⟨_, i, β, a, k, q, h1, h2, h3, h4, h5, h6⟩⟩ := step_new (t.step n)
  · rw [h.2.2]
  · obtain ⟨sched, g1, g2⟩ := (t.going n).static
    let c : NCtx F := ⟨env, D, fun _ _ => True, fun _ _ => True, True, fun _ _ => True⟩
    have ho : ∀ ns a, (ctxOf (F := F) env D (fun _ _ => True) (fun _ _ => True) True (fun _ _ => True) ns).Open a := fun ns a => .inl (fun _ _ _ => trivial)
    obtain ⟨ts', w', p', k1, k2⟩ := pool_safeN (c := c) he.clock sched (((st n).jobs.map (fun x => x.2)).map (jobTask env (fun _ _ => True) fac)) w0 p0 ⟨hw, trivial⟩ (by
      intro x hx
      obtain ⟨j, hj, rfl⟩ := List.mem_map.1 hx
      obtain ⟨y, hy, rfl⟩ := List.mem_map.1 hj
      refine ⟨safeN_job (c := c) he hf (t.valid n y hy) ?_ (fun _ _ => trivial) _, View.none_le _⟩
      cases y.2 with
      | rpc r => exact fun _ => ho _ _
      | put addrs body =>
        cases body with
        | none => trivial
        | some o => exact fun a _ => ho _ _
      | task cfg fuel t => exact fun _ ns _ => ho _ _
      | loop cfg fuel skip n iter => exact fun ns _ => ho _ _
      | call _ => trivial
      | query addrs body => trivial) (fun _ _ _ => trivial) (fun _ _ _ _ _ _ _ _ => trivial)
    rw [List.map_map, List.map_map] at k1
    rw [show ((NTask.prog ∘ jobTask env (fun _ _ => True) fac) ∘ fun x : Source × Job F => x.2) = fun x => x.2.prog env fac from rfl, g2] at k1
    obtain ⟨e1, e2, e3⟩ : (st n).progs = ts'.map NTask.prog ∧ (st n).world = w' ∧ (st n).now = p' := by
      injection k1 with k1
      exact ⟨(Prod.mk.inj k1).1, (Prod.mk.inj (Prod.mk.inj k1).2).1, (Prod.mk.inj (Prod.mk.inj k1).2).2⟩
    obtain ⟨ts2, w2, p2, m1, m2⟩ := pool_safeN (c := c) he.clock [i] ts' w' p' k2.inv k2.good (fun _ _ _ => trivial) (fun _ _ _ _ _ _ _ _ => trivial)
    rw [← e1, ← e2, ← e3] at m1
    simp only [Pool.run, h2, h3] at m1
    have e4 : q.2 = p2 := by
      injection m1 with m1
      exact (Prod.mk.inj (Prod.mk.inj m1).2).2
    rw [h6, e4, e3]
    exact m2.le

theorem now_le (t : Trace env fac nodes D w0 p0 evs st) (he : EnvOK env) (hf : FactoryOK fac) (hw : WorldOK D w0) {n m : Nat} (h : n ≤ m) :
    (st n).now ≤ (st m).now :=
  monotone_nat_of_le_succ (f := fun n => (st n).now) (t.now_step he hf hw) h

theorem jobs_le (t : Trace env fac nodes D w0 p0 evs st) {n m : Nat} (h : n ≤ m) : ∃ L, (st m).jobs = (st n).jobs ++ L := by
  obtain ⟨d, rfl⟩ := Nat.exists_eq_add_of_le h
  exact run_jobs t.ok (t.run n) (t.run _)

theorem jobs_stay (t : Trace env fac nodes D w0 p0 evs st) {n m : Nat} (h : n ≤ m) {i : Nat} {x : Source × Job F} (hx : (st n).jobs[i]? = some x) :
    (st m).jobs[i]? = some x := by
  obtain ⟨L, hL⟩ := t.jobs_le h
  rw [hL, List.getElem?_append_left (List.getElem?_eq_some_iff.1 hx).1]
  exact hx

theorem ret_stays (t : Trace env fac nodes D w0 p0 evs st) {n m : Nat} (h : n ≤ m) {i : Nat} {o : Outcome F} (hx : (st n).progs[i]? = some (Prog.ret o)) :
    (st m).progs[i]? = some (Prog.ret o) := by
  induction m, h using Nat.le_induction with
  | base => exact hx
  | succ m _ ih => exact step_keeps_ret (t.step m) ih

theorem ends (t : Trace env fac nodes D w0 p0 evs st) (hfair : FairRun evs) {n i : Nat} (hi : i < (st n).jobs.length) :
    ∃ m, n ≤ m ∧ ∃ o, (st m).progs[i]? = some (Prog.ret o) := by
  obtain ⟨m, h1, s', o, h2, h3⟩ := goroutine_ends t.ok hfair i _ n (st n) (t.run n)
    (List.getElem?_eq_getElem (show i < (st n).progs.length by rw [(t.going n).length]; exact hi))
  rw [t.eq h2] at h3
  exact ⟨m, h1, o, h3⟩

/-- At some time all goroutines that exist now are done. -/
theorem all_end (t : Trace env fac nodes D w0 p0 evs st) (hfair : FairRun evs) (n : Nat) :
    ∃ m, n ≤ m ∧ ∀ i < (st n).jobs.length, ∃ o, (st m).progs[i]? = some (Prog.ret o) := by
  have key : ∀ k, k ≤ (st n).jobs.length → ∃ m, n ≤ m ∧ ∀ i < k, ∃ o, (st m).progs[i]? = some (Prog.ret o) := by
    intro k
    induction k with
    | zero => exact fun _ => ⟨n, Nat.le_refl _, fun i hi => absurd hi (by omega)⟩
    | succ k ih =>
      intro hk
      obtain ⟨m, h1, h2⟩ := ih (by omega)
      obtain ⟨m', h3, o, h4⟩ := t.ends hfair (n := n) (i := k) (by omega)
      refine ⟨max m m', by omega, fun i hi => ?_⟩
      by_cases h : i = k
      · subst h
        exact ⟨o, t.ret_stays (by omega) h4⟩
      · obtain ⟨o, ho⟩ := h2 i (by omega)
        exact ⟨o, t.ret_stays (by omega) ho⟩
  exact key _ (Nat.le_refl _)

/-- A goroutine makes its next step. -/
theorem acts (t : Trace env fac nodes D w0 p0 evs st) (hfair : FairRun evs) {n i : Nat} {β : Type} {a : Act F β} {k : β → Prog F (Outcome F)}
    (hx : (st n).progs[i]? = some (.act a k)) : ∃ m q, n ≤ m ∧ a.run (st m).world (st m).now = .ok q ∧ (st (m + 1)).world = q.1.2 ∧
      (st (m + 1)).now = q.2 ∧ (st (m + 1)).progs[i]? = some (k q.1.1) := by
  obtain ⟨m, hm, hem⟩ := hfair.1 i n
  obtain ⟨m', hm', hb, s1, hs1, hx1⟩ := until_event t.ok (P := fun s => s.progs[i]? = some (.act a k)) (bad := fun e => e = .run i)
    (fun e s s' hne hx h => step_keeps h hne hx) hm hem (t.run n) hx
  rw [t.eq hs1] at hx1
  have hst := t.step m'
  rw [hb] at hst
  simp only [Service.step, Pool.run, hx1] at hst
  cases hr : a.run (st m').world (st m').now with
  | error e => rw [hr] at hst; cases hst
  | ok q =>
    rw [hr] at hst
    simp only [Except.ok.injEq] at hst
    exact ⟨m', q, hm', hr, by rw [← hst], by rw [← hst], by
      rw [← hst]; exact List.getElem?_set_self (List.getElem?_eq_some_iff.1 hx1).1⟩

/-- Every job begins with its program. -/
theorem begins (t : Trace env fac nodes D w0 p0 evs st) {n m : Nat} (h : n ≤ m) {i : Nat} {x : Source × Job F} (hi : (st n).jobs.length ≤ i)
    (hx : (st m).jobs[i]? = some x) : ∃ m', n ≤ m' ∧ m' ≤ m ∧ (st m').progs[i]? = some (x.2.prog env fac) := by
  induction m, h using Nat.le_induction with
  | base =>
    have := (List.getElem?_eq_some_iff.1 hx).1
    omega
  | succ m hm ih =>
    rcases Nat.lt_or_ge i (st m).jobs.length with hlt | hge
    · obtain ⟨m', h1, h2, h3⟩ := ih (by
        obtain ⟨L, hL⟩ := t.jobs_le (Nat.le_succ m)
        rw [hL, List.getElem?_append_left hlt] at hx
        exact hx)
      exact ⟨m', h1, by omega, h3⟩
    · refine ⟨m + 1, by omega, Nat.le_refl _, ?_⟩
      obtain ⟨L, ts, e1, e2, e3, _⟩ := step_new (t.step m)
      rw [e1, List.getElem?_append_right hge] at hx
      rw [e2, List.getElem?_append_right (by rw [e3, (t.going m).length]; exact hge), e3, (t.going m).length, List.getElem?_map, hx]
      rfl

theorem scheduled_succ (f : TaskId → Int) (N : Nat) : scheduled f (N + 1) = scheduled f N ++ documented.filter (fun t => Spec.turn (f t) N) := by
  simp [scheduled, List.range_succ]

theorem turn_zero (s : Int) (k : Nat) : Spec.turn s (1001 * k) = true := by simp [Spec.turn]

theorem scheduled_grows (f : TaskId → Int) : ∀ k, k ≤ (scheduled f (1001 * k)).length
  | 0 => Nat.zero_le _
  | k + 1 => by
    have key : ∀ d, (scheduled f (1001 * k + 1)).length ≤ (scheduled f (1001 * k + 1 + d)).length := by
      intro d
      induction d with
      | zero => exact Nat.le_refl _
      | succ d ih =>
        rw [← Nat.add_assoc, scheduled_succ f (_ + _ + d), List.length_append]; omega
    have h1 := scheduled_grows f k
    have h2 := key 1000
    have h3 : 0 < (documented.filter (fun t => Spec.turn (f t) (1001 * k))).length :=
      List.length_pos_of_mem (a := .expire) (List.mem_filter.2 ⟨by decide, turn_zero _ _⟩)
    rw [scheduled_succ, List.length_append] at h2
    rw [show 1001 * (k + 1) = 1001 * k + 1 + 1000 by omega]
    omega

theorem mem_right {α : Type*} {a b c d : List α} (h : a ++ b = c ++ d) (hl : a.length ≤ c.length) {x : α} (hx : x ∈ d) : x ∈ b := by
  rcases List.append_eq_append_iff.1 h with ⟨e, h1, h2⟩ | ⟨e, h1, h2⟩
  · rw [h2]; simp [hx]
  · have : e = [] := by
      rw [h1, List.length_append] at hl
      exact List.length_eq_zero_iff.1 (by omega)
    rw [this] at h2
    simp only [List.nil_append] at h2
    rw [← h2]; exact hx

/-- An event loop that is not stopped calls every task again. -/
theorem again (t : Trace env fac nodes D w0 p0 evs st) (he : EnvOK env) (hf : FactoryOK fac) (hw : WorldOK D w0) (hn : ∀ n ∈ nodes, NodeOK n)
    (hv : ValidRun D evs) (hfair : FairRun evs) {k : Nat} {c : Config × Nat × SkipConfig} (hk : nodes[k]? = some c) (hstop : ∀ m, evs m ≠ .stop k)
    (id : TaskId) (n : Nat) :
    ∃ m i, n ≤ m ∧ (st n).jobs.length ≤ i ∧ (st m).jobs[i]? = some (.loop k, .task c.1 c.2.1 id) := by
  let f := fun t => effective t (c.2.2.interval t)
  obtain ⟨m, s, h1, h2⟩ := C86_schedule (p0 := p0) he hf hw hn hv hfair hk hstop (1001 * (jobsFrom (.loop k) (st n)).length + 1)
  have hs := t.eq h1
  subst hs
  have hlen := scheduled_grows f (jobsFrom (.loop k) (st n)).length
  have hpos : id ∈ documented.filter (fun t => Spec.turn (f t) (1001 * (jobsFrom (.loop k) (st n)).length)) :=
    List.mem_filter.2 ⟨by cases id <;> decide, turn_zero _ _⟩
  change _ = (scheduled f _).map _ at h2
  rw [scheduled_succ, List.map_append] at h2
  have hnm : n ≤ m := by
    by_contra hlt
    obtain ⟨L, hL⟩ := t.jobs_le (show m ≤ n by omega)
    have h3 : (jobsFrom (.loop k) (st m)).length ≤ (jobsFrom (.loop k) (st n)).length := by
      unfold jobsFrom
      rw [hL, List.filter_append, List.map_append, List.length_append]; omega
    rw [h2, List.length_append, List.length_map, List.length_map] at h3
    have := List.length_pos_of_mem hpos
    omega
  obtain ⟨L, hL⟩ := t.jobs_le hnm
  have h4 : jobsFrom (.loop k) (st m) = jobsFrom (.loop k) (st n) ++ (L.filter (fun x => x.1 = .loop k)).map (fun x => x.2) := by
    unfold jobsFrom
    rw [hL, List.filter_append, List.map_append]
  rw [h4] at h2
  have h5 := mem_right h2 (by rw [List.length_map]; exact hlen) (List.mem_map.2 ⟨id, hpos, rfl⟩)
  obtain ⟨⟨src, j⟩, hx, hj⟩ := List.mem_map.1 h5
  obtain ⟨hx, hsrc⟩ := List.mem_filter.1 hx
  simp only [decide_eq_true_eq] at hsrc hj
  subst hsrc hj
  obtain ⟨i, hi⟩ := List.mem_iff_getElem?.1 hx
  exact ⟨m, (st n).jobs.length + i, hnm, by omega, by rw [hL, List.getElem?_append_right (by omega), Nat.add_sub_cancel_left]; exact hi⟩

/-- When a task that an event loop called has returned, its goroutines are started. -/
theorem starts (t : Trace env fac nodes D w0 p0 evs st) (hfair : FairRun evs) {k : Nat} (hstop : ∀ m, evs m ≠ .stop k) {n i : Nat} {j : Job F}
    (hj : (st n).jobs[i]? = some (.loop k, j)) {o : Outcome F} (ho : (st n).progs[i]? = some (Prog.ret o)) :
    ∃ m, n ≤ m ∧ jobsFrom (.task i) (st m) = (callsOf o).map .call := by
  have hk := (t.going n).conduct.known k (by
    intro e
    have : j ∈ jobsFrom (.loop k) (st n) := List.mem_map.2 ⟨_, List.mem_filter.2 ⟨List.mem_of_getElem? hj, by simp⟩, rfl⟩
    rw [e] at this; cases this)
  have hloop : ∀ m, ∃ l, (st m).loops[k]? = some l := fun m =>
    ⟨(st m).loops[k]'(by rw [(t.going m).conduct.loops]; exact hk), List.getElem?_eq_getElem _⟩
  have fin : ∀ m, n ≤ m → ∀ l, (st m).loops[k]? = some l → l.busy ≠ some i → jobsFrom (.task i) (st m) = (callsOf o).map .call := by
    intro m hm l hl hb
    obtain ⟨c, _, hc⟩ := (t.going m).conduct.each k l hl
    rcases hc.calls i j (t.jobs_stay hm hj) with ⟨h, _⟩ | ⟨_, o', h1, h2⟩
    · exact absurd h hb
    · rw [t.ret_stays hm ho] at h1
      cases h1
      exact h2
  obtain ⟨l, hl⟩ := hloop n
  by_cases hb : l.busy = some i
  · obtain ⟨m1, hm1, hem⟩ := hfair.2 k n
    obtain ⟨m2, hm2, hbad, s2, hs2, hl2, ho2⟩ := until_event t.ok (P := fun s => s.loops[k]? = some l ∧ s.progs[i]? = some (Prog.ret o))
      (bad := fun e => e = .loop k ∨ e = .stop k)
      (fun e s s' hne hx h => ⟨by rw [step_keeps_loop h (fun e' => hne (.inl e')) (fun e' => hne (.inr e'))]; exact hx.1,
        step_keeps_ret h hx.2⟩) hm1 (.inl hem) (t.run n) ⟨hl, ho⟩
    rw [t.eq hs2] at hl2 ho2
    have hst := t.step m2
    rw [hbad.resolve_right (hstop m2)] at hst
    exact ⟨m2 + 1, by omega, fin (m2 + 1) (by omega) _ (loopStep_done hl2 hb ho2 hst) (by simp)⟩
  · exact ⟨n, Nat.le_refl _, fin n (Nat.le_refl _) l hl hb⟩

end Trace
end
end Trypo
