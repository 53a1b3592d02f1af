import Verif.Spec.Service
import Verif.Proofs.Locks
import Verif.Props.Jobs
import Verif.Props.EventLoop

/-!
# A running service: what its events do
-/

set_option linter.unusedSectionVars false
set_option linter.unusedVariables false

namespace Trypo
open GoFloat Spec EventLoop Service

variable {F : Type} [GoFloat F]

/-! ### Pools -/

theorem pool_extend {α : Type} {us : List (Prog F α)} {sched : List Nat} : ∀ {ts ts' : List (Prog F α)} {w w' : World F} {p p' : Nat},
    (∀ i ∈ sched, i < ts.length) → Pool.run sched ts w p = .ok (ts', w', p') → Pool.run sched (ts ++ us) w p = .ok (ts' ++ us, w', p') := by
  induction sched with
  | nil => intro ts ts' w w' p p' _ h; cases h; rfl
  | cons i is ih =>
    intro ts ts' w w' p p' hi h
    have hlt := hi i (by simp)
    simp only [Pool.run] at h ⊢
    rw [List.getElem?_append_left hlt]
    cases he : ts[i]? with
    | none => rw [List.getElem?_eq_none_iff] at he; omega
    | some t =>
      rw [he] at h
      cases t with
      | ret a => exact ih (fun j hj => hi j (by simp [hj])) h
      | act a k =>
        simp only at h ⊢
        cases hr : a.run w p with
        | error e => rw [hr] at h; cases h
        | ok q =>
          rw [hr] at h
          simp only at h ⊢
          rw [List.set_append_left _ _ hlt]
          exact ih (fun j hj => by rw [List.length_set]; exact hi j (by simp [hj])) h

/-- A step changes at most one goroutine, and none that is done. -/
theorem pool_others {α : Type} {i : Nat} {ts ts' : List (Prog F α)} {w w' : World F} {p p' : Nat} (h : Pool.run [i] ts w p = .ok (ts', w', p')) :
    ∀ j, j ≠ i ∨ (∃ a, ts[j]? = some (.ret a)) → ts'[j]? = ts[j]? := by
  intro j hj
  simp only [Pool.run] at h
  split at h
  · rename_i a k he
    split at h
    · cases h
      rcases hj with hj | ⟨b, hb⟩
      · rw [List.getElem?_set_ne (fun e => hj e.symm)]
      · rw [List.getElem?_set_ne]
        rintro rfl
        rw [he] at hb; cases hb
    · cases h
  · cases h; rfl

/-! ### Starting jobs -/

/-- Several new jobs. -/
def _root_.Trypo.Service.Sys.extend (env : Env) (fac : Factory F) (L : List (Source × Job F)) (s : Sys F) : Sys F :=
  { s with jobs := s.jobs ++ L, progs := s.progs ++ L.map (fun x => x.2.prog env fac) }

theorem start_eq (env : Env) (fac : Factory F) (src : Source) (j : Job F) (s : Sys F) : s.start env fac src j = s.extend env fac [(src, j)] := rfl

theorem starts_eq (env : Env) (fac : Factory F) (src : Source) (cs : List Call) : ∀ s : Sys F,
    cs.foldl (fun s c => s.start env fac src (.call c)) s = s.extend env fac (cs.map (fun c => (src, .call c))) := by
  induction cs with
  | nil => intro s; simp [Sys.extend]
  | cons c cs ih => intro s; rw [List.foldl_cons, ih]; simp [Sys.extend, Sys.start]

theorem jobsFrom_extend (env : Env) (fac : Factory F) (L : List (Source × Job F)) (s : Sys F) (src : Source) :
    jobsFrom src (s.extend env fac L) = jobsFrom src s ++ (L.filter (fun x => x.1 = src)).map (fun x => x.2) := by
  simp [jobsFrom, Sys.extend]

theorem jobsFrom_ne (env : Env) (fac : Factory F) {L : List (Source × Job F)} (s : Sys F) {src : Source} (h : ∀ x ∈ L, x.1 ≠ src) :
    jobsFrom src (s.extend env fac L) = jobsFrom src s := by
  rw [jobsFrom_extend, List.filter_eq_nil_iff.2 (fun x hx => by simpa using h x hx), List.map_nil, List.append_nil]

theorem jobsFrom_all (env : Env) (fac : Factory F) {L : List (Source × Job F)} (s : Sys F) {src : Source} (h : ∀ x ∈ L, x.1 = src) :
    jobsFrom src (s.extend env fac L) = jobsFrom src s ++ L.map (fun x => x.2) := by
  rw [jobsFrom_extend, List.filter_eq_self.2 (fun x hx => by simpa using h x hx)]

/-! ### The invariant -/

/-- What is always true of a running service that was started as `boot nodes w0 p0`. -/
structure Going (env : Env) (fac : Factory F) (nodes : List (Config × Nat × SkipConfig)) (w0 : World F) (p0 : Nat) (s : Sys F) : Prop where
  conduct : Conduct nodes s
  static : ∃ sched, (∀ i ∈ sched, i < s.jobs.length) ∧
    Pool.run sched (s.jobs.map (fun x => x.2.prog env fac)) w0 p0 = .ok (s.progs, s.world, s.now)

variable {env : Env} {fac : Factory F} {nodes : List (Config × Nat × SkipConfig)} {w0 : World F} {p0 : Nat} {s s' : Sys F}

theorem Going.length (h : Going env fac nodes w0 p0 s) : s.progs.length = s.jobs.length := by
  obtain ⟨sched, _, h2⟩ := h.static
  simpa using pool_length h2

theorem static_extend (h : ∃ sched, (∀ i ∈ sched, i < s.jobs.length) ∧
      Pool.run sched (s.jobs.map (fun x => x.2.prog env fac)) w0 p0 = .ok (s.progs, s.world, s.now)) (L : List (Source × Job F)) :
    ∃ sched, (∀ i ∈ sched, i < (s.extend env fac L).jobs.length) ∧
      Pool.run sched ((s.extend env fac L).jobs.map (fun x => x.2.prog env fac)) w0 p0 =
        .ok ((s.extend env fac L).progs, (s.extend env fac L).world, (s.extend env fac L).now) := by
  obtain ⟨sched, h1, h2⟩ := h
  refine ⟨sched, fun i hi => ?_, ?_⟩
  · have := h1 i hi
    simp only [Sys.extend, List.length_append]; omega
  · simp only [Sys.extend, List.map_append]
    exact pool_extend (by simpa using h1) h2

theorem boot_going (env : Env) (fac : Factory F) (nodes : List (Config × Nat × SkipConfig)) (w0 : World F) (p0 : Nat) :
    Going env fac nodes w0 p0 (boot nodes w0 p0) where
  static := ⟨[], by simp, rfl⟩
  conduct := {
    loops := by simp [boot]
    each := by
      intro k l hk
      simp only [boot, List.getElem?_map, Option.map_eq_some_iff] at hk
      obtain ⟨n, hn, rfl⟩ := hk
      exact ⟨n, hn, ⟨rfl, rfl, rfl⟩, ⟨fun _ => false, 0, by simp, fun _ _ => rfl, rfl⟩, rfl, fun i h => by simp [Loop.new] at h,
        fun i j h => by simp [boot] at h⟩
    only := fun i h => absurd rfl h
    known := fun k h => absurd rfl h }

/-- New jobs that are not from event loops or their tasks. -/
theorem conduct_outside (h : Conduct nodes s) (j : Job F) : Conduct nodes (s.extend env fac [(.outside, j)]) := by
  have e1 : ∀ src : Source, src ≠ .outside → jobsFrom src (s.extend env fac [(.outside, j)]) = jobsFrom src s := fun src hs =>
    jobsFrom_ne env fac s (fun x hx => by simp only [List.mem_singleton] at hx; subst hx; exact hs.symm)
  have e2 : ∀ (i k : Nat) (j' : Job F), (s.extend env fac [(.outside, j)]).jobs[i]? = some (.loop k, j') ↔ s.jobs[i]? = some (.loop k, j') := by
    intro i k j'
    simp only [Sys.extend]
    rcases Nat.lt_or_ge i s.jobs.length with hi | hi
    · rw [List.getElem?_append_left hi]
    · rw [List.getElem?_append_right hi, List.getElem?_eq_none hi]
      constructor
      · intro h'
        have := List.mem_of_getElem? h'
        simp at this
      · intro h'; cases h'
  refine ⟨h.loops, fun k l hl => ?_, fun i hi => ?_, fun k hk => ?_⟩
  · obtain ⟨n, hn, hc⟩ := h.each k l hl
    refine ⟨n, hn, hc.same, hc.alone, by rw [e1 _ (by simp)]; exact hc.tasks, fun i hb => ?_, fun i j' hj => ?_⟩
    · obtain ⟨j', hj⟩ := hc.waits i hb
      exact ⟨j', (e2 i k j').2 hj⟩
    · rw [e1 _ (by simp)]
      rcases hc.calls i j' ((e2 i k j').1 hj) with hb | ⟨hb, o, ho, hcalls⟩
      · exact .inl hb
      · refine .inr ⟨hb, o, ?_, hcalls⟩
        simp only [Sys.extend]
        rw [List.getElem?_append_left (List.getElem?_eq_some_iff.1 ho).1]
        exact ho
  · rw [e1 _ (by simp)] at hi
    obtain ⟨k, j', hj⟩ := h.only i hi
    exact ⟨k, j', (e2 i k j').2 hj⟩
  · rw [e1 _ (by simp)] at hk
    exact h.known k hk

theorem conduct_run (h : Conduct nodes s) {i : Nat} {ts : List (Prog F (Outcome F))} {w : World F} {p : Nat}
    (hr : Pool.run [i] s.progs s.world s.now = .ok (ts, w, p)) : Conduct nodes { s with progs := ts, world := w, now := p } where
  loops := h.loops
  each := by
    intro k l hl
    obtain ⟨n, hn, hc⟩ := h.each k l hl
    refine ⟨n, hn, hc.same, hc.alone, hc.tasks, hc.waits, fun i' j' hj => ?_⟩
    rcases hc.calls i' j' hj with hb | ⟨hb, o, ho, hcalls⟩
    · exact .inl hb
    · refine .inr ⟨hb, o, ?_, hcalls⟩
      show ts[i']? = _
      rw [pool_others hr i' (.inr ⟨o, ho⟩)]; exact ho
  only := h.only
  known := h.known

theorem run_stop_irrelevant (skip : SkipConfig) {st st' : Nat → Bool} : ∀ (m k : Nat) (s : EventLoop.State), (∀ j, k ≤ j → j < k + m → st j = st' j) →
    EventLoop.steps skip st k m s = EventLoop.steps skip st' k m s
  | 0, k, s, h => rfl
  | m + 1, k, s, h => by
    simp only [EventLoop.steps]
    rw [h k (by omega) (by omega), run_stop_irrelevant skip m (k + 1) _ (fun j h1 h2 => h j (by omega) (by omega))]

theorem getElem?_set_some {α : Type*} {l : List α} {k k' : Nat} {a b x : α} (h : l[k]? = some b) (h' : (l.set k a)[k']? = some x) :
    (k' = k ∧ x = a) ∨ (k' ≠ k ∧ l[k']? = some x) := by
  by_cases e : k' = k
  · subst e
    rw [List.getElem?_set_self (List.getElem?_eq_some_iff.1 h).1] at h'
    exact .inl ⟨rfl, (Option.some.inj h').symm⟩
  · rw [List.getElem?_set_ne (fun e' => e e'.symm)] at h'
    exact .inr ⟨e, h'⟩

/-- The stop function. -/
theorem conduct_stop (h : Conduct nodes s) {k : Nat} {l : Loop} (hl : s.loops[k]? = some l) :
    Conduct nodes { s with loops := s.loops.set k { l with stopped := true } } where
  loops := by simpa using h.loops
  each := by
    intro k' l' hl'
    rcases getElem?_set_some hl hl' with ⟨rfl, rfl⟩ | ⟨_, hl'⟩
    · obtain ⟨n, hn, hc⟩ := h.each k' l hl
      refine ⟨n, hn, hc.same, ?_, hc.tasks, hc.waits, hc.calls⟩
      obtain ⟨st, m, h1, h2, h3⟩ := hc.alone
      refine ⟨fun j => if j < m then st j else true, m, fun i j hij hi => ?_, fun j hj => by simp [show ¬ j < m by omega], ?_⟩
      · by_cases hj : j < m
        · simp only [hj, if_true, show i < m by omega] at hi ⊢
          exact h1 i j hij hi
        · simp [hj]
      · rw [← h3]
        exact run_stop_irrelevant _ m 0 _ (fun j _ hj => by simp [show j < m by omega])
    · obtain ⟨n, hn, hc⟩ := h.each k' l' hl'
      exact ⟨n, hn, hc.same, hc.alone, hc.tasks, hc.waits, hc.calls⟩
  only := h.only
  known := h.known

theorem ranTasks_append (a b : List Event) : ranTasks (a ++ b) = ranTasks a ++ ranTasks b := by simp [ranTasks]

/-- A loop that goes on alone. -/
theorem alone_step {skip : SkipConfig} {stopped : Bool} {pos : EventLoop.State} {log : List Event}
    (h : ∃ st m, (∀ i j, i ≤ j → st i = true → st j = true) ∧ (∀ j, m ≤ j → st j = stopped) ∧ EventLoop.run skip st m = (pos, log)) :
    ∃ st m, (∀ i j, i ≤ j → st i = true → st j = true) ∧ (∀ j, m ≤ j → st j = stopped) ∧
      EventLoop.run skip st m = ((EventLoop.step (validate skip) stopped pos).1, log ++ (EventLoop.step (validate skip) stopped pos).2) := by
  obtain ⟨st, m, h1, h2, h3⟩ := h
  refine ⟨st, m + 1, h1, fun j hj => h2 j (by omega), ?_⟩
  unfold EventLoop.run at h3 ⊢
  rw [EventLoop.steps_add, h3]
  simp [EventLoop.steps, h2 m (Nat.le_refl _)]

theorem jobs_extend_lt (L : List (Source × Job F)) {i : Nat} (h : i < s.jobs.length) : (s.extend env fac L).jobs[i]? = s.jobs[i]? := by
  simp only [Sys.extend]
  exact List.getElem?_append_left h

theorem progs_extend_some (L : List (Source × Job F)) {i : Nat} {x : Prog F (Outcome F)} (h : s.progs[i]? = some x) :
    (s.extend env fac L).progs[i]? = some x := by
  simp only [Sys.extend]
  rw [List.getElem?_append_left (List.getElem?_eq_some_iff.1 h).1]
  exact h

/-- The task that a loop waits for is over. -/
theorem conduct_done (h : Conduct nodes s) {k : Nat} {l : Loop} (hl : s.loops[k]? = some l) {i : Nat} (hb : l.busy = some i)
    {o : Outcome F} (ho : s.progs[i]? = some (.ret o)) :
    Conduct nodes (({ s with loops := s.loops.set k { l with busy := none } } : Sys F).extend env fac
      ((callsOf o).map (fun c => (.task i, .call c)))) := by
  obtain ⟨n, hn, hc⟩ := h.each k l hl
  obtain ⟨j0, hj0⟩ := hc.waits i hb
  have hlt := (List.getElem?_eq_some_iff.1 hj0).1
  generalize hL : (callsOf o).map (fun c => ((.task i, .call c) : Source × Job F)) = L
  generalize hs1 : ({ s with loops := s.loops.set k { l with busy := none } } : Sys F) = s1
  have ej : s1.jobs = s.jobs := by rw [← hs1]
  have ep : s1.progs = s.progs := by rw [← hs1]
  have hsrc : ∀ x ∈ L, x.1 = .task i := by
    rw [← hL]; intro x hx
    obtain ⟨c, _, rfl⟩ := List.mem_map.1 hx; rfl
  have ef : ∀ src, jobsFrom src s1 = jobsFrom src s := by intro src; unfold jobsFrom; rw [ej]
  have e1 : ∀ src : Source, src ≠ .task i → jobsFrom src (s1.extend env fac L) = jobsFrom src s := fun src hs => by
    rw [jobsFrom_ne env fac s1 (fun x hx => by rw [hsrc x hx]; exact hs.symm), ef]
  have e2 : ∀ (i' k' : Nat) (j' : Job F), (s1.extend env fac L).jobs[i']? = some (.loop k', j') ↔ s.jobs[i']? = some (.loop k', j') := by
    intro i' k' j'
    rcases Nat.lt_or_ge i' s1.jobs.length with hi | hi
    · rw [jobs_extend_lt L hi, ej]
    · simp only [Sys.extend]
      rw [List.getElem?_append_right hi, ← ej, List.getElem?_eq_none hi]
      constructor
      · intro h'
        have := hsrc _ (List.mem_of_getElem? h')
        cases this
      · intro h'; cases h'
  have hempty : jobsFrom (.task i) s = [] := by
    rcases hc.calls i j0 hj0 with ⟨_, h'⟩ | ⟨h', _⟩
    · exact h'
    · exact absurd hb h'
  have e3 : jobsFrom (.task i) (s1.extend env fac L) = (callsOf o).map .call := by
    rw [jobsFrom_all env fac s1 hsrc, ef, hempty, ← hL, List.map_map]; rfl
  refine ⟨by rw [← hs1]; simpa [Sys.extend] using h.loops, fun k' l' hl' => ?_, fun i' hi => ?_, fun k' hk => ?_⟩
  · have hl'' : (s.loops.set k { l with busy := none })[k']? = some l' := by rw [← hs1] at hl'; exact hl'
    rcases getElem?_set_some hl hl'' with ⟨rfl, rfl⟩ | ⟨hne, hl3⟩
    · refine ⟨n, hn, hc.same, hc.alone, by rw [e1 _ (by simp)]; exact hc.tasks, fun i hb => by simp at hb, fun i' j' hj => .inr ⟨by simp, ?_⟩⟩
      by_cases hi : i' = i
      · subst hi
        exact ⟨o, progs_extend_some L (by rw [ep]; exact ho), e3⟩
      · rw [e1 _ (by simpa using hi)]
        rcases hc.calls i' j' ((e2 _ _ _).1 hj) with ⟨hb', _⟩ | ⟨_, o', ho', hcalls⟩
        · rw [hb] at hb'; exact absurd (Option.some.inj hb').symm hi
        · exact ⟨o', progs_extend_some L (by rw [ep]; exact ho'), hcalls⟩
    · obtain ⟨n', hn', hc'⟩ := h.each k' l' hl3
      refine ⟨n', hn', hc'.same, hc'.alone, by rw [e1 _ (by simp)]; exact hc'.tasks, fun i' hb' => ?_, fun i' j' hj => ?_⟩
      · obtain ⟨j', hj⟩ := hc'.waits i' hb'
        exact ⟨j', (e2 _ _ _).2 hj⟩
      · have hj' := (e2 _ _ _).1 hj
        have hi : i' ≠ i := by
          rintro rfl
          rw [hj0] at hj'
          cases hj'
          exact hne rfl
        rw [e1 _ (by simpa using hi)]
        rcases hc'.calls i' j' hj' with hb' | ⟨hb', o', ho', hcalls⟩
        · exact .inl hb'
        · exact .inr ⟨hb', o', progs_extend_some L (by rw [ep]; exact ho'), hcalls⟩
  · by_cases hii : i' = i
    · subst hii; exact ⟨k, j0, (e2 _ _ _).2 hj0⟩
    · rw [e1 _ (by simpa using hii)] at hi
      obtain ⟨k', j', hj⟩ := h.only i' hi
      exact ⟨k', j', (e2 _ _ _).2 hj⟩
  · rw [e1 _ (by simp)] at hk
    exact h.known k' hk

/-- A loop after a step. -/
def _root_.Trypo.Service.Loop.went (l : Loop) (b : Option Nat) : Loop :=
  { l with pos := (EventLoop.step l.skip l.stopped l.pos).1, log := l.log ++ (EventLoop.step l.skip l.stopped l.pos).2, busy := b }

/-- A loop makes a step that calls no task. -/
theorem conduct_idle (h : Conduct nodes s) {k : Nat} {l : Loop} (hl : s.loops[k]? = some l)
    (hb : l.busy = none)
    (hr : ranTasks (EventLoop.step l.skip l.stopped l.pos).2 = []) :
    Conduct nodes { s with loops := s.loops.set k (l.went l.busy) } := by
  refine ⟨by simpa using h.loops, fun k' l' hl' => ?_, h.only, h.known⟩
  rcases getElem?_set_some hl hl' with ⟨rfl, rfl⟩ | ⟨_, hl'⟩
  · obtain ⟨n, hn, hc⟩ := h.each k' l hl
    refine ⟨n, hn, hc.same, ?_, ?_, fun i hi => absurd (hb.symm.trans hi) (by simp), hc.calls⟩
    · have := alone_step hc.alone
      rwa [← hc.same.2.2] at this
    · show jobsFrom (.loop k') s = (ranTasks (l.log ++ _)).map _
      rw [ranTasks_append, hr, List.append_nil]
      exact hc.tasks
  · obtain ⟨n, hn, hc⟩ := h.each k' l' hl'
    exact ⟨n, hn, hc.same, hc.alone, hc.tasks, hc.waits, hc.calls⟩

/-- A loop calls a task. -/
theorem conduct_ran (h : Conduct nodes s) (hlen : s.progs.length = s.jobs.length) {k : Nat} {l : Loop} (hl : s.loops[k]? = some l)
    (hb : l.busy = none) {t : TaskId}
    (hr : (EventLoop.step l.skip l.stopped l.pos).2 = [.ran t]) :
    Conduct nodes (({ s with loops := s.loops.set k (l.went (some s.jobs.length)) } : Sys F).extend env fac
        [(.loop k, .task l.cfg l.fuel t)]) := by
  obtain ⟨n, hn, hc⟩ := h.each k l hl
  generalize hs1 : ({ s with loops := s.loops.set k (l.went (some s.jobs.length)) } : Sys F) = s1
  have ej : s1.jobs = s.jobs := by rw [← hs1]
  have ep : s1.progs = s.progs := by rw [← hs1]
  have ef : ∀ src, jobsFrom src s1 = jobsFrom src s := by intro src; unfold jobsFrom; rw [ej]
  generalize hL : ([(.loop k, .task l.cfg l.fuel t)] : List (Source × Job F)) = L
  have hsrc : ∀ x ∈ L, x.1 = .loop k := by rw [← hL]; simp
  have e1 : ∀ src : Source, src ≠ .loop k → jobsFrom src (s1.extend env fac L) = jobsFrom src s := fun src hs => by
    rw [jobsFrom_ne env fac s1 (fun x hx => by rw [hsrc x hx]; exact hs.symm), ef]
  have e2 : ∀ (i' k' : Nat) (j' : Job F), (s1.extend env fac L).jobs[i']? = some (.loop k', j') ↔
      s.jobs[i']? = some (.loop k', j') ∨ (i' = s.jobs.length ∧ k' = k ∧ j' = .task l.cfg l.fuel t) := by
    intro i' k' j'
    rcases Nat.lt_or_ge i' s1.jobs.length with hi | hi
    · rw [jobs_extend_lt L hi, ej]
      rw [ej] at hi
      constructor
      · exact .inl
      · rintro (h' | ⟨rfl, _⟩)
        · exact h'
        · omega
    · simp only [Sys.extend]
      rw [List.getElem?_append_right hi, ← ej, List.getElem?_eq_none hi, ← hL]
      constructor
      · intro h'
        have hm := List.mem_of_getElem? h'
        have hz := (List.getElem?_eq_some_iff.1 h').1
        simp only [List.length_singleton] at hz
        simp only [List.mem_singleton, Prod.mk.injEq, Source.loop.injEq] at hm
        exact .inr ⟨by omega, hm.1, hm.2⟩
      · rintro (h' | ⟨h1, rfl, rfl⟩)
        · cases h'
        · rw [h1]; simp
  have hnew : jobsFrom (.task s.jobs.length) s = [] := by
    by_contra hne
    obtain ⟨k', j', hj⟩ := h.only _ hne
    have := (List.getElem?_eq_some_iff.1 hj).1
    omega
  refine ⟨by rw [← hs1]; simpa [Sys.extend] using h.loops, fun k' l' hl' => ?_, fun i' hi => ?_, fun k' hk => ?_⟩
  · have hl'' : (s.loops.set k (l.went (some s.jobs.length)))[k']? = some l' := by rw [← hs1] at hl'; exact hl'
    rcases getElem?_set_some hl hl'' with ⟨rfl, rfl⟩ | ⟨hne, hl3⟩
    · refine ⟨n, hn, hc.same, ?_, ?_, fun i hb => ⟨.task l.cfg l.fuel t, ?_⟩, fun i' j' hj => ?_⟩
      · have := alone_step hc.alone
        rwa [← hc.same.2.2] at this
      · rw [jobsFrom_all env fac s1 hsrc, ef, hc.tasks, ← hL]
        show _ = (ranTasks (l.log ++ _)).map _
        rw [ranTasks_append, hr, List.map_append, hc.same.1, hc.same.2.1]; rfl
      · exact (e2 _ _ _).2 (.inr ⟨(Option.some.inj hb).symm, rfl, rfl⟩)
      · rw [e1 _ (by simp)]
        rcases (e2 _ _ _).1 hj with hj | ⟨rfl, _, _⟩
        · have hlt := (List.getElem?_eq_some_iff.1 hj).1
          rcases hc.calls i' j' hj with ⟨hb', _⟩ | ⟨_, o', ho', hcalls⟩
          · rw [hb] at hb'; cases hb'
          · refine .inr ⟨fun e => ?_, o', progs_extend_some L (by rw [ep]; exact ho'), hcalls⟩
            have := Option.some.inj e
            omega
        · exact .inl ⟨rfl, hnew⟩
    · obtain ⟨n', hn', hc'⟩ := h.each k' l' hl3
      refine ⟨n', hn', hc'.same, hc'.alone, by rw [e1 _ (by simpa using hne)]; exact hc'.tasks, fun i' hb' => ?_, fun i' j' hj => ?_⟩
      · obtain ⟨j', hj⟩ := hc'.waits i' hb'
        exact ⟨j', (e2 _ _ _).2 (.inl hj)⟩
      · rw [e1 _ (by simp)]
        rcases (e2 _ _ _).1 hj with hj | ⟨_, rfl, _⟩
        · rcases hc'.calls i' j' hj with hb' | ⟨hb', o', ho', hcalls⟩
          · exact .inl hb'
          · exact .inr ⟨hb', o', progs_extend_some L (by rw [ep]; exact ho'), hcalls⟩
        · exact absurd rfl hne
  · rw [e1 _ (by simp)] at hi
    obtain ⟨k', j', hj⟩ := h.only i' hi
    exact ⟨k', j', (e2 _ _ _).2 (.inl hj)⟩
  · by_cases hkk : k' = k
    · subst hkk
      exact (List.getElem?_eq_some_iff.1 hn).1
    · rw [e1 _ (by simpa using hkk)] at hk
      exact h.known k' hk

/-- What a step of a loop shows. -/
theorem step_events (skip : SkipConfig) (stopped : Bool) (x : EventLoop.State) :
    (∃ t, (EventLoop.step skip stopped x).2 = [.ran t]) ∨ ((∀ t, (EventLoop.step skip stopped x).2 ≠ [.ran t]) ∧ ranTasks (EventLoop.step skip stopped x).2 = []) := by
  obtain ⟨pc, iter⟩ := x
  cases pc with
  | call i =>
    simp only [EventLoop.step]
    cases order[i]? with
    | none => exact .inr ⟨by simp, rfl⟩
    | some t =>
      simp only
      cases withSkip iter (skip.interval t) with
      | error e => exact .inr ⟨by simp, rfl⟩
      | ok b => cases b <;> simp [ranTasks]
  | _ => exact .inr ⟨by simp [EventLoop.step], rfl⟩

/-- All jobs are valid. -/
def AllValid (D : NS → Nat) (s : Sys F) : Prop := ∀ x ∈ s.jobs, x.2.valid D

theorem allValid_extend {D : NS → Nat} (h : AllValid D s) {L : List (Source × Job F)} (hL : ∀ x ∈ L, x.2.valid D) :
    AllValid D (s.extend env fac L) := by
  intro x hx
  rcases List.mem_append.1 hx with hx | hx
  · exact h x hx
  · exact hL x hx

variable [LawfulCmp F]

theorem loopStep_going {D : NS → Nat} (hn : ∀ n ∈ nodes, NodeOK n) (h : Going env fac nodes w0 p0 s) (hv : AllValid D s) {k : Nat} {l : Loop}
    (hl : s.loops[k]? = some l) : ∃ s', loopStep env fac k l s = .ok s' ∧ Going env fac nodes w0 p0 s' ∧ AllValid D s' := by
  obtain ⟨n, hnk, hc⟩ := h.conduct.each k l hl
  unfold loopStep
  cases hb : l.busy with
  | some i =>
    simp only
    cases hp : s.progs[i]? with
    | none => exact ⟨s, rfl, h, hv⟩
    | some q =>
      cases q with
      | act a f => exact ⟨s, rfl, h, hv⟩
      | ret o =>
        refine ⟨_, rfl, ?_⟩
        rw [starts_eq]
        exact ⟨⟨conduct_done h.conduct hl hb hp, static_extend h.static _⟩, allValid_extend (env := env) (fac := fac) hv (fun x hx => by
          obtain ⟨c, _, rfl⟩ := List.mem_map.1 hx; trivial)⟩
  | none =>
    simp only
    have hcr : (EventLoop.step l.skip l.stopped l.pos).1.pc ≠ .crashed := by
      obtain ⟨st, m, _, _, h3⟩ := alone_step hc.alone
      have := (C51_partial n.2.2).2 (hn n (List.mem_of_getElem? hnk)).2.2 st m
      rwa [h3, ← hc.same.2.2] at this
    rw [if_neg hcr]
    rcases step_events l.skip l.stopped l.pos with ⟨t, ht⟩ | ⟨hne, hr⟩
    · refine ⟨_, by rw [ht], ?_⟩
      have := conduct_ran (env := env) (fac := fac) h.conduct h.length hl hb ht
      rw [start_eq, ← ht]
      refine ⟨⟨this, static_extend (s := { s with loops := _ }) h.static _⟩, allValid_extend (env := env) (fac := fac) (s := { s with loops := _ }) hv (fun x hx => ?_)⟩
      simp only [List.mem_singleton] at hx
      subst hx
      have := hn n (List.mem_of_getElem? hnk)
      exact ⟨by rw [hc.same.1]; exact this.1, by rw [hc.same.1]; exact this.2.1⟩
    · refine ⟨{ s with loops := s.loops.set k (l.went l.busy) }, ?_, ⟨conduct_idle h.conduct hl hb hr, h.static⟩, hv⟩
      split
      · rename_i t ht; exact absurd ht (hne t)
      · unfold Loop.went
        rw [hb]

theorem step_going (he : EnvOK env) (hf : FactoryOK fac) {D : NS → Nat} (hw : WorldOK D w0) (hn : ∀ n ∈ nodes, NodeOK n)
    (h : Going env fac nodes w0 p0 s) (hv : AllValid D s) {e : Ev F} (hj : ∀ j, e = .arrive j → j.valid D) :
    ∃ s', Service.step env fac e s = .ok s' ∧ Going env fac nodes w0 p0 s' ∧ AllValid D s' := by
  cases e with
  | arrive j =>
    exact ⟨_, rfl, ⟨conduct_outside h.conduct j, static_extend h.static _⟩, allValid_extend hv (fun x hx => by
      simp only [List.mem_singleton] at hx; subst hx; exact hj j rfl)⟩
  | run i =>
    obtain ⟨sched, h1, h2⟩ := h.static
    rcases Nat.lt_or_ge i s.jobs.length with hi | hi
    · obtain ⟨ts, w, p, h3, _⟩ := C61_no_panic he hf hw (jobs := s.jobs.map (fun x => x.2)) (by
        intro j hj
        obtain ⟨x, hx, rfl⟩ := List.mem_map.1 hj
        exact hv x hx) (sched ++ [i]) p0
      rw [List.map_map] at h3
      have h3' := h3
      have e : s.jobs.map ((fun j : Job F => j.prog env fac) ∘ fun x => x.2) = s.jobs.map (fun x => x.2.prog env fac) := rfl
      rw [e, pool_append_ok h2] at h3
      refine ⟨{ s with progs := ts, world := w, now := p }, by simp only [Service.step, h3], ⟨conduct_run h.conduct h3, sched ++ [i], ?_, h3'⟩, hv⟩
      intro j hj
      rcases List.mem_append.1 hj with hj | hj
      · exact h1 j hj
      · simp only [List.mem_singleton] at hj; subst hj; exact hi
    · have hnone : s.progs[i]? = none := List.getElem?_eq_none (by rw [h.length]; exact hi)
      exact ⟨s, by simp only [Service.step, Pool.run, hnone], h, hv⟩
  | loop k =>
    simp only [Service.step]
    cases hl : s.loops[k]? with
    | none => exact ⟨s, rfl, h, hv⟩
    | some l => exact loopStep_going hn h hv hl
  | stop k =>
    simp only [Service.step]
    cases hl : s.loops[k]? with
    | none => exact ⟨s, rfl, h, hv⟩
    | some l => exact ⟨_, rfl, ⟨conduct_stop h.conduct hl, h.static⟩, hv⟩

theorem run_going (he : EnvOK env) (hf : FactoryOK fac) {D : NS → Nat} (hw : WorldOK D w0) (hn : ∀ n ∈ nodes, NodeOK n) :
    ∀ (es : List (Ev F)) (s : Sys F), Going env fac nodes w0 p0 s → AllValid D s → (∀ j ∈ arrivals es, j.valid D) →
      ∃ s', Service.run env fac es s = .ok s' ∧ Going env fac nodes w0 p0 s' ∧ AllValid D s'
  | [], s, h, hv, _ => ⟨s, rfl, h, hv⟩
  | e :: es, s, h, hv, ha => by
    obtain ⟨s1, h1, h2, h3⟩ := step_going he hf hw hn h hv (e := e) (fun j hj => ha j (by subst hj; simp [arrivals]))
    obtain ⟨s2, h4, h5⟩ := run_going he hf hw hn es s1 h2 h3 (fun j hj => ha j (by
      unfold arrivals at hj ⊢
      rw [List.filterMap_cons]
      split
      · exact hj
      · exact List.mem_cons_of_mem _ hj))
    exact ⟨s2, by simp only [Service.run, h1]; exact h4, h5⟩

end Trypo
