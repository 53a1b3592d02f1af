import Verif.Proofs.Service

/-!
# A running service: progress
-/

set_option linter.unusedSectionVars false
set_option linter.unusedVariables false

namespace Trypo
open GoFloat Spec EventLoop Service

variable {F : Type} [GoFloat F] [LawfulCmp F]
variable {env : Env} {fac : Factory F} {nodes : List (Config × Nat × SkipConfig)} {w0 : World F} {p0 : Nat} {s s' : Sys F}

theorem service_run_append (es es' : List (Ev F)) (s : Sys F) :
    Service.run env fac (es ++ es') s = (Service.run env fac es s).bind (Service.run env fac es') := by
  induction es generalizing s with
  | nil => rfl
  | cons e es ih =>
    simp only [List.cons_append, Service.run]
    split
    · exact ih _
    · rfl

theorem firstN_succ (evs : Nat → Ev F) (n : Nat) : firstN evs (n + 1) = firstN evs n ++ [evs n] := by
  simp [firstN, List.range_succ]

theorem run_firstN_succ {evs : Nat → Ev F} {n : Nat} (h : Service.run env fac (firstN evs n) s = .ok s') :
    Service.run env fac (firstN evs (n + 1)) s = Service.step env fac (evs n) s' := by
  rw [firstN_succ, service_run_append, h]
  show Service.run env fac [evs n] s' = _
  simp only [Service.run]
  cases Service.step env fac (evs n) s' <;> rfl

theorem validRun_arrivals {D : NS → Nat} {evs : Nat → Ev F} (h : ValidRun D evs) (n : Nat) : ∀ j ∈ arrivals (firstN evs n), j.valid D := by
  intro j hj
  unfold arrivals firstN at hj
  rw [List.mem_filterMap] at hj
  obtain ⟨e, he, hj⟩ := hj
  obtain ⟨m, _, rfl⟩ := List.mem_map.1 he
  refine h m j ?_
  split at hj
  · cases hj; assumption
  · cases hj

/-- After any number of events. -/
theorem at_going (he : EnvOK env) (hf : FactoryOK fac) {D : NS → Nat} (hw : WorldOK D w0) (hn : ∀ n ∈ nodes, NodeOK n)
    {evs : Nat → Ev F} (hv : ValidRun D evs) (n : Nat) :
    ∃ s, Service.run env fac (firstN evs n) (boot nodes w0 p0) = .ok s ∧ Going env fac nodes w0 p0 s ∧ AllValid D s :=
  run_going he hf hw hn _ _ (boot_going env fac nodes w0 p0) (fun x hx => by simp [boot] at hx) (validRun_arrivals hv n)

/-- Only a step of the goroutine itself changes it. -/
theorem step_keeps {e : Ev F} (h : Service.step env fac e s = .ok s') {i : Nat} (hne : e ≠ .run i) {x : Prog F (Outcome F)}
    (hx : s.progs[i]? = some x) : s'.progs[i]? = some x := by
  cases e with
  | arrive j => cases h; exact progs_extend_some [(.outside, j)] hx
  | run i' =>
    simp only [Service.step] at h
    split at h
    · rename_i ts w p hp
      cases h
      show ts[i]? = _
      rw [pool_others hp i (.inl (fun e => hne (by rw [e])))]; exact hx
    · cases h
  | loop k =>
    simp only [Service.step] at h
    split at h
    · rename_i l hl
      unfold loopStep at h
      split at h
      · split at h
        · rw [starts_eq] at h
          cases h
          exact progs_extend_some _ hx
        · cases h; exact hx
      · split at h
        split at h
        · cases h
        · split at h
          · cases h; exact progs_extend_some [_] hx
          · cases h; exact hx
    · cases h; exact hx
  | stop k =>
    simp only [Service.step] at h
    split at h
    · cases h; exact hx
    · cases h; exact hx

/-- A goroutine that is done stays as it is. -/
theorem step_keeps_ret {e : Ev F} (h : Service.step env fac e s = .ok s') {i : Nat} {o : Outcome F}
    (hx : s.progs[i]? = some (.ret o)) : s'.progs[i]? = some (.ret o) := by
  by_cases hne : e = .run i
  · subst hne
    simp only [Service.step] at h
    split at h
    · rename_i ts w p hp
      cases h
      show ts[i]? = _
      rw [pool_others hp i (.inr ⟨o, hx⟩)]; exact hx
    · cases h
  · exact step_keeps h hne hx

/-- Something that every event other than `e` keeps lasts until `e` happens. -/
theorem until_event {evs : Nat → Ev F} {s0 : Sys F} (hok : ∀ n, ∃ s, Service.run env fac (firstN evs n) s0 = .ok s) {P : Sys F → Prop} {bad : Ev F → Prop}
    (hP : ∀ e s s', ¬ bad e → P s → Service.step env fac e s = .ok s' → P s') {n m : Nat} (hnm : n ≤ m) (hb : bad (evs m)) {s : Sys F}
    (hs : Service.run env fac (firstN evs n) s0 = .ok s) (hPs : P s) :
    ∃ m', n ≤ m' ∧ bad (evs m') ∧ ∃ s', Service.run env fac (firstN evs m') s0 = .ok s' ∧ P s' := by
  obtain ⟨d, rfl⟩ := Nat.exists_eq_add_of_le hnm
  induction d generalizing n s with
  | zero => exact ⟨n, Nat.le_refl _, hb, s, hs, hPs⟩
  | succ d ih =>
    by_cases hbn : bad (evs n)
    · exact ⟨n, Nat.le_refl _, hbn, s, hs, hPs⟩
    · obtain ⟨s1, hs1⟩ := hok (n + 1)
      have hst := hs1
      rw [run_firstN_succ hs] at hst
      obtain ⟨m', h1, h2⟩ := ih (n := n + 1) hs1 (hP _ _ _ hbn hPs hst) (by omega) (by rwa [show n + 1 + d = n + (d + 1) by omega])
      exact ⟨m', by omega, h2⟩

/-- Every goroutine ends. -/
theorem goroutine_ends {evs : Nat → Ev F} {s0 : Sys F} (hok : ∀ n, ∃ s, Service.run env fac (firstN evs n) s0 = .ok s) (hfair : FairRun evs)
    (i : Nat) (x : Prog F (Outcome F)) : ∀ (n : Nat) (s : Sys F), Service.run env fac (firstN evs n) s0 = .ok s → s.progs[i]? = some x →
      ∃ m, n ≤ m ∧ ∃ s' o, Service.run env fac (firstN evs m) s0 = .ok s' ∧ s'.progs[i]? = some (.ret o) := by
  induction x with
  | ret o => intro n s hs hx; exact ⟨n, Nat.le_refl _, s, o, hs, hx⟩
  | act a k ih =>
    intro n s hs hx
    obtain ⟨m, hm, hem⟩ := hfair.1 i n
    obtain ⟨m', hm', hb, s1, hs1, hx1⟩ := until_event hok (P := fun s => s.progs[i]? = some (.act a k)) (bad := fun e => e = .run i)
      (fun e s s' hne hx h => step_keeps h hne hx) hm hem hs hx
    obtain ⟨s2, hs2⟩ := hok (m' + 1)
    have hst := hs2
    rw [run_firstN_succ hs1, hb] at hst
    simp only [Service.step, Pool.run, hx1] at hst
    cases hr : a.run s1.world s1.now with
    | error e => rw [hr] at hst; cases hst
    | ok q =>
      rw [hr] at hst
      cases hst
      obtain ⟨m2, h1, h2⟩ := ih q.1.1 (m' + 1) _ hs2 (List.getElem?_set_self (List.getElem?_eq_some_iff.1 hx1).1)
      exact ⟨m2, by omega, h2⟩

/-- What other events than its own do to an event loop. -/
theorem step_keeps_loop {e : Ev F} (h : Service.step env fac e s = .ok s') {k : Nat} (hne : e ≠ .loop k) (hne' : e ≠ .stop k) :
    s'.loops[k]? = s.loops[k]? := by
  cases e with
  | arrive j => cases h; rfl
  | run i =>
    simp only [Service.step] at h
    split at h
    · cases h; rfl
    · cases h
  | loop k' =>
    have hk : k' ≠ k := fun e => hne (by rw [e])
    simp only [Service.step] at h
    split at h
    · rename_i l hl
      unfold loopStep at h
      split at h
      · split at h
        · rw [starts_eq] at h
          cases h
          exact List.getElem?_set_ne hk
        · cases h; rfl
      · split at h
        split at h
        · cases h
        · split at h
          · cases h; exact List.getElem?_set_ne hk
          · cases h; exact List.getElem?_set_ne hk
    · cases h; rfl
  | stop k' =>
    have hk : k' ≠ k := fun e => hne' (by rw [e])
    simp only [Service.step] at h
    split at h
    · cases h; exact List.getElem?_set_ne hk
    · cases h; rfl

/-- A loop that does not wait makes a step. -/
theorem loopStep_free {k : Nat} {l : Loop} (hl : s.loops[k]? = some l) (hb : l.busy = none) (h : Service.step env fac (.loop k) s = .ok s') :
    ∃ b, s'.loops[k]? = some (l.went b) := by
  have hlt := (List.getElem?_eq_some_iff.1 hl).1
  simp only [Service.step, hl, loopStep, hb] at h
  split at h
  · cases h
  · split at h
    · rename_i t ht
      cases h
      refine ⟨some s.jobs.length, ?_⟩
      show (s.loops.set k _)[k]? = _
      rw [List.getElem?_set_self hlt]
      unfold Loop.went
      rw [ht]
    · cases h
      refine ⟨none, ?_⟩
      show (s.loops.set k _)[k]? = _
      rw [List.getElem?_set_self hlt]
      rfl

/-- A loop that waits for a job that is done waits no longer. -/
theorem loopStep_done {k : Nat} {l : Loop} (hl : s.loops[k]? = some l) {i : Nat} (hb : l.busy = some i) {o : Outcome F}
    (ho : s.progs[i]? = some (.ret o)) (h : Service.step env fac (.loop k) s = .ok s') : s'.loops[k]? = some { l with busy := none } := by
  have hlt := (List.getElem?_eq_some_iff.1 hl).1
  simp only [Service.step, hl, loopStep, hb, ho] at h
  rw [starts_eq] at h
  cases h
  exact List.getElem?_set_self hlt

/-- A loop that waits for a job that is not done does nothing. -/
theorem loopStep_wait {k : Nat} {l : Loop} (hl : s.loops[k]? = some l) {i : Nat} (hb : l.busy = some i) 
    (ho : ∀ o, s.progs[i]? ≠ some (.ret o)) (h : Service.step env fac (.loop k) s = .ok s') : s' = s := by
  simp only [Service.step, hl, loopStep, hb] at h
  cases h; rfl

/-- An event loop that is never stopped makes step after step. -/
theorem loop_progress {evs : Nat → Ev F} {s0 : Sys F} (hok : ∀ n, ∃ s, Service.run env fac (firstN evs n) s0 = .ok s) (hfair : FairRun evs)
    {k n0 : Nat} (hstop : ∀ n, n0 ≤ n → evs n ≠ .stop k)
    (hjobs : ∀ n s l i, Service.run env fac (firstN evs n) s0 = .ok s → s.loops[k]? = some l → l.busy = some i → ∃ x, s.progs[i]? = some x)
    {n : Nat} (hn0 : n0 ≤ n) {s : Sys F} (hs : Service.run env fac (firstN evs n) s0 = .ok s) {l : Loop} (hl : s.loops[k]? = some l) :
    ∃ m, n ≤ m ∧ ∃ s' b, Service.run env fac (firstN evs m) s0 = .ok s' ∧ s'.loops[k]? = some (l.went b) := by
  -- a loop that does not wait
  have free : ∀ n s (l : Loop), n0 ≤ n → Service.run env fac (firstN evs n) s0 = .ok s → s.loops[k]? = some l → l.busy = none →
      ∃ m, n ≤ m ∧ ∃ s' b, Service.run env fac (firstN evs m) s0 = .ok s' ∧ s'.loops[k]? = some (l.went b) := by
    intro n s l hn0 hs hl hb
    obtain ⟨m, hm, hem⟩ := hfair.2 k n
    obtain ⟨m', hm', hbad, s1, hs1, hl1⟩ := until_event hok (P := fun s => s.loops[k]? = some l) (bad := fun e => e = .loop k ∨ e = .stop k)
      (fun e s s' hne hx h => by rw [step_keeps_loop h (fun e' => hne (.inl e')) (fun e' => hne (.inr e'))]; exact hx) hm (.inl hem) hs hl
    have hbad := hbad.resolve_right (hstop m' (by omega))
    obtain ⟨s2, hs2⟩ := hok (m' + 1)
    have hst := hs2
    rw [run_firstN_succ hs1, hbad] at hst
    obtain ⟨b, hl2⟩ := loopStep_free hl1 hb hst
    exact ⟨m' + 1, by omega, s2, b, hs2, hl2⟩
  cases hb : l.busy with
  | none => exact free n s l hn0 hs hl hb
  | some i =>
    obtain ⟨x, hx⟩ := hjobs n s l i hs hl hb
    -- until it does not wait any more
    obtain ⟨m1, hm1, s1, o, hs1, ho⟩ := goroutine_ends hok hfair i x n s hs hx
    have key : ∀ d n s, n0 ≤ n → Service.run env fac (firstN evs n) s0 = .ok s → s.loops[k]? = some l → n + d = m1 →
        ∃ m, n ≤ m ∧ ∃ s', Service.run env fac (firstN evs m) s0 = .ok s' ∧ (s'.loops[k]? = some { l with busy := none } ∨
          (s'.loops[k]? = some l ∧ ∃ o, s'.progs[i]? = some (.ret o))) := by
      intro d
      induction d with
      | zero =>
        intro n s hn0 hs hl hd
        have : n = m1 := by omega
        subst this
        rw [hs1] at hs
        cases hs
        exact ⟨n, Nat.le_refl _, s1, hs1, .inr ⟨hl, o, ho⟩⟩
      | succ d ih =>
        intro n s hn0 hs hl hd
        obtain ⟨s2, hs2⟩ := hok (n + 1)
        have hst := hs2
        rw [run_firstN_succ hs] at hst
        by_cases hdone : ∃ o, s.progs[i]? = some (.ret o)
        · exact ⟨n, Nat.le_refl _, s, hs, .inr ⟨hl, hdone⟩⟩
        · have hl2 : s2.loops[k]? = some l := by
            by_cases hev : evs n = .loop k
            · rw [hev] at hst
              rw [loopStep_wait hl hb (fun o h => hdone ⟨o, h⟩) hst]; exact hl
            · rw [step_keeps_loop hst hev (hstop n hn0)]; exact hl
          obtain ⟨m, h1, h2⟩ := ih (n + 1) s2 (by omega) hs2 hl2 (by omega)
          exact ⟨m, by omega, h2⟩
    obtain ⟨d, hd⟩ := Nat.exists_eq_add_of_le hm1
    obtain ⟨m2, hm2, s2, hs2, hor⟩ := key d n s hn0 hs hl hd.symm
    have fin : ∀ n s, n ≥ m2 → Service.run env fac (firstN evs n) s0 = .ok s → s.loops[k]? = some { l with busy := none } →
        ∃ m, m2 ≤ m ∧ ∃ s' b, Service.run env fac (firstN evs m) s0 = .ok s' ∧ s'.loops[k]? = some (l.went b) := by
      intro n s hn hs hl
      obtain ⟨m, h1, s', b, h2, h3⟩ := free n s _ (by omega) hs hl rfl
      exact ⟨m, by omega, s', b, h2, h3⟩
    rcases hor with hl2 | ⟨hl2, hdone⟩
    · obtain ⟨m, h1, h2⟩ := fin m2 s2 (Nat.le_refl _) hs2 hl2
      exact ⟨m, by omega, h2⟩
    · obtain ⟨m3, hm3, hem⟩ := hfair.2 k m2
      obtain ⟨o2, ho2⟩ := hdone
      obtain ⟨m4, hm4, hbad, s4, hs4, hl4, ho4⟩ := until_event hok (P := fun s => s.loops[k]? = some l ∧ s.progs[i]? = some (.ret o2))
        (bad := fun e => e = .loop k ∨ e = .stop k)
        (fun e s s' hne hx h => ⟨by rw [step_keeps_loop h (fun e' => hne (.inl e')) (fun e' => hne (.inr e'))]; exact hx.1,
          step_keeps_ret h hx.2⟩) hm3 (.inl hem) hs2 ⟨hl2, ho2⟩
      have hbad := hbad.resolve_right (hstop m4 (by omega))
      obtain ⟨s5, hs5⟩ := hok (m4 + 1)
      have hst := hs5
      rw [run_firstN_succ hs4, hbad] at hst
      obtain ⟨m, h1, h2⟩ := fin (m4 + 1) s5 (by omega) hs5 (loopStep_done hl4 hb ho4 hst)
      exact ⟨m, by omega, h2⟩

end Trypo
