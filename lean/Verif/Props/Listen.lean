import Verif.Spec.Listen
import Mathlib.Data.List.Basic
import Mathlib.Tactic.Ring

/-!
# Properties C75-C78: accepting, serving, stopping
-/

namespace Trypo
open Listen

open Spec

namespace Listen

theorem run_append : ∀ (as bs : List Act) (s : State), run (as ++ bs) s =
    (match run as s with
     | none => none
     | some (s', es) => match run bs s' with
       | none => none
       | some (s'', fs) => some (s'', es ++ fs))
  | [], bs, s => by
    simp only [List.nil_append, run]
    cases run bs s with
    | none => rfl
    | some r => simp
  | a :: as, bs, s => by
    simp only [List.cons_append, run]
    cases step s a with
    | none => rfl
    | some r =>
      simp only [run_append as bs r.1]
      cases run as r.1 with
      | none => rfl
      | some q =>
        simp only
        cases run bs q.1 with
        | none => rfl
        | some t => simp

/-- An invariant of states and of what was visible so far. -/
theorem run_inv (P : State → List Event → Prop) (hs : ∀ s es a s' fs, P s es → step s a = some (s', fs) → P s' (es ++ fs)) :
    ∀ (as : List Act) (s : State) (es : List Event) (s' : State) (fs : List Event), P s es → run as s = some (s', fs) → P s' (es ++ fs)
  | [], s, es, s', fs, h, hr => by
    simp only [run, Option.some.injEq, Prod.mk.injEq] at hr
    rw [← hr.1, ← hr.2, List.append_nil]
    exact h
  | a :: as, s, es, s', fs, h, hr => by
    simp only [run] at hr
    cases h1 : step s a with
    | none => rw [h1] at hr; cases hr
    | some r =>
      rw [h1] at hr
      simp only at hr
      cases h2 : run as r.1 with
      | none => rw [h2] at hr; cases hr
      | some q =>
        rw [h2] at hr
        simp only [Option.some.injEq, Prod.mk.injEq] at hr
        rw [← hr.1, ← hr.2, ← List.append_assoc]
        exact run_inv P hs as r.1 _ q.1 q.2 (hs s es a r.1 r.2 h h1) h2

/-- A run that shows `es ++ fs`, cut where a step ends. Everything that was visible up to some event was visible before or at the step that showed it. -/
theorem run_split : ∀ (as : List Act) (s s' : State) (a : List Event) (e : Event) (b : List Event), run as s = some (s', a ++ e :: b) →
    ∃ as1 act as2 s1 s2 es1 pre post b2, run as1 s = some (s1, es1) ∧ step s1 act = some (s2, pre ++ e :: post) ∧ run as2 s2 = some (s', b2) ∧
      a = es1 ++ pre ∧ b = post ++ b2
  | [], s, s', a, e, b, h => by
    simp only [run, Option.some.injEq, Prod.mk.injEq] at h
    exact absurd h.2.symm (by simp)
  | x :: as, s, s', a, e, b, h => by
    simp only [run] at h
    cases h1 : step s x with
    | none => rw [h1] at h; cases h
    | some r =>
      obtain ⟨t, es⟩ := r
      rw [h1] at h
      simp only at h
      cases h2 : run as t with
      | none => rw [h2] at h; cases h
      | some q =>
        obtain ⟨t', fs⟩ := q
        rw [h2] at h
        simp only [Option.some.injEq, Prod.mk.injEq] at h
        obtain ⟨rfl, h4⟩ := h
        rcases List.append_eq_append_iff.1 h4 with ⟨c, h5, h6⟩ | ⟨c, h5, h6⟩
        · obtain ⟨as1, act, as2, s1, s2, es1, pre, post, b2, k1, k2, k3, k4, k5⟩ := run_split as t t' c e b (by rw [h2, h6])
          refine ⟨x :: as1, act, as2, s1, s2, es ++ es1, pre, post, b2, ?_, k2, k3, by rw [h5, k4, List.append_assoc], k5⟩
          simp only [run, h1, k1]
        · cases c with
          | nil =>
            simp only [List.append_nil, List.nil_append] at h5 h6
            obtain ⟨as1, act, as2, s1, s2, es1, pre, post, b2, k1, k2, k3, k4, k5⟩ := run_split as t t' [] e b (by rw [h2, ← h6]; rfl)
            have k6 := List.append_eq_nil_iff.1 k4.symm
            refine ⟨x :: as1, act, as2, s1, s2, es ++ es1, pre, post, b2, ?_, k2, k3, by rw [k6.1, k6.2, h5]; simp, k5⟩
            simp only [run, h1, k1]
          | cons e' c =>
            simp only [List.cons_append, List.cons.injEq] at h6
            obtain ⟨rfl, h7⟩ := h6
            exact ⟨[], x, as, s, t, [], a, c, fs, rfl, by rw [h1, h5], h2, rfl, h7⟩

/-- The connection on its way from `Accept` to `ServeConn`. -/
def pending : Acceptor → List Nat
  | .assign (some n) => [n]
  | .test (some n) => [n]
  | _ => []

/-- What holds at every time. -/
structure Inv (s : State) (es : List Event) : Prop where
  acc : acceptedIn es = List.range s.accepted
  srv : servingIn es = s.serving
  all : s.serving ++ pending s.acceptor = List.range s.accepted
  ln : ∀ x ∈ s.stops, x ≠ Stopper.closeLn → s.open_ = false
  conn : ∀ n, s.conn = some n → n < s.accepted
  tst : ∀ c, s.acceptor = .test c → s.conn = c
  fin : s.acceptor = .ended → s.conn = none
  run : Stopper.closeConn ∈ s.stops → s.accepted ≠ 0 ∧ (s.conn = none → s.acceptor = .ended ∨ s.acceptor = .test none)
  crash : s.crashed = true → s.accepted ≠ 0 ∧ (s.acceptor = .ended ∨ s.acceptor = .test none)
  pan : Event.panicked ∈ es → s.crashed = true
  fail : (s.acceptor = .ended ∨ s.acceptor = .assign none ∨ s.acceptor = .test none) → Event.acceptFailed true ∈ es ∨ Event.acceptFailed false ∈ es
  away : Event.acceptFailed false ∈ es → Event.stopCalled ∈ es
  cls : s.open_ = false → Event.stopCalled ∈ es
  stp : s.stops ≠ [] → Event.stopCalled ∈ es

theorem inv_init : Inv init [] := by
  constructor <;> simp [init, acceptedIn, servingIn, pending]

/-- Closes the cases of `inv_step`. -/
macro "listen" : tactic => `(tactic| (constructor <;> simp only [acceptedIn, servingIn, pending, List.filterMap_append, List.filterMap_cons,
  List.filterMap_nil, List.append_nil, List.mem_append, List.mem_cons, List.not_mem_nil, or_false, List.range_succ] at * <;> grind))

theorem inv_step {s : State} {es : List Event} {a : Act} {s' : State} {fs : List Event} (h : Inv s es) (hs : step s a = some (s', fs)) :
    Inv s' (es ++ fs) := by
  obtain ⟨acc, srv, all, ln, conn, tst, fin, run, crash, pan, fail, away, cls, stp⟩ := h
  obtain ⟨op, cn, ac, n, sv, cl, st, cr⟩ := s
  simp only at acc srv all ln conn tst fin run crash pan fail cls stp
  unfold step at hs
  simp only at hs
  cases cr with
  | true => simp at hs
  | false =>
  simp only [Bool.false_eq_true, if_false] at hs
  have pan' : Event.panicked ∉ es := fun h => by simpa using pan h
  cases a with
  | connect =>
    simp only at hs
    split at hs <;> [skip; cases hs]
    rename_i hc
    cases hs
    obtain ⟨rfl, rfl⟩ := hc
    simp only [pending, List.append_nil] at all
    listen
  | fail =>
    simp only at hs
    split at hs <;> [skip; cases hs]
    rename_i hc
    cases hs
    subst hc
    cases op <;> listen
  | acceptor =>
    cases ac with
    | accept => cases hs
    | ended => cases hs
    | assign c =>
      cases hs
      cases c with
      | none => listen
      | some m =>
        have hm : m ∈ List.range n := by rw [← all]; simp [pending]
        listen
    | test c =>
      cases c with
      | none =>
        cases hs
        listen
      | some m =>
        cases hs
        listen
  | request m =>
    simp only at hs
    split at hs <;> [skip; cases hs]
    cases hs
    listen
  | hangup m =>
    simp only at hs
    split at hs <;> [skip; cases hs]
    cases hs
    listen
  | callStop =>
    cases hs
    listen
  | stopper i =>
    simp only at hs
    cases hi : st[i]? with
    | none => rw [hi] at hs; cases hs
    | some x =>
      have hmem : x ∈ st := List.mem_of_getElem? hi
      have hne : st ≠ [] := fun h => by rw [h] at hmem; cases hmem
      rw [hi] at hs
      have key : ∀ y x' (h : x' ∈ st.set i y), x' ∈ st ∨ x' = y := fun y x' h => List.mem_or_eq_of_mem_set h
      cases x with
      | returned => cases hs
      | closeLn =>
        cases hs
        listen
      | test =>
        have hop : op = false := ln _ hmem (by simp)
        cases cn with
        | none =>
          cases hs
          listen
        | some m =>
          cases hs
          listen
      | closeConn =>
        have hop : op = false := ln _ hmem (by simp)
        cases cn with
        | none =>
          cases hs
          listen
        | some m =>
          cases hs
          listen

theorem inv_run {as : List Act} {s : State} {es : List Event} (h : run as init = some (s, es)) : Inv s es := by
  have := run_inv Inv (fun _ _ _ _ _ => inv_step) as init [] s es inv_init h
  simpa using this

theorem inv_run' {as : List Act} {s s' : State} {es fs : List Event} (hi : Inv s es) (h : run as s = some (s', fs)) : Inv s' (es ++ fs) :=
  run_inv Inv (fun _ _ _ _ _ => inv_step) as s es s' fs hi h

/-- A closed listener stays closed. -/
theorem closed_stays {as : List Act} {s s' : State} {fs : List Event} (hc : s.open_ = false) (h : run as s = some (s', fs)) :
    s'.open_ = false ∧ s'.accepted = s.accepted := by
  refine run_inv (fun t _ => t.open_ = false ∧ t.accepted = s.accepted) ?_ as s [] s' fs ⟨hc, rfl⟩ h
  intro t es a t' gs ht hs
  unfold step at hs
  split at hs
  · cases hs
  · cases a with
    | connect => simp [ht.1] at hs
    | fail => simp only at hs; split at hs <;> [skip; cases hs]; cases hs; exact ht
    | acceptor =>
      simp only at hs
      split at hs <;> cases hs <;> exact ht
    | request n => simp only at hs; split at hs <;> [skip; cases hs]; cases hs; exact ht
    | hangup n => simp only at hs; split at hs <;> [skip; cases hs]; cases hs; exact ht
    | callStop => cases hs; exact ht
    | stopper i =>
      simp only at hs
      split at hs
      · cases hs; exact ⟨rfl, ht.2⟩
      · split at hs <;> cases hs <;> exact ht
      · split at hs <;> cases hs <;> exact ht
      · cases hs
      · cases hs

/-- The step that shows that a call of `stop` returned leaves the listener closed. -/
theorem closed_at_return {s s' : State} {es : List Event} {a : Act} {pre post : List Event} (hi : Inv s es)
    (h : step s a = some (s', pre ++ Event.stopReturned :: post)) : s'.open_ = false ∧ post = [] := by
  have hin : Event.stopReturned ∈ pre ++ Event.stopReturned :: post := by simp
  generalize hfs : pre ++ Event.stopReturned :: post = fs at h hin
  have key : ∀ xs : List Event, pre ++ Event.stopReturned :: post = xs ++ [Event.stopReturned] → Event.stopReturned ∉ xs → post = [] := by
    intro xs hx hn
    rcases List.append_eq_append_iff.1 hx with ⟨c, h1, h2⟩ | ⟨c, h1, h2⟩
    · cases c with
      | nil => simpa using h2
      | cons y c =>
        simp only [List.cons_append, List.cons.injEq] at h2
        exact absurd (by rw [h1, ← h2.1]; simp) hn
    · cases c with
      | nil => simpa using h2.symm
      | cons y c =>
        simp only [List.cons_append, List.cons.injEq] at h2
        have := congrArg List.length h2.2
        simp at this
  unfold step at h
  split at h
  · cases h
  · cases a with
    | connect => simp only at h; split at h <;> cases h; simp at hin
    | fail => simp only at h; split at h <;> cases h; simp at hin
    | acceptor => simp only at h; split at h <;> cases h <;> simp at hin
    | request n => simp only at h; split at h <;> cases h; simp at hin
    | hangup n => simp only at h; split at h <;> cases h; simp at hin
    | callStop => cases h; simp at hin
    | stopper i =>
      simp only at h
      split at h
      · cases h; simp at hin
      · rename_i hx
        split at h <;> cases h
        · exact ⟨hi.ln _ (List.mem_of_getElem? hx) (by simp), key [] (by simpa using hfs) (by simp)⟩
        · simp at hin
      · rename_i hx
        split at h <;> cases h
        · simp at hin
        · rename_i n _
          exact ⟨hi.ln _ (List.mem_of_getElem? hx) (by simp), key [.closed n] (by simpa using hfs) (by simp)⟩
      · cases h
      · cases h

end Listen

open Listen

/-! ### C75 -/

/-- C75. In every run, connections are accepted one after another, and served in that order, each one once; at most one
accepted connection is not yet served, and two steps of the accept loop serve it (unless the process was killed by `C77_refuted`). -/
theorem C75_served (as : List Act) {s : State} {es : List Event} (h : run as init = some (s, es)) :
    ∃ j k, acceptedIn es = List.range k ∧ servingIn es = List.range j ∧ (k = j ∨ k = j + 1 ∧
      (s.crashed = false → ∃ bs s' fs, bs.length ≤ 2 ∧ (∀ b ∈ bs, b = Act.acceptor) ∧ run bs s = some (s', fs) ∧ servingIn fs = [j])) := by
  have hi := inv_run h
  have hall := hi.all
  obtain ⟨op, cn, ac, n, sv, cl, st, cr⟩ := s
  cases hp : pending ac with
  | nil =>
    simp only [hp, List.append_nil] at hall
    exact ⟨n, n, hi.acc, by rw [hi.srv]; exact hall, .inl rfl⟩
  | cons m ms =>
    have hms : ms = [] := by
      cases ac with
      | accept => simp [pending] at hp
      | ended => simp [pending] at hp
      | assign c => cases c <;> simp [pending] at hp; exact hp.2
      | test c => cases c <;> simp [pending] at hp; exact hp.2
    subst hms
    simp only [hp] at hall
    cases n with
    | zero => simp at hall
    | succ n =>
      rw [List.range_succ] at hall
      obtain ⟨h1, h2⟩ := List.append_inj' hall rfl
      simp only [List.cons.injEq, and_true] at h2
      subst h2
      refine ⟨m, m + 1, hi.acc, by rw [hi.srv]; exact h1, .inr ⟨rfl, fun hc => ?_⟩⟩
      simp only at hc
      subst hc
      cases ac with
      | accept => simp [pending] at hp
      | ended => simp [pending] at hp
      | assign c =>
        cases c with
        | none => simp [pending] at hp
        | some x =>
          simp only [pending, List.cons.injEq, and_true] at hp
          subst hp
          exact ⟨[.acceptor, .acceptor], _, _, by simp, by simp, rfl, rfl⟩
      | test c =>
        cases c with
        | none => simp [pending] at hp
        | some x =>
          simp only [pending, List.cons.injEq, and_true] at hp
          subst hp
          exact ⟨[.acceptor], _, _, by simp, by simp, rfl, rfl⟩

/-! ### C76 -/

/-- C76 is false of the code: two connections are served, `stop` returns, and a request on the first one is still handled. -/
theorem C76_refuted : ∃ (as : List Act) (s : State) (a b : List Event), run as init = some (s, a ++ Event.stopReturned :: b) ∧
    Event.handled 0 ∈ b :=
  ⟨[.connect, .acceptor, .acceptor, .connect, .acceptor, .acceptor, .callStop, .stopper 0, .stopper 0, .stopper 0, .request 0], _,
    [.accepted 0, .serving 0, .accepted 1, .serving 1, .stopCalled, .closed 1], [.handled 0], rfl, by decide⟩

/-- C76 is also false with a single connection, if the accept loop notices the closed listener before `stop` looks at the connection: it
then closes nothing. -/
theorem C76_refuted_single : ∃ (as : List Act) (s : State) (a b : List Event), run as init = some (s, a ++ Event.stopReturned :: b) ∧
    acceptedIn a = [0] ∧ Event.closed 0 ∉ a ∧ Event.handled 0 ∈ b :=
  ⟨[.connect, .acceptor, .acceptor, .callStop, .stopper 0, .fail, .acceptor, .stopper 0, .request 0], _,
    [.accepted 0, .serving 0, .stopCalled, .acceptFailed false], [.handled 0], rfl, rfl, by decide, by decide⟩

/-- C76, what the code guarantees: once a call of `stop` has returned, no connection is accepted any more, the serving of at most
one begins (one accepted before), and requests are handled only on connections accepted before.
Missing: connections accepted before are still served (`C76_refuted`, `C76_refuted_single`). -/
theorem C76_stop_partial (as : List Act) {s : State} {a b : List Event} (h : run as init = some (s, a ++ Event.stopReturned :: b)) :
    acceptedIn b = [] ∧ (servingIn b).length ≤ 1 ∧ (∀ n ∈ servingIn b, n ∈ acceptedIn a) ∧ ∀ n, Event.handled n ∈ b → n ∈ acceptedIn a := by
  have hi := inv_run h
  obtain ⟨as1, act, as2, s1, s2, es1, pre, post, b2, k1, k2, k3, k4, k5⟩ := run_split as init s a _ b h
  have i1 := inv_run k1
  have i2 : Inv s2 (es1 ++ (pre ++ Event.stopReturned :: post)) := inv_step i1 k2
  obtain ⟨c1, c2⟩ := closed_at_return i1 k2
  subst c2
  simp only [List.nil_append] at k5
  subst k5
  have hcl := closed_stays c1 k3
  have e1 : acceptedIn (a ++ Event.stopReturned :: b) = acceptedIn a ++ acceptedIn b := by simp [acceptedIn]
  have e2 : acceptedIn (es1 ++ (pre ++ [Event.stopReturned])) = acceptedIn a := by rw [k4]; simp [acceptedIn]
  have e3 : acceptedIn a = List.range s2.accepted := by rw [← e2]; exact i2.acc
  have hb : acceptedIn b = [] := by
    have := hi.acc
    rw [e1, hcl.2, e3] at this
    simpa using this
  have e4 : servingIn (a ++ Event.stopReturned :: b) = servingIn a ++ servingIn b := by simp [servingIn]
  have e5 : servingIn (es1 ++ (pre ++ [Event.stopReturned])) = servingIn a := by rw [k4]; simp [servingIn]
  have hall : servingIn a ++ servingIn b ++ pending s.acceptor = acceptedIn a := by
    rw [← e4, hi.srv, hi.all, hcl.2, ← e3]
  have hall2 : servingIn a ++ pending s2.acceptor = acceptedIn a := by
    rw [← e5, i2.srv, i2.all, e3]
  have hpend : (pending s2.acceptor).length ≤ 1 := by
    cases s2.acceptor with
    | accept => simp [pending]
    | ended => simp [pending]
    | assign c => cases c <;> simp [pending]
    | test c => cases c <;> simp [pending]
  have hlen : (servingIn b).length ≤ (pending s2.acceptor).length := by
    have h1 := congrArg List.length hall
    have h2 := congrArg List.length hall2
    simp only [List.length_append] at h1 h2
    omega
  refine ⟨hb, by omega, fun n hn => by rw [← hall]; simp [hn], fun n hn => ?_⟩
  -- a handled connection is being served
  have key : ∀ (t : State) (fs : List Event), (Event.handled n ∈ fs → n ∈ t.serving) → ∀ (x : Act) (t' : State) (gs : List Event),
      step t x = some (t', gs) → (Event.handled n ∈ fs ++ gs → n ∈ t'.serving) := by
    intro t fs ht x t' gs hs hm
    unfold step at hs
    split at hs
    · cases hs
    · cases x <;> grind
  have : n ∈ s.serving := run_inv (fun t fs => Event.handled n ∈ fs → n ∈ t.serving) (fun t fs x t' gs ht hs => key t fs ht x t' gs hs)
    as init [] s _ (by simp) h (by simp [hn])
  rw [← hall]
  rw [← hi.srv, e4] at this
  exact List.mem_append_left _ this

/-- C76, closed connections: no request is handled on a connection that `stop` or the client closed. -/
theorem C76_closed (as : List Act) {s : State} {a b : List Event} {n : Nat} (h : run as init = some (s, a ++ Event.closed n :: b)) :
    Event.handled n ∉ b := by
  obtain ⟨as1, act, as2, s1, s2, es1, pre, post, b2, k1, k2, k3, k4, k5⟩ := run_split as init s a _ b h
  have hcl : n ∈ s2.closed ∧ Event.handled n ∉ post := by
    have hin : Event.closed n ∈ pre ++ Event.closed n :: post := by simp
    have hp : ∀ y ∈ post, y ∈ pre ++ Event.closed n :: post := fun y hy => by simp [hy]
    generalize pre ++ Event.closed n :: post = fs at k2 hin hp
    unfold step at k2
    split at k2
    · cases k2
    · cases act <;> grind
  have hstay : n ∈ s.closed ∧ Event.handled n ∉ b2 := by
    refine run_inv (fun t fs => n ∈ t.closed ∧ Event.handled n ∉ fs) ?_ as2 s2 [] s b2 ⟨hcl.1, by simp⟩ k3
    intro t fs x t' gs ht hs
    unfold step at hs
    split at hs
    · cases hs
    · cases x <;> grind
  rw [k5]
  simp [hcl.2, hstay.2]

/-! ### C77 -/

/-- C77 is false of the code: a connection is served, somebody calls `stop`; between its test of the connection and the call of `Close` the
accept loop fails on the closed listener and sets the variable to nil: `stop` panics, and with it the process. -/
theorem C77_refuted : ∃ (as : List Act) (s : State) (es : List Event), run as init = some (s, es) ∧ es =
    [.accepted 0, .serving 0, .stopCalled, .acceptFailed false, .panicked] :=
  ⟨[.connect, .acceptor, .acceptor, .callStop, .stopper 0, .stopper 0, .fail, .acceptor, .stopper 0], _, _, rfl, rfl⟩

/-- C77, what the code guarantees: `stop` panics only after some connection was accepted and `Accept` failed; so not if no client ever
connected, and not while the accept loop does not run. Missing: `C77_refuted`. -/
theorem C77_stop_partial (as : List Act) {s : State} {es : List Event} (h : run as init = some (s, es)) (hp : Event.panicked ∈ es) :
    acceptedIn es ≠ [] ∧ Failed es := by
  have hi := inv_run h
  have hc := hi.pan hp
  refine ⟨?_, ?_⟩
  · rw [hi.acc]
    have := (hi.crash hc).1
    simpa using this
  · rcases hi.fail (by rcases (hi.crash hc).2 with h | h <;> simp [h]) with h | h
    · exact ⟨_, h⟩
    · exact ⟨_, h⟩

/-- C77, called when the accept loop has ended, no matter how often: no panic. -/
theorem C77_ended (as bs : List Act) {s s' : State} {es fs : List Event} (h : run as init = some (s, es)) (he : s.acceptor = .ended)
    (hs : ∀ x ∈ s.stops, x ≠ Stopper.closeConn) (h' : run bs s = some (s', fs)) : Event.panicked ∉ fs := by
  have hi := inv_run h
  have := run_inv (fun t gs => Event.panicked ∉ gs ∧ t.acceptor = .ended ∧ t.conn = none ∧ ∀ x ∈ t.stops, x ≠ Stopper.closeConn) ?_ bs s [] s' fs
    ⟨by simp, he, hi.fin he, hs⟩ h'
  · exact this.1
  · intro t gs x t' ks ht hst
    obtain ⟨t1, t2, t3, t4⟩ := ht
    unfold step at hst
    split at hst
    · cases hst
    · cases x with
      | stopper i =>
        simp only at hst
        cases hi : t.stops[i]? with
        | none => rw [hi] at hst; cases hst
        | some y =>
          have hy := t4 y (List.mem_of_getElem? hi)
          rw [hi] at hst
          cases y with
          | closeLn => cases hst; refine ⟨by simpa using t1, t2, t3, fun z hz => ?_⟩; rcases List.mem_or_eq_of_mem_set hz with h | h; exact t4 z h; simp [h]
          | test =>
            simp only [t3] at hst
            cases hst
            refine ⟨by simpa using t1, t2, rfl, fun z hz => ?_⟩
            rcases List.mem_or_eq_of_mem_set hz with h | h
            · exact t4 z h
            · simp [h]
          | closeConn => exact absurd rfl hy
          | returned => cases hst
      | connect => grind
      | fail => grind
      | acceptor => grind
      | request n => grind
      | hangup n => grind
      | callStop =>
        cases hst
        refine ⟨by simpa using t1, t2, t3, fun z hz => ?_⟩
        rcases List.mem_append.1 hz with h | h
        · exact t4 z h
        · simp only [List.mem_singleton] at h; simp [h]

/-- C77, a call of `stop` that no step of the accept loop interrupts returns, closes the connection accepted last (if any was), and
does not panic. -/
theorem C77_alone (s : State) (hc : s.crashed = false) :
    ∃ bs s' fs, bs.length ≤ 3 ∧ (∀ b ∈ bs, b = Act.stopper s.stops.length) ∧ run (.callStop :: bs) s = some (s', fs) ∧
      fs = (Event.stopCalled :: (match s.conn with | none => [] | some n => [Event.closed n])) ++ [Event.stopReturned] := by
  obtain ⟨op, cn, ac, n, sv, cl, st, cr⟩ := s
  simp only at hc
  subst hc
  cases cn with
  | none =>
    refine ⟨[.stopper st.length, .stopper st.length], ⟨false, none, ac, n, sv, cl, st ++ [.returned], false⟩, _, by simp, by simp, ?_, rfl⟩
    simp [run, step]
  | some m =>
    refine ⟨[.stopper st.length, .stopper st.length, .stopper st.length], ⟨false, some m, ac, n, sv, m :: cl, st ++ [.returned], false⟩, _, by simp, by simp, ?_, rfl⟩
    simp [run, step]

/-! ### C78 -/

/-- C78 is false of the code: if `Accept` fails once - the system is out of file descriptors, say - nobody has called `stop` and the listener is
open, but no connection is accepted ever after. -/
theorem C78_refuted : ∃ (as : List Act) (s : State) (es : List Event), run as init = some (s, es) ∧ es = [.accepted 0, .serving 0, .acceptFailed true] ∧
    s.open_ = true ∧ s.crashed = false ∧ ∀ (bs : List Act) (s' : State) (fs : List Event), run bs s = some (s', fs) → acceptedIn fs = [] := by
  refine ⟨[.connect, .acceptor, .acceptor, .fail, .acceptor, .acceptor], _, _, rfl, rfl, rfl, rfl, fun bs s' fs h => ?_⟩
  refine (run_inv (fun t gs => acceptedIn gs = [] ∧ t.acceptor = .ended) ?_ bs _ [] s' fs ⟨rfl, rfl⟩ h).1
  intro t gs x t' ks ht hs
  have e : acceptedIn (gs ++ ks) = acceptedIn ks := by
    have := ht.1
    unfold acceptedIn at this ⊢
    rw [List.filterMap_append, this]
    rfl
  show acceptedIn (gs ++ ks) = [] ∧ _
  rw [e]
  have h2 := ht.2
  unfold step at hs
  split at hs
  · cases hs
  · cases x <;> simp [h2] at hs
    case request n => obtain ⟨_, rfl, rfl⟩ := hs; exact ⟨rfl, h2⟩
    case hangup n => obtain ⟨_, rfl, rfl⟩ := hs; exact ⟨rfl, by simp⟩
    case callStop => obtain ⟨rfl, rfl⟩ := hs; exact ⟨rfl, by simp⟩
    case stopper i =>
      split at hs
      · cases hs; exact ⟨rfl, by simp⟩
      · split at hs <;> cases hs <;> exact ⟨rfl, by simp⟩
      · split at hs <;> cases hs <;> exact ⟨rfl, by simp⟩
      · cases hs
      · cases hs

/-- C78, what the code guarantees: until `stop` is called and as long as `Accept` does not fail on an open listener, two steps of the accept loop at
most bring it back to `Accept`, and then the next connection is accepted. Missing: `C78_refuted`. -/
theorem C78_accepts_partial (as : List Act) {s : State} {es : List Event} (h : run as init = some (s, es)) (hs : Event.stopCalled ∉ es)
    (hf : Event.acceptFailed true ∉ es) :
    ∃ bs s' fs, bs.length ≤ 2 ∧ (∀ b ∈ bs, b = Act.acceptor) ∧ run (bs ++ [.connect]) s = some (s', fs) ∧ acceptedIn fs = [(acceptedIn es).length] := by
  have hi := inv_run h
  have hne : ¬(s.acceptor = .ended ∨ s.acceptor = .assign none ∨ s.acceptor = .test none) := fun hx => by
    rcases hi.fail hx with h1 | h1
    · exact hf h1
    · exact hs (hi.away h1)
  have hop : s.open_ = true := by
    by_contra hx
    exact hs (hi.cls (by simpa using hx))
  have hcr : s.crashed = false := by
    by_contra hx
    have := hi.crash (by simpa using hx)
    exact hne (by rcases this.2 with h | h <;> simp [h])
  rw [hi.acc, List.length_range]
  obtain ⟨op, cn, ac, n, sv, cl, st, cr⟩ := s
  simp only at hop hcr hne
  subst hop hcr
  cases ac with
  | accept => exact ⟨[], _, _, by simp, by simp, rfl, rfl⟩
  | ended => simp at hne
  | assign c =>
    cases c with
    | none => simp at hne
    | some m => exact ⟨[.acceptor, .acceptor], _, _, by simp, by simp, rfl, rfl⟩
  | test c =>
    cases c with
    | none => simp at hne
    | some m => exact ⟨[.acceptor], _, _, by simp, by simp, rfl, rfl⟩

namespace ListenExample

/-- Two clients, one of which hangs up; `stop` is called twice. The second connection is closed by the first call, and the accept loop ends. -/
example : (run [.connect, .acceptor, .acceptor, .request 0, .hangup 0, .connect, .acceptor, .acceptor, .request 1, .callStop, .stopper 0, .stopper 0,
      .stopper 0, .fail, .acceptor, .acceptor, .callStop, .stopper 1, .stopper 1] init).map (fun r => r.2) =
    some [.accepted 0, .serving 0, .handled 0, .closed 0, .accepted 1, .serving 1, .handled 1, .stopCalled, .closed 1, .stopReturned,
      .acceptFailed false, .stopCalled, .stopReturned] := by decide

/-- A connection accepted before the listener was closed begins to be served after `stop` has returned. -/
example : (run [.connect, .callStop, .stopper 0, .stopper 0, .acceptor, .acceptor, .request 0] init).map (fun r => r.2) =
    some [.accepted 0, .stopCalled, .stopReturned, .serving 0, .handled 0] := by decide

/-- What is closed is not handled, and a closed listener accepts nothing. -/
example : run [.connect, .acceptor, .acceptor, .hangup 0, .request 0] init = none ∧ run [.callStop, .stopper 0, .connect] init = none := by decide

end ListenExample
end Trypo
