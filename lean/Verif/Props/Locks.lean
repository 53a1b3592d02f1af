import Verif.Proofs.Locks
import Verif.Proofs.Linear
import Verif.Props.ServerWitness

/-!
# C41, C43: critical sections are atomic, requests are linearizable, nobody waits forever
-/

namespace Trypo

open Spec Fine

section

variable {F α : Type}

/-- C41, mutexes: every run of goroutines in small steps, with any half-finished content in slots that are being worked
on, is a run of the same goroutines with atomic critical sections: some of the same steps in the same order, at the end
the same positions, tables and answers, and the same contents of all slots that nobody holds. A run that panics is one
that panics. -/
theorem C41_atomic (mid : Mids F) (progs : List (Prog F α)) (w : World F) (p : Nat) (sched : List Nat) :
    (∀ M, (Mach.init (progs.map (ofProg mid)) w p).run sched = .ok M →
      ∃ sched', sched'.Sublist sched ∧ ∃ ts W, Pool.run sched' progs w p = .ok (ts, W, M.p) ∧ W.table = M.w.table ∧
        (∀ i, M.held (.slot i) = false → W.heap[i]? = M.w.heap[i]?) ∧
        ∀ (i : Nat) (a : α), M.ts[i]? = some (.ret a) → ts[i]? = some (.ret a)) ∧
    (∀ e, (Mach.init (progs.map (ofProg mid)) w p).run sched = .error e →
      ∃ sched', sched'.Sublist sched ∧ Pool.run sched' progs w p = .error e) := by
  obtain ⟨h1, h2⟩ := sim_run sched (sim_init mid progs w p)
  refine ⟨fun M hM => ?_, h2⟩
  obtain ⟨sched', hsub, W, ts, h, S, hr⟩ := h1 M hM
  refine ⟨sched', hsub, ts, W, hr, S.table, S.clean, fun i a hi => ?_⟩
  have hlen : i < M.ts.length := by
    by_contra hc
    rw [List.getElem?_eq_none (by omega)] at hi
    cases hi
  have ht : ts[i]? = some (ts[i]'(S.len ▸ hlen)) := List.getElem?_eq_getElem _
  rw [ht, (S.stage i _ _ hi ht).ret]

theorem done_iff {f : Fine F α} : f.done ↔ ∃ a, f = .ret a := by
  cases f with
  | ret a => exact ⟨fun _ => ⟨a, rfl⟩, fun _ => trivial⟩
  | _ => exact ⟨fun h => h.elim, fun ⟨_, h⟩ => by cases h⟩

theorem all_done {ts : List (Fine F α)} (h : ∀ f ∈ ts, f.done) : ∃ as : List α, ts = as.map .ret := by
  induction ts with
  | nil => exact ⟨[], rfl⟩
  | cons f ts ih =>
    obtain ⟨as, e⟩ := ih (fun g hg => h g (by simp [hg]))
    obtain ⟨a, ha⟩ := done_iff.1 (h f (by simp))
    exact ⟨a :: as, by rw [e, ha]; rfl⟩

/-- C41, mutexes: when all goroutines have returned, the world is that of the run with atomic critical sections. -/
theorem C41_atomic_done (mid : Mids F) (progs : List (Prog F α)) (w : World F) (p : Nat) (sched : List Nat)
    {M : Mach F α} (hM : (Mach.init (progs.map (ofProg mid)) w p).run sched = .ok M) (hd : ∀ f ∈ M.ts, f.done) :
    ∃ sched', sched'.Sublist sched ∧ ∃ answers : List α, M.ts = answers.map .ret ∧ (∀ l, M.held l = false) ∧
      Pool.run sched' progs w p = .ok (answers.map .ret, M.w, M.p) := by
  obtain ⟨h1, _⟩ := sim_run sched (sim_init mid progs w p)
  obtain ⟨sched', hsub, W, ts, h, S, hr⟩ := h1 M hM
  obtain ⟨answers, ha⟩ := all_done hd
  have hfree : ∀ l, M.held l = false := by
    intro l
    by_contra hc
    obtain ⟨i, hi⟩ := (S.held l).1 (by simpa using hc)
    have hlen : i < M.ts.length := by
      by_contra hc
      rw [S.beyond i (by omega)] at hi
      cases hi
    have hst := S.stage i _ _ (List.getElem?_eq_getElem hlen) (List.getElem?_eq_getElem (S.len ▸ hlen))
    rw [hi] at hst
    exact hst.no_wait.1 (hd _ (List.getElem_mem hlen))
  refine ⟨sched', hsub, answers, ha, hfree, ?_⟩
  refine Eq.trans hr ?_
  have e1 : ts = answers.map .ret := by
    apply List.ext_getElem?
    intro i
    have hlen := S.len
    rw [ha, List.length_map] at hlen
    by_cases hi : i < answers.length
    · have e : M.ts[i]? = some (.ret answers[i]) := by rw [ha, List.getElem?_map, List.getElem?_eq_getElem hi]; rfl
      have ht : ts[i]? = some (ts[i]'(hlen ▸ hi)) := List.getElem?_eq_getElem _
      rw [ht, (S.stage i _ _ e ht).ret, List.getElem?_map, List.getElem?_eq_getElem hi]
      rfl
    · rw [List.getElem?_eq_none (by omega), List.getElem?_eq_none (by rw [List.length_map]; omega)]
  have e2 : W = M.w := by
    have h1 := S.table
    have h2 : W.heap = M.w.heap := List.ext_getElem? (fun i => S.clean i (hfree _))
    cases W
    cases hw : M.w
    rw [hw] at h1 h2
    simp only [World.mk.injEq]
    exact ⟨h1, h2⟩
  rw [e1, e2]

/-- C41, mutexes: nothing is missing either. Every run with atomic critical sections is possible in small steps. -/
theorem C41_atomic_complete (mid : Mids F) (progs : List (Prog F α)) (w : World F) (p : Nat) (sched : List Nat) :
    (∀ ts w' p', Pool.run sched progs w p = .ok (ts, w', p') →
      ∃ sched', (Mach.init (progs.map (ofProg mid)) w p).run sched' = .ok (Mach.init (ts.map (ofProg mid)) w' p')) ∧
    (∀ e, Pool.run sched progs w p = .error e →
      ∃ sched', (Mach.init (progs.map (ofProg mid)) w p).run sched' = .error e) :=
  mach_of_pool mid sched progs w p

/-- C43: every goroutine of the model holds at most one lock at a time and never waits for a lock while it holds one. -/
theorem C43_one_lock (mid : Mids F) (prog : Prog F α) : OneAtATime none (ofProg mid prog) := oneAtATime mid prog

/-- C43: no interleaving leads to a deadlock. -/
theorem C43_no_deadlock (mid : Mids F) (progs : List (Prog F α)) (w : World F) (p : Nat) (sched : List Nat)
    {M : Mach F α} (hM : (Mach.init (progs.map (ofProg mid)) w p).run sched = .ok M) : ¬ Deadlocked M := by
  obtain ⟨_, _, W, ts, h, S, _⟩ := (sim_run sched (sim_init mid progs w p)).1 M hM
  exact S.not_deadlocked

/-- C43: when every goroutine gets its turn again and again, all of them return (or the process dies of a panic), no
matter in which order mutexes are handed out. -/
theorem C43_all_return (mid : Mids F) (progs : List (Prog F α)) (w : World F) (p : Nat) {s : Nat → Nat}
    (hs : Fair progs.length s) :
    ∃ n, (∃ e, (Mach.init (progs.map (ofProg mid)) w p).run ((List.range n).map s) = .error e) ∨
      ∃ M, (Mach.init (progs.map (ofProg mid)) w p).run ((List.range n).map s) = .ok M ∧ ∀ f ∈ M.ts, f.done :=
  fair_done (fun sched _ h => C43_no_deadlock mid progs w p sched h) (by simpa [Mach.init] using hs)

end

section

variable {F : Type} [GoFloat F] [LawfulCmp F]

/-- C43 for RPC requests: any number of requests to any nodes, interleaved in small steps with mutexes. Nobody panics,
nobody waits forever: when every handler gets its turn again and again, every request is answered. -/
theorem C43_served (mid : Mids F) {env : Env} (he : EnvOK env) {fac : Factory F} (hf : FactoryOK fac) {D : NS → Nat}
    {w : World F} (hw : WorldOK D w) {reqs : List (Request F)} (hv : ∀ r ∈ reqs, r.valid D) (p : Nat) {s : Nat → Nat}
    (hs : Fair reqs.length s) :
    ∃ n M, (Mach.init (reqs.map (fun r => ofProg mid (r.serve env fac))) w p).run ((List.range n).map s) = .ok M ∧
      (∃ answers : List (Answer F), M.ts = answers.map .ret) ∧ WorldOK D M.w := by
  have hmap : reqs.map (fun r => ofProg mid (r.serve env fac)) = (reqs.map (fun r => r.serve env fac)).map (ofProg mid) := by
    rw [List.map_map]
    rfl
  rw [hmap]
  obtain ⟨n, ⟨e, he'⟩ | ⟨M, hM, hd⟩⟩ := C43_all_return mid (reqs.map (fun r => r.serve env fac)) w p (s := s) (by simpa using hs)
  · obtain ⟨sched', _, h⟩ := (C41_atomic mid _ w p _).2 e he'
    obtain ⟨progs, w', p', h', _⟩ := C34_isolation he hf hw hv sched' p
    rw [h] at h'
    cases h'
  · refine ⟨n, M, hM, all_done hd, ?_⟩
    obtain ⟨sched', _, answers, _, _, h⟩ := C41_atomic_done mid _ w p _ hM hd
    obtain ⟨progs, w', p', h', h3, _⟩ := C34_isolation he hf hw hv sched' p
    rw [h] at h'
    cases h'
    exact h3

end

section

variable {F : Type} [GoFloat F]

/-- C41 for requests that access their namespace once, if it exists: in any interleaving, those that are answered are
answered as if they had been served one at a time, in the order in which they returned, and the nodes are left as they
would have been then. (Requests that access several namespaces or one namespace several times are not linearizable, see
`C41_refuted`; first insertions are covered by C42.) -/
theorem C41_linearizable_partial {env : Env} {fac : Factory F} {w : World F} {reqs : List (Request F)}
    (hone : ∀ r ∈ reqs, r.oneAccess) (hex : ∀ r ∈ reqs, w.lookup r.node r.ns ≠ none) (sched : List Nat) (p : Nat) :
    (seconds reqs.length (fun _ => 0) sched).Nodup ∧ (∀ i ∈ seconds reqs.length (fun _ => 0) sched, i < reqs.length) ∧
    (∀ ts w' p', Pool.run sched (reqs.map (fun r => r.serve env fac)) w p = .ok (ts, w', p') →
      (∀ (i : Nat) (a : Answer F), ts[i]? = some (.ret a) → i ∈ seconds reqs.length (fun _ => 0) sched) ∧
      ∃ answers, (Prog.each (fun r => r.serve env fac)
          ((seconds reqs.length (fun _ => 0) sched).filterMap (fun i => reqs[i]?))).run w p = .ok ((answers, w'), p') ∧
        List.Forall₂ (fun (i : Nat) (a : Answer F) => ts[i]? = some (.ret a)) (seconds reqs.length (fun _ => 0) sched) answers) ∧
    (∀ e, Pool.run sched (reqs.map (fun r => r.serve env fac)) w p = .error e →
      (Prog.each (fun r => r.serve env fac)
          ((seconds reqs.length (fun _ => 0) sched).filterMap (fun i => reqs[i]?))).run w p = .error e) := by
  obtain ⟨_, a2, a3, a4, a5⟩ := linear (env := env) (fac := fac) hone hex sched (fun _ => 0)
    (reqs.map (fun r => r.serve env fac)) w p rfl
    ⟨by simp, fun i r hr => ⟨fun _ => by rw [List.getElem?_map, hr]; rfl, ⟨fun h => absurd h (by simp), fun h => absurd h (by simp)⟩⟩⟩
  refine ⟨a2, a3, fun ts w' p' h => ?_, fun e h => ?_⟩
  · obtain ⟨_, b2⟩ := a5 ts w' p' h
    rw [h] at a4
    refine ⟨fun i a hi => ?_, a4⟩
    by_cases hlt : i < reqs.length
    · rcases b2 i a hlt hi with h' | h'
      · exact h'
      · omega
    · have hlen := pool_length h
      rw [List.getElem?_eq_none (by rw [hlen, List.length_map]; omega)] at hi
      cases hi
  · rw [h] at a4
    exact a4

/-- C41 for such requests, in small steps with mutexes: when all are answered, some order of serving them one at a time
gives the same answers and leaves the nodes the same. -/
theorem C41_small_steps_partial (mid : Mids F) {env : Env} {fac : Factory F} {w : World F} {reqs : List (Request F)}
    (hone : ∀ r ∈ reqs, r.oneAccess) (hex : ∀ r ∈ reqs, w.lookup r.node r.ns ≠ none) (sched : List Nat) (p : Nat)
    {M : Mach F (Answer F)} {answers : List (Answer F)}
    (hM : (Mach.init (reqs.map (fun r => ofProg mid (r.serve env fac))) w p).run sched = .ok M)
    (hd : M.ts = answers.map .ret) :
    ∃ order : List Nat, order.Perm (List.range reqs.length) ∧
      (Prog.each (fun r => r.serve env fac) (order.filterMap (fun i => reqs[i]?))).run w p =
        .ok ((order.filterMap (fun i => answers[i]?), M.w), M.p) := by
  have hmap : reqs.map (fun r => ofProg mid (r.serve env fac)) = (reqs.map (fun r => r.serve env fac)).map (ofProg mid) := by
    rw [List.map_map]
    rfl
  rw [hmap] at hM
  obtain ⟨sched', _, answers', e1, _, h⟩ := C41_atomic_done mid _ w p _ hM (by
    intro f hf
    rw [hd] at hf
    obtain ⟨a, _, rfl⟩ := List.mem_map.1 hf
    trivial)
  rw [hd] at e1
  obtain rfl : answers = answers' := List.map_injective_iff.2 (fun a b e => by cases e; rfl) e1
  have hlen := pool_length h
  simp only [List.length_map] at hlen
  obtain ⟨h1, h2, h3, _⟩ := C41_linearizable_partial (env := env) (fac := fac) hone hex sched' p
  obtain ⟨h4, as, h5, h6⟩ := h3 _ _ _ h
  refine ⟨seconds reqs.length (fun _ => 0) sched', ?_, ?_⟩
  · refine (List.perm_ext_iff_of_nodup h1 List.nodup_range).2 (fun i => ⟨fun hi => List.mem_range.2 (h2 i hi), fun hi => ?_⟩)
    have hi' : i < answers.length := by rw [hlen]; exact List.mem_range.1 hi
    exact h4 i answers[i] (by rw [List.getElem?_map, List.getElem?_eq_getElem hi']; rfl)
  · rw [h5]
    have : as = (seconds reqs.length (fun _ => 0) sched').filterMap (fun i => answers[i]?) := by
      generalize seconds reqs.length (fun _ => 0) sched' = order at h6
      clear h1 h2 h4 h5
      induction h6 with
      | nil => rfl
      | cons h _ ih =>
        rw [List.getElem?_map, Option.map_eq_some_iff] at h
        obtain ⟨b, hb, e⟩ := h
        cases e
        rw [List.filterMap_cons, hb, ih]
    rw [this]

end

open ServerExample

/-- C41 fails for requests that access their namespace more than once: `LenDP` in the middle of
`DistributeDataPointsFast`, which drains a datapoint, finds nobody to send it to and puts it back. It is told one
datapoint. Served one at a time, in any order, it is told two. -/
theorem C41_refuted :
    (∃ r, Pool.run ([0, 0, 0, 1, 1] ++ List.replicate 16 0) ([Request.distributeFast 1 7 1 [3], .lenDP 1 7].map (fun r => r.serve env fac))
      two 0 = .ok r ∧ obsP r = ([some .done, some (.num 1)], [dp 2 0, dp 1 0], [dp 0 1])) ∧
    (∃ r p', (Prog.each (fun r => r.serve env fac) [Request.distributeFast 1 7 1 [3], .lenDP 1 7]).run two 0 = .ok (r, p') ∧
      obs r = ([.done, .num 2], [dp 2 0, dp 1 0], [dp 0 1])) ∧
    (∃ r p', (Prog.each (fun r => r.serve env fac) [Request.lenDP 1 7, .distributeFast 1 7 1 [3]]).run two 0 = .ok (r, p') ∧
      obs r = ([.num 2, .done], [dp 2 0, dp 1 0], [dp 0 1])) :=
  ⟨exists_of_pool (by decide +kernel), exists_of_run (by decide +kernel), exists_of_run (by decide +kernel)⟩

namespace ServerExample

/-- Half-finished managers: everything is in disarray until an operation is done. -/
def disarray : Mids F64 := fun {_} _ m => [{ m with centroids := [] }, { m with vec := [] }]
/-- Requests that access their namespace once. -/
def single : List (Request F64) := [.add 1 7 (dp 3 4), .drainUnordered 1 7 1, .lenDP 1 7, .expire 1 7]
/-- The answer of a goroutine that is done. -/
def fineAnswer : Fine F64 (Answer F64) → Option (Answer F64)
  | .ret a => some a
  | _ => none
/-- The answers so far, and what nodes 1 and 2 hold in namespace 7. -/
def obsM (M : Mach F64 (Answer F64)) : List (Option (Answer F64)) × List (DataPoint F64) × List (DataPoint F64) :=
  (M.ts.map fineAnswer, at12 M.w)
/-- Everybody in turn. -/
def roundRobin (n : Nat) (k : Nat) : Nat := k % n

theorem roundRobin_fair {n : Nat} : Fair n (roundRobin n) := by
  intro i hi k
  refine ⟨n * k + i, ?_, ?_⟩
  · have : 1 * k ≤ n * k := Nat.mul_le_mul_right k (by omega)
    omega
  · simp only [roundRobin, Nat.mul_add_mod, Nat.mod_eq_of_lt hi]

/-- Two goroutines that take the same two locks in different orders. -/
def crossed : List (Fine F64 Unit) :=
  [.lock (.table 1) (.lock (.slot 0) (.unlock (.slot 0) (.unlock (.table 1) (.ret ())))),
   .lock (.slot 0) (.lock (.table 1) (.unlock (.table 1) (.unlock (.slot 0) (.ret ()))))]

/-- A witness computed by running the machine with mutexes. -/
theorem exists_of_mach {F α β : Type} [DecidableEq β] {sched : List Nat} {M : Mach F α} {f : Mach F α → β} {b : β}
    (h : (M.run sched).map f = .ok b) : ∃ M', M.run sched = .ok M' ∧ f M' = b := by
  cases hm : M.run sched with
  | error e => rw [hm] at h; cases h
  | ok r => rw [hm] at h; exact ⟨r, rfl, by simpa [Except.map] using h⟩

end ServerExample

/-- C41: four requests interleaved step by step, with half-finished managers in the slot. The last to take the lock is
the insertion. -/
example : ∃ M, (Mach.init (single.map (fun r => ofProg disarray (r.serve env fac))) two 0).run
      ((List.replicate 40 [3, 2, 1, 0]).flatten) = .ok M ∧
    obsM M = ([some (.bool true), some (.dps [dp 1 0]), some (.num 2), some .done], [dp 2 0, dp 3 4], [dp 0 1]) :=
  exists_of_mach (by decide +kernel)

/-- C41: the hypotheses of linearizability are met by these requests. -/
example (sched : List Nat) (p : Nat) {M : Mach F64 (Answer F64)} {answers : List (Answer F64)}
    (hM : (Mach.init (single.map (fun r => ofProg disarray (r.serve env fac))) two p).run sched = .ok M)
    (hd : M.ts = answers.map .ret) :
    ∃ order : List Nat, order.Perm (List.range 4) ∧
      (Prog.each (fun r => r.serve env fac) (order.filterMap (fun i => single[i]?))).run two p =
        .ok ((order.filterMap (fun i => answers[i]?), M.w), M.p) :=
  C41_small_steps_partial disarray (by simp [single, Request.oneAccess])
    (by simp [single, Request.node, Request.ns, two, nodes2, World.lookup]) sched p hM hd

/-- C41: the order of second steps. -/
example : seconds 3 (fun _ => 0) [2, 0, 1, 2, 2, 5, 5, 1, 0, 0] = [2, 1, 0] := by decide

/-- C43: the machine does deadlock on programs that wait while holding a lock; these are not `OneAtATime`. -/
example : (∃ M, (Mach.init crossed start 0).run [0, 1] = .ok M ∧ Deadlocked M) ∧ ¬ ∀ f ∈ crossed, OneAtATime none f := by
  refine ⟨⟨_, rfl, ?_, ?_⟩, ?_⟩
  · exact ⟨_, List.mem_cons_self .., fun h => h⟩
  · intro f hf
    rcases List.mem_cons.1 hf with rfl | hf
    · exact .inr ⟨_, _, rfl, rfl⟩
    · rcases List.mem_cons.1 hf with rfl | hf
      · exact .inr ⟨_, _, rfl, rfl⟩
      · cases hf
  · intro h
    have := (h _ (List.mem_cons_self ..)).2.1
    cases this

/-- C43: six requests of all kinds, in turn, are all answered. -/
example (p : Nat) : ∃ n M, (Mach.init (mixed.map (fun r => ofProg disarray (r.serve env fac))) two p).run
      ((List.range n).map (roundRobin 6)) = .ok M ∧
    (∃ answers : List (Answer F64), M.ts = answers.map .ret) ∧ WorldOK (fun _ => 2) M.w :=
  C43_served disarray env_ok fac_ok two_ok (by simp [mixed, Request.valid, dp]) p roundRobin_fair

end Trypo
