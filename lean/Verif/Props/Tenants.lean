import Verif.Proofs.Tenants
import Verif.Props.Jobs

/-!
# C144: other namespaces play no part
-/

set_option linter.unusedSectionVars false

namespace Trypo
open GoFloat Spec EventLoop

variable {F : Type} [GoFloat F]

namespace Tenant

theorem lab_of {D : NS → Nat} {w : World F} (hw : WorldOK D w) : Lab w := fun a ns i h => hw.points a ns i (mem_of_lookup h)

theorem wr_of {D D' : NS → Nat} {w v : World F} (hw : WorldOK D w) (hv : WorldOK D' v) {ns : NS} (hs : ∀ a, v.get a ns = w.get a ns) :
    WR ns (fun i j => ∃ a, w.lookup a ns = some i ∧ v.lookup a ns = some j) w v := by
  have key : ∀ a i j, w.lookup a ns = some i → v.lookup a ns = some j → ∃ m, w.heap[i]? = some (ns, m) ∧ v.heap[j]? = some (ns, m) := by
    intro a i j h1 h2
    obtain ⟨m, h3⟩ := lab_of hw a ns i h1
    obtain ⟨m', h4⟩ := lab_of hv a ns j h2
    have := hs a
    simp only [World.get, h1, h2, h3, h4, Option.bind_some, Option.map_some, Option.some.injEq] at this
    exact ⟨m, h3, this ▸ h4⟩
  refine ⟨fun a => ?_, ?_, ?_, ?_⟩
  · cases h1 : w.lookup a ns with
    | none =>
      cases h2 : v.lookup a ns with
      | none => exact .inl ⟨rfl, rfl⟩
      | some j =>
        obtain ⟨m', h4⟩ := lab_of hv a ns j h2
        have := hs a
        simp [World.get, h1, h2, h4] at this
    | some i =>
      obtain ⟨m, h3⟩ := lab_of hw a ns i h1
      cases h2 : v.lookup a ns with
      | none =>
        have := hs a
        simp [World.get, h1, h2, h3] at this
      | some j => exact .inr ⟨i, j, rfl, rfl, a, h1, h2⟩
  · rintro i j ⟨a, h1, h2⟩
    exact key a i j h1 h2
  · rintro i j j' ⟨a, h1, h2⟩ ⟨b, h3, h4⟩
    have := hw.apart a b ns i (mem_of_lookup h1) (mem_of_lookup h3)
    subst this
    rw [h2] at h4
    exact Option.some.inj h4
  · rintro i i' j ⟨a, h1, h2⟩ ⟨b, h3, h4⟩
    have := hv.apart a b ns j (mem_of_lookup h2) (mem_of_lookup h4)
    subst this
    rw [h1] at h3
    exact Option.some.inj h3

theorem pool_length {α : Type} : ∀ (is : List Nat) (ts : List (Prog F α)) (w : World F) (p : Nat) {ts' w' p'},
    Pool.run is ts w p = .ok (ts', w', p') → ts'.length = ts.length
  | [], ts, w, p, ts', w', p', h => by cases h; rfl
  | i :: is, ts, w, p, ts', w', p', h => by
    unfold Pool.run at h
    split at h
    · split at h
      · have := pool_length is _ _ _ h
        simpa using this
      · cases h
    · exact pool_length is _ _ _ h

end Tenant
open Tenant

/-- C144: RPC requests, goroutines of the event loop and HTTP requests, about any namespaces, run concurrently. Whatever the other namespaces hold and
whatever the jobs about them do, for the jobs about `ns` it is as if the other jobs turned to no node at all and the other namespaces held anything
else (`v`): with the same schedule, the same jobs about `ns` have ended, with the same answers, and `ns` is the same on all nodes. All that is left of
the other jobs is that time passes. -/
theorem C144_tenants {D D' : NS → Nat} {w v : World F} (hw : WorldOK D w) (hv : WorldOK D' v) (env : Env) (fac : Factory F) {ns : NS}
    (hs : ∀ a, v.get a ns = w.get a ns) {jobs : List (Job F)} (hc : ∀ j ∈ jobs, forClients j = true) {sched : List Nat} {p : Nat}
    {ts : List (Prog F (Outcome F))} {w' : World F} {p' : Nat} (h : Pool.run sched (jobs.map fun j => j.prog env fac) w p = .ok (ts, w', p')) :
    ∃ ks us v', Pool.run sched (onlyAbout env fac ns ks jobs) v p = .ok (us, v', p') ∧ (∀ a, v'.get a ns = w'.get a ns) ∧
      ∀ (i : Nat) j, jobs[i]? = some j → subject j = some ns → ∀ o, us[i]? = some (.ret o) ↔ ts[i]? = some (.ret o) := by
  have hsub : ∀ j ∈ jobs, ∀ x, Own x (j.prog env fac) ∨ ∃ y, subject j = some y ∧ Own y (j.prog env fac) := by
    intro j hj x
    cases hx : subject j with
    | none => exact .inl (Own.job env fac (hc j hj) fun y hy => by rw [hx] at hy; cases hy)
    | some y => exact .inr ⟨y, rfl, Own.job env fac (hc j hj) fun z hz => by rw [hx] at hz; cases hz; rfl⟩
  obtain ⟨ks, _, H⟩ := pool (ns := ns) (fun i => decide ((jobs[i]?).bind subject = some ns)) sched _ w p h (lab_of hw) fun i m hm hi => by
    rw [List.getElem?_map, Option.map_eq_some_iff] at hm
    obtain ⟨j, hj, rfl⟩ := hm
    simp only [hj, Option.bind_some, decide_eq_false_iff_not] at hi
    rcases hsub j (List.mem_of_getElem? hj) (ns + 1) with h | ⟨y, hy, h⟩
    · exact Away.own (ns + 1) (Nat.succ_ne_self ns) _ h
    · exact Away.own y (fun e => hi (hy.trans (congrArg some e))) _ h
  obtain ⟨us, v', R, h1, h2, h3, h4⟩ := H (onlyAbout env fac ns ks jobs) v _ (by simp [onlyAbout]) (wr_of hw hv hs)
    (fun i m u hm hu hi => by
      rw [List.getElem?_map, Option.map_eq_some_iff] at hm
      obtain ⟨j, hj, rfl⟩ := hm
      simp only [hj, Option.bind_some, decide_eq_true_eq] at hi
      rw [onlyAbout, List.getElem?_mapIdx, hj, Option.map_some, if_pos hi] at hu
      cases hu
      exact .same _ (Own.job env fac (hc j (List.mem_of_getElem? hj)) fun y hy => by rw [hi] at hy; cases hy; rfl))
    fun i u hu hi => by
      rw [onlyAbout, List.getElem?_mapIdx, Option.map_eq_some_iff] at hu
      obtain ⟨j, hj, rfl⟩ := hu
      simp only [hj, Option.bind_some, decide_eq_false_iff_not] at hi
      rw [if_neg hi]
  refine ⟨ks, us, v', h1, h3.get, fun i j hj hi o => ?_⟩
  have hlen : ts.length = jobs.length := by
    have := pool_length sched _ _ _ h
    simpa using this
  have hij := (List.getElem?_eq_some_iff.1 hj).1
  have e1 : ts[i]? = some ts[i] := List.getElem?_eq_getElem (by omega)
  have e2 : us[i]? = some us[i] := List.getElem?_eq_getElem (by omega)
  have S := h4 i _ _ e1 e2 (by simp [hj, hi])
  rw [e1, e2]
  generalize ts[i] = t at S
  generalize us[i] = u at S
  cases S with
  | same m h => rfl
  | mid => constructor <;> intro x <;> cases x

/-- C144 for a single job: the answer, whether there is a panic, which external inputs are used, and what becomes of `ns`
does not depend on the other namespaces. -/
theorem C144_alone {D D' : NS → Nat} {w v : World F} (hw : WorldOK D w) (hv : WorldOK D' v) (env : Env) (fac : Factory F) {ns : NS}
    (hs : ∀ a, v.get a ns = w.get a ns) {j : Job F} (hc : forClients j = true) (hj : subject j = some ns) (p : Nat) :
    Agree (fun x y => y.1.1 = x.1.1 ∧ y.2 = x.2 ∧ ∀ a, y.1.2.get a ns = x.1.2.get a ns) ((j.prog env fac).run w p) ((j.prog env fac).run v p) := by
  have h := alone (Own.job env fac hc fun y hy => by rw [hj] at hy; cases hy; rfl) p (wr_of hw hv hs)
  revert h
  generalize (j.prog env fac).run w p = x
  generalize (j.prog env fac).run v p = y
  intro h
  cases h with
  | error e => exact .error e
  | ok h => exact .ok ⟨h.1, h.2.1, h.2.2.choose_spec.get⟩

namespace TenantsExample
open ServerExample JobsExample

/-- As `two`, with something else in namespace 8. -/
def other : World F64 := nodes2 (man [.ofInt 1, .ofInt 0] [cen [.ofInt 1, .ofInt 0] [dp 1 0, dp 2 0]])
  (man [.ofInt 0, .ofInt 1] [cen [.ofInt 0, .ofInt 1] [dp 0 1]]) (man [.ofInt 5] [])

theorem other_ok : WorldOK (fun ns => if ns = 8 then 1 else 2) other :=
  nodes2_ok (man_mok rfl (by simp [cen, dp]) (by simp [cen])) (man_mok rfl (by simp [cen, dp]) (by simp [cen])) (man_mok rfl (by simp) (by simp))

theorem nodes2_get {F : Type} (m1 m2 m3 m3' : Manager F) (a : Addr) : (nodes2 m1 m2 m3').get a 7 = (nodes2 m1 m2 m3).get a 7 := by
  simp only [nodes2, World.get, World.lookup]
  split
  · rfl
  · split <;> rfl

theorem other_get (a : Addr) : other.get a 7 = two.get a 7 := nodes2_get _ _ _ _ a

/-- A put, a query and a `StealCentroid` about namespace 7, and requests about namespace 8. -/
def jobs : List (Job F64) := [.put [1, 2] (some ⟨7, true, ⟨[.ofInt 3, .ofInt 4], [], 0, false⟩⟩), .rpc (.drainUnordered 1 8 5),
  .query [1, 2] (some ⟨7, false, [.ofInt 1, .ofInt 1], 2, true⟩), .put [2, 1] (some ⟨8, false, ⟨[.ofInt 1, .ofInt 4], [], 0, false⟩⟩),
  .rpc (.stealCentroid 2 7 1 5 10)]

/-- The status of a put; the status of a query and the number of vectors that were found; whether `StealCentroid` was answered. -/
def said : Option (Prog F64 (Outcome F64)) → Option (Nat × Nat)
  | some (.ret (.status n)) => some (n, 0)
  | some (.ret (.found n l)) => some (n, l.length)
  | some (.ret (.answer _)) => some (0, 0)
  | _ => none

/-- What was said to the put, the query and `StealCentroid`, and how much nodes 1 and 2 hold in namespace 7. -/
def answers (r : Except Panic (List (Prog F64 (Outcome F64)) × World F64 × Nat)) : Option (List (Option (Nat × Nat)) × Nat × Nat) :=
  match r with
  | .ok (ts, w, _) => some ([0, 2, 4].map fun i => said ts[i]?, (at12 w).1.length, (at12 w).2.length)
  | .error _ => none

end TenantsExample
open TenantsExample ServerExample JobsExample

/-- C144: the hypotheses are met by these jobs. -/
example {sched : List Nat} {p : Nat} {ts w' p'} (h : Pool.run sched (jobs.map fun j => j.prog env fac) two p = .ok (ts, w', p')) :
    ∃ ks us v', Pool.run sched (onlyAbout env fac 7 ks jobs) other p = .ok (us, v', p') ∧ (∀ a, v'.get a 7 = w'.get a 7) ∧
      ∀ (i : Nat) j, jobs[i]? = some j → subject j = some 7 → ∀ o, us[i]? = some (.ret o) ↔ ts[i]? = some (.ret o) :=
  C144_tenants two_ok other_ok env fac other_get (by decide) h

/-- C144, in numbers: the five jobs, and the three about namespace 7 with idle goroutines, on nodes with other data in namespace 8. -/
example : answers (Pool.run ((List.replicate 60 [0, 1, 2, 3, 4]).flatten) (jobs.map fun j => j.prog env fac) two 0) =
      some ([some (200, 0), some (200, 2), some (0, 0)], 0, 2) ∧
    answers (Pool.run ((List.replicate 60 [0, 1, 2, 3, 4]).flatten) (onlyAbout env fac 7 (fun _ => []) jobs) other 0) =
      some ([some (200, 0), some (200, 2), some (0, 0)], 0, 2) := ⟨by decide +kernel, by decide +kernel⟩

/-- C144: a query about namespace 7, whatever is in namespace 8. -/
example (p : Nat) (o : Api.QueryOpts F64) (ho : o.ns = 7) :
    Agree (fun x y => y.1.1 = x.1.1 ∧ y.2 = x.2 ∧ ∀ a, y.1.2.get a 7 = x.1.2.get a 7) (((Job.query [1, 2] (some o)).prog env fac).run two p)
      (((Job.query [1, 2] (some o)).prog env fac).run other p) :=
  C144_alone two_ok other_ok env fac other_get rfl (by simp [subject, ho]) p

end Trypo
