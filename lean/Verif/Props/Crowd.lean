import Verif.Props.Upkeep
import Verif.Props.Tenants

/-!
# C148: sessions on many namespaces, in float64
-/

namespace Trypo
open GoFloat Spec EventLoop

namespace Spec
variable {F : Type} [GoFloat F]

/-- What happens in one namespace. -/
def happensIn (ns : NS) (hs : List (NS × Happening F)) : List (Happening F) := (hs.filter (fun c => c.1 = ns)).map (·.2)

/-- What comes back for one namespace. -/
def backIn {ρ : Type} (ns : NS) (hs : List (NS × Happening F)) (rs : List ρ) : List ρ := ((hs.zip rs).filter (fun c => c.1.1 = ns)).map (·.2)

end Spec

namespace Tenant
variable {F : Type} {ns : NS} {α : Type}

/-- A program about one namespace leaves the others alone. -/
theorem away_run : ∀ (m : Prog F α) {w : World F} {p : Nat} {r : α × World F} {p' : Nat}, Away ns w m → Lab w → m.run w p = .ok (r, p') →
    ∀ R (v : World F), WR ns R w v → WR ns R r.2 v
  | .ret a, w, p, r, p', _, _, e, R, v, W => by cases e; exact W
  | .act a k, w, p, r, p', h, L, e, R, v, W => by
    rw [Prog.run_act] at e
    cases hr : a.run w p with
    | error x => rw [hr] at e; cases e
    | ok q =>
      rw [hr] at e
      obtain ⟨h1, h2⟩ := stepB h L hr
      exact away_run (k q.1.1) h1 (act_grows L hr).1 e R v (h2 R v W)

theorem own_others {D : NS → Nat} [GoFloat F] {m : Prog F α} {y : NS} (h : Own y m) (hne : y ≠ ns) {w : World F} (hw : WorldOK D w) {p p' : Nat} {r : α × World F}
    (e : m.run w p = .ok (r, p')) (a : Addr) : r.2.get a ns = w.get a ns :=
  ((away_run m (.own y hne m h) (lab_of hw) e _ w (wr_of hw hw fun _ => rfl)).get a).symm

end Tenant

section
variable {F : Type} [GoFloat F] {env : Env} {fac : Factory F} {addrs : List Addr} {ns : NS}
open Tenant

theorem Tenant.Own.happening (c : Happening F) (hc : ∀ x, c ≠ .upkeep x) : Own ns (c.prog env fac addrs ns) := by
  cases c with
  | upkeep x => exact absurd rfl (hc x)
  | user c =>
    refine .bind ?_ fun _ => .ret _
    cases c with
    | put acc dp => exact .bind (Own.put env fac addrs ⟨ns, acc, dp⟩) fun _ => .ret _
    | query acc v n dr => exact Own.query env addrs ⟨ns, acc, v, n, dr⟩
  | direct a d => exact .bind (Own.clientAdd env fac a d) fun _ => .ret _
  | spread acc a dst n =>
    refine .bind ?_ fun _ => .ret _
    cases acc with
    | true => exact .unit env a (Own.distributeAccurate env fac a n dst)
    | false => exact .unit env a (Own.distributeFast env fac a n dst)
  | steal fuel a src limit =>
    refine .bind (.bind (.call env a (.bind (Own.stealCentroid env fac fuel a src limit) fun _ => .ret _)) fun r => ?_) fun _ => .ret _
    cases r <;> exact .ret _
  | drain o a n =>
    refine .bind ?_ fun _ => .ret _
    cases o <;> exact .bind (.call env a (.access a _)) fun _ => .ret _
  | lookup o a v k => exact .bind (Own.clientLookup env a v k o) fun _ => .ret _
  | fetch a v => exact .bind (Own.clientNearest env a v 1 true) fun _ => .ret _

end

section
variable {env : Env} {D : NS → Nat} {lo hi : ℝ} {N : Nat}

namespace Keep

theorem run_each_one {α β : Type} {f : α → Prog F64 β} {c : α} {w : World F64} {p : Nat} {rs : List β} {w' : World F64} {p' : Nat}
    (h : (Prog.each f [c]).run w p = .ok ((rs, w'), p')) : ∃ r, rs = [r] ∧ (f c).run w p = .ok ((r, w'), p') := by
  unfold Prog.each at h
  cases hr : (f c).run w p with
  | error e =>
    rw [run_bind] at h
    simp only [bind, StateT.bind, hr, Except.bind] at h
    cases h
  | ok q =>
    obtain ⟨⟨r, w1⟩, p1⟩ := q
    rw [run_bind_ok hr] at h
    cases h
    exact ⟨r, rfl, rfl⟩

theorem usersOf_cons (c : Happening F64) (hs : List (Happening F64)) : usersOf (c :: hs) = usersOf [c] ++ usersOf hs := by
  cases c <;> rfl

theorem sentTo_cons (c : Happening F64) (hs : List (Happening F64)) : sentTo (c :: hs) = sentTo [c] ++ sentTo hs := by
  cases c <;> rfl

theorem givenIn_append : ∀ as bs : List (UserCall F64), givenIn (as ++ bs) = givenIn as ++ givenIn bs
  | [], bs => rfl
  | a :: as, bs => by
    rw [List.cons_append, givenIn_cons a (as ++ bs), givenIn_cons a as, givenIn_append as bs, List.append_assoc]

theorem takenOut_append : ∀ (as bs : List (UserCall F64)) (rs ss : List (Nat × List (Api.DP F64))), rs.length = as.length →
    takenOut (as ++ bs) (rs ++ ss) = takenOut as rs ++ takenOut bs ss
  | [], bs, [], ss, _ => by simp [takenOut]
  | a :: as, bs, r :: rs, ss, h => by
    rw [List.cons_append, List.cons_append, takenOut_cons a r (as ++ bs), takenOut_cons a r as, takenOut_append as bs rs ss (by simpa using h), List.append_assoc]

/-- One thing that happens, seen from all namespaces. -/
theorem happening_kept (he : EnvOK env) (hlost : NoLostReplies env) {fac : Factory F64} (hf : FactoryOK fac)
    {addrs : List Addr} (hne : addrs ≠ []) (hnd : addrs.Nodup) (hr : ∀ a ∈ addrs, Reachable env a) (hlh : Range lo hi)
    (hN : 16 * (N : ℝ) * (N + 2) * hi ≤ 2 ^ 53 * lo) {ns : NS} (h0 : D ns ≠ 0) (hD : D ns ≤ 2 ^ 20) (c : Happening F64) (hc : c.fair addrs lo hi (D ns))
    {w : World F64} {p : Nat} (hs : ∀ x, State D lo hi N addrs x p w) :
    ∃ r w' p', (c.prog env fac addrs ns).run w p = .ok ((r, w'), p') ∧ p ≤ p' ∧ (∀ x, State D lo hi N addrs x p' w') ∧
      r.1.toList.length = (usersOf [c]).length ∧ (∀ x ∈ r.1.toList, x.1 = 200) ∧
      (p' ≤ N → ∀ x, (storedAt w' addrs x ++ (if ns = x then takenOut (usersOf [c]) r.1.toList ++ r.2 else [])).Perm
        (storedAt w addrs x ++ (if ns = x then givenIn (usersOf [c]) ++ sentTo [c] else []))) := by
  have S := hs ns
  obtain ⟨rs, w', p', e0, e2, e3, e4, e5, e6, e7, e8⟩ := happenings_kept he hlost hf hne hnd hr hlh hN h0 hD [c] (by simpa using hc) S.ok S.good S.live
  obtain ⟨r, rfl, e1⟩ := run_each_one e0
  have hfm : [r].filterMap (·.1) = r.1.toList := by cases h : r.1 <;> simp [h]
  rw [hfm] at e6 e7 e8
  have hown : (p' ≤ N → (storedAt w' addrs ns ++ (takenOut (usersOf [c]) r.1.toList ++ r.2)).Perm
      (storedAt w addrs ns ++ (givenIn (usersOf [c]) ++ sentTo [c]))) := fun hp => by
    have := e8 hp
    simpa using this
  by_cases hu : ∃ x, c = .upkeep x
  · obtain ⟨x, rfl⟩ := hu
    have hx : ∀ a ns, x ≠ .memTrim a ns := by
      rintro a ns rfl
      exact hc
    have hall : ∀ y, State D lo hi N addrs y p' w' ∧ (storedAt w' addrs y).Perm (storedAt w addrs y) := fun y => by
      obtain ⟨w1, p1, i1, i2, i3, i4, i5⟩ := upkeep_kept he hlh hN x hx (hs y).ok (hs y).good (hs y).live
      have i6 : ((Happening.upkeep x).prog env fac addrs ns).run w p = .ok (((none, []), w1), p1) := by
        refine (run_bind_ok i1).trans ?_
        rw [run_pure]; rfl
      rw [i6] at e1
      cases e1
      exact ⟨⟨i3, i4, fun d hd => (hs y).live d (i5.subset hd)⟩, i5⟩
    refine ⟨r, w', p', e1, e2, fun y => (hall y).1, e6, e7, fun hp y => ?_⟩
    by_cases hy : ns = y
    · subst hy
      simpa using hown hp
    · simpa [hy] using (hall y).2
  · have hget : ∀ y, ns ≠ y → ∀ a, w'.get a y = w.get a y := fun y hy a =>
      Tenant.own_others (Tenant.Own.happening c fun x hx => hu ⟨x, hx⟩) hy S.ok e1 a
    have hst : ∀ y, ns ≠ y → storedAt w' addrs y = storedAt w addrs y := fun y hy => storedAt_congr fun a _ => hget y hy a
    refine ⟨r, w', p', e1, e2, fun y => ?_, e6, e7, fun hp y => ?_⟩
    · by_cases hy : ns = y
      · subst hy
        exact ⟨e3, e4, e5⟩
      · have h1 := (hs y).mono hlh hN e2
        refine ⟨e3, fun a m hm => h1.good a m (by rw [← hget y hy a]; exact hm), ?_⟩
        rw [hst y hy]
        exact h1.live
    · by_cases hy : ns = y
      · subst hy
        simpa using hown hp
      · simp [hy, hst y hy]

/-- All that happens, in all namespaces. -/
theorem crowd_kept (he : EnvOK env) (hlost : NoLostReplies env) {fac : Factory F64} (hf : FactoryOK fac)
    {addrs : List Addr} (hne : addrs ≠ []) (hnd : addrs.Nodup) (hr : ∀ a ∈ addrs, Reachable env a) (hlh : Range lo hi)
    (hN : 16 * (N : ℝ) * (N + 2) * hi ≤ 2 ^ 53 * lo) :
    ∀ (hs : List (NS × Happening F64)) {w : World F64} {p : Nat}, (∀ c ∈ hs, D c.1 ≠ 0 ∧ D c.1 ≤ 2 ^ 20 ∧ c.2.fair addrs lo hi (D c.1)) →
      (∀ x, State D lo hi N addrs x p w) →
      ∃ rs w' p', (Prog.each (fun c => c.2.prog env fac addrs c.1) hs).run w p = .ok ((rs, w'), p') ∧ p ≤ p' ∧ (∀ x, State D lo hi N addrs x p' w') ∧
        rs.length = hs.length ∧ (∀ r ∈ rs.filterMap (·.1), r.1 = 200) ∧
        ∀ x, ((backIn x hs rs).filterMap (·.1)).length = (usersOf (happensIn x hs)).length ∧
          (p' ≤ N → (storedAt w' addrs x ++ takenOut (usersOf (happensIn x hs)) ((backIn x hs rs).filterMap (·.1)) ++ (backIn x hs rs).flatMap (·.2)).Perm
            (storedAt w addrs x ++ givenIn (usersOf (happensIn x hs)) ++ sentTo (happensIn x hs)))
  | [], w, p, _, hs => ⟨[], w, p, by unfold Prog.each; rw [run_pure]; rfl, Nat.le_refl _, hs, rfl, by simp, fun x => ⟨rfl, fun _ => by
      simp [backIn, happensIn, usersOf, takenOut, givenIn, sentTo]⟩⟩
  | (ns, c) :: hs, w, p, hc, hst => by
    obtain ⟨c1, c2, c3⟩ := hc _ (List.mem_cons_self ..)
    obtain ⟨r, w1, p1, e1, e2, e3, e4, e5, e6⟩ := happening_kept he hlost hf hne hnd hr hlh hN c1 c2 c c3 hst
    obtain ⟨rs, w2, p2, i1, i2, i3, i4, i5, i6⟩ := crowd_kept he hlost hf hne hnd hr hlh hN hs (fun c h => hc c (by simp [h])) e3
    refine ⟨r :: rs, w2, p2, ?_, e2.trans i2, i3, by simp [i4], ?_, fun x => ?_⟩
    · unfold Prog.each
      refine (run_bind_ok e1).trans ((run_bind_ok i1).trans ?_)
      rw [run_pure]; rfl
    · have a : (r :: rs).filterMap (·.1) = r.1.toList ++ rs.filterMap (·.1) := by cases h : r.1 <;> simp [h]
      intro y hy
      rw [a] at hy
      rcases List.mem_append.1 hy with hy | hy
      · exact e5 y hy
      · exact i5 y hy
    · obtain ⟨j1, j2⟩ := i6 x
      by_cases hx : ns = x
      · subst hx
        have a : backIn ns ((ns, c) :: hs) (r :: rs) = r :: backIn ns hs rs := by simp [backIn]
        have b : happensIn ns ((ns, c) :: hs) = c :: happensIn ns hs := by simp [happensIn]
        have f : (r :: backIn ns hs rs).filterMap (·.1) = r.1.toList ++ (backIn ns hs rs).filterMap (·.1) := by cases h : r.1 <;> simp [h]
        have g : (r :: backIn ns hs rs).flatMap (·.2) = r.2 ++ (backIn ns hs rs).flatMap (·.2) := rfl
        rw [a, b, f, g, usersOf_cons, sentTo_cons]
        refine ⟨by rw [List.length_append, List.length_append, j1, e4], fun hp => ?_⟩
        rw [takenOut_append _ _ _ _ e4, givenIn_append]
        have k1 := j2 hp
        have k2 := e6 (i2.trans hp) ns
        simp only [if_true] at k2
        permc [k1, k2]
      · have a : backIn x ((ns, c) :: hs) (r :: rs) = backIn x hs rs := by simp [backIn, hx]
        have b : happensIn x ((ns, c) :: hs) = happensIn x hs := by simp [happensIn, hx]
        rw [a, b]
        refine ⟨j1, fun hp => ?_⟩
        have k1 := j2 hp
        have k2 := e6 (i2.trans hp) x
        simp only [hx, if_false, List.append_nil] at k2
        permc [k1, k2]

end Keep

/-- C148, for all namespaces at once: in a service that holds nothing yet, users and clients work on as many namespaces as they like, each with
vectors of its own dimension, and nodes run their maintenance, in any order. All answers have the status 200, and in each namespace nothing is lost and nothing
appears twice, and an accurate query that asks for enough finds all that is stored in it. -/
theorem C148_namespaces (he : EnvOK env) (hlost : NoLostReplies env) {fac : Factory F64} (hf : FactoryOK fac) {w : World F64} (hw : WorldOK D w)
    {addrs : List Addr} (hne : addrs ≠ []) (hnd : addrs.Nodup) (hr : ∀ a ∈ addrs, Reachable env a) (hlh : Range lo hi)
    (hN : 16 * (N : ℝ) * (N + 2) * hi ≤ 2 ^ 53 * lo) (hnew : ∀ a ns, w.get a ns = none)
    (hs : List (NS × Happening F64)) (hc : ∀ c ∈ hs, D c.1 ≠ 0 ∧ D c.1 ≤ 2 ^ 20 ∧ c.2.fair addrs lo hi (D c.1)) (p : Nat) :
    ∃ rs w' p', (Prog.each (fun c => c.2.prog env fac addrs c.1) hs).run w p = .ok ((rs, w'), p') ∧
      rs.length = hs.length ∧ (∀ r ∈ rs.filterMap (·.1), r.1 = 200) ∧
      ∀ ns, ((backIn ns hs rs).filterMap (·.1)).length = (usersOf (happensIn ns hs)).length ∧
        (p' ≤ N → (storedAt w' addrs ns ++ takenOut (usersOf (happensIn ns hs)) ((backIn ns hs rs).filterMap (·.1)) ++ (backIn ns hs rs).flatMap (·.2)).Perm
            (givenIn (usersOf (happensIn ns hs)) ++ sentTo (happensIn ns hs)) ∧
          (D ns ≠ 0 → D ns ≤ 2 ^ 20 → ∃ K, ∀ o : Api.QueryOpts F64, o.ns = ns → o.accurate = true → Ranged lo hi o.vec → o.vec.length = D ns → K ≤ o.n →
            ∃ (out : List (DataPoint F64)) (w'' : World F64) (p'' : Nat), (Api.queryDataPoint env addrs (some o)).run w' p' =
                .ok (((200, out.map (fun d => ⟨d.vec, d.payload, d.expires, d.expireEnabled⟩)), w''), p'') ∧
              out.Perm (storedAt w' addrs ns))) := by
  have hs' : ∀ ns, storedAt w addrs ns = [] := fun ns => by simp [storedAt, hnew]
  obtain ⟨rs, w', p', h1, h2, h3, h4, h5, h6⟩ := Keep.crowd_kept he hlost hf hne hnd hr hlh hN hs hc (w := w) (p := p)
    (fun x => ⟨hw, Keep.good_none (fun a => hnew a x), by rw [hs' x]; simp⟩)
  refine ⟨rs, w', p', h1, h4, h5, fun ns => ⟨(h6 ns).1, fun hp => ⟨by simpa [hs' ns] using (h6 ns).2 hp, fun h0 hD => ?_⟩⟩⟩
  obtain ⟨K, hK⟩ := enough_exists w' addrs ns
  refine ⟨K, fun o i1 i2 i3 i4 i5 => ?_⟩
  subst i1
  obtain ⟨out, w'', p'', j1, j2, _⟩ := Keep.find_kept he (h3 o.ns).ok hnd hr hlh o i2 h0 hD i3 i4 (h3 o.ns).live (hK o.n i5) hp (h3 o.ns).good
  exact ⟨out, w'', p'', j1, j2⟩

end

namespace KeepExample
open ServerExample PositiveExample

/-- A datapoint of three small natural numbers. -/
def tri (x y z : Nat) : DataPoint F64 := ⟨FloatExample.nats [x, y, z], [], 0, false⟩

/-- Namespace 7 has two dimensions and namespace 8 has three. -/
def market : List (NS × Happening F64) := [(7, .user (put true 1 2)), (8, .user (.put false ⟨FloatExample.nats [1, 2, 3], [], 0, false⟩)),
  (7, .direct 1 (pt 2 8)), (8, .direct 2 (tri 4 4 1)), (8, .upkeep (.splitCentroids 2 7 1 100)), (8, .spread false 2 [1] 1), (7, .drain true 1 1),
  (8, .user (.query true (FloatExample.nats [1, 1, 1]) 1 true)), (7, .user (.query true (FloatExample.nats [1, 1]) 5 false))]

/-- The number of dimensions. -/
def sizes : NS → Nat := fun ns => if ns = 8 then 3 else 2

theorem market_fair : ∀ c ∈ market, sizes c.1 ≠ 0 ∧ sizes c.1 ≤ 2 ^ 20 ∧ c.2.fair [1, 2] (1 : Nat) (9 : Nat) (sizes c.1) := by
  have h : ∀ ns, sizes ns ≠ 0 ∧ sizes ns ≤ 2 ^ 20 := fun ns => by
    unfold sizes
    split <;> norm_num
  intro c hc
  refine ⟨(h c.1).1, (h c.1).2, ?_⟩
  simp only [market, List.mem_cons, List.not_mem_nil, or_false] at hc
  rcases hc with rfl | rfl | rfl | rfl | rfl | rfl | rfl | rfl | rfl
  · exact ⟨ranged_nats (by simp) (by norm_num), by simp [FloatExample.nats, sizes], rfl⟩
  · exact ⟨ranged_nats (by simp) (by norm_num), by simp [FloatExample.nats, sizes], rfl⟩
  · exact ⟨by simp, ranged_nats (by simp) (by norm_num), by simp [pt, FloatExample.nats, sizes], rfl⟩
  · exact ⟨by simp, ranged_nats (by simp) (by norm_num), by simp [tri, FloatExample.nats, sizes], rfl⟩
  · trivial
  · exact ⟨by simp, by simp, by simp, by omega⟩
  · exact ⟨by simp, by omega⟩
  · show (0 : Int) ≤ 1
    omega
  · show (0 : Int) ≤ 5
    omega

/-- The answers, what was drained, and what nodes 1 and 2 store in both namespaces. -/
def obsM (r : List (Option (Nat × List (Api.DP F64)) × List (DataPoint F64)) × World F64) :
    (List (Nat × List (List F64)) × List (DataPoint F64)) × List (DataPoint F64) × List (DataPoint F64) :=
  (((r.1.filterMap (·.1)).map (fun x => (x.1, x.2.map (fun d => d.vec))), r.1.flatMap (·.2)), storedAt r.2 [1, 2] 7, storedAt r.2 [1, 2] 8)

end KeepExample
open KeepExample ServerExample PositiveExample

set_option synthInstance.maxSize 1000 in
/-- C148, two namespaces: what happens. -/
example : ∃ r p, (Prog.each (fun c => c.2.prog env fac [1, 2] c.1) market).run start 0 = .ok (r, p) ∧
    obsM r = (([(200, []), (200, []), (200, [FloatExample.nats [1, 2, 3]]), (200, [FloatExample.nats [1, 2]])], [pt 2 8]), [pt 1 2], [tri 4 4 1]) :=
  exists_of_run (f := obsM) (by decide +kernel)

/-- C148, two namespaces: the theorem. -/
example : ∃ rs w' p', (Prog.each (fun c => c.2.prog env fac [1, 2] c.1) market).run start 0 = .ok ((rs, w'), p') ∧
    rs.length = 9 ∧ (∀ r ∈ rs.filterMap (·.1), r.1 = 200) ∧
    (p' ≤ 1000000 → (storedAt w' [1, 2] 8 ++ takenOut (usersOf (happensIn 8 market)) ((backIn 8 market rs).filterMap (·.1)) ++
      (backIn 8 market rs).flatMap (·.2)).Perm [tri 1 2 3, tri 4 4 1]) := by
  obtain ⟨rs, w', p', h1, h2, h3, h4⟩ := C148_namespaces (D := sizes) (N := 1000000) env_ok (fun _ _ => rfl) (fac := fac) ⟨by decide, rfl, rfl⟩ (w := start)
    ⟨by simp [start], by simp [start], by simp [start], by simp [start]⟩
    (addrs := [1, 2]) (by simp) (by simp) (fun a _ => ⟨fun _ => rfl, fun _ => rfl⟩) (range_nat (a := 1) (b := 9) (by omega) (by omega) (by norm_num)) (by norm_num)
    (fun a ns => rfl) market market_fair 0
  exact ⟨rs, w', p', h1, h2, h3, fun hp => ((h4 8).2 hp).1⟩

end Trypo
