import Verif.Props.Keep
import Verif.Proofs.Loot

/-!
# C148: sessions next to the maintenance of nodes, in float64
-/

namespace Trypo
open GoFloat Spec EventLoop

namespace Spec
variable {F : Type} [GoFloat F]

/-- What happens to a service: users ask for something, one of the calls runs that event loops start, a client
sends a datapoint to a node of its choice, a node is told to distribute some of the
datapoints it holds in the namespace between nodes, or to steal centroids of the namespace from another node, or a client drains a node
or looks for datapoints at a node, which drains it if asked to, or takes the nearest centroid of a node; the fuel is that of `Server.stealLoop`. -/
inductive Happening (F : Type) where
  | user (c : UserCall F)
  | upkeep (x : Call)
  | direct (a : Addr) (d : DataPoint F)
  | spread (accurate : Bool) (a : Addr) (dst : List Addr) (n : Int)
  | steal (fuel : Nat) (a src : Addr) (limit : Int)
  | drain (ordered : Bool) (a : Addr) (n : Int)
  | lookup (out : Bool) (a : Addr) (v : List F) (k : Int)
  | fetch (a : Addr) (v : List F)

/-- Answers go to users, and what is drained goes to clients. -/
def Happening.prog (env : Env) (fac : Factory F) (addrs : List Addr) (ns : NS) : Happening F → Prog F (Option (Nat × List (Api.DP F)) × List (DataPoint F))
  | .user c => do
    let r ← c.prog env fac addrs ns
    pure (some r, [])
  | .upkeep x => do
    x.prog env
    pure (none, [])
  | .direct a d => do
    let _ ← Client.addDataPoint env fac a ns d
    pure (none, [])
  | .spread accurate a dst n => do
    (if accurate then Client.distributeAccurate env fac a ns dst n else Client.distributeFast env fac a ns dst n : Prog F Unit)
    pure (none, [])
  | .steal fuel a src limit => do
    let _ ← Client.stealCentroids env fac fuel a ns src limit
    pure (none, [])
  | .drain ordered a n => do
    let l ← (if ordered then Client.drainOrdered env a ns n else Client.drainUnordered env a ns n : Prog F (List (DataPoint F)))
    pure (none, l)
  | .lookup out a v k => do
    let l ← Client.knnLookup env a ns v k out
    pure (none, if out then l else [])
  | .fetch a v => do
    let r ← Client.nearestCentroids env a ns v 1 true
    pure (none, (r.2.getD []).flatMap (fun c => c.dps))

/-- What users ask for. -/
def usersOf (hs : List (Happening F)) : List (UserCall F) := hs.filterMap (fun
  | .user c => some c
  | _ => none)

/-- What was sent to nodes. -/
def sentTo (hs : List (Happening F)) : List (DataPoint F) := hs.filterMap (fun
  | .direct _ d => some d
  | _ => none)

/-- Users ask for what they may ask for, and clients send such datapoints; of the calls, `MemTrim` is not run; distribution is between nodes
of the service, to one at least; nodes of the service steal from other nodes of the service; clients drain nodes of the service and
look for datapoints at them or take centroids from them. -/
def Happening.fair (addrs : List Addr) (lo hi : ℝ) (n : Nat) : Happening F64 → Prop
  | .user c => c.fair lo hi n
  | .upkeep (.memTrim _ _) => False
  | .upkeep _ => True
  | .direct a d => a ∈ addrs ∧ Ranged lo hi d.vec ∧ d.vec.length = n ∧ d.expireEnabled = false
  | .spread _ a dst k => a ∈ addrs ∧ dst ≠ [] ∧ (∀ b ∈ dst, b ∈ addrs) ∧ 0 ≤ k
  | .steal _ a src _ => a ∈ addrs ∧ src ∈ addrs ∧ a ≠ src
  | .drain _ a k => a ∈ addrs ∧ 0 ≤ k
  | .lookup _ a _ k => a ∈ addrs ∧ 0 ≤ k
  | .fetch a _ => a ∈ addrs

end Spec

section
variable {F : Type} [GoFloat F] [LawfulCmp F] {G : DataPoint F → Prop} {P : Nat → Centroid F → Prop} {env : Env} {D : NS → Nat} {β : Type}

/-- What a call that rearranges one manager does to the service. -/
structure Life.Tended (env : Env) (D : NS → Nat) (P : Nat → Centroid F → Prop) (p : Nat) (w : World F) (q : Nat) (w' : World F) : Prop where
  le : p ≤ q
  ok : WorldOK D w'
  kept : ∀ ns, Life.Kept P ns p w → Life.Kept P ns q w'
  data : ∀ b ns, Conserved (env.tk q) (storedAt w [b] ns) (storedAt w' [b] ns) []

namespace Life

theorem wp_access_tended (L : Life knnCos kfnCos G P) {f : Manager F → Go (β × Manager F)}
    (h1 : ∀ m p, m.WF → Go.wp (f m) (fun r q => Manager.Eff env.tk p q m r.2 [] []) p)
    (h2 : ∀ m p, Keeps knnCos kfnCos P p m → Go.wlp (f m) (fun r q => p ≤ q ∧ Keeps knnCos kfnCos P q r.2) p)
    {w : World F} (hw : WorldOK D w) (a : Addr) (ns : NS) (p : Nat) :
    Go.wp ((Server.access a ns f).run w) (fun r q => Tended env D P p w q r.2) p := by
  cases hg : w.get a ns with
  | none =>
    rw [run_access_none ((get_eq_none_iff hw).1 hg), Go.wp_pure]
    exact ⟨Nat.le_refl _, hw, fun _ h => h, fun _ _ => .refl _ _⟩
  | some m =>
    obtain ⟨i, hl, hi⟩ := lookup_of_get hw hg
    have hok := hw.mok hi
    rw [run_access_some hl hi, Go.wp_bind]
    obtain ⟨r, q, e1, e2⟩ := Go.wp_iff.1 (h1 m p hok.wf)
    refine Go.wp_iff.2 ⟨r, q, e1, ?_⟩
    rw [Go.wp_pure]
    refine ⟨e2.le, hw.put hi (hok.of_eff e2 (by simp)).ok, fun ns' hk b m' hb => ?_, fun b ns' => ?_⟩
    · by_cases h : b = a ∧ ns' = ns
      · obtain ⟨rfl, rfl⟩ := h
        rw [get_put_self hl hi] at hb
        cases hb
        exact (h2 m p (hk _ _ hg) r q e1).2
      · rw [get_put_other hw hl hi (by tauto)] at hb
        exact (hk _ _ hb).mono L e2.le
    · by_cases h : b = a ∧ ns' = ns
      · obtain ⟨rfl, rfl⟩ := h
        rw [storedAt_one hg, storedAt_one (get_put_self hl hi)]
        exact e2.conserved
      · have e : storedAt (w.put i ns r.2) [b] ns' = storedAt w [b] ns' := storedAt_congr (fun c hc => by
          obtain rfl := List.mem_singleton.1 hc
          exact get_put_other hw hl hi (by tauto))
        show Conserved _ _ (storedAt (w.put i ns r.2) [b] ns') _
        rw [e]
        exact .refl _ _

theorem wp_client_tended (L : Life knnCos kfnCos G P) (hm : MonoClock env.tk) {f : Manager F → Go (β × Manager F)}
    (h1 : ∀ m p, m.WF → Go.wp (f m) (fun r q => Manager.Eff env.tk p q m r.2 [] []) p)
    (h2 : ∀ m p, Keeps knnCos kfnCos P p m → Go.wlp (f m) (fun r q => p ≤ q ∧ Keeps knnCos kfnCos P q r.2) p)
    {w : World F} (hw : WorldOK D w) (a : Addr) (ns : NS) (p : Nat) :
    Go.wp ((do let _ ← Client.call env a (Server.access a ns f); pure () : Prog F Unit).run w) (fun r q => Tended env D P p w q r.2) p := by
  unfold Client.call
  simp only [run_bind, Go.wp_bind, run_loc]
  refine wp_sent ?_
  rw [Go.wp_pure]
  cases hup : env.up p a with
  | false =>
    simp only [Bool.false_eq_true, if_false, run_pure, Go.wp_pure]
    exact ⟨by omega, hw, fun _ h => h.mono L (by omega), fun _ _ => .refl _ _⟩
  | true =>
    simp only [if_true, run_bind, Go.wp_bind]
    refine Go.wp_mono (L.wp_access_tended h1 h2 hw a ns (p + 1)) (fun r p1 hr => ?_)
    rw [run_loc, Go.wp_bind]
    refine wp_arrived ?_
    rw [Go.wp_pure]
    have e : Tended env D P p w (p1 + 1) r.2 :=
      ⟨by have := hr.le; omega, hr.ok, fun ns h => (hr.kept ns (h.mono L (by omega))).mono L (by omega), fun b ns => (hr.data b ns).mono hm (Nat.le_succ p1)⟩
    cases env.back p1 a <;> simp only [Bool.false_eq_true, if_false, if_true, run_pure, Go.wp_pure] <;> exact e

/-- The calls that event loops start, but `MemTrim`. -/
theorem wp_upkeep (L : Life knnCos kfnCos G P) (he : EnvOK env) {w : World F} (hw : WorldOK D w) (x : Call) (hx : ∀ a ns, x ≠ .memTrim a ns) (p : Nat) :
    Go.wp ((x.prog env).run w) (fun r q => Tended env D P p w q r.2) p := by
  have hm := he.clock
  cases x with
  | memTrim a ns => exact absurd rfl (hx a ns)
  | expire a ns =>
    refine L.wp_client_tended hm (fun m p h => ?_) (fun m p h => ?_) hw a ns p
    · simp only [Go.wp_bind, Go.wp_pure]
      exact Go.wp_mono (Manager.wp_expire hm h p) fun _ _ hr => hr.1
    · exact Go.wlp_bind (Go.wlp_mono (L.expireLoop hm _ _ p h) fun r q hr => Go.wlp_pure hr)
  | distributeInternal a ns n =>
    refine L.wp_client_tended hm (fun m p h => ?_) (fun m p h => ?_) hw a ns p
    · rw [Go.wp_bind]
      refine wp_mapOrder he (fun ord ho => ?_)
      simp only [Go.wp_bind, Go.wp_pure]
      refine Go.wp_mono (Manager.wp_distributeInternal hm ho h n _) fun _ _ hr => ?_
      exact ⟨by have := hr.1.le; omega, hr.1.wf, hr.1.same, hr.1.conserved, hr.1.len⟩
    · intro r q e
      have e' : (do let m' ← m.distributeInternal env.tk (fun l => Env.reorder (env.perm p l.length) l) n; pure ((), m') : Go (Unit × Manager F)) (p + 1) = .ok (r, q) := e
      have := Go.wlp_bind (Go.wlp_mono (L.distributeInternal (prefabs_goodSearch (F := F)).2.1 hm (h.mono L (Nat.le_succ p)) (fun l => Env.reorder (env.perm p l.length) l) n)
        fun m' q hr => Go.wlp_pure (a := ((), m')) (Q := fun r q => p + 1 ≤ q ∧ Keeps knnCos kfnCos P q r.2) hr) r q e'
      exact ⟨by omega, this.2⟩
  | splitCentroids a ns mi ma =>
    refine L.wp_client_tended hm (fun m p h => ?_) (fun m p h => ?_) hw a ns p
    · simp only [Go.wp_bind, Go.wp_pure]
      refine Go.wp_mono (Manager.wp_splitCentroids hm h _ p) fun _ _ hr => ?_
      obtain ⟨_, _, h1, _⟩ := hr
      exact h1
    · exact Go.wlp_bind (Go.wlp_mono (L.splitCentroids _ h) fun r q hr => Go.wlp_pure hr)
  | mergeCentroids a ns mi ma =>
    refine L.wp_client_tended hm (fun m p h => ?_) (fun m p h => ?_) hw a ns p
    · simp only [Go.wp_bind, Go.wp_pure]
      exact Go.wp_mono (Manager.wp_mergeCentroids hm h _ p) fun _ _ hr => hr.1
    · exact Go.wlp_bind (Go.wlp_mono (L.mergeCentroids _ h) fun r q hr => Go.wlp_pure hr)

end Life
end

section
variable {env : Env} {D : NS → Nat} {lo hi : ℝ} {N : Nat}

namespace Keep

theorem takenOut_cons (c : UserCall F64) (r : Nat × List (Api.DP F64)) (cs : List (UserCall F64)) (rs : List (Nat × List (Api.DP F64))) :
    takenOut (c :: cs) (r :: rs) = takenOut [c] [r] ++ takenOut cs rs := by
  cases c with
  | put => rfl
  | query acc v n dr => cases dr <;> simp [takenOut]

theorem givenIn_cons (c : UserCall F64) (cs : List (UserCall F64)) : givenIn (c :: cs) = givenIn [c] ++ givenIn cs := by
  cases c <;> rfl

/-- One request of a user. -/
theorem user_kept (he : EnvOK env) (hlost : NoLostReplies env) {fac : Factory F64} (hf : FactoryOK fac)
    {addrs : List Addr} (hne : addrs ≠ []) (hnd : addrs.Nodup) (hr : ∀ a ∈ addrs, Reachable env a) (hlh : Range lo hi)
    (hN : 16 * (N : ℝ) * (N + 2) * hi ≤ 2 ^ 53 * lo) {ns : NS} (h0 : D ns ≠ 0) (hD : D ns ≤ 2 ^ 20) (c : UserCall F64) (hc : c.fair lo hi (D ns))
    {w : World F64} {p : Nat} (hw : WorldOK D w) (hk : Good lo hi N ns p w) (hl : ∀ d ∈ storedAt w addrs ns, d.expireEnabled = false) :
    ∃ r w' p', (c.prog env fac addrs ns).run w p = .ok ((r, w'), p') ∧ p ≤ p' ∧ WorldOK D w' ∧ Good lo hi N ns p' w' ∧
      (∀ d ∈ storedAt w' addrs ns, d.expireEnabled = false) ∧ r.1 = 200 ∧
      (p' ≤ N → (storedAt w' addrs ns ++ takenOut [c] [r]).Perm (storedAt w addrs ns ++ givenIn [c])) := by
  cases c with
  | put acc dp =>
    obtain ⟨f1, f2, f3⟩ := hc
    obtain ⟨w1, p1, e1, e2, e3, e4, e5, e6⟩ := put_kept he hlost hf hw hne hnd hr hlh hN ⟨ns, acc, dp⟩ f1 f2 h0 hD f3 hl hk
    refine ⟨(200, []), w1, p1, ?_, e2, e3, e4, e5, rfl, fun hp => ?_⟩
    · refine (run_bind_ok e1).trans ?_
      rw [run_pure]; rfl
    · have k2 := e6 (e2.trans hp)
      show (storedAt w1 addrs ns ++ []).Perm (storedAt w addrs ns ++ [asDataPoint dp])
      permc [k2]
  | query acc v n dr =>
    have f1 : 0 ≤ n := hc
    obtain ⟨ans, w1, p1, e1, e2, e3, e4, e5⟩ := query_kept he hlost hw hnd hlh hN ⟨ns, acc, v, n, dr⟩ f1 hl hk
    refine ⟨(200, ans), w1, p1, e1, e2, e3, e4, fun d hd => hl d (e5.subset (List.mem_append_left _ hd)), rfl, fun _ => ?_⟩
    cases dr with
    | true =>
      simp only [if_true] at e5
      simpa [takenOut, givenIn] using e5
    | false =>
      simp only [Bool.false_eq_true, if_false, List.append_nil] at e5
      simpa [takenOut, givenIn] using e5

/-- One call of an event loop. -/
theorem upkeep_kept (he : EnvOK env) {addrs : List Addr} (hlh : Range lo hi)
    (hN : 16 * (N : ℝ) * (N + 2) * hi ≤ 2 ^ 53 * lo) {ns : NS} (x : Call) (hx : ∀ a ns, x ≠ .memTrim a ns)
    {w : World F64} {p : Nat} (hw : WorldOK D w) (hk : Good lo hi N ns p w) (hl : ∀ d ∈ storedAt w addrs ns, d.expireEnabled = false) :
    ∃ w' p', (x.prog env).run w p = .ok (((), w'), p') ∧ p ≤ p' ∧ WorldOK D w' ∧ Good lo hi N ns p' w' ∧
      (storedAt w' addrs ns).Perm (storedAt w addrs ns) := by
  obtain ⟨⟨⟨⟩, w'⟩, p', e1, e2⟩ := Go.wp_iff.1 ((Positive.life hlh hN knnCos kfnCos).wp_upkeep he hw x hx p)
  refine ⟨w', p', e1, e2.le, e2.ok, e2.kept ns hk, List.Perm.flatMap_left _ fun b hb => ?_⟩
  have h := Round.conserved_live (e2.data b ns) (fun d hd => hl d (storedAt_get hb hd))
  simpa [storedAt] using h

/-- All that happens. -/
theorem happenings_kept (he : EnvOK env) (hlost : NoLostReplies env) {fac : Factory F64} (hf : FactoryOK fac)
    {addrs : List Addr} (hne : addrs ≠ []) (hnd : addrs.Nodup) (hr : ∀ a ∈ addrs, Reachable env a) (hlh : Range lo hi)
    (hN : 16 * (N : ℝ) * (N + 2) * hi ≤ 2 ^ 53 * lo) {ns : NS} (h0 : D ns ≠ 0) (hD : D ns ≤ 2 ^ 20) :
    ∀ (hs : List (Happening F64)) {w : World F64} {p : Nat}, (∀ c ∈ hs, c.fair addrs lo hi (D ns)) → WorldOK D w → Good lo hi N ns p w →
      (∀ d ∈ storedAt w addrs ns, d.expireEnabled = false) →
      ∃ rs w' p', (Prog.each (fun c => c.prog env fac addrs ns) hs).run w p = .ok ((rs, w'), p') ∧ p ≤ p' ∧ WorldOK D w' ∧ Good lo hi N ns p' w' ∧
        (∀ d ∈ storedAt w' addrs ns, d.expireEnabled = false) ∧ (rs.filterMap (·.1)).length = (usersOf hs).length ∧ (∀ r ∈ rs.filterMap (·.1), r.1 = 200) ∧
        (p' ≤ N → (storedAt w' addrs ns ++ takenOut (usersOf hs) (rs.filterMap (·.1)) ++ rs.flatMap (·.2)).Perm (storedAt w addrs ns ++ givenIn (usersOf hs) ++ sentTo hs))
  | [], w, p, _, hw, hk, hl => ⟨[], w, p, by unfold Prog.each; rw [run_pure]; rfl, Nat.le_refl _, hw, hk, hl, rfl, by simp, fun _ => by simp [takenOut, givenIn, usersOf, sentTo]⟩
  | .user c :: hs, w, p, hc, hw, hk, hl => by
    obtain ⟨r, w1, p1, e1, e2, e3, e4, e5, e6, e7⟩ := user_kept he hlost hf hne hnd hr hlh hN h0 hD c (hc _ (List.mem_cons_self ..)) hw hk hl
    obtain ⟨rs, w2, p2, i1, i2, i3, i4, i5, i6, i7, i8⟩ := happenings_kept he hlost hf hne hnd hr hlh hN h0 hD hs (fun c h => hc c (by simp [h])) e3 e4 e5
    have u : usersOf (.user c :: hs) = c :: usersOf hs := rfl
    have a : ((some r, []) :: rs).filterMap (·.1) = r :: rs.filterMap (·.1) := rfl
    refine ⟨(some r, []) :: rs, w2, p2, ?_, e2.trans i2, i3, i4, i5, by rw [u, a, List.length_cons, List.length_cons, i6], ?_, fun hp => ?_⟩
    · unfold Prog.each
      refine (run_bind_ok (a := (some r, [])) (w' := w1) (p' := p1) ?_).trans ((run_bind_ok i1).trans ?_)
      · refine (run_bind_ok e1).trans ?_
        rw [run_pure]; rfl
      · rw [run_pure]; rfl
    · intro x hx
      rw [a] at hx
      rcases List.mem_cons.1 hx with rfl | hx
      · exact e6
      · exact i7 x hx
    · have k1 := i8 hp
      have k2 := e7 (i2.trans hp)
      have s : sentTo (.user c :: hs) = sentTo hs := rfl
      have b : ((some r, []) :: rs).flatMap (·.2) = rs.flatMap (·.2) := rfl
      rw [u, a, s, b, takenOut_cons, givenIn_cons]
      permc [k1, k2]
  | .upkeep x :: hs, w, p, hc, hw, hk, hl => by
    have hx : ∀ a ns, x ≠ .memTrim a ns := by
      rintro a ns rfl
      exact hc _ (List.mem_cons_self ..)
    obtain ⟨w1, p1, e1, e2, e3, e4, e5⟩ := upkeep_kept he hlh hN x hx hw hk hl
    obtain ⟨rs, w2, p2, i1, i2, i3, i4, i5, i6, i7, i8⟩ := happenings_kept he hlost hf hne hnd hr hlh hN h0 hD hs (fun c h => hc c (by simp [h])) e3 e4
      (fun d hd => hl d (e5.subset hd))
    refine ⟨(none, []) :: rs, w2, p2, ?_, e2.trans i2, i3, i4, i5, i6, i7, fun hp => ?_⟩
    · unfold Prog.each
      refine (run_bind_ok (a := (none, [])) (w' := w1) (p' := p1) ?_).trans ((run_bind_ok i1).trans ?_)
      · refine (run_bind_ok e1).trans ?_
        rw [run_pure]; rfl
      · rw [run_pure]; rfl
    · have k1 := i8 hp
      have u : usersOf (.upkeep x :: hs) = usersOf hs := rfl
      have s : sentTo (.upkeep x :: hs) = sentTo hs := rfl
      have a : ((none, []) :: rs).filterMap (·.1) = rs.filterMap (·.1) := rfl
      have b : ((none, []) :: rs).flatMap (·.2) = rs.flatMap (·.2) := rfl
      rw [u, a, s, b]
      permc [k1, e5]
  | .direct a d :: hs, w, p, hc, hw, hk, hl => by
    obtain ⟨c1, c2, c3, c4⟩ := hc _ (List.mem_cons_self ..)
    obtain ⟨w1, p1, e1, e2, e3, e4⟩ := direct_kept he hlost hf hnd hlh hN h0 hD c1 (hr a c1) ⟨c2, c3, c4⟩ ⟨hw, hk, hl⟩
    obtain ⟨rs, w2, p2, i1, i2, i3, i4, i5, i6, i7, i8⟩ := happenings_kept he hlost hf hne hnd hr hlh hN h0 hD hs (fun c h => hc c (by simp [h])) e3.ok e3.good
      e3.live
    refine ⟨(none, []) :: rs, w2, p2, ?_, e2.trans i2, i3, i4, i5, i6, i7, fun hp => ?_⟩
    · unfold Prog.each
      refine (run_bind_ok (a := (none, [])) (w' := w1) (p' := p1) ?_).trans ((run_bind_ok i1).trans ?_)
      · refine (run_bind_ok e1).trans ?_
        rw [run_pure]; rfl
      · rw [run_pure]; rfl
    · have k1 := i8 hp
      have k2 := e4 (i2.trans hp)
      have u : usersOf (.direct a d :: hs) = usersOf hs := rfl
      have s : sentTo (.direct a d :: hs) = d :: sentTo hs := rfl
      have a : ((none, []) :: rs).filterMap (·.1) = rs.filterMap (·.1) := rfl
      have b : ((none, []) :: rs).flatMap (·.2) = rs.flatMap (·.2) := rfl
      rw [u, a, s, b]
      permc [k1, k2]
  | .spread acc a dst n :: hs, w, p, hc, hw, hk, hl => by
    obtain ⟨c1, c2, c3, c4⟩ := hc _ (List.mem_cons_self ..)
    obtain ⟨w1, p1, e1, e2, e3, e4⟩ := spread_kept he hlost hf hnd hlh hN h0 hD acc c1 c2 c3 c4 ⟨hw, hk, hl⟩
    obtain ⟨rs, w2, p2, i1, i2, i3, i4, i5, i6, i7, i8⟩ := happenings_kept he hlost hf hne hnd hr hlh hN h0 hD hs (fun c h => hc c (by simp [h])) e3.ok e3.good
      e3.live
    refine ⟨(none, []) :: rs, w2, p2, ?_, e2.trans i2, i3, i4, i5, i6, i7, fun hp => ?_⟩
    · unfold Prog.each
      refine (run_bind_ok (a := (none, [])) (w' := w1) (p' := p1) ?_).trans ((run_bind_ok i1).trans ?_)
      · refine (run_bind_ok e1).trans ?_
        rw [run_pure]; rfl
      · rw [run_pure]; rfl
    · have k1 := i8 hp
      have k2 := e4 (i2.trans hp)
      have u : usersOf (.spread acc a dst n :: hs) = usersOf hs := rfl
      have s : sentTo (.spread acc a dst n :: hs) = sentTo hs := rfl
      have a : ((none, []) :: rs).filterMap (·.1) = rs.filterMap (·.1) := rfl
      have b : ((none, []) :: rs).flatMap (·.2) = rs.flatMap (·.2) := rfl
      rw [u, a, s, b]
      permc [k1, k2]
  | .steal fuel a src limit :: hs, w, p, hc, hw, hk, hl => by
    obtain ⟨c1, c2, c3⟩ := hc _ (List.mem_cons_self ..)
    obtain ⟨_, w1, p1, e1, e2, e3, e4⟩ := steal_kept he hf hnd hlh hN c1 c3 c2 (hr a c1) (hr src c2) limit fuel ⟨hw, hk, hl⟩
    obtain ⟨rs, w2, p2, i1, i2, i3, i4, i5, i6, i7, i8⟩ := happenings_kept he hlost hf hne hnd hr hlh hN h0 hD hs (fun c h => hc c (by simp [h])) e3.ok e3.good
      e3.live
    refine ⟨(none, []) :: rs, w2, p2, ?_, e2.trans i2, i3, i4, i5, i6, i7, fun hp => ?_⟩
    · unfold Prog.each
      refine (run_bind_ok (a := (none, [])) (w' := w1) (p' := p1) ?_).trans ((run_bind_ok i1).trans ?_)
      · refine (run_bind_ok e1).trans ?_
        rw [run_pure]; rfl
      · rw [run_pure]; rfl
    · have k1 := i8 hp
      have k2 := e4
      have u : usersOf (.steal fuel a src limit :: hs) = usersOf hs := rfl
      have s : sentTo (.steal fuel a src limit :: hs) = sentTo hs := rfl
      have a : ((none, []) :: rs).filterMap (·.1) = rs.filterMap (·.1) := rfl
      have b : ((none, []) :: rs).flatMap (·.2) = rs.flatMap (·.2) := rfl
      rw [u, a, s, b]
      permc [k1, k2]
  | .drain o a n :: hs, w, p, hc, hw, hk, hl => by
    obtain ⟨c1, c2⟩ := hc _ (List.mem_cons_self ..)
    obtain ⟨l, w1, p1, e1, e2, e3, e4⟩ := drain_kept he hnd hlh hN o c1 (hr a c1) c2 ⟨hw, hk, hl⟩
    obtain ⟨rs, w2, p2, i1, i2, i3, i4, i5, i6, i7, i8⟩ := happenings_kept he hlost hf hne hnd hr hlh hN h0 hD hs (fun c h => hc c (by simp [h])) e3.ok e3.good
      e3.live
    refine ⟨(none, l) :: rs, w2, p2, ?_, e2.trans i2, i3, i4, i5, i6, i7, fun hp => ?_⟩
    · unfold Prog.each
      refine (run_bind_ok (a := (none, l)) (w' := w1) (p' := p1) ?_).trans ((run_bind_ok i1).trans ?_)
      · refine (run_bind_ok e1).trans ?_
        rw [run_pure]; rfl
      · rw [run_pure]; rfl
    · have k1 := i8 hp
      have k2 := e4
      have u : usersOf (.drain o a n :: hs) = usersOf hs := rfl
      have s : sentTo (.drain o a n :: hs) = sentTo hs := rfl
      have a : ((none, l) :: rs).filterMap (·.1) = rs.filterMap (·.1) := rfl
      have b : ((none, l) :: rs).flatMap (·.2) = l ++ rs.flatMap (·.2) := rfl
      rw [u, a, s, b]
      permc [k1, k2]
  | .lookup dr a v k :: hs, w, p, hc, hw, hk, hl => by
    obtain ⟨c1, c2⟩ := hc _ (List.mem_cons_self ..)
    obtain ⟨l, w1, p1, e1, e2, e3, e4⟩ := lookup_kept he hnd hlh hN dr c1 (hr a c1) v c2 ⟨hw, hk, hl⟩
    obtain ⟨rs, w2, p2, i1, i2, i3, i4, i5, i6, i7, i8⟩ := happenings_kept he hlost hf hne hnd hr hlh hN h0 hD hs (fun c h => hc c (by simp [h])) e3.ok e3.good
      e3.live
    refine ⟨(none, if dr then l else []) :: rs, w2, p2, ?_, e2.trans i2, i3, i4, i5, i6, i7, fun hp => ?_⟩
    · unfold Prog.each
      refine (run_bind_ok (a := (none, if dr then l else [])) (w' := w1) (p' := p1) ?_).trans ((run_bind_ok i1).trans ?_)
      · refine (run_bind_ok e1).trans ?_
        rw [run_pure]; rfl
      · rw [run_pure]; rfl
    · have k1 := i8 hp
      have k2 := e4
      have u : usersOf (.lookup dr a v k :: hs) = usersOf hs := rfl
      have s : sentTo (.lookup dr a v k :: hs) = sentTo hs := rfl
      have a : ((none, if dr then l else []) :: rs).filterMap (·.1) = rs.filterMap (·.1) := rfl
      have b : ((none, if dr then l else []) :: rs).flatMap (·.2) = (if dr then l else []) ++ rs.flatMap (·.2) := rfl
      rw [u, a, s, b]
      permc [k1, k2]
  | .fetch a v :: hs, w, p, hc, hw, hk, hl => by
    have c1 : a ∈ addrs := hc _ (List.mem_cons_self ..)
    obtain ⟨l, w1, p1, e1, e2, e3, e4⟩ := fetch_kept he hnd hlh hN c1 (hr a c1) v ⟨hw, hk, hl⟩
    obtain ⟨rs, w2, p2, i1, i2, i3, i4, i5, i6, i7, i8⟩ := happenings_kept he hlost hf hne hnd hr hlh hN h0 hD hs (fun c h => hc c (by simp [h])) e3.ok e3.good
      e3.live
    refine ⟨(none, (l.2.getD []).flatMap (fun c => c.dps)) :: rs, w2, p2, ?_, e2.trans i2, i3, i4, i5, i6, i7, fun hp => ?_⟩
    · unfold Prog.each
      refine (run_bind_ok (a := (none, (l.2.getD []).flatMap (fun c => c.dps))) (w' := w1) (p' := p1) ?_).trans ((run_bind_ok i1).trans ?_)
      · refine (run_bind_ok e1).trans ?_
        rw [run_pure]; rfl
      · rw [run_pure]; rfl
    · have k1 := i8 hp
      have k2 := e4
      have u : usersOf (.fetch a v :: hs) = usersOf hs := rfl
      have s : sentTo (.fetch a v :: hs) = sentTo hs := rfl
      have a : ((none, (l.2.getD []).flatMap (fun c => c.dps)) :: rs).filterMap (·.1) = rs.filterMap (·.1) := rfl
      have b : ((none, (l.2.getD []).flatMap (fun c => c.dps)) :: rs).flatMap (·.2) = ((l.2.getD []).flatMap (fun c => c.dps)) ++ rs.flatMap (·.2) := rfl
      rw [u, a, s, b]
      permc [k1, k2]

end Keep

/-- C148, next to maintenance: between the requests of users, nodes run the calls that event loops start, at any node and for any namespace, in any
number and order, but `MemTrim`: expiry, redistribution between the centroids of a manager, splits and merges, with any settings; clients send datapoints to nodes of their choice; and nodes are told to
distribute datapoints of the namespace between nodes, fast or accurately, any number of them, or to steal centroids from each other; clients drain nodes and look for datapoints
at nodes, with or without drain, or take the nearest centroid of a node. Nothing changes
for users: all answers have the status 200, nothing is lost and nothing appears twice, be it stored, in an answer, or with a client that drained it, and an accurate query that asks for enough finds all that
is stored. -/
theorem C148_upkeep (he : EnvOK env) (hlost : NoLostReplies env) {fac : Factory F64} (hf : FactoryOK fac) {w : World F64} (hw : WorldOK D w)
    {addrs : List Addr} (hne : addrs ≠ []) (hnd : addrs.Nodup) (hr : ∀ a ∈ addrs, Reachable env a) (hlh : Range lo hi)
    (hN : 16 * (N : ℝ) * (N + 2) * hi ≤ 2 ^ 53 * lo) {ns : NS} (h0 : D ns ≠ 0) (hD : D ns ≤ 2 ^ 20) (hnew : ∀ a, w.get a ns = none)
    (hs : List (Happening F64)) (hc : ∀ c ∈ hs, c.fair addrs lo hi (D ns)) (p : Nat) :
    ∃ rs w' p', (Prog.each (fun c => c.prog env fac addrs ns) hs).run w p = .ok ((rs, w'), p') ∧
      (rs.filterMap (·.1)).length = (usersOf hs).length ∧ (∀ r ∈ rs.filterMap (·.1), r.1 = 200) ∧
      (p' ≤ N → (storedAt w' addrs ns ++ takenOut (usersOf hs) (rs.filterMap (·.1)) ++ rs.flatMap (·.2)).Perm (givenIn (usersOf hs) ++ sentTo hs) ∧
        ∃ K, ∀ o : Api.QueryOpts F64, o.ns = ns → o.accurate = true → Ranged lo hi o.vec → o.vec.length = D ns → K ≤ o.n →
          ∃ (out : List (DataPoint F64)) (w'' : World F64) (p'' : Nat), (Api.queryDataPoint env addrs (some o)).run w' p' =
              .ok (((200, out.map (fun d => ⟨d.vec, d.payload, d.expires, d.expireEnabled⟩)), w''), p'') ∧
            out.Perm (storedAt w' addrs ns)) := by
  have hs' : storedAt w addrs ns = [] := by simp [storedAt, hnew]
  obtain ⟨rs, w', p', h1, h2, h3, h4, h5, h6, h7, h8⟩ := Keep.happenings_kept he hlost hf hne hnd hr hlh hN h0 hD hs hc hw (Keep.good_none (p := p) hnew)
    (by rw [hs']; simp)
  refine ⟨rs, w', p', h1, h6, h7, fun hp => ⟨by simpa [hs'] using h8 hp, ?_⟩⟩
  obtain ⟨K, hK⟩ := enough_exists w' addrs ns
  refine ⟨K, fun o i1 i2 i3 i4 i5 => ?_⟩
  subst i1
  obtain ⟨out, w'', p'', j1, j2, _⟩ := Keep.find_kept he h3 hnd hr hlh o i2 h0 hD i3 i4 h5 (hK o.n i5) hp h4
  exact ⟨out, w'', p'', j1, j2⟩

end

namespace KeepExample
open ServerExample PositiveExample

/-- The visit, with maintenance in between. -/
def kempt : List (Happening F64) := [.user (put true 1 2), .user (put false 9 1), .upkeep (.splitCentroids 2 7 1 100), .user (put true 3 3),
  .upkeep (.distributeInternal 2 7 2), .user (.query true (FloatExample.nats [1, 1]) 2 false), .upkeep (.mergeCentroids 2 7 0 100),
  .user (.query false (FloatExample.nats [1, 1]) 2 true), .upkeep (.expire 1 7), .user (put false 5 5),
  .direct 1 (pt 2 8), .spread true 2 [1] 1, .direct 1 (pt 7 3), .spread false 1 [2, 1] 5, .steal 10 2 1 1,
  .drain true 2 1, .drain false 2 1, .drain true 1 5, .lookup false 2 (FloatExample.nats [1, 1]) 1,
  .lookup true 2 (FloatExample.nats [1, 1]) 1, .direct 1 (pt 4 6), .fetch 1 (FloatExample.nats [1, 1])]

theorem kempt_fair : ∀ c ∈ kempt, c.fair [1, 2] (1 : Nat) (9 : Nat) 2 := by
  intro c hc
  simp only [kempt, List.mem_cons, List.not_mem_nil, or_false] at hc
  rcases hc with rfl | rfl | rfl | rfl | rfl | rfl | rfl | rfl | rfl | rfl | rfl | rfl | rfl | rfl | rfl | rfl | rfl | rfl | rfl | rfl | rfl | rfl
  · exact visit_fair (put true 1 2) (by simp [visit])
  · exact visit_fair (put false 9 1) (by simp [visit])
  · trivial
  · exact visit_fair (put true 3 3) (by simp [visit])
  · trivial
  · exact visit_fair (.query true (FloatExample.nats [1, 1]) 2 false) (by simp [visit])
  · trivial
  · exact visit_fair (.query false (FloatExample.nats [1, 1]) 2 true) (by simp [visit])
  · trivial
  · exact visit_fair (put false 5 5) (by simp [visit])
  · exact ⟨by simp, ranged_nats (by simp) (by norm_num), by simp [pt, FloatExample.nats], rfl⟩
  · exact ⟨by simp, by simp, by simp, by omega⟩
  · exact ⟨by simp, ranged_nats (by simp) (by norm_num), by simp [pt, FloatExample.nats], rfl⟩
  · exact ⟨by simp, by simp, by simp, by omega⟩
  · exact ⟨by simp, by simp, by decide⟩
  · exact ⟨by simp, by omega⟩
  · exact ⟨by simp, by omega⟩
  · exact ⟨by simp, by omega⟩
  · exact ⟨by simp, by omega⟩
  · exact ⟨by simp, by omega⟩
  · exact ⟨by simp, ranged_nats (by simp) (by norm_num), by simp [pt, FloatExample.nats], rfl⟩
  · show (1 : Nat) ∈ [1, 2]
    simp

/-- The answers, what nodes 1 and 2 store, and what was drained. -/
def obsK (r : List (Option (Nat × List (Api.DP F64)) × List (DataPoint F64)) × World F64) :
    (List (Nat × List (List F64)) × List (DataPoint F64) × List (DataPoint F64)) × List (DataPoint F64) :=
  (obsV (r.1.filterMap (·.1), r.2), r.1.flatMap (·.2))

end KeepExample
open KeepExample ServerExample PositiveExample

set_option synthInstance.maxSize 1000 in
/-- C148: what happens. -/
example : ∃ r p, (Prog.each (fun c => c.prog env fac [1, 2] 7) kempt).run start 0 = .ok (r, p) ∧
    obsK r = (([(200, []), (200, []), (200, []), (200, [FloatExample.nats [3, 3], FloatExample.nats [1, 2]]),
      (200, [FloatExample.nats [3, 3], FloatExample.nats [1, 2]]), (200, [])], [], [pt 2 8]), [pt 7 3, pt 9 1, pt 5 5, pt 4 6]) :=
  exists_of_run (f := obsK) (by decide +kernel)

/-- C148: the theorem. -/
example : ∃ rs w' p', (Prog.each (fun c => c.prog env fac [1, 2] 7) kempt).run start 0 = .ok ((rs, w'), p') ∧
    (rs.filterMap (·.1)).length = (usersOf kempt).length ∧
    (∀ r ∈ rs.filterMap (·.1), r.1 = 200) ∧ (p' ≤ 1000000 → (storedAt w' [1, 2] 7 ++ takenOut (usersOf kempt) (rs.filterMap (·.1)) ++ rs.flatMap (·.2)).Perm (givenIn (usersOf kempt) ++ sentTo kempt) ∧
      ∃ K, ∀ o : Api.QueryOpts F64, o.ns = 7 → o.accurate = true → Ranged (1 : Nat) (9 : Nat) o.vec → o.vec.length = 2 → K ≤ o.n →
        ∃ (out : List (DataPoint F64)) (w'' : World F64) (p'' : Nat), (Api.queryDataPoint env [1, 2] (some o)).run w' p' =
            .ok (((200, out.map (fun d => ⟨d.vec, d.payload, d.expires, d.expireEnabled⟩)), w''), p'') ∧
          out.Perm (storedAt w' [1, 2] 7)) :=
  C148_upkeep (D := fun _ => 2) (N := 1000000) env_ok (fun _ _ => rfl) ⟨by decide, rfl, rfl⟩ ⟨by simp [start], by simp [start], by simp [start], by simp [start]⟩
    (by simp) (by simp) (fun a _ => ⟨fun _ => rfl, fun _ => rfl⟩) (range_nat (a := 1) (b := 9) (by omega) (by omega) (by norm_num)) (by norm_num)
    (by simp) (by norm_num) (fun a => rfl) kempt kempt_fair 0

end Trypo
