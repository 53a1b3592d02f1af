import Verif.Proofs.Life
import Verif.Props.PutQuery

/-!
What all calls of a manager keep is kept by requests to the service that put and get datapoints.
-/

set_option linter.unusedSectionVars false

namespace Trypo
open GoFloat Spec

theorem Go.wp_wlp {α : Type} {m : Go α} {Q R : α → Nat → Prop} {p : Nat} (h : Go.wp m Q p) (k : Go.wlp m R p) :
    Go.wp m (fun a q => Q a q ∧ R a q) p := by
  obtain ⟨a, q, h1, h2⟩ := Go.wp_iff.1 h
  exact Go.wp_iff.2 ⟨a, q, h1, h2, k a q h1⟩

section
variable {F : Type} [GoFloat F] [LawfulCmp F] {G : DataPoint F → Prop} {P : Nat → Centroid F → Prop} {env : Env} {fac : Factory F} {D : NS → Nat}

/-- All managers of a namespace are kept. -/
def Life.Kept (P : Nat → Centroid F → Prop) (ns : NS) (p : Nat) (w : World F) : Prop :=
  ∀ a m, w.get a ns = some m → Life.Keeps knnCos kfnCos P p m

namespace Life

theorem Kept.mono {ns : NS} {p q : Nat} {w : World F} (h : Kept P ns p w) (L : Life knnCos kfnCos G P) (hpq : p ≤ q) : Kept P ns q w :=
  fun a m hg => (h a m hg).mono L hpq

theorem managerKnn (L : Life knnCos kfnCos G P) {tk : Nat → Int} (hm : MonoClock tk) {cm : Manager F} {p : Nat} (h : Keeps knnCos kfnCos P p cm)
    (v : List F) (k : Int) (drain : Bool) : Go.wlp (cm.knnLookup tk v k drain) (fun r q => p ≤ q ∧ Keeps knnCos kfnCos P q r.2) p := by
  unfold Manager.knnLookup
  exact Go.wlp_bind (Go.wlp_checkMake fun _ => Go.wlp_bind (Go.wlp_lift fun ix _ =>
    L.lookupLoop (prefabs_goodSearch (F := F)).1 hm v k drain ix _ _ p h))

theorem wp_server_add_kept (L : Life knnCos kfnCos G P) (hm : MonoClock env.tk) (hf : FactoryOK fac) {w : World F} (hw : WorldOK D w)
    (a : Addr) {ns : NS} {d : DataPoint F} (hd : G d) {p : Nat} (h : Kept P ns p w) :
    Go.wp ((Server.addDataPoint env fac a ns d).run w) (fun r q => p ≤ q ∧ Kept P ns q r.2) p := by
  unfold Server.addDataPoint
  cases hg : w.get a ns with
  | none =>
    have hl := (get_eq_none_iff hw).1 hg
    rw [run_bind, run_access_none hl, pure_bind]
    show Go.wp ((Prog.loc _ >>= _).run w) _ _
    rw [run_bind, run_loc]
    simp only [bind_assoc, Go.wp_bind, Go.wp_pure]
    unfold Factory.make Manager.new
    simp only [Go.wp_bind, Go.wp_checkMake, Go.wp_pure]
    refine ⟨hf.cap, ?_⟩
    refine Go.wp_mono (Go.wp_wlp (Manager.wp_addDataPoint hm ⟨hf.cap, ?_, by simp, by simp⟩ d p)
      (L.addDataPoint ⟨⟨hf.knn, hf.kfn⟩, by simp⟩ hd)) (fun r p' hr => ?_)
    · rw [show (_ : Manager F).knn = fac.knn from rfl, show (_ : Manager F).kfn = fac.kfn from rfl, hf.knn, hf.kfn]
      exact ⟨searchOK_prefabs.1, searchOK_prefabs.2.1⟩
    rw [run_bind, run_addSlot, pure_bind, run_pure, Go.wp_pure]
    refine ⟨hr.2.1, fun b m hb => ?_⟩
    by_cases hba : b = a
    · subst hba
      rw [get_addSlot] at hb
      cases hb
      exact hr.2.2
    · rw [get_addSlot_of_lookup hw (lookup_addSlot_node w hba ns ns _)] at hb
      exact (h _ _ hb).mono L hr.2.1
  | some m =>
    obtain ⟨i, hl, hi⟩ := lookup_of_get hw hg
    have hok := hw.mok hi
    rw [run_bind, run_access_some hl hi, bind_assoc, Go.wp_bind]
    refine Go.wp_mono (Go.wp_wlp (Manager.wp_addDataPoint hm hok.wf d p) (L.addDataPoint (h _ _ hg) hd)) (fun r p' hr => ?_)
    rw [pure_bind, run_pure, Go.wp_pure]
    refine ⟨hr.2.1, fun b m' hb => ?_⟩
    by_cases hba : b = a
    · subst hba
      rw [get_put_self hl hi] at hb
      cases hb
      exact hr.2.2
    · rw [get_put_other hw hl hi (.inl hba)] at hb
      exact (h _ _ hb).mono L hr.2.1

theorem wp_client_add_kept (L : Life knnCos kfnCos G P) (hm : MonoClock env.tk) (hf : FactoryOK fac) {w : World F} (hw : WorldOK D w)
    (a : Addr) {ns : NS} {d : DataPoint F} (hd : G d) {p : Nat} (h : Kept P ns p w) :
    Go.wp ((Client.addDataPoint env fac a ns d).run w) (fun r q => p ≤ q ∧ Kept P ns q r.2) p := by
  unfold Client.addDataPoint Client.call
  simp only [run_bind, Go.wp_bind, run_loc]
  refine wp_sent ?_
  rw [Go.wp_pure]
  cases hup : env.up p a with
  | false =>
    simp only [Bool.false_eq_true, if_false, run_pure, Go.wp_pure]
    exact ⟨by omega, h.mono L (by omega)⟩
  | true =>
    simp only [if_true, run_bind, Go.wp_bind]
    refine Go.wp_mono (L.wp_server_add_kept hm hf hw a hd (h.mono L (Nat.le_succ p))) (fun r p1 hr => ?_)
    rw [run_pure, Go.wp_pure, run_loc, Go.wp_bind]
    refine wp_arrived ?_
    rw [Go.wp_pure]
    have h1 : p ≤ p1 + 1 := by have := hr.1; omega
    cases env.back p1 a <;> simp only [Bool.false_eq_true, if_false, if_true, run_pure, Go.wp_pure] <;>
      exact ⟨h1, hr.2.mono L (by omega)⟩

theorem wp_put_kept (L : Life knnCos kfnCos G P) (hm : MonoClock env.tk) (hf : FactoryOK fac) {ns : NS} {d : DataPoint F} (hd : G d)
    (hlen : d.vec.length = D ns) : ∀ (as : List Addr) {w : World F}, WorldOK D w → ∀ {p : Nat}, Kept P ns p w →
    Go.wp ((Dps.putDataPoint env fac ns d as).run w) (fun r q => p ≤ q ∧ WorldOK D r.2 ∧ Kept P ns q r.2) p
  | [], w, hw, p, h => by
    unfold Dps.putDataPoint
    rw [run_pure, Go.wp_pure]
    exact ⟨Nat.le_refl _, hw, h⟩
  | a :: as, w, hw, p, h => by
    unfold Dps.putDataPoint
    rw [run_bind, Go.wp_bind]
    refine Go.wp_mono (Go.wp_and (L.wp_client_add_kept hm hf hw a hd h) (wp_client_add hm hf hw a ns d p)) (fun r p1 hr => ?_)
    have hw1 := hr.2.2.1 hlen
    cases hb : r.1 with
    | true => simp only [if_true, run_pure, Go.wp_pure]; exact ⟨hr.1.1, hw1, hr.1.2⟩
    | false =>
      simp only [Bool.false_eq_true, if_false]
      exact Go.wp_mono (L.wp_put_kept hm hf hd hlen as hw1 hr.1.2) (fun _ _ hq => ⟨hr.1.1.trans hq.1, hq.2⟩)

/-- The HTTP put. -/
theorem wp_httpPut_kept (L : Life knnCos kfnCos G P) (he : EnvOK env) (hf : FactoryOK fac) {w : World F} (hw : WorldOK D w) (addrs : List Addr)
    (o : Api.PutOpts F) (hd : G (asDataPoint o.dp)) (hlen : o.dp.vec.length = D o.ns) {p : Nat} (h : Kept P o.ns p w) :
    Go.wp ((Api.putDataPoint env fac addrs (some o)).run w) (fun r q => p ≤ q ∧ WorldOK D r.2 ∧ Kept P o.ns q r.2) p := by
  have hd' : G o.dp.toDataPoint := hd
  have hlen' : o.dp.toDataPoint.vec.length = D o.ns := hlen
  unfold Api.putDataPoint
  simp only [run_bind, Go.wp_bind]
  have first : Go.wp ((if o.accurate then Dps.putDataPointAccurate env fac knnCos addrs o.ns o.dp.toDataPoint
      else Dps.putDataPointFast env fac knnCos addrs o.ns o.dp.toDataPoint : Prog F Bool).run w)
      (fun r q => p ≤ q ∧ WorldOK D r.2 ∧ Kept P o.ns q r.2) p := by
    cases o.accurate with
    | true =>
      simp only [if_true]
      unfold Dps.putDataPointAccurate
      rw [run_bind, Go.wp_bind]
      refine Go.wp_mono (wp_bestAccurate he hw knnCos_searchesBest addrs o.ns _ p) (fun r p1 hr => ?_)
      rw [hr.2.1]
      exact Go.wp_mono (L.wp_put_kept he.clock hf hd' hlen' r.1 hw (h.mono L hr.1)) (fun _ _ hq => ⟨hr.1.trans hq.1, hq.2⟩)
    | false =>
      simp only [Bool.false_eq_true, if_false]
      unfold Dps.putDataPointFast
      rw [run_bind, Go.wp_bind]
      refine Go.wp_mono (wp_bestFast he hw knnCos_searchesBest addrs o.ns _ p) (fun r p1 hr => ?_)
      rw [hr.2.1]
      exact Go.wp_mono (L.wp_put_kept he.clock hf hd' hlen' r.1 hw (h.mono L hr.1)) (fun _ _ hq => ⟨hr.1.trans hq.1, hq.2⟩)
  refine Go.wp_mono first (fun r p1 hr => ?_)
  have second : Go.wp ((if r.1 then pure true else Dps.putDataPointRand env fac addrs o.ns o.dp.toDataPoint : Prog F Bool).run r.2)
      (fun r q => p ≤ q ∧ WorldOK D r.2 ∧ Kept P o.ns q r.2) p1 := by
    cases hb : r.1 with
    | true => simp only [if_true, run_pure, Go.wp_pure]; exact hr
    | false =>
      simp only [Bool.false_eq_true, if_false]
      unfold Dps.putDataPointRand
      rw [run_bind, Go.wp_bind, run_loc, Go.wp_bind]
      unfold Dps.shuffleAddrs
      refine Go.wp_mono (wp_shuffleFrom he addrs.length 0 addrs p1 rfl (by omega)) (fun as p2 hs => ?_)
      rw [Go.wp_pure]
      exact Go.wp_mono (L.wp_put_kept he.clock hf hd' hlen' as hr.2.1 (hr.2.2.mono L hs.2)) (fun _ _ hq => ⟨hr.1.trans (hs.2.trans hq.1), hq.2⟩)
  refine Go.wp_mono second (fun q p2 hq => ?_)
  rw [run_pure, Go.wp_pure]
  exact hq

theorem wp_server_knn_kept (L : Life knnCos kfnCos G P) (hm : MonoClock env.tk) {w : World F} (hw : WorldOK D w) (a : Addr) {ns : NS}
    (v : List F) {k : Int} (hk : 0 ≤ k) (drain : Bool) {p : Nat} (h : Kept P ns p w) :
    Go.wp ((Server.knnLookup env a ns v k drain).run w) (fun r q => p ≤ q ∧ Kept P ns q r.2) p := by
  unfold Server.knnLookup
  cases hg : w.get a ns with
  | none =>
    have hl := (get_eq_none_iff hw).1 hg
    rw [run_access_none hl, Go.wp_pure]
    exact ⟨Nat.le_refl _, h⟩
  | some m =>
    obtain ⟨i, hl, hi⟩ := lookup_of_get hw hg
    have hok := hw.mok hi
    rw [run_access_some hl hi, Go.wp_bind]
    refine Go.wp_mono (Go.wp_wlp (Manager.wp_knnLookup hm hok.wf v hk drain p) (L.managerKnn hm (h _ _ hg) v k drain)) (fun r p' hr => ?_)
    rw [Go.wp_pure]
    refine ⟨hr.2.1, fun b m' hb => ?_⟩
    by_cases hba : b = a
    · subst hba
      rw [get_put_self hl hi] at hb
      cases hb
      exact hr.2.2
    · rw [get_put_other hw hl hi (.inl hba)] at hb
      exact (h _ _ hb).mono L hr.2.1

theorem wp_client_knn_kept (L : Life knnCos kfnCos G P) (hm : MonoClock env.tk) {w : World F} (hw : WorldOK D w) (a : Addr) {ns : NS}
    (v : List F) {k : Int} (hk : 0 ≤ k) (drain : Bool) {p : Nat} (h : Kept P ns p w) :
    Go.wp ((Client.knnLookup env a ns v k drain).run w) (fun r q => p ≤ q ∧ Kept P ns q r.2) p := by
  unfold Client.knnLookup Client.call
  simp only [run_bind, Go.wp_bind, run_loc, Go.wp_checkMake]
  refine ⟨hk, ?_⟩
  rw [Go.wp_pure]
  refine wp_sent ?_
  rw [Go.wp_pure]
  cases hup : env.up p a with
  | false =>
    simp only [Bool.false_eq_true, if_false, run_pure, Go.wp_pure]
    exact ⟨by omega, h.mono L (by omega)⟩
  | true =>
    simp only [if_true, run_bind, Go.wp_bind]
    refine Go.wp_mono (L.wp_server_knn_kept hm hw a v hk drain (h.mono L (Nat.le_succ p))) (fun r p1 hr => ?_)
    rw [run_loc, Go.wp_bind]
    refine wp_arrived ?_
    rw [Go.wp_pure]
    have h1 : p ≤ p1 + 1 := by have := hr.1; omega
    cases env.back p1 a <;> simp only [Bool.false_eq_true, if_false, if_true, run_pure, Go.wp_pure] <;>
      exact ⟨h1, hr.2.mono L (by omega)⟩

theorem wp_getFrom_kept (L : Life knnCos kfnCos G P) (hm : MonoClock env.tk) {ns : NS} (v : List F) (n : Int) (drain : Bool) :
    ∀ (as : List Addr) {w : World F} (res : List (DataPoint F)) {p : Nat}, WorldOK D w → (res.length : Int) ≤ n → Kept P ns p w →
    Go.wp ((Dps.getFrom env ns v n drain as res).run w) (fun r q => p ≤ q ∧ Kept P ns q r.2) p
  | [], w, res, p, hw, hn, h => by
    unfold Dps.getFrom
    rw [run_pure, Go.wp_pure]
    exact ⟨Nat.le_refl _, h⟩
  | a :: as, w, res, p, hw, hn, h => by
    unfold Dps.getFrom
    rw [run_bind, Go.wp_bind]
    refine Go.wp_mono (Go.wp_and (wp_client_knn hm hw a ns v (by omega) drain p) (L.wp_client_knn_kept hm hw a v (by omega) drain h))
      (fun r p1 hr => ?_)
    obtain ⟨⟨h1, h2⟩, h3⟩ := hr
    have hc := h2.count
    by_cases hfull : (((res ++ r.1).length : Nat) : Int) ≥ n
    · rw [if_pos hfull, run_pure, Go.wp_pure]
      exact h3
    · rw [if_neg hfull]
      exact Go.wp_mono (L.wp_getFrom_kept hm v n drain as (res ++ r.1) h2.ok (by omega) h3.2) (fun q p2 hq => ⟨h1.trans hq.1, hq.2⟩)

theorem wp_get_kept (L : Life knnCos kfnCos G P) (hm : MonoClock env.tk) {w : World F} (hw : WorldOK D w) {ns : NS} (v : List F) {n : Int}
    (hn : 0 ≤ n) (drain : Bool) (as : List Addr) {p : Nat} (h : Kept P ns p w) :
    Go.wp ((Dps.getDataPoints env as ns v n drain).run w) (fun r q => p ≤ q ∧ Kept P ns q r.2) p := by
  unfold Dps.getDataPoints
  simp only [run_bind, Go.wp_bind, run_loc, Go.wp_checkMake]
  refine ⟨hn, ?_⟩
  rw [Go.wp_pure]
  exact L.wp_getFrom_kept hm v n drain as [] hw (by simpa using hn) h

/-- The HTTP query. -/
theorem wp_query_kept (L : Life knnCos kfnCos G P) (he : EnvOK env) {w : World F} (hw : WorldOK D w) (addrs : List Addr) (o : Api.QueryOpts F)
    (hn : 0 ≤ o.n) {p : Nat} (h : Kept P o.ns p w) :
    Go.wp ((Api.queryDataPoint env addrs (some o)).run w) (fun r q => p ≤ q ∧ Kept P o.ns q r.2) p := by
  unfold Api.queryDataPoint
  simp only [run_bind, Go.wp_bind]
  have first : Go.wp ((if o.accurate then Dps.getDataPointsAccurate env knnCos addrs o.ns o.vec o.n o.drain
      else Dps.getDataPointsFast env knnCos addrs o.ns o.vec o.n o.drain : Prog F (List (DataPoint F))).run w)
      (fun r q => p ≤ q ∧ Kept P o.ns q r.2) p := by
    cases o.accurate with
    | true =>
      simp only [if_true]
      unfold Dps.getDataPointsAccurate
      rw [run_bind, Go.wp_bind]
      refine Go.wp_mono (wp_bestAccurate he hw knnCos_searchesBest addrs o.ns _ p) (fun r p1 hr => ?_)
      rw [hr.2.1]
      exact Go.wp_mono (L.wp_get_kept he.clock hw o.vec hn o.drain r.1 (h.mono L hr.1)) (fun _ _ hq => ⟨hr.1.trans hq.1, hq.2⟩)
    | false =>
      simp only [Bool.false_eq_true, if_false]
      unfold Dps.getDataPointsFast
      rw [run_bind, Go.wp_bind]
      refine Go.wp_mono (wp_bestFast he hw knnCos_searchesBest addrs o.ns _ p) (fun r p1 hr => ?_)
      rw [hr.2.1]
      exact Go.wp_mono (L.wp_get_kept he.clock hw o.vec hn o.drain r.1 (h.mono L hr.1)) (fun _ _ hq => ⟨hr.1.trans hq.1, hq.2⟩)
  refine Go.wp_mono first (fun r p1 hr => ?_)
  rw [run_pure, Go.wp_pure]
  exact hr

end Life
end
end Trypo
