import Verif.Proofs.ManagerHistory
import Verif.Spec.Receivers

/-!
# Distributing datapoints to any mix of receivers
-/

namespace Trypo

open Spec Centroid

variable {F : Type} [GoFloat F]

theorem perm_flatMap_set {α β : Type} (f : α → List β) : ∀ {l : List α} {i : Nat} {a : α} (_ : l[i]? = some a) (b : α),
    ((l.set i b).flatMap f ++ f a).Perm (l.flatMap f ++ f b)
  | [], i, a, h, b => by simp at h
  | x :: l, 0, a, h, b => by
    simp only [List.getElem?_cons_zero, Option.some.injEq] at h
    subst h
    simp only [List.set_cons_zero, List.flatMap_cons]
    permc [List.Perm.refl (f x)]
  | x :: l, i + 1, a, h, b => by
    have ih := perm_flatMap_set f (l := l) (i := i) (a := a) (by simpa using h) b
    simp only [List.set_cons_succ, List.flatMap_cons]
    permc [ih]

namespace Arena

theorem setC_inside {mem : Arena F} {m i : Nat} {cm : Manager F} (h : mem.ms[m]? = some cm) (c : Centroid F) :
    mem.setC (.inside m i) c = { mem with ms := mem.ms.set m { cm with centroids := cm.centroids.set i c } } := by
  simp [setC, h]

theorem setC_nil {mem : Arena F} {m i : Nat} (h : mem.ms[m]? = none) (c : Centroid F) : mem.setC (.inside m i) c = mem := by
  simp [setC, h]

theorem inMem_setM {mem : Arena F} {m : Nat} {cm : Manager F} (h : mem.ms[m]? = some cm) (cm' : Manager F) :
    (inMem { mem with ms := mem.ms.set m cm' } ++ stored cm).Perm (inMem mem ++ stored cm') := by
  have := perm_flatMap_set (fun cm : Manager F => stored cm) h cm'
  unfold inMem
  permc [this]

theorem inMem_setC {mem : Arena F} {r : CRef} {c : Centroid F} (h : mem.getC r = some c) (c' : Centroid F) :
    (inMem (mem.setC r c') ++ c.dps).Perm (inMem mem ++ c'.dps) := by
  cases r with
  | loose i =>
    have := perm_flatMap_set (fun c : Centroid F => c.dps) h c'
    show (inMem { mem with cs := mem.cs.set i c' } ++ _).Perm _
    unfold inMem
    permc [this]
  | inside m i =>
    obtain ⟨cm, h1, h2⟩ := Option.bind_eq_some_iff.1 h
    have e1 := inMem_setM h1 { cm with centroids := cm.centroids.set i c' }
    have e2 := flat_set h2 c'
    rw [setC_inside h1]
    unfold stored at e1
    unfold flat at e2
    simp only at e1
    permc [e1, e2]

theorem getC_setC_self {mem : Arena F} {r : CRef} {c : Centroid F} (h : mem.getC r = some c) (c' : Centroid F) :
    (mem.setC r c').getC r = some c' := by
  cases r with
  | loose i =>
    have hlt : i < mem.cs.length := (List.getElem?_eq_some_iff.1 h).1
    exact List.getElem?_set_self hlt
  | inside m i =>
    obtain ⟨cm, h1, h2⟩ := Option.bind_eq_some_iff.1 h
    have hm : m < mem.ms.length := (List.getElem?_eq_some_iff.1 h1).1
    have hi : i < cm.centroids.length := (List.getElem?_eq_some_iff.1 h2).1
    rw [setC_inside h1]
    simp [getC, List.getElem?_set_self hm, List.getElem?_set_self hi]

theorem getC_setC_ne {mem : Arena F} {r q : CRef} (hne : q ≠ r) (c' : Centroid F) : (mem.setC r c').getC q = mem.getC q := by
  cases r with
  | loose i =>
    cases q with
    | loose j => exact List.getElem?_set_ne (fun h => hne (by rw [h]))
    | inside m j => rfl
  | inside m i =>
    cases h1 : mem.ms[m]? with
    | none => rw [setC_nil h1]
    | some cm =>
      rw [setC_inside h1]
      cases q with
      | loose j => rfl
      | inside k j =>
        have hm : m < mem.ms.length := (List.getElem?_eq_some_iff.1 h1).1
        rcases eq_or_ne m k with rfl | hmk
        · have hij : i ≠ j := fun h => hne (by rw [h])
          simp [getC, List.getElem?_set_self hm, h1, List.getElem?_set_ne hij]
        · simp [getC, List.getElem?_set_ne hmk]

theorem getC_setM_ne {mem : Arena F} {m : Nat} {q : CRef} (hne : ∀ i, q ≠ .inside m i) (cm' : Manager F) :
    ({ mem with ms := mem.ms.set m cm' } : Arena F).getC q = mem.getC q := by
  cases q with
  | loose j => rfl
  | inside k j =>
    have : m ≠ k := fun h => hne j (by rw [h])
    simp [getC, List.getElem?_set_ne this]

theorem vec_setC {mem : Arena F} {r : CRef} (c' : Centroid F) (k : Nat) :
    ((mem.setC r c').ms[k]?).map (fun cm => cm.vec) = (mem.ms[k]?).map (fun cm => cm.vec) := by
  cases r with
  | loose i => rfl
  | inside m i =>
    cases h1 : mem.ms[m]? with
    | none => rw [setC_nil h1]
    | some cm =>
      rw [setC_inside h1]
      have hm : m < mem.ms.length := (List.getElem?_eq_some_iff.1 h1).1
      rcases eq_or_ne m k with rfl | hmk
      · simp [List.getElem?_set_self hm, h1]
      · simp [List.getElem?_set_ne hmk]

theorem length_setC {mem : Arena F} {r : CRef} (c' : Centroid F) : (mem.setC r c').ms.length = mem.ms.length := by
  cases r with
  | loose i => rfl
  | inside m i =>
    cases h1 : mem.ms[m]? with
    | none => rw [setC_nil h1]
    | some cm => rw [setC_inside h1]; simp

end Arena

theorem Spec.Fine.getC {mem : Arena F} (hf : Fine mem) {r : CRef} {c : Centroid F} (h : mem.getC r = some c) :
    SearchOK c.knn ∧ SearchOK c.kfn ∧ c.DimOK := by
  cases r with
  | loose i => exact hf.cs c (List.mem_of_getElem? h)
  | inside m i =>
    obtain ⟨cm, h1, h2⟩ := Option.bind_eq_some_iff.1 h
    have hw := (hf.ms cm (List.mem_of_getElem? h1)).wf
    have hc := List.mem_of_getElem? h2
    exact ⟨by rw [(hw.search c hc).1]; exact hw.good.1, by rw [(hw.search c hc).2]; exact hw.good.2, (hw.dim c hc).2⟩

theorem Spec.Fine.setM {mem : Arena F} (hf : Fine mem) {m : Nat} {cm' : Manager F} (h : cm'.WF) :
    Fine ({ mem with ms := mem.ms.set m cm' } : Arena F) :=
  ⟨fun x hx => (List.mem_or_eq_of_mem_set hx).elim (hf.ms x) (fun e => e ▸ h.ok), hf.cs⟩

theorem Spec.Fine.setC {mem : Arena F} (hf : Fine mem) {r : CRef} {c c' : Centroid F} (h : mem.getC r = some c) (he : Evolves c c') :
    Fine (mem.setC r c') := by
  have hd := he.dim (hf.getC h).2.2
  cases r with
  | loose i =>
    refine ⟨hf.ms, fun x hx => (List.mem_or_eq_of_mem_set hx).elim (hf.cs x) (fun e => ?_)⟩
    subst e
    have := hf.getC h
    exact ⟨by rw [he.search.1]; exact this.1, by rw [he.search.2]; exact this.2.1, hd.2⟩
  | inside m i =>
    obtain ⟨cm, h1, h2⟩ := Option.bind_eq_some_iff.1 h
    have hw := (hf.ms cm (List.mem_of_getElem? h1)).wf
    rw [Arena.setC_inside h1]
    exact hf.setM (hw.set h2 he.search hd)

theorem Spec.RefsKept.refl (mem : Arena F) : RefsKept mem mem := ⟨rfl, fun q c h => ⟨c, h, rfl, rfl, rfl⟩⟩

theorem Spec.RefsKept.trans {a b c : Arena F} (h : RefsKept a b) (h' : RefsKept b c) : RefsKept a c := by
  refine ⟨h'.ms.trans h.ms, fun q x hx => ?_⟩
  obtain ⟨y, hy, e1, e2, e3⟩ := h.refs q x hx
  obtain ⟨z, hz, f1, f2, f3⟩ := h'.refs q y hy
  exact ⟨z, hz, f1.trans e1, f2.trans e2, f3.trans e3⟩

theorem Spec.RefsKept.setC {mem : Arena F} (hf : Fine mem) {r : CRef} {c c' : Centroid F} (h : mem.getC r = some c) (he : Evolves c c') :
    RefsKept mem (mem.setC r c') := by
  refine ⟨Arena.length_setC c', fun q x hx => ?_⟩
  by_cases hq : q = r
  · subst hq
    rw [h] at hx; cases hx
    exact ⟨c', Arena.getC_setC_self h c', he.search.1, he.search.2, (he.dim (hf.getC h).2.2).1⟩
  · exact ⟨x, by rw [Arena.getC_setC_ne hq]; exact hx, rfl, rfl, rfl⟩

theorem Spec.RefsKept.setM {mem : Arena F} (hf : Fine mem) {m : Nat} {cm cm' : Manager F} (h : mem.ms[m]? = some cm) (hw : cm'.WF)
    (hs : Manager.Same cm cm') (hg : cm.centroids.length ≤ cm'.centroids.length)
    (hl : cm.centroids ≠ [] → cm'.vec.length = cm.vec.length) : RefsKept mem ({ mem with ms := mem.ms.set m cm' } : Arena F) := by
  refine ⟨by simp, fun q x hx => ?_⟩
  have hm : m < mem.ms.length := (List.getElem?_eq_some_iff.1 h).1
  by_cases hq : ∃ i, q = .inside m i
  · obtain ⟨i, rfl⟩ := hq
    obtain ⟨cm0, h1, h2⟩ := Option.bind_eq_some_iff.1 hx
    rw [h] at h1; cases h1
    have hi : i < cm.centroids.length := (List.getElem?_eq_some_iff.1 h2).1
    have hi' : i < cm'.centroids.length := by omega
    have hmem := List.getElem_mem hi'
    have hxm := List.mem_of_getElem? h2
    have hw0 := (hf.ms cm (List.mem_of_getElem? h)).wf
    refine ⟨cm'.centroids[i], by simp [Arena.getC, List.getElem?_set_self hm, List.getElem?_eq_getElem hi'], ?_, ?_, ?_⟩
    · rw [(hw.search _ hmem).1, hs.knn, (hw0.search x hxm).1]
    · rw [(hw.search _ hmem).2, hs.kfn, (hw0.search x hxm).2]
    · rw [(hw.dim _ hmem).1, hl (List.ne_nil_of_mem hxm), (hw0.dim x hxm).1]
  · refine ⟨x, ?_, rfl, rfl, rfl⟩
    rw [Arena.getC_setM_ne (fun i hi => hq ⟨i, hi⟩)]; exact hx

theorem Spec.Points.kept {mem mem' : Arena F} {r : RRef} (h : Points mem r) (hk : RefsKept mem mem') : Points mem' r := by
  cases r with
  | centroid q => obtain ⟨c, hc⟩ := h; obtain ⟨c', hc', _⟩ := hk.refs q c hc; exact ⟨c', hc'⟩
  | manager m => show m < _; rw [hk.ms]; exact h

namespace Manager

theorem AddShape.grows {tk : Nat → Int} {p p' : Nat} {cm cm' : Manager F} {d : DataPoint F} (h : AddShape tk p cm d cm' p') :
    cm.centroids.length ≤ cm'.centroids.length := by
  cases h with
  | first h0 => rw [h0]; simp
  | plain hc => simp [upd, updateVec]
  | split hc hl ht ht2 hp hsp =>
    have := hsp.same.2.2
    simp [this, upd, updateVec]

theorem AddShape.veclen {tk : Nat → Int} (hm : MonoClock tk) {p p' : Nat} {cm cm' : Manager F} (hw : cm.WF) {d : DataPoint F}
    (h : AddShape tk p cm d cm' p') (hne : cm.centroids ≠ []) : cm'.vec.length = cm.vec.length := by
  refine (h.eff hm hw).len (fun e he => ?_)
  rw [List.mem_singleton.1 he]
  cases h with
  | first h0 => exact absurd h0 hne
  | plain hc hl => rw [hl]; exact (hw.dim _ (List.mem_of_getElem? hc)).1
  | split hc hl => rw [hl]; exact (hw.dim _ (List.mem_of_getElem? hc)).1

end Manager

namespace Arena

theorem wp_derefC {mem : Arena F} {r : CRef} {c : Centroid F} (h : mem.getC r = some c) (Q : Centroid F → Nat → Prop) (p : Nat) :
    Go.wp (mem.derefC r) Q p ↔ Q c p := by
  unfold derefC
  rw [h]
  exact Go.wp_pure _ _ _

/-- What adding a datapoint to a receiver does. -/
structure Added (tk : Nat → Int) (p p' : Nat) (mem : Arena F) (r : RRef) (d : DataPoint F) (ok : Bool) (mem' : Arena F) : Prop where
  le : p ≤ p'
  fine : Fine mem'
  kept : RefsKept mem mem'
  no : ok = false → mem' = mem
  yes : ok = true → Conserved (tk p') (d :: inMem mem) (inMem mem') []
  frame : ∀ q, ¬ Reaches r q → mem'.getC q = mem.getC q
  grows : ∀ q c c', ¬ Holds r q → mem.getC q = some c → mem'.getC q = some c' → c.dps <+: c'.dps
  vecs : ∀ k, r ≠ .manager k → (mem'.ms[k]?).map (fun cm => cm.vec) = (mem.ms[k]?).map (fun cm => cm.vec)

theorem wp_addTo {tk : Nat → Int} (hm : MonoClock tk) {mem : Arena F} (hf : Fine mem) {r : RRef} (hr : Points mem r) (d : DataPoint F)
    (p : Nat) : Go.wp (mem.addTo tk r d) (fun a p' => Added tk p p' mem r d a.1 a.2 ∧
      (∀ q c, r = .centroid q → mem.getC q = some c → d.vec.length = c.vec.length → a.1 = false → Dead (tk p') d)) p := by
  cases r with
  | centroid r =>
    obtain ⟨c, hc⟩ := hr
    have hg := hf.getC hc
    unfold addTo
    simp only [Go.wp_bind, wp_derefC hc, Centroid.wp_addDataPoint, Go.wp_pure]
    have hsame : mem.setC r c = mem := by
      cases r with
      | loose i =>
        have hlt : i < mem.cs.length := (List.getElem?_eq_some_iff.1 hc).1
        have : mem.cs.set i c = mem.cs := by
          rw [← (List.getElem?_eq_some_iff.1 hc).2]; exact List.set_getElem_self hlt
        show ({ mem with cs := mem.cs.set i c } : Arena F) = mem; rw [this]
      | inside m i =>
        obtain ⟨cm, h1, h2⟩ := Option.bind_eq_some_iff.1 hc
        have hlt : i < cm.centroids.length := (List.getElem?_eq_some_iff.1 h2).1
        have hlt' : m < mem.ms.length := (List.getElem?_eq_some_iff.1 h1).1
        have e1 : cm.centroids.set i c = cm.centroids := by
          rw [← (List.getElem?_eq_some_iff.1 h2).2]; exact List.set_getElem_self hlt
        have e2 : mem.ms.set m cm = mem.ms := by
          rw [← (List.getElem?_eq_some_iff.1 h1).2]; exact List.set_getElem_self hlt'
        rw [setC_inside h1]; simp only [e1, e2]
    have hno : ∀ q, p ≤ q → Added tk p q mem (.centroid r) d false (mem.setC r c) := by
      intro q hq
      rw [hsame]
      exact ⟨hq, hf, .refl _, fun _ => rfl, by simp, fun _ _ => rfl,
        fun q c c' _ h1 h2 => by rw [h1] at h2; cases h2; exact List.prefix_refl _, fun _ _ => rfl⟩
    split
    · rename_i hl
      refine ⟨hno p (Nat.le_refl _), fun q x hq hx hl' _ => ?_⟩
      cases hq
      rw [hc] at hx; cases hx
      exact absurd hl' (by simpa using hl)
    · rename_i hl
      have hl' : d.vec.length = c.vec.length := by simpa using hl
      split
      · rename_i he
        exact ⟨hno (p + 1) (by omega), fun _ _ _ _ _ _ => ((expiredAt_iff _ _).1 he).mono hm (by omega)⟩
      · have hev := addRaw_evolves hl'
        have hh := inMem_setC hc (c.addRaw d)
        have hadd : (c.addRaw d).dps = c.dps ++ [d] := rfl
        refine ⟨⟨by omega, hf.setC hc hev, .setC hf hc hev, by simp, fun _ => ⟨[], ?_, by simp⟩, fun q hq => ?_,
          fun q x y hq hx hy => ?_, fun k _ => vec_setC _ k⟩, by simp⟩
        · rw [hadd] at hh
          permc [hh]
        · exact getC_setC_ne (fun h => hq (.inl (by rw [h]))) _
        · by_cases hqr : q = r
          · subst hqr
            rw [hc] at hx; cases hx
            rw [getC_setC_self hc] at hy; cases hy
            exact List.prefix_append _ _
          · rw [getC_setC_ne hqr, hx] at hy; cases hy
            exact List.prefix_refl _
  | manager m =>
    have hlt : m < mem.ms.length := hr
    have hcm : mem.ms[m]? = some mem.ms[m] := List.getElem?_eq_getElem hlt
    generalize mem.ms[m] = cm at hcm
    have hw := (hf.ms cm (List.mem_of_getElem? hcm)).wf
    unfold addTo
    simp only [Go.wp_bind, Go.wp_idx, Go.wp_pure]
    refine ⟨cm, hcm, Go.wp_mono (Manager.wp_addDataPoint hm hw d p) (fun a p' ha => ⟨?_, fun q c hq => by simp at hq⟩)⟩
    obtain ⟨h1, h2, h3, _, _⟩ := ha
    obtain ⟨ok, cm'⟩ := a
    cases ok with
    | false =>
      have e := h2 rfl
      simp only at e
      subst e
      have e2 : mem.ms.set m cm' = mem.ms := by
        rw [← (List.getElem?_eq_some_iff.1 hcm).2]; exact List.set_getElem_self hlt
      simp only [e2]
      exact ⟨h1, hf, .refl _, fun _ => rfl, by simp, fun _ _ => rfl,
        fun q c c' _ h1 h2 => by rw [h1] at h2; cases h2; exact List.prefix_refl _, fun _ _ => rfl⟩
    | true =>
      have hs := h3 rfl
      simp only at hs
      have he := hs.eff hm hw
      refine ⟨h1, hf.setM he.wf, .setM hf hcm he.wf he.same hs.grows (hs.veclen hm hw), by simp, fun _ => ?_, fun q hq => ?_,
        fun q x y hq hx hy => ?_, fun k hk => ?_⟩
      · obtain ⟨lost, e1, e2⟩ := he.conserved
        have hh := inMem_setM hcm cm'
        refine ⟨lost, ?_, e2⟩
        unfold stored at hh
        unfold flat at e1
        simp only at hh ⊢
        permc [e1, hh]
      · exact getC_setM_ne (fun i hi => hq (.inr ⟨m, i, rfl, hi⟩)) _
      · have hy' : mem.getC q = some y := by
          rw [← hy]; exact (getC_setM_ne (fun i hi => hq ⟨m, i, rfl, hi⟩) _).symm
        rw [hx] at hy'; cases hy'
        exact List.prefix_refl _
      · have : m ≠ k := fun h => hk (by rw [h])
        simp [List.getElem?_set_ne this]

/-- What giving the datapoints `ds`, taken from `self`, to receivers does. -/
structure Spread (tk : Nat → Int) (p p' : Nat) (mem : Arena F) (me : CRef) (receivers : List RRef) (ds : List (DataPoint F))
    (mem' : Arena F) : Prop where
  le : p ≤ p'
  fine : Fine mem'
  kept : RefsKept mem mem'
  conserved : Conserved (tk p') (inMem mem ++ ds) (inMem mem') []
  frame : ∀ q, q ≠ me → (∀ r ∈ receivers, ¬ Reaches r q) → mem'.getC q = mem.getC q
  grows : ∀ q c c', (∀ r ∈ receivers, ¬ Holds r q) → mem.getC q = some c → mem'.getC q = some c' → c.dps <+: c'.dps
  vecs : ∀ k, (∀ r ∈ receivers, r ≠ .manager k) → (mem'.ms[k]?).map (fun cm => cm.vec) = (mem.ms[k]?).map (fun cm => cm.vec)

theorem not_holds_self (r q : CRef) : ¬ Holds (.centroid r) q := by
  rintro ⟨m, i, h, _⟩; cases h

/-- One datapoint added, then the rest spread. -/
theorem Added.spread {tk : Nat → Int} {p q p' : Nat} {mem mem1 mem' : Arena F} {self : CRef} {receivers : List RRef}
    {d : DataPoint F} {ds : List (DataPoint F)} {r : RRef} (hr : r = .centroid self ∨ r ∈ receivers)
    (ha : Added tk p q mem r d true mem1) (hs : Spread tk q p' mem1 self receivers ds mem') (hm : MonoClock tk) :
    Spread tk p p' mem self receivers (d :: ds) mem' := by
  refine ⟨Nat.le_trans ha.le hs.le, hs.fine, ha.kept.trans hs.kept, ?_, fun k hk h => ?_, fun k x y h hx hy => ?_, fun k h => ?_⟩
  · obtain ⟨l1, e1, e1'⟩ := (ha.yes rfl).mono hm hs.le
    obtain ⟨l2, e2, e2'⟩ := hs.conserved
    exact ⟨l1 ++ l2, by permc [e1, e2], fun d hd => (List.mem_append.1 hd).elim (e1' d) (e2' d)⟩
  · rw [hs.frame k hk h, ha.frame k]
    rcases hr with rfl | hr
    · rintro (h' | ⟨m, i, h', _⟩)
      · cases h'; exact hk rfl
      · cases h'
    · exact h r hr
  · obtain ⟨z, hz, _⟩ := ha.kept.refs k x hx
    refine (ha.grows k x z ?_ hx hz).trans (hs.grows k z y h hz hy)
    rcases hr with rfl | hr
    · exact not_holds_self _ _
    · exact h r hr
  · rw [hs.vecs k h, ha.vecs k]
    rcases hr with rfl | hr
    · simp
    · exact h r hr

theorem wp_distributeLoop {tk : Nat → Int} (hm : MonoClock tk) (self : CRef) (receivers : List RRef) :
    ∀ (ds : List (DataPoint F)) (mem : Arena F) (p : Nat) (c : Centroid F), Fine mem → mem.getC self = some c →
      (∀ r ∈ receivers, Points mem r) → (∀ d ∈ ds, d.vec.length = c.vec.length) →
      Go.wp (distributeLoop tk self receivers ds mem) (fun mem' p' => Spread tk p p' mem self receivers ds mem') p
  | [], mem, p, c, hf, hc, hr, hd => by
    unfold distributeLoop
    rw [Go.wp_pure]
    exact ⟨Nat.le_refl _, hf, .refl _, by simpa using Conserved.refl _ _, fun _ _ _ => rfl,
      fun q c c' _ h1 h2 => by rw [h1] at h2; cases h2; exact List.prefix_refl _, fun _ _ => rfl⟩
  | d :: ds, mem, p, c, hf, hc, hr, hd => by
    unfold distributeLoop
    simp only [Go.wp_bind, wp_derefC hc, Go.wp_lift]
    obtain ⟨is, h1, h2, h3, h4⟩ := (hf.getC hc).1 d.vec (receivers.map mem.vecOf) 1 (by omega)
    refine ⟨is, h1, ?_⟩
    have next : ∀ (mem1 : Arena F) (q : Nat), Fine mem1 → RefsKept mem mem1 →
        Go.wp (distributeLoop tk self receivers ds mem1) (fun mem' p' => Spread tk q p' mem1 self receivers ds mem') q := by
      intro mem1 q hf1 hk1
      obtain ⟨c1, hc1, _, _, hl1⟩ := hk1.refs self c hc
      exact wp_distributeLoop hm self receivers ds mem1 q c1 hf1 hc1 (fun r h => (hr r h).kept hk1)
        (fun e he => by rw [hl1]; exact hd e (by simp [he]))
    have back : ∀ q, p ≤ q → Go.wp (do let r ← mem.addTo tk (.centroid self) d; distributeLoop tk self receivers ds r.2)
        (fun mem' p' => Spread tk p p' mem self receivers (d :: ds) mem') q := by
      intro q hq
      rw [Go.wp_bind]
      refine Go.wp_mono (wp_addTo hm hf (r := .centroid self) ⟨c, hc⟩ d q) (fun a p1 ha => ?_)
      obtain ⟨ha, hdead⟩ := ha
      obtain ⟨ok, mem1⟩ := a
      refine Go.wp_mono (next mem1 p1 ha.fine ha.kept) (fun mem' p' hs => ?_)
      cases ok with
      | true =>
        have h := ha.spread (.inl rfl) hs hm
        exact ⟨Nat.le_trans hq h.le, h.fine, h.kept, h.conserved, h.frame, h.grows, h.vecs⟩
      | false =>
        have e := ha.no rfl
        simp only at e
        subst e
        have hdd := hdead self c rfl hc (hd d (by simp)) rfl
        refine ⟨Nat.le_trans hq (Nat.le_trans ha.le hs.le), hs.fine, hs.kept, ?_, hs.frame, hs.grows, hs.vecs⟩
        obtain ⟨l, e1, e2⟩ := hs.conserved
        refine ⟨d :: l, by permc [e1], fun e he => ?_⟩
        rcases List.mem_cons.1 he with rfl | he
        · exact hdd.mono hm hs.le
        · exact e2 e he
    cases is with
    | nil =>
      simp only []
      exact back p (Nat.le_refl _)
    | cons j js =>
      simp only [Go.wp_bind, Go.wp_idx]
      have hj : j < receivers.length := by simpa using h3 j (by simp)
      refine ⟨receivers[j], List.getElem?_eq_getElem hj, ?_⟩
      have hmem := List.getElem_mem hj
      generalize receivers[j] = rj at hmem
      refine Go.wp_mono (wp_addTo hm hf (hr rj hmem) d p) (fun a p1 ha => ?_)
      obtain ⟨ha, _⟩ := ha
      obtain ⟨ok, mem1⟩ := a
      cases ok with
      | true =>
        simp only [if_true]
        exact Go.wp_mono (next mem1 p1 ha.fine ha.kept) (fun mem' p' hs => ha.spread (.inr hmem) hs hm)
      | false =>
        have e := ha.no rfl
        simp only at e
        subst e
        simp only [Bool.false_eq_true, if_false]
        exact back p1 ha.le

/-- `DistributeDataPoints` of a centroid. -/
theorem wp_distributeC {tk : Nat → Int} (hm : MonoClock tk) {mem : Arena F} (hf : Fine mem) {self : CRef} {c : Centroid F}
    (hc : mem.getC self = some c) {n : Int} (hn : 0 ≤ n) {receivers : List RRef} (hr : ∀ r ∈ receivers, Points mem r) (p : Nat) :
    Go.wp (mem.distributeC tk self n receivers) (fun mem' p' => p ≤ p' ∧ Fine mem' ∧ RefsKept mem mem' ∧
      Conserved (tk p') (inMem mem) (inMem mem') [] ∧
      (∀ q, q ≠ self → (∀ r ∈ receivers, ¬ Reaches r q) → mem'.getC q = mem.getC q) ∧
      (∀ q x y, q ≠ self → (∀ r ∈ receivers, ¬ Holds r q) → mem.getC q = some x → mem'.getC q = some y → x.dps <+: y.dps) ∧
      (∀ k, (∀ r ∈ receivers, r ≠ .manager k) → (mem'.ms[k]?).map (fun cm => cm.vec) = (mem.ms[k]?).map (fun cm => cm.vec)) ∧
      (∀ c', (∀ r ∈ receivers, ¬ Holds r self) → mem'.getC self = some c' →
        ((inMem mem').length + c.dps.length : Int) ≤ (inMem mem).length + c'.dps.length + n)) p := by
  unfold distributeC
  rw [Go.wp_ite]
  refine ⟨fun _ => ?_, fun _ => ?_⟩
  · rw [Go.wp_pure]
    refine ⟨Nat.le_refl _, hf, .refl _, Conserved.refl _ _, fun _ _ _ => rfl,
      fun q x y _ _ h1 h2 => by rw [h1] at h2; cases h2; exact List.prefix_refl _, fun _ _ => rfl, fun c' _ h => ?_⟩
    rw [hc] at h; cases h; omega
  · simp only [Go.wp_bind, wp_derefC hc]
    have hg := hf.getC hc
    refine Go.wp_mono (Centroid.wp_drainOrdered hm c hg.2.1 hn p) (fun r p1 hdr => ?_)
    obtain ⟨e1, ⟨removed, e2⟩, ⟨lost, e3, e3'⟩, e4, e5, e6⟩ := hdr.facts
    have hdim := e2.dim hg.2.2
    have hk := Spec.RefsKept.setC hf hc e2.evolves
    have hh := inMem_setC hc r.2
    have hself := getC_setC_self hc r.2
    refine Go.wp_mono (wp_distributeLoop hm self receivers r.1 (mem.setC self r.2) p1 r.2 (hf.setC hc e2.evolves) hself
      (fun x hx => (hr x hx).kept hk) (fun d hd => by rw [hdim.1]; exact hg.2.2 d (e6 d hd))) (fun mem' p2 hs => ?_)
    obtain ⟨lost', k4, k5⟩ := hs.conserved
    refine ⟨Nat.le_trans e1 hs.le, hs.fine, hk.trans hs.kept, ⟨lost' ++ lost, by permc [k4, hh, e3], fun d hd => ?_⟩,
      fun q hq h => ?_, fun q x y hq h hx hy => ?_, fun k h => ?_, fun c' h hc' => ?_⟩
    · exact (List.mem_append.1 hd).elim (k5 d) (fun h => (e3' d h).mono hm hs.le)
    · rw [hs.frame q hq h, getC_setC_ne hq]
    · exact hs.grows q x y h (by rw [getC_setC_ne hq]; exact hx) hy
    · rw [hs.vecs k h, vec_setC]
    · have hl := k4.length_eq
      have hl2 := hh.length_eq
      have hp := (hs.grows self r.2 c' h hself hc').length_le
      simp only [List.length_append, List.length_nil] at hl hl2
      omega

theorem wp_portionLoop {tk : Nat → Int} (hm : MonoClock tk) (m : Nat) (receivers : List RRef) :
    ∀ (es : List (Nat × Nat)) (mem : Arena F) (p : Nat), Fine mem → (∀ r ∈ receivers, Points mem r) →
      (∀ e ∈ es, ∃ c, mem.getC (.inside m e.1) = some c) →
      Go.wp (portionLoop tk m receivers es mem) (fun mem' p' => p ≤ p' ∧ Fine mem' ∧ RefsKept mem mem' ∧
        Conserved (tk p') (inMem mem) (inMem mem') [] ∧
        (∀ q, (∀ i, q ≠ .inside m i) → (∀ r ∈ receivers, ¬ Reaches r q) → mem'.getC q = mem.getC q) ∧
        (∀ q x y, (∀ i, q ≠ .inside m i) → (∀ r ∈ receivers, ¬ Holds r q) → mem.getC q = some x → mem'.getC q = some y →
          x.dps <+: y.dps) ∧
        (∀ k, (∀ r ∈ receivers, r ≠ .manager k) →
          (mem'.ms[k]?).map (fun cm => cm.vec) = (mem.ms[k]?).map (fun cm => cm.vec))) p
  | [], mem, p, hf, _, _ => by
    unfold portionLoop
    rw [Go.wp_pure]
    exact ⟨Nat.le_refl _, hf, .refl _, Conserved.refl _ _, fun _ _ _ => rfl,
      fun q x y _ _ h1 h2 => by rw [h1] at h2; cases h2; exact List.prefix_refl _, fun _ _ => rfl⟩
  | (i, portion) :: es, mem, p, hf, hr, he => by
    unfold portionLoop
    rw [Go.wp_bind]
    obtain ⟨c, hc⟩ := he (i, portion) (by simp)
    refine Go.wp_mono (wp_distributeC hm hf hc (n := (portion : Int)) (by omega) hr p) (fun mem1 p1 h1 => ?_)
    obtain ⟨a1, a2, a3, ⟨l1, a4, a4'⟩, a5, a6, a7, _⟩ := h1
    refine Go.wp_mono (wp_portionLoop hm m receivers es mem1 p1 a2 (fun r h => (hr r h).kept a3) (fun e h => ?_)) (fun mem' p' h2 => ?_)
    · obtain ⟨c, hc⟩ := he e (by simp [h])
      obtain ⟨c', hc', _⟩ := a3.refs _ c hc
      exact ⟨c', hc'⟩
    · obtain ⟨b1, b2, b3, ⟨l2, b4, b4'⟩, b5, b6, b7⟩ := h2
      refine ⟨Nat.le_trans a1 b1, b2, a3.trans b3, ⟨l1 ++ l2, by permc [a4, b4], fun d hd => ?_⟩, fun q hq h => ?_,
        fun q x y hq h hx hy => ?_, fun k h => ?_⟩
      · exact (List.mem_append.1 hd).elim (fun h => (a4' d h).mono hm b1) (b4' d)
      · rw [b5 q hq h, a5 q (hq i) h]
      · obtain ⟨z, hz, _⟩ := a3.refs q x hx
        exact (a6 q x z (hq i) h hx hz).trans (b6 q z y hq h hz hy)
      · rw [b7 k h, a7 k h]

/-- `DistributeDataPoints` of a manager. -/
theorem wp_distributeM {tk : Nat → Int} (hm : MonoClock tk) {ord : List (Nat × Nat) → List (Nat × Nat)} (ho : Manager.OrdOK ord)
    {mem : Arena F} (hf : Fine mem) {m : Nat} {cm : Manager F} (hcm : mem.ms[m]? = some cm) (n : Int) {receivers : List RRef}
    (hne : receivers ≠ []) (hr : ∀ r ∈ receivers, Points mem r) (p : Nat) :
    Go.wp (mem.distributeM tk ord m n receivers) (fun mem' p' => p ≤ p' ∧ Fine mem' ∧ RefsKept mem mem' ∧
      Conserved (tk p') (inMem mem) (inMem mem') [] ∧
      (∀ q, (∀ i, q ≠ .inside m i) → (∀ r ∈ receivers, ¬ Reaches r q) → mem'.getC q = mem.getC q) ∧
      (∀ q x y, (∀ i, q ≠ .inside m i) → (∀ r ∈ receivers, ¬ Holds r q) → mem.getC q = some x → mem'.getC q = some y →
        x.dps <+: y.dps) ∧
      (∀ k, k ≠ m → (∀ r ∈ receivers, r ≠ .manager k) →
        (mem'.ms[k]?).map (fun cm => cm.vec) = (mem.ms[k]?).map (fun cm => cm.vec)) ∧
      ∃ cm', mem'.ms[m]? = some cm' ∧ (cm.centroids ≠ [] → (vecMean cm'.centroidVecs).2 = true ∧ cm'.vec = (vecMean cm'.centroidVecs).1)) p := by
  unfold distributeM
  rw [Go.wp_ite]
  refine ⟨fun h => absurd (List.length_eq_zero_iff.1 h) hne, fun _ => ?_⟩
  simp only [Go.wp_bind, Go.wp_idx, Go.wp_pure]
  refine ⟨cm, hcm, Go.wp_mono (wp_portionLoop hm m receivers _ mem p hf hr (fun e he => ?_)) (fun mem1 p1 h1 => ?_)⟩
  · have hlt := Manager.ord_lt ho e he
    exact ⟨cm.centroids[e.1], by simp [getC, hcm, List.getElem?_eq_getElem hlt]⟩
  · obtain ⟨a1, a2, a3, ⟨l1, a4, a4'⟩, a5, a6, a7⟩ := h1
    have hlt : m < mem1.ms.length := by rw [a3.ms]; exact (List.getElem?_eq_some_iff.1 hcm).1
    have hcm1 : mem1.ms[m]? = some mem1.ms[m] := List.getElem?_eq_getElem hlt
    generalize mem1.ms[m] = cm1 at hcm1
    have hw := (a2.ms cm1 (List.mem_of_getElem? hcm1)).wf
    refine ⟨cm1, hcm1, Go.wp_mono (Manager.wp_moveVector hm hw p1) (fun r p2 hmv => ?_)⟩
    obtain ⟨t1, t2, t3, t4⟩ := hmv
    have hlen := t3.length_eq
    have hh := inMem_setM hcm1 r.2
    refine ⟨Nat.le_trans a1 t1.le, a2.setM t1.wf, a3.trans (.setM a2 hcm1 t1.wf t1.same (Nat.le_of_eq hlen) (fun _ => t1.len (by simp))),
      ?_, fun q hq h => ?_, fun q x y hq h hx hy => ?_, fun k hk h => ?_, r.2, List.getElem?_set_self hlt, fun h => t4 (t2.2 ?_)⟩
    · obtain ⟨l2, e2, e2'⟩ := t1.conserved
      refine ⟨l1 ++ l2, ?_, fun d hd => (List.mem_append.1 hd).elim (fun h => (a4' d h).mono hm t1.le) (e2' d)⟩
      unfold stored at hh
      unfold flat at e2
      permc [a4, e2, hh]
    · rw [getC_setM_ne hq, a5 q hq h]
    · exact a6 q x y hq h hx (by rw [← hy]; exact (getC_setM_ne hq _).symm)
    · rw [List.getElem?_set_ne (fun e => hk e.symm), a7 k h]
    · intro h0
      cases hcs : cm.centroids with
      | nil => exact h hcs
      | cons c cs =>
        obtain ⟨c', hc', _⟩ := a3.refs (.inside m 0) c (by simp [getC, hcm, hcs])
        simp [getC, hcm1, h0] at hc'

end Arena
end Trypo
