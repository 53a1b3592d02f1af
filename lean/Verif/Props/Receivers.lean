import Verif.Proofs.Receivers
import Verif.Props.Place
import Verif.Proofs.F64Drift2

/-!
# C116, C117: distributing datapoints to any mix of centroids and managers
-/

set_option linter.unusedSectionVars false
set_option linter.unusedVariables false

namespace Trypo
open GoFloat Spec

variable {F : Type} [GoFloat F]

/-! ### C116 -/

/-- C116 for a centroid. The receivers may be centroids and managers, repeated, the centroid itself, or the manager that holds it and
may split it meanwhile. No datapoint is lost or duplicated (expired ones may go). Everything stays consistent, and whatever is
neither the giver nor reachable through a receiver is left alone. Centroids that are not inMem by a receiving manager keep what they
had; unless the giver is, at most `n` datapoints leave it. -/
theorem C116_centroid {tk : Nat → Int} (hm : MonoClock tk) {mem : Arena F} (hf : Fine mem) {me : CRef} {c : Centroid F}
    (hc : mem.getC me = some c) {n : Int} (hn : 0 ≤ n) {receivers : List RRef} (hr : ∀ r ∈ receivers, Points mem r) (p : Nat) :
    ∃ mem' p', mem.distributeC tk me n receivers p = .ok (mem', p') ∧ Fine mem' ∧ RefsKept mem mem' ∧
      Conserved (tk p') (inMem mem) (inMem mem') [] ∧
      (∀ q, q ≠ me → (∀ r ∈ receivers, ¬ Reaches r q) → mem'.getC q = mem.getC q) ∧
      (∀ q x y, q ≠ me → (∀ r ∈ receivers, ¬ Holds r q) → mem.getC q = some x → mem'.getC q = some y → x.dps <+: y.dps) ∧
      (∀ k, (∀ r ∈ receivers, r ≠ .manager k) → (mem'.ms[k]?).map (fun cm => cm.vec) = (mem.ms[k]?).map (fun cm => cm.vec)) ∧
      (∀ c', (∀ r ∈ receivers, ¬ Holds r me) → mem'.getC me = some c' →
        ((inMem mem').length + c.dps.length : Int) ≤ (inMem mem).length + c'.dps.length + n) := by
  obtain ⟨mem', p', h0, _, h⟩ := Go.wp_iff.1 (Arena.wp_distributeC hm hf hc hn hr p)
  exact ⟨mem', p', h0, h⟩

/-- C116 for a manager. The manager itself may be among the receivers, as may be its centroids and other managers with theirs. In the
end its vector is the mean of the vectors of its centroids. -/
theorem C116_manager {tk : Nat → Int} (hm : MonoClock tk) {ord : List (Nat × Nat) → List (Nat × Nat)} (ho : MapOrder ord)
    {mem : Arena F} (hf : Fine mem) {m : Nat} {cm : Manager F} (hcm : mem.ms[m]? = some cm) (n : Int) {receivers : List RRef}
    (hne : receivers ≠ []) (hr : ∀ r ∈ receivers, Points mem r) (p : Nat) :
    ∃ mem' p', mem.distributeM tk ord m n receivers p = .ok (mem', p') ∧ Fine mem' ∧ RefsKept mem mem' ∧
      Conserved (tk p') (inMem mem) (inMem mem') [] ∧
      (∀ q, (∀ i, q ≠ .inside m i) → (∀ r ∈ receivers, ¬ Reaches r q) → mem'.getC q = mem.getC q) ∧
      (∀ q x y, (∀ i, q ≠ .inside m i) → (∀ r ∈ receivers, ¬ Holds r q) → mem.getC q = some x → mem'.getC q = some y →
        x.dps <+: y.dps) ∧
      (∀ k, k ≠ m → (∀ r ∈ receivers, r ≠ .manager k) →
        (mem'.ms[k]?).map (fun cm => cm.vec) = (mem.ms[k]?).map (fun cm => cm.vec)) ∧
      ∃ cm', mem'.ms[m]? = some cm' ∧
        (cm.centroids ≠ [] → vecMean (cm'.centroids.map (fun c => c.vec)) = (cm'.vec, true)) := by
  obtain ⟨mem', p', h0, _, h1, h2, h3, h4, h5, h6, cm', h7, h8⟩ := Go.wp_iff.1 (Arena.wp_distributeM hm ho hf hcm n hne hr p)
  refine ⟨mem', p', h0, h1, h2, h3, h4, h5, h6, cm', h7, fun h => ?_⟩
  obtain ⟨e1, e2⟩ := h8 h
  unfold Manager.centroidVecs at e1 e2
  rw [e2, ← e1]

/-- C116, no receivers. -/
theorem C116_none {tk : Nat → Int} {ord : List (Nat × Nat) → List (Nat × Nat)} (mem : Arena F) (me : CRef) (m : Nat) (n : Int) :
    mem.distributeC tk me n [] = pure mem ∧ mem.distributeM tk ord m n [] = pure mem := ⟨rfl, rfl⟩

/-! ### Centroids as receivers are the special case studied elsewhere -/

namespace Arena

/-- The memory made of the manager `cm`, whose centroids are the first `L` of `h`, and of the others of `h`. -/
def split (cm : Manager F) (L : Nat) (h : List (Centroid F)) : Arena F := ⟨[{ cm with centroids := h.take L }], h.drop L⟩

/-- The pointer to position `i`. -/
def refOf (L i : Nat) : CRef := if i < L then .inside 0 i else .loose (i - L)

theorem getC_split (cm : Manager F) {L : Nat} {h : List (Centroid F)} (i : Nat) :
    (split cm L h).getC (refOf L i) = h[i]? := by
  unfold refOf split getC
  split
  · rename_i r j heq
    split at heq
    · cases heq
    · cases heq
      simp only [List.getElem?_drop]
      congr 1; omega
  · rename_i r m j heq
    split at heq
    · cases heq
      rename_i hlt
      simp [List.getElem?_take, hlt]
    · cases heq

theorem setC_split (cm : Manager F) {L : Nat} {h : List (Centroid F)} {i : Nat} (c : Centroid F) :
    (split cm L h).setC (refOf L i) c = split cm L (h.set i c) := by
  unfold refOf
  split
  · rename_i hlt
    rw [setC_inside (cm := { cm with centroids := h.take L }) rfl]
    simp only [split, List.set_cons_zero, List.take_set, List.drop_set_of_lt hlt]
  · rename_i hlt
    show (⟨_, _⟩ : Arena F) = _
    simp only [split, List.drop_set, if_neg hlt]
    congr 2
    rw [List.take_set_of_le (by omega)]

theorem derefC_split (cm : Manager F) {L : Nat} {h : List (Centroid F)} {i : Nat} (hi : i < h.length) :
    (split cm L h).derefC (refOf L i) = Go.idx h i := by
  unfold derefC Go.idx
  rw [getC_split]
  simp [List.getElem?_eq_getElem hi]

theorem idx_ok {α : Type} {l : List α} {i : Nat} {a : α} (h : l[i]? = some a) : Go.idx l i = pure a := by
  unfold Go.idx; rw [h]

theorem vecs_split (cm : Manager F) {L : Nat} {h : List (Centroid F)} (receivers : List Nat) :
    (receivers.map (fun i => RRef.centroid (refOf L i))).map (split cm L h).vecOf = Centroid.receiverVecs h receivers := by
  unfold Centroid.receiverVecs
  rw [List.map_map]
  refine List.map_congr_left (fun i _ => ?_)
  simp only [Function.comp, vecOf, getC_split]
  cases h[i]? <;> rfl

theorem addTo_split (tk : Nat → Int) (cm : Manager F) {L : Nat} {h : List (Centroid F)} {i : Nat} (hi : i < h.length) (d : DataPoint F) :
    (split cm L h).addTo tk (.centroid (refOf L i)) d =
      (do let c ← Go.idx h i; let a ← c.addDataPoint tk d; pure (a.1, split cm L (h.set i a.2))) := by
  unfold addTo
  simp only [derefC_split cm hi, setC_split]

theorem distributeLoop_split (tk : Nat → Int) (cm : Manager F) (L me : Nat) (receivers : List Nat) :
    ∀ (ds : List (DataPoint F)) (h : List (Centroid F)), me < h.length → (∀ r ∈ receivers, r < h.length) →
      distributeLoop tk (refOf L me) (receivers.map (fun i => .centroid (refOf L i))) ds (split cm L h) =
        (do let h' ← Centroid.distributeLoop tk me receivers ds h; pure (split cm L h'))
  | [], h, _, _ => by simp [distributeLoop, Centroid.distributeLoop]
  | d :: ds, h, hme, hr => by
    have ih : ∀ (x : Centroid F) (i : Nat), distributeLoop tk (refOf L me) (receivers.map (fun i => .centroid (refOf L i))) ds (split cm L (h.set i x)) =
        (do let h' ← Centroid.distributeLoop tk me receivers ds (h.set i x); pure (split cm L h')) :=
      fun x i => distributeLoop_split tk cm L me receivers ds (h.set i x) (by simpa using hme) (by simpa using hr)
    have hc : h[me]? = some h[me] := List.getElem?_eq_getElem hme
    unfold distributeLoop Centroid.distributeLoop
    rw [derefC_split cm hme, vecs_split, idx_ok hc]
    simp only [bind_assoc, pure_bind]
    congr 1; funext is
    cases is with
    | nil => simp only [addTo_split tk cm hme, idx_ok hc, bind_assoc, pure_bind, ih]
    | cons j js =>
      simp only [bind_assoc]
      by_cases hj : j < receivers.length
      · have hrj : receivers[j]? = some receivers[j] := List.getElem?_eq_getElem hj
        have hlt := hr _ (List.getElem_mem hj)
        have hx : h[receivers[j]]? = some h[receivers[j]] := List.getElem?_eq_getElem hlt
        rw [idx_ok hrj, idx_ok (a := RRef.centroid (refOf L receivers[j])) (by rw [List.getElem?_map, hrj]; rfl)]
        simp only [pure_bind, addTo_split tk cm hlt, idx_ok hx, bind_assoc]
        congr 1; funext a
        cases a.1 with
        | true => simp only [if_true, ih]
        | false =>
          simp only [Bool.false_eq_true, if_false, bind_assoc]
          have hme' : me < (h.set receivers[j] a.2).length := by simpa using hme
          have ih2 := fun (x : Centroid F) => distributeLoop_split tk cm L me receivers ds ((h.set receivers[j] a.2).set me x) (by simpa using hme) (by simpa using hr)
          simp only [addTo_split tk cm hme', bind_assoc, pure_bind, ih2]
      · have e1 : Go.idx receivers j = Go.panic .index := by
          unfold Go.idx; rw [List.getElem?_eq_none (by omega)]
        have e2 : Go.idx (receivers.map (fun i => RRef.centroid (refOf L i))) j = Go.panic .index := by
          unfold Go.idx; rw [List.getElem?_eq_none (by simp; omega)]
        rw [e1, e2]
        rfl

theorem distributeC_split (tk : Nat → Int) (cm : Manager F) (L : Nat) {h : List (Centroid F)} {me : Nat} (hme : me < h.length) (n : Int)
    {receivers : List Nat} (hr : ∀ r ∈ receivers, r < h.length) :
    (split cm L h).distributeC tk (refOf L me) n (receivers.map (fun i => .centroid (refOf L i))) =
      (do let h' ← Centroid.distribute tk h me n receivers; pure (split cm L h')) := by
  unfold distributeC Centroid.distribute
  simp only [List.length_map]
  split
  · simp
  · rw [derefC_split cm hme]
    simp only [bind_assoc, setC_split]
    congr 1; funext c
    congr 1; funext r
    exact distributeLoop_split tk cm L me receivers r.1 _ (by simpa using hme) (by simpa using hr)

theorem wlp_loop_length {tk : Nat → Int} (me : Nat) (receivers : List Nat) :
    ∀ (ds : List (DataPoint F)) (h : List (Centroid F)) (p : Nat),
      Go.wlp (Centroid.distributeLoop tk me receivers ds h) (fun h' _ => h'.length = h.length) p
  | [], h, p => by
    unfold Centroid.distributeLoop
    exact Go.wlp_pure rfl
  | d :: ds, h, p => by
    unfold Centroid.distributeLoop
    have go : ∀ (h1 : List (Centroid F)) (q : Nat), h1.length = h.length →
        Go.wlp (Centroid.distributeLoop tk me receivers ds h1) (fun h' _ => h'.length = h.length) q :=
      fun h1 q e => Go.wlp_mono (wlp_loop_length me receivers ds h1 q) (fun h' _ h => h.trans e)
    refine Go.wlp_bind (Go.wlp_any fun c q => Go.wlp_bind (Go.wlp_any fun is q => ?_))
    cases is with
    | nil => exact Go.wlp_bind (Go.wlp_any fun r q => go _ _ (by simp))
    | cons j js =>
      refine Go.wlp_bind (Go.wlp_any fun rj q => Go.wlp_bind (Go.wlp_any fun rc q => Go.wlp_bind (Go.wlp_any fun r q => ?_)))
      show Go.wlp (if r.1 = true then _ else _) _ q
      split
      · exact go _ _ (by simp)
      · exact Go.wlp_bind (Go.wlp_any fun c1 q => Go.wlp_bind (Go.wlp_any fun r q => go _ _ (by simp)))

theorem wlp_distribute_length {tk : Nat → Int} (h : List (Centroid F)) (me : Nat) (n : Int) (receivers : List Nat) (p : Nat) :
    Go.wlp (Centroid.distribute tk h me n receivers) (fun h' _ => h'.length = h.length) p := by
  unfold Centroid.distribute
  split
  · exact Go.wlp_pure rfl
  · exact Go.wlp_bind (Go.wlp_any fun c q => Go.wlp_bind (Go.wlp_any fun r q =>
      Go.wlp_mono (wlp_loop_length me receivers r.1 _ q) (fun h' _ h => h.trans (by simp))))

/-- Two programs that go on alike with every result of the first part go on alike. -/
theorem bind_congr_wlp {α β : Type} {m : Go α} {f g : α → Go β} {P : α → Prop} (h : ∀ p, Go.wlp m (fun a _ => P a) p)
    (hfg : ∀ a, P a → f a = g a) : (m >>= f) = (m >>= g) := by
  funext p
  show (StateT.bind m f) p = (StateT.bind m g) p
  unfold StateT.bind
  cases hm : m p with
  | error e => rfl
  | ok r =>
    have := h p r.1 r.2 hm
    show f r.1 r.2 = g r.1 r.2
    rw [hfg _ this]

theorem portionLoop_split (tk : Nat → Int) (cm : Manager F) (L : Nat) (receivers : List Nat) :
    ∀ (es : List (Nat × Nat)) (h : List (Centroid F)), L ≤ h.length → (∀ e ∈ es, e.1 < L) → (∀ r ∈ receivers, r < h.length) →
      portionLoop tk 0 (receivers.map (fun i => .centroid (refOf L i))) es (split cm L h) =
        (do let h' ← Manager.distributeLoop tk receivers es h; pure (split cm L h'))
  | [], h, _, _, _ => by simp [portionLoop, Manager.distributeLoop]
  | (i, n) :: es, h, hL, he, hr => by
    have hi : i < L := he (i, n) (by simp)
    unfold portionLoop Manager.distributeLoop
    have e : CRef.inside 0 i = refOf L i := by unfold refOf; rw [if_pos hi]
    rw [e, distributeC_split tk cm L (by omega) n hr]
    simp only [bind_assoc, pure_bind]
    exact bind_congr_wlp (fun p => wlp_distribute_length h i n receivers p) (fun h1 e1 => portionLoop_split tk cm L receivers es h1
      (by rw [e1]; exact hL) (fun x hx => he x (by simp [hx])) (by rw [e1]; exact hr))

theorem wlp_managerLoop_length {tk : Nat → Int} (receivers : List Nat) :
    ∀ (es : List (Nat × Nat)) (h : List (Centroid F)) (p : Nat),
      Go.wlp (Manager.distributeLoop tk receivers es h) (fun h' _ => h'.length = h.length) p
  | [], h, p => by
    unfold Manager.distributeLoop
    exact Go.wlp_pure rfl
  | (i, n) :: es, h, p => by
    unfold Manager.distributeLoop
    exact Go.wlp_bind (Go.wlp_mono (wlp_distribute_length h i n receivers p) (fun h1 q e =>
      Go.wlp_mono (wlp_managerLoop_length receivers es h1 q) (fun h' _ e' => e'.trans e)))

end Arena

/-- C116. With centroids as the only receivers, the general program is the one whose behaviour C30, C107 and others describe: own
centroids of the manager and centroids of anyone else, given by position. -/
theorem C116_centroids_only (tk : Nat → Int) {ord : List (Nat × Nat) → List (Nat × Nat)} (ho : MapOrder ord) (cm : Manager F) (n : Int)
    (ext : List (Centroid F)) {receivers : List Nat} (hr : ∀ r ∈ receivers, r < cm.centroids.length + ext.length) :
    (⟨[cm], ext⟩ : Arena F).distributeM tk ord 0 n (receivers.map (fun i =>
        .centroid (if i < cm.centroids.length then .inside 0 i else .loose (i - cm.centroids.length)))) =
      (do let r ← cm.distribute tk ord n ext receivers; pure ⟨[r.1], r.2⟩) := by
  unfold Arena.distributeM Manager.distribute
  simp only [List.length_map]
  split
  · simp
  · have e0 : (⟨[cm], ext⟩ : Arena F) = Arena.split cm cm.centroids.length (cm.centroids ++ ext) := by simp [Arena.split]
    rw [Arena.idx_ok (a := cm) rfl, pure_bind, e0]
    have := Arena.portionLoop_split tk cm cm.centroids.length receivers (ord (cm.portionEntries n)) (cm.centroids ++ ext) (by simp)
      (fun e he => Manager.ord_lt ho e he) (by simpa using hr)
    unfold Arena.refOf at this
    rw [this]
    simp only [bind_assoc, pure_bind]
    congr 1

/-- C116, the same for a centroid that distributes, whether a manager holds it or not. -/
theorem C116_centroid_centroids_only (tk : Nat → Int) (cm : Manager F) (ext : List (Centroid F)) {me : Nat}
    (hme : me < cm.centroids.length + ext.length) (n : Int) {receivers : List Nat}
    (hr : ∀ r ∈ receivers, r < cm.centroids.length + ext.length) :
    (⟨[cm], ext⟩ : Arena F).distributeC tk (if me < cm.centroids.length then .inside 0 me else .loose (me - cm.centroids.length)) n
        (receivers.map (fun i => .centroid (if i < cm.centroids.length then .inside 0 i else .loose (i - cm.centroids.length)))) =
      (do let h' ← Centroid.distribute tk (cm.centroids ++ ext) me n receivers
          pure ⟨[{ cm with centroids := h'.take cm.centroids.length }], h'.drop cm.centroids.length⟩) := by
  have e0 : (⟨[cm], ext⟩ : Arena F) = Arena.split cm cm.centroids.length (cm.centroids ++ ext) := by simp [Arena.split]
  have := Arena.distributeC_split tk cm cm.centroids.length (h := cm.centroids ++ ext) (me := me) (by simpa using hme) n
    (receivers := receivers) (by simpa using hr)
  unfold Arena.refOf at this
  rw [e0, this]
  rfl

/-! ### C117 -/

namespace Arena

theorem vecAt_some {mem : Arena F} {receivers : List RRef} (hr : ∀ r ∈ receivers, Points mem r) :
    receivers.map (vecAt mem) = (receivers.map mem.vecOf).map some := by
  rw [List.map_map]
  refine List.map_congr_left (fun r h => ?_)
  have hp := hr r h
  cases r with
  | centroid q =>
    obtain ⟨c, hc⟩ := hp
    simp [vecAt, vecOf, hc]
  | manager m =>
    have hm : mem.ms[m]? = some mem.ms[m] := List.getElem?_eq_getElem hp
    simp [vecAt, vecOf, hm]

theorem wp_offering [LawfulCmp F] {tk : Nat → Int} (hm : MonoClock tk) (me : CRef) (receivers : List RRef) :
    ∀ (ds : List (DataPoint F)) (mem : Arena F) (p : Nat) (c : Centroid F), Fine mem → mem.getC me = some c → c.knn = knnCos →
      (∀ r ∈ receivers, Points mem r) →
      Go.wp (distributeLoop tk me receivers ds mem) (fun mem' _ => Offering tk me receivers ds mem mem') p
  | [], mem, p, c, hf, hc, hk, hr => by
    unfold distributeLoop
    rw [Go.wp_pure]
    exact .done mem
  | d :: ds, mem, p, c, hf, hc, hk, hr => by
    unfold distributeLoop
    simp only [Go.wp_bind, wp_derefC hc, Go.wp_lift]
    obtain ⟨is, h1, h2⟩ := knnBrute_kbest d.vec cosineSimilarity false 1 (receivers.map mem.vecOf)
    refine ⟨is, by rw [hk]; exact h1, ?_⟩
    have hn := nearest_of_brute h1
    have hv := vecAt_some hr
    have next : ∀ (mem1 : Arena F) (q : Nat), Fine mem1 → RefsKept mem mem1 →
        Go.wp (distributeLoop tk me receivers ds mem1) (fun mem' _ => Offering tk me receivers ds mem1 mem') q := by
      intro mem1 q hf1 hk1
      obtain ⟨c1, hc1, hk', _, _⟩ := hk1.refs me c hc
      exact wp_offering hm me receivers ds mem1 q c1 hf1 hc1 (hk'.trans hk) (fun r h => (hr r h).kept hk1)
    cases is with
    | nil =>
      simp only [Go.wp_bind]
      obtain ⟨a, p1, h0, ha, _⟩ := Go.wp_iff.1 (wp_addTo hm hf (r := .centroid me) ⟨c, hc⟩ d p)
      refine Go.wp_iff.2 ⟨a, p1, h0, Go.wp_mono (next a.2 p1 ha.fine ha.kept) (fun mem' p' ho => ?_)⟩
      exact .alone hv hn h0 ho
    | cons j js =>
      simp only [Go.wp_bind, Go.wp_idx]
      obtain ⟨s, ⟨u, hu, _, _⟩, _⟩ := hn
      have hj : j < receivers.length := by simpa using (List.getElem?_eq_some_iff.1 hu).1
      have hgj : receivers[j]? = some receivers[j] := List.getElem?_eq_getElem hj
      have hmem := List.getElem_mem hj
      refine ⟨receivers[j], hgj, ?_⟩
      generalize receivers[j] = rj at hmem hgj
      obtain ⟨a, p1, h0, ha, _⟩ := Go.wp_iff.1 (wp_addTo hm hf (hr rj hmem) d p)
      refine Go.wp_iff.2 ⟨a, p1, h0, ?_⟩
      obtain ⟨ok, mem1⟩ := a
      cases ok with
      | true =>
        simp only [if_true]
        exact Go.wp_mono (next mem1 p1 ha.fine ha.kept) (fun mem' p' ho => .taken hv (nearest_of_brute h1) hgj h0 ho)
      | false =>
        have e := ha.no rfl
        simp only at e
        subst e
        simp only [Bool.false_eq_true, if_false, Go.wp_bind]
        obtain ⟨b, p2, h3, hb, _⟩ := Go.wp_iff.1 (wp_addTo hm hf (r := .centroid me) ⟨c, hc⟩ d p1)
        refine Go.wp_iff.2 ⟨b, p2, h3, Go.wp_mono (next b.2 p2 hb.fine hb.kept) (fun mem' p' ho => ?_)⟩
        exact .refused hv (nearest_of_brute h1) hgj h0 h3 ho

theorem wp_gives [LawfulCmp F] {tk : Nat → Int} (hm : MonoClock tk) {mem : Arena F} (hf : Fine mem) {me : CRef} {c : Centroid F}
    (hc : mem.getC me = some c) (hk : c.knn = knnCos) (n : Nat) {receivers : List RRef} (hne : receivers ≠ [])
    (hr : ∀ r ∈ receivers, Points mem r) (p : Nat) :
    Go.wp (mem.distributeC tk me n receivers) (fun mem' _ => Gives tk receivers me n mem mem') p := by
  unfold distributeC
  rw [Go.wp_ite]
  refine ⟨fun h => absurd (List.length_eq_zero_iff.1 h) hne, fun _ => ?_⟩
  simp only [Go.wp_bind, wp_derefC hc]
  have hg := hf.getC hc
  obtain ⟨r, p1, h0, hdr⟩ := Go.wp_iff.1 (Centroid.wp_drainOrdered hm c hg.2.1 (n := (n : Int)) (by omega) p)
  refine Go.wp_iff.2 ⟨r, p1, h0, ?_⟩
  obtain ⟨e1, ⟨removed, e2⟩, _⟩ := hdr.facts
  have hkept := Spec.RefsKept.setC hf hc e2.evolves
  refine Go.wp_mono (wp_offering hm me receivers r.1 (mem.setC me r.2) p1 r.2 (hf.setC hc e2.evolves) (getC_setC_self hc r.2)
    (by rw [e2.search.1]; exact hk) (fun x hx => (hr x hx).kept hkept)) (fun mem' p2 ho => ?_)
  exact ⟨c, r.2, r.1, p, p1, hc, h0, ho⟩

theorem wp_givingInTurn [LawfulCmp F] {tk : Nat → Int} (hm : MonoClock tk) (m : Nat) {receivers : List RRef} (hne : receivers ≠ []) :
    ∀ (es : List (Nat × Nat)) (mem : Arena F) (p : Nat), Fine mem → (∀ r ∈ receivers, Points mem r) →
      (∀ e ∈ es, ∃ c, mem.getC (.inside m e.1) = some c ∧ c.knn = knnCos) →
      Go.wp (portionLoop tk m receivers es mem) (fun mem' _ => GivingInTurn tk receivers m es mem mem') p
  | [], mem, p, hf, _, _ => by
    unfold portionLoop
    rw [Go.wp_pure]
    exact .done mem
  | (i, n) :: es, mem, p, hf, hr, he => by
    unfold portionLoop
    rw [Go.wp_bind]
    obtain ⟨c, hc, hk⟩ := he (i, n) (by simp)
    refine Go.wp_mono (Go.wp_and (wp_gives hm hf hc hk n hne hr p) (wp_distributeC hm hf hc (n := (n : Int)) (by omega) hr p))
      (fun mem1 p1 h1 => ?_)
    obtain ⟨h0, a1, a2, a3, _⟩ := h1
    refine Go.wp_mono (wp_givingInTurn hm m hne es mem1 p1 a2 (fun r h => (hr r h).kept a3) (fun e h => ?_)) (fun mem' p' h2 => .next h0 h2)
    obtain ⟨c, hc, hk⟩ := he e (by simp [h])
    obtain ⟨c', hc', hk', _⟩ := a3.refs _ c hc
    exact ⟨c', hc', hk'.trans hk⟩

end Arena

/-- C117 for a centroid: the datapoints it gives up are those `DrainOrdered(n)` chooses, and each of them is offered to the receiver
nearest at that moment. -/
theorem C117_centroid [LawfulCmp F] {tk : Nat → Int} (hm : MonoClock tk) {mem : Arena F} (hf : Fine mem) {me : CRef} {c : Centroid F}
    (hc : mem.getC me = some c) (hk : c.knn = knnCos) (n : Nat) {receivers : List RRef} (hne : receivers ≠ [])
    (hr : ∀ r ∈ receivers, Points mem r) (p : Nat) :
    ∃ mem' p', mem.distributeC tk me n receivers p = .ok (mem', p') ∧ Gives tk receivers me n mem mem' :=
  Go.wp_iff.1 (Arena.wp_gives hm hf hc hk n hne hr p)

/-- C117 for a manager: its centroids give one after the other, the portions being fixed beforehand; then its vectors are
recomputed. -/
theorem C117_manager [LawfulCmp F] {tk : Nat → Int} (hm : MonoClock tk) {ord : List (Nat × Nat) → List (Nat × Nat)} (ho : MapOrder ord)
    {mem : Arena F} (hf : Fine mem) {m : Nat} {cm : Manager F} (hcm : mem.ms[m]? = some cm) (hk : cm.knn = knnCos) (n : Int)
    {receivers : List RRef} (hne : receivers ≠ []) (hr : ∀ r ∈ receivers, Points mem r) (p : Nat) :
    ∃ mem' p' es mem1 cm1 cm' q ok, mem.distributeM tk ord m n receivers p = .ok (mem', p') ∧ Spec.Portions n cm.centroids es ∧
      GivingInTurn tk receivers m es mem mem1 ∧ mem1.ms[m]? = some cm1 ∧ cm1.moveVector tk q = .ok ((ok, cm'), p') ∧
      mem' = { mem1 with ms := mem1.ms.set m cm' } := by
  have hw := (hf.ms cm (List.mem_of_getElem? hcm)).wf
  suffices h : Go.wp (mem.distributeM tk ord m n receivers) (fun mem' p' => ∃ es mem1 cm1 cm' q ok, Spec.Portions n cm.centroids es ∧
      GivingInTurn tk receivers m es mem mem1 ∧ mem1.ms[m]? = some cm1 ∧ cm1.moveVector tk q = .ok ((ok, cm'), p') ∧
      mem' = { mem1 with ms := mem1.ms.set m cm' }) p by
    obtain ⟨mem', p', h0, es, mem1, cm1, cm', q, ok, h⟩ := Go.wp_iff.1 h
    exact ⟨mem', p', es, mem1, cm1, cm', q, ok, h0, h⟩
  unfold Arena.distributeM
  rw [Go.wp_ite]
  refine ⟨fun h => absurd (List.length_eq_zero_iff.1 h) hne, fun _ => ?_⟩
  simp only [Go.wp_bind, Go.wp_idx, Go.wp_pure]
  have hes : ∀ e ∈ ord (cm.portionEntries n), ∃ c, mem.getC (.inside m e.1) = some c ∧ c.knn = knnCos := by
    intro e he
    have hlt := Manager.ord_lt ho e he
    exact ⟨cm.centroids[e.1], by simp [Arena.getC, hcm, List.getElem?_eq_getElem hlt],
      by rw [(hw.search _ (List.getElem_mem hlt)).1, hk]⟩
  refine ⟨cm, hcm, Go.wp_mono (Go.wp_and (Arena.wp_givingInTurn hm m hne _ mem p hf hr hes)
    (Arena.wp_portionLoop hm m receivers _ mem p hf hr (fun e he => (hes e he).imp fun c h => h.1))) (fun mem1 p1 h1 => ?_)⟩
  obtain ⟨h1, _, a2, a3, _⟩ := h1
  have hlt : m < mem1.ms.length := by rw [a3.ms]; exact (List.getElem?_eq_some_iff.1 hcm).1
  have hcm1 : mem1.ms[m]? = some mem1.ms[m] := List.getElem?_eq_getElem hlt
  generalize mem1.ms[m] = cm1 at hcm1
  refine ⟨cm1, hcm1, ?_⟩
  obtain ⟨r, p2, h0, _⟩ := Go.wp_iff.1 (Manager.wp_moveVector hm (a2.ms cm1 (List.mem_of_getElem? hcm1)).wf p1)
  exact Go.wp_iff.2 ⟨r, p2, h0, _, mem1, cm1, r.2, p1, r.1, Manager.entries_portions ho cm n, h1, hcm1, h0, rfl⟩

/-! ### Examples -/

namespace ReceiversExample
open PlaceExample

def cenOf (dps : List (DataPoint F64)) (x y : Int) : Centroid F64 :=
  { vec := [.ofInt x, .ofInt y], dps := dps, knn := knnCos, kfn := kfnCos }

def manOf (cs : List (Centroid F64)) (t x y : Int) : Manager F64 :=
  { vec := [.ofInt x, .ofInt y], initCap := 10, centroids := cs, threshold := t, knn := knnCos, kfn := kfnCos }

/-- Two managers, the first splitting its centroids at two datapoints, and a centroid of nobody. -/
def arena : Arena F64 :=
  ⟨[manOf [cenOf [pt 1 1, pt 3 (-1)] 2 0] 2 2 0, manOf [cenOf [pt (-1) 4] (-1) 4] 9 (-1) 4], [cenOf [] 2 3]⟩

/-- What is stored where: the lists of the first manager, of the second, and of the centroid of nobody. -/
def view (a : Arena F64) : List (List (List (DataPoint F64))) × List (List (DataPoint F64)) :=
  (a.ms.map (fun cm => cm.centroids.map (fun c => c.dps)), a.cs.map (fun c => c.dps))

theorem arena_fine : Fine arena := by
  have hk := (searchOK_prefabs (F := F64))
  refine ⟨fun cm hcm => ?_, fun c hc => ?_⟩
  · simp only [arena, List.mem_cons, List.not_mem_nil, or_false] at hcm
    rcases hcm with rfl | rfl <;>
      exact ⟨by decide, ⟨hk.1, hk.2.1⟩, by simp [manOf, cenOf], by simp [manOf, cenOf, pt]⟩
  · simp only [arena, List.mem_cons, List.not_mem_nil, or_false] at hc
    subst hc
    exact ⟨hk.1, hk.2.1, by simp [cenOf]⟩

/-- The receivers: both managers, the centroid of nobody, and the centroid that gives. -/
def rs : List RRef := [.manager 0, .manager 1, .centroid (.loose 0), .centroid (.inside 0 0)]

theorem rs_points : ∀ r ∈ rs, Points arena r := by
  intro r hr
  simp only [rs, List.mem_cons, List.not_mem_nil, or_false] at hr
  rcases hr with rfl | rfl | rfl | rfl
  · show 0 < 2; omega
  · show 1 < 2; omega
  · exact ⟨_, rfl⟩
  · exact ⟨_, rfl⟩

example : ∃ mem' p', arena.distributeM (fun _ => 0) id 0 2 rs 0 = .ok (mem', p') ∧ Fine mem' ∧
    Conserved 0 (inMem arena) (inMem mem') [] := by
  obtain ⟨m, p', h0, h1, _, h2, _⟩ := C116_manager (F := F64) (tk := fun _ => 0) (fun _ _ _ => Int.le_refl _) (ord := id)
    (fun l => List.Perm.refl l) arena_fine (m := 0) rfl 2 (receivers := rs) (by simp [rs]) rs_points 0
  exact ⟨m, p', h0, h1, h2⟩

/-- The first manager gives both its datapoints. With all four receivers they return, (1,1) directly and (3,-1) through the manager,
which splits. Without the giving centroid, (1,1) goes to the centroid of nobody, which is nearest. -/
example : ∃ mem' p', arena.distributeM (fun _ => 0) id 0 2 rs 0 = .ok (mem', p') ∧
    view mem' = ([[[pt 3 (-1)], [pt 1 1]], [[pt (-1) 4]]], [[]]) :=
  exists_of_run (f := view) (by decide +kernel)

example : ∃ mem' p', arena.distributeM (fun _ => 0) id 0 2 (rs.take 3) 0 = .ok (mem', p') ∧
    view mem' = ([[[pt 3 (-1)]], [[pt (-1) 4]]], [[pt 1 1]]) :=
  exists_of_run (f := view) (by decide +kernel)

/-- With itself as the only receiver, the manager splits its centroid while that centroid gives. -/
example : ∃ mem' p', arena.distributeM (fun _ => 0) id 0 2 [.manager 0] 0 = .ok (mem', p') ∧
    view mem' = ([[[pt 3 (-1)], [pt 1 1]], [[pt (-1) 4]]], [[]]) :=
  exists_of_run (f := view) (by decide +kernel)

/-- A centroid of the second manager receives directly: the vector of that manager stays (-1,4), though its only centroid now has
another one. -/
example : ∃ mem' p', arena.distributeC (fun _ => 0) (.inside 0 0) 1 [.centroid (.inside 1 0)] 0 = .ok (mem', p') ∧
    (mem'.ms.map (fun cm => (cm.vec, cm.centroids.map (fun c => c.vec)))) =
      [([.ofInt 2, .ofInt 0], [[.ofInt 3, .ofInt (-1)]]), ([.ofInt (-1), .ofInt 4], [[.ofInt 0, F64.div (.ofInt 5) (.ofInt 2)]])] :=
  exists_of_run (f := fun a : Arena F64 => a.ms.map (fun cm => (cm.vec, cm.centroids.map (fun c => c.vec)))) (by decide +kernel)

/-- C117: one datapoint is given up and offered. -/
example : ∃ mem' p', arena.distributeC (fun _ => 0) (.inside 0 0) 1 rs 0 = .ok (mem', p') ∧
    Gives (fun _ => 0) rs (.inside 0 0) 1 arena mem' :=
  C117_centroid (F := F64) (fun _ _ _ => Int.le_refl _) arena_fine (me := .inside 0 0) rfl rfl 1 (by simp [rs]) rs_points 0

end ReceiversExample

end Trypo
