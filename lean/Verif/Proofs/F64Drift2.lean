import Verif.Proofs.F64Drift
import Verif.Proofs.CentroidHistory

/-!
# The drift of centroid vectors over histories
-/

namespace Trypo
open Spec

/-- What holds of every normal return. -/
def Go.wlp {α : Type} (m : Go α) (Q : α → Nat → Prop) (p : Nat) : Prop := ∀ r p', m p = .ok (r, p') → Q r p'

theorem Go.wlp_of_wp {α : Type} {m : Go α} {Q : α → Nat → Prop} {p : Nat} (h : Go.wp m Q p) : Go.wlp m Q p := by
  intro r p' hr
  obtain ⟨r', q, h1, h2⟩ := Go.wp_iff.1 h
  rw [hr] at h1
  cases h1
  exact h2

theorem Go.wlp_bind {α β : Type} {m : Go α} {k : α → Go β} {Q : β → Nat → Prop} {p : Nat}
    (h : Go.wlp m (fun r p' => Go.wlp (k r) Q p') p) : Go.wlp (m >>= k) Q p := by
  intro r p' hr
  have e : (m >>= k) p = (match m p with | .ok (a, q) => k a q | .error e => .error e) := by
    show StateT.bind m k p = _
    unfold StateT.bind
    cases m p <;> rfl
  rw [e] at hr
  cases hm : m p with
  | error e => rw [hm] at hr; cases hr
  | ok a => rw [hm] at hr; exact h a.1 a.2 hm r p' hr

theorem Go.wlp_pure {α : Type} {a : α} {Q : α → Nat → Prop} {p : Nat} (h : Q a p) : Go.wlp (pure a) Q p := by
  intro r p' hr
  cases hr
  exact h

theorem Go.wlp_any {α : Type} {m : Go α} {Q : α → Nat → Prop} {p : Nat} (h : ∀ r p', Q r p') : Go.wlp m Q p := fun r p' _ => h r p'

theorem Go.wlp_idx {α : Type} {l : List α} {i : Nat} {Q : α → Nat → Prop} {p : Nat} (h : ∀ a, l[i]? = some a → Q a p) :
    Go.wlp (Go.idx l i) Q p := by
  intro r p' hr
  unfold Go.idx at hr
  cases hl : l[i]? with
  | none => rw [hl] at hr; cases hr
  | some a => rw [hl] at hr; cases hr; exact h _ hl

theorem Go.wlp_mono {α : Type} {m : Go α} {Q R : α → Nat → Prop} {p : Nat} (h : Go.wlp m Q p) (hi : ∀ r p', Q r p' → R r p') : Go.wlp m R p :=
  fun r p' hr => hi r p' (h r p' hr)

namespace F64

attribute [local irreducible] UNIT TOP

/-- The centroid vector, as a float64 vector, is near the mean of the vectors held. `a` bounds the number of datapoints put in so far. -/
structure Near (M : ℝ) (N a : Nat) (c : Centroid F64) : Prop where
  dim : c.DimOK
  comps : ∀ d ∈ c.dps, ∀ x ∈ d.vec, Fin x ∧ |val x| ≤ M
  vec : ∀ x ∈ c.vec, Fin x
  len : c.dps.length ≤ a
  err : ∀ j, |c.dps.length * comp j (vals c.vec) - compSum j (c.dps.map (fun d => vals d.vec))| ≤ (2 * a - c.dps.length) * (4 * (N + 2) * u * M)

theorem addRaw_getD {F : Type} [GoFloat F] {c : Centroid F} {d : DataPoint F} (h : d.vec.length = c.vec.length) {j : Nat} (hj : j < c.vec.length) (z : F) :
    (c.addRaw d).vec.getD j z = GoFloat.div (GoFloat.add (GoFloat.mul (c.vec.getD j z) (GoFloat.ofNat c.dps.length)) (d.vec.getD j z))
      (GoFloat.add (GoFloat.ofNat c.dps.length) (GoFloat.ofNat 1)) := by
  simp [Centroid.addRaw, vecDivScalar, vecAdd, vecMulScalar, h, List.getD_eq_getElem?_getD, hj]

theorem rmP_getD {F : Type} [GoFloat F] {c : Centroid F} {i : Nat} {d : DataPoint F} (h : d.vec.length = c.vec.length) {j : Nat} (hj : j < c.vec.length)
    (hn : 1 < c.dps.length) (z : F) :
    (c.rmP i d).vec.getD j z = GoFloat.div (GoFloat.sub (GoFloat.mul (c.vec.getD j z) (GoFloat.ofNat c.dps.length)) (d.vec.getD j z))
      (GoFloat.ofNat (c.dps.length - 1)) := by
  simp [Centroid.rmP, hn, vecDivScalar, vecSub, vecMulScalar, h, List.getD_eq_getElem?_getD, hj]

theorem mem_of_getD {v : List F64} {j : Nat} (hj : j < v.length) : v.getD j (fin false 0) ∈ v := by
  rw [List.getD_eq_getElem?_getD, List.getElem?_eq_getElem hj]
  exact List.getElem_mem hj

theorem fin_of_getD {v : List F64} (h : ∀ j, j < v.length → Fin (v.getD j (fin false 0))) : ∀ x ∈ v, Fin x := by
  intro x hx
  obtain ⟨j, hj, rfl⟩ := List.mem_iff_getElem.1 hx
  have := h j hj
  rwa [List.getD_eq_getElem?_getD, List.getElem?_eq_getElem hj] at this

theorem comp_none {v : List F64} {j : Nat} (hj : ¬ j < v.length) : comp j (vals v) = 0 := by
  rw [← val_getD, List.getD_eq_getElem?_getD, List.getElem?_eq_none (by omega)]
  exact val_zero

theorem compSum_le {M : ℝ} (hM : 0 ≤ M) {vs : List (List F64)} (h : ∀ v ∈ vs, ∀ x ∈ v, |val x| ≤ M) (j : Nat) :
    |compSum j (vs.map vals)| ≤ vs.length * M := by
  unfold compSum
  rw [List.map_map]
  have := abs_sum_sub (f := comp j ∘ vals) (g := fun _ => (0 : ℝ)) (h := fun _ => (0 : ℝ) * 0 + M) (l := vs) (by
    intro v hv
    simp only [Function.comp, sub_zero, mul_zero, zero_add]
    by_cases hj : j < v.length
    · rw [← val_getD]; exact h v hv _ (mem_of_getD hj)
    · rw [comp_none hj, abs_zero]; exact hM)
  rw [sum_affine (fun _ => (0 : ℝ))] at this
  simpa using this

theorem Near.compSum {M : ℝ} {N a : Nat} {c : Centroid F64} (h : Near M N a c) (hM : 0 ≤ M) (j : Nat) :
    |compSum j (c.dps.map (fun d => vals d.vec))| ≤ c.dps.length * M := by
  have := compSum_le (vs := c.dps.map (fun d => d.vec)) hM (by
    intro v hv x hx
    obtain ⟨d, hd, rfl⟩ := List.mem_map.1 hv
    exact (h.comps d hd x hx).2) j
  rw [List.map_map, List.length_map] at this
  exact this

theorem Near.small {M : ℝ} {N a : Nat} {c : Centroid F64} (_ : Near M N a c) (hM : 0 ≤ M) (ha : a ≤ N) (hN : 8 * N * (N + 2) ≤ 2 ^ 53) :
    (2 * (a : ℝ) - c.dps.length) * (4 * (N + 2) * u * M) ≤ M := by
  have h1 : (8 * N * (N + 2) : ℝ) ≤ 2 ^ 53 := by exact_mod_cast hN
  have h2 : (8 * N * (N + 2) : ℝ) * u ≤ 1 := by
    unfold u
    rw [mul_one_div]
    exact div_le_one_of_le₀ h1 (by positivity)
  have hu := u_pos
  have hn : (0 : ℝ) ≤ c.dps.length := Nat.cast_nonneg _
  have ha' : (a : ℝ) ≤ N := by exact_mod_cast ha
  have hNN : (0 : ℝ) ≤ N := Nat.cast_nonneg _
  calc (2 * (a : ℝ) - c.dps.length) * (4 * (N + 2) * u * M) ≤ (2 * N) * (4 * (N + 2) * u * M) :=
        mul_le_mul_of_nonneg_right (by linarith) (by positivity)
    _ = (8 * N * (N + 2) * u) * M := by ring
    _ ≤ 1 * M := mul_le_mul_of_nonneg_right h2 hM
    _ = M := one_mul M

theorem size_le {N : Nat} (hN : 8 * N * (N + 2) ≤ 2 ^ 53) : N ≤ 2 ^ 50 := by
  by_contra h
  have h1 : 2 ^ 50 + 1 ≤ N := by omega
  have h2 : 8 * (2 ^ 50 + 1) * 2 ≤ 8 * N * (N + 2) := Nat.mul_le_mul (Nat.mul_le_mul_left 8 h1) (by omega)
  omega

theorem Near.mono {M : ℝ} {N a b : Nat} {c : Centroid F64} (h : Near M N a c) (hM : 0 ≤ M) (hab : a ≤ b) : Near M N b c := by
  refine ⟨h.dim, h.comps, h.vec, h.len.trans hab, fun j => (h.err j).trans ?_⟩
  have hu := u_pos
  have : (a : ℝ) ≤ b := by exact_mod_cast hab
  exact mul_le_mul_of_nonneg_right (by linarith) (by positivity)

theorem Near.add {M : ℝ} {N a : Nat} {c : Centroid F64} (h : Near M N a c) (hb : Bound M) (ha : a ≤ N) (hN : 8 * N * (N + 2) ≤ 2 ^ 53)
    {d : DataPoint F64} (hd : d.vec.length = c.vec.length) (hx : ∀ x ∈ d.vec, Fin x ∧ |val x| ≤ M) : Near M N (a + 1) (c.addRaw d) := by
  have hM := hb.pos.le
  have hl := Centroid.addRaw_vec_length hd
  have hdps : (c.addRaw d).dps = c.dps ++ [d] := rfl
  have key : ∀ j, (j < c.vec.length → Fin ((c.addRaw d).vec.getD j (fin false 0))) ∧
      |((c.dps.length + 1 : Nat) : ℝ) * comp j (vals (c.addRaw d).vec) - (Spec.compSum j (c.dps.map (fun d => vals d.vec)) + comp j (vals d.vec))| ≤
        (2 * a - c.dps.length) * (4 * (N + 2) * u * M) + 4 * (N + 2) * u * M := by
    intro j
    by_cases hj : j < c.vec.length
    · have hs := add_step hb (size_le hN) (h.len.trans ha) (h.vec _ (mem_of_getD hj)) (hx _ (mem_of_getD (j := j) (hd ▸ hj))).1
        (h.compSum hM j) (hx _ (mem_of_getD (j := j) (hd ▸ hj))).2 (by rw [val_getD]; exact h.err j) (h.small hM ha hN)
      have e := addRaw_getD hd hj (fin false 0)
      refine ⟨fun _ => by rw [e]; exact hs.1, ?_⟩
      rw [← val_getD j (c.addRaw d).vec, e, ← val_getD j d.vec]
      exact hs.2
    · refine ⟨fun h => absurd h hj, ?_⟩
      have hz : Spec.compSum j (c.dps.map (fun d => vals d.vec)) = 0 := by
        unfold Spec.compSum
        rw [List.map_map]
        refine List.sum_eq_zero fun x hx => ?_
        obtain ⟨e, he, rfl⟩ := List.mem_map.1 hx
        exact comp_none (by rw [h.dim e he]; exact hj)
      rw [comp_none (by rw [hl]; exact hj), comp_none (by rw [hd]; exact hj), hz]
      have hu := u_pos
      have := h.len
      have h3 : (c.dps.length : ℝ) ≤ a := by exact_mod_cast this
      have h4 : (0 : ℝ) ≤ 4 * (N + 2) * u * M := by positivity
      have h5 : 0 ≤ (2 * (a : ℝ) - c.dps.length) * (4 * (N + 2) * u * M) := mul_nonneg (by have := (Nat.cast_nonneg a : (0 : ℝ) ≤ a); linarith) h4
      simp only [mul_zero, add_zero, sub_zero, abs_zero]
      linarith
  refine ⟨Centroid.addRaw_dimOK hd h.dim, ?_, fin_of_getD (fun j hj => (key j).1 (by rwa [hl] at hj)), ?_, fun j => ?_⟩
  · intro e he
    rcases List.mem_append.1 he with he | he
    · exact h.comps e he
    · rw [List.mem_singleton.1 he]; exact hx
  · rw [hdps, List.length_append]; exact Nat.add_le_add_right h.len 1
  · have := (key j).2
    rw [hdps, List.map_append, compSum_append, List.length_append]
    have e : Spec.compSum j (List.map (fun d => vals d.vec) [d]) = comp j (vals d.vec) := by simp [Spec.compSum]
    rw [e]
    refine this.trans (le_of_eq ?_)
    push_cast
    simp only [List.length_singleton]
    push_cast
    ring

theorem Near.rm {M : ℝ} {N a : Nat} {c : Centroid F64} (h : Near M N a c) (hb : Bound M) (ha : a ≤ N) (hN : 8 * N * (N + 2) ≤ 2 ^ 53)
    {i : Nat} {d : DataPoint F64} (hi : c.dps[i]? = some d) : Near M N a (c.rmP i d) := by
  have hM := hb.pos.le
  have hu := u_pos
  have hmem := List.mem_of_getElem? hi
  have hd := h.dim d hmem
  have hx := h.comps d hmem
  have hl : (c.rmP i d).vec.length = c.vec.length := Centroid.rmP_vec_length hd
  have hdps : (c.rmP i d).dps = c.dps.eraseIdx i := rfl
  have hperm := Centroid.perm_eraseIdx hi
  have hlen := hperm.length_eq
  simp only [List.length_cons] at hlen
  have h4 : (0 : ℝ) ≤ 4 * (N + 2) * u * M := by positivity
  have hnn : ∀ n : Nat, n ≤ a → 0 ≤ (2 * (a : ℝ) - n) * (4 * (N + 2) * u * M) := by
    intro n hn
    have h3 : (n : ℝ) ≤ a := by exact_mod_cast hn
    exact mul_nonneg (by have := (Nat.cast_nonneg a : (0 : ℝ) ≤ a); linarith) h4
  have hsum : ∀ j, Spec.compSum j ((c.dps.eraseIdx i).map (fun d => vals d.vec)) = Spec.compSum j (c.dps.map (fun d => vals d.vec)) - comp j (vals d.vec) := by
    intro j
    have := compSum_perm (j := j) (hperm.map (fun d => vals d.vec))
    rw [List.map_cons, compSum_cons] at this
    linarith
  have hdim : (c.rmP i d).DimOK := fun e he => by rw [hl]; exact h.dim e ((List.eraseIdx_sublist _ _).subset he)
  have hcomps : ∀ e ∈ (c.rmP i d).dps, ∀ x ∈ e.vec, Fin x ∧ |val x| ≤ M := fun e he => h.comps e ((List.eraseIdx_sublist _ _).subset he)
  have hlen' : (c.rmP i d).dps.length ≤ a := by rw [hdps]; have := h.len; omega
  by_cases hn : 1 < c.dps.length
  · have key : ∀ j, (j < c.vec.length → Fin ((c.rmP i d).vec.getD j (fin false 0))) ∧
        |((c.dps.length - 1 : Nat) : ℝ) * comp j (vals (c.rmP i d).vec) - (Spec.compSum j (c.dps.map (fun d => vals d.vec)) - comp j (vals d.vec))| ≤
          (2 * a - c.dps.length) * (4 * (N + 2) * u * M) + 4 * (N + 2) * u * M := by
      intro j
      by_cases hj : j < c.vec.length
      · have hs := rm_step hb (size_le hN) (h.len.trans ha) hn (h.vec _ (mem_of_getD hj)) (hx _ (mem_of_getD (j := j) (hd ▸ hj))).1
          (h.compSum hM j) (hx _ (mem_of_getD (j := j) (hd ▸ hj))).2 (by rw [val_getD]; exact h.err j) (h.small hM ha hN)
        have e := rmP_getD (i := i) hd hj hn (fin false 0)
        refine ⟨fun _ => by rw [e]; exact hs.1, ?_⟩
        rw [← val_getD j (c.rmP i d).vec, e, ← val_getD j d.vec]
        exact hs.2
      · refine ⟨fun h => absurd h hj, ?_⟩
        have hz : Spec.compSum j (c.dps.map (fun d => vals d.vec)) = 0 := by
          unfold Spec.compSum
          rw [List.map_map]
          refine List.sum_eq_zero fun x hx => ?_
          obtain ⟨e, he, rfl⟩ := List.mem_map.1 hx
          exact comp_none (by rw [h.dim e he]; exact hj)
        rw [comp_none (by rw [hl]; exact hj), comp_none (by rw [hd]; exact hj), hz]
        have := hnn _ h.len
        simp only [mul_zero, sub_zero, abs_zero]
        linarith
    refine ⟨hdim, hcomps, fin_of_getD (fun j hj => (key j).1 (by rwa [hl] at hj)), hlen', fun j => ?_⟩
    have := (key j).2
    rw [hdps, hsum, show (c.dps.eraseIdx i).length = c.dps.length - 1 by omega]
    refine this.trans (le_of_eq ?_)
    rw [Nat.cast_sub (by omega)]
    push_cast
    ring
  · have hz : (c.dps.eraseIdx i).length = 0 := by omega
    refine ⟨hdim, hcomps, ?_, hlen', fun j => ?_⟩
    · have : (c.rmP i d).vec = c.vec := by simp [Centroid.rmP, hn]
      rw [this]; exact h.vec
    · have := hnn 0 (by omega)
      rw [hdps, List.length_eq_zero_iff.1 hz]
      simpa [Spec.compSum] using this

theorem Near.rmSteps {M : ℝ} {N a : Nat} {c c' : Centroid F64} {x : List (DataPoint F64)} (h : Near M N a c) (hb : Bound M) (ha : a ≤ N)
    (hN : 8 * N * (N + 2) ≤ 2 ^ 53) (hs : Centroid.RmSteps c x c') : Near M N a c' := by
  induction hs with
  | refl c => exact h
  | step hi _ ih => exact ih (h.rm hb ha hN hi)

/-- The mean of vectors of bounded components. -/
theorem mean_bound {M : ℝ} (hb : Bound M) {vs : List (List F64)} (ht : (vecMean vs).2 = true) (hn : vs.length ≤ 2 ^ 50)
    (hc : ∀ v ∈ vs, ∀ x ∈ v, Fin x ∧ |val x| ≤ M) (j : Nat) :
    Fin ((vecMean vs).1.getD j (fin false 0)) ∧
    |val ((vecMean vs).1.getD j (fin false 0)) - Spec.compSum j (vs.map vals) / vs.length| ≤ 2 * vs.length * u * M + η := by
  have hM := hb.pos.le
  have hu := u_pos
  have hcol : ((col j vs).map (fun x => |val x|)).sum ≤ vs.length * M := by
    have : ∀ x ∈ col j vs, |val x| ≤ (0 : ℝ) * 0 + M := by
      intro x hx
      unfold col at hx
      obtain ⟨v, hv, rfl⟩ := List.mem_map.1 hx
      simp only [zero_mul, zero_add]
      by_cases hj : j < v.length
      · exact (hc v hv _ (mem_of_getD hj)).2
      · rw [val_getD, comp_none hj, abs_zero]; exact hM
    have h2 := sum_map_le this
    rw [sum_affine (fun _ => (0 : ℝ))] at h2
    simpa [col] using h2
  have hcol0 : 0 ≤ ((col j vs).map (fun x => |val x|)).sum := by
    refine List.sum_nonneg fun x hx => ?_
    obtain ⟨y, _, rfl⟩ := List.mem_map.1 hx
    exact abs_nonneg _
  have hnR : (vs.length : ℝ) ≤ 2 ^ 50 := by exact_mod_cast hn
  have hn0 : (0 : ℝ) ≤ vs.length := Nat.cast_nonneg _
  have hnu : vs.length * u ≤ 1 / 8 := by
    rw [u_val]
    calc (vs.length : ℝ) * (1 / 9007199254740992) ≤ 2 ^ 50 * (1 / 9007199254740992) := mul_le_mul_of_nonneg_right hnR (by norm_num)
      _ = 1 / 8 := by norm_num
  have hpow : (1 + u) ^ vs.length - 1 ≤ 2 * (vs.length * u) := by
    have := one_add_pow_le vs.length hu.le (by linarith)
    have h2 : (vs.length * u) ^ 2 ≤ 1 * (vs.length * u) := by
      rw [pow_two]; exact mul_le_mul_of_nonneg_right (by linarith) (by positivity)
    linarith
  have hpos : (0 : ℝ) < vs.length := by
    refine lt_of_le_of_ne hn0 fun h0 => ?_
    have : vs = [] := List.length_eq_zero_iff.1 (by exact_mod_cast h0.symm)
    rw [this] at ht
    simp [vecMean] at ht
  have hfin : Fin ((vecMean vs).1.getD j (fin false 0)) := by
    refine mean_fin j vs ht (by omega) ?_ ?_
    · intro v hv
      by_cases hj : j < v.length
      · exact (hc v hv _ (mem_of_getD hj)).1
      · rw [List.getD_eq_getElem?_getD, List.getElem?_eq_none (by omega)]
        exact ⟨_, _, rfl⟩
    · have h1 : (1 + u) ^ vs.length ≤ 2 := by linarith
      have h2 := mul_le_mul h1 hcol hcol0 (by norm_num)
      have h3 := hb.half (K := 2 * 2 ^ 50) (by norm_num)
      have h4 : (vs.length : ℝ) * M ≤ 2 ^ 50 * M := mul_le_mul_of_nonneg_right hnR hM
      linarith
  refine ⟨hfin, (mean_err j vs ht (by omega) hfin).trans (add_le_add_left ?_ η)⟩
  have hsum : ((col j vs).map (fun x => |val x|)).sum / vs.length ≤ M := (div_le_iff₀ hpos).2 (by rw [mul_comm]; exact hcol)
  have := mul_le_mul hpow hsum (div_nonneg hcol0 hn0) (by positivity)
  linarith

theorem Near.move {M : ℝ} {N a : Nat} {c : Centroid F64} (h : Near M N a c) (hb : Bound M) (ha : a ≤ N) (hN : 8 * N * (N + 2) ≤ 2 ^ 53)
    (ht : (vecMean (c.dps.map (fun d => d.vec))).2 = true) : Near M N a { c with vec := (vecMean (c.dps.map (fun d => d.vec))).1 } := by
  have hM := hb.pos.le
  have hu := u_pos
  have hη := hb.η_le
  have hlv : (vecMean (c.dps.map (fun d => d.vec))).1.length = c.vec.length := by
    obtain ⟨v, hv, _⟩ := (C01_vecMean_flag _).1.1 ht
    rw [(C01_vecMean_flag _).2 v hv]
    obtain ⟨d, hd1, rfl⟩ := List.mem_map.1 (List.mem_of_mem_head? hv)
    exact h.dim d hd1
  have hne : c.dps ≠ [] := by
    intro h0
    rw [h0] at ht
    simp [vecMean] at ht
  have hn1 : (c.dps.map (fun d => d.vec)).length = c.dps.length := List.length_map _
  have hnN : c.dps.length ≤ N := h.len.trans ha
  have hn0 : (0 : ℝ) ≤ c.dps.length := Nat.cast_nonneg _
  have hmean := mean_bound hb ht (by rw [hn1]; exact hnN.trans (size_le hN)) (by
    intro v hv
    obtain ⟨d, hd, rfl⟩ := List.mem_map.1 hv
    exact h.comps d hd)
  have hfin := fun j (_ : j < c.vec.length) => (hmean j).1
  refine ⟨fun d hd => ?_, h.comps, fin_of_getD (fun j hj => hfin j (by rwa [hlv] at hj)), h.len, fun j => ?_⟩
  · show d.vec.length = _
    rw [h.dim d hd]; exact hlv.symm
  · show |c.dps.length * comp j (vals (vecMean (c.dps.map (fun d => d.vec))).1) - _| ≤ _
    have hal : (c.dps.length : ℝ) ≤ a := by exact_mod_cast h.len
    have hlN : (c.dps.length : ℝ) ≤ N := by exact_mod_cast hnN
    have hpos : (0 : ℝ) < c.dps.length := by exact_mod_cast List.length_pos_iff.2 hne
    by_cases hj : j < c.vec.length
    · have he := (hmean j).2
      rw [hn1, val_getD, List.map_map] at he
      have h2 : |comp j (vals (vecMean (c.dps.map (fun d => d.vec))).1) - Spec.compSum j (c.dps.map (fun d => vals d.vec)) / c.dps.length| ≤
          2 * (c.dps.length * u) * M + u / 1000 * M := he.trans (by linarith)
      have h3 : c.dps.length * comp j (vals (vecMean (c.dps.map (fun d => d.vec))).1) - Spec.compSum j (c.dps.map (fun d => vals d.vec)) =
          c.dps.length * (comp j (vals (vecMean (c.dps.map (fun d => d.vec))).1) - Spec.compSum j (c.dps.map (fun d => vals d.vec)) / c.dps.length) := by
        field_simp
      rw [h3, abs_mul, abs_of_nonneg hn0]
      have h4 : 2 * (c.dps.length * u) * M + u / 1000 * M ≤ 4 * (N + 2) * u * M := by
        have h5 : c.dps.length * (u * M) ≤ N * (u * M) := mul_le_mul_of_nonneg_right hlN (by positivity)
        have h6 : 0 ≤ u * M := by positivity
        have h7 : 0 ≤ N * (u * M) := by positivity
        linarith
      exact mul_le_mul (by linarith) (h2.trans h4) (abs_nonneg _) (by linarith)
    · have hz : Spec.compSum j (c.dps.map (fun d => vals d.vec)) = 0 := by
        unfold Spec.compSum
        rw [List.map_map]
        refine List.sum_eq_zero fun x hx => ?_
        obtain ⟨e, he, rfl⟩ := List.mem_map.1 hx
        exact comp_none (by rw [h.dim e he]; exact hj)
      rw [comp_none (by rw [hlv]; exact hj), hz, mul_zero, sub_zero, abs_zero]
      exact mul_nonneg (by linarith) (by positivity)

/-- One offered datapoint. -/
theorem Near.offer {tk : Nat → Int} {M : ℝ} {N a : Nat} {c : Centroid F64} (h : Near M N a c) (hb : Bound M) (ha : a ≤ N)
    (hN : 8 * N * (N + 2) ≤ 2 ^ 53) {d : DataPoint F64} (hx : ∀ x ∈ d.vec, Fin x ∧ |val x| ≤ M) (p : Nat) :
    Go.wp (c.addDataPoint tk d) (fun r _ => Near M N (a + 1) r.2 ∧ (r.1 = false → r.2 = c)) p := by
  rw [Centroid.wp_addDataPoint]
  have hm := h.mono hb.pos.le (Nat.le_succ a)
  split
  · exact ⟨hm, fun _ => rfl⟩
  · rename_i hl
    split
    · exact ⟨hm, fun _ => rfl⟩
    · exact ⟨h.add hb ha hN (by simpa using hl) hx, by simp⟩

theorem near_set {M : ℝ} {N a : Nat} {h : List (Centroid F64)} (hh : ∀ c ∈ h, Near M N a c) {c : Centroid F64} (hc : Near M N a c) (k : Nat) :
    ∀ x ∈ h.set k c, Near M N a x := by
  intro x hx
  rcases List.mem_or_eq_of_mem_set hx with hx | rfl
  · exact hh x hx
  · exact hc

theorem near_distributeLoop {tk : Nat → Int} {M : ℝ} {N : Nat} (hb : Bound M) (hN : 8 * N * (N + 2) ≤ 2 ^ 53) (self : Nat) (rs : List Nat) :
    ∀ (ds : List (DataPoint F64)) (h : List (Centroid F64)) (a p : Nat), a + ds.length ≤ N → (∀ c ∈ h, Near M N a c) →
      (∀ d ∈ ds, ∀ x ∈ d.vec, Fin x ∧ |val x| ≤ M) →
      Go.wlp (Centroid.distributeLoop tk self rs ds h) (fun h' _ => ∀ c ∈ h', Near M N (a + ds.length) c) p
  | [], h, a, p, _, hh, _ => by
    unfold Centroid.distributeLoop
    exact Go.wlp_pure hh
  | d :: ds, h, a, p, ha, hh, hd => by
    have hM := hb.pos.le
    rw [List.length_cons] at ha
    unfold Centroid.distributeLoop
    refine Go.wlp_bind (Go.wlp_idx fun c hc => ?_)
    have nc := hh c (List.mem_of_getElem? hc)
    have e : a + (d :: ds).length = (a + 1) + ds.length := by rw [List.length_cons]; omega
    rw [e]
    have go : ∀ (h1 : List (Centroid F64)) (q : Nat), (∀ c ∈ h1, Near M N (a + 1) c) →
        Go.wlp (Centroid.distributeLoop tk self rs ds h1) (fun h' _ => ∀ c ∈ h', Near M N (a + 1 + ds.length) c) q :=
      fun h1 q hh1 => near_distributeLoop hb hN self rs ds h1 (a + 1) q (by omega) hh1 (fun e he => hd e (by simp [he]))
    have up : ∀ c ∈ h, Near M N (a + 1) c := fun c hc => (hh c hc).mono hM (Nat.le_succ a)
    refine Go.wlp_bind (Go.wlp_any fun ix q => ?_)
    split
    · refine Go.wlp_bind (Go.wlp_mono (Go.wlp_of_wp (nc.offer hb (by omega) hN (hd d (by simp)) q)) fun r q' hr => ?_)
      exact go _ _ (near_set up hr.1 _)
    · refine Go.wlp_bind (Go.wlp_idx fun rj _ => Go.wlp_bind (Go.wlp_idx fun rc hrc => ?_))
      have nr := hh rc (List.mem_of_getElem? hrc)
      refine Go.wlp_bind (Go.wlp_mono (Go.wlp_of_wp (nr.offer hb (by omega) hN (hd d (by simp)) q)) fun r q' hr => ?_)
      show Go.wlp (if r.1 = true then _ else _) _ q'
      split
      · exact go _ _ (near_set up hr.1 _)
      · rename_i hf
        have hset : h.set rj r.2 = h := by
          rw [hr.2 (by simpa using hf)]
          obtain ⟨hi, rfl⟩ := List.getElem?_eq_some_iff.1 hrc
          exact List.set_getElem_self hi
        rw [hset]
        refine Go.wlp_bind (Go.wlp_idx fun c1 hc1 => ?_)
        have n1 := hh c1 (List.mem_of_getElem? hc1)
        refine Go.wlp_bind (Go.wlp_mono (Go.wlp_of_wp (n1.offer hb (by omega) hN (hd d (by simp)) q')) fun r' q'' hr' => ?_)
        exact go _ _ (near_set up hr'.1 _)

theorem near_on {M : ℝ} {N a : Nat} {w : CentroidWorld F64} (hw : ∀ c ∈ w.cs, Near M N a c) (self : Nat)
    (f : Centroid F64 → Go (List (DataPoint F64) × Centroid F64)) (p : Nat)
    (hf : ∀ c ∈ w.cs, Go.wlp (f c) (fun r _ => Near M N a r.2) p) :
    Go.wlp (w.on self f) (fun w' _ => ∀ c ∈ w'.cs, Near M N a c) p := by
  unfold CentroidWorld.on
  cases h : w.cs[self]? with
  | none => exact Go.wlp_pure hw
  | some c =>
    refine Go.wlp_bind (Go.wlp_mono (hf c (List.mem_of_getElem? h)) fun r q hr => ?_)
    exact Go.wlp_pure (near_set hw hr _)

theorem near_call {tk : Nat → Int} (hm : MonoClock tk) {M : ℝ} {N a : Nat} (hb : Bound M) (hN : 8 * N * (N + 2) ≤ 2 ^ 53) {p : Nat}
    {w : CentroidWorld F64} (hw : WorldInv tk p w) (hh : ∀ c ∈ w.cs, Near M N a c) (o : CentroidCall F64) (ha : a + o.puts ≤ N)
    (ht : o.notTrim) (hn : o.nonneg) (hwi : o.within M) :
    Go.wlp (o.run tk w) (fun w' _ => ∀ c ∈ w'.cs, Near M N (a + o.puts) c) p := by
  have hM := hb.pos.le
  have ha0 : a ≤ N := by omega
  cases o with
  | create v cap knn kfn =>
    refine Go.wlp_of_wp ?_
    simp only [CentroidCall.run, Centroid.new, Go.wp_bind, Go.wp_checkMake, Go.wp_pure]
    refine ⟨hn, fun c hc => ?_⟩
    rcases List.mem_append.1 hc with hc | hc
    · exact hh c hc
    · rw [List.mem_singleton.1 hc]
      refine ⟨by intro d hd; simp at hd, by intro d hd; simp at hd, hwi, by simp, fun j => ?_⟩
      have hu := u_pos
      simp only [List.length_nil, List.map_nil, Nat.cast_zero, zero_mul, sub_zero]
      simp only [Spec.compSum, List.map_nil, List.sum_nil, sub_zero, abs_zero]
      positivity
  | add self d =>
    simp only [CentroidCall.run]
    cases h : w.cs[self]? with
    | none => exact Go.wlp_pure (fun c hc => (hh c hc).mono hM (Nat.le_add_right _ _))
    | some c =>
      refine Go.wlp_bind (Go.wlp_mono (Go.wlp_of_wp ((hh c (List.mem_of_getElem? h)).offer hb ha0 hN hwi p)) fun r q hr => ?_)
      exact Go.wlp_pure (near_set (fun c hc => (hh c hc).mono hM (Nat.le_succ _)) hr.1 _)
  | drainUnordered self n =>
    refine near_on hh self _ p (fun c hc => Go.wlp_of_wp (Go.wp_mono (Centroid.wp_drainUnordered tk c hn p) fun r q hr => ?_))
    obtain ⟨pre, h1, _⟩ := hr
    exact (hh c hc).rmSteps hb ha0 hN h1
  | drainOrdered self n =>
    refine near_on hh self _ p (fun c hc => Go.wlp_of_wp (Go.wp_mono (Centroid.wp_drainOrdered hm c (hw.search c hc).2 hn p) fun r q hr => ?_))
    obtain ⟨_, ⟨removed, h1⟩, _⟩ := hr.facts
    exact (hh c hc).rmSteps hb ha0 hN h1
  | expire self =>
    refine near_on hh self _ p (fun c hc => Go.wlp_of_wp ?_)
    simp only [Go.wp_bind, Go.wp_pure]
    refine Go.wp_mono (Centroid.wp_expire hm c p) fun r q hr => ?_
    obtain ⟨removed, h1, _⟩ := hr.steps
    exact (hh c hc).rmSteps hb ha0 hN h1
  | memTrim self => exact ht.elim
  | moveVector self =>
    refine near_on hh self _ p (fun c hc => Go.wlp_of_wp ?_)
    simp only [Go.wp_bind, Go.wp_pure]
    refine Go.wp_mono (Centroid.wp_moveVector hm c (hw.dim c hc) p) fun r q hr => ?_
    obtain ⟨c1, h1, h2⟩ := hr
    obtain ⟨removed, h3, _⟩ := h1.steps
    have h4 := (hh c hc).rmSteps hb ha0 hN h3
    split at h2
    · rename_i hf
      rw [h2]; exact h4.move hb ha0 hN hf
    · rw [h2]; exact h4
  | knnLookup self v k drain =>
    refine near_on hh self _ p (fun c hc => Go.wlp_of_wp ?_)
    simp only [Go.wp_bind, Go.wp_pure]
    refine Go.wp_mono (Centroid.wp_knnLookup hm c (hw.search c hc).1 v hn drain p) fun r q hr => ?_
    cases drain with
    | true =>
      obtain ⟨_, ⟨removed, h1⟩, _⟩ := Centroid.DrainEffect.facts hr
      exact (hh c hc).rmSteps hb ha0 hN h1
    | false =>
      obtain ⟨_, h1, _⟩ := Centroid.LookupEffect.facts hr
      obtain ⟨removed, h3, _⟩ := h1.steps
      exact (hh c hc).rmSteps hb ha0 hN h3
  | distribute self n receivers =>
    have up : ∀ c ∈ w.cs, Near M N (a + n.toNat) c := fun c hc => (hh c hc).mono hM (Nat.le_add_right _ _)
    simp only [CentroidCall.run]
    split
    · rename_i hself
      refine Go.wlp_bind ?_
      refine Go.wlp_mono (Q := fun h' _ => ∀ c ∈ h', Near M N (a + n.toNat) c) ?_ (fun h' q hh' => Go.wlp_pure hh')
      unfold Centroid.distribute
      split
      · exact Go.wlp_pure up
      · refine Go.wlp_bind (Go.wlp_idx fun c hc => ?_)
        have hcm := List.mem_of_getElem? hc
        refine Go.wlp_bind (Go.wlp_mono (Go.wlp_of_wp (Centroid.wp_drainOrdered hm c (hw.search c hcm).2 hn p)) fun r q hr => ?_)
        obtain ⟨_, ⟨removed, h1⟩, _, _, h5, h6⟩ := hr.facts
        have hlen : r.1.length ≤ n.toNat := by
          have hn' : 0 ≤ n := hn
          omega
        have ha' : a + n.toNat ≤ N := ha
        refine Go.wlp_mono (near_distributeLoop hb hN self _ r.1 _ a q (by omega) (near_set hh ((hh c hcm).rmSteps hb ha0 hN h1) _)
          (fun d hd => (hh c hcm).comps d (h6 d hd))) fun h' q' hh' x hx => (hh' x hx).mono hM (by omega)
    · exact Go.wlp_pure up

/-- Over whole histories. -/
theorem near_calls {tk : Nat → Int} (hm : MonoClock tk) {M : ℝ} {N : Nat} (hb : Bound M) (hN : 8 * N * (N + 2) ≤ 2 ^ 53) :
    ∀ (os : List (CentroidCall F64)) (w : CentroidWorld F64) (a p : Nat), WorldInv tk p w → (∀ c ∈ w.cs, Near M N a c) →
      a + (os.map CentroidCall.puts).sum ≤ N → (∀ o ∈ os, o.notTrim ∧ o.nonneg ∧ o.goodSearch ∧ o.within M) →
      Go.wp (runCentroidCalls tk os w) (fun w' _ => ∀ c ∈ w'.cs, Near M N (a + (os.map CentroidCall.puts).sum) c) p
  | [], w, a, p, _, hh, _, _ => by
    unfold runCentroidCalls
    exact hh
  | o :: os, w, a, p, hw, hh, ha, ho => by
    rw [List.map_cons, List.sum_cons] at ha
    unfold runCentroidCalls
    rw [Go.wp_bind]
    obtain ⟨h1, h2, h3, h4⟩ := ho o (by simp)
    have hcall := wp_call hm hw (fun _ => True) (fun _ _ => trivial) (fun _ _ _ => trivial) (fun _ _ _ _ _ => trivial)
      (fun c hd _ q => Go.wp_mono (Centroid.wp_moveVector hm c hd q) (fun _ _ _ => trivial)) o (.inl h1) h2 h3
    obtain ⟨w1, p1, e1, e2, e3, _⟩ := Go.wp_iff.1 hcall
    have hnear := near_call hm hb hN hw hh o (by omega) h1 h2 h4 w1 p1 e1
    refine Go.wp_iff.2 ⟨w1, p1, e1, ?_⟩
    have := near_calls hm hb hN os w1 (a + o.puts) p1 e3 hnear (by omega) (fun o' ho' => ho o' (by simp [ho']))
    rw [List.map_cons, List.sum_cons, ← Nat.add_assoc]
    exact this

end F64
end Trypo
