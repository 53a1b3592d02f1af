import Verif.Spec.Loops
import Verif.Props.Steal

/-!
# C64: every loop ends, and the model's fuel is enough
-/

set_option linter.unusedSectionVars false
set_option linter.unusedVariables false

namespace Trypo
open GoFloat Spec

variable {F : Type} [GoFloat F]

/-- A loop has at most one result. -/
theorem _root_.Trypo.Spec.Runs.unique {σ α : Type} {body : σ → Go (σ ⊕ α)} {s : σ} {p : Nat} {r r' : Except Panic (α × Nat)}
    (h : Runs body s p r) (h' : Runs body s p r') : r = r' := by
  induction h with
  | stop h =>
    cases h' with
    | stop g => rw [h] at g; cases g; rfl
    | next g _ => rw [h] at g; cases g
    | panic g => rw [h] at g; cases g
  | next h _ ih =>
    cases h' with
    | stop g => rw [h] at g; cases g
    | next g g' => rw [h] at g; cases g; exact ih g'
    | panic g => rw [h] at g; cases g
  | panic h =>
    cases h' with
    | stop g => rw [h] at g; cases g
    | next g _ => rw [h] at g; cases g
    | panic g => rw [h] at g; cases g; rfl

theorem Go.run_bind_ok {α β : Type} {m : Go α} {f : α → Go β} {p p' : Nat} {a : α} (h : m p = .ok (a, p')) : (m >>= f) p = f a p' := by
  show (m p >>= fun q => f q.1 q.2) = _
  rw [h]; rfl

theorem Go.run_idx {α : Type} {l : List α} {i : Nat} {a : α} (h : l[i]? = some a) : Go.idx l i = pure a := by
  unfold Go.idx; rw [h]

theorem DataPoint.run_expired (tk : Nat → Int) (d : DataPoint F) (p : Nat) : d.expired tk p = .ok (d.expiredAt (tk p), p + 1) := rfl

theorem Go.run_pure {α : Type} (a : α) (p : Nat) : (pure a : Go α) p = .ok (a, p) := rfl

namespace Centroid

theorem runs_skip (tk : Nat → Int) (i : Nat) : ∀ (fuel : Nat) (c : Centroid F) (p : Nat), c.dps.length ≤ fuel + i →
    Runs (skipBody tk i) c p (skipExpired tk i fuel c p)
  | 0, c, p, hf => by
    refine .stop ?_
    unfold skipBody
    rw [if_neg (by omega)]; rfl
  | fuel + 1, c, p, hf => by
    unfold skipExpired
    cases h : c.dps[i]? with
    | none =>
      refine .stop ?_
      unfold skipBody
      rw [if_neg (by have := List.getElem?_eq_none_iff.1 h; omega)]; rfl
    | some d =>
      have hi : i < c.dps.length := (List.getElem?_eq_some_iff.1 h).1
      have hb : skipBody tk i c p = (if d.expiredAt (tk p) then .ok (.inl (c.rmP i d), p + 1) else .ok (.inr c, p + 1)) := by
        unfold skipBody
        rw [if_pos hi, Go.run_idx h, pure_bind, Go.run_bind_ok (d.run_expired tk p)]
        split
        · rw [rm_eq h, pure_bind]; rfl
        · rfl
      simp only
      rw [Go.run_bind_ok (d.run_expired tk p)]
      split
      · rename_i he
        rw [if_pos he] at hb
        rw [rm_eq h, pure_bind]
        refine .next hb (runs_skip tk i fuel _ _ ?_)
        show (c.dps.eraseIdx i).length ≤ _
        rw [List.length_eraseIdx_of_lt hi]; omega
      · rename_i he
        rw [if_neg he] at hb
        exact .stop hb

/-- One call of the generator: what it may do. -/
theorem run_genNext (tk : Nat → Int) (c : Centroid F) (i p : Nat) : ∃ c' p', (c.dps.length - i = 0 → c'.dps.length - i = 0) ∧
    c'.dps.length ≤ c.dps.length ∧
    c.genNext tk i p = .ok (match c'.dps[i]? with | none => (none, c', i) | some d => (some d.vec, c', i + 1), p') := by
  have h : Go.wp (skipExpired tk i c.dps.length c) (fun c' _ => ∃ removed, RmSteps c removed c') p :=
    wp_meanLoop.wp_skip_steps tk i c.dps.length c p
  obtain ⟨c', p', h1, removed, h2⟩ := Go.wp_iff.1 h
  have hl := h2.sublist.length_le
  refine ⟨c', p', by omega, hl, ?_⟩
  unfold genNext
  rw [Go.run_bind_ok h1]
  cases c'.dps[i]? <;> rfl

/-- The search loop on the generator does what the model's search does on the list of what the generator yields. -/
theorem runs_search (tk : Nat → Int) (target : List F) (dist : List F → List F → Option F) (asc : Bool) :
    ∀ (fuel : Nat) (c : Centroid F) (i p : Nat) (res : List (ResultItem F)) (j : Nat), c.dps.length < fuel + i → 0 < fuel →
    ∃ vs c' p', genAll tk fuel c i p = .ok ((vs, c'), p') ∧
      Runs (searchBody tk target dist asc) (res, j, c, i) p (.ok ((knnLoop target dist asc res j vs, c'), p'))
  | 0, c, i, p, res, j, hf, h0 => by omega
  | fuel + 1, c, i, p, res, j, hf, h0 => by
    obtain ⟨c', p', h1, h2, h3⟩ := run_genNext tk c i p
    unfold genAll
    rw [Go.run_bind_ok h3]
    cases hd : c'.dps[i]? with
    | none =>
      rw [hd] at h3
      refine ⟨[], c', p', rfl, .stop ?_⟩
      unfold searchBody
      simp only
      rw [Go.run_bind_ok h3]; rfl
    | some d =>
      rw [hd] at h3
      have hi := (List.getElem?_eq_some_iff.1 hd).1
      simp only at h3 ⊢
      have hb : ∃ res', searchBody tk target dist asc (res, j, c, i) p = .ok (.inl (res', j + 1, c', i + 1), p') ∧
          ∀ vs, knnLoop target dist asc res j (d.vec :: vs) = knnLoop target dist asc res' (j + 1) vs := by
        unfold searchBody
        simp only
        rw [Go.run_bind_ok h3]
        simp only
        cases hs : dist target d.vec with
        | none => exact ⟨res, rfl, fun vs => by rw [knnLoop, hs]⟩
        | some s =>
          cases asc with
          | true =>
            cases hc : lt s (worstScore true) with
            | true => exact ⟨_, by simp [hc]; rfl, fun vs => by rw [knnLoop, hs]; simp [hc]⟩
            | false => exact ⟨res, by simp [hc]; rfl, fun vs => by rw [knnLoop, hs]; simp [hc]⟩
          | false =>
            cases hc : lt (worstScore false) s with
            | true => exact ⟨_, by simp [hc]; rfl, fun vs => by rw [knnLoop, hs]; simp [hc]⟩
            | false => exact ⟨res, by simp [hc]; rfl, fun vs => by rw [knnLoop, hs]; simp [hc]⟩
      obtain ⟨res', hb1, hb2⟩ := hb
      obtain ⟨vs, c2, p2, g1, g2⟩ := runs_search tk target dist asc fuel c' (i + 1) p' res' (j + 1) (by omega) (by omega)
      refine ⟨d.vec :: vs, c2, p2, ?_, .next hb1 ?_⟩
      · rw [Go.run_bind_ok g1]; rfl
      · rw [hb2]; exact g2

theorem runs_drain (tk : Nat → Int) (n : Int) : ∀ (fuel : Nat) (c : Centroid F) (res : List (DataPoint F)) (p : Nat),
    c.dps.length ≤ fuel → Runs (drainBody tk n) (c, res) p (drainUnorderedLoop tk n.toNat fuel c res p)
  | 0, c, res, p, hf => by
    refine .stop ?_
    unfold drainBody
    simp only
    rw [if_neg (by omega)]; rfl
  | fuel + 1, c, res, p, hf => by
    unfold drainUnorderedLoop
    cases h : c.dps with
    | nil =>
      refine .stop ?_
      unfold drainBody
      simp only
      rw [if_neg (by simp [h])]; rfl
    | cons d l =>
      have hget : c.dps[0]? = some d := by rw [h]; rfl
      simp only
      split
      · rename_i hlt
        rw [Go.run_bind_ok (d.run_expired tk p), rm_eq hget, pure_bind]
        have hb : drainBody tk n (c, res) p = .ok (.inl (c.rmP 0 d, if d.expiredAt (tk p) = true then res else res ++ [d]), p + 1) := by
          unfold drainBody
          simp only
          rw [if_pos ⟨by simp [h], by omega⟩, Go.run_idx hget, pure_bind, Go.run_bind_ok (d.run_expired tk p), rm_eq hget]
          split <;> rfl
        refine .next hb (runs_drain tk n fuel _ _ _ ?_)
        show (c.dps.eraseIdx 0).length ≤ _
        rw [h] at hf ⊢; simpa using hf
      · rename_i hlt
        refine .stop ?_
        unfold drainBody
        simp only
        rw [if_neg (by omega)]; rfl

theorem runs_expire (tk : Nat → Int) : ∀ (fuel i : Nat) (c : Centroid F) (p : Nat), c.dps.length ≤ fuel + i →
    Runs (expireBody tk) (i, c) p (expireLoop tk fuel i c p)
  | 0, i, c, p, hf => by
    refine .stop ?_
    unfold expireBody
    simp only
    rw [if_neg (by omega)]; rfl
  | fuel + 1, i, c, p, hf => by
    unfold expireLoop
    cases h : c.dps[i]? with
    | none =>
      refine .stop ?_
      unfold expireBody
      simp only
      rw [if_neg (by have := List.getElem?_eq_none_iff.1 h; omega)]; rfl
    | some d =>
      have hi : i < c.dps.length := (List.getElem?_eq_some_iff.1 h).1
      have hb : expireBody tk (i, c) p = (if d.expiredAt (tk p) then .ok (.inl (i, c.rmP i d), p + 1) else .ok (.inl (i + 1, c), p + 1)) := by
        unfold expireBody
        simp only
        rw [if_pos hi, Go.run_idx h, pure_bind, Go.run_bind_ok (d.run_expired tk p)]
        split
        · rw [rm_eq h, pure_bind]; rfl
        · rfl
      simp only
      rw [Go.run_bind_ok (d.run_expired tk p)]
      split
      · rename_i he
        rw [if_pos he] at hb
        rw [rm_eq h, pure_bind]
        refine .next hb (runs_expire tk fuel i _ _ ?_)
        show (c.dps.eraseIdx i).length ≤ _
        rw [List.length_eraseIdx_of_lt hi]; omega
      · rename_i he
        rw [if_neg he] at hb
        exact .next hb (runs_expire tk fuel (i + 1) c _ (by omega))

theorem runs_memTrim (tk : Nat → Int) : ∀ (fuel : Nat) (c : Centroid F) (acc : List (DataPoint F)) (p : Nat), c.dps.length ≤ fuel →
    Runs (memTrimBody tk) (c, acc) p (memTrimLoop tk fuel c acc p)
  | 0, c, acc, p, hf => by
    refine .stop ?_
    unfold memTrimBody
    simp only
    rw [if_neg (by omega)]; rfl
  | fuel + 1, c, acc, p, hf => by
    unfold memTrimLoop
    split
    · rename_i hpos
      have hne : c.dps ≠ [] := by intro h; rw [h] at hpos; simp at hpos
      obtain ⟨r, p1, h0, pre, h1, h2, h3, h4, h5, h6, h7⟩ := Go.wp_iff.1 (wp_drainUnordered tk c (n := 1) (by omega) p)
      have hlen : 0 < pre.length := List.length_pos_iff.2 (h7 (by omega) hne)
      have hl := congrArg List.length h2
      simp only [List.length_append] at hl
      rw [Go.run_bind_ok h0]
      refine .next (s' := (r.2, acc ++ r.1)) (p' := p1) ?_ (runs_memTrim tk fuel r.2 _ p1 (by omega))
      unfold memTrimBody
      simp only
      rw [if_pos hpos, Go.run_bind_ok h0]; rfl
    · rename_i hpos
      refine .stop ?_
      unfold memTrimBody
      simp only
      rw [if_neg hpos]; rfl

theorem runs_mean (tk : Nat → Int) : ∀ (fuel : Nat) (res : List F) (m : F) (c : Centroid F) (i p : Nat), c.dps.length < fuel + i → 0 < fuel →
    Runs (meanBody tk) (res, m, c, i) p (meanLoop tk fuel res m c i p)
  | 0, res, m, c, i, p, hf, h0 => by omega
  | fuel + 1, res, m, c, i, p, hf, h0 => by
    obtain ⟨c', p', h1, h2, h3⟩ := run_genNext tk c i p
    unfold meanLoop
    rw [Go.run_bind_ok h3]
    cases hd : c'.dps[i]? with
    | none =>
      rw [hd] at h3
      refine .stop ?_
      unfold meanBody
      simp only
      rw [Go.run_bind_ok h3]; rfl
    | some d =>
      have hi := (List.getElem?_eq_some_iff.1 hd).1
      rw [hd] at h3
      simp only at h3 ⊢
      split
      · rename_i hl
        refine .stop ?_
        unfold meanBody
        simp only
        rw [Go.run_bind_ok h3]
        simp only
        rw [if_pos hl]; rfl
      · rename_i hl
        refine .next (s' := (List.zipWith add res d.vec, add m (ofNat 1), c', i + 1)) (p' := p') ?_
          (runs_mean tk fuel _ _ c' (i + 1) p' (by omega) (by omega))
        unfold meanBody
        simp only
        rw [Go.run_bind_ok h3]
        simp only
        rw [if_neg hl]; rfl

end Centroid

namespace Manager

theorem portionsPass_le (n : Int) : ∀ (sizes vs : List Nat) (assigned : Int), List.Forall₂ (· ≤ ·) vs sizes →
    List.Forall₂ (· ≤ ·) (portionsPass n sizes vs assigned).1 sizes ∧ assigned ≤ (portionsPass n sizes vs assigned).2.1 ∧
      ((portionsPass n sizes vs assigned).1.sum : Int) - vs.sum = (portionsPass n sizes vs assigned).2.1 - assigned
  | [], vs, assigned, h => by cases h; simp [portionsPass]
  | s :: sizes, [], assigned, h => by cases h
  | s :: sizes, v :: vs, assigned, h => by
    cases h with
    | cons h1 h2 =>
      unfold portionsPass
      by_cases hv : v + 1 ≤ s
      · simp only [if_pos hv]
        split
        · exact ⟨.cons hv h2, by dsimp only; omega, by simp only [List.sum_cons]; omega⟩
        · obtain ⟨e1, e2, e3⟩ := portionsPass_le n sizes vs (assigned + 1) h2
          exact ⟨.cons hv e1, by dsimp only; omega, by simp only [List.sum_cons]; omega⟩
      · simp only [if_neg hv]
        split
        · exact ⟨.cons h1 h2, by dsimp only; omega, by simp only [List.sum_cons]; omega⟩
        · obtain ⟨e1, e2, e3⟩ := portionsPass_le n sizes vs assigned h2
          exact ⟨.cons h1 e1, by dsimp only; omega, by simp only [List.sum_cons]; omega⟩

theorem runs_portions (n : Int) (sizes : List Nat) : ∀ (fuel : Nat) (vs : List Nat) (assigned : Int) (p : Nat),
    List.Forall₂ (· ≤ ·) vs sizes → sizes.sum < fuel + vs.sum →
    Runs (portionsBody n sizes) (vs, assigned) p (.ok (portionsLoop n sizes fuel vs assigned, p))
  | 0, vs, assigned, p, hv, hf => by
    have : vs.sum ≤ sizes.sum := List.Forall₂.sum_le_sum hv
    omega
  | fuel + 1, vs, assigned, p, hv, hf => by
    obtain ⟨e1, e2, e3⟩ := portionsPass_le n sizes vs assigned hv
    have hsum : (portionsPass n sizes vs assigned).1.sum ≤ sizes.sum := List.Forall₂.sum_le_sum e1
    unfold portionsLoop
    simp only
    split
    · rename_i h
      refine .stop ?_
      unfold portionsBody
      simp only
      rw [if_pos h]; rfl
    · rename_i h
      split
      · rename_i h'
        refine .stop ?_
        unfold portionsBody
        simp only
        rw [if_neg h, if_pos h']; rfl
      · rename_i h'
        refine .next (s' := ((portionsPass n sizes vs assigned).1, (portionsPass n sizes vs assigned).2.1)) (p' := p) ?_
          (runs_portions n sizes fuel _ _ p e1 (by omega))
        unfold portionsBody
        simp only
        rw [if_neg h, if_neg h']; rfl

end Manager

/-- The filtering loop at index `i`, when the elements before it are `pre`. -/
theorem runs_filter {α : Type} : ∀ (l pre : List (List α)) (p : Nat),
    Runs filterBody (pre.length, pre ++ l) p (.ok (pre ++ Client.dropEmpty l, p))
  | [], pre, p => by
    refine .stop ?_
    unfold filterBody
    simp only
    rw [if_neg (by simp)]; rfl
  | [] :: [], pre, p => by
    refine .next (s' := (pre.length + 1, pre)) (p' := p) ?_ (.stop ?_)
    · unfold filterBody
      simp only
      rw [if_pos (by simp), Go.run_idx (a := []) (by simp)]
      simp
      rfl
    · unfold filterBody
      simp only
      rw [if_neg (by simp)]
      simp [Client.dropEmpty]
      rfl
  | [] :: x :: xs, pre, p => by
    have h := runs_filter xs (pre ++ [x]) p
    rw [List.length_append, List.append_assoc, List.append_assoc] at h
    refine .next (s' := (pre.length + 1, pre ++ x :: xs)) (p' := p) ?_ h
    unfold filterBody
    simp only
    rw [if_pos (by simp), Go.run_idx (a := []) (by simp)]
    simp
    rfl
  | (y :: ys) :: xs, pre, p => by
    have h := runs_filter xs (pre ++ [y :: ys]) p
    rw [List.length_append, List.append_assoc, List.append_assoc] at h
    refine .next (s' := (pre.length + 1, pre ++ (y :: ys) :: xs)) (p' := p) ?_ h
    unfold filterBody
    simp only
    rw [if_pos (by simp), Go.run_idx (a := y :: ys) (by simp)]
    simp
    rfl

section
variable [LawfulCmp F]

/-- What one call to the remote node does to the nodes when answers may be lost and the remote may not have the namespace: either it
brings nothing, or the remote has one centroid less. -/
theorem wp_nearest1_any {env : Env} (hm : MonoClock env.tk) {D : NS → Nat} {w : World F} (hw : WorldOK D w)
    (src : Addr) (ns : NS) (v : List F) (p : Nat) :
    Go.wp ((Client.nearestCentroids env src ns v 1 true).run w) (fun r p' => WorldOK D r.2 ∧
      ((∀ c cs, r.1.2 ≠ some (c :: cs)) ∨
        (∃ s s' x c t, w.get src ns = some s ∧ r.2.get src ns = some s' ∧ s'.centroids.length + 1 = s.centroids.length ∧
          r.1.2 = some [x] ∧ Usable t (D ns) c x) ∧ ∀ b, b ≠ src → r.2.get b ns = w.get b ns)) p := by
  unfold Client.nearestCentroids Client.call
  rw [run_bind, Go.wp_bind, run_bind, Go.wp_bind, run_loc, Go.wp_bind]
  refine wp_sent ?_
  rw [Go.wp_pure]
  simp only
  cases env.up p src with
  | false =>
    simp only [Bool.false_eq_true, if_false, run_pure, Go.wp_pure, Option.getD_none, Client.unpack,
      List.length_nil, if_true, run_bind, run_loc, Go.wp_bind]
    exact ⟨hw, .inl (by simp)⟩
  | true =>
    simp only [if_true]
    rw [run_bind, Go.wp_bind]
    unfold Server.nearestCentroids
    cases hl : w.lookup src ns with
    | none =>
      rw [run_access_none hl, Go.wp_pure, run_bind, Go.wp_bind, run_loc, Go.wp_bind]
      refine wp_arrived ?_
      rw [Go.wp_pure]
      simp only [ite_self, run_pure, Go.wp_pure, Option.getD_none, Client.unpack,
        List.length_nil, if_true, run_bind, run_loc, Go.wp_bind]
      exact ⟨hw, .inl (by simp)⟩
    | some i =>
      obtain ⟨s, hi⟩ := lookup_lt hw hl
      have hok := hw.mok hi
      rw [run_access_some hl hi]
      simp only [Go.wp_bind]
      refine Go.wp_mono (Manager.wp_nearestCentroids hok.wf v (n := 1) (by omega) true (p + 1)) (fun q p1 hq => ?_)
      obtain ⟨hp1, is, h1, h2, h3, h4, h5⟩ := hq
      simp only [Go.wp_pure]
      have hput : w.put i ns s = w := by
        unfold World.put
        obtain ⟨hlt, hi'⟩ := List.getElem?_eq_some_iff.1 hi
        rw [← hi', List.set_getElem_self]
      have hg : w.get src ns = some s := by rw [World.get, hl]; simp [hi]
      rw [run_bind, Go.wp_bind, run_loc, Go.wp_bind]
      refine wp_arrived ?_
      rw [Go.wp_pure]
      by_cases his : is = []
      · subst his
        have hq2 : q.2 = s := by rw [h4 rfl]
        have hq1 : q.1 = none := by rw [h4 rfl]
        rw [hq1, hq2, hput]
        simp only [Option.getD_none, List.map_nil]
        split
        all_goals
          simp only [run_pure, Go.wp_pure, Option.getD_none, Option.getD_some, Client.unpack,
            List.length_nil, if_true, run_bind, run_loc, Go.wp_bind]
          exact ⟨hw, .inl (by simp)⟩
      · obtain ⟨cs, e1, e2, e3, e4⟩ := h5 his
        obtain ⟨rem, d1, d2⟩ := e4 rfl
        have hlen : cs.length = 1 := by
          have := congrArg List.length e2
          simp only [List.length_map] at this
          have : 0 < is.length := List.length_pos_iff.2 his
          omega
        obtain ⟨c, rfl⟩ := List.length_eq_one_iff.1 hlen
        obtain rfl := List.perm_singleton.1 d2
        have hmok : MOK (D ns) q.2 := ⟨d1.wf hok.wf, d1.same.knn.trans hok.knn, d1.same.kfn.trans hok.kfn,
          (d1.vec_length hok.wf).trans hok.len⟩
        have hcm : c ∈ s.centroids := d1.perm.subset (by simp)
        have hw' := hw.put hi hmok.ok
        rw [e1]
        simp only [Option.getD_some, List.map_cons, List.map_nil]
        split
        · simp only [run_pure, Go.wp_pure, Option.getD_some, Client.unpack, List.length_singleton,
            Nat.one_ne_zero, if_false, run_bind, run_loc, Go.wp_bind]
          cases hc : c.dps with
          | nil =>
            simp only [Client.dropEmpty, Client.reinitAll, Go.wp_pure]
            exact ⟨hw', .inl (by simp)⟩
          | cons d ds =>
            simp only [Client.dropEmpty, Client.reinitAll, Go.wp_bind, Go.wp_pure]
            have hdim : ∀ x ∈ d :: ds, x.vec.length = D ns := by
              intro x hx
              rw [(hok.wf.dim c hcm).2 x (by rw [hc]; exact hx), (hok.wf.dim c hcm).1, hok.len]
            refine Go.wp_mono (wp_reinit_usable hm (by simp) hdim _) (fun x p3 hx => ⟨hw', .inr ⟨⟨s, q.2, x, _, _, hg, get_put_self hl hi,
              ?_, rfl, hx.2⟩, fun b hb => get_put_other hw hl hi (.inl hb)⟩⟩)
            have := d1.perm.length_eq
            simp only [List.length_append, List.length_cons, List.length_nil] at this
            omega
        · simp only [run_pure, Go.wp_pure, Option.getD_none, Client.unpack,
            List.length_nil, if_true, run_bind, run_loc, Go.wp_bind]
          exact ⟨hw', .inl (by simp)⟩

/-- How many centroids a node has in a namespace. -/
def World.numC (w : World F) (a : Addr) (ns : NS) : Nat := ((w.get a ns).map (fun m => m.centroids.length)).getD 0

theorem runs_steal {env : Env} (hm : MonoClock env.tk) {D : NS → Nat} {a src : Addr} (hne : a ≠ src) (ns : NS) (v : List F)
    (limit : Int) : ∀ (fuel : Nat) (w : World F) (n p : Nat), WorldOK D w → w.numC src ns < fuel →
    ∃ r p', (Server.stealLoop env a ns src v limit fuel n).run w p = .ok (r, p') ∧
      Runs (stealBody env a ns src v limit) (w, n) p (.ok (r, p'))
  | 0, w, n, p, hw, hf => by omega
  | fuel + 1, w, n, p, hw, hf => by
    unfold Server.stealLoop
    split
    · rename_i hlt
      obtain ⟨q, p1, e0, hw1, hq⟩ := Go.wp_iff.1 (wp_nearest1_any hm hw src ns v p)
      rw [run_bind, Go.run_bind_ok e0]
      rcases hq with hq | ⟨⟨s, s', x, c, t, g1, g2, g3, g4, g5⟩, g6⟩
      · have hb : stealBody env a ns src v limit (w, n) p = .ok (.inr ((q.1.1, n), q.2), p1) := by
          unfold stealBody
          simp only
          rw [if_pos hlt, Go.run_bind_ok e0]
          rcases hq1 : q.1.2 with _ | (_ | ⟨c, cs⟩)
          · rfl
          · rfl
          · exact absurd hq1 (hq c cs)
        refine ⟨((q.1.1, n), q.2), p1, ?_, .stop hb⟩
        rcases hq1 : q.1.2 with _ | (_ | ⟨c, cs⟩)
        · rfl
        · rfl
        · exact absurd hq1 (hq c cs)
      · have hb : ∃ k, (Server.access a ns (fun m => pure (x.lenDP, { m with centroids := m.centroids ++ [x] }))).run q.2 p1 = .ok (k, p1) ∧
            WorldOK D k.2 ∧ k.2.get src ns = some s' := by
          cases hl : q.2.lookup a ns with
          | none =>
            rw [run_access_none hl]
            exact ⟨_, rfl, hw1, g2⟩
          | some ia =>
            obtain ⟨m, hia⟩ := lookup_lt hw1 hl
            rw [run_access_some hl hia]
            have hma := hw1.mok hia
            have hm2 : MOK (D ns) { m with centroids := m.centroids ++ [x] } := by
              refine ⟨hma.wf.append ?_ ?_, hma.knn, hma.kfn, hma.len⟩
              · intro y hy; rw [List.mem_singleton.1 hy, hma.knn, hma.kfn]; exact g5.search
              · intro y hy; rw [List.mem_singleton.1 hy, hma.len]
                exact ⟨g5.dim.1, fun d hd => (g5.dim.2 d hd).trans g5.dim.1.symm⟩
            exact ⟨_, rfl, hw1.put hia hm2.ok, by rw [get_put_other hw1 hl hia (.inl (Ne.symm hne))]; exact g2⟩
        obtain ⟨k, k1, k2, k3⟩ := hb
        have hb : stealBody env a ns src v limit (w, n) p = .ok (.inl (k.2, n + k.1.getD 0), p1) := by
          unfold stealBody
          simp only
          rw [if_pos hlt, Go.run_bind_ok e0]
          rw [g4]
          simp only
          rw [Go.run_bind_ok k1]; rfl
        have hnum : k.2.numC src ns < fuel := by
          unfold World.numC at hf ⊢
          rw [g1] at hf; rw [k3]
          simp only [Option.map_some, Option.getD_some] at hf ⊢
          omega
        obtain ⟨r, p2, r1, r2⟩ := runs_steal hm hne ns v limit fuel k.2 (n + k.1.getD 0) p1 k2 hnum
        refine ⟨r, p2, ?_, .next hb r2⟩
        rw [g4]
        simp only
        rw [run_bind, Go.run_bind_ok k1]
        exact r1
    · rename_i hlt
      refine ⟨((false, n), w), p, rfl, .stop ?_⟩
      unfold stealBody
      simp only
      rw [if_neg hlt]; rfl
end

/-- **C64.** Every loop of a centroid ends, and with what the model's function returns: the skipping of expired datapoints, the search
on the centroid's own vectors (as the search on the list of the vectors that the generator yields), `DrainUnordered`, `Expire`, `MemTrim`
and the mean, from every state and whatever the clock shows. -/
theorem C64_centroid (tk : Nat → Int) (c : Centroid F) (p : Nat) :
    (∀ i, Runs (skipBody tk i) c p (Centroid.skipExpired tk i c.dps.length c p)) ∧
    (∀ (target : List F) (dist : List F → List F → Option F) (asc : Bool) (res : List (ResultItem F)), ∃ vs c' p',
      Centroid.genAll tk (c.dps.length + 1) c 0 p = .ok ((vs, c'), p') ∧
      Runs (searchBody tk target dist asc) (res, 0, c, 0) p (.ok ((knnLoop target dist asc res 0 vs, c'), p'))) ∧
    (∀ n : Int, Runs (drainBody tk n) (c, []) p (Centroid.drainUnorderedLoop tk n.toNat c.dps.length c [] p)) ∧
    Runs (expireBody tk) (0, c) p (Centroid.expireLoop tk c.dps.length 0 c p) ∧
    Runs (memTrimBody tk) (c, []) p (Centroid.memTrimLoop tk c.dps.length c [] p) ∧
    ∀ (res : List F) (n : F) (i : Nat), Runs (meanBody tk) (res, n, c, i) p (Centroid.meanLoop tk (c.dps.length + 1) res n c i p) :=
  ⟨fun i => Centroid.runs_skip tk i _ c p (by omega),
    fun target dist asc res => Centroid.runs_search tk target dist asc _ c 0 p res 0 (by omega) (by omega),
    fun n => Centroid.runs_drain tk n _ c [] p (Nat.le_refl _), Centroid.runs_expire tk _ 0 c p (by omega),
    Centroid.runs_memTrim tk _ c [] p (Nat.le_refl _), fun res n i => Centroid.runs_mean tk _ res n c i p (by omega) (by omega)⟩

/-- **C64.** The loop that portions a number of datapoints among centroids ends with the model's portions. -/
theorem C64_portions (sizes : List Nat) (n : Int) (p : Nat) :
    Runs (portionsBody n sizes) (sizes.map (fun _ => 0), 0) p (.ok (Manager.portions sizes n, p)) := by
  refine Manager.runs_portions n sizes _ _ 0 p ?_ (by omega)
  induction sizes with
  | nil => exact .nil
  | cons s l ih => exact .cons (Nat.zero_le _) ih

/-- **C64.** The client's filtering loop ends with the model's filter. -/
theorem C64_filter {α : Type} (resp : List (List α)) (p : Nat) :
    Runs filterBody (0, resp) p (.ok (Client.dropEmpty resp, p)) := by
  simpa using runs_filter resp [] p

/-- **C64.** The loop of `StealCentroid` from another node ends when nothing else changes the nodes, also when messages get lost, and with
what the model's loop returns for every amount of fuel above the number of centroids at the other node. -/
theorem C64_steal [LawfulCmp F] {env : Env} (hm : MonoClock env.tk) {D : NS → Nat} {w : World F} (hw : WorldOK D w) {a src : Addr}
    (hne : a ≠ src) (ns : NS) (v : List F) (limit : Int) (p : Nat) : ∃ r p',
    Runs (stealBody env a ns src v limit) (w, 0) p (.ok (r, p')) ∧ ∀ fuel, (∀ s, w.get src ns = some s → s.centroids.length < fuel) →
      0 < fuel → (Server.stealLoop env a ns src v limit fuel 0).run w p = .ok (r, p') := by
  obtain ⟨r, p', h1, h2⟩ := runs_steal hm hne ns v limit (w.numC src ns + 1) w 0 p hw (by omega)
  refine ⟨r, p', h2, fun fuel hf h0 => ?_⟩
  obtain ⟨r2, p2, g1, g2⟩ := runs_steal hm hne ns v limit fuel w 0 p hw (by
    unfold World.numC
    cases h : w.get src ns with
    | none => simpa using h0
    | some s => simpa using hf s h)
  rw [g1, ← h2.unique g2]

example : Runs filterBody (0, [[], [], [1]]) 7 (.ok ([[], [1]], 7)) := C64_filter [[], [], [1]] 7

example : Runs (portionsBody 5 [1, 4, 2]) ([0, 0, 0], 0) 0 (.ok ([1, 2, 2], 0)) := by
  have h := C64_portions [1, 4, 2] 5 0
  rwa [show Manager.portions [1, 4, 2] 5 = [1, 2, 2] by decide] at h

/-- A loop that changes nothing and does not stop has no result. -/
example (r : Except Panic (Nat × Nat)) : ¬ Runs (fun s : Nat => pure (.inl s)) 3 0 r := by
  intro h
  have : ∀ (s p : Nat) (r : Except Panic (Nat × Nat)), Runs (fun s : Nat => (pure (.inl s) : Go (Nat ⊕ Nat))) s p r → False := by
    intro s p r h
    induction h with
    | stop h => cases h
    | next _ _ ih => exact ih
    | panic h => cases h
  exact this _ _ _ h

end Trypo
