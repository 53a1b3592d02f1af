import Verif.Proofs.SafeNet

/-!
# Any number of requests served concurrently
-/

set_option linter.unusedSectionVars false
set_option linter.unusedVariables false

namespace Trypo
open GoFloat Spec

variable {F : Type} [GoFloat F] [LawfulCmp F] {α : Type}

/-- A goroutine with what is known about it. -/
structure Task (F α : Type) where
  own : NS
  prog : Prog F α
  L : View
  H : List (DataPoint F)
  M : List (Entry F)
  Q : α → View → List (DataPoint F) → List (Entry F) → Prop

/-- The context of a namespace. -/
abbrev ctxOf (env : Env) (D : NS → Nat) (T : (Addr → List (NS × Nat)) → List NS → Prop) (U : NS → DataPoint F → Prop) (Dr : Prop)
    (R : NS → DataPoint F → Prop) (ns : NS) : Ctx F := ⟨env, D, ns, T, U ns, Dr, R ns⟩

/-- What is known is true. -/
def Task.Good (env : Env) (D : NS → Nat) (T : (Addr → List (NS × Nat)) → List NS → Prop) (U : NS → DataPoint F → Prop)
    (Dr : Prop) (R : NS → DataPoint F → Prop) (t : Task F α) : Prop :=
  Safe (ctxOf env D T U Dr R t.own) t.prog t.L t.H t.M t.Q

/-- All that `f` finds in tasks of the namespace. -/
def sumOf {β : Type} (ns : NS) (f : Task F α → List β) (ts : List (Task F α)) : List β :=
  ts.flatMap (fun t => if t.own = ns then f t else [])

theorem sumOf_split {β : Type} (ns : NS) (f : Task F α → List β) {ts : List (Task F α)} {i : Nat} {t : Task F α}
    (h : ts[i]? = some t) : ∃ X, (sumOf ns f ts).Perm ((if t.own = ns then f t else []) ++ X) ∧
      ∀ t', (sumOf ns f (ts.set i t')).Perm ((if t'.own = ns then f t' else []) ++ X) := by
  obtain ⟨hlt, hg⟩ := List.getElem?_eq_some_iff.1 h
  have e1 : ts = ts.take i ++ t :: ts.drop (i + 1) := by
    rw [← hg, List.getElem_cons_drop, List.take_append_drop]
  have e2 : ∀ t', ts.set i t' = ts.take i ++ t' :: ts.drop (i + 1) := by
    intro t'; rw [List.set_eq_take_append_cons_drop, if_pos hlt]
  have key : ∀ (a b : List (Task F α)) (x : Task F α),
      (sumOf ns f (a ++ x :: b)).Perm ((if x.own = ns then f x else []) ++ (sumOf ns f a ++ sumOf ns f b)) := by
    intro a b x
    unfold sumOf
    rw [List.flatMap_append, List.flatMap_cons]
    generalize (if x.own = ns then f x else []) = y
    exact List.perm_append_comm_assoc _ _ _
  refine ⟨_, (List.Perm.of_eq ?_).trans (key (ts.take i) (ts.drop (i + 1)) t), fun t' => ?_⟩
  · rw [← e1]
  · rw [e2]; exact key _ _ t'

theorem sumOf_set_ne {β : Type} (ns : NS) (f : Task F α → List β) {ts : List (Task F α)} {i : Nat} {t t' : Task F α}
    (h : ts[i]? = some t) (ho : t'.own = t.own) (hn : t.own ≠ ns) : sumOf ns f (ts.set i t') = sumOf ns f ts := by
  obtain ⟨hlt, hg⟩ := List.getElem?_eq_some_iff.1 h
  have e1 : ts = ts.take i ++ t :: ts.drop (i + 1) := by
    rw [← hg, List.getElem_cons_drop, List.take_append_drop]
  rw [List.set_eq_take_append_cons_drop, if_pos hlt]
  conv_rhs => rw [e1]
  unfold sumOf
  simp only [List.flatMap_append, List.flatMap_cons]
  rw [if_neg hn, if_neg (by rw [ho]; exact hn)]

/-- What a pool has done since the start. -/
structure PoolOK (env : Env) (D : NS → Nat) (T : (Addr → List (NS × Nat)) → List NS → Prop)
    (U : NS → DataPoint F → Prop) (Dr : Prop) (R : NS → DataPoint F → Prop) (ts : List (Task F α)) (w : World F)
    (p : Nat) (ts' : List (Task F α)) (w' : World F) (p' : Nat) : Prop where
  le : p ≤ p'
  ok : WorldOK D w'
  tab : T w'.table (labels w')
  good : ∀ t ∈ ts', t.Good env D T U Dr R ∧ t.L.Le (view w')
  same : ts'.map (fun t => (t.own, t.Q)) = ts.map (fun t => (t.own, t.Q))
  view : (view w).Le (view w')
  frame : ∀ ns, (∀ t ∈ ts, t.own ≠ ns) → held w' ns = held w ns ∧ ∀ a, w'.get a ns = w.get a ns ∧ w'.lookup a ns = w.lookup a ns
  conserved : ∀ ns, ∃ mint, (sumOf ns Task.M ts').Perm (mint ++ sumOf ns Task.M ts) ∧ (∀ e ∈ mint, (ctxOf env D T U Dr R ns).Fine e) ∧
    Conserved (env.tk p') (extras mint ++ (sumOf ns Task.H ts ++ held w ns)) (sumOf ns Task.H ts' ++ held w' ns) (losts mint)

theorem map_set_same {β : Type} {f : Task F α → β} {ts : List (Task F α)} {i : Nat} {t t' : Task F α} (h : ts[i]? = some t)
    (hf : f t' = f t) : (ts.set i t').map f = ts.map f := by
  refine List.ext_getElem? (fun j => ?_)
  rw [List.getElem?_map, List.getElem?_map, List.getElem?_set]
  by_cases hj : i = j
  · subst hj
    rw [if_pos rfl, if_pos (List.getElem?_eq_some_iff.1 h).1, h]
    simp [hf]
  · rw [if_neg hj]

theorem pool_safe {env : Env} (he : EnvOK env) {D : NS → Nat} {T : (Addr → List (NS × Nat)) → List NS → Prop}
    {U : NS → DataPoint F → Prop} {Dr : Prop} {R : NS → DataPoint F → Prop} (hR : ∀ w ns d, TurnedAway w ns d → R ns d) :
    ∀ (sched : List Nat) (ts : List (Task F α)) (w : World F) (p : Nat), WorldOK D w → T w.table (labels w) →
      (∀ t ∈ ts, t.Good env D T U Dr R ∧ t.L.Le (view w)) → (∀ ns, ∀ d ∈ sumOf ns Task.H ts ++ held w ns, U ns d) →
      ∃ ts' w' p', Pool.run sched (ts.map Task.prog) w p = .ok (ts'.map Task.prog, w', p') ∧
        PoolOK env D T U Dr R ts w p ts' w' p'
  | [], ts, w, p, hw, hT, hts, hu => by
    refine ⟨ts, w, p, rfl, ⟨Nat.le_refl _, hw, hT, hts, rfl, .refl _, fun _ _ => ⟨rfl, fun _ => ⟨rfl, rfl⟩⟩, fun ns => ⟨[], .refl _, by simp, ?_⟩⟩⟩
    exact Conserved.refl _ _
  | i :: is, ts, w, p, hw, hT, hts, hu => by
    have skip := pool_safe he hR is ts w p hw hT hts hu
    rw [Pool.run, List.getElem?_map]
    cases ht : ts[i]? with
    | none => exact skip
    | some t =>
      obtain ⟨own, prog, L, H, M, Q⟩ := t
      obtain ⟨hg, hL⟩ := hts _ (List.mem_of_getElem? ht)
      cases prog with
      | ret x => exact skip
      | act a k =>
        obtain ⟨r, p1, hrun, H', mint, hs, hk⟩ := Go.wp_iff.1 (hg w p ⟨hw, hT⟩ hL (by
          intro d hd
          refine hu own d ?_
          obtain ⟨Y, y1, _⟩ := sumOf_split own Task.H ht
          simp only [if_true] at y1
          rcases List.mem_append.1 hd with h | h
          · exact List.mem_append.2 (.inl (y1.symm.subset (by simp [h])))
          · exact List.mem_append.2 (.inr h)) (hR w own))
        simp only [Option.map_some, hrun]
        have hin : ∀ t ∈ ts.set i ⟨own, k r.1, view r.2, H', mint ++ M, Q⟩, t.Good env D T U Dr R ∧ t.L.Le (view r.2) := by
          intro t htm
          rcases List.mem_or_eq_of_mem_set htm with h | rfl
          · exact ⟨(hts t h).1, (hts t h).2.trans hs.view⟩
          · exact ⟨hk, .refl _⟩
        have hu' : ∀ ns, ∀ d ∈ sumOf ns Task.H (ts.set i ⟨own, k r.1, view r.2, H', mint ++ M, Q⟩) ++ held r.2 ns, U ns d := by
          intro ns d hd
          by_cases hn : own = ns
          · subst hn
            obtain ⟨Y, y1, y2⟩ := sumOf_split own Task.H ht
            have y3 := y2 ⟨own, k r.1, view r.2, H', mint ++ M, Q⟩
            simp only [if_true] at y1 y3
            have hu1 := hu own
            have hk1 := hs.known (fun d hd => (List.mem_append.1 hd).elim
              (fun h => hu1 d (List.mem_append.2 (.inl (y1.symm.subset (by simp [h]))))) (fun h => hu1 d (by simp [h])))
            rcases List.mem_append.1 hd with h | h
            · rcases List.mem_append.1 (y3.subset h) with h | h
              · exact hk1 d (by simp [h])
              · exact hu1 d (List.mem_append.2 (.inl (y1.symm.subset (by simp [h]))))
            · exact hk1 d (List.mem_append.2 (.inr h))
          · rw [sumOf_set_ne ns Task.H ht (t' := ⟨own, k r.1, view r.2, H', mint ++ M, Q⟩) rfl hn, hs.frame.held ns (Ne.symm hn)] at hd
            exact hu ns d hd
        obtain ⟨ts', w', p', hrun', hp⟩ := pool_safe he hR is _ r.2 p1 hs.inv.ok hs.inv.tab hin hu'
        refine ⟨ts', w', p', ?_, ?_⟩
        · rw [← hrun', List.map_set]
        · refine ⟨Nat.le_trans hs.le hp.le, hp.ok, hp.tab, hp.good, ?_, hs.view.trans hp.view, ?_, ?_⟩
          · rw [hp.same]
            exact map_set_same ht rfl
          · intro ns hns
            have hne : own ≠ ns := hns _ (List.mem_of_getElem? ht)
            have h2 := hp.frame ns (by
              intro t htm
              rcases List.mem_or_eq_of_mem_set htm with h | rfl
              · exact hns t h
              · exact hne)
            refine ⟨h2.1.trans (hs.frame.held ns (Ne.symm hne)), fun b => ⟨(h2.2 b).1.trans (hs.frame.get b ns (Ne.symm hne)),
              (h2.2 b).2.trans (hs.frame.lookup b ns (Ne.symm hne))⟩⟩
          · intro ns
            obtain ⟨m2, e1, e1', e2⟩ := hp.conserved ns
            by_cases hn : own = ns
            · subst hn
              obtain ⟨X, x1, x2⟩ := sumOf_split own Task.M ht
              obtain ⟨Y, y1, y2⟩ := sumOf_split own Task.H ht
              have x3 := x2 ⟨own, k r.1, view r.2, H', mint ++ M, Q⟩
              have y3 := y2 ⟨own, k r.1, view r.2, H', mint ++ M, Q⟩
              simp only [if_true] at x1 x3 y1 y3
              refine ⟨m2 ++ mint, by permc [e1, x1, x3], fun d hd => (List.mem_append.1 hd).elim (e1' d) (hs.minted d), ?_⟩
              obtain ⟨l1, c1, c1'⟩ := hs.conserved.mono he.clock hp.le
              obtain ⟨l2, c2, c2'⟩ := e2
              refine ⟨l1 ++ l2, by simp only [extras_append, losts_append]; permc [c1, c2, y1, y3], ?_⟩
              intro d hd
              exact (List.mem_append.1 hd).elim (c1' d) (c2' d)
            · rw [sumOf_set_ne ns Task.M ht (t' := ⟨own, k r.1, view r.2, H', mint ++ M, Q⟩) rfl hn] at e1
              rw [sumOf_set_ne ns Task.H ht (t' := ⟨own, k r.1, view r.2, H', mint ++ M, Q⟩) rfl hn, hs.frame.held ns (Ne.symm hn)] at e2
              exact ⟨m2, e1, e1', e2⟩

/-! ### Serving a request -/

theorem safe_answer {c : Ctx F} {β : Type} {f : β → Answer F} {m : Prog F (Option β)} {L : View} {H : List (DataPoint F)} {M : List (Entry F)}
    {Q : Answer F → View → List (DataPoint F) → List (Entry F) → Prop}
    (h : Safe c m L H M (fun r L' H' M' => Q (match r with | some b => f b | none => .noNamespace) L' H' M')) :
    Safe c (answer f m) L H M Q := by
  unfold answer
  refine safe_bind (safe_mono _ h (fun r L' H' M' hq => ?_))
  cases r with
  | none => exact safe_pure hq
  | some b => exact safe_pure hq

theorem safe_serve {c : Ctx F} (he : EnvOK c.env) {fac : Factory F} (hf : FactoryOK fac) (r : Request F) (hv : r.valid c.D)
    (hns : r.ns = c.own) (ho : r.mayCreate → c.Open r.node) (hd : r.fetches → ¬ NoLostReplies c.env → c.Dr) (L : View) :
    Safe c (r.serve c.env fac) L r.brings [] (fun ans L' H' M' => ∃ X, H'.Perm (r.takes ans ++ X) ∧
      (∀ x ∈ X, r.adds ∧ (r.places → c.R x)) ∧ (NoLostReplies c.env → M' = [])) := by
  cases r with
  | add a ns d =>
    cases hns
    refine safe_bind (safe_addDataPoint he.clock hf hv (.inl (ho trivial)) (.refl _) (fun L' X _ _ _ hX => safe_pure ?_))
    exact ⟨X, by simp [Request.takes], fun x hx => ⟨trivial, fun _ => hX x hx⟩, fun _ => rfl⟩
  | vec a ns =>
    cases hns
    refine safe_answer (safe_vec he (fun r L' _ _ => ⟨[], ?_, by simp, fun _ => rfl⟩))
    cases r <;> exact .refl _
  | lenDP a ns =>
    cases hns
    refine safe_answer (safe_lenDP he (fun r L' _ => ⟨[], ?_, by simp, fun _ => rfl⟩))
    cases r <;> exact .refl _
  | drainUnordered a ns n =>
    cases hns
    refine safe_answer (safe_drainUnordered he hv (fun r L' _ _ => ⟨[], ?_, by simp, fun _ => rfl⟩))
    cases r <;> exact .refl _
  | drainOrdered a ns n =>
    cases hns
    refine safe_answer (safe_drainOrdered he hv (fun r L' _ _ => ⟨[], ?_, by simp, fun _ => rfl⟩))
    cases r <;> exact .refl _
  | expire a ns =>
    cases hns
    refine safe_answer (safe_expire he (fun r L' _ => ⟨[], ?_, by simp, fun _ => rfl⟩))
    cases r <;> exact .refl _
  | memTrim a ns =>
    cases hns
    refine safe_answer (safe_memTrim he (fun r L' _ => ⟨[], ?_, by simp, fun _ => rfl⟩))
    cases r <;> exact .refl _
  | moveVector a ns =>
    cases hns
    refine safe_answer (safe_moveVector he (fun r L' _ => ⟨[], ?_, by simp, fun _ => rfl⟩))
    cases r <;> exact .refl _
  | distributeInternal a ns n =>
    cases hns
    refine safe_answer (safe_distributeInternal he (fun r L' _ => ⟨[], ?_, by simp, fun _ => rfl⟩))
    cases r <;> exact .refl _
  | distributeFast a ns n addrs =>
    cases hns
    refine safe_answer (safe_distributeFast he hf hv (fun r L' X Y _ hX hY H' hH' => ⟨X, ?_, fun x hx => ⟨trivial, fun h => hX h x hx⟩, fun h => ?_⟩))
    · cases r <;> simpa [Request.takes, Request.brings] using hH'
    · rw [hY h]; rfl
  | distributeAccurate a ns n addrs =>
    cases hns
    refine safe_answer (safe_distributeAccurate he hf hv (fun r L' X Y _ hX hY H' hH' => ⟨X, ?_, fun x hx => ⟨trivial, fun h => hX h x hx⟩, fun h => ?_⟩))
    · cases r <;> simpa [Request.takes, Request.brings] using hH'
    · rw [hY h]; rfl
  | knnLookup a ns v k drain =>
    cases hns
    refine safe_answer (safe_knnLookup he hv (fun r L' _ _ => ⟨[], ?_, by simp, fun _ => rfl⟩))
    cases r with
    | none => simp [Request.takes, Request.brings]
    | some l => simp [Request.takes, Request.brings]
  | nearestCentroids a ns v n drain =>
    cases hns
    refine safe_answer (safe_nearestCentroids he hv (fun r L' _ _ => ⟨[], ?_, by simp, fun _ => rfl⟩))
    cases r with
    | none => simp [Request.takes, Request.brings]
    | some l => simp [Request.takes, Request.brings]
  | nearestCentroidVec a ns v =>
    cases hns
    refine safe_answer (safe_nearestCentroidVec he (fun r L' _ _ => ⟨[], ?_, by simp, fun _ => rfl⟩))
    cases r <;> exact .refl _
  | splitCentroids a ns min max =>
    cases hns
    refine safe_answer (safe_splitCentroids he (fun r L' _ => ⟨[], ?_, by simp, fun _ => rfl⟩))
    cases r <;> exact .refl _
  | mergeCentroids a ns min max =>
    cases hns
    refine safe_answer (safe_mergeCentroids he (fun r L' _ => ⟨[], ?_, by simp, fun _ => rfl⟩))
    cases r <;> exact .refl _
  | stealCentroid a ns src limit fuel =>
    cases hns
    refine safe_bind (safe_stealCentroid he hf (ho trivial) (hd trivial) (fun r L' Y _ hY =>
      safe_pure ⟨[], ?_, by simp, fun hn => by rw [hY hn]; rfl⟩))
    simp [Request.takes, Request.brings]

theorem Request.lossless_fetches {env : Env} {r : Request F} (h : r.lossless env) (hf : r.fetches) : NoLostReplies env := by
  cases r <;> first | exact h | exact hf.elim

theorem Request.lossless_complete {env : Env} {r : Request F} (h : r.lossless env) : r.complete := by
  cases r <;> first | exact h | exact trivial

theorem Request.complete_places {r : Request F} (h : r.complete) : r.places := by
  cases r <;> first | exact h.2 | exact trivial

theorem Request.complete_adds {r : Request F} (h : r.complete) (ha : r.adds) : AlwaysFinds (knnCos (F := F)) := by
  cases r <;> first | exact ha.elim | exact h.1 | exact h

/-- What was seen by a goroutine that has not looked yet. -/
def View.none : View := ⟨[], fun _ _ => False⟩

theorem View.none_le (v : View) : View.none.Le v := ⟨List.nil_prefix, fun _ _ h => h.elim⟩

/-- What a request keeps to the end. -/
def servedQ (env : Env) (R : NS → DataPoint F → Prop) (r : Request F) (ans : Answer F) (L' : View) (H' : List (DataPoint F)) (M' : List (Entry F)) : Prop :=
  ∃ X, H'.Perm (r.takes ans ++ X) ∧ (∀ x ∈ X, r.adds ∧ (r.places → R r.ns x)) ∧ (NoLostReplies env → M' = [])

/-- The task of serving a request. -/
def taskOf (env : Env) (R : NS → DataPoint F → Prop) (fac : Factory F) (r : Request F) : Task F (Answer F) :=
  ⟨r.ns, r.serve env fac, .none, r.brings, [], servedQ env R r⟩

theorem sumOf_taken {env : Env} {D : NS → Nat} {T : (Addr → List (NS × Nat)) → List NS → Prop} {U : NS → DataPoint F → Prop}
    {Dr : Prop} {R : NS → DataPoint F → Prop} (ns : NS) :
    ∀ (reqs : List (Request F)) (ts : List (Task F (Answer F))) (answers : List (Answer F)), (∀ t ∈ ts, t.Good env D T U Dr R) →
      ts.map (fun t => (t.own, t.Q)) = reqs.map (fun r => (r.ns, servedQ env R r)) → ts.map Task.prog = answers.map .ret →
      ∃ left, (sumOf ns Task.H ts).Perm (taken reqs answers ns ++ left) ∧ (∀ d ∈ left, ∃ r ∈ reqs, r.adds ∧ (r.places → R ns d)) ∧
        (NoLostReplies env → sumOf ns Task.M ts = [])
  | [], ts, answers, hg, h1, h2 => by
    have : ts = [] := by simpa using h1
    subst this
    exact ⟨[], by simp [sumOf, taken], by simp, fun _ => rfl⟩
  | r :: reqs, [], answers, hg, h1, h2 => by simp at h1
  | r :: reqs, t :: ts, [], hg, h1, h2 => by simp at h2
  | r :: reqs, t :: ts, ans :: answers, hg, h1, h2 => by
    simp only [List.map_cons, List.cons.injEq, Prod.mk.injEq] at h1 h2
    obtain ⟨⟨o1, o2⟩, h1⟩ := h1
    obtain ⟨o3, h2⟩ := h2
    obtain ⟨left, e1, e2, e3⟩ := sumOf_taken ns reqs ts answers (fun t ht => hg t (by simp [ht])) h1 h2
    have hgt := hg t (by simp)
    unfold Task.Good at hgt
    rw [o3, o2] at hgt
    obtain ⟨X, x1, x2, x3⟩ := hgt
    have hs : ∀ {β : Type} (f : _ → List β), sumOf ns f (t :: ts) = (if t.own = ns then f t else []) ++ sumOf ns f ts := fun f => rfl
    have ht : taken (r :: reqs) (ans :: answers) ns = (if r.ns = ns then r.takes ans else []) ++ taken reqs answers ns := rfl
    rw [hs, hs, ht, o1]
    by_cases hn : r.ns = ns
    · simp only [if_pos hn]
      refine ⟨X ++ left, by permc [e1, x1], fun d hd => ?_, fun hl => ?_⟩
      · rcases List.mem_append.1 hd with hd | hd
        · exact ⟨r, by simp, hn ▸ x2 d hd⟩
        · obtain ⟨r', hr', h⟩ := e2 d hd
          exact ⟨r', by simp [hr'], h⟩
      · rw [x3 hl, e3 hl]; rfl
    · simp only [if_neg hn, List.nil_append]
      exact ⟨left, e1, fun d hd => by obtain ⟨r', hr', h⟩ := e2 d hd; exact ⟨r', by simp [hr'], h⟩, e3⟩

theorem sumOf_brought (env : Env) (R : NS → DataPoint F → Prop) (fac : Factory F) (reqs : List (Request F)) (ns : NS) :
    sumOf ns Task.H (reqs.map (taskOf env R fac)) = brought reqs ns := by
  unfold sumOf brought; rw [List.flatMap_map]; rfl

theorem serve_pool {env : Env} (he : EnvOK env) {fac : Factory F} (hf : FactoryOK fac) {D : NS → Nat}
    {T : (Addr → List (NS × Nat)) → List NS → Prop} {w : World F} (hw : WorldOK D w) (hT : T w.table (labels w))
    {reqs : List (Request F)} (hv : ∀ r ∈ reqs, r.valid D)
    (ho : ∀ r ∈ reqs, r.mayCreate → ∀ U Dr R, (ctxOf (F := F) env D T U Dr R r.ns).Open r.node) (sched : List Nat) (p : Nat) :
    ∃ progs w' p', Pool.run sched (reqs.map (fun r => r.serve env fac)) w p = .ok (progs, w', p') ∧ p ≤ p' ∧ WorldOK D w' ∧
      T w'.table (labels w') ∧ progs.length = reqs.length ∧ (view w).Le (view w') ∧
      (∀ ns, (∀ r ∈ reqs, r.ns ≠ ns) → ∀ a, w'.get a ns = w.get a ns) ∧
      (∀ ns, ∃ minted inHands, Conserved (env.tk p') (minted ++ (brought reqs ns ++ held w ns)) (held w' ns ++ inHands) [] ∧
        (∀ d ∈ minted, d ∈ brought reqs ns ++ held w ns) ∧
        ∀ answers, progs = answers.map .ret → ∃ left, inHands.Perm (taken reqs answers ns ++ left) ∧
          ((∀ r ∈ reqs, r.lossless env) → left = []) ∧ (NoLostReplies env → minted = [])) := by
  let R : NS → DataPoint F → Prop := fun _ _ => ¬ AlwaysFinds (knnCos (F := F))
  obtain ⟨ts', w', p', h1, h2⟩ := pool_safe (R := R) (U := fun ns d => d ∈ brought reqs ns ++ held w ns) (Dr := ¬ ∀ r ∈ reqs, r.lossless env) he
    (fun w ns d ⟨m, _, hm⟩ hf => hf.not_turnsAway hm) sched (reqs.map (taskOf env R fac)) w p hw hT (by
    intro t ht
    obtain ⟨r, hr, rfl⟩ := List.mem_map.1 ht
    exact ⟨safe_serve (c := ctxOf env D T _ _ R r.ns) he hf r (hv r hr) rfl (fun hm => ho r hr hm _ _ _)
      (fun hfe hn hl => hn (Request.lossless_fetches (hl r hr) hfe)) _, View.none_le _⟩) (by
    intro ns d hd
    rw [sumOf_brought] at hd; exact hd)
  have hlen : ts'.length = reqs.length := by
    have := congrArg List.length h2.same; simpa using this
  refine ⟨ts'.map Task.prog, w', p', ?_, h2.le, h2.ok, h2.tab, by simpa using hlen, h2.view, ?_, fun ns => ?_⟩
  · rw [← h1, List.map_map]; rfl
  · intro ns hns a
    exact ((h2.frame ns (by
      intro t ht
      obtain ⟨r, hr, rfl⟩ := List.mem_map.1 ht
      exact hns r hr)).2 a).1
  · obtain ⟨mint, m1, m1', m2⟩ := h2.conserved ns
    have e2 : sumOf ns Task.M (reqs.map (taskOf env R fac)) = [] := by
      unfold sumOf; rw [List.flatMap_map]
      simp only [taskOf, List.flatMap_eq_nil_iff]
      intro x _
      by_cases h : x.ns = ns
      · exact if_pos h
      · exact if_neg h
    rw [sumOf_brought] at m2
    rw [e2, List.append_nil] at m1
    refine ⟨extras mint, sumOf ns Task.H ts' ++ losts mint, ?_, Ctx.fine_extras m1', fun answers ha => ?_⟩
    · obtain ⟨lost, c1, c2⟩ := m2
      exact ⟨lost, by permc [c1], c2⟩
    obtain ⟨left, l1, l2, l3⟩ := sumOf_taken (env := env) (D := D) (T := T) (R := R) (U := fun ns d => d ∈ brought reqs ns ++ held w ns)
      (Dr := ¬ ∀ r ∈ reqs, r.lossless env) ns reqs ts' answers (fun t ht => (h2.good t ht).1) (by
      rw [h2.same, List.map_map]; rfl) ha
    refine ⟨left ++ losts mint, by permc [l1], fun hl => ?_, fun hl => by rw [l3 hl] at m1; rw [m1.nil_eq.symm]; rfl⟩
    have : unarrived mint = [] := Ctx.fine_losts m1' (fun hn => hn hl)
    have hleft : left = [] := List.eq_nil_iff_forall_not_mem.2 (fun d hd => by
      obtain ⟨r, hr, ha, h⟩ := l2 d hd
      have hc := Request.lossless_complete (hl r hr)
      exact h (Request.complete_places hc) (Request.complete_adds hc ha))
    rw [hleft, losts, this]; rfl

end Trypo
