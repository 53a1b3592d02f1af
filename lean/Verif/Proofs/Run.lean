import Verif.Proofs.Pool

/-!
# Requests served one at a time
-/

set_option linter.unusedSectionVars false
set_option linter.unusedVariables false

namespace Trypo
open GoFloat Spec

variable {F : Type} [GoFloat F] {α β : Type}

theorem run_pure (a : α) (w : World F) : (pure a : Prog F α).run w = pure (a, w) := rfl

theorem run_bind (m : Prog F α) (f : α → Prog F β) (w : World F) :
    (m >>= f).run w = (m.run w >>= fun r => (f r.1).run r.2) := by
  show (m.bind f).run w = _
  induction m generalizing w with
  | ret a => rw [Prog.bind, Prog.run, pure_bind]
  | act a k ih =>
    rw [Prog.bind, Prog.run, Prog.run, bind_assoc]
    congr 1
    funext r
    exact ih r.1 r.2

theorem run_ofAct (a : Act F β) (w : World F) : (Prog.ofAct a).run w = a.run w := by
  unfold Prog.ofAct
  rw [Prog.run]
  exact bind_pure (a.run w)

theorem run_loc (m : Go β) (w : World F) : (Prog.loc m : Prog F β).run w = (m >>= fun r => pure (r, w)) := by
  unfold Prog.loc; rw [run_ofAct]; rfl

theorem run_lookup (a : Addr) (ns : NS) (w : World F) : (Prog.ofAct (.lookup a ns)).run w = pure (w.lookup a ns, w) := by
  rw [run_ofAct]; rfl

theorem run_addSlot (a : Addr) (ns : NS) (m : Manager F) (w : World F) :
    (Prog.ofAct (.addSlot a ns m)).run w = pure ((), w.addSlot a ns m) := by
  rw [run_ofAct]; rfl

theorem run_access_none {a : Addr} {ns : NS} {w : World F} (h : w.lookup a ns = none) (f : Manager F → Go (β × Manager F)) :
    (Server.access a ns f).run w = pure (none, w) := by
  unfold Server.access
  rw [run_bind, run_lookup, pure_bind, h]; rfl

theorem run_access_some {a : Addr} {ns : NS} {w : World F} {i : Nat} {m : Manager F} (h : w.lookup a ns = some i)
    (hm : w.heap[i]? = some (ns, m)) (f : Manager F → Go (β × Manager F)) :
    (Server.access a ns f).run w = (do let r ← f m; pure (some r.1, w.put i ns r.2)) := by
  unfold Server.access
  rw [run_bind, run_lookup, pure_bind, h]
  show ((Prog.ofAct (.slot i f) >>= fun b => pure (some b)) : Prog F (Option β)).run w = _
  rw [run_bind, run_ofAct, run_slot hm, bind_assoc]
  simp only [pure_bind, run_pure]; rfl

/-- A program that is safe does what it should when it runs alone. -/
theorem run_of_safe {c : Ctx F} (hc : MonoClock c.env.tk) (hR : ∀ w d, TurnedAway w c.own d → c.R d) {Q : α → View → List (DataPoint F) → List (Entry F) → Prop} :
    ∀ (m : Prog F α) (L : View) (H : List (DataPoint F)) (M : List (Entry F)) (w : World F) (p : Nat), Safe c m L H M Q → c.Inv w → L.Le (view w) → (∀ d ∈ H ++ held w c.own, c.U d) →
      Go.wp (m.run w) (fun r p' => ∃ L' H' M' mint, Q r.1 L' H' M' ∧ M'.Perm (mint ++ M) ∧ (∀ e ∈ mint, c.Fine e) ∧ c.Inv r.2 ∧ p ≤ p' ∧
        Frame c.own w r.2 ∧ (view w).Le (view r.2) ∧ L'.Le (view r.2) ∧
        Conserved (c.env.tk p') (extras mint ++ (H ++ held w c.own)) (H' ++ held r.2 c.own) (losts mint)) p
  | .ret a, L, H, M, w, p, hs, hi, hL, hu => by
    rw [Prog.run, Go.wp_pure]
    exact ⟨L, H, M, [], hs, .refl _, by simp, hi, Nat.le_refl _, .refl _ _, .refl _, hL, Conserved.refl _ _⟩
  | .act a k, L, H, M, w, p, hs, hi, hL, hu => by
    rw [Prog.run, Go.wp_bind]
    refine Go.wp_mono (hs w p hi hL hu (hR w)) (fun r p1 hr => ?_)
    obtain ⟨H1, mint, h1, h2⟩ := hr
    refine Go.wp_mono (run_of_safe hc hR (k r.1) (view r.2) H1 (mint ++ M) r.2 p1 h2 h1.inv (.refl _) (h1.known hu)) (fun q p2 hq => ?_)
    obtain ⟨L', H', M', mint2, q1, q2, q2', q3, q4, q5, q6, q7, q8⟩ := hq
    refine ⟨L', H', M', mint2 ++ mint, q1, by permc [q2], fun d hd => (List.mem_append.1 hd).elim (q2' d) (h1.minted d), q3, Nat.le_trans h1.le q4, h1.frame.trans q5, h1.view.trans q6, q7, ?_⟩
    obtain ⟨l1, c1, c1'⟩ := h1.conserved.mono hc q4
    obtain ⟨l2, c2, c2'⟩ := q8
    exact ⟨l1 ++ l2, by simp only [extras_append, losts_append]; permc [c1, c2], fun d hd => (List.mem_append.1 hd).elim (c1' d) (c2' d)⟩

/-- The manager of a namespace at a node. -/
theorem get_of_lookup {w : World F} {a : Addr} {ns : NS} {i : Nat} {m : Manager F} (h : w.lookup a ns = some i)
    (hm : w.heap[i]? = some (ns, m)) : w.get a ns = some m := by
  unfold World.get; rw [h]; simp [hm]

theorem get_put_self {w : World F} {a : Addr} {ns : NS} {i : Nat} {m m' : Manager F} (h : w.lookup a ns = some i)
    (hm : w.heap[i]? = some (ns, m)) : (w.put i ns m').get a ns = some m' :=
  get_of_lookup (w := w.put i ns m') (m := m') h (by
    unfold World.put; simp only
    rw [List.getElem?_set_self (List.getElem?_eq_some_iff.1 hm).1])

theorem lookup_of_get {D : NS → Nat} {w : World F} (hw : WorldOK D w) {a : Addr} {ns : NS} {m : Manager F}
    (h : w.get a ns = some m) : ∃ i, w.lookup a ns = some i ∧ w.heap[i]? = some (ns, m) := by
  unfold World.get at h
  cases hl : w.lookup a ns with
  | none => rw [hl] at h; simp at h
  | some i =>
    obtain ⟨m2, hm2⟩ := lookup_lt hw hl
    rw [hl] at h
    simp only [Option.bind_some, hm2, Option.map_some, Option.some.injEq] at h
    exact ⟨i, rfl, by rw [hm2, h]⟩

theorem get_eq_none_iff {D : NS → Nat} {w : World F} (hw : WorldOK D w) {a : Addr} {ns : NS} :
    w.get a ns = none ↔ w.lookup a ns = none := by
  unfold World.get
  cases hl : w.lookup a ns with
  | none => simp
  | some i =>
    obtain ⟨m2, hm2⟩ := lookup_lt hw hl
    simp [hm2]

end Trypo

namespace Trypo
open GoFloat Spec

variable {F : Type} [GoFloat F]

/-- What slot `i` stores. -/
def slotDps (w : World F) (i : Nat) : List (DataPoint F) := match w.heap[i]? with | some s => stored s.2 | none => []

theorem held_eq_indices (w : World F) (ns : NS) :
    held w ns = ((List.range w.heap.length).filter (fun i => ((w.heap[i]?).map (fun s => s.1)) = some ns)).flatMap (slotDps w) := by
  have : ∀ (a b : List (NS × Manager F)), (b.filter (fun s => s.1 = ns)).flatMap (fun s => stored s.2) =
      ((List.range' a.length b.length).filter (fun i => ((a ++ b)[i]?.map (fun s => s.1)) = some ns)).flatMap
        (fun i => match (a ++ b)[i]? with | some s => stored s.2 | none => []) := by
    intro a b
    induction b generalizing a with
    | nil => simp
    | cons x b ih =>
      have e := ih (a ++ [x])
      rw [List.length_append, List.length_singleton, List.append_assoc, List.singleton_append] at e
      rw [List.length_cons, List.range'_succ, List.filter_cons, List.filter_cons]
      have hx : (a ++ x :: b)[a.length]? = some x := by simp
      by_cases hn : x.1 = ns
      · simp only [hn, decide_true, if_true, hx, Option.map_some, List.flatMap_cons]
        rw [e]
      · have h2 : ¬ (some x.1 = some ns) := by simpa using hn
        simp only [hn, decide_false, Bool.false_eq_true, if_false, hx, Option.map_some, h2]
        exact e
  have h := this [] w.heap
  rw [List.range_eq_range']
  unfold held
  rw [h]
  rfl

theorem held_perm_storedAt {D : NS → Nat} {w : World F} (hw : WorldOK D w) (hno : NoOrphans w) {nodes : List Addr}
    (hnd : nodes.Nodup) {ns : NS} (hall : ∀ a, w.lookup a ns ≠ none → a ∈ nodes) : (held w ns).Perm (storedAt w nodes ns) := by
  have e : storedAt w nodes ns = (nodes.filterMap (fun a => w.lookup a ns)).flatMap (slotDps w) := by
    unfold storedAt
    clear hall hnd
    induction nodes with
    | nil => rfl
    | cons a nodes ih =>
      rw [List.flatMap_cons, ih, List.filterMap_cons]
      cases hl : w.lookup a ns with
      | none => unfold World.get; rw [hl]; simp
      | some i =>
        obtain ⟨m, hm⟩ := lookup_lt hw hl
        rw [get_of_lookup hl hm]
        simp only [List.flatMap_cons, slotDps, hm]
  rw [held_eq_indices, e]
  refine List.Perm.flatMap_right _ ((List.perm_ext_iff_of_nodup (List.nodup_range.filter _) ?_).2 (fun i => ?_))
  · clear hall e
    induction nodes with
    | nil => simp
    | cons a nodes ih =>
      rw [List.nodup_cons] at hnd
      rw [List.filterMap_cons]
      cases hl : w.lookup a ns with
      | none => exact ih hnd.2
      | some i =>
        simp only
        rw [List.nodup_cons]
        refine ⟨fun hmem => ?_, ih hnd.2⟩
        obtain ⟨b, hb, hbl⟩ := List.mem_filterMap.1 hmem
        have := hw.apart a b ns i (mem_of_lookup hl) (mem_of_lookup hbl)
        exact hnd.1 (this ▸ hb)
  · rw [List.mem_filter, List.mem_filterMap]
    constructor
    · rintro ⟨_, h2⟩
      cases hx : w.heap[i]? with
      | none => rw [hx] at h2; simp at h2
      | some s =>
        rw [hx] at h2
        simp only [Option.map_some, Option.some.injEq, decide_eq_true_eq] at h2
        obtain ⟨a, ha⟩ := hno i s hx
        rw [h2] at ha
        have hl : w.lookup a ns = some i := lookup_of_mem (hw.keys a) ha
        exact ⟨a, hall a (by rw [hl]; simp), hl⟩
    · rintro ⟨a, _, hl⟩
      obtain ⟨m, hm⟩ := lookup_lt hw hl
      refine ⟨List.mem_range.2 (List.getElem?_eq_some_iff.1 hm).1, by simp [hm]⟩

end Trypo
