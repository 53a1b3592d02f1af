import Verif.Spec.Tenants
import Verif.Proofs.RecodeSystem

/-!
# Programs that use a single namespace
-/

set_option linter.unusedSectionVars false
set_option linter.unusedVariables false

namespace Trypo
open GoFloat Spec EventLoop

variable {F : Type}

theorem lookup_others {ns ns' : NS} (h : ns' ≠ ns) : ∀ l : List (NS × Nat), (l.filter fun e => e.1 ≠ ns).lookup ns' = l.lookup ns'
  | [] => rfl
  | (x, i) :: l => by
    have ih := lookup_others h l
    by_cases hx : x = ns
    · subst hx
      rw [List.filter_cons_of_neg (by simp), ih, List.lookup_cons, beq_false_of_ne h]
    · rw [List.filter_cons_of_pos (by simpa using hx), List.lookup_cons, List.lookup_cons, ih]

theorem World.lookup_addSlot (w : World F) (a b : Addr) (ns ns' : NS) (m : Manager F) :
    (w.addSlot a ns m).lookup b ns' = if b = a ∧ ns' = ns then some w.heap.length else w.lookup b ns' := by
  unfold World.lookup World.addSlot
  dsimp only
  by_cases hb : b = a
  · subst hb
    rw [if_pos rfl, List.lookup_cons]
    by_cases hn : ns' = ns
    · subst hn; simp
    · rw [beq_false_of_ne hn, if_neg (by simp [hn])]
      exact lookup_others hn _
  · rw [if_neg hb, if_neg (by simp [hb])]

theorem Act.run_loc {β : Type} (m : Go β) (w : World F) (p : Nat) :
    (Act.loc m).run w p = match m p with | .ok q => .ok ((q.1, w), q.2) | .error e => .error e := by
  simp only [Act.run]
  show (StateT.bind m _) p = _
  unfold StateT.bind
  cases m p <;> rfl

theorem Act.run_slot {β : Type} (i : Nat) (f : Manager F → Go (β × Manager F)) {w : World F} {s : NS × Manager F} (h : w.heap[i]? = some s) (p : Nat) :
    (Act.slot i f).run w p = match f s.2 p with
      | .ok q => .ok ((q.1.1, { w with heap := w.heap.set i (s.1, q.1.2) }), q.2)
      | .error e => .error e := by
  simp only [Act.run, h]
  show (StateT.bind (f s.2) _) p = _
  unfold StateT.bind
  cases f s.2 p <;> rfl

theorem Prog.run_act {α β : Type} (a : Act F β) (k : β → Prog F α) (w : World F) (p : Nat) :
    (Prog.act a k).run w p = match a.run w p with | .ok q => (k q.1.1).run q.1.2 q.2 | .error e => .error e := by
  simp only [Prog.run]
  show (StateT.bind (a.run w) _) p = _
  unfold StateT.bind
  cases a.run w p <;> rfl

namespace Tenant

/-- Programs that use no other namespace. -/
inductive Own (ns : NS) {α : Type} : Prog F α → Prop
  | ret (a : α) : Own ns (.ret a)
  | loc {β : Type} (m : Go β) (k : β → Prog F α) (h : ∀ x, Own ns (k x)) : Own ns (.act (.loc m) k)
  | add (a : Addr) (m : Manager F) (k : Unit → Prog F α) (h : ∀ x, Own ns (k x)) : Own ns (.act (.addSlot a ns m) k)
  | look (a : Addr) {β : Type} (f : Manager F → Go (β × Manager F)) (k : β → Prog F α) (K : Option Nat → Prog F α) (h0 : Own ns (K none))
      (hK : ∀ i, K (some i) = .act (.slot i f) k) (h : ∀ x, Own ns (k x)) : Own ns (.act (.lookup a ns) K)

/-- Tables lead to slots of the right namespace. -/
def Lab (w : World F) : Prop := ∀ a ns i, w.lookup a ns = some i → ∃ m, w.heap[i]? = some (ns, m)

/-- No slot vanishes or changes its namespace. -/
def Grows (w w' : World F) : Prop := ∀ (i : Nat) ns m, w.heap[i]? = some (ns, m) → ∃ m', w'.heap[i]? = some (ns, m')

/-- Two worlds that are the same for namespace `ns`; slot `i` of the one is slot `j` of the other if `R i j`. -/
structure WR (ns : NS) (R : Nat → Nat → Prop) (w v : World F) : Prop where
  look : ∀ a, (w.lookup a ns = none ∧ v.lookup a ns = none) ∨ ∃ i j, w.lookup a ns = some i ∧ v.lookup a ns = some j ∧ R i j
  slot : ∀ i j, R i j → ∃ m, w.heap[i]? = some (ns, m) ∧ v.heap[j]? = some (ns, m)
  left : ∀ i j j', R i j → R i j' → j = j'
  right : ∀ i i' j, R i j → R i' j → i = i'

/-- The same point of the same program. -/
inductive Sim (ns : NS) (R : Nat → Nat → Prop) {α : Type} : Prog F α → Prog F α → Prop
  | same (m : Prog F α) (h : Own ns m) : Sim ns R m m
  | mid {β : Type} (i j : Nat) (f : Manager F → Go (β × Manager F)) (k : β → Prog F α) (r : R i j) (h : ∀ x, Own ns (k x)) :
      Sim ns R (.act (.slot i f) k) (.act (.slot j f) k)

/-- A program that is about another namespace. -/
inductive Away (ns : NS) (w : World F) {α : Type} : Prog F α → Prop
  | own (ns' : NS) (hne : ns' ≠ ns) (m : Prog F α) (h : Own ns' m) : Away ns w m
  | mid {β : Type} (ns' : NS) (hne : ns' ≠ ns) (i : Nat) (f : Manager F → Go (β × Manager F)) (k : β → Prog F α)
      (hl : ∃ m, w.heap[i]? = some (ns', m)) (h : ∀ x, Own ns' (k x)) : Away ns w (.act (.slot i f) k)

variable {ns : NS} {R R' : Nat → Nat → Prop} {w v w' : World F} {α β γ : Type} {p : Nat}

theorem Sim.mono {m u : Prog F α} (h : Sim ns R m u) (hr : ∀ i j, R i j → R' i j) : Sim ns R' m u := by
  cases h with
  | same m h => exact .same m h
  | mid i j f k r h => exact .mid i j f k (hr i j r) h

theorem Away.mono {m : Prog F α} (h : Away ns w m) (hg : Grows w w') : Away ns w' m := by
  cases h with
  | own ns' hne m h => exact .own ns' hne m h
  | mid ns' hne i f k hl h =>
    obtain ⟨m, hl⟩ := hl
    exact .mid ns' hne i f k (hg i ns' m hl) h

theorem WR.get (h : WR ns R w v) (a : Addr) : v.get a ns = w.get a ns := by
  unfold World.get
  rcases h.look a with ⟨h1, h2⟩ | ⟨i, j, h1, h2, r⟩
  · rw [h1, h2]; rfl
  · obtain ⟨m, h3, h4⟩ := h.slot i j r
    simp [h1, h2, h3, h4]

theorem Grows.refl (w : World F) : Grows w w := fun _ _ m h => ⟨m, h⟩

/-! ### Actions -/

theorem set_some {i j : Nat} {l : List (NS × Manager F)} {s s' : NS × Manager F} (h : l[i]? = some s) :
    (l.set i s')[j]? = if i = j then some s' else l[j]? := by
  rw [List.getElem?_set]
  have : i < l.length := (List.getElem?_eq_some_iff.1 h).1
  by_cases hij : i = j
  · subst hij; simp [this]
  · simp [hij]

theorem act_grows {a : Act F β} (L : Lab w) {r : β × World F} {p' : Nat} (e : a.run w p = .ok (r, p')) : Lab r.2 ∧ Grows w r.2 := by
  cases a with
  | lookup a ns => cases e; exact ⟨L, .refl w⟩
  | names a => cases e; exact ⟨L, .refl w⟩
  | loc m =>
    rw [Act.run_loc] at e
    cases hm : m p with
    | error x => rw [hm] at e; cases e
    | ok q => rw [hm] at e; cases e; exact ⟨L, .refl w⟩
  | addSlot a ns m =>
    cases e
    refine ⟨fun b ns' i h => ?_, fun i ns' m' h => ⟨m', ?_⟩⟩
    · rw [World.lookup_addSlot] at h
      split at h
      · rename_i hb
        cases h
        exact ⟨m, by rw [hb.2]; simp [World.addSlot]⟩
      · obtain ⟨m', h'⟩ := L b ns' i h
        exact ⟨m', by
          have := (List.getElem?_eq_some_iff.1 h').1
          simp only [World.addSlot]
          rw [List.getElem?_append_left this, h']⟩
    · have := (List.getElem?_eq_some_iff.1 h).1
      simp only [World.addSlot]
      rw [List.getElem?_append_left this, h]
  | slot i f =>
    cases hi : w.heap[i]? with
    | none =>
      simp only [Act.run, hi] at e
      cases e
    | some s =>
      rw [Act.run_slot i f hi] at e
      cases hm : f s.2 p with
      | error x => rw [hm] at e; cases e
      | ok q =>
        rw [hm] at e
        cases e
        have hg : Grows w { w with heap := w.heap.set i (s.1, q.1.2) } := by
          intro j ns' m' h
          simp only [set_some hi]
          by_cases hij : i = j
          · subst hij
            rw [hi] at h
            cases h
            exact ⟨q.1.2, by simp⟩
          · exact ⟨m', by simp [hij, h]⟩
        exact ⟨fun b ns' j h => by
          obtain ⟨m', h'⟩ := L b ns' j h
          exact hg j ns' m' h', hg⟩

theorem WR.add (h : WR ns R w v) (a : Addr) (m : Manager F) :
    ∃ R', (∀ i j, R i j → R' i j) ∧ WR ns R' (w.addSlot a ns m) (v.addSlot a ns m) := by
  have hl : ∀ i j, R i j → i < w.heap.length ∧ j < v.heap.length := fun i j r => by
    obtain ⟨m, h1, h2⟩ := h.slot i j r
    exact ⟨(List.getElem?_eq_some_iff.1 h1).1, (List.getElem?_eq_some_iff.1 h2).1⟩
  refine ⟨fun i j => R i j ∨ (i = w.heap.length ∧ j = v.heap.length), fun _ _ r => .inl r, ⟨fun b => ?_, ?_, ?_, ?_⟩⟩
  · rw [World.lookup_addSlot, World.lookup_addSlot]
    by_cases hb : b = a
    · rw [if_pos ⟨hb, rfl⟩, if_pos ⟨hb, rfl⟩]
      exact .inr ⟨_, _, rfl, rfl, .inr ⟨rfl, rfl⟩⟩
    · rw [if_neg (by simp [hb]), if_neg (by simp [hb])]
      rcases h.look b with h | ⟨i, j, h1, h2, r⟩
      · exact .inl h
      · exact .inr ⟨i, j, h1, h2, .inl r⟩
  · rintro i j (r | ⟨rfl, rfl⟩)
    · obtain ⟨m, h1, h2⟩ := h.slot i j r
      obtain ⟨l1, l2⟩ := hl i j r
      refine ⟨m, ?_, ?_⟩
      · simp only [World.addSlot]; rw [List.getElem?_append_left l1, h1]
      · simp only [World.addSlot]; rw [List.getElem?_append_left l2, h2]
    · exact ⟨m, by simp [World.addSlot], by simp [World.addSlot]⟩
  · rintro i j j' (r | ⟨rfl, rfl⟩) (r' | ⟨h1, rfl⟩)
    · exact h.left i j j' r r'
    · have := (hl i j r).1; omega
    · have := (hl _ _ r').1; omega
    · rfl
  · rintro i i' j (r | ⟨rfl, rfl⟩) (r' | ⟨rfl, h1⟩)
    · exact h.right i i' j r r'
    · have := (hl i j r).2; omega
    · have := (hl _ _ r').2; omega
    · rfl

theorem WR.run_slot (h : WR ns R w v) {i j : Nat} (r : R i j) (f : Manager F → Go (β × Manager F)) (p : Nat) :
    Agree (fun (x y : (β × World F) × Nat) => y.1.1 = x.1.1 ∧ y.2 = x.2 ∧ WR ns R x.1.2 y.1.2) ((Act.slot i f).run w p) ((Act.slot j f).run v p) := by
  obtain ⟨m, h1, h2⟩ := h.slot i j r
  rw [Act.run_slot i f h1, Act.run_slot j f h2]
  dsimp only
  cases hm : f m p with
  | error x => exact .error x
  | ok q =>
    refine .ok ⟨rfl, rfl, h.look, fun i' j' r' => ?_, h.left, h.right⟩
    dsimp only
    rw [set_some h1, set_some h2]
    by_cases hi : i = i'
    · subst hi
      have := h.left _ _ _ r r'
      subst this
      exact ⟨q.1.2, by simp, by simp⟩
    · have : ¬ j = j' := fun e => hi (h.right _ _ _ r (e ▸ r'))
      rw [if_neg hi, if_neg this]
      exact h.slot i' j' r'

/-- A step of a program about `ns`. -/
theorem stepA {a : Act F β} {k : β → Prog F α} {u : Prog F α} (h : Sim ns R (.act a k) u) (W : WR ns R w v) {r : β × World F} {p' : Nat}
    (e : a.run w p = .ok (r, p')) : ∃ (a' : Act F β) (k' : β → Prog F α) (r' : β × World F), u = .act a' k' ∧ a'.run v p = .ok (r', p') ∧
      ∃ R', (∀ i j, R i j → R' i j) ∧ WR ns R' r.2 r'.2 ∧ Sim ns R' (k r.1) (k' r'.1) := by
  cases h with
  | mid i j f k hr h =>
    refine ⟨.slot j f, k, ?_⟩
    have q := W.run_slot hr f p
    rw [e] at q
    revert q
    generalize (Act.slot j f).run v p = y
    intro q
    cases q with
    | ok q =>
      rename_i y
      obtain ⟨y, p2⟩ := y
      obtain ⟨q1, q2, q3⟩ := q
      dsimp only at q1 q2 q3
      subst q2
      refine ⟨y, rfl, rfl, R, fun _ _ x => x, q3, ?_⟩
      rw [q1]
      exact .same _ (h _)
  | same m h =>
    refine ⟨a, k, ?_⟩
    cases h with
    | loc m k h =>
      rw [Act.run_loc] at e
      simp only [Act.run_loc]
      cases hm : m p with
      | error x => rw [hm] at e; cases e
      | ok q =>
        rw [hm] at e
        cases e
        exact ⟨(q.1, v), trivial, rfl, R, fun _ _ x => x, W, .same _ (h _)⟩
    | add a m k h =>
      cases e
      obtain ⟨R', h1, h2⟩ := W.add a m
      exact ⟨((), v.addSlot a ns m), rfl, rfl, R', h1, h2, .same _ (h _)⟩
    | look a f k K h0 hK h =>
      cases e
      refine ⟨(v.lookup a ns, v), rfl, rfl, R, fun _ _ x => x, W, ?_⟩
      dsimp only
      rcases W.look a with ⟨h1, h2⟩ | ⟨i, j, h1, h2, r⟩
      · rw [h1, h2]; exact .same _ h0
      · rw [h1, h2, hK, hK]
        exact .mid i j f k r h

/-- A step of a program about another namespace. -/
theorem stepB {a : Act F β} {k : β → Prog F α} (h : Away ns w (.act a k)) (L : Lab w) {r : β × World F} {p' : Nat}
    (e : a.run w p = .ok (r, p')) : Away ns r.2 (k r.1) ∧ ∀ R (v : World F), WR ns R w v → WR ns R r.2 v := by
  cases h with
  | mid ns' hne i f k hl h =>
    refine ⟨.own ns' hne _ (h _), fun R v W => ?_⟩
    obtain ⟨m, hl⟩ := hl
    rw [Act.run_slot i f hl] at e
    dsimp only at e
    cases hm : f m p with
    | error x => rw [hm] at e; cases e
    | ok q =>
      rw [hm] at e
      cases e
      refine ⟨W.look, fun i' j' r' => ?_, W.left, W.right⟩
      obtain ⟨m', h1, h2⟩ := W.slot i' j' r'
      refine ⟨m', ?_, h2⟩
      dsimp only
      rw [set_some hl, if_neg, h1]
      rintro rfl
      rw [hl] at h1
      cases h1
      exact hne rfl
  | own ns' hne m h =>
    cases h with
    | loc m k h =>
      rw [Act.run_loc] at e
      cases hm : m p with
      | error x => rw [hm] at e; cases e
      | ok q => rw [hm] at e; cases e; exact ⟨.own ns' hne _ (h _), fun _ _ W => W⟩
    | add a m k h =>
      cases e
      refine ⟨.own ns' hne _ (h _), fun R v W => ⟨fun b => ?_, fun i j r => ?_, W.left, W.right⟩⟩
      · rw [World.lookup_addSlot, if_neg fun x => hne x.2.symm]
        exact W.look b
      · obtain ⟨m', h1, h2⟩ := W.slot i j r
        have := (List.getElem?_eq_some_iff.1 h1).1
        exact ⟨m', by simp only [World.addSlot]; rw [List.getElem?_append_left this, h1], h2⟩
    | look a f k K h0 hK h =>
      cases e
      refine ⟨?_, fun _ _ W => W⟩
      dsimp only
      cases hl : w.lookup a ns' with
      | none => exact .own ns' hne _ h0
      | some i =>
        rw [hK]
        exact .mid ns' hne i f k (L a ns' i hl) h

/-! ### Goroutines -/

theorem pool (A : Nat → Bool) : ∀ (is : List Nat) (ts : List (Prog F (Outcome F))) (w : World F) (p : Nat) {ts' w' p'},
    Pool.run is ts w p = .ok (ts', w', p') → Lab w → (∀ i m, ts[i]? = some m → A i = false → Away ns w m) →
    ∃ ks : Nat → List Nat, (∀ i o, ts[i]? = some (.ret o) → ks i = []) ∧ ∀ us v R, us.length = ts.length → WR ns R w v →
      (∀ i m u, ts[i]? = some m → us[i]? = some u → A i = true → Sim ns R m u) →
      (∀ i u, us[i]? = some u → A i = false → u = idle (ks i)) →
      ∃ us' v' R', Pool.run is us v p = .ok (us', v', p') ∧ us'.length = ts'.length ∧ WR ns R' w' v' ∧
        ∀ i m u, ts'[i]? = some m → us'[i]? = some u → A i = true → Sim ns R' m u
  | [], ts, w, p, ts', w', p', e, L, hA => by
    cases e
    exact ⟨fun _ => [], fun _ _ _ => rfl, fun us v R hlen W hs _ => ⟨us, v, R, rfl, hlen, W, hs⟩⟩
  | i :: is, ts, w, p, ts', w', p', e, L, hA => by
    unfold Pool.run at e
    cases ht : ts[i]? with
    | none =>
      rw [ht] at e
      obtain ⟨ks, hk, h⟩ := pool A is ts w p e L hA
      refine ⟨ks, hk, fun us v R hlen W hs hi => ?_⟩
      have hu : us[i]? = none := by
        rw [List.getElem?_eq_none_iff] at ht ⊢
        omega
      unfold Pool.run
      rw [hu]
      exact h us v R hlen W hs hi
    | some t =>
      have hit := (List.getElem?_eq_some_iff.1 ht).1
      cases t with
      | ret o =>
        rw [ht] at e
        obtain ⟨ks, hk, h⟩ := pool A is ts w p e L hA
        refine ⟨ks, hk, fun us v R hlen W hs hi => ?_⟩
        obtain ⟨u, hu⟩ : ∃ u, us[i]? = some u := ⟨_, List.getElem?_eq_getElem (by omega)⟩
        have : ∃ o', u = .ret o' := by
          cases hAi : A i with
          | true =>
            have := hs i _ u ht hu hAi
            cases this
            exact ⟨o, rfl⟩
          | false =>
            have := hi i u hu hAi
            rw [hk i o ht] at this
            exact ⟨_, this⟩
        obtain ⟨o', rfl⟩ := this
        unfold Pool.run
        rw [hu]
        exact h us v R hlen W hs hi
      | act a k =>
        rw [ht] at e
        dsimp only at e
        cases hr : a.run w p with
        | error x => rw [hr] at e; cases e
        | ok q =>
          obtain ⟨r, p1⟩ := q
          rw [hr] at e
          dsimp only at e
          obtain ⟨L1, G1⟩ := act_grows L hr
          have hset : ∀ j, (ts.set i (k r.1))[j]? = if i = j then some (k r.1) else ts[j]? := fun j => by
            rw [List.getElem?_set]
            by_cases hij : i = j
            · subst hij; simp [hit]
            · simp [hij]
          have hA1 : ∀ j m, (ts.set i (k r.1))[j]? = some m → A j = false → Away ns r.2 m := by
            intro j m hm hj
            rw [hset] at hm
            by_cases hij : i = j
            · subst hij
              rw [if_pos rfl] at hm
              cases hm
              exact (stepB (hA i _ ht hj) L hr).1
            · rw [if_neg hij] at hm
              exact (hA j m hm hj).mono G1
          obtain ⟨ks, hk, h⟩ := pool A is _ r.2 p1 e L1 hA1
          have hlen1 : (ts.set i (k r.1)).length = ts.length := List.length_set
          have huset : ∀ (us : List (Prog F (Outcome F))) x j, us.length = ts.length → (us.set i x)[j]? = if i = j then some x else us[j]? := by
            intro us x j hl
            rw [List.getElem?_set]
            by_cases hij : i = j
            · subst hij
              have : i < us.length := by omega
              simp [this]
            · simp [hij]
          cases hAi : A i with
          | true =>
            refine ⟨ks, fun j o hj => ?_, fun us v R hlen W hs hi => ?_⟩
            · by_cases hij : i = j
              · subst hij; rw [ht] at hj; cases hj
              · exact hk j o (by rw [hset, if_neg hij]; exact hj)
            · obtain ⟨u, hu⟩ : ∃ u, us[i]? = some u := ⟨_, List.getElem?_eq_getElem (by omega)⟩
              obtain ⟨a', k', r', rfl, e', R', hR, W', S'⟩ := stepA (hs i _ u ht hu hAi) W hr
              unfold Pool.run
              rw [hu]
              dsimp only
              rw [e']
              dsimp only
              refine h _ r'.2 R' (by simp [hlen]) W' (fun j m u hm hu hj => ?_) fun j u hu hj => ?_
              · rw [hset] at hm
                rw [huset us _ j hlen] at hu
                by_cases hij : i = j
                · subst hij
                  rw [if_pos rfl] at hm hu
                  cases hm
                  cases hu
                  exact S'
                · rw [if_neg hij] at hm hu
                  exact (hs j m u hm hu hj).mono hR
              · rw [huset us _ j hlen] at hu
                by_cases hij : i = j
                · subst hij; rw [hAi] at hj; cases hj
                · rw [if_neg hij] at hu
                  exact hi j u hu hj
          | false =>
            refine ⟨fun j => if i = j then p1 :: ks i else ks j, fun j o hj => ?_, fun us v R hlen W hs hi => ?_⟩
            · by_cases hij : i = j
              · subst hij; rw [ht] at hj; cases hj
              · dsimp only
                rw [if_neg hij]
                exact hk j o (by rw [hset, if_neg hij]; exact hj)
            · obtain ⟨u, hu⟩ : ∃ u, us[i]? = some u := ⟨_, List.getElem?_eq_getElem (by omega)⟩
              have hui := hi i u hu hAi
              dsimp only at hui
              rw [if_pos rfl] at hui
              subst hui
              unfold Pool.run
              rw [hu]
              unfold idle
              show ∃ us' v' R', Pool.run is (us.set i (idle (ks i))) v p1 = _ ∧ _
              refine h _ v R (by simp [hlen]) ((stepB (hA i _ ht hAi) L hr).2 R v W) (fun j m u hm hu hj => ?_) fun j u hu hj => ?_
              · rw [hset] at hm
                rw [huset us _ j hlen] at hu
                by_cases hij : i = j
                · subst hij; rw [hAi] at hj; cases hj
                · rw [if_neg hij] at hm hu
                  exact hs j m u hm hu hj
              · rw [huset us _ j hlen] at hu
                by_cases hij : i = j
                · subst hij
                  rw [if_pos rfl] at hu
                  cases hu
                  rfl
                · rw [if_neg hij] at hu
                  have := hi j u hu hj
                  dsimp only at this
                  rwa [if_neg hij] at this

/-! ### A program alone -/

theorem alone {m : Prog F α} (h : Own ns m) : ∀ {R} {w v : World F} (p : Nat), WR ns R w v →
    Agree (fun (x y : (α × World F) × Nat) => y.1.1 = x.1.1 ∧ y.2 = x.2 ∧ ∃ R', WR ns R' x.1.2 y.1.2) (m.run w p) (m.run v p) := by
  induction h with
  | ret a => intro R w v p W; exact .ok ⟨rfl, rfl, R, W⟩
  | loc m k h ih =>
    intro R w v p W
    rw [Prog.run_act, Prog.run_act, Act.run_loc, Act.run_loc]
    cases m p with
    | error e => exact .error e
    | ok q => exact ih q.1 q.2 W
  | add a m k h ih =>
    intro R w v p W
    obtain ⟨R', _, W'⟩ := W.add a m
    exact ih () p W'
  | look a f k K h0 hK h ih0 ih =>
    intro R w v p W
    show Agree _ ((K (w.lookup a ns)).run w p) ((K (v.lookup a ns)).run v p)
    rcases W.look a with ⟨h1, h2⟩ | ⟨i, j, h1, h2, r⟩
    · rw [h1, h2]; exact ih0 p W
    · rw [h1, h2, hK, hK]
      have q := W.run_slot r f p
      rw [Prog.run_act, Prog.run_act]
      revert q
      generalize (Act.slot i f).run w p = x
      generalize (Act.slot j f).run v p = y
      intro q
      cases q with
      | error e => exact .error e
      | ok q =>
        rename_i x y
        obtain ⟨⟨x1, x2⟩, x3⟩ := x
        obtain ⟨⟨y1, y2⟩, y3⟩ := y
        obtain ⟨q1, q2, q3⟩ := q
        dsimp only at q1 q2 q3
        subst q1 q2
        exact ih y1 y3 q3

/-! ### The programs of the service -/

namespace Own

theorem pure (a : α) : Own (F := F) ns (Pure.pure a : Prog F α) := .ret a

theorem bind {m : Prog F α} {f : α → Prog F β} (h : Own ns m) (hf : ∀ a, Own ns (f a)) : Own ns (m >>= f) := by
  show Own ns (m.bind f)
  induction h with
  | ret a => exact hf a
  | loc m k h ih => exact .loc m _ ih
  | add a m k h ih => exact .add a m _ ih
  | look a g k K h0 hK h ih0 ih => exact .look a g (fun x => (k x).bind f) _ ih0 (fun i => by rw [hK]; rfl) ih

theorem loc' (m : Go α) : Own (F := F) ns (Prog.loc m) := .loc m _ fun x => .ret x

theorem addSlot (a : Addr) (m : Manager F) : Own ns (Prog.ofAct (.addSlot a ns m)) := .add a m _ fun x => .ret x

theorem access (a : Addr) (f : Manager F → Go (β × Manager F)) : Own ns (Server.access a ns f) :=
  .look a f (fun b => .ret (some b)) _ (.ret _) (fun i => rfl) fun x => .ret _

theorem each {f : α → Prog F β} (hf : ∀ a, Own ns (f a)) : ∀ l : List α, Own ns (Prog.each f l)
  | [] => .ret []
  | x :: xs => .bind (hf x) fun y => .bind (each hf xs) fun ys => .ret _

theorem ite {c : Prop} [Decidable c] {m u : Prog F α} (h : c → Own ns m) (h' : ¬ c → Own ns u) : Own ns (if c then m else u) := by
  split
  · exact h ‹_›
  · exact h' ‹_›

variable (env : Env)

theorem call (a : Addr) {m : Prog F (Option β)} (h : Own ns m) : Own ns (Client.call env a m) := by
  unfold Client.call
  refine .bind (loc' _) fun x => ?_
  cases x with
  | false => exact .ret _
  | true =>
    refine .bind h fun r => .bind (loc' _) fun x => ?_
    cases x <;> exact .ret _

theorem unit {m : Prog F (Option β)} (a : Addr) (h : Own ns m) : Own ns (do let _ ← Client.call env a m; Pure.pure ()) :=
  .bind (call env a h) fun r => .ret _

theorem fetchVecs (addrs : List Addr) {f : Addr → Prog F (Option (List F))} (hf : ∀ a, Own ns (f a)) : Own ns (Trypo.fetchVecs env addrs f) :=
  .bind (loc' _) fun _ => .bind (each (fun a => .bind (hf a) fun _ => .ret _) _) fun _ => .bind (loc' _) fun _ => .ret _

variable [GoFloat F]

theorem addDataPoint (fac : Factory F) (a : Addr) (d : DataPoint F) : Own ns (Server.addDataPoint env fac a ns d) := by
  unfold Server.addDataPoint
  refine .bind (access a _) fun r => ?_
  cases r with
  | some x => exact .ret _
  | none => exact .bind (loc' _) fun m => .bind (addSlot a m) fun _ => .ret _

theorem clientAdd (fac : Factory F) (a : Addr) (d : DataPoint F) : Own ns (Client.addDataPoint env fac a ns d) :=
  .bind (call env a (.bind (addDataPoint env fac a d) fun l => .ret _)) fun r => .ret _

theorem clientVec (a : Addr) : Own (F := F) ns (Client.vec env a ns) := call env a (access a _)

theorem clientLookup (a : Addr) (v : List F) (k : Int) (drain : Bool) : Own ns (Client.knnLookup env a ns v k drain) :=
  .bind (loc' _) fun _ => .bind (call env a (access a _)) fun r => .ret _

theorem clientNearest (a : Addr) (v : List F) (n : Int) (drain : Bool) : Own ns (Client.nearestCentroids env a ns v n drain) :=
  .bind (call env a (access a _)) fun r => .bind (loc' _) fun cs => .ret _

theorem clientCentroidVec (a : Addr) (v : List F) : Own ns (Client.nearestCentroidVec env a ns v) := call env a (access a _)

theorem distributeTo (fac : Factory F) (addrs : List Addr) (d : DataPoint F) : ∀ is : List Nat, Own ns (Server.distributeTo env fac ns addrs d is)
  | [] => .ret _
  | i :: is => by
    unfold Server.distributeTo
    refine .bind (loc' _) fun a => .bind (clientAdd env fac a d) fun b => ?_
    cases b with
    | true => exact .ret _
    | false => exact distributeTo fac addrs d is

theorem distributeDP (fac : Factory F) (remote : List (Addr × List F)) (d : DataPoint F) : Own ns (Server.distributeDP env fac ns remote d) :=
  .bind (loc' _) fun is => distributeTo env fac _ d is

theorem putBack (a : Addr) (d : DataPoint F) : Own ns (Server.putBack env a ns d) := .bind (access a _) fun r => .ret _

theorem distributeFastLoop (fac : Factory F) (a : Addr) (remote : List (Addr × List F)) :
    ∀ l : List (DataPoint F), Own ns (Server.distributeFastLoop env fac a ns remote l)
  | [] => .ret _
  | d :: l => by
    unfold Server.distributeFastLoop
    refine .bind (distributeDP env fac remote d) fun b => ?_
    cases b with
    | true => exact distributeFastLoop fac a remote l
    | false => exact .bind (putBack env a d) fun _ => distributeFastLoop fac a remote l

theorem distributeFast (fac : Factory F) (a : Addr) (n : Int) (addrs : List Addr) : Own ns (Server.distributeFast env fac a ns n addrs) := by
  unfold Server.distributeFast
  refine .bind (loc' _) fun _ => .bind (access a _) fun r => ?_
  cases r with
  | none => exact .ret _
  | some l =>
    refine .ite (fun _ => .ret _) fun _ => ?_
    exact .bind (fetchVecs env addrs fun b => clientVec env b) fun remote => .bind (distributeFastLoop env fac a remote l) fun _ => .ret _

theorem distributeAccurateLoop (fac : Factory F) (a : Addr) (addrs : List Addr) :
    ∀ l : List (DataPoint F), Own ns (Server.distributeAccurateLoop env fac a ns addrs l)
  | [] => .ret _
  | d :: l => by
    unfold Server.distributeAccurateLoop
    refine .bind (fetchVecs env addrs fun b => clientCentroidVec env b d.vec) fun remote => .bind (distributeDP env fac remote d) fun b => ?_
    cases b with
    | true => exact distributeAccurateLoop fac a addrs l
    | false => exact .bind (putBack env a d) fun _ => distributeAccurateLoop fac a addrs l

theorem distributeAccurate (fac : Factory F) (a : Addr) (n : Int) (addrs : List Addr) : Own ns (Server.distributeAccurate env fac a ns n addrs) := by
  unfold Server.distributeAccurate
  refine .bind (loc' _) fun _ => .bind (access a _) fun r => ?_
  cases r with
  | none => exact .ret _
  | some l =>
    refine .ite (fun _ => .ret _) fun _ => ?_
    exact .bind (distributeAccurateLoop env fac a addrs l) fun _ => .ret _

theorem stealLoop (a : Addr) (src : Addr) (v : List F) (limit : Int) : ∀ (fuel n : Nat), Own ns (Server.stealLoop env a ns src v limit fuel n)
  | 0, n => .ret _
  | fuel + 1, n => by
    unfold Server.stealLoop
    refine .ite (fun _ => ?_) fun _ => .ret _
    refine .bind (clientNearest env src v 1 true) fun q => ?_
    obtain ⟨q1, q2⟩ := q
    cases q2 with
    | none => exact .ret _
    | some cs =>
      cases cs with
      | nil => exact .ret _
      | cons c cs => exact .bind (access a _) fun k => stealLoop a src v limit fuel _

theorem stealWith (fuel : Nat) (a : Addr) (src : Addr) (limit : Int) (v : List F) : Own ns (Server.stealWith env fuel a ns src limit v) :=
  .bind (stealLoop env a src v limit fuel 0) fun q => .bind (access a _) fun _ => .ret _

theorem stealCentroid (fac : Factory F) (fuel : Nat) (a : Addr) (src : Addr) (limit : Int) :
    Own ns (Server.stealCentroid env fac fuel a ns src limit) := by
  unfold Server.stealCentroid
  refine .bind (access a _) fun r => ?_
  cases r with
  | some v => exact stealWith env fuel a src limit v
  | none =>
    refine .bind (clientVec env src) fun rv => ?_
    cases rv.getD [] with
    | nil => exact .ret _
    | cons x xs => exact .bind (loc' _) fun m => .bind (addSlot a m) fun _ => stealWith env fuel a src limit _

theorem bestFit (addrs : List Addr) (v : List F) {f : Addr → Prog F (Option (List F))} (hf : ∀ a, Own ns (f a)) :
    Own ns (Nodes.bestFitNodes env knnCos addrs v f) := .bind (fetchVecs env addrs hf) fun rsp => loc' _

theorem putDataPoint (fac : Factory F) (d : DataPoint F) : ∀ as : List Addr, Own ns (Dps.putDataPoint env fac ns d as)
  | [] => .ret _
  | a :: as => by
    unfold Dps.putDataPoint
    refine .bind (clientAdd env fac a d) fun b => ?_
    cases b with
    | true => exact .ret _
    | false => exact putDataPoint fac d as

theorem getFrom (v : List F) (n : Int) (drain : Bool) : ∀ (as : List Addr) (res : List (DataPoint F)), Own ns (Dps.getFrom env ns v n drain as res)
  | [], res => .ret _
  | a :: as, res => by
    unfold Dps.getFrom
    exact .bind (clientLookup env a v _ drain) fun l => .ite (fun _ => .ret _) fun _ => getFrom v n drain as _

theorem put (fac : Factory F) (addrs : List Addr) (o : Api.PutOpts F) : Own o.ns (Api.putDataPoint env fac addrs (some o)) := by
  refine .bind ?_ fun b => .bind ?_ fun b => .ret _
  · refine .ite (fun _ => ?_) fun _ => ?_
    · exact .bind (bestFit env addrs _ fun a => clientCentroidVec env a _) fun as => putDataPoint env fac _ as
    · exact .bind (bestFit env addrs _ fun a => clientVec env a) fun as => putDataPoint env fac _ as
  · exact .ite (fun _ => .ret _) fun _ => .bind (loc' _) fun as => putDataPoint env fac _ as

theorem query (addrs : List Addr) (o : Api.QueryOpts F) : Own o.ns (Api.queryDataPoint env addrs (some o)) := by
  refine .bind ?_ fun l => .ret _
  refine .ite (fun _ => ?_) fun _ => ?_
  · exact .bind (bestFit env addrs _ fun a => clientCentroidVec env a _) fun as => .bind (loc' _) fun _ => getFrom env _ _ _ as []
  · exact .bind (bestFit env addrs _ fun a => clientVec env a) fun as => .bind (loc' _) fun _ => getFrom env _ _ _ as []

theorem answered {f : β → Answer F} {m : Prog F (Option β)} (h : Own ns m) : Own ns (answer f m) := by
  unfold answer
  refine .bind h fun r => ?_
  cases r <;> exact .ret _

theorem serve (fac : Factory F) (r : Request F) : Own r.ns (r.serve env fac) := by
  cases r with
  | add a ns d => exact .bind (addDataPoint env fac a d) fun b => .ret _
  | vec a ns => exact answered (access a _)
  | lenDP a ns => exact answered (access a _)
  | drainUnordered a ns n => exact answered (access a _)
  | drainOrdered a ns n => exact answered (access a _)
  | expire a ns => exact answered (access a _)
  | memTrim a ns => exact answered (access a _)
  | moveVector a ns => exact answered (access a _)
  | distributeInternal a ns n => exact answered (access a _)
  | distributeFast a ns n as => exact answered (distributeFast env fac a n as)
  | distributeAccurate a ns n as => exact answered (distributeAccurate env fac a n as)
  | knnLookup a ns v k drain => exact answered (access a _)
  | nearestCentroids a ns v n drain => exact answered (access a _)
  | nearestCentroidVec a ns v => exact answered (access a _)
  | splitCentroids a ns min max => exact answered (access a _)
  | mergeCentroids a ns min max => exact answered (access a _)
  | stealCentroid a ns src limit fuel => exact .bind (stealCentroid env fac fuel a src limit) fun b => .ret _

theorem callProg (c : Call) : Own (F := F) (callSubject c) (c.prog env) := by
  cases c with
  | expire a ns => exact unit env a (access a _)
  | memTrim a ns => exact unit env a (access a _)
  | distributeInternal a ns n => exact unit env a (access a _)
  | splitCentroids a ns min max => exact unit env a (access a _)
  | mergeCentroids a ns min max => exact unit env a (access a _)

/-- A job for clients uses the namespace that it names only, and none if it names none. -/
theorem job (fac : Factory F) {j : Job F} (h : forClients j = true) {ns : NS} (hs : ∀ ns', subject j = some ns' → ns' = ns) :
    Own ns (j.prog env fac) := by
  cases j with
  | rpc r => rw [← hs _ rfl]; exact .bind (serve env fac r) fun a => .ret _
  | call c => rw [← hs _ rfl]; exact .bind (callProg env c) fun a => .ret _
  | put addrs body =>
    cases body with
    | none => exact .ret _
    | some o => rw [← hs _ rfl]; exact .bind (put env fac addrs o) fun a => .ret _
  | query addrs body =>
    cases body with
    | none => exact .ret _
    | some o => rw [← hs _ rfl]; exact .bind (query env addrs o) fun a => .ret _
  | task cfg fuel t => cases h
  | loop cfg fuel skip n iter => cases h

end Own
end Tenant
end Trypo
