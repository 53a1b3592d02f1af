import Verif.Spec.Locks
import Mathlib.Logic.Hydra

/-!
# The machine with mutexes and the machine with atomic critical sections
-/

namespace Trypo

open Spec Fine

set_option linter.unusedSimpArgs false

variable {F α : Type}

/-- Where a goroutine is in its critical section: what is left of it, the program it amounts to when critical sections
are atomic, and the lock it holds. `W` is the memory of the machine with atomic critical sections, `w` that of the
machine with mutexes. -/
inductive Stage (mid : Mids F) (W w : World F) : Fine F α → Prog F α → Option Lock → Prop
  | out (t : Prog F α) : Stage mid W w (ofProg mid t) t none
  | lookup (a : Addr) (ns : NS) (k : Option Nat → Prog F α) :
    Stage mid W w (.step (readEntry a ns) (fun r => .unlock (.table a) (ofProg mid (k r)))) (.act (.lookup a ns) k)
      (some (.table a))
  | names (a : Addr) (k : List NS → Prog F α) :
    Stage mid W w (.step (readNames a) (fun r => .unlock (.table a) (ofProg mid (k r)))) (.act (.names a) k)
      (some (.table a))
  | slot1 {β : Type} (i : Nat) (f : Manager F → Go (β × Manager F)) (k : β → Prog F α)
      (h : W.heap[i]? = w.heap[i]?) :
    Stage mid W w (.step (readSlot i) (fun s => scribble i s (mid f s.2)
      (.step (writeSlot i f s) (fun r => .unlock (.slot i) (ofProg mid (k r)))))) (.act (.slot i f) k) (some (.slot i))
  | slot2 {β : Type} (i : Nat) (f : Manager F → Go (β × Manager F)) (k : β → Prog F α) (s : NS × Manager F)
      (ms : List (Manager F)) (h : W.heap[i]? = some s) :
    Stage mid W w (scribble i s ms (.step (writeSlot i f s) (fun r => .unlock (.slot i) (ofProg mid (k r)))))
      (.act (.slot i f) k) (some (.slot i))
  | add1 (a : Addr) (ns : NS) (m : Manager F) (k : Unit → Prog F α) :
    Stage mid W w (.step (readTable a) (fun t => .step (writeTable a ns m t)
      (fun r => .unlock (.table a) (ofProg mid (k r))))) (.act (.addSlot a ns m) k) (some (.table a))
  | add2 (a : Addr) (ns : NS) (m : Manager F) (k : Unit → Prog F α) (t : List (NS × Nat)) (h : w.table a = t) :
    Stage mid W w (.step (writeTable a ns m t) (fun r => .unlock (.table a) (ofProg mid (k r))))
      (.act (.addSlot a ns m) k) (some (.table a))
  | left (l : Lock) (t : Prog F α) (h : ∀ i, l = .slot i → W.heap[i]? = w.heap[i]?) :
    Stage mid W w (.unlock l (ofProg mid t)) t (some l)

/-- What a step of another goroutine leaves as it was for one that holds the lock `h`. -/
structure Undisturbed (W w W' w' : World F) (h : Option Lock) : Prop where
  table : ∀ a, h = some (.table a) → w'.table a = w.table a
  same : ∀ i, h = some (.slot i) → W.heap[i]? = w.heap[i]? → W'.heap[i]? = w'.heap[i]?
  keep : ∀ i s, h = some (.slot i) → W.heap[i]? = some s → W'.heap[i]? = some s

theorem Undisturbed.refl (W w : World F) (h : Option Lock) : Undisturbed W w W w h :=
  ⟨fun _ _ => rfl, fun _ _ e => e, fun _ _ _ e => e⟩

theorem Stage.frame {mid : Mids F} {W w W' w' : World F} {f : Fine F α} {t : Prog F α} {h : Option Lock}
    (hs : Stage mid W w f t h) (hu : Undisturbed W w W' w' h) : Stage mid W' w' f t h := by
  cases hs with
  | out t => exact .out t
  | lookup a ns k => exact .lookup a ns k
  | names a k => exact .names a k
  | slot1 i f k h => exact .slot1 i f k (hu.same i rfl h)
  | slot2 i f k s ms h => exact .slot2 i f k s ms (hu.keep i s rfl h)
  | add1 a ns m k => exact .add1 a ns m k
  | add2 a ns m k t h => exact .add2 a ns m k t ((hu.table a rfl).trans h)
  | left l t h => exact .left l t (fun i hi => by subst hi; exact hu.same i rfl (h i rfl))

/-- The two machines correspond. `h i` is the lock that the goroutine `i` holds. -/
structure Sim (mid : Mids F) (M : Mach F α) (W : World F) (ts : List (Prog F α)) (h : Nat → Option Lock) : Prop where
  len : M.ts.length = ts.length
  stage : ∀ i f t, M.ts[i]? = some f → ts[i]? = some t → Stage mid W M.w f t (h i)
  beyond : ∀ i, M.ts.length ≤ i → h i = none
  held : ∀ l, M.held l = true ↔ ∃ i, h i = some l
  one : ∀ i j l, h i = some l → h j = some l → i = j
  table : W.table = M.w.table
  size : W.heap.length = M.w.heap.length
  clean : ∀ j, M.held (.slot j) = false → W.heap[j]? = M.w.heap[j]?

theorem Sim.update {mid : Mids F} {M : Mach F α} {W : World F} {ts : List (Prog F α)} {h : Nat → Option Lock}
    (S : Sim mid M W ts h) {i : Nat} (hi : i < M.ts.length) {f' : Fine F α} {t' : Prog F α} {l' : Option Lock}
    {held' : Lock → Bool} {w' W' : World F} {p' : Nat} (hst : Stage mid W' w' f' t' l')
    (hfr : ∀ j, j ≠ i → Undisturbed W M.w W' w' (h j))
    (hheld : ∀ l, held' l = true ↔ l' = some l ∨ ∃ j, j ≠ i ∧ h j = some l)
    (hone : ∀ l, l' = some l → ∀ j, j ≠ i → h j ≠ some l)
    (htable : W'.table = w'.table) (hsize : W'.heap.length = w'.heap.length)
    (hclean : ∀ j, held' (.slot j) = false → W'.heap[j]? = w'.heap[j]?) :
    Sim mid ⟨M.ts.set i f', held', w', p'⟩ W' (ts.set i t') (fun j => if j = i then l' else h j) where
  len := by simpa using S.len
  stage := by
    intro j f t hf ht
    by_cases hj : j = i
    · subst hj
      simp only [List.getElem?_set_self hi, Option.some.injEq] at hf
      simp only [List.getElem?_set_self (S.len ▸ hi), Option.some.injEq] at ht
      subst hf; subst ht
      simpa using hst
    · simp only [List.getElem?_set_ne (Ne.symm hj)] at hf ht
      simp only [if_neg hj]
      exact (S.stage j f t hf ht).frame (hfr j hj)
  beyond := by
    intro j hj
    simp only [List.length_set] at hj
    have : j ≠ i := by omega
    simp only [if_neg this]
    exact S.beyond j hj
  held := by
    intro l
    rw [hheld l]
    constructor
    · rintro (e | ⟨j, hj, e⟩)
      · exact ⟨i, by simpa using e⟩
      · exact ⟨j, by simpa [hj] using e⟩
    · rintro ⟨j, e⟩
      by_cases hj : j = i
      · left; simpa [hj] using e
      · right; exact ⟨j, hj, by simpa [hj] using e⟩
  one := by
    intro j j' l e e'
    by_cases hj : j = i <;> by_cases hj' : j' = i
    · rw [hj, hj']
    · simp only [if_pos hj] at e
      simp only [if_neg hj'] at e'
      exact absurd e' (hone l e j' hj')
    · simp only [if_pos hj'] at e'
      simp only [if_neg hj] at e
      exact absurd e (hone l e' j hj)
    · simp only [if_neg hj] at e
      simp only [if_neg hj'] at e'
      exact S.one j j' l e e'
  table := htable
  size := hsize
  clean := hclean

/-- Releasing or keeping the lock. -/
theorem Sim.others {mid : Mids F} {M : Mach F α} {W : World F} {ts : List (Prog F α)} {h : Nat → Option Lock}
    (S : Sim mid M W ts h) {i : Nat} {l : Lock} (hl : h i = some l) : ∀ j, j ≠ i → h j ≠ some l :=
  fun j hj e => hj (S.one j i l e hl)

theorem Sim.held_iff {mid : Mids F} {M : Mach F α} {W : World F} {ts : List (Prog F α)} {h : Nat → Option Lock}
    (S : Sim mid M W ts h) {i : Nat} (l : Lock) : M.held l = true ↔ h i = some l ∨ ∃ j, j ≠ i ∧ h j = some l := by
  rw [S.held l]
  constructor
  · rintro ⟨j, e⟩
    by_cases hj : j = i
    · exact .inl (hj ▸ e)
    · exact .inr ⟨j, hj, e⟩
  · rintro (e | ⟨j, _, e⟩)
    · exact ⟨i, e⟩
    · exact ⟨j, e⟩

/-- What a step of the machine with mutexes is for the other machine: nothing, or one step. -/
def Mirrors (mid : Mids F) (i : Nat) (M : Mach F α) (W : World F) (ts : List (Prog F α)) :
    Except Panic (Mach F α) → Prop
  | .ok M' => ∃ W' ts' h', Sim mid M' W' ts' h' ∧
      ((W' = W ∧ ts' = ts ∧ M'.p = M.p) ∨ Pool.run [i] ts W M.p = .ok (ts', W', M'.p))
  | .error e => Pool.run [i] ts W M.p = .error e

theorem pool_one {ts : List (Prog F α)} {i : Nat} {β : Type} {a : Act F β} {k : β → Prog F α} {W W' : World F}
    {p p' : Nat} {r : β} (ht : ts[i]? = some (.act a k)) (hr : a.run W p = .ok ((r, W'), p')) :
    Pool.run [i] ts W p = .ok (ts.set i (k r), W', p') := by
  simp only [Pool.run, ht, hr]

theorem pool_one_error {ts : List (Prog F α)} {i : Nat} {β : Type} {a : Act F β} {k : β → Prog F α} {W : World F}
    {p : Nat} {e : Panic} (ht : ts[i]? = some (.act a k)) (hr : a.run W p = .error e) :
    Pool.run [i] ts W p = .error e := by
  simp only [Pool.run, ht, hr]

theorem set_same {β : Type*} {l : List β} {i : Nat} {x : β} (h : l[i]? = some x) : l.set i x = l := by
  apply List.ext_getElem?
  intro j
  by_cases hj : j = i
  · subst hj
    have : j < l.length := by
      by_contra hc
      rw [List.getElem?_eq_none (by omega)] at h
      exact absurd h (by simp)
    rw [List.getElem?_set_self this, h]
  · rw [List.getElem?_set_ne (Ne.symm hj)]

/-- Taking the lock. -/
theorem mirrors_lock {mid : Mids F} {M : Mach F α} {W : World F} {ts : List (Prog F α)} {h : Nat → Option Lock}
    (S : Sim mid M W ts h) {i : Nat} {l : Lock} {k : Fine F α} {t : Prog F α} (hf : M.ts[i]? = some (.lock l k))
    (ht : ts[i]? = some t)
    (hst : (∀ j, l = .slot j → W.heap[j]? = M.w.heap[j]?) → Stage mid W M.w k t (some l)) (hn : h i = none) :
    Mirrors mid i M W ts (M.step i) := by
  have hi : i < M.ts.length := by
    by_contra hc
    rw [List.getElem?_eq_none (by omega)] at hf
    exact absurd hf (by simp)
  simp only [Mach.step, hf]
  by_cases hh : M.held l = true
  · simp only [hh, if_true]
    exact ⟨W, ts, h, S, .inl ⟨rfl, rfl, rfl⟩⟩
  · simp only [hh, Bool.false_eq_true, if_false]
    have hh' : M.held l = false := by simpa using hh
    refine ⟨W, ts.set i t, _, S.update (l' := some l) hi (hst ?_) (fun j _ => .refl _ _ _) ?_ ?_ S.table S.size ?_,
      .inl ⟨rfl, set_same ht, rfl⟩⟩
    · intro j e
      subst e
      exact S.clean j hh'
    · intro l'
      by_cases e : l' = l
      · subst e; simp
      · simp only [if_neg e]
        rw [S.held_iff (i := i) l', hn]
        simp [Ne.symm e]
    · intro l' e j hj e'
      obtain rfl : l = l' := by simpa using e
      exact hh ((S.held l).2 ⟨j, e'⟩)
    · intro j e
      by_cases e' : Lock.slot j = l
      · simp [e'] at e
      · simp only [if_neg e'] at e
        exact S.clean j e

/-- Letting go of the lock. -/
theorem mirrors_unlock {mid : Mids F} {M : Mach F α} {W : World F} {ts : List (Prog F α)} {h : Nat → Option Lock}
    (S : Sim mid M W ts h) {i : Nat} {l : Lock} {t : Prog F α} (hf : M.ts[i]? = some (.unlock l (ofProg mid t)))
    (ht : ts[i]? = some t) (hl : h i = some l) (hs : ∀ j, l = .slot j → W.heap[j]? = M.w.heap[j]?) :
    Mirrors mid i M W ts (M.step i) := by
  have hi : i < M.ts.length := by
    by_contra hc
    rw [List.getElem?_eq_none (by omega)] at hf
    exact absurd hf (by simp)
  have hh : M.held l = true := (S.held l).2 ⟨i, hl⟩
  simp only [Mach.step, hf, hh, if_true]
  refine ⟨W, ts.set i t, _, S.update (l' := none) hi (.out t) (fun j _ => .refl _ _ _) ?_ ?_ S.table S.size ?_,
    .inl ⟨rfl, set_same ht, rfl⟩⟩
  · intro l'
    by_cases e : l' = l
    · subst e
      simp only [if_true, Bool.false_eq_true, false_iff]
      rintro (e | ⟨j, hj, e⟩)
      · exact absurd e (by simp)
      · exact S.others hl j hj e
    · simp only [if_neg e]
      rw [S.held_iff (i := i) l', hl]
      simp [Ne.symm e]
  · intro l' e
    exact absurd e (by simp)
  · intro j e
    by_cases e' : Lock.slot j = l
    · exact hs j e'.symm
    · simp only [if_neg e'] at e
      exact S.clean j e

/-- A step inside a critical section, or of no critical section. -/
theorem mirrors_step {mid : Mids F} {M : Mach F α} {W : World F} {ts : List (Prog F α)} {h : Nat → Option Lock}
    (S : Sim mid M W ts h) {i : Nat} {β : Type} {g : World F → Go (β × World F)} {k : β → Fine F α}
    {t : Prog F α} (hf : M.ts[i]? = some (.step g k)) (ht : ts[i]? = some t)
    (hok : ∀ r w' p', g M.w M.p = .ok ((r, w'), p') → ∃ W' t',
      Stage mid W' w' (k r) t' (h i) ∧ (∀ j, j ≠ i → Undisturbed W M.w W' w' (h j)) ∧
      W'.table = w'.table ∧ W'.heap.length = w'.heap.length ∧
      (∀ j, h i ≠ some (.slot j) → W.heap[j]? = M.w.heap[j]? → W'.heap[j]? = w'.heap[j]?) ∧
      ((W' = W ∧ t' = t ∧ p' = M.p) ∨ Pool.run [i] ts W M.p = .ok (ts.set i t', W', p')))
    (herr : ∀ e, g M.w M.p = .error e → Pool.run [i] ts W M.p = .error e) :
    Mirrors mid i M W ts (M.step i) := by
  have hi : i < M.ts.length := by
    by_contra hc
    rw [List.getElem?_eq_none (by omega)] at hf
    exact absurd hf (by simp)
  simp only [Mach.step, hf]
  match hg : g M.w M.p with
  | .error e => exact herr e hg
  | .ok ((r, w'), p') =>
    obtain ⟨W', t', h1, h2, h3, h4, h5, h6⟩ := hok r w' p' hg
    refine ⟨W', ts.set i t', _, S.update hi h1 h2 (S.held_iff (i := i)) ?_ h3 h4 ?_, ?_⟩
    · intro l e
      exact S.others e
    · intro j e
      refine h5 j ?_ (S.clean j e)
      intro e'
      rw [(S.held (.slot j)).2 ⟨i, e'⟩] at e
      exact absurd e (by simp)
    · rcases h6 with ⟨e1, e2, e3⟩ | h6
      · left
        refine ⟨e1, ?_, e3⟩
        rw [e2]
        exact set_same ht
      · exact .inr h6

/-- Nothing changes: reading. -/
theorem mirrors_read {mid : Mids F} {M : Mach F α} {W : World F} {ts : List (Prog F α)} {h : Nat → Option Lock}
    (S : Sim mid M W ts h) {i : Nat} {β : Type} {g : World F → Go (β × World F)} {k : β → Fine F α}
    {t : Prog F α} (hf : M.ts[i]? = some (.step g k)) (ht : ts[i]? = some t) {x : β}
    (hg : g M.w M.p = .ok ((x, M.w), M.p)) {t' : Prog F α} (hst : Stage mid W M.w (k x) t' (h i))
    (hp : t' = t ∨ Pool.run [i] ts W M.p = .ok (ts.set i t', W, M.p)) :
    Mirrors mid i M W ts (M.step i) := by
  refine mirrors_step S hf ht ?_ ?_
  · intro r w' p' e
    rw [hg] at e
    injection e with e
    injection e with e e3
    injection e with e1 e2
    subst e1; subst e2; subst e3
    refine ⟨W, t', hst, fun j _ => .refl _ _ _, S.table, S.size, fun j _ e => e, ?_⟩
    rcases hp with hp | hp
    · exact .inl ⟨rfl, hp, rfl⟩
    · exact .inr hp
  · intro e he
    rw [hg] at he
    exact absurd he (by simp)

theorem bind_ok {β γ : Type} {m : Go β} {f : β → γ} {p p' : Nat} {c : γ}
    (h : (do let r ← m; pure (f r) : Go γ) p = .ok (c, p')) : ∃ r, m p = .ok (r, p') ∧ f r = c := by
  change (m p).bind (fun x => .ok (f x.1, x.2)) = _ at h
  match hm : m p with
  | .error e => rw [hm] at h; exact absurd h (by simp [Except.bind])
  | .ok (r, q) =>
    rw [hm] at h
    simp only [Except.bind, Except.ok.injEq, Prod.mk.injEq] at h
    obtain ⟨h1, h2⟩ := h
    subst h2
    exact ⟨r, rfl, h1⟩

theorem bind_error {β γ : Type} {m : Go β} {f : β → γ} {p : Nat} {e : Panic}
    (h : (do let r ← m; pure (f r) : Go γ) p = .error e) : m p = .error e := by
  change (m p).bind (fun x => .ok (f x.1, x.2)) = _ at h
  match hm : m p with
  | .error e' => rw [hm] at h; simpa [Except.bind] using h
  | .ok (r, q) => rw [hm] at h; exact absurd h (by simp [Except.bind])

theorem bind_of_ok {β γ : Type} {m : Go β} {f : β → γ} {p p' : Nat} {r : β} (h : m p = .ok (r, p')) :
    (do let r ← m; pure (f r) : Go γ) p = .ok (f r, p') := by
  change (m p).bind (fun x => .ok (f x.1, x.2)) = _
  rw [h]
  rfl

theorem bind_of_error {β γ : Type} {m : Go β} {f : β → γ} {p : Nat} {e : Panic} (h : m p = .error e) :
    (do let r ← m; pure (f r) : Go γ) p = .error e := by
  change (m p).bind (fun x => .ok (f x.1, x.2)) = _
  rw [h]
  rfl

theorem mirrors {mid : Mids F} {M : Mach F α} {W : World F} {ts : List (Prog F α)} {h : Nat → Option Lock}
    (S : Sim mid M W ts h) (i : Nat) : Mirrors mid i M W ts (M.step i) := by
  match hf : M.ts[i]? with
  | none =>
    simp only [Mach.step, hf]
    exact ⟨W, ts, h, S, .inl ⟨rfl, rfl, rfl⟩⟩
  | some f =>
    have hi : i < M.ts.length := by
      by_contra hc
      rw [List.getElem?_eq_none (by omega)] at hf
      exact absurd hf (by simp)
    obtain ⟨t, ht⟩ : ∃ t, ts[i]? = some t := ⟨ts[i]'(S.len ▸ hi), List.getElem?_eq_getElem _⟩
    have hst := S.stage i f t hf ht
    generalize hl : h i = l at hst
    cases hst with
    | out t =>
      cases t with
      | ret a =>
        simp only [ofProg] at hf
        simp only [Mach.step, hf]
        exact ⟨W, ts, h, S, .inl ⟨rfl, rfl, rfl⟩⟩
      | act a k =>
        cases a with
        | lookup a ns => exact mirrors_lock S hf ht (fun _ => .lookup a ns k) hl
        | names a => exact mirrors_lock S hf ht (fun _ => .names a k) hl
        | addSlot a ns m => exact mirrors_lock S hf ht (fun _ => .add1 a ns m k) hl
        | slot j f => exact mirrors_lock S hf ht (fun e => .slot1 j f k (e j rfl)) hl
        | loc m =>
          refine mirrors_step S hf ht ?_ ?_
          · intro r w' p' e
            obtain ⟨r', e1, e2⟩ := bind_ok e
            injection e2 with e2 e3
            subst e2; subst e3
            refine ⟨W, k r', ?_, fun j _ => .refl _ _ _, S.table, S.size, fun j _ e => e, .inr ?_⟩
            · rw [hl]
              exact .out _
            · exact pool_one ht (bind_of_ok (f := fun r => (r, W)) e1)
          · intro e he
            exact pool_one_error ht (bind_of_error (f := fun r => (r, W)) (bind_error he))
    | lookup a ns k =>
      refine mirrors_read S hf ht (x := M.w.lookup a ns) rfl (t' := k (M.w.lookup a ns)) ?_ (.inr ?_)
      · rw [hl]
        exact .left _ _ (fun i e => by cases e)
      · refine pool_one ht ?_
        have : W.lookup a ns = M.w.lookup a ns := by simp only [World.lookup, S.table]
        rw [← this]
        rfl
    | names a k =>
      refine mirrors_read S hf ht (x := (M.w.table a).map (fun e => e.1)) rfl
        (t' := k ((M.w.table a).map (fun e => e.1))) ?_ (.inr ?_)
      · rw [hl]
        exact .left _ _ (fun i e => by cases e)
      · refine pool_one ht ?_
        rw [← S.table]
        rfl
    | add1 a ns m k =>
      refine mirrors_read S hf ht (x := M.w.table a) rfl (t' := .act (.addSlot a ns m) k) ?_ (.inl rfl)
      rw [hl]
      exact .add2 a ns m k _ rfl
    | add2 a ns m k t' e' =>
      subst e'
      refine mirrors_step S hf ht ?_ ?_
      · intro r w' p' e
        injection e with e
        injection e with e e3
        injection e with e1 e2
        subst e1; subst e2; subst e3
        refine ⟨W.addSlot a ns m, k (), ?_, ?_, ?_, ?_, ?_, .inr ?_⟩
        · rw [hl]
          exact .left _ _ (fun i e => by cases e)
        · intro j hj
          refine ⟨?_, ?_, ?_⟩
          · intro b hb
            have : b ≠ a := by
              rintro rfl
              exact S.others hl j hj hb
            simp only [if_neg this]
          · intro s hs e
            simp only [World.addSlot]
            by_cases hs' : s < W.heap.length
            · rw [List.getElem?_append_left hs', List.getElem?_append_left (S.size ▸ hs'), e]
            · rw [List.getElem?_append_right (by omega), List.getElem?_append_right (by have := S.size; omega),
                S.size]
          · intro s x hs e
            have hs' : s < W.heap.length := by
              by_contra hc
              rw [List.getElem?_eq_none (by omega)] at e
              exact absurd e (by simp)
            simp only [World.addSlot]
            rw [List.getElem?_append_left hs', e]
        · simp only [World.addSlot, S.table, S.size]
        · simp only [World.addSlot, List.length_append, S.size]
        · intro s hs e
          simp only [World.addSlot]
          by_cases hs' : s < W.heap.length
          · rw [List.getElem?_append_left hs', List.getElem?_append_left (S.size ▸ hs'), e]
          · rw [List.getElem?_append_right (by omega), List.getElem?_append_right (by have := S.size; omega),
              S.size]
        · exact pool_one ht rfl
      · intro e he
        exact absurd he (by intro h; cases h)
    | slot1 s f k e' =>
      match hs : M.w.heap[s]? with
      | none =>
        refine mirrors_step S hf ht ?_ ?_
        · intro r w' p' e
          simp only [readSlot, hs] at e
          exact absurd e (by intro h; cases h)
        · intro e he
          simp only [readSlot, hs] at he
          refine pool_one_error ht ?_
          simp only [Act.run, e', hs]
          have he' : Panic.nilDeref = e := by cases he; rfl
          subst he'
          rfl
      | some x =>
        refine mirrors_read S hf ht (x := x) (by simp only [readSlot, hs]; rfl) (t' := .act (.slot s f) k) ?_ (.inl rfl)
        rw [hl]
        exact .slot2 s f k x _ (e'.trans hs)
    | slot2 s f k x ms e' =>
      have hs' : s < W.heap.length := by
        by_contra hc
        rw [List.getElem?_eq_none (by omega)] at e'
        exact absurd e' (by simp)
      cases ms with
      | cons m ms =>
        refine mirrors_step S hf ht ?_ ?_
        · intro r w' p' e
          injection e with e
          injection e with e e3
          injection e with e1 e2
          subst e1; subst e2; subst e3
          refine ⟨W, .act (.slot s f) k, ?_, ?_, S.table, ?_, ?_, .inl ⟨rfl, rfl, rfl⟩⟩
          · rw [hl]
            exact .slot2 s f k x ms e'
          · intro j hj
            refine ⟨fun b _ => rfl, ?_, fun _ _ _ e => e⟩
            intro s' hs1 e
            have : s ≠ s' := by
              rintro rfl
              exact S.others hl j hj hs1
            simp only [List.getElem?_set_ne this]
            exact e
          · simp only [List.length_set]
            exact S.size
          · intro s' hs1 e
            have : s ≠ s' := by
              rintro rfl
              exact hs1 hl
            simp only [List.getElem?_set_ne this]
            exact e
        · intro e he
          exact absurd he (by intro h; cases h)
      | nil =>
        refine mirrors_step S hf ht ?_ ?_
        · intro r w' p' e
          obtain ⟨r', e1, e2⟩ := bind_ok e
          injection e2 with e2 e3
          subst e2; subst e3
          refine ⟨{ W with heap := W.heap.set s (x.1, r'.2) }, k r'.1, ?_, ?_, S.table, ?_, ?_, .inr ?_⟩
          · rw [hl]
            refine .left _ _ (fun i e => ?_)
            injection e with e
            subst e
            simp only [List.getElem?_set_self hs', List.getElem?_set_self (S.size ▸ hs')]
          · intro j hj
            refine ⟨fun b _ => rfl, ?_, ?_⟩
            · intro s' hs1 e
              have : s ≠ s' := by
                rintro rfl
                exact S.others hl j hj hs1
              simp only [List.getElem?_set_ne this]
              exact e
            · intro s' y hs1 e
              have : s ≠ s' := by
                rintro rfl
                exact S.others hl j hj hs1
              simp only [List.getElem?_set_ne this]
              exact e
          · simp only [List.length_set]
            exact S.size
          · intro s' hs1 e
            have : s ≠ s' := by
              rintro rfl
              exact hs1 hl
            simp only [List.getElem?_set_ne this]
            exact e
          · refine pool_one ht ?_
            simp only [Act.run, e']
            exact bind_of_ok (f := fun r => (r.1, { W with heap := W.heap.set s (x.1, r.2) })) e1
        · intro e he
          refine pool_one_error ht ?_
          simp only [Act.run, e']
          exact bind_of_error (f := fun r => (r.1, { W with heap := W.heap.set s (x.1, r.2) })) (bind_error he)
    | left l t e' => exact mirrors_unlock S hf ht hl e'

theorem sim_init (mid : Mids F) (progs : List (Prog F α)) (w : World F) (p : Nat) :
    Sim mid (.init (progs.map (ofProg mid)) w p) w progs (fun _ => none) where
  len := by simp [Mach.init]
  stage := by
    intro i f t hf ht
    simp only [Mach.init, List.getElem?_map, ht, Option.map_some, Option.some.injEq] at hf
    subst hf
    exact .out t
  beyond := fun _ _ => rfl
  held := by intro l; simp [Mach.init]
  one := fun _ _ _ e => by simp at e
  table := rfl
  size := rfl
  clean := fun _ _ => rfl

theorem pool_append (is js : List Nat) (ts : List (Prog F α)) (w : World F) (p : Nat) :
    Pool.run (is ++ js) ts w p = (Pool.run is ts w p).bind (fun r => Pool.run js r.1 r.2.1 r.2.2) := by
  induction is generalizing ts w p with
  | nil => rfl
  | cons i is ih =>
    simp only [List.cons_append, Pool.run]
    split
    · split
      · exact ih _ _ _
      · rfl
    · exact ih _ _ _

theorem pool_length {sched : List Nat} : ∀ {ts ts' : List (Prog F α)} {w w' : World F} {p p' : Nat},
    Pool.run sched ts w p = .ok (ts', w', p') → ts'.length = ts.length := by
  induction sched with
  | nil => intro ts ts' w w' p p' h; cases h; rfl
  | cons i is ih =>
    intro ts ts' w w' p p' h
    simp only [Pool.run] at h
    split at h
    · split at h
      · rw [ih h, List.length_set]
      · cases h
    · exact ih h

theorem pool_append_ok {is js : List Nat} {ts ts' : List (Prog F α)} {w w' : World F} {p p' : Nat}
    (h : Pool.run is ts w p = .ok (ts', w', p')) : Pool.run (is ++ js) ts w p = Pool.run js ts' w' p' := by
  rw [pool_append, h]
  rfl

/-- Every run of the machine with mutexes is a run of the machine with atomic critical sections, on some of the same
steps. -/
theorem sim_run {mid : Mids F} (sched : List Nat) : ∀ {M : Mach F α} {W : World F} {ts : List (Prog F α)}
    {h : Nat → Option Lock}, Sim mid M W ts h →
    (∀ M', M.run sched = .ok M' → ∃ sched', sched'.Sublist sched ∧ ∃ W' ts' h', Sim mid M' W' ts' h' ∧
      Pool.run sched' ts W M.p = .ok (ts', W', M'.p)) ∧
    (∀ e, M.run sched = .error e → ∃ sched', sched'.Sublist sched ∧ Pool.run sched' ts W M.p = .error e) := by
  induction sched with
  | nil =>
    intro M W ts h S
    refine ⟨?_, ?_⟩
    · intro M' e
      simp only [Mach.run, Except.ok.injEq] at e
      subst e
      exact ⟨[], List.Sublist.slnil, W, ts, h, S, rfl⟩
    · intro e he
      exact absurd he (by simp [Mach.run])
  | cons i is ih =>
    intro M W ts h S
    have hm := mirrors S i
    match hs : M.step i with
    | .error e' =>
      rw [hs] at hm
      refine ⟨?_, ?_⟩
      · intro M' e
        exact absurd e (by simp [Mach.run, hs])
      · intro e he
        simp only [Mach.run, hs, Except.error.injEq] at he
        subst he
        exact ⟨[i], by simp, hm⟩
    | .ok M1 =>
      rw [hs] at hm
      obtain ⟨W1, ts1, h1, S1, hm⟩ := hm
      obtain ⟨ih1, ih2⟩ := ih S1
      have hrun : M.run (i :: is) = M1.run is := by simp only [Mach.run, hs]
      rw [hrun]
      refine ⟨?_, ?_⟩
      · intro M' e
        obtain ⟨sched', hsub, W', ts', h', S', hr⟩ := ih1 M' e
        rcases hm with ⟨rfl, rfl, e3⟩ | hm
        · exact ⟨sched', hsub.cons i, W', ts', h', S', by rw [← e3]; exact hr⟩
        · exact ⟨i :: sched', hsub.cons_cons i, W', ts', h', S', (pool_append_ok (is := [i]) hm).trans hr⟩
      · intro e he
        obtain ⟨sched', hsub, hr⟩ := ih2 e he
        rcases hm with ⟨rfl, rfl, e3⟩ | hm
        · exact ⟨sched', hsub.cons i, by rw [← e3]; exact hr⟩
        · exact ⟨i :: sched', hsub.cons_cons i, (pool_append_ok (is := [i]) hm).trans hr⟩

/-- A goroutine that holds a lock is not waiting for one. -/
theorem Stage.no_wait {mid : Mids F} {W w : World F} {f : Fine F α} {t : Prog F α} {l : Lock}
    (hs : Stage mid W w f t (some l)) : ¬ f.done ∧ ∀ l' k, f ≠ .lock l' k := by
  cases hs with
  | slot2 i f k s ms h => cases ms <;> exact ⟨fun h => h, fun _ _ e => by cases e⟩
  | _ => exact ⟨fun h => h, fun _ _ e => by cases e⟩

theorem Stage.ret {mid : Mids F} {W w : World F} {a : α} {t : Prog F α} {h : Option Lock}
    (hs : Stage mid W w (.ret a) t h) : t = .ret a := by
  generalize hf : Fine.ret (F := F) a = f at hs
  cases hs with
  | out t =>
    cases t with
    | ret b => simp only [ofProg, Fine.ret.injEq] at hf; rw [hf]
    | act a k => cases a <;> cases hf
  | slot2 i f k s ms h => cases ms <;> cases hf
  | _ => cases hf

theorem Sim.not_deadlocked {mid : Mids F} {M : Mach F α} {W : World F} {ts : List (Prog F α)} {h : Nat → Option Lock}
    (S : Sim mid M W ts h) : ¬ Deadlocked M := by
  rintro ⟨⟨f, hf, hd⟩, hall⟩
  have hw : ∀ g ∈ M.ts, g.done ∨ False := by
    intro g hg
    rcases hall g hg with hg' | ⟨l, k, rfl, hh⟩
    · exact .inl hg'
    obtain ⟨j, hj⟩ := (S.held l).1 hh
    have hlen : j < M.ts.length := by
      by_contra hc
      rw [S.beyond j (by omega)] at hj
      exact absurd hj (by simp)
    have hst := S.stage j _ _ (List.getElem?_eq_getElem hlen) (List.getElem?_eq_getElem (S.len ▸ hlen))
    rw [hj] at hst
    obtain ⟨h1, h2⟩ := hst.no_wait
    rcases hall _ (List.getElem_mem hlen) with h' | ⟨l', k', e, _⟩
    · exact absurd h' h1
    · exact absurd e (h2 l' k')
  exact hd ((hw f hf).resolve_right id)

theorem oneAtATime_scribble (i : Nat) (s : NS × Manager F) (ms : List (Manager F)) {k : Fine F α} {h : Option Lock}
    (hk : OneAtATime h k) : OneAtATime h (scribble i s ms k) := by
  induction ms with
  | nil => exact hk
  | cons m ms ih => exact fun _ => ih

theorem oneAtATime (mid : Mids F) (t : Prog F α) : OneAtATime none (ofProg mid t) := by
  induction t with
  | ret a => rfl
  | act a k ih =>
    cases a with
    | lookup a ns => exact ⟨rfl, fun r => ⟨rfl, ih r⟩⟩
    | names a => exact ⟨rfl, fun r => ⟨rfl, ih r⟩⟩
    | addSlot a ns m => exact ⟨rfl, fun _ r => ⟨rfl, ih r⟩⟩
    | slot i f => exact ⟨rfl, fun s => oneAtATime_scribble _ _ _ (fun r => ⟨rfl, ih r⟩)⟩
    | loc m => exact fun r => ih r

/-! ### Everybody gets done -/

theorem mach_run_append (is js : List Nat) (M : Mach F α) :
    M.run (is ++ js) = (M.run is).bind (fun M' => M'.run js) := by
  induction is generalizing M with
  | nil => rfl
  | cons i is ih =>
    simp only [List.cons_append, Mach.run]
    split
    · exact ih _
    · rfl

theorem mach_run_ok {is js : List Nat} {M M' : Mach F α} (h : M.run is = .ok M') :
    M.run (is ++ js) = M'.run js := by
  rw [mach_run_append, h]
  rfl

/-- `f'` is what is left of `f` after a step. -/
def Child (f' f : Fine F α) : Prop :=
  match f with
  | .ret _ => False
  | .lock _ k => f' = k
  | .unlock _ k => f' = k
  | .step _ k => ∃ b, f' = k b

theorem child_wf : WellFounded (Child (F := F) (α := α)) := by
  refine ⟨fun f => ?_⟩
  induction f with
  | ret a => exact ⟨_, fun y hy => hy.elim⟩
  | lock l k ih => exact ⟨_, fun y hy => by cases hy; exact ih⟩
  | unlock l k ih => exact ⟨_, fun y hy => by cases hy; exact ih⟩
  | step g k ih => exact ⟨_, fun y hy => by obtain ⟨b, rfl⟩ := hy; exact ih b⟩

/-- The goroutine `i` can make a step. -/
def Enabled (M : Mach F α) (i : Nat) : Prop :=
  ∃ f, M.ts[i]? = some f ∧ ¬ f.done ∧ ∀ l k, f = .lock l k → M.held l = false

theorem step_idle {M : Mach F α} {i : Nat} (h : ¬ Enabled M i) : M.step i = .ok M := by
  unfold Mach.step
  match hf : M.ts[i]? with
  | none => rfl
  | some (.ret _) => rfl
  | some (.lock l k) =>
    by_cases hh : M.held l = true
    · simp only [hh, if_true]
    · refine absurd ⟨_, hf, fun h => h, ?_⟩ h
      intro l' k' e
      cases e
      simpa using hh
  | some (.unlock l k) => exact absurd ⟨_, hf, fun h => h, fun _ _ e => by cases e⟩ h
  | some (.step g k) => exact absurd ⟨_, hf, fun h => h, fun _ _ e => by cases e⟩ h

theorem cut_set {β : Type*} {r : β → β → Prop} {l : List β} {i : Nat} {x y : β} (h : l[i]? = some y) (hr : r x y) :
    Relation.CutExpand r (↑(l.set i x) : Multiset β) (↑l : Multiset β) := by
  have hi : i < l.length := by
    by_contra hc
    rw [List.getElem?_eq_none (by omega)] at h
    exact absurd h (by simp)
  refine ⟨{x}, y, ?_, ?_⟩
  · intro a ha
    rw [Multiset.mem_singleton] at ha
    subst ha
    exact hr
  · have hy : l[i] = y := by
      rw [List.getElem?_eq_getElem hi] at h
      exact Option.some.inj h
    have e1 : l.set i x = l.take i ++ x :: l.drop (i + 1) := by
      rw [List.set_eq_take_append_cons_drop, if_pos hi]
    have e2 : l = l.take i ++ y :: l.drop (i + 1) := by
      rw [← hy, List.getElem_cons_drop, List.take_append_drop]
    rw [e1]
    conv_rhs => rw [e2]
    rw [← Multiset.coe_singleton, ← Multiset.coe_singleton, Multiset.coe_add, Multiset.coe_add, Multiset.coe_eq_coe]
    simp only [List.append_assoc, List.cons_append]
    refine List.Perm.append_left _ ?_
    refine (List.perm_append_singleton y _).cons x |>.trans ?_
    refine (List.Perm.swap y x _).trans ?_
    exact ((List.perm_append_singleton x _).symm).cons y

theorem step_enabled {M : Mach F α} {i : Nat} (h : Enabled M i) :
    (∃ e, M.step i = .error e) ∨ ∃ M', M.step i = .ok M' ∧
      Relation.CutExpand Child (M'.ts : Multiset (Fine F α)) (M.ts : Multiset (Fine F α)) := by
  obtain ⟨f, hf, hd, hl⟩ := h
  unfold Mach.step
  cases f with
  | ret a => exact absurd trivial hd
  | lock l k =>
    simp only [hf, hl l k rfl]
    exact .inr ⟨_, rfl, cut_set hf rfl⟩
  | unlock l k =>
    simp only [hf]
    split
    · exact .inr ⟨_, rfl, cut_set hf rfl⟩
    · exact .inl ⟨_, rfl⟩
  | step g k =>
    simp only [hf]
    match g M.w M.p with
    | .ok (r, p') => exact .inr ⟨_, rfl, cut_set hf ⟨_, rfl⟩⟩
    | .error e => exact .inl ⟨_, rfl⟩

theorem exists_enabled {M : Mach F α} (hnd : ¬ Deadlocked M) (hn : ¬ ∀ f ∈ M.ts, f.done) :
    ∃ i, i < M.ts.length ∧ Enabled M i := by
  by_contra hc
  refine hnd ⟨?_, ?_⟩
  · by_contra h'
    refine hn (fun f hf => ?_)
    by_contra hd
    exact h' ⟨f, hf, hd⟩
  · intro f hf
    by_contra h'
    obtain ⟨i, hi, rfl⟩ := List.getElem_of_mem hf
    refine hc ⟨i, hi, M.ts[i], List.getElem?_eq_getElem hi, fun h => h' (.inl h), ?_⟩
    intro l k e
    by_contra hh
    exact h' (.inr ⟨l, k, e, by simpa using hh⟩)

theorem step_length {M M' : Mach F α} {i : Nat} (h : M.step i = .ok M') : M'.ts.length = M.ts.length := by
  unfold Mach.step at h
  split at h
  · cases h; rfl
  · cases h; rfl
  · split at h <;> cases h <;> simp
  · split at h
    · cases h; simp
    · cases h
  · split at h
    · cases h; simp
    · cases h

theorem run_idle {M : Mach F α} (is : List Nat) (h : ∀ i ∈ is, ¬ Enabled M i) : M.run is = .ok M := by
  induction is with
  | nil => rfl
  | cons i is ih =>
    simp only [Mach.run, step_idle (h i (by simp))]
    exact ih (fun j hj => h j (by simp [hj]))

theorem range_split (s : Nat → Nat) (n d : Nat) :
    (List.range (n + d)).map s = (List.range n).map s ++ (List.range d).map (fun j => s (n + j)) := by
  rw [List.range_add, List.map_append, List.map_map]
  rfl

/-- A machine that never deadlocks gets done when everybody gets their turn. -/
theorem fair_done {M : Mach F α} (hlive : ∀ sched M', M.run sched = .ok M' → ¬ Deadlocked M') {s : Nat → Nat}
    (hfair : Fair M.ts.length s) :
    ∃ n, (∃ e, M.run ((List.range n).map s) = .error e) ∨
      ∃ M', M.run ((List.range n).map s) = .ok M' ∧ ∀ f ∈ M'.ts, f.done := by
  have key : ∀ (c : Multiset (Fine F α)) (n : Nat) (M' : Mach F α), (↑M'.ts : Multiset _) = c →
      M'.ts.length = M.ts.length → M.run ((List.range n).map s) = .ok M' →
      ∃ n, (∃ e, M.run ((List.range n).map s) = .error e) ∨
        ∃ M', M.run ((List.range n).map s) = .ok M' ∧ ∀ f ∈ M'.ts, f.done := by
    intro c
    induction c using (WellFounded.cutExpand child_wf).induction with
    | _ c ih =>
      intro n M' hc hlen hr
      by_cases hdone : ∀ f ∈ M'.ts, f.done
      · exact ⟨n, .inr ⟨M', hr, hdone⟩⟩
      obtain ⟨i, hi, hen⟩ := exists_enabled (hlive _ M' hr) hdone
      obtain ⟨k', hk', hs⟩ := hfair i (hlen ▸ hi) n
      have hex : ∃ d, Enabled M' (s (n + d)) := ⟨k' - n, by
        rw [Nat.add_sub_cancel' hk', hs]
        exact hen⟩
      classical
      obtain ⟨d, hd, hmin⟩ : ∃ d, Enabled M' (s (n + d)) ∧ ∀ j, j < d → ¬ Enabled M' (s (n + j)) :=
        ⟨Nat.find hex, Nat.find_spec hex, fun j hj => Nat.find_min hex hj⟩
      have h1 : M.run ((List.range (n + d)).map s) = .ok M' := by
        rw [range_split, mach_run_ok hr]
        refine run_idle _ (fun j hj => ?_)
        obtain ⟨j', hj', rfl⟩ := List.mem_map.1 hj
        exact hmin j' (List.mem_range.1 hj')
      have h2 : M.run ((List.range (n + d + 1)).map s) = M'.run [s (n + d)] := by
        rw [range_split, mach_run_ok h1]
        rfl
      rcases step_enabled hd with ⟨e, he⟩ | ⟨M'', hs'', hcut⟩
      · refine ⟨n + d + 1, .inl ⟨e, ?_⟩⟩
        rw [h2]
        simp only [Mach.run, he]
      · refine ih _ (hc ▸ hcut) (n + d + 1) M'' rfl ((step_length hs'').trans hlen) ?_
        rw [h2]
        simp only [Mach.run, hs'']
  exact key _ 0 M rfl rfl rfl

/-! ### The other way round -/

theorem run_scribble (i j : Nat) (s : NS × Manager F) (k : Fine F α) (ms : List (Manager F)) :
    ∀ (M : Mach F α), j < M.ts.length → M.ts[j]? = some (scribble i s ms k) →
      ∃ h', M.run (List.replicate ms.length j) = .ok ⟨M.ts.set j k, M.held, ⟨M.w.table, h'⟩, M.p⟩ ∧
        ∀ x, h'.set i x = M.w.heap.set i x := by
  induction ms with
  | nil =>
    intro M hj hM
    refine ⟨M.w.heap, ?_, fun _ => rfl⟩
    simp only [scribble] at hM
    simp only [List.length_nil, List.replicate_zero, Mach.run, set_same hM]
  | cons m ms ih =>
    intro M hj hM
    simp only [scribble] at hM
    have hstep : M.step j = .ok ⟨M.ts.set j (scribble i s ms k), M.held, ⟨M.w.table, M.w.heap.set i (s.1, m)⟩, M.p⟩ := by
      simp only [Mach.step, hM]
      rfl
    obtain ⟨h', e1, e2⟩ := ih ⟨M.ts.set j (scribble i s ms k), M.held, ⟨M.w.table, M.w.heap.set i (s.1, m)⟩, M.p⟩
      (by simpa using hj) (List.getElem?_set_self hj)
    refine ⟨h', ?_, fun x => ?_⟩
    · simp only [List.length_cons, List.replicate_succ, Mach.run, hstep]
      rw [e1]
      simp only [List.set_set]
    · rw [e2]
      simp only [List.set_set]

theorem held_back (l : Lock) : (fun l' => if l' = l then false else if l' = l then true else false) = (fun _ => false) := by
  funext l'
  by_cases h : l' = l <;> simp [h]

/-- An atomic action in small steps, when nobody holds a lock. -/
theorem mach_of_act (mid : Mids F) {ts : List (Prog F α)} {i : Nat} {β : Type} {a : Act F β} {k : β → Prog F α}
    {w : World F} {p : Nat} (ht : ts[i]? = some (.act a k)) :
    (∀ r p', a.run w p = .ok (r, p') →
      ∃ n, (Mach.init (ts.map (ofProg mid)) w p).run (List.replicate n i) =
        .ok (Mach.init ((ts.set i (k r.1)).map (ofProg mid)) r.2 p')) ∧
    (∀ e, a.run w p = .error e →
      ∃ n, (Mach.init (ts.map (ofProg mid)) w p).run (List.replicate n i) = .error e) := by
  have hi : i < ts.length := by
    by_contra hc
    rw [List.getElem?_eq_none (by omega)] at ht
    cases ht
  have hf : (ts.map (ofProg mid))[i]? = some (sect mid a (fun r => ofProg mid (k r))) := by
    rw [List.getElem?_map, ht]
    rfl
  have hi' : i < (ts.map (ofProg mid)).length := by simpa using hi
  have hset : ∀ r, (ts.set i (k r)).map (ofProg mid) = (ts.map (ofProg mid)).set i (ofProg mid (k r)) :=
    fun r => List.map_set
  cases a with
  | lookup a ns =>
    refine ⟨fun r p' h => ⟨3, ?_⟩, fun e h => by cases h⟩
    cases h
    simp only [List.replicate, Mach.run, Mach.step, Mach.init, hf, sect, List.getElem?_set_self, hi', List.length_set,
      List.set_set, readEntry, Bool.false_eq_true, if_false]
    simp only [pure, StateT.pure, Except.pure, hset, if_true, List.getElem?_set_self, hi', List.length_set, List.set_set,
      held_back]
  | names a =>
    refine ⟨fun r p' h => ⟨3, ?_⟩, fun e h => by cases h⟩
    cases h
    simp only [List.replicate, Mach.run, Mach.step, Mach.init, hf, sect, List.getElem?_set_self, hi', List.length_set,
      List.set_set, readNames, Bool.false_eq_true, if_false]
    simp only [pure, StateT.pure, Except.pure, hset, if_true, List.getElem?_set_self, hi', List.length_set, List.set_set,
      held_back]
  | addSlot a ns m =>
    refine ⟨fun r p' h => ⟨4, ?_⟩, fun e h => by cases h⟩
    cases h
    simp only [List.replicate, Mach.run, Mach.step, Mach.init, hf, sect, List.getElem?_set_self, hi', List.length_set,
      List.set_set, readTable, writeTable, Bool.false_eq_true, if_false]
    simp only [pure, StateT.pure, Except.pure, hset, if_true, List.getElem?_set_self, hi', List.length_set, List.set_set,
      held_back, World.addSlot, writeTable]
  | loc m =>
    refine ⟨fun r p' h => ⟨1, ?_⟩, fun e h => ⟨1, ?_⟩⟩
    · obtain ⟨r', e1, e2⟩ := bind_ok h
      subst e2
      have := bind_of_ok (f := fun r => (r, w)) e1
      simp only [List.replicate, Mach.run, Mach.step, Mach.init, hf, sect, compute, this, hset]
    · have := bind_of_error (f := fun r => (r, w)) (bind_error h)
      simp only [List.replicate, Mach.run, Mach.step, Mach.init, hf, sect, compute, this]
  | slot s f =>
    match hs : w.heap[s]? with
    | none =>
      refine ⟨fun r p' h => ?_, fun e h => ⟨2, ?_⟩⟩
      · simp only [Act.run, hs] at h
        cases h
      · simp only [Act.run, hs] at h
        have he : e = Panic.nilDeref := by cases h; rfl
        subst he
        simp only [List.replicate, Mach.run, Mach.step, Mach.init, hf, sect, List.getElem?_set_self, hi',
          List.length_set, List.set_set, readSlot, hs, Bool.false_eq_true, if_false]
        rfl
    | some x =>
      -- up to the last write
      obtain ⟨M2, hM2, e2⟩ : ∃ M2, M2 = Mach.mk ((ts.map (ofProg mid)).set i (scribble s x (mid f x.2)
          (.step (writeSlot s f x) (fun r => .unlock (.slot s) (ofProg mid (k r)))))) (fun l' => if l' = Lock.slot s then true else false) w p ∧
          (Mach.init (ts.map (ofProg mid)) w p).run [i, i] = .ok M2 := by
        refine ⟨_, rfl, ?_⟩
        simp only [Mach.run, Mach.step, Mach.init, hf, sect, List.getElem?_set_self, hi',
          List.length_set, List.set_set, readSlot, hs, Bool.false_eq_true, if_false]
        rfl
      obtain ⟨h', e3, e4⟩ := run_scribble s i x (.step (writeSlot s f x) (fun r => .unlock (.slot s) (ofProg mid (k r))))
        (mid f x.2) M2 (by rw [hM2]; simpa using hi) (by rw [hM2]; exact List.getElem?_set_self hi')
      have hpre : (Mach.init (ts.map (ofProg mid)) w p).run (List.replicate (2 + (mid f x.2).length) i) =
          .ok ⟨(ts.map (ofProg mid)).set i (.step (writeSlot s f x) (fun r => .unlock (.slot s) (ofProg mid (k r)))),
            fun l' => if l' = Lock.slot s then true else false, ⟨w.table, h'⟩, p⟩ := by
        rw [← List.replicate_append_replicate]
        have : List.replicate 2 i = [i, i] := rfl
        rw [this, mach_run_ok e2, e3, hM2]
        simp only [List.set_set]
      rw [hM2] at e4
      refine ⟨fun r p' h => ⟨2 + (mid f x.2).length + 2, ?_⟩, fun e h => ⟨2 + (mid f x.2).length + 1, ?_⟩⟩
      · simp only [Act.run, hs] at h
        rw [← List.replicate_append_replicate, mach_run_ok hpre]
        simp only [List.replicate, Mach.run, Mach.step, List.getElem?_set_self, hi', writeSlot, e4, h, List.length_set,
          List.set_set, if_true, held_back, hset, Mach.init]
      · simp only [Act.run, hs] at h
        rw [← List.replicate_append_replicate, mach_run_ok hpre]
        simp only [List.replicate, Mach.run, Mach.step, List.getElem?_set_self, hi', writeSlot, e4, h]

theorem mach_of_pool (mid : Mids F) (sched : List Nat) : ∀ (ts : List (Prog F α)) (w : World F) (p : Nat),
    (∀ ts' w' p', Pool.run sched ts w p = .ok (ts', w', p') →
      ∃ sched', (Mach.init (ts.map (ofProg mid)) w p).run sched' = .ok (Mach.init (ts'.map (ofProg mid)) w' p')) ∧
    (∀ e, Pool.run sched ts w p = .error e →
      ∃ sched', (Mach.init (ts.map (ofProg mid)) w p).run sched' = .error e) := by
  induction sched with
  | nil =>
    intro ts w p
    refine ⟨fun ts' w' p' h => ⟨[], ?_⟩, fun e h => by cases h⟩
    cases h
    rfl
  | cons i is ih =>
    intro ts w p
    match ht : ts[i]? with
    | none =>
      have : Pool.run (i :: is) ts w p = Pool.run is ts w p := by simp only [Pool.run, ht]
      rw [this]
      exact ih ts w p
    | some (.ret a) =>
      have : Pool.run (i :: is) ts w p = Pool.run is ts w p := by simp only [Pool.run, ht]
      rw [this]
      exact ih ts w p
    | some (.act a k) =>
      obtain ⟨h1, h2⟩ := mach_of_act mid (w := w) (p := p) ht
      match hr : a.run w p with
      | .error e' =>
        obtain ⟨n, hn⟩ := h2 e' hr
        refine ⟨fun ts' w' p' h => ?_, fun e h => ⟨List.replicate n i, ?_⟩⟩
        · simp only [Pool.run, ht, hr] at h
          cases h
        · simp only [Pool.run, ht, hr] at h
          cases h
          exact hn
      | .ok (r, p') =>
        obtain ⟨n, hn⟩ := h1 r p' hr
        obtain ⟨i1, i2⟩ := ih (ts.set i (k r.1)) r.2 p'
        have : Pool.run (i :: is) ts w p = Pool.run is (ts.set i (k r.1)) r.2 p' := by simp only [Pool.run, ht, hr]
        rw [this]
        refine ⟨fun ts' w' q h => ?_, fun e h => ?_⟩
        · obtain ⟨s', hs'⟩ := i1 ts' w' q h
          exact ⟨List.replicate n i ++ s', (mach_run_ok hn).trans hs'⟩
        · obtain ⟨s', hs'⟩ := i2 e h
          exact ⟨List.replicate n i ++ s', (mach_run_ok hn).trans hs'⟩

end Trypo
