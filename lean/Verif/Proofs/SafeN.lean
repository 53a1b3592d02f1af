import Verif.Proofs.Pool
import Verif.Spec.Jobs

/-!
# A logic for programs that work on several namespaces

Like `Safe`, for all namespaces at once.
-/

set_option linter.unusedSectionVars false
set_option linter.unusedVariables false

namespace Trypo
open GoFloat Spec

variable {F : Type} [GoFloat F]

/-- `T` is an invariant of the tables that all goroutines keep; `U` holds of all datapoints that have ever been in a
namespace; `Dr` holds if answers with datapoints may be lost; `R` holds of all datapoints that a manager of the namespace turns
away at some time. -/
structure NCtx (F : Type) where
  env : Env
  D : NS → Nat
  T : (Addr → List (NS × Nat)) → List NS → Prop
  U : NS → DataPoint F → Prop
  Dr : Prop
  R : NS → DataPoint F → Prop

/-- The context of a namespace. -/
abbrev NCtx.at (c : NCtx F) (ns : NS) : Ctx F := ctxOf c.env c.D c.T c.U c.Dr c.R ns

/-- The consistent worlds. -/
structure NCtx.Inv (c : NCtx F) (w : World F) : Prop where
  ok : WorldOK c.D w
  tab : c.T w.table (labels w)

/-- Datapoints per namespace. -/
abbrev Bags (F : Type) := NS → List (DataPoint F)

/-- What lost replies have done, per namespace. -/
abbrev Log (F : Type) := NS → List (Entry F)

/-- What one atomic action does; see `StepOK`. -/
structure StepN (c : NCtx F) (w : World F) (p : Nat) (H : Bags F) (w' : World F) (p' : Nat) (H' : Bags F)
    (mint : Log F) : Prop where
  le : p ≤ p'
  inv : c.Inv w'
  view : (view w).Le (view w')
  conserved : ∀ ns, Conserved (c.env.tk p') (extras (mint ns) ++ (H ns ++ held w ns)) (H' ns ++ held w' ns) (losts (mint ns))
  minted : ∀ ns, ∀ e ∈ mint ns, (c.at ns).Fine e
  few : ∀ nss : List NS, nss.Nodup → LostReplies c.env p p' (nss.flatMap mint).length

/-- Adding to bags. -/
def Bags.add {β : Type} (X H : NS → List β) : NS → List β := fun ns => X ns ++ H ns

/-- See `Safe`. -/
def SafeN (c : NCtx F) {α : Type} : Prog F α → View → Bags F → Log F → (α → View → Bags F → Log F → Prop) → Prop
  | .ret a, L, H, M, Q => Q a L H M
  | .act a k, L, H, M, Q => ∀ w p, c.Inv w → L.Le (view w) → (∀ ns, ∀ d ∈ H ns ++ held w ns, c.U ns d) →
      (∀ ns d, TurnedAway w ns d → c.R ns d) → Go.wp (a.run w) (fun r p' => ∃ H' mint, StepN c w p H r.2 p' H' mint ∧
        SafeN c (k r.1) (view r.2) H' (Bags.add mint M) Q) p

section rules
variable {c : NCtx F} {α β : Type}

theorem safeN_mono : ∀ (m : Prog F α) {L : View} {H : Bags F} {M : Log F} {Q R : α → View → Bags F → Log F → Prop}
    (h : SafeN c m L H M Q) (hqr : ∀ a L' H' M', Q a L' H' M' → R a L' H' M'), SafeN c m L H M R
  | .ret a, L, H, M, Q, R, h, hqr => hqr _ _ _ _ h
  | .act a k, L, H, M, Q, R, h, hqr => by
    intro w p hi hl hu ht
    refine Go.wp_mono (h w p hi hl hu ht) (fun r p' hr => ?_)
    obtain ⟨H', mint, h1, h2⟩ := hr
    exact ⟨H', mint, h1, safeN_mono (k r.1) h2 hqr⟩

theorem safeN_bind_ : ∀ (m : Prog F α) (f : α → Prog F β) {L : View} {H : Bags F} {M : Log F}
    {Q : β → View → Bags F → Log F → Prop}
    (h : SafeN c m L H M (fun a L' H' M' => SafeN c (f a) L' H' M' Q)), SafeN c (m.bind f) L H M Q
  | .ret a, f, L, H, M, Q, h => h
  | .act a k, f, L, H, M, Q, h => by
    intro w p hi hl hu ht
    refine Go.wp_mono (h w p hi hl hu ht) (fun r p' hr => ?_)
    obtain ⟨H', mint, h1, h2⟩ := hr
    exact ⟨H', mint, h1, safeN_bind_ (k r.1) f h2⟩

theorem safeN_bind {m : Prog F α} {f : α → Prog F β} {L : View} {H : Bags F} {M : Log F} {Q : β → View → Bags F → Log F → Prop}
    (h : SafeN c m L H M (fun a L' H' M' => SafeN c (f a) L' H' M' Q)) : SafeN c (m >>= f) L H M Q := safeN_bind_ m f h

theorem safeN_pure {a : α} {L : View} {H : Bags F} {M : Log F} {Q : α → View → Bags F → Log F → Prop} (h : Q a L H M) :
    SafeN c (pure a) L H M Q := h

theorem safeN_of_safe (ns : NS) : ∀ (m : Prog F α) {L : View} {H : Bags F} {M : Log F} {Q : α → View → Bags F → Log F → Prop},
    Safe (c.at ns) m L (H ns) (M ns) (fun r L' H' M' => Q r L' (Function.update H ns H') (Function.update M ns M')) →
    SafeN c m L H M Q
  | .ret a, L, H, M, Q, h => by
    change Q a L (Function.update H ns (H ns)) (Function.update M ns (M ns)) at h
    rw [Function.update_eq_self, Function.update_eq_self] at h
    exact h
  | .act a k, L, H, M, Q, h => by
    intro w p hi hl hu ht
    refine Go.wp_mono (h w p ⟨hi.ok, hi.tab⟩ hl (hu ns) (ht ns)) (fun r p' hr => ?_)
    obtain ⟨H', mint, h1, h2⟩ := hr
    refine ⟨Function.update H ns H', Function.update (fun _ => []) ns mint, ⟨h1.le, ⟨h1.inv.ok, h1.inv.tab⟩, h1.view, ?_, ?_, ?_⟩, ?_⟩
    · intro x
      by_cases hx : x = ns
      · subst hx
        simp only [Function.update_self]
        exact h1.conserved
      · simp only [Function.update_of_ne hx]
        rw [h1.frame.held x hx]
        exact Conserved.refl _ _
    · intro x
      by_cases hx : x = ns
      · subst hx
        simp only [Function.update_self]
        exact h1.minted
      · simp [Function.update_of_ne hx]
    · intro nss hnd
      refine h1.few.le ?_
      clear h2 h
      induction nss with
      | nil => simp
      | cons x nss ih =>
        rw [List.nodup_cons] at hnd
        rw [List.flatMap_cons]
        by_cases hx : x = ns
        · subst hx
          have : nss.flatMap (Function.update (fun _ => []) x mint) = [] := by
            refine List.flatMap_eq_nil_iff.2 (fun y hy => ?_)
            rw [Function.update_of_ne]
            rintro rfl
            exact hnd.1 hy
          rw [this]; simp
        · rw [Function.update_of_ne hx]
          exact ih hnd.2
    · have e : Bags.add (Function.update (fun _ => []) ns mint) M = Function.update M ns (mint ++ M ns) := by
        funext x
        unfold Bags.add
        by_cases hx : x = ns
        · subst hx; simp
        · simp [Function.update_of_ne hx]
      rw [e]
      refine safeN_of_safe ns (k r.1) ?_
      simp only [Function.update_self, Function.update_idem]
      exact h2

theorem safeN_act_same {a : Act F β} {L : View} {H : Bags F} {M : Log F} {Q : β → View → Bags F → Log F → Prop}
    (h : ∀ w p, c.Inv w → L.Le (view w) → Go.wp (a.run w) (fun r p' => p ≤ p' ∧ r.2 = w ∧ Q r.1 (view w) H M) p) :
    SafeN c (Prog.ofAct a) L H M Q := by
  intro w p hi hl hu ht
  refine Go.wp_mono (h w p hi hl) (fun r p' hr => ?_)
  obtain ⟨h1, h2, h3⟩ := hr
  rw [h2]
  refine ⟨H, fun _ => [], ⟨h1, hi, .refl _, fun ns => Conserved.refl _ _, by simp, fun nss _ => LostReplies.zero.le (by simp)⟩, ?_⟩
  exact h3

theorem safeN_loc_same {m : Go β} {L : View} {H : Bags F} {M : Log F} {Q : β → View → Bags F → Log F → Prop}
    (h : ∀ p, Go.wp m (fun r p' => p ≤ p' ∧ ∀ L', L.Le L' → Q r L' H M) p) : SafeN c (Prog.loc m) L H M Q := by
  refine safeN_act_same (fun w p hi hl => ?_)
  show Go.wp (m >>= fun r => pure (r, w)) _ p
  simp only [Go.wp_bind, Go.wp_pure]
  exact Go.wp_mono (h p) (fun r p' hr => ⟨hr.1, trivial, hr.2 _ hl⟩)

theorem safeN_names {a : Addr} {L : View} {H : Bags F} {M : Log F} {Q : List NS → View → Bags F → Log F → Prop}
    (h : ∀ w, c.Inv w → L.Le (view w) → Q ((w.table a).map (fun e => e.1)) (view w) H M) :
    SafeN c (Prog.ofAct (.names a)) L H M Q := by
  refine safeN_act_same (fun w p hi hl => ?_)
  show Go.wp (pure ((w.table a).map (fun e => e.1), w)) _ p
  rw [Go.wp_pure]
  exact ⟨Nat.le_refl _, rfl, h w hi hl⟩

/-! ### Programs that keep what they get -/

/-- Run from what `L` shows, all that the program keeps in hand satisfies `P`, it duplicates nothing if no reply is lost,
and its result satisfies `R`. -/
def Tidy (c : NCtx F) (P : NS → DataPoint F → Prop) (m : Prog F α) (L : View) (R : α → View → Prop) : Prop :=
  ∀ H M, SafeN c m L H M (fun r L' H' M' => L.Le L' ∧ R r L' ∧ ∃ (X : Bags F) (Y : Log F), (∀ ns, ∀ x ∈ X ns, P ns x) ∧
    (NoLostReplies c.env → ∀ ns, Y ns = []) ∧ (∀ ns, (H' ns).Perm (X ns ++ H ns)) ∧ M' = Bags.add Y M)

theorem tidy_pure {P : NS → DataPoint F → Prop} {a : α} {L : View} {R : α → View → Prop} (h : R a L) : Tidy c P (pure a) L R :=
  fun H M => safeN_pure ⟨.refl _, h, fun _ => [], fun _ => [], by simp, fun _ _ => rfl, fun _ => .refl _, rfl⟩

theorem tidy_mono {P : NS → DataPoint F → Prop} {m : Prog F α} {L : View} {R R' : α → View → Prop} (h : Tidy c P m L R)
    (hr : ∀ a L', L.Le L' → R a L' → R' a L') : Tidy c P m L R' :=
  fun H M => safeN_mono _ (h H M) (fun a L' H' M' ⟨h1, h2, h3⟩ => ⟨h1, hr a L' h1 h2, h3⟩)

theorem tidy_weaken {P P' : NS → DataPoint F → Prop} {m : Prog F α} {L : View} {R : α → View → Prop} (h : Tidy c P m L R) (hp : ∀ ns x, P ns x → P' ns x) :
    Tidy c P' m L R :=
  fun H M => safeN_mono _ (h H M) (fun a L' H' M' ⟨h1, h2, X, Y, h3, h4⟩ => ⟨h1, h2, X, Y, fun ns x hx => hp ns x (h3 ns x hx), h4⟩)

theorem tidy_bind {P : NS → DataPoint F → Prop} {m : Prog F α} {f : α → Prog F β} {L : View} {R : α → View → Prop} {R' : β → View → Prop}
    (h : Tidy c P m L R) (hf : ∀ a L', L.Le L' → R a L' → Tidy c P (f a) L' R') : Tidy c P (m >>= f) L R' := by
  intro H M
  refine safeN_bind (safeN_mono _ (h H M) (fun a L' H' M' hq => ?_))
  obtain ⟨h1, h2, X, Y, h3, h4, h5, rfl⟩ := hq
  refine safeN_mono _ (hf a L' h1 h2 H' _) (fun b L'' H'' M'' hq => ?_)
  obtain ⟨g1, g2, X', Y', g3, g4, g5, rfl⟩ := hq
  refine ⟨h1.trans g1, g2, fun ns => X' ns ++ X ns, fun ns => Y' ns ++ Y ns, fun ns x hx => ?_, fun hp ns => ?_, fun ns => ?_, ?_⟩
  · exact (List.mem_append.1 hx).elim (g3 ns x) (h3 ns x)
  · simp only [h4 hp ns, g4 hp ns, List.append_nil]
  · have a1 := h5 ns
    have a2 := g5 ns
    permc [a1, a2]
  · funext ns
    simp [Bags.add]

theorem tidy_loc {P : NS → DataPoint F → Prop} {m : Go β} {L : View} {R : β → View → Prop}
    (h : ∀ p, Go.wp m (fun r p' => p ≤ p' ∧ ∀ L', L.Le L' → R r L') p) : Tidy c P (Prog.loc m) L R :=
  fun H M => safeN_loc_same (fun p => Go.wp_mono (h p) (fun r p' hr => ⟨hr.1, fun L' hL' =>
    ⟨hL', hr.2 L' hL', fun _ => [], fun _ => [], by simp, fun _ _ => rfl, fun _ => .refl _, rfl⟩⟩))

theorem tidy_each {P : NS → DataPoint F → Prop} {f : β → Prog F α} {R : α → View → Prop} (hR : ∀ b L' L'', L'.Le L'' → R b L' → R b L'') :
    ∀ (l : List β) {L : View} (hf : ∀ x ∈ l, ∀ L', L.Le L' → Tidy c P (f x) L' R),
    Tidy c P (Prog.each f l) L (fun ys L' => ∀ y ∈ ys, R y L')
  | [], L, hf => tidy_pure (by simp)
  | x :: xs, L, hf => by
    unfold Prog.each
    refine tidy_bind (hf x (by simp) L (.refl _)) (fun y L' hL' hy => ?_)
    refine tidy_bind (tidy_each hR xs (fun z hz L'' hL'' => hf z (by simp [hz]) L'' (hL'.trans hL''))) (fun ys L'' hL'' hys => ?_)
    refine tidy_pure ?_
    intro z hz
    rcases List.mem_cons.1 hz with rfl | hz
    · exact hR _ _ _ hL'' hy
    · exact hys z hz

/-- Running over a list in order, with what is known of the corresponding elements. -/
theorem tidy_each₂ {P : NS → DataPoint F → Prop} {f : β → Prog F α} {R : β → α → View → Prop}
    (hR : ∀ x b L' L'', L'.Le L'' → R x b L' → R x b L'') :
    ∀ (l : List β) {L : View} (hf : ∀ x ∈ l, ∀ L', L.Le L' → Tidy c P (f x) L' (R x)),
    Tidy c P (Prog.each f l) L (fun ys L' => List.Forall₂ (fun x y => R x y L') l ys)
  | [], L, hf => tidy_pure .nil
  | x :: xs, L, hf => by
    unfold Prog.each
    refine tidy_bind (hf x (by simp) L (.refl _)) (fun y L' hL' hy => ?_)
    refine tidy_bind (tidy_each₂ hR xs (fun z hz L'' hL'' => hf z (by simp [hz]) L'' (hL'.trans hL''))) (fun ys L'' hL'' hys => ?_)
    exact tidy_pure (.cons (hR _ _ _ _ hL'' hy) hys)

/-- A program on one namespace. -/
theorem tidy_of_safe {P : NS → DataPoint F → Prop} (ns : NS) {m : Prog F α} {L : View} {R : α → View → Prop}
    (h : ∀ H M, Safe (c.at ns) m L H M (fun r L' H' M' => L.Le L' ∧ R r L' ∧ ∃ X Y, (∀ x ∈ X, P ns x) ∧
      (NoLostReplies c.env → Y = []) ∧ H'.Perm (X ++ H) ∧ M' = Y ++ M)) : Tidy c P m L R := by
  intro H M
  refine safeN_of_safe ns m (safe_mono _ (h (H ns) (M ns)) (fun r L' H' M' hq => ?_))
  obtain ⟨h1, h2, X, Y, h3, h4, h5, rfl⟩ := hq
  refine ⟨h1, h2, Function.update (fun _ => []) ns X, Function.update (fun _ => []) ns Y, fun x => ?_, fun hp x => ?_,
    fun x => ?_, ?_⟩
  · by_cases hx : x = ns
    · subst hx; simpa using h3
    · simp [Function.update_of_ne hx]
  · by_cases hx : x = ns
    · subst hx; simp [h4 hp]
    · simp [Function.update_of_ne hx]
  · by_cases hx : x = ns
    · subst hx; simpa using h5
    · simp [Function.update_of_ne hx]
  · funext x
    unfold Bags.add
    by_cases hx : x = ns
    · subst hx; simp
    · simp [Function.update_of_ne hx]

theorem tidy_call {P : NS → DataPoint F → Prop} {a : Addr} {body : Prog F (Option β)} {L : View} {R : Option β → View → Prop}
    (hR : ∀ b L' L'', L'.Le L'' → R b L' → R b L'') (hn : ¬ Reachable c.env a → ∀ L', L.Le L' → R none L')
    (hb : ∀ L', L.Le L' → Tidy c P body L' R) : Tidy c P (Client.call c.env a body) L R := by
  unfold Client.call
  refine tidy_bind (R := fun b _ => b = false → ¬ Reachable c.env a) (tidy_loc (fun p => wp_sent ⟨Nat.le_succ _, fun _ _ hb hr => ?_⟩))
    (fun b L' hL' h1 => ?_)
  · rw [hr.1 p] at hb; cases hb
  cases b with
  | false => exact tidy_pure (hn (h1 rfl) _ hL')
  | true =>
    refine tidy_bind (hb L' hL') (fun r L'' hL'' hr => ?_)
    refine tidy_bind (R := fun b L3 => R r L3 ∧ (b = false → ¬ Reachable c.env a)) (tidy_loc (fun p => wp_arrived
      ⟨Nat.le_succ _, fun L3 hL3 => ⟨hR _ _ _ hL3 hr, fun hb hr => ?_⟩⟩)) (fun b L3 hL3 hr3 => ?_)
    · rw [hr.2 p] at hb; cases hb
    cases b with
    | true => exact tidy_pure hr3.1
    | false => exact tidy_pure (hn (hr3.2 rfl) _ ((hL'.trans hL'').trans hL3))

end rules
end Trypo
