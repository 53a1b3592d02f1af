import Verif.Spec.Creation
import Verif.Proofs.Jobs
import Verif.Proofs.Service

/-!
# Which namespaces a program creates

`Neat C m H P Q`: a namespace that `m` creates at a node may be created by it (`C`), and `m` saw before that it did not exist (`P`) and
has not created it since. `H` are namespaces that exist. Nothing is assumed of the network, the searches or the arguments.
-/

namespace Trypo
open Spec EventLoop

set_option linter.unusedSectionVars false
set_option linter.unusedVariables false

variable {F : Type} [GoFloat F]

/-- A set of namespaces at nodes. -/
abbrev Places := Addr → NS → Prop

/-- Inclusion. -/
def Places.Le (H H' : Places) : Prop := ∀ a ns, H a ns → H' a ns

theorem Places.Le.refl (H : Places) : H.Le H := fun _ _ h => h
theorem Places.Le.trans {H H' H'' : Places} (h : H.Le H') (h' : H'.Le H'') : H.Le H'' := fun a ns x => h' a ns (h a ns x)

/-- What exists. -/
def World.places (w : World F) : Places := fun a ns => w.lookup a ns ≠ none

/-- When an action is in order. -/
def Act.neat (C P : Places) : {β : Type} → Act F β → Prop
  | _, .addSlot a ns _ => C a ns ∧ P a ns
  | _, _ => True

/-- What is known not to exist after an action. -/
def Act.unseen (P : Places) : {β : Type} → Act F β → β → Places
  | _, .lookup a ns, none => fun b ns' => P b ns' ∨ (b = a ∧ ns' = ns)
  | _, .addSlot a ns _, _ => fun b ns' => P b ns' ∧ ¬ (b = a ∧ ns' = ns)
  | _, _, _ => P

/-- See the head of the file. -/
def Prog.Neat (C : Places) {α : Type} : Prog F α → Places → Places → (α → Places → Places → Prop) → Prop
  | .ret a, H, P, Q => Q a H P
  | .act a k, H, P, Q => a.neat C P ∧ ∀ w p r p', H.Le w.places → a.run w p = .ok (r, p') → Prog.Neat C (k r.1) r.2.places (a.unseen P r.1) Q

open Prog (Neat)

variable {α β : Type} {C H P : Places}

theorem act_places {β : Type} {a : Act F β} {w : World F} {p p' : Nat} {r : β × World F} (h : a.run w p = .ok (r, p')) : w.places.Le r.2.places := by
  cases a with
  | lookup b ns => cases h; exact .refl _
  | slot i f =>
    simp only [Act.run] at h
    cases hs : w.heap[i]? with
    | none => rw [hs] at h; cases h
    | some s =>
      rw [hs] at h
      simp only [bind, StateT.bind, Except.bind] at h
      cases hf : f s.2 p with
      | error e => rw [hf] at h; cases h
      | ok q => rw [hf] at h; cases h; exact .refl _
  | addSlot b ns m =>
    cases h
    intro a ns' hh
    by_cases hb : a = b
    · subst hb
      by_cases hn : ns' = ns
      · subst hn
        show (w.addSlot a ns' m).lookup a ns' ≠ none
        rw [lookup_addSlot]; simp
      · show (w.addSlot a ns m).lookup a ns' ≠ none
        rw [lookup_addSlot_ns w _ _ hn]; exact hh
    · show (w.addSlot b ns m).lookup a ns' ≠ none
      rw [lookup_addSlot_node w hb]; exact hh
  | names b => cases h; exact .refl _
  | loc m =>
    simp only [Act.run, bind, StateT.bind, Except.bind] at h
    cases hf : m p with
    | error e => rw [hf] at h; cases h
    | ok q => rw [hf] at h; cases h; exact .refl _

/-- More may be assumed, less need be shown; and namespaces do not go away. -/
theorem neat_grow {m : Prog F α} {Q R : α → Places → Places → Prop} : ∀ {H H' : Places}, Neat C m H P Q → H.Le H' →
    (∀ a K K' P', H.Le K → K.Le K' → H'.Le K' → Q a K P' → R a K' P') → Neat C m H' P R := by
  induction m generalizing P with
  | ret a => intro H H' h hl hq; exact hq a H H' P (.refl _) hl (.refl _) h
  | act a k ih =>
    intro H H' h hl hq
    refine ⟨h.1, fun w p r p' hw hr => ?_⟩
    have hg := act_places hr
    exact ih r.1 (h.2 w p r p' (hl.trans hw) hr) (.refl _) (fun b K K' P' h1 h2 _ h4 => hq b K K' P' ((hl.trans hw).trans (hg.trans h1)) h2
      ((hw.trans hg).trans (h1.trans h2)) h4)

theorem neat_mono {m : Prog F α} {Q R : α → Places → Places → Prop} (h : Neat C m H P Q) (hq : ∀ a H' P', H.Le H' → Q a H' P' → R a H' P') :
    Neat C m H P R := by
  have key : ∀ {m : Prog F α} {H P : Places}, Neat C m H P Q → ∀ K : Places, K.Le H → (∀ a H' P', K.Le H' → Q a H' P' → R a H' P') → Neat C m H P R := by
    intro m
    induction m with
    | ret a => intro H P h K hK hq; exact hq a H P hK h
    | act a k ih =>
      intro H P h K hK hq
      exact ⟨h.1, fun w p r p' hw hr => ih r.1 (h.2 w p r p' hw hr) K ((hK.trans hw).trans (act_places hr)) hq⟩
  exact key h H (.refl _) hq

theorem neat_weak {m : Prog F α} {H H' : Places} (hl : H.Le H') (h : Neat C m H P (fun _ _ _ => True)) : Neat C m H' P (fun _ _ _ => True) :=
  neat_grow h hl (fun _ _ _ _ _ _ _ _ => trivial)

theorem neat_true {m : Prog F α} {Q : α → Places → Places → Prop} (h : Neat C m H P Q) : Neat C m H P (fun _ _ _ => True) :=
  neat_mono h (fun _ _ _ _ _ => trivial)

theorem neat_pure {a : α} {Q : α → Places → Places → Prop} (h : Q a H P) : Neat C (pure a : Prog F α) H P Q := h

theorem neat_bind {m : Prog F α} {f : α → Prog F β} {Q : α → Places → Places → Prop} {R : β → Places → Places → Prop} (hm : Neat C m H P Q)
    (hf : ∀ a H' P', H.Le H' → Q a H' P' → Neat C (f a) H' P' R) : Neat C (m >>= f) H P R := by
  have key : ∀ {m : Prog F α} {H P : Places}, Neat C m H P Q → ∀ K : Places, K.Le H → (∀ a H' P', K.Le H' → Q a H' P' → Neat C (f a) H' P' R) →
      Neat C (m.bind f) H P R := by
    intro m
    induction m with
    | ret a => intro H P h K hK hf; exact hf a H P hK h
    | act a k ih =>
      intro H P h K hK hf
      exact ⟨h.1, fun w p r p' hw hr => ih r.1 (h.2 w p r p' hw hr) K ((hK.trans hw).trans (act_places hr)) hf⟩
  exact key hm H (.refl _) hf

/-- What is true of the results of a computation that ends. -/
def Ends (m : Go α) (Q : α → Prop) : Prop := ∀ p r p', m p = .ok (r, p') → Q r

theorem ends_idx (l : List α) (i : Nat) : Ends (Go.idx l i) (fun x => x ∈ l) := by
  intro p r p' e
  unfold Go.idx at e
  cases hx : l[i]? with
  | none => rw [hx] at e; cases e
  | some x => rw [hx] at e; cases e; exact List.mem_of_getElem? hx

theorem neat_loc {m : Go α} {Q : α → Prop} (h : Ends m Q) : Neat C (Prog.loc m : Prog F α) H P (fun a _ P' => Q a ∧ P' = P) := by
  refine ⟨trivial, fun w p r p' hw hr => ?_⟩
  simp only [Act.run, bind, StateT.bind, Except.bind] at hr
  cases hf : m p with
  | error e => rw [hf] at hr; cases hr
  | ok q => rw [hf] at hr; cases hr; exact ⟨h _ _ _ hf, rfl⟩

theorem neat_loc' (m : Go α) : Neat C (Prog.loc m : Prog F α) H P (fun _ _ P' => P' = P) :=
  neat_mono (neat_loc (Q := fun _ => True) (fun _ _ _ _ => trivial)) (fun _ _ _ _ h => h.2)

theorem neat_each {f : α → Prog F β} {R : α → β → Places → Prop} (hm : ∀ a b K K', Places.Le K K' → R a b K → R a b K') : ∀ (l : List α) {H P : Places},
    (∀ a ∈ l, ∀ H' P', H.Le H' → P.Le P' → Neat C (f a) H' P' (fun b K P'' => R a b K ∧ P'.Le P'')) →
    Neat C (Prog.each f l) H P (fun r K P' => List.Forall₂ (fun a b => R a b K) l r ∧ P.Le P')
  | [], H, P, _ => ⟨List.Forall₂.nil, .refl _⟩
  | a :: l, H, P, h => by
    unfold Prog.each
    refine neat_bind (h a (by simp) H P (.refl _) (.refl _)) (fun b H' P' hH hb => ?_)
    refine neat_bind (neat_each hm l (fun x hx H'' P'' h1 h2 => h x (by simp [hx]) H'' P'' (hH.trans h1) (hb.2.trans h2))) (fun bs H'' P'' hH' hbs => ?_)
    exact ⟨.cons (hm _ _ _ _ hH' hb.1) hbs.1, hb.2.trans hbs.2⟩

/-- For programs that are run one after the other and of whose results nothing need be known. -/
theorem neat_each' {f : α → Prog F β} : ∀ (l : List α) {H P : Places}, (∀ a ∈ l, ∀ H' P', H.Le H' → Neat C (f a) H' P' (fun _ _ _ => True)) →
    Neat C (Prog.each f l) H P (fun _ _ _ => True)
  | [], H, P, _ => trivial
  | a :: l, H, P, h => by
    unfold Prog.each
    refine neat_bind (h a (by simp) H P (.refl _)) (fun b H' P' hH hb => ?_)
    exact neat_bind (neat_each' l (fun x hx H'' P'' h1 => h x (by simp [hx]) H'' P'' (hH.trans h1))) (fun bs H'' P'' hH' hbs => trivial)

theorem neat_access (a : Addr) (ns : NS) (f : Manager F → Go (β × Manager F)) :
    Neat C (Server.access a ns f) H P (fun o K P' => (o ≠ none → K a ns ∧ P' = P) ∧ (o = none → ¬ H a ns ∧ P.Le P' ∧ P' a ns)) := by
  unfold Server.access
  refine ⟨trivial, fun w p r p' hw hr => ?_⟩
  cases hr
  simp only
  cases hi : w.lookup a ns with
  | none =>
    refine ⟨fun h => absurd rfl h, fun _ => ⟨fun hh => hw a ns hh hi, fun b ns' h => .inl h, .inr ⟨rfl, rfl⟩⟩⟩
  | some i =>
    refine ⟨trivial, fun w1 p1 r1 p1' hw1 hr1 => ?_⟩
    refine ⟨fun _ => ⟨?_, rfl⟩, fun h => (nomatch h)⟩
    refine act_places hr1 a ns (hw1 a ns ?_)
    show w.lookup a ns ≠ none
    rw [hi]; simp

theorem neat_accessP (a : Addr) (ns : NS) (f : Manager F → Go (β × Manager F)) :
    Neat C (Server.access a ns f) H P (fun o K P' => (o ≠ none → K a ns) ∧ P.Le P') := by
  refine neat_mono (neat_access a ns f) (fun o K P' _ h => ⟨fun ho => (h.1 ho).1, ?_⟩)
  cases o with
  | none => exact (h.2 rfl).2.1
  | some b => rw [(h.1 (by simp)).2]; exact .refl _

theorem neat_addSlot {a : Addr} {ns : NS} (m : Manager F) (hc : C a ns) (hp : P a ns) :
    Neat C (Prog.ofAct (.addSlot a ns m) : Prog F _) H P (fun _ K _ => K a ns) := by
  refine ⟨⟨hc, hp⟩, fun w p r p' hw hr => ?_⟩
  cases hr
  show (w.addSlot a ns m).lookup a ns ≠ none
  rw [lookup_addSlot]; simp

theorem neat_names (a : Addr) : Neat C (Prog.ofAct (.names a) : Prog F _) H P (fun l K P' => (∀ ns ∈ l, K a ns) ∧ P' = P) := by
  refine ⟨trivial, fun w p r p' hw hr => ?_⟩
  cases hr
  refine ⟨fun ns hns hh => ?_, rfl⟩
  obtain ⟨e, he, rfl⟩ := List.mem_map.1 hns
  exact lookup_eq_none_iff.1 hh e.2 he

theorem mem_reorder {is : List Nat} {l : List β} {x : β} (h : x ∈ Env.reorder is l) : x ∈ l := by
  unfold Env.reorder at h
  obtain ⟨i, _, hi⟩ := List.mem_filterMap.1 h
  exact List.mem_of_getElem? hi

theorem ends_shuffled (env : Env) (l : List β) : Ends (env.shuffled l) (fun r => ∀ x ∈ r, x ∈ l) := by
  intro p r p' h
  cases h
  exact fun x hx => mem_reorder hx

theorem neat_call (env : Env) {body : Prog F (Option β)} {Q : Option β → Places → Places → Prop} (a : Addr)
    (h : ∀ H', H.Le H' → Neat C body H' P Q) (h1 : ∀ H', H.Le H' → Q none H' P) (h2 : ∀ r K K' P', K.Le K' → Q r K P' → Q r K' P' ∧ Q none K' P') :
    Neat C (Client.call env a body) H P Q := by
  unfold Client.call
  refine neat_bind (neat_loc' _) (fun s H' P' hH hP => ?_)
  subst hP
  cases s with
  | false => exact neat_pure (h1 _ hH)
  | true =>
    refine neat_bind (h H' hH) (fun r H'' P'' _ hr => ?_)
    refine neat_bind (neat_loc' _) (fun s H3 P3 hH3 hP3 => ?_)
    subst hP3
    cases s with
    | false => exact neat_pure (h2 _ _ _ _ hH3 hr).2
    | true => exact neat_pure (h2 _ _ _ _ hH3 hr).1

/-- A call of which nothing need be known. -/
theorem neat_call' (env : Env) {body : Prog F (Option β)} (a : Addr) (h : ∀ H', H.Le H' → Neat C body H' P (fun _ _ _ => True)) :
    Neat C (Client.call env a body) H P (fun _ _ _ => True) := neat_call env a h (fun _ _ => trivial) (fun _ _ _ _ _ _ => ⟨trivial, trivial⟩)

/-- A call of a method that only works on the slot. -/
theorem neat_callP (env : Env) (b : Addr) (a : Addr) (ns : NS) (f : Manager F → Go (β × Manager F)) :
    Neat C (Client.call env b (Server.access a ns f)) H P (fun o K P' => (o ≠ none → K a ns) ∧ P.Le P') :=
  neat_call env b (fun H' _ => neat_accessP a ns f) (fun _ _ => ⟨fun h => absurd rfl h, .refl _⟩)
    (fun r K K' P' hK h => ⟨⟨fun hr => hK a ns (h.1 hr), h.2⟩, fun hr => absurd rfl hr, h.2⟩)

theorem neat_call_unit {γ : Type} (env : Env) (b : Addr) (a : Addr) (ns : NS) (f : Manager F → Go (β × Manager F)) (g : Option β → γ) :
    Neat C (do let r ← Client.call env b (Server.access a ns f); pure (g r)) H P (fun _ _ P' => P.Le P') :=
  neat_bind (neat_callP env b a ns f) (fun _ _ _ _ h => neat_pure h.2)

/-! ### Servers and clients -/

variable (env : Env) (fac : Factory F)

theorem neat_server_namespaces (a : Addr) : Neat C (Server.namespaces env a : Prog F _) H P (fun l K P' => (∀ ns ∈ l, K a ns) ∧ P' = P) := by
  unfold Server.namespaces
  refine neat_bind (neat_names a) (fun l H' P' _ hl => ?_)
  exact neat_mono (neat_loc (ends_shuffled env l)) (fun l' K P'' hK h => ⟨fun ns hns => hK a ns (hl.1 ns (h.1 ns hns)), h.2.trans hl.2⟩)

theorem neat_client_namespaces (a : Addr) : Neat C (Client.namespaces env a : Prog F _) H P (fun l K P' => (∀ ns ∈ l, K a ns) ∧ P' = P) := by
  unfold Client.namespaces
  refine neat_bind (Q := fun o K P' => (∀ l, o = some l → ∀ ns ∈ l, K a ns) ∧ P' = P) (neat_call env a (fun H' _ => ?_) (fun _ _ => ⟨fun l h => (nomatch h), rfl⟩)
    (fun r K K' P' hK h => ⟨⟨fun l hl ns hns => hK a ns (h.1 l hl ns hns), h.2⟩, fun l hl => (nomatch hl), h.2⟩)) (fun o K P' _ h => ?_)
  · exact neat_bind (neat_server_namespaces env a) (fun l _ _ _ h => neat_pure ⟨fun l' hl' => by cases hl'; exact h.1, h.2⟩)
  · refine neat_pure ⟨fun ns hns => ?_, h.2⟩
    cases o with
    | none => simp at hns
    | some l => exact h.1 l rfl ns hns

theorem neat_server_add {a : Addr} {ns : NS} (h : C a ns ∨ H a ns) (d : DataPoint F) : Neat C (Server.addDataPoint env fac a ns d) H P (fun _ _ _ => True) := by
  unfold Server.addDataPoint
  refine neat_bind (neat_access a ns _) (fun o H' P' _ ho => ?_)
  cases o with
  | some b => exact neat_pure trivial
  | none =>
    obtain ⟨h1, _, h3⟩ := ho.2 rfl
    refine neat_bind (neat_loc' _) (fun m H'' P'' _ hP => ?_)
    subst hP
    exact neat_bind (neat_addSlot m (h.resolve_right h1) h3) (fun _ _ _ _ _ => neat_pure trivial)

theorem neat_client_add {a : Addr} {ns : NS} (h : C a ns ∨ H a ns) (d : DataPoint F) : Neat C (Client.addDataPoint env fac a ns d) H P (fun _ _ _ => True) := by
  unfold Client.addDataPoint
  exact neat_bind (neat_call' env a (fun H' hH => neat_bind (neat_server_add env fac (h.imp id (hH a ns)) d) (fun _ _ _ _ _ => neat_pure trivial)))
    (fun _ _ _ _ _ => neat_pure trivial)

theorem neat_client_nearest (a : Addr) (ns : NS) (v : List F) (n : Int) (drain : Bool) :
    Neat C (Client.nearestCentroids env a ns v n drain : Prog F _) H P (fun _ _ _ => True) := by
  unfold Client.nearestCentroids Server.nearestCentroids
  exact neat_bind (neat_callP env a a ns _) (fun r _ _ _ _ => neat_bind (neat_loc' _) (fun _ _ _ _ _ => neat_pure trivial))

theorem neat_stealLoop (a : Addr) (ns : NS) (src : Addr) (v : List F) (limit : Int) : ∀ (fuel n : Nat) {H P : Places},
    Neat C (Server.stealLoop env a ns src v limit fuel n : Prog F _) H P (fun _ _ _ => True)
  | 0, n, H, P => neat_pure trivial
  | fuel + 1, n, H, P => by
    unfold Server.stealLoop
    split
    · refine neat_bind (neat_client_nearest env src ns v 1 true) (fun q H' P' _ _ => ?_)
      match q.2 with
      | none => exact neat_pure trivial
      | some [] => exact neat_pure trivial
      | some (c :: cs) => exact neat_bind (neat_accessP a ns _) (fun _ _ _ _ _ => neat_stealLoop a ns src v limit fuel _)
    · exact neat_pure trivial

theorem neat_stealWith (fuel : Nat) (a : Addr) (ns : NS) (src : Addr) (limit : Int) (v : List F) :
    Neat C (Server.stealWith env fuel a ns src limit v : Prog F _) H P (fun _ _ _ => True) := by
  unfold Server.stealWith
  exact neat_bind (neat_stealLoop env a ns src v limit fuel 0) (fun _ _ _ _ _ => neat_bind (neat_accessP a ns _) (fun _ _ _ _ _ => neat_pure trivial))

theorem neat_server_steal {a : Addr} {ns : NS} (h : C a ns ∨ H a ns) (fuel : Nat) (src : Addr) (limit : Int) :
    Neat C (Server.stealCentroid env fac fuel a ns src limit) H P (fun _ _ _ => True) := by
  unfold Server.stealCentroid
  refine neat_bind (neat_access a ns _) (fun o H' P' _ ho => ?_)
  cases o with
  | some b => exact neat_stealWith env fuel a ns src limit _
  | none =>
    obtain ⟨h1, _, h3⟩ := ho.2 rfl
    refine neat_bind (neat_callP env src src ns _) (fun rv H'' P'' _ hv => ?_)
    split
    · exact neat_pure trivial
    · refine neat_bind (neat_loc' _) (fun m H3 P3 _ hP => ?_)
      subst hP
      exact neat_bind (neat_addSlot m (h.resolve_right h1) (hv.2 a ns h3)) (fun _ _ _ _ _ => neat_stealWith env fuel a ns src limit _)

theorem neat_client_steal {a : Addr} {ns : NS} (h : C a ns ∨ H a ns) (fuel : Nat) (src : Addr) (limit : Int) :
    Neat C (Client.stealCentroids env fac fuel a ns src limit) H P (fun _ _ _ => True) := by
  unfold Client.stealCentroids
  refine neat_bind (neat_call' env a (fun H' hH => neat_bind (neat_server_steal env fac (h.imp id (hH a ns)) fuel src limit) (fun _ _ _ _ _ => neat_pure trivial)))
    (fun r _ _ _ _ => ?_)
  cases r <;> exact neat_pure trivial

/-! ### Distributing -/

theorem neat_fetchVecs (addrs : List Addr) (ns : NS) {fetch : Addr → Prog F (Option (List F))}
    (h : ∀ a H P, Neat C (fetch a) H P (fun o K P' => (o ≠ none → K a ns) ∧ P.Le P')) :
    Neat C (fetchVecs env addrs fetch) H P (fun r K _ => ∀ q ∈ r, q.1 ∈ addrs ∧ K q.1 ns) := by
  unfold fetchVecs
  refine neat_bind (neat_loc (ends_shuffled env addrs)) (fun l H' P' _ hl => ?_)
  refine neat_bind (neat_each (R := fun a (q : Addr × Option (List F)) K => q.1 = a ∧ (q.2 ≠ none → K a ns)) (fun a b K K' hK h => ⟨h.1, fun hb => hK a ns (h.2 hb)⟩) l
    (fun a _ H'' P'' _ _ => neat_bind (h a H'' P'') (fun o K P3 _ ho => neat_pure ⟨⟨rfl, ho.1⟩, ho.2⟩))) (fun r H'' P'' _ hr => ?_)
  refine neat_bind (neat_loc (ends_shuffled env r)) (fun r' H3 P3 hH3 hr' => neat_pure (fun q hq => ?_))
  obtain ⟨x, hx, hxq⟩ := List.mem_filterMap.1 hq
  have key : ∀ {l : List Addr} {r : List (Addr × Option (List F))}, List.Forall₂ (fun a (q : Addr × Option (List F)) => q.1 = a ∧ (q.2 ≠ none → H'' a ns)) l r →
      ∀ x ∈ r, x.1 ∈ l ∧ (x.2 ≠ none → H'' x.1 ns) := by
    intro l r h
    induction h with
    | nil => simp
    | cons h _ ih =>
      intro x hx
      rcases List.mem_cons.1 hx with rfl | hx
      · exact ⟨by simp [h.1], by rw [h.1]; exact h.2⟩
      · exact ⟨by simp [(ih x hx).1], (ih x hx).2⟩
  obtain ⟨k1, k2⟩ := key hr.1 x (hr'.1 x hx)
  match e : x.2, hxq with
  | some (y :: ys), hxq =>
    simp only at hxq
    cases hxq
    exact ⟨hl.1 _ k1, hH3 _ _ (k2 (by rw [e]; simp))⟩
  | some [], hxq => simp at hxq
  | none, hxq => simp at hxq

theorem neat_distributeTo (ns : NS) (addrs : List Addr) (d : DataPoint F) : ∀ (is : List Nat) {H P : Places}, (∀ a ∈ addrs, H a ns) →
    Neat C (Server.distributeTo env fac ns addrs d is) H P (fun _ _ _ => True)
  | [], H, P, _ => neat_pure trivial
  | i :: is, H, P, h => by
    unfold Server.distributeTo
    refine neat_bind (neat_loc (ends_idx addrs i)) (fun a H' P' hH ha => ?_)
    · refine neat_bind (neat_client_add env fac (.inr (hH _ _ (h a ha.1))) d) (fun b H'' P'' hH' _ => ?_)
      cases b with
      | true => exact neat_pure trivial
      | false => exact neat_distributeTo ns addrs d is (fun a ha => hH' _ _ (hH _ _ (h a ha)))

theorem neat_distributeDP (ns : NS) (remote : List (Addr × List F)) (d : DataPoint F) (h : ∀ q ∈ remote, H q.1 ns) :
    Neat C (Server.distributeDP env fac ns remote d) H P (fun _ _ _ => True) := by
  unfold Server.distributeDP
  refine neat_bind (neat_loc' _) (fun is H' P' hH _ => neat_distributeTo env fac ns _ d is (fun a ha => ?_))
  obtain ⟨q, hq, rfl⟩ := List.mem_map.1 ha
  exact hH _ _ (h q hq)

theorem neat_putBack (a : Addr) (ns : NS) (d : DataPoint F) : Neat C (Server.putBack env a ns d : Prog F _) H P (fun _ _ _ => True) :=
  neat_bind (neat_accessP a ns _) (fun _ _ _ _ _ => neat_pure trivial)

theorem neat_distributeFastLoop (a : Addr) (ns : NS) (remote : List (Addr × List F)) : ∀ (ds : List (DataPoint F)) {H P : Places}, (∀ q ∈ remote, H q.1 ns) →
    Neat C (Server.distributeFastLoop env fac a ns remote ds) H P (fun _ _ _ => True)
  | [], H, P, _ => neat_pure trivial
  | d :: ds, H, P, h => by
    unfold Server.distributeFastLoop
    refine neat_bind (neat_distributeDP env fac ns remote d h) (fun b H' P' hH _ => ?_)
    have h' : ∀ q ∈ remote, H' q.1 ns := fun q hq => hH _ _ (h q hq)
    cases b with
    | true => exact neat_distributeFastLoop a ns remote ds h'
    | false => exact neat_bind (neat_putBack env a ns d) (fun _ H'' _ hH' _ => neat_distributeFastLoop a ns remote ds (fun q hq => hH' _ _ (h' q hq)))

theorem neat_distributeAccurateLoop (a : Addr) (ns : NS) (addrs : List Addr) : ∀ (ds : List (DataPoint F)) {H P : Places},
    Neat C (Server.distributeAccurateLoop env fac a ns addrs ds) H P (fun _ _ _ => True)
  | [], H, P => neat_pure trivial
  | d :: ds, H, P => by
    unfold Server.distributeAccurateLoop
    refine neat_bind (neat_fetchVecs env addrs ns (fun b H P => neat_callP env b b ns _)) (fun remote H1 P1 _ h1 => ?_)
    refine neat_bind (neat_distributeDP env fac ns remote d (fun q hq => (h1 q hq).2)) (fun b H' P' _ _ => ?_)
    cases b with
    | true => exact neat_distributeAccurateLoop a ns addrs ds
    | false => exact neat_bind (neat_putBack env a ns d) (fun _ _ _ _ _ => neat_distributeAccurateLoop a ns addrs ds)

theorem neat_server_distributeFast (a : Addr) (ns : NS) (k : Int) (addrs : List Addr) :
    Neat C (Server.distributeFast env fac a ns k addrs) H P (fun _ _ _ => True) := by
  unfold Server.distributeFast
  refine neat_bind (neat_loc' _) (fun _ H1 P1 _ _ => neat_bind (neat_accessP a ns _) (fun o H2 P2 _ _ => ?_))
  cases o with
  | none => exact neat_pure trivial
  | some ds =>
    simp only
    split
    · exact neat_pure trivial
    · refine neat_bind (neat_fetchVecs env addrs ns (fun b H P => neat_callP env b b ns _)) (fun remote H3 P3 _ h => ?_)
      exact neat_bind (neat_distributeFastLoop env fac a ns remote ds (fun q hq => (h q hq).2)) (fun _ _ _ _ _ => neat_pure trivial)

theorem neat_server_distributeAccurate (a : Addr) (ns : NS) (k : Int) (addrs : List Addr) :
    Neat C (Server.distributeAccurate env fac a ns k addrs) H P (fun _ _ _ => True) := by
  unfold Server.distributeAccurate
  refine neat_bind (neat_loc' _) (fun _ H1 P1 _ _ => neat_bind (neat_accessP a ns _) (fun o H2 P2 _ _ => ?_))
  cases o with
  | none => exact neat_pure trivial
  | some ds =>
    simp only
    split
    · exact neat_pure trivial
    · exact neat_bind (neat_distributeAccurateLoop env fac a ns addrs ds) (fun _ _ _ _ _ => neat_pure trivial)

theorem neat_client_distributeFast (a : Addr) (ns : NS) (addrs : List Addr) (k : Int) :
    Neat C (Client.distributeFast env fac a ns addrs k) H P (fun _ _ _ => True) := by
  unfold Client.distributeFast
  exact neat_bind (neat_call' env a (fun H' _ => neat_server_distributeFast env fac a ns k addrs)) (fun _ _ _ _ _ => neat_pure trivial)

theorem neat_client_distributeAccurate (a : Addr) (ns : NS) (addrs : List Addr) (k : Int) :
    Neat C (Client.distributeAccurate env fac a ns addrs k) H P (fun _ _ _ => True) := by
  unfold Client.distributeAccurate
  exact neat_bind (neat_call' env a (fun H' _ => neat_server_distributeAccurate env fac a ns k addrs)) (fun _ _ _ _ _ => neat_pure trivial)

/-! ### Requests -/

theorem neat_answer {g : β → Answer F} {m : Prog F (Option β)} {Q : Option β → Places → Places → Prop} (h : Neat C m H P Q) :
    Neat C (answer g m) H P (fun _ _ _ => True) := by
  unfold answer
  refine neat_bind h (fun o _ _ _ _ => ?_)
  cases o <;> exact neat_pure trivial

theorem neat_request (r : Request F) (h : r.mayCreate → C r.node r.ns) : Neat C (r.serve env fac) H P (fun _ _ _ => True) := by
  cases r with
  | add a ns d => exact neat_bind (neat_server_add env fac (.inl (h trivial)) d) (fun _ _ _ _ _ => neat_pure trivial)
  | distributeFast a ns k addrs => exact neat_answer (neat_server_distributeFast env fac a ns k addrs)
  | distributeAccurate a ns k addrs => exact neat_answer (neat_server_distributeAccurate env fac a ns k addrs)
  | stealCentroid a ns src limit fuel => exact neat_bind (neat_server_steal env fac (.inl (h trivial)) fuel src limit) (fun _ _ _ _ _ => neat_pure trivial)
  | _ => exact neat_answer (neat_accessP _ _ _)

/-! ### Putting and querying -/

theorem ends_bind {m : Go α} {f : α → Go β} {Q : α → Prop} {R : β → Prop} (hm : Ends m Q) (hf : ∀ a, Q a → Ends (f a) R) : Ends (m >>= f) R := by
  intro p r p' h
  simp only [bind, StateT.bind, Except.bind] at h
  cases hv : m p with
  | error e => rw [hv] at h; cases h
  | ok q => rw [hv] at h; exact hf _ (hm _ _ _ hv) _ _ _ h

theorem ends_any (m : Go α) : Ends m (fun _ => True) := fun _ _ _ _ => trivial

theorem ends_pure {a : α} {Q : α → Prop} (h : Q a) : Ends (pure a : Go α) Q := by
  intro p r p' e; cases e; exact h

theorem ends_pick (addrs : List Addr) : ∀ is : List Nat, Ends (pick addrs is) (fun l => ∀ a ∈ l, a ∈ addrs)
  | [] => ends_pure (by simp)
  | i :: is => by
    unfold pick
    refine ends_bind (ends_idx addrs i) (fun a ha => ends_bind (ends_pick addrs is) (fun l hl => ends_pure (fun x hx => ?_)))
    rcases List.mem_cons.1 hx with rfl | hx
    · exact ha
    · exact hl x hx

theorem ends_shuffleFrom (n : Nat) : ∀ (k i : Nat) (l : List Addr), Ends (Dps.shuffleFrom env n k i l) (fun r => ∀ a ∈ r, a ∈ l)
  | 0, i, l => ends_pure (fun _ h => h)
  | k + 1, i, l => by
    unfold Dps.shuffleFrom
    refine ends_bind (ends_any _) (fun j _ => ?_)
    refine ends_bind (Q := fun l' => ∀ a ∈ l', a ∈ l) ?_ (fun l' hl' p r p' e a ha => hl' a (ends_shuffleFrom n k (i + 1) l' p r p' e a ha))
    unfold Dps.swap
    refine ends_bind (ends_idx l i) (fun x hx => ends_bind (ends_idx l j) (fun y hy => ends_pure (fun a ha => ?_)))
    rcases List.mem_or_eq_of_mem_set ha with ha | rfl
    · rcases List.mem_or_eq_of_mem_set ha with ha | rfl
      · exact ha
      · exact hy
    · exact hx

theorem neat_bestFit (search : Search F) (addrs : List Addr) (v : List F) (ns : NS) {fetch : Addr → Prog F (Option (List F))}
    (h : ∀ a H P, Neat C (fetch a) H P (fun o K P' => (o ≠ none → K a ns) ∧ P.Le P')) :
    Neat C (Nodes.bestFitNodes env search addrs v fetch) H P (fun l _ _ => ∀ a ∈ l, a ∈ addrs) := by
  unfold Nodes.bestFitNodes
  refine neat_bind (neat_fetchVecs env addrs ns h) (fun rsp H' P' _ hr => ?_)
  refine neat_mono (neat_loc (ends_bind (ends_any _) (fun is _ => ends_pick _ is))) (fun l K P'' _ hl a ha => ?_)
  obtain ⟨q, hq, rfl⟩ := List.mem_map.1 (hl.1 a ha)
  exact (hr q hq).1

theorem neat_put (ns : NS) (d : DataPoint F) : ∀ (addrs : List Addr) {H P : Places}, (∀ a ∈ addrs, C a ns) →
    Neat C (Dps.putDataPoint env fac ns d addrs) H P (fun _ _ _ => True)
  | [], H, P, _ => neat_pure trivial
  | a :: as, H, P, h => by
    unfold Dps.putDataPoint
    refine neat_bind (neat_client_add env fac (.inl (h a (by simp))) d) (fun b H' P' _ _ => ?_)
    cases b with
    | true => exact neat_pure trivial
    | false => exact neat_put ns d as (fun x hx => h x (by simp [hx]))

theorem neat_api_put (addrs : List Addr) (o : Option (Api.PutOpts F)) (h : ∀ o', o = some o' → ∀ a ∈ addrs, C a o'.ns) :
    Neat C (Api.putDataPoint env fac addrs o) H P (fun _ _ _ => True) := by
  unfold Api.putDataPoint
  cases o with
  | none => exact neat_pure trivial
  | some o =>
    have h := h o rfl
    simp only
    refine neat_bind (Q := fun _ _ _ => True) ?_ (fun b H' P' _ _ => neat_bind (Q := fun _ _ _ => True) ?_ (fun _ _ _ _ _ => neat_pure trivial))
    · split
      · exact neat_bind (neat_bestFit env knnCos addrs _ o.ns (fun a H P => neat_callP env a a o.ns _)) (fun l _ _ _ hl => neat_put env fac o.ns _ l (fun a ha => h a (hl a ha)))
      · exact neat_bind (neat_bestFit env knnCos addrs _ o.ns (fun a H P => neat_callP env a a o.ns _)) (fun l _ _ _ hl => neat_put env fac o.ns _ l (fun a ha => h a (hl a ha)))
    · split
      · exact neat_pure trivial
      · exact neat_bind (neat_loc (ends_shuffleFrom env _ _ _ addrs)) (fun l _ _ _ hl => neat_put env fac o.ns _ l (fun a ha => h a (hl.1 a ha)))

theorem neat_getFrom (ns : NS) (v : List F) (k : Int) (drain : Bool) : ∀ (addrs : List Addr) (res : List (DataPoint F)) {H P : Places},
    Neat C (Dps.getFrom env ns v k drain addrs res) H P (fun _ _ _ => True)
  | [], res, H, P => neat_pure trivial
  | a :: as, res, H, P => by
    unfold Dps.getFrom
    refine neat_bind (Q := fun _ _ _ => True) ?_ (fun l _ _ _ _ => ?_)
    · unfold Client.knnLookup
      exact neat_bind (neat_loc' _) (fun _ _ _ _ _ => neat_true (neat_call_unit env a a ns _ _))
    · split
      · exact neat_pure trivial
      · exact neat_getFrom ns v k drain as _

theorem neat_api_query (addrs : List Addr) (o : Option (Api.QueryOpts F)) : Neat C (Api.queryDataPoint env addrs o) H P (fun _ _ _ => True) := by
  unfold Api.queryDataPoint
  cases o with
  | none => exact neat_pure trivial
  | some o =>
    simp only
    refine neat_bind (Q := fun _ _ _ => True) ?_ (fun b H' P' _ _ => neat_pure trivial)
    split
    all_goals
      refine neat_bind (neat_bestFit env knnCos addrs _ o.ns (fun a H P => neat_callP env a a o.ns _)) (fun l _ _ _ hl => ?_)
      unfold Dps.getDataPoints
      exact neat_bind (neat_loc' _) (fun _ _ _ _ _ => neat_getFrom env o.ns _ _ _ l [])

/-! ### Event loops -/

theorem neat_namespaceTable (remotes : List Addr) :
    Neat C (namespaceTable env remotes : Prog F _) H P (fun t K _ => ∀ ns ∈ t.map (fun e => e.1), ∃ a ∈ remotes, K a ns) := by
  unfold namespaceTable
  refine neat_bind (neat_each (R := fun a (q : Addr × List NS) K => q.1 = a ∧ ∀ ns ∈ q.2, K a ns) (fun a b K K' hK h => ⟨h.1, fun ns hns => hK a ns (h.2 ns hns)⟩) remotes
    (fun a _ H' P' _ _ => neat_bind (neat_client_namespaces env a) (fun l K P'' _ hl => neat_pure ⟨⟨rfl, hl.1⟩, by rw [hl.2]; exact .refl _⟩))) (fun replies K P' _ hr => ?_)
  refine neat_pure (fun ns hns => ?_)
  obtain ⟨q, hq, hqn⟩ := ((C54_table replies).2.1 ns).1 hns
  have key : ∀ {l : List Addr} {r : List (Addr × List NS)}, List.Forall₂ (fun a (q : Addr × List NS) => q.1 = a ∧ ∀ ns ∈ q.2, K a ns) l r →
      ∀ x ∈ r, x.1 ∈ l ∧ ∀ ns ∈ x.2, K x.1 ns := by
    intro l r h
    induction h with
    | nil => simp
    | cons h _ ih =>
      intro x hx
      rcases List.mem_cons.1 hx with rfl | hx
      · exact ⟨by simp [h.1], by rw [h.1]; exact h.2⟩
      · exact ⟨by simp [(ih x hx).1], (ih x hx).2⟩
  obtain ⟨k1, k2⟩ := key hr.1 q hq
  exact ⟨q.1, k1, k2 ns hqn⟩

theorem neat_balanceLoop {steal : Addr → Int → Prog F Int} {K : Places} (hs : ∀ a n H P, K.Le H → Neat C (steal a n) H P (fun _ _ _ => True))
    (nRemotes nAddrs : Nat) (loc : Addr) (mean mar : Int) : ∀ (keys : List Addr) (lens : Lens) {H P : Places}, K.Le H →
    Neat C (balanceLoop steal nRemotes nAddrs loc mean mar keys lens) H P (fun _ _ _ => True)
  | [], lens, H, P, _ => neat_pure trivial
  | other :: rest, lens, H, P, hK => by
    unfold balanceLoop
    refine neat_bind (neat_loc' _) (fun o H' P' hH _ => ?_)
    cases o with
    | none => exact neat_balanceLoop hs nRemotes nAddrs loc mean mar rest lens (hK.trans hH)
    | some n =>
      refine neat_bind (hs other n H' P' (hK.trans hH)) (fun got H'' P'' hH' _ => ?_)
      exact neat_bind (neat_balanceLoop hs nRemotes nAddrs loc mean mar rest _ ((hK.trans hH).trans hH')) (fun _ _ _ _ _ => neat_pure trivial)

theorem neat_balanceNamespace (fuel : Nat) {loc : Addr} (remotes : List Addr) (t : Table) {ns : NS} (h : C loc ns ∨ H loc ns) :
    Neat C (balanceNamespace env fac fuel loc remotes t ns) H P (fun _ _ _ => True) := by
  unfold balanceNamespace
  refine neat_bind (Q := fun _ _ _ => True) ?_ (fun lens H' P' hH _ => neat_bind (Q := fun _ _ _ => True) ?_ (fun _ _ _ _ _ => neat_pure trivial))
  · unfold fetchLens
    refine neat_bind (neat_loc' _) (fun l _ _ _ _ => neat_bind (neat_each' l (fun a _ _ _ _ => ?_)) (fun _ _ _ _ _ =>
      neat_bind (neat_loc' _) (fun _ _ _ _ _ => neat_pure trivial)))
    exact neat_bind (neat_call_unit env a a ns _ _) (fun _ _ _ _ _ => neat_pure trivial)
  · unfold balance
    refine neat_bind (neat_loc' _) (fun mean H1 P1 h1 _ => neat_bind (neat_loc' _) (fun keys H2 P2 h2 _ => ?_))
    refine neat_balanceLoop (K := H) (fun a n H P hK => ?_) _ _ _ _ _ _ _ ((hH.trans h1).trans h2)
    exact neat_bind (neat_client_steal env fac (h.imp id (hK _ _)) fuel a n) (fun _ _ _ _ _ => neat_pure trivial)

theorem neat_startAll (cfg : Config) (f : NS → Call) : Neat C (startAll env cfg f : Prog F _) H P (fun _ _ _ => True) :=
  neat_bind (neat_client_namespaces env _) (fun _ _ _ _ _ => neat_pure trivial)

theorem neat_withAddrs (cfg : Config) {task : NS → List Addr → Prog F Unit} (h : ∀ ns l H P, Neat C (task ns l) H P (fun _ _ _ => True)) :
    Neat C (withAddrs env cfg task) H P (fun _ _ _ => True) := by
  unfold withAddrs
  refine neat_bind (neat_client_namespaces env _) (fun l _ _ _ _ => neat_bind (neat_each' l (fun ns _ _ _ _ => ?_)) (fun _ _ _ _ _ => neat_pure trivial))
  exact neat_bind (neat_namespaceTable env _) (fun t H P _ _ => h ns _ H P)

theorem neat_client_getMeta (a : Addr) : Neat C (Client.getMeta env a : Prog F _) H P (fun _ _ _ => True) := by
  unfold Client.getMeta
  refine neat_bind (Q := fun _ _ _ => True) (neat_call' env a (fun H' _ => neat_bind (Q := fun _ _ _ => True) ?_ (fun _ _ _ _ _ => neat_pure trivial)))
    (fun _ _ _ _ _ => neat_pure trivial)
  unfold Server.getMeta
  refine neat_bind (neat_server_namespaces env a) (fun l _ _ _ _ => neat_bind (Q := fun _ _ _ => True) (neat_each' l (fun ns _ _ _ _ => ?_)) (fun _ _ _ _ _ => neat_pure trivial))
  exact neat_bind (neat_accessP a ns _) (fun _ _ _ _ _ => neat_pure trivial)

theorem neat_task (fuel : Nat) (cfg : Config) (t : TaskId) (h : t = .loadBalancing → (∃ b ∈ cfg.remotes, b ≠ cfg.loc) → ∀ ns, C cfg.loc ns) :
    Neat C (task env fac fuel cfg t) H P (fun _ _ _ => True) := by
  cases t with
  | expire => exact neat_startAll env _ _
  | memTrim => exact neat_startAll env _ _
  | distInternal => exact neat_startAll env _ _
  | split => exact neat_startAll env _ _
  | merge => exact neat_startAll env _ _
  | distFast => exact neat_withAddrs env cfg (fun ns l H P => neat_client_distributeFast env fac _ ns l _)
  | distAccurate => exact neat_withAddrs env cfg (fun ns l H P => neat_client_distributeAccurate env fac _ ns l _)
  | loadBalancing =>
    refine neat_bind (neat_namespaceTable env _) (fun t H1 P1 _ ht => neat_bind (neat_loc (ends_shuffled env _)) (fun nss H2 P2 h2 hn => ?_))
    refine neat_bind (neat_each' nss (fun ns hns H3 P3 h3 => ?_)) (fun _ _ _ _ _ => neat_pure trivial)
    refine neat_bind (neat_balanceNamespace env fac fuel _ t ?_) (fun _ _ _ _ _ => neat_pure trivial)
    obtain ⟨a, ha, hK⟩ := ht ns (hn.1 ns hns)
    by_cases hl : a = cfg.loc
    · subst hl
      exact .inr (h3 _ _ (h2 _ _ hK))
    · exact .inl (h rfl ⟨a, ha, hl⟩ ns)
  | getMeta => exact neat_bind (neat_each' _ (fun a _ H P _ => neat_bind (neat_client_getMeta env a) (fun _ _ _ _ _ => neat_pure trivial))) (fun _ _ _ _ _ => neat_pure trivial)

theorem neat_loop (fuel : Nat) (cfg : Config) (skip : SkipConfig) (h : (∃ b ∈ cfg.remotes, b ≠ cfg.loc) → ∀ ns, C cfg.loc ns) : ∀ (n : Nat) (iter : Int) {H P : Places},
    Neat C (loop env fac fuel cfg skip n iter) H P (fun _ _ _ => True)
  | 0, iter, H, P => neat_pure trivial
  | n + 1, iter, H, P => by
    unfold loop
    refine neat_bind (Q := fun _ _ _ => True) ?_ (fun _ _ _ _ _ => neat_bind (neat_loop fuel cfg skip h n _) (fun _ _ _ _ _ => neat_pure trivial))
    unfold oneIteration
    refine neat_each' _ (fun t _ H P _ => ?_)
    unfold EventLoop.turn
    refine neat_bind (neat_loc' _) (fun b _ _ _ _ => ?_)
    cases b with
    | true => exact neat_task env fac fuel cfg t (fun _ => h)
    | false => exact neat_pure trivial

/-- A job creates only what it may create, and only after it saw that it does not exist. -/
theorem neat_job (j : Job F) : Neat j.mayCreateAt (j.prog env fac) H P (fun _ _ _ => True) := by
  cases j with
  | rpc r => exact neat_bind (neat_request env fac r (fun h => ⟨h, rfl, rfl⟩)) (fun _ _ _ _ _ => neat_pure trivial)
  | call c =>
    refine neat_bind (Q := fun _ _ _ => True) ?_ (fun _ _ _ _ _ => neat_pure trivial)
    cases c <;> exact neat_true (neat_call_unit env _ _ _ _ _)
  | put addrs body =>
    refine neat_bind (neat_api_put env fac addrs body (fun o h a ha => ?_)) (fun _ _ _ _ _ => neat_pure trivial)
    subst h
    exact ⟨ha, rfl⟩
  | query addrs body => exact neat_bind (neat_api_query env addrs body) (fun _ _ _ _ _ => neat_pure trivial)
  | task cfg fuel t =>
    refine neat_bind (neat_task env fac fuel cfg t (fun ht h ns => ?_)) (fun _ _ _ _ _ => neat_pure trivial)
    subst ht
    exact ⟨rfl, h⟩
  | loop cfg fuel skip n iter => exact neat_bind (neat_loop env fac fuel cfg skip (fun h ns => ⟨rfl, h⟩) n iter) (fun _ _ _ _ _ => neat_pure trivial)

end Trypo
