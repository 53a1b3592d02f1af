import Verif.Proofs.ManagerHistory
import Verif.Spec.Refusal

/-!
# A logic for programs that run interleaved with others

`Safe` says of a program what it does to the datapoints of its namespace at each of its atomic actions, whatever other
goroutines do in between, as long as the world stays consistent.
-/

set_option linter.unusedSectionVars false
set_option linter.unusedVariables false

namespace Trypo
open GoFloat Spec

variable {F : Type} [GoFloat F]

/-- The namespaces of all slots. -/
def labels (w : World F) : List NS := w.heap.map (fun s => s.1)

/-- What a goroutine can rely on having seen: slots keep their namespaces, and namespaces are never removed. -/
structure View where
  labels : List NS
  has : Addr → NS → Prop

/-- What can be seen in a world. -/
def view (w : World F) : View := ⟨labels w, fun a ns => w.lookup a ns ≠ none⟩

/-- The order of views. -/
structure View.Le (v v' : View) : Prop where
  labels : v.labels <+: v'.labels
  has : ∀ a ns, v.has a ns → v'.has a ns

theorem View.Le.refl (v : View) : v.Le v := ⟨List.prefix_refl _, fun _ _ h => h⟩

theorem View.Le.trans {u v w : View} (h : u.Le v) (h' : v.Le w) : u.Le w :=
  ⟨h.labels.trans h'.labels, fun a ns hx => h'.has a ns (h.has a ns hx)⟩

/-- A consistent manager of the shipped configuration, in a namespace of dimension `n`. -/
structure MOK (n : Nat) (m : Manager F) : Prop where
  wf : m.WF
  knn : m.knn = knnCos
  kfn : m.kfn = kfnCos
  len : m.vec.length = n

/-- What a lost reply has done: a datapoint is there once more, or an answer with datapoints never arrived. -/
inductive Entry (F : Type) where
  | twice (d : DataPoint F)
  | gone (l : List (DataPoint F))

/-- The datapoints that are there once more. -/
def extras (M : List (Entry F)) : List (DataPoint F) := M.flatMap (fun e => match e with | .twice d => [d] | .gone _ => [])

/-- The answers that never arrived. -/
def unarrived (M : List (Entry F)) : List (List (DataPoint F)) := M.flatMap (fun e => match e with | .twice _ => [] | .gone l => [l])

/-- The datapoints in answers that never arrived. -/
def losts (M : List (Entry F)) : List (DataPoint F) := (unarrived M).flatten

@[simp] theorem extras_nil : extras ([] : List (Entry F)) = [] := rfl
@[simp] theorem extras_append (M N : List (Entry F)) : extras (M ++ N) = extras M ++ extras N := List.flatMap_append
@[simp] theorem extras_twice (d : DataPoint F) : extras [.twice d] = [d] := rfl
@[simp] theorem extras_gone (l : List (DataPoint F)) : extras [.gone l] = [] := rfl
@[simp] theorem unarrived_nil : unarrived ([] : List (Entry F)) = [] := rfl
@[simp] theorem unarrived_append (M N : List (Entry F)) : unarrived (M ++ N) = unarrived M ++ unarrived N := List.flatMap_append
@[simp] theorem losts_nil : losts ([] : List (Entry F)) = [] := rfl
@[simp] theorem losts_append (M N : List (Entry F)) : losts (M ++ N) = losts M ++ losts N := by
  simp [losts]
@[simp] theorem losts_twice (d : DataPoint F) : losts [.twice d] = [] := rfl
@[simp] theorem losts_gone (l : List (DataPoint F)) : losts [.gone l] = l := by simp [losts, unarrived]

theorem extras_perm {M N : List (Entry F)} (h : M.Perm N) : (extras M).Perm (extras N) := h.flatMap_right _
theorem unarrived_perm {M N : List (Entry F)} (h : M.Perm N) : (unarrived M).Perm (unarrived N) := h.flatMap_right _
theorem losts_perm {M N : List (Entry F)} (h : M.Perm N) : (losts M).Perm (losts N) := (unarrived_perm h).flatten

theorem length_entries (M : List (Entry F)) : (extras M).length + (unarrived M).length = M.length := by
  induction M with
  | nil => rfl
  | cons e M ih =>
    have h1 : extras (e :: M) = extras [e] ++ extras M := extras_append [e] M
    have h2 : unarrived (e :: M) = unarrived [e] ++ unarrived M := unarrived_append [e] M
    rw [h1, h2, List.length_append, List.length_append, List.length_cons]
    cases e with
    | twice d =>
      have : (extras [Entry.twice d]).length = 1 := rfl
      have : (unarrived [Entry.twice d]).length = 0 := rfl
      omega
    | gone l =>
      have : (extras [Entry.gone l]).length = 0 := rfl
      have : (unarrived [Entry.gone l]).length = 1 := rfl
      omega

/-- A request in namespace `own`; `T` is an invariant of the tables that all goroutines keep; `U` holds of all datapoints
that have ever been in the namespace; `Dr` holds if answers with datapoints may be lost; `R` holds of all datapoints that a
manager of the namespace turns away at some time. -/
structure Ctx (F : Type) where
  env : Env
  D : NS → Nat
  own : NS
  T : (Addr → List (NS × Nat)) → List NS → Prop
  U : DataPoint F → Prop
  Dr : Prop
  R : DataPoint F → Prop

/-- What lost replies may do. -/
def Ctx.Fine (c : Ctx F) : Entry F → Prop
  | .twice d => c.U d
  | .gone _ => c.Dr

/-- The consistent worlds. -/
structure Ctx.Inv (c : Ctx F) (w : World F) : Prop where
  ok : WorldOK c.D w
  tab : c.T w.table (labels w)

/-- Other namespaces are left alone. -/
structure Frame (own : NS) (w w' : World F) : Prop where
  get : ∀ a ns, ns ≠ own → w'.get a ns = w.get a ns
  held : ∀ ns, ns ≠ own → held w' ns = held w ns
  lookup : ∀ a ns, ns ≠ own → w'.lookup a ns = w.lookup a ns

theorem Frame.refl (own : NS) (w : World F) : Frame own w w := ⟨fun _ _ _ => rfl, fun _ _ => rfl, fun _ _ _ => rfl⟩

theorem Frame.trans {own : NS} {w w' w'' : World F} (h : Frame own w w') (h' : Frame own w' w'') : Frame own w w'' :=
  ⟨fun a ns hn => (h'.get a ns hn).trans (h.get a ns hn), fun ns hn => (h'.held ns hn).trans (h.held ns hn),
    fun a ns hn => (h'.lookup a ns hn).trans (h.lookup a ns hn)⟩

theorem _root_.Trypo.Spec.LostReplies.zero {env : Env} {p p' : Nat} : LostReplies env p p' 0 := ⟨[], .nil, by simp, Nat.le_refl _⟩

theorem _root_.Trypo.Spec.LostReplies.one {env : Env} {p : Nat} {a : Addr} (h : env.back p a = false) : LostReplies env p (p + 1) 1 :=
  ⟨[p], by simp, by simpa using ⟨a, h⟩, Nat.le_refl _⟩

theorem _root_.Trypo.Spec.LostReplies.le {env : Env} {p p' k k' : Nat} (h : LostReplies env p p' k) (hk : k' ≤ k) : LostReplies env p p' k' := by
  obtain ⟨ts, h1, h2, h3⟩ := h
  exact ⟨ts, h1, h2, Nat.le_trans hk h3⟩

theorem _root_.Trypo.Spec.LostReplies.append {env : Env} {p p1 p2 k k' : Nat} (h : LostReplies env p p1 k) (h' : LostReplies env p1 p2 k')
    (h1 : p ≤ p1) (h2 : p1 ≤ p2) : LostReplies env p p2 (k + k') := by
  obtain ⟨ts, a1, a2, a3⟩ := h
  obtain ⟨us, b1, b2, b3⟩ := h'
  refine ⟨ts ++ us, List.pairwise_append.2 ⟨a1, b1, fun x hx y hy => ?_⟩, ?_, by simp; omega⟩
  · have := (a2 x hx).2.1; have := (b2 y hy).1; omega
  · intro q hq
    rcases List.mem_append.1 hq with hq | hq
    · obtain ⟨c1, c2, c3⟩ := a2 q hq; exact ⟨c1, by omega, c3⟩
    · obtain ⟨c1, c2, c3⟩ := b2 q hq; exact ⟨by omega, c2, c3⟩

theorem _root_.Trypo.Spec.LostReplies.none {env : Env} {p p' k : Nat} (h : LostReplies env p p' k) (hn : NoLostReplies env) : k = 0 := by
  obtain ⟨ts, _, h2, h3⟩ := h
  cases ts with
  | nil => simpa using h3
  | cons q ts =>
    obtain ⟨_, _, a, ha⟩ := h2 q (by simp)
    rw [hn q a] at ha; cases ha

/-- What one atomic action does. `H` is what the goroutine holds, `mint` what a lost reply has done. -/
structure StepOK (c : Ctx F) (w : World F) (p : Nat) (H : List (DataPoint F)) (w' : World F) (p' : Nat)
    (H' : List (DataPoint F)) (mint : List (Entry F)) : Prop where
  le : p ≤ p'
  inv : c.Inv w'
  view : (view w).Le (view w')
  frame : Frame c.own w w'
  conserved : Conserved (c.env.tk p') (extras mint ++ (H ++ held w c.own)) (H' ++ held w' c.own) (losts mint)
  minted : ∀ e ∈ mint, c.Fine e
  few : LostReplies c.env p p' mint.length

theorem Ctx.fine_extras {c : Ctx F} {M : List (Entry F)} (h : ∀ e ∈ M, c.Fine e) : ∀ d ∈ extras M, c.U d := by
  intro d hd
  obtain ⟨e, he, hde⟩ := List.mem_flatMap.1 hd
  cases e with
  | twice d' =>
    have : d = d' := by simpa using hde
    rw [this]; exact h _ he
  | gone l => simp at hde

theorem Ctx.fine_losts {c : Ctx F} {M : List (Entry F)} (h : ∀ e ∈ M, c.Fine e) (hd : ¬ c.Dr) : unarrived M = [] := by
  refine List.flatMap_eq_nil_iff.2 (fun e he => ?_)
  cases e with
  | twice d => rfl
  | gone l => exact absurd (h _ he) hd

theorem StepOK.known {c : Ctx F} {w w' : World F} {p p' : Nat} {H H' : List (DataPoint F)} {mint : List (Entry F)}
    (h : StepOK c w p H w' p' H' mint) (hu : ∀ d ∈ H ++ held w c.own, c.U d) : ∀ d ∈ H' ++ held w' c.own, c.U d := by
  obtain ⟨lost, e1, _⟩ := h.conserved
  intro d hd
  have := e1.subset (by simp only [List.mem_append] at hd ⊢; exact .inl (.inl hd))
  rcases List.mem_append.1 this with h1 | h1
  · exact Ctx.fine_extras h.minted d h1
  · exact hu d h1

/-- See the head of the file. The arguments are what was seen, the datapoints the goroutine holds, what lost replies have
done to it, and what is to hold at the end. -/
def Safe (c : Ctx F) {α : Type} : Prog F α → View → List (DataPoint F) → List (Entry F) →
    (α → View → List (DataPoint F) → List (Entry F) → Prop) → Prop
  | .ret a, L, H, M, Q => Q a L H M
  | .act a k, L, H, M, Q => ∀ w p, c.Inv w → L.Le (view w) → (∀ d ∈ H ++ held w c.own, c.U d) →
      (∀ d, TurnedAway w c.own d → c.R d) → Go.wp (a.run w) (fun r p' => ∃ H' mint, StepOK c w p H r.2 p' H' mint ∧
        Safe c (k r.1) (view r.2) H' (mint ++ M) Q) p

/-! ### Worlds -/

theorem mem_of_lookup {l : List (NS × Nat)} {ns : NS} {i : Nat} (h : l.lookup ns = some i) : (ns, i) ∈ l := by
  induction l with
  | nil => simp at h
  | cons e l ih =>
    obtain ⟨x, j⟩ := e
    rw [List.lookup_cons] at h
    by_cases hx : ns = x
    · subst hx
      simp only [BEq.rfl] at h
      cases h; simp
    · have : (ns == x) = false := by simpa using hx
      rw [this] at h
      exact List.mem_cons_of_mem _ (ih h)

theorem lookup_of_mem {l : List (NS × Nat)} (hn : (l.map (fun e => e.1)).Nodup) {ns : NS} {i : Nat} (h : (ns, i) ∈ l) :
    l.lookup ns = some i := by
  induction l with
  | nil => simp at h
  | cons e l ih =>
    obtain ⟨x, j⟩ := e
    rw [List.map_cons, List.nodup_cons] at hn
    rw [List.lookup_cons]
    rcases List.mem_cons.1 h with h' | h'
    · cases h'; simp
    · have hx : ns ≠ x := by
        intro hx
        exact hn.1 (List.mem_map.2 ⟨(ns, i), h', hx⟩)
      have : (ns == x) = false := by simpa using hx
      rw [this]
      exact ih hn.2 h'

theorem lookup_eq_none_iff {l : List (NS × Nat)} {ns : NS} : l.lookup ns = none ↔ ∀ i, (ns, i) ∉ l := by
  induction l with
  | nil => simp
  | cons e l ih =>
    obtain ⟨x, j⟩ := e
    rw [List.lookup_cons]
    by_cases hx : ns = x
    · subst hx
      simp only [BEq.rfl, reduceCtorEq, false_iff]
      exact fun h => h j (by simp)
    · have : (ns == x) = false := by simpa using hx
      rw [this, ih]
      simp [hx]

theorem lookup_filter_ne {l : List (NS × Nat)} {ns ns' : NS} (h : ns' ≠ ns) :
    (l.filter (fun e => e.1 ≠ ns)).lookup ns' = l.lookup ns' := by
  induction l with
  | nil => rfl
  | cons e l ih =>
    obtain ⟨x, j⟩ := e
    by_cases hx : x = ns
    · subst hx
      have : (ns' == x) = false := by simpa using h
      rw [List.lookup_cons, this]
      simpa using ih
    · rw [List.filter_cons_of_pos (by simpa using hx), List.lookup_cons, List.lookup_cons, ih]

theorem run_slot {β : Type} {w : World F} {i : Nat} {ns : NS} {m : Manager F} (h : w.heap[i]? = some (ns, m))
    (f : Manager F → Go (β × Manager F)) : (Act.slot i f).run w =
      (do let r ← f m; pure (r.1, { w with heap := w.heap.set i (ns, r.2) })) := by
  show (match w.heap[i]? with
    | none => Go.panic .nilDeref
    | some s => do
      let r ← f s.2
      pure (r.1, { w with heap := w.heap.set i (s.1, r.2) })) = _
  rw [h]

/-- The world after an access to slot `i`. -/
def World.put (w : World F) (i : Nat) (ns : NS) (m : Manager F) : World F := { w with heap := w.heap.set i (ns, m) }

theorem labels_put {w : World F} {i : Nat} {ns : NS} {m m' : Manager F} (h : w.heap[i]? = some (ns, m)) :
    labels (w.put i ns m') = labels w := by
  unfold labels World.put
  refine List.ext_getElem? (fun j => ?_)
  simp only [List.getElem?_map, List.getElem?_set]
  by_cases hj : i = j
  · subst hj
    obtain ⟨hlt, _⟩ := List.getElem?_eq_some_iff.1 h
    rw [if_pos rfl, if_pos hlt, h]; rfl
  · rw [if_neg hj]

theorem held_split {w : World F} {i : Nat} {ns : NS} {m : Manager F} (h : w.heap[i]? = some (ns, m)) :
    ∃ X, (held w ns).Perm (stored m ++ X) ∧ ∀ m', (held (w.put i ns m') ns).Perm (stored m' ++ X) := by
  obtain ⟨hlt, hg⟩ := List.getElem?_eq_some_iff.1 h
  have e1 : w.heap = w.heap.take i ++ (ns, m) :: w.heap.drop (i + 1) := by
    rw [← hg, List.getElem_cons_drop, List.take_append_drop]
  have e2 : ∀ m', w.heap.set i (ns, m') = w.heap.take i ++ (ns, m') :: w.heap.drop (i + 1) := by
    intro m'; rw [List.set_eq_take_append_cons_drop, if_pos hlt]
  have key : ∀ (a b : List (NS × Manager F)) (x : Manager F),
      (((a ++ (ns, x) :: b).filter (fun s => s.1 = ns)).flatMap (fun s => stored s.2)).Perm (stored x ++
        ((a.filter (fun s => s.1 = ns)).flatMap (fun s => stored s.2) ++
          (b.filter (fun s => s.1 = ns)).flatMap (fun s => stored s.2))) := by
    intro a b x
    rw [List.filter_append, List.filter_cons_of_pos (by simp), List.flatMap_append, List.flatMap_cons]
    permc [List.Perm.refl ([] : List (DataPoint F))]
  refine ⟨_, (List.Perm.of_eq ?_).trans (key (w.heap.take i) (w.heap.drop (i + 1)) m), fun m' => ?_⟩
  · unfold held
    rw [← e1]
  · unfold held World.put
    simp only
    rw [e2]
    exact key _ _ m'

theorem held_put_ne {w : World F} {i : Nat} {ns ns' : NS} {m m' : Manager F} (h : w.heap[i]? = some (ns, m)) (hn : ns' ≠ ns) :
    held (w.put i ns m') ns' = held w ns' := by
  obtain ⟨hlt, hg⟩ := List.getElem?_eq_some_iff.1 h
  have e1 : w.heap = w.heap.take i ++ (ns, m) :: w.heap.drop (i + 1) := by
    rw [← hg, List.getElem_cons_drop, List.take_append_drop]
  have e2 : w.heap.set i (ns, m') = w.heap.take i ++ (ns, m') :: w.heap.drop (i + 1) := by
    rw [List.set_eq_take_append_cons_drop, if_pos hlt]
  unfold held World.put
  simp only
  rw [e2]
  conv_rhs => rw [e1]
  rw [List.filter_append, List.filter_append, List.filter_cons_of_neg (by simpa using Ne.symm hn),
    List.filter_cons_of_neg (by simpa using Ne.symm hn)]

theorem get_put_ne {D : NS → Nat} {w : World F} (hw : WorldOK D w) {i : Nat} {ns ns' : NS} {m m' : Manager F}
    (h : w.heap[i]? = some (ns, m)) (hn : ns' ≠ ns) (a : Addr) : (w.put i ns m').get a ns' = w.get a ns' := by
  unfold World.get World.put World.lookup
  simp only
  cases hl : (w.table a).lookup ns' with
  | none => rfl
  | some j =>
    simp only [Option.bind_some]
    obtain ⟨m2, hm2⟩ := hw.points a ns' j (mem_of_lookup hl)
    have hij : i ≠ j := by
      rintro rfl
      rw [h] at hm2; cases hm2; exact hn rfl
    rw [List.getElem?_set_ne hij]

theorem Spec.WorldOK.put {D : NS → Nat} {w : World F} (hw : WorldOK D w) {i : Nat} {ns : NS} {m m' : Manager F}
    (h : w.heap[i]? = some (ns, m)) (hm : ManagerOK m' ∧ m'.knn = knnCos ∧ m'.kfn = kfnCos ∧ m'.vec.length = D ns) :
    WorldOK D (w.put i ns m') where
  keys := hw.keys
  points := by
    intro a ns2 j hj
    obtain ⟨m2, hm2⟩ := hw.points a ns2 j hj
    unfold World.put
    simp only
    by_cases hij : i = j
    · subst hij
      rw [h] at hm2; cases hm2
      exact ⟨m', by rw [List.getElem?_set_self (List.getElem?_eq_some_iff.1 h).1]⟩
    · exact ⟨m2, by rw [List.getElem?_set_ne hij]; exact hm2⟩
  apart := hw.apart
  slots := by
    intro s hs
    rcases List.mem_or_eq_of_mem_set hs with hs | rfl
    · exact hw.slots s hs
    · exact hm

theorem labels_addSlot (w : World F) (a : Addr) (ns : NS) (m : Manager F) :
    labels (w.addSlot a ns m) = labels w ++ [ns] := by
  unfold labels World.addSlot; simp

theorem held_addSlot (w : World F) (a : Addr) (ns : NS) (m : Manager F) :
    held (w.addSlot a ns m) ns = held w ns ++ stored m := by
  unfold held World.addSlot; simp

theorem held_addSlot_ne (w : World F) (a : Addr) {ns ns' : NS} (hn : ns' ≠ ns) (m : Manager F) :
    held (w.addSlot a ns m) ns' = held w ns' := by
  unfold held World.addSlot; simp [Ne.symm hn]

theorem lookup_addSlot (w : World F) (a : Addr) (ns : NS) (m : Manager F) :
    (w.addSlot a ns m).lookup a ns = some w.heap.length := by
  unfold World.addSlot World.lookup; simp

theorem lookup_addSlot_ns (w : World F) (a b : Addr) {ns ns' : NS} (hn : ns' ≠ ns) (m : Manager F) :
    (w.addSlot a ns m).lookup b ns' = w.lookup b ns' := by
  unfold World.addSlot World.lookup
  simp only
  split
  · rename_i h; subst h
    have : (ns' == ns) = false := by simpa using hn
    rw [List.lookup_cons, this]
    exact lookup_filter_ne hn
  · rfl

theorem lookup_addSlot_node (w : World F) {a b : Addr} (hb : b ≠ a) (ns ns' : NS) (m : Manager F) :
    (w.addSlot a ns m).lookup b ns' = w.lookup b ns' := by
  unfold World.addSlot World.lookup
  simp only [if_neg hb]

theorem view_addSlot (w : World F) (a : Addr) (ns : NS) (m : Manager F) : (view w).Le (view (w.addSlot a ns m)) := by
  refine ⟨?_, fun b ns' h => ?_⟩
  · show labels w <+: labels (w.addSlot a ns m)
    rw [labels_addSlot]; exact List.prefix_append _ _
  · show World.lookup _ _ _ ≠ none
    by_cases hn : ns' = ns
    · subst hn
      by_cases hb : b = a
      · subst hb; rw [lookup_addSlot]; simp
      · rw [lookup_addSlot_node w hb]; exact h
    · rw [lookup_addSlot_ns w a b hn]; exact h

theorem lookup_lt {D : NS → Nat} {w : World F} (hw : WorldOK D w) {a : Addr} {ns : NS} {i : Nat} (h : w.lookup a ns = some i) :
    ∃ m, w.heap[i]? = some (ns, m) := hw.points a ns i (mem_of_lookup h)

theorem get_addSlot (w : World F) (a : Addr) (ns : NS) (m : Manager F) : (w.addSlot a ns m).get a ns = some m := by
  unfold World.get
  rw [lookup_addSlot]
  simp [World.addSlot]

theorem get_addSlot_of_lookup {D : NS → Nat} {w : World F} (hw : WorldOK D w) {a b : Addr} {ns ns' : NS} {m : Manager F}
    (h : (w.addSlot a ns m).lookup b ns' = w.lookup b ns') : (w.addSlot a ns m).get b ns' = w.get b ns' := by
  unfold World.get
  rw [h]
  cases hl : w.lookup b ns' with
  | none => rfl
  | some i =>
    obtain ⟨m2, hm2⟩ := lookup_lt hw hl
    simp only [Option.bind_some]
    rw [show (w.addSlot a ns m).heap = w.heap ++ [(ns, m)] from rfl,
      List.getElem?_append_left (List.getElem?_eq_some_iff.1 hm2).1]

theorem get_addSlot_ns {D : NS → Nat} {w : World F} (hw : WorldOK D w) (a b : Addr) {ns ns' : NS} (hn : ns' ≠ ns)
    (m : Manager F) : (w.addSlot a ns m).get b ns' = w.get b ns' :=
  get_addSlot_of_lookup hw (lookup_addSlot_ns w a b hn m)

theorem Spec.WorldOK.addSlot {D : NS → Nat} {w : World F} (hw : WorldOK D w) (a : Addr) {ns : NS} {m : Manager F}
    (hm : ManagerOK m ∧ m.knn = knnCos ∧ m.kfn = kfnCos ∧ m.vec.length = D ns) : WorldOK D (w.addSlot a ns m) where
  keys := by
    intro b
    unfold World.addSlot
    simp only
    split
    · rw [List.map_cons, List.nodup_cons]
      refine ⟨?_, ((List.filter_sublist).map _).nodup (hw.keys a)⟩
      intro h
      obtain ⟨e, he, h2⟩ := List.mem_map.1 h
      have := (List.mem_filter.1 he).2
      simp [h2] at this
    · exact hw.keys b
  points := by
    intro b ns2 j hj
    have hold : (ns2, j) ∈ w.table b → ∃ m_1, (w.addSlot a ns m).heap[j]? = some (ns2, m_1) := by
      intro hj
      obtain ⟨m2, hm2⟩ := hw.points b ns2 j hj
      refine ⟨m2, ?_⟩
      rw [show (w.addSlot a ns m).heap = w.heap ++ [(ns, m)] from rfl,
        List.getElem?_append_left (List.getElem?_eq_some_iff.1 hm2).1, hm2]
    unfold World.addSlot at hj
    simp only at hj
    split at hj
    · rename_i hb; subst hb
      rcases List.mem_cons.1 hj with hj | hj
      · cases hj
        exact ⟨m, by simp [World.addSlot]⟩
      · exact hold (List.mem_filter.1 hj).1
    · exact hold hj
  apart := by
    intro b b' ns2 j h1 h2
    have key : ∀ x, (ns2, j) ∈ (w.addSlot a ns m).table x → (x = a ∧ j = w.heap.length) ∨ ((ns2, j) ∈ w.table x ∧ j < w.heap.length) := by
      intro x hx
      unfold World.addSlot at hx
      simp only at hx
      split at hx
      · rename_i hb; subst hb
        rcases List.mem_cons.1 hx with hx | hx
        · cases hx; exact .inl ⟨rfl, rfl⟩
        · have := (List.mem_filter.1 hx).1
          obtain ⟨m2, hm2⟩ := hw.points _ _ _ this
          exact .inr ⟨this, (List.getElem?_eq_some_iff.1 hm2).1⟩
      · obtain ⟨m2, hm2⟩ := hw.points _ _ _ hx
        exact .inr ⟨hx, (List.getElem?_eq_some_iff.1 hm2).1⟩
    rcases key b h1 with ⟨h1, h1'⟩ | ⟨h1, h1'⟩ <;> rcases key b' h2 with ⟨h2, h2'⟩ | ⟨h2, h2'⟩
    · rw [h1, h2]
    · omega
    · omega
    · exact hw.apart _ _ _ _ h1 h2
  slots := by
    intro s hs
    rcases List.mem_append.1 hs with hs | hs
    · exact hw.slots s hs
    · rw [List.mem_singleton.1 hs]; exact hm

section rules
variable {c : Ctx F} {α β : Type}

theorem safe_mono : ∀ (m : Prog F α) {L : View} {H : List (DataPoint F)} {M : List (Entry F)}
    {Q R : α → View → List (DataPoint F) → List (Entry F) → Prop}
    (h : Safe c m L H M Q) (hqr : ∀ a L' H' M', Q a L' H' M' → R a L' H' M'), Safe c m L H M R
  | .ret a, L, H, M, Q, R, h, hqr => hqr _ _ _ _ h
  | .act a k, L, H, M, Q, R, h, hqr => by
    intro w p hi hl hu ht
    refine Go.wp_mono (h w p hi hl hu ht) (fun r p' hr => ?_)
    obtain ⟨H', mint, h1, h2⟩ := hr
    exact ⟨H', mint, h1, safe_mono (k r.1) h2 hqr⟩

theorem safe_bind_ : ∀ (m : Prog F α) (f : α → Prog F β) {L : View} {H : List (DataPoint F)} {M : List (Entry F)}
    {Q : β → View → List (DataPoint F) → List (Entry F) → Prop}
    (h : Safe c m L H M (fun a L' H' M' => Safe c (f a) L' H' M' Q)), Safe c (m.bind f) L H M Q
  | .ret a, f, L, H, M, Q, h => h
  | .act a k, f, L, H, M, Q, h => by
    intro w p hi hl hu ht
    refine Go.wp_mono (h w p hi hl hu ht) (fun r p' hr => ?_)
    obtain ⟨H', mint, h1, h2⟩ := hr
    exact ⟨H', mint, h1, safe_bind_ (k r.1) f h2⟩

theorem safe_bind {m : Prog F α} {f : α → Prog F β} {L : View} {H : List (DataPoint F)} {M : List (Entry F)}
    {Q : β → View → List (DataPoint F) → List (Entry F) → Prop}
    (h : Safe c m L H M (fun a L' H' M' => Safe c (f a) L' H' M' Q)) : Safe c (m >>= f) L H M Q := safe_bind_ m f h

theorem safe_pure {a : α} {L : View} {H : List (DataPoint F)} {M : List (Entry F)}
    {Q : α → View → List (DataPoint F) → List (Entry F) → Prop} (h : Q a L H M) : Safe c (pure a) L H M Q := h

theorem StepOK.refl {c : Ctx F} {w : World F} (hi : c.Inv w) {p p' : Nat} (hp : p ≤ p') (H : List (DataPoint F)) :
    StepOK c w p H w p' H [] :=
  ⟨hp, hi, .refl _, .refl _ _, Conserved.refl _ _, by simp, .zero⟩

theorem safe_loc_mint {m : Go β} {L : View} {H : List (DataPoint F)} {M : List (Entry F)}
    {Q : β → View → List (DataPoint F) → List (Entry F) → Prop}
    (h : (∀ d ∈ H, c.U d) → ∀ p, Go.wp m (fun r p' => p ≤ p' ∧ ∃ H' mint, Conserved (c.env.tk p') (extras mint ++ H) H' (losts mint) ∧ (∀ e ∈ mint, c.Fine e) ∧
      LostReplies c.env p p' mint.length ∧ ∀ L', L.Le L' → Q r L' H' (mint ++ M)) p) : Safe c (Prog.loc m) L H M Q := by
  intro w p hi hl hu ht
  show Go.wp (m >>= fun r => pure (r, w)) _ p
  simp only [Go.wp_bind, Go.wp_pure]
  refine Go.wp_mono (h (fun d hd => hu d (by simp [hd])) p) (fun r p' hr => ?_)
  obtain ⟨h1, H', mint, h2, hmu, hfew, h3⟩ := hr
  refine ⟨H', mint, ⟨h1, hi, .refl _, .refl _ _, ?_, hmu, hfew⟩, h3 _ hl⟩
  obtain ⟨lost, e1, e2⟩ := h2
  exact ⟨lost, by permc [e1], e2⟩

/-- A local computation. -/
theorem safe_loc {m : Go β} {L : View} {H : List (DataPoint F)} {M : List (Entry F)}
    {Q : β → View → List (DataPoint F) → List (Entry F) → Prop}
    (h : ∀ p, Go.wp m (fun r p' => p ≤ p' ∧ ∃ H', Conserved (c.env.tk p') H H' [] ∧ ∀ L', L.Le L' → Q r L' H' M) p) :
    Safe c (Prog.loc m) L H M Q :=
  safe_loc_mint (fun _ p => Go.wp_mono (h p) (fun r p' hr => by
    obtain ⟨h1, H', h2, h3⟩ := hr
    exact ⟨h1, H', [], h2, by simp, .zero, h3⟩))

/-- A local computation that does not touch what is held. -/
theorem safe_loc_same {m : Go β} {L : View} {H : List (DataPoint F)} {M : List (Entry F)}
    {Q : β → View → List (DataPoint F) → List (Entry F) → Prop}
    (h : ∀ p, Go.wp m (fun r p' => p ≤ p' ∧ ∀ L', L.Le L' → Q r L' H M) p) : Safe c (Prog.loc m) L H M Q :=
  safe_loc (fun p => Go.wp_mono (h p) (fun r p' hr => ⟨hr.1, H, Conserved.refl _ _, hr.2⟩))

theorem safe_lookup {a : Addr} {ns : NS} {L : View} {H : List (DataPoint F)} {M : List (Entry F)}
    {Q : Option Nat → View → List (DataPoint F) → List (Entry F) → Prop}
    (h : ∀ w, c.Inv w → L.Le (view w) → (∀ i, w.lookup a ns = some i → (view w).labels[i]? = some ns) →
      Q (w.lookup a ns) (view w) H M) : Safe c (Prog.ofAct (.lookup a ns)) L H M Q := by
  intro w p hi hl hu ht
  show Go.wp (pure (w.lookup a ns, w)) _ p
  rw [Go.wp_pure]
  refine ⟨H, [], .refl hi (Nat.le_refl _) H, h w hi hl (fun i hi' => ?_)⟩
  obtain ⟨m, hm⟩ := hi.ok.points a ns i (mem_of_lookup hi')
  show (labels w)[i]? = _
  rw [labels, List.getElem?_map, hm]; rfl

theorem safe_names {a : Addr} {L : View} {H : List (DataPoint F)} {M : List (Entry F)}
    {Q : List NS → View → List (DataPoint F) → List (Entry F) → Prop}
    (h : ∀ w, c.Inv w → L.Le (view w) → Q ((w.table a).map (fun e => e.1)) (view w) H M) :
    Safe c (Prog.ofAct (.names a)) L H M Q := by
  intro w p hi hl hu ht
  show Go.wp (pure ((w.table a).map (fun e => e.1), w)) _ p
  rw [Go.wp_pure]
  exact ⟨H, [], .refl hi (Nat.le_refl _) H, h w hi hl⟩

theorem MOK.ok {n : Nat} {m : Manager F} (h : MOK n m) :
    ManagerOK m ∧ m.knn = knnCos ∧ m.kfn = kfnCos ∧ m.vec.length = n := ⟨h.wf.ok, h.knn, h.kfn, h.len⟩

theorem Spec.WorldOK.mok {D : NS → Nat} {w : World F} (hw : WorldOK D w) {i : Nat} {ns : NS} {m : Manager F}
    (h : w.heap[i]? = some (ns, m)) : MOK (D ns) m := by
  obtain ⟨h1, h2, h3, h4⟩ := hw.slots _ (List.mem_of_getElem? h)
  exact ⟨h1.wf, h2, h3, h4⟩

theorem safe_slot {i : Nat} {f : Manager F → Go (β × Manager F)} {L : View} {H : List (DataPoint F)} {M : List (Entry F)}
    {Q : β → View → List (DataPoint F) → List (Entry F) → Prop} (hi : L.labels[i]? = some c.own)
    (h : ∀ m p, MOK (c.D c.own) m → (∀ d, TurnsAway m d → c.R d) → Go.wp (f m) (fun r p' => p ≤ p' ∧ MOK (c.D c.own) r.2 ∧
      ∃ H', Conserved (c.env.tk p') (H ++ stored m) (H' ++ stored r.2) [] ∧ ∀ L', L.Le L' → Q r.1 L' H' M) p) :
    Safe c (Prog.ofAct (.slot i f)) L H M Q := by
  intro w p hw hl hu ht
  have hlab : (labels w)[i]? = some c.own := by
    obtain ⟨t, ht⟩ := hl.labels
    change _ = labels w at ht
    rw [← ht, List.getElem?_append_left (List.getElem?_eq_some_iff.1 hi).1, hi]
  obtain ⟨m, hm⟩ : ∃ m, w.heap[i]? = some (c.own, m) := by
    rw [labels, List.getElem?_map] at hlab
    cases hx : w.heap[i]? with
    | none => rw [hx] at hlab; simp at hlab
    | some s =>
      rw [hx] at hlab
      obtain ⟨x, m⟩ := s
      simp only [Option.map_some, Option.some.injEq] at hlab
      exact ⟨m, by rw [hlab]⟩
  rw [run_slot hm]
  simp only [Go.wp_bind, Go.wp_pure]
  refine Go.wp_mono (h m p (hw.ok.mok hm) (fun d hd => ht d ⟨m, List.mem_of_getElem? hm, hd⟩)) (fun r p' hr => ?_)
  obtain ⟨h1, h2, H', ⟨lost, h3, h3'⟩, h4⟩ := hr
  have hlb : labels (w.put i c.own r.2) = labels w := labels_put hm
  have hvw : view (w.put i c.own r.2) = view w := by unfold view; rw [hlb]; rfl
  obtain ⟨X, x1, x2⟩ := held_split hm
  refine ⟨H', [], ⟨h1, ⟨hw.ok.put hm h2.ok, ?_⟩, ?_, ⟨?_, ?_, fun _ _ _ => rfl⟩, ⟨lost, ?_, h3'⟩, by simp, .zero⟩, ?_⟩
  · show c.T w.table (labels (w.put i c.own r.2))
    rw [hlb]; exact hw.tab
  · show (view w).Le (view (w.put i c.own r.2))
    rw [hvw]; exact .refl _
  · intro a ns hn; exact get_put_ne hw.ok hm hn a
  · intro ns hn; exact held_put_ne hm hn
  · have x3 := x2 r.2
    show (H' ++ held (w.put i c.own r.2) c.own ++ [] ++ lost).Perm ([] ++ (H ++ held w c.own))
    permc [h3, x1, x3]
  · show Q r.1 (view (w.put i c.own r.2)) H' ([] ++ M)
    rw [hvw]; exact h4 _ hl

theorem safe_addSlot {a : Addr} {m : Manager F} {L : View} {H H' : List (DataPoint F)} {M : List (Entry F)}
    {Q : Unit → View → List (DataPoint F) → List (Entry F) → Prop} (hm : MOK (c.D c.own) m)
    (hT : ∀ w, c.Inv w → c.T (w.addSlot a c.own m).table (labels w ++ [c.own])) (hH : H.Perm (H' ++ stored m))
    (h : ∀ L', L.Le L' → L'.has a c.own → Q () L' H' M) :
    Safe c (Prog.ofAct (.addSlot a c.own m)) L H M Q := by
  intro w p hw hl hu ht
  show Go.wp (pure ((), w.addSlot a c.own m)) _ p
  rw [Go.wp_pure]
  have hpre : (view w).Le (view (w.addSlot a c.own m)) := view_addSlot w a c.own m
  refine ⟨H', [], ⟨Nat.le_refl _, ⟨hw.ok.addSlot a hm.ok, ?_⟩, hpre, ⟨?_, ?_, ?_⟩, ⟨[], ?_, by simp⟩, by simp, .zero⟩, h _ (hl.trans hpre) (by show World.lookup _ _ _ ≠ none; rw [lookup_addSlot]; simp)⟩
  · rw [labels_addSlot]; exact hT w hw
  · intro b ns hn; exact get_addSlot_ns hw.ok a b hn m
  · intro ns hn; exact held_addSlot_ne w a hn m
  · intro b ns hn; exact lookup_addSlot_ns w a b hn m
  · have := held_addSlot w a c.own m
    simp only [this, extras_nil, losts_nil]
    permc [hH]

end rules
end Trypo
