import Verif.Proofs.PoolN
import Verif.Props.Balance

/-!
# The jobs of a service in the logic for interleaved programs
-/

set_option linter.unusedSectionVars false
set_option linter.unusedVariables false

namespace Trypo
open GoFloat Spec EventLoop

variable {F : Type} [GoFloat F] [LawfulCmp F] {α β : Type}

/-- A namespace that some node has at some time. -/
def NCtx.Seen (c : NCtx F) (ns : NS) : Prop := ∃ w a, c.Inv w ∧ w.lookup a ns ≠ none

section
variable {c : NCtx F} {P : NS → DataPoint F → Prop} {L : View}

theorem tidy_names {a : Addr} {R : List NS → View → Prop}
    (h : ∀ w, c.Inv w → L.Le (view w) → R ((w.table a).map (fun e => e.1)) (view w)) :
    Tidy c P (Prog.ofAct (.names a)) L R :=
  fun H M => safeN_names (fun w hi hl => ⟨hl, h w hi hl, fun _ => [], fun _ => [], by simp, fun _ _ => rfl, fun _ => .refl _, rfl⟩)

theorem mem_names_iff {w : World F} {a : Addr} {ns : NS} :
    ns ∈ (w.table a).map (fun e => e.1) ↔ w.lookup a ns ≠ none := by
  unfold World.lookup
  rw [Ne, lookup_eq_none_iff]
  simp only [List.mem_map, not_forall, not_not]
  constructor
  · rintro ⟨e, he, rfl⟩; exact ⟨e.2, he⟩
  · rintro ⟨i, hi⟩; exact ⟨_, hi, rfl⟩

variable (he : EnvOK c.env)
include he

theorem tidy_shuffled {l : List β} : Tidy c P (Prog.loc (c.env.shuffled l)) L (fun l' _ => l'.Perm l) :=
  tidy_loc (fun p => wp_shuffled he (fun l' h => ⟨Nat.le_succ _, fun _ _ => h⟩))

theorem tidy_server_namespaces (a : Addr) : Tidy c P (Server.namespaces c.env a) L (fun l L' =>
    (∀ ns ∈ l, L'.has a ns ∧ c.Seen ns) ∧ ∀ ns, L.has a ns → ns ∈ l) := by
  unfold Server.namespaces
  refine tidy_bind (R := fun l L' => (∀ ns ∈ l, L'.has a ns ∧ c.Seen ns) ∧ ∀ ns, L.has a ns → ns ∈ l)
    (tidy_names (fun w hi hl => ⟨fun ns hns => ?_, fun ns hns => ?_⟩)) (fun l L' hL' hl => ?_)
  · have := mem_names_iff.1 hns
    exact ⟨this, w, a, hi, this⟩
  · exact mem_names_iff.2 (hl.has _ _ hns)
  · refine tidy_mono (tidy_shuffled he) (fun l' L'' hL'' hp => ⟨fun ns hns => ?_, fun ns hns => hp.symm.subset (hl.2 ns hns)⟩)
    exact ⟨hL''.has _ _ (hl.1 ns (hp.subset hns)).1, (hl.1 ns (hp.subset hns)).2⟩

theorem tidy_client_namespaces (a : Addr) : Tidy c P (Client.namespaces c.env a) L (fun l L' =>
    (∀ ns ∈ l, L'.has a ns ∧ c.Seen ns) ∧ (Reachable c.env a → ∀ ns, L.has a ns → ns ∈ l)) := by
  unfold Client.namespaces
  refine tidy_bind (R := fun r L' => (∀ ns ∈ r.getD [], L'.has a ns ∧ c.Seen ns) ∧
    (Reachable c.env a → ∀ ns, L.has a ns → ns ∈ r.getD [])) (tidy_call ?_ ?_ (fun L' hL' => ?_)) (fun r L' hL' hr => tidy_pure hr)
  · intro b L' L'' hL h
    exact ⟨fun ns hns => ⟨hL.has _ _ (h.1 ns hns).1, (h.1 ns hns).2⟩, h.2⟩
  · intro hn L' hL'
    exact ⟨by simp, fun h => absurd h hn⟩
  · refine tidy_bind (tidy_server_namespaces he a) (fun l L'' hL'' hl => tidy_pure ⟨hl.1, fun _ ns hns => hl.2 ns (hL'.has _ _ hns)⟩)

/-- What is known of a table of the namespaces of the nodes. -/
structure TableOK (c : NCtx F) (remotes : List Addr) (L L' : View) (t : Table) : Prop where
  seen : ∀ ns ∈ t.map (fun e => e.1), c.Seen ns
  some : ∀ ns ∈ t.map (fun e => e.1), addrsWithNamespace t ns ≠ []
  found : ∀ a ∈ remotes, Reachable c.env a → ∀ ns, L.has a ns → addrsWithNamespace t ns ≠ []
  none : remotes = [] → t.map (fun e => e.1) = []

theorem tidy_namespaceTable (remotes : List Addr) :
    Tidy c P (namespaceTable c.env remotes) L (fun t L' => TableOK c remotes L L' t) := by
  unfold namespaceTable
  refine tidy_bind (tidy_each₂ (R := fun a (q : Addr × List NS) _ => q.1 = a ∧ (∀ ns ∈ q.2, c.Seen ns) ∧
    (Reachable c.env a → ∀ ns, L.has a ns → ns ∈ q.2)) (fun _ _ _ _ _ h => h) remotes (fun a _ L' hL' => ?_)) (fun replies L' hL' hr => ?_)
  · refine tidy_bind (tidy_client_namespaces he a) (fun l L'' hL'' hl => tidy_pure ?_)
    exact ⟨rfl, fun ns hns => (hl.1 ns hns).2, fun h ns hns => hl.2 h ns (hL'.has _ _ hns)⟩
  · refine tidy_pure ?_
    obtain ⟨k1, k2, k3⟩ := C54_table replies
    have hmem : ∀ q ∈ replies, ∃ a ∈ remotes, q.1 = a ∧ (∀ ns ∈ q.2, c.Seen ns) := by
      clear k1 k2 k3
      induction hr with
      | nil => simp
      | cons h _ ih =>
        intro q hq
        rcases List.mem_cons.1 hq with rfl | hq
        · exact ⟨_, by simp, h.1, h.2.1⟩
        · obtain ⟨a, ha, hh⟩ := ih q hq; exact ⟨a, by simp [ha], hh⟩
    have hmem' : ∀ a ∈ remotes, ∃ q ∈ replies, q.1 = a ∧ (Reachable c.env a → ∀ ns, L.has a ns → ns ∈ q.2) := by
      clear k1 k2 k3 hmem
      induction hr with
      | nil => simp
      | cons h _ ih =>
        intro q hq
        rcases List.mem_cons.1 hq with rfl | hq
        · exact ⟨_, by simp, h.1, h.2.2⟩
        · obtain ⟨a, ha, hh⟩ := ih q hq; exact ⟨a, by simp [ha], hh⟩
    have hrep : ∀ q ∈ replies, ∀ ns ∈ q.2, reporters replies ns ≠ [] := by
      intro q hq ns hns hnil
      unfold reporters at hnil
      rw [List.flatMap_eq_nil_iff] at hnil
      have := hnil q hq
      rw [List.replicate_eq_nil_iff] at this
      exact absurd (List.count_pos_iff.2 hns) (by omega)
    refine ⟨fun ns hns => ?_, fun ns hns => ?_, fun a ha hre ns hns => ?_, fun h => ?_⟩
    · obtain ⟨q, hq, hqn⟩ := (k2 ns).1 hns
      obtain ⟨_, _, _, h⟩ := hmem q hq
      exact h ns hqn
    · obtain ⟨q, hq, hqn⟩ := (k2 ns).1 hns
      rw [k3]; exact hrep q hq ns hqn
    · obtain ⟨q, hq, rfl, h⟩ := hmem' a ha
      rw [k3]; exact hrep q hq ns (h hre ns hns)
    · subst h
      have : replies = [] := by simpa using hr.length_eq.symm
      subst this; rfl

/-! ### Client calls on one namespace -/

/-- A call of a method that only works on the slot. -/
theorem tidy_client_unit {a : Addr} {ns : NS} {body : Prog F (Option β)}
    (hb : ∀ L' H M, Safe (c.at ns) body L' H M (fun r L'' H' M' => L'.Le L'' ∧ H' = H ∧ M' = M)) :
    Tidy c P (do let _ ← Client.call c.env a body; pure ()) L (fun _ _ => True) := by
  refine tidy_bind (R := fun _ _ => True) (tidy_call (fun _ _ _ _ h => h) (fun _ _ _ => trivial) (fun L' _ => ?_)) (fun _ _ _ _ => tidy_pure trivial)
  refine tidy_of_safe ns (fun H M => safe_mono _ (hb L' H M) (fun r L'' H' M' hq => ?_))
  obtain ⟨h1, rfl, rfl⟩ := hq
  exact ⟨h1, trivial, [], [], by simp, fun _ => rfl, .refl _, rfl⟩

theorem tidy_goCall (x : Call) : Tidy c P (x.prog c.env) L (fun _ _ => True) := by
  cases x with
  | expire a ns => exact tidy_client_unit he (ns := ns) (fun L' H M => safe_expire (c := c.at ns) he (fun r L'' hL'' => ⟨hL'', rfl, rfl⟩))
  | memTrim a ns => exact tidy_client_unit he (ns := ns) (fun L' H M => safe_memTrim (c := c.at ns) he (fun r L'' hL'' => ⟨hL'', rfl, rfl⟩))
  | distributeInternal a ns n =>
    exact tidy_client_unit he (ns := ns) (fun L' H M => safe_distributeInternal (c := c.at ns) he (fun r L'' hL'' => ⟨hL'', rfl, rfl⟩))
  | splitCentroids a ns min max =>
    exact tidy_client_unit he (ns := ns) (fun L' H M => safe_splitCentroids (c := c.at ns) he (fun r L'' hL'' => ⟨hL'', rfl, rfl⟩))
  | mergeCentroids a ns min max =>
    exact tidy_client_unit he (ns := ns) (fun L' H M => safe_mergeCentroids (c := c.at ns) he (fun r L'' hL'' => ⟨hL'', rfl, rfl⟩))

theorem tidy_client_distribute {a : Addr} {ns : NS} {addrs : List Addr} {body : Prog F (Option Unit)}
    (hP : ∀ x, (addrs ≠ [] → c.R ns x) → P ns x)
    (hb : ∀ L' H M, Safe (c.at ns) body L' H M (fun r L'' H' M' => L'.Le L'' ∧ ∃ X Y, (addrs ≠ [] → ∀ x ∈ X, c.R ns x) ∧
      (NoLostReplies c.env → Y = []) ∧ H'.Perm (X ++ H) ∧ M' = Y ++ M)) :
    Tidy c P (do let _ ← Client.call c.env a body; pure ()) L (fun _ _ => True) := by
  refine tidy_bind (R := fun _ _ => True) (tidy_call (fun _ _ _ _ h => h) (fun _ _ _ => trivial) (fun L' _ => ?_)) (fun _ _ _ _ => tidy_pure trivial)
  refine tidy_of_safe ns (fun H M => safe_mono _ (hb L' H M) (fun r L'' H' M' hq => ?_))
  obtain ⟨h1, X, Y, h2, h3, h4, h5⟩ := hq
  exact ⟨h1, trivial, X, Y, fun x hx => hP x (fun ha => h2 ha x hx), h3, h4, h5⟩

theorem tidy_client_distributeFast {fac : Factory F} (hf : FactoryOK fac) (a : Addr) (ns : NS) (addrs : List Addr) {n : Int} (hn : 0 ≤ n)
    (hP : ∀ x, (addrs ≠ [] → c.R ns x) → P ns x) :
    Tidy c P (Client.distributeFast c.env fac a ns addrs n) L (fun _ _ => True) :=
  tidy_client_distribute he hP (fun L' H M => safe_distributeFast (c := c.at ns) he hf hn
    (fun r L'' X Y hL'' hX hY H' hH' => ⟨hL'', X, Y, hX, hY, hH', rfl⟩))

theorem tidy_client_distributeAccurate {fac : Factory F} (hf : FactoryOK fac) (a : Addr) (ns : NS) (addrs : List Addr) {n : Int} (hn : 0 ≤ n)
    (hP : ∀ x, (addrs ≠ [] → c.R ns x) → P ns x) :
    Tidy c P (Client.distributeAccurate c.env fac a ns addrs n) L (fun _ _ => True) :=
  tidy_client_distribute he hP (fun L' H M => safe_distributeAccurate (c := c.at ns) he hf hn
    (fun r L'' X Y hL'' hX hY H' hH' => ⟨hL'', X, Y, hX, hY, hH', rfl⟩))

theorem tidy_client_steal {fac : Factory F} (hf : FactoryOK fac) (fuel : Nat) {a : Addr} {ns : NS} (src : Addr) (limit : Int)
    (ho : (c.at ns).Open a) (hd : ¬ NoLostReplies c.env → c.Dr) :
    Tidy c P (Client.stealCentroids c.env fac fuel a ns src limit) L (fun _ _ => True) := by
  unfold Client.stealCentroids
  refine tidy_bind (R := fun _ _ => True) (tidy_call (fun _ _ _ _ h => h) (fun _ _ _ => trivial) (fun L' _ => ?_)) (fun r _ _ _ => ?_)
  · refine tidy_bind (R := fun _ _ => True) (tidy_of_safe ns (fun H M => ?_)) (fun _ _ _ _ => tidy_pure trivial)
    exact safe_stealCentroid (c := c.at ns) he hf ho hd (fun r L'' Y hL'' hY => ⟨hL'', trivial, [], Y, by simp, hY, .refl _, rfl⟩)
  · cases r with
    | none => exact tidy_pure trivial
    | some q => exact tidy_pure trivial

theorem tidy_client_lenDP (a : Addr) (ns : NS) : Tidy c P (Client.lenDP c.env a ns) L (fun _ _ => True) := by
  unfold Client.lenDP
  refine tidy_bind (R := fun _ _ => True) (tidy_call (fun _ _ _ _ h => h) (fun _ _ _ => trivial) (fun L' _ => ?_)) (fun _ _ _ _ => tidy_pure trivial)
  exact tidy_of_safe ns (fun H M => safe_lenDP (c := c.at ns) he (fun r L'' hL'' => ⟨hL'', trivial, [], [], by simp, fun _ => rfl, .refl _, rfl⟩))

theorem tidy_client_getMeta (a : Addr) : Tidy c P (Client.getMeta c.env a) L (fun _ _ => True) := by
  unfold Client.getMeta
  refine tidy_bind (R := fun _ _ => True) (tidy_call (fun _ _ _ _ h => h) (fun _ _ _ => trivial) (fun L' _ => ?_)) (fun _ _ _ _ => tidy_pure trivial)
  unfold Server.getMeta
  refine tidy_bind (R := fun _ _ => True) ?_ (fun _ _ _ _ => tidy_pure trivial)
  refine tidy_bind (tidy_server_namespaces he a) (fun l L'' _ _ => ?_)
  refine tidy_bind (tidy_each (R := fun _ _ => True) (fun _ _ _ _ h => h) l (fun ns _ L3 _ => ?_)) (fun _ _ _ _ => tidy_pure trivial)
  refine tidy_bind (R := fun _ _ => True) (tidy_of_safe ns (fun H M => ?_)) (fun _ _ _ _ => tidy_pure trivial)
  exact safe_access_read (c := c.at ns) (fun m L' hm hL' hh => ⟨hL', trivial, [], [], by simp, fun _ => rfl, .refl _, rfl⟩)
    (fun L' hL' => ⟨hL', trivial, [], [], by simp, fun _ => rfl, .refl _, rfl⟩)

/-! ### Load balancing -/

theorem want_total {nRemotes : Nat} (hr : nRemotes ≠ 0) (nAddrs : Nat) (loc : Addr) (mean mar : Int) (lens : Lens) (other : Addr)
    (n : Int) : ∃ r, want nRemotes nAddrs loc mean mar lens other n = .ok r := by
  unfold want
  split
  · exact ⟨_, rfl⟩
  · split
    · exact ⟨_, rfl⟩
    · simp only
      split
      · exact ⟨_, rfl⟩
      · split <;> exact ⟨_, rfl⟩

theorem tidy_lift {x : Except Panic β} {b : β} (h : x = .ok b) : Tidy c P (Prog.loc (Go.lift x)) L (fun r _ => r = b) :=
  tidy_loc (fun p => (Go.wp_lift _ _ _).2 ⟨b, h, Nat.le_refl _, fun _ _ => rfl⟩)

theorem tidy_balanceLoop {steal : Addr → Int → Prog F Int} (hs : ∀ a n L', Tidy c P (steal a n) L' (fun _ _ => True))
    {nRemotes : Nat} (hr : nRemotes ≠ 0) (nAddrs : Nat) (loc : Addr) (mean mar : Int) : ∀ (keys : List Addr) (lens : Lens) (L : View),
    Tidy c P (balanceLoop steal nRemotes nAddrs loc mean mar keys lens) L (fun _ _ => True)
  | [], lens, L => tidy_pure trivial
  | other :: rest, lens, L => by
    unfold balanceLoop
    obtain ⟨r, hw⟩ := want_total he hr nAddrs loc mean mar lens other (lens.get other)
    refine tidy_bind (tidy_lift he hw) (fun x L' _ hx => ?_)
    subst hx
    cases x with
    | none => exact tidy_balanceLoop hs hr nAddrs loc mean mar rest lens L'
    | some n =>
      refine tidy_bind (hs other n L') (fun got L'' _ _ => ?_)
      refine tidy_bind (tidy_balanceLoop hs hr nAddrs loc mean mar rest _ L'') (fun _ _ _ _ => tidy_pure trivial)

theorem tidy_balance {steal : Addr → Int → Prog F Int} (hs : ∀ a n L', Tidy c P (steal a n) L' (fun _ _ => True))
    {nRemotes : Nat} (hr : nRemotes ≠ 0) (nAddrs : Nat) (loc : Addr) {lens : Lens} (hl : lens ≠ []) :
    Tidy c P (balance c.env steal nRemotes nAddrs loc lens) L (fun _ _ => True) := by
  unfold balance
  have hm : meanOf lens = .ok ((total lens).tdiv lens.length) := by
    unfold meanOf
    rw [if_neg (by simpa using hl)]
  refine tidy_bind (tidy_lift he hm) (fun mean L' _ _ => ?_)
  refine tidy_bind (tidy_shuffled he) (fun keys L'' _ _ => ?_)
  exact tidy_balanceLoop he hs hr nAddrs loc mean _ keys lens L''

theorem tidy_fetchLens {addrs : List Addr} (ha : addrs ≠ []) (ns : NS) :
    Tidy c P (fetchLens c.env addrs ns) L (fun lens _ => lens ≠ []) := by
  unfold fetchLens
  refine tidy_bind (tidy_shuffled he) (fun started L' _ hst => ?_)
  refine tidy_bind (tidy_each₂ (R := fun _ _ _ => True) (fun _ _ _ _ _ h => h) started (fun a _ L'' _ => ?_)) (fun answers L'' _ hans => ?_)
  · exact tidy_bind (tidy_client_lenDP he a ns) (fun _ _ _ _ => tidy_pure trivial)
  · refine tidy_bind (tidy_shuffled he) (fun arrived L3 _ har => tidy_pure ?_)
    obtain ⟨_, g2, _⟩ := fold_lens arrived [] (by simp)
    have hne : arrived ≠ [] := by
      intro h
      have h1 := har.length_eq
      have h2 := hst.length_eq
      rw [← hans.length_eq, h] at h1
      rw [← h1] at h2
      exact ha (List.length_eq_zero_iff.1 h2.symm)
    obtain ⟨q, hq⟩ := List.exists_mem_of_ne_nil _ hne
    intro h
    have := (g2 q.1).2 (.inl (List.mem_map_of_mem hq))
    rw [h] at this; simp at this

theorem tidy_balanceNamespace {fac : Factory F} (hf : FactoryOK fac) (fuel : Nat) {loc : Addr} {remotes : List Addr} {t : Table} {ns : NS}
    (hr : remotes ≠ []) (ha : addrsWithNamespace t ns ≠ []) (ho : (c.at ns).Open loc) (hd : ¬ NoLostReplies c.env → c.Dr) :
    Tidy c P (balanceNamespace c.env fac fuel loc remotes t ns) L (fun _ _ => True) := by
  unfold balanceNamespace
  refine tidy_bind (tidy_fetchLens he ha ns) (fun lens L' _ hl => ?_)
  refine tidy_bind (tidy_balance he (fun a n L' => ?_) (by simpa using hr) _ loc hl) (fun _ _ _ _ => tidy_pure trivial)
  exact tidy_bind (tidy_client_steal he hf fuel a n ho hd) (fun _ _ _ _ => tidy_pure trivial)

/-! ### The tasks of the event loop -/

theorem tidy_startAll (cfg : Config) (f : NS → Call) : Tidy c P (startAll c.env cfg f) L (fun _ _ => True) := by
  unfold startAll
  exact tidy_bind (tidy_client_namespaces he cfg.loc) (fun _ _ _ _ => tidy_pure trivial)

theorem tidy_withAddrs {cfg : Config} {task : NS → List Addr → Prog F Unit}
    (ht : ∀ ns addrs L', (FindsItself c.env cfg → addrs ≠ []) → Tidy c P (task ns addrs) L' (fun _ _ => True)) :
    Tidy c P (withAddrs c.env cfg task) L (fun _ _ => True) := by
  unfold withAddrs
  refine tidy_bind (tidy_client_namespaces he cfg.loc) (fun l L' hL' hl => ?_)
  refine tidy_bind (tidy_each (R := fun _ _ => True) (fun _ _ _ _ h => h) l (fun ns hns L'' hL'' => ?_)) (fun _ _ _ _ => tidy_pure trivial)
  refine tidy_bind (tidy_namespaceTable he cfg.remotes) (fun t L3 _ ht' => ht ns _ L3 (fun hfi => ?_))
  exact ht'.found cfg.loc hfi.2 hfi.1 ns (hL''.has _ _ (hl.1 ns hns).1)

/-- What a task may keep in hand, except in lost replies. -/
def taskKeeps (c : NCtx F) (cfg : Config) (t : TaskId) (ns : NS) (x : DataPoint F) : Prop :=
  (t = .distFast ∨ t = .distAccurate) ∧ (FindsItself c.env cfg → c.R ns x)

theorem tidy_task {fac : Factory F} (hf : FactoryOK fac) (fuel : Nat) {cfg : Config} (h1 : 0 ≤ cfg.fastN) (h2 : 0 ≤ cfg.accurateN)
    (t : TaskId) (ho : t = .loadBalancing → ∀ ns, c.Seen ns → (c.at ns).Open cfg.loc)
    (hd : t = .loadBalancing → ¬ NoLostReplies c.env → c.Dr) :
    Tidy c (taskKeeps c cfg t) (task c.env fac fuel cfg t) L (fun _ _ => True) := by
  cases t with
  | getMeta =>
    unfold task
    refine tidy_bind (tidy_each (R := fun _ _ => True) (fun _ _ _ _ h => h) _ (fun a _ L' _ => ?_)) (fun _ _ _ _ => tidy_pure trivial)
    exact tidy_bind (tidy_client_getMeta he a) (fun _ _ _ _ => tidy_pure trivial)
  | expire => exact tidy_startAll he cfg _
  | memTrim => exact tidy_startAll he cfg _
  | merge => exact tidy_startAll he cfg _
  | split => exact tidy_startAll he cfg _
  | distInternal => exact tidy_startAll he cfg _
  | distFast =>
    unfold task
    refine tidy_withAddrs he (fun ns addrs L' ha => ?_)
    refine tidy_client_distributeFast he hf _ ns addrs h1 (fun x hx => ?_)
    exact ⟨.inl rfl, fun hfi => hx (ha hfi)⟩
  | distAccurate =>
    unfold task
    refine tidy_withAddrs he (fun ns addrs L' ha => ?_)
    refine tidy_client_distributeAccurate he hf _ ns addrs h2 (fun x hx => ?_)
    exact ⟨.inr rfl, fun hfi => hx (ha hfi)⟩
  | loadBalancing =>
    unfold task
    refine tidy_bind (tidy_namespaceTable he cfg.remotes) (fun t L' hL' ht => ?_)
    refine tidy_bind (tidy_shuffled he) (fun nss L'' _ hns => ?_)
    refine tidy_bind (tidy_each (R := fun _ _ => True) (fun _ _ _ _ h => h) nss (fun ns hn L3 _ => ?_)) (fun _ _ _ _ => tidy_pure trivial)
    have hm := hns.subset hn
    refine tidy_bind (tidy_balanceNamespace he hf fuel (fun h => ?_) (ht.some ns hm) (ho rfl ns (ht.seen ns hm)) (hd rfl))
      (fun _ _ _ _ => tidy_pure trivial)
    rw [ht.none h] at hm; simp at hm

theorem tidy_loop {fac : Factory F} (hf : FactoryOK fac) (fuel : Nat) {cfg : Config} (h1 : 0 ≤ cfg.fastN) (h2 : 0 ≤ cfg.accurateN)
    (ho : ∀ ns, c.Seen ns → (c.at ns).Open cfg.loc) {skip : SkipConfig} (hs : ∀ t, skip.interval t ≠ 0)
    (hd : ¬ NoLostReplies c.env → c.Dr) (hP : ∀ t ns x, taskKeeps c cfg t ns x → P ns x) : ∀ (n : Nat) (iter : Int) (L : View),
    Tidy c P (loop c.env fac fuel cfg skip n iter) L (fun _ _ => True)
  | 0, iter, L => tidy_pure trivial
  | n + 1, iter, L => by
    unfold loop oneIteration
    refine tidy_bind (tidy_each (R := fun _ _ => True) (fun _ _ _ _ h => h) order (fun t _ L' _ => ?_)) (fun l L' _ _ => ?_)
    · unfold EventLoop.turn
      have hw : withSkip iter (skip.interval t) = .ok (decide (iter.tmod (skip.interval t) = 0)) := by
        unfold withSkip; rw [if_neg (hs t)]
      refine tidy_bind (tidy_lift he hw) (fun b L'' _ _ => ?_)
      cases b with
      | false => exact tidy_pure trivial
      | true => exact tidy_weaken (tidy_task he hf fuel h1 h2 t (fun _ => ho) (fun _ => hd)) (hP t)
    · exact tidy_bind (tidy_loop hf fuel h1 h2 ho hs hd hP n _ L') (fun _ _ _ _ => tidy_pure trivial)

/-! ### Putting and querying -/

end

section
variable {c : Ctx F} (he : EnvOK c.env) {L : View} {H : List (DataPoint F)} {M : List (Entry F)}
include he

theorem wp_pick_mem (addrs : List Addr) : ∀ (is : List Nat) (p : Nat), (∀ i ∈ is, i < addrs.length) →
    Go.wp (pick addrs is) (fun r p' => p' = p ∧ ∀ a ∈ r, a ∈ addrs) p
  | [], p, _ => ⟨rfl, by simp⟩
  | i :: is, p, h => by
    unfold pick
    rw [Go.wp_bind, Go.wp_idx]
    have hlt := h i (by simp)
    refine ⟨addrs[i], List.getElem?_eq_getElem hlt, ?_⟩
    rw [Go.wp_bind]
    refine Go.wp_mono (wp_pick_mem addrs is p (fun j hj => h j (by simp [hj]))) (fun r p' hr => ?_)
    rw [Go.wp_pure]
    refine ⟨hr.1, fun a ha => ?_⟩
    rcases List.mem_cons.1 ha with rfl | ha
    · exact List.getElem_mem hlt
    · exact hr.2 a ha

theorem safe_bestFitNodes {addrs : List Addr} {v : List F} {fetch : Addr → Prog F (Option (List F))}
    {Q : List Addr → View → List (DataPoint F) → List (Entry F) → Prop}
    (hf : ∀ b L', Safe c (fetch b) L' H M (fun r L'' H' M' => L'.Le L'' ∧ H' = H ∧ M' = M ∧ ∀ v, r = some v → L''.has b c.own))
    (h : ∀ as L', L.Le L' → (∀ a ∈ as, a ∈ addrs) → Q as L' H M) :
    Safe c (Nodes.bestFitNodes c.env knnCos addrs v fetch) L H M Q := by
  unfold Nodes.bestFitNodes
  refine safe_bind (safe_fetchVecs he hf (fun remote L' hL' hr => ?_))
  refine safe_loc_same (fun p => ?_)
  obtain ⟨is, h1, h2, h3, h4⟩ := (searchOK_prefabs (F := F)).1 v (remote.map (fun q => q.2)) (remote.length : Int) (by omega)
  rw [Go.wp_bind, Go.wp_lift]
  refine ⟨is, h1, ?_⟩
  refine Go.wp_mono (wp_pick_mem he (remote.map (fun q => q.1)) is p (by simpa using h3)) (fun r p' hq => ⟨by omega, fun L'' hL'' => ?_⟩)
  refine h r L'' (hL'.trans hL'') (fun a ha => ?_)
  obtain ⟨q, hq', rfl⟩ := List.mem_map.1 (hq.2 a ha)
  exact (hr q hq').1

theorem safe_bestFitNodesFast {addrs : List Addr} {v : List F}
    {Q : List Addr → View → List (DataPoint F) → List (Entry F) → Prop}
    (h : ∀ as L', L.Le L' → (∀ a ∈ as, a ∈ addrs) → Q as L' H M) :
    Safe c (Nodes.bestFitNodesFast c.env knnCos addrs c.own v) L H M Q :=
  safe_bestFitNodes he (fun b L' => safe_client_vec he (fun r L'' hL'' hr => ⟨hL'', rfl, rfl, fun v hv => (hr v hv).2⟩)) h

theorem safe_bestFitNodesAccurate {addrs : List Addr} {v : List F}
    {Q : List Addr → View → List (DataPoint F) → List (Entry F) → Prop}
    (h : ∀ as L', L.Le L' → (∀ a ∈ as, a ∈ addrs) → Q as L' H M) :
    Safe c (Nodes.bestFitNodesAccurate c.env knnCos addrs c.own v) L H M Q :=
  safe_bestFitNodes he (fun b L' => safe_client_nearestCentroidVec he (fun r L'' hL'' hr => ⟨hL'', rfl, rfl, fun v hv => hr v hv⟩)) h

/-- What a put of `d` leaves: `d` in hand if it failed. -/
abbrev PutPost (c : Ctx F) (d : DataPoint F) (L : View) (H : List (DataPoint F)) (M : List (Entry F))
    (Q : Bool → View → List (DataPoint F) → List (Entry F) → Prop) : Prop :=
  ∀ b L' X Y, L.Le L' → (∀ x ∈ X, c.R x) → (NoLostReplies c.env → Y = []) →
    ∀ H', H'.Perm ((if b then [] else [d]) ++ (X ++ H)) → Q b L' H' (Y ++ M)

theorem safe_putDataPoint {fac : Factory F} (hf : FactoryOK fac) {d : DataPoint F} (hd : d.vec.length = c.D c.own) :
    ∀ (addrs : List Addr) (L : View) (H H0 : List (DataPoint F)) (M : List (Entry F)), (∀ a ∈ addrs, c.Open a) → H0.Perm (d :: H) →
    ∀ {Q : Bool → View → List (DataPoint F) → List (Entry F) → Prop}, PutPost c d L H M Q →
    Safe c (Dps.putDataPoint c.env fac c.own d addrs) L H0 M Q
  | [], L, H, H0, M, _, hH, Q, h =>
    safe_pure (h false L [] [] (.refl _) (by simp) (fun _ => rfl) _ (by simpa using hH))
  | a :: as, L, H, H0, M, ho, hH, Q, h => by
    unfold Dps.putDataPoint
    refine safe_bind (safe_client_add he hf (.inl (ho a (by simp))) hd hH (fun b L' X Y hL' hX hY hXf hYn hbY H' hH' => ?_))
    cases b with
    | true =>
      simp only [if_true]
      exact safe_pure (h true L' X Y hL' hXf hYn _ hH')
    | false =>
      simp only [Bool.false_eq_true, if_false] at hH' ⊢
      refine safe_putDataPoint hf hd as L' (X ++ H) H' (Y ++ M) (fun b hb => ho b (by simp [hb])) hH' ?_
      intro b L3 X2 Y2 hL3 hX2f hY2n H3 hH3
      have := h b L3 (X2 ++ X) (Y2 ++ Y) (hL'.trans hL3) (fun x hx => (List.mem_append.1 hx).elim (hX2f x) (hXf x))
        (fun hf' => by rw [hY2n hf', hYn hf']; rfl) H3 (by simpa using hH3)
      simpa using this

theorem safe_shuffleAddrs {addrs : List Addr} {Q : List Addr → View → List (DataPoint F) → List (Entry F) → Prop}
    (h : ∀ as L', L.Le L' → (∀ a ∈ as, a ∈ addrs) → Q as L' H M) : Safe c (Prog.loc (Dps.shuffleAddrs c.env addrs)) L H M Q := by
  refine safe_loc_same (fun p => ?_)
  unfold Dps.shuffleAddrs
  exact Go.wp_mono (wp_shuffleFrom he addrs.length 0 addrs p rfl (by omega)) (fun r p' hr =>
    ⟨hr.2, fun L' hL' => h r L' hL' (fun a ha => hr.1.subset ha)⟩)

theorem safe_api_put {fac : Factory F} (hf : FactoryOK fac) {addrs : List Addr} (ho : ∀ a ∈ addrs, c.Open a) {o : Api.PutOpts F}
    (hns : o.ns = c.own) (hd : o.dp.toDataPoint.vec.length = c.D c.own)
    {Q : Nat → View → List (DataPoint F) → List (Entry F) → Prop}
    (h : PutPost c o.dp.toDataPoint L [] [] (fun b => Q (if b then 200 else 500))) :
    Safe c (Api.putDataPoint c.env fac addrs (some o)) L [o.dp.toDataPoint] [] Q := by
  unfold Api.putDataPoint
  dsimp only
  rw [hns]
  have key : ∀ {as : List Addr} {L1 : View}, L.Le L1 → (∀ a ∈ as, a ∈ addrs) →
      Safe c (Dps.putDataPoint c.env fac c.own o.dp.toDataPoint as) L1 [o.dp.toDataPoint] [] (fun ok L2 H2 M2 =>
        Safe c ((if ok then pure true else Dps.putDataPointRand c.env fac addrs c.own o.dp.toDataPoint : Prog F Bool)) L2 H2 M2
          (fun ok L3 H3 M3 => Q (if ok then 200 else 500) L3 H3 M3)) := by
    intro as L1 hL1 has
    refine safe_putDataPoint he hf hd as L1 [] _ [] (fun a ha => ho a (has a ha)) (.refl _) ?_
    intro b L2 X Y hL2 hX hY H2 hH2
    cases b with
    | true => exact safe_pure (h true L2 X Y (hL1.trans hL2) hX hY H2 hH2)
    | false =>
      simp only [Bool.false_eq_true, if_false] at hH2 ⊢
      unfold Dps.putDataPointRand
      refine safe_bind (safe_shuffleAddrs he (fun as2 L3 hL3 has2 => ?_))
      refine safe_putDataPoint he hf hd as2 L3 (X ++ []) _ (Y ++ []) (fun a ha => ho a (has2 a ha)) hH2 ?_
      intro b L4 X2 Y2 hL4 hX2 hY2 H4 hH4
      have := h b L4 (X2 ++ X) (Y2 ++ Y) (((hL1.trans hL2).trans hL3).trans hL4) (fun x hx => (List.mem_append.1 hx).elim (hX2 x) (hX x))
        (fun hf' => by rw [hY2 hf', hY hf']; rfl) H4 (by simpa using hH4)
      simpa using this
  refine safe_bind ?_
  split
  · exact safe_bind (safe_bestFitNodesAccurate he (fun as L1 hL1 has =>
      safe_mono _ (key hL1 has) (fun ok L2 H2 M2 hq => safe_bind (safe_mono _ hq (fun ok L3 H3 M3 hq => safe_pure hq)))))
  · exact safe_bind (safe_bestFitNodesFast he (fun as L1 hL1 has =>
      safe_mono _ (key hL1 has) (fun ok L2 H2 M2 hq => safe_bind (safe_mono _ hq (fun ok L3 H3 M3 hq => safe_pure hq)))))

/-- What a lookup of at most `k` datapoints leaves in hand. -/
abbrev GetPost (c : Ctx F) (drain : Bool) (k : Int) (L : View) (H : List (DataPoint F)) (M : List (Entry F))
    (Q : List (DataPoint F) → View → List (DataPoint F) → List (Entry F) → Prop) : Prop :=
  ∀ l L' Y, L.Le L' → (l.length : Int) ≤ k → (NoLostReplies c.env → Y = []) →
    ∀ H', H'.Perm ((if drain then l else []) ++ H) → Q l L' H' (Y ++ M)

theorem safe_client_knnLookup {v : List F} {k : Int} (hk : 0 ≤ k) {drain : Bool} (hd : drain = true → ¬ NoLostReplies c.env → c.Dr)
    {Q : List (DataPoint F) → View → List (DataPoint F) → List (Entry F) → Prop} (h : GetPost c drain k L H M Q) :
    Safe c (Client.knnLookup c.env a c.own v k drain) L H M Q := by
  unfold Client.knnLookup
  refine safe_bind (safe_loc_same (fun p => ?_))
  rw [Go.wp_checkMake]
  refine ⟨hk, Nat.le_refl _, fun L1 hL1 => ?_⟩
  refine safe_bind (safe_call (fun L' hL' => safe_pure ?_) (fun hu L' hL' => ?_))
  · exact h [] L' [] (hL1.trans hL') (by simpa using hk) (fun _ => rfl) H (by simp)
  · refine safe_knnLookup he hk (fun r L2 hL2 hr => ⟨fun L3 hL3 => safe_pure ?_, fun hl =>
      ⟨H, if drain then [.gone (r.getD [])] else [], by split <;> simp, ?_, ?_, fun L3 hL3 => safe_pure ?_⟩⟩)
    · refine h (r.getD []) L3 [] (((hL1.trans hL').trans hL2).trans hL3) ?_ (fun _ => rfl) _ (by simp)
      cases r with
      | none => simpa using hk
      | some l => exact hr l rfl
    · cases drain
      · simp
      · simpa using List.perm_append_comm
    · cases drain
      · simp
      · simpa [Ctx.Fine] using hd rfl hl
    · exact h [] L3 _ (((hL1.trans hL').trans hL2).trans hL3) (by simpa using hk) (fun hn => absurd hn hl) _ (by simp)

theorem safe_getFrom {v : List F} {n : Int} {drain : Bool} (hd : drain = true → ¬ NoLostReplies c.env → c.Dr) :
    ∀ (addrs : List Addr) (res : List (DataPoint F)) (L : View) (H : List (DataPoint F)) (M : List (Entry F)), (res.length : Int) ≤ n →
    ∀ {Q : List (DataPoint F) → View → List (DataPoint F) → List (Entry F) → Prop},
    (∀ l L' Y, L.Le L' → (NoLostReplies c.env → Y = []) →
      ∀ H', H'.Perm ((if drain then l else []) ++ H) → Q (res ++ l) L' H' (Y ++ M)) →
    Safe c (Dps.getFrom c.env c.own v n drain addrs res) L H M Q
  | [], res, L, H, M, hn, Q, h => by
    have := h [] L [] (.refl _) (fun _ => rfl) H (by simp)
    simpa [Dps.getFrom] using safe_pure this
  | a :: as, res, L, H, M, hn, Q, h => by
    unfold Dps.getFrom
    refine safe_bind (safe_client_knnLookup he (by omega) hd (fun l L1 Y hL1 hl hY H1 hH1 => ?_))
    split
    · exact safe_pure (h l L1 Y hL1 hY H1 hH1)
    · refine safe_getFrom hd as (res ++ l) L1 H1 (Y ++ M) (by simp; omega) (fun l2 L2 Y2 hL2 hY2 H2 hH2 => ?_)
      rw [List.append_assoc, ← List.append_assoc Y2]
      refine h (l ++ l2) L2 (Y2 ++ Y) (hL1.trans hL2) (fun hd => by rw [hY2 hd, hY hd]; rfl) H2 ?_
      cases drain
      · simp only [Bool.false_eq_true, if_false] at hH1 hH2 ⊢
        permc [hH1, hH2]
      · simp only [if_true] at hH1 hH2 ⊢
        permc [hH1, hH2]

theorem safe_api_query {addrs : List Addr} {o : Api.QueryOpts F} (hns : o.ns = c.own) (hn : 0 ≤ o.n)
    (hd : o.drain = true → ¬ NoLostReplies c.env → c.Dr)
    {Q : Nat × List (Api.DP F) → View → List (DataPoint F) → List (Entry F) → Prop}
    (h : ∀ l L' Y, L.Le L' → (NoLostReplies c.env → Y = []) →
      ∀ H', H'.Perm ((if o.drain then l else []) ++ H) → Q (200, Api.dataPointsToDPs l) L' H' (Y ++ M)) :
    Safe c (Api.queryDataPoint c.env addrs (some o)) L H M Q := by
  unfold Api.queryDataPoint
  dsimp only
  rw [hns]
  have key : ∀ {as : List Addr} {L1 : View}, L.Le L1 →
      Safe c (Dps.getDataPoints c.env as c.own o.vec o.n o.drain) L1 H M (fun l L' H' M' => Q (200, Api.dataPointsToDPs l) L' H' M') := by
    intro as L1 hL1
    unfold Dps.getDataPoints
    refine safe_bind (safe_loc_same (fun p => ?_))
    rw [Go.wp_checkMake]
    refine ⟨hn, Nat.le_refl _, fun L2 hL2 => ?_⟩
    exact safe_getFrom he hd as [] L2 H M (by simpa using hn) (fun l L3 Y hL3 hY H3 hH3 =>
      h l L3 Y ((hL1.trans hL2).trans hL3) hY H3 hH3)
  refine safe_bind ?_
  split
  · exact safe_bind (safe_bestFitNodesAccurate he (fun as L1 hL1 _ => safe_mono _ (key hL1) (fun _ _ _ _ hq => safe_pure hq)))
  · exact safe_bind (safe_bestFitNodesFast he (fun as L1 hL1 _ => safe_mono _ (key hL1) (fun _ _ _ _ hq => safe_pure hq)))

theorem toDataPoint_map (l : List (DataPoint F)) : (Api.dataPointsToDPs l).map (fun d => d.toDataPoint) = l := by
  unfold Api.dataPointsToDPs
  rw [List.map_map]
  exact List.map_id l

end

/-! ### All jobs -/

/-- Where a job may create a namespace. -/
def JobOpens (c : NCtx F) : Job F → Prop
  | .rpc r => r.mayCreate → (c.at r.ns).Open r.node
  | .put addrs (some o) => ∀ a ∈ addrs, (c.at o.ns).Open a
  | .task cfg _ t => t = .loadBalancing → ∀ ns, c.Seen ns → (c.at ns).Open cfg.loc
  | .loop cfg _ _ _ _ => ∀ ns, c.Seen ns → (c.at ns).Open cfg.loc
  | _ => True

/-- What is known of a job that is done. -/
def jobQ (env : Env) (R : NS → DataPoint F → Prop) (j : Job F) (o : Outcome F) (_ : View) (H : Bags F) (M : Log F) : Prop :=
  ∃ X : Bags F, (∀ ns, (H ns).Perm (j.takes o ns ++ X ns)) ∧ (∀ ns, ∀ x ∈ X ns, j.adds ∧ (j.places env → R ns x)) ∧
    (NoLostReplies env → ∀ ns, M ns = [])

theorem safeN_tidy {c : NCtx F} {P : NS → DataPoint F → Prop} {m : Prog F α} {R : α → View → Prop} {L : View} {j : Job F} {f : α → Outcome F}
    (hb : j.brings = fun _ => []) (ht : ∀ a ns, j.takes (f a) ns = []) (h : Tidy c P m L R) (hl : ∀ ns x, P ns x → j.adds ∧ (j.places c.env → c.R ns x)) :
    SafeN c (m >>= fun a => pure (f a)) L j.brings (fun _ => []) (jobQ c.env c.R j) := by
  rw [hb]
  refine safeN_bind (safeN_mono _ (h _ _) (fun a L' H' M' hq => safeN_pure ?_))
  obtain ⟨_, _, X, Y, h1, h2, h3, rfl⟩ := hq
  refine ⟨X, fun ns => ?_, fun ns x hx => hl ns x (h1 ns x hx), fun hn ns => ?_⟩
  · rw [ht]; simpa using h3 ns
  · unfold Bags.add; rw [h2 hn ns]; rfl

theorem safeN_job {c : NCtx F} (he : EnvOK c.env) {fac : Factory F} (hf : FactoryOK fac) {j : Job F} (hv : j.valid c.D)
    (ho : JobOpens c j) (hd : j.fetches → ¬ NoLostReplies c.env → c.Dr) (L : View) : SafeN c (j.prog c.env fac) L j.brings (fun _ => []) (jobQ c.env c.R j) := by
  cases j with
  | rpc r =>
    unfold Job.prog
    refine safeN_bind (safeN_of_safe r.ns _ ?_)
    have e : (Job.rpc r).brings r.ns = r.brings := if_pos rfl
    rw [e]
    refine safe_mono _ (safe_serve (c := c.at r.ns) he hf r hv rfl ho hd L) (fun a L' H' M' hq => safeN_pure ?_)
    obtain ⟨X, h1, h2, h3⟩ := hq
    refine ⟨Function.update (fun _ => []) r.ns X, fun ns => ?_, fun ns => ?_, fun hn ns => ?_⟩
    · by_cases h : ns = r.ns
      · subst h
        simpa [Job.takes] using h1
      · simp [Function.update_of_ne h, Job.takes, Job.brings, Ne.symm h]
    · by_cases h : ns = r.ns
      · subst h
        intro x hx
        rw [Function.update_self] at hx
        exact h2 x hx
      · simp [Function.update_of_ne h]
    · by_cases h : ns = r.ns
      · subst h
        simpa using h3 hn
      · simp [Function.update_of_ne h]
  | call k => exact safeN_tidy (P := fun _ _ => False) (f := fun _ => .nothing) rfl (fun _ _ => rfl) (tidy_goCall he k) (fun _ _ h => h.elim)
  | put addrs body =>
    cases body with
    | none =>
      exact safeN_tidy (P := fun _ _ => False) (R := fun _ _ => True) (f := fun n : Nat => .status n) rfl (fun _ _ => rfl) (tidy_pure trivial) (fun _ _ h => h.elim)
    | some o =>
      unfold Job.prog
      refine safeN_bind (safeN_of_safe o.ns _ ?_)
      have e : (Job.put addrs (some o)).brings o.ns = [o.dp.toDataPoint] := if_pos rfl
      rw [e]
      refine safe_api_put (c := c.at o.ns) he hf ho rfl hv (fun b L' X Y _ hX hY H' hH' => safeN_pure ?_)
      refine ⟨Function.update (fun _ => []) o.ns X, fun ns => ?_, fun ns => ?_, fun hn ns => ?_⟩
      · by_cases h : ns = o.ns
        · subst h
          cases b <;> simpa [Job.takes] using hH'
        · simp [Function.update_of_ne h, Job.takes, Job.brings, Ne.symm h]
      · by_cases h : ns = o.ns
        · subst h
          simpa using fun x hx => ⟨trivial, fun _ => hX x hx⟩
        · simp [Function.update_of_ne h]
      · by_cases h : ns = o.ns
        · subst h
          simpa using hY hn
        · simp [Function.update_of_ne h]
  | query addrs body =>
    cases body with
    | none =>
      exact safeN_tidy (P := fun _ _ => False) (R := fun _ _ => True) (f := fun r : Nat × List (Api.DP F) => .found r.1 r.2) rfl (fun _ _ => rfl) (tidy_pure trivial) (fun _ _ h => h.elim)
    | some o =>
      unfold Job.prog
      refine safeN_bind (safeN_of_safe o.ns _ ?_)
      refine safe_api_query (c := c.at o.ns) he rfl hv hd (fun l L' Y _ hY H' hH' => safeN_pure ?_)
      refine ⟨fun _ => [], fun ns => ?_, by simp, fun hn ns => ?_⟩
      · by_cases h : ns = o.ns
        · subst h
          have e : (Job.query addrs (some o)).brings o.ns = [] := rfl
          rw [e] at hH'
          simp only [Job.takes, toDataPoint_map (c := c.at o.ns) he, true_and, Function.update_self, List.append_nil]
          simpa using hH'
        · simp [Function.update_of_ne h, Job.takes, Job.brings, Ne.symm h]
      · by_cases h : ns = o.ns
        · subst h
          simp [hY hn]
        · simp [Function.update_of_ne h]
  | task cfg fuel t =>
    refine safeN_tidy (f := fun r => .reports [r]) rfl (fun _ _ => rfl) (tidy_task he hf fuel hv.1 hv.2 t ho (fun h => hd (by subst h; trivial))) (fun ns x hx => ?_)
    obtain ⟨h1 | h1, h2⟩ := hx <;> subst h1 <;> exact ⟨trivial, h2⟩
  | loop cfg fuel skip n iter =>
    exact safeN_tidy (f := fun l => .reports l) rfl (fun _ _ => rfl)
      (tidy_loop (P := fun ns x => FindsItself c.env cfg → c.R ns x) he hf fuel hv.1.1 hv.1.2 ho hv.2 (hd trivial)
        (fun t ns x h => h.2) n iter L) (fun ns x h => ⟨trivial, h⟩)

/-- The task of a job. -/
def jobTask (env : Env) (R : NS → DataPoint F → Prop) (fac : Factory F) (j : Job F) : NTask F (Outcome F) :=
  ⟨j.prog env fac, .none, j.brings, fun _ => [], jobQ env R j⟩

theorem sumN_taken {c : NCtx F} (ns : NS) :
    ∀ (jobs : List (Job F)) (ts : List (NTask F (Outcome F))) (outs : List (Outcome F)), (∀ t ∈ ts, t.Good c) →
      ts.map NTask.Q = jobs.map (jobQ c.env c.R) → ts.map NTask.prog = outs.map .ret →
      ∃ left, (sumN NTask.H ts ns).Perm (takenBy jobs outs ns ++ left) ∧ (∀ d ∈ left, ∃ j ∈ jobs, j.adds ∧ (j.places c.env → c.R ns d)) ∧
        (NoLostReplies c.env → sumN NTask.M ts ns = [])
  | [], ts, outs, hg, h1, h2 => by
    have : ts = [] := by simpa using h1
    subst this
    exact ⟨[], by simp [sumN, takenBy], by simp, fun _ => rfl⟩
  | j :: jobs, [], outs, hg, h1, h2 => by simp at h1
  | j :: jobs, t :: ts, [], hg, h1, h2 => by simp at h2
  | j :: jobs, t :: ts, o :: outs, hg, h1, h2 => by
    simp only [List.map_cons, List.cons.injEq] at h1 h2
    obtain ⟨o2, h1⟩ := h1
    obtain ⟨o3, h2⟩ := h2
    obtain ⟨left, e1, e2, e3⟩ := sumN_taken ns jobs ts outs (fun t ht => hg t (by simp [ht])) h1 h2
    have hgt := hg t (by simp)
    unfold NTask.Good at hgt
    rw [o3, o2] at hgt
    obtain ⟨X, x1, x2, x3⟩ := hgt
    have hs : ∀ {β : Type} (f : _ → NS → List β), sumN f (t :: ts) ns = f t ns ++ sumN f ts ns := fun f => rfl
    have ht : takenBy (j :: jobs) (o :: outs) ns = j.takes o ns ++ takenBy jobs outs ns := rfl
    rw [hs, hs, ht]
    have x1' := x1 ns
    refine ⟨X ns ++ left, by permc [e1, x1'], fun d hd => ?_, fun hl => ?_⟩
    · rcases List.mem_append.1 hd with hd | hd
      · exact ⟨j, by simp, x2 ns d hd⟩
      · obtain ⟨j', hj', h⟩ := e2 d hd
        exact ⟨j', by simp [hj'], h⟩
    · rw [x3 hl ns, e3 hl]; rfl

theorem sumN_brought (env : Env) (R : NS → DataPoint F → Prop) (fac : Factory F) (jobs : List (Job F)) (ns : NS) :
    sumN NTask.H (jobs.map (jobTask env R fac)) ns = broughtBy jobs ns := by
  unfold sumN broughtBy; rw [List.flatMap_map]; rfl

theorem Job.lossless_fetches {env : Env} {j : Job F} (h : j.lossless env) (hf : j.fetches) : NoLostReplies env := by
  cases j with
  | rpc r => exact Request.lossless_fetches h hf
  | call k => exact hf.elim
  | put addrs body => exact hf.elim
  | query addrs body =>
    cases body with
    | none => exact hf.elim
    | some o => exact h hf
  | task cfg fuel t => cases t <;> first | exact h | exact hf.elim
  | loop cfg fuel skip n iter => exact h.2.2

theorem Job.lossless_complete {env : Env} {j : Job F} (h : j.lossless env) : j.complete env := by
  cases j with
  | rpc r => exact Request.lossless_complete h
  | call k => trivial
  | put addrs body => exact h
  | query addrs body => trivial
  | task cfg fuel t => cases t <;> first | exact h | exact trivial
  | loop cfg fuel skip n iter => exact ⟨h.1, h.2.1⟩

theorem Job.complete_places {env : Env} {j : Job F} (h : j.complete env) : j.places env := by
  cases j with
  | rpc r => exact Request.complete_places h
  | call k => trivial
  | put addrs body => trivial
  | query addrs body => trivial
  | task cfg fuel t => cases t <;> first | exact h.2 | exact trivial
  | loop cfg fuel skip n iter => exact h.2

theorem Job.complete_adds {env : Env} {j : Job F} (h : j.complete env) (ha : j.adds) : AlwaysFinds (knnCos (F := F)) := by
  cases j with
  | rpc r => exact Request.complete_adds h ha
  | call k => exact ha.elim
  | put addrs body => exact h
  | query addrs body => exact ha.elim
  | task cfg fuel t => cases t <;> first | exact h.1 | exact ha.elim
  | loop cfg fuel skip n iter => exact h.1

/-- All that a pool of jobs does. -/
theorem job_pool_log {env : Env} (he : EnvOK env) {fac : Factory F} (hf : FactoryOK fac) {D : NS → Nat}
    {T : (Addr → List (NS × Nat)) → List NS → Prop} {w : World F} (hw : WorldOK D w) (hT : T w.table (labels w))
    {jobs : List (Job F)} (hv : ∀ j ∈ jobs, j.valid D)
    (ho : ∀ j ∈ jobs, ∀ U Dr R, JobOpens (F := F) ⟨env, D, T, U, Dr, R⟩ j) (sched : List Nat) (p : Nat) :
    ∃ progs w' p', Pool.run sched (jobs.map (fun j => j.prog env fac)) w p = .ok (progs, w', p') ∧ p ≤ p' ∧ WorldOK D w' ∧
      T w'.table (labels w') ∧ progs.length = jobs.length ∧ (view w).Le (view w') ∧
      ∃ mint : Log F, (∀ nss : List NS, nss.Nodup → LostReplies env p p' (nss.flatMap mint).length) ∧
      ∀ ns, (∀ d ∈ extras (mint ns), d ∈ broughtBy jobs ns ++ held w ns) ∧ ((∀ j ∈ jobs, j.fetches → NoLostReplies env) → unarrived (mint ns) = []) ∧
        ∃ inHands, Conserved (env.tk p') (extras (mint ns) ++ (broughtBy jobs ns ++ held w ns)) (held w' ns ++ inHands) (losts (mint ns)) ∧
        ∀ outs, progs = outs.map .ret → ∃ left, inHands.Perm (takenBy jobs outs ns ++ left) ∧
          ∀ d ∈ left, ∃ j ∈ jobs, j.adds ∧ (j.places env → TurnedAwayDuring env fac jobs sched w p ns d) := by
  obtain ⟨ts', w', p', h1, h2⟩ := pool_safeN (c := ⟨env, D, T, fun ns d => d ∈ broughtBy jobs ns ++ held w ns,
      ¬ ∀ j ∈ jobs, j.fetches → NoLostReplies env,
      TurnedAwayDuring env fac jobs sched w p⟩) he.clock sched
    (jobs.map (jobTask env (TurnedAwayDuring env fac jobs sched w p) fac)) w p ⟨hw, hT⟩ (by
    intro t ht
    obtain ⟨j, hj, rfl⟩ := List.mem_map.1 ht
    exact ⟨safeN_job he hf (hv j hj) (ho j hj _ _ _) (fun h1 h2 h3 => h2 (h3 j hj h1)) _, View.none_le _⟩) (by
    intro ns d hd
    rw [sumN_brought] at hd; exact hd) (fun k ps w1 p1 hk ns d hd => ⟨k, ps, w1, p1, by
      rw [List.map_map] at hk; exact hk, hd⟩)
  have hlen : ts'.length = jobs.length := by
    have := congrArg List.length h2.same; simpa using this
  obtain ⟨mint, few, hm⟩ := h2.conserved
  refine ⟨ts'.map NTask.prog, w', p', ?_, h2.le, h2.inv.ok, h2.inv.tab, by simpa using hlen, h2.view, mint, few, fun ns => ?_⟩
  · rw [← h1, List.map_map]; rfl
  · obtain ⟨m1, m1', m2⟩ := hm ns
    rw [sumN_brought] at m2
    refine ⟨Ctx.fine_extras m1', fun hl => Ctx.fine_losts m1' (fun hn => hn hl), sumN NTask.H ts' ns, m2.perm_after List.perm_append_comm,
      fun outs ha => ?_⟩
    obtain ⟨left, l1, l2, _⟩ := sumN_taken (c := ⟨env, D, T, fun ns d => d ∈ broughtBy jobs ns ++ held w ns,
      ¬ ∀ j ∈ jobs, j.fetches → NoLostReplies env,
      TurnedAwayDuring env fac jobs sched w p⟩) ns jobs ts' outs
      (fun t ht => (h2.good t ht).1) (by rw [h2.same, List.map_map]; rfl) ha
    exact ⟨left, l1, l2⟩

theorem left_nil {env : Env} {jobs : List (Job F)} {left : List (DataPoint F)} {R : DataPoint F → Prop}
    (h : ∀ d ∈ left, ∃ j ∈ jobs, j.adds ∧ (j.places env → R d)) (hR : AlwaysFinds (knnCos (F := F)) → ∀ d, ¬ R d)
    (hc : ∀ j ∈ jobs, j.complete env) : left = [] :=
  List.eq_nil_iff_forall_not_mem.2 (fun d hd => by
    obtain ⟨j, hj, ha, h⟩ := h d hd
    exact hR (Job.complete_adds (hc j hj) ha) d (h (Job.complete_places (hc j hj))))

theorem _root_.Trypo.Spec.AlwaysFinds.not_during (hf : AlwaysFinds (knnCos (F := F))) {env : Env} {fac : Factory F} {jobs : List (Job F)}
    {sched : List Nat} {w : World F} {p : Nat} {ns : NS} (d : DataPoint F) : ¬ TurnedAwayDuring env fac jobs sched w p ns d :=
  fun ⟨_, _, _, _, _, _, _, h⟩ => hf.not_turnsAway h

theorem job_pool {env : Env} (he : EnvOK env) {fac : Factory F} (hf : FactoryOK fac) {D : NS → Nat}
    {T : (Addr → List (NS × Nat)) → List NS → Prop} {w : World F} (hw : WorldOK D w) (hT : T w.table (labels w))
    {jobs : List (Job F)} (hv : ∀ j ∈ jobs, j.valid D)
    (ho : ∀ j ∈ jobs, ∀ U Dr R, JobOpens (F := F) ⟨env, D, T, U, Dr, R⟩ j) (sched : List Nat) (p : Nat) :
    ∃ progs w' p', Pool.run sched (jobs.map (fun j => j.prog env fac)) w p = .ok (progs, w', p') ∧ p ≤ p' ∧ WorldOK D w' ∧
      T w'.table (labels w') ∧ progs.length = jobs.length ∧ (view w).Le (view w') ∧
      (∀ ns, ∃ minted inHands, Conserved (env.tk p') (minted ++ (broughtBy jobs ns ++ held w ns)) (held w' ns ++ inHands) [] ∧
        (∀ d ∈ minted, d ∈ broughtBy jobs ns ++ held w ns) ∧
        ∀ outs, progs = outs.map .ret → ∃ left, inHands.Perm (takenBy jobs outs ns ++ left) ∧
          ((∀ j ∈ jobs, j.lossless env) → left = []) ∧ (NoLostReplies env → minted = [])) := by
  obtain ⟨progs, w', p', h1, h2, h3, h4, h5, h6, mint, few, h7⟩ := job_pool_log he hf hw hT hv ho sched p
  refine ⟨progs, w', p', h1, h2, h3, h4, h5, h6, fun ns => ?_⟩
  obtain ⟨k1, k2, inHands, ⟨lost, c1, c2⟩, k4⟩ := h7 ns
  refine ⟨extras (mint ns), inHands ++ losts (mint ns), ⟨lost, by permc [c1], c2⟩, k1, fun outs ho => ?_⟩
  obtain ⟨left, l1, l2⟩ := k4 outs ho
  refine ⟨left ++ losts (mint ns), by permc [l1], fun hl => ?_, fun hn => ?_⟩
  · rw [left_nil l2 (fun hf => hf.not_during) (fun j hj => Job.lossless_complete (hl j hj)), losts, k2 (fun j hj => Job.lossless_fetches (hl j hj))]; rfl
  · have := (few [ns] (by simp)).none hn
    have e : mint ns = [] := by simpa using this
    rw [e]; rfl

end Trypo
