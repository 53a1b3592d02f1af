import Verif.Spec.Balance
import Verif.Props.Nodes
import Verif.Proofs.Margin

/-!
# The namespace table and load balancing: C54, C55
-/

set_option linter.unusedVariables false
set_option linter.unusedSectionVars false

namespace Trypo
open GoFloat Spec EventLoop

/-! ### C54 -/

theorem lookup_addEntry (a : Addr) (ns x : NS) : ∀ t : Table, (addEntry t a ns).lookup x =
    if x = ns then some ((t.lookup ns).getD [] ++ [a]) else t.lookup x
  | [] => by
    by_cases h : x = ns
    · subst h; simp [addEntry]
    · have : (x == ns) = false := by simpa using h
      simp [addEntry, List.lookup_cons, this, h]
  | e :: t => by
    have ih := lookup_addEntry a ns x t
    obtain ⟨k, l⟩ := e
    unfold addEntry
    by_cases hk : k = ns
    · subst hk
      by_cases h : x = k
      · subst h; simp
      · have : (x == k) = false := by simpa using h
        simp [List.lookup_cons, this, h]
    · simp only [if_neg hk, List.lookup_cons]
      have hn : (ns == k) = false := by simpa using fun h => hk h.symm
      by_cases hx : x = k
      · subst hx
        simp [hk]
      · have : (x == k) = false := by simpa using hx
        rw [this, hn, ih]

theorem keys_addEntry (a : Addr) (ns : NS) : ∀ t : Table, (t.map (fun e => e.1)).Nodup →
    ((addEntry t a ns).map (fun e => e.1)).Nodup ∧
    ∀ x, x ∈ (addEntry t a ns).map (fun e => e.1) ↔ x = ns ∨ x ∈ t.map (fun e => e.1)
  | [], _ => by simp [addEntry]
  | e :: t, h => by
    rw [List.map_cons, List.nodup_cons] at h
    obtain ⟨h1, h2⟩ := keys_addEntry a ns t h.2
    unfold addEntry
    by_cases hk : e.1 = ns
    · rw [if_pos hk]
      subst hk
      simp only [List.map_cons, List.nodup_cons, List.mem_cons]
      exact ⟨h, fun x => by tauto⟩
    · rw [if_neg hk]
      simp only [List.map_cons, List.nodup_cons, List.mem_cons]
      refine ⟨⟨fun hm => ((h2 _).1 hm).elim hk h.1, h1⟩, fun x => ?_⟩
      rw [h2]; tauto

theorem lookup_addEntries (a : Addr) (x : NS) : ∀ (l : List NS) (t : Table),
    ((addEntries t a l).lookup x).getD [] = (t.lookup x).getD [] ++ List.replicate (l.count x) a
  | [], t => by simp [addEntries]
  | ns :: l, t => by
    have ih := lookup_addEntries a x l (addEntry t a ns)
    simp only [addEntries, List.foldl_cons] at ih ⊢
    rw [ih, lookup_addEntry]
    by_cases h : x = ns
    · subst h
      simp [List.replicate_succ]
    · have : (ns == x) = false := by simpa using fun h' => h h'.symm
      simp [h, List.count_cons, this]

theorem keys_addEntries (a : Addr) : ∀ (l : List NS) (t : Table), (t.map (fun e => e.1)).Nodup →
    ((addEntries t a l).map (fun e => e.1)).Nodup ∧
    ∀ x, x ∈ (addEntries t a l).map (fun e => e.1) ↔ x ∈ l ∨ x ∈ t.map (fun e => e.1)
  | [], t, h => by simpa [addEntries] using h
  | ns :: l, t, h => by
    obtain ⟨h1, h2⟩ := keys_addEntry a ns t h
    obtain ⟨h3, h4⟩ := keys_addEntries a l (addEntry t a ns) h1
    simp only [addEntries, List.foldl_cons] at h3 h4 ⊢
    refine ⟨h3, fun x => ?_⟩
    rw [h4, h2, List.mem_cons]; tauto

theorem tableOf_aux : ∀ (replies : List (Addr × List NS)) (t : Table), (t.map (fun e => e.1)).Nodup →
    ((replies.foldl (fun t r => addEntries t r.1 r.2) t).map (fun e => e.1)).Nodup ∧
    (∀ ns, ns ∈ (replies.foldl (fun t r => addEntries t r.1 r.2) t).map (fun e => e.1) ↔
      (∃ r ∈ replies, ns ∈ r.2) ∨ ns ∈ t.map (fun e => e.1)) ∧
    ∀ ns, addrsWithNamespace (replies.foldl (fun t r => addEntries t r.1 r.2) t) ns = addrsWithNamespace t ns ++ reporters replies ns
  | [], t, h => by simpa [reporters] using h
  | r :: rs, t, h => by
    obtain ⟨h1, h2⟩ := keys_addEntries r.1 r.2 t h
    obtain ⟨h3, h4, h5⟩ := tableOf_aux rs (addEntries t r.1 r.2) h1
    simp only [List.foldl_cons]
    refine ⟨h3, fun ns => ?_, fun ns => ?_⟩
    · rw [h4, h2]
      simp only [List.mem_cons, exists_eq_or_imp]
      rw [or_left_comm, ← or_assoc]
    · rw [h5]
      unfold addrsWithNamespace reporters
      rw [lookup_addEntries, List.flatMap_cons, List.append_assoc]

/-- C54. Each namespace has one entry; the entries are those of the namespaces that were reported; an entry lists the addresses
that reported its namespace, in order. -/
theorem C54_table (replies : List (Addr × List NS)) :
    ((tableOf replies).map (fun e => e.1)).Nodup ∧
    (∀ ns, ns ∈ (tableOf replies).map (fun e => e.1) ↔ ∃ r ∈ replies, ns ∈ r.2) ∧
    ∀ ns, addrsWithNamespace (tableOf replies) ns = reporters replies ns := by
  obtain ⟨h1, h2, h3⟩ := tableOf_aux replies [] (by simp)
  refine ⟨h1, fun ns => ?_, fun ns => ?_⟩
  · have := h2 ns
    rw [List.map_nil] at this
    exact this.trans (or_iff_left (by simp))
  · have := h3 ns
    rw [show addrsWithNamespace [] ns = [] from rfl, List.nil_append] at this
    exact this

/-- When no node reports a namespace twice, the reporters are the nodes whose reply contains the namespace. -/
theorem reporters_of_nodup {replies : List (Addr × List NS)} (h : ∀ r ∈ replies, r.2.Nodup) (ns : NS) :
    reporters replies ns = (replies.filter (fun r => decide (ns ∈ r.2))).map (fun r => r.1) := by
  induction replies with
  | nil => rfl
  | cons r rs ih =>
    unfold reporters at ih ⊢
    rw [List.flatMap_cons, ih (fun r hr => h r (by simp [hr])), List.filter_cons]
    by_cases hm : ns ∈ r.2
    · rw [List.count_eq_one_of_mem (h r (by simp)) hm]; simp [hm]
    · rw [List.count_eq_zero_of_not_mem hm]; simp [hm]

example : tableOf [(1, [7, 8]), (2, []), (3, [8, 9])] = [(7, [1]), (8, [1, 3]), (9, [3])] ∧
    addrsWithNamespace (tableOf [(1, [7, 8]), (2, []), (3, [8, 9])]) 8 = [1, 3] ∧
    addrsWithNamespace (tableOf [(1, [7, 8]), (2, []), (3, [8, 9])]) 5 = [] := by decide

section
variable {F : Type} [GoFloat F] [LawfulCmp F]

theorem wp_client_namespaces {env : Env} (he : EnvOK env) {D : NS → Nat} {w : World F} (hw : WorldOK D w) (a : Addr) (q : Nat) :
    Go.wp ((Client.namespaces env a : Prog F (List NS)).run w)
      (fun r p' => q ≤ p' ∧ r.2 = w ∧ r.1.Nodup ∧ ((∀ ns, ns ∈ r.1 ↔ ∃ m, w.get a ns = some m) ∨
        r.1 = [] ∧ ∃ q, env.up q a = false ∨ env.back q a = false)) q := by
  unfold Client.namespaces
  rw [run_bind, Go.wp_bind]
  refine Go.wp_mono (wp_call_same (R := fun r => ∃ l, r = some l ∧ l.Nodup ∧ ∀ ns, ns ∈ l ↔ ∃ m, w.get a ns = some m)
    (fun q => ?_) ?_ q) (fun r p' hr => ?_)
  · rw [run_bind, Go.wp_bind]
    refine Go.wp_mono (Go.wp_and (wp_names he hw a q) (wp_names_le he a q)) (fun r p' hr => ?_)
    rw [run_pure, Go.wp_pure]
    exact ⟨hr.2, hr.1.1, r.1, rfl, hr.1.2⟩
  · obtain ⟨r, p', _, h⟩ := Go.wp_iff.1 (wp_names he hw a 0)
    exact ⟨_, r.1, rfl, h.2⟩
  · obtain ⟨h1, h2, val, ⟨l, rfl, h3, h4⟩, h5⟩ := hr
    rw [run_pure, Go.wp_pure]
    refine ⟨h1, h2, ?_⟩
    simp only
    rcases h5 with h5 | ⟨h5, q', h6⟩
    · rw [h5]; exact ⟨h3, .inl h4⟩
    · rw [h5]; exact ⟨by simp, .inr ⟨rfl, q', h6⟩⟩

/-- C54 for a run: nothing is changed, and the table is that of what was heard of the nodes: all their namespaces, or nothing if
the network failed. -/
theorem C54_run {env : Env} (he : EnvOK env) {D : NS → Nat} {w : World F} (hw : WorldOK D w) (remotes : List Addr) (p : Nat) :
    ∃ t replies p', p ≤ p' ∧ (namespaceTable env remotes : Prog F _).run w p = .ok ((t, w), p') ∧ t = tableOf replies ∧
      replies.map (fun r => r.1) = remotes ∧
      ∀ r ∈ replies, r.2.Nodup ∧ ((∀ ns, ns ∈ r.2 ↔ ∃ m, w.get r.1 ns = some m) ∨
        r.2 = [] ∧ ∃ q, env.up q r.1 = false ∨ env.back q r.1 = false) := by
  have one : ∀ a q, Go.wp ((do let l ← Client.namespaces env a; pure (a, l) : Prog F (Addr × List NS)).run w)
      (fun r p' => q ≤ p' ∧ r.2 = w ∧ r.1.1 = a ∧ r.1.2.Nodup ∧ ((∀ ns, ns ∈ r.1.2 ↔ ∃ m, w.get a ns = some m) ∨
        r.1.2 = [] ∧ ∃ q, env.up q a = false ∨ env.back q a = false)) q := by
    intro a q
    rw [run_bind, Go.wp_bind]
    refine Go.wp_mono (wp_client_namespaces he hw a q) (fun r p' hr => ?_)
    rw [run_pure, Go.wp_pure]
    exact ⟨hr.1, hr.2.1, rfl, hr.2.2⟩
  have key : Go.wp ((namespaceTable env remotes : Prog F _).run w) (fun r p' => p ≤ p' ∧ r.2 = w ∧ ∃ replies, r.1 = tableOf replies ∧
      List.Forall₂ (fun a (r : Addr × List NS) => r.1 = a ∧ r.2.Nodup ∧ ((∀ ns, ns ∈ r.2 ↔ ∃ m, w.get a ns = some m) ∨
        r.2 = [] ∧ ∃ q, env.up q a = false ∨ env.back q a = false)) remotes replies) p := by
    unfold namespaceTable
    rw [run_bind, Go.wp_bind]
    refine Go.wp_mono (wp_each_same (R := fun a (r : Addr × List NS) => r.1 = a ∧ r.2.Nodup ∧ ((∀ ns, ns ∈ r.2 ↔ ∃ m, w.get a ns = some m) ∨
        r.2 = [] ∧ ∃ q, env.up q a = false ∨ env.back q a = false)) remotes p (fun a _ q => one a q)) (fun r p' hr => ?_)
    rw [run_pure, Go.wp_pure]
    exact ⟨hr.1, hr.2.1, r.1, rfl, hr.2.2⟩
  obtain ⟨⟨t, w'⟩, p', h1, hp, h2, replies, h3, h4⟩ := Go.wp_iff.1 key
  simp only at h2 h3
  subst h2
  refine ⟨t, replies, p', hp, h1, h3, ?_, fun r hr => ?_⟩
  · clear h3 h1 key
    induction h4 with
    | nil => rfl
    | cons h _ ih => rw [List.map_cons, ih, h.1]
  · clear h3 h1 key
    induction h4 with
    | nil => simp at hr
    | cons h _ ih =>
      rcases List.mem_cons.1 hr with rfl | hr
      · obtain ⟨rfl, h⟩ := h; exact h
      · exact ih hr

end

/-! ### C55 -/

theorem Lens.get_set (a b : Addr) (n : Int) : ∀ m : Lens, (m.set a n).get b = if b = a then n else m.get b
  | [] => by
    by_cases h : b = a
    · subst h; simp [Lens.set, Lens.get]
    · have : (b == a) = false := by simpa using h
      simp [Lens.set, Lens.get, List.lookup_cons, this, h]
  | e :: m => by
    have ih := Lens.get_set a b n m
    obtain ⟨k, l⟩ := e
    unfold Lens.set
    by_cases hk : k = a
    · subst hk
      by_cases h : b = k
      · subst h; simp [Lens.get]
      · have : (b == k) = false := by simpa using h
        simp [Lens.get, List.lookup_cons, this, h]
    · simp only [if_neg hk]
      by_cases hb : b = k
      · subst hb
        simp [Lens.get, hk]
      · have : (b == k) = false := by simpa using hb
        unfold Lens.get at ih ⊢
        rw [List.lookup_cons, List.lookup_cons, this, ih]

theorem sizeAfter_nil (size : Addr → Int) (loc : Addr) : sizeAfter size loc [] = size := by
  funext a; simp [sizeAfter]

theorem sizeAfter_cons (size : Addr → Int) (loc : Addr) (e : Stolen) (log : List Stolen) :
    sizeAfter size loc (e :: log) = sizeAfter (sizeAfter size loc [e]) loc log := by
  funext a
  unfold sizeAfter
  rw [List.filter_cons, List.filter_cons, List.filter_nil]
  by_cases h1 : a = loc <;> by_cases h2 : e.other = a <;>
    simp only [h1, h2, if_true, if_false, decide_true, decide_false, List.map_cons, List.map_nil, List.sum_cons, List.sum_nil, Bool.false_eq_true] <;>
    try split_ifs
  all_goals try simp only [List.map_cons, List.map_nil, List.sum_cons, List.sum_nil]
  all_goals omega

theorem _root_.Trypo.Spec.GoodLog.cons {nRemotes nAddrs : Nat} {loc : Addr} {mean mar : Int} {size : Addr → Int} {nodes : List Addr} {e : Stolen} {log : List Stolen}
    (h : GoodSteal nRemotes nAddrs loc mean mar size e) (hn : e.other ∉ nodes)
    (hl : GoodLog nRemotes nAddrs loc mean mar (sizeAfter size loc [e]) nodes log) :
    GoodLog nRemotes nAddrs loc mean mar size (e.other :: nodes) (e :: log) := by
  refine ⟨fun before e' after heq => ?_, ?_, fun x hx => ?_⟩
  · cases before with
    | nil =>
      cases heq
      rw [sizeAfter_nil]; exact h
    | cons b bs =>
      simp only [List.cons_append, List.cons.injEq] at heq
      obtain ⟨rfl, heq⟩ := heq
      rw [sizeAfter_cons]
      exact hl.each bs e' after heq
  · rw [List.map_cons, List.nodup_cons]
    refine ⟨fun hm => hn ?_, hl.once⟩
    obtain ⟨x, hx, hxe⟩ := List.mem_map.1 hm
    rw [← hxe]; exact hl.known x hx
  · rcases List.mem_cons.1 hx with rfl | hx
    · simp
    · exact List.mem_cons_of_mem _ (hl.known x hx)

theorem _root_.Trypo.Spec.GoodLog.skip {nRemotes nAddrs : Nat} {loc : Addr} {mean mar : Int} {size : Addr → Int} {nodes : List Addr} {log : List Stolen} (a : Addr)
    (hl : GoodLog nRemotes nAddrs loc mean mar size nodes log) : GoodLog nRemotes nAddrs loc mean mar size (a :: nodes) log :=
  ⟨hl.each, hl.once, fun x hx => List.mem_cons_of_mem _ (hl.known x hx)⟩

theorem want_ok {nRemotes nAddrs : Nat} (hr : 0 < nRemotes) (loc : Addr) (mean : Int) {mar : Int} (hm : 0 ≤ mar) (lens : Lens) (other : Addr) :
    want nRemotes nAddrs loc mean mar lens other (lens.get other) = .ok none ∨
    ∃ n, want nRemotes nAddrs loc mean mar lens other (lens.get other) = .ok (some n) ∧
      ∀ got, GoodSteal nRemotes nAddrs loc mean mar lens.get ⟨other, n, got⟩ := by
  unfold want
  split
  · exact .inl rfl
  · rename_i h1
    split
    · exact .inl rfl
    · rename_i h2
      rw [if_neg (by omega)]
      simp only
      split
      · exact .inl rfl
      · rename_i h3
        split
        · exact .inl rfl
        · rename_i h4
          refine .inr ⟨_, rfl, fun got => ?_⟩
          have hd : 0 ≤ mean - lens.get loc := by omega
          rw [Int.tdiv_eq_ediv_of_nonneg hd, Int.tdiv_eq_ediv_of_nonneg (Int.ediv_nonneg hd (by omega))] at h3 h4 ⊢
          have hR : (0 : Int) < nRemotes := by omega
          have hx0 : 0 ≤ (mean - lens.get loc) / (nRemotes : Int) := Int.ediv_nonneg hd (by omega)
          have hx1 : (mean - lens.get loc) / (nRemotes : Int) * nRemotes ≤ mean - lens.get loc := Int.ediv_mul_le _ (by omega)
          refine ⟨fun h => h1 (.inl h.symm), by omega, ?_, ?_, ?_⟩
          · show 0 < (mean - lens.get loc) / (nRemotes : Int) / 3
            omega
          · show 3 * ((nRemotes : Int) * ((mean - lens.get loc) / (nRemotes : Int) / 3)) ≤ mean - lens.get loc
            have h5 : 3 * ((mean - lens.get loc) / (nRemotes : Int) / 3) ≤ (mean - lens.get loc) / (nRemotes : Int) := by omega
            have h6 := Int.mul_le_mul_of_nonneg_right h5 hR.le
            calc _ = 3 * ((mean - lens.get loc) / (nRemotes : Int) / 3) * nRemotes := by ring
              _ ≤ _ := h6.trans hx1
          · show mean + mar ≤ lens.get other - (mean - lens.get loc) / (nRemotes : Int) / 3 ∨ nAddrs = 1
            by_cases h : nAddrs = 1
            · exact .inr h
            · refine .inl (not_lt.1 (fun h5 => h4 ⟨h5, h⟩))

section
variable {F : Type} [GoFloat F]

/-- A run ends with a result that satisfies `Q`, or one of the calls of `steal` panics, in a world that satisfies `I`. -/
def OkOr (I : World F → Prop) (steal : Addr → Int → Prog F Int) {β : Type} (m : Go (β × World F)) (p : Nat) (Q : β → World F → Prop) : Prop :=
  match m p with
  | .ok (r, _) => Q r.1 r.2
  | .error e => ∃ other n w q, I w ∧ (steal other n).run w q = .error e

theorem OkOr.bind {I : World F → Prop} {steal : Addr → Int → Prog F Int} {β γ : Type} {m : Go (β × World F)} {f : β × World F → Go (γ × World F)}
    {p : Nat} {Q : γ → World F → Prop}
    (h : OkOr I steal m p (fun b w => ∀ q, OkOr I steal (f (b, w)) q Q)) : OkOr I steal (m >>= f) p Q := by
  have e : (m >>= f) p = (m p).bind (fun x => f x.1 x.2) := rfl
  unfold OkOr at h ⊢
  rw [e]
  cases hm : m p with
  | error e => rw [hm] at h; exact h
  | ok r => obtain ⟨a, q⟩ := r; rw [hm] at h; exact h q

theorem OkOr.mono {I : World F → Prop} {steal : Addr → Int → Prog F Int} {β : Type} {m : Go (β × World F)} {p : Nat} {Q R : β → World F → Prop}
    (h : OkOr I steal m p Q) (hqr : ∀ b w, Q b w → R b w) : OkOr I steal m p R := by
  unfold OkOr at h ⊢
  revert h
  cases m p with
  | error e => exact id
  | ok r => exact hqr _ _

theorem OkOr.pure {I : World F → Prop} {steal : Addr → Int → Prog F Int} {β : Type} {a : β} {w : World F} {p : Nat} {Q : β → World F → Prop}
    (h : Q a w) : OkOr I steal (pure (a, w) : Go (β × World F)) p Q := h

theorem OkOr.lift {I : World F → Prop} {steal : Addr → Int → Prog F Int} {β : Type} {x : Except Panic β} {a : β} {w : World F} {p : Nat}
    {Q : β → World F → Prop} (hx : x = .ok a) (h : Q a w) : OkOr I steal ((Prog.loc (Go.lift x) : Prog F β).run w) p Q := by
  subst hx
  rw [run_loc]; exact h

theorem balanceLoop_ok {I : World F → Prop} {steal : Addr → Int → Prog F Int}
    (hI : ∀ other n w q r q', I w → (steal other n).run w q = .ok (r, q') → I r.2)
    {nRemotes nAddrs : Nat} (hr : 0 < nRemotes) {loc : Addr} {mean mar : Int} (hm : 0 ≤ mar) :
    ∀ (keys : List Addr) (lens : Lens) (w : World F) (p : Nat), keys.Nodup → I w →
    OkOr I steal ((balanceLoop steal nRemotes nAddrs loc mean mar keys lens).run w) p
      (fun log w' => GoodLog nRemotes nAddrs loc mean mar lens.get keys log ∧ I w')
  | [], lens, w, p, _, hi => by
    unfold balanceLoop
    rw [run_pure]
    exact OkOr.pure ⟨⟨by simp, by simp, by simp⟩, hi⟩
  | other :: rest, lens, w, p, hn, hi => by
    rw [List.nodup_cons] at hn
    unfold balanceLoop
    rw [run_bind]
    refine OkOr.bind ?_
    rcases want_ok hr loc mean hm lens other with h | ⟨n, h, hg⟩
    · refine OkOr.lift h (fun q => ?_)
      exact (balanceLoop_ok hI hr hm rest lens w q hn.2 hi).mono (fun log w' hx => ⟨hx.1.skip other, hx.2⟩)
    · refine OkOr.lift h (fun q => ?_)
      simp only
      rw [run_bind]
      refine OkOr.bind ?_
      have hs : OkOr I steal ((steal other n).run w) q (fun _ w' => I w') := by
        unfold OkOr
        cases hx : (steal other n).run w q with
        | error e => exact ⟨other, n, w, q, hi, hx⟩
        | ok r => exact hI other n w q r.1 r.2 hi hx
      refine hs.mono (fun got w1 hi1 q2 => ?_)
      rw [run_bind]
      refine OkOr.bind ?_
      generalize hl2 : Lens.set (Lens.set lens loc (lens.get loc + got)) other ((Lens.set lens loc (lens.get loc + got)).get other - got) = lens2
      have hget : lens2.get = sizeAfter lens.get loc [⟨other, n, got⟩] := by
        have hne : other ≠ loc := (hg got).notSelf
        funext a
        rw [← hl2, Lens.get_set, Lens.get_set, Lens.get_set, if_neg hne]
        unfold sizeAfter
        by_cases h1 : a = other
        · subst h1; simp [hne]
        · have h2 : other ≠ a := fun h => h1 h.symm
          rw [if_neg h1]
          by_cases h3 : a = loc
          · subst h3; simp [hne]
          · simp [h2, h3]
      refine (balanceLoop_ok hI hr hm rest lens2 w1 q2 hn.2 hi1).mono (fun log w' hx q3 => ?_)
      rw [run_pure]
      rw [hget] at hx
      exact OkOr.pure ⟨hx.1.cons (hg got) hn.1, hx.2⟩

theorem total_eq (m : Lens) : total m = (m.map (fun e => e.2)).sum := by
  have : ∀ (l : Lens) (s : Int), l.foldl (fun s e => s + e.2) s = s + (l.map (fun e => e.2)).sum := by
    intro l
    induction l with
    | nil => simp
    | cons e l ih => intro s; rw [List.foldl_cons, ih, List.map_cons, List.sum_cons]; omega
  unfold total
  rw [this]; omega

theorem sum_nonneg {l : List Int} (h : ∀ x ∈ l, 0 ≤ x) : 0 ≤ l.sum := by
  induction l with
  | nil => simp
  | cons x l ih =>
    have h1 := h x (by simp)
    have h2 := ih (fun y hy => h y (by simp [hy]))
    rw [List.sum_cons]; omega

theorem average_nonneg {lens : Lens} (h : ∀ e ∈ lens, 0 ≤ e.2) : 0 ≤ average (lens.map (fun e => e.2)) := by
  refine Int.ediv_nonneg (sum_nonneg (fun x hx => ?_)) (by omega)
  obtain ⟨e, he, rfl⟩ := List.mem_map.1 hx
  exact h e he

theorem meanOf_ok {lens : Lens} (hne : lens ≠ []) (h : ∀ e ∈ lens, 0 ≤ e.2) : meanOf lens = .ok (average (lens.map (fun e => e.2))) := by
  unfold meanOf average
  have : lens.length ≠ 0 := by simpa using hne
  rw [if_neg this, Int.tdiv_eq_ediv_of_nonneg, total_eq, List.length_map]
  rw [total_eq]
  refine sum_nonneg (fun x hx => ?_)
  obtain ⟨e, he, rfl⟩ := List.mem_map.1 hx
  exact h e he

theorem balance_ok {I : World F → Prop} {steal : Addr → Int → Prog F Int}
    (hI : ∀ other n w q r q', I w → (steal other n).run w q = .ok (r, q') → I r.2) {env : Env} (he : EnvOK env)
    {nRemotes : Nat} (hr : 0 < nRemotes) (nAddrs : Nat) (loc : Addr) {lens : Lens} (hne : lens ≠ []) (hk : (lens.map (fun e => e.1)).Nodup)
    (hpos : ∀ e ∈ lens, 0 ≤ e.2) (w : World F) (p : Nat) (hi : I w) :
    OkOr I steal ((balance env steal nRemotes nAddrs loc lens).run w) p
      (fun log w' => GoodLog nRemotes nAddrs loc (average (lens.map (fun e => e.2))) (margin (average (lens.map (fun e => e.2))))
        lens.get (lens.map (fun e => e.1)) log ∧ I w') := by
  unfold balance
  rw [run_bind]
  refine OkOr.bind (OkOr.lift (meanOf_ok hne hpos) (fun q => ?_))
  rw [run_bind]
  refine OkOr.bind ?_
  have hsh : OkOr I steal ((Prog.loc (env.shuffled (lens.map (fun e => e.1))) : Prog F _).run w) q
      (fun keys w' => keys.Perm (lens.map (fun e => e.1)) ∧ w' = w) := by
    rw [run_loc]
    have := wp_shuffled (l := lens.map (fun e => e.1)) (p := q) (Q := fun l _ => l.Perm (lens.map (fun e => e.1))) he (fun l' h => h)
    unfold Go.wp at this
    have e : ((env.shuffled (lens.map (fun e => e.1)) >>= fun r => Pure.pure (r, w)) : Go (List Addr × World F)) q =
      (env.shuffled (lens.map (fun e => e.1)) q).bind (fun x => .ok ((x.1, w), x.2)) := rfl
    unfold OkOr
    rw [e]
    revert this
    cases env.shuffled (lens.map (fun e => e.1)) q with
    | error e => exact False.elim
    | ok r => exact fun h => ⟨h, rfl⟩
  refine hsh.mono (fun keys w' hx q2 => ?_)
  obtain ⟨hp, rfl⟩ := hx
  refine (balanceLoop_ok hI hr (margin_nonneg (average_nonneg hpos)) keys lens w' q2 (hp.nodup_iff.2 hk) hi).mono (fun log w2 hx => ?_)
  exact ⟨⟨hx.1.each, hx.1.once, fun e he => hp.subset (hx.1.known e he)⟩, hx.2⟩

/-- C55. Whatever the sizes of the nodes, the order of the map and the outcomes of the transfers are, all transfers are in
order; there is no panic unless a transfer panics. The margin is two fifths of the average, see `C55_margin`. -/
theorem C55_balance {env : Env} (he : EnvOK env) (steal : Addr → Int → Prog F Int) {nRemotes : Nat} (hr : 0 < nRemotes) (nAddrs : Nat)
    (loc : Addr) {lens : Lens} (hne : lens ≠ []) (hk : (lens.map (fun e => e.1)).Nodup) (hpos : ∀ e ∈ lens, 0 ≤ e.2) (w : World F) (p : Nat) :
    (∃ log w' p', (balance env steal nRemotes nAddrs loc lens).run w p = .ok ((log, w'), p') ∧
      GoodLog nRemotes nAddrs loc (average (lens.map (fun e => e.2))) (margin (average (lens.map (fun e => e.2))))
        lens.get (lens.map (fun e => e.1)) log) ∨
    ∃ e other n w' q, (balance env steal nRemotes nAddrs loc lens).run w p = .error e ∧ (steal other n).run w' q = .error e := by
  have h := balance_ok (I := fun _ => True) (steal := steal) (fun _ _ _ _ _ _ _ _ => trivial) he hr nAddrs loc hne hk hpos w p trivial
  unfold OkOr at h
  revert h
  cases hx : (balance env steal nRemotes nAddrs loc lens).run w p with
  | error e =>
    rintro ⟨other, n, w', q, _, h⟩
    exact .inr ⟨e, other, n, w', q, rfl, h⟩
  | ok r =>
    obtain ⟨⟨log, w'⟩, p'⟩ := r
    exact fun h => .inl ⟨log, w', p', rfl, h.1⟩

/-- C55. The margin is two fifths of the average, rounded down: the floats of the computation are exact enough. -/
theorem C55_margin {mean : Int} (h0 : 0 ≤ mean) (h1 : mean < 2 ^ 50) : margin mean = 2 * mean / 5 := margin_eq h0 h1

end

section
variable {F : Type} [GoFloat F] [LawfulCmp F]

theorem wp_client_steal {env : Env} (he : EnvOK env) {fac : Factory F} (hf : FactoryOK fac) {D : NS → Nat} (fuel : Nat) (a : Addr) (ns : NS)
    (src : Addr) (limit : Int) {w : World F} (hw : WorldOK D w) (p : Nat) :
    Go.wp ((Client.stealCentroids env fac fuel a ns src limit).run w) (fun r p' => p ≤ p' ∧ WorldOK D r.2) p := by
  have hs : Safe ⟨env, D, ns, fun _ _ => True, fun _ => True, True, fun _ => True⟩ (Client.stealCentroids env fac fuel a ns src limit) (view w) [] []
      (fun _ _ _ _ => True) := by
    unfold Client.stealCentroids
    refine safe_bind (safe_call (c := ⟨env, D, ns, fun _ _ => True, fun _ => True, True, fun _ => True⟩) (fun L' hL' => safe_pure trivial) (fun _ L' hL' => ?_))
    refine safe_bind (safe_stealCentroid (c := ⟨env, D, ns, fun _ _ => True, fun _ => True, True, fun _ => True⟩) he hf (.inl (fun _ _ _ => trivial))
      (fun _ => trivial) (fun r L'' Y _ _ => ?_))
    exact safe_pure ⟨fun _ _ => safe_pure trivial, fun _ => ⟨[], [], by simp, by simp, by simp, fun _ _ => safe_pure trivial⟩⟩
  refine Go.wp_mono (run_of_safe he.clock (fun _ _ _ => trivial) _ _ _ _ w p hs ⟨hw, trivial⟩ (.refl _) (fun _ _ => trivial)) (fun r p' hr => ?_)
  obtain ⟨_, _, _, _, _, _, _, h1, h2, _⟩ := hr
  exact ⟨h2, h1.ok⟩

theorem fold_lens : ∀ (l : List (Addr × Nat)) (m : Lens), (m.map (fun e => e.1)).Nodup →
    ((l.foldl (fun m q => Lens.set m q.1 (q.2 : Int)) m).map (fun e => e.1)).Nodup ∧
    (∀ a, a ∈ (l.foldl (fun m q => Lens.set m q.1 (q.2 : Int)) m).map (fun e => e.1) ↔ a ∈ l.map (fun q => q.1) ∨ a ∈ m.map (fun e => e.1)) ∧
    ∀ e ∈ l.foldl (fun m q => Lens.set m q.1 (q.2 : Int)) m, (∃ q ∈ l, e = (q.1, (q.2 : Int))) ∨ e ∈ m := by
  have keys : ∀ (m : Lens) (a : Addr) (n : Int), (m.map (fun e => e.1)).Nodup → ((m.set a n).map (fun e => e.1)).Nodup ∧
      (∀ x, x ∈ (m.set a n).map (fun e => e.1) ↔ x = a ∨ x ∈ m.map (fun e => e.1)) ∧ ∀ e ∈ m.set a n, e = (a, n) ∨ e ∈ m := by
    intro m a n
    induction m with
    | nil => intro _; simp [Lens.set]
    | cons e m ih =>
      intro h
      rw [List.map_cons, List.nodup_cons] at h
      obtain ⟨h1, h2, h3⟩ := ih h.2
      unfold Lens.set
      by_cases hk : e.1 = a
      · rw [if_pos hk]
        subst hk
        simp only [List.map_cons, List.nodup_cons, List.mem_cons]
        exact ⟨h, fun x => by tauto, fun x hx => by tauto⟩
      · rw [if_neg hk]
        simp only [List.map_cons, List.nodup_cons, List.mem_cons]
        refine ⟨⟨fun hm => ((h2 _).1 hm).elim hk h.1, h1⟩, fun x => ?_, fun x hx => ?_⟩
        · rw [h2]; tauto
        · rcases hx with hx | hx
          · exact .inr (.inl hx)
          · rcases h3 x hx with h | h
            · exact .inl h
            · exact .inr (.inr h)
  intro l
  induction l with
  | nil => intro m h; exact ⟨h, by simp, fun e he => .inr he⟩
  | cons q l ih =>
    intro m h
    obtain ⟨h1, h2, h3⟩ := keys m q.1 q.2 h
    obtain ⟨h4, h5, h6⟩ := ih (m.set q.1 q.2) h1
    simp only [List.foldl_cons]
    refine ⟨h4, fun a => ?_, fun e he => ?_⟩
    · rw [h5, h2, List.map_cons, List.mem_cons, or_left_comm, ← or_assoc]
    · rcases h6 e he with ⟨q', hq, rfl⟩ | h
      · exact .inl ⟨q', by simp [hq], rfl⟩
      · rcases h3 e h with rfl | h
        · exact .inl ⟨q, by simp, rfl⟩
        · exact .inr h

theorem wp_client_len {env : Env} {D : NS → Nat} {w : World F} (hw : WorldOK D w) (a : Addr) (ns : NS) (p : Nat) :
    Go.wp ((Client.lenDP env a ns : Prog F _).run w) (fun r p' => p ≤ p' ∧ r.2 = w ∧ (r.1 = (storedAt w [a] ns).length ∨
      r.1 = 0 ∧ ∃ q, env.up q a = false ∨ env.back q a = false)) p := by
  unfold Client.lenDP
  rw [run_bind, Go.wp_bind]
  refine Go.wp_mono (wp_call_same (R := fun r => r.getD 0 = (storedAt w [a] ns).length) (fun q => ?_) ⟨some _, rfl⟩ p) (fun r p' hr => ?_)
  · unfold Server.lenDP
    cases hg : w.get a ns with
    | none =>
      rw [run_access_none ((get_eq_none_iff hw).1 hg), Go.wp_pure]
      exact ⟨Nat.le_refl _, rfl, by simp [storedAt, hg]⟩
    | some m =>
      obtain ⟨i, hl, hi⟩ := lookup_of_get hw hg
      rw [run_access_some hl hi, pure_bind, Go.wp_pure]
      refine ⟨Nat.le_refl _, put_same hi, ?_⟩
      simp [storedAt, hg, stored, Manager.lenDP, Centroid.lenDP, List.length_flatMap]
  · obtain ⟨h1, h2, val, h3, h4⟩ := hr
    rw [run_pure, Go.wp_pure]
    refine ⟨h1, h2, ?_⟩
    rcases h4 with h4 | ⟨h4, h5⟩
    · rw [h4]; exact .inl h3
    · rw [h4]; exact .inr ⟨rfl, h5⟩

/-- The sizes are those of the nodes; a node from which nothing is heard counts as empty. -/
theorem wp_fetchLens {env : Env} (he : EnvOK env) {D : NS → Nat} {w : World F} (hw : WorldOK D w) (addrs : List Addr) (ns : NS) (p : Nat) :
    Go.wp ((fetchLens env addrs ns : Prog F _).run w) (fun r p' => p ≤ p' ∧ r.2 = w ∧ (r.1.map (fun e => e.1)).Nodup ∧
      (∀ a, a ∈ r.1.map (fun e => e.1) ↔ a ∈ addrs) ∧ ∀ e ∈ r.1, e.2 = ((storedAt w [e.1] ns).length : Int) ∨
        e.2 = 0 ∧ ∃ q, env.up q e.1 = false ∨ env.back q e.1 = false) p := by
  unfold fetchLens
  rw [run_bind, Go.wp_bind, run_loc, Go.wp_bind]
  refine wp_shuffled he (fun started hst => ?_)
  rw [Go.wp_pure, run_bind, Go.wp_bind]
  refine Go.wp_mono (wp_each_same (R := fun a (q : Addr × Nat) => q.1 = a ∧ (q.2 = (storedAt w [a] ns).length ∨
    q.2 = 0 ∧ ∃ q, env.up q a = false ∨ env.back q a = false)) started (p + 1) (fun a _ q => ?_)) (fun r p1 hr => ?_)
  · rw [run_bind, Go.wp_bind]
    refine Go.wp_mono (wp_client_len hw a ns q) (fun r p' hr => ?_)
    rw [run_pure, Go.wp_pure]
    exact ⟨hr.1, hr.2.1, rfl, hr.2.2⟩
  · obtain ⟨⟨answers, w1⟩, hx⟩ : ∃ x, x = r := ⟨r, rfl⟩
    subst hx
    obtain ⟨h1, h2, h3⟩ := hr
    simp only at h1 h2 h3 ⊢
    have hmap : answers.map (fun q => q.1) = started := by
      clear hst
      induction h3 with
      | nil => rfl
      | cons h _ ih => rw [List.map_cons, ih, h.1]
    have hall : ∀ q ∈ answers, q.2 = (storedAt w [q.1] ns).length ∨ q.2 = 0 ∧ ∃ x, env.up x q.1 = false ∨ env.back x q.1 = false := by
      clear hst hmap
      induction h3 with
      | nil => simp
      | cons h _ ih =>
        intro q hq
        rcases List.mem_cons.1 hq with rfl | hq
        · obtain ⟨rfl, h⟩ := h; exact h
        · exact ih q hq
    rw [run_bind, Go.wp_bind, run_loc, Go.wp_bind]
    refine wp_shuffled he (fun arrived har => ?_)
    rw [Go.wp_pure, run_pure, Go.wp_pure]
    obtain ⟨g1, g2, g3⟩ := fold_lens arrived [] (by simp)
    refine ⟨by omega, h2, g1, fun a => ?_, fun e he => ?_⟩
    · rw [g2]
      have : a ∈ arrived.map (fun q => q.1) ↔ a ∈ addrs := by
        rw [(har.map _).mem_iff, hmap, hst.mem_iff]
      simpa using this
    · rcases g3 e he with ⟨q, hq, rfl⟩ | h
      · rcases hall q (har.subset hq) with h | ⟨h, h'⟩
        · exact .inl (by simp [h])
        · exact .inr ⟨by simp [h], h'⟩
      · simp at h

/-- C55 for a run of the task on one namespace: it never crashes; it goes by the sizes of the nodes that have the namespace,
where a node from which nothing is heard counts as empty; all transfers are in order. -/
theorem C55_run {env : Env} (he : EnvOK env) {fac : Factory F} (hf : FactoryOK fac) {D : NS → Nat} {w : World F} (hw : WorldOK D w)
    (fuel : Nat) (loc : Addr) {remotes : List Addr} (hr : remotes ≠ []) {t : Table} {ns : NS} (hns : addrsWithNamespace t ns ≠ []) (p : Nat) :
    ∃ lens log w' p', (balanceNamespace env fac fuel loc remotes t ns).run w p = .ok (((lens, log), w'), p') ∧ WorldOK D w' ∧
      (lens.map (fun e => e.1)).Nodup ∧ (∀ a, a ∈ lens.map (fun e => e.1) ↔ a ∈ addrsWithNamespace t ns) ∧
      (∀ e ∈ lens, e.2 = ((storedAt w [e.1] ns).length : Int) ∨ e.2 = 0 ∧ ∃ q, env.up q e.1 = false ∨ env.back q e.1 = false) ∧
      GoodLog remotes.length (addrsWithNamespace t ns).length loc (average (lens.map (fun e => e.2)))
        (margin (average (lens.map (fun e => e.2)))) lens.get (addrsWithNamespace t ns) log := by
  have key : Go.wp ((balanceNamespace env fac fuel loc remotes t ns).run w) (fun r p' => WorldOK D r.2 ∧
      (r.1.1.map (fun e => e.1)).Nodup ∧ (∀ a, a ∈ r.1.1.map (fun e => e.1) ↔ a ∈ addrsWithNamespace t ns) ∧
      (∀ e ∈ r.1.1, e.2 = ((storedAt w [e.1] ns).length : Int) ∨ e.2 = 0 ∧ ∃ q, env.up q e.1 = false ∨ env.back q e.1 = false) ∧
      GoodLog remotes.length (addrsWithNamespace t ns).length loc (average (r.1.1.map (fun e => e.2)))
        (margin (average (r.1.1.map (fun e => e.2)))) (Lens.get r.1.1) (addrsWithNamespace t ns) r.1.2) p := by
    unfold balanceNamespace
    rw [run_bind, Go.wp_bind]
    refine Go.wp_mono (wp_fetchLens he hw (addrsWithNamespace t ns) ns p) (fun r p1 hr1 => ?_)
    obtain ⟨⟨lens, w1⟩, h1⟩ : ∃ x, x = r := ⟨r, rfl⟩
    subst h1
    obtain ⟨_, h2, h3, h4, h5⟩ := hr1
    simp only at h2 h3 h4 h5 ⊢
    subst h2
    rw [run_bind, Go.wp_bind]
    have hne : lens ≠ [] := by
      rintro rfl
      obtain ⟨a, ha⟩ := List.exists_mem_of_ne_nil _ hns
      have := (h4 a).2 ha
      simp at this
    have hpos : ∀ e ∈ lens, 0 ≤ e.2 := by
      intro e he
      rcases h5 e he with h | ⟨h, _⟩ <;> omega
    have hst : ∀ other n w2 q, WorldOK D w2 → Go.wp ((do
        let r ← Client.stealCentroids env fac fuel loc ns other n
        pure (r.1 : Int) : Prog F Int).run w2) (fun r _ => WorldOK D r.2) q := by
      intro other n w2 q hw2
      rw [run_bind, Go.wp_bind]
      refine Go.wp_mono (wp_client_steal he hf fuel loc ns other n hw2 q) (fun r p' hr => ?_)
      rw [run_pure, Go.wp_pure]; exact hr.2
    have hb := balance_ok (I := WorldOK D) (steal := fun other n => do
        let r ← Client.stealCentroids env fac fuel loc ns other n
        pure (r.1 : Int)) (fun other n w2 q r q' hw2 hrun => Go.wp_of_run hrun (hst other n w2 q hw2)) he
      (nRemotes := remotes.length) (List.length_pos_iff.2 hr) (addrsWithNamespace t ns).length loc hne h3 hpos w1 p1 hw
    unfold OkOr at hb
    unfold Go.wp
    revert hb
    cases (balance env (fun other n => do
        let r ← Client.stealCentroids env fac fuel loc ns other n
        pure (r.1 : Int)) remotes.length (addrsWithNamespace t ns).length loc lens).run w1 p1 with
    | error e =>
      rintro ⟨other, n, w2, q, hw2, h⟩
      have := hst other n w2 q hw2
      unfold Go.wp at this
      rw [h] at this
      exact this
    | ok r =>
      rintro ⟨g1, g2⟩
      refine ⟨g2, h3, h4, h5, g1.each, g1.once, fun e he => (h4 _).1 (g1.known e he)⟩
  obtain ⟨⟨⟨lens, log⟩, w'⟩, p', h1, h2⟩ := Go.wp_iff.1 key
  exact ⟨lens, log, w', p', h1, h2⟩

end

namespace BalanceExample
open ServerExample

/-- The transfers of a run. -/
def logOf (r : Except Panic ((List Stolen × World F64) × Nat)) : Option (List Stolen) :=
  match r with
  | .ok r => some r.1.1
  | .error _ => none

/-- A transfer of exactly what was asked. -/
def exact (_ : Addr) (n : Int) : Prog F64 Int := pure n

end BalanceExample
open ServerExample BalanceExample

/-- C55: the average is 30, the margin 12. Node 1 has nothing; it asks node 3, where it stays above 42, and not node 2. -/
example : logOf ((balance env exact 2 3 1 [(1, 0), (2, 10), (3, 80)]).run start 0) = some [⟨3, 5, 5⟩] := by decide +kernel
/-- C55: node 2 is not below the margin. -/
example : logOf ((balance env exact 2 3 2 [(1, 0), (2, 20), (3, 70)]).run start 0) = some [] := by decide +kernel
/-- C55: the only node that has the namespace is asked. -/
example : logOf ((balance env exact 2 1 1 [(3, 60)]).run start 0) = some [⟨3, 10, 10⟩] := by decide +kernel
/-- C55: two nodes are asked, the second one given what the first one sent. -/
example : logOf ((balance env exact 3 4 1 [(1, 0), (2, 0), (3, 100), (4, 100)]).run start 0) = some [⟨3, 5, 5⟩, ⟨4, 5, 5⟩] := by decide +kernel
/-- C55: the same when more than the whole deficit arrives at once: the second node is left alone. -/
example : logOf ((balance env (fun _ n => pure (10 * n)) 3 4 1 [(1, 0), (2, 0), (3, 100), (4, 100)]).run start 0) = some [⟨3, 5, 50⟩] := by decide +kernel
/-- C55: without a node in the table there would be a division by zero. -/
example : logOf ((balance env exact 2 0 1 []).run start 0) = none := by decide +kernel

/-- C55: the run of the task on namespace 7 of the two example nodes. -/
example : ∃ lens log w' p', (balanceNamespace env fac 9 1 [1, 2] [(7, [1, 2])] 7).run two 0 = .ok (((lens, log), w'), p') ∧
    GoodLog 2 2 1 (average (lens.map (fun e => e.2))) (margin (average (lens.map (fun e => e.2)))) lens.get [1, 2] log := by
  obtain ⟨lens, log, w', p', h1, _, _, _, _, h6⟩ := C55_run env_ok fac_ok two_ok 9 1 (remotes := [1, 2]) (by decide)
    (t := [(7, [1, 2])]) (ns := 7) (by decide) 0
  exact ⟨lens, log, w', p', h1, h6⟩

example : margin 99 = 39 := C55_margin (by decide) (by decide)

end Trypo
