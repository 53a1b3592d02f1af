import Verif.Spec.Logger
import Verif.Props.Jobs

/-!
# Property C90: what the default logger prints
-/

namespace Trypo
open GoFloat Spec EventLoop

variable {F : Type} [GoFloat F]

/-- C90. Before the first `LogMeta`, and whenever that brought nothing, the task is printed with the local address. -/
theorem C90_before {T : Type} (cfg : Config) (s : T) : (Logger.new cfg).logTask s = [⟨cfg.loc, none, some s⟩] := rfl

theorem addUp_eq (f : Nat × Nat → Nat) (m : List (NS × Nat × Nat)) : addUp f m = (m.map (fun e => f e.2)).sum := by
  have key : ∀ (m : List (NS × Nat × Nat)) n, m.foldl (fun n e => n + f e.2) n = n + (m.map (fun e => f e.2)).sum := by
    intro m
    induction m with
    | nil => simp
    | cons e m ih => intro n; simp [ih, Nat.add_assoc]
  simp [addUp, key]

omit [GoFloat F] in
/-- The entries of a node's `Meta` in terms of its managers. -/
theorem totals_of_meta [GoFloat F] {w : World F} {a : Addr} : ∀ (m : List (NS × Nat × Nat)), (m.map (fun x => x.1)).Nodup →
    (∀ e ∈ m, ∃ mg, w.get a e.1 = some mg ∧ e.2.1 = mg.centroids.length ∧ e.2.2 = (stored mg).length) →
    ∃ l : List (NS × Manager F), l.map (fun e => e.1) = m.map (fun e => e.1) ∧ (∀ e ∈ l, w.get a e.1 = some e.2) ∧
      l.map (fun e => e.2.centroids.length) = m.map (fun e => e.2.1) ∧ l.map (fun e => (stored e.2).length) = m.map (fun e => e.2.2)
  | [], _, _ => ⟨[], rfl, by simp, rfl, rfl⟩
  | e :: m, hn, h => by
    obtain ⟨mg, h1, h2, h3⟩ := h e (by simp)
    obtain ⟨l, g1, g2, g3, g4⟩ := totals_of_meta m (List.nodup_cons.1 hn).2 (fun x hx => h x (by simp [hx]))
    refine ⟨(e.1, mg) :: l, by simp [g1], fun x hx => ?_, by simp [g3, h2], by simp [g4, h3]⟩
    rcases List.mem_cons.1 hx with rfl | hx
    · exact h1
    · exact g2 x hx

/-- The totals printed from `Meta`. -/
theorem totals_meta {env : Env} {w : World F} {a : Addr} {e : Addr × List (NS × Nat × Nat)} (h : MetaOf env w a e) :
    TotalsOf w a (e.2.length, addUp (fun q => q.1) e.2, addUp (fun q => q.2) e.2) ∨
      (e.2.length, addUp (fun q => q.1) e.2, addUp (fun q => q.2) e.2) = (0, 0, 0) ∧ ¬ Reachable env a := by
  obtain ⟨_, hn, h | ⟨h, hr⟩⟩ := h
  · left
    obtain ⟨l, g1, g2, g3, g4⟩ := totals_of_meta (w := w) (a := a) e.2 hn (fun x hx => by
      obtain ⟨mg, h1, h2, h3⟩ := (h x.1 x.2.1 x.2.2).1 hx
      exact ⟨mg, h1, h2, h3⟩)
    refine ⟨l, by rw [g1]; exact hn, fun ns mg => ⟨fun hm => g2 _ hm, fun hm => ?_⟩, ?_⟩
    · have h1 := (h ns _ _).2 ⟨mg, hm, rfl, rfl⟩
      have h2 : ns ∈ l.map (fun e => e.1) := by rw [g1]; exact List.mem_map.2 ⟨_, h1, rfl⟩
      obtain ⟨x, hx, rfl⟩ := List.mem_map.1 h2
      have h3 := g2 x hx
      rw [hm] at h3
      cases h3
      exact hx
    · rw [addUp_eq, addUp_eq, g3, g4, ← List.length_map (f := fun e : NS × Nat × Nat => e.1) (as := e.2), ← g1, List.length_map]
  · right
    rw [h]
    exact ⟨rfl, hr⟩

/-- The entry for an address in the map that was filled in the order of `as`. -/
theorem item_forall {R : Addr → Addr × List (NS × Nat × Nat) → Prop} (hR : ∀ a e, R a e → e.1 = a) {as : List Addr}
    {l : List (Addr × List (NS × Nat × Nat))} (h : List.Forall₂ R as l) {a : Addr} (ha : a ∈ as) (lg : Logger) (hl : lg.items = l) :
    ∃ e, R a e ∧ lg.item a = e.2 := by
  unfold Logger.item
  rw [hl]
  cases hf : l.reverse.find? (fun e => e.1 = a) with
  | some e =>
    have h1 := List.find?_some hf
    have h2 := List.mem_of_find?_eq_some hf
    rw [List.mem_reverse] at h2
    obtain ⟨i, hi, he⟩ := List.getElem_of_mem h2
    have hlen := h.length_eq
    have := (List.forall₂_iff_get.1 h).2 i (by omega) hi
    simp only [List.get_eq_getElem] at this
    rw [he] at this
    simp only [decide_eq_true_eq] at h1
    have h3 := hR _ _ this
    rw [h1] at h3
    rw [← h3] at this
    exact ⟨e, this, rfl⟩
  | none =>
    exfalso
    obtain ⟨i, hi, he⟩ := List.getElem_of_mem ha
    have hlen := h.length_eq
    have := (List.forall₂_iff_get.1 h).2 i hi (by omega)
    simp only [List.get_eq_getElem] at this
    have h3 := hR _ _ this
    have := List.find?_eq_none.1 hf (l[i]'(by omega)) (by simp)
    simp only [decide_eq_true_eq] at this
    exact this (by rw [h3, he])

/-- The lines, whatever is known of the entries. -/
theorem lines_forall {T : Type} {P : Addr → Nat × Nat × Nat → Prop} (lg : Logger) (s : T) (hne : lg.items ≠ []) :
    ∀ as : List Addr, (∀ a ∈ as, P a ((lg.item a).length, addUp (fun q => q.1) (lg.item a), addUp (fun q => q.2) (lg.item a))) →
    List.Forall₂ (StatusLine lg.localAddr s P) as (as.map (fun a =>
      (⟨a, some ((lg.item a).length, addUp (fun q => q.1) (lg.item a), addUp (fun q => q.2) (lg.item a)),
        if a = lg.localAddr then some s else none⟩ : Line T)))
  | [], _ => .nil
  | a :: as, h => .cons ⟨rfl, ⟨_, rfl, h a (by simp)⟩, rfl⟩ (lines_forall lg s hne as (fun b hb => h b (by simp [hb])))

/-- C90, what holds. With the local address among `RemoteAddrs` (once, if only it is shown), after the Meta task has logged what it
found, `LogTask(s)` prints a line for each node that is shown, in the order of the configuration: with the numbers of its
namespaces, centroids and datapoints, or with zeros if the node could not be reached, and with the task at the local node. -/
theorem C90_partial [LawfulCmp F] {T : Type} {env : Env} (he : EnvOK env) (fac : Factory F) (fuel : Nat) {D : NS → Nat} {w : World F} (hw : WorldOK D w)
    (cfg : Config) (hloc : cfg.loc ∈ cfg.remotes) (hone : cfg.logLocalOnly = true → cfg.remotes.count cfg.loc = 1) (s : T) (p : Nat) :
    ∃ l p', (task env fac fuel cfg .getMeta).run w p = .ok ((.gathered l, w), p') ∧
      List.Forall₂ (StatusLine cfg.loc s (fun a t => TotalsOf w a t ∨ t = (0, 0, 0) ∧ ¬ Reachable env a)) (shown cfg)
        (((Logger.new cfg).logMeta l).logTask s) := by
  obtain ⟨l, p', h1, h2⟩ := C63_meta he fac fuel hw cfg p
  refine ⟨l, p', h1, ?_⟩
  have hsh : (if cfg.logLocalOnly then [cfg.loc] else cfg.remotes) = shown cfg := rfl
  rw [hsh] at h2
  have hpos : shown cfg ≠ [] := by
    unfold shown
    split
    · simp
    · exact List.ne_nil_of_mem hloc
  have hne : l ≠ [] := by
    intro h
    have := h2.length_eq
    rw [h] at this
    exact hpos (List.eq_nil_of_length_eq_zero (by simpa using this))
  have hP : ∀ a ∈ shown cfg, (fun a t => TotalsOf w a t ∨ t = (0, 0, 0) ∧ ¬ Reachable env a) a
      ((((Logger.new cfg).logMeta l).item a).length, addUp (fun q => q.1) (((Logger.new cfg).logMeta l).item a),
        addUp (fun q => q.2) (((Logger.new cfg).logMeta l).item a)) := by
    intro a ha
    obtain ⟨e, g1, g2⟩ := item_forall (R := MetaOf env w) (fun a e h => h.1) h2 ha ((Logger.new cfg).logMeta l) rfl
    rw [g2]
    exact totals_meta g1
  have key := lines_forall (P := fun a t => TotalsOf w a t ∨ t = (0, 0, 0) ∧ ¬ Reachable env a) ((Logger.new cfg).logMeta l) s hne (shown cfg) hP
  have hlines : ((Logger.new cfg).logMeta l).logTask s = (shown cfg).map (fun a =>
      (⟨a, some ((((Logger.new cfg).logMeta l).item a).length, addUp (fun q => q.1) (((Logger.new cfg).logMeta l).item a),
        addUp (fun q => q.2) (((Logger.new cfg).logMeta l).item a)), if a = cfg.loc then some s else none⟩ : Line T)) := by
    unfold Logger.logTask
    rw [if_neg (by simpa [Logger.logMeta] using hne)]
    generalize hf : (fun a => (⟨a, some ((((Logger.new cfg).logMeta l).item a).length, addUp (fun q => q.1) (((Logger.new cfg).logMeta l).item a),
        addUp (fun q => q.2) (((Logger.new cfg).logMeta l).item a)), if a = cfg.loc then some s else none⟩ : Line T)) = f
    have hg : (fun a => if (((Logger.new cfg).logMeta l).localOnly && !decide (a = ((Logger.new cfg).logMeta l).localAddr)) = true then none
        else some (⟨a, some ((((Logger.new cfg).logMeta l).item a).length, addUp (fun q => q.1) (((Logger.new cfg).logMeta l).item a),
          addUp (fun q => q.2) (((Logger.new cfg).logMeta l).item a)), if a = ((Logger.new cfg).logMeta l).localAddr then some s else none⟩ : Line T)) =
        fun a => if (cfg.logLocalOnly && !decide (a = cfg.loc)) = true then none else some (f a) := by
      subst hf; rfl
    rw [hg]
    show cfg.remotes.filterMap _ = _
    cases hlo : cfg.logLocalOnly with
    | false =>
      simp only [shown, hlo, Bool.false_and, Bool.false_eq_true, if_false]
      rw [List.filterMap_eq_map']
    | true =>
      simp only [shown, hlo, Bool.true_and, if_true, List.map_cons, List.map_nil]
      have h3 : ∀ as : List Addr, as.filterMap (fun a => if (!decide (a = cfg.loc)) = true then none else some (f a)) =
          List.replicate (as.count cfg.loc) (f cfg.loc) := by
        intro as
        induction as with
        | nil => rfl
        | cons a as ih =>
          by_cases ha : a = cfg.loc
          · rw [List.filterMap_cons, ih, ha]
            simp [List.replicate_succ]
          · rw [List.filterMap_cons, ih]
            simp [ha]
      rw [h3, hone hlo]
      rfl
  rw [hlines]
  exact key

theorem calls_append {T : Type} : ∀ (cs ds : List (LogCall T)) (l : Logger), Logger.calls (cs ++ ds) l =
    ((Logger.calls ds (Logger.calls cs l).1).1, (Logger.calls cs l).2 ++ (Logger.calls ds (Logger.calls cs l).1).2)
  | [], _, _ => rfl
  | .meta_ m :: cs, ds, l => calls_append cs ds (l.logMeta m)
  | .task s :: cs, ds, l => by simp [Logger.calls, calls_append cs ds l]

theorem calls_tasks {T : Type} (l : Logger) : ∀ ts : List T, Logger.calls (ts.map LogCall.task) l = (l, ts.flatMap (fun s => l.logTask s))
  | [] => rfl
  | s :: ts => by simp [Logger.calls, calls_tasks l ts]

theorem calls_addrs {T : Type} : ∀ (cs : List (LogCall T)) (l m : Logger), { (Logger.calls cs l).1 with items := m.items } = { l with items := m.items }
  | [], _, _ => rfl
  | .meta_ x :: cs, l, m => calls_addrs cs (l.logMeta x) m
  | .task _ :: cs, l, m => calls_addrs cs l m

/-- C90. Every task is printed with the numbers of the latest `LogMeta`, whatever was logged before. -/
theorem C90_latest {T : Type} (l : Logger) (cs : List (LogCall T)) (m : List (Addr × List (NS × Nat × Nat))) (ts : List T) :
    (Logger.calls (cs ++ .meta_ m :: ts.map LogCall.task) l).2 = (Logger.calls cs l).2 ++ ts.flatMap (fun s => (l.logMeta m).logTask s) := by
  have h := calls_addrs cs l (l.logMeta m)
  rw [calls_append]
  show (Logger.calls cs l).2 ++ (Logger.calls (ts.map LogCall.task) ((Logger.calls cs l).1.logMeta m)).2 = _
  rw [calls_tasks]
  have h1 : (Logger.calls cs l).1.logMeta m = l.logMeta m := h
  rw [h1]

open ServerExample JobsExample

namespace LoggerExample
/-- What the logger of `cfg` prints for the task 5 after the Meta task. -/
def printed (cfg : Config) (r : Report × World F64) : List (Line Nat) :=
  match r.1 with
  | .gathered l => ((Logger.new cfg).logMeta l).logTask 5
  | _ => []
def all4 : Config := { single with remotes := [2, 1, 4, 3], logLocalOnly := false }
end LoggerExample
open LoggerExample

/-- C90: node 1 is the local one; nodes 3 and 4 have no namespaces. -/
example : ∃ r p', (task env fac 10 all4 .getMeta).run two 0 = .ok (r, p') ∧
    printed all4 r = [⟨2, some (1, 1, 1), none⟩, ⟨1, some (2, 2, 3), some 5⟩, ⟨4, some (0, 0, 0), none⟩, ⟨3, some (0, 0, 0), none⟩] :=
  exists_of_run (by decide +kernel)
/-- C90: the same with `LogLocalOnly`. -/
example : ∃ r p', (task env fac 10 { all4 with logLocalOnly := true } .getMeta).run two 0 = .ok (r, p') ∧
    printed { all4 with logLocalOnly := true } r = [⟨1, some (2, 2, 3), some 5⟩] :=
  exists_of_run (by decide +kernel)

/-- C90 fails: node 2, which holds a datapoint, cannot be reached and is shown as an empty node. -/
theorem C90_refuted : (∃ r p', (task { env with up := fun _ a => a != 2 } fac 10 all4 .getMeta).run two 0 = .ok (r, p') ∧
      printed all4 r = [⟨2, some (0, 0, 0), none⟩, ⟨1, some (2, 2, 3), some 5⟩, ⟨4, some (0, 0, 0), none⟩, ⟨3, some (0, 0, 0), none⟩]) ∧
    (storedAt two [2] 7).length = 1 :=
  ⟨exists_of_run (by decide +kernel), by decide +kernel⟩

/-- C90 fails: the task is shown nowhere if `RemoteAddrs` does not include `LocalAddr`. -/
theorem C90_refuted_config : (∃ r p', (task env fac 10 { all4 with remotes := [2] } .getMeta).run two 0 = .ok (r, p') ∧
      printed { all4 with remotes := [2] } r = [⟨2, some (1, 1, 1), none⟩]) ∧
    ∃ r p', (task env fac 10 { all4 with remotes := [2], logLocalOnly := true } .getMeta).run two 0 = .ok (r, p') ∧
      printed { all4 with remotes := [2], logLocalOnly := true } r = [] :=
  ⟨exists_of_run (by decide +kernel), exists_of_run (by decide +kernel)⟩

/-- C90: the first three tasks of a loop, with Meta after the first. -/
example : (Logger.calls [.task 1, .meta_ [(1, [(7, 2, 5)]), (2, [])], .task 2, .task 3] (Logger.new { single with logLocalOnly := false, remotes := [1, 2] })).2 =
    [⟨1, none, some 1⟩, ⟨1, some (1, 2, 5), some 2⟩, ⟨2, some (0, 0, 0), none⟩, ⟨1, some (1, 2, 5), some 3⟩, ⟨2, some (0, 0, 0), none⟩] := by
  decide +kernel

end Trypo
