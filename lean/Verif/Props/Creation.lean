import Verif.Proofs.Neat
import Verif.Props.Shipped

/-!
# C104: namespaces that are created one at a time are not replaced
-/

set_option linter.unusedSectionVars false
set_option linter.unusedVariables false

namespace Trypo
open GoFloat Spec EventLoop Service

variable {F : Type} [GoFloat F]

theorem noOrphans_same {w w' : World F} (hno : NoOrphans w) (ht : w'.table = w.table) (hl : labels w' = labels w) : NoOrphans w' := by
  intro i s hs
  have h1 : (labels w')[i]? = some s.1 := by unfold labels; rw [List.getElem?_map, hs]; rfl
  rw [hl] at h1
  unfold labels at h1
  rw [List.getElem?_map] at h1
  cases hx : w.heap[i]? with
  | none => rw [hx] at h1; simp at h1
  | some s0 =>
    rw [hx] at h1
    simp only [Option.map_some, Option.some.injEq] at h1
    obtain ⟨a, ha⟩ := hno i s0 hx
    exact ⟨a, by rw [ht, ← h1]; exact ha⟩

theorem noOrphans_addSlot {w : World F} (h : NoOrphans w) {a : Addr} {ns : NS} (hn : w.lookup a ns = none) (m : Manager F) :
    NoOrphans (w.addSlot a ns m) := by
  intro i s hs
  simp only [World.addSlot, List.getElem?_append] at hs
  split at hs
  · obtain ⟨b, hb⟩ := h i s hs
    refine ⟨b, ?_⟩
    simp only [World.addSlot]
    split
    · rename_i e
      subst e
      refine List.mem_cons_of_mem _ (List.mem_filter.2 ⟨hb, ?_⟩)
      simp only [decide_eq_true_eq, ne_eq]
      rintro e
      rw [e] at hb
      exact lookup_eq_none_iff.1 hn i hb
    · exact hb
  · rename_i hlt
    rw [List.getElem?_singleton] at hs
    split at hs
    · rename_i e
      cases hs
      refine ⟨a, ?_⟩
      simp only [World.addSlot, if_true]
      have : i = w.heap.length := by omega
      subst this
      exact List.mem_cons_self
    · cases hs

/-- A step of a goroutine creates a namespace, or changes no table. -/
theorem act_cases {β : Type} {x : Act F β} {w : World F} {p p' : Nat} {r : β × World F} (h : x.run w p = .ok (r, p')) (C P : Places) :
    (∃ a ns m, r.2 = w.addSlot a ns m ∧ (x.neat C P → C a ns ∧ P a ns) ∧ ∀ b ns', x.unseen P r.1 b ns' → P b ns' ∧ ¬ (b = a ∧ ns' = ns)) ∨
    (r.2.table = w.table ∧ labels r.2 = labels w ∧ ∀ b ns', x.unseen P r.1 b ns' → P b ns' ∨ w.lookup b ns' = none) := by
  cases x with
  | lookup a ns =>
    cases h
    refine .inr ⟨rfl, rfl, fun b ns' hb => ?_⟩
    cases hl : w.lookup a ns with
    | none =>
      simp only [hl] at hb
      exact hb.imp id (fun e => by rw [e.1, e.2]; exact hl)
    | some i =>
      simp only [hl] at hb
      exact .inl hb
  | slot i f =>
    simp only [Act.run] at h
    cases hs : w.heap[i]? with
    | none => rw [hs] at h; cases h
    | some s =>
      rw [hs] at h
      simp only [bind, StateT.bind, Except.bind] at h
      cases hf : f s.2 p with
      | error e => rw [hf] at h; cases h
      | ok q =>
        rw [hf] at h
        cases h
        exact .inr ⟨rfl, labels_put (ns := s.1) (m := s.2) hs, fun b ns' hb => .inl hb⟩
  | addSlot a ns m => cases h; exact .inl ⟨a, ns, m, rfl, id, fun b ns' hb => hb⟩
  | names a => cases h; exact .inr ⟨rfl, rfl, fun b ns' hb => .inl hb⟩
  | loc m =>
    simp only [Act.run, bind, StateT.bind, Except.bind] at h
    cases hf : m p with
    | error e => rw [hf] at h; cases h
    | ok q => rw [hf] at h; cases h; exact .inr ⟨rfl, rfl, fun b ns' hb => .inl hb⟩

/-- No manager was replaced so far, and every goroutine will create only what does not exist. -/
structure Tended (s : Sys F) : Prop where
  orphans : NoOrphans s.world
  length : s.progs.length = s.jobs.length
  each : ∀ (i : Nat) (j : Job F) (m : Prog F (Outcome F)), (∃ src, s.jobs[i]? = some (src, j)) → s.progs[i]? = some m → (∀ o, m ≠ .ret o) →
    ∃ P, Prog.Neat j.mayCreateAt m s.world.places P (fun _ _ _ => True) ∧ ∀ a ns, P a ns → j.mayCreateAt a ns → s.world.lookup a ns = none

variable {env : Env} {fac : Factory F} {nodes : List (Config × Nat × SkipConfig)} {w0 : World F} {p0 : Nat} {s s' : Sys F}

theorem tended_extend (h : Tended s) (L : List (Source × Job F)) : Tended (s.extend env fac L) where
  orphans := h.orphans
  length := by simp [Sys.extend, h.length]
  each := by
    rintro i j m ⟨src, hj⟩ hm hu
    simp only [Sys.extend] at hj hm
    rcases Nat.lt_or_ge i s.jobs.length with hi | hi
    · rw [List.getElem?_append_left hi] at hj
      rw [List.getElem?_append_left (by rw [h.length]; exact hi)] at hm
      exact h.each i j m ⟨src, hj⟩ hm hu
    · rw [List.getElem?_append_right hi] at hj
      rw [List.getElem?_append_right (by rw [h.length]; exact hi), h.length, List.getElem?_map, hj] at hm
      simp only [Option.map_some, Option.some.injEq] at hm
      subst hm
      exact ⟨fun _ _ => False, neat_job env fac j, fun _ _ h => h.elim⟩

theorem tended_loops (h : Tended s) (ls : List Loop) : Tended { s with loops := ls } := ⟨h.orphans, h.length, h.each⟩

theorem tended_run (h : Tended s) (hu : Uncontested s) {i : Nat} {ts : List (Prog F (Outcome F))} {w : World F} {p : Nat}
    (hr : Pool.run [i] s.progs s.world s.now = .ok (ts, w, p)) : Tended { s with progs := ts, world := w, now := p } := by
  simp only [Pool.run] at hr
  split at hr
  · rename_i _ x k he
    split at hr
    · rename_i r p' hx
      cases hr
      have hi : i < s.jobs.length := by rw [← h.length]; exact (List.getElem?_eq_some_iff.1 he).1
      have hji : ∃ src, s.jobs[i]? = some (src, (s.jobs[i]).2) := ⟨(s.jobs[i]).1, List.getElem?_eq_getElem hi⟩
      generalize (s.jobs[i]).2 = ji at hji
      have hui : Unfinished s i ji := ⟨hji, _, he, fun o e => (nomatch e)⟩
      obtain ⟨P, hneat, habs⟩ := h.each i ji _ hji he (fun o e => (nomatch e))
      have hgrow := act_places hx
      rcases act_cases hx ji.mayCreateAt P with ⟨a, ns, m, e, h1, h2⟩ | ⟨e1, e2, h2⟩
      · obtain ⟨hc, hp⟩ := h1 hneat.1
        have hnone := habs a ns hp hc
        have hlook : ∀ b ns', ¬ (b = a ∧ ns' = ns) → r.2.lookup b ns' = s.world.lookup b ns' := by
          intro b ns' hne
          rw [e]
          by_cases hb : b = a
          · subst hb
            exact lookup_addSlot_ns _ _ _ (fun e => hne ⟨rfl, e⟩) _
          · exact lookup_addSlot_node _ hb _ _ _
        refine ⟨by show NoOrphans r.2; rw [e]; exact noOrphans_addSlot h.orphans hnone m, by simp [h.length], fun i' j m' hj hm hu' => ?_⟩
        rcases getElem?_set_some he hm with ⟨rfl, rfl⟩ | ⟨hne, hm⟩
        · obtain ⟨src, hj⟩ := hj
          obtain ⟨src', hji⟩ := hji
          rw [hji] at hj; cases hj
          refine ⟨_, hneat.2 _ _ _ _ (.refl _) hx, fun b ns' hb hcb => ?_⟩
          obtain ⟨hb1, hb2⟩ := h2 b ns' hb
          show r.2.lookup b ns' = none
          rw [hlook b ns' hb2]; exact habs b ns' hb1 hcb
        · obtain ⟨P', hneat', habs'⟩ := h.each i' j m' hj hm hu'
          refine ⟨P', neat_weak hgrow hneat', fun b ns' hb hcb => ?_⟩
          show r.2.lookup b ns' = none
          rw [hlook b ns' (fun hh => ?_)]
          · exact habs' b ns' hb hcb
          · obtain ⟨rfl, rfl⟩ := hh
            exact hne (hu b ns' hnone i' i j ji ⟨hj, m', hm, hu'⟩ hui hcb hc)
      · have hlook : ∀ b ns', r.2.lookup b ns' = s.world.lookup b ns' := fun b ns' => by unfold World.lookup; rw [e1]
        refine ⟨noOrphans_same h.orphans e1 e2, by simp [h.length], fun i' j m' hj hm hu' => ?_⟩
        rcases getElem?_set_some he hm with ⟨rfl, rfl⟩ | ⟨hne, hm⟩
        · obtain ⟨src, hj⟩ := hj
          obtain ⟨src', hji⟩ := hji
          rw [hji] at hj; cases hj
          refine ⟨_, hneat.2 _ _ _ _ (.refl _) hx, fun b ns' hb hcb => ?_⟩
          show r.2.lookup b ns' = none
          rw [hlook b ns']
          exact (h2 b ns' hb).elim (fun hb => habs b ns' hb hcb) id
        · obtain ⟨P', hneat', habs'⟩ := h.each i' j m' hj hm hu'
          refine ⟨P', neat_weak hgrow hneat', fun b ns' hb hcb => ?_⟩
          show r.2.lookup b ns' = none
          rw [hlook b ns']
          exact habs' b ns' hb hcb
    · cases hr
  · cases hr; exact h

theorem tended_step (h : Tended s) (hu : Uncontested s) {e : Ev F} (hs : Service.step env fac e s = .ok s') : Tended s' := by
  cases e with
  | arrive j => cases hs; rw [start_eq]; exact tended_extend h _
  | run i =>
    simp only [Service.step] at hs
    split at hs
    · rename_i hr
      cases hs
      exact tended_run h hu hr
    · cases hs
  | loop k =>
    simp only [Service.step] at hs
    split at hs
    · unfold loopStep at hs
      split at hs
      · split at hs
        · rw [starts_eq] at hs
          cases hs
          exact tended_extend (tended_loops h _) _
        · cases hs; exact h
      · split at hs
        split at hs
        · cases hs
        · split at hs
          · cases hs
            rw [start_eq]
            exact tended_extend (tended_loops h _) _
          · cases hs; exact tended_loops h _
    · cases hs; exact h
  | stop k =>
    simp only [Service.step] at hs
    split at hs
    · cases hs; exact tended_loops h _
    · cases hs; exact h

theorem tended_service : ∀ {es : List (Ev F)} {s s' : Sys F}, Tended s → NoRaces env fac es s → Service.run env fac es s = .ok s' → Tended s'
  | [], s, s', h, _, hr => by cases hr; exact h
  | e :: es, s, s', h, hn, hr => by
    simp only [Service.run] at hr
    split at hr
    · rename_i s1 hs
      refine tended_service (tended_step h (hn [] s List.nil_prefix rfl) hs) (fun es' s'' hp hr' => ?_) hr
      refine hn (e :: es') s'' (List.cons_prefix_cons.2 ⟨rfl, hp⟩) ?_
      simp only [Service.run, hs]
      exact hr'
    · cases hr

/-- C104: if at no time two jobs that are going on may both create a namespace that does not exist at that node, then no manager is
ever replaced by another one: every manager there ever was is in the table of a node. Nothing is assumed of the network, the clock, the
searches or the arguments of requests. -/
theorem C104_no_orphans (hno : NoOrphans w0) {es : List (Ev F)} (hn : NoRaces env fac es (boot nodes w0 p0)) {s : Sys F}
    (hr : Service.run env fac es (boot nodes w0 p0) = .ok s) : NoOrphans s.world :=
  (tended_service ⟨hno, rfl, fun i j m h => by simp [boot] at h⟩ hn hr).orphans

/-- C104 with the conservation of C85: namespaces may be created while the service runs, by requests, puts and load balancers. If at no
time two jobs that are going on may both create a namespace that does not exist at that node, then, whenever everything is done, the
datapoints of a namespace at all nodes are those that were there plus those that were brought, minus those that were handed out, minus
expired ones. -/
theorem C104_conserves [LawfulCmp F] (he : EnvOK env) (hb : NoLostReplies env) (hfind : AlwaysFinds (knnCos (F := F))) (hf : FactoryOK fac)
    {D : NS → Nat} (hw : WorldOK D w0) (hno : NoOrphans w0) (hn : ∀ n ∈ nodes, NodeOK n) (hself : ∀ n ∈ nodes, FindsItself env n.1)
    {es : List (Ev F)} (hv : ∀ j ∈ arrivals es, j.valid D) (hl : ∀ j ∈ arrivals es, j.lossless env) (hrace : NoRaces env fac es (boot nodes w0 p0)) :
    ∃ s, Service.run env fac es (boot nodes w0 p0) = .ok s ∧ ∀ outs, Quiet s outs →
      ∀ ns (addrs : List Addr), addrs.Nodup → (∀ a, s.world.lookup a ns ≠ none → a ∈ addrs) →
        Conserved (env.tk s.now) (storedAt w0 addrs ns ++ broughtBy (arrivals es) ns) (storedAt s.world addrs ns)
          (takenBy (s.jobs.map (fun x => x.2)) outs ns) := by
  obtain ⟨s, h1, h2⟩ := C85_created_partial (p0 := p0) he hb hfind hf hw hno hn hself hv hl
  exact ⟨s, h1, fun outs hq => h2 outs hq (C104_no_orphans hno hrace h1)⟩

/-- C104 for the service with the shipped configuration, started with nothing stored, in exact arithmetic: if at no time two puts to
the same namespace are going on before the namespace exists, then, when everything is done, what the node stores in a namespace is what
was put there minus what was handed out (or whose put was not answered with 200), minus expired datapoints. The node reaches itself and no
reply is lost. -/
theorem C104_shipped {env : Env} (he : EnvOK env) (hb : NoLostReplies env) {loc : Addr} (hr : Reachable env loc) (fuel : Nat) {D : NS → Nat} {p0 : Nat}
    {es : List (Ev ℝ)} (hv : ∀ j ∈ arrivals es, j.valid D) (hk : ∀ j ∈ arrivals es, (∃ o, j = .put [loc] o) ∨ (∃ o, j = .query [loc] o))
    (hrace : ∀ es' s', es' <+: es → Service.run env shippedFactory es' (boot [shippedNode loc fuel] nothing p0) = .ok s' →
      ∀ i i' (o o' : Api.PutOpts ℝ), Unfinished s' i (.put [loc] (some o)) → Unfinished s' i' (.put [loc] (some o')) → o.ns = o'.ns →
        s'.world.lookup loc o.ns = none → i = i') :
    ∃ s, Service.run env shippedFactory es (boot [shippedNode loc fuel] nothing p0) = .ok s ∧ ∀ outs, Quiet s outs →
      ∀ ns (addrs : List Addr), addrs.Nodup → (∀ a, s.world.lookup a ns ≠ none → a ∈ addrs) →
        Conserved (env.tk s.now) (broughtBy (arrivals es) ns) (storedAt s.world addrs ns) (takenBy (s.jobs.map (fun x => x.2)) outs ns) := by
  obtain ⟨s, h1, h2⟩ := C85_shipped_partial (p0 := p0) he hb hr fuel hv hk
  refine ⟨s, h1, fun outs hq => h2 outs hq (C104_no_orphans (fun i s h => by simp [nothing] at h) (fun es' s' hp hs => ?_) h1)⟩
  have hsub : ∀ j ∈ arrivals es', j ∈ arrivals es := fun j hj => by
    obtain ⟨t, rfl⟩ := hp
    unfold arrivals at hj ⊢
    rw [List.filterMap_append]
    exact List.mem_append.2 (.inl hj)
  obtain ⟨s2, e1, hg, _⟩ := run_going he shippedFactory_ok (nothing_ok D) (nodes := [shippedNode loc fuel])
    (fun n h => by cases List.mem_singleton.1 h; exact shippedNode_ok loc fuel) es' _ (boot_going env shippedFactory [shippedNode loc fuel] nothing p0)
    (fun x hx => by simp [boot] at hx) (fun j hj => hv j (hsub j hj))
  rw [hs] at e1
  cases e1
  have hput : ∀ i j a ns, Unfinished s' i j → j.mayCreateAt a ns → ∃ o : Api.PutOpts ℝ, j = .put [loc] (some o) ∧ a = loc ∧ ns = o.ns := by
    rintro i j a ns ⟨⟨src, hj⟩, _⟩ hc
    have hmem := List.mem_of_getElem? hj
    rcases hg.conduct.inside hmem with h | ⟨n, hn, t, h⟩ | ⟨c, h⟩
    · have : j ∈ arrivals es' := by
        have hout : jobsFrom .outside s' = arrivals es' := by rw [run_outside es' hs]; rfl
        rw [← hout]
        exact List.mem_map.2 ⟨_, List.mem_filter.2 ⟨hmem, by simpa using h⟩, rfl⟩
      rcases hk j (hsub j this) with ⟨o, rfl⟩ | ⟨o, rfl⟩
      · cases o with
        | none => exact hc.elim
        | some o => exact ⟨o, rfl, by simpa using hc.1, hc.2⟩
      · exact hc.elim
    · cases List.mem_singleton.1 hn
      simp only at h
      subst h
      cases t <;> first | exact hc.elim | (obtain ⟨_, b, hb, hne⟩ := hc; exact absurd (List.mem_singleton.1 hb) hne)
    · simp only at h
      subst h
      exact hc.elim
  intro a ns hnone i i' j j' hi hi' hc hc'
  obtain ⟨o, rfl, rfl, rfl⟩ := hput i j a ns hi hc
  obtain ⟨o', rfl, _, hns⟩ := hput i' j' _ _ hi' hc'
  exact hrace es' s' hp hs i i' o o' hi hi' hns hnone

namespace CreationExample

/-- What a job may create, if that is known in advance. -/
def targets : Job F → Option (List (Addr × NS))
  | .rpc (.add a ns _) => some [(a, ns)]
  | .rpc (.stealCentroid a ns _ _ _) => some [(a, ns)]
  | .put addrs (some o) => some (addrs.map (fun a => (a, o.ns)))
  | .task cfg _ .loadBalancing => if cfg.remotes.all (fun b => b == cfg.loc) then some [] else none
  | .loop cfg _ _ _ _ => if cfg.remotes.all (fun b => b == cfg.loc) then some [] else none
  | _ => some []

theorem mem_targets {j : Job F} {l : List (Addr × NS)} (h : targets j = some l) {a : Addr} {ns : NS} (hc : j.mayCreateAt a ns) : (a, ns) ∈ l := by
  have key : ∀ {cfg : Config}, (if cfg.remotes.all (fun b => b == cfg.loc) then some [] else none) = some l →
      (a = cfg.loc ∧ ∃ b ∈ cfg.remotes, b ≠ cfg.loc) → (a, ns) ∈ l := by
    rintro cfg h ⟨_, b, hb, hne⟩
    split at h
    · rename_i hall
      exact absurd (by simpa using List.all_eq_true.1 hall b hb) hne
    · cases h
  cases j with
  | rpc r => cases r <;> first | exact hc.1.elim | (cases h; obtain ⟨_, rfl, rfl⟩ := hc; exact List.mem_singleton_self _)
  | call c => exact hc.elim
  | put addrs body =>
    cases body with
    | none => exact hc.elim
    | some o =>
      cases h
      obtain ⟨ha, rfl⟩ := hc
      exact List.mem_map.2 ⟨a, ha, rfl⟩
  | query addrs body => exact hc.elim
  | task cfg fuel t => cases t <;> first | exact hc.elim | exact key h hc
  | loop cfg fuel skip n iter => exact key h hc

/-- Whether a job is done. -/
def isDone (s : Sys F) (i : Nat) : Bool :=
  match s.progs[i]? with
  | some (.ret _) => true
  | _ => false

/-- A sufficient condition for `Uncontested`. -/
def calm (s : Sys F) : Bool :=
  (List.range s.jobs.length).all (fun i => (List.range s.jobs.length).all (fun i' => i == i' || isDone s i || isDone s i' ||
    match s.jobs[i]?.bind (fun x => targets x.2), s.jobs[i']?.bind (fun x => targets x.2) with
    | some l, some l' => l.all (fun x => !l'.contains x || (s.world.lookup x.1 x.2).isSome)
    | _, _ => false))

theorem uncontested_of_calm {s : Sys F} (h : calm s = true) : Uncontested s := by
  intro a ns hnone i i' j j' ⟨⟨src, hj⟩, m, hm, hu⟩ ⟨⟨src', hj'⟩, m', hm', hu'⟩ hc hc'
  by_contra hne
  have hi := (List.getElem?_eq_some_iff.1 hj).1
  have hi' := (List.getElem?_eq_some_iff.1 hj').1
  have := List.all_eq_true.1 (List.all_eq_true.1 h i (List.mem_range.2 hi)) i' (List.mem_range.2 hi')
  have hd : isDone s i = false := by
    unfold isDone; rw [hm]
    cases m with
    | ret o => exact absurd rfl (hu o)
    | act => rfl
  have hd' : isDone s i' = false := by
    unfold isDone; rw [hm']
    cases m' with
    | ret o => exact absurd rfl (hu' o)
    | act => rfl
  simp only [hd, hd', Bool.or_false, Bool.or_eq_true, beq_iff_eq, hne, false_or, hj, hj', Option.bind_some] at this
  cases ht : targets j with
  | none => rw [ht] at this; simp at this
  | some l =>
    cases ht' : targets j' with
    | none => rw [ht, ht'] at this; simp at this
    | some l' =>
      rw [ht, ht'] at this
      have h1 := List.all_eq_true.1 this (a, ns) (mem_targets ht hc)
      have h2 := mem_targets ht' hc'
      simp [h2, hnone] at h1

/-- A sufficient condition for `NoRaces`. -/
def calmRun (env : Env) (fac : Factory F) : List (Ev F) → Sys F → Bool
  | [], s => calm s
  | e :: es, s => calm s && match Service.step env fac e s with
    | .ok s' => calmRun env fac es s'
    | .error _ => true

theorem noRaces_of_calm {env : Env} {fac : Factory F} : ∀ {es : List (Ev F)} {s : Sys F}, calmRun env fac es s = true → NoRaces env fac es s
  | [], s, h => by
    intro es' s' hp hr
    cases List.prefix_nil.1 hp
    cases hr
    exact uncontested_of_calm h
  | e :: es, s, h => by
    simp only [calmRun, Bool.and_eq_true] at h
    intro es' s' hp hr
    cases es' with
    | nil => cases hr; exact uncontested_of_calm h.1
    | cons e' es' =>
      obtain ⟨rfl, hp'⟩ := List.cons_prefix_cons.1 hp
      simp only [Service.run] at hr
      cases hs : Service.step env fac e' s with
      | error x => rw [hs] at hr; cases hr
      | ok s1 =>
        rw [hs] at hr h
        exact noRaces_of_calm h.2 es' s' hp' hr

end CreationExample

end Trypo

namespace Trypo
namespace CreationExample
open GoFloat Spec EventLoop Service ServerExample JobsExample ServiceExample

/-- Puts to namespace 7 one after the other, at a node with the shipped configuration at which nothing is stored, and while the first
is going on one to namespace 8; the event loop runs all the time. -/
def quietly : List (Ev F64) :=
  [.arrive (put 1 1), .arrive (.put [1] (some ⟨8, false, ⟨[.ofInt 5], [], 0, false⟩⟩))] ++ turns 12 ++ [.arrive (put 1 2)] ++ turns 30

/-- Two puts to namespace 7 at the same time. -/
def hastily : List (Ev F64) := [.arrive (put 1 1), .arrive (put 1 2)] ++ turns 30

/-- C104: the first is without races, the second is not. -/
example : calmRun env shippedFactory quietly (boot [shippedNode 1 10] nothing 0) = true ∧
    calmRun env shippedFactory hastily (boot [shippedNode 1 10] nothing 0) = false := ⟨by decide +kernel, by decide +kernel⟩

/-- C104: so in the first no manager is replaced. -/
example {s : Sys F64} (h : Service.run env shippedFactory quietly (boot [shippedNode 1 10] nothing 0) = .ok s) : NoOrphans s.world :=
  C104_no_orphans (fun i s h => by simp [nothing] at h) (noRaces_of_calm (by decide +kernel)) h

/-- C104, in numbers: what is stored at the node in the end; in the second case a datapoint is lost. -/
example : (match Service.run env shippedFactory quietly (boot [shippedNode 1 10] nothing 0) with
      | .ok s => some (storedAt s.world [1] 7, s.world.heap.length)
      | .error _ => none) = some ([dp 1 1, dp 1 2], 2) ∧
    (match Service.run env shippedFactory hastily (boot [shippedNode 1 10] nothing 0) with
      | .ok s => some (storedAt s.world [1] 7, s.world.heap.length)
      | .error _ => none) = some ([dp 1 2], 2) := ⟨by decide +kernel, by decide +kernel⟩

end CreationExample
end Trypo
