import Verif.Proofs.NoPanicSystem
import Verif.Proofs.ServiceTrace
import Verif.Props.NoPanic

/-!
# Expired datapoints in a running service
-/

set_option linter.unusedSectionVars false
set_option linter.unusedVariables false

namespace Trypo
open GoFloat Spec EventLoop Service
open Prog (NP)

section
variable {F : Type} [GoFloat F]

/-! ### What managers do with expired datapoints -/

/-- All readings of the clock after number `t0` are at least `T`. -/
class Late (tk : Nat → Int) (T : Int) (t0 : Nat) : Prop where
  mono : MonoClock tk
  le : T ≤ tk t0

theorem Late.dead {tk : Nat → Int} {T : Int} {t0 : Nat} (h : Late tk T t0) {p : Nat} (hp : t0 ≤ p) {d : DataPoint F} (hd : Dead T d) : Dead (tk p) d :=
  ⟨hd.1, Int.lt_of_lt_of_le hd.2 (Int.le_trans h.le (h.mono _ _ hp))⟩

/-- New slots have no datapoints that are expired at `T`; old ones get none. The namespaces in `S` are in the table of
node `a0`. -/
def cleanCond (T : Int) (t0 size : Nat) (a0 : Addr) (S : NS → Prop) : Cond F where
  time := t0
  ext := Manager.WF
  slot := fun i m => size ≤ i → AllLive T (stored m)
  tab := fun a ns o => a = a0 → S ns → o ≠ none
  size := 0
  reply := fun l => ∃ k, ∀ d ∈ l, d.vec.length = k
  stolen := fun c => AllLive T c.dps
  rel := fun m m' => AllLive T (stored m) → AllLive T (stored m')
  refl := fun _ h => h
  fresh := fun _ _ _ _ _ _ h => by cases h

variable {tk : Nat → Int} {T : Int} {t0 size : Nat} {a0 : Addr} {S : NS → Prop}

theorem next_clean {i : Nat} {m m' : Manager F} {p : Nat} (h : (cleanCond T t0 size a0 S).At i m p)
    (hr : AllLive T (stored m) → AllLive T (stored m')) : (cleanCond T t0 size a0 S).Next i m m' :=
  ⟨fun hi => hr (h.slot hi), hr⟩

theorem next_eff {i : Nat} {m m' : Manager F} {p p1 p2 : Nat} {out : List (DataPoint F)} (h : (cleanCond T t0 size a0 S).At i m p)
    (he : Manager.Eff tk p1 p2 m m' [] out) : (cleanCond T t0 size a0 S).Next i m m' :=
  next_clean h (fun hl d hd => by
    obtain ⟨lost, h1, _⟩ := he.conserved
    have : d ∈ [] ++ Centroid.flat m.centroids := h1.subset (by simp [show d ∈ Centroid.flat m'.centroids from hd])
    exact hl d (by rw [List.nil_append] at this; exact this))

theorem clean_call (hm : MonoClock tk) {i : Nat} {m : Manager F} {p : Nat} (h : (cleanCond T t0 size a0 S).At i m p) (o : ManagerCall F) (ho : o.valid) :
    Go.wp (o.run tk ⟨m, [], []⟩) (fun w _ => w.accepted = [] → (cleanCond T t0 size a0 S).Next i m w.cm) p :=
  Go.wp_mono (Manager.wp_managerCall hm ⟨m, [], []⟩ h.ext o ho p) (fun w p' hr ha => by
    obtain ⟨acc, out, h1, _, h3, _⟩ := hr
    rw [ha] at h1
    have : acc = [] := (List.append_eq_nil_iff.1 h1.symm).1
    subst this
    exact next_eff h h3)

instance : Near (F := F) (cleanCond T t0 size a0 S) where
  near := fun i m v n drain p hm hn => by
    have hw : m.WF := hm.ext
    have h2 := clean_call (tk := fun _ => 0) (fun _ _ _ => Int.le_refl _) hm (.nearestCentroids v n drain) hn
    simp only [ManagerCall.run, Go.wp_bind, Go.wp_pure] at h2
    refine Go.wp_mono (Go.wp_and (Manager.wp_nearestCentroids hw v hn drain p) h2) (fun r p' hr => ⟨hr.2 trivial, fun cs hcs => ?_⟩)
    obtain ⟨⟨_, is, g1, g2, g3, g4, g5⟩, _⟩ := hr
    by_cases his : is = []
    · rw [g4 his] at hcs; cases hcs
    · obtain ⟨cs', e1, e2, _⟩ := g5 his
      rw [hcs] at e1; cases e1
      have hlen : is.length = cs.length := by have := congrArg List.length e2; simpa using this
      refine ⟨by rw [← hlen]; exact g3, fun c hc => ⟨m.vec.length, fun d hd => ?_⟩⟩
      have hin : some c ∈ is.map (fun i => m.centroids[i]?) := by rw [e2]; exact List.mem_map.2 ⟨c, hc, rfl⟩
      obtain ⟨j, _, hj⟩ := List.mem_map.1 hin
      have := hw.dim c (List.mem_of_getElem? hj)
      rw [this.2 d hd, this.1]

instance [LawfulCmp F] [h : Late tk T t0] : Ops (F := F) tk (cleanCond T t0 size a0 S) where
  add := fun i m d p hm => by
    refine Go.wp_mono (Manager.wp_addDataPoint h.mono hm.ext d p) (fun r p' hr => ?_)
    obtain ⟨h1, h2, h3, h4, _⟩ := hr
    cases hb : r.1 with
    | false => rw [h2 hb]; exact .same hm.slot
    | true =>
      refine next_clean hm (fun hl e he hdead => ?_)
      obtain ⟨lost, c1, _⟩ := ((h3 hb).eff h.mono hm.ext).conserved
      have : e ∈ [d] ++ Centroid.flat m.centroids := c1.subset (by simp [show e ∈ Centroid.flat r.2.centroids from he])
      rcases List.mem_append.1 this with he | he
      · simp only [List.mem_singleton] at he
        subst he
        rw [h4 (h.dead hm.time hdead)] at hb
        cases hb
      · exact hl e he hdead
  expire := fun i m p hm => by
    have := clean_call h.mono hm .expire trivial
    simp only [ManagerCall.run, Go.wp_bind, Go.wp_pure] at this
    exact Go.wp_mono this (fun _ _ h => h trivial)
  memTrim := fun i m p hm => by
    have := clean_call h.mono hm .memTrim trivial
    simp only [ManagerCall.run, Go.wp_bind, Go.wp_pure] at this
    exact Go.wp_mono this (fun _ _ h => h trivial)
  moveVector := fun i m p hm => by
    have := clean_call h.mono hm .moveVector trivial
    simp only [ManagerCall.run, Go.wp_bind, Go.wp_pure] at this
    exact Go.wp_mono this (fun _ _ h => h trivial)
  split := fun i m f p hm => by
    have := clean_call h.mono hm (.splitCentroids f) trivial
    simp only [ManagerCall.run, Go.wp_bind, Go.wp_pure] at this
    exact Go.wp_mono this (fun _ _ h => h trivial)
  merge := fun i m f p hm => by
    have := clean_call h.mono hm (.mergeCentroids f) trivial
    simp only [ManagerCall.run, Go.wp_bind, Go.wp_pure] at this
    exact Go.wp_mono this (fun _ _ h => h trivial)
  knn := fun i m v k drain p hm hk => by
    have := clean_call h.mono hm (.knnLookup v k drain) hk
    simp only [ManagerCall.run, Go.wp_bind, Go.wp_pure] at this
    exact Go.wp_mono this (fun _ _ h => h trivial)
  drainU := fun i m ord n p hm ho hn => by
    have := clean_call h.mono hm (.drainUnordered n ord) ⟨hn, ho⟩
    simp only [ManagerCall.run, Go.wp_bind, Go.wp_pure] at this
    exact Go.wp_mono this (fun _ _ h => h trivial)
  drainO := fun i m ord n p hm ho hn => by
    have := clean_call h.mono hm (.drainOrdered n ord) ⟨hn, ho⟩
    simp only [ManagerCall.run, Go.wp_bind, Go.wp_pure] at this
    exact Go.wp_mono this (fun _ _ h => h trivial)
  internal := fun i m ord n p hm ho => Go.wp_mono (Manager.wp_distributeInternal h.mono ho hm.ext n p) (fun _ _ hr => next_eff hm hr.1)
  reinit := fun d ds p hp hr => by
    obtain ⟨k, hk⟩ := hr
    refine Go.wp_mono (Centroid.wp_moveVector h.mono _ (fun e he => (hk e he).trans (hk d (by simp)).symm) p) (fun r p' hr => ?_)
    obtain ⟨c1, h1, rfl⟩ := hr
    refine ⟨Nat.le_trans hp h1.le, ?_⟩
    have key : AllLive T c1.dps := by
      intro e he hdead
      have hu := h1.upper
      rw [List.drop_zero, List.drop_zero] at hu
      have := (List.mem_filter.1 (hu.subset he)).2
      rw [(expiredAt_iff _ _).2 (h.dead hp hdead)] at this
      cases this
    split <;> exact key

theorem clean_makes {fac : Factory F} (hf : FacLax fac) : Makes fac (cleanCond T t0 size a0 S) := by
  intro v p hp
  unfold Factory.make Manager.new
  simp only [Go.wp_bind, Go.wp_checkMake, Go.wp_pure]
  exact ⟨hf.cap, hp, ⟨hf.cap, ⟨hf.knn, hf.kfn⟩, fun c hc => by simp at hc, fun c hc => by simp at hc⟩, fun i _ _ d hd => by simp [stored] at hd⟩

theorem clean_grows : Grows (F := F) (cleanCond T t0 size a0 S) := fun i m cs p hm h => next_clean hm (fun hl d hd => by
  simp only [stored, List.flatMap_append, List.mem_append] at hd
  rcases hd with hd | hd
  · exact hl d hd
  · obtain ⟨c, hc, hd⟩ := List.mem_flatMap.1 hd
    exact h c hc d hd)

/-! ### Jobs -/

theorem counts_of_valid {D : NS → Nat} {j : Job F} (h : j.valid D) : j.counts := by
  cases j with
  | rpc r => cases r <;> first | exact h | trivial
  | call c => trivial
  | put a b => cases b <;> trivial
  | query a b => cases b <;> exact h
  | task => exact h
  | loop => exact h

theorem envLax {env : Env} (h : EnvOK env) : EnvLax env := ⟨h.perm, h.rand⟩

theorem facLax [LawfulCmp F] {fac : Factory F} (h : FactoryOK fac) : FacLax fac :=
  ⟨h.cap, by rw [h.knn]; exact prefabs_goodSearch.1, by rw [h.kfn]; exact prefabs_goodSearch.2.1⟩

/-- What an action does to the heap and to tables. -/
theorem act_tables {β : Type} (act : Act F β) {w w' : World F} {r : β} {p p' : Nat} (h : act.run w p = .ok ((r, w'), p')) :
    w.heap.length ≤ w'.heap.length ∧ ∀ b ns, w'.lookup b ns = w.lookup b ns ∨ ∃ j, w.heap.length ≤ j ∧ w'.lookup b ns = some j := by
  cases act with
  | lookup a n => cases h; exact ⟨Nat.le_refl _, fun _ _ => .inl rfl⟩
  | names a => cases h; exact ⟨Nat.le_refl _, fun _ _ => .inl rfl⟩
  | addSlot a n m =>
    cases h
    refine ⟨by simp [World.addSlot], fun b ns => ?_⟩
    by_cases h1 : b = a
    · subst h1
      by_cases h2 : ns = n
      · subst h2; exact .inr ⟨_, Nat.le_refl _, lookup_addSlot ..⟩
      · exact .inl (lookup_addSlot_ns _ _ _ h2 _)
    · exact .inl (lookup_addSlot_node _ h1 _ _ _)
  | slot i f =>
    simp only [Act.run] at h
    cases hc : w.heap[i]? with
    | none => rw [hc] at h; cases h
    | some s =>
      rw [hc] at h
      simp only [bind, StateT.bind] at h
      cases hf : f s.2 p with
      | error e => rw [hf] at h; cases h
      | ok q => rw [hf] at h; cases h; exact ⟨by simp, fun _ _ => .inl rfl⟩
  | loc m =>
    simp only [Act.run, bind, StateT.bind] at h
    cases hf : m p with
    | error e => rw [hf] at h; cases h
    | ok q => rw [hf] at h; cases h; exact ⟨Nat.le_refl _, fun _ _ => .inl rfl⟩

/-- A call to a node that can be reached is answered. -/
theorem np_call_sure {I : Cond F} {env : Env} {β : Type} {body : Prog F (Option β)} {Q : Option β → Prop} {a : Addr} (hr : Reachable env a) (n : Nat)
    (h : ∀ n', n ≤ n' → NP I body n' Q) : NP I (Client.call env a body) n Q := by
  unfold Client.call
  refine np_bind (np_loc (Q := fun b => b = true) (fun p _ => Go.wp_iff.2 ⟨_, _, rfl, hr.1 p⟩)) (fun s n' hn hs => ?_)
  subst hs
  refine np_bind (h n' hn) (fun r n'' _ hq => ?_)
  refine np_bind (np_loc (Q := fun b => b = true) (fun p _ => Go.wp_iff.2 ⟨_, _, rfl, hr.2 p⟩)) (fun s n3 _ hs => ?_)
  subst hs
  exact np_pure hq

/-- The task `eltExpire` starts a goroutine for the namespace. -/
theorem np_expire_task {env : Env} {fac : Factory F} (he : EnvLax env) {cfg : Config} (hr : Reachable env cfg.loc) (fuel n : Nat) :
    NP (cleanCond T t0 size cfg.loc S) ((Job.task cfg fuel .expire : Job F).prog env fac) n (fun o => ∀ ns, S ns → Call.expire cfg.loc ns ∈ callsOf o) := by
  show NP _ (do let r ← startAll env cfg (fun ns => .expire cfg.loc ns); pure (Outcome.reports [r])) n _
  unfold startAll Client.namespaces
  refine np_bind (Q := fun r => ∃ l, r = .started l ∧ ∀ ns, S ns → Call.expire cfg.loc ns ∈ l) ?_ (fun r _ _ ⟨l, h1, h2⟩ => np_pure (by
    subst h1
    intro ns hns
    simpa [callsOf] using h2 ns hns))
  refine np_bind (Q := fun l => ∀ ns, S ns → ns ∈ l) ?_ (fun l _ _ hl => np_pure ⟨_, rfl, fun ns hns => List.mem_map.2 ⟨ns, hl ns hns, rfl⟩⟩)
  refine np_bind (np_call_sure (Q := fun o => ∃ l, o = some l ∧ ∀ ns, S ns → ns ∈ l) hr n (fun n' _ => ?_)) (fun o _ _ ⟨l, h1, h2⟩ => np_pure (by subst h1; exact h2))
  exact np_bind (np_server_namespaces he cfg.loc n') (fun l _ _ hl => np_pure ⟨l, rfl, fun ns hns => hl ns (fun h => h rfl hns rfl)⟩)

end

section
variable {F : Type} [GoFloat F] [LawfulCmp F]
variable {env : Env} {fac : Factory F} {nodes : List (Config × Nat × SkipConfig)} {w0 : World F} {p0 : Nat} {D : NS → Nat}
variable {evs : Nat → Ev F} {st : Nat → Sys F}

theorem Trace.worldOK (t : Trace env fac nodes D w0 p0 evs st) (he : EnvOK env) (hf : FactoryOK fac) (hw : WorldOK D w0) (n : Nat) :
    WorldOK D (st n).world := ((t.going n).world he hf hw (t.valid n)).1

theorem Trace.tables (t : Trace env fac nodes D w0 p0 evs st) (n : Nat) : (st n).world.heap.length ≤ (st (n + 1)).world.heap.length ∧
    ∀ b ns, (st (n + 1)).world.lookup b ns = (st n).world.lookup b ns ∨
      ∃ j, (st n).world.heap.length ≤ j ∧ (st (n + 1)).world.lookup b ns = some j := by
  obtain ⟨L, ts, _, _, _, h | ⟨_, i, β, a, k, q, h1, h2, h3, h4, h5, h6⟩⟩ := step_new (t.step n)
  · rw [h.2.1]; exact ⟨Nat.le_refl _, fun _ _ => .inl rfl⟩
  · rw [h5]; exact act_tables a h3

theorem Trace.heap_le (t : Trace env fac nodes D w0 p0 evs st) {n m : Nat} (h : n ≤ m) : (st n).world.heap.length ≤ (st m).world.heap.length :=
  monotone_nat_of_le_succ (f := fun n => (st n).world.heap.length) (fun n => (t.tables n).1) h

theorem Trace.lookup_later (t : Trace env fac nodes D w0 p0 evs st) {n m : Nat} (h : n ≤ m) (b : Addr) (ns : NS) :
    (st m).world.lookup b ns = (st n).world.lookup b ns ∨ ∃ j, (st n).world.heap.length ≤ j ∧ (st m).world.lookup b ns = some j := by
  induction m, h using Nat.le_induction with
  | base => exact .inl rfl
  | succ m hm ih =>
    rcases (t.tables m).2 b ns with h | ⟨j, h1, h2⟩
    · rw [h]; exact ih
    · exact .inr ⟨j, Nat.le_trans (t.heap_le hm) h1, h2⟩

/-- What holds at all times after `n0`, if the jobs of that time are over at `n1`: those that began later keep the invariant. -/
structure After (env : Env) (fac : Factory F) (I : Cond F) (Q : Job F → Outcome F → Prop) (len0 : Nat) (s : Sys F) : Prop where
  has : WHas I s.world
  np : ∀ i x g, len0 ≤ i → s.jobs[i]? = some x → s.progs[i]? = some g → NP I g s.world.heap.length (Q x.2)

theorem Trace.after (t : Trace env fac nodes D w0 p0 evs st) (he : EnvOK env) (hf : FactoryOK fac) (hw : WorldOK D w0) {n0 n1 : Nat} (hn : n0 ≤ n1)
    (hend : ∀ i < (st n0).jobs.length, ∃ o, (st n1).progs[i]? = some (Prog.ret o)) {T : Int} (hT : T ≤ env.tk (st n0).now) {a0 : Addr} {S : NS → Prop}
    (hl : ∀ ns, S ns → (st n0).world.lookup a0 ns ≠ none) (hr : Reachable env a0) {n : Nat} (h : n0 ≤ n) :
    After env fac (cleanCond T (st n0).now (st n1).world.heap.length a0 S)
      (fun j o => ∀ cfg fuel, j = .task cfg fuel .expire → cfg.loc = a0 → ∀ ns, S ns → Call.expire a0 ns ∈ callsOf o) (st n0).jobs.length (st n) ∧
    (n1 ≤ n → Moved (cleanCond T (st n0).now (st n1).world.heap.length a0 S) (st n).world (st (n + 1)).world) := by
  have : Late env.tk T (st n0).now := ⟨he.clock, hT⟩
  let I : Cond F := cleanCond T (st n0).now (st n1).world.heap.length a0 S
  let Q : Job F → Outcome F → Prop := fun j o => ∀ cfg fuel, j = .task cfg fuel .expire → cfg.loc = a0 → ∀ ns, S ns → Call.expire a0 ns ∈ callsOf o
  have early : ∀ n, n0 ≤ n → n ≤ n1 → WHas I (st n).world := fun n h1 h2 => by
    refine ⟨fun a ns i hi => (by
      obtain ⟨m, hm⟩ := (t.worldOK he hf hw n).points a ns i hi
      exact (List.getElem?_eq_some_iff.1 hm).1), fun i s hs hi => ?_, fun a ns e1 e2 => ?_, Nat.zero_le _⟩
    · have := (List.getElem?_eq_some_iff.1 hs).1
      have := t.heap_le h2
      have : (st n1).world.heap.length ≤ i := hi
      omega
    · subst e1
      rcases t.lookup_later h1 a ns with h | ⟨j, _, h⟩
      · rw [h]; exact hl ns e2
      · rw [h]; simp
  have hready : ∀ n, n0 ≤ n → WHas I (st n).world → I.Ready (st n).world (st n).now := fun n hn h =>
    ⟨t.now_le he hf hw hn, fun s hs => ((t.worldOK he hf hw n).slots s hs).1.wf, h⟩
  have fresh : ∀ n, ∀ x ∈ (st n).jobs, ∀ k, NP I (x.2.prog env fac) k (Q x.2) := fun n x hx k => by
    have hv := t.valid n x hx
    by_cases hq : ∃ cfg fuel, x.2 = .task cfg fuel .expire ∧ cfg.loc = a0
    · obtain ⟨cfg, fuel, e1, e2⟩ := hq
      rw [e1]
      subst e2
      exact np_mono (Nat.le_refl _) (np_expire_task (envLax he) hr fuel k) (fun o ho cfg' fuel' e' _ => ho)
    · exact np_mono (Nat.le_refl _) (np_job (envLax he) (clean_makes (facLax hf)) (fun _ => clean_grows) (counts_of_valid hv) k)
        (fun o _ cfg fuel e1 e2 => absurd ⟨cfg, fuel, e1, e2⟩ hq)
  -- one step
  have one : ∀ n, n0 ≤ n → After env fac I Q (st n0).jobs.length (st n) →
      After env fac I Q (st n0).jobs.length (st (n + 1)) ∧ (n1 ≤ n → Moved I (st n).world (st (n + 1)).world) := by
    intro n hn h
    obtain ⟨L, ts, e1, e2, e3, hc⟩ := step_new (t.step n)
    have hlen := (t.going n).length
    have new : ∀ i x g, (st n).jobs.length ≤ i → (st (n + 1)).jobs[i]? = some x → (st (n + 1)).progs[i]? = some g → ∀ k, NP I g k (Q x.2) := by
      intro i x g hi hx hg k
      have hm := List.mem_of_getElem? hx
      rw [e1, List.getElem?_append_right hi] at hx
      rw [e2, List.getElem?_append_right (by omega), e3, hlen, List.getElem?_map, hx] at hg
      cases hg
      exact fresh _ x hm k
    have old : ∀ i x, i < (st n).jobs.length → (st (n + 1)).jobs[i]? = some x → (st n).jobs[i]? = some x ∧ (st (n + 1)).progs[i]? = ts[i]? := by
      intro i x hi hx
      rw [e1, List.getElem?_append_left hi] at hx
      exact ⟨hx, by rw [e2, List.getElem?_append_left (by omega)]⟩
    rcases hc with ⟨c1, c2, c3⟩ | ⟨hL, i, β, a, k, q, c1, c2, c3, c4, c5, c6⟩
    · refine ⟨⟨by rw [c2]; exact h.has, fun i x g hi hx hg => ?_⟩, fun _ => by rw [c2]; exact .same _ _⟩
      rcases Nat.lt_or_ge i (st n).jobs.length with hlt | hge
      · obtain ⟨o1, o2⟩ := old i x hlt hx
        rw [o2, c1] at hg
        rw [c2]
        exact h.np i x g hi o1 hg
      · exact new i x g hge hx hg _
    · have hilt : i < (st n).jobs.length := by rw [← hlen]; exact (List.getElem?_eq_some_iff.1 c2).1
      have rest : ∀ (hthis : ∀ x, (st n0).jobs.length ≤ i → (st n).jobs[i]? = some x → NP I (k q.1.1) q.1.2.heap.length (Q x.2)),
          ∀ j x g, (st n0).jobs.length ≤ j → (st (n + 1)).jobs[j]? = some x → (st (n + 1)).progs[j]? = some g →
            NP I g (st (n + 1)).world.heap.length (Q x.2) := by
        intro hthis j x g hj hx hg
        rcases Nat.lt_or_ge j (st n).jobs.length with hlt | hge
        · obtain ⟨o1, o2⟩ := old j x hlt hx
          rw [o2, c4, List.getElem?_set] at hg
          split at hg
          · rename_i e; subst e
            rw [if_pos (by omega)] at hg
            cases hg
            rw [c5]
            exact hthis x hj o1
          · exact np_mono (t.heap_le (Nat.le_succ n)) (h.np j x g hj o1 hg) (fun _ h => h)
        · exact new j x g hge hx hg _
      rcases Nat.lt_or_ge i (st n0).jobs.length with hold | hnew
      · have hlt : n < n1 := by
          by_contra hge
          obtain ⟨o, ho⟩ := hend i hold
          have := t.ret_stays (show n1 ≤ n by omega) ho
          rw [c2] at this
          cases this
        exact ⟨⟨early _ (by omega) (by omega), rest (fun x hx => absurd hold (by omega))⟩, fun h => absurd hlt (by omega)⟩
      · obtain ⟨r, p', g1, g2, g3, g4, g5⟩ := h.np i _ _ hnew (List.getElem?_eq_getElem hilt) c2 (st n).world (st n).now (hready n hn h.has) (Nat.le_refl _)
        rw [c3] at g1
        cases g1
        refine ⟨⟨by rw [c5]; exact g2, rest (fun x _ hx => ?_)⟩, fun _ => by rw [c5]; exact g3⟩
        rw [List.getElem?_eq_getElem hilt] at hx
        cases hx
        exact g5
  have all : After env fac I Q (st n0).jobs.length (st n) := by
    induction n, h using Nat.le_induction with
    | base =>
      refine ⟨early n0 (Nat.le_refl _) hn, fun i x g hi hx => ?_⟩
      have := (List.getElem?_eq_some_iff.1 hx).1
      omega
    | succ m hm ih => exact (one m hm ih).1
  exact ⟨all, (one n h all).2⟩

/-- The step of `Expire` on a manager. -/
theorem expire_slot (he : EnvOK env) {w : World F} {p i : Nat} {s : NS × Manager F} (hs : w.heap[i]? = some s) (hw : s.2.WF) {q : (Unit × World F) × Nat}
    (h : (Act.slot i (fun m => do let m' ← m.expire env.tk; pure ((), m'))).run w p = .ok q) :
    ∃ m', q.1.2.heap[i]? = some (s.1, m') ∧ AllLive (env.tk p) (stored m') := by
  obtain ⟨m', p', e, h1, h2, h3⟩ := Go.wp_iff.1 (Manager.wp_expire he.clock hw p)
  simp only [Act.run, hs, bind, StateT.bind, e, Except.bind, pure, StateT.pure, Except.pure] at h
  cases h
  exact ⟨m', by simp [(List.getElem?_eq_some_iff.1 hs).1], h3⟩

theorem Trace.slot_stays (t : Trace env fac nodes D w0 p0 evs st) {I : Cond F} {n1 : Nat} (hmv : ∀ n, n1 ≤ n → Moved I (st n).world (st (n + 1)).world)
    {P : Manager F → Prop} (hP : ∀ m m', I.rel m m' → P m → P m') {n m i : Nat} (hn : n1 ≤ n) (h : n ≤ m) {s : NS × Manager F}
    (hs : (st n).world.heap[i]? = some s) (hp : P s.2) : ∃ s', (st m).world.heap[i]? = some s' ∧ P s'.2 := by
  induction m, h using Nat.le_induction with
  | base => exact ⟨s, hs, hp⟩
  | succ m hm ih =>
    obtain ⟨s', h1, h2⟩ := ih
    obtain ⟨s2, g1, g2⟩ := hmv m (Nat.le_trans hn hm) i s' h1
    exact ⟨s2, g1, hP _ _ g2 h2⟩

/-- A namespace is rid of what is expired now. -/
theorem Trace.namespace_clean (t : Trace env fac nodes D w0 p0 evs st) (he : EnvOK env) (hf : FactoryOK fac) (hw : WorldOK D w0)
    (hn : ∀ n ∈ nodes, NodeOK n) (hv : ValidRun D evs) (hfair : FairRun evs) {k : Nat} {c : Config × Nat × SkipConfig} (hk : nodes[k]? = some c)
    (hstop : ∀ m, evs m ≠ .stop k) (hr : Reachable env c.1.loc) (n0 : Nat) {T : Int} (hT : T ≤ env.tk (st n0).now) {ns : NS}
    (hl : (st n0).world.lookup c.1.loc ns ≠ none) :
    ∃ m, ∀ n, m ≤ n → ∀ mgr, (st n).world.get c.1.loc ns = some mgr → AllLive T (stored mgr) := by
  obtain ⟨n1, h01, hend⟩ := t.all_end hfair n0
  have inv := fun n (h : n0 ≤ n) => t.after he hf hw h01 hend hT (S := fun x => x = ns) (fun x e => by subst e; exact hl) hr h
  have hmv := fun n (h : n1 ≤ n) => (inv n (by omega)).2 h
  -- the task is called
  obtain ⟨m1, i, hm1, hi, hj⟩ := t.again he hf hw hn hv hfair hk hstop .expire n1
  obtain ⟨m2, hm2, o, ho⟩ := t.ends hfair (List.getElem?_eq_some_iff.1 hj).1
  have hcall : Call.expire c.1.loc ns ∈ callsOf o := by
    obtain ⟨L, hL⟩ := t.jobs_le h01
    exact (inv m2 (by omega)).1.np i _ _ (by rw [hL, List.length_append] at hi; omega) (t.jobs_stay hm2 hj) ho _ _ rfl rfl ns rfl
  -- it starts the goroutine
  obtain ⟨m3, hm3, hc⟩ := t.starts hfair hstop (t.jobs_stay hm2 hj) ho
  have hmem : Job.call (.expire c.1.loc ns) ∈ jobsFrom (.task i) (st m3) := by rw [hc]; exact List.mem_map.2 ⟨_, hcall, rfl⟩
  obtain ⟨⟨src, j⟩, hx, hj2⟩ := List.mem_map.1 hmem
  obtain ⟨hx, hsrc⟩ := List.mem_filter.1 hx
  simp only [decide_eq_true_eq] at hsrc hj2
  subst hsrc hj2
  obtain ⟨i2, hi2⟩ := List.mem_iff_getElem?.1 hx
  have hge : (st n1).jobs.length ≤ i2 := by
    by_contra hlt
    obtain ⟨L, hL⟩ := t.jobs_le (show n1 ≤ m3 by omega)
    rw [hL, List.getElem?_append_left (by omega)] at hi2
    obtain ⟨k', j', h⟩ := (t.going n1).conduct.only i (by
      intro e
      have : Job.call (.expire c.1.loc ns) ∈ jobsFrom (.task i) (st n1) :=
        List.mem_map.2 ⟨_, List.mem_filter.2 ⟨List.mem_of_getElem? hi2, by simp⟩, rfl⟩
      rw [e] at this; cases this)
    have := (List.getElem?_eq_some_iff.1 h).1
    omega
  obtain ⟨m4, hm4, _, hp4⟩ := t.begins (show n1 ≤ m3 by omega) hge hi2
  -- it reaches the node
  obtain ⟨m5, q5, hm5, r5, _, _, p5⟩ := t.acts hfair (a := Act.loc (env.sent c.1.loc)) hp4
  have e5 : q5.1.1 = true := by cases r5; exact hr.1 _
  rw [e5] at p5
  -- it finds the slot
  obtain ⟨m6, q6, hm6, r6, w6, _, p6⟩ := t.acts hfair (a := Act.lookup c.1.loc ns) p5
  cases r6
  simp only at w6 p6
  cases hlk : (st m6).world.lookup c.1.loc ns with
  | none => exact absurd hlk ((inv m6 (by omega)).1.has.tab _ _ rfl rfl)
  | some i3 =>
    rw [hlk] at p6
    -- it expires what is in the slot
    obtain ⟨m7, q7, hm7, r7, w7, _, _⟩ := t.acts hfair (a := Act.slot i3 (fun m => do let m' ← m.expire env.tk; pure ((), m'))) p6
    have hi3 : i3 < (st m7).world.heap.length := by
      have hmem : (ns, i3) ∈ (st m6).world.table c.1.loc := by
        unfold World.lookup at hlk
        exact mem_of_lookup hlk
      exact Nat.lt_of_lt_of_le ((inv m6 (by omega)).1.has.points _ _ _ hmem) (t.heap_le (by omega))
    obtain ⟨m', g1, g2⟩ := expire_slot he (List.getElem?_eq_getElem hi3) ((t.worldOK he hf hw m7).slots _ (List.getElem_mem hi3)).1.wf r7
    rw [← w7] at g1
    have hlive : AllLive T (stored m') := fun d hd hdead => g2 d hd
      ⟨hdead.1, Int.lt_of_lt_of_le hdead.2 (Int.le_trans hT (he.clock _ _ (t.now_le he hf hw (show n0 ≤ m7 by omega))))⟩
    refine ⟨m7 + 1, fun n hn mgr hg => ?_⟩
    rcases t.lookup_later (show m6 ≤ n by omega) c.1.loc ns with h | ⟨j, h1, h2⟩
    · rw [World.get, h, hlk] at hg
      obtain ⟨s', k1, k2⟩ := t.slot_stays hmv (P := fun m => AllLive T (stored m)) (fun _ _ h => h) (show n1 ≤ m7 + 1 by omega) hn g1 hlive
      simp only [Option.bind_some, k1, Option.map_some, Option.some.injEq] at hg
      subst hg
      exact k2
    · rw [World.get, h2] at hg
      simp only [Option.bind_some, Option.map_eq_some_iff] at hg
      obtain ⟨s, k1, k2⟩ := hg
      subst k2
      exact (inv n (by omega)).1.has.slots j s k1 (Nat.le_trans (t.heap_le (show n1 ≤ m6 by omega)) h1)

/-- A node is rid of what is expired now. -/
theorem Trace.clean (t : Trace env fac nodes D w0 p0 evs st) (he : EnvOK env) (hf : FactoryOK fac) (hw : WorldOK D w0)
    (hn : ∀ n ∈ nodes, NodeOK n) (hv : ValidRun D evs) (hfair : FairRun evs) {k : Nat} {c : Config × Nat × SkipConfig} (hk : nodes[k]? = some c)
    (hstop : ∀ m, evs m ≠ .stop k) (hr : Reachable env c.1.loc) (n0 : Nat) {T : Int} (hT : T ≤ env.tk (st n0).now) :
    ∃ m, ∀ n, m ≤ n → ∀ ns mgr, (st n).world.get c.1.loc ns = some mgr → AllLive T (stored mgr) := by
  obtain ⟨n1, h01, hend⟩ := t.all_end hfair n0
  have inv := fun n (h : n0 ≤ n) => t.after he hf hw h01 hend hT (S := fun _ => False) (fun _ h => h.elim) hr h
  have hT1 : T ≤ env.tk (st n1).now := Int.le_trans hT (he.clock _ _ (t.now_le he hf hw h01))
  have known : ∀ l : List NS, ∃ m, ∀ n, m ≤ n → ∀ ns ∈ l, (st n1).world.lookup c.1.loc ns ≠ none → ∀ mgr, (st n).world.get c.1.loc ns = some mgr →
      AllLive T (stored mgr) := by
    intro l
    induction l with
    | nil => exact ⟨0, fun _ _ ns h => by cases h⟩
    | cons x l ih =>
      obtain ⟨m, hm⟩ := ih
      by_cases hx : (st n1).world.lookup c.1.loc x = none
      · refine ⟨m, fun n hn' ns h hl => ?_⟩
        rcases List.mem_cons.1 h with rfl | h
        · exact absurd hx hl
        · exact hm n hn' ns h hl
      · obtain ⟨m', hm'⟩ := t.namespace_clean he hf hw hn hv hfair hk hstop hr n1 hT1 hx
        refine ⟨max m m', fun n hn' ns h hl => ?_⟩
        rcases List.mem_cons.1 h with rfl | h
        · exact hm' n (by omega)
        · exact hm n (by omega) ns h hl
  obtain ⟨m, hm⟩ := known (((st n1).world.table c.1.loc).map (fun e => e.1))
  refine ⟨max m n1, fun n hn' ns mgr hg => ?_⟩
  cases hlk : (st n1).world.lookup c.1.loc ns with
  | some i =>
    refine hm n (by omega) ns ?_ (by rw [hlk]; simp) mgr hg
    unfold World.lookup at hlk
    exact List.mem_map.2 ⟨_, mem_of_lookup hlk, rfl⟩
  | none =>
    rcases t.lookup_later (show n1 ≤ n by omega) c.1.loc ns with h | ⟨j, h1, h2⟩
    · rw [World.get, h, hlk] at hg
      cases hg
    · rw [World.get, h2] at hg
      simp only [Option.bind_some, Option.map_eq_some_iff] at hg
      obtain ⟨s, k1, k2⟩ := hg
      subst k2
      exact (inv n (by omega)).1.has.slots j s k1 h1

end
end Trypo
