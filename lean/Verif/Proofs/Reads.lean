import Verif.Proofs.ServiceTrace
import Verif.Spec.Answers
import Verif.Proofs.Found

/-!
# What goroutines learn from the slots

`Reads W p m w Q`: if all worlds that the goroutine `m` finds, from `w` on and not before the time `p`, satisfy `W`, then its
result satisfies `Q`. That the worlds satisfy `W` is not shown here: whoever uses it knows this for all states of a run.
-/

set_option linter.unusedSectionVars false

namespace Trypo
open GoFloat Spec EventLoop Service

section
variable {F : Type}

/-- Slots keep their namespaces. -/
def SlotsStay (w w' : World F) : Prop := ∀ (i : Nat) (ns : NS) (m : Manager F), w.heap[i]? = some (ns, m) → ∃ m', w'.heap[i]? = some (ns, m')

theorem SlotsStay.refl (w : World F) : SlotsStay w w := fun _ _ m h => ⟨m, h⟩

theorem SlotsStay.trans {a b c : World F} (h : SlotsStay a b) (h' : SlotsStay b c) : SlotsStay a c := fun i ns m e =>
  let ⟨m', e'⟩ := h i ns m e
  h' i ns m' e'

theorem go_bind_ok {α β : Type} {m : Go α} {f : α → Go β} {p : Nat} {q : β × Nat} (h : (m >>= f) p = .ok q) :
    ∃ r p', m p = .ok (r, p') ∧ f r p' = .ok q := by
  simp only [bind, StateT.bind, Except.bind] at h
  cases hm : m p with
  | error e => rw [hm] at h; cases h
  | ok r => rw [hm] at h; exact ⟨r.1, r.2, rfl, h⟩

theorem act_slotsStay : {β : Type} → (a : Act F β) → {w : World F} → {p : Nat} → {q : (β × World F) × Nat} →
    a.run w p = .ok q → SlotsStay w q.1.2
  | _, .lookup _ _, w, _, _, h => by cases h; exact .refl w
  | _, .names _, w, _, _, h => by cases h; exact .refl w
  | _, .loc m, w, p, q, h => by
    obtain ⟨r, p', h1, h2⟩ := go_bind_ok h
    cases h2; exact .refl w
  | _, .addSlot a ns m, w, _, _, h => by
    cases h
    intro i n m' e
    refine ⟨m', ?_⟩
    simp only [World.addSlot]
    rw [List.getElem?_append_left (List.getElem?_eq_some_iff.1 e).1]
    exact e
  | _, .slot i f, w, p, q, h => by
    simp only [Act.run] at h
    cases hs : w.heap[i]? with
    | none => rw [hs] at h; cases h
    | some s =>
      rw [hs] at h
      obtain ⟨r, p', h1, h2⟩ := go_bind_ok h
      cases h2
      intro j n m e
      simp only [List.getElem?_set]
      split
      · rename_i hij
        subst hij
        rw [hs] at e
        cases e
        rw [if_pos (List.getElem?_eq_some_iff.1 hs).1]
        exact ⟨_, rfl⟩
      · exact ⟨m, e⟩

variable {W : World F → Prop} {p0 : Nat}

/-- See the head of the file. -/
def Reads {α : Type} (W : World F → Prop) (p0 : Nat) : Prog F α → World F → (α → Prop) → Prop
  | .ret a, _, Q => Q a
  | .act a k, w, Q => ∀ w1 p1 q, SlotsStay w w1 → p0 ≤ p1 → W w1 → a.run w1 p1 = .ok q → Reads W p0 (k q.1.1) q.1.2 Q

theorem reads_mono {α : Type} {Q Q' : α → Prop} : ∀ (m : Prog F α) {w w' : World F}, SlotsStay w w' → (∀ a, Q a → Q' a) →
    Reads W p0 m w Q → Reads W p0 m w' Q'
  | .ret a, _, _, _, h, hq => h a hq
  | .act _ k, _, _, hs, h, hq => fun w1 p1 q h1 h2 h3 h4 =>
    reads_mono (k q.1.1) (.refl _) h (hq w1 p1 q (hs.trans h1) h2 h3 h4)

theorem reads_any {α : Type} {Q : α → Prop} (h : ∀ a, Q a) : ∀ (m : Prog F α) (w : World F), Reads W p0 m w Q
  | .ret a, _ => h a
  | .act _ k, _ => fun _ _ q _ _ _ _ => reads_any h (k q.1.1) _

theorem reads_bind {α β : Type} {Q : β → Prop} {f : α → Prog F β} : ∀ {m : Prog F α} {w : World F},
    Reads W p0 m w (fun a => ∀ w', Reads W p0 (f a) w' Q) → Reads W p0 (m >>= f) w Q
  | .ret _, w, h => h w
  | .act _ k, _, h => fun w1 p1 q h1 h2 h3 h4 => reads_bind (m := k q.1.1) (h w1 p1 q h1 h2 h3 h4)

theorem reads_pure {α : Type} {Q : α → Prop} {a : α} (w : World F) (h : Q a) : Reads W p0 (pure a : Prog F α) w Q := h

theorem reads_loc {α : Type} {Q : α → Prop} {m : Go α} {w : World F} (h : ∀ p r p', p0 ≤ p → m p = .ok (r, p') → Q r) :
    Reads W p0 (Prog.loc m : Prog F α) w Q := by
  intro w1 p1 q h1 h2 h3 h4
  obtain ⟨r, p', h5, h6⟩ := go_bind_ok h4
  cases h6
  exact h p1 r p' h2 h5

theorem reads_access [GoFloat F] [LawfulCmp F] {β : Type} {Q : Option β → Prop} {D : NS → Nat} (hW : ∀ w, W w → WorldOK D w) {a : Addr} {ns : NS}
    {f : Manager F → Go (β × Manager F)} (hn : Q none)
    (h : ∀ (w : World F) (i : Nat) m p r p', W w → w.heap[i]? = some (ns, m) → p0 ≤ p → f m p = .ok (r, p') → Q (some r.1)) (w : World F) :
    Reads W p0 (Server.access a ns f) w Q := by
  intro w1 p1 q h1 h2 h3 h4
  cases h4
  show Reads W p0 (match w1.lookup a ns with | none => _ | some i => _) w1 Q
  cases hl : w1.lookup a ns with
  | none => exact hn
  | some i =>
    obtain ⟨m, hm⟩ := lookup_lt (hW w1 h3) hl
    intro w2 p2 q2 g1 g2 g3 g4
    obtain ⟨m', hm'⟩ := g1 i ns m hm
    simp only [Act.run, hm'] at g4
    obtain ⟨r, p', h5, h6⟩ := go_bind_ok g4
    cases h6
    exact h w2 i m' p2 r p' g3 hm' g2 h5

theorem reads_call [GoFloat F] {β : Type} {Q : Option β → Prop} {env : Env} {a : Addr} {body : Prog F (Option β)} (hn : Q none)
    (h : ∀ w, Reads W p0 body w Q) (w : World F) : Reads W p0 (Client.call env a body) w Q := by
  unfold Client.call
  refine reads_bind (reads_any (fun b w' => ?_) _ _)
  split
  · refine reads_bind (reads_mono _ (.refl _) (fun r hr w'' => ?_) (h w'))
    refine reads_bind (reads_any (fun b w' => ?_) _ _)
    split
    · exact hr
    · exact hn
  · exact hn

end

section
variable {F : Type} [GoFloat F] [LawfulCmp F]
variable {env : Env} {D : NS → Nat} {U : NS → DataPoint F → Prop} {p0 : Nat}

/-- What is known of the worlds of a run. -/
def Known (D : NS → Nat) (U : NS → DataPoint F → Prop) (w : World F) : Prop :=
  WorldOK D w ∧ ∀ (ns : NS) (m : Manager F) (i : Nat), w.heap[i]? = some (ns, m) → ∀ d ∈ stored m, U ns d

/-- What is said about the datapoints that a lookup finds. -/
def Found (env : Env) (U : NS → DataPoint F → Prop) (p0 : Nat) (ns : NS) (tgt : Option (List F)) (l : List (DataPoint F)) : Prop :=
  ∀ d ∈ l, U ns d ∧ ¬ Dead (env.tk p0) d ∧ ∀ v, tgt = some v → Similar v d.vec

theorem found_nil {ns : NS} {tgt : Option (List F)} : Found env U p0 ns tgt ([] : List (DataPoint F)) := by intro d hd; cases hd

theorem not_dead_before (he : EnvOK env) {p : Nat} (h : p0 ≤ p) {d : DataPoint F} (hd : ¬ Dead (env.tk p) d) : ¬ Dead (env.tk p0) d :=
  fun e => hd ⟨e.1, Int.lt_of_lt_of_le e.2 (he.clock _ _ h)⟩

theorem reads_knnLookup (he : EnvOK env) {a : Addr} {ns : NS} {v : List F} {k : Int} (hk : 0 ≤ k) {drain : Bool} (w : World F) :
    Reads (Known D U) p0 (Server.knnLookup env a ns v k drain) w
      (fun r => Found env U p0 ns (some v) (r.getD []) ∧ ((r.getD []).length : Int) ≤ k) := by
  refine reads_access (fun w h => h.1) ⟨found_nil, by simpa using hk⟩ (fun w i m p r p' hw hm hp hr => ?_) w
  obtain ⟨out, cm', p2, e1, e2, e3, ⟨rest, e4⟩, _⟩ := C31_knnLookup he.clock (hw.1.slots _ (List.mem_of_getElem? hm)).1 v hk drain p
  rw [hr] at e1
  cases e1
  obtain ⟨mok, mknn, _⟩ := hw.1.slots _ (List.mem_of_getElem? hm)
  obtain ⟨r', p3, c1, c2⟩ := Go.wp_iff.1 (Manager.wp_knnLookup_cand (asc := false) (dist := cosineSimilarity) he.clock mok.wf mknn v hk drain p)
  rw [hr] at c1
  cases c1
  exact ⟨fun d hd => ⟨hw.2 ns m i hm d (e4.subset (List.mem_append_left _ hd)), not_dead_before he hp (e3 d hd), fun v' hv' => by cases hv'; exact c2 d hd⟩, e2⟩

theorem reads_drain (he : EnvOK env) {a : Addr} {ns : NS} {n : Int} {f : (List (Nat × Nat) → List (Nat × Nat)) → Manager F → Go (List (DataPoint F) × Manager F)}
    (hf : ∀ ord m p, Manager.OrdOK ord → ManagerOK m → Go.wp (f ord m) (fun r p' => Manager.Eff env.tk p p' m r.2 [] r.1 ∧ AllLive (env.tk p) r.1 ∧
      (r.1.length : Int) ≤ max n 1) p) (w : World F) :
    Reads (Known D U) p0 (Server.access a ns (fun m => do let ord ← env.mapOrder; f ord m)) w
      (fun r => Found env U p0 ns none (r.getD []) ∧ ((r.getD []).length : Int) ≤ max n 1) := by
  refine reads_access (fun w h => h.1) ⟨found_nil, by simp⟩ (fun w i m p r p' hw hm hp hr => ?_) w
  obtain ⟨ord, p1, e1, e2⟩ := go_bind_ok hr
  cases e1
  obtain ⟨r', p2, e3, e4, e5, e6⟩ := Go.wp_iff.1 (hf _ m (p + 1) (ordOK_mapOrder he p) (hw.1.slots _ (List.mem_of_getElem? hm)).1)
  rw [e2] at e3
  cases e3
  obtain ⟨lost, c1, _⟩ := e4.conserved
  exact ⟨fun d hd => ⟨hw.2 ns m i hm d (c1.subset (List.mem_append_left _ (List.mem_append_right _ hd))), not_dead_before he (Nat.le_succ_of_le hp) (e5 d hd), fun v' hv' => by cases hv'⟩, e6⟩

theorem reads_nearestCentroids {a : Addr} {ns : NS} {v : List F} {n : Int} (hn : 0 ≤ n) {drain : Bool} (w : World F) :
    Reads (Known D U) p0 (Server.nearestCentroids a ns v n drain) w (fun r => ∀ d ∈ (r.getD []).flatten, U ns d) := by
  refine reads_access (fun w h => h.1) (by simp) (fun w i m p r p' hw hm hp hr => ?_) w
  obtain ⟨q, p1, e1, e2⟩ := go_bind_ok hr
  cases e2
  obtain ⟨o, cm', e3, _, _, e4, e5⟩ := C33_nearestCentroids_data_partial (hw.1.slots _ (List.mem_of_getElem? hm)).1 v hn drain p
  rw [e1] at e3
  cases e3
  intro d hd
  obtain ⟨l, hl, hd⟩ := List.mem_flatten.1 hd
  obtain ⟨c, hc, rfl⟩ := List.mem_map.1 hl
  have hcm : c ∈ m.centroids := by
    cases drain with
    | true => exact (e4 rfl).1.subset (List.mem_append_left _ hc)
    | false => exact (e5 rfl).2 c hc
  exact hw.2 ns m i hm d (List.mem_flatMap.2 ⟨c, hcm, hd⟩)

theorem checkMake_ok {n : Int} {p p' : Nat} {u : Unit} (h : Go.checkMake n p = .ok (u, p')) : 0 ≤ n := by
  have := (Go.wp_checkMake n (fun _ _ => True) p).1 (Go.wp_iff.2 ⟨u, p', h, trivial⟩)
  exact this.1

theorem reads_client_knnLookup (he : EnvOK env) {a : Addr} {ns : NS} {v : List F} {k : Int} {drain : Bool} (w : World F) :
    Reads (Known D U) p0 (Client.knnLookup env a ns v k drain) w (fun l => Found env U p0 ns (some v) l ∧ (l.length : Int) ≤ k) := by
  unfold Client.knnLookup
  refine reads_bind (reads_loc (fun p r p' _ hr w' => ?_))
  have hk := checkMake_ok hr
  exact reads_bind (reads_mono _ (.refl w') (fun r hr w2 => reads_pure w2 hr) (reads_call ⟨found_nil, by simpa using hk⟩ (reads_knnLookup he hk) w'))

theorem reads_getFrom (he : EnvOK env) {ns : NS} {v : List F} {n : Int} {drain : Bool} : ∀ (addrs : List Addr) (res : List (DataPoint F)) (w : World F),
    Found env U p0 ns (some v) res → (res.length : Int) ≤ n →
    Reads (Known D U) p0 (Dps.getFrom env ns v n drain addrs res) w (fun l => Found env U p0 ns (some v) l ∧ (l.length : Int) ≤ n)
  | [], res, w, h, hn => ⟨h, hn⟩
  | a :: as, res, w, h, hn => by
    unfold Dps.getFrom
    refine reads_bind (reads_mono _ (.refl w) (fun l hl w' => ?_) (reads_client_knnLookup he w))
    have h1 : Found env U p0 ns (some v) (res ++ l) := fun d hd => (List.mem_append.1 hd).elim (h d) (hl.1 d)
    have h2 : ((res ++ l).length : Int) ≤ n := by rw [List.length_append]; have := hl.2; omega
    split
    · exact ⟨h1, h2⟩
    · exact reads_getFrom he as (res ++ l) w' h1 h2

theorem reads_query (he : EnvOK env) {addrs : List Addr} {o : Api.QueryOpts F} (w : World F) :
    Reads (Known D U) p0 (Api.queryDataPoint env addrs (some o)) w
      (fun r => Found env U p0 o.ns (some o.vec) (r.2.map (fun d => d.toDataPoint)) ∧ (r.2.length : Int) ≤ o.n) := by
  have key : ∀ (as : List Addr) (w : World F), Reads (Known D U) p0 (Dps.getDataPoints env as o.ns o.vec o.n o.drain) w
      (fun l => Found env U p0 o.ns (some o.vec) l ∧ (l.length : Int) ≤ o.n) := by
    intro as w
    unfold Dps.getDataPoints
    refine reads_bind (reads_loc (fun p r p' _ hr w' => ?_))
    exact reads_getFrom he as [] w' found_nil (by simpa using checkMake_ok hr)
  unfold Api.queryDataPoint
  refine reads_bind (reads_mono _ (.refl w) (Q := fun l => Found env U p0 o.ns (some o.vec) l ∧ (l.length : Int) ≤ o.n) (fun l hl w' => ?_) ?_)
  · refine reads_pure w' ⟨?_, ?_⟩
    · rw [show (Api.dataPointsToDPs l).map (fun d => d.toDataPoint) = l from (List.map_map ..).trans (List.map_id l)]; exact hl.1
    · simpa [Api.dataPointsToDPs] using hl.2
  · split
    · exact reads_bind (reads_any (fun as w' => key as w') _ _)
    · exact reads_bind (reads_any (fun as w' => key as w') _ _)

/-- What is said about what a job shows. -/
def ShowsOK (env : Env) (U : NS → DataPoint F → Prop) (p0 : Nat) (j : Job F) (o : Outcome F) : Prop :=
  ∀ ns, (∀ d ∈ j.shows o ns, U ns d ∧ (j.forDatapoints → ¬ Dead (env.tk p0) d) ∧ ∀ v, j.target = some v → Similar v d.vec) ∧ ∀ n, j.asksFor = some n → 0 ≤ n → ((j.shows o ns).length : Int) ≤ n

theorem reads_job (he : EnvOK env) {fac : Factory F} {j : Job F} (hv : j.valid D) (w : World F) :
    Reads (Known D U) p0 (j.prog env fac) w (ShowsOK env U p0 j) := by
  have triv : (∀ o ns, j.shows o ns = []) → Reads (Known D U) p0 (j.prog env fac) w (ShowsOK env U p0 j) := fun h =>
    reads_any (fun o ns => by rw [h]; exact ⟨fun d hd => (by cases hd), fun n _ hn => by simpa using hn⟩) _ _
  cases j with
  | call c => exact triv (fun o ns => rfl)
  | put addrs body => exact triv (fun o ns => rfl)
  | task cfg fuel t => exact triv (fun o ns => rfl)
  | loop cfg fuel skip n iter => exact triv (fun o ns => rfl)
  | query addrs body =>
    cases body with
    | none => exact triv (fun o ns => rfl)
    | some o =>
      refine reads_bind (reads_mono _ (.refl w) (fun r hr w' => ?_) (reads_query he w))
      refine reads_pure w' (fun ns => ?_)
      simp only [Job.shows]
      split
      · rename_i e
        subst e
        exact ⟨fun d hd => ⟨(hr.1 d hd).1, fun _ => (hr.1 d hd).2.1, (hr.1 d hd).2.2⟩, fun n hn _ => by cases hn; simpa using hr.2⟩
      · exact ⟨fun d hd => (by cases hd), fun n hn h0 => by simpa using h0⟩
  | rpc r =>
    have dps : ∀ {m : Prog F (Option (List (DataPoint F)))} {n : Int}, (∀ w, Reads (Known D U) p0 m w
        (fun q => Found env U p0 r.ns (Job.rpc r).target (q.getD []) ∧ ((q.getD []).length : Int) ≤ n)) → (r.serve env fac = answer .dps m) →
        (∀ l, r.shows (.dps l) = l) → r.shows .noNamespace = [] → ((Job.rpc r).asksFor = some n) →
        Reads (Known D U) p0 ((Job.rpc r).prog env fac) w (ShowsOK env U p0 (.rpc r)) := by
      intro m n hm hs h1 h2 h3
      show Reads _ _ (r.serve env fac >>= fun a => pure (Outcome.answer a)) _ _
      rw [hs]
      refine reads_bind (reads_bind (reads_mono _ (.refl w) (fun q hq w' => ?_) (hm w)))
      have hcases : ∀ a : Answer F, r.shows a = q.getD [] → ShowsOK env U p0 (.rpc r) (.answer a) := by
        intro a ha ns
        simp only [Job.shows]
        split
        · rename_i e
          subst e
          rw [ha]
          exact ⟨fun d hd => ⟨(hq.1 d hd).1, fun _ => (hq.1 d hd).2.1, (hq.1 d hd).2.2⟩, fun k hk _ => by rw [h3] at hk; cases hk; exact hq.2⟩
        · exact ⟨fun d hd => (by cases hd), fun n hn h0 => by simpa using h0⟩
      cases q with
      | none => exact fun w'' => reads_pure w'' (hcases _ h2)
      | some l => exact fun w'' => reads_pure w'' (hcases _ (h1 l))
    cases r with
    | knnLookup a ns v k drain => exact dps (reads_knnLookup he hv) rfl (fun _ => rfl) rfl rfl
    | drainUnordered a ns n =>
      refine dps (n := max n 1) (fun w => reads_drain he (fun ord m p ho hm => ?_) w) rfl (fun _ => rfl) rfl rfl
      exact Go.wp_mono (Manager.wp_drainUnordered he.clock ho hm.wf hv p) (fun r p' h => ⟨h.1, h.2.2⟩)
    | drainOrdered a ns n =>
      refine dps (n := max n 1) (fun w => reads_drain he (fun ord m p ho hm => ?_) w) rfl (fun _ => rfl) rfl rfl
      exact Go.wp_mono (Manager.wp_drainOrdered he.clock ho hm.wf hv p) (fun r p' h => ⟨h.1, h.2.2⟩)
    | nearestCentroids a ns v n drain =>
      refine reads_bind (reads_bind (reads_mono _ (.refl w) (fun q hq w' => ?_) (reads_nearestCentroids hv w)))
      have hcases : ∀ b : Answer F, (Request.nearestCentroids a ns v n drain).shows b = (q.getD []).flatten →
          ShowsOK env U p0 (.rpc (.nearestCentroids a ns v n drain)) (.answer b) := by
        intro b hb ns'
        simp only [Job.shows]
        split
        · rename_i e
          cases e
          rw [hb]
          exact ⟨fun d hd => ⟨hq d hd, fun h => h.elim, fun v hv => by cases hv⟩, fun k hk _ => by cases hk⟩
        · exact ⟨fun d hd => (by cases hd), fun n hn h0 => by simpa using h0⟩
      cases q with
      | none => exact fun w'' => reads_pure w'' (hcases _ rfl)
      | some l => exact fun w'' => reads_pure w'' (hcases _ rfl)
    | _ => exact triv (fun o ns => by cases o <;> simp [Job.shows, Request.shows])

end
end Trypo
