import Verif.Props.ServerWitness
import Verif.Spec.Requests

/-!
# The RPC server and client: delegation, `NearestCentroids`, `Namespaces`, `Meta`
-/

set_option linter.unusedSectionVars false
set_option linter.unusedVariables false

namespace Trypo
open GoFloat Spec

variable {F : Type} [GoFloat F] {α β : Type}

theorem Go.bind_ok {m : Go α} {f : α → Go β} {p p' : Nat} {a : α} (h : m p = .ok (a, p')) : (m >>= f) p = f a p' := by
  show (StateT.bind m f p) = _
  unfold StateT.bind
  show (Except.bind (m p) _) = _
  rw [h]; rfl

theorem Go.bind_error {m : Go α} {f : α → Go β} {p : Nat} {e : Panic} (h : m p = .error e) : (m >>= f) p = .error e := by
  show (StateT.bind m f p) = _
  unfold StateT.bind
  show (Except.bind (m p) _) = _
  rw [h]; rfl

/-! ### C59: server methods are the methods of the manager -/

/-- A panic of the first computation is a panic of the whole. -/
theorem run_congr_map {m : Go α} {f : α → β} {p : Nat} :
    (f <$> m : Go β) p = match m p with | .ok (a, p') => .ok (f a, p') | .error e => .error e := by
  show (StateT.map f m p) = _
  unfold StateT.map
  cases h : m p with
  | error e => rfl
  | ok r => obtain ⟨a, p'⟩ := r; rfl

theorem inRange_eq (min max : Int) : (Server.inRange min max : Centroid F → Bool) = sizeBetween min max := by
  funext c
  rw [Bool.eq_iff_iff]
  simp only [Server.inRange, sizeBetween, Bool.and_eq_true, decide_eq_true_eq]
  exact Iff.rfl

/-- What `access` does with the manager, followed by making an answer of it. -/
theorem run_answer_access {a : Addr} {ns : NS} {w : World F} {i : Nat} {m : Manager F} (h : w.lookup a ns = some i)
    (hm : w.heap[i]? = some (ns, m)) (f : Manager F → Go (β × Manager F)) (g : β → Answer F) :
    (answer g (Server.access a ns f)).run w = ((fun r : β × Manager F => (g r.1, w.put i ns r.2)) <$> f m) := by
  unfold answer
  rw [run_bind, run_access_some h hm, bind_assoc]
  simp only [pure_bind, run_pure]
  rfl

theorem run_onManager {env : Env} {fac : Factory F} {w : World F} {req : Request F} {f : Manager F → Go (Answer F × Manager F)}
    (hf : req.onManager env = some f) {i : Nat} {m : Manager F} (h : w.lookup req.node req.ns = some i)
    (hm : w.heap[i]? = some (req.ns, m)) :
    (req.serve env fac).run w = ((fun r : Answer F × Manager F => (r.1, w.put i req.ns r.2)) <$> f m) := by
  cases req with
  | distributeFast => cases hf
  | distributeAccurate => cases hf
  | stealCentroid => cases hf
  | add a ns d =>
    cases hf
    show ((Server.addDataPoint env fac a ns d >>= fun b => pure (.bool b)) : Prog F (Answer F)).run w = _
    unfold Server.addDataPoint
    rw [run_bind, run_bind, run_access_some (show w.lookup a ns = some i from h) (show w.heap[i]? = some (ns, m) from hm)]
    simp only [bind_assoc, pure_bind, run_pure, map_eq_pure_bind]
    rfl
  | nearestCentroidVec a ns v =>
    cases hf
    refine (run_answer_access h hm _ _).trans ?_
    simp only [map_eq_pure_bind, bind_assoc, pure_bind]
    congr 1
    funext r
    cases r.1.getD [] <;> rfl
  | splitCentroids a ns min max =>
    cases hf
    refine (run_answer_access h hm _ _).trans ?_
    simp only [map_eq_pure_bind, bind_assoc, pure_bind, inRange_eq]
  | mergeCentroids a ns min max =>
    cases hf
    refine (run_answer_access h hm _ _).trans ?_
    simp only [map_eq_pure_bind, bind_assoc, pure_bind, inRange_eq]
  | lenDP a ns =>
    cases hf
    refine (run_answer_access h hm _ _).trans ?_
    simp only [map_eq_pure_bind, pure_bind]
    simp only [stored, Manager.lenDP, Centroid.lenDP, List.length_flatMap]
  | _ =>
    cases hf
    refine (run_answer_access h hm _ _).trans ?_
    simp only [map_eq_pure_bind, bind_assoc, pure_bind]

/-- C59. A request to an existing namespace does to the manager of that namespace exactly what the manager's method does,
gives its answer, and leaves every other manager alone; it panics exactly when the method does. -/
theorem C59_delegates [LawfulCmp F] {env : Env} {fac : Factory F} {D : NS → Nat} {w : World F} (hw : WorldOK D w) {req : Request F}
    {f : Manager F → Go (Answer F × Manager F)} (hf : req.onManager env = some f) {m : Manager F}
    (hg : w.get req.node req.ns = some m) (p : Nat) :
    (∀ e, f m p = .error e → (req.serve env fac).run w p = .error e) ∧
    ∀ ans m' p', f m p = .ok ((ans, m'), p') → ∃ w', (req.serve env fac).run w p = .ok ((ans, w'), p') ∧
      w'.get req.node req.ns = some m' ∧ ∀ b ns', (b ≠ req.node ∨ ns' ≠ req.ns) → w'.get b ns' = w.get b ns' := by
  obtain ⟨i, hl, hi⟩ := lookup_of_get hw hg
  rw [run_onManager hf hl hi, run_congr_map]
  refine ⟨fun e he => by rw [he], fun ans m' p' he => ?_⟩
  rw [he]
  exact ⟨_, rfl, get_put_self hl hi, fun b ns' hb => get_put_other hw hl hi hb⟩

/-! ### C40: Namespaces and Meta -/

theorem mem_keys {D : NS → Nat} {w : World F} (hw : WorldOK D w) {a : Addr} {ns : NS} :
    ns ∈ (w.table a).map (fun e => e.1) ↔ ∃ m, w.get a ns = some m := by
  constructor
  · intro h
    obtain ⟨e, he, rfl⟩ := List.mem_map.1 h
    cases hg : w.get a e.1 with
    | some m => exact ⟨m, rfl⟩
    | none =>
      have := (get_eq_none_iff hw).1 hg
      rw [World.lookup, List.lookup_eq_none_iff] at this
      exact absurd (this e he) (by simp)
  · rintro ⟨m, hg⟩
    obtain ⟨i, hl, _⟩ := lookup_of_get hw hg
    exact List.mem_map.2 ⟨_, mem_of_lookup hl, rfl⟩

theorem wp_names {env : Env} (he : EnvOK env) {D : NS → Nat} {w : World F} (hw : WorldOK D w) (a : Addr) (p : Nat) :
    Go.wp ((Server.namespaces env a : Prog F (List NS)).run w)
      (fun r p' => r.2 = w ∧ r.1.Nodup ∧ ∀ ns, ns ∈ r.1 ↔ ∃ m, w.get a ns = some m) p := by
  unfold Server.namespaces
  rw [run_bind, run_ofAct]
  show Go.wp ((pure ((w.table a).map (fun e => e.1), w) : Go _) >>= _) _ _
  rw [pure_bind, run_loc, Go.wp_bind]
  refine wp_shuffled he (fun l' hl' => ?_)
  rw [Go.wp_pure]
  exact ⟨rfl, hl'.nodup_iff.2 (hw.keys a), fun ns => by rw [hl'.mem_iff, mem_keys hw]⟩

theorem wp_names_le {env : Env} (he : EnvOK env) {w : World F} (a : Addr) (p : Nat) :
    Go.wp ((Server.namespaces env a : Prog F (List NS)).run w) (fun _ p' => p ≤ p') p := by
  unfold Server.namespaces
  rw [run_bind, run_ofAct]
  show Go.wp ((pure ((w.table a).map (fun e => e.1), w) : Go _) >>= _) _ _
  rw [pure_bind, run_loc, Go.wp_bind]
  exact wp_shuffled he (fun l' _ => by rw [Go.wp_pure]; omega)

/-- C40, namespaces. `Namespaces` lists every namespace of the node once, and nothing else. -/
theorem C40_namespaces {env : Env} (he : EnvOK env) {D : NS → Nat} {w : World F} (hw : WorldOK D w) (a : Addr) (p : Nat) :
    ∃ l p', (Server.namespaces env a : Prog F (List NS)).run w p = .ok ((l, w), p') ∧ l.Nodup ∧
      ∀ ns, ns ∈ l ↔ ∃ m, w.get a ns = some m := by
  obtain ⟨r, p', h0, h1, h2, h3⟩ := Go.wp_iff.1 (wp_names he hw a p)
  exact ⟨r.1, p', by rw [h0, ← h1], h2, h3⟩

/-- The table `Meta` should report, for the given namespaces. -/
theorem wp_metaEach {D : NS → Nat} {w : World F} (hw : WorldOK D w) (a : Addr) : ∀ (l : List NS) (p : Nat),
    (∀ ns ∈ l, ∃ m, w.get a ns = some m) →
    Go.wp ((Prog.each (fun ns => do
      let q ← Server.access a ns (fun m : Manager F => pure ((m.centroids.length, m.lenDP), m))
      pure (q.map (fun q => (ns, q)))) l).run w)
      (fun r p' => r.2 = w ∧ p' = p ∧ (r.1.filterMap id).map (fun e => e.1) = l ∧ ∀ e ∈ r.1.filterMap id,
        ∃ m, w.get a e.1 = some m ∧ e.2 = (m.centroids.length, (stored m).length)) p
  | [], p, _ => by
    show Go.wp (pure ([], w) : Go _) _ _
    rw [Go.wp_pure]; simp
  | ns :: l, p, h => by
    obtain ⟨m, hm⟩ := h ns (by simp)
    obtain ⟨i, hl, hi⟩ := lookup_of_get hw hm
    have hput : w.put i ns m = w := by
      unfold World.put
      obtain ⟨hlt, hi'⟩ := List.getElem?_eq_some_iff.1 hi
      rw [← hi', List.set_getElem_self]
    unfold Prog.each
    rw [run_bind, run_bind, run_access_some hl hi]
    simp only [pure_bind, run_pure, hput]
    rw [run_bind, Go.wp_bind]
    refine Go.wp_mono (wp_metaEach hw a l p (fun x hx => h x (by simp [hx]))) (fun r p' hr => ?_)
    obtain ⟨h1, h2, h3, h4⟩ := hr
    rw [run_pure, Go.wp_pure]
    refine ⟨h1, h2, by simpa using h3, ?_⟩
    intro e hme
    simp only [Option.map_some, List.filterMap_cons, id_eq, List.mem_cons] at hme
    rcases hme with rfl | hme
    · exact ⟨m, hm, by simp [stored, Manager.lenDP, Centroid.lenDP, List.length_flatMap]⟩
    · exact h4 e hme

theorem wp_meta {env : Env} (he : EnvOK env) {D : NS → Nat} {w : World F} (hw : WorldOK D w) (a : Addr) (p : Nat) :
    Go.wp ((Server.getMeta env a : Prog F _).run w) (fun r p' => p ≤ p' ∧ r.2 = w ∧ (r.1.map (fun e => e.1)).Nodup ∧
      (∀ ns k n, (ns, k, n) ∈ r.1 ↔ ∃ m, w.get a ns = some m ∧ k = m.centroids.length ∧ n = (stored m).length)) p := by
  unfold Server.getMeta
  rw [run_bind, Go.wp_bind]
  refine Go.wp_mono (Go.wp_and (wp_names he hw a p) (wp_names_le he a p)) (fun r p' hr => ?_)
  obtain ⟨⟨h1, h2, h3⟩, hle⟩ := hr
  rw [h1, run_bind, Go.wp_bind]
  refine Go.wp_mono (wp_metaEach hw a r.1 p' (fun ns hns => (h3 ns).1 hns)) (fun q p'' hq => ?_)
  obtain ⟨q1, q2, q3, q4⟩ := hq
  rw [run_pure, Go.wp_pure]
  refine ⟨by omega, q1, by rw [q3]; exact h2, fun ns k n => ⟨fun hmem => ?_, ?_⟩⟩
  · obtain ⟨m, e1, e2⟩ := q4 _ hmem
    exact ⟨m, e1, by cases e2; exact ⟨rfl, rfl⟩⟩
  · rintro ⟨m, hg, rfl, rfl⟩
    have : ns ∈ (q.1.filterMap id).map (fun e => e.1) := by rw [q3]; exact (h3 ns).2 ⟨m, hg⟩
    obtain ⟨e, he', rfl⟩ := List.mem_map.1 this
    obtain ⟨m', e1, e2⟩ := q4 e he'
    rw [hg] at e1; cases e1
    rw [← e2]; exact he'

/-- C40, `Meta`. It reports every namespace of the node once, with the number of its centroids and of its datapoints, and
changes nothing. -/
theorem C40_meta {env : Env} (he : EnvOK env) {D : NS → Nat} {w : World F} (hw : WorldOK D w) (a : Addr) (p : Nat) :
    ∃ l p', (Server.getMeta env a : Prog F _).run w p = .ok ((l, w), p') ∧ (l.map (fun e => e.1)).Nodup ∧
      (∀ ns k n, (ns, k, n) ∈ l ↔ ∃ m, w.get a ns = some m ∧ k = m.centroids.length ∧ n = (stored m).length) := by
  obtain ⟨r, p', h0, _, h1, h2⟩ := Go.wp_iff.1 (wp_meta he hw a p)
  exact ⟨r.1, p', by rw [h0, ← h1], h2⟩

/-! ### C39: the client's NearestCentroids -/

/-- What the filtering loop leaves behind. -/
theorem dropEmpty_spec : ∀ (l : List (List α)),
    (([] : List α) ∈ Client.dropEmpty l ↔ ∃ a b, l = a ++ [] :: [] :: b) ∧
    (([] : List α) ∉ Client.dropEmpty l → Client.dropEmpty l = l.filter (fun x => !x.isEmpty))
  | [] => ⟨by simp [Client.dropEmpty], by simp [Client.dropEmpty]⟩
  | [[]] => ⟨by
      simp only [Client.dropEmpty, List.not_mem_nil, false_iff]
      rintro ⟨a, b, h⟩
      have := congrArg List.length h
      simp at this; omega, by simp [Client.dropEmpty]⟩
  | [] :: x :: xs => by
    obtain ⟨i1, i2⟩ := dropEmpty_spec xs
    cases x with
    | nil => exact ⟨⟨fun _ => ⟨[], xs, rfl⟩, fun _ => by simp [Client.dropEmpty]⟩, fun h => absurd (by simp [Client.dropEmpty]) h⟩
    | cons y ys =>
      simp only [Client.dropEmpty, List.mem_cons, List.nil_eq, reduceCtorEq, false_or]
      refine ⟨i1.trans ⟨?_, ?_⟩, fun h => ?_⟩
      · rintro ⟨a, b, rfl⟩; exact ⟨[] :: (y :: ys) :: a, b, rfl⟩
      · rintro ⟨a, b, h⟩
        match a, h with
        | [], h => simp at h
        | [_], h => simp at h
        | _ :: _ :: a, h =>
          simp only [List.cons_append, List.cons.injEq] at h
          exact ⟨a, b, h.2.2⟩
      · simp [i2 h]
  | (y :: ys) :: xs => by
    obtain ⟨i1, i2⟩ := dropEmpty_spec xs
    simp only [Client.dropEmpty, List.mem_cons, List.nil_eq, reduceCtorEq, false_or]
    refine ⟨i1.trans ⟨?_, ?_⟩, fun h => ?_⟩
    · rintro ⟨a, b, rfl⟩; exact ⟨(y :: ys) :: a, b, rfl⟩
    · rintro ⟨a, b, h⟩
      match a, h with
      | [], h => simp at h
      | _ :: a, h =>
        simp only [List.cons_append, List.cons.injEq] at h
        exact ⟨a, b, h.2⟩
    · simp [i2 h]

/-- A usable centroid made of the datapoints `l`. -/
structure Usable (t : Int) (n : Nat) (l : List (DataPoint F)) (c : Centroid F) : Prop where
  search : c.knn = knnCos ∧ c.kfn = kfnCos
  dim : c.vec.length = n ∧ ∀ d ∈ c.dps, d.vec.length = n
  data : Conserved t l c.dps []
  moved : c.dps ≠ [] → c.vec = (vecMean (c.dps.map (fun d => d.vec))).1

theorem wp_reinit_usable {env : Env} (hm : MonoClock env.tk) {n : Nat} {l : List (DataPoint F)} (hne : l ≠ [])
    (hl : ∀ d ∈ l, d.vec.length = n) (p : Nat) :
    Go.wp (Client.reinit env.tk l) (fun x p' => p ≤ p' ∧ Usable (env.tk p') n l x) p := by
  cases l with
  | nil => exact absurd rfl hne
  | cons d l =>
    unfold Client.reinit Client.centroidFactory Centroid.new
    simp only [Go.wp_bind, Go.wp_idx]
    refine ⟨d, rfl, ?_⟩
    simp only [Go.wp_checkMake, Go.wp_pure]
    refine ⟨by omega, ?_⟩
    have hd : Centroid.DimOK (⟨d.vec, d :: l, knnCos, kfnCos⟩ : Centroid F) := by
      intro x hx
      show x.vec.length = d.vec.length
      rw [hl x hx, hl d (by simp)]
    refine Go.wp_mono (Go.wp_and (Centroid.callOK_moveVector hm _ hd p) (Centroid.wp_moveVector hm _ hd p)) (fun r p' hr => ?_)
    obtain ⟨hr, c1, h1, h2⟩ := hr
    have hvl : r.2.vec.length = n := by rw [hr.dim.1]; exact hl d (by simp)
    refine ⟨hr.le, hr.search, ⟨hvl, fun x hx => by rw [hr.dim.2 x hx, hvl]⟩, by simpa using hr.conserved, fun hne => ?_⟩
    split at h2
    · rw [h2]
    · rename_i hf
      rw [h2] at hne hr
      exfalso
      apply hf
      rw [(C01_vecMean_flag _).1]
      obtain ⟨e, es, he⟩ := List.exists_cons_of_ne_nil hne
      simp only at he
      refine ⟨e.vec, by rw [he]; rfl, fun u hu => ?_⟩
      obtain ⟨y, hy, rfl⟩ := List.mem_map.1 hu
      rw [hr.dim.2 y hy, hr.dim.2 e (by rw [he]; simp)]

theorem wp_reinitAll {env : Env} (hm : MonoClock env.tk) {n : Nat} : ∀ (ls : List (List (DataPoint F))) (p : Nat), [] ∉ ls →
    (∀ l ∈ ls, ∀ d ∈ l, d.vec.length = n) →
    Go.wp (Client.reinitAll env.tk ls) (fun cs p' => p ≤ p' ∧ List.Forall₂ (Usable (env.tk p') n) ls cs) p
  | [], p, _, _ => by
    unfold Client.reinitAll; rw [Go.wp_pure]; exact ⟨Nat.le_refl _, .nil⟩
  | l :: ls, p, h, hd => by
    unfold Client.reinitAll
    simp only [Go.wp_bind]
    refine Go.wp_mono (wp_reinit_usable hm (fun e => h (by simp [e])) (hd l (by simp)) p) (fun c p1 hc => ?_)
    refine Go.wp_mono (wp_reinitAll hm ls p1 (fun hx => h (by simp [hx])) (fun x hx => hd x (by simp [hx]))) (fun cs p2 hcs => ?_)
    rw [Go.wp_pure]
    exact ⟨Nat.le_trans hc.1 hcs.1, .cons ⟨hc.2.search, hc.2.dim, hc.2.data.mono hm hcs.1, hc.2.moved⟩ hcs.2⟩

theorem reinitAll_panics (tk : Nat → Int) {n : Nat} {env : Env} (htk : env.tk = tk) (hm : MonoClock tk) :
    ∀ (ls : List (List (DataPoint F))) (p : Nat), [] ∈ ls → (∀ l ∈ ls, ∀ d ∈ l, d.vec.length = n) →
    Client.reinitAll tk ls p = .error .index
  | [], p, h, _ => by simp at h
  | [] :: ls, p, _, _ => by
    unfold Client.reinitAll Client.reinit
    rfl
  | (d :: l) :: ls, p, h, hd => by
    have hls : ([] : List (DataPoint F)) ∈ ls := by simpa using h
    obtain ⟨c, p1, h0, _⟩ := Go.wp_iff.1 (wp_reinit_usable (env := env) (htk ▸ hm) (by simp) (hd (d :: l) (by simp)) p)
    rw [htk] at h0
    have ih := reinitAll_panics tk htk hm ls p1 hls (fun x hx => hd x (by simp [hx]))
    unfold Client.reinitAll
    rw [Go.bind_ok h0, Go.bind_error ih]

/-- C39, what holds. When the answer of the server has no two empty centroids in a row, the client returns a usable
centroid for every centroid that is not empty, in order: with the cosine searches, the datapoints of the answer (except
those that expired), and their mean as its vector. Missing: two empty centroids in a row make the client panic. -/
theorem C39_unpack_partial {env : Env} (hm : MonoClock env.tk) {n : Nat} (resp : List (List (DataPoint F)))
    (hd : ∀ l ∈ resp, ∀ d ∈ l, d.vec.length = n) (p : Nat) :
    ((∃ a b, resp = a ++ [] :: [] :: b) → Client.unpack env.tk resp p = .error .index) ∧
    ((¬ ∃ a b, resp = a ++ [] :: [] :: b) → ∃ o p', Client.unpack env.tk resp p = .ok (o, p') ∧ (o = none ↔ resp = []) ∧
      ∀ cs, o = some cs → List.Forall₂ (Usable (env.tk p') n) (resp.filter (fun l => !l.isEmpty)) cs) := by
  obtain ⟨h1, h2⟩ := dropEmpty_spec resp
  have hsub : ∀ l ∈ Client.dropEmpty resp, l ∈ resp := by
    have : ∀ (l : List (List (DataPoint F))), (Client.dropEmpty l).Sublist l := by
      intro l
      fun_induction Client.dropEmpty l with
      | case1 => exact .slnil
      | case2 => simp
      | case3 x xs ih => exact .cons _ (ih.cons_cons _)
      | case4 y ys xs ih => exact ih.cons_cons _
    exact fun l hl => (this resp).subset hl
  have hne : ∀ {a b : List (List (DataPoint F))}, resp = a ++ [] :: [] :: b → resp.length ≠ 0 := by
    rintro a b rfl; simp
  refine ⟨fun h => ?_, fun h => ?_⟩
  · obtain ⟨a, b, hab⟩ := h
    unfold Client.unpack
    rw [if_neg (hne hab)]
    rw [Go.bind_error (reinitAll_panics env.tk rfl hm _ p (h1.2 ⟨a, b, hab⟩) (fun l hl => hd l (hsub l hl)))]
  · have hno := mt h1.1 h
    have key : Go.wp (Client.unpack env.tk resp) (fun o p' => (o = none ↔ resp = []) ∧
        ∀ cs, o = some cs → List.Forall₂ (Usable (env.tk p') n) (resp.filter (fun l => !l.isEmpty)) cs) p := by
      unfold Client.unpack
      rw [Go.wp_ite]
      refine ⟨fun h0 => ?_, fun h0 => ?_⟩
      · rw [Go.wp_pure]; exact ⟨by simpa using h0, by simp⟩
      · rw [Go.wp_bind]
        refine Go.wp_mono (wp_reinitAll hm _ p hno (fun l hl => hd l (hsub l hl))) (fun cs p' hcs => ?_)
        rw [Go.wp_pure]
        refine ⟨by simpa using h0, fun cs' e => ?_⟩
        cases e
        rw [← h2 hno]; exact hcs.2
    exact Go.wp_iff.1 key

/-! ### Refutation and examples -/

namespace ServerExample

/-- Requests one after the other, and then a `NearestCentroids` call of a client. -/
def thenNearest (reqs : List (Request F64)) (v : List F64) (n : Int) : Prog F64 (Bool × Option (List (Centroid F64))) := do
  let _ ← Prog.each (fun r => r.serve env fac) reqs
  Client.nearestCentroids env 1 7 v n false

/-- Two centroids, one of them drained. -/
def halfEmpty : List (Request F64) := [.add 1 7 (dp 1 0), .add 1 7 (dp 1 1), .splitCentroids 1 7 0 10, .drainUnordered 1 7 1]

/-- Vectors and contents of the centroids. -/
def obsC (r : (Bool × Option (List (Centroid F64))) × World F64) : Bool × List (List F64) × List (List (DataPoint F64)) :=
  (r.1.1, (r.1.2.getD []).map (fun c => c.vec), (r.1.2.getD []).map (fun c => c.dps))

/-- Requests one after the other, starting from the world `two`. -/
def seqTwo (reqs : List (Request F64)) : Go (List (Answer F64) × World F64) :=
  (Prog.each (fun r => r.serve env fac) reqs).run two

end ServerExample
open ServerExample

theorem error_of_map {x : Except Panic α} {e : Panic} (h : x.map (fun _ => ()) = .error e) : x = .error e := by
  cases x with
  | error e' => cases h; rfl
  | ok a => cases h

/-- C39 fails: with two empty centroids in a row in the answer, the client panics. Two insertions, a split and a drain lead
there. -/
theorem C39_refuted : (thenNearest [.add 1 7 (dp 1 0), .add 1 7 (dp 1 0), .splitCentroids 1 7 0 10, .drainUnordered 1 7 10]
    [.ofInt 1, .ofInt 0] 2).run start 0 = .error .index :=
  error_of_map (by decide +kernel)

/-- C39: one empty centroid is left out, the other one is usable. -/
example : ∃ r p', (thenNearest halfEmpty [.ofInt 1, .ofInt 0] 2).run start 0 = .ok (r, p') ∧
    obsC r = (false, [[.ofInt 1, .ofInt 0]], [[dp 1 0]]) :=
  exists_of_run (by decide +kernel)

/-- C39: an answer with a single empty centroid, and one with two in a row. -/
example : (∃ cs p', Client.unpack env.tk [[], [dp 1 0], [], [dp 0 1, dp 2 1]] 0 = .ok (some cs, p') ∧ cs.length = 2) ∧
    Client.unpack env.tk [[dp 1 0], [], [], [dp 0 1]] 0 = .error .index := by
  refine ⟨?_, (C39_unpack_partial env_ok.clock (n := 2) _ (by simp [dp]) 0).1 ⟨[[dp 1 0]], [[dp 0 1]], rfl⟩⟩
  obtain ⟨o, p', h1, h2, h3⟩ := (C39_unpack_partial env_ok.clock (n := 2) [[], [dp 1 0], [], [dp 0 1, dp 2 1]] (by simp [dp]) 0).2 (by
    rintro ⟨a, b, h⟩
    match a, h with
    | [], h => cases h
    | [_], h => cases h
    | [_, _], h => cases h
    | [_, _, _], h => cases h
    | _ :: _ :: _ :: _ :: a, h => simp at h)
  cases o with
  | none => simp at h2
  | some cs => exact ⟨cs, p', h1, (h3 cs rfl).length_eq.symm⟩

/-- C40: the names and sizes at node 1. -/
example : (∃ l p', (Server.namespaces env 1 : Prog F64 _).run two 0 = .ok ((l, two), p') ∧ l.Nodup ∧
    ∀ ns, ns ∈ l ↔ ∃ m, two.get 1 ns = some m) ∧
    ∃ r p', (Server.getMeta env 1 : Prog F64 _).run two 0 = .ok (r, p') ∧ r.1 = [(7, 1, 2), (8, 1, 1)] :=
  ⟨C40_namespaces env_ok two_ok 1 0, exists_of_run (by decide +kernel)⟩

/-- C59: a lookup without drain at node 1. -/
example {m : Manager F64} (hm : two.get 1 7 = some m) (ans : Answer F64) (m' : Manager F64) (p' : Nat)
    (h : (do let r ← m.knnLookup env.tk [.ofInt 1, .ofInt 0] 1 false; pure (.dps r.1, r.2) : Go (Answer F64 × Manager F64)) 0 =
      .ok ((ans, m'), p')) :
    ∃ w', ((Request.knnLookup 1 7 [.ofInt 1, .ofInt 0] 1 false).serve env fac).run two 0 = .ok ((ans, w'), p') ∧
      w'.get 1 7 = some m' :=
  let ⟨w', h1, h2, _⟩ := (C59_delegates (fac := fac) (req := .knnLookup 1 7 [.ofInt 1, .ofInt 0] 1 false) (f := _) two_ok rfl hm 0).2 ans m' p' h
  ⟨w', h1, h2⟩

/-- C59: the requests and their answers. -/
example : ∃ r p', seqTwo [.knnLookup 1 7 [.ofInt 1, .ofInt 0] 1 false, .lenDP 1 7,
      .knnLookup 1 7 [.ofInt 1, .ofInt 0] 1 true, .lenDP 1 7, .nearestCentroidVec 1 8 [.ofInt 1, .ofInt 0]] 0 = .ok (r, p') ∧
    r.1 = [Answer.dps [dp 1 0], .num 2, .dps [dp 1 0], .num 1, .vec [.ofInt 3, .ofInt 4]] :=
  exists_of_run (by decide +kernel)

end Trypo
