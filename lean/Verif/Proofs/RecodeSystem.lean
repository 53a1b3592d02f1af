import Verif.Proofs.Recode

/-!
# Writing the data in another way commutes with everything a service does
-/

set_option linter.unusedSectionVars false
set_option linter.unusedVariables false
set_option linter.unusedSimpArgs false

namespace Trypo
open GoFloat Spec EventLoop

variable {F : Type} [GoFloat F]

/-- Two programs that take the same steps, but for the way in which datapoints are written; `h` translates what they hand out. -/
inductive Par (g : DataPoint F → DataPoint F) (φ ψ : List F → List F) {α α' : Type} (h : α → α') : Prog F α → Prog F α' → Prop
  | ret (a : α) : Par g φ ψ h (.ret a) (.ret (h a))
  | act {β β' : Type} (b : β → β') (a : Act F β) (a' : Act F β') (k : β → Prog F α) (k' : β' → Prog F α')
      (ha : ∀ w, a'.run (codeWorld g φ ψ w) = (fun r => (b r.1, codeWorld g φ ψ r.2)) <$> a.run w)
      (hk : ∀ x, Par g φ ψ h (k x) (k' (b x))) : Par g φ ψ h (.act a k) (.act a' k')

/-- The other way to write the datapoints suits the cosine searches too. -/
structure RecodeCos (g : DataPoint F → DataPoint F) (φ ψ : List F → List F) (tk tk' : Nat → Int) : Prop extends Recode g φ ψ tk tk' where
  knn : moveSearch ψ (knnCos (F := F)) = knnCos
  kfn : moveSearch ψ (kfnCos (F := F)) = kfnCos

namespace Par
variable {g : DataPoint F → DataPoint F} {φ ψ : List F → List F} {α α' β β' γ γ' : Type}

theorem eq {h h' : α → α'} {m : Prog F α} {m' : Prog F α'} (p : Par g φ ψ h m m') (e : h = h') : Par g φ ψ h' m m' := e ▸ p

theorem pure {h : α → α'} {a : α} {a' : α'} (e : a' = h a) : Par g φ ψ h (Pure.pure a) (Pure.pure a') := e ▸ .ret a

theorem bind {h : α → α'} {h2 : β → β'} {m : Prog F α} {m' : Prog F α'} {f : α → Prog F β} {f' : α' → Prog F β'}
    (p : Par g φ ψ h m m') (hf : ∀ a, Par g φ ψ h2 (f a) (f' (h a))) : Par g φ ψ h2 (m >>= f) (m' >>= f') := by
  induction p with
  | ret a => exact hf a
  | act b a a' k k' ha hk ih => exact .act b a a' _ _ ha ih

theorem loc {h : α → α'} {m : Go α} {m' : Go α'} (e : m' = h <$> m) : Par g φ ψ h (Prog.loc m) (Prog.loc m') := by
  refine .act h _ _ _ _ (fun w => ?_) fun x => .ret x
  subst e
  simp only [Act.run, map_bind, bind_map_left, map_pure]

theorem loc_id {m m' : Go α} (e : m' = m) : Par g φ ψ id (Prog.loc m) (Prog.loc m') := loc (by rw [e, id_map])

theorem run {h : α → α'} {m : Prog F α} {m' : Prog F α'} (p : Par g φ ψ h m m') :
    ∀ w, m'.run (codeWorld g φ ψ w) = (fun r => (h r.1, codeWorld g φ ψ r.2)) <$> m.run w := by
  induction p with
  | ret a => intro w; rfl
  | act b a a' k k' ha hk ih => intro w; simp only [Prog.run, ha, map_bind, bind_map_left, ih]

theorem access (a : Addr) (ns : NS) {b : β → β'} {f : Manager F → Go (β × Manager F)} {f' : Manager F → Go (β' × Manager F)}
    (hf : ∀ m, f' (codeManager g φ ψ m) = (fun r => (b r.1, codeManager g φ ψ r.2)) <$> f m) :
    Par g φ ψ (Option.map b) (Server.access a ns f) (Server.access a ns f') := by
  unfold Server.access
  refine .act id _ _ _ _ (fun w => rfl) fun i => ?_
  cases i with
  | none => exact .ret _
  | some i =>
    refine .act b _ _ _ _ (fun w => ?_) fun x => .ret (some x)
    have hw : (codeWorld g φ ψ w).heap[i]? = w.heap[i]?.map fun s => (s.1, codeManager g φ ψ s.2) := by simp [codeWorld]
    simp only [Act.run]
    rw [hw]
    cases w.heap[i]? with
    | none => rfl
    | some s =>
      simp only [Option.map_some, hf, map_bind, bind_map_left, map_pure]
      refine bind_congr fun r => ?_
      simp [codeWorld, List.map_set]

theorem addSlot (a : Addr) (ns : NS) (m : Manager F) :
    Par g φ ψ id (Prog.ofAct (.addSlot a ns m)) (Prog.ofAct (.addSlot a ns (codeManager g φ ψ m))) := by
  refine .act id _ _ _ _ (fun w => ?_) fun x => .ret x
  simp [Act.run, World.addSlot, codeWorld]

theorem names (a : Addr) : Par g φ ψ id (Prog.ofAct (.names a)) (Prog.ofAct (.names a)) :=
  .act id _ _ _ _ (fun w => rfl) fun x => .ret x

theorem each {h : β → β'} {f : α → Prog F β} {f' : α' → Prog F β'} (i : α → α') (hf : ∀ a, Par g φ ψ h (f a) (f' (i a))) :
    ∀ l : List α, Par g φ ψ (List.map h) (Prog.each f l) (Prog.each f' (l.map i))
  | [] => .ret []
  | x :: xs => by
    rw [List.map_cons]
    unfold Prog.each
    exact .bind (hf x) fun y => .bind (each i hf xs) fun ys => .pure (by simp)

theorem each_id {h : β → β'} {f : α → Prog F β} {f' : α → Prog F β'} (hf : ∀ a, Par g φ ψ h (f a) (f' a)) (l : List α) :
    Par g φ ψ (List.map h) (Prog.each f l) (Prog.each f' l) := by
  have := each (g := g) (φ := φ) (ψ := ψ) (h := h) (f := f) (f' := f') id hf l
  rwa [List.map_id] at this

theorem each_same {f f' : α → Prog F β} (hf : ∀ a, Par g φ ψ id (f a) (f' a)) (l : List α) :
    Par g φ ψ id (Prog.each f l) (Prog.each f' l) := by
  have := each_id (g := g) (φ := φ) (ψ := ψ) hf l
  rwa [show List.map (id : β → β) = id from funext fun l => List.map_id l] at this

omit [GoFloat F] in
theorem shuffled_map (env : Env) (f : α → β) (l : List α) : env.shuffled (l.map f) = List.map f <$> env.shuffled l := by
  funext p
  simp only [Env.shuffled, List.length_map, Functor.map, StateT.map, Except.bind, bind, Except.pure, pure]
  congr 2
  simp only [Env.reorder, List.getElem?_map, List.map_filterMap]

omit [GoFloat F] in
theorem list_id : List.map (id : α → α) = id := funext fun l => List.map_id l
omit [GoFloat F] in
theorem opt_id : Option.map (id : α → α) = id := funext fun o => by cases o <;> rfl

variable {env : Env} {tk' : Nat → Int}
set_option quotPrecheck false
local notation "env'" => ({ env with tk := tk' } : Env)
local notation "md" => g
local notation "mm" => codeManager g φ ψ

theorem call (a : Addr) {b : β → β'} {m : Prog F (Option β)} {m' : Prog F (Option β')} (p : Par g φ ψ (Option.map b) m m') :
    Par g φ ψ (Option.map b) (Client.call env a m) (Client.call env' a m') := by
  unfold Client.call
  refine .bind (loc_id rfl) fun x => ?_
  cases x with
  | false => exact .ret _
  | true =>
    refine .bind p fun r => .bind (loc_id rfl) fun x => ?_
    cases x with
    | false => exact .ret _
    | true => exact .ret _

theorem fetchVecs (e : Recode g φ ψ env.tk tk') (addrs : List Addr) {f f' : Addr → Prog F (Option (List F))}
    (hf : ∀ a, Par g φ ψ (Option.map φ) (f a) (f' a)) :
    Par g φ ψ (List.map fun q => (q.1, φ q.2)) (Trypo.fetchVecs env addrs f) (Trypo.fetchVecs env' addrs f') := by
  unfold Trypo.fetchVecs
  refine .bind (loc_id rfl) fun st => ?_
  refine .bind (each_id (h := fun q : Addr × Option (List F) => (q.1, q.2.map φ)) (fun a => .bind (hf a) fun r => .pure rfl) st) fun as => ?_
  refine .bind (loc (h := List.map fun q : Addr × Option (List F) => (q.1, q.2.map φ)) (shuffled_map env _ as)) fun l => .pure ?_
  rw [List.filterMap_map, List.map_filterMap]
  refine List.filterMap_congr fun q _ => ?_
  obtain ⟨a, v⟩ := q
  cases v with
  | none => rfl
  | some v =>
    cases v with
    | nil => simp [e.nil]
    | cons x xs =>
      have hl := e.len (x :: xs)
      simp only [Function.comp, Option.map_some]
      cases hv : φ (x :: xs) with
      | nil => rw [hv] at hl; simp at hl
      | cons y ys => rfl

omit [GoFloat F] in
theorem mapOrder_eq : (env' : Env).mapOrder = env.mapOrder := rfl

/-! ### The methods of the server -/

theorem namespaces (a : Addr) : Par (F := F) g φ ψ id (Server.namespaces env a) (Server.namespaces env' a) :=
  .bind (names a) fun l => loc_id rfl

theorem vec (a : Addr) (ns : NS) : Par (F := F) g φ ψ (Option.map φ) (Server.vec a ns) (Server.vec a ns) :=
  access a ns fun m => rfl

theorem make (fac : Factory F) (v : List F) : (codeFactory ψ fac).make (φ v) = mm <$> fac.make v := by
  unfold Factory.make Manager.new
  simp only [map_bind, bind_assoc, pure_bind, codeFactory]
  refine bind_congr fun _ => ?_
  rfl

theorem addDataPoint (e : Recode g φ ψ env.tk tk') (fac : Factory F) (a : Addr) (ns : NS) (d : DataPoint F) :
    Par g φ ψ id (Server.addDataPoint env fac a ns d) (Server.addDataPoint env' (codeFactory ψ fac) a ns (g d)) := by
  unfold Server.addDataPoint
  refine .bind (access (b := id) a ns fun m => e.managerAdd m d) fun r => ?_
  cases r with
  | some r => exact .ret _
  | none =>
    refine .bind (loc (h := mm) ?_) fun m => .bind (addSlot a ns m) fun _ => .ret _
    rw [e.vec, make (g := g)]
    simp only [map_bind, bind_map_left, e.managerAdd, map_pure]

theorem drainUnordered (e : Recode g φ ψ env.tk tk') (a : Addr) (ns : NS) (n : Int) :
    Par g φ ψ (Option.map (List.map g)) (Server.drainUnordered env a ns n) (Server.drainUnordered env' a ns n) :=
  access a ns fun m => by simp only [mapOrder_eq, map_bind, e.managerDrainUnordered]

theorem drainOrdered (e : Recode g φ ψ env.tk tk') (a : Addr) (ns : NS) (n : Int) :
    Par g φ ψ (Option.map (List.map g)) (Server.drainOrdered env a ns n) (Server.drainOrdered env' a ns n) :=
  access a ns fun m => by simp only [mapOrder_eq, map_bind, e.managerDrainOrdered]

theorem expire (e : Recode g φ ψ env.tk tk') (a : Addr) (ns : NS) :
    Par g φ ψ (Option.map id) (Server.expire env a ns) (Server.expire env' a ns) :=
  access a ns fun m => by simp only [e.managerExpire, map_bind, bind_map_left, map_pure, id]

theorem managerLen (m : Manager F) : (mm m).lenDP = m.lenDP := by
  unfold Manager.lenDP
  simp [codeManager, codeCentroid, Centroid.lenDP, Function.comp_def]

theorem lenDP (a : Addr) (ns : NS) : Par (F := F) g φ ψ (Option.map id) (Server.lenDP a ns) (Server.lenDP a ns) :=
  access a ns fun m => by simp only [managerLen, map_pure, id]

theorem memTrim (e : Recode g φ ψ env.tk tk') (a : Addr) (ns : NS) :
    Par g φ ψ (Option.map id) (Server.memTrim env a ns) (Server.memTrim env' a ns) :=
  access a ns fun m => by simp only [e.managerMemTrim, map_bind, bind_map_left, map_pure, id]

theorem moveVector (e : Recode g φ ψ env.tk tk') (a : Addr) (ns : NS) :
    Par g φ ψ (Option.map id) (Server.moveVector env a ns) (Server.moveVector env' a ns) :=
  access a ns fun m => by simp only [e.managerMove, id]

theorem distributeInternal (e : Recode g φ ψ env.tk tk') (a : Addr) (ns : NS) (n : Int) :
    Par g φ ψ (Option.map id) (Server.distributeInternal env a ns n) (Server.distributeInternal env' a ns n) :=
  access a ns fun m => by simp only [mapOrder_eq, e.managerInternal, map_bind, bind_map_left, map_pure, id]

theorem knnLookup (e : Recode g φ ψ env.tk tk') (a : Addr) (ns : NS) (v : List F) (k : Int) (drain : Bool) :
    Par g φ ψ (Option.map (List.map g)) (Server.knnLookup env a ns v k drain) (Server.knnLookup env' a ns (φ v) k drain) :=
  access a ns fun m => e.managerLookup m v k drain

theorem nearestCentroids (e : Recode g φ ψ env.tk tk') (a : Addr) (ns : NS) (v : List F) (n : Int) (drain : Bool) :
    Par g φ ψ (Option.map (List.map (List.map g))) (Server.nearestCentroids a ns v n drain) (Server.nearestCentroids a ns (φ v) n drain) :=
  access a ns fun m => by
    simp only [e.managerNearest, map_bind, bind_map_left, map_pure]
    refine bind_congr fun r => ?_
    cases r.1 with
    | none => rfl
    | some cs => simp [codeCentroid, Function.comp_def]

theorem nearestCentroidVec (e : Recode g φ ψ env.tk tk') (a : Addr) (ns : NS) (v : List F) :
    Par g φ ψ (Option.map φ) (Server.nearestCentroidVec a ns v) (Server.nearestCentroidVec a ns (φ v)) :=
  access a ns fun m => by
    simp only [e.managerNearest, map_bind, bind_map_left]
    refine bind_congr fun r => ?_
    cases r.1 with
    | none => simp [e.nil]
    | some cs =>
      cases cs with
      | nil => simp [e.nil]
      | cons c cs => rfl

theorem inRange (min max : Int) (c : Centroid F) : Server.inRange min max (codeCentroid g φ ψ c) = Server.inRange min max c := by
  have h : (codeCentroid g φ ψ c).lenDP = c.lenDP := by simp [Centroid.lenDP, codeCentroid]
  unfold Server.inRange
  rw [h]

theorem splitCentroids (e : Recode g φ ψ env.tk tk') (a : Addr) (ns : NS) (min max : Int) :
    Par g φ ψ (Option.map id) (Server.splitCentroids env a ns min max) (Server.splitCentroids env' a ns min max) :=
  access a ns fun m => by
    simp only [e.managerSplit m (Server.inRange min max) (Server.inRange min max) (inRange min max), map_bind, bind_map_left, map_pure, id]

theorem mergeCentroids (e : Recode g φ ψ env.tk tk') (a : Addr) (ns : NS) (min max : Int) :
    Par g φ ψ (Option.map id) (Server.mergeCentroids env a ns min max) (Server.mergeCentroids env' a ns min max) :=
  access a ns fun m => by
    simp only [e.managerMerge m (Server.inRange min max) (Server.inRange min max) (inRange min max), map_bind, bind_map_left, map_pure, id]

theorem getMeta (a : Addr) : Par (F := F) g φ ψ id (Server.getMeta env a) (Server.getMeta env' a) := by
  unfold Server.getMeta
  refine .bind (namespaces a) fun l => .bind (h := id) (eq (each_id (h := id) (fun ns => ?_) l) list_id) fun r => .pure rfl
  refine .bind (access (b := id) a ns fun m => ?_) fun q => .pure ?_
  · simp only [managerLen, map_pure, id]
    simp [codeManager]
  · rw [opt_id]; rfl

/-! ### The methods of the client -/

theorem clientNamespaces (a : Addr) : Par (F := F) g φ ψ id (Client.namespaces env a) (Client.namespaces env' a) := by
  unfold Client.namespaces
  refine .bind (call (b := id) a (.bind (namespaces a) fun l => .pure rfl)) fun r => .pure ?_
  rw [opt_id]; rfl

theorem clientVec (a : Addr) (ns : NS) : Par (F := F) g φ ψ (Option.map φ) (Client.vec env a ns) (Client.vec env' a ns) := call a (vec a ns)

theorem clientAdd (e : Recode g φ ψ env.tk tk') (fac : Factory F) (a : Addr) (ns : NS) (d : DataPoint F) :
    Par g φ ψ id (Client.addDataPoint env fac a ns d) (Client.addDataPoint env' (codeFactory ψ fac) a ns (g d)) := by
  unfold Client.addDataPoint
  refine .bind (call (b := id) a (.bind (addDataPoint e fac a ns d) fun l => .pure rfl)) fun r => .pure ?_
  rw [opt_id]; rfl

theorem clientUnit {m m' : Prog F (Option β)} (a : Addr) (p : Par g φ ψ (Option.map (id : β → β)) m m') :
    Par g φ ψ id (do let _ ← Client.call env a m; Pure.pure ()) (do let _ ← Client.call env' a m'; Pure.pure ()) :=
  .bind (call a p) fun r => .pure rfl

theorem clientLen (a : Addr) (ns : NS) : Par (F := F) g φ ψ id (Client.lenDP env a ns) (Client.lenDP env' a ns) := by
  unfold Client.lenDP
  refine .bind (call a (lenDP a ns)) fun r => .pure ?_
  rw [opt_id]; rfl

theorem clientLookup (e : Recode g φ ψ env.tk tk') (a : Addr) (ns : NS) (v : List F) (k : Int) (drain : Bool) :
    Par g φ ψ (List.map g) (Client.knnLookup env a ns v k drain) (Client.knnLookup env' a ns (φ v) k drain) := by
  unfold Client.knnLookup
  refine .bind (loc_id rfl) fun _ => .bind (call a (knnLookup e a ns v k drain)) fun r => .pure ?_
  cases r <;> rfl

theorem dropEmpty (f : α → β) : ∀ l : List (List α), Client.dropEmpty (l.map (List.map f)) = (Client.dropEmpty l).map (List.map f)
  | [] => rfl
  | [[]] => rfl
  | [] :: x :: xs => by simp [Client.dropEmpty, dropEmpty f xs]
  | (y :: ys) :: xs => by simp [Client.dropEmpty, dropEmpty f xs]

theorem factory (e : RecodeCos g φ ψ env.tk tk') (v : List F) : Client.centroidFactory (φ v) = codeCentroid g φ ψ <$> Client.centroidFactory v := by
  unfold Client.centroidFactory Centroid.new
  simp only [map_bind, bind_assoc, pure_bind]
  refine bind_congr fun _ => ?_
  have h : codeCentroid g φ ψ ⟨v, [], knnCos, kfnCos⟩ = ⟨φ v, [], knnCos, kfnCos⟩ := by simp [codeCentroid, e.knn, e.kfn]
  simp [h]

theorem reinit (e : RecodeCos g φ ψ env.tk tk') (l : List (DataPoint F)) :
    Client.reinit tk' (l.map g) = codeCentroid g φ ψ <$> Client.reinit env.tk l := by
  unfold Client.reinit
  simp only [Equi.idx_map, map_bind, bind_map_left, e.vec, factory e]
  refine bind_congr fun d => bind_congr fun c => ?_
  have h : ({ codeCentroid g φ ψ c with dps := l.map g } : Centroid F) = codeCentroid g φ ψ { c with dps := l } := rfl
  rw [h, e.moveVector]
  simp only [map_bind, bind_map_left, map_pure]

theorem reinitAll (e : RecodeCos g φ ψ env.tk tk') : ∀ l : List (List (DataPoint F)),
    Client.reinitAll tk' (l.map (List.map g)) = List.map (codeCentroid g φ ψ) <$> Client.reinitAll env.tk l
  | [] => by simp [Client.reinitAll]
  | l :: ls => by
    rw [List.map_cons]
    unfold Client.reinitAll
    simp only [reinit e, reinitAll e ls, map_bind, bind_map_left, map_pure, List.map_cons]

theorem unpack (e : RecodeCos g φ ψ env.tk tk') (l : List (List (DataPoint F))) :
    Client.unpack tk' (l.map (List.map g)) = Option.map (List.map (codeCentroid g φ ψ)) <$> Client.unpack env.tk l := by
  unfold Client.unpack
  rw [List.length_map, dropEmpty, reinitAll e]
  split
  · simp
  · simp only [map_bind, bind_map_left, map_pure, Option.map_some]

theorem clientNearest (e : RecodeCos g φ ψ env.tk tk') (a : Addr) (ns : NS) (v : List F) (n : Int) (drain : Bool) :
    Par g φ ψ (fun q => (q.1, q.2.map (List.map (codeCentroid g φ ψ)))) (Client.nearestCentroids env a ns v n drain)
      (Client.nearestCentroids env' a ns (φ v) n drain) := by
  unfold Client.nearestCentroids
  refine .bind (call a (nearestCentroids e.toRecode a ns v n drain)) fun r => ?_
  have h : (r.map (List.map (List.map g))).getD [] = (r.getD []).map (List.map g) := by cases r <;> rfl
  rw [h]
  refine .bind (loc (unpack e _)) fun cs => .pure ?_
  cases r <;> rfl

theorem clientCentroidVec (e : Recode g φ ψ env.tk tk') (a : Addr) (ns : NS) (v : List F) :
    Par g φ ψ (Option.map φ) (Client.nearestCentroidVec env a ns v) (Client.nearestCentroidVec env' a ns (φ v)) :=
  call a (nearestCentroidVec e a ns v)

theorem clientMeta (a : Addr) : Par (F := F) g φ ψ id (Client.getMeta env a) (Client.getMeta env' a) := by
  unfold Client.getMeta
  refine .bind (call (b := id) a (.bind (getMeta a) fun l => .pure rfl)) fun r => .pure ?_
  rw [opt_id]; rfl

/-! ### Distributing and stealing -/

theorem cos (e : RecodeCos g φ ψ env.tk tk') (v : List F) (pool : List (List F)) (k : Int) : knnCos (φ v) (pool.map φ) k = knnCos v pool k := by
  have := e.search knnCos v pool k
  rwa [e.knn] at this

theorem distributeTo (e : Recode g φ ψ env.tk tk') (fac : Factory F) (ns : NS) (addrs : List Addr) (d : DataPoint F) : ∀ is : List Nat,
    Par g φ ψ id (Server.distributeTo env fac ns addrs d is) (Server.distributeTo env' (codeFactory ψ fac) ns addrs (g d) is)
  | [] => .ret _
  | i :: is => by
    unfold Server.distributeTo
    refine .bind (loc_id rfl) fun a => .bind (clientAdd e fac a ns d) fun b => ?_
    cases b with
    | true => exact .ret _
    | false => exact distributeTo e fac ns addrs d is

theorem distributeDP (e : RecodeCos g φ ψ env.tk tk') (fac : Factory F) (ns : NS) (remote : List (Addr × List F)) (d : DataPoint F) :
    Par g φ ψ id (Server.distributeDP env fac ns remote d)
      (Server.distributeDP env' (codeFactory ψ fac) ns (remote.map fun q => (q.1, φ q.2)) (g d)) := by
  unfold Server.distributeDP
  have h1 : (remote.map fun q => (q.1, φ q.2)).map (fun q => q.2) = (remote.map fun q => q.2).map φ := by simp
  have h2 : (remote.map fun q => (q.1, φ q.2)).map (fun q => q.1) = remote.map fun q => q.1 := by simp
  rw [h1, h2, e.vec, cos e, List.length_map]
  exact .bind (loc_id rfl) fun is => distributeTo e.toRecode fac ns _ d is

theorem putBack (e : Recode g φ ψ env.tk tk') (a : Addr) (ns : NS) (d : DataPoint F) :
    Par g φ ψ id (Server.putBack env a ns d) (Server.putBack env' a ns (g d)) :=
  .bind (access (b := id) a ns fun m => e.managerAdd m d) fun r => .ret _

theorem distributeFastLoop (e : RecodeCos g φ ψ env.tk tk') (fac : Factory F) (a : Addr) (ns : NS) (remote : List (Addr × List F)) :
    ∀ l : List (DataPoint F), Par g φ ψ id (Server.distributeFastLoop env fac a ns remote l)
      (Server.distributeFastLoop env' (codeFactory ψ fac) a ns (remote.map fun q => (q.1, φ q.2)) (l.map g))
  | [] => .ret _
  | d :: l => by
    rw [List.map_cons]
    unfold Server.distributeFastLoop
    refine .bind (distributeDP e fac ns remote d) fun b => ?_
    cases b with
    | true => exact distributeFastLoop e fac a ns remote l
    | false => exact .bind (putBack e.toRecode a ns d) fun _ => distributeFastLoop e fac a ns remote l

theorem distributeFast (e : RecodeCos g φ ψ env.tk tk') (fac : Factory F) (a : Addr) (ns : NS) (n : Int) (addrs : List Addr) :
    Par g φ ψ (Option.map id) (Server.distributeFast env fac a ns n addrs) (Server.distributeFast env' (codeFactory ψ fac) a ns n addrs) := by
  unfold Server.distributeFast
  refine .bind (loc_id rfl) fun _ => .bind (drainOrdered e.toRecode a ns n) fun r => ?_
  cases r with
  | none => exact .ret _
  | some l =>
    simp only [Option.map_some, List.length_map]
    split
    · exact .ret _
    · exact .bind (fetchVecs e.toRecode addrs fun b => clientVec b ns) fun remote => .bind (distributeFastLoop e fac a ns remote l) fun _ => .ret _

theorem distributeAccurateLoop (e : RecodeCos g φ ψ env.tk tk') (fac : Factory F) (a : Addr) (ns : NS) (addrs : List Addr) :
    ∀ l : List (DataPoint F), Par g φ ψ id (Server.distributeAccurateLoop env fac a ns addrs l)
      (Server.distributeAccurateLoop env' (codeFactory ψ fac) a ns addrs (l.map g))
  | [] => .ret _
  | d :: l => by
    rw [List.map_cons]
    unfold Server.distributeAccurateLoop
    rw [e.vec]
    refine .bind (fetchVecs e.toRecode addrs fun b => clientCentroidVec e.toRecode b ns d.vec) fun remote => .bind (distributeDP e fac ns remote d) fun b => ?_
    cases b with
    | true => exact distributeAccurateLoop e fac a ns addrs l
    | false => exact .bind (putBack e.toRecode a ns d) fun _ => distributeAccurateLoop e fac a ns addrs l

theorem distributeAccurate (e : RecodeCos g φ ψ env.tk tk') (fac : Factory F) (a : Addr) (ns : NS) (n : Int) (addrs : List Addr) :
    Par g φ ψ (Option.map id) (Server.distributeAccurate env fac a ns n addrs)
      (Server.distributeAccurate env' (codeFactory ψ fac) a ns n addrs) := by
  unfold Server.distributeAccurate
  refine .bind (loc_id rfl) fun _ => .bind (drainOrdered e.toRecode a ns n) fun r => ?_
  cases r with
  | none => exact .ret _
  | some l =>
    simp only [Option.map_some, List.length_map]
    split
    · exact .ret _
    · exact .bind (distributeAccurateLoop e fac a ns addrs l) fun _ => .ret _

theorem stealLoop (e : RecodeCos g φ ψ env.tk tk') (a : Addr) (ns : NS) (src : Addr) (v : List F) (limit : Int) : ∀ (fuel n : Nat),
    Par g φ ψ id (Server.stealLoop env a ns src v limit fuel n) (Server.stealLoop env' a ns src (φ v) limit fuel n)
  | 0, n => .ret _
  | fuel + 1, n => by
    unfold Server.stealLoop
    split
    · refine .bind (clientNearest e src ns v 1 true) fun q => ?_
      obtain ⟨q1, q2⟩ := q
      cases q2 with
      | none => exact .ret _
      | some cs =>
        cases cs with
        | nil => exact .ret _
        | cons c cs =>
          refine .bind (access (b := id) a ns fun m => ?_) fun k => ?_
          · simp only [map_pure, id]
            simp [codeManager, e.toRecode.lenDP]
          · rw [opt_id]
            exact stealLoop e a ns src v limit fuel _
    · exact .ret _

theorem stealWith (e : RecodeCos g φ ψ env.tk tk') (fuel : Nat) (a : Addr) (ns : NS) (src : Addr) (limit : Int) (v : List F) :
    Par g φ ψ id (Server.stealWith env fuel a ns src limit v) (Server.stealWith env' fuel a ns src limit (φ v)) :=
  .bind (stealLoop e a ns src v limit fuel 0) fun q => .bind (moveVector e.toRecode a ns) fun _ => .ret _

theorem stealCentroid (e : RecodeCos g φ ψ env.tk tk') (fac : Factory F) (fuel : Nat) (a : Addr) (ns : NS) (src : Addr) (limit : Int) :
    Par g φ ψ id (Server.stealCentroid env fac fuel a ns src limit) (Server.stealCentroid env' (codeFactory ψ fac) fuel a ns src limit) := by
  unfold Server.stealCentroid
  refine .bind (vec a ns) fun r => ?_
  cases r with
  | some v => exact stealWith e fuel a ns src limit v
  | none =>
    refine .bind (clientVec src ns) fun rv => ?_
    have h : (rv.map φ).getD [] = φ (rv.getD []) := by cases rv <;> simp [e.nil]
    dsimp only
    rw [h]
    cases hr : rv.getD [] with
    | nil => rw [e.nil]; exact .ret _
    | cons x xs =>
      have hl := e.len (x :: xs)
      cases hv : φ (x :: xs) with
      | nil => rw [hv] at hl; simp at hl
      | cons y ys =>
        dsimp only
        rw [← hv]
        exact .bind (loc (make fac (x :: xs))) fun m => .bind (addSlot a ns m) fun _ => stealWith e fuel a ns src limit _

theorem clientSteal (e : RecodeCos g φ ψ env.tk tk') (fac : Factory F) (fuel : Nat) (a : Addr) (ns : NS) (src : Addr) (limit : Int) :
    Par g φ ψ id (Client.stealCentroids env fac fuel a ns src limit) (Client.stealCentroids env' (codeFactory ψ fac) fuel a ns src limit) := by
  unfold Client.stealCentroids
  refine .bind (call (b := id) a (.bind (stealCentroid e fac fuel a ns src limit) fun l => .pure rfl)) fun r => ?_
  cases r <;> exact .ret _

/-! ### The API -/

theorem bestFit (e : RecodeCos g φ ψ env.tk tk') (addrs : List Addr) (v : List F) {f f' : Addr → Prog F (Option (List F))}
    (hf : ∀ a, Par g φ ψ (Option.map φ) (f a) (f' a)) :
    Par g φ ψ id (Nodes.bestFitNodes env knnCos addrs v f) (Nodes.bestFitNodes env' knnCos addrs (φ v) f') := by
  unfold Nodes.bestFitNodes
  refine .bind (fetchVecs e.toRecode addrs hf) fun rsp => loc_id ?_
  have h1 : (rsp.map fun q => (q.1, φ q.2)).map (fun q => q.2) = (rsp.map fun q => q.2).map φ := by simp
  have h2 : (rsp.map fun q => (q.1, φ q.2)).map (fun q => q.1) = rsp.map fun q => q.1 := by simp
  rw [h1, h2, cos e, List.length_map]

theorem putDataPoint (e : Recode g φ ψ env.tk tk') (fac : Factory F) (ns : NS) (d : DataPoint F) : ∀ as : List Addr,
    Par g φ ψ id (Dps.putDataPoint env fac ns d as) (Dps.putDataPoint env' (codeFactory ψ fac) ns (g d) as)
  | [] => .ret _
  | a :: as => by
    unfold Dps.putDataPoint
    refine .bind (clientAdd e fac a ns d) fun b => ?_
    cases b with
    | true => exact .ret _
    | false => exact putDataPoint e fac ns d as

theorem getFrom (e : Recode g φ ψ env.tk tk') (ns : NS) (v : List F) (n : Int) (drain : Bool) : ∀ (as : List Addr) (res : List (DataPoint F)),
    Par g φ ψ (List.map g) (Dps.getFrom env ns v n drain as res) (Dps.getFrom env' ns (φ v) n drain as (res.map g))
  | [], res => .ret _
  | a :: as, res => by
    unfold Dps.getFrom
    rw [List.length_map]
    refine .bind (clientLookup e a ns v _ drain) fun l => ?_
    rw [← List.map_append, List.length_map]
    split
    · exact .ret _
    · exact getFrom e ns v n drain as _

theorem getDataPoints (e : Recode g φ ψ env.tk tk') (as : List Addr) (ns : NS) (v : List F) (n : Int) (drain : Bool) :
    Par g φ ψ (List.map g) (Dps.getDataPoints env as ns v n drain) (Dps.getDataPoints env' as ns (φ v) n drain) :=
  .bind (loc_id rfl) fun _ => getFrom e ns v n drain as []

omit [GoFloat F] in
theorem shuffleFrom (n : Nat) : ∀ (k i : Nat) (l : List Addr), Dps.shuffleFrom env' n k i l = Dps.shuffleFrom env n k i l
  | 0, i, l => rfl
  | k + 1, i, l => by
    unfold Dps.shuffleFrom
    simp only [shuffleFrom n k]
    rfl

theorem put (e : RecodeCos g φ ψ env.tk tk') (fac : Factory F) (addrs : List Addr) (body : Option (Api.PutOpts F)) :
    Par g φ ψ id (Api.putDataPoint env fac addrs body)
      (Api.putDataPoint env' (codeFactory ψ fac) addrs (body.map fun o => ⟨o.ns, o.accurate, codeDP g o.dp⟩)) := by
  cases body with
  | none => exact .ret _
  | some o =>
    obtain ⟨ns, accurate, dp⟩ := o
    unfold Api.putDataPoint
    have hd : (codeDP g dp).toDataPoint = g dp.toDataPoint := rfl
    simp only [Option.map_some, hd]
    refine .bind (h := id) ?_ fun b => .bind (h := id) ?_ fun b => .ret _
    · cases accurate with
      | true =>
        unfold Dps.putDataPointAccurate Nodes.bestFitNodesAccurate
        rw [e.vec]
        exact .bind (bestFit e addrs _ fun a => clientCentroidVec e.toRecode a ns _) fun as => putDataPoint e.toRecode fac ns _ as
      | false =>
        unfold Dps.putDataPointFast Nodes.bestFitNodesFast
        rw [e.vec]
        exact .bind (bestFit e addrs _ fun a => clientVec a ns) fun as => putDataPoint e.toRecode fac ns _ as
    · cases b with
      | true => exact .ret _
      | false => exact .bind (loc_id (shuffleFrom _ _ _ _)) fun as => putDataPoint e.toRecode fac ns _ as

theorem query (e : RecodeCos g φ ψ env.tk tk') (addrs : List Addr) (body : Option (Api.QueryOpts F)) :
    Par g φ ψ (fun r => (r.1, r.2.map (codeDP g))) (Api.queryDataPoint env addrs body)
      (Api.queryDataPoint env' addrs (body.map fun o => ⟨o.ns, o.accurate, φ o.vec, o.n, o.drain⟩)) := by
  cases body with
  | none => exact .ret _
  | some o =>
    obtain ⟨ns, accurate, v, n, drain⟩ := o
    unfold Api.queryDataPoint
    simp only [Option.map_some]
    refine .bind (h := List.map g) ?_ fun l => .pure ?_
    · cases accurate with
      | true => exact .bind (bestFit e addrs v fun a => clientCentroidVec e.toRecode a ns v) fun as => getDataPoints e.toRecode as ns v n drain
      | false => exact .bind (bestFit e addrs v fun a => clientVec a ns) fun as => getDataPoints e.toRecode as ns v n drain
    · simp only [Api.dataPointsToDPs, List.map_map]
      congr 1

/-! ### The event loop -/

theorem namespaceTable (remotes : List Addr) :
    Par (F := F) g φ ψ id (EventLoop.namespaceTable env remotes) (EventLoop.namespaceTable env' remotes) := by
  unfold EventLoop.namespaceTable
  refine .bind (each_same ?_ remotes) fun r => .ret _
  intro a
  exact .bind (clientNamespaces a) fun l => .ret _

theorem fetchLens (addrs : List Addr) (ns : NS) :
    Par (F := F) g φ ψ id (EventLoop.fetchLens env addrs ns) (EventLoop.fetchLens env' addrs ns) := by
  unfold EventLoop.fetchLens
  refine .bind (loc_id rfl) fun st => .bind (each_same ?_ st) fun r => .bind (loc_id rfl) fun l => .ret _
  intro a
  exact .bind (clientLen a ns) fun l => .ret _

theorem balanceLoop {steal steal' : Addr → Int → Prog F Int} (hs : ∀ a n, Par g φ ψ id (steal a n) (steal' a n)) (r n : Nat) (lo : Addr) (mean mar : Int) :
    ∀ (as : List Addr) (lens : Lens), Par g φ ψ id (EventLoop.balanceLoop steal r n lo mean mar as lens) (EventLoop.balanceLoop steal' r n lo mean mar as lens)
  | [], lens => .ret _
  | a :: as, lens => by
    unfold EventLoop.balanceLoop
    refine .bind (loc_id rfl) fun o => ?_
    cases o with
    | none => exact balanceLoop hs r n lo mean mar as lens
    | some k => exact .bind (hs a k) fun got => .bind (balanceLoop hs r n lo mean mar as _) fun _ => .ret _

theorem balanceNamespace (e : RecodeCos g φ ψ env.tk tk') (fac : Factory F) (fuel : Nat) (lo : Addr) (remotes : List Addr) (t : Table) (ns : NS) :
    Par g φ ψ id (EventLoop.balanceNamespace env fac fuel lo remotes t ns)
      (EventLoop.balanceNamespace env' (codeFactory ψ fac) fuel lo remotes t ns) := by
  unfold EventLoop.balanceNamespace
  refine .bind (fetchLens _ ns) fun lens => .bind (h := id) ?_ fun l => .ret _
  unfold EventLoop.balance
  exact .bind (loc_id rfl) fun mean => .bind (loc_id rfl) fun keys =>
    balanceLoop (fun a n => .bind (clientSteal e fac fuel lo ns a n) fun r => .ret _) _ _ _ _ _ _ _

theorem startAll (cfg : Config) (f : NS → Call) : Par (F := F) g φ ψ id (EventLoop.startAll env cfg f) (EventLoop.startAll env' cfg f) :=
  .bind (clientNamespaces _) fun l => .ret _

theorem withAddrs (cfg : Config) {f f' : NS → List Addr → Prog F Unit} (hf : ∀ ns as, Par g φ ψ id (f ns as) (f' ns as)) :
    Par (F := F) g φ ψ id (EventLoop.withAddrs env cfg f) (EventLoop.withAddrs env' cfg f') :=
  .bind (clientNamespaces _) fun l => .bind (each_id (h := id) (fun ns => .bind (namespaceTable _) fun t => hf ns _) l) fun r => .ret _

theorem task (e : RecodeCos g φ ψ env.tk tk') (fac : Factory F) (fuel : Nat) (cfg : Config) (t : TaskId) :
    Par g φ ψ id (EventLoop.task env fac fuel cfg t) (EventLoop.task env' (codeFactory ψ fac) fuel cfg t) := by
  cases t with
  | expire => exact startAll cfg _
  | memTrim => exact startAll cfg _
  | distInternal => exact startAll cfg _
  | split => exact startAll cfg _
  | merge => exact startAll cfg _
  | distFast => exact withAddrs cfg fun ns as => clientUnit _ (distributeFast e fac _ ns _ as)
  | distAccurate => exact withAddrs cfg fun ns as => clientUnit _ (distributeAccurate e fac _ ns _ as)
  | loadBalancing =>
    refine .bind (namespaceTable _) fun t => .bind (loc_id rfl) fun nss => .bind (each_same ?_ nss) fun l => .ret _
    intro ns
    exact .bind (balanceNamespace e fac fuel _ _ t ns) fun r => .ret _
  | getMeta =>
    refine .bind (each_same ?_ _) fun l => .ret _
    intro a
    exact .bind (clientMeta a) fun r => .ret _

theorem loop (e : RecodeCos g φ ψ env.tk tk') (fac : Factory F) (fuel : Nat) (cfg : Config) (skip : SkipConfig) : ∀ (n : Nat) (iter : Int),
    Par g φ ψ id (EventLoop.loop env fac fuel cfg skip n iter) (EventLoop.loop env' (codeFactory ψ fac) fuel cfg skip n iter)
  | 0, iter => .ret _
  | n + 1, iter => by
    unfold EventLoop.loop
    refine .bind (h := id) ?_ fun l => .bind (loop e fac fuel cfg skip n _) fun ls => .ret _
    refine eq (each_id (h := id) (fun t => ?_) _) list_id
    refine .bind (loc_id rfl) fun b => ?_
    cases b with
    | true => exact task e fac fuel cfg t
    | false => exact .ret _

theorem callProg (e : Recode g φ ψ env.tk tk') (c : Call) : Par (F := F) g φ ψ id (c.prog env) (c.prog env') := by
  cases c with
  | expire a ns => exact clientUnit a (expire e a ns)
  | memTrim a ns => exact clientUnit a (memTrim e a ns)
  | distributeInternal a ns n => exact clientUnit a (distributeInternal e a ns n)
  | splitCentroids a ns min max => exact clientUnit a (splitCentroids e a ns min max)
  | mergeCentroids a ns min max => exact clientUnit a (mergeCentroids e a ns min max)

/-! ### Jobs -/

theorem answered {b : β → β'} {f : β → Answer F} {f' : β' → Answer F} {m : Prog F (Option β)} {m' : Prog F (Option β')}
    (p : Par g φ ψ (Option.map b) m m') (hf : ∀ x, f' (b x) = codeAnswer g φ (f x)) : Par g φ ψ (codeAnswer g φ) (answer f m) (answer f' m') := by
  unfold answer
  refine .bind p fun r => ?_
  cases r with
  | none => exact .ret _
  | some x => exact .pure (hf x)

theorem serve (e : RecodeCos g φ ψ env.tk tk') (fac : Factory F) (r : Request F) :
    Par g φ ψ (codeAnswer g φ) (r.serve env fac) ((codeRequest g φ r).serve env' (codeFactory ψ fac)) := by
  cases r with
  | add a ns d => exact .bind (addDataPoint e.toRecode fac a ns d) fun b => .pure rfl
  | vec a ns => exact answered (vec a ns) fun _ => rfl
  | lenDP a ns => exact answered (lenDP a ns) fun _ => rfl
  | drainUnordered a ns n => exact answered (drainUnordered e.toRecode a ns n) fun _ => rfl
  | drainOrdered a ns n => exact answered (drainOrdered e.toRecode a ns n) fun _ => rfl
  | expire a ns => exact answered (expire e.toRecode a ns) fun _ => rfl
  | memTrim a ns => exact answered (memTrim e.toRecode a ns) fun _ => rfl
  | moveVector a ns => exact answered (moveVector e.toRecode a ns) fun _ => rfl
  | distributeInternal a ns n => exact answered (distributeInternal e.toRecode a ns n) fun _ => rfl
  | distributeFast a ns n as => exact answered (distributeFast e fac a ns n as) fun _ => rfl
  | distributeAccurate a ns n as => exact answered (distributeAccurate e fac a ns n as) fun _ => rfl
  | knnLookup a ns v k drain => exact answered (knnLookup e.toRecode a ns v k drain) fun _ => rfl
  | nearestCentroids a ns v n drain => exact answered (nearestCentroids e.toRecode a ns v n drain) fun _ => rfl
  | nearestCentroidVec a ns v => exact answered (nearestCentroidVec e.toRecode a ns v) fun _ => rfl
  | splitCentroids a ns min max => exact answered (splitCentroids e.toRecode a ns min max) fun _ => rfl
  | mergeCentroids a ns min max => exact answered (mergeCentroids e.toRecode a ns min max) fun _ => rfl
  | stealCentroid a ns src limit fuel => exact .bind (stealCentroid e fac fuel a ns src limit) fun b => .pure rfl

theorem job (e : RecodeCos g φ ψ env.tk tk') (fac : Factory F) (j : Job F) :
    Par g φ ψ (codeOutcome g φ) (j.prog env fac) ((codeJob g φ j).prog env' (codeFactory ψ fac)) := by
  cases j with
  | rpc r => exact .bind (serve e fac r) fun a => .pure rfl
  | call c => exact .bind (callProg e.toRecode c) fun a => .pure rfl
  | put addrs body => exact .bind (put e fac addrs body) fun a => .pure rfl
  | query addrs body => exact .bind (query e addrs body) fun a => .pure rfl
  | task cfg fuel t => exact .bind (task e fac fuel cfg t) fun a => .pure rfl
  | loop cfg fuel skip n iter => exact .bind (loop e fac fuel cfg skip n iter) fun a => .pure rfl

/-! ### Goroutines -/

/-- Goroutines that take the same steps one by one. -/
def All (g : DataPoint F → DataPoint F) (φ ψ : List F → List F) (h : α → α') (ts : List (Prog F α)) (ts' : List (Prog F α')) : Prop :=
  List.Forall₂ (Par g φ ψ h) ts ts'

theorem All.get {h : α → α'} {ts : List (Prog F α)} {ts' : List (Prog F α')} (p : All g φ ψ h ts ts') (i : Nat) :
    (ts[i]? = none ∧ ts'[i]? = none) ∨ ∃ m m', ts[i]? = some m ∧ ts'[i]? = some m' ∧ Par g φ ψ h m m' := by
  induction p generalizing i with
  | nil => left; simp
  | cons p ps ih =>
    cases i with
    | zero => right; exact ⟨_, _, rfl, rfl, p⟩
    | succ i => simpa using ih i

theorem All.set {h : α → α'} {ts : List (Prog F α)} {ts' : List (Prog F α')} (p : All g φ ψ h ts ts') (i : Nat) {m : Prog F α} {m' : Prog F α'}
    (q : Par g φ ψ h m m') : All g φ ψ h (ts.set i m) (ts'.set i m') := by
  induction p generalizing i with
  | nil => exact List.Forall₂.nil
  | cons p ps ih =>
    cases i with
    | zero => exact .cons q ps
    | succ i => exact .cons p (ih i)

theorem All.snoc {h : α → α'} {ts : List (Prog F α)} {ts' : List (Prog F α')} (p : All g φ ψ h ts ts') {m : Prog F α} {m' : Prog F α'}
    (q : Par g φ ψ h m m') : All g φ ψ h (ts ++ [m]) (ts' ++ [m']) :=
  List.rel_append p (.cons q .nil)

theorem act_step {β β' : Type} {b : β → β'} {a : Act F β} {a' : Act F β'}
    (ha : ∀ w, a'.run (codeWorld g φ ψ w) = (fun r => (b r.1, codeWorld g φ ψ r.2)) <$> a.run w) (w : World F) (p : Nat) :
    a'.run (codeWorld g φ ψ w) p = match a.run w p with
      | .ok (r, p') => .ok ((b r.1, codeWorld g φ ψ r.2), p')
      | .error e => .error e := by
  rw [ha w]
  show (StateT.map _ (a.run w)) p = _
  unfold StateT.map
  cases h : a.run w p with
  | error e => rfl
  | ok r => rfl

theorem pool {h : α → α'} : ∀ (is : List Nat) {ts : List (Prog F α)} {ts' : List (Prog F α')} (_ : All g φ ψ h ts ts') (w : World F) (p : Nat),
    Agree (fun (r : List (Prog F α) × World F × Nat) (r' : List (Prog F α') × World F × Nat) => All g φ ψ h r.1 r'.1 ∧ r'.2.1 = codeWorld g φ ψ r.2.1 ∧ r'.2.2 = r.2.2) (Pool.run is ts w p)
      (Pool.run is ts' (codeWorld g φ ψ w) p)
  | [], _, _, q, w, p => .ok ⟨q, rfl, rfl⟩
  | i :: is, ts, ts', q, w, p => by
    unfold Pool.run
    obtain ⟨h1, h2⟩ | ⟨m, m', h1, h2, pm⟩ := q.get i
    · rw [h1, h2]
      exact pool is q w p
    · rw [h1, h2]
      cases pm with
      | ret a => exact pool is q w p
      | act b a a' k k' ha hk =>
        dsimp only
        rw [act_step ha w p]
        cases hr : a.run w p with
        | error e => exact .error e
        | ok r =>
          obtain ⟨r, p'⟩ := r
          exact pool is (q.set i (hk r.1)) r.2 p'

/-! ### The service -/

/-- Two services in the same state, but for the way in which datapoints are written, and also in what their goroutines are going to do. -/
structure SysPar (g : DataPoint F → DataPoint F) (φ ψ : List F → List F) (s s' : Service.Sys F) : Prop where
  loops : s'.loops = s.loops
  jobs : s'.jobs = s.jobs.map fun q => (q.1, codeJob g φ q.2)
  progs : All g φ ψ (codeOutcome g φ) s.progs s'.progs
  world : s'.world = codeWorld g φ ψ s.world
  now : s'.now = s.now

theorem SysPar.recoded {s s' : Service.Sys F} (p : SysPar g φ ψ s s') : Recoded g φ ψ s s' where
  loops := p.loops
  jobs := p.jobs
  world := p.world
  now := p.now
  outcomes := by
    have := p.progs
    unfold outcomes
    generalize s.progs = ts at this
    generalize s'.progs = ts' at this
    induction this with
    | nil => rfl
    | cons q qs ih =>
      simp only [List.map_cons, ih]
      cases q <;> rfl

theorem start (e : RecodeCos g φ ψ env.tk tk') (fac : Factory F) (src : Service.Source) (j : Job F) {s s' : Service.Sys F} (p : SysPar g φ ψ s s') :
    SysPar g φ ψ (s.start env fac src j) (s'.start env' (codeFactory ψ fac) src (codeJob g φ j)) where
  loops := p.loops
  jobs := by simp [Service.Sys.start, p.jobs]
  progs := p.progs.snoc (job e fac j)
  world := p.world
  now := p.now

theorem startCalls (e : RecodeCos g φ ψ env.tk tk') (fac : Factory F) (src : Service.Source) : ∀ (cs : List Call) {s s' : Service.Sys F} (_ : SysPar g φ ψ s s'),
    SysPar g φ ψ (cs.foldl (fun s c => s.start env fac src (.call c)) s) (cs.foldl (fun s c => s.start env' (codeFactory ψ fac) src (.call c)) s')
  | [], _, _, p => p
  | c :: cs, _, _, p => startCalls e fac src cs (start e fac src (.call c) p)

theorem setLoops {s s' : Service.Sys F} (p : SysPar g φ ψ s s') (ls : List Service.Loop) :
    SysPar g φ ψ { s with loops := ls } { s' with loops := ls } := ⟨rfl, p.jobs, p.progs, p.world, p.now⟩

theorem callsOf (o : Outcome F) : Service.callsOf (codeOutcome g φ o) = Service.callsOf o := by cases o <;> rfl

theorem loopStep (e : RecodeCos g φ ψ env.tk tk') (fac : Factory F) (k : Nat) (l : Service.Loop) {s s' : Service.Sys F} (p : SysPar g φ ψ s s') :
    Agree (SysPar g φ ψ) (Service.loopStep env fac k l s) (Service.loopStep env' (codeFactory ψ fac) k l s') := by
  unfold Service.loopStep
  cases l.busy with
  | some i =>
    dsimp only
    obtain ⟨h1, h2⟩ | ⟨m, m', h1, h2, pm⟩ := p.progs.get i
    · rw [h1, h2]; exact .ok p
    · rw [h1, h2]
      cases pm with
      | act => exact .ok p
      | ret o =>
        dsimp only
        rw [callsOf, p.loops]
        exact .ok (startCalls e fac _ _ (setLoops p _))
  | none =>
    dsimp only
    have hj : s'.jobs.length = s.jobs.length := by rw [p.jobs, List.length_map]
    rw [hj, p.loops]
    generalize EventLoop.step l.skip l.stopped l.pos = q
    obtain ⟨pos, es⟩ := q
    dsimp only
    by_cases hc : pos.pc = .crashed
    · rw [if_pos hc, if_pos hc]
      exact .error _
    · rw [if_neg hc, if_neg hc]
      split
      · exact .ok (start e fac _ (.task _ _ _) (setLoops p _))
      · exact .ok (setLoops p _)

theorem step (e : RecodeCos g φ ψ env.tk tk') (fac : Factory F) (ev : Service.Ev F) {s s' : Service.Sys F} (p : SysPar g φ ψ s s') :
    Agree (SysPar g φ ψ) (Service.step env fac ev s) (Service.step env' (codeFactory ψ fac) (codeEv g φ ev) s') := by
  cases ev with
  | arrive j => exact .ok (start e fac _ j p)
  | run i =>
    have h := pool [i] p.progs s.world s.now
    rw [← p.world, ← p.now] at h
    simp only [Service.step, codeEv]
    revert h
    rw [p.now]
    generalize Pool.run [i] s.progs s.world s.now = x
    generalize Pool.run [i] s'.progs s'.world s.now = y
    intro h
    cases h with
    | error e => exact .error e
    | ok r =>
      obtain ⟨r1, r2, r3⟩ := r
      exact .ok ⟨p.loops, p.jobs, r1, r2, r3⟩
  | loop k =>
    simp only [Service.step, codeEv, p.loops]
    cases s.loops[k]? with
    | none => exact .ok p
    | some l => exact loopStep e fac k l p
  | stop k =>
    simp only [Service.step, codeEv, p.loops]
    cases s.loops[k]? with
    | none => exact .ok p
    | some l => exact .ok (setLoops p _)

theorem events (e : RecodeCos g φ ψ env.tk tk') (fac : Factory F) : ∀ (evs : List (Service.Ev F)) {s s' : Service.Sys F} (_ : SysPar g φ ψ s s'),
    Agree (SysPar g φ ψ) (Service.run env fac evs s) (Service.run env' (codeFactory ψ fac) (evs.map (codeEv g φ)) s')
  | [], _, _, p => .ok p
  | ev :: evs, s, s', p => by
    have h := step e fac ev p
    rw [List.map_cons]
    unfold Service.run
    revert h
    generalize Service.step env fac ev s = x
    generalize Service.step env' (codeFactory ψ fac) (codeEv g φ ev) s' = y
    intro h
    cases h with
    | error e => exact .error e
    | ok r => exact events e fac evs r

theorem boot (nodes : List (Config × Nat × SkipConfig)) (w : World F) (p : Nat) :
    SysPar g φ ψ (Service.boot nodes w p) (Service.boot nodes (codeWorld g φ ψ w) p) := ⟨rfl, rfl, .nil, rfl, rfl⟩

/-- Everything a service does is the same, but for the way in which datapoints are written. -/
theorem service (e : RecodeCos g φ ψ env.tk tk') (fac : Factory F) (nodes : List (Config × Nat × SkipConfig)) (w : World F) (p : Nat) (evs : List (Service.Ev F)) :
    Agree (Recoded g φ ψ) (Service.run env fac evs (Service.boot nodes w p))
      (Service.run env' (codeFactory ψ fac) (evs.map (codeEv g φ)) (Service.boot nodes (codeWorld g φ ψ w) p)) := by
  have h := events e fac evs (boot nodes w p)
  revert h
  generalize Service.run env fac evs (Service.boot nodes w p) = x
  generalize Service.run env' (codeFactory ψ fac) (evs.map (codeEv g φ)) (Service.boot nodes (codeWorld g φ ψ w) p) = y
  intro h
  cases h with
  | error e => exact .error e
  | ok r => exact .ok r.recoded

end Par
end Trypo
