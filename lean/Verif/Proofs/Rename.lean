import Verif.Spec.Rename
import Verif.Proofs.RecodeSystem

/-!
# Giving other names commutes with everything a service does
-/

set_option linter.unusedSectionVars false
set_option linter.unusedVariables false
set_option linter.unusedSimpArgs false

namespace Trypo
open GoFloat Spec EventLoop

variable {F : Type} [GoFloat F]

/-- Two programs that take the same steps, but for names; `h` translates what they hand out. -/
inductive Ren (ρ : Equiv.Perm Addr) (σ : Equiv.Perm NS) {α α' : Type} (h : α → α') : Prog F α → Prog F α' → Prop
  | ret (a : α) : Ren ρ σ h (.ret a) (.ret (h a))
  | act {β β' : Type} (b : β → β') (a : Act F β) (a' : Act F β') (k : β → Prog F α) (k' : β' → Prog F α')
      (ha : ∀ w, a'.run (nameWorld ρ σ w) = (fun r => (b r.1, nameWorld ρ σ r.2)) <$> a.run w)
      (hk : ∀ x, Ren ρ σ h (k x) (k' (b x))) : Ren ρ σ h (.act a k) (.act a' k')

theorem lookup_names {κ υ : Type} [DecidableEq κ] (σ : Equiv.Perm κ) (k : κ) : ∀ l : List (κ × υ), (l.map fun e => (σ e.1, e.2)).lookup (σ k) = l.lookup k
  | [] => rfl
  | (x, v) :: l => by
    simp only [List.map_cons, List.lookup_cons, lookup_names σ k l]
    by_cases h : k = x
    · subst h; simp
    · have h' : σ k ≠ σ x := fun e => h (σ.injective e)
      rw [beq_false_of_ne h, beq_false_of_ne h']

namespace Ren
variable {ρ : Equiv.Perm Addr} {σ : Equiv.Perm NS} {α α' β β' γ γ' : Type}

theorem eq {h h' : α → α'} {m : Prog F α} {m' : Prog F α'} (p : Ren ρ σ h m m') (e : h = h') : Ren ρ σ h' m m' := e ▸ p

theorem pure {h : α → α'} {a : α} {a' : α'} (e : a' = h a) : Ren (F := F) ρ σ h (Pure.pure a) (Pure.pure a') := e ▸ .ret a

theorem bind {h : α → α'} {h2 : β → β'} {m : Prog F α} {m' : Prog F α'} {f : α → Prog F β} {f' : α' → Prog F β'}
    (p : Ren ρ σ h m m') (hf : ∀ a, Ren ρ σ h2 (f a) (f' (h a))) : Ren ρ σ h2 (m >>= f) (m' >>= f') := by
  induction p with
  | ret a => exact hf a
  | act b a a' k k' ha hk ih => exact .act b a a' _ _ ha ih

theorem loc {h : α → α'} {m : Go α} {m' : Go α'} (e : m' = h <$> m) : Ren (F := F) ρ σ h (Prog.loc m) (Prog.loc m') := by
  refine .act h _ _ _ _ (fun w => ?_) fun x => .ret x
  subst e
  simp only [Act.run, map_bind, bind_map_left, map_pure]

theorem loc_id {m m' : Go α} (e : m' = m) : Ren (F := F) ρ σ id (Prog.loc m) (Prog.loc m') := loc (by rw [e, id_map])

theorem run {h : α → α'} {m : Prog F α} {m' : Prog F α'} (p : Ren ρ σ h m m') :
    ∀ w, m'.run (nameWorld ρ σ w) = (fun r => (h r.1, nameWorld ρ σ r.2)) <$> m.run w := by
  induction p with
  | ret a => intro w; rfl
  | act b a a' k k' ha hk ih => intro w; simp only [Prog.run, ha, map_bind, bind_map_left, ih]

theorem access (a : Addr) (ns : NS) (f : Manager F → Go (β × Manager F)) :
    Ren ρ σ id (Server.access a ns f) (Server.access (ρ a) (σ ns) f) := by
  unfold Server.access
  refine .act id _ _ _ _ (fun w => ?_) fun i => ?_
  · have h : (nameWorld ρ σ w).lookup (ρ a) (σ ns) = w.lookup a ns := by
      unfold World.lookup nameWorld
      simp only [Equiv.symm_apply_apply]
      exact lookup_names σ ns _
    simp only [Act.run, h, map_pure]
    rfl
  · cases i with
    | none => exact .ret _
    | some i =>
      refine .act id _ _ _ _ (fun w => ?_) fun x => .ret (some x)
      have hw : (nameWorld ρ σ w).heap[i]? = w.heap[i]?.map fun s => (σ s.1, s.2) := by simp [nameWorld]
      simp only [Act.run]
      rw [hw]
      cases w.heap[i]? with
      | none => rfl
      | some s =>
        simp only [Option.map_some, map_bind, bind_map_left, map_pure]
        refine bind_congr fun r => ?_
        simp [nameWorld, List.map_set]

theorem addSlot (a : Addr) (ns : NS) (m : Manager F) :
    Ren ρ σ id (Prog.ofAct (.addSlot a ns m)) (Prog.ofAct (.addSlot (ρ a) (σ ns) m)) := by
  refine .act id _ _ _ _ (fun w => ?_) fun x => .ret x
  have h : (nameWorld ρ σ w).addSlot (ρ a) (σ ns) m = nameWorld ρ σ (w.addSlot a ns m) := by
    unfold World.addSlot nameWorld
    simp only [List.length_map, List.map_append, List.map_cons, List.map_nil, World.mk.injEq, and_true]
    funext b
    by_cases hb : b = ρ a
    · subst hb
      simp [List.filter_map, Function.comp_def]
    · have : ¬ ρ.symm b = a := fun e => hb (by rw [← e]; simp)
      rw [if_neg hb, if_neg this]
  simp only [Act.run, h, map_pure]

theorem names (a : Addr) : Ren (F := F) ρ σ (List.map σ) (Prog.ofAct (.names a)) (Prog.ofAct (.names (ρ a))) := by
  refine .act (List.map σ) _ _ _ _ (fun w => ?_) fun x => .ret x
  simp [Act.run, nameWorld, Function.comp_def]

theorem each {h : β → β'} {f : α → Prog F β} {f' : α' → Prog F β'} (i : α → α') (hf : ∀ a, Ren ρ σ h (f a) (f' (i a))) :
    ∀ l : List α, Ren ρ σ (List.map h) (Prog.each f l) (Prog.each f' (l.map i))
  | [] => .ret []
  | x :: xs => by
    rw [List.map_cons]
    unfold Prog.each
    exact .bind (hf x) fun y => .bind (each i hf xs) fun ys => .pure (by simp)

theorem each_same {f f' : α → Prog F β} (hf : ∀ a, Ren ρ σ id (f a) (f' a)) (l : List α) :
    Ren ρ σ id (Prog.each f l) (Prog.each f' l) := by
  have := each (ρ := ρ) (σ := σ) (h := id) (f := f) (f' := f') id hf l
  rw [List.map_id] at this
  exact this.eq Par.list_id

variable {env : Env}
set_option quotPrecheck false
local notation "env'" => nameEnv ρ env

theorem shuffled (f : α → β) (l : List α) : (env' : Env).shuffled (l.map f) = List.map f <$> env.shuffled l := Par.shuffled_map env f l

theorem sent (a : Addr) : (env' : Env).sent (ρ a) = env.sent a := by
  unfold Env.sent nameEnv
  simp

theorem arrived (a : Addr) : (env' : Env).arrived (ρ a) = env.arrived a := by
  unfold Env.arrived nameEnv
  simp

theorem call (a : Addr) {b : β → β'} {m : Prog F (Option β)} {m' : Prog F (Option β')} (p : Ren ρ σ (Option.map b) m m') :
    Ren ρ σ (Option.map b) (Client.call env a m) (Client.call env' (ρ a) m') := by
  unfold Client.call
  refine .bind (loc_id (sent a)) fun x => ?_
  cases x with
  | false => exact .ret _
  | true =>
    refine .bind p fun r => .bind (loc_id (arrived a)) fun x => ?_
    cases x with
    | false => exact .ret _
    | true => exact .ret _

theorem call_id (a : Addr) {m m' : Prog F (Option β)} (p : Ren ρ σ id m m') : Ren ρ σ id (Client.call env a m) (Client.call env' (ρ a) m') :=
  (call (b := id) a (p.eq Par.opt_id.symm)).eq Par.opt_id

theorem fetchVecs (addrs : List Addr) {f f' : Addr → Prog F (Option (List F))} (hf : ∀ a, Ren ρ σ id (f a) (f' (ρ a))) :
    Ren ρ σ (List.map fun q => (ρ q.1, q.2)) (Trypo.fetchVecs env addrs f) (Trypo.fetchVecs env' (addrs.map ρ) f') := by
  unfold Trypo.fetchVecs
  refine .bind (loc (shuffled ρ addrs)) fun st => ?_
  refine .bind (each (h := fun q : Addr × Option (List F) => (ρ q.1, q.2)) ρ (fun a => .bind (hf a) fun r => .ret (a, r)) st) fun as => ?_
  refine .bind (loc (shuffled _ as)) fun l => .pure ?_
  rw [List.filterMap_map, List.map_filterMap]
  refine List.filterMap_congr fun q _ => ?_
  obtain ⟨a, v⟩ := q
  cases v with
  | none => rfl
  | some v => cases v <;> rfl

/-! ### The methods of the server -/

theorem namespaces (a : Addr) : Ren (F := F) ρ σ (List.map σ) (Server.namespaces env a) (Server.namespaces env' (ρ a)) :=
  .bind (names a) fun l => loc (shuffled σ l)

theorem vec (a : Addr) (ns : NS) : Ren (F := F) ρ σ id (Server.vec a ns) (Server.vec (ρ a) (σ ns)) := access a ns _

theorem addDataPoint (fac : Factory F) (a : Addr) (ns : NS) (d : DataPoint F) :
    Ren ρ σ id (Server.addDataPoint env fac a ns d) (Server.addDataPoint env' fac (ρ a) (σ ns) d) := by
  unfold Server.addDataPoint
  refine .bind (access a ns _) fun r => ?_
  cases r with
  | some x => exact .ret _
  | none => exact .bind (loc_id rfl) fun m => .bind (addSlot a ns m) fun _ => .ret _

theorem drainOrdered (a : Addr) (ns : NS) (n : Int) :
    Ren (F := F) ρ σ id (Server.drainOrdered env a ns n) (Server.drainOrdered env' (ρ a) (σ ns) n) := access a ns _

theorem getMeta (a : Addr) : Ren (F := F) ρ σ (List.map fun x => (σ x.1, x.2)) (Server.getMeta env a) (Server.getMeta env' (ρ a)) := by
  unfold Server.getMeta
  refine .bind (namespaces a) fun l => .bind (each (h := Option.map fun x : NS × Nat × Nat => (σ x.1, x.2)) σ (fun ns => ?_) l) fun r => .pure ?_
  · refine .bind (access a ns _) fun q => .pure ?_
    cases q <;> rfl
  · rw [List.filterMap_map, List.map_filterMap]
    rfl

/-! ### The methods of the client -/

theorem clientNamespaces (a : Addr) : Ren (F := F) ρ σ (List.map σ) (Client.namespaces env a) (Client.namespaces env' (ρ a)) := by
  unfold Client.namespaces
  refine .bind (call (b := List.map σ) a (.bind (namespaces a) fun l => .pure rfl)) fun r => .pure ?_
  cases r <;> rfl

theorem clientVec (a : Addr) (ns : NS) : Ren (F := F) ρ σ id (Client.vec env a ns) (Client.vec env' (ρ a) (σ ns)) := call_id a (vec a ns)

theorem clientAdd (fac : Factory F) (a : Addr) (ns : NS) (d : DataPoint F) :
    Ren ρ σ id (Client.addDataPoint env fac a ns d) (Client.addDataPoint env' fac (ρ a) (σ ns) d) := by
  unfold Client.addDataPoint
  exact .bind (call_id a (.bind (addDataPoint fac a ns d) fun l => .pure rfl)) fun r => .pure rfl

theorem clientUnit {m m' : Prog F (Option β)} (a : Addr) (p : Ren ρ σ id m m') :
    Ren ρ σ id (do let _ ← Client.call env a m; Pure.pure ()) (do let _ ← Client.call env' (ρ a) m'; Pure.pure ()) :=
  .bind (call_id a p) fun r => .pure rfl

theorem clientLen (a : Addr) (ns : NS) : Ren (F := F) ρ σ id (Client.lenDP env a ns) (Client.lenDP env' (ρ a) (σ ns)) :=
  .bind (call_id a (access a ns _)) fun r => .pure rfl

theorem clientLookup (a : Addr) (ns : NS) (v : List F) (k : Int) (drain : Bool) :
    Ren ρ σ id (Client.knnLookup env a ns v k drain) (Client.knnLookup env' (ρ a) (σ ns) v k drain) :=
  .bind (loc_id rfl) fun _ => .bind (call_id a (access a ns _)) fun r => .pure rfl

theorem clientNearest (a : Addr) (ns : NS) (v : List F) (n : Int) (drain : Bool) :
    Ren ρ σ id (Client.nearestCentroids env a ns v n drain) (Client.nearestCentroids env' (ρ a) (σ ns) v n drain) :=
  .bind (call_id a (access a ns _)) fun r => .bind (loc_id rfl) fun cs => .pure rfl

theorem clientCentroidVec (a : Addr) (ns : NS) (v : List F) :
    Ren ρ σ id (Client.nearestCentroidVec env a ns v) (Client.nearestCentroidVec env' (ρ a) (σ ns) v) := call_id a (access a ns _)

theorem clientMeta (a : Addr) : Ren (F := F) ρ σ (List.map fun x => (σ x.1, x.2)) (Client.getMeta env a) (Client.getMeta env' (ρ a)) := by
  unfold Client.getMeta
  refine .bind (call (b := List.map fun x : NS × Nat × Nat => (σ x.1, x.2)) a (.bind (getMeta a) fun l => .pure rfl)) fun r => .pure ?_
  cases r <;> rfl

/-! ### Distributing and stealing -/

theorem distributeTo (fac : Factory F) (ns : NS) (addrs : List Addr) (d : DataPoint F) : ∀ is : List Nat,
    Ren ρ σ id (Server.distributeTo env fac ns addrs d is) (Server.distributeTo env' fac (σ ns) (addrs.map ρ) d is)
  | [] => .ret _
  | i :: is => by
    unfold Server.distributeTo
    refine .bind (loc (h := ρ) (Equi.idx_map _ _ _)) fun a => .bind (clientAdd fac a ns d) fun b => ?_
    cases b with
    | true => exact .ret _
    | false => exact distributeTo fac ns addrs d is

theorem distributeDP (fac : Factory F) (ns : NS) (remote : List (Addr × List F)) (d : DataPoint F) :
    Ren ρ σ id (Server.distributeDP env fac ns remote d) (Server.distributeDP env' fac (σ ns) (remote.map fun q => (ρ q.1, q.2)) d) := by
  unfold Server.distributeDP
  have h1 : (remote.map fun q => (ρ q.1, q.2)).map (fun q => q.2) = remote.map fun q => q.2 := by simp
  have h2 : (remote.map fun q => (ρ q.1, q.2)).map (fun q => q.1) = (remote.map fun q => q.1).map ρ := by simp
  rw [h1, h2, List.length_map]
  exact .bind (loc_id rfl) fun is => distributeTo fac ns _ d is

theorem putBack (a : Addr) (ns : NS) (d : DataPoint F) : Ren ρ σ id (Server.putBack env a ns d) (Server.putBack env' (ρ a) (σ ns) d) :=
  .bind (access a ns _) fun r => .ret _

theorem distributeFastLoop (fac : Factory F) (a : Addr) (ns : NS) (remote : List (Addr × List F)) :
    ∀ l : List (DataPoint F), Ren ρ σ id (Server.distributeFastLoop env fac a ns remote l)
      (Server.distributeFastLoop env' fac (ρ a) (σ ns) (remote.map fun q => (ρ q.1, q.2)) l)
  | [] => .ret _
  | d :: l => by
    unfold Server.distributeFastLoop
    refine .bind (distributeDP fac ns remote d) fun b => ?_
    cases b with
    | true => exact distributeFastLoop fac a ns remote l
    | false => exact .bind (putBack a ns d) fun _ => distributeFastLoop fac a ns remote l

theorem distributeFast (fac : Factory F) (a : Addr) (ns : NS) (n : Int) (addrs : List Addr) :
    Ren ρ σ id (Server.distributeFast env fac a ns n addrs) (Server.distributeFast env' fac (ρ a) (σ ns) n (addrs.map ρ)) := by
  unfold Server.distributeFast
  refine .bind (loc_id rfl) fun _ => .bind (drainOrdered a ns n) fun r => ?_
  cases r with
  | none => exact .ret _
  | some l =>
    simp only [id, List.length_map]
    split
    · exact .ret _
    · exact .bind (fetchVecs addrs fun b => clientVec b ns) fun remote => .bind (distributeFastLoop fac a ns remote l) fun _ => .ret _

theorem distributeAccurateLoop (fac : Factory F) (a : Addr) (ns : NS) (addrs : List Addr) :
    ∀ l : List (DataPoint F), Ren ρ σ id (Server.distributeAccurateLoop env fac a ns addrs l)
      (Server.distributeAccurateLoop env' fac (ρ a) (σ ns) (addrs.map ρ) l)
  | [] => .ret _
  | d :: l => by
    unfold Server.distributeAccurateLoop
    refine .bind (fetchVecs addrs fun b => clientCentroidVec b ns d.vec) fun remote => .bind (distributeDP fac ns remote d) fun b => ?_
    cases b with
    | true => exact distributeAccurateLoop fac a ns addrs l
    | false => exact .bind (putBack a ns d) fun _ => distributeAccurateLoop fac a ns addrs l

theorem distributeAccurate (fac : Factory F) (a : Addr) (ns : NS) (n : Int) (addrs : List Addr) :
    Ren ρ σ id (Server.distributeAccurate env fac a ns n addrs) (Server.distributeAccurate env' fac (ρ a) (σ ns) n (addrs.map ρ)) := by
  unfold Server.distributeAccurate
  refine .bind (loc_id rfl) fun _ => .bind (drainOrdered a ns n) fun r => ?_
  cases r with
  | none => exact .ret _
  | some l =>
    simp only [id, List.length_map]
    split
    · exact .ret _
    · exact .bind (distributeAccurateLoop fac a ns addrs l) fun _ => .ret _

theorem stealLoop (a : Addr) (ns : NS) (src : Addr) (v : List F) (limit : Int) : ∀ (fuel n : Nat),
    Ren ρ σ id (Server.stealLoop env a ns src v limit fuel n) (Server.stealLoop env' (ρ a) (σ ns) (ρ src) v limit fuel n)
  | 0, n => .ret _
  | fuel + 1, n => by
    unfold Server.stealLoop
    split
    · refine .bind (clientNearest src ns v 1 true) fun q => ?_
      obtain ⟨q1, q2⟩ := q
      cases q2 with
      | none => exact .ret _
      | some cs =>
        cases cs with
        | nil => exact .ret _
        | cons c cs => exact .bind (access a ns _) fun k => stealLoop a ns src v limit fuel _
    · exact .ret _

theorem stealWith (fuel : Nat) (a : Addr) (ns : NS) (src : Addr) (limit : Int) (v : List F) :
    Ren ρ σ id (Server.stealWith env fuel a ns src limit v) (Server.stealWith env' fuel (ρ a) (σ ns) (ρ src) limit v) :=
  .bind (stealLoop a ns src v limit fuel 0) fun q => .bind (access a ns _) fun _ => .ret _

theorem stealCentroid (fac : Factory F) (fuel : Nat) (a : Addr) (ns : NS) (src : Addr) (limit : Int) :
    Ren ρ σ id (Server.stealCentroid env fac fuel a ns src limit) (Server.stealCentroid env' fac fuel (ρ a) (σ ns) (ρ src) limit) := by
  unfold Server.stealCentroid
  refine .bind (access a ns _) fun r => ?_
  cases r with
  | some v => exact stealWith fuel a ns src limit v
  | none =>
    refine .bind (clientVec src ns) fun rv => ?_
    dsimp only [id]
    cases rv.getD [] with
    | nil => exact .ret _
    | cons x xs => exact .bind (loc_id rfl) fun m => .bind (addSlot a ns m) fun _ => stealWith fuel a ns src limit _

theorem clientSteal (fac : Factory F) (fuel : Nat) (a : Addr) (ns : NS) (src : Addr) (limit : Int) :
    Ren ρ σ id (Client.stealCentroids env fac fuel a ns src limit) (Client.stealCentroids env' fac fuel (ρ a) (σ ns) (ρ src) limit) := by
  unfold Client.stealCentroids
  refine .bind (call_id a (.bind (stealCentroid fac fuel a ns src limit) fun l => .pure rfl)) fun r => ?_
  cases r <;> exact .ret _

/-! ### The API -/

theorem pickNames (addrs : List Addr) : ∀ is : List Nat, Trypo.pick (addrs.map ρ) is = List.map ρ <$> Trypo.pick addrs is
  | [] => by simp [Trypo.pick]
  | i :: is => by
    unfold Trypo.pick
    simp only [Equi.idx_map, pickNames addrs is, map_bind, bind_map_left, map_pure, List.map_cons]

theorem bestFit (addrs : List Addr) (v : List F) {f f' : Addr → Prog F (Option (List F))} (hf : ∀ a, Ren ρ σ id (f a) (f' (ρ a))) :
    Ren ρ σ (List.map ρ) (Nodes.bestFitNodes env knnCos addrs v f) (Nodes.bestFitNodes env' knnCos (addrs.map ρ) v f') := by
  unfold Nodes.bestFitNodes
  refine .bind (fetchVecs addrs hf) fun rsp => loc ?_
  have h1 : (rsp.map fun q => (ρ q.1, q.2)).map (fun q => q.2) = rsp.map fun q => q.2 := by simp
  have h2 : (rsp.map fun q => (ρ q.1, q.2)).map (fun q => q.1) = (rsp.map fun q => q.1).map ρ := by simp
  rw [h1, h2, List.length_map]
  simp only [pickNames, map_bind]

theorem putDataPoint (fac : Factory F) (ns : NS) (d : DataPoint F) : ∀ as : List Addr,
    Ren ρ σ id (Dps.putDataPoint env fac ns d as) (Dps.putDataPoint env' fac (σ ns) d (as.map ρ))
  | [] => .ret _
  | a :: as => by
    rw [List.map_cons]
    unfold Dps.putDataPoint
    refine .bind (clientAdd fac a ns d) fun b => ?_
    cases b with
    | true => exact .ret _
    | false => exact putDataPoint fac ns d as

theorem getFrom (ns : NS) (v : List F) (n : Int) (drain : Bool) : ∀ (as : List Addr) (res : List (DataPoint F)),
    Ren ρ σ id (Dps.getFrom env ns v n drain as res) (Dps.getFrom env' (σ ns) v n drain (as.map ρ) res)
  | [], res => .ret _
  | a :: as, res => by
    rw [List.map_cons]
    unfold Dps.getFrom
    refine .bind (clientLookup a ns v _ drain) fun l => ?_
    dsimp only [id]
    split
    · exact .ret _
    · exact getFrom ns v n drain as _

theorem getDataPoints (as : List Addr) (ns : NS) (v : List F) (n : Int) (drain : Bool) :
    Ren ρ σ id (Dps.getDataPoints env as ns v n drain) (Dps.getDataPoints env' (as.map ρ) (σ ns) v n drain) :=
  .bind (loc_id rfl) fun _ => getFrom ns v n drain as []

theorem swapNames (l : List Addr) (i j : Nat) : Dps.swap (l.map ρ) i j = List.map ρ <$> Dps.swap l i j := by
  unfold Dps.swap
  simp only [Equi.idx_map, map_bind, bind_map_left, map_pure, List.map_set]

theorem shuffleFrom (n : Nat) : ∀ (k i : Nat) (l : List Addr), Dps.shuffleFrom env' n k i (l.map ρ) = List.map ρ <$> Dps.shuffleFrom env n k i l
  | 0, i, l => by simp [Dps.shuffleFrom]
  | k + 1, i, l => by
    unfold Dps.shuffleFrom
    simp only [swapNames, shuffleFrom n k, map_bind, bind_map_left]
    rfl

theorem put (fac : Factory F) (addrs : List Addr) (body : Option (Api.PutOpts F)) :
    Ren ρ σ id (Api.putDataPoint env fac addrs body) (Api.putDataPoint env' fac (addrs.map ρ) (body.map fun o => { o with ns := σ o.ns })) := by
  cases body with
  | none => exact .ret _
  | some o =>
    obtain ⟨ns, accurate, dp⟩ := o
    unfold Api.putDataPoint
    simp only [Option.map_some]
    refine .bind (h := id) ?_ fun b => .bind (h := id) ?_ fun b => .ret _
    · cases accurate with
      | true => exact .bind (bestFit addrs _ fun a => clientCentroidVec a ns _) fun as => putDataPoint fac ns _ as
      | false => exact .bind (bestFit addrs _ fun a => clientVec a ns) fun as => putDataPoint fac ns _ as
    · cases b with
      | true => exact .ret _
      | false =>
        refine .bind (loc (h := List.map ρ) ?_) fun as => putDataPoint fac ns _ as
        unfold Dps.shuffleAddrs
        rw [List.length_map]
        exact shuffleFrom _ _ _ _

theorem query (addrs : List Addr) (body : Option (Api.QueryOpts F)) :
    Ren ρ σ id (Api.queryDataPoint env addrs body) (Api.queryDataPoint env' (addrs.map ρ) (body.map fun o => { o with ns := σ o.ns })) := by
  cases body with
  | none => exact .ret _
  | some o =>
    obtain ⟨ns, accurate, v, n, drain⟩ := o
    unfold Api.queryDataPoint
    simp only [Option.map_some]
    refine .bind (h := id) ?_ fun l => .pure rfl
    cases accurate with
    | true => exact .bind (bestFit addrs v fun a => clientCentroidVec a ns v) fun as => getDataPoints as ns v n drain
    | false => exact .bind (bestFit addrs v fun a => clientVec a ns) fun as => getDataPoints as ns v n drain

/-! ### The event loop -/

/-- A table with other names. -/
def nameTable (ρ : Equiv.Perm Addr) (σ : Equiv.Perm NS) (t : Table) : Table := t.map fun e => (σ e.1, e.2.map ρ)

theorem addEntry (a : Addr) (ns : NS) : ∀ t : Table, EventLoop.addEntry (nameTable ρ σ t) (ρ a) (σ ns) = nameTable ρ σ (EventLoop.addEntry t a ns)
  | [] => rfl
  | e :: t => by
    have ih := addEntry a ns t
    unfold nameTable at ih ⊢
    rw [List.map_cons]
    unfold EventLoop.addEntry
    by_cases h : e.1 = ns
    · simp [h]
    · have : ¬ σ e.1 = σ ns := fun h' => h (σ.injective h')
      simp only [if_neg h, if_neg this, ih, List.map_cons]

theorem addEntries (a : Addr) : ∀ (l : List NS) (t : Table),
    EventLoop.addEntries (nameTable ρ σ t) (ρ a) (l.map σ) = nameTable ρ σ (EventLoop.addEntries t a l)
  | [], t => rfl
  | ns :: l, t => by
    have ih := addEntries a l (EventLoop.addEntry t a ns)
    unfold EventLoop.addEntries at ih ⊢
    rw [List.map_cons, List.foldl_cons, List.foldl_cons, addEntry, ih]

theorem tableOf (l : List (Addr × List NS)) : EventLoop.tableOf (l.map fun r => (ρ r.1, r.2.map σ)) = nameTable ρ σ (EventLoop.tableOf l) := by
  have key : ∀ (l : List (Addr × List NS)) (t : Table),
      (l.map fun r => (ρ r.1, r.2.map σ)).foldl (fun t r => EventLoop.addEntries t r.1 r.2) (nameTable ρ σ t) =
        nameTable ρ σ (l.foldl (fun t r => EventLoop.addEntries t r.1 r.2) t) := by
    intro l
    induction l with
    | nil => intro t; rfl
    | cons r l ih => intro t; rw [List.map_cons, List.foldl_cons, List.foldl_cons, addEntries, ih]
  exact key l []

theorem addrsOf (t : Table) (ns : NS) : addrsWithNamespace (nameTable ρ σ t) (σ ns) = (addrsWithNamespace t ns).map ρ := by
  unfold addrsWithNamespace nameTable
  have h : (t.map fun e => (σ e.1, e.2.map ρ)) = ((t.map fun e => (e.1, e.2.map ρ)).map fun e => (σ e.1, e.2)) := by simp
  rw [h, lookup_names]
  clear h
  induction t with
  | nil => rfl
  | cons e t ih =>
    obtain ⟨n, as⟩ := e
    simp only [List.map_cons, List.lookup_cons]
    cases ns == n with
    | true => rfl
    | false => exact ih

theorem namespaceTable (remotes : List Addr) :
    Ren (F := F) ρ σ (nameTable ρ σ) (EventLoop.namespaceTable env remotes) (EventLoop.namespaceTable env' (remotes.map ρ)) := by
  unfold EventLoop.namespaceTable
  refine .bind (each (h := fun r : Addr × List NS => (ρ r.1, r.2.map σ)) ρ (fun a => ?_) remotes) fun r => .pure (tableOf r)
  exact .bind (clientNamespaces a) fun l => .ret _

theorem lensGet (a : Addr) (m : Lens) : (nameLens ρ m).get (ρ a) = m.get a := by
  unfold Lens.get nameLens
  rw [lookup_names]

theorem lensSet (a : Addr) (n : Int) : ∀ m : Lens, (nameLens ρ m).set (ρ a) n = nameLens ρ (m.set a n)
  | [] => rfl
  | e :: m => by
    have ih := lensSet a n m
    unfold nameLens at ih ⊢
    rw [List.map_cons]
    unfold Lens.set
    by_cases h : e.1 = a
    · simp [h]
    · have : ¬ ρ e.1 = ρ a := fun h' => h (ρ.injective h')
      simp only [if_neg h, if_neg this, ih, List.map_cons]

theorem fetchLens (addrs : List Addr) (ns : NS) :
    Ren (F := F) ρ σ (nameLens ρ) (EventLoop.fetchLens env addrs ns) (EventLoop.fetchLens env' (addrs.map ρ) (σ ns)) := by
  unfold EventLoop.fetchLens
  refine .bind (loc (shuffled ρ addrs)) fun st => .bind (each (h := fun r : Addr × Nat => (ρ r.1, r.2)) ρ (fun a => ?_) st) fun r =>
    .bind (loc (shuffled _ r)) fun l => .pure ?_
  · exact .bind (clientLen a ns) fun l => .ret _
  · have key : ∀ (l : List (Addr × Nat)) (m : Lens), (l.map fun r => (ρ r.1, r.2)).foldl (fun m q => Lens.set m q.1 (q.2 : Int)) (nameLens ρ m) =
        nameLens ρ (l.foldl (fun m q => Lens.set m q.1 (q.2 : Int)) m) := by
      intro l
      induction l with
      | nil => intro m; rfl
      | cons r l ih => intro m; rw [List.map_cons, List.foldl_cons, List.foldl_cons, lensSet, ih]
    exact key l []

theorem wantNames (r n : Nat) (lo : Addr) (mean mar : Int) (lens : Lens) (other : Addr) (k : Int) :
    want r n (ρ lo) mean mar (nameLens ρ lens) (ρ other) k = want r n lo mean mar lens other k := by
  unfold want
  simp only [lensGet, EmbeddingLike.apply_eq_iff_eq]

theorem balanceLoop {steal steal' : Addr → Int → Prog F Int} (hs : ∀ a n, Ren ρ σ id (steal a n) (steal' (ρ a) n)) (r n : Nat) (lo : Addr) (mean mar : Int) :
    ∀ (as : List Addr) (lens : Lens), Ren ρ σ (List.map (nameStolen ρ)) (EventLoop.balanceLoop steal r n lo mean mar as lens)
      (EventLoop.balanceLoop steal' r n (ρ lo) mean mar (as.map ρ) (nameLens ρ lens))
  | [], lens => .ret _
  | a :: as, lens => by
    rw [List.map_cons]
    unfold EventLoop.balanceLoop
    rw [lensGet, wantNames]
    refine .bind (loc_id rfl) fun o => ?_
    cases o with
    | none => exact balanceLoop hs r n lo mean mar as lens
    | some k =>
      refine .bind (hs a k) fun got => ?_
      simp only [id, lensGet, lensSet]
      exact .bind (balanceLoop hs r n lo mean mar as _) fun _ => .ret _

theorem balanceNamespace (fac : Factory F) (fuel : Nat) (lo : Addr) (remotes : List Addr) (t : Table) (ns : NS) :
    Ren ρ σ (fun q => (nameLens ρ q.1, q.2.map (nameStolen ρ))) (EventLoop.balanceNamespace env fac fuel lo remotes t ns)
      (EventLoop.balanceNamespace env' fac fuel (ρ lo) (remotes.map ρ) (nameTable ρ σ t) (σ ns)) := by
  unfold EventLoop.balanceNamespace
  simp only [addrsOf, List.length_map]
  refine .bind (fetchLens _ ns) fun lens => .bind (h := List.map (nameStolen ρ)) ?_ fun l => .ret _
  unfold EventLoop.balance
  have hm : meanOf (nameLens ρ lens) = meanOf lens := by
    unfold meanOf total nameLens
    rw [List.length_map, List.foldl_map]
  have hk : (nameLens ρ lens).map (fun e => e.1) = (lens.map fun e => e.1).map ρ := by simp [nameLens]
  rw [hm, hk]
  exact .bind (loc_id rfl) fun mean => .bind (loc (shuffled ρ _)) fun keys =>
    balanceLoop (fun a n => .bind (clientSteal fac fuel lo ns a n) fun r => .ret (r.1 : Int)) _ _ _ _ _ _ _

theorem startAll (cfg : Config) {f f' : NS → Call} (hf : ∀ ns, f' (σ ns) = nameCall ρ σ (f ns)) :
    Ren (F := F) ρ σ (nameReport ρ σ) (EventLoop.startAll env cfg f) (EventLoop.startAll env' (nameConfig ρ cfg) f') := by
  refine .bind (clientNamespaces _) fun l => .pure ?_
  simp only [nameReport, List.map_map]
  congr 2
  funext ns
  exact hf ns

theorem withAddrs (cfg : Config) {f f' : NS → List Addr → Prog F Unit} (hf : ∀ ns as, Ren ρ σ id (f ns as) (f' (σ ns) (as.map ρ))) :
    Ren (F := F) ρ σ (nameReport ρ σ) (EventLoop.withAddrs env cfg f) (EventLoop.withAddrs env' (nameConfig ρ cfg) f') := by
  refine .bind (clientNamespaces _) fun l => .bind (each (h := id) σ (fun ns => .bind (namespaceTable _) fun t => ?_) l) fun r => .ret _
  rw [addrsOf]
  exact hf ns _

theorem task (fac : Factory F) (fuel : Nat) (cfg : Config) (t : TaskId) :
    Ren ρ σ (nameReport ρ σ) (EventLoop.task env fac fuel cfg t) (EventLoop.task env' fac fuel (nameConfig ρ cfg) t) := by
  cases t with
  | expire => exact startAll cfg fun _ => rfl
  | memTrim => exact startAll cfg fun _ => rfl
  | distInternal => exact startAll cfg fun _ => rfl
  | split => exact startAll cfg fun _ => rfl
  | merge => exact startAll cfg fun _ => rfl
  | distFast =>
    exact withAddrs (f := fun ns as => Client.distributeFast env fac cfg.loc ns as cfg.fastN) (f' := fun ns as => Client.distributeFast env' fac (ρ cfg.loc) ns as cfg.fastN) cfg
      fun ns as => clientUnit _ (distributeFast fac _ ns _ as)
  | distAccurate =>
    exact withAddrs (f := fun ns as => Client.distributeAccurate env fac cfg.loc ns as cfg.accurateN) (f' := fun ns as => Client.distributeAccurate env' fac (ρ cfg.loc) ns as cfg.accurateN) cfg
      fun ns as => clientUnit _ (distributeAccurate fac _ ns _ as)
  | loadBalancing =>
    refine .bind (namespaceTable _) fun t => .bind (loc (h := List.map σ) ?_) fun nss =>
      .bind (each (h := fun e : NS × Lens × List Stolen => (σ e.1, nameLens ρ e.2.1, e.2.2.map (nameStolen ρ))) σ (fun ns => ?_) nss) fun l => .ret _
    · unfold EventLoop.namespaces
      rw [← shuffled (ρ := ρ) σ]
      simp [nameTable, Function.comp_def]
    · exact .bind (balanceNamespace fac fuel _ _ t ns) fun r => .ret _
  | getMeta =>
    have h : (if (nameConfig ρ cfg).logLocalOnly then [(nameConfig ρ cfg).loc] else (nameConfig ρ cfg).remotes) =
        (if cfg.logLocalOnly then [cfg.loc] else cfg.remotes).map ρ := by
      unfold nameConfig
      dsimp only
      split <;> simp
    unfold EventLoop.task
    rw [h]
    refine .bind (each (h := fun e : Addr × List (NS × Nat × Nat) => (ρ e.1, e.2.map fun x => (σ x.1, x.2))) ρ (fun a => ?_) _) fun l => .ret _
    exact .bind (clientMeta a) fun r => .ret _

theorem loop (fac : Factory F) (fuel : Nat) (cfg : Config) (skip : SkipConfig) : ∀ (n : Nat) (iter : Int),
    Ren ρ σ (List.map (nameReport ρ σ)) (EventLoop.loop env fac fuel cfg skip n iter) (EventLoop.loop env' fac fuel (nameConfig ρ cfg) skip n iter)
  | 0, iter => .ret _
  | n + 1, iter => by
    unfold EventLoop.loop
    refine .bind (h := List.map (nameReport ρ σ)) ?_ fun l => .bind (loop fac fuel cfg skip n _) fun ls => .pure (by simp)
    unfold EventLoop.oneIteration
    have := each (ρ := ρ) (σ := σ) (h := nameReport ρ σ) (f := EventLoop.turn env fac fuel cfg skip iter)
      (f' := EventLoop.turn env' fac fuel (nameConfig ρ cfg) skip iter) id (fun t => ?_) order
    · rwa [List.map_id] at this
    · refine .bind (loc_id rfl) fun b => ?_
      cases b with
      | true => exact task fac fuel cfg t
      | false => exact .ret _

theorem callProg (c : Call) : Ren (F := F) ρ σ id (c.prog env) ((nameCall ρ σ c).prog env') := by
  cases c with
  | expire a ns => exact clientUnit a (access a ns _)
  | memTrim a ns => exact clientUnit a (access a ns _)
  | distributeInternal a ns n => exact clientUnit a (access a ns _)
  | splitCentroids a ns min max => exact clientUnit a (access a ns _)
  | mergeCentroids a ns min max => exact clientUnit a (access a ns _)

/-! ### Jobs -/

theorem answered {f : β → Answer F} {m m' : Prog F (Option β)} (p : Ren ρ σ id m m') : Ren ρ σ id (answer f m) (answer f m') := by
  unfold answer
  refine .bind p fun r => ?_
  cases r <;> exact .ret _

theorem serve (fac : Factory F) (r : Request F) : Ren ρ σ id (r.serve env fac) ((nameRequest ρ σ r).serve env' fac) := by
  cases r with
  | add a ns d => exact .bind (addDataPoint fac a ns d) fun b => .pure rfl
  | vec a ns => exact answered (access a ns _)
  | lenDP a ns => exact answered (access a ns _)
  | drainUnordered a ns n => exact answered (access a ns _)
  | drainOrdered a ns n => exact answered (access a ns _)
  | expire a ns => exact answered (access a ns _)
  | memTrim a ns => exact answered (access a ns _)
  | moveVector a ns => exact answered (access a ns _)
  | distributeInternal a ns n => exact answered (access a ns _)
  | distributeFast a ns n as => exact answered (distributeFast fac a ns n as)
  | distributeAccurate a ns n as => exact answered (distributeAccurate fac a ns n as)
  | knnLookup a ns v k drain => exact answered (access a ns _)
  | nearestCentroids a ns v n drain => exact answered (access a ns _)
  | nearestCentroidVec a ns v => exact answered (access a ns _)
  | splitCentroids a ns min max => exact answered (access a ns _)
  | mergeCentroids a ns min max => exact answered (access a ns _)
  | stealCentroid a ns src limit fuel => exact .bind (stealCentroid fac fuel a ns src limit) fun b => .pure rfl

theorem job (fac : Factory F) (j : Job F) : Ren ρ σ (nameOutcome ρ σ) (j.prog env fac) ((nameJob ρ σ j).prog env' fac) := by
  cases j with
  | rpc r => exact .bind (serve fac r) fun a => .pure rfl
  | call c => exact .bind (callProg c) fun a => .pure rfl
  | put addrs body => exact .bind (put fac addrs body) fun a => .pure rfl
  | query addrs body => exact .bind (query addrs body) fun a => .pure rfl
  | task cfg fuel t => exact .bind (task fac fuel cfg t) fun a => .pure rfl
  | loop cfg fuel skip n iter => exact .bind (loop fac fuel cfg skip n iter) fun a => .pure rfl

/-! ### Goroutines -/

/-- Goroutines that take the same steps one by one. -/
def All (ρ : Equiv.Perm Addr) (σ : Equiv.Perm NS) (h : α → α') (ts : List (Prog F α)) (ts' : List (Prog F α')) : Prop :=
  List.Forall₂ (Ren ρ σ h) ts ts'

theorem All.get {h : α → α'} {ts : List (Prog F α)} {ts' : List (Prog F α')} (p : All ρ σ h ts ts') (i : Nat) :
    (ts[i]? = none ∧ ts'[i]? = none) ∨ ∃ m m', ts[i]? = some m ∧ ts'[i]? = some m' ∧ Ren ρ σ h m m' := by
  induction p generalizing i with
  | nil => left; simp
  | cons p ps ih =>
    cases i with
    | zero => right; exact ⟨_, _, rfl, rfl, p⟩
    | succ i => simpa using ih i

theorem All.set {h : α → α'} {ts : List (Prog F α)} {ts' : List (Prog F α')} (p : All ρ σ h ts ts') (i : Nat) {m : Prog F α} {m' : Prog F α'}
    (q : Ren ρ σ h m m') : All ρ σ h (ts.set i m) (ts'.set i m') := by
  induction p generalizing i with
  | nil => exact List.Forall₂.nil
  | cons p ps ih =>
    cases i with
    | zero => exact .cons q ps
    | succ i => exact .cons p (ih i)

theorem All.snoc {h : α → α'} {ts : List (Prog F α)} {ts' : List (Prog F α')} (p : All ρ σ h ts ts') {m : Prog F α} {m' : Prog F α'}
    (q : Ren ρ σ h m m') : All ρ σ h (ts ++ [m]) (ts' ++ [m']) :=
  List.rel_append p (.cons q .nil)

theorem act_step {β β' : Type} {b : β → β'} {a : Act F β} {a' : Act F β'}
    (ha : ∀ w, a'.run (nameWorld ρ σ w) = (fun r => (b r.1, nameWorld ρ σ r.2)) <$> a.run w) (w : World F) (p : Nat) :
    a'.run (nameWorld ρ σ w) p = match a.run w p with
      | .ok (r, p') => .ok ((b r.1, nameWorld ρ σ r.2), p')
      | .error e => .error e := by
  rw [ha w]
  show (StateT.map _ (a.run w)) p = _
  unfold StateT.map
  cases h : a.run w p with
  | error e => rfl
  | ok r => rfl

theorem pool {h : α → α'} : ∀ (is : List Nat) {ts : List (Prog F α)} {ts' : List (Prog F α')} (_ : All ρ σ h ts ts') (w : World F) (p : Nat),
    Agree (fun (r : List (Prog F α) × World F × Nat) (r' : List (Prog F α') × World F × Nat) =>
      All ρ σ h r.1 r'.1 ∧ r'.2.1 = nameWorld ρ σ r.2.1 ∧ r'.2.2 = r.2.2) (Pool.run is ts w p) (Pool.run is ts' (nameWorld ρ σ w) p)
  | [], _, _, q, w, p => .ok ⟨q, rfl, rfl⟩
  | i :: is, ts, ts', q, w, p => by
    unfold Pool.run
    obtain ⟨h1, h2⟩ | ⟨m, m', h1, h2, pm⟩ := q.get i
    · rw [h1, h2]
      exact pool is q w p
    · rw [h1, h2]
      cases pm with
      | ret a => exact pool is q w p
      | act b a a' k k' ha hk =>
        dsimp only
        rw [act_step ha w p]
        cases hr : a.run w p with
        | error e => exact .error e
        | ok r =>
          obtain ⟨r, p'⟩ := r
          exact pool is (q.set i (hk r.1)) r.2 p'

/-! ### The service -/

/-- Two services in the same state, but for names, and also in what their goroutines are going to do. -/
structure SysRen (ρ : Equiv.Perm Addr) (σ : Equiv.Perm NS) (s s' : Service.Sys F) : Prop where
  loops : s'.loops = s.loops.map (nameLoop ρ)
  jobs : s'.jobs = s.jobs.map fun q => (q.1, nameJob ρ σ q.2)
  progs : All ρ σ (nameOutcome ρ σ) s.progs s'.progs
  world : s'.world = nameWorld ρ σ s.world
  now : s'.now = s.now

theorem SysRen.names {s s' : Service.Sys F} (p : SysRen ρ σ s s') : OtherNames ρ σ s s' where
  loops := p.loops
  jobs := p.jobs
  world := p.world
  now := p.now
  outcomes := by
    have := p.progs
    unfold outcomes
    generalize s.progs = ts at this
    generalize s'.progs = ts' at this
    induction this with
    | nil => rfl
    | cons q qs ih =>
      simp only [List.map_cons, ih]
      cases q <;> rfl

theorem start (fac : Factory F) (src : Service.Source) (j : Job F) {s s' : Service.Sys F} (p : SysRen ρ σ s s') :
    SysRen ρ σ (s.start env fac src j) (s'.start env' fac src (nameJob ρ σ j)) where
  loops := p.loops
  jobs := by simp [Service.Sys.start, p.jobs]
  progs := p.progs.snoc (job fac j)
  world := p.world
  now := p.now

theorem startCalls (fac : Factory F) (src : Service.Source) : ∀ (cs : List Call) {s s' : Service.Sys F} (_ : SysRen ρ σ s s'),
    SysRen ρ σ (cs.foldl (fun s c => s.start env fac src (.call c)) s)
      ((cs.map (nameCall ρ σ)).foldl (fun s c => s.start env' fac src (.call c)) s')
  | [], _, _, p => p
  | c :: cs, _, _, p => startCalls fac src cs (start fac src (.call c) p)

theorem setLoops {s s' : Service.Sys F} (p : SysRen ρ σ s s') {ls ls' : List Service.Loop} (h : ls' = ls.map (nameLoop ρ)) :
    SysRen ρ σ { s with loops := ls } { s' with loops := ls' } := ⟨h, p.jobs, p.progs, p.world, p.now⟩

theorem callsOf (o : Outcome F) : Service.callsOf (nameOutcome ρ σ o) = (Service.callsOf o).map (nameCall ρ σ) := by
  cases o with
  | reports l =>
    unfold Service.callsOf nameOutcome
    simp only [List.flatMap_map, List.map_flatMap]
    refine List.flatMap_congr fun r _ => ?_
    cases r <;> rfl
  | answer a => rfl
  | nothing => rfl
  | status n => rfl
  | found n l => rfl

theorem loopStep (fac : Factory F) (k : Nat) (l : Service.Loop) {s s' : Service.Sys F} (p : SysRen ρ σ s s') :
    Agree (SysRen ρ σ) (Service.loopStep env fac k l s) (Service.loopStep env' fac k (nameLoop ρ l) s') := by
  unfold Service.loopStep
  have hb : (nameLoop ρ l).busy = l.busy := rfl
  rw [hb]
  cases l.busy with
  | some i =>
    dsimp only
    obtain ⟨h1, h2⟩ | ⟨m, m', h1, h2, pm⟩ := p.progs.get i
    · rw [h1, h2]; exact .ok p
    · rw [h1, h2]
      cases pm with
      | act => exact .ok p
      | ret o =>
        dsimp only
        rw [callsOf, p.loops]
        exact .ok (startCalls fac _ _ (setLoops p (by rw [List.map_set]; rfl)))
  | none =>
    dsimp only
    have hj : s'.jobs.length = s.jobs.length := by rw [p.jobs, List.length_map]
    have hst : EventLoop.step (nameLoop ρ l).skip (nameLoop ρ l).stopped (nameLoop ρ l).pos = EventLoop.step l.skip l.stopped l.pos := rfl
    rw [hj, p.loops, hst]
    generalize EventLoop.step l.skip l.stopped l.pos = q
    obtain ⟨pos, es⟩ := q
    dsimp only
    by_cases hc : pos.pc = .crashed
    · rw [if_pos hc, if_pos hc]
      exact .error _
    · rw [if_neg hc, if_neg hc]
      split
      · exact .ok (start fac _ (.task _ _ _) (setLoops p (by rw [List.map_set]; rfl)))
      · exact .ok (setLoops p (by rw [List.map_set]; rfl))

theorem step (fac : Factory F) (ev : Service.Ev F) {s s' : Service.Sys F} (p : SysRen ρ σ s s') :
    Agree (SysRen ρ σ) (Service.step env fac ev s) (Service.step env' fac (nameEv ρ σ ev) s') := by
  cases ev with
  | arrive j => exact .ok (start fac _ j p)
  | run i =>
    have h := pool [i] p.progs s.world s.now
    rw [← p.world, ← p.now] at h
    simp only [Service.step, nameEv]
    revert h
    rw [p.now]
    generalize Pool.run [i] s.progs s.world s.now = x
    generalize Pool.run [i] s'.progs s'.world s.now = y
    intro h
    cases h with
    | error e => exact .error e
    | ok r =>
      obtain ⟨r1, r2, r3⟩ := r
      exact .ok ⟨p.loops, p.jobs, r1, r2, r3⟩
  | loop k =>
    simp only [Service.step, nameEv, p.loops, List.getElem?_map]
    cases s.loops[k]? with
    | none => exact .ok p
    | some l => exact loopStep fac k l p
  | stop k =>
    simp only [Service.step, nameEv, p.loops, List.getElem?_map]
    cases s.loops[k]? with
    | none => exact .ok p
    | some l => exact .ok (setLoops p (by rw [List.map_set]; rfl))

theorem events (fac : Factory F) : ∀ (evs : List (Service.Ev F)) {s s' : Service.Sys F} (_ : SysRen ρ σ s s'),
    Agree (SysRen ρ σ) (Service.run env fac evs s) (Service.run env' fac (evs.map (nameEv ρ σ)) s')
  | [], _, _, p => .ok p
  | ev :: evs, s, s', p => by
    have h := step (env := env) fac ev p
    rw [List.map_cons]
    unfold Service.run
    revert h
    generalize Service.step env fac ev s = x
    generalize Service.step env' fac (nameEv ρ σ ev) s' = y
    intro h
    cases h with
    | error e => exact .error e
    | ok r => exact events fac evs r

/-- Everything a service does is the same, but for names. -/
theorem service (fac : Factory F) (nodes : List (Config × Nat × SkipConfig)) (w : World F) (p : Nat) (evs : List (Service.Ev F)) :
    Agree (OtherNames ρ σ) (Service.run env fac evs (Service.boot nodes w p))
      (Service.run env' fac (evs.map (nameEv ρ σ)) (Service.boot (nodes.map fun n => (nameConfig ρ n.1, n.2)) (nameWorld ρ σ w) p)) := by
  have h0 : SysRen ρ σ (Service.boot nodes w p) (Service.boot (nodes.map fun n => (nameConfig ρ n.1, n.2)) (nameWorld ρ σ w) p) :=
    ⟨by simp [Service.boot, Function.comp_def, nameLoop, Service.Loop.new], rfl, .nil, rfl, rfl⟩
  have h := events (env := env) fac evs h0
  revert h
  generalize Service.run env fac evs (Service.boot nodes w p) = x
  generalize Service.run env' fac (evs.map (nameEv ρ σ)) (Service.boot (nodes.map fun n => (nameConfig ρ n.1, n.2)) (nameWorld ρ σ w) p) = y
  intro h
  cases h with
  | error e => exact .error e
  | ok r => exact .ok r.names

end Ren
end Trypo
