import Verif.Props.Upkeep
import Verif.Proofs.Tenants

/-!
What all calls of a manager keep is kept by concurrent jobs.
-/

set_option linter.unusedSectionVars false
set_option linter.unusedVariables false

namespace Trypo
open GoFloat Spec EventLoop

variable {F : Type} {α β : Type} {ok : Nat → Manager F → Prop} {p q : Nat}

/-- A program that, from position `p` on, only changes managers in ways that keep `ok`. -/
inductive Upheld (ok : Nat → Manager F → Prop) {α : Type} : Nat → Prog F α → Prop
  | ret (p : Nat) (a : α) : Upheld ok p (.ret a)
  | look (p : Nat) (a : Addr) (ns : NS) (k : Option Nat → Prog F α) (h : ∀ o, Upheld ok p (k o)) : Upheld ok p (.act (.lookup a ns) k)
  | names (p : Nat) (a : Addr) (k : List NS → Prog F α) (h : ∀ o, Upheld ok p (k o)) : Upheld ok p (.act (.names a) k)
  | add (p : Nat) (a : Addr) (ns : NS) (m : Manager F) (k : Unit → Prog F α) (hm : ok p m) (h : ∀ o, Upheld ok p (k o)) :
      Upheld ok p (.act (.addSlot a ns m) k)
  | loc (p : Nat) {β : Type} (m : Go β) (k : β → Prog F α) (h1 : ∀ p' x q, p ≤ p' → m p' = .ok (x, q) → p' ≤ q)
      (h2 : ∀ p' x q, p ≤ p' → m p' = .ok (x, q) → Upheld ok q (k x)) : Upheld ok p (.act (.loc m) k)
  | slot (p : Nat) {β : Type} (i : Nat) (f : Manager F → Go (β × Manager F)) (k : β → Prog F α) (R : β → Prop)
      (h1 : ∀ m p', ok p' m → Go.wlp (f m) (fun r q => p' ≤ q ∧ ok q r.2 ∧ R r.1) p') (h : ∀ x, R x → Upheld ok p (k x)) :
      Upheld ok p (.act (.slot i f) k)

namespace Upheld

theorem mono (hok : ∀ p q m, p ≤ q → ok p m → ok q m) {m : Prog F α} (h : Upheld ok p m) : ∀ {q}, p ≤ q → Upheld ok q m := by
  induction h with
  | ret p a => exact fun _ => .ret _ a
  | look p a ns k h ih => exact fun hq => .look _ a ns k fun o => ih o hq
  | names p a k h ih => exact fun hq => .names _ a k fun o => ih o hq
  | add p a ns m k hm h ih => exact fun hq => .add _ a ns m k (hok _ _ _ hq hm) fun o => ih o hq
  | loc p m k h1 h2 ih => exact fun hq => .loc _ m k (fun p' x r hr => h1 p' x r (hq.trans hr)) fun p' x r hr e => h2 p' x r (hq.trans hr) e
  | slot p i f k R h1 h ih => exact fun hq => .slot _ i f k R h1 fun x hx => ih x hx hq

theorem bind (hok : ∀ p q m, p ≤ q → ok p m → ok q m) {m : Prog F α} {f : α → Prog F β} (h : Upheld ok p m) (hf : ∀ q a, p ≤ q → Upheld ok q (f a)) :
    Upheld ok p (m >>= f) := by
  show Upheld ok p (m.bind f)
  induction h with
  | ret p a => exact hf p a (Nat.le_refl _)
  | look p a ns k h ih => exact .look _ a ns _ fun o => ih o hf
  | names p a k h ih => exact .names _ a _ fun o => ih o hf
  | add p a ns m k hm h ih => exact .add _ a ns m _ hm fun o => ih o hf
  | loc p m k h1 h2 ih => exact .loc _ m _ h1 fun p' x r hr e => ih p' x r hr e fun q a hq => hf q a ((hr.trans (h1 p' x r hr e)).trans hq)
  | slot p i g k R h1 h ih => exact .slot _ i g _ R h1 fun x hx => ih x hx hf

/-- A step of a goroutine. -/
theorem step (hok : ∀ p q m, p ≤ q → ok p m → ok q m) {a : Act F β} {k : β → Prog F α} (h : Upheld ok p (.act a k)) {w : World F}
    (hw : ∀ s ∈ w.heap, ok p s.2) {r : β × World F} (e : a.run w p = .ok (r, q)) :
    p ≤ q ∧ (∀ s ∈ r.2.heap, ok q s.2) ∧ Upheld ok q (k r.1) := by
  cases h with
  | look _ a ns k h => cases e; exact ⟨Nat.le_refl _, hw, h _⟩
  | names _ a k h => cases e; exact ⟨Nat.le_refl _, hw, h _⟩
  | add _ a ns m k hm h =>
    cases e
    refine ⟨Nat.le_refl _, fun s hs => ?_, h _⟩
    rcases List.mem_append.1 hs with hs | hs
    · exact hw s hs
    · cases List.mem_singleton.1 hs
      exact hm
  | loc _ m k h1 h2 =>
    rw [Act.run_loc] at e
    cases hm : m p with
    | error x => rw [hm] at e; cases e
    | ok z =>
      rw [hm] at e
      cases e
      have := h1 p z.1 z.2 (Nat.le_refl _) hm
      exact ⟨this, fun s hs => hok _ _ _ this (hw s hs), h2 p z.1 z.2 (Nat.le_refl _) hm⟩
  | slot _ i f k R h1 h =>
    cases hi : w.heap[i]? with
    | none => simp only [Act.run, hi] at e; cases e
    | some s =>
      rw [Act.run_slot i f hi] at e
      cases hm : f s.2 p with
      | error x => rw [hm] at e; cases e
      | ok z =>
        rw [hm] at e
        cases e
        obtain ⟨h2, h3, h4⟩ := h1 s.2 p (hw s (List.mem_of_getElem? hi)) z.1 z.2 hm
        refine ⟨h2, fun t ht => ?_, (h _ h4).mono hok h2⟩
        rcases List.mem_or_eq_of_mem_set ht with ht | rfl
        · exact hok _ _ _ h2 (hw t ht)
        · exact h3

/-- All managers that ever were created are kept, whatever the schedule. -/
theorem pool (hok : ∀ p q m, p ≤ q → ok p m → ok q m) : ∀ (is : List Nat) (ts : List (Prog F α)) (w : World F) (p : Nat) {ts' w' p'},
    Pool.run is ts w p = .ok (ts', w', p') → (∀ t ∈ ts, Upheld ok p t) → (∀ s ∈ w.heap, ok p s.2) → p ≤ p' ∧ ∀ s ∈ w'.heap, ok p' s.2
  | [], ts, w, p, ts', w', p', e, ht, hw => by
    cases e
    exact ⟨Nat.le_refl _, hw⟩
  | i :: is, ts, w, p, ts', w', p', e, ht, hw => by
    unfold Pool.run at e
    split at e
    · rename_i a k hi
      split at e
      · rename_i r p1 e1
        obtain ⟨h1, h2, h3⟩ := step hok (ht _ (List.mem_of_getElem? hi)) hw e1
        obtain ⟨h4, h5⟩ := pool hok is _ _ _ e (fun t h => by
          rcases List.mem_or_eq_of_mem_set h with h | rfl
          · exact (ht t h).mono hok h1
          · exact h3) h2
        exact ⟨h1.trans h4, h5⟩
      · cases e
    · exact pool hok is ts w p e ht hw

/-! ### The programs of the service -/

theorem loc' {m : Go α} (h : ∀ p, Go.wlp m (fun _ q => p ≤ q) p) : Upheld ok p (Prog.loc m) :=
  .loc _ m _ (fun p' x q _ e => h p' x q e) fun _ x _ _ _ => .ret _ x

theorem access (a : Addr) (ns : NS) {f : Manager F → Go (β × Manager F)}
    (h : ∀ m p', ok p' m → Go.wlp (f m) (fun r q => p' ≤ q ∧ ok q r.2) p') : Upheld ok p (Server.access a ns f) := by
  refine .look _ a ns _ fun o => ?_
  cases o with
  | none => exact .ret _ _
  | some i => exact .slot _ i f _ (fun _ => True) (fun m p' hm => Go.wlp_mono (h m p' hm) fun _ _ hr => ⟨hr.1, hr.2, trivial⟩) fun x _ => .ret _ _

/-- What comes out of a manager goes on as the program says. -/
theorem accessThen (a : Addr) (ns : NS) {f : Manager F → Go (β × Manager F)} (R : β → Prop)
    (h : ∀ m p', ok p' m → Go.wlp (f m) (fun r q => p' ≤ q ∧ ok q r.2 ∧ R r.1) p') {g : Option β → Prog F α} (h0 : Upheld ok p (g none))
    (h1 : ∀ b, R b → Upheld ok p (g (some b))) : Upheld ok p (Server.access a ns f >>= g) := by
  refine .look _ a ns _ fun o => ?_
  cases o with
  | none => exact h0
  | some i => exact .slot _ i f _ R h fun x hx => h1 x hx

theorem ite {c : Prop} [Decidable c] {m u : Prog F α} (h : c → Upheld ok p m) (h' : ¬ c → Upheld ok p u) : Upheld ok p (if c then m else u) := by
  split
  · exact h ‹_›
  · exact h' ‹_›

section
variable (hok : ∀ p q m, p ≤ q → ok p m → ok q m)
include hok

theorem each {f : α → Prog F β} (hf : ∀ q a, p ≤ q → Upheld ok q (f a)) : ∀ l : List α, Upheld ok p (Prog.each f l)
  | [] => .ret _ []
  | x :: xs => .bind hok (hf p x (Nat.le_refl _)) fun q _ hq => .bind hok (mono hok (each hf xs) hq) fun _ _ _ => .ret _ _

theorem call (env : Env) (a : Addr) {m : Prog F (Option β)} (h : Upheld ok p m) : Upheld ok p (Client.call env a m) := by
  unfold Client.call
  refine .bind hok (loc' fun p => Go.wlp_of_wp (wp_sent (Nat.le_succ p))) fun q x hq => ?_
  cases x with
  | false => exact .ret _ _
  | true =>
    refine .bind hok (h.mono hok hq) fun q r _ => .bind hok (loc' fun p => Go.wlp_of_wp (wp_arrived (Nat.le_succ p))) fun q x _ => ?_
    cases x <;> exact .ret _ _

theorem unit (env : Env) (a : Addr) {m : Prog F (Option β)} (h : Upheld ok p m) : Upheld ok p (do let _ ← Client.call env a m; Pure.pure ()) :=
  .bind hok (call hok env a h) fun _ _ _ => .ret _ _

theorem fetchVecs (env : Env) (addrs : List Addr) {f : Addr → Prog F (Option (List F))} (hf : ∀ q a, Upheld ok q (f a)) :
    Upheld ok p (Trypo.fetchVecs env addrs f) := by
  have hs : ∀ {γ : Type} (l : List γ) (p : Nat), Go.wlp (env.shuffled l) (fun _ q => p ≤ q) p := fun l p x q e => by
    cases e
    exact Nat.le_succ p
  exact .bind hok (loc' (hs _)) fun _ _ _ => .bind hok (each hok (fun q a _ => .bind hok (hf q a) fun _ _ _ => .ret _ _) _) fun _ _ _ =>
    .bind hok (loc' (hs _)) fun _ _ _ => .ret _ _

theorem answered {f : β → Answer F} {m : Prog F (Option β)} (h : Upheld ok p m) : Upheld ok p (answer f m) := by
  unfold answer
  refine .bind hok h fun _ r _ => ?_
  cases r <;> exact .ret _ _
end

theorem pick_wlp (l : List Addr) : ∀ (is : List Nat) (p : Nat), Go.wlp (pick l is) (fun _ q => p ≤ q) p
  | [], p => by
    unfold pick
    exact Go.wlp_pure (Nat.le_refl _)
  | i :: is, p => by
    unfold pick
    exact Go.wlp_bind (Go.wlp_idx fun a _ => Go.wlp_bind (Go.wlp_mono (pick_wlp l is p) fun _ _ h => Go.wlp_pure h))

end Upheld

section
variable [GoFloat F] [LawfulCmp F] {G : DataPoint F → Prop} {P : Nat → Centroid F → Prop} {env : Env} {fac : Factory F}

namespace Life
variable (L : Life knnCos kfnCos G P)
include L

theorem later (p q : Nat) (m : Manager F) (h : p ≤ q) (hm : Keeps knnCos kfnCos P p m) : Keeps knnCos kfnCos P q m := hm.mono L h

theorem upheld_add (hf : FactoryOK fac) (a : Addr) (ns : NS) {d : DataPoint F} (hd : G d) (p : Nat) :
    Upheld (Keeps knnCos kfnCos P) p (Server.addDataPoint env fac a ns d) := by
  unfold Server.addDataPoint
  refine .bind L.later (.access a ns fun m p' h => L.addDataPoint h hd) fun q r _ => ?_
  cases r with
  | some x => exact .ret _ _
  | none =>
    have key : ∀ p', Go.wlp (do
        let m ← fac.make d.vec
        let r ← m.addDataPoint env.tk d
        pure r.2) (fun m q => p' ≤ q ∧ Keeps knnCos kfnCos P q m) p' := fun p' => by
      unfold Factory.make Manager.new
      refine Go.wlp_bind (Go.wlp_bind ?_)
      show Go.wlp (Go.checkMake _ >>= fun _ => pure _) _ _
      refine Go.wlp_bind (Go.wlp_checkMake fun _ => Go.wlp_pure (Go.wlp_pure (Go.wlp_bind ?_)))
      exact Go.wlp_mono (L.addDataPoint ⟨⟨hf.knn, hf.kfn⟩, by simp⟩ hd) fun r q hr => Go.wlp_pure hr
    exact .loc _ _ _ (fun p' x q _ e => (key p' x q e).1) fun p' x q _ e => .add _ a ns x _ (key p' x q e).2 fun _ => .ret _ _

theorem upheld_clientAdd (hf : FactoryOK fac) (a : Addr) (ns : NS) {d : DataPoint F} (hd : G d) (p : Nat) :
    Upheld (Keeps knnCos kfnCos P) p (Client.addDataPoint env fac a ns d) :=
  .bind L.later (.call L.later env a (.bind L.later (L.upheld_add hf a ns hd p) fun _ _ _ => .ret _ _)) fun _ _ _ => .ret _ _

theorem upheld_put (hf : FactoryOK fac) (ns : NS) {d : DataPoint F} (hd : G d) : ∀ (as : List Addr) (p : Nat),
    Upheld (Keeps knnCos kfnCos P) p (Dps.putDataPoint env fac ns d as)
  | [], p => .ret _ _
  | a :: as, p => by
    unfold Dps.putDataPoint
    refine .bind L.later (L.upheld_clientAdd hf a ns hd p) fun q b _ => ?_
    cases b with
    | true => exact .ret _ _
    | false => exact upheld_put hf ns hd as q

theorem upheld_vec (a : Addr) (ns : NS) (p : Nat) : Upheld (Keeps knnCos kfnCos P) p (Server.vec a ns) :=
  .access a ns fun _ _ h => Go.wlp_pure ⟨Nat.le_refl _, h⟩

theorem upheld_nearest (a : Addr) (ns : NS) (v : List F) (p : Nat) : Upheld (Keeps knnCos kfnCos P) p (Server.nearestCentroidVec a ns v) := by
  refine .access a ns fun m p' h => Go.wlp_bind (Go.wlp_mono (nearestCentroids h v 1 false) fun r q hr => ?_)
  cases r.1.getD [] <;> exact Go.wlp_pure hr

theorem upheld_bestFit (addrs : List Addr) (v : List F) {f : Addr → Prog F (Option (List F))} (hf : ∀ q a, Upheld (Keeps knnCos kfnCos P) q (f a)) (p : Nat) :
    Upheld (Keeps knnCos kfnCos P) p (Nodes.bestFitNodes env knnCos addrs v f) :=
  .bind L.later (.fetchVecs L.later env addrs hf) fun _ _ _ => .loc' fun p => Go.wlp_bind (Go.wlp_lift fun is _ => Upheld.pick_wlp _ is p)

theorem upheld_fast (addrs : List Addr) (ns : NS) (v : List F) (p : Nat) :
    Upheld (Keeps knnCos kfnCos P) p (Nodes.bestFitNodesFast env knnCos addrs ns v) :=
  L.upheld_bestFit addrs v (fun q a => .call L.later env a (L.upheld_vec a ns q)) p

theorem upheld_accurate (addrs : List Addr) (ns : NS) (v : List F) (p : Nat) :
    Upheld (Keeps knnCos kfnCos P) p (Nodes.bestFitNodesAccurate env knnCos addrs ns v) :=
  L.upheld_bestFit addrs v (fun q a => .call L.later env a (L.upheld_nearest a ns v q)) p

theorem upheld_httpPut (he : EnvOK env) (hf : FactoryOK fac) (addrs : List Addr) (o : Api.PutOpts F) (hd : G o.dp.toDataPoint) (p : Nat) :
    Upheld (Keeps knnCos kfnCos P) p (Api.putDataPoint env fac addrs (some o)) := by
  refine .bind L.later ?_ fun _ b _ => .bind L.later ?_ fun _ b _ => .ret _ _
  · refine .ite (fun _ => ?_) fun _ => ?_
    · exact .bind L.later (L.upheld_accurate addrs _ _ p) fun q as _ => L.upheld_put hf _ hd as q
    · exact .bind L.later (L.upheld_fast addrs _ _ p) fun q as _ => L.upheld_put hf _ hd as q
  · refine .ite (fun _ => .ret _ _) fun _ => .bind L.later (.loc' fun p => ?_) fun q as _ => L.upheld_put hf _ hd as q
    exact Go.wlp_of_wp (Go.wp_mono (wp_shuffleFrom he addrs.length 0 addrs p rfl (by omega)) fun _ _ h => h.2)

theorem upheld_getFrom (hm : MonoClock env.tk) (ns : NS) (v : List F) (n : Int) (drain : Bool) : ∀ (as : List Addr) (res : List (DataPoint F)) (p : Nat),
    Upheld (Keeps knnCos kfnCos P) p (Dps.getFrom env ns v n drain as res)
  | [], res, p => .ret _ _
  | a :: as, res, p => by
    unfold Dps.getFrom
    refine .bind L.later ?_ fun q l _ => .ite (fun _ => .ret _ _) fun _ => upheld_getFrom hm ns v n drain as _ q
    exact .bind L.later (.loc' fun p => Go.wlp_checkMake fun _ => Nat.le_refl _) fun q _ _ =>
      .bind L.later (.call L.later env a (.access a ns fun m p' h => L.managerKnn hm h v _ drain)) fun _ _ _ => .ret _ _

theorem upheld_query (hm : MonoClock env.tk) (addrs : List Addr) (o : Api.QueryOpts F) (p : Nat) :
    Upheld (Keeps knnCos kfnCos P) p (Api.queryDataPoint env addrs (some o)) := by
  refine .bind L.later ?_ fun _ l _ => .ret _ _
  refine .ite (fun _ => ?_) fun _ => ?_
  · exact .bind L.later (L.upheld_accurate addrs _ _ p) fun q as _ => .bind L.later (.loc' fun p => Go.wlp_checkMake fun _ => Nat.le_refl _)
      fun q _ _ => L.upheld_getFrom hm _ _ _ _ as [] q
  · exact .bind L.later (L.upheld_fast addrs _ _ p) fun q as _ => .bind L.later (.loc' fun p => Go.wlp_checkMake fun _ => Nat.le_refl _)
      fun q _ _ => L.upheld_getFrom hm _ _ _ _ as [] q

theorem upheld_expire (hm : MonoClock env.tk) (a : Addr) (ns : NS) (p : Nat) : Upheld (Keeps knnCos kfnCos P) p (Server.expire env a ns) :=
  .access a ns fun m p h => Go.wlp_bind (Go.wlp_mono (L.expireLoop hm _ _ p h) fun r q hr => Go.wlp_pure hr)

theorem upheld_split (a : Addr) (ns : NS) (x y : Int) (p : Nat) : Upheld (Keeps knnCos kfnCos P) p (Server.splitCentroids env a ns x y) :=
  .access a ns fun m p h => Go.wlp_bind (Go.wlp_mono (L.splitCentroids _ h) fun r q hr => Go.wlp_pure hr)

theorem upheld_merge (a : Addr) (ns : NS) (x y : Int) (p : Nat) : Upheld (Keeps knnCos kfnCos P) p (Server.mergeCentroids env a ns x y) :=
  .access a ns fun m p h => Go.wlp_bind (Go.wlp_mono (L.mergeCentroids _ h) fun r q hr => Go.wlp_pure hr)

theorem upheld_internal (hm : MonoClock env.tk) (a : Addr) (ns : NS) (n : Int) (p : Nat) :
    Upheld (Keeps knnCos kfnCos P) p (Server.distributeInternal env a ns n) := by
  refine .access a ns fun m p h => Go.wlp_bind (fun ord q e => ?_)
  cases e
  exact Go.wlp_bind (Go.wlp_mono (L.distributeInternal (prefabs_goodSearch (F := F)).2.1 hm (h.mono L (Nat.le_succ p)) _ n)
    fun m' q hr => Go.wlp_pure ⟨(Nat.le_succ p).trans hr.1, hr.2⟩)

theorem upheld_ordered (hm : MonoClock env.tk) (a : Addr) (ns : NS) (n : Int) (p : Nat) :
    Upheld (Keeps knnCos kfnCos P) p (Server.drainOrdered env a ns n) := by
  refine .access a ns fun m p h => Go.wlp_bind (fun ord q e => ?_)
  cases e
  unfold Manager.drainOrdered
  refine Go.wlp_mono (Q := fun r q => p + 1 ≤ q ∧ Keeps knnCos kfnCos P q r.2)
    (Go.wlp_bind (Go.wlp_checkMake fun _ => L.drainLoop _ (fun p c n hc => ?_) _ _ _ (p + 1) (h.mono L (Nat.le_succ p))))
    fun _ _ hx => ⟨(Nat.le_succ p).trans hx.1, hx.2⟩
  exact Go.wlp_mono (L.drainOrdered (prefabs_goodSearch (F := F)).2.1 hm hc n) fun _ _ hx => ⟨hx.1, hx.2.1, trivial⟩

theorem upheld_unordered (a : Addr) (ns : NS) (n : Int) (p : Nat) :
    Upheld (Keeps knnCos kfnCos P) p (Server.drainUnordered env a ns n) := by
  refine .access a ns fun m p h => Go.wlp_bind (fun ord q e => ?_)
  cases e
  unfold Manager.drainUnordered
  refine Go.wlp_mono (Q := fun r q => p + 1 ≤ q ∧ Keeps knnCos kfnCos P q r.2)
    (Go.wlp_bind (Go.wlp_checkMake fun _ => L.drainLoop _ (fun p c n hc => ?_) _ _ _ (p + 1) (h.mono L (Nat.le_succ p))))
    fun _ _ hx => ⟨(Nat.le_succ p).trans hx.1, hx.2⟩
  exact Go.wlp_mono (L.drainUnordered hc n) fun _ _ hx => ⟨hx.1, hx.2.1, trivial⟩

theorem drainLoop_good (f : Centroid F → Int → Go (List (DataPoint F) × Centroid F))
    (hf : ∀ p c n, P p c → Go.wlp (f c n) (fun r q => p ≤ q ∧ P q r.2 ∧ ∀ d ∈ r.1, G d) p) : ∀ (es : List (Nat × Nat)) (cm : Manager F)
    (res : List (DataPoint F)) (p : Nat), (∀ d ∈ res, G d) → Keeps knnCos kfnCos P p cm →
    Go.wlp (Manager.drainLoop f es cm res) (fun r q => p ≤ q ∧ Keeps knnCos kfnCos P q r.2 ∧ ∀ d ∈ r.1, G d) p
  | [], cm, res, p, hres, h => by
    unfold Manager.drainLoop
    exact Go.wlp_pure ⟨Nat.le_refl _, h, hres⟩
  | (i, n) :: es, cm, res, p, hres, h => by
    unfold Manager.drainLoop
    refine Go.wlp_bind (Go.wlp_mono (L.onCentroid h i _ (R := fun l => ∀ d ∈ l, G d) fun c hc => hf p c n hc) fun r q hr => ?_)
    exact Go.wlp_mono (drainLoop_good f hf es r.2 _ q (fun d hd => (List.mem_append.1 hd).elim (hres d) (hr.2.2 d)) hr.2.1)
      fun _ _ hx => ⟨hr.1.trans hx.1, hx.2⟩

theorem drained_good (hm : MonoClock env.tk) (n : Int) (m : Manager F) (p : Nat) (h : Keeps knnCos kfnCos P p m) :
    Go.wlp (do let ord ← env.mapOrder; m.drainOrdered env.tk ord n) (fun r q => p ≤ q ∧ Keeps knnCos kfnCos P q r.2 ∧ ∀ d ∈ r.1, G d) p := by
  refine Go.wlp_bind (fun ord q e => ?_)
  cases e
  unfold Manager.drainOrdered
  refine Go.wlp_mono (Q := fun r q => p + 1 ≤ q ∧ Keeps knnCos kfnCos P q r.2 ∧ ∀ d ∈ r.1, G d)
    (Go.wlp_bind (Go.wlp_checkMake fun _ => L.drainLoop_good _ (fun p c n hc => ?_) _ _ _ (p + 1) (by simp) (h.mono L (Nat.le_succ p))))
    fun _ _ hx => ⟨(Nat.le_succ p).trans hx.1, hx.2⟩
  exact L.drainOrdered (prefabs_goodSearch (F := F)).2.1 hm hc n

theorem upheld_distributeTo (hf : FactoryOK fac) (ns : NS) (addrs : List Addr) {d : DataPoint F} (hd : G d) : ∀ (is : List Nat) (p : Nat),
    Upheld (Keeps knnCos kfnCos P) p (Server.distributeTo env fac ns addrs d is)
  | [], p => .ret _ _
  | i :: is, p => by
    unfold Server.distributeTo
    refine .bind L.later (.loc' fun p => Go.wlp_idx fun _ _ => Nat.le_refl _) fun q a _ => .bind L.later (L.upheld_clientAdd hf a ns hd q) fun q b _ => ?_
    cases b with
    | true => exact .ret _ _
    | false => exact upheld_distributeTo hf ns addrs hd is q

theorem upheld_distributeDP (hf : FactoryOK fac) (ns : NS) (remote : List (Addr × List F)) {d : DataPoint F} (hd : G d) (p : Nat) :
    Upheld (Keeps knnCos kfnCos P) p (Server.distributeDP env fac ns remote d) :=
  .bind L.later (.loc' fun p => Go.wlp_lift fun _ _ => Nat.le_refl _) fun q is _ => L.upheld_distributeTo hf ns _ hd is q

theorem upheld_putBack (a : Addr) (ns : NS) {d : DataPoint F} (hd : G d) (p : Nat) : Upheld (Keeps knnCos kfnCos P) p (Server.putBack env a ns d) :=
  .bind L.later (.access a ns fun _ _ h => L.addDataPoint h hd) fun _ _ _ => .ret _ _

theorem upheld_fastLoop (hf : FactoryOK fac) (a : Addr) (ns : NS) (remote : List (Addr × List F)) : ∀ (l : List (DataPoint F)) (p : Nat),
    (∀ d ∈ l, G d) → Upheld (Keeps knnCos kfnCos P) p (Server.distributeFastLoop env fac a ns remote l)
  | [], p, _ => .ret _ _
  | d :: l, p, h => by
    unfold Server.distributeFastLoop
    refine .bind L.later (L.upheld_distributeDP hf ns remote (h d (by simp)) p) fun q b _ => ?_
    cases b with
    | true => exact upheld_fastLoop hf a ns remote l q fun e he => h e (by simp [he])
    | false => exact .bind L.later (L.upheld_putBack a ns (h d (by simp)) q) fun q _ _ => upheld_fastLoop hf a ns remote l q fun e he => h e (by simp [he])

theorem upheld_distributeFast (hm : MonoClock env.tk) (hf : FactoryOK fac) (a : Addr) (ns : NS) (n : Int) (addrs : List Addr) (p : Nat) :
    Upheld (Keeps knnCos kfnCos P) p (Server.distributeFast env fac a ns n addrs) := by
  unfold Server.distributeFast
  refine .bind L.later (.loc' fun p => Go.wlp_checkMake fun _ => Nat.le_refl _) fun p _ _ => ?_
  refine .accessThen a ns (fun l => ∀ d ∈ l, G d) (L.drained_good hm n) (.ret _ _) fun l hl => ?_
  refine .ite (fun _ => .ret _ _) fun _ => ?_
  exact .bind L.later (.fetchVecs L.later env addrs fun q b => .call L.later env b (L.upheld_vec b ns q)) fun q remote _ =>
    .bind L.later (L.upheld_fastLoop hf a ns remote l q hl) fun _ _ _ => .ret _ _

theorem upheld_accurateLoop (hf : FactoryOK fac) (a : Addr) (ns : NS) (addrs : List Addr) : ∀ (l : List (DataPoint F)) (p : Nat),
    (∀ d ∈ l, G d) → Upheld (Keeps knnCos kfnCos P) p (Server.distributeAccurateLoop env fac a ns addrs l)
  | [], p, _ => .ret _ _
  | d :: l, p, h => by
    unfold Server.distributeAccurateLoop
    refine .bind L.later (.fetchVecs L.later env addrs fun q b => .call L.later env b (L.upheld_nearest b ns d.vec q)) fun q remote _ =>
      .bind L.later (L.upheld_distributeDP hf ns remote (h d (by simp)) q) fun q b _ => ?_
    cases b with
    | true => exact upheld_accurateLoop hf a ns addrs l q fun e he => h e (by simp [he])
    | false => exact .bind L.later (L.upheld_putBack a ns (h d (by simp)) q) fun q _ _ => upheld_accurateLoop hf a ns addrs l q fun e he => h e (by simp [he])

theorem upheld_distributeAccurate (hm : MonoClock env.tk) (hf : FactoryOK fac) (a : Addr) (ns : NS) (n : Int) (addrs : List Addr) (p : Nat) :
    Upheld (Keeps knnCos kfnCos P) p (Server.distributeAccurate env fac a ns n addrs) := by
  unfold Server.distributeAccurate
  refine .bind L.later (.loc' fun p => Go.wlp_checkMake fun _ => Nat.le_refl _) fun p _ _ => ?_
  refine .accessThen a ns (fun l => ∀ d ∈ l, G d) (L.drained_good hm n) (.ret _ _) fun l hl => ?_
  refine .ite (fun _ => .ret _ _) fun _ => ?_
  exact .bind L.later (L.upheld_accurateLoop hf a ns addrs l p hl) fun _ _ _ => .ret _ _

theorem upheld_clientNames (a : Addr) (p : Nat) : Upheld (Keeps knnCos kfnCos P) p (Client.namespaces env a) := by
  refine .bind L.later (.call L.later env a (.bind L.later (.names _ a _ fun o => .loc' fun p x q e => ?_) fun _ _ _ => .ret _ _)) fun _ _ _ => .ret _ _
  cases e
  exact Nat.le_succ p

theorem upheld_startAll (cfg : Config) (f : NS → Call) (p : Nat) : Upheld (Keeps knnCos kfnCos P) p (startAll env cfg f) :=
  .bind L.later (L.upheld_clientNames cfg.loc p) fun _ _ _ => .ret _ _

theorem upheld_withAddrs (cfg : Config) {t : NS → List Addr → Prog F Unit} (ht : ∀ q ns as, Upheld (Keeps knnCos kfnCos P) q (t ns as)) (p : Nat) :
    Upheld (Keeps knnCos kfnCos P) p (withAddrs env cfg t) := by
  refine .bind L.later (L.upheld_clientNames cfg.loc p) fun _ l _ => .bind L.later (.each L.later (fun q ns _ => ?_) l) fun _ _ _ => .ret _ _
  refine .bind L.later (.bind L.later (.each L.later (fun q a _ => ?_) _) fun _ _ _ => .ret _ _) fun q _ _ => ht q ns _
  exact .bind L.later (L.upheld_clientNames a q) fun _ _ _ => .ret _ _

theorem upheld_meta (a : Addr) (p : Nat) : Upheld (Keeps knnCos kfnCos P) p (Client.getMeta env a) := by
  refine .bind L.later (.call L.later env a (.bind L.later (.bind L.later (.names _ a _ fun o => .loc' fun p x q e => ?_) fun _ l _ =>
    .bind L.later (.each L.later (fun q ns _ => .bind L.later (.access a ns fun _ _ h => Go.wlp_pure ⟨Nat.le_refl _, h⟩) fun _ _ _ => .ret _ _) l)
      fun _ _ _ => .ret _ _) fun _ _ _ => .ret _ _)) fun _ _ _ => .ret _ _
  cases e
  exact Nat.le_succ p

/-- All tasks of the event loop but load balancing. -/
theorem upheld_task (hm : MonoClock env.tk) (hf : FactoryOK fac) (fuel : Nat) (cfg : Config) {t : TaskId} (ht : t ≠ .loadBalancing) (p : Nat) :
    Upheld (Keeps knnCos kfnCos P) p (EventLoop.task env fac fuel cfg t) := by
  cases t with
  | loadBalancing => exact absurd rfl ht
  | distFast =>
    exact L.upheld_withAddrs cfg (fun q ns as => .unit L.later env cfg.loc (L.upheld_distributeFast hm hf cfg.loc ns _ as q)) p
  | distAccurate =>
    exact L.upheld_withAddrs cfg (fun q ns as => .unit L.later env cfg.loc (L.upheld_distributeAccurate hm hf cfg.loc ns _ as q)) p
  | getMeta => exact .bind L.later (.each L.later (fun q a _ => .bind L.later (L.upheld_meta a q) fun _ _ _ => .ret _ _) _) fun _ _ _ => .ret _ _
  | _ => exact L.upheld_startAll cfg _ p

end Life
end
end Trypo
