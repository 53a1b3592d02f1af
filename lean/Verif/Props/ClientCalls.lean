import Verif.Spec.Client
import Verif.Props.NoPanic

/-!
# C81: the methods of a client
-/

namespace Trypo
open Spec

variable {F : Type} [GoFloat F]

set_option linter.unusedSectionVars false

theorem run_bind_ok {α β : Type} {m : Prog F α} {f : α → Prog F β} {w w' : World F} {p p' : Nat} {a : α} (h : m.run w p = .ok ((a, w'), p')) :
    (m >>= f).run w p = (f a).run w' p' := by
  rw [run_bind]
  simp only [bind, StateT.bind, h, Except.bind]

theorem run_loc_ok {α : Type} {m : Go α} {p p' : Nat} {a : α} (h : m p = .ok (a, p')) (w : World F) :
    (Prog.loc m : Prog F α).run w p = .ok ((a, w), p') := by
  rw [run_loc]
  simp only [bind, StateT.bind, h, Except.bind]
  rfl

theorem call_down {β : Type} {env : Env} {a : Addr} {w : World F} {p : Nat} (h : env.up p a = false) (server : Prog F (Option β)) :
    (Client.call env a server).run w p = .ok ((none, w), p + 1) := by
  unfold Client.call
  rw [run_bind_ok (run_loc_ok (p' := p + 1) (a := false) (by rw [← h]; rfl) w)]
  rfl

theorem call_crash {β : Type} {env : Env} {a : Addr} {w : World F} {p : Nat} (h : env.up p a = true) {server : Prog F (Option β)} {e : Panic}
    (hs : server.run w (p + 1) = .error e) : (Client.call env a server).run w p = .error e := by
  unfold Client.call
  rw [run_bind_ok (run_loc_ok (p' := p + 1) (a := true) (by rw [← h]; rfl) w)]
  exact run_bind_error hs

theorem call_up {β : Type} {env : Env} {a : Addr} {w w' : World F} {p p' : Nat} (h : env.up p a = true) {server : Prog F (Option β)} {r : Option β}
    (hs : server.run w (p + 1) = .ok ((r, w'), p')) :
    (Client.call env a server).run w p = .ok ((if env.back p' a then r else none, w'), p' + 1) := by
  unfold Client.call
  rw [run_bind_ok (run_loc_ok (p' := p + 1) (a := true) (by rw [← h]; rfl) w)]
  simp only [if_true]
  rw [run_bind_ok hs, run_bind_ok (run_loc_ok (p' := p' + 1) (a := env.back p' a) rfl w')]
  cases env.back p' a <;> rfl

theorem remote_bare {β : Type} (env : Env) (a : Addr) (server : Prog F (Option β)) :
    Remote env a (Client.call env a server) server some none := by
  constructor
  · intro w p h; exact call_down h server
  · intro w p e h hs; exact call_crash h hs
  · intro w p b w' p' h hs hb; rw [call_up h hs, if_pos hb]
  · intro w p w' p' h hs; rw [call_up h hs]; simp
  · intro w p r w' p' h hs hb; rw [call_up h hs]; simp [hb]

theorem remote_call {β γ : Type} (env : Env) (a : Addr) (server : Prog F (Option β)) (f : Option β → γ) :
    Remote env a (do let r ← Client.call env a server; pure (f r)) server (fun b => f (some b)) (f none) := by
  have h := remote_bare env a server
  constructor
  · intro w p hu; rw [run_bind_ok (h.down w p hu)]; rfl
  · intro w p e hu hs; exact run_bind_error (h.crash w p e hu hs)
  · intro w p b w' p' hu hs hb; rw [run_bind_ok (h.reply w p b w' p' hu hs hb)]; rfl
  · intro w p w' p' hu hs; rw [run_bind_ok (h.failed w p w' p' hu hs)]; rfl
  · intro w p r w' p' hu hs hb; rw [run_bind_ok (h.lost w p r w' p' hu hs hb)]; rfl

/-- C81. Every method of a client that is one RPC is the server's method behind the network: it runs at most once, its answer
is the server's or the zero value of the type. `KNNLookup` does so after it has made room for `k` datapoints, and what
`NearestCentroids` does with the answer is in C39. -/
theorem C81_remote (env : Env) (fac : Factory F) (a : Addr) (ns : NS) :
    Remote env a (Client.namespaces env a : Prog F _) (total (Server.namespaces env a)) id [] ∧
    Remote env a (Client.vec env a ns : Prog F _) (Server.vec a ns) some none ∧
    (∀ d, Remote env a (Client.addDataPoint env fac a ns d) (total (Server.addDataPoint env fac a ns d)) id false) ∧
    (∀ n, Remote env a (Client.drainUnordered env a ns n : Prog F _) (Server.drainUnordered env a ns n) id []) ∧
    (∀ n, Remote env a (Client.drainOrdered env a ns n : Prog F _) (Server.drainOrdered env a ns n) id []) ∧
    Remote env a (Client.expire env a ns : Prog F _) (Server.expire env a ns) id () ∧
    Remote env a (Client.lenDP env a ns : Prog F _) (Server.lenDP a ns) id 0 ∧
    Remote env a (Client.memTrim env a ns : Prog F _) (Server.memTrim env a ns) id () ∧
    Remote env a (Client.moveVector env a ns : Prog F _) (Server.moveVector env a ns) id false ∧
    (∀ n, Remote env a (Client.distributeInternal env a ns n : Prog F _) (Server.distributeInternal env a ns n) id ()) ∧
    (∀ n addrs, Remote env a (Client.distributeFast env fac a ns addrs n) (Server.distributeFast env fac a ns n addrs) id ()) ∧
    (∀ n addrs, Remote env a (Client.distributeAccurate env fac a ns addrs n) (Server.distributeAccurate env fac a ns n addrs) id ()) ∧
    (∀ v, Remote env a (Client.nearestCentroidVec env a ns v : Prog F _) (Server.nearestCentroidVec a ns v) some none) ∧
    (∀ mi ma, Remote env a (Client.splitCentroids env a ns mi ma : Prog F _) (Server.splitCentroids env a ns mi ma) id ()) ∧
    (∀ mi ma, Remote env a (Client.mergeCentroids env a ns mi ma : Prog F _) (Server.mergeCentroids env a ns mi ma) id ()) ∧
    Remote env a (Client.getMeta env a : Prog F _) (total (Server.getMeta env a)) id [] ∧
    ∀ fuel src limit, Remote env a (Client.stealCentroids env fac fuel a ns src limit) (total (Server.stealCentroid env fac fuel a ns src limit))
      (fun q => (q.transferredN, q.ok)) (0, false) := by
  refine ⟨remote_call env a _ (fun r => r.getD []), remote_bare env a _, fun d => remote_call env a _ (fun r => r.getD false),
    fun n => remote_call env a _ (fun r => r.getD []), fun n => remote_call env a _ (fun r => r.getD []), remote_call env a _ (fun _ => ()),
    remote_call env a _ (fun r => r.getD 0), remote_call env a _ (fun _ => ()), remote_call env a _ (fun r => r.getD false),
    fun n => remote_call env a _ (fun _ => ()), fun n addrs => remote_call env a _ (fun _ => ()), fun n addrs => remote_call env a _ (fun _ => ()),
    fun v => remote_bare env a _, fun mi ma => remote_call env a _ (fun _ => ()), fun mi ma => remote_call env a _ (fun _ => ()),
    remote_call env a _ (fun r => r.getD []), fun fuel src limit => ?_⟩
  have h := remote_call env a (total (Server.stealCentroid env fac fuel a ns src limit)) (fun r : Option Server.StealResp =>
    match r with | some q => (q.transferredN, q.ok) | none => (0, false))
  have e : Client.stealCentroids env fac fuel a ns src limit = (do
      let r ← Client.call env a (total (Server.stealCentroid env fac fuel a ns src limit))
      pure (match r with | some q => (q.transferredN, q.ok) | none => (0, false))) := by
    unfold Client.stealCentroids total
    congr 1
    funext r
    cases r <;> rfl
  rw [e]
  exact h

/-- C81, `KNNLookup`: for a negative `k` the caller itself panics, otherwise as above. -/
theorem C81_knnLookup (env : Env) (a : Addr) (ns : NS) (v : List F) (k : Int) (drain : Bool) :
    (k < 0 → ∀ w p, (Client.knnLookup env a ns v k drain).run w p = .error .makeNeg) ∧
    (0 ≤ k → Remote env a (Client.knnLookup env a ns v k drain) (Server.knnLookup env a ns v k drain) id []) := by
  constructor
  · intro hk w p
    exact run_bind_error (by rw [run_loc]; exact error_bind (checkMake_neg hk p))
  · intro hk
    have h := remote_call env a (Server.knnLookup env a ns v k drain) (fun r => r.getD [])
    have e : ∀ w p, (Client.knnLookup env a ns v k drain).run w p =
        ((do let r ← Client.call env a (Server.knnLookup env a ns v k drain); pure (r.getD [])) : Prog F _).run w p := by
      intro w p
      unfold Client.knnLookup
      rw [run_bind, run_loc]
      unfold Go.checkMake
      rw [if_neg (by omega)]
      rfl
    exact ⟨fun w p a => (e w p).trans (h.down w p a), fun w p x a b => (e w p).trans (h.crash w p x a b),
      fun w p b w' p' x y z => (e w p).trans (h.reply w p b w' p' x y z), fun w p w' p' x y => (e w p).trans (h.failed w p w' p' x y),
      fun w p r w' p' x y z => (e w p).trans (h.lost w p r w' p' x y z)⟩

open ServerExample

/-- What a client sees, and what is stored. -/
def seen (r : Bool × World F64) : Bool × Nat := (r.1, (storedAt r.2 [1] 7).length)

/-- C81: a put that gets through, one whose reply is lost, one that is never sent. -/
example : (∃ r p', (Client.addDataPoint env fac 1 7 (dp 1 0)).run two 0 = .ok (r, p') ∧ seen r = (true, 3)) ∧
    (∃ r p', (Client.addDataPoint { env with back := fun _ _ => false } fac 1 7 (dp 1 0)).run two 0 = .ok (r, p') ∧ seen r = (false, 3)) ∧
    ∃ r p', (Client.addDataPoint { env with up := fun _ _ => false } fac 1 7 (dp 1 0)).run two 0 = .ok (r, p') ∧ seen r = (false, 2) :=
  ⟨exists_of_run (by decide +kernel), exists_of_run (by decide +kernel), exists_of_run (by decide +kernel)⟩

/-- C81: node 1 steals from node 2, and the reply is lost. -/
example : ∃ r p', (Client.stealCentroids { env with back := fun _ a => a != 1 } fac 5 1 7 2 10).run two 0 = .ok (r, p') ∧
    (fun q : (Nat × Bool) × World F64 => (q.1, (storedAt q.2 [1] 7).length)) r = ((0, false), 3) :=
  exists_of_run (by decide +kernel)

end Trypo
