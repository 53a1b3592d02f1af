import Verif.Model.Memory
import Verif.Props.Enough
import Verif.Props.Http

/-!
# Property C132: queries and memory

Every function on the way of a query makes a slice of as many elements as the query asks for, however few datapoints there are.
-/

set_option linter.unusedSectionVars false

namespace Trypo
open GoFloat Spec
variable {F : Type} [GoFloat F] [LawfulCmp F]

theorem makeWithin_fits {L size : Nat} {n : Int} (h : n * size ≤ L) : Go.makeWithin L size n = Go.checkMake n := by
  unfold Go.makeWithin Go.checkMake
  by_cases h0 : n < 0
  · rw [if_pos (.inl h0), if_pos h0]
  · rw [if_neg (by omega), if_neg h0]

theorem within_fits {L : Nat} {k : Int} (h : k * dataPointBytes ≤ L) (s : Search F) (t : List F) (p : List (List F)) : s.within L t p k = s t p k := by
  unfold Search.within
  rw [if_neg (by unfold dataPointBytes at h; unfold resultItemBytes; omega)]

theorem Centroid.knnLookup_fits {L : Nat} {k : Int} (h : k * dataPointBytes ≤ L) (tk : Nat → Int) (c : Centroid F) (v : List F) (drain : Bool) :
    c.knnLookupWithin L tk v k drain = c.knnLookup tk v k drain := by
  unfold Centroid.knnLookupWithin Centroid.knnLookup
  rw [makeWithin_fits h]
  simp only [within_fits h]

theorem Manager.lookupLoop_fits {L : Nat} {k : Int} (h : k * dataPointBytes ≤ L) (tk : Nat → Int) (v : List F) (drain : Bool) :
    ∀ (is : List Nat) (cm : Manager F) (res : List (DataPoint F)), lookupLoopWithin L tk v k drain is cm res = lookupLoop tk v k drain is cm res
  | [], _, _ => by unfold lookupLoopWithin lookupLoop; rfl
  | i :: is, cm, res => by
    unfold lookupLoopWithin lookupLoop
    have h' : (k - res.length) * (dataPointBytes : Int) ≤ L := by unfold dataPointBytes at h ⊢; omega
    simp only [Centroid.knnLookup_fits h', Manager.lookupLoop_fits h tk v drain is]

theorem Manager.knnLookup_fits {L : Nat} {k : Int} (h : k * dataPointBytes ≤ L) (tk : Nat → Int) (cm : Manager F) (v : List F) (drain : Bool) :
    cm.knnLookupWithin L tk v k drain = cm.knnLookup tk v k drain := by
  unfold knnLookupWithin knnLookup
  rw [makeWithin_fits h]
  simp only [within_fits h, lookupLoop_fits h]

theorem client_knn_fits {L : Nat} {k : Int} (h : k * dataPointBytes ≤ L) (env : Env) (a : Addr) (ns : NS) (v : List F) (drain : Bool) :
    Client.knnLookupWithin L env a ns v k drain = Client.knnLookup env a ns v k drain := by
  unfold Client.knnLookupWithin Client.knnLookup Server.knnLookupWithin Server.knnLookup
  rw [makeWithin_fits h]
  simp only [Manager.knnLookup_fits h]

theorem getFrom_fits {L : Nat} {n : Int} (h : n * dataPointBytes ≤ L) (env : Env) (ns : NS) (v : List F) (drain : Bool) :
    ∀ (as : List Addr) (res : List (DataPoint F)), Dps.getFromWithin L env ns v n drain as res = Dps.getFrom env ns v n drain as res
  | [], _ => by unfold Dps.getFromWithin Dps.getFrom; rfl
  | a :: as, res => by
    unfold Dps.getFromWithin Dps.getFrom
    have h' : (n - res.length) * (dataPointBytes : Int) ≤ L := by unfold dataPointBytes at h ⊢; omega
    simp only [client_knn_fits h', getFrom_fits h env ns v drain as]

/-- C132, a query whose count fits: limited memory makes no difference, so everything that is proved about queries holds for it. -/
theorem C132_fits_partial {L : Nat} {o : Api.QueryOpts F} (h : o.n * dataPointBytes ≤ L) (env : Env) (addrs : List Addr) :
    Api.queryDataPointWithin L env addrs (some o) = Api.queryDataPoint env addrs (some o) := by
  unfold Api.queryDataPointWithin Api.queryDataPoint Dps.getDataPointsWithin Dps.getDataPointsAccurate Dps.getDataPointsFast Dps.getDataPoints
  simp only [makeWithin_fits h, getFrom_fits h]
  cases o.accurate
  · simp only [Bool.false_eq_true, if_false]
    exact (bind_assoc_prog _ _ _).symm
  · simp only [if_true]
    exact (bind_assoc_prog _ _ _).symm

/-- C132, a query whose count does not fit: the handler panics, whatever is stored. -/
theorem C132_panics {env : Env} (he : EnvLax env) {w : World F} (hw : WLax w) (addrs : List Addr) {L : Nat} {o : Api.QueryOpts F}
    (h : (L : Int) < o.n * dataPointBytes) (p : Nat) : (Api.queryDataPointWithin L env addrs (some o)).run w p = .error .makeNeg := by
  have key : ∀ m : Prog F (List Addr), Prog.NP (.of MLax) m w.heap.length (fun _ => True) →
      (m >>= (fun as => Dps.getDataPointsWithin L env as o.ns o.vec o.n o.drain >>= fun l => pure (200, Api.dataPointsToDPs l))).run w p = .error .makeNeg :=
    fun m hm => by
    obtain ⟨r, p', e, _, _⟩ := np_run m p hm (whas_lax.2 hw) (Nat.le_refl _)
    rw [run_bind_ok e]
    refine run_bind_error ?_
    unfold Dps.getDataPointsWithin
    refine run_bind_error ?_
    rw [run_loc]
    refine error_bind ?_
    unfold Go.makeWithin
    rw [if_pos (.inr h)]
    rfl
  unfold Api.queryDataPointWithin
  refine key _ ?_
  split
  · exact np_bestFit he addrs _ (fun a n => np_client_nearestCentroidVec he a o.ns _ n) _
  · exact np_bestFit he addrs _ (fun a n => np_client_vec he a o.ns n) _

/-- C132, the RPC: a count that does not fit ends the process of the node, as soon as it has the namespace. -/
theorem C132_crash {env : Env} {D : NS → Nat} {w : World F} (hw : WorldOK D w) {a : Addr} {ns : NS} (hns : (w.get a ns).isSome) {L : Nat} {k : Int}
    (h : (L : Int) < k * dataPointBytes) (v : List F) (drain : Bool) (p : Nat) :
    (Server.knnLookupWithin L env a ns v k drain).run w p = .error .makeNeg := by
  obtain ⟨m, hg⟩ := Option.isSome_iff_exists.1 hns
  obtain ⟨i, hl, hi⟩ := lookup_of_get hw hg
  unfold Server.knnLookupWithin
  rw [run_access_some hl hi]
  refine error_bind ?_
  unfold Manager.knnLookupWithin
  refine error_bind ?_
  unfold Go.makeWithin
  rw [if_pos (.inr h)]
  rfl

/-- C132, the remedy: if what the nodes have fits, cutting the count down to one more than that gives the answer to the count that was asked for. -/
theorem C132_cut_partial {env : Env} (he : EnvOK env) {D : NS → Nat} {w : World F} (hw : WorldOK D w) (ns : NS) (accurate : Bool) (v : List F) (drain : Bool)
    (addrs : List Addr) {L : Nat} (hL : (sizeAt w addrs ns + 1) * dataPointBytes ≤ L) (n : Int) (p : Nat) :
    (Api.queryDataPointWithin L env addrs (some ⟨ns, accurate, v, min n (sizeAt w addrs ns + 1), drain⟩)).run w p =
      (Api.queryDataPoint env addrs (some ⟨ns, accurate, v, n, drain⟩)).run w p := by
  rw [C132_fits_partial]
  · rcases le_total n (sizeAt w addrs ns + 1) with h | h
    · rw [min_eq_left h]
    · rw [min_eq_right h]
      exact C131_query he hw ns accurate v drain addrs (by omega) (by omega) p
  · unfold dataPointBytes at hL ⊢
    show min n _ * _ ≤ _
    omega

open ServerExample

/-- C132 is violated: with the 2^48 bytes that Go can address, a query for 2^62 datapoints at nodes without any data makes the handler panic (the
connection is closed without an answer). -/
theorem C132_refuted (v : List F64) (p : Nat) : (Api.queryDataPointWithin (2 ^ 48) env [1, 2] (some ⟨7, false, v, 2 ^ 62, false⟩)).run start p = .error .makeNeg :=
  C132_panics ⟨env_ok.perm, env_ok.rand⟩ (lax_of_ok start_ok) [1, 2] (show ((2 ^ 48 : Nat) : Int) < 2 ^ 62 * ((80 : Nat) : Int) by decide) p

/-- C132 is violated at the nodes: node 1 has two datapoints in namespace 7; a lookup of 2^62 neighbours over RPC ends its process. -/
theorem C132_refuted_rpc (v : List F64) (drain : Bool) (p : Nat) : (Server.knnLookupWithin (2 ^ 48) env 1 7 v (2 ^ 62) drain).run two p = .error .makeNeg :=
  C132_crash two_ok (by decide) (by unfold dataPointBytes; decide) v drain p

/-- With 480 bytes, six datapoints, the nodes answer any query whose count is cut down as with unlimited memory. -/
example (v : List F64) (accurate drain : Bool) (n : Int) (p : Nat) :
    (Api.queryDataPointWithin 480 env [1, 2] (some ⟨7, accurate, v, min n 6, drain⟩)).run two p =
      (Api.queryDataPoint env [1, 2] (some ⟨7, accurate, v, n, drain⟩)).run two p :=
  C132_cut_partial env_ok two_ok 7 accurate v drain [1, 2] (L := 480) (by decide) n p

/-- A count that fits exactly. -/
example (addrs : List Addr) (v : List F64) : Api.queryDataPointWithin 480 env addrs (some ⟨7, true, v, 6, true⟩) =
    Api.queryDataPoint env addrs (some ⟨7, true, v, 6, true⟩) :=
  C132_fits_partial (show (6 : Int) * ((80 : Nat) : Int) ≤ ((480 : Nat) : Int) by decide) env addrs

end Trypo
