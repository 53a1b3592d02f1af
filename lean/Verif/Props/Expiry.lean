import Verif.Proofs.Expiry

/-!
# C87: expired datapoints disappear from a running service
-/

namespace Trypo
open GoFloat Spec EventLoop Service

section
variable {F : Type} [GoFloat F] [LawfulCmp F]

/-- C87: a node whose event loop is not stopped and which can be reached gets rid of every datapoint that is expired at some time,
whatever else is going on, and keeps none of them that comes back. -/
theorem C87_expiry {env : Env} (he : EnvOK env) {fac : Factory F} (hf : FactoryOK fac) {D : NS → Nat} {w0 : World F} (hw : WorldOK D w0) {p0 : Nat}
    {nodes : List (Config × Nat × SkipConfig)} (hn : ∀ n ∈ nodes, NodeOK n) {evs : Nat → Ev F} (hv : ValidRun D evs) (hfair : FairRun evs)
    {k : Nat} {c : Config × Nat × SkipConfig} (hk : nodes[k]? = some c) (hstop : ∀ m, evs m ≠ .stop k) (hr : Reachable env c.1.loc) (n0 : Nat) :
    ∃ s, Service.run env fac (firstN evs n0) (boot nodes w0 p0) = .ok s ∧ ∀ T, T ≤ env.tk s.now → ∃ m, ∀ n, m ≤ n →
      ∃ s', Service.run env fac (firstN evs n) (boot nodes w0 p0) = .ok s' ∧
        ∀ ns mgr, s'.world.get c.1.loc ns = some mgr → ∀ d ∈ stored mgr, ¬ Dead T d := by
  obtain ⟨st, t⟩ := trace_exists (p0 := p0) he hf hw hn hv
  refine ⟨st n0, t.run n0, fun T hT => ?_⟩
  obtain ⟨m, hm⟩ := t.clean he hf hw hn hv hfair hk hstop hr n0 hT
  exact ⟨m, fun n h => ⟨st n, t.run n, fun ns mgr hg => hm n h ns mgr hg⟩⟩

/-- C87 for the whole service: if that holds of all nodes, then at some time none of them has a datapoint that is expired now. -/
theorem C87_all_nodes {env : Env} (he : EnvOK env) {fac : Factory F} (hf : FactoryOK fac) {D : NS → Nat} {w0 : World F} (hw : WorldOK D w0) {p0 : Nat}
    {nodes : List (Config × Nat × SkipConfig)} (hn : ∀ n ∈ nodes, NodeOK n) {evs : Nat → Ev F} (hv : ValidRun D evs) (hfair : FairRun evs)
    (hstop : ∀ k m, evs m ≠ .stop k) (hr : ∀ n ∈ nodes, Reachable env n.1.loc) (n0 : Nat) :
    ∃ s, Service.run env fac (firstN evs n0) (boot nodes w0 p0) = .ok s ∧ ∀ T, T ≤ env.tk s.now → ∃ m, ∀ n, m ≤ n →
      ∃ s', Service.run env fac (firstN evs n) (boot nodes w0 p0) = .ok s' ∧
        ∀ ns, ∀ d ∈ storedAt s'.world (nodes.map (fun n => n.1.loc)) ns, ¬ Dead T d := by
  obtain ⟨st, t⟩ := trace_exists (p0 := p0) he hf hw hn hv
  refine ⟨st n0, t.run n0, fun T hT => ?_⟩
  have key : ∀ k, ∃ m, ∀ n, m ≤ n → ∀ c ∈ nodes.take k, ∀ ns mgr, (st n).world.get c.1.loc ns = some mgr → ∀ d ∈ stored mgr, ¬ Dead T d := by
    intro k
    induction k with
    | zero => exact ⟨0, fun _ _ c hc => by simp at hc⟩
    | succ k ih =>
      obtain ⟨m, hm⟩ := ih
      cases hk : nodes[k]? with
      | none =>
        refine ⟨m, fun n h c hc => hm n h c ?_⟩
        rw [List.take_add_one, hk] at hc
        simpa using hc
      | some x =>
        obtain ⟨m', hm'⟩ := t.clean he hf hw hn hv hfair hk (hstop k) (hr x (List.mem_of_getElem? hk)) n0 hT
        refine ⟨max m m', fun n h c hc => ?_⟩
        rw [List.take_add_one, hk] at hc
        rcases List.mem_append.1 hc with hc | hc
        · exact hm n (by omega) c hc
        · simp only [Option.toList_some, List.mem_singleton] at hc
          subst hc
          exact hm' n (by omega)
  obtain ⟨m, hm⟩ := key nodes.length
  rw [List.take_length] at hm
  refine ⟨m, fun n h => ⟨st n, t.run n, fun ns d hd => ?_⟩⟩
  unfold storedAt at hd
  obtain ⟨a, ha, hd⟩ := List.mem_flatMap.1 hd
  obtain ⟨c, hc, rfl⟩ := List.mem_map.1 ha
  cases hg : (st n).world.get c.1.loc ns with
  | none => rw [hg] at hd; simp at hd
  | some mgr =>
    rw [hg] at hd
    exact hm n h c hc ns mgr hg d (by simpa using hd)

end

namespace ExpiryExample
open ServerExample JobsExample ServiceExample

/-- A network and a clock that runs. -/
def ticking : Env := { env with tk := fun p => p }
/-- A datapoint that expires at 3. -/
def brief : DataPoint F64 := ⟨[.ofInt 2, .ofInt 1], [], 3, true⟩
/-- Node 1 with a datapoint that stays and one that expires. -/
def passing : World F64 := ⟨fun a => if a = 1 then [(7, 0)] else [], [(7, man [.ofInt 1, .ofInt 1] [cen [.ofInt 1, .ofInt 1] [dp 1 0, brief]])]⟩

theorem ticking_ok : EnvOK ticking := ⟨fun p q h => by simp only [ticking]; omega, env_ok.perm, env_ok.rand⟩

theorem passing_ok : WorldOK (fun _ => 2) passing := by
  refine ⟨fun a => ?_, fun a ns i h => ?_, fun a b ns i h h' => ?_, fun s hs => ?_⟩
  · simp only [passing]
    split <;> simp
  · simp only [passing] at h
    split at h
    · cases List.mem_singleton.1 h; exact ⟨_, rfl⟩
    · simp at h
  · simp only [passing] at h h'
    split at h
    · split at h'
      · rename_i ha hb
        rw [ha, hb]
      · simp at h'
    · simp at h
  · cases List.mem_singleton.1 hs
    exact man_mok (by simp) (by
      intro c hc
      cases List.mem_singleton.1 hc
      refine ⟨by simp [cen], fun d hd => ?_⟩
      simp only [cen, List.mem_cons, List.not_mem_nil, or_false] at hd
      rcases hd with rfl | rfl <;> simp [dp, cen, brief]) (by
      intro c hc
      cases List.mem_singleton.1 hc
      exact ⟨rfl, rfl⟩)

/-- C87: while puts arrive all the time, the datapoint that is expired disappears for good from a node that starts at time 4. -/
example : ∃ m, ∀ n, m ≤ n → ∃ s', Service.run ticking fac (firstN endless n) (boot [(single, 10, shippedSkip)] passing 4) = .ok s' ∧
    ∀ ns mgr, s'.world.get 1 ns = some mgr → brief ∉ stored mgr := by
  obtain ⟨s, h1, h2⟩ := C87_expiry (p0 := 4) ticking_ok fac_ok passing_ok (nodes := [(single, 10, shippedSkip)])
    (by intro n hn; cases List.mem_singleton.1 hn; exact ⟨by decide, by decide, by decide⟩)
    endless_valid endless_fair (k := 0) rfl (endless_goes_on 0) ⟨fun _ => rfl, fun _ => rfl⟩ 0
  cases h1
  obtain ⟨m, hm⟩ := h2 4 (by decide)
  exact ⟨m, fun n hn => by
    obtain ⟨s', h3, h4⟩ := hm n hn
    exact ⟨s', h3, fun ns mgr hg hb => h4 ns mgr hg _ hb ⟨rfl, by decide⟩⟩⟩

/-- C87, in numbers: it is there at the start, and gone after some turns. -/
example : seen (Service.run ticking fac (turns 0) (boot [(single, 10, always)] passing 4)) = some ([], [], [dp 1 0, brief], []) ∧
    seen (Service.run ticking fac (turns 23) (boot [(single, 10, always)] passing 4)) = some
      ([.loop 0, .loop 0, .task 1], [.getMeta, .expire], [dp 1 0], [true, true, true]) := ⟨by decide +kernel, by decide +kernel⟩

/-- C87 needs the event loop: after a stop the datapoint stays. -/
example : seen (Service.run ticking fac (turns 1 ++ .stop 0 :: turns 40) (boot [(single, 10, always)] passing 4)) = some
    ([], [], [dp 1 0, brief], []) := by decide +kernel

end ExpiryExample
end Trypo
