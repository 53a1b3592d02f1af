import Verif.Spec.Process

/-!
# Properties C97 and C98: starting the API and the service
-/

namespace Trypo
open Spec Process

/-- Who registered what: `g` gives for a route the number of the call. -/
structure Owned (s : State) (g : Route → Option Nat) : Prop where
  nodup : (s.mux.map (fun x => x.1)).Nodup
  owner : ∀ r, r ∈ s.mux.map (fun x => x.1) ↔ (g r).isSome
  entry : ∀ r a, (r, a) ∈ s.mux → ∃ i, ∃ c : Call, g r = some i ∧ s.calls[i]? = some c ∧ c.cfg.rpcAddrs = some a
  order : ∀ (i : Nat) (c : Call), s.calls[i]? = some c → c.order.Perm [.put, .query]
  reg : ∀ (i : Nat) (c : Call) todo, s.calls[i]? = some c → c.pc = .register todo →
    c.cfg.rpcAddrs ≠ none ∧ ∃ done, c.order = done ++ todo ∧ ∀ r, r ∈ done ↔ g r = some i
  fresh : ∀ (i : Nat) (c : Call), s.calls[i]? = some c → c.pc = .check → ∀ r, g r ≠ some i
  beyond : ∀ (i : Nat) (c : Call), s.calls[i]? = some c → c.pc = .listen ∨ c.pc = .serving → c.cfg.rpcAddrs ≠ none ∧ ∀ r, g r = some i
  failed : ∀ (i : Nat) (c : Call), s.calls[i]? = some c → c.pc = .failed → c.cfg.rpcAddrs = none ∨ ∀ r, g r = some i
  panicked : ∀ (i : Nat) (c : Call), s.calls[i]? = some c → c.pc = .panicked → c.cfg.rpcAddrs ≠ none ∧ ∃ r j, g r = some j ∧ j ≠ i
  calls : ∀ r i, g r = some i → ∃ c : Call, s.calls[i]? = some c ∧ c.cfg.rpcAddrs ≠ none

theorem perm_mem {order : List Route} (h : order.Perm [.put, .query]) (r : Route) : r ∈ order := by
  refine h.mem_iff.2 ?_
  cases r <;> simp

theorem perm_nodup {order : List Route} (h : order.Perm [.put, .query]) : order.Nodup := h.nodup_iff.2 (by decide)

theorem owned_bound {s : State} {g : Route → Option Nat} (h : Owned s g) (b : List Addr) : Owned { s with bound := b } g :=
  ⟨h.nodup, h.owner, h.entry, h.order, h.reg, h.fresh, h.beyond, h.failed, h.panicked, h.calls⟩

theorem owned_call {s : State} {g : Route → Option Nat} (h : Owned s g) (cfg : APIConfig) {order : List Route}
    (ho : order.Perm [.put, .query]) : Owned { s with calls := s.calls ++ [⟨cfg, order, .check⟩] } g := by
  have old : ∀ {i : Nat} {c : Call}, (s.calls ++ [⟨cfg, order, .check⟩])[i]? = some c → s.calls[i]? = some c ∨ (i = s.calls.length ∧ c = ⟨cfg, order, .check⟩) := by
    intro i c hc
    rw [List.getElem?_append] at hc
    split at hc
    · exact .inl hc
    · rename_i hi
      have h1 := List.mem_of_getElem? hc
      have h2 := (List.getElem?_eq_some_iff.1 hc).1
      simp only [List.length_singleton] at h2
      exact .inr ⟨by omega, by simpa using h1⟩
  have up : ∀ {i : Nat} {c : Call}, s.calls[i]? = some c → (s.calls ++ [⟨cfg, order, .check⟩])[i]? = some c := fun {i c} hc => by
    rw [List.getElem?_append_left (List.getElem?_eq_some_iff.1 hc).1]; exact hc
  refine ⟨h.nodup, h.owner, fun r a hra => ?_, fun i c hc => ?_, fun i c todo hc hp => ?_, fun i c hc hp r hr => ?_, fun i c hc hp => ?_,
    fun i c hc hp => ?_, fun i c hc hp => ?_, fun r i hr => ?_⟩
  · obtain ⟨i, c, h1, h2, h3⟩ := h.entry r a hra
    exact ⟨i, c, h1, up h2, h3⟩
  · rcases old hc with hc | ⟨_, rfl⟩
    · exact h.order i c hc
    · exact ho
  · rcases old hc with hc | ⟨_, rfl⟩
    · exact h.reg i c todo hc hp
    · cases hp
  · rcases old hc with hc | ⟨rfl, rfl⟩
    · exact h.fresh i c hc hp r hr
    · obtain ⟨c, hc, _⟩ := h.calls r _ hr
      rw [List.getElem?_eq_none (Nat.le_refl _)] at hc
      cases hc
  · rcases old hc with hc | ⟨_, rfl⟩
    · exact h.beyond i c hc hp
    · rcases hp with hp | hp <;> cases hp
  · rcases old hc with hc | ⟨_, rfl⟩
    · exact h.failed i c hc hp
    · cases hp
  · rcases old hc with hc | ⟨_, rfl⟩
    · exact h.panicked i c hc hp
    · cases hp
  · obtain ⟨c, h1, h2⟩ := h.calls r i hr
    exact ⟨c, up h1, h2⟩

/-- A step of call `i` that registers nothing. -/
theorem owned_move {s : State} {g : Route → Option Nat} (h : Owned s g) {i : Nat} {c : Call} (hc : s.calls[i]? = some c) {pc : At} {b : List Addr}
    (h1 : ∀ todo, pc = .register todo → c.cfg.rpcAddrs ≠ none ∧ ∃ done, c.order = done ++ todo ∧ ∀ r, r ∈ done ↔ g r = some i)
    (h2 : pc ≠ .check)
    (h3 : pc = .listen ∨ pc = .serving → c.cfg.rpcAddrs ≠ none ∧ ∀ r, g r = some i)
    (h4 : pc = .failed → c.cfg.rpcAddrs = none ∨ ∀ r, g r = some i)
    (h5 : pc = .panicked → c.cfg.rpcAddrs ≠ none ∧ ∃ r j, g r = some j ∧ j ≠ i) :
    Owned ⟨b, s.mux, s.calls.set i { c with pc := pc }⟩ g := by
  have hlt := (List.getElem?_eq_some_iff.1 hc).1
  have look : ∀ {j : Nat} {d : Call}, (s.calls.set i { c with pc := pc })[j]? = some d → (j ≠ i ∧ s.calls[j]? = some d) ∨ (j = i ∧ d = { c with pc := pc }) := by
    intro j d hd
    rw [List.getElem?_set] at hd
    split at hd
    · rename_i hij
      try rw [if_pos hlt] at hd
      cases hd
      exact .inr ⟨hij.symm, rfl⟩
    · rename_i hij
      exact .inl ⟨fun e => hij e.symm, hd⟩
  have up : ∀ {j : Nat} {d : Call}, s.calls[j]? = some d → ∃ d', (s.calls.set i { c with pc := pc })[j]? = some d' ∧ d'.cfg = d.cfg := by
    intro j d hd
    rw [List.getElem?_set]
    by_cases hij : i = j
    · subst hij
      rw [hd] at hc
      cases hc
      exact ⟨{ c with pc := pc }, by rw [if_pos rfl, if_pos hlt], rfl⟩
    · exact ⟨d, by simp [hij, hd], rfl⟩
  refine ⟨h.nodup, h.owner, fun r a hra => ?_, fun j d hd => ?_, fun j d todo hd hp => ?_, fun j d hd hp r hr => ?_, fun j d hd hp => ?_,
    fun j d hd hp => ?_, fun j d hd hp => ?_, fun r j hr => ?_⟩
  · obtain ⟨j, d, e1, e2, e3⟩ := h.entry r a hra
    obtain ⟨d', e4, e5⟩ := up e2
    exact ⟨j, d', e1, e4, by rw [e5]; exact e3⟩
  · rcases look hd with ⟨_, hd⟩ | ⟨_, rfl⟩
    · exact h.order j d hd
    · exact h.order i c hc
  · rcases look hd with ⟨_, hd⟩ | ⟨rfl, rfl⟩
    · exact h.reg j d todo hd hp
    · exact h1 todo hp
  · rcases look hd with ⟨_, hd⟩ | ⟨_, rfl⟩
    · exact h.fresh j d hd hp r hr
    · exact h2 hp
  · rcases look hd with ⟨_, hd⟩ | ⟨rfl, rfl⟩
    · exact h.beyond j d hd hp
    · exact h3 hp
  · rcases look hd with ⟨_, hd⟩ | ⟨rfl, rfl⟩
    · exact h.failed j d hd hp
    · exact h4 hp
  · rcases look hd with ⟨_, hd⟩ | ⟨rfl, rfl⟩
    · exact h.panicked j d hd hp
    · exact h5 hp
  · obtain ⟨d, e1, e2⟩ := h.calls r j hr
    obtain ⟨d', e3, e4⟩ := up e1
    exact ⟨d', e3, by rw [e4]; exact e2⟩

/-- A step of call `i` that registers the route `r`. -/
theorem owned_register {s : State} {g : Route → Option Nat} (h : Owned s g) {i : Nat} {c : Call} (hc : s.calls[i]? = some c) {r : Route}
    {rest : List Route} (hp : c.pc = .register (r :: rest)) (hr : r ∉ s.mux.map (fun x => x.1)) :
    Owned ⟨s.bound, s.mux ++ [(r, c.cfg.rpcAddrs.getD [])], s.calls.set i { c with pc := .register rest }⟩
      (fun q => if q = r then some i else g q) := by
  have hlt := (List.getElem?_eq_some_iff.1 hc).1
  have hg : g r = none := by
    have := mt (h.owner r).2 hr
    simpa using this
  obtain ⟨hn, done, e1, e2⟩ := h.reg i c _ hc hp
  obtain ⟨a, ha⟩ := Option.ne_none_iff_exists'.1 hn
  have look : ∀ {j : Nat} {d : Call}, (s.calls.set i { c with pc := .register rest })[j]? = some d →
      (j ≠ i ∧ s.calls[j]? = some d) ∨ (j = i ∧ d = { c with pc := .register rest }) := by
    intro j d hd
    rw [List.getElem?_set] at hd
    split at hd
    · rename_i hij
      try rw [if_pos hlt] at hd
      cases hd
      exact .inr ⟨hij.symm, rfl⟩
    · rename_i hij
      exact .inl ⟨fun e => hij e.symm, hd⟩
  have up : ∀ {j : Nat} {d : Call}, s.calls[j]? = some d → ∃ d', (s.calls.set i { c with pc := .register rest })[j]? = some d' ∧ d'.cfg = d.cfg := by
    intro j d hd
    rw [List.getElem?_set]
    by_cases hij : i = j
    · subst hij
      rw [hd] at hc
      cases hc
      exact ⟨{ c with pc := .register rest }, by rw [if_pos rfl, if_pos hlt], rfl⟩
    · exact ⟨d, by simp [hij, hd], rfl⟩
  have keep : ∀ {q j}, j ≠ i → ((if q = r then some i else g q) = some j ↔ g q = some j) := by
    intro q j hj
    split
    · rename_i e
      subst e
      rw [hg]
      exact ⟨fun e => absurd (Option.some.inj e).symm hj, fun e => by cases e⟩
    · rfl
  have all : ∀ {j}, j ≠ i → (∀ q, g q = some j) → ∀ q, (if q = r then some i else g q) = some j := fun hj hq q => (keep hj).2 (hq q)
  refine ⟨?_, fun q => ?_, fun q b hqb => ?_, fun j d hd => ?_, fun j d todo hd hp => ?_, fun j d hd hp q hq => ?_, fun j d hd hp => ?_,
    fun j d hd hp => ?_, fun j d hd hp => ?_, fun q j hq => ?_⟩
  · rw [List.map_append]
    refine List.nodup_append.2 ⟨h.nodup, by simp, fun x hx y hy hxy => hr ?_⟩
    simp only [List.map_cons, List.map_nil, List.mem_singleton] at hy
    rw [← hy, ← hxy]; exact hx
  · rw [List.map_append, List.mem_append, h.owner q]
    by_cases e : q = r
    · simp [e]
    · simp [e]
  · rcases List.mem_append.1 hqb with hqb | hqb
    · obtain ⟨j, d, f1, f2, f3⟩ := h.entry q b hqb
      obtain ⟨d', f4, f5⟩ := up f2
      refine ⟨j, d', ?_, f4, by rw [f5]; exact f3⟩
      have : q ≠ r := fun e => by subst e; rw [hg] at f1; cases f1
      rw [if_neg this]; exact f1
    · simp only [List.mem_singleton, Prod.mk.injEq] at hqb
      obtain ⟨d', f4, f5⟩ := up hc
      exact ⟨i, d', by rw [if_pos hqb.1], f4, by rw [f5, ha, hqb.2, ha]; rfl⟩
  · rcases look hd with ⟨_, hd⟩ | ⟨_, rfl⟩
    · exact h.order j d hd
    · exact h.order i c hc
  · rcases look hd with ⟨hj, hd⟩ | ⟨rfl, rfl⟩
    · obtain ⟨f1, dn, f2, f3⟩ := h.reg j d todo hd hp
      exact ⟨f1, dn, f2, fun q => (f3 q).trans (keep hj).symm⟩
    · simp only [At.register.injEq] at hp
      subst hp
      refine ⟨hn, done ++ [r], by rw [e1]; simp, fun q => ?_⟩
      by_cases e : q = r
      · simp [e]
      · simp [e, e2 q]
  · rcases look hd with ⟨hj, hd⟩ | ⟨_, rfl⟩
    · exact h.fresh j d hd hp q ((keep hj).1 hq)
    · cases hp
  · rcases look hd with ⟨hj, hd⟩ | ⟨_, rfl⟩
    · exact ⟨(h.beyond j d hd hp).1, all hj (h.beyond j d hd hp).2⟩
    · rcases hp with hp | hp <;> cases hp
  · rcases look hd with ⟨hj, hd⟩ | ⟨_, rfl⟩
    · exact (h.failed j d hd hp).imp id (all hj)
    · cases hp
  · rcases look hd with ⟨hj, hd⟩ | ⟨_, rfl⟩
    · obtain ⟨f1, q, k, f2, f3⟩ := h.panicked j d hd hp
      refine ⟨f1, q, k, ?_, f3⟩
      have : q ≠ r := fun e => by subst e; rw [hg] at f2; cases f2
      simp only [this, if_false]; exact f2
    · cases hp
  · by_cases e : q = r
    · simp only [e, if_true, Option.some.injEq] at hq
      subst hq
      obtain ⟨d', f4, f5⟩ := up hc
      exact ⟨d', f4, by rw [f5]; exact hn⟩
    · simp only [e, if_false] at hq
      obtain ⟨d, f1, f2⟩ := h.calls q j hq
      obtain ⟨d', f3, f4⟩ := up f1
      exact ⟨d', f3, by rw [f4]; exact f2⟩

theorem owned_step {s : State} {g : Route → Option Nat} (h : Owned s g) (e : Ev) (ho : ∀ cfg order, e = .call cfg order → order.Perm [.put, .query]) :
    ∃ g', Owned (s.happen e) g' := by
  cases e with
  | call cfg order => exact ⟨g, owned_call h cfg (ho cfg order rfl)⟩
  | taken a => exact ⟨g, owned_bound h _⟩
  | free a => exact ⟨g, owned_bound h _⟩
  | step i =>
    cases hc : s.calls[i]? with
    | none => exact ⟨g, by simp only [State.happen, hc]; exact h⟩
    | some c =>
      simp only [State.happen, hc, next]
      cases hp : c.pc with
      | check =>
        cases hr : c.cfg.rpcAddrs with
        | none => exact ⟨g, owned_move h hc (pc := .failed) (by simp) (by simp) (by simp) (fun _ => .inl hr) (by simp)⟩
        | some a =>
          refine ⟨g, owned_move h hc (pc := .register c.order) (fun todo e => ?_) (by simp) (by simp) (by simp) (by simp)⟩
          simp only [At.register.injEq] at e
          exact ⟨by simp [hr], [], by simp [e], fun r => ⟨fun hr => by simp at hr, fun hr => absurd hr (h.fresh i c hc hp r)⟩⟩
      | register todo =>
        obtain ⟨hn, done, e1, e2⟩ := h.reg i c todo hc hp
        cases todo with
        | nil =>
          refine ⟨g, owned_move h hc (pc := .listen) (by simp) (by simp) (fun _ => ⟨hn, fun r => (e2 r).1 ?_⟩) (by simp) (by simp)⟩
          have := perm_mem (h.order i c hc) r
          rw [e1] at this
          simpa using this
        | cons r rest =>
          simp only
          split
          · rename_i hm
            refine ⟨g, owned_move h hc (pc := .panicked) (by simp) (by simp) (by simp) (by simp) (fun _ => ⟨hn, r, ?_⟩)⟩
            obtain ⟨j, hj⟩ := Option.isSome_iff_exists.1 ((h.owner r).1 hm)
            refine ⟨j, hj, fun e => ?_⟩
            subst e
            have hd := perm_nodup (h.order j c hc)
            rw [e1] at hd
            exact (List.nodup_append.1 hd).2.2 r ((e2 r).2 hj) r (by simp) rfl
          · rename_i hm
            exact ⟨_, owned_register h hc hp hm⟩
      | listen =>
        have hb := h.beyond i c hc (.inl hp)
        simp only
        split
        · exact ⟨g, owned_move h hc (pc := .failed) (by simp) (by simp) (by simp) (fun _ => .inr hb.2) (by simp)⟩
        · exact ⟨g, owned_move h hc (pc := .serving) (by simp) (by simp) (fun _ => hb) (by simp) (by simp)⟩
      | serving => exact ⟨g, owned_move h hc (pc := .serving) (by simp) (by simp) (fun _ => h.beyond i c hc (.inr hp)) (by simp) (by simp)⟩
      | failed => exact ⟨g, owned_move h hc (pc := .failed) (by simp) (by simp) (by simp) (fun _ => h.failed i c hc hp) (by simp)⟩
      | panicked => exact ⟨g, owned_move h hc (pc := .panicked) (by simp) (by simp) (by simp) (by simp) (fun _ => h.panicked i c hc hp)⟩

theorem owned_run : ∀ (es : List Ev) {s : State} {g : Route → Option Nat}, Owned s g → AnyOrder es → ∃ g', Owned (State.run es s) g'
  | [], _, g, h, _ => ⟨g, h⟩
  | e :: es, s, g, h, ho => by
    obtain ⟨g', h'⟩ := owned_step h e (fun cfg order he => ho cfg order (by simp [he]))
    exact owned_run es h' (fun cfg order hm => ho cfg order (by simp [hm]))

theorem owned_new (bound : List Addr) : Owned (State.new bound) (fun _ => none) :=
  ⟨by simp [State.new], by simp [State.new], by simp [State.new], by simp [State.new], by simp [State.new], by simp [State.new], by simp [State.new],
    by simp [State.new], by simp [State.new], by simp⟩

/-- C97, what holds of any calls of `Start` in a process, one after the other or at the same time: without `RPCAddrs` there is an
error and nothing else; at most one call ever serves, and requests for both paths are then dealt with by the nodes in its
`RPCAddrs`; a call panics only if there is another one with `RPCAddrs`. -/
theorem C97_partial (bound : List Addr) {es : List Ev} (ho : AnyOrder es) (s : State) (hs : s = State.run es (State.new bound)) :
    (∀ i cfg pc, Is s i cfg pc → cfg.rpcAddrs = none → pc = .check ∨ pc = .failed) ∧
    (∀ i cfg, Is s i cfg .serving → ∀ path, s.answers path = cfg.rpcAddrs) ∧
    (∀ i j cfg cfg', Is s i cfg .serving → Is s j cfg' .serving → i = j) ∧
    (∀ i cfg, Is s i cfg .panicked → ∃ j cfg' pc, j ≠ i ∧ Is s j cfg' pc ∧ cfg'.rpcAddrs ≠ none) := by
  subst hs
  obtain ⟨g, h⟩ := owned_run es (owned_new bound) ho
  refine ⟨fun i cfg pc hi hn => ?_, fun i cfg hi path => ?_, fun i j cfg cfg' hi hj => ?_, fun i cfg hi => ?_⟩
  · obtain ⟨order, hi⟩ := hi
    cases pc with
    | check => exact .inl rfl
    | failed => exact .inr rfl
    | register todo => exact absurd hn (h.reg i _ todo hi rfl).1
    | listen => exact absurd hn (h.beyond i _ hi (.inl rfl)).1
    | serving => exact absurd hn (h.beyond i _ hi (.inr rfl)).1
    | panicked => exact absurd hn (h.panicked i _ hi rfl).1
  · obtain ⟨order, hi⟩ := hi
    have hb := (h.beyond i _ hi (.inr rfl)).2 path
    have hm : path ∈ (State.run es (State.new bound)).mux.map (fun x => x.1) := (h.owner path).2 (by rw [hb]; rfl)
    unfold State.answers
    cases hf : (State.run es (State.new bound)).mux.find? (fun x => x.1 = path) with
    | none =>
      obtain ⟨x, hx, rfl⟩ := List.mem_map.1 hm
      have := List.find?_eq_none.1 hf x hx
      simp at this
    | some x =>
      have h1 := List.find?_some hf
      have h2 := List.mem_of_find?_eq_some hf
      simp only [decide_eq_true_eq] at h1
      obtain ⟨j, c, e1, e2, e3⟩ := h.entry x.1 x.2 h2
      rw [h1, hb] at e1
      cases e1
      rw [hi] at e2
      cases e2
      exact e3.symm
  · obtain ⟨_, hi⟩ := hi
    obtain ⟨_, hj⟩ := hj
    have e1 := (h.beyond i _ hi (.inr rfl)).2 .put
    rw [(h.beyond j _ hj (.inr rfl)).2 .put] at e1
    exact (Option.some.inj e1).symm
  · obtain ⟨_, hi⟩ := hi
    obtain ⟨_, r, j, e1, e2⟩ := h.panicked i _ hi rfl
    obtain ⟨c, e3, e4⟩ := h.calls r j e1
    exact ⟨j, c.cfg, c.pc, e2, ⟨c.order, e3⟩, e4⟩

theorem orders {order : List Route} (h : order.Perm [.put, .query]) : order = [.put, .query] ∨ order = [.query, .put] := by
  have hl := h.length_eq
  have hn := perm_nodup h
  match order, hl, hn with
  | [.put, .query], _, _ => exact .inl rfl
  | [.query, .put], _, _ => exact .inr rfl
  | [.put, .put], _, hn => simp at hn
  | [.query, .query], _, hn => simp at hn

/-- C97, what holds: as long as no route is registered, a call with `RPCAddrs` serves if its address is free, and returns an error
otherwise. -/
theorem C97_first {s : State} (h : s.mux = []) (a : Addr) (rpc : List Addr) {order : List Route} (ho : order.Perm [.put, .query]) :
    lastCall (startAndWait ⟨a, some rpc⟩ order s) = some (if a ∈ s.bound then .failed else .serving) ∧
    (startAndWait ⟨a, some rpc⟩ order s).bound = (if a ∈ s.bound then s.bound else a :: s.bound) ∧
    ∀ path, (startAndWait ⟨a, some rpc⟩ order s).answers path = some rpc := by
  by_cases hb : a ∈ s.bound <;> rcases orders ho with rfl | rfl <;>
    refine ⟨?_, ?_, fun path => ?_⟩ <;> try cases path
  all_goals simp [startAndWait, lastCall, State.run, State.happen, next, List.replicate, h, hb, State.answers]

/-- C97 fails: after a call that registered the routes, no call with `RPCAddrs` can succeed any more: it panics, whether the first
one serves or could not listen, and whatever the addresses are. -/
theorem C97_refuted {s : State} (h : ∀ r, r ∈ s.mux.map (fun x => x.1)) (a : Addr) (rpc : List Addr) {order : List Route} (ho : order.Perm [.put, .query]) :
    lastCall (startAndWait ⟨a, some rpc⟩ order s) = some .panicked := by
  have h1 := h .put
  have h2 := h .query
  rcases orders ho with rfl | rfl <;>
    simp [startAndWait, lastCall, State.run, State.happen, next, List.replicate, -List.mem_map, h1, h2]

/-- C97 fails: the address is taken, `Start` returns an error; the address is free again, and `Start` panics. Nor can there be a
second API at another address. -/
theorem C97_refuted_retry :
    lastCall (startAndWait ⟨7, some [1]⟩ [.put, .query] (State.new [7])) = some .failed ∧
    lastCall (startAndWait ⟨7, some [1]⟩ [.query, .put] ((startAndWait ⟨7, some [1]⟩ [.put, .query] (State.new [7])).happen (.free 7))) = some .panicked ∧
    lastCall (startAndWait ⟨8, some [2]⟩ [.put, .query] (startAndWait ⟨7, some [1]⟩ [.put, .query] (State.new []))) = some .panicked :=
  ⟨by decide, by decide, by decide⟩

/-- C97 fails: of two calls at the same time, at two free addresses, both may panic. -/
theorem C97_refuted_both :
    (State.run [.call ⟨7, some [1]⟩ [.put, .query], .call ⟨8, some [2]⟩ [.query, .put], .step 0, .step 1, .step 0, .step 1, .step 0, .step 1]
      (State.new [])).calls.map (fun c => c.pc) = [.panicked, .panicked] := by decide

/-- C97: the first API serves, and both paths lead to its nodes; a call without `RPCAddrs` before that does no harm. -/
example : lastCall (startAndWait ⟨7, some [1, 2]⟩ [.query, .put] (startAndWait ⟨7, none⟩ [.put, .query] (State.new [3]))) = some .serving ∧
    (startAndWait ⟨7, some [1, 2]⟩ [.query, .put] (startAndWait ⟨7, none⟩ [.put, .query] (State.new [3]))).answers .put = some [1, 2] ∧
    (startAndWait ⟨7, some [1, 2]⟩ [.query, .put] (State.new [3])).bound = [7, 3] := by decide

/-- C98. The service is up if its two addresses are free and differ and the addresses of the nodes are not nil; then it listens at
both, and requests are dealt with by the nodes that are configured. Otherwise `main` panics with what `StartListen` or `Start`
returned, and nothing is left behind that listens. -/
theorem C98_main (cfg : MainConfig) {order : List Route} (ho : order.Perm [.put, .query]) (bound : List Addr) :
    let up := cfg.localRPC ∉ bound ∧ cfg.localAPI ∉ bound ∧ cfg.localAPI ≠ cfg.localRPC ∧ cfg.otherRPC ≠ none
    (up → (main cfg order bound).1 = .up ∧ (main cfg order bound).2.bound = [cfg.localAPI, cfg.localRPC] ++ bound ∧
      ∀ path, (main cfg order bound).2.answers path = cfg.otherRPC) ∧
    (¬ up → (main cfg order bound).1 = (if cfg.localRPC ∈ bound then .noNode else .noAPI) ∧ (main cfg order bound).2.bound = bound) := by
  obtain ⟨l, o, a⟩ := cfg
  simp only
  have hflt : l ∉ bound → bound.filter (fun x => decide (x ≠ l)) = bound := fun h =>
    List.filter_eq_self.2 (fun x hx => by simp only [decide_eq_true_eq]; exact fun e => h (e ▸ hx))
  refine ⟨fun ⟨h1, h2, h3, h4⟩ => ?_, fun h => ?_⟩
  · obtain ⟨rpc, rfl⟩ := Option.ne_none_iff_exists'.1 h4
    rcases orders ho with rfl | rfl <;> refine ⟨?_, ?_, fun path => ?_⟩ <;> try cases path
    all_goals simp [main, State.run, State.happen, next, List.replicate, h1, h2, h3, State.answers, State.new]
  · by_cases h1 : l ∈ bound
    · simp [main, h1, State.new]
    · have hne : ¬ (a ∉ bound ∧ a ≠ l ∧ o ≠ none) := fun h' => h ⟨h1, h'⟩
      cases o with
      | none =>
        rcases orders ho with rfl | rfl <;>
          simp [main, State.run, State.happen, next, List.replicate, h1, State.new, -decide_not] <;> simpa using hflt h1
      | some rpc =>
        have ha : a = l ∨ a ∈ bound := by
          by_cases e : a = l
          · exact .inl e
          · exact .inr (Classical.byContradiction (fun hb => hne ⟨hb, e, by simp⟩))
        rcases orders ho with rfl | rfl <;>
          simp [main, State.run, State.happen, next, List.replicate, h1, ha, State.new, -decide_not] <;> simpa using hflt h1

/-- C98: the shipped addresses (cfg/cfg.go:24-33), with both ports free, with the port of the API taken, and with one address for both. -/
example : (main ⟨3500, some [3500], 3501⟩ [.put, .query] [22]).1 = .up ∧ (main ⟨3500, some [3500], 3501⟩ [.put, .query] [22]).2.bound = [3501, 3500, 22] ∧
    (main ⟨3500, some [3500], 3501⟩ [.query, .put] [3501]).1 = .noAPI ∧ (main ⟨3500, some [3500], 3501⟩ [.query, .put] [3501]).2.bound = [3501] ∧
    (main ⟨3500, some [3500], 3500⟩ [.query, .put] []).1 = .noAPI ∧ (main ⟨3500, some [3500], 3501⟩ [.query, .put] [3500]).1 = .noNode := by decide

end Trypo
