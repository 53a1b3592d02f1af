import Verif.Props.Same
import Verif.Props.Order

/-!
# C147: taking everything out and putting it back
-/

namespace Trypo
open GoFloat Spec

/-- C147 in part, in exact arithmetic, with nodes that can be reached and nobody else at work. A draining query that asks for enough hands over all
datapoints and leaves none. All of them are then put back, in any order and by fast or accurate requests. All requests are answered with 200,
and a query that asks for enough finds exactly what was there at first. -/
theorem C147_partial {env : Env} {D : NS → Nat} (he : EnvOK env) (hlost : NoLostReplies env) {fac : Factory ℝ} (hf : FactoryOK fac) {w : World ℝ}
    (hw : WorldOK D w) {addrs : List Addr} (hne : addrs ≠ []) (hnd : addrs.Nodup) (hr : ∀ a ∈ addrs, Reachable env a) (ns : NS) (hD : D ns ≠ 0)
    (hl : ∀ d ∈ storedAt w addrs ns, d.expireEnabled = false) (p : Nat) :
    ∃ N, ∀ o : Api.QueryOpts ℝ, o.ns = ns → o.vec.length = D ns → o.drain = true → N ≤ o.n →
      ∃ body w1 p1, (Api.queryDataPoint env addrs (some o)).run w p = .ok (((200, body), w1), p1) ∧ storedAt w1 addrs ns = [] ∧
        ∀ os : List (Bool × Api.DP ℝ), (os.map (fun x => x.2)).Perm body →
          ∃ w2 p2 N', (putAll env fac addrs ns os).run w1 p1 = .ok ((List.replicate os.length 200, w2), p2) ∧
            ∀ o' : Api.QueryOpts ℝ, o'.ns = ns → o'.vec.length = D ns → N' ≤ o'.n →
              ∃ (out : List (DataPoint ℝ)) (w3 : World ℝ) (p3 : Nat), (Api.queryDataPoint env addrs (some o')).run w2 p2 =
                  .ok (((200, out.map (fun d => ⟨d.vec, d.payload, d.expires, d.expireEnabled⟩)), w3), p3) ∧
                out.Perm (storedAt w addrs ns) := by
  have live : ∀ {d : DataPoint ℝ}, d.expireEnabled = false → ∀ q, ¬ Dead (env.tk q) d := fun h q hd => by
    have := hd.1
    simp [h] at this
  obtain ⟨N, hN⟩ := enough_exists w addrs ns
  refine ⟨max N 0, fun o e1 e2 e3 e4 => ?_⟩
  subst e1
  obtain ⟨out, w1, p1, h1, h2, h3⟩ := C102_exact he hw o hD e2 hnd hr (fun d hd => live (hl d hd)) (hN o.n (le_trans (le_max_left _ _) e4)) p
  have hw1 : WorldOK D w1 := by
    obtain ⟨r, q, k1, k2⟩ := Go.wp_iff.1 (wp_query_ok he hw o (n := o.n.toNat) (by have := le_trans (le_max_right _ _) e4; omega) addrs p)
    rw [h1] at k1
    cases k1
    exact k2
  refine ⟨_, w1, p1, h1, h3 e3, fun os hos => ?_⟩
  have dims : ∀ d ∈ storedAt w addrs o.ns, d.vec.length = D o.ns := by
    intro d hd
    obtain ⟨a, ha, hd⟩ := List.mem_flatMap.1 hd
    cases hg : w.get a o.ns with
    | none => simp [hg] at hd
    | some m =>
      obtain ⟨i, hlk, hi⟩ := lookup_of_get hw hg
      have hmok := hw.mok hi
      rw [hg] at hd
      obtain ⟨c, hc, hd⟩ := List.mem_flatMap.1 hd
      obtain ⟨k1, k2⟩ := hmok.wf.dim c hc
      rw [k2 d hd, k1, hmok.len]
  have ho : ∀ x ∈ os, x.2.vec.length = D o.ns ∧ x.2.expireEnabled = false := by
    intro x hx
    obtain ⟨d, hd, e⟩ := List.mem_map.1 (hos.subset (List.mem_map.2 ⟨x, hx, rfl⟩))
    have hd := h2.subset hd
    rw [← e]
    exact ⟨dims d hd, hl d hd⟩
  obtain ⟨w2, p2, N', k1, k2⟩ := C103_put_then_query he hlost hf hw1 hne hnd hr o.ns hD (by rw [h3 e3]; simp) os ho p1
  refine ⟨w2, p2, N', k1, fun o' i1 i2 i3 => ?_⟩
  obtain ⟨out', w3, p3, j1, j2⟩ := k2 o' i1 i2 i3
  refine ⟨out', w3, p3, j1, ?_⟩
  rw [h3 e3, List.nil_append] at j2
  have := hos.map asDataPoint
  simp only [List.map_map] at this
  refine j2.trans (List.Perm.trans this ?_)
  rw [show asDataPoint ∘ (fun d : DataPoint ℝ => (⟨d.vec, d.payload, d.expires, d.expireEnabled⟩ : Api.DP ℝ)) = id from rfl, List.map_id]
  exact h2

open ServerExample ApproxExample

namespace TripExample

/-- Puts, a draining query, all that it handed over put back, and another query: the statuses of the later puts and both answers. -/
def trip (l : List (Api.PutOpts F64)) (v : List F64) : Prog F64 (List Nat × List (List F64) × List (List F64)) := do
  let _ ← Prog.each (fun b => Api.putDataPoint env fac4 [1] (some b)) l
  let r ← Api.queryDataPoint env [1] (some ⟨7, true, v, 9, true⟩)
  let s ← Prog.each (fun d => Api.putDataPoint env fac4 [1] (some ⟨7, true, d⟩)) r.2
  let q ← Api.queryDataPoint env [1] (some ⟨7, true, v, 9, false⟩)
  pure (s, r.2.map (fun d => d.vec), q.2.map (fun d => d.vec))

end TripExample
open TripExample

set_option synthInstance.maxSize 1000 in
/-- C147 is violated in float64: (1,0) and (2^60,0) are put, a draining query hands both over, and both are put back. The puts are answered with 200,
but nothing is stored: draining has left a centroid whose vector is zero by rounding, to which nothing is similar. -/
theorem C147_refuted : ∃ r p, (trip [put 1 0, put (2 ^ 60) 0] [.ofInt 1, .ofInt 0]).run start 0 = .ok (r, p) ∧
    (r.1, at12 r.2) = (([200, 200], [[.ofInt 1, .ofInt 0], [.ofInt (2 ^ 60), .ofInt 0]], []), [], []) :=
  exists_of_run (f := fun (r : (List Nat × List (List F64) × List (List F64)) × World F64) => (r.1, at12 r.2)) (by decide +kernel)

set_option synthInstance.maxSize 1000 in
/-- C147: a round trip in float64 that works. -/
example : ∃ r p, (trip [put 1 0, put 1 1] [.ofInt 1, .ofInt 0]).run start 0 = .ok (r, p) ∧
    (r.1, at12 r.2) = (([200, 200], [[.ofInt 1, .ofInt 0], [.ofInt 1, .ofInt 1]], [[.ofInt 1, .ofInt 0], [.ofInt 1, .ofInt 1]]),
      [dp 1 0, dp 1 1], []) :=
  exists_of_run (f := fun (r : (List Nat × List (List F64) × List (List F64)) × World F64) => (r.1, at12 r.2)) (by decide +kernel)

open MoreExample in
/-- C147: the world `many`, with four datapoints on two nodes. -/
example (p : Nat) : ∃ N, ∀ o : Api.QueryOpts ℝ, o.ns = 7 → o.vec.length = 2 → o.drain = true → N ≤ o.n →
      ∃ body w1 p1, (Api.queryDataPoint env [1, 2] (some o)).run many p = .ok (((200, body), w1), p1) ∧ storedAt w1 [1, 2] 7 = [] ∧
        ∀ os : List (Bool × Api.DP ℝ), (os.map (fun x => x.2)).Perm body →
          ∃ w2 p2 N', (putAll env ⟨10, 4, knnCos, kfnCos⟩ [1, 2] 7 os).run w1 p1 = .ok ((List.replicate os.length 200, w2), p2) ∧
            ∀ o' : Api.QueryOpts ℝ, o'.ns = 7 → o'.vec.length = 2 → N' ≤ o'.n →
              ∃ (out : List (DataPoint ℝ)) (w3 : World ℝ) (p3 : Nat), (Api.queryDataPoint env [1, 2] (some o')).run w2 p2 =
                  .ok (((200, out.map (fun d => ⟨d.vec, d.payload, d.expires, d.expireEnabled⟩)), w3), p3) ∧
                out.Perm [rpt 5 0, rpt 3 0, rpt 0 2, rpt 4 4] := by
  have h1 : many.get 1 7 = some (man [1, 1] [cen [1, 0] [rpt 5 0, rpt 3 0], cen [0, 1] [rpt 0 2]]) := rfl
  have h2 : many.get 2 7 = some (man [1, 1] [cen [1, 1] [rpt 4 4]]) := rfl
  have hs : storedAt many [1, 2] 7 = [rpt 5 0, rpt 3 0, rpt 0 2, rpt 4 4] := by simp [storedAt, h1, h2, stored, man, cen]
  have := C147_partial (fac := ⟨10, 4, knnCos, kfnCos⟩) env_ok (fun _ _ => rfl) ⟨by decide, rfl, rfl⟩ many_ok (addrs := [1, 2]) (by simp) (by simp)
    (fun a _ => ⟨fun _ => rfl, fun _ => rfl⟩) 7 (by simp) (by
      rw [hs]
      intro d hd
      simp only [List.mem_cons, List.not_mem_nil, or_false] at hd
      rcases hd with rfl | rfl | rfl | rfl <;> rfl) p
  rw [hs] at this
  exact this

end Trypo
