/-!
# Scalars

The Go code uses `float64` everywhere. The model is written over an arbitrary type `F` with the `float64`
operations the code uses, so that a theorem about an arbitrary `F` holds in particular for IEEE arithmetic.
Laws are separate (`LawfulCmp`) and are assumed only by the theorems that need them.
-/

namespace Trypo

/-- The `float64` operations used by the modelled code. No laws are assumed. -/
class GoFloat (F : Type) where
  /-- the constant `0` -/
  zero : F
  add : F → F → F
  sub : F → F → F
  mul : F → F → F
  div : F → F → F
  /-- unary minus; `x * -1` in pkg/searchutils/knn.go:95 -/
  neg : F → F
  /-- `math.Sqrt` -/
  sqrt : F → F
  /-- `<` -/
  lt : F → F → Bool
  /-- `==` -/
  eq : F → F → Bool
  /-- the conversion `float64(n)` of a non-negative `int` -/
  ofNat : Nat → F
  /-- `math.MaxFloat64` -/
  maxFloat : F

/-- The comparison laws of IEEE 754 floating point numbers. `eq a a` says that `a` is not NaN. -/
class LawfulCmp (F : Type) [GoFloat F] : Prop where
  lt_irrefl : ∀ a : F, GoFloat.lt a a = false
  lt_trans : ∀ a b c : F, GoFloat.lt a b = true → GoFloat.lt b c = true → GoFloat.lt a c = true
  lt_num_left : ∀ a b : F, GoFloat.lt a b = true → GoFloat.eq a a = true
  lt_num_right : ∀ a b : F, GoFloat.lt a b = true → GoFloat.eq b b = true
  /-- totality on numbers -/
  lt_connected : ∀ a b c : F, GoFloat.lt a b = true → GoFloat.eq c c = true →
    GoFloat.lt a c = true ∨ GoFloat.lt c b = true
  /-- `==` on numbers is incomparability -/
  eq_iff : ∀ a b : F, GoFloat.eq a b = true ↔
    (GoFloat.eq a a = true ∧ GoFloat.eq b b = true ∧ GoFloat.lt a b = false ∧ GoFloat.lt b a = false)

end Trypo
