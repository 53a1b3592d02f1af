import Verif.Model.Float

/-!
# An executable model of IEEE 754 binary64

Every finite binary64 number is an integer multiple of `2^-1074`. A finite number is represented by its sign and
by that multiple, so arithmetic is integer arithmetic followed by rounding to 53 significant bits, ties to even.
Simplification: NaN payloads are not represented.
-/

namespace Trypo

/-- IEEE 754 binary64. `fin s k` is `(-1)^s * k * 2^-1074`. -/
inductive F64 where
  | nan
  | inf (neg : Bool)
  | fin (neg : Bool) (k : Nat)
  deriving DecidableEq, Repr

namespace F64

/-- `a / b` rounded to the nearest integer, ties to even. -/
def rneDiv (a b : Nat) : Nat :=
  let q := a / b
  let r := a % b
  if 2 * r < b then q else if b < 2 * r then q + 1 else if q % 2 = 0 then q else q + 1

/-- The number 1 in units of `2^-1074`. -/
def UNIT : Nat := 2 ^ 1074

/-- The overflow bound `2^1024` in units of `2^-1074`. -/
def TOP : Nat := 2 ^ 2098

/-- Spacing of binary64 numbers around `q * 2^-1074`, as a multiple of `2^-1074`. -/
def ulp (q : Nat) : Nat := if q < 2 ^ 53 then 1 else 2 ^ (Nat.log2 q - 52)

/-- Round the magnitude `num / den` (in units of `2^-1074`) to binary64; `none` on overflow. -/
def roundMag (num den : Nat) : Option Nat :=
  let s := ulp (num / den)
  let k := rneDiv num (den * s) * s
  if k < TOP then some k else none

/-- Rounded number with sign `neg` and magnitude `num / den` units. -/
def mk (neg : Bool) (num den : Nat) : F64 :=
  match roundMag num den with
  | some k => fin neg k
  | none => inf neg

theorem mk_ne_nan (s : Bool) (a b : Nat) : mk s a b ≠ nan := by
  unfold mk
  cases roundMag a b <;> simp

/-- unary minus -/
def negate : F64 → F64
  | nan => nan
  | inf s => inf (!s)
  | fin s k => fin (!s) k

/-- IEEE addition, round to nearest even. -/
def add : F64 → F64 → F64
  | nan, _ => nan
  | _, nan => nan
  | inf a, inf b => if a = b then inf a else nan
  | inf a, fin _ _ => inf a
  | fin _ _, inf b => inf b
  | fin a ka, fin b kb =>
    if a = b then mk a (ka + kb) 1
    else if ka = kb then fin false 0
    else if kb < ka then mk a (ka - kb) 1
    else mk b (kb - ka) 1

/-- IEEE subtraction. -/
def sub (a b : F64) : F64 := add a (negate b)

/-- IEEE multiplication. -/
def mul : F64 → F64 → F64
  | nan, _ => nan
  | _, nan => nan
  | inf a, inf b => inf (a != b)
  | inf a, fin b k => if k = 0 then nan else inf (a != b)
  | fin a k, inf b => if k = 0 then nan else inf (a != b)
  | fin a ka, fin b kb => mk (a != b) (ka * kb) (UNIT)

/-- IEEE division. -/
def div : F64 → F64 → F64
  | nan, _ => nan
  | _, nan => nan
  | inf _, inf _ => nan
  | inf a, fin b _ => inf (a != b)
  | fin a _, inf b => fin (a != b) 0
  | fin a ka, fin b kb =>
    if kb = 0 then (if ka = 0 then nan else inf (a != b))
    else mk (a != b) (ka * UNIT) kb

theorem div_ne_nan (a b : Bool) (ka kb : Nat) (h : kb ≠ 0) : div (fin a ka) (fin b kb) ≠ nan := by
  show (if kb = 0 then (if ka = 0 then nan else inf (a != b)) else mk (a != b) (ka * UNIT) kb) ≠ nan
  rw [if_neg h]
  exact mk_ne_nan _ _ _

/-- Integer square root, bit by bit from bit `i - 1` downwards, starting from the lower bound `r`. -/
def isqrtLoop (n : Nat) : Nat → Nat → Nat
  | 0, r => r
  | i + 1, r => isqrtLoop n i (if (r + 2 ^ i) * (r + 2 ^ i) ≤ n then r + 2 ^ i else r)

/-- Integer square root. -/
def isqrt (n : Nat) : Nat := isqrtLoop n (Nat.log2 n / 2 + 1) 0

/-- IEEE square root, round to nearest even. -/
def sqrt : F64 → F64
  | nan => nan
  | inf s => if s then nan else inf false
  | fin s k =>
    if k = 0 then fin s 0
    else if s then nan
    else
      let n := k * UNIT
      let u := ulp (isqrt n)
      let y := isqrt (n / (u * u))
      if (2 * y + 1) * (2 * y + 1) * (u * u) < 4 * n then fin false ((y + 1) * u) else fin false (y * u)

/-- Signed magnitude of a finite number, for comparisons. -/
def key (s : Bool) (k : Nat) : Int := if s then -(k : Int) else (k : Int)

/-- IEEE `<`. -/
def lt : F64 → F64 → Bool
  | nan, _ => false
  | _, nan => false
  | inf a, inf b => a && !b
  | inf a, fin _ _ => a
  | fin _ _, inf b => !b
  | fin a ka, fin b kb => decide (key a ka < key b kb)

/-- IEEE `==`. -/
def beq : F64 → F64 → Bool
  | nan, _ => false
  | _, nan => false
  | inf a, inf b => a == b
  | inf _, fin _ _ => false
  | fin _ _, inf _ => false
  | fin a ka, fin b kb => decide (key a ka = key b kb)

/-- `float64(n)`. -/
def ofNat (n : Nat) : F64 := mk false (n * UNIT) 1

/-- `float64(z)`, for writing concrete vectors. -/
def ofInt (z : Int) : F64 := mk (decide (z < 0)) (z.natAbs * UNIT) 1

/-- `math.MaxFloat64 = 2^1024 - 2^971`. -/
def max : F64 := fin false (TOP - 2 ^ 2045)

end F64

deriving instance DecidableEq for Except

instance : GoFloat F64 where
  zero := .fin false 0
  add := F64.add
  sub := F64.sub
  mul := F64.mul
  div := F64.div
  neg := F64.negate
  sqrt := F64.sqrt
  lt := F64.lt
  eq := F64.beq
  ofNat := F64.ofNat
  maxFloat := F64.max

instance : LawfulCmp F64 where
  lt_irrefl a := by
    cases a <;> simp [GoFloat.lt, F64.lt]
  lt_trans a b c := by
    rcases a with _ | a | ⟨a, ka⟩ <;> rcases b with _ | b | ⟨b, kb⟩ <;> rcases c with _ | c | ⟨c, kc⟩ <;>
      simp [GoFloat.lt, F64.lt] <;> first | omega | (cases a <;> cases b <;> simp_all) | (cases a <;> simp_all) | (cases b <;> simp_all)| skip
  lt_num_left a b := by
    rcases a with _ | a | ⟨a, ka⟩ <;> rcases b with _ | b | ⟨b, kb⟩ <;> simp [GoFloat.lt, GoFloat.eq, F64.lt, F64.beq]
  lt_num_right a b := by
    rcases a with _ | a | ⟨a, ka⟩ <;> rcases b with _ | b | ⟨b, kb⟩ <;> simp [GoFloat.lt, GoFloat.eq, F64.lt, F64.beq]
  lt_connected a b c := by
    rcases a with _ | a | ⟨a, ka⟩ <;> rcases b with _ | b | ⟨b, kb⟩ <;> rcases c with _ | c | ⟨c, kc⟩ <;>
      simp [GoFloat.lt, GoFloat.eq, F64.lt, F64.beq] <;> first | omega | (cases a <;> cases b <;> cases c <;> simp_all) | (cases a <;> cases c <;> simp_all) | (cases b <;> cases c <;> simp_all) | (cases a <;> cases b <;> simp_all) | (cases c <;> simp_all) | (cases a <;> simp_all) | (cases b <;> simp_all)| skip
  eq_iff a b := by
    rcases a with _ | a | ⟨a, ka⟩ <;> rcases b with _ | b | ⟨b, kb⟩ <;>
      simp [GoFloat.lt, GoFloat.eq, F64.lt, F64.beq] <;> first | omega | (cases a <;> cases b <;> simp)

end Trypo
