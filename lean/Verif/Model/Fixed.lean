import Mathlib.Data.Nat.Size
import Mathlib.Data.Rat.Floor

/-!
Model of `/repo/dcdf/src/fixed.rs` and of the float parts of `/repo/dcdf/src/mmbuffer.rs`.

A float is NaN, an infinity or its exact rational value; `0.0` and `-0.0` are one value. Products by
powers of two (`to_fixed`, `suggest_fraction`) are exact in IEEE arithmetic unless they overflow, and
an overflowing product is out of the range of `i64` either way; so they are modelled exactly. The
conversion of `i64` to a float rounds to the precision (24 or 53 bits), nearest, ties to even; the
division by a power of two after it is exact. `i64` is `Int64` with wrapping arithmetic and masked
shifts (release build).
-/
namespace Verif

/-- `f32` or `f64`. -/
inductive Prec where
  | single | double
deriving DecidableEq, Repr

/-- Bits of the significand. -/
def Prec.bits : Prec → Nat
  | .single => 24
  | .double => 53

inductive Flt where
  | nan
  | inf (neg : Bool)
  | fin (q : Rat)
deriving DecidableEq, Repr

/-- Rounding towards zero (`as i64`, `to_i64`, `trunc`). -/
def ratTrunc (q : Rat) : Int := if 0 ≤ q then ⌊q⌋ else ⌈q⌉

/-- `Float::fract`. -/
def ratFract (q : Rat) : Rat := q - ratTrunc q

/-- `Float::round`: to the nearest integer, halves away from zero. -/
def ratRound (q : Rat) : Int := if 0 ≤ q then ⌊q + 1 / 2⌋ else ⌈q - 1 / 2⌉

/-- `1_i64 << bits`. -/
def shl1 (bits : Nat) : Int64 := Int64.ofNat (2 ^ (bits % 64))

/-- fixed.rs:31-71 `to_fixed`; `none` is a panic. -/
def toFixed (n : Flt) (fractionalBits : Nat) (round : Bool) : Option Int64 :=
  match n with
  | .nan => some 0
  | .inf _ => none
  | .fin q =>
    let shifted := q * ((shl1 fractionalBits).toInt : Rat)
    let finish (shifted : Rat) : Option Int64 :=
      let shifted := shifted * 2
      if -(2 ^ 63 : Rat) ≤ shifted ∧ shifted < (2 ^ 63 : Rat) then
        some (Int64.ofInt (ratTrunc shifted) + 1)
      else none
    if 0 < ratFract shifted then
      if round then finish (ratRound shifted) else none
    else finish shifted

/-- Conversion of an integer to a float of precision `p` bits: nearest, ties to even. -/
def roundToPrec (p : Nat) (z : Int) : Rat :=
  let a := z.natAbs
  let s := Nat.size a - p
  let low := a / 2 ^ s
  let rest := a % 2 ^ s
  let m := if 2 ^ s < 2 * rest ∨ (2 ^ s = 2 * rest ∧ low % 2 = 1) then low + 1 else low
  (z.sign : Rat) * ((m * 2 ^ s : Nat) : Rat)

/-- fixed.rs:81-86 `from_fixed`. A division by a negative divisor (`1 << 63`) is kept. -/
def fromFixed (p : Prec) (n : Int64) (fractionalBits : Nat) : Flt :=
  if n = 0 then .nan
  else .fin (roundToPrec p.bits (n - 1).toInt / ((shl1 (fractionalBits + 1)).toInt : Rat))

/-- fixed.rs:89-92 `enum Fraction`. -/
inductive Fraction where
  | precise (bits : Nat)
  | round (bits : Nat)
deriving DecidableEq, Repr

/-- `x as usize` and `x as i64` of a float, applied to a finite value: saturating. -/
def satI64 (q : Rat) : Int64 :=
  if q < -(2 ^ 63 : Rat) then Int64.minValue
  else if (2 ^ 63 : Rat) ≤ q then Int64.maxValue
  else Int64.ofInt (ratTrunc q)

/-- `i64::trailing_zeros`; 64 for 0. -/
def trailingZeros (n : Int64) : Nat :=
  match (List.range 64).find? (fun i => n.toBitVec.getLsbD i) with
  | some i => i
  | none => 64

/-- Comparison `>` of floats. -/
def Flt.gt : Flt → Flt → Bool
  | .nan, _ | _, .nan => false
  | .inf false, .inf true => true
  | .inf _, .inf _ => false
  | .inf neg, .fin _ => !neg
  | .fin _, .inf neg => neg
  | .fin a, .fin b => decide (b < a)

/-- `max_value` of fixed.rs:106-119: NaN only if all values are. -/
def maxValue : List Flt → Flt
  | [] => .nan
  | x :: xs => xs.foldl (fun m n =>
      if m = .nan then n else if n ≠ .nan ∧ n.gt m then n else m) x

/-- fixed.rs:125 `1 + max_value.log2().floor() as usize`. `lg q` stands for the float computation
`log2(q).floor()` at a positive value; `log2` of zero is minus infinity and of a negative number NaN,
both of which are cast to 0, like every negative result. Infinity is cast to `usize::MAX`, to which
1 is added. -/
def wholeBits (lg : Rat → Int) : Flt → Option Nat
  | .nan => some 1
  | .inf true => some 1
  | .inf false => none
  | .fin q => if 0 < q then some (1 + (lg q).toNat) else some 1

/-- One value in the loop of fixed.rs:137-158: `none` is "needs rounding". -/
def fractionOf (maxBits : Nat) (n : Flt) : Option Nat :=
  match n with
  | .nan => some 0
  | .inf _ => none -- `fract` of an infinite product is NaN, which differs from 0
  | .fin q =>
    let shifted := q * ((shl1 maxBits).toInt : Rat)
    if ratFract shifted ≠ 0 then none
    else some (maxBits - trailingZeros (satI64 shifted))

/-- fixed.rs:137-158, the loop. -/
def fractionLoop (maxBits : Nat) : Nat → List Flt → Fraction
  | acc, [] => .precise acc
  | acc, n :: ns =>
    match fractionOf maxBits n with
    | none => .round maxBits
    | some b => fractionLoop maxBits (if b > acc then b else acc) ns

/-- fixed.rs:96-159 `suggest_fraction`, over the values in iteration order; `none` is a panic (no
values, or no bits left for the fraction). A maximum of plus infinity: `usize::MAX + 1` wraps to 0
whole bits in a release build. -/
def suggestFraction (lg : Rat → Int) (data : List Flt) : Option Fraction :=
  match data with
  | [] => none
  | _ =>
    if maxValue data = .nan then some (.precise 0)
    else
      let whole := (wholeBits lg (maxValue data)).getD 0
      if whole ≤ 62 then some (fractionLoop (62 - whole) 0 data) else none

/-- mmbuffer.rs:596-613 `compute_fractional_bits`: the new number of bits; `none` is a panic. -/
def computeBits (lg : Rat → Int) (data : List Flt) (bits : Nat) (round : Bool) : Option Nat :=
  match suggestFraction lg data with
  | none => none
  | some (.precise b) => some (if round then min b bits else b)
  | some (.round b) => if round then some (min b bits) else none

/-- Comparison `<` of floats. -/
def Flt.lt (a b : Flt) : Bool := b.gt a

/-- mmbuffer.rs:477-492, skipping leading NaNs, then one step per remaining value. -/
def minMaxFloatGo : Flt → Flt → List Flt → Flt × Flt
  | mn, mx, [] => (mn, mx)
  | mn, mx, n :: ns =>
    if n = .nan then minMaxFloatGo n mx ns
    else if n.lt mn then minMaxFloatGo n mx ns
    else if n.gt mx then minMaxFloatGo mn n ns
    else minMaxFloatGo mn mx ns

/-- mmbuffer.rs:473-492 for one instant, over its values in iteration order; `none` is a panic (no
values). -/
def minMaxFloat : List Flt → Option (Flt × Flt)
  | [] => none
  | [x] => some (x, x)
  | x :: y :: ys => if x = .nan then minMaxFloat (y :: ys) else some (minMaxFloatGo x x (y :: ys))

end Verif
