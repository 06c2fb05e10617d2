import Verif.Lemmas.FRound
import Mathlib.Analysis.SpecialFunctions.Log.Base

/-!
The logarithms of the program, as they are computed in floats.

The rest of the model takes `clog n`, the `u32` that `(n as f64).log(k as f64).ceil() as u32` gives
(snapshot.rs:118-119, log.rs:124-125, superchunk.rs:98-101,159-160), and `lg q`, the integer that
`q.log2().floor()` gives (fixed.rs:125), as parameters. Here they are computed. What is left as a
parameter are the two functions of the mathematical library of the platform, `ln` and `log2`, of which
only their accuracy is assumed.
-/
namespace Verif

/-- The accuracy of the natural logarithm of integers below `2 ^ 32`: a float of 53 bits that is at most
0.55 units in the last place away from the logarithm. A correctly rounded logarithm is 0.5 units away;
the logarithm of glibc is documented to be at most 0.52 units away. `ln 1` is zero. -/
structure LnOk (ln : Rat → Rat) : Prop where
  one : ln 1 = 0
  float : ∀ n : Nat, 2 ≤ n → n < 2 ^ 32 → Representable 53 (ln n)
  close : ∀ n : Nat, 2 ≤ n → n < 2 ^ 32 →
    |(ln n : ℝ) - Real.log n| ≤ 11 / 20 * 2 ^ (Int.log 2 (Real.log n) - 52)

/-- `(n as f64).log(k as f64).ceil() as u32`. The `log` of Rust's standard library is
`self.ln() / base.ln()`. The logarithm of zero is minus infinity, which gives zero. -/
def clogOf (ln : Rat → Rat) (k n : Nat) : Nat :=
  if n = 0 then 0 else ⌈fround 53 (ln (fround 53 n) / ln (fround 53 k))⌉.toNat

/-- The accuracy of the logarithm to base two: it is exact for the powers of two, and monotonic. -/
structure Log2Ok (log2 : Rat → Rat) : Prop where
  exact : ∀ m : Nat, m ≤ 1024 → log2 (2 ^ m) = m
  mono : ∀ a b : Rat, 0 < a → a ≤ b → log2 a ≤ log2 b

/-- fixed.rs:125 `max_value.to_f64().unwrap().log2().floor()`. -/
def lgOf (log2 : Rat → Rat) (q : Rat) : Int := ⌊log2 q⌋

end Verif
