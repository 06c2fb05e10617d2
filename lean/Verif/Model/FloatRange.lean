import Verif.Model.Geom
import Mathlib.Data.Int.Log
import Mathlib.Data.Rat.Floor
import Mathlib.Algebra.Order.Field.Basic

/-!
Model of `FloatRange` (`/repo/dcdf/src/range.rs:6-52`) and of `ndarray`'s `Array1::range`.

Floats are their exact rational values; every operation is rounded to `p` significant bits (24 or 53),
nearest, ties to even. The range of exponents is not limited: there is no overflow to infinity, and
there are no subnormal numbers. `start` and `step` are finite. `usize` is unbounded.
-/
namespace Verif

/-- The nearest integer; of two the even one. -/
def roundEven (x : Rat) : Int :=
  let f := x - ⌊x⌋
  if f < 1 / 2 then ⌊x⌋ else if 1 / 2 < f then ⌊x⌋ + 1 else if 2 ∣ ⌊x⌋ then ⌊x⌋ else ⌊x⌋ + 1

/-- The float of `p` bits nearest to `q`; of two the one with an even significand. -/
def fround (p : Nat) (q : Rat) : Rat :=
  if q = 0 then 0
  else
    let e := Int.log 2 |q| - (p - 1 : Int)
    roundEven (q * 2 ^ (-e)) * 2 ^ e

/-- range.rs:6-14 `struct FloatRange`. -/
structure FloatRange where
  start : Rat
  step : Rat
  steps : Nat

namespace FloatRange
variable (p : Nat)

/-- range.rs:45-52 `check_bounds`. -/
def checkBounds (r : FloatRange) (index : Nat) : Option Unit :=
  if index ≥ r.steps then none else some ()

/-- `N::from(index).unwrap() * self.step + self.start`. -/
def at' (r : FloatRange) (index : Nat) : Rat :=
  fround p (fround p (fround p index * r.step) + r.start)

/-- range.rs:24-27 `get`. -/
def get (r : FloatRange) (index : Nat) : Option Rat := do
  r.checkBounds index
  some (r.at' p index)

/-- ndarray's `Array1::range(start, end, step)`: `ceil((end - start) / step)` elements, element `i` is
`start + step * i`. A step of zero makes the number of elements NaN; that or a negative one is a
panic. -/
def ndRange (a b step : Rat) : Option (List Rat) :=
  if step = 0 then none
  else
    let n := ⌈fround p (fround p (b - a) / step)⌉
    if n < 0 then none
    else some ((List.range n.toNat).map fun (i : Nat) => fround p (a + fround p (step * fround p i)))

/-- range.rs:29-35 `slice`; `stop - 1` panics for `stop = 0`, or gives a number that is out of
bounds. -/
def slice (r : FloatRange) (start stop : Nat) : Option (List Rat) := do
  let last ← csub stop 1
  r.checkBounds last
  ndRange p (r.at' p start) (r.at' p stop) r.step

end FloatRange

end Verif
