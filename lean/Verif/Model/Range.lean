import Verif.Model.Geom

/-!
Model of coordinate ranges: `/repo/dcdf/src/range.rs` (`IntRange`) and `/repo/dcdf/src/time.rs`
(`TimeRange`).

Signed integers of `w` bits are integers; `arith` is what an operation makes of its exact result.
Arithmetic that overflows panics in the debug profile (`checked`) and wraps around in the release
profile. `FloatRange` is in `Model/FloatRange.lean`. `usize` is unbounded.
-/
namespace Verif

/-- The integer is one of `w` bits. -/
def Fits (w : Nat) (x : Int) : Prop := -(2 ^ (w - 1)) ≤ x ∧ x < 2 ^ (w - 1)

instance (w : Nat) (x : Int) : Decidable (Fits w x) := by unfold Fits; infer_instance

/-- The integer of `w` bits that is congruent to `x`. -/
def wrap (w : Nat) (x : Int) : Int := x.bmod (2 ^ w)

/-- The result of an operation on integers of `w` bits, whose exact result is `x`. -/
def arith (checked : Bool) (w : Nat) (x : Int) : Option Int :=
  if Fits w x then some x else if checked then none else some (wrap w x)

/-- range.rs:56-63 `struct IntRange`. -/
structure IntRange where
  start : Int
  step : Int
  steps : Nat
deriving DecidableEq, Repr

namespace IntRange
variable (checked : Bool) (w : Nat)

/-- range.rs:105-112 `check_bounds`. -/
def checkBounds (r : IntRange) (index : Nat) : Option Unit :=
  if index ≥ r.steps then none else some ()

/-- `N::from(index).unwrap() * self.step + self.start`. -/
def at' (r : IntRange) (index : Nat) : Option Int := do
  let i ← if Fits w index then some (index : Int) else none
  let p ← arith checked w (i * r.step)
  arith checked w (p + r.start)

/-- range.rs:73-76 `get`. -/
def get (r : IntRange) (index : Nat) : Option Int := do
  r.checkBounds index
  r.at' checked w index

/-- range.rs:123-133 `next`; the inner `none` is the end. -/
def next (r : IntRange) : Option (Option (Int × IntRange)) :=
  if r.steps > 0 then do
    let s ← arith checked w (r.start + r.step)
    some (some (r.start, ⟨s, r.step, r.steps - 1⟩))
  else some none

/-- All that the iterator gives; it takes `n` steps at most. -/
def toList : (n : Nat) → IntRange → Option (List Int)
  | 0, _ => none
  | n + 1, r =>
    match r.next checked w with
    | none => none
    | some none => some []
    | some (some (x, r)) => (toList n r).map (x :: ·)

/-- `(stop - start) / self.step`, then `cast(..).unwrap()` to `usize`. -/
def count (step d : Int) : Option Nat :=
  if step = 0 then none
  else if d = -(2 ^ (w - 1)) ∧ step = -1 then none
  else if d.tdiv step < 0 then none
  else some (d.tdiv step).toNat

/-- range.rs:78-95 `slice`; `stop - 1` panics for `stop = 0`, or gives a number that is out of
bounds. -/
def slice (r : IntRange) (start stop : Nat) : Option (List Int) := do
  let last ← csub stop 1
  r.checkBounds last
  let a ← r.at' checked w start
  let b ← r.at' checked w stop
  let d ← arith checked w (b - a)
  let n ← count w r.step d
  toList checked w (n + 1) ⟨a, r.step, n⟩

end IntRange

/-- time.rs:4-7 `struct TimeRange`. -/
structure TimeRange where
  start : Int
  step : Int
deriving DecidableEq, Repr

namespace TimeRange
variable (checked : Bool)

/-- time.rs:14-16 `get`; `index as i64` wraps around in both profiles. -/
def get (r : TimeRange) (index : Nat) : Option Int := do
  let p ← arith checked 64 (wrap 64 index * r.step)
  arith checked 64 (r.start + p)

/-- time.rs:18-20 `slice`. -/
def slice (r : TimeRange) (start stop : Nat) : Option (List Int) :=
  collect (rangeExcl start stop) fun i => (r.get checked i).map fun x => [x]

end TimeRange

end Verif
