import Verif.Model.FloatRange
import Verif.Model.Fixed
import Verif.Model.Py

/-!
Model of how the Python wrapper makes a coordinate of time: `/repo/py-dcdf/dcdf/__init__.py`
`Coordinate.time`, and of the instants that indexing it gives (`Coordinate.__getitem__`,
`_to_datetime64`).

What NumPy and Python do is stated here as far as `Coordinate.time` uses it:
* `numpy.datetime64` and `numpy.timedelta64` are a count and a unit; the smallest count is NaT. Units
  with a multiplier (`datetime64[25s]`) are not modelled.
* The difference of two `datetime64` is in the finer of the two units. Counts that do not fit 64 bits
  on the way are an error here.
* `timedelta64.item()` is a `datetime.timedelta` for the units from weeks to microseconds if it has at
  most 999999999 days, `None` for NaT, and an `int` otherwise; an `int` has no `total_seconds`.
* `timedelta.total_seconds()` is the number of microseconds divided by 10^6, as the nearest float;
  `int` of a float rounds towards zero.
* The calendar is a parameter: `cal n` is the day on which month `n` begins, both counted from
  January 1970.
-/
namespace Verif

/-- The units of `datetime64` and `timedelta64`. -/
inductive TimeUnit
  | year | month | week | day | hour | minute | second | milli | micro | nano | pico | femto | atto
  | generic
deriving DecidableEq, Repr

/-- The length of a unit in microseconds, for the units that `datetime.timedelta` can express. -/
def TimeUnit.micros : TimeUnit → Option Nat
  | .week => some (7 * 24 * 60 * 60 * 1000000)
  | .day => some (24 * 60 * 60 * 1000000)
  | .hour => some (60 * 60 * 1000000)
  | .minute => some (60 * 1000000)
  | .second => some 1000000
  | .milli => some 1000
  | .micro => some 1
  | _ => none

/-- `numpy.timedelta64`. -/
structure Timedelta64 where
  count : Int
  unit : TimeUnit
deriving DecidableEq, Repr

/-- `numpy.datetime64`. -/
structure Datetime64 where
  count : Int
  unit : TimeUnit
deriving DecidableEq, Repr

/-- NaT, in every unit. -/
def natCount : Int := -2 ^ 63

/-- The number of seconds of units of a second or longer; counts of finer units stay. -/
def Datetime64.toSeconds (cal : Int → Int) (d : Datetime64) : Timedelta64 :=
  match d.unit with
  | .year => ⟨cal (12 * d.count) * (24 * 60 * 60), .second⟩
  | .month => ⟨cal d.count * (24 * 60 * 60), .second⟩
  | .week => ⟨d.count * (7 * 24 * 60 * 60), .second⟩
  | .day => ⟨d.count * (24 * 60 * 60), .second⟩
  | .hour => ⟨d.count * (60 * 60), .second⟩
  | .minute => ⟨d.count * 60, .second⟩
  | unit => ⟨d.count, unit⟩

/-- `d - numpy.datetime64(0, "s")`. -/
def Datetime64.sinceEpoch (cal : Int → Int) (d : Datetime64) : Except Fail Timedelta64 :=
  if d.count = natCount then .ok ⟨natCount, d.unit⟩
  else
    let t := d.toSeconds cal
    if Fits 64 t.count then .ok t else .error (.err (.py .overflow))

/-- What `timedelta64.item()` gives. -/
inductive TimeItem
  | none
  | int (n : Int)
  | timedelta (micros : Int)
deriving DecidableEq, Repr

def Timedelta64.item (d : Timedelta64) : TimeItem :=
  if d.count = natCount then .none
  else
    match d.unit.micros with
    | none => .int d.count
    | some f =>
      let days := d.count * f / (24 * 60 * 60 * 1000000 : Nat)  -- rounds down
      if -999999999 ≤ days ∧ days ≤ 999999999 then .timedelta (d.count * f) else .int d.count

/-- `x.total_seconds()`; only a `datetime.timedelta` has it. -/
def TimeItem.totalSeconds : TimeItem → Except Fail Rat
  | .timedelta micros => .ok (fround 53 (micros / 1000000))
  | _ => .error (.err (.py .attribute))

/-- An argument for a start. -/
inductive StartArg
  | int (n : Int)
  | datetime (d : Datetime64)
deriving DecidableEq, Repr

/-- An argument for a step. -/
inductive StepArg
  | int (n : Int)
  | timedelta (d : Timedelta64)
deriving DecidableEq, Repr

/-- py-dcdf/dcdf/__init__.py:154-155. -/
def StartArg.seconds (cal : Int → Int) : StartArg → Except Fail Int
  | .int n => .ok n
  | .datetime d => do
    let t ← d.sinceEpoch cal
    let q ← t.item.totalSeconds
    return ratTrunc q

/-- py-dcdf/dcdf/__init__.py:156-157. -/
def StepArg.seconds : StepArg → Except Fail Int
  | .int n => .ok n
  | .timedelta d => do
    let q ← d.item.totalSeconds
    return ratTrunc q

/-- An argument of type `i64` in py-dcdf/src/lib.rs. -/
def toI64 (n : Int) : Except Fail Int := if Fits 64 n then .ok n else .error (.err (.py .overflow))

/-- py-dcdf/dcdf/__init__.py:152-158 `Coordinate.time` with py-dcdf/src/lib.rs:190-192 and
dataset.rs:672-678 `Coordinate::time`. -/
def pyTime (cal : Int → Int) (start : StartArg) (step : StepArg) : Except Fail TimeRange := do
  let start ← start.seconds cal
  let step ← step.seconds
  return ⟨← toI64 start, ← toI64 step⟩

/-- py-dcdf/dcdf/__init__.py:206-214 `Coordinate.get` of a coordinate of time with the `get` given, with
365-366 `_to_datetime64`. -/
def datetimeGet (get : Nat → Option Int) (i : Int) : Except Fail Datetime64 :=
  match toUsize i with
  | none => .error (.err (.py .overflow))
  | some i =>
    match get i with
    | none => .error .panic
    | some x => .ok ⟨x, .second⟩

/-- The same of the range of instants that a coordinate of time is. -/
def TimeRange.pyGet (checked : Bool) (r : TimeRange) : Int → Except Fail Datetime64 :=
  datetimeGet (r.get checked)

end Verif
