import Verif.Model.Py
import Verif.Model.PyDataset
import Verif.Model.PyTime

/-!
Model of how coordinates other than time are made in Python, and of how those of integers are read: `Coordinate.range`
and `Coordinate.__getitem__` of py-dcdf/dcdf/__init__.py and what they call of py-dcdf/src/lib.rs.

Simplifications:
* A number is an `int` or a `float`. NumPy's integers and floats are converted by PyO3 as those.
* Converting numbers to floats is a parameter.
-/
namespace Verif

/-- A number passed from Python. A `float` is its 64 bits. -/
inductive PyNum
  | int (n : Int)
  | float (bits : BitVec 64)
deriving DecidableEq, Repr

/-- `float(n)`, where `none` is an `OverflowError`, and Rust's `x as f32`. -/
structure FloatConv where
  ofInt : Int → Option (BitVec 64)
  narrow : BitVec 64 → BitVec 32

/-- An argument of type `i32` or `i64`. -/
def PyNum.toInt (w : Nat) : PyNum → Except Fail Int
  | .int n => if Fits w n then .ok n else .error (.err (.py .overflow))
  | .float _ => .error (.err (.py .type))

/-- An argument of type `usize`. -/
def PyNum.toUsize : PyNum → Except Fail Nat
  | .int n => if 0 ≤ n ∧ n < 2 ^ 64 then .ok n.toNat else .error (.err (.py .overflow))
  | .float _ => .error (.err (.py .type))

/-- An argument of type `f64`. -/
def PyNum.toF64 (conv : FloatConv) : PyNum → Except Fail (BitVec 64)
  | .int n =>
    match conv.ofInt n with
    | none => .error (.err (.py .overflow))
    | some x => .ok x
  | .float x => .ok x

/-- An argument of type `f32`. -/
def PyNum.toF32 (conv : FloatConv) (x : PyNum) : Except Fail (BitVec 32) := (x.toF64 conv).map conv.narrow

namespace Py

/-- py-dcdf/dcdf/__init__.py:160-171 `Coordinate.range`, py-dcdf/src/lib.rs:169-187, dataset.rs:632-670. -/
def range (conv : FloatConv) (name : List Byte) (start step steps : PyNum) (dtype : Dtype) : Except Fail Coordinate :=
  match dtype with
  | .int32 => do
    let start ← start.toInt 32
    let step ← step.toInt 32
    let steps ← steps.toUsize
    return ⟨name, .i32 (Int32.ofInt start) (Int32.ofInt step) steps⟩
  | .int64 => do
    let start ← start.toInt 64
    let step ← step.toInt 64
    let steps ← steps.toUsize
    return ⟨name, .i64 (Int64.ofInt start) (Int64.ofInt step) steps⟩
  | .float32 => do
    let start ← start.toF32 conv
    let step ← step.toF32 conv
    let steps ← steps.toUsize
    return ⟨name, .f32 start step steps⟩
  | .float64 => do
    let start ← start.toF64 conv
    let step ← step.toF64 conv
    let steps ← steps.toUsize
    return ⟨name, .f64 start step steps⟩
  | _ => .error (.err (.py .value))

/-- py-dcdf/dcdf/__init__.py:206-227 `Coordinate.__getitem__` of a coordinate of integers, through
py-dcdf/src/lib.rs:258-299; `none` for other coordinates. -/
def intItem (checked : Bool) (c : Coordinate) (index : PyIndex) : Option (Except Fail (Nd Int)) :=
  match coordData c with
  | .error f => some (.error f)
  | .ok (.i32 start step steps) => some (IntRange.getitem checked 32 ⟨start.toInt, step.toInt, steps⟩ index)
  | .ok (.i64 start step steps) => some (IntRange.getitem checked 64 ⟨start.toInt, step.toInt, steps⟩ index)
  | .ok _ => none

end Py

end Verif
