import Verif.Model.MMArray
import Verif.Model.Range

/-!
Model of the indexing of variables and coordinates in Python: py-dcdf/dcdf/__init__.py, and the parts of
py-dcdf/src/lib.rs it calls.

Simplifications:
* `Variable.__getitem__` gives a `_Slice`, whose property `data` makes the read. Model `Variable.__getitem__(..).data`;
  for three `int`s `data` is the value.
* Exceptions are `Fail.err`, panics of the
  Rust code (`PanicException`) are `Fail.panic`.
* An `int` is passed to Rust as `usize`. A negative one is an `OverflowError`. One that is too great for `usize` is
  passed on here, and is out of bounds.
* `bool` is an `int` for Python. Indices of other types (arrays, `None`, `...`) are not modelled.
-/

namespace Verif

/-- What may stand between the brackets, for one dimension. -/
inductive PyIndex
  | int (i : Int)
  | slice (start stop step : Option Int)
deriving DecidableEq, Repr

/-- A value, or an array of NumPy of one to three dimensions. -/
inductive Nd (α : Type)
  | d0 (x : α)
  | d1 (xs : List α)
  | d2 (xs : List (List α))
  | d3 (xs : List (List (List α)))
deriving DecidableEq, Repr

/-- An `int` passed as `usize`. -/
def toUsize (i : Int) : Option Nat := if 0 ≤ i then some i.toNat else none

/-- py-dcdf/dcdf/__init__.py:369-370 `_is_int`. -/
def PyIndex.isInt : PyIndex → Bool
  | .int _ => true
  | .slice .. => false

/-- py-dcdf/dcdf/__init__.py:299-309. -/
def PyIndex.fix (dim : Nat) : PyIndex → PyIndex
  | .int i => .int i
  | .slice start stop step =>
    let index := match start with
      | none => (some 0, stop, none)
      | some start => (some start, stop, step)
    match index with
    | (start, none, _) => .slice start (some dim) none
    | (start, stop, step) => .slice start stop step

/-- py-dcdf/dcdf/__init__.py:373-377 `_as_slice`, and `start` and `stop` of the slice passed as `usize`; `None` is a
`TypeError`. -/
def PyIndex.asSlice : PyIndex → Option (Nat × Nat)
  | .int n => do some (← toUsize n, ← toUsize (n + 1))
  | .slice start stop _ => do some (← toUsize (← start), ← toUsize (← stop))

/-- `array[0, ..]` of NumPy for one dimension; an `IndexError` if there is nothing. -/
def first {β : Type} : List β → Except Fail β
  | [] => .error (.err (.py .index))
  | x :: _ => .ok x

/-- NumPy's `array[mask]` for an array of three dimensions, and a mask of at most three of `0` (`true`) and `:`. -/
def Nd.mask {α : Type} (mask : List Bool) (a : List (List (List α))) : Except Fail (Nd α) :=
  match mask.getD 0 false, mask.getD 1 false, mask.getD 2 false with
  | false, false, false => .ok (.d3 a)
  | false, false, true => do .ok (.d2 (← a.mapM fun b => b.mapM first))
  | false, true, false => do .ok (.d2 (← a.mapM first))
  | false, true, true => do .ok (.d1 (← a.mapM fun b => do first (← first b)))
  | true, false, false => do .ok (.d2 (← first a))
  | true, false, true => do .ok (.d1 (← (← first a).mapM first))
  | true, true, false => do .ok (.d1 (← first (← first a)))
  | true, true, true => do .ok (.d0 (← first (← first (← first a))))

section
variable {α : Type} (kind : Kind α) (utf8 : List Byte → Bool) (st : Store) (fuel : Nat) (data : MMStruct3)

/-- py-dcdf/dcdf/__init__.py:281-336 `Variable.__getitem__`, 357-359 `_Slice.data`;
py-dcdf/src/lib.rs:420-451 `get`, `cell`, `window`. -/
def Kind.getitem (indices : List PyIndex) (res : Except Fail (Nd α)) : Prop :=
  if 3 < indices.length then res = .error (.err (.py .index))
  else
    match data.shape with
    | none => res = .error .panic
    | some (instants, rows, cols) =>
      match indices ++ List.replicate (3 - indices.length) (.slice (some 0) none none) with
      | [instant, row, col] =>
        let instant := instant.fix instants
        let row := row.fix rows
        let col := col.fix cols
        match instant, row, col with
        | .int i, .int r, .int c =>
          match toUsize i, toUsize r, toUsize c with
          | some i, some r, some c => res = (kind.get utf8 st fuel data i r c).map .d0
          | _, _, _ => res = .error (.err (.py .overflow))
        | .slice start stop step, .int r, .int c =>
          match (PyIndex.slice start stop step).asSlice, toUsize r, toUsize c with
          | some (start, stop), some r, some c =>
            ∃ x, kind.cell utf8 st fuel data start stop r c x ∧ res = x.map .d1
          | _, _, _ => res = .error (.err (.py .overflow))
        | _, _, _ =>
          match instant.asSlice, row.asSlice, col.asSlice with
          | some (start, stop), some (top, bottom), some (left, right) =>
            ∃ x, kind.window utf8 st fuel data (Cube.new start stop top bottom left right) x ∧
              res = x.bind (Nd.mask (([instant, row, col].map PyIndex.isInt).take indices.length))
          | _, _, _ => res = .error (.err (.py .overflow))
      | _ => False

end

/-- py-dcdf/dcdf/__init__.py:216-217 `Coordinate.slice`, of a coordinate with the `slice` given. -/
def coordSlice {α : Type} (slice : Nat → Nat → Option (List α)) (start stop : Int) : Except Fail (Nd α) :=
  match toUsize start, toUsize stop with
  | some start, some stop =>
    match slice start stop with
    | none => .error .panic
    | some xs => .ok (.d1 xs)
  | _, _ => .error (.err (.py .overflow))

/-- py-dcdf/dcdf/__init__.py:219-227 `Coordinate.__getitem__` of a coordinate with the length, `get` and `slice` given
(213-214 `get`, 229-230 `__len__`). -/
def coordGetitem {α : Type} (len : Except Fail Nat) (get : Nat → Option α) (slice : Nat → Nat → Option (List α)) :
    PyIndex → Except Fail (Nd α)
  | .int i =>
    match toUsize i with
    | none => .error (.err (.py .overflow))
    | some i =>
      match get i with
      | none => .error .panic
      | some x => .ok (.d0 x)
  | .slice start stop step =>
    if step.isSome then .error (.err (.py .value))
    else
      let start := match start with
        | none => 0
        | some start => start
      match stop with
      | none => len.bind fun len => coordSlice slice start len
      | some stop => coordSlice slice start stop

/-- Coordinates of integers: dataset.rs:613-620 `len`. -/
def IntRange.getitem (checked : Bool) (w : Nat) (r : IntRange) : PyIndex → Except Fail (Nd Int) :=
  coordGetitem (.ok r.steps) (r.get checked w) (r.slice checked w)

/-- Coordinates of time: dataset.rs:612 `len` is an error. -/
def TimeRange.getitem (checked : Bool) (r : TimeRange) : PyIndex → Except Fail (Nd Int) :=
  coordGetitem (.error (.err .timeIsInfinite)) (r.get checked) (r.slice checked)

end Verif
