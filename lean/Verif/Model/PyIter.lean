import Verif.Model.Py
import Verif.Model.FloatRange

/-!
Model of iterating over what `py-dcdf/dcdf/__init__.py` gives. `Coordinate`, `Variable` and `_Slice` define
`__getitem__` and no `__iter__` or `__contains__`, so `for` and `in` follow the protocol of the language for such
objects: `__getitem__` is called with 0, 1, 2 and so on, until it raises an `IndexError`, which is the end; any
other exception is raised.

Simplifications: `list(…)` and others that ask for the length first are not modelled. Python gives up with an
`OverflowError` after `2 ^ 63 - 1` calls; theorems are about fewer.
-/
namespace Verif

/-- How far an iteration has got. -/
inductive PyEnd where
  /-- It goes on. -/
  | more
  /-- It has ended well. -/
  | done
  /-- It has ended with an exception. -/
  | raised (f : Fail)
deriving DecidableEq, Repr

/-- What an exception of `__getitem__` is for the iteration. -/
def PyEnd.of : Fail → PyEnd
  | .err (.py .index) => .done
  | f => .raised f

/-- `for x in obj`: what the body of the loop has been given after `n` calls of `__getitem__` from the index `i` on. -/
def pyFor {β : Type} (getitem : Nat → Except Fail β) : (n i : Nat) → List β × PyEnd
  | 0, _ => ([], .more)
  | n + 1, i =>
    match getitem i with
    | .error f => ([], .of f)
    | .ok x => (x :: (pyFor getitem n (i + 1)).1, (pyFor getitem n (i + 1)).2)

/-- `x in obj`: the answer after `n` calls of `__getitem__` from the index `i` on; `none` if there is none yet. -/
def pyIn {β : Type} [DecidableEq β] (getitem : Nat → Except Fail β) (x : β) : (n i : Nat) → Option (Except Fail Bool)
  | 0, _ => none
  | n + 1, i =>
    match getitem i with
    | .error f =>
      match PyEnd.of f with
      | .raised f => some (.error f)
      | _ => some (.ok false)
    | .ok y => if y = x then some (.ok true) else pyIn getitem x n (i + 1)

/-- Coordinates of floats, as `IntRange.getitem`. -/
def FloatRange.getitem (p : Nat) (r : FloatRange) : PyIndex → Except Fail (Nd Rat) :=
  coordGetitem (.ok r.steps) (r.get p) (r.slice p)

section
variable {α : Type} (kind : Kind α) (utf8 : List Byte → Bool) (st : Store) (fuel : Nat) (v : Variable)

/-- py-dcdf/dcdf/__init__.py:281-336 `Variable.__getitem__`, before `data` of the `_Slice` is asked for: `_data` is
made and its shape taken (339-350, 270-272). A `_Slice` is the set of what its `data` may be. -/
def Variable.lazyItem (indices : List PyIndex) : Except Fail (Except Fail (Nd α) → Prop) :=
  if 3 < indices.length then .error (.err (.py .index))
  else
    match v.data kind utf8 st with
    | .error f => .error f
    | .ok data =>
      match data.shape with
      | none => .error .panic
      | some _ => .ok (kind.getitem utf8 st fuel data indices)

end

/-- `array[i]` of NumPy with an index that is not negative. -/
def Nd.item {α : Type} : Nd α → Nat → Except Fail (Nd α)
  | .d0 _, _ => .error (.err (.py .type))
  | .d1 xs, i => match xs[i]? with
    | none => .error (.err (.py .index))
    | some x => .ok (.d0 x)
  | .d2 xs, i => match xs[i]? with
    | none => .error (.err (.py .index))
    | some x => .ok (.d1 x)
  | .d3 xs, i => match xs[i]? with
    | none => .error (.err (.py .index))
    | some x => .ok (.d2 x)

/-- py-dcdf/dcdf/__init__.py:361-362 `_Slice.__getitem__`, if `data` is as given. -/
def sliceItem {α : Type} (data : Except Fail (Nd α)) (i : Nat) : Except Fail (Nd α) :=
  data.bind fun a => a.item i

end Verif
