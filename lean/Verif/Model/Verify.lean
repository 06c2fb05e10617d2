import Verif.Model.Example
import Verif.Model.PyTime

/-!
Model of the command `verify` of `/repo/examples/example.py:380-422`, which compares the data set at the
head with the source instant by instant.

Simplifications:
* The source has a variable of the name of ours and of its type (an `Original`), and is read without failures.
  Its instants are numbers of nanoseconds since 1970 (`xarray` keeps no others); they are compared with those
  of the data set as instants.
* Objects are read from one store for the whole run. It need not have all of them.
* `code.interact` returns; messages are left out.
* `numpy.array_equal(got, expected, equal_nan=True)` is equality: there is one NaN and one zero in `Flt`.
-/
namespace Verif

namespace Example

/-- What is compared with. -/
structure Original (α : Type) where
  data : Nat → Nat → Nat → α
  /-- in nanoseconds -/
  time : Nat → Int
  total : Nat
  rows : Nat
  cols : Nat

/-- How a run of `verify` may end: nothing was found, an instant differs, or it was broken off by an
exception or `sys.exit`. -/
inductive Verdict where
  | clean
  | mismatch (instant : Nat)
  | failed (f : Fail)
deriving DecidableEq, Repr

/-- `data.time[instant]`. What is no coordinate of time is never equal to an instant, which fails the assertion. -/
def dataTime (checked : Bool) (d : Dataset) (instant : Nat) : Except Fail Datetime64 :=
  match Py.getattr d (Py.ascii "time") with
  | .ok (.coordinate c) =>
    match c.kind with
    | .time start step => (⟨start.toInt, step.toInt⟩ : TimeRange).pyGet checked instant
    | _ => .error (.err (.py .assertion))
  | _ => .error (.err (.py .assertion))

section
variable {α : Type} [DecidableEq α] (checked : Bool) (kind : Kind α) (utf8 : List Byte → Bool) (st : Store)
  (fuel : Nat) (src : Original α)

/-- `src_var[instant].data` -/
def Original.at (instant : Nat) : Nd α :=
  .d2 ((List.range src.rows).map fun r => (List.range src.cols).map fun c => src.data instant r c)

/-- examples/example.py:405-408, one turn of the loop: whether the instant is as in the source. -/
def checkInstant (d : Dataset) (m : MMStruct3) (instant : Nat) (res : Except Fail Bool) : Prop :=
  if src.total ≤ instant then res = .error (.err (.py .index))
  else
    match dataTime checked d instant with
    | .error f => res = .error f
    | .ok x =>
      if src.time instant ≠ x.count * 1000000000 then res = .error (.err (.py .assertion))
      else ∃ got, kind.getitem utf8 st fuel m [.int instant] got ∧
        res = got.map fun a => decide (a = src.at instant)

/-- examples/example.py:402-422: the loop. -/
def verifyFrom (d : Dataset) (m : MMStruct3) : List Nat → Verdict → Prop
  | [], verdict => verdict = .clean
  | instant :: rest, verdict => ∃ res, checkInstant checked kind utf8 st fuel src d m instant res ∧
    match res with
    | .error f => verdict = .failed f
    | .ok false => verdict = .mismatch instant
    | .ok true => verifyFrom d m rest verdict

/-- examples/example.py:380-422 `verify`. -/
def verify (head : Head) (verdict : Verdict) : Prop :=
  match head with
  | .missing => verdict = .failed (.err (.py .exit))
  | .lost => verdict = .failed (.err .cid)
  | .at cid =>
    match st.getDataset utf8 cid with
    | .error f => verdict = .failed f
    | .ok d =>
      match d.variables with
      | [] => verdict = .failed (.err (.py .index))
      | v :: _ =>
        match v.data kind utf8 st with
        | .error f => verdict = .failed f
        | .ok m =>
          match m.shape with
          | none => verdict = .failed .panic
          | some (n, _, _) => verifyFrom checked kind utf8 st fuel src d m (List.range n) verdict

end

end Example

end Verif
