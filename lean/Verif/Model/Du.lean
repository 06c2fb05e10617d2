import Verif.Model.Example

/-!
Model of the rest of the program `/repo/examples/example.py`: listing objects (`ls`), counting bytes (`du`), and
what `CpcPrecip.extract_and_translate` makes of the array in a file.

Simplifications:
* `parse` tells which strings are identifiers (`Cid::from_str`); strings are their bytes.
* The store does not change while a listing is made. In the loop of `du` an error of the library ends the run; in the
  code one that is a `ValueError` (an object that holds a broken identifier) leads to a search for a part of the head
  that is named like the identifier, first.
-/
namespace Verif

namespace Example

section
variable (utf8 : List Byte → Bool) (parse : List Byte → Option Cid) (st : Store)

/-- Python's `split("/")`. -/
def split : List Byte → List (List Byte)
  | [] => [[]]
  | b :: bs =>
    if b = 47#8 then [] :: split bs
    else
      match split bs with
      | [] => [[b]]
      | name :: names => (b :: name) :: names

/-- examples/example.py:483-490, the walk along a path. -/
def walk : List (List Byte) → List LsEntry → Except Fail (List LsEntry)
  | [], entries => .ok entries
  | name :: path, entries =>
    match entries.find? fun e => e.name = name with
    | none => .error (.err (.py .exit))
    | some e =>
      match st.ls utf8 e.cid with
      | .error f => .error f
      | .ok entries => walk path entries

/-- py-dcdf/src/lib.rs:156-160, 635-639 `Resolver.ls`; `none` is a string that is no identifier. -/
def lsOf (cid : Option Cid) : Except Fail (List LsEntry) :=
  match cid with
  | none => .error (.err .cid)
  | some c => st.ls utf8 c

/-- Is it caught by `except ValueError`? -/
def isValueError : Fail → Bool
  | .err e => e.exception = .value
  | .panic => false

/-- examples/example.py:474-492 `_ls`; `head` is what the file with the head says. -/
def list (head : Option Cid) (arg : Option (List Byte)) : Except Fail (List LsEntry) :=
  match arg with
  | none => lsOf utf8 st head
  | some s =>
    match lsOf utf8 st (parse s) with
    | .ok entries => .ok entries
    | .error f =>
      if isValueError f then
        match lsOf utf8 st head with
        | .error f => .error f
        | .ok entries => walk utf8 st (split s) entries
      else .error f

/-- examples/example.py:470-471: the lines that are printed. A type or size of `None` cannot be formatted. -/
def lines : List LsEntry → List (Cid × NodeType × Nat × List Byte) × Bool
  | [] => ([], true)
  | e :: es =>
    match e.nodeType, e.size with
    | some t, some n => ((e.cid, t, n, e.name) :: (lines es).1, (lines es).2)
    | _, _ => ([], false)

/-- examples/example.py:509-513, the loop. -/
def duLoop : Nat → List LsEntry → Nat → Except Fail Nat
  | 0, _, _ => .error .panic
  | _ + 1, [], usage => .ok usage
  | fuel + 1, e :: entries, usage =>
    match st.ls utf8 e.cid with
    | .error f => .error f
    | .ok more =>
      match e.size with
      | none => .error (.err (.py .type))
      | some n => duLoop fuel (entries ++ more) (usage + n)

/-- What the file with the head says. -/
def Head.cid : Head → Option Cid
  | .at cid => some cid
  | _ => none

/-- examples/example.py:495-515 `du`. -/
def du (fuel : Nat) (head : Head) (arg : Option (List Byte)) : Except Fail Nat :=
  match head with
  | .missing => .error (.err (.py .exit))
  | _ =>
    match list utf8 parse st head.cid arg with
    | .error f => .error f
    | .ok entries => duLoop utf8 st fuel entries 0

/-- examples/example.py:460-471 `ls`. -/
def ls (head : Head) (arg : Option (List Byte)) : List (Cid × NodeType × Nat × List Byte) × Bool :=
  match head with
  | .missing => ([], false)
  | _ =>
    match list utf8 parse st head.cid arg with
    | .error _ => ([], false)
    | .ok entries => lines entries

end

/-- examples/example.py:138-140: the instant of the first time, in seconds, of a file. -/
def cpcStart (time : Int) : Int := (time - 283996800) / 86400

/-- NumPy's `flip` along the second axis and `roll` by `shift` along the third. -/
def flipRoll {α : Type} (rows cols shift : Nat) (a : Nat → Nat → Nat → α) : Nat → Nat → Nat → α :=
  fun t r c => a t (rows - 1 - r) ((c + cols - shift % cols) % cols)

/-- examples/example.py:142-150. -/
def cpcData {α : Type} (a : Nat → Nat → Nat → α) : Nat → Nat → Nat → α := flipRoll 360 720 360 a

end Example

end Verif
