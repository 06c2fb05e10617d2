/-!
Model of the errors (`/repo/dcdf/src/errors.rs`) and of the exceptions they become in Python
(`/repo/py-dcdf/src/lib.rs:641-652`). What the errors of other crates carry is left out.
-/
namespace Verif

/-- A content identifier (crate `cid`). -/
inductive Cid where
  | v0 (digest : List (BitVec 8))
  | v1 (codec code : Nat) (digest : List (BitVec 8))
deriving DecidableEq, Repr

/-- Classes of exceptions. `os` is `OSError`, also known as `IOError`; `exit` is `SystemExit`. -/
inductive PyExc where
  | os | value | key | name | index | overflow | type | attribute | assertion | exit | other
deriving DecidableEq, Repr

/-- errors.rs:8-18 `enum Error`, and the exceptions raised by Python code or by PyO3 before any Rust code of
the project runs. -/
inductive Err where
  | io
  | cid
  | varint
  | load
  | badValue
  | notFound (cid : Cid)
  | badName (name : List (BitVec 8))
  | timeIsInfinite
  | py (e : PyExc)
deriving DecidableEq, Repr

/-- py-dcdf/src/lib.rs:641-652 `convert_error`. -/
def Err.exception : Err → PyExc
  | .io => .os
  | .cid => .value
  | .varint => .os
  | .load => .os
  | .badValue => .value
  | .badName _ => .name
  | .notFound _ => .key
  | .timeIsInfinite => .value
  | .py e => e

/-- How code that gives no result ends: with an error (or an exception), or in a panic. -/
inductive Fail where
  | err (e : Err)
  | panic
deriving DecidableEq, Repr

end Verif
