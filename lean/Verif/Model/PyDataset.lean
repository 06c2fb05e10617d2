import Verif.Model.MMArray

/-!
Model of data sets, variables and coordinates as seen from Python: the classes `MMEncoding`, `Dataset`,
`Coordinate` and `Variable` of py-dcdf/dcdf/__init__.py and what they call of py-dcdf/src/lib.rs. Indexing
is in `Model/Py.lean`.

Simplifications:
* Exceptions are `Fail.err`, panics of the Rust code are `Fail.panic`.
* An array of NumPy with a type the code knows is an `NdArray`; one of another type is `none`. Arrays have
  three dimensions.
* Numbers passed as `usize` or `u32` fit (others are an `OverflowError`).
-/
namespace Verif

/-- The types of NumPy that the code knows, and any other. -/
inductive Dtype
  | datetime64 | int32 | int64 | float32 | float64 | other
deriving DecidableEq, Repr

/-- py-dcdf/dcdf/__init__.py:15-21 `MMEncoding.from_dtype`; `none` is a `KeyError`. -/
def Dtype.code : Dtype → Option Byte
  | .datetime64 => some 0
  | .int32 => some 4
  | .int64 => some 8
  | .float32 => some 32
  | .float64 => some 64
  | .other => none

/-- py-dcdf/dcdf/__init__.py:23-29 `MMEncoding.to_dtype`; `none` is a `KeyError`. -/
def Dtype.ofCode (code : Byte) : Option Dtype :=
  if code = 0 then some .datetime64
  else if code = 4 then some .int32
  else if code = 8 then some .int64
  else if code = 32 then some .float32
  else if code = 64 then some .float64
  else none

namespace Py

section
variable (H : Hash)

/-- py-dcdf/dcdf/__init__.py:90-106 `Dataset.add_variable`, py-dcdf/src/lib.rs:76-94. -/
def addVariable (d : Dataset) (name : List Byte) (spanSize chunkSize : Nat) (k2Levels : List Nat)
    (round : Bool) (fractionalBits : Nat) (dtype : Dtype) : Prog Dataset :=
  match dtype.code with
  | none => Prog.fail (.err (.py .key))
  | some code =>
    match MMEncoding.ofByte code with
    | none => Prog.fail .panic
    | some encoding =>
      d.addVariable H name (if round then some fractionalBits else none) spanSize chunkSize k2Levels encoding

variable (utf8 : List Byte → Bool) (clog : Nat → Nat) (lg : Rat → Int) (fuel : Nat)

/-- py-dcdf/dcdf/__init__.py:108-120 `Dataset.append`, py-dcdf/src/lib.rs:96-122. -/
def append (fill : Fill) (d : Dataset) (name : List Byte) (data : Option NdArray) (instants rows cols : Nat) :
    Prog Dataset :=
  match data with
  | none => Prog.fail (.err (.py .value))
  | some data => Dataset.append H utf8 clog lg fuel fill d name data instants rows cols

end

/-- py-dcdf/src/lib.rs:356-359 `PyVariable::round`. -/
def round (v : Variable) : Bool := v.round.isSome

/-- py-dcdf/src/lib.rs:361-367 `PyVariable::fractional_bits`. -/
def fractionalBits (v : Variable) : Nat :=
  match v.round with
  | some bits => bits
  | none => 0

/-- py-dcdf/dcdf/__init__.py:264-266 `Variable.dtype`, py-dcdf/src/lib.rs:384-387. -/
def dtype (v : Variable) : Option Dtype := Dtype.ofCode v.encoding.toByte

/-- The classes of arrays, with the structure that is wrapped. -/
inductive Data
  | i32 (m : MMStruct3)
  | i64 (m : MMStruct3)
  | f32 (m : MMStruct3)
  | f64 (m : MMStruct3)

/-- py-dcdf/dcdf/__init__.py:338-350 `Variable._data`, py-dcdf/src/lib.rs:394-408. -/
def data (utf8 : List Byte → Bool) (st : Store) (v : Variable) : Except Fail Data :=
  let encoding := v.encoding.toByte
  if encoding = 4 then (v.data Kind.i32 utf8 st).map .i32
  else if encoding = 8 then (v.data Kind.i64 utf8 st).map .i64
  else if encoding = 32 then (v.data Kind.f32 utf8 st).map .f32
  else if encoding = 64 then (v.data Kind.f64 utf8 st).map .f64
  else .error (.err (.py .value))

/-! ### Coordinates -/

/-- py-dcdf/src/lib.rs:199-210 `PyCoordinate::encoding`. -/
def coordEncoding (c : Coordinate) : MMEncoding :=
  match c.kind with
  | .time .. => .time
  | .i32 .. => .i32
  | .i64 .. => .i64
  | .f32 .. => .f32
  | .f64 .. => .f64

/-- py-dcdf/dcdf/__init__.py:186-188 `Coordinate.dtype`. -/
def coordDtype (c : Coordinate) : Option Dtype := Dtype.ofCode (coordEncoding c).toByte

end Py

/-- dataset.rs:601-608 `data_time`. -/
def Coordinate.dataTime (c : Coordinate) : Option (Int64 × Int64) :=
  match c.kind with
  | .time start step => some (start, step)
  | _ => none

/-- dataset.rs:545-557 `data_i32`. -/
def Coordinate.dataI32 (c : Coordinate) : Option (Int32 × Int32 × Nat) :=
  match c.kind with
  | .i32 start step steps => some (start, step, steps)
  | _ => none

/-- dataset.rs:559-571 `data_i64`. -/
def Coordinate.dataI64 (c : Coordinate) : Option (Int64 × Int64 × Nat) :=
  match c.kind with
  | .i64 start step steps => some (start, step, steps)
  | _ => none

/-- dataset.rs:573-585 `data_f32`. -/
def Coordinate.dataF32 (c : Coordinate) : Option (BitVec 32 × BitVec 32 × Nat) :=
  match c.kind with
  | .f32 start step steps => some (start, step, steps)
  | _ => none

/-- dataset.rs:587-599 `data_f64`. -/
def Coordinate.dataF64 (c : Coordinate) : Option (BitVec 64 × BitVec 64 × Nat) :=
  match c.kind with
  | .f64 start step steps => some (start, step, steps)
  | _ => none

/-- dataset.rs:610-630 `Coordinate::len`. -/
def Coordinate.len (c : Coordinate) : Except Fail Nat :=
  match c.kind with
  | .time .. => .error (.err .timeIsInfinite)
  | .i32 _ _ steps => .ok steps
  | .i64 _ _ steps => .ok steps
  | .f32 _ _ steps => .ok steps
  | .f64 _ _ steps => .ok steps

namespace Py

/-- A result of Rust code that may panic. -/
def unwrap {α : Type} : Option α → Except Fail α
  | none => .error .panic
  | some a => .ok a

/-- py-dcdf/dcdf/__init__.py:190-204 `Coordinate._data`: the range that is read through. -/
def coordData (c : Coordinate) : Except Fail CoordinateKind :=
  let encoding := (coordEncoding c).toByte
  if encoding = 0 then (unwrap c.dataTime).map fun x => .time x.1 x.2
  else if encoding = 4 then (unwrap c.dataI32).map fun x => .i32 x.1 x.2.1 x.2.2
  else if encoding = 8 then (unwrap c.dataI64).map fun x => .i64 x.1 x.2.1 x.2.2
  else if encoding = 32 then (unwrap c.dataF32).map fun x => .f32 x.1 x.2.1 x.2.2
  else if encoding = 64 then (unwrap c.dataF64).map fun x => .f64 x.1 x.2.1 x.2.2
  else .error (.err (.py .value))

/-! ### Attributes -/

/-- A name as bytes (ASCII). -/
def ascii (s : String) : List Byte := s.toList.map fun c => BitVec.ofNat 8 c.toNat

/-- py-dcdf/dcdf/__init__.py:51-148: the names that class `Dataset` defines (without those that start with
two underscores). -/
def ownNames : List (List Byte) :=
  ["_inner", "new", "coordinates", "variables", "shape", "prev", "cid", "add_variable", "append", "commit",
    "get_coordinate", "get_variable"].map ascii

/-- What an attribute of a data set can be. -/
inductive Attr
  | own
  | coordinate (c : Coordinate)
  | variable (v : Variable)
deriving DecidableEq

/-- `dataset.name`: Python looks for what the class and the instance define, then calls
py-dcdf/dcdf/__init__.py:139-148 `__getattr__`. -/
def getattr (d : Dataset) (name : List Byte) : Except Fail Attr :=
  if name ∈ ownNames then .ok .own
  else
    match [d.coord0, d.coord1, d.coord2].find? fun c => c.name = name with
    | some c => .ok (.coordinate c)
    | none =>
      match d.variables.find? fun v => v.name = name with
      | some v => .ok (.variable v)
      | none => .error (.err (.py .attribute))

end Py

end Verif
