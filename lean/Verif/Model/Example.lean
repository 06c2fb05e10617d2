import Verif.Model.PyDataset
import Verif.Model.Ls

/-!
Model of the program `/repo/examples/example.py`: making a data set (`init`), copying data into it from a
source (`copy`) and adding the data of files (`add`). Listing objects (`ls`) and counting bytes (`du`) are
in `Model/Du.lean`.

A run of the program can be broken off at every step at which it touches the store or the file with the
identifier of the head. A call that is broken off may have saved any objects before; writing the head
may be broken off before the file is opened, or after that (`Event.breaks`).

Simplifications:
* The source (an array of `xarray`) is an `NdArray` with a number of instants; it is read without failures.
  It has a variable of the name of ours. `prime_ipfs`, which only reads the source, is left out, and so
  are all messages.
* The file with the head is missing, holds an identifier, or holds nothing that could be read.
* The settings of the data set (a `Factory`) are a parameter. `add` gets the start and the data that
  `extract_and_translate` makes of a file (`Model/Du.lean` has that of `CpcPrecip`).
-/
namespace Verif

/-- The array from instant `n` on. -/
def NdArray.from (n : Nat) : NdArray → NdArray
  | .i32 a => .i32 fun t => a (n + t)
  | .i64 a => .i64 fun t => a (n + t)
  | .flt p a => .flt p fun t => a (n + t)

namespace Py

/-- py-dcdf/dcdf/__init__.py:268-270 `Variable.shape`. -/
def shape (utf8 : List Byte → Bool) (st : Store) (v : Variable) : Except Fail (Nat × Nat × Nat) :=
  match data utf8 st v with
  | .error f => .error f
  | .ok (.i32 m) => unwrap m.shape
  | .ok (.i64 m) => unwrap m.shape
  | .ok (.f32 m) => unwrap m.shape
  | .ok (.f64 m) => unwrap m.shape

end Py

namespace Example

/-- The file with the identifier of the latest version. -/
inductive Head where
  | missing
  | lost
  | at (cid : Cid)
deriving DecidableEq, Repr

/-- What happens at a step: it is done (`fill` is what it reads back of the tail of the variable), or it is
broken off after some objects were saved, or, if `torn`, after the file was opened for writing. -/
inductive Event where
  | goes (fill : Fill)
  | breaks (extra : Saved) (torn : Bool)

/-- What is kept between runs. -/
structure World where
  log : Saved
  head : Head

/-- Part of a run: from what is kept and the number of steps made so far. -/
def Script (α : Type) := (Nat → Event) → World × Nat → Except Fail α × (World × Nat)

namespace Script

def pure {α : Type} (a : α) : Script α := fun _ s => (.ok a, s)

def bind {α β : Type} (m : Script α) (f : α → Script β) : Script β := fun env s =>
  match m env s with
  | (.ok a, s) => f a env s
  | (.error e, s) => (.error e, s)

instance : Monad Script where
  pure := pure
  bind := bind

/-- `sys.exit(1)`, or an exception. -/
def fail {α : Type} (f : Fail) : Script α := fun _ s => (.error f, s)

/-- The file with the head. -/
def head : Script Head := fun _ s => (.ok s.1.head, s)

/-- A call of the library. -/
def call {α : Type} (p : Fill → Prog α) : Script α := fun env s =>
  match env s.2 with
  | .breaks extra _ => (.error (.err (.py .other)), (⟨extra ++ s.1.log, s.1.head⟩, s.2 + 1))
  | .goes fill =>
    let r := p fill s.1.log
    (r.1, (⟨r.2, s.1.head⟩, s.2 + 1))

/-- examples/example.py:244-248 `save_head`: the file is made empty before the identifier is written. -/
def saveHead (cid : Cid) : Script Unit := fun env s =>
  match env s.2 with
  | .breaks _ torn => (.error (.err (.py .other)), (⟨s.1.log, if torn then .lost else s.1.head⟩, s.2 + 1))
  | .goes _ => (.ok (), (⟨s.1.log, .at cid⟩, s.2 + 1))

end Script

section
variable (H : Hash) (utf8 : List Byte → Bool) (clog : Nat → Nat) (lg : Rat → Int) (fuel : Nat)

open Script hiding pure bind

/-- The settings of a new data set with one variable (examples/example.py:31-130 `CpcPrecip.factory`,
167-206 `Era5LandPrecip.factory`). -/
structure Factory where
  coord0 : Coordinate
  coord1 : Coordinate
  coord2 : Coordinate
  rows : Nat
  cols : Nat
  name : List Byte
  spanSize : Nat
  chunkSize : Nat
  k2Levels : List Nat
  round : Bool
  bits : Nat
  dtype : Dtype

/-- examples/example.py:31-130 `CpcPrecip.factory`; the starts and steps of the coordinates are bits of floats. -/
def cpcPrecip : Factory where
  coord0 := ⟨ascii "time", .time 283996800 86400⟩
  coord1 := ⟨ascii "latitude", .f32 0xc2b38000#32 0x3f000000#32 360⟩
  coord2 := ⟨ascii "longitude", .f32 0xc333c000#32 0x3f000000#32 720⟩
  rows := 360
  cols := 720
  name := ascii "precip"
  spanSize := 20000
  chunkSize := 64
  k2Levels := [4, 6]
  round := false
  bits := 0
  dtype := .float32

/-- examples/example.py:167-206 `Era5LandPrecip.factory`. -/
def era5LandPrecip : Factory where
  coord0 := ⟨ascii "time", .time 347155200 3600⟩
  coord1 := ⟨ascii "latitude", .f64 0xc056800000000000#64 0x3fb999999999999a#64 1801⟩
  coord2 := ⟨ascii "longitude", .f64 0xc066800000000000#64 0x3fb999999999999a#64 3600⟩
  rows := 1801
  cols := 3600
  name := ascii "tp"
  spanSize := 20000
  chunkSize := 64
  k2Levels := [2, 4, 6]
  round := false
  bits := 0
  dtype := .float32

/-- `commit` and `save_head`. -/
def publish (d : Dataset) : Script Unit := do
  let cid ← call fun _ => d.commit H
  saveHead cid

/-- examples/example.py:216-241 `initialize_dataset`. -/
def init (f : Factory) : Script Unit := do
  let h ← head
  if h ≠ .missing then fail (.err (.py .exit))
  else
    let dataset ← call fun _ => Py.addVariable H (Dataset.new f.coord0 f.coord1 f.coord2 f.rows f.cols) f.name
      f.spanSize f.chunkSize f.k2Levels f.round f.bits f.dtype
    publish H dataset

/-- examples/example.py:255-265 and 345-355: the data set at the head. -/
def current : Script Dataset := do
  let h ← head
  match h with
  | .missing => fail (.err (.py .exit))
  | .lost => fail (.err .cid)
  | .at cid => call fun _ => Prog.getDataset H utf8 cid

/-- `dataset.variables[0]` -/
def first (d : Dataset) : Script Variable :=
  match d.variables with
  | [] => fail (.err (.py .index))
  | v :: _ => pure v

/-- `dst.shape[0]` -/
def instants (v : Variable) : Script Nat := call fun _ log =>
  ((Py.shape utf8 (log.load H) v).map fun s => s.1, log)

/-- What is copied from: an array and its shape. -/
structure Source where
  data : NdArray
  total : Nat
  rows : Nat
  cols : Nat

/-- The variables of the loop of `copy_data_from_dclimate`. -/
structure CopyState where
  dataset : Dataset
  dst : Variable
  remaining : Int
  commitCount : Nat

/-- examples/example.py:304-310: every so often the data set is committed. -/
def progress (d : Dataset) (commitEvery commitCount : Nat) : Script Nat :=
  if commitCount = 1 then do
    publish H d
    pure commitEvery
  else pure (commitCount - 1)

/-- examples/example.py:292-313, one turn of the loop. -/
def copyStep (src : Source) (commitEvery : Nat) (s : CopyState) (index : Nat) : Script CopyState := do
  let dataset ← call fun fill => Py.append H utf8 clog lg fuel fill s.dataset s.dst.name
    (some (src.data.from index)) (min (index + s.dst.chunkSize) src.total - index) src.rows src.cols
  let commitCount ← progress H dataset commitEvery s.commitCount
  let dst ← first dataset
  let _ ← instants H utf8 dst
  pure ⟨dataset, dst, s.remaining - s.dst.chunkSize, commitCount⟩

/-- `for` with something carried along. -/
def loop {σ : Type} (f : σ → Nat → Script σ) : σ → List Nat → Script σ
  | s, [] => pure s
  | s, i :: is => do
    let s ← f s i
    loop f s is

/-- The numbers of Python's `range(start, start + n, step)`. -/
def pyRange (start : Nat) (n : Int) (step : Nat) : List Nat :=
  (List.range ((n.toNat + step - 1) / step)).map fun i => start + i * step

/-- examples/example.py:315-320: what is left after the loop. -/
def nubbin (src : Source) (s : CopyState) : Script Dataset :=
  if s.remaining > 0 then do
    let written ← instants H utf8 s.dst
    call fun fill => Py.append H utf8 clog lg fuel fill s.dataset s.dst.name
      (some (src.data.from written)) (min (written + s.remaining.toNat) src.total - written)
      src.rows src.cols
  else pure s.dataset

/-- examples/example.py:284-287: the number of instants to copy. -/
def toCopy (limit : Option Int) (remaining : Int) : Int :=
  match limit with
  | none => remaining
  | some n => min n remaining

/-- examples/example.py:278-325: the rest of `copy_data_from_dclimate`. -/
def copyFrom (src : Source) (limit : Option Int) (commitEvery : Nat) (dataset : Dataset) (dst : Variable)
    (written : Nat) : Script Unit :=
  let remaining : Int := src.total - written
  if remaining ≤ 0 then fail (.err (.py .exit))
  else if dst.chunkSize = 0 then fail (.err (.py .value))
  else do
    let s ← loop (copyStep H utf8 clog lg fuel src commitEvery)
      ⟨dataset, dst, toCopy limit remaining, commitEvery⟩
      (pyRange written (toCopy limit remaining) dst.chunkSize)
    let dataset ← nubbin H utf8 clog lg fuel src s
    publish H dataset

/-- examples/example.py:251-325 `copy_data_from_dclimate`. -/
def copy (src : Source) (limit : Option Int) (commitEvery : Nat) : Script Unit := do
  let dataset ← current H utf8
  let dst ← first dataset
  let written ← instants H utf8 dst
  copyFrom H utf8 clog lg fuel src limit commitEvery dataset dst written

/-- examples/example.py:363-377: the rest of `add_data_from_file`. -/
def addAt (start : Int) (data : NdArray) (n rows cols : Nat) (dataset : Dataset) (dst : Variable)
    (written : Nat) : Script Unit :=
  if start ≠ written then pure ()
  else do
    let dataset ← call fun fill => Py.append H utf8 clog lg fuel fill dataset dst.name (some data) n rows cols
    publish H dataset

/-- examples/example.py:343-377 `add_data_from_file`. -/
def add (start : Int) (data : NdArray) (n rows cols : Nat) : Script Unit := do
  let dataset ← current H utf8
  let dst ← first dataset
  let written ← instants H utf8 dst
  addAt H utf8 clog lg fuel start data n rows cols dataset dst written

end

/-- A run of the program. -/
inductive Cmd where
  | init (f : Factory)
  | copy (src : Source) (limit : Option Int) (commitEvery : Nat)
  | add (start : Int) (data : NdArray) (n rows cols : Nat)

section
variable (H : Hash) (utf8 : List Byte → Bool) (clog : Nat → Nat) (lg : Rat → Int) (fuel : Nat)

/-- examples/example.py:518-562 `main`, without the commands that only read. -/
def Cmd.script : Cmd → Script Unit
  | .init f => Example.init H f
  | .copy src limit commitEvery => Example.copy H utf8 clog lg fuel src limit commitEvery
  | .add start data n rows cols => Example.add H utf8 clog lg fuel start data n rows cols

/-- One run: what it leaves, and whether it has come to its end. -/
def Cmd.run (cmd : Cmd) (env : Nat → Event) (w : World) : World × Bool :=
  let r := cmd.script H utf8 clog lg fuel env (w, 0)
  (r.2.1, r.1.isOk)

/-- Some runs one after the other. -/
def runs : List (Cmd × (Nat → Event)) → World → World
  | [], w => w
  | c :: cs, w => runs cs (c.1.run H utf8 clog lg fuel c.2 w).1

end

end Example

end Verif
