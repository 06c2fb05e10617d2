import Verif.Model.SuperBuild

/-!
Model of data sets that grow: `/repo/dcdf/src/span.rs:36-109` (building spans) and
`/repo/dcdf/src/dataset.rs:96-376, 496-543, 833-986`.

A program runs on what was saved so far and ends with a result and what is saved then. The stack of
spans (`Vec`, `push` and `pop` at the end) is a list with the top first. `get_mmstruct3` goes to the
store (the cache is modelled apart). The tail of a variable is read by a window read, which may
complete in many orders; `fill` stands for any choice among them. Recursion is limited by fuel;
running out of it is a panic. The arity of superchunks is 2.
-/
namespace Verif

/-- A program that uses the store. -/
def Prog (α : Type) := Saved → Except Fail α × Saved

namespace Prog

def pure {α : Type} (a : α) : Prog α := fun log => (.ok a, log)

def bind {α β : Type} (m : Prog α) (f : α → Prog β) : Prog β := fun log =>
  match m log with
  | (.ok a, log) => f a log
  | (.error e, log) => (.error e, log)

instance : Monad Prog where
  pure := pure
  bind := bind

def fail {α : Type} (f : Fail) : Prog α := fun log => (.error f, log)

/-- A computation that may panic. -/
def ofOption {α : Type} : Option α → Prog α
  | some a => pure a
  | none => fail .panic

def ofExcept {α : Type} : Except Fail α → Prog α
  | .ok a => pure a
  | .error f => fail f

end Prog

section
variable (H : Hash) (utf8 : List Byte → Bool)

/-- `resolver.get_mmstruct3(cid).await?` -/
def Prog.getStruct (cid : Cid) : Prog MMStruct3 := fun log =>
  ((log.load H).getStruct utf8 cid, log)

/-- `resolver.save(x).await?` -/
def Prog.save (x : Item) : Prog Cid := fun log =>
  let r := Verif.save H log x
  (.ok r.2, r.1)

/-- The store at this moment. -/
def Prog.store : Prog Store := fun log => (.ok (log.load H), log)

/-- `get_mmstruct3` followed by one of `stride`, `last`, `len`, `append` and `update`
(dataset.rs:497-543), which panic if it is not a span. -/
def Prog.getSpan (cid : Cid) : Prog Span := do
  let m ← Prog.getStruct H utf8 cid
  match m with
  | .span s => pure s
  | _ => Prog.fail .panic

/-! ### Spans -/

/-- span.rs:35-48 `Span::new`. -/
def Span.new (rows cols stride : Nat) (encoding : MMEncoding) : Span :=
  ⟨0, rows, cols, stride, [], encoding⟩

/-- span.rs:51-61: the last child has to be full. -/
def Span.checkLast (sp : Span) : Prog Unit :=
  match sp.spans.getLast? with
  | none => pure ()
  | some last => do
    let last ← Prog.getStruct H utf8 last
    let shape ← Prog.ofOption last.shape
    if shape.1 ≠ sp.stride then Prog.fail .panic else pure ()

/-- span.rs:50-93 `Span::append`. -/
def Span.append (sp : Span) (m : MMStruct3) : Prog Span := do
  Span.checkLast H utf8 sp
  let shape ← Prog.ofOption m.shape
  if shape.2.1 ≠ sp.rows ∨ shape.2.2 ≠ sp.cols then Prog.fail .panic
  else if shape.1 > sp.stride then Prog.fail .panic
  else do
    let cid ← Prog.save H (.struct m)
    pure { sp with
      instants := sp.instants + shape.1
      rows := shape.2.1
      cols := shape.2.2
      spans := sp.spans ++ [cid] }

/-- span.rs:97-110 `Span::update`. -/
def Span.update (sp : Span) (m : MMStruct3) : Prog Span :=
  let spans := sp.spans.dropLast
  Span.append H utf8 { sp with instants := spans.length * sp.stride, spans := spans } m

/-! ### Variables -/

/-- dataset.rs:966-970, the loop: down the last children while the stride is greater than
`chunkSize`; `above` are the spans passed. -/
def tailSpansLoop (chunkSize : Nat) : (fuel : Nat) → (above : List Span) → Span → Prog (List Span)
  | 0, _, _ => Prog.fail .panic
  | fuel + 1, above, sp =>
    if sp.stride > chunkSize then do
      let cid ← Prog.ofOption sp.spans.getLast?
      let child ← Prog.getSpan H utf8 cid
      tailSpansLoop chunkSize fuel (sp :: above) child
    else pure (sp :: above)

/-- dataset.rs:961-975 `Variable::tail_spans`. -/
def Variable.tailSpans (fuel : Nat) (v : Variable) : Prog (List Span) := do
  let root ← Prog.getSpan H utf8 v.cid
  tailSpansLoop H utf8 v.chunkSize fuel [] root

/-- dataset.rs:978-981, the loop. -/
def saveSpansLoop : Span → List Span → Prog Span
  | sp, [] => pure sp
  | sp, last :: rest => do
    let sp ← Span.update H utf8 last (.span sp)
    saveSpansLoop sp rest

/-- dataset.rs:977-986 `Variable::save_spans`. -/
def Variable.saveSpans (v : Variable) (spans : List Span) : Prog Variable :=
  match spans with
  | [] => Prog.fail .panic
  | sp :: rest => do
    let sp ← saveSpansLoop H utf8 sp rest
    let cid ← Prog.save H (.struct (.span sp))
    pure { v with cid := cid }

/-- dataset.rs:927-930: update what is above. -/
def openSpanUp : Span → List Span → Prog Span
  | sp, [] => pure sp
  | sp, ancestor :: rest => do
    let sp ← Span.update H utf8 ancestor (.span sp)
    openSpanUp sp rest

/-- dataset.rs:893-925, the loop: find a place for the new span; returns the span that has it and
what is above. -/
def openSpanLoop (v : Variable) (rows cols : Nat) : (leftHand sp : Span) → List Span →
    Prog (Span × List Span)
  | leftHand, sp, [] => do
    let root := Span.new rows cols (v.spanSize * sp.stride) v.encoding
    let root ← Span.append H utf8 root (.span leftHand)
    let sp ← Span.append H utf8 root (.span sp)
    pure (sp, [])
  | _, sp, parent :: rest =>
    if parent.spans.length = v.spanSize then do
      let new := Span.new rows cols (v.spanSize * sp.stride) v.encoding
      let sp ← Span.append H utf8 new (.span sp)
      openSpanLoop v rows cols parent sp rest
    else do
      let sp ← Span.append H utf8 parent (.span sp)
      pure (sp, rest)

/-- dataset.rs:880-935 `Variable::create_open_span`. -/
def Variable.createOpenSpan (fuel : Nat) (v : Variable) (rows cols : Nat) : Prog Variable := do
  let sp := Span.new rows cols v.chunkSize v.encoding
  let spans ← Variable.tailSpans H utf8 fuel v
  match spans with
  | [] => Prog.fail .panic
  | leftHand :: spans => do
    let x ← openSpanLoop H utf8 v rows cols leftHand sp spans
    let sp ← openSpanUp H utf8 x.1 x.2
    let cid ← Prog.save H (.struct (.span sp))
    pure { v with cid := cid }

/-- dataset.rs:937-957 `Variable::tail_data`. -/
def Variable.tailData (fuel : Nat) (v : Variable) : Prog (Option MMStruct3) := do
  let spans ← Variable.tailSpans H utf8 fuel v
  match spans with
  | [] => Prog.fail .panic
  | tail :: _ =>
    match tail.spans.getLast? with
    | none => pure none
    | some cid => do
      let chunk ← Prog.getStruct H utf8 cid
      let shape ← Prog.ofOption chunk.shape
      if shape.1 < v.chunkSize then pure (some chunk) else pure none

variable (clog : Nat → Nat) (lg : Rat → Int)

/-- dataset.rs:841-851, building the next superchunk. -/
def Prog.buildChunk (levels : List Nat) (b : MMBuffer3) (instants rows cols : Nat) :
    Prog MMStruct3 := fun log =>
  match b.computeBits lg instants rows cols with
  | none => (.error .panic, log)
  | some b =>
    match Superchunk.build H clog lg 2 levels log b instants rows cols with
    | none => (.error .panic, log)
    | some (r, log) => (.ok r.data, log)

/-- dataset.rs:854-865: the span to add the chunk to, with what is above; if the tail span is full
the spans are saved and a new, open span is created. -/
def Variable.openIfFull (fuel : Nat) (v : Variable) (rows cols : Nat) (sp : Span)
    (rest : List Span) : Prog (Variable × Span × List Span) :=
  if sp.instants = v.spanSize * sp.stride then do
    let v ← Variable.saveSpans H utf8 v (sp :: rest)
    let v ← Variable.createOpenSpan H utf8 fuel v rows cols
    let spans ← Variable.tailSpans H utf8 fuel v
    match spans with
    | [] => Prog.fail .panic
    | sp :: rest => if sp.spans.length = 0 then pure (v, sp, rest) else Prog.fail .panic
  else pure (v, sp, rest)

/-- dataset.rs:868-873. -/
def Span.addChunk (update : Bool) (sp : Span) (chunk : MMStruct3) : Prog Span :=
  if update then Span.update H utf8 sp chunk else Span.append H utf8 sp chunk

/-- dataset.rs:838-874, the loop over the starts of the chunks. -/
def Variable.appendLoop (fuel : Nat) (data : MMBuffer3) (instants rows cols : Nat) :
    (starts : List Nat) → (v : Variable) → (spans : List Span) → (update : Bool) →
    Prog (Variable × List Span)
  | [], v, spans, _ => pure (v, spans)
  | start :: starts, v, spans, update => do
    let fin := min (start + v.chunkSize) instants
    let chunk ← Prog.buildChunk H clog lg v.k2Levels (data.slice start 0 0) (fin - start) rows cols
    match spans with
    | [] => Prog.fail .panic
    | sp :: rest => do
      let x ← Variable.openIfFull H utf8 fuel v rows cols sp rest
      let sp ← Span.addChunk H utf8 update x.2.1 chunk
      Variable.appendLoop fuel data instants rows cols starts x.1 (sp :: x.2.2) false

/-- dataset.rs:834-878 `Variable::append`; `step_by(0)` panics. -/
def Variable.append (fuel : Nat) (v : Variable) (data : MMBuffer3) (instants rows cols : Nat)
    (update : Bool) : Prog Variable := do
  let spans ← Variable.tailSpans H utf8 fuel v
  if v.chunkSize = 0 then Prog.fail .panic
  else do
    let starts := (List.range ((instants + v.chunkSize - 1) / v.chunkSize)).map (· * v.chunkSize)
    let x ← Variable.appendLoop H utf8 clog lg fuel data instants rows cols starts v spans update
    Variable.saveSpans H utf8 x.1 x.2

/-! ### Data sets -/

/-- The calls to `set` of a window read. -/
abbrev Calls := List (Nat × Nat × Nat × Nat × Int64)

/-- An array of zeros (`zero`) after some calls to `set`; `dec` is what `set` stores. -/
def written {α : Type} (zero : α) (dec : Nat → Int64 → α) (calls : Calls) (t r c : Nat) : α :=
  match calls.reverse.find? fun q => q.1 = t ∧ q.2.1 = r ∧ q.2.2.1 = c with
  | some q => dec q.2.2.2.1 q.2.2.2.2
  | none => zero

/-- `tail_array.append(Axis(0), data)` of `n` instants and some more. -/
def appendArray {α : Type} (n : Nat) (tail data : Nat → Nat → Nat → α) (t r c : Nat) : α :=
  if t < n then tail t r c else data (t - n) r c

/-- mmbuffer.rs: an array passed to `append_i32`, `append_i64`, `append_f32` or `append_f64`. -/
inductive NdArray where
  | i32 (a : Nat → Nat → Nat → Int32)
  | i64 (a : Nat → Nat → Nat → Int64)
  | flt (p : Prec) (a : Nat → Nat → Nat → Flt)

/-- The array with what was read of the tail before it. -/
def NdArray.prepend (n : Nat) (calls : Calls) : NdArray → NdArray
  | .i32 a => .i32 (appendArray n (written 0 (fun _ v => v.toInt32) calls) a)
  | .i64 a => .i64 (appendArray n (written 0 (fun _ v => v) calls) a)
  | .flt p a => .flt p (appendArray n (written (.fin 0) (fun bits v => fromFixed p v bits) calls) a)

/-- `MMBuffer3::new_*`; `round` is the field of the variable. -/
def NdArray.buffer (round : Option Nat) : NdArray → MMBuffer3
  | .i32 a => .i32 a
  | .i64 a => .i64 a
  | .flt p a => .flt p a (round.getD 0) round.isSome

/-- A choice among the ways to complete the window read of a whole structure. -/
abbrev Fill := MMStruct3 → Store → Calls × Option Fail

/-- `fill` chooses a way that is possible, if there is one. -/
def Fill.Valid (readFuel : Nat) (fill : Fill) : Prop :=
  ∀ (m : MMStruct3) (st : Store) (instants rows cols : Nat),
    m.shape = some (instants, rows, cols) →
    (∃ t s, m.fillWindow utf8 st readFuel m.fractionalBits (Cube.new 0 instants 0 rows 0 cols) t s) →
    m.fillWindow utf8 st readFuel m.fractionalBits (Cube.new 0 instants 0 rows 0 cols)
      (fill m st).1 (fill m st).2

/-- dataset.rs:163-169 and the like: the variable with some name. -/
def Dataset.findVariable (d : Dataset) (name : List Byte) : Option Variable :=
  d.variables.find? fun v => v.name = name

/-- dataset.rs:386-394 `Dataset::get_coordinate`. -/
def Dataset.getCoordinate (d : Dataset) (name : List Byte) : Option Coordinate :=
  if d.coord0.name = name then some d.coord0
  else if d.coord1.name = name then some d.coord1
  else if d.coord2.name = name then some d.coord2
  else none

/-- dataset.rs:396-404 `Dataset::get_variable`. -/
def Dataset.getVariable (d : Dataset) (name : List Byte) : Option Variable :=
  d.variables.find? fun v => v.name = name

/-- dataset.rs:191-197 and the like: replace the first variable of the same name. -/
def replaceVariable (v : Variable) : List Variable → List Variable
  | [] => []
  | w :: ws => if w.name = v.name then v :: ws else w :: replaceVariable v ws

/-- dataset.rs:199-203 and the like: the version before the one under construction. -/
def Dataset.nextPrev (d : Dataset) : Option Cid := d.cid.or d.prev

/-- dataset.rs:171-189 and the like: the part of `Dataset::append_*` that appends to the
variable. `tail_array.append(..).unwrap()` panics if `data` has other rows and columns than the
tail. -/
def Variable.appendArray (fuel : Nat) (fill : Fill) (v : Variable) (data : NdArray)
    (instants rows cols : Nat) : Prog Variable := do
  let tail ← Variable.tailData H utf8 fuel v
  match tail with
  | none => Variable.append H utf8 clog lg fuel v (data.buffer v.round) instants rows cols false
  | some tail => do
    let shape ← Prog.ofOption tail.shape
    let st ← Prog.store H
    match (fill tail st).2 with
    | some f => Prog.fail f
    | none =>
      if shape.2.1 ≠ rows ∨ shape.2.2 ≠ cols then Prog.fail .panic
      else
        Variable.append H utf8 clog lg fuel v
          ((data.prepend shape.1 (fill tail st).1).buffer v.round) (shape.1 + instants) rows cols
          true

/-- dataset.rs:162-213 `Dataset::append_i32`, and `append_i64`, `append_f32`, `append_f64`. -/
def Dataset.append (fuel : Nat) (fill : Fill) (d : Dataset) (name : List Byte) (data : NdArray)
    (instants rows cols : Nat) : Prog Dataset :=
  match d.findVariable name with
  | none => Prog.fail (.err (.badName name))
  | some v => do
    let v ← Variable.appendArray H utf8 clog lg fuel fill v data instants rows cols
    pure { d with «variables» := replaceVariable v d.variables, prev := d.nextPrev, cid := none }

/-- dataset.rs:101-110 `Dataset::new`. -/
def Dataset.new (coord0 coord1 coord2 : Coordinate) (rows cols : Nat) : Dataset :=
  ⟨coord0, coord1, coord2, [], rows, cols, none, none⟩

/-- dataset.rs:112-114 `Dataset::commit`. -/
def Dataset.commit (d : Dataset) : Prog Cid := Prog.save H (.dataset d)

/-- dataset.rs:116-158 `Dataset::add_variable`. -/
def Dataset.addVariable (d : Dataset) (name : List Byte) (round : Option Nat)
    (spanSize chunkSize : Nat) (k2Levels : List Nat) (encoding : MMEncoding) : Prog Dataset := do
  let cid ← Prog.save H (.struct (.span (Span.new d.rows d.cols chunkSize encoding)))
  pure { d with
    «variables» := d.variables ++ [⟨name, round, spanSize, chunkSize, k2Levels, encoding, cid⟩]
    prev := d.nextPrev
    cid := none }

/-- resolver.rs:82-88 `Resolver::get_dataset`. -/
def Prog.getDataset (cid : Cid) : Prog Dataset := fun log =>
  ((log.load H).getDataset utf8 cid, log)

end

end Verif
