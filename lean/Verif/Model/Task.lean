import Verif.Model.Dataset

/-!
Model of operations on data sets that run at the same time (`/repo/dcdf/src/dataset.rs:96-376, 833-986`,
`/repo/dcdf/src/span.rs:36-109`): the programs of Model/Dataset.lean in steps. Between any two steps of one
operation others may take steps of theirs; all share the store. That the steps without interruption are the
programs of Model/Dataset.lean is proved in Lemmas/Task.lean.

Simplifications: while the tail of a variable is read back, others take steps, and each object the read
needs is loaded at some moment in between; an object that is needed twice is loaded once. The objects saved by
`Superchunk::build` are saved in any order (the code leaves open less). If `Superchunk::build` panics,
nothing of it is saved.
-/
namespace Verif

/-- An operation in steps. Failing to load is the end of it, as is failing to save. -/
inductive Task (α : Type) where
  /-- It has ended. -/
  | done (r : Except Fail α)
  /-- `Resolver::retrieve`. -/
  | load (cid : Cid) (k : Item → Task α)
  /-- `Resolver::save`. -/
  | save (object : List Byte) (k : Cid → Task α)
  /-- Some objects, in any order. -/
  | saveAll (objects : List (List Byte)) (t : Task α)
  /-- The window read of a whole structure. -/
  | fill (m : MMStruct3) (k : Calls → Task α)
  /-- That read, begun when `since` was saved. -/
  | filling (since : Saved) (m : MMStruct3) (k : Calls → Task α)

namespace Task

def bind {α β : Type} : Task α → (α → Task β) → Task β
  | .done (.ok a), f => f a
  | .done (.error e), _ => .done (.error e)
  | .load cid k, f => .load cid fun x => (k x).bind f
  | .save b k, f => .save b fun cid => (k cid).bind f
  | .saveAll bs t, f => .saveAll bs (t.bind f)
  | .fill m k, f => .fill m fun calls => (k calls).bind f
  | .filling since m k, f => .filling since m fun calls => (k calls).bind f

instance : Monad Task where
  pure a := .done (.ok a)
  bind := bind

def fail {α : Type} (f : Fail) : Task α := .done (.error f)

def ofOption {α : Type} : Option α → Task α
  | some a => pure a
  | none => fail .panic

/-- `resolver.get_mmstruct3(cid).await?` -/
def getStruct (cid : Cid) : Task MMStruct3 :=
  .load cid fun
    | .struct m => pure m
    | _ => fail .panic

/-- `resolver.get_dataset(cid).await?` -/
def getDataset (cid : Cid) : Task Dataset :=
  .load cid fun
    | .dataset d => pure d
    | _ => fail .panic

/-- `resolver.save(x).await?` -/
def saveItem (x : Item) : Task Cid := .save x.bytes pure

/-- As `Prog.getSpan`. -/
def getSpan (cid : Cid) : Task Span := do
  let m ← getStruct cid
  match m with
  | .span s => pure s
  | _ => fail .panic

end Task

open Task in
/-- span.rs:51-61. -/
def Span.checkLastT (sp : Span) : Task Unit :=
  match sp.spans.getLast? with
  | none => pure ()
  | some last => do
    let last ← getStruct last
    let shape ← Task.ofOption last.shape
    if shape.1 ≠ sp.stride then Task.fail .panic else pure ()

open Task in
/-- span.rs:50-93 `Span::append`. -/
def Span.appendT (sp : Span) (m : MMStruct3) : Task Span := do
  sp.checkLastT
  let shape ← Task.ofOption m.shape
  if shape.2.1 ≠ sp.rows ∨ shape.2.2 ≠ sp.cols then Task.fail .panic
  else if shape.1 > sp.stride then Task.fail .panic
  else do
    let cid ← saveItem (.struct m)
    pure { sp with
      instants := sp.instants + shape.1
      rows := shape.2.1
      cols := shape.2.2
      spans := sp.spans ++ [cid] }

/-- span.rs:97-110 `Span::update`. -/
def Span.updateT (sp : Span) (m : MMStruct3) : Task Span :=
  let spans := sp.spans.dropLast
  Span.appendT { sp with instants := spans.length * sp.stride, spans := spans } m

/-- dataset.rs:966-970. -/
def tailSpansLoopT (chunkSize : Nat) : (fuel : Nat) → (above : List Span) → Span → Task (List Span)
  | 0, _, _ => Task.fail .panic
  | fuel + 1, above, sp =>
    if sp.stride > chunkSize then do
      let cid ← Task.ofOption sp.spans.getLast?
      let child ← Task.getSpan cid
      tailSpansLoopT chunkSize fuel (sp :: above) child
    else pure (sp :: above)

/-- dataset.rs:961-975 `Variable::tail_spans`. -/
def Variable.tailSpansT (fuel : Nat) (v : Variable) : Task (List Span) := do
  let root ← Task.getSpan v.cid
  tailSpansLoopT v.chunkSize fuel [] root

/-- dataset.rs:978-981. -/
def saveSpansLoopT : Span → List Span → Task Span
  | sp, [] => pure sp
  | sp, last :: rest => do
    let sp ← Span.updateT last (.span sp)
    saveSpansLoopT sp rest

/-- dataset.rs:977-986 `Variable::save_spans`. -/
def Variable.saveSpansT (v : Variable) (spans : List Span) : Task Variable :=
  match spans with
  | [] => Task.fail .panic
  | sp :: rest => do
    let sp ← saveSpansLoopT sp rest
    let cid ← Task.saveItem (.struct (.span sp))
    pure { v with cid := cid }

/-- dataset.rs:927-930. -/
def openSpanUpT : Span → List Span → Task Span
  | sp, [] => pure sp
  | sp, ancestor :: rest => do
    let sp ← Span.updateT ancestor (.span sp)
    openSpanUpT sp rest

/-- dataset.rs:893-925. -/
def openSpanLoopT (v : Variable) (rows cols : Nat) : (leftHand sp : Span) → List Span →
    Task (Span × List Span)
  | leftHand, sp, [] => do
    let root := Span.new rows cols (v.spanSize * sp.stride) v.encoding
    let root ← Span.appendT root (.span leftHand)
    let sp ← Span.appendT root (.span sp)
    pure (sp, [])
  | _, sp, parent :: rest =>
    if parent.spans.length = v.spanSize then do
      let new := Span.new rows cols (v.spanSize * sp.stride) v.encoding
      let sp ← Span.appendT new (.span sp)
      openSpanLoopT v rows cols parent sp rest
    else do
      let sp ← Span.appendT parent (.span sp)
      pure (sp, rest)

/-- dataset.rs:880-935 `Variable::create_open_span`. -/
def Variable.createOpenSpanT (fuel : Nat) (v : Variable) (rows cols : Nat) : Task Variable := do
  let sp := Span.new rows cols v.chunkSize v.encoding
  let spans ← v.tailSpansT fuel
  match spans with
  | [] => Task.fail .panic
  | leftHand :: spans => do
    let x ← openSpanLoopT v rows cols leftHand sp spans
    let sp ← openSpanUpT x.1 x.2
    let cid ← Task.saveItem (.struct (.span sp))
    pure { v with cid := cid }

/-- dataset.rs:937-957 `Variable::tail_data`. -/
def Variable.tailDataT (fuel : Nat) (v : Variable) : Task (Option MMStruct3) := do
  let spans ← v.tailSpansT fuel
  match spans with
  | [] => Task.fail .panic
  | tail :: _ =>
    match tail.spans.getLast? with
    | none => pure none
    | some cid => do
      let chunk ← Task.getStruct cid
      let shape ← Task.ofOption chunk.shape
      if shape.1 < v.chunkSize then pure (some chunk) else pure none

section
variable (H : Hash) (clog : Nat → Nat) (lg : Rat → Int)

/-- dataset.rs:841-851, building the next superchunk. What it saves does not depend on what is saved
already. -/
def Task.buildChunk (levels : List Nat) (b : MMBuffer3) (instants rows cols : Nat) : Task MMStruct3 :=
  match b.computeBits lg instants rows cols with
  | none => Task.fail .panic
  | some b =>
    match Superchunk.build H clog lg 2 levels [] b instants rows cols with
    | none => Task.fail .panic
    | some (r, objects) => .saveAll objects (pure r.data)

/-- dataset.rs:854-865. -/
def Variable.openIfFullT (fuel : Nat) (v : Variable) (rows cols : Nat) (sp : Span)
    (rest : List Span) : Task (Variable × Span × List Span) :=
  if sp.instants = v.spanSize * sp.stride then do
    let v ← v.saveSpansT (sp :: rest)
    let v ← v.createOpenSpanT fuel rows cols
    let spans ← v.tailSpansT fuel
    match spans with
    | [] => Task.fail .panic
    | sp :: rest => if sp.spans.length = 0 then pure (v, sp, rest) else Task.fail .panic
  else pure (v, sp, rest)

/-- dataset.rs:868-873. -/
def Span.addChunkT (update : Bool) (sp : Span) (chunk : MMStruct3) : Task Span :=
  if update then sp.updateT chunk else sp.appendT chunk

/-- dataset.rs:838-874. -/
def Variable.appendLoopT (fuel : Nat) (data : MMBuffer3) (instants rows cols : Nat) :
    (starts : List Nat) → (v : Variable) → (spans : List Span) → (update : Bool) →
    Task (Variable × List Span)
  | [], v, spans, _ => pure (v, spans)
  | start :: starts, v, spans, update => do
    let fin := min (start + v.chunkSize) instants
    let chunk ← Task.buildChunk H clog lg v.k2Levels (data.slice start 0 0) (fin - start) rows cols
    match spans with
    | [] => Task.fail .panic
    | sp :: rest => do
      let x ← v.openIfFullT fuel rows cols sp rest
      let sp ← Span.addChunkT update x.2.1 chunk
      Variable.appendLoopT fuel data instants rows cols starts x.1 (sp :: x.2.2) false

/-- dataset.rs:834-878 `Variable::append`. -/
def Variable.appendT (fuel : Nat) (v : Variable) (data : MMBuffer3) (instants rows cols : Nat)
    (update : Bool) : Task Variable := do
  let spans ← v.tailSpansT fuel
  if v.chunkSize = 0 then Task.fail .panic
  else do
    let starts := (List.range ((instants + v.chunkSize - 1) / v.chunkSize)).map (· * v.chunkSize)
    let x ← Variable.appendLoopT H clog lg fuel data instants rows cols starts v spans update
    x.1.saveSpansT x.2

/-- dataset.rs:171-189 and the like. -/
def Variable.appendArrayT (fuel : Nat) (v : Variable) (data : NdArray) (instants rows cols : Nat) :
    Task Variable := do
  let tail ← v.tailDataT fuel
  match tail with
  | none => v.appendT H clog lg fuel (data.buffer v.round) instants rows cols false
  | some tail => do
    let shape ← Task.ofOption tail.shape
    Task.fill tail fun calls =>
      if shape.2.1 ≠ rows ∨ shape.2.2 ≠ cols then Task.fail .panic
      else
        v.appendT H clog lg fuel ((data.prepend shape.1 calls).buffer v.round) (shape.1 + instants) rows
          cols true

/-- dataset.rs:162-213 `Dataset::append_i32`, and `append_i64`, `append_f32`, `append_f64`. -/
def Dataset.appendT (fuel : Nat) (d : Dataset) (name : List Byte) (data : NdArray)
    (instants rows cols : Nat) : Task Dataset :=
  match d.findVariable name with
  | none => Task.fail (.err (.badName name))
  | some v => do
    let v ← v.appendArrayT H clog lg fuel data instants rows cols
    pure { d with «variables» := replaceVariable v d.variables, prev := d.nextPrev, cid := none }

/-- dataset.rs:112-114 `Dataset::commit`. -/
def Dataset.commitT (d : Dataset) : Task Cid := Task.saveItem (.dataset d)

/-- dataset.rs:116-158 `Dataset::add_variable`. -/
def Dataset.addVariableT (d : Dataset) (name : List Byte) (round : Option Nat)
    (spanSize chunkSize : Nat) (k2Levels : List Nat) (encoding : MMEncoding) : Task Dataset := do
  let cid ← Task.saveItem (.struct (.span (Span.new d.rows d.cols chunkSize encoding)))
  pure { d with
    «variables» := d.variables ++ [⟨name, round, spanSize, chunkSize, k2Levels, encoding, cid⟩]
    prev := d.nextPrev
    cid := none }

end

/-! ### Running at the same time -/

section
variable (H : Hash) (utf8 : List Byte → Bool) (readFuel : Nat) (faults : Bool)

/-- What a read finds that loads each object at some moment since `since` was saved and before more is saved
than `log`. -/
def Saved.Meanwhile (since log : Saved) (st : Store) : Prop :=
  ∀ cid, ∃ l : Saved, l ⊆ log ∧ (∀ b ∈ since, b ∈ log → b ∈ l) ∧ st cid = l.load H cid

/-- One step of an operation, and what is saved before and after it. With `faults`, loading and saving may
fail at any time. -/
inductive Task.Step {α : Type} : Saved → Task α → Saved → Task α → Prop
  | load {log cid k x} : (log.load H).retrieve utf8 cid = .ok x → Step log (.load cid k) log (k x)
  | loadFails {log cid k f} : (log.load H).retrieve utf8 cid = .error f →
      Step log (.load cid k) log (.done (.error f))
  | loadFault {log cid k} (f) : faults = true → Step log (.load cid k) log (.done (.error f))
  | save {log b k} : Step log (.save b k) (b :: log) (k (H.cidOf b))
  | saveFault {log b k} (f) : faults = true → Step log (.save b k) log (.done (.error f))
  | saveOne {log bs b cs t} : Step log (.saveAll (bs ++ b :: cs) t) (b :: log) (.saveAll (bs ++ cs) t)
  | saved {log t} : Step log (.saveAll [] t) log t
  | saveAllFault {log bs t} (f) : faults = true → Step log (.saveAll bs t) log (.done (.error f))
  | fillBegins {log m k} : Step log (.fill m k) log (.filling log m k)
  | fill {log since m k st n rows cols calls} : m.shape = some (n, rows, cols) → since.Meanwhile H log st →
      m.fillWindow utf8 st readFuel m.fractionalBits (Cube.new 0 n 0 rows 0 cols) calls none →
      Step log (.filling since m k) log (k calls)
  | fillFails {log since m k st n rows cols calls f} : m.shape = some (n, rows, cols) →
      since.Meanwhile H log st →
      m.fillWindow utf8 st readFuel m.fractionalBits (Cube.new 0 n 0 rows 0 cols) calls (some f) →
      Step log (.filling since m k) log (.done (.error f))
  | fillPanics {log since m k} : m.shape = none →
      Step log (.filling since m k) log (.done (.error .panic))
  | fillFault {log since m k} (f) : faults = true → Step log (.filling since m k) log (.done (.error f))

/-- One of the operations takes a step. -/
inductive Tasks.Step {α : Type} : List (Task α) × Saved → List (Task α) × Saved → Prop
  | task {ts log i t log' t'} : ts[i]? = some t → Task.Step H utf8 readFuel faults log t log' t' →
      Step (ts, log) (ts.set i t', log')

/-- Any number of steps. -/
inductive Tasks.Steps {α : Type} : List (Task α) × Saved → List (Task α) × Saved → Prop
  | refl (s) : Steps s s
  | tail {s s' s''} : Steps s s' → Tasks.Step H utf8 readFuel faults s' s'' → Steps s s''

end

end Verif
