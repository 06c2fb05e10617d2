import Verif.Model.Log

/-!
Model of `/repo/dcdf/src/block.rs` and `/repo/dcdf/src/chunk.rs` (without serialization).

Simplifications: the input `MMBuffer3` of `Chunk::build` is a function `get` of instant, row and
column; output buffers become the list of calls to `set`; a `for` loop over an iterator first
collects the iterator and then runs the bodies.
-/
namespace Verif

/-- mmstruct.rs:37-43 `enum MMEncoding`. -/
inductive MMEncoding where
  | time | i32 | i64 | f32 | f64
deriving DecidableEq, Repr

/-- block.rs:15-21 `struct Block`. -/
structure Block where
  snapshot : Snapshot
  logs : List Log
deriving DecidableEq, Repr

/-- block.rs:26-38 `Block::new`. -/
def Block.new (snapshot : Snapshot) (logs : List Log) : Option Block :=
  if logs.length > 254 then none else some ⟨snapshot, logs⟩

/-- block.rs:42-47 `Block::get`. -/
def Block.get (b : Block) (instant row col : Nat) : Option Int64 :=
  match instant with
  | 0 => b.snapshot.get row col
  | i + 1 =>
    match b.logs[i]? with
    | none => none
    | some l => l.get b.snapshot row col

/-- block.rs:56-64 `Block::fill_window`. -/
def Block.fillWindow (b : Block) (instant : Nat) (bounds : Rect) :
    Option (List (Nat × Nat × Int64)) :=
  match instant with
  | 0 => b.snapshot.fillWindow bounds
  | i + 1 =>
    match b.logs[i]? with
    | none => none
    | some l => l.fillWindow b.snapshot bounds

/-- block.rs:70-81 `Block::search_window`. -/
def Block.searchWindow (b : Block) (instant : Nat) (bounds : Rect) (lower upper : Int64) :
    Option (List (Nat × Nat)) :=
  match instant with
  | 0 => b.snapshot.searchWindow bounds lower upper
  | i + 1 =>
    match b.logs[i]? with
    | none => none
    | some l => l.searchWindow b.snapshot bounds lower upper

/-- block.rs:114-118 `Block::size`. -/
def Block.size (b : Block) : Nat :=
  1 + b.snapshot.size + (b.logs.map Log.size).sum

/-- chunk.rs:24-39 `struct Chunk`. -/
structure Chunk where
  blocks : List Block
  index : List Nat
  encoding : MMEncoding
  fractionalBits : Nat
deriving DecidableEq, Repr

/-- The loop of `Chunk::new` and `Chunk::read_from` that fills `index` (chunk.rs:101-106). -/
def Chunk.mkIndex : (count : Nat) → List Block → List Nat
  | _, [] => []
  | count, b :: bs =>
    let count := count + (b.logs.length + 1)
    count :: Chunk.mkIndex count bs

/-- chunk.rs:100-114 `Chunk::new`. -/
def Chunk.new (blocks : List Block) (encoding : MMEncoding) (fractionalBits : Nat) : Chunk :=
  ⟨blocks, Chunk.mkIndex 0 blocks, encoding, fractionalBits⟩

/-- chunk.rs:272-277 `Chunk::size`. -/
def Chunk.size (c : Chunk) : Nat :=
  1 + 1 + 4 + (c.blocks.map Block.size).sum

/-- chunk.rs:119-123 `Chunk::shape`. -/
def Chunk.shape (c : Chunk) : Option (Nat × Nat × Nat) :=
  match c.blocks[0]? with
  | none => none
  | some b => some ((c.blocks.map fun b => 1 + b.logs.length).sum, b.snapshot.rows, b.snapshot.cols)

/-- The local variables of the loop of `Chunk::build` (chunk.rs:43-53). -/
structure Chunk.BuildState where
  countSnapshots : Nat
  countLogs : Nat
  blocks : List Block
  snapshot : Snapshot
  snapshotIndex : Nat
  logs : List Log

/-- chunk.rs:55-75, one iteration of the loop of `Chunk::build`. -/
def Chunk.buildStep (get : Nat → Nat → Nat → Int64) (rows cols k e : Nat) (st : Chunk.BuildState)
    (i : Nat) : Option Chunk.BuildState :=
  match Snapshot.build (get i) rows cols k e,
      Log.build (get st.snapshotIndex) (get i) rows cols k e with
  | some newSnapshot, some newLog =>
    if st.logs.length = 254 ∨ newSnapshot.size ≤ newLog.size then
      match Block.new st.snapshot st.logs with
      | none => none
      | some block =>
        some ⟨st.countSnapshots + 1, st.countLogs + st.logs.length, st.blocks ++ [block],
          newSnapshot, i, []⟩
    else
      some { st with logs := st.logs ++ [newLog] }
  | _, _ => none

/-- What `Chunk::build` reports (mmstruct.rs:24-34 `struct MMStruct3Build`; `elided`, `local` and
`external` are 0). -/
structure Chunk.Build where
  data : Chunk
  size : Nat
  logs : Nat
  snapshots : Nat
deriving DecidableEq, Repr

/-- chunk.rs:42-96 `Chunk::build`. -/
def Chunk.build (get : Nat → Nat → Nat → Int64) (instants rows cols k e : Nat)
    (encoding : MMEncoding) (fractionalBits : Nat) : Option Chunk.Build :=
  match Snapshot.build (get 0) rows cols k e with
  | none => none
  | some snapshot =>
    match (rangeExcl 1 instants).foldlM (Chunk.buildStep get rows cols k e)
        ⟨0, 0, [], snapshot, 0, []⟩ with
    | none => none
    | some st =>
      match Block.new st.snapshot st.logs with
      | none => none
      | some block =>
        let chunk := Chunk.new (st.blocks ++ [block]) encoding fractionalBits
        some ⟨chunk, chunk.size, st.countLogs + st.logs.length, st.countSnapshots + 1⟩

/-- chunk.rs:171-188, the loop of `Chunk::find_block`. Running out of fuel is `none`: the loop has
not ended within `fuel` iterations. -/
def Chunk.findLoop (index : List Nat) (instant : Nat) :
    (fuel lower upper i : Nat) → Option Nat
  | 0, _, _, _ => none
  | fuel + 1, lower, upper, i =>
    match index[i]? with
    | none => none
    | some here =>
      if here = instant then some (i + 1)
      else if here < instant then
        Chunk.findLoop index instant fuel i upper ((i + upper) / 2)
      else
        match csub i 1 with
        | none => none
        | some p =>
          match index[p]? with
          | none => none
          | some prev =>
            if prev ≤ instant then some i
            else Chunk.findLoop index instant fuel lower i ((lower + i) / 2)

/-- chunk.rs:164-191 `Chunk::find_block`, with the loop limited to `fuel` iterations. -/
def Chunk.findBlockFuel (c : Chunk) (fuel instant : Nat) : Option (Nat × Nat) :=
  match c.index[0]? with
  | none => none
  | some first =>
    if instant < first then some (0, instant)
    else
      match Chunk.findLoop c.index instant fuel 0 c.blocks.length (c.blocks.length / 2) with
      | none => none
      | some i =>
        match csub i 1 with
        | none => none
        | some p =>
          match c.index[p]? with
          | none => none
          | some prev =>
            match csub instant prev with
            | none => none
            | some offset => some (i, offset)

/-- `Chunk::find_block`; as many iterations as there are blocks are enough. -/
def Chunk.findBlock (c : Chunk) (instant : Nat) : Option (Nat × Nat) :=
  c.findBlockFuel (c.blocks.length + 1) instant

/-- chunk.rs:284-289 `struct ChunkIter`. -/
structure ChunkIter where
  block : Nat
  instant : Nat
  remaining : Nat
deriving DecidableEq, Repr

/-- chunk.rs:294-312 `ChunkIter::next`; outer `none` is a panic, inner `none` the end. -/
def ChunkIter.next (c : Chunk) (it : ChunkIter) : Option (Option ((Nat × Nat) × ChunkIter)) :=
  if it.remaining = 0 then some none
  else
    match c.blocks[it.block]? with
    | none => none
    | some block =>
      if it.instant = block.logs.length then
        some (some ((it.block, it.instant), ⟨it.block + 1, 0, it.remaining - 1⟩))
      else
        some (some ((it.block, it.instant), ⟨it.block, it.instant + 1, it.remaining - 1⟩))

/-- Driving the iterator to its end. -/
def ChunkIter.toList (c : Chunk) : (fuel : Nat) → ChunkIter → Option (List (Nat × Nat))
  | 0, _ => none
  | fuel + 1, it =>
    match it.next c with
    | none => none
    | some none => some []
    | some (some (x, it)) => (ChunkIter.toList c fuel it).map (x :: ·)

/-- chunk.rs:197-206 `Chunk::iter`. -/
def Chunk.iter (c : Chunk) (start fin : Nat) : Option ChunkIter :=
  match c.findBlock start, csub fin start with
  | some (block, instant), some remaining => some ⟨block, instant, remaining⟩
  | _, _ => none

/-- `self.iter(start, end).enumerate()`, collected. -/
def Chunk.iterList (c : Chunk) (start fin : Nat) : Option (List ((Nat × Nat) × Nat)) :=
  match c.iter start fin with
  | none => none
  | some it => (it.toList c (it.remaining + 1)).map List.zipIdx

/-- chunk.rs:127-131 `Chunk::get`. -/
def Chunk.get (c : Chunk) (instant row col : Nat) : Option Int64 :=
  match c.findBlock instant with
  | none => none
  | some (block, instant) =>
    match c.blocks[block]? with
    | none => none
    | some b => b.get instant row col

/-- chunk.rs:135-148 `Chunk::fill_cell`: calls `buffer.set(i, value)`. -/
def Chunk.fillCell (c : Chunk) (start fin row col : Nat) : Option (List (Nat × Int64)) :=
  match c.iterList start fin with
  | none => none
  | some L =>
    collect L fun p =>
      match c.blocks[p.1.1]? with
      | none => none
      | some b => (b.get p.1.2 row col).map fun v => [(p.2, v)]

/-- chunk.rs:152-158 `Chunk::fill_window`: calls `buffer.set(i, row, col, value)`. -/
def Chunk.fillWindow (c : Chunk) (bounds : Cube) : Option (List (Nat × Nat × Nat × Int64)) :=
  match c.iterList bounds.start bounds.fin with
  | none => none
  | some L =>
    collect L fun p =>
      match c.blocks[p.1.1]? with
      | none => none
      | some b =>
        (b.fillWindow p.1.2 bounds.rect).map fun calls => calls.map fun q => (p.2, q)

/-- helpers.rs:7-16 `rearrange` at `i64`. -/
def rearrangeI (lower upper : Int64) : Int64 × Int64 :=
  if lower > upper then (upper, lower) else (lower, upper)

/-- chunk.rs:336-344 `struct SearchIter`. -/
structure SearchIter where
  iter : ChunkIter
  bounds : Rect
  lower : Int64
  upper : Int64
  instant : Nat
  results : Option (List (Nat × Nat))
deriving DecidableEq, Repr

/-- chunk.rs:347-358 `SearchIter::next_results`. -/
def SearchIter.nextResults (c : Chunk) (it : SearchIter) : Option SearchIter :=
  match it.iter.next c with
  | none => none
  | some none => some { it with results := none }
  | some (some ((block, instant), iter)) =>
    match c.blocks[block]? with
    | none => none
    | some b =>
      match b.searchWindow instant it.bounds it.lower it.upper with
      | none => none
      | some results =>
        some { it with iter := iter, instant := it.instant + 1, results := some results }

/-- chunk.rs:213-228 `Chunk::iter_search`. -/
def Chunk.iterSearch (c : Chunk) (bounds : Cube) (lower upper : Int64) : Option SearchIter :=
  match c.iter bounds.start bounds.fin with
  | none => none
  | some it =>
    SearchIter.nextResults c
      ⟨it, bounds.rect, (rearrangeI lower upper).1, (rearrangeI lower upper).2, bounds.start, none⟩

/-- chunk.rs:368-374, the `while result == None` loop of `SearchIter::next`. -/
def SearchIter.skip (c : Chunk) : (fuel : Nat) → SearchIter →
    Option (Option (Nat × Nat) × SearchIter)
  | 0, _ => none
  | fuel + 1, it =>
    match it.nextResults c with
    | none => none
    | some it =>
      match it.results with
      | none => some (none, it)
      | some [] => SearchIter.skip c fuel it
      | some (x :: xs) => some (some x, { it with results := some xs })

/-- chunk.rs:364-382 `SearchIter::next`; outer `none` is a panic, inner `none` the end. -/
def SearchIter.next (c : Chunk) (it : SearchIter) :
    Option (Option (Nat × Nat × Nat) × SearchIter) :=
  match it.results with
  | none => some (none, it)
  | some results =>
    let found : Option (Option (Nat × Nat) × SearchIter) :=
      match results with
      | [] => SearchIter.skip c (it.iter.remaining + 1) it
      | x :: xs => some (some x, { it with results := some xs })
    match found with
    | none => none
    | some (none, it) => some (none, it)
    | some (some (row, col), it) =>
      match csub it.instant 1 with
      | none => none
      | some instant => some (some (instant, row, col), it)

/-- Driving the search iterator to its end. -/
def SearchIter.toList (c : Chunk) : (fuel : Nat) → SearchIter →
    Option (List (Nat × Nat × Nat))
  | 0, _ => none
  | fuel + 1, it =>
    match it.next c with
    | none => none
    | some (none, _) => some []
    | some (some x, it) => (SearchIter.toList c fuel it).map (x :: ·)

end Verif
