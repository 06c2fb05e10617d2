import Mathlib.Data.List.Forall2
import Verif.Model.Store

/-!
Model of reading and searching structures in the store: `/repo/dcdf/src/superchunk.rs:313-633`,
`/repo/dcdf/src/span.rs:113-273` and `/repo/dcdf/src/mmstruct.rs:103-178`.

Concurrency: an operation is a relation `Out` between what it emitted, in order, and how it ended.
Futures that run together contribute any interleaving of what they emit. Reads emit the calls to
`set` of the output buffer, each with the number of fractional bits the buffer has at that moment
(`set_fractional_bits` of the integer buffers does nothing); `fill_instant` is one call per cell.
Output buffers are assumed to have the shape of the window that is read (as allocated in
`mmarray.rs`), so slicing them is a shift of positions. Searches emit stream items; `none` is an
`Err` item.

Recursion through the store is limited by fuel; running out of it is a panic.
-/
namespace Verif

/-- `t` is made of the elements of the lists `ls`, each list in its order. -/
inductive Interleave {α : Type} : List (List α) → List α → Prop
  | done {ls} : (∀ l ∈ ls, l = []) → Interleave ls []
  | step {ls i x xs t} : ls[i]? = some (x :: xs) → Interleave (ls.set i xs) t →
      Interleave ls (x :: t)

/-- An operation: what it emits, and how it ends (`none`: well). -/
def Out (β : Type) := List β → Option Fail → Prop

namespace Out

variable {β γ : Type}

/-- Emits the list and ends well. -/
def emit (l : List β) : Out β := fun t s => t = l ∧ s = none

/-- Fails at once. -/
def fail (f : Fail) : Out β := fun t s => t = [] ∧ s = some f

/-- A synchronous computation that may panic. -/
def ofOption : Option (List β) → Out β
  | some l => emit l
  | none => fail .panic

/-- Awaiting a value before going on (`?` on failure). -/
def await {α : Type} (x : Except Fail α) (k : α → Out β) : Out β :=
  match x with
  | .ok a => k a
  | .error f => fail f

/-- The same operation with its outputs translated. -/
def map (g : β → γ) (o : Out β) : Out γ := fun t s => ∃ t', o t' s ∧ t = t'.map g

/-- Each of the operations run to its end. -/
def Runs (ps : List (Out β)) (rs : List (List β × Option Fail)) : Prop :=
  List.Forall₂ (fun p r => p r.1 r.2) ps rs

/-- Some interleaving of the beginnings of the runs. -/
def Partial (rs : List (List β × Option Fail)) (t : List β) : Prop :=
  ∃ pre, List.Forall₂ (fun r l => l <+: r.1) rs pre ∧ Interleave pre t

/-- `while let Some(_) = futures.try_next().await? {}` on a `FuturesUnordered`: ends at the first
failure that comes up. -/
def tryAll (ps : List (Out β)) : Out β := fun t s =>
  ∃ rs, Runs ps rs ∧
    match s with
    | none => (∀ r ∈ rs, r.2 = none) ∧ Interleave (rs.map Prod.fst) t
    | some f => (∃ r ∈ rs, r.2 = some f) ∧ Partial rs t

/-- `join_all(futures).await` with the results dropped: errors are lost, panics are not. Also the
draining of a stream made by `flatten_unordered`. -/
def joinAll (ps : List (Out β)) : Out β := fun t s =>
  ∃ rs, Runs ps rs ∧
    match s with
    | none => (∀ r ∈ rs, r.2 ≠ some .panic) ∧ Interleave (rs.map Prod.fst) t
    | some f => f = .panic ∧ (∃ r ∈ rs, r.2 = some .panic) ∧ Partial rs t

end Out

/-! ### Superchunks: which subchunks a window touches -/

/-- superchunk.rs:773-785 `struct WindowSubchunk`. -/
structure WindowSubchunk where
  index : Nat
  chunk : Rect
  loc : Rect
  slice : Rect
deriving DecidableEq, Repr

/-- superchunk.rs:600-607, 610-617: one side of a subchunk; the numbers of its first and last row in
the superchunk, in itself and in the window. -/
def sideSlices (n lo hi cs : Nat) : Option (Nat × Nat × Nat × Nat × Nat × Nat) :=
  let chunkLo := n * cs
  let windowLo := max chunkLo lo
  match csub windowLo chunkLo, csub windowLo lo with
  | some localLo, some sliceLo =>
    let chunkHi := chunkLo + cs
    let windowHi := min chunkHi hi
    match csub windowHi chunkLo, csub windowHi lo with
    | some localHi, some sliceHi => some (chunkLo, chunkHi, localLo, localHi, sliceLo, sliceHi)
    | _, _ => none
  | _, _ => none

/-- superchunk.rs:589-633 `Superchunk::subchunks_for`; dividing by 0 panics. -/
def SuperHead.subchunksFor (h : SuperHead) (window : Rect) : Option (List WindowSubchunk) :=
  if h.chunksSidelen = 0 then none
  else
    match csub window.bottom 1, csub window.right 1 with
    | some b1, some r1 =>
      let chunks := Rect.new (window.top / h.chunksSidelen) (b1 / h.chunksSidelen)
        (window.left / h.chunksSidelen) (r1 / h.chunksSidelen)
      collect (rangeIncl chunks.top chunks.bottom) fun row =>
        match sideSlices row window.top window.bottom h.chunksSidelen with
        | none => none
        | some (ct, cb, lt, lb, st, sb) =>
          collect (rangeIncl chunks.left chunks.right) fun col =>
            match sideSlices col window.left window.right h.chunksSidelen with
            | none => none
            | some (cl, cr, ll, lr, sl, sr) =>
              some [⟨row * h.subsidelen + col, Rect.new ct cb cl cr, Rect.new lt lb ll lr,
                Rect.new st sb sl sr⟩]
    | _, _ => none

/-- superchunk.rs:324-329: the subchunk a cell is in, and the position in it. -/
def SuperHead.locate (h : SuperHead) (row col : Nat) : Option (Nat × Nat × Nat) :=
  if h.chunksSidelen = 0 then none
  else
    some (row / h.chunksSidelen * h.subsidelen + col / h.chunksSidelen, row % h.chunksSidelen,
      col % h.chunksSidelen)

/-- The index in `max` and `min` of a subchunk at an instant. -/
def SuperHead.slot (h : SuperHead) (index instant : Nat) : Nat :=
  index + instant * (h.subsidelen * h.subsidelen)

/-- superchunk.rs:790-820, all items of a `SuperCellIter`, numbered. -/
def SuperHead.elidedCell (h : SuperHead) (start fin index : Nat) : Option (List (Nat × Int64)) :=
  match csub fin start with
  | none => none
  | some n => collect (List.range n) fun i => (h.max.get (h.slot index (start + i))).map fun v => [(i, v)]

/-- superchunk.rs:427-433: fills every instant of the slice with one value. -/
def SuperHead.elidedWindow (h : SuperHead) (bounds : Cube) (index : Nat) :
    Option (List (Nat × Nat × Nat × Int64)) :=
  match bounds.instants, bounds.rows, bounds.cols with
  | some n, some rows, some cols =>
    collect (List.range n) fun i =>
      match h.max.get (h.slot index (bounds.start + i)) with
      | none => none
      | some v =>
        some ((List.range rows).flatMap fun r => (List.range cols).map fun c => (i, r, c, v))
  | _, _, _ => none

/-- superchunk.rs:541-559: hits in an elided subchunk; `step_by` panics for steps of zero. -/
def SuperHead.elidedSearch (h : SuperHead) (bounds : Cube) (index top left : Nat)
    (lower upper : Int64) : Option (List (Nat × Nat × Nat)) :=
  if h.subsidelen = 0 then none else
  match csub bounds.fin bounds.start with
  | none => none
  | some n =>
    collect (List.range n) fun i =>
      match h.max.get (h.slot index (bounds.start + i)) with
      | none => none
      | some v =>
        if lower ≤ v ∧ v ≤ upper then
          some ((rangeExcl bounds.top bounds.bottom).flatMap fun row =>
            (rangeExcl bounds.left bounds.right).map fun col => (i + bounds.start, row + top, col + left))
        else some []

/-- superchunk.rs:480-494 `has_cells`, from an instant on. -/
def SuperHead.hasCells (h : SuperHead) (lower upper : Int64) (index : Nat) : List Nat → Option Bool
  | [] => some false
  | t :: ts =>
    match h.min.get (h.slot index t), h.max.get (h.slot index t) with
    | some min, some max =>
      if upper ≥ min ∧ lower ≤ max then some true else h.hasCells lower upper index ts
    | _, _ => none

/-- span.rs:277-279 `Span::find_span`; dividing by 0 panics. -/
def Span.findSpan (s : Span) (instant : Nat) : Option (Nat × Nat) :=
  if s.stride = 0 then none else some (instant / s.stride, instant % s.stride)

/-- One piece of a time range: which subspan, from which instant in it, how long, and at which
position in the range. -/
structure Piece where
  span : Nat
  instant : Nat
  len : Nat
  start : Nat
deriving DecidableEq, Repr

/-- The loop of span.rs:148-168 (190-215, 238-266 alike): `while start < instants`. -/
def Span.pieces (stride instants : Nat) : (fuel span instant start : Nat) → Option (List Piece)
  | 0, _, _, _ => none
  | fuel + 1, span, instant, start =>
    if start < instants then
      match csub stride instant with
      | none => none
      | some room =>
        let len := min room (instants - start)
        (Span.pieces stride instants fuel (span + 1) 0 (start + len)).map
          (⟨span, instant, len, start⟩ :: ·)
    else some []

/-- All pieces of a time range of `instants` instants from `start` on. Every piece has at least one
instant. -/
def Span.piecesFor (s : Span) (start instants : Nat) : Option (List Piece) :=
  match s.findSpan start with
  | none => none
  | some (span, instant) => Span.pieces s.stride instants (instants + 1) span instant 0

section
variable (utf8 : List Byte → Bool) (st : Store)

/-- superchunk.rs:336-347: the subchunk a reference points to; an index out of range panics. -/
def SuperHead.deref (h : SuperHead) (loc : List MMStruct3) : Reference → Except Fail MMStruct3
  | .elided => .error .panic
  | .loc i =>
    match loc[i]? with
    | none => .error .panic
    | some m => .ok m
  | .external i =>
    match st.getLinks utf8 h.externalCid with
    | .error e => .error e
    | .ok links =>
      match links.cids[i]? with
      | none => .error .panic
      | some cid => st.getStruct utf8 cid

/-- mmstruct.rs:103-123 `MMStruct3::get` with superchunk.rs:313-351 `Superchunk::get` and
span.rs:121-134 `Span::get`: the value passed to `set`, with the fractional bits of the buffer. -/
def MMStruct3.get : (fuel : Nat) → MMStruct3 → (bits instant row col : Nat) →
    Except Fail (Nat × Int64)
  | 0, _, _, _, _, _ => .error .panic
  | fuel + 1, m, bits, instant, row, col =>
    let enter (x : Except Fail MMStruct3) (instant row col : Nat) : Except Fail (Nat × Int64) :=
      match x with
      | .error f => .error f
      | .ok m => MMStruct3.get fuel m m.fractionalBits instant row col
    match m with
    | .subchunk c =>
      match c.get instant row col with
      | none => .error .panic
      | some v => .ok (bits, v)
    | .superchunk h loc =>
      match h.locate row col with
      | none => .error .panic
      | some (index, row, col) =>
        match h.references[index]? with
        | none => .error .panic
        | some .elided =>
          match h.max.get (h.slot index instant) with
          | none => .error .panic
          | some v => .ok (bits, v)
        | some ref => enter (h.deref utf8 st loc ref) instant row col
    | .span s =>
      match s.findSpan instant with
      | none => .error .panic
      | some (n, instant) =>
        match s.spans[n]? with
        | none => .error .panic
        | some cid => enter (st.getStruct utf8 cid) instant row col

/-- mmstruct.rs:128-143 `MMStruct3::fill_cell` with superchunk.rs:356-398 and span.rs:131-178. -/
def MMStruct3.fillCell : (fuel : Nat) → MMStruct3 → (bits start fin row col : Nat) →
    Out (Nat × Nat × Int64)
  | 0, _, _, _, _, _, _ => Out.fail .panic
  | fuel + 1, m, bits, start, fin, row, col =>
    match m with
    | .subchunk c =>
      Out.ofOption ((c.fillCell start fin row col).map (·.map fun p => (p.1, bits, p.2)))
    | .superchunk h loc =>
      match h.locate row col with
      | none => Out.fail .panic
      | some (index, row, col) =>
        match h.references[index]? with
        | none => Out.fail .panic
        | some .elided =>
          Out.ofOption ((h.elidedCell start fin index).map (·.map fun p => (p.1, bits, p.2)))
        | some ref =>
          Out.await (h.deref utf8 st loc ref) fun m =>
            MMStruct3.fillCell fuel m m.fractionalBits start fin row col
    | .span s =>
      match csub fin start with
      | none => Out.fail .panic
      | some instants =>
        match s.piecesFor start instants with
        | none => Out.fail .panic
        | some pieces =>
          -- an index out of range panics before any future runs
          if ∀ p ∈ pieces, p.span < s.spans.length then
            Out.tryAll (pieces.map fun (p : Piece) =>
              match s.spans[p.span]? with
              | none => Out.fail .panic
              | some cid =>
                Out.await (st.getStruct utf8 cid) fun m =>
                  (MMStruct3.fillCell fuel m m.fractionalBits p.instant (p.instant + p.len)
                    row col).map fun q => (p.start + q.1, q.2))
          else Out.fail .panic

/-- mmstruct.rs:148-160 `MMStruct3::fill_window` with superchunk.rs:403-457 and span.rs:183-221. -/
def MMStruct3.fillWindow : (fuel : Nat) → MMStruct3 → (bits : Nat) → Cube →
    Out (Nat × Nat × Nat × Nat × Int64)
  | 0, _, _, _ => Out.fail .panic
  | fuel + 1, m, bits, window =>
    match m with
    | .subchunk c =>
      Out.ofOption ((c.fillWindow window).map
        (·.map fun p => (p.1, p.2.1, p.2.2.1, bits, p.2.2.2)))
    | .superchunk h loc =>
      match h.subchunksFor window.rect with
      | none => Out.fail .panic
      | some subs =>
        Out.joinAll (subs.map fun (sub : WindowSubchunk) =>
          let bounds := Cube.new window.start window.fin sub.loc.top sub.loc.bottom sub.loc.left
            sub.loc.right
          let part : Out (Nat × Nat × Nat × Nat × Int64) :=
            match h.references[sub.index]? with
            | none => Out.fail .panic
            | some .elided =>
              Out.ofOption ((h.elidedWindow bounds sub.index).map
                (·.map fun p => (p.1, p.2.1, p.2.2.1, bits, p.2.2.2)))
            | some ref =>
              Out.await (h.deref utf8 st loc ref) fun m =>
                MMStruct3.fillWindow fuel m m.fractionalBits bounds
          part.map fun q => (q.1, sub.slice.top + q.2.1, sub.slice.left + q.2.2.1, q.2.2.2))
    | .span s =>
      match window.instants with
      | none => Out.fail .panic
      | some instants =>
        match s.piecesFor window.start instants with
        | none => Out.fail .panic
        | some pieces =>
          if ∀ p ∈ pieces, p.span < s.spans.length then
            Out.tryAll (pieces.map fun (p : Piece) =>
              match s.spans[p.span]? with
              | none => Out.fail .panic
              | some cid =>
                Out.await (st.getStruct utf8 cid) fun m =>
                  (MMStruct3.fillWindow fuel m m.fractionalBits
                    (Cube.new p.instant (p.instant + p.len) window.top window.bottom window.left
                      window.right)).map fun q => (p.start + q.1, q.2))
          else Out.fail .panic

/-- mmstruct.rs:167-184 `MMStruct3::search` with superchunk.rs:464-585 and span.rs:228-268; an error
on the way is an item of the stream. -/
def MMStruct3.search : (fuel : Nat) → MMStruct3 → Cube → (lower upper : Int64) →
    Out (Option (Nat × Nat × Nat))
  | 0, _, _, _, _ => Out.fail .panic
  | fuel + 1, m, bounds, lower, upper =>
    -- `once(ready(Err(err)))`
    let enter (x : Except Fail MMStruct3) (k : MMStruct3 → Out (Option (Nat × Nat × Nat))) :
        Out (Option (Nat × Nat × Nat)) :=
      match x with
      | .ok m => k m
      | .error (.err _) => Out.emit [none]
      | .error .panic => Out.fail .panic
    match m with
    | .subchunk c =>
      match c.iterSearch bounds lower upper with
      | none => Out.fail .panic
      | some it => fun t s =>
        (∃ n l, it.toList c n = some l ∧ t = l.map some ∧ s = none) ∨
          ((∀ n, it.toList c n = none) ∧ t = [] ∧ s = some .panic)
    | .superchunk h loc =>
      let lower' := (rearrangeI lower upper).1
      let upper' := (rearrangeI lower upper).2
      match h.subchunksFor bounds.rect with
      | none => Out.fail .panic
      | some subs =>
        match collect subs fun (sub : WindowSubchunk) =>
            (h.hasCells lower' upper' sub.index (rangeExcl bounds.start bounds.fin)).map
              fun b => if b then [sub] else [] with
        | none => Out.fail .panic
        | some subs =>
          Out.joinAll (subs.map fun (sub : WindowSubchunk) =>
            let inner := Cube.new bounds.start bounds.fin sub.loc.top sub.loc.bottom sub.loc.left
              sub.loc.right
            match h.references[sub.index]? with
            | none => Out.fail .panic
            | some .elided =>
              Out.ofOption ((h.elidedSearch inner sub.index sub.chunk.top sub.chunk.left lower'
                upper').map (·.map some))
            | some ref =>
              enter (h.deref utf8 st loc ref) fun m =>
                (MMStruct3.search fuel m inner lower' upper').map (·.map fun q =>
                  (q.1, q.2.1 + sub.chunk.top, q.2.2 + sub.chunk.left)))
    | .span s =>
      match bounds.instants with
      | none => Out.fail .panic
      | some instants =>
        match s.piecesFor bounds.start instants with
        | none => Out.fail .panic
        | some pieces =>
          if ∀ p ∈ pieces, p.span < s.spans.length then
            Out.joinAll (pieces.map fun (p : Piece) =>
              match s.spans[p.span]? with
              | none => Out.fail .panic
              | some cid =>
                enter (st.getStruct utf8 cid) fun m =>
                  (MMStruct3.search fuel m (Cube.new p.instant (p.instant + p.len) bounds.top
                    bounds.bottom bounds.left bounds.right) lower upper).map
                    (·.map fun q => (q.1 + p.span * s.stride, q.2)))
          else Out.fail .panic

end

end Verif
