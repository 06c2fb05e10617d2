import Verif.Model.MMArray

/-!
Model of output buffers as views of memory: `/repo/dcdf/src/mmbuffer.rs:92-303`, `343-366`, `498-656`.

`slice` of a buffer makes a view of a part of the same array by `unsafe` code (`raw_view_mut`,
`deref_into_view_mut`): the compiler checks neither that views which are in use at the same time are apart, nor
that the array is not used through the buffer meanwhile. Here a view is where it begins in the array and its
shape; slicing and setting outside of it panics, as in `ndarray`. Values are as in Model/Struct.lean.
A call to `set` is emitted with its position in the array.
-/
namespace Verif

/-- mmbuffer.rs:498-656: a view of a part of an array. -/
structure View3 where
  instant : Nat
  row : Nat
  col : Nat
  instants : Nat
  rows : Nat
  cols : Nat
deriving DecidableEq, Repr

/-- mmbuffer.rs:508-525 `slice` (534-551, 573-594, 635-656 alike); `slice_mut` panics if a range is backwards
or reaches too far. -/
def View3.slice (v : View3) (start fin top bottom left right : Nat) : Option View3 :=
  if (start ≤ fin ∧ fin ≤ v.instants) ∧ (top ≤ bottom ∧ bottom ≤ v.rows) ∧ left ≤ right ∧ right ≤ v.cols then
    some ⟨v.instant + start, v.row + top, v.col + left, fin - start, bottom - top, right - left⟩
  else none

/-- mmbuffer.rs:504-506 `set` (530-532, 561-563, 623-625 alike): the position in the array; out of range panics. -/
def View3.set (v : View3) (t r c : Nat) : Option (Nat × Nat × Nat) :=
  if t < v.instants ∧ r < v.rows ∧ c < v.cols then some (v.instant + t, v.row + r, v.col + c) else none

/-- The position is in the view. -/
def View3.Has (v : View3) (p : Nat × Nat × Nat) : Prop :=
  (v.instant ≤ p.1 ∧ p.1 < v.instant + v.instants) ∧ (v.row ≤ p.2.1 ∧ p.2.1 < v.row + v.rows) ∧
    v.col ≤ p.2.2 ∧ p.2.2 < v.col + v.cols

/-- mmbuffer.rs:343-364 `fill_instant`: one call per cell; an instant out of range panics. -/
def View3.fillInstant (v : View3) (i : Nat) (value : Int64) : Option (List (Nat × Nat × Nat × Int64)) :=
  if i < v.instants then
    some ((List.range v.rows).flatMap fun r => (List.range v.cols).map fun c =>
      (v.instant + i, v.row + r, v.col + c, value))
  else none

/-- mmbuffer.rs:92-97, 159-252: a view of a part of an array of one dimension. -/
structure View1 where
  start : Nat
  len : Nat
deriving DecidableEq, Repr

/-- mmbuffer.rs:109-116 `slice`. -/
def View1.slice (v : View1) (start fin : Nat) : Option View1 :=
  if start ≤ fin ∧ fin ≤ v.len then some ⟨v.start + start, fin - start⟩ else none

/-- mmbuffer.rs:100-107 `set`. -/
def View1.set (v : View1) (i : Nat) : Option Nat := if i < v.len then some (v.start + i) else none

def View1.Has (v : View1) (p : Nat) : Prop := v.start ≤ p ∧ p < v.start + v.len

section
variable (utf8 : List Byte → Bool) (st : Store)

/-- superchunk.rs:409-417: the slice of one subchunk. -/
def View3.forSubchunk (view : View3) (window : Cube) (sub : WindowSubchunk) : Option View3 :=
  match csub window.fin window.start with
  | none => none
  | some n => view.slice 0 n sub.slice.top sub.slice.bottom sub.slice.left sub.slice.right

/-- superchunk.rs:429-435: fills every instant of the slice with one value. -/
def SuperHead.elidedFill (h : SuperHead) (bounds : Cube) (index : Nat) (view : View3) :
    Option (List (Nat × Nat × Nat × Int64)) :=
  match bounds.instants with
  | none => none
  | some n =>
    collect (List.range n) fun i =>
      match h.max.get (h.slot index (bounds.start + i)) with
      | none => none
      | some v => view.fillInstant i v

/-- mmstruct.rs:148-160 `MMStruct3::fill_window` with chunk.rs:152-158, superchunk.rs:403-457 and
span.rs:183-221, on a view. -/
def MMStruct3.fillView : (fuel : Nat) → MMStruct3 → (bits : Nat) → Cube → View3 →
    Out (Nat × Nat × Nat × Nat × Int64)
  | 0, _, _, _, _ => Out.fail .panic
  | fuel + 1, m, bits, window, view =>
    match m with
    | .subchunk c =>
      match c.fillWindow window with
      | none => Out.fail .panic
      | some calls =>
        Out.ofOption (collect calls fun q =>
          (view.set q.1 q.2.1 q.2.2.1).map fun p => [(p.1, p.2.1, p.2.2, bits, q.2.2.2)])
    | .superchunk h loc =>
      match h.subchunksFor window.rect with
      | none => Out.fail .panic
      | some subs =>
        -- the slices are made before any future runs
        match collect subs fun sub => (view.forSubchunk window sub).map fun v => [(sub, v)] with
        | none => Out.fail .panic
        | some parts =>
          Out.joinAll (parts.map fun (sub, v) =>
            let bounds := Cube.new window.start window.fin sub.loc.top sub.loc.bottom sub.loc.left
              sub.loc.right
            match h.references[sub.index]? with
            | none => Out.fail .panic
            | some .elided =>
              Out.ofOption ((h.elidedFill bounds sub.index v).map
                (·.map fun p => (p.1, p.2.1, p.2.2.1, bits, p.2.2.2)))
            | some ref =>
              Out.await (h.deref utf8 st loc ref) fun m => MMStruct3.fillView fuel m m.fractionalBits bounds v)
    | .span s =>
      match s.piecesFor window.start view.instants with
      | none => Out.fail .panic
      | some pieces =>
        match collect pieces fun p =>
            (view.slice p.start (p.start + p.len) 0 view.rows 0 view.cols).map fun v => [(p, v)] with
        | none => Out.fail .panic
        | some parts =>
          if ∀ p ∈ pieces, p.span < s.spans.length then
            Out.tryAll (parts.map fun (p, v) =>
              match s.spans[p.span]? with
              | none => Out.fail .panic
              | some cid =>
                Out.await (st.getStruct utf8 cid) fun m =>
                  MMStruct3.fillView fuel m m.fractionalBits
                    (Cube.new p.instant (p.instant + p.len) window.top window.bottom window.left window.right) v)
          else Out.fail .panic

/-- The views that are made while a window is read if all futures run to their end, each with the way to the
future that has it: the number of the future in the operation that made it, for every operation on the way. -/
def MMStruct3.slices : (fuel : Nat) → MMStruct3 → Cube → View3 → List (List Nat × View3)
  | 0, _, _, _ => []
  | fuel + 1, m, window, view =>
    ([], view) ::
    match m with
    | .subchunk _ => []
    | .superchunk h loc =>
      match h.subchunksFor window.rect with
      | none => []
      | some subs =>
        subs.zipIdx.flatMap fun (sub, i) =>
          match view.forSubchunk window sub with
          | none => []
          | some v =>
            let bounds := Cube.new window.start window.fin sub.loc.top sub.loc.bottom sub.loc.left
              sub.loc.right
            match (h.references[sub.index]?).map (h.deref utf8 st loc) with
            | some (.ok m) => (MMStruct3.slices fuel m bounds v).map fun x => (i :: x.1, x.2)
            | _ => [([i], v)]
    | .span s =>
      match s.piecesFor window.start view.instants with
      | none => []
      | some pieces =>
        pieces.zipIdx.flatMap fun (p, i) =>
          match view.slice p.start (p.start + p.len) 0 view.rows 0 view.cols with
          | none => []
          | some v =>
            match (s.spans[p.span]?).map (st.getStruct utf8) with
            | some (.ok m) =>
              (MMStruct3.slices fuel m
                (Cube.new p.instant (p.instant + p.len) window.top window.bottom window.left window.right) v).map
                fun x => (i :: x.1, x.2)
            | _ => [([i], v)]

/-- mmstruct.rs:128-143 `MMStruct3::fill_cell` with chunk.rs:135-148, superchunk.rs:356-398 and span.rs:139-178,
on a view. -/
def MMStruct3.fillView1 : (fuel : Nat) → MMStruct3 → (bits start fin row col : Nat) → View1 →
    Out (Nat × Nat × Int64)
  | 0, _, _, _, _, _, _, _ => Out.fail .panic
  | fuel + 1, m, bits, start, fin, row, col, view =>
    let store (calls : Option (List (Nat × Int64))) : Out (Nat × Nat × Int64) :=
      match calls with
      | none => Out.fail .panic
      | some calls => Out.ofOption (collect calls fun q => (view.set q.1).map fun p => [(p, bits, q.2)])
    match m with
    | .subchunk c => store (c.fillCell start fin row col)
    | .superchunk h loc =>
      match h.locate row col with
      | none => Out.fail .panic
      | some (index, row, col) =>
        match h.references[index]? with
        | none => Out.fail .panic
        | some .elided => store (h.elidedCell start fin index)
        | some ref =>
          Out.await (h.deref utf8 st loc ref) fun m =>
            MMStruct3.fillView1 fuel m m.fractionalBits start fin row col view
    | .span s =>
      match csub fin start with
      | none => Out.fail .panic
      | some instants =>
        match s.piecesFor start instants with
        | none => Out.fail .panic
        | some pieces =>
          match collect pieces fun p => (view.slice p.start (p.start + p.len)).map fun v => [(p, v)] with
          | none => Out.fail .panic
          | some parts =>
            if ∀ p ∈ pieces, p.span < s.spans.length then
              Out.tryAll (parts.map fun (p, v) =>
                match s.spans[p.span]? with
                | none => Out.fail .panic
                | some cid =>
                  Out.await (st.getStruct utf8 cid) fun m =>
                    MMStruct3.fillView1 fuel m m.fractionalBits p.instant (p.instant + p.len) row col v)
            else Out.fail .panic

/-- As `slices`, for `fill_cell`. -/
def MMStruct3.slices1 : (fuel : Nat) → MMStruct3 → (start fin row col : Nat) → View1 → List (List Nat × View1)
  | 0, _, _, _, _, _, _ => []
  | fuel + 1, m, start, fin, row, col, view =>
    match m with
    | .subchunk _ => [([], view)]
    | .superchunk h loc =>
      -- the buffer is passed on
      match h.locate row col with
      | none => [([], view)]
      | some (index, row, col) =>
        match (h.references[index]?).map (h.deref utf8 st loc) with
        | some (.ok m) => MMStruct3.slices1 fuel m start fin row col view
        | _ => [([], view)]
    | .span s =>
      ([], view) ::
      match s.piecesFor start (fin - start) with
      | none => []
      | some pieces =>
        pieces.zipIdx.flatMap fun (p, i) =>
          match view.slice p.start (p.start + p.len) with
          | none => []
          | some v =>
            match (s.spans[p.span]?).map (st.getStruct utf8) with
            | some (.ok m) =>
              (MMStruct3.slices1 fuel m p.instant (p.instant + p.len) row col v).map fun x => (i :: x.1, x.2)
            | _ => [([i], v)]

/-- mmarray.rs:186-199 `window`, on the array it allocates. -/
def Kind.windowView {α : Type} (kind : Kind α) (fuel : Nat) (data : MMStruct3) (bounds : Cube)
    (res : Except Fail (List (List (List α)))) : Prop :=
  match data.checkCube bounds with
  | none => res = .error .panic
  | some () =>
    match csub bounds.fin bounds.start, csub bounds.bottom bounds.top, csub bounds.right bounds.left with
    | some n, some rows, some cols =>
      ∃ t s, data.fillView utf8 st fuel data.fractionalBits bounds ⟨0, 0, 0, n, rows, cols⟩ t s ∧
        res = match s with
          | some f => .error f
          | none => .ok ((List.range n).map fun t' => (List.range rows).map fun r =>
            (List.range cols).map fun c => written kind.zero kind.dec t t' r c)
    | _, _, _ => res = .error .panic

/-- mmarray.rs:167-182 `cell`, on the array it allocates. -/
def Kind.cellView {α : Type} (kind : Kind α) (fuel : Nat) (data : MMStruct3) (start fin row col : Nat)
    (res : Except Fail (List α)) : Prop :=
  match csub fin 1 with
  | none => res = .error .panic
  | some last =>
    match data.checkBounds last row col with
    | none => res = .error .panic
    | some () =>
      match csub fin start with
      | none => res = .error .panic
      | some n => ∃ t s, data.fillView1 utf8 st fuel data.fractionalBits start fin row col ⟨0, n⟩ t s ∧
        res = match s with
          | some f => .error f
          | none => .ok ((List.range n).map (written1 kind t))

end

/-- superchunk.rs:127-141: the slice of the input for a subarray, if it is in the array. -/
def View3.tile (view : View3) (chunksSidelen : Nat) (pos : Nat × Nat) : Option (Option View3) :=
  let top := pos.1 * chunksSidelen
  let bottom := min (top + chunksSidelen) view.rows
  let left := pos.2 * chunksSidelen
  let right := min (left + chunksSidelen) view.cols
  if top ≥ view.rows ∨ left ≥ view.cols then some none
  else (view.slice 0 view.instants top bottom left right).map some

/-- superchunk.rs:88-193: the views of the input that are made to build a superchunk, as if nothing were elided
and no subarray were small enough for a chunk (else fewer are made). -/
def Superchunk.buildSlices (clog : Nat → Nat) (k : Nat) : (levels : List Nat) → View3 → List (List Nat × View3)
  | [], view => [([], view)]
  | level :: sub, view =>
    ([], view) ::
    let totalLevels := clog (max view.rows view.cols)
    if (level :: sub).sum ≠ totalLevels then []
    else
      let subsidelen := k ^ level
      let chunksSidelen := k ^ totalLevels / subsidelen
      ((List.range subsidelen).flatMap fun r => (List.range subsidelen).map fun c => (r, c)).zipIdx.flatMap
        fun (pos, i) =>
          match view.tile chunksSidelen pos with
          | some (some v) => (buildSlices clog k sub v).map fun x => (i :: x.1, x.2)
          | _ => []

end Verif
