/-!
Model of `/repo/dcdf/src/geom.rs` and `/repo/dcdf/src/helpers.rs`.
`usize` is `Nat`; a subtraction that would underflow is a panic (`none`).
-/
namespace Verif

/-- `usize` subtraction; underflow is a panic. -/
def csub (a b : Nat) : Option Nat := if b ≤ a then some (a - b) else none

/-- helpers.rs:7-16 `rearrange` (used at `usize` by geom.rs). -/
def rearrange (lower upper : Nat) : Nat × Nat :=
  if lower > upper then (upper, lower) else (lower, upper)

/-- geom.rs:4-10 `struct Rect`. -/
structure Rect where
  top : Nat
  bottom : Nat
  left : Nat
  right : Nat
deriving DecidableEq, Repr

/-- geom.rs:13-23 `Rect::new`. -/
def Rect.new (top bottom left right : Nat) : Rect :=
  let tb := rearrange top bottom
  let lr := rearrange left right
  ⟨tb.1, tb.2, lr.1, lr.2⟩

/-- geom.rs:25-27 `Rect::rows`. -/
def Rect.rows (r : Rect) : Option Nat := csub r.bottom r.top

/-- geom.rs:29-31 `Rect::cols`. -/
def Rect.cols (r : Rect) : Option Nat := csub r.right r.left

/-- geom.rs:44-50 `struct RectIter`. -/
structure RectIter where
  row : Nat
  col : Nat
  left : Nat
  bottom : Nat
  right : Nat
deriving DecidableEq, Repr

/-- geom.rs:33-41 `Rect::iter`. -/
def Rect.iter (r : Rect) : RectIter := ⟨r.top, r.left, r.left, r.bottom, r.right⟩

/-- geom.rs:55-68 `RectIter::next`. -/
def RectIter.next (it : RectIter) : Option ((Nat × Nat) × RectIter) :=
  if it.row < it.bottom then
    let coord := (it.row, it.col)
    let col := it.col + 1
    if col = it.right then
      some (coord, { it with col := it.left, row := it.row + 1 })
    else
      some (coord, { it with col := col })
  else none

/-- Driving an iterator to its end (`for x in iter`). Running out of fuel is `none`: the loop has
not ended within `fuel` steps. -/
def RectIter.toList : Nat → RectIter → Option (List (Nat × Nat))
  | 0, _ => none
  | fuel + 1, it =>
    match it.next with
    | none => some []
    | some (x, it) => (RectIter.toList fuel it).map (x :: ·)

/-- All cells of a rectangle as visited by `for (row, col) in rect.iter()`. The fuel is one more
than the number of cells of the rectangle. -/
def Rect.cells (r : Rect) : Option (List (Nat × Nat)) :=
  r.iter.toList ((r.bottom - r.top) * (r.right - r.left) + 1)

/-- geom.rs:72-80 `struct Cube`. -/
structure Cube where
  start : Nat
  fin : Nat
  top : Nat
  bottom : Nat
  left : Nat
  right : Nat
deriving DecidableEq, Repr

/-- geom.rs:83-103 `Cube::new`. -/
def Cube.new (start fin top bottom left right : Nat) : Cube :=
  let se := rearrange start fin
  let tb := rearrange top bottom
  let lr := rearrange left right
  ⟨se.1, se.2, tb.1, tb.2, lr.1, lr.2⟩

/-- geom.rs:105-107 `Cube::instants`. -/
def Cube.instants (c : Cube) : Option Nat := csub c.fin c.start

/-- geom.rs:109-111 `Cube::rows`. -/
def Cube.rows (c : Cube) : Option Nat := csub c.bottom c.top

/-- geom.rs:113-115 `Cube::cols`. -/
def Cube.cols (c : Cube) : Option Nat := csub c.right c.left

/-- geom.rs:117-119 `Cube::rect`. -/
def Cube.rect (c : Cube) : Rect := Rect.new c.top c.bottom c.left c.right

/-- Rust `a..=b`. -/
def rangeIncl (a b : Nat) : List Nat := List.range' a (b + 1 - a)

/-- Rust `a..b`. -/
def rangeExcl (a b : Nat) : List Nat := List.range' a (b - a)

/-- A `for` loop over `xs` whose body emits a list of outputs and may panic. -/
def collect {α β} : List α → (α → Option (List β)) → Option (List β)
  | [], _ => some []
  | x :: xs, f =>
    match f x with
    | none => none
    | some a =>
      match collect xs f with
      | none => none
      | some b => some (a ++ b)

end Verif
