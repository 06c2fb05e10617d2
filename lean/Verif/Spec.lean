/-!
Specification vocabulary: what callers of the library observe, written without reference to the
data structures. Rasters are functions `row → col → value` restricted to a shape.
-/
namespace Verif.Spec

/-- Cells of the half-open window `[top, bottom) × [left, right)` in row-major order. -/
def cells (top bottom left right : Nat) : List (Nat × Nat) :=
  (List.range' top (bottom - top)).flatMap fun r =>
    (List.range' left (right - left)).map fun c => (r, c)

/-- What a window read must write: every cell of the window, at its position relative to the
window, with its value. -/
def window {α} (get : Nat → Nat → α) (top bottom left right : Nat) : List (Nat × Nat × α) :=
  (cells top bottom left right).map fun p => (p.1 - top, p.2 - left, get p.1 p.2)

/-- What a search must report: the cells of the window with a value in the closed interval. -/
def hits (get : Nat → Nat → Int64) (top bottom left right : Nat) (lower upper : Int64) :
    List (Nat × Nat) :=
  (cells top bottom left right).filter fun p => decide (lower ≤ get p.1 p.2 ∧ get p.1 p.2 ≤ upper)

/-- What a read of a window of a time series must write, in positions relative to the window. -/
def window3 {α} (get : Nat → Nat → Nat → α) (start fin top bottom left right : Nat) :
    List (Nat × Nat × Nat × α) :=
  (List.range' start (fin - start)).flatMap fun t =>
    (window (get t) top bottom left right).map fun p => (t - start, p)

/-- What a search of a window of a time series must report. -/
def hits3 (get : Nat → Nat → Nat → Int64) (start fin top bottom left right : Nat)
    (lower upper : Int64) : List (Nat × Nat × Nat) :=
  (List.range' start (fin - start)).flatMap fun t =>
    (hits (get t) top bottom left right lower upper).map fun p => (t, p)

end Verif.Spec
