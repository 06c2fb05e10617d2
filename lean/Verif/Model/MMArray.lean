import Verif.Model.Dataset

/-!
Model of the arrays that variables are read through: `/repo/dcdf/src/mmarray.rs:134-536` and
`/repo/dcdf/src/dataset.rs:988-1010`.

The four types `MMArray3I32`, `MMArray3I64`, `MMArray3F32` and `MMArray3F64` differ in a `Kind`. An
array is the structure it wraps. Operations that wait for the store are relations to their possible
results (see `Out`). The output array is made of zeros, then written to by the calls to `set`; a call
outside of it panics.
-/
namespace Verif

/-- What the four types of arrays differ in. -/
structure Kind (α : Type) where
  encoding : MMEncoding
  /-- The number arrays are filled with by `zeros`. -/
  zero : α
  /-- mmbuffer.rs `set`: what is stored for a value, given the fractional bits of the buffer. -/
  dec : Nat → Int64 → α
  /-- The bounds of a search; `none` is `todo!()`. -/
  bound : α → Option Int64

/-- mmarray.rs:134-229, mmbuffer.rs:21-23, 185-187. -/
def Kind.i32 : Kind Int32 := ⟨.i32, 0, fun _ v => v.toInt32, fun x => some x.toInt64⟩

/-- mmarray.rs:232-327, mmbuffer.rs:24-26, 166-168. -/
def Kind.i64 : Kind Int64 := ⟨.i64, 0, fun _ v => v, some⟩

/-- mmarray.rs:330-431, mmbuffer.rs:27-29, 208-210. -/
def Kind.f32 : Kind Flt := ⟨.f32, .fin 0, fun bits v => fromFixed .single v bits, fun _ => none⟩

/-- mmarray.rs:434-535, mmbuffer.rs:30-32, 235-237. -/
def Kind.f64 : Kind Flt := ⟨.f64, .fin 0, fun bits v => fromFixed .double v bits, fun _ => none⟩

section
variable {α : Type} (kind : Kind α)

/-- mmarray.rs:140-146 `new`. -/
def Kind.new (data : MMStruct3) : Option MMStruct3 :=
  if data.encoding ≠ kind.encoding then none else some data

/-- mmarray.rs:218-229 `check_bounds`. -/
def MMStruct3.checkBounds (data : MMStruct3) (instant row col : Nat) : Option Unit :=
  match data.shape with
  | none => none
  | some (instants, rows, cols) =>
    if instant ≥ instants ∨ row ≥ rows ∨ col ≥ cols then none else some ()

/-- The result of a read that made the calls `t` and ended in `s`, on an array in which the calls of
`inside` are possible. -/
def Kind.finish {γ δ : Type} (t : List γ) (inside : γ → Bool) (s : Option Fail) (a : δ) :
    Except Fail δ :=
  if t.all inside then
    match s with
    | none => .ok a
    | some f => .error f
  else .error .panic

/-- One row of zeros after some calls to `set`. -/
def written1 (calls : List (Nat × Nat × Int64)) (i : Nat) : α :=
  match calls.reverse.find? fun q => q.1 = i with
  | some q => kind.dec q.2.1 q.2.2
  | none => kind.zero

variable (utf8 : List Byte → Bool) (st : Store) (fuel : Nat) (data : MMStruct3)

/-- mmarray.rs:156-163 `get`. -/
def Kind.get (instant row col : Nat) : Except Fail α :=
  match data.checkBounds instant row col with
  | none => .error .panic
  | some () =>
    match data.get utf8 st fuel data.fractionalBits instant row col with
    | .error f => .error f
    | .ok (bits, v) => .ok (kind.dec bits v)

/-- mmarray.rs:167-182 `cell`. -/
def Kind.cell (start fin row col : Nat) (res : Except Fail (List α)) : Prop :=
  match csub fin 1 with
  | none => res = .error .panic
  | some last =>
    match data.checkBounds last row col with
    | none => res = .error .panic
    | some () =>
      match csub fin start with
      | none => res = .error .panic
      | some n => ∃ t s, data.fillCell utf8 st fuel data.fractionalBits start fin row col t s ∧
        res = Kind.finish t (fun q => q.1 < n) s ((List.range n).map (written1 kind t))

/-- mmarray.rs:187, 211 the check of a window. -/
def MMStruct3.checkCube (bounds : Cube) : Option Unit :=
  match csub bounds.fin 1, csub bounds.bottom 1, csub bounds.right 1 with
  | some t, some r, some c => data.checkBounds t r c
  | _, _, _ => none

/-- mmarray.rs:186-199 `window`. -/
def Kind.window (bounds : Cube) (res : Except Fail (List (List (List α)))) : Prop :=
  match data.checkCube bounds with
  | none => res = .error .panic
  | some () =>
    match csub bounds.fin bounds.start, csub bounds.bottom bounds.top, csub bounds.right bounds.left with
    | some n, some rows, some cols =>
      ∃ t s, data.fillWindow utf8 st fuel data.fractionalBits bounds t s ∧
        res = Kind.finish t (fun q => q.1 < n ∧ q.2.1 < rows ∧ q.2.2.1 < cols) s
          ((List.range n).map fun t' => (List.range rows).map fun r =>
            (List.range cols).map fun c => written kind.zero kind.dec t t' r c)
    | _, _, _ => res = .error .panic

/-- mmarray.rs:206-215 `search`. -/
def Kind.search (bounds : Cube) (lower upper : α) : Out (Option (Nat × Nat × Nat)) :=
  match kind.bound lower, kind.bound upper with
  | some lower, some upper =>
    match data.checkCube bounds with
    | none => Out.fail .panic
    | some () => data.search utf8 st fuel bounds lower upper
  | _, _ => Out.fail .panic

end

/-- dataset.rs:988-1010 `data_i32`, `data_i64`, `data_f32`, `data_f64`. -/
def Variable.data {α : Type} (kind : Kind α) (utf8 : List Byte → Bool) (st : Store) (v : Variable) :
    Except Fail MMStruct3 :=
  match st.getStruct utf8 v.cid with
  | .error f => .error f
  | .ok m =>
    match kind.new m with
    | none => .error .panic
    | some a => .ok a

end Verif
