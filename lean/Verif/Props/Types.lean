import Verif.Lemmas.Rooted
import Verif.Props.Names
import Verif.Model.PyDataset

/-!
Property C54: a variable keeps its type.
-/
namespace Verif

open Prog hiding pure bind

section
variable {H : Hash} {utf8 : List Byte → Bool} {clog : Nat → Nat} {lg : Rat → Int} {fuel : Nat}

/-! ### From Rust -/

/-- What the accessors answer for a variable that refers to a structure. -/
theorem Variable.data_of {st : Store} {v : Variable} {m : MMStruct3} (h : st.getStruct utf8 v.cid = .ok m)
    {α : Type} (kind : Kind α) :
    v.data kind utf8 st = if kind.encoding = m.encoding then .ok m else .error .panic := by
  unfold Variable.data
  rw [h]
  unfold Kind.new
  by_cases hk : kind.encoding = m.encoding
  · rw [if_pos hk]
    simp [hk]
  · rw [if_neg hk]
    simp [Ne.symm hk]

/-- All variables after a history. -/
theorem runs_data (coord0 coord1 coord2 : Coordinate) (rows cols : Nat) (ops : List Op) (log : Saved)
    (hd : (Dataset.new coord0 coord1 coord2 rows cols).WF utf8) (hops : ∀ op ∈ ops, op.Fits utf8)
    (hadds : adds ops < 256) (s : Dataset × Saved)
    (hs : s = runs H utf8 clog lg fuel ops (Dataset.new coord0 coord1 coord2 rows cols, log))
    (hnc : s.2.NoCollision H) : ∀ v ∈ s.1.variables,
    ∃ m, (s.2.load H).getStruct utf8 v.cid = .ok m ∧ m.encoding = v.encoding := by
  subst hs
  intro v hv
  have := runs_rooted (clog := clog) (lg := lg) (fuel := fuel) ops
    (Dataset.new coord0 coord1 coord2 rows cols, log)
    ⟨hd, fun c hc => nomatch hc⟩ hops (by change 0 + adds ops < 256; omega) (fun v hv => nomatch hv) hnc v hv
  obtain ⟨m, h1, h2⟩ := this.struct (utf8 := utf8) hnc
  exact ⟨_, h1, h2.1⟩

/-- C54: after any history (of additions, appends of arrays of any type, commits and reloads, some of
which may fail) the variable of a name can be read through the accessor of the type its name was first
declared with; all others panic. -/
theorem C54_type (coord0 coord1 coord2 : Coordinate) (rows cols : Nat) (ops : List Op) (log : Saved)
    (hd : (Dataset.new coord0 coord1 coord2 rows cols).WF utf8) (hops : ∀ op ∈ ops, op.Fits utf8)
    (hadds : adds ops < 256) (s : Dataset × Saved)
    (hs : s = runs H utf8 clog lg fuel ops (Dataset.new coord0 coord1 coord2 rows cols, log))
    (hnc : s.2.NoCollision H) (name : List Byte) (name' : List Byte) (round : Option Nat)
    (spanSize chunkSize : Nat) (k2Levels : List Nat) (encoding : MMEncoding)
    (hname : (Spec.declarations ops).find? (fun p => p.1 = name) =
      some (name', round, spanSize, chunkSize, k2Levels, encoding)) :
    ∃ v m, s.1.getVariable name = some v ∧ v.encoding = encoding ∧ m.encoding = encoding ∧
      ∀ (α : Type) (kind : Kind α),
        v.data kind utf8 (s.2.load H) = if kind.encoding = encoding then .ok m else .error .panic := by
  have h1 := C53_lookup coord0 coord1 coord2 rows cols ops log hd hops hadds s hs hnc name
  rw [hname] at h1
  obtain ⟨v, hv, hdecl⟩ := Option.map_eq_some_iff.1 h1
  have hmem : v ∈ s.1.variables := List.mem_of_find?_eq_some hv
  obtain ⟨m, h2, h3⟩ := runs_data coord0 coord1 coord2 rows cols ops log hd hops hadds s hs hnc v hmem
  have he : v.encoding = encoding := congrArg (fun x : Spec.Declared => x.2.2.2.2.2) hdecl
  refine ⟨v, m, hv, he, h3.trans he, ?_⟩
  intro α kind
  rw [Variable.data_of h2, h3, he]

/-- C54 is false of the code for the type `Time`: such a variable can be added (and appended to), and it
can never be read: there is no accessor for it. -/
theorem C54_time_wrong (coord0 coord1 coord2 : Coordinate) (rows cols : Nat) (ops : List Op) (log : Saved)
    (hd : (Dataset.new coord0 coord1 coord2 rows cols).WF utf8) (hops : ∀ op ∈ ops, op.Fits utf8)
    (hadds : adds ops < 256) (s : Dataset × Saved)
    (hs : s = runs H utf8 clog lg fuel ops (Dataset.new coord0 coord1 coord2 rows cols, log))
    (hnc : s.2.NoCollision H) (v : Variable) (hv : v ∈ s.1.variables) (ht : v.encoding = .time) :
    v.data Kind.i32 utf8 (s.2.load H) = .error .panic ∧ v.data Kind.i64 utf8 (s.2.load H) = .error .panic ∧
    v.data Kind.f32 utf8 (s.2.load H) = .error .panic ∧ v.data Kind.f64 utf8 (s.2.load H) = .error .panic ∧
    Py.data utf8 (s.2.load H) v = .error (.err (.py .value)) := by
  obtain ⟨m, h2, h3⟩ := runs_data coord0 coord1 coord2 rows cols ops log hd hops hadds s hs hnc v hv
  refine ⟨?_, ?_, ?_, ?_, ?_⟩
  · rw [Variable.data_of h2, h3, ht]; rfl
  · rw [Variable.data_of h2, h3, ht]; rfl
  · rw [Variable.data_of h2, h3, ht]; rfl
  · rw [Variable.data_of h2, h3, ht]; rfl
  · unfold Py.data
    rw [ht]
    rfl

end

/-! ### From Python -/

/-- What can be done with a data set from Python. -/
inductive PyOp where
  | append (fill : Fill) (name : List Byte) (data : Option NdArray) (instants rows cols : Nat)
  | addVariable (name : List Byte) (spanSize chunkSize : Nat) (k2Levels : List Nat) (round : Bool)
      (fractionalBits : Nat) (dtype : Dtype)
  | commit
  | reload

section
variable (H : Hash) (utf8 : List Byte → Bool) (clog : Nat → Nat) (lg : Rat → Int) (fuel : Nat)

def PyOp.prog : PyOp → Dataset → Prog Dataset
  | .append fill name data n rows cols, d => Py.append H utf8 clog lg fuel fill d name data n rows cols
  | .addVariable name spanSize chunkSize k2Levels round fractionalBits dtype, d =>
    Py.addVariable H d name spanSize chunkSize k2Levels round fractionalBits dtype
  | .commit, d => do
    let _ ← d.commit H
    pure d
  | .reload, d => do
    let cid ← d.commit H
    Prog.getDataset H utf8 cid

/-- One operation; if it raises an exception, the data set stays as it was. -/
def PyOp.step (op : PyOp) (s : Dataset × Saved) : Dataset × Saved :=
  match op.prog H utf8 clog lg fuel s.1 s.2 with
  | (.ok d, log) => (d, log)
  | (.error _, log) => (s.1, log)

/-- Some operations one after the other. -/
def pyRuns : List PyOp → Dataset × Saved → Dataset × Saved
  | [], s => s
  | op :: ops, s => pyRuns ops (op.step H utf8 clog lg fuel s)

end

namespace Spec

/-- The encoding for a type of NumPy. -/
def ofDtype : Dtype → Option MMEncoding
  | .datetime64 => some .time
  | .int32 => some .i32
  | .int64 => some .i64
  | .float32 => some .f32
  | .float64 => some .f64
  | .other => none

/-- What a variable is declared with from Python. -/
structure PyDeclared where
  name : List Byte
  spanSize : Nat
  chunkSize : Nat
  k2Levels : List Nat
  round : Bool
  fractionalBits : Nat
  dtype : Dtype

/-- The declarations of a history with types that are supported. -/
def pyDeclarations : List PyOp → List PyDeclared
  | [] => []
  | .addVariable name spanSize chunkSize k2Levels round fractionalBits dtype :: ops =>
    if dtype = .other then pyDeclarations ops
    else ⟨name, spanSize, chunkSize, k2Levels, round, fractionalBits, dtype⟩ :: pyDeclarations ops
  | _ :: ops => pyDeclarations ops

/-- The limits of the format. -/
def pyFits (utf8 : List Byte → Bool) (p : PyDeclared) : Prop :=
  p.name.length < 256 ∧ utf8 p.name = true ∧ (p.round = true → p.fractionalBits < 256) ∧ p.spanSize < 2 ^ 32 ∧
    p.chunkSize < 2 ^ 32 ∧ p.k2Levels.length < 256 ∧ ∀ l ∈ p.k2Levels, l < 2 ^ 32

end Spec

section
variable {H : Hash} {utf8 : List Byte → Bool} {clog : Nat → Nat} {lg : Rat → Int} {fuel : Nat}

/-- The operation behind one from Python, if there is one. -/
def PyOp.op : PyOp → Option Op
  | .append fill name data n rows cols => data.map fun data => .append fill name data n rows cols
  | .addVariable name spanSize chunkSize k2Levels round fractionalBits dtype =>
    (Spec.ofDtype dtype).map fun encoding =>
      .addVariable name (if round then some fractionalBits else none) spanSize chunkSize k2Levels encoding
  | .commit => some .commit
  | .reload => some .reload

theorem PyOp.step_op (op : PyOp) (s : Dataset × Saved) :
    op.step H utf8 clog lg fuel s =
      match op.op with
      | none => s
      | some op => op.step H utf8 clog lg fuel s := by
  cases op with
  | append fill name data n rows cols => cases data <;> rfl
  | addVariable name spanSize chunkSize k2Levels round bits dtype => cases dtype <;> rfl
  | commit => rfl
  | reload => rfl

theorem pyRuns_eq : ∀ (ops : List PyOp) (s : Dataset × Saved),
    pyRuns H utf8 clog lg fuel ops s = runs H utf8 clog lg fuel (ops.filterMap PyOp.op) s := by
  intro ops
  induction ops with
  | nil => intro s; rfl
  | cons op ops ih =>
    intro s
    unfold pyRuns
    rw [ih, PyOp.step_op, List.filterMap_cons]
    cases op.op <;> rfl

/-- The declaration behind one from Python. -/
def Spec.PyDeclared.rust (p : Spec.PyDeclared) : Spec.Declared :=
  (p.name, if p.round then some p.fractionalBits else none, p.spanSize, p.chunkSize, p.k2Levels,
    (Spec.ofDtype p.dtype).getD .time)

theorem pyDeclarations_eq : ∀ (ops : List PyOp),
    Spec.declarations (ops.filterMap PyOp.op) = (Spec.pyDeclarations ops).map Spec.PyDeclared.rust := by
  intro ops
  induction ops with
  | nil => rfl
  | cons op ops ih =>
    rw [List.filterMap_cons]
    cases op with
    | append fill name data n rows cols => cases data <;> exact ih
    | addVariable name spanSize chunkSize k2Levels round bits dtype =>
      cases dtype
      case other => exact ih
      all_goals exact congrArg (List.cons _) ih
    | commit => exact ih
    | reload => exact ih

theorem pyDeclarations_dtype : ∀ (ops : List PyOp), ∀ p ∈ Spec.pyDeclarations ops, p.dtype ≠ .other := by
  intro ops
  induction ops with
  | nil => intro p hp; cases hp
  | cons op ops ih =>
    cases op with
    | append fill name data n rows cols => exact ih
    | addVariable name spanSize chunkSize k2Levels round bits dtype =>
      unfold Spec.pyDeclarations
      split
      · exact ih
      · rename_i h
        intro p hp
        rcases List.mem_cons.1 hp with rfl | hp
        · exact h
        · exact ih p hp
    | commit => exact ih
    | reload => exact ih

theorem adds_eq : ∀ (ops : List PyOp), adds (ops.filterMap PyOp.op) = (Spec.pyDeclarations ops).length := by
  intro ops
  have : ∀ ops : List Op, adds ops = (Spec.declarations ops).length := by
    intro ops
    induction ops with
    | nil => rfl
    | cons op ops ih => cases op <;> simp [adds, Spec.declarations, ih]
  rw [this, pyDeclarations_eq, List.length_map]

theorem pyFits_op : ∀ (ops : List PyOp), (∀ p ∈ Spec.pyDeclarations ops, Spec.pyFits utf8 p) →
    ∀ op ∈ ops.filterMap PyOp.op, op.Fits utf8 := by
  intro ops
  induction ops with
  | nil => intro _ op hop; cases hop
  | cons op ops ih =>
    intro h o ho
    rw [List.filterMap_cons] at ho
    cases op with
    | append fill name data n rows cols =>
      cases data with
      | none => exact ih h o ho
      | some data =>
        rcases List.mem_cons.1 ho with rfl | ho
        · trivial
        · exact ih h o ho
    | addVariable name spanSize chunkSize k2Levels round bits dtype =>
      have key : ∀ e, Spec.pyFits utf8 ⟨name, spanSize, chunkSize, k2Levels, round, bits, dtype⟩ →
          (Op.addVariable name (if round then some bits else none) spanSize chunkSize k2Levels e).Fits utf8 := by
        rintro e ⟨h1, h2, h3, h4, h5, h6, h7⟩
        refine ⟨h1, h2, ?_, h4, h5, h6, h7⟩
        intro b hb
        cases round with
        | false => cases hb
        | true =>
          obtain rfl := Option.some.inj hb
          exact h3 rfl
      cases dtype
      case other => exact ih h o ho
      all_goals
        rcases List.mem_cons.1 ho with rfl | ho
        · exact key _ (h _ (List.mem_cons_self ..))
        · exact ih (fun p hp => h p (List.mem_cons_of_mem _ hp)) o ho
    | commit =>
      rcases List.mem_cons.1 ho with rfl | ho
      · trivial
      · exact ih h o ho
    | reload =>
      rcases List.mem_cons.1 ho with rfl | ho
      · trivial
      · exact ih h o ho

/-- C54: after any history from Python, the variable of a name has the properties it was first declared
with, its `dtype` is the one that was given, and unless that is `datetime64` its data are read as arrays
of this type. -/
theorem C54_python (coord0 coord1 coord2 : Coordinate) (rows cols : Nat) (ops : List PyOp) (log : Saved)
    (hd : (Dataset.new coord0 coord1 coord2 rows cols).WF utf8)
    (hops : ∀ p ∈ Spec.pyDeclarations ops, Spec.pyFits utf8 p)
    (hlen : (Spec.pyDeclarations ops).length < 256) (s : Dataset × Saved)
    (hs : s = pyRuns H utf8 clog lg fuel ops (Dataset.new coord0 coord1 coord2 rows cols, log))
    (hnc : s.2.NoCollision H) (name : List Byte) (p : Spec.PyDeclared)
    (hp : (Spec.pyDeclarations ops).find? (fun p => p.name = name) = some p) :
    ∃ v, s.1.getVariable name = some v ∧ v.name = name ∧ v.spanSize = p.spanSize ∧
      v.chunkSize = p.chunkSize ∧ v.k2Levels = p.k2Levels ∧ Py.round v = p.round ∧
      Py.fractionalBits v = (if p.round then p.fractionalBits else 0) ∧ Py.dtype v = some p.dtype ∧
      ∃ m, (s.2.load H).getStruct utf8 v.cid = .ok m ∧
        (p.dtype = .int32 → Py.data utf8 (s.2.load H) v = .ok (.i32 m)) ∧
        (p.dtype = .int64 → Py.data utf8 (s.2.load H) v = .ok (.i64 m)) ∧
        (p.dtype = .float32 → Py.data utf8 (s.2.load H) v = .ok (.f32 m)) ∧
        (p.dtype = .float64 → Py.data utf8 (s.2.load H) v = .ok (.f64 m)) ∧
        (p.dtype = .datetime64 → Py.data utf8 (s.2.load H) v = .error (.err (.py .value))) := by
  rw [pyRuns_eq] at hs
  have hfit := pyFits_op ops hops
  have hadds : adds (ops.filterMap PyOp.op) < 256 := by rw [adds_eq]; exact hlen
  have h1 := C53_lookup coord0 coord1 coord2 rows cols _ log hd hfit hadds s hs hnc name
  have h2 : (Spec.declarations (ops.filterMap PyOp.op)).find? (fun p => p.1 = name) = some p.rust := by
    rw [pyDeclarations_eq, List.find?_map]
    change Option.map _ ((Spec.pyDeclarations ops).find? fun p => p.name = name) = _
    rw [hp]
    rfl
  rw [h2] at h1
  obtain ⟨v, hv, hdecl⟩ := Option.map_eq_some_iff.1 h1
  have hmem : v ∈ s.1.variables := List.mem_of_find?_eq_some hv
  obtain ⟨m, h3, h4⟩ := runs_data coord0 coord1 coord2 rows cols _ log hd hfit hadds s hs hnc v hmem
  have hother := pyDeclarations_dtype ops p (List.mem_of_find?_eq_some hp)
  have hpn : p.name = name := by simpa using List.find?_some hp
  have hdata : ∀ {α : Type} (kind : Kind α), kind.encoding = v.encoding →
      v.data kind utf8 (s.2.load H) = .ok m := by
    intro α kind hk
    rw [Variable.data_of h3, h4, if_pos hk]
  obtain ⟨vn, vr, vs, vc, vk, ve, vcid⟩ := v
  obtain ⟨pn, ps, pc, pk, pr, pf, pd⟩ := p
  simp only [Spec.declared, Spec.PyDeclared.rust, Prod.mk.injEq] at hdecl
  obtain ⟨rfl, rfl, rfl, rfl, rfl, rfl⟩ := hdecl
  refine ⟨_, hv, hpn, rfl, rfl, rfl, ?_, ?_, ?_, m, h3, ?_⟩
  · cases pr <;> rfl
  · cases pr <;> rfl
  · cases pd
    case other => exact absurd rfl hother
    all_goals rfl
  · refine ⟨?_, ?_, ?_, ?_, ?_⟩
    · rintro rfl
      exact congrArg (Except.map _) (hdata Kind.i32 rfl)
    · rintro rfl
      exact congrArg (Except.map _) (hdata Kind.i64 rfl)
    · rintro rfl
      exact congrArg (Except.map _) (hdata Kind.f32 rfl)
    · rintro rfl
      exact congrArg (Except.map _) (hdata Kind.f64 rfl)
    · rintro rfl
      rfl

/-- C54: an operation from Python with a type that is not supported raises an exception and changes
nothing. -/
theorem C54_unsupported (s : Dataset × Saved) (fill : Fill) (name : List Byte) (n rows cols : Nat)
    (spanSize chunkSize : Nat) (k2Levels : List Nat) (round : Bool) (fractionalBits : Nat) :
    Py.append H utf8 clog lg fuel fill s.1 name none n rows cols s.2 =
      (.error (.err (.py .value)), s.2) ∧
    Py.addVariable H s.1 name spanSize chunkSize k2Levels round fractionalBits .other s.2 =
      (.error (.err (.py .key)), s.2) :=
  ⟨rfl, rfl⟩

/-- C54: coordinates are read as what they are, and have the type they were made with. -/
theorem C54_coordinate (c : Coordinate) :
    Py.coordData c = .ok c.kind ∧
    (Py.coordDtype c = some .datetime64 ↔ ∃ start step, c.kind = .time start step) ∧
    (Py.coordDtype c = some .int32 ↔ ∃ start step steps, c.kind = .i32 start step steps) ∧
    (Py.coordDtype c = some .int64 ↔ ∃ start step steps, c.kind = .i64 start step steps) ∧
    (Py.coordDtype c = some .float32 ↔ ∃ start step steps, c.kind = .f32 start step steps) ∧
    (Py.coordDtype c = some .float64 ↔ ∃ start step steps, c.kind = .f64 start step steps) := by
  obtain ⟨name, kind⟩ := c
  cases kind <;>
    simp [Py.coordData, Py.coordDtype, Py.coordEncoding, MMEncoding.toByte, Dtype.ofCode, Py.unwrap,
      Coordinate.dataTime, Coordinate.dataI32, Coordinate.dataI64, Coordinate.dataF32, Coordinate.dataF64] <;>
    rfl

end

/-! ### Attributes -/

/-- The names that class `Dataset` of the Python package defines. -/
def Spec.classNames : List String :=
  ["_inner", "new", "coordinates", "variables", "shape", "prev", "cid", "add_variable", "append", "commit",
    "get_coordinate", "get_variable"]

/-- C55: what is found as an attribute of a data set: what the class defines, then coordinates, then
variables; otherwise it is an error. -/
theorem C55_partial (d : Dataset) (name : List Byte) (hown : name ∉ Spec.classNames.map Py.ascii) :
    (∀ c, d.getCoordinate name = some c → Py.getattr d name = .ok (.coordinate c)) ∧
    (∀ v, d.getCoordinate name = none → d.getVariable name = some v →
      Py.getattr d name = .ok (.variable v)) ∧
    (d.getCoordinate name = none → d.getVariable name = none → Py.getattr d name = .error (.err (.py .attribute))) := by
  have h1 := (C53_coordinate d name).1
  change name ∉ Py.ownNames at hown
  unfold Py.getattr
  rw [if_neg hown, ← h1]
  unfold Dataset.getVariable
  refine ⟨?_, ?_, ?_⟩
  · intro c hc
    rw [hc]
  · intro v hc hv
    rw [hc]
    simp only
    rw [hv]
  · intro hc hv
    rw [hc]
    simp only
    rw [hv]

/-- C55 is false of the code for variables with the name of a coordinate or of something the class
defines. -/
theorem C55_wrong (d : Dataset) (name : List Byte)
    (h : name ∈ Spec.classNames.map Py.ascii ∨ ∃ c, d.getCoordinate name = some c) (v : Variable) :
    Py.getattr d name ≠ .ok (.variable v) := by
  have h1 := (C53_coordinate d name).1
  unfold Py.getattr
  rcases h with h | ⟨c, hc⟩
  · change name ∈ Py.ownNames at h
    rw [if_pos h]
    intro e
    cases e
  · rw [← h1, hc]
    split <;> intro e <;> cases e

/-! ### Examples -/

/-- A variable of `float32` rounded to three bits, one of `int64`, one of a type that is not supported, and
one of `datetime64`. -/
def typesOps : List PyOp :=
  [.addVariable [7] 2 2 [1, 1] true 3 .float32, .addVariable [8] 4 2 [1, 1] false 3 .int64,
    .append exampleFill [8] (some (.i64 exampleGrid)) 2 4 4, .addVariable [9] 4 2 [1, 1] false 0 .other,
    .append exampleFill [8] none 2 4 4, .reload, .addVariable [9] 4 2 [1, 1] false 0 .datetime64, .commit]

example : (∀ p ∈ Spec.pyDeclarations typesOps, Spec.pyFits (fun _ => true) p) ∧
    (Spec.pyDeclarations typesOps).length < 256 ∧
    (Spec.pyDeclarations typesOps).find? (fun p => p.name = [8]) = some ⟨[8], 4, 2, [1, 1], false, 3, .int64⟩ ∧
    (Spec.pyDeclarations typesOps).find? (fun p => p.name = [9]) =
      some ⟨[9], 4, 2, [1, 1], false, 0, .datetime64⟩ := by
  refine ⟨?_, by simp [typesOps, Spec.pyDeclarations], rfl, rfl⟩
  intro p hp
  have : Spec.pyDeclarations typesOps =
    [⟨[7], 2, 2, [1, 1], true, 3, .float32⟩, ⟨[8], 4, 2, [1, 1], false, 3, .int64⟩,
      ⟨[9], 4, 2, [1, 1], false, 0, .datetime64⟩] := rfl
  rw [this] at hp
  simp only [List.mem_cons, List.not_mem_nil, or_false] at hp
  rcases hp with rfl | rfl | rfl <;> exact ⟨by decide, rfl, by decide, by decide, by decide, by decide, by decide⟩

/-- A data set with a variable called `shape`, which cannot be reached as an attribute. -/
def shapeDataset : Dataset :=
  { exampleDataset with «variables» := [⟨Py.ascii "shape", none, 4, 4, [1], .i64, .v0 []⟩,
      ⟨[2], none, 4, 4, [1], .i64, .v0 []⟩, ⟨[9], none, 4, 4, [1], .i64, .v0 []⟩] }

example : Py.getattr shapeDataset (Py.ascii "shape") = .ok .own ∧
    Py.getattr shapeDataset [2] = .ok (.coordinate (exampleCoord 2)) ∧
    Py.getattr shapeDataset [9] = .ok (.variable ⟨[9], none, 4, 4, [1], .i64, .v0 []⟩) ∧
    shapeDataset.getVariable (Py.ascii "shape") = some ⟨Py.ascii "shape", none, 4, 4, [1], .i64, .v0 []⟩ ∧
    Py.getattr shapeDataset [10] = .error (.err (.py .attribute)) := by
  decide +kernel

/-- C49: `len` of a coordinate is the number of its elements; an axis of time has none. -/
theorem C49_len (c : Coordinate) :
    (∀ a d, c.dataTime = some (a, d) → c.len = .error (.err .timeIsInfinite)) ∧
    (∀ a d n, c.dataI32 = some (a, d, n) → c.len = .ok n) ∧
    (∀ a d n, c.dataI64 = some (a, d, n) → c.len = .ok n) ∧
    (∀ a d n, c.dataF32 = some (a, d, n) → c.len = .ok n) ∧
    ∀ a d n, c.dataF64 = some (a, d, n) → c.len = .ok n := by
  obtain ⟨name, kind⟩ := c
  cases kind <;> simp [Coordinate.dataTime, Coordinate.dataI32, Coordinate.dataI64, Coordinate.dataF32,
    Coordinate.dataF64, Coordinate.len]

end Verif
