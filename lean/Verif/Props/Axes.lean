import Verif.Props.Shapes
import Verif.Props.PyCoord
import Verif.Props.Array

/-!
Property C100: the cells of the data have coordinates.
-/
namespace Verif

open Prog hiding pure bind

section
variable {H : Hash} {utf8 : List Byte → Bool} {clog : Nat → Nat} {lg : Rat → Int} {fuel : Nat}

/-- No operation changes the coordinates. -/
theorem Op.step_coords (op : Op) (s : Dataset × Saved) (hd : s.1.Fits utf8)
    (hnc : (op.step H utf8 clog lg fuel s).2.NoCollision H) :
    (op.step H utf8 clog lg fuel s).1.coord0 = s.1.coord0 ∧ (op.step H utf8 clog lg fuel s).1.coord1 = s.1.coord1 ∧
      (op.step H utf8 clog lg fuel s).1.coord2 = s.1.coord2 := by
  obtain ⟨d, log⟩ := s
  cases op with
  | append fill nm data n rows cols =>
    rcases e : Op.prog H utf8 clog lg fuel (.append fill nm data n rows cols) d log with ⟨x | d', log'⟩
    · have hst : Op.step H utf8 clog lg fuel (.append fill nm data n rows cols) (d, log) = (d, log') := by
        unfold Op.step
        rw [e]
      rw [hst]
      exact ⟨rfl, rfl, rfl⟩
    · have hst : Op.step H utf8 clog lg fuel (.append fill nm data n rows cols) (d, log) = (d', log') := by
        unfold Op.step
        rw [e]
      rw [hst]
      obtain ⟨v, v', -, -, rfl⟩ := Dataset.append_post fill d nm data n rows cols _ _ _ e
      exact ⟨rfl, rfl, rfl⟩
  | addVariable nm round spanSize chunkSize k2Levels encoding => exact ⟨rfl, rfl, rfl⟩
  | commit => exact ⟨rfl, rfl, rfl⟩
  | reload =>
    rw [Op.reload_step hd.wf hnc]
    exact ⟨rfl, rfl, rfl⟩

theorem runs_coords : ∀ (ops : List Op) (s : Dataset × Saved) (_ : s.1.Fits utf8)
    (_ : ∀ op ∈ ops, op.Fits utf8) (_ : s.1.variables.length + adds ops < 256)
    (_ : (runs H utf8 clog lg fuel ops s).2.NoCollision H),
    (runs H utf8 clog lg fuel ops s).1.coord0 = s.1.coord0 ∧ (runs H utf8 clog lg fuel ops s).1.coord1 = s.1.coord1 ∧
      (runs H utf8 clog lg fuel ops s).1.coord2 = s.1.coord2 := by
  intro ops
  induction ops with
  | nil => intro s _ _ _ _; exact ⟨rfl, rfl, rfl⟩
  | cons op ops ih =>
    intro s hd hops hlen hnc
    rw [adds_cons] at hlen
    have hnc1 : (op.step H utf8 clog lg fuel s).2.NoCollision H := NoCollision.mono (runs_mono ops _) hnc
    have hf := op.step_fits s.1 s.2 hd (hops op (List.mem_cons_self ..)) (by omega) hnc1
    have h2 : (op.step H utf8 clog lg fuel s).1.variables.length ≤ s.1.variables.length + adds [op] := hf.2.1
    obtain ⟨a, b, c⟩ := ih _ hf.1 (fun o ho => hops o (List.mem_cons_of_mem _ ho)) (by omega) hnc
    obtain ⟨a', b', c'⟩ := op.step_coords s hd hnc1
    exact ⟨a.trans a', b.trans b', c.trans c'⟩

/-- C100: after any history the coordinates are those that the data set was made with. -/
theorem C100_same (coord0 coord1 coord2 : Coordinate) (rows cols : Nat) (ops : List Op) (log : Saved)
    (hd : (Dataset.new coord0 coord1 coord2 rows cols).WF utf8) (hops : ∀ op ∈ ops, op.Fits utf8)
    (hadds : adds ops < 256) (s : Dataset × Saved)
    (hs : s = runs H utf8 clog lg fuel ops (Dataset.new coord0 coord1 coord2 rows cols, log))
    (hnc : s.2.NoCollision H) : s.1.coord0 = coord0 ∧ s.1.coord1 = coord1 ∧ s.1.coord2 = coord2 := by
  subst hs
  exact runs_coords ops _ ⟨hd, fun c hc => nomatch hc⟩ hops (by change 0 + adds ops < 256; omega) hnc

/-- C100 (partial: if the data set was made with the lengths of its coordinates for its shape): after any history, the
lengths of the second and third coordinate are the sides of the arrays of all variables; what can be read has coordinates. -/
theorem C100_partial (coord0 coord1 coord2 : Coordinate) (rows cols : Nat) (h1 : coord1.len = .ok rows)
    (h2 : coord2.len = .ok cols) (ops : List Op) (log : Saved)
    (hd : (Dataset.new coord0 coord1 coord2 rows cols).WF utf8) (hops : ∀ op ∈ ops, op.Fits utf8)
    (hadds : adds ops < 256) (s : Dataset × Saved)
    (hs : s = runs H utf8 clog lg fuel ops (Dataset.new coord0 coord1 coord2 rows cols, log))
    (hnc : s.2.NoCollision H) : ∀ v ∈ s.1.variables, ∃ m n y x,
      (s.2.load H).getStruct utf8 v.cid = .ok m ∧ m.shape = some (n, y, x) ∧ s.1.coord1.len = .ok y ∧
      s.1.coord2.len = .ok x ∧
      ∀ {α : Type} (kind : Kind α) readFuel t r c a, kind.get utf8 (s.2.load H) readFuel m t r c = .ok a → r < y ∧ c < x := by
  intro v hv
  obtain ⟨-, e1, e2⟩ := C100_same coord0 coord1 coord2 rows cols ops log hd hops hadds s hs hnc
  obtain ⟨m, n, h3, h4⟩ := (C56_shape coord0 coord1 coord2 rows cols ops log hd hops hadds s hs hnc).2.2 v hv
  refine ⟨m, n, rows, cols, h3, h4, by rw [e1, h1], by rw [e2, h2], fun kind readFuel t r c a ha => ?_⟩
  exact ((C44_answered kind utf8 m h4 (s.2.load H) readFuel).1 t r c a ha).2

end

/-- C100: a coordinate of integers has an element for each index below its length, if the elements fit the type, and for
no other. -/
theorem C100_items (checked : Bool) (w : Nat) (c : Coordinate) (n : Nat) (a s : Int)
    (hc : (w = 32 ∧ ∃ a' s', c.kind = .i32 a' s' n ∧ a'.toInt = a ∧ s'.toInt = s) ∨
      w = 64 ∧ ∃ a' s', c.kind = .i64 a' s' n ∧ a'.toInt = a ∧ s'.toInt = s)
    (hf : ∀ i : Nat, i < n → Fits w i ∧ Fits w (i * s) ∧ Fits w (a + i * s)) :
    c.len = .ok n ∧ ∀ i : Int, (∃ x, Py.intItem checked c (.int i) = some (.ok x)) ↔ 0 ≤ i ∧ i < n := by
  obtain ⟨name, kind⟩ := c
  have key : (⟨name, kind⟩ : Coordinate).len = .ok n ∧
      ∀ index, Py.intItem checked ⟨name, kind⟩ index = some (IntRange.getitem checked w ⟨a, s, n⟩ index) := by
    rcases hc with ⟨rfl, a', s', hk, rfl, rfl⟩ | ⟨rfl, a', s', hk, rfl, rfl⟩
    · simp only at hk
      subst hk
      exact ⟨rfl, fun _ => rfl⟩
    · simp only at hk
      subst hk
      exact ⟨rfl, fun _ => rfl⟩
  refine ⟨key.1, fun i => ?_⟩
  rw [key.2]
  constructor
  · rintro ⟨x, hx⟩
    by_contra hi
    obtain ⟨f, h⟩ := (C49_coordinate_rejects checked w ⟨a, s, n⟩).1 i (by change i < 0 ∨ (n : Int) ≤ i; omega)
    rw [h] at hx
    cases hx
  · rintro ⟨h0, hi⟩
    obtain ⟨k, rfl⟩ := Int.eq_ofNat_of_zero_le h0
    have hk : k < n := by omega
    obtain ⟨f1, f2, f3⟩ := hf k hk
    refine ⟨.d0 (a + k * s), ?_⟩
    unfold IntRange.getitem
    rw [coordGetitem_int (C42_get checked w ⟨a, s, n⟩ k hk f1 f2 f3)]

/-- A data set of four rows with a coordinate of two elements for them. -/
def shortRun : Dataset × Saved :=
  runs exampleHash (fun _ => true) exampleClog (fun _ => 0) 32 [.addVariable [7] none 2 2 [1, 1] .i64,
    .append exampleFill [7] (.i64 exampleGrid) 2 4 4, .reload]
    (Dataset.new (exampleCoord 1) ⟨[2], .i64 0 1 2⟩ (exampleCoord 3) 4 4, [])

theorem shortRun_noCollision : shortRun.2.NoCollision exampleHash := by
  unfold Saved.NoCollision
  decide +kernel

theorem shortRun_reads : (match shortRun.1.findVariable [7] with
    | none => false
    | some v => match v.data .i64 (fun _ => true) (shortRun.2.load exampleHash) with
      | .error _ => false
      | .ok m => m.shape == some (2, 4, 4) &&
        match Kind.i64.get (fun _ => true) (shortRun.2.load exampleHash) 40 m 1 3 0 with
        | .error _ => false
        | .ok x => x == exampleGrid 1 3 0) = true := by
  decide +kernel

/-- C100 does not hold if the lengths of the coordinates are not the shape that the data set was made with: it is made,
appended to, committed and loaded without an error; the last rows can be read and have no coordinate. -/
theorem C100_wrong : ∃ s : Dataset × Saved, s = shortRun ∧ s.2.NoCollision exampleHash ∧
    (∃ v m, s.1.findVariable [7] = some v ∧ v.data .i64 (fun _ => true) (s.2.load exampleHash) = .ok m ∧
      m.shape = some (2, 4, 4) ∧
      Kind.i64.get (fun _ => true) (s.2.load exampleHash) 40 m 1 3 0 = .ok (exampleGrid 1 3 0)) ∧
    s.1.coord1.len = .ok 2 ∧ ∀ checked, Py.intItem checked s.1.coord1 (.int 3) = some (.error .panic) := by
  refine ⟨shortRun, rfl, shortRun_noCollision, ?_, ?_⟩
  · have key := shortRun_reads
    generalize shortRun = s at key
    cases h1 : s.1.findVariable [7] with
    | none => rw [h1] at key; cases key
    | some v =>
      rw [h1] at key
      simp only at key
      cases h2 : v.data .i64 (fun _ => true) (s.2.load exampleHash) with
      | error e => rw [h2] at key; cases key
      | ok m =>
        rw [h2] at key
        simp only [Bool.and_eq_true, beq_iff_eq] at key
        cases h3 : Kind.i64.get (fun _ => true) (s.2.load exampleHash) 40 m 1 3 0 with
        | error e => rw [h3] at key; cases key.2
        | ok x =>
          rw [h3] at key
          exact ⟨v, m, rfl, h2, key.1, h3.trans (congrArg _ (by simpa using key.2))⟩
  · have e : shortRun.1.coord1 = ⟨[2], .i64 0 1 2⟩ := by decide +kernel
    rw [e]
    exact ⟨rfl, by decide +kernel⟩

/-- A data set of four rows and columns whose coordinates have four elements. -/
example : (exampleCoord 2).len = .ok 4 ∧ exampleDataset = Dataset.new (exampleCoord 1) (exampleCoord 2) (exampleCoord 3) 4 4 ∧
    exampleDataset.WF (fun _ => true) ∧
    ∀ i : Int, (∃ x, Py.intItem true (exampleCoord 2) (.int i) = some (.ok x)) ↔ 0 ≤ i ∧ i < 4 :=
  ⟨rfl, rfl, exampleWF, (C100_items true 64 (exampleCoord 2) 4 0 1 (.inr ⟨rfl, 0, 1, rfl, rfl, rfl⟩)
    (fun i hi => by unfold Fits; omega)).2⟩

end Verif
