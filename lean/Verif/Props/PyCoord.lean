import Verif.Model.PyCoord
import Verif.Props.Limits
import Verif.Props.Py

/-!
Property C98: a coordinate made in Python and stored has the elements that were asked for.
-/
namespace Verif

section
variable {conv : FloatConv} {name : List Byte} {start step steps : PyNum} {c : Coordinate}

theorem PyNum.toInt_ok {w : Nat} {x : PyNum} {n : Int} : x.toInt w = .ok n ↔ x = .int n ∧ Fits w n := by
  cases x with
  | float b => simp [PyNum.toInt]
  | int m =>
    unfold PyNum.toInt
    by_cases h : Fits w m
    · simp only [if_pos h, Except.ok.injEq, PyNum.int.injEq]
      constructor
      · rintro rfl; exact ⟨rfl, h⟩
      · exact fun h => h.1
    · simp only [if_neg h, PyNum.int.injEq, reduceCtorEq, false_iff, not_and]
      rintro rfl; exact h

theorem PyNum.toUsize_ok {x : PyNum} {n : Nat} : x.toUsize = .ok n ↔ x = .int n ∧ n < 2 ^ 64 := by
  cases x with
  | float b => simp [PyNum.toUsize]
  | int m =>
    unfold PyNum.toUsize
    by_cases h : 0 ≤ m ∧ m < 2 ^ 64
    · simp only [if_pos h, Except.ok.injEq, PyNum.int.injEq]
      omega
    · simp only [if_neg h, PyNum.int.injEq, reduceCtorEq, false_iff, not_and]
      omega

theorem except_bind_ok {ε α β : Type} {x : Except ε α} {f : α → Except ε β} {b : β} :
    (x >>= f) = .ok b ↔ ∃ a, x = .ok a ∧ f a = .ok b := by
  cases x with
  | error e => simp [bind, Except.bind]
  | ok a => simp [bind, Except.bind]

/-- C98: which arguments make a coordinate of integers of 32 bits, and which one it is. -/
theorem C98_int32 : Py.range conv name start step steps .int32 = .ok c ↔
    ∃ (a d : Int) (n : Nat), start = .int a ∧ step = .int d ∧ steps = .int n ∧ Fits 32 a ∧ Fits 32 d ∧ n < 2 ^ 64 ∧
      c = ⟨name, .i32 (Int32.ofInt a) (Int32.ofInt d) n⟩ := by
  unfold Py.range
  simp only [except_bind_ok, PyNum.toInt_ok, PyNum.toUsize_ok]
  constructor
  · rintro ⟨a, ⟨h1, h2⟩, d, ⟨h3, h4⟩, n, ⟨h5, h6⟩, h7⟩
    exact ⟨a, d, n, h1, h3, h5, h2, h4, h6, (Except.ok.inj h7).symm⟩
  · rintro ⟨a, d, n, h1, h3, h5, h2, h4, h6, h7⟩
    exact ⟨a, ⟨h1, h2⟩, d, ⟨h3, h4⟩, n, ⟨h5, h6⟩, by rw [h7]; rfl⟩

/-- C98: which arguments make a coordinate of integers of 64 bits, and which one it is. -/
theorem C98_int64 : Py.range conv name start step steps .int64 = .ok c ↔
    ∃ (a d : Int) (n : Nat), start = .int a ∧ step = .int d ∧ steps = .int n ∧ Fits 64 a ∧ Fits 64 d ∧ n < 2 ^ 64 ∧
      c = ⟨name, .i64 (Int64.ofInt a) (Int64.ofInt d) n⟩ := by
  unfold Py.range
  simp only [except_bind_ok, PyNum.toInt_ok, PyNum.toUsize_ok]
  constructor
  · rintro ⟨a, ⟨h1, h2⟩, d, ⟨h3, h4⟩, n, ⟨h5, h6⟩, h7⟩
    exact ⟨a, d, n, h1, h3, h5, h2, h4, h6, (Except.ok.inj h7).symm⟩
  · rintro ⟨a, d, n, h1, h3, h5, h2, h4, h6, h7⟩
    exact ⟨a, ⟨h1, h2⟩, d, ⟨h3, h4⟩, n, ⟨h5, h6⟩, by rw [h7]; rfl⟩

/-- C98: a coordinate of floats of 64 bits made of floats has their bits. -/
theorem C98_float64 (a d : BitVec 64) (n : Nat) (hn : n < 2 ^ 64) :
    Py.range conv name (.float a) (.float d) (.int n) .float64 = .ok ⟨name, .f64 a d n⟩ ∧
    Py.range conv name (.float a) (.float d) (.int n) .float32 = .ok ⟨name, .f32 (conv.narrow a) (conv.narrow d) n⟩ := by
  have h : (PyNum.int n).toUsize = .ok n := PyNum.toUsize_ok.2 ⟨rfl, hn⟩
  unfold Py.range
  simp only [h]
  exact ⟨rfl, rfl⟩

/-- C98: a coordinate that was made has the name and the type that were asked for, and as many elements; coordinates of
other types are not made. -/
theorem C98_made (dtype : Dtype) (h : Py.range conv name start step steps dtype = .ok c) :
    c.name = name ∧ Py.coordDtype c = some dtype ∧ dtype ≠ .datetime64 ∧ dtype ≠ .other ∧
      ∃ n : Nat, steps = .int n ∧ c.len = .ok n := by
  cases dtype with
  | datetime64 => cases h
  | other => cases h
  | int32 =>
    obtain ⟨a, d, n, -, -, h5, -, -, -, rfl⟩ := C98_int32.1 h
    exact ⟨rfl, by simp [Py.coordDtype, Py.coordEncoding]; rfl, nofun, nofun, n, h5, rfl⟩
  | int64 =>
    obtain ⟨a, d, n, -, -, h5, -, -, -, rfl⟩ := C98_int64.1 h
    exact ⟨rfl, by simp [Py.coordDtype, Py.coordEncoding]; rfl, nofun, nofun, n, h5, rfl⟩
  | float32 =>
    unfold Py.range at h
    simp only [except_bind_ok] at h
    obtain ⟨a, -, d, -, n, h5, h7⟩ := h
    obtain rfl := Except.ok.inj h7
    exact ⟨rfl, by simp [Py.coordDtype, Py.coordEncoding]; rfl, nofun, nofun, n, (PyNum.toUsize_ok.1 h5).1, rfl⟩
  | float64 =>
    unfold Py.range at h
    simp only [except_bind_ok] at h
    obtain ⟨a, -, d, -, n, h5, h7⟩ := h
    obtain rfl := Except.ok.inj h7
    exact ⟨rfl, by simp [Py.coordDtype, Py.coordEncoding]; rfl, nofun, nofun, n, (PyNum.toUsize_ok.1 h5).1, rfl⟩

/-- C98: what cannot be made is refused with an exception, without a panic. -/
theorem C98_refused (dtype : Dtype) (f : Fail) (h : Py.range conv name start step steps dtype = .error f) :
    f = .err (.py .overflow) ∨ f = .err (.py .type) ∨ f = .err (.py .value) := by
  have hi : ∀ (w : Nat) (x : PyNum) f, x.toInt w = .error f → f = .err (.py .overflow) ∨ f = .err (.py .type) := by
    intro w x f h
    cases x with
    | float b => cases h; exact .inr rfl
    | int n =>
      unfold PyNum.toInt at h
      by_cases hn : Fits w n
      · simp [if_pos hn] at h
      · simp only [if_neg hn, Except.error.injEq] at h
        exact .inl h.symm
  have hu : ∀ (x : PyNum) f, x.toUsize = .error f → f = .err (.py .overflow) ∨ f = .err (.py .type) := by
    intro x f h
    cases x with
    | float b => cases h; exact .inr rfl
    | int n =>
      unfold PyNum.toUsize at h
      by_cases hn : 0 ≤ n ∧ n < 2 ^ 64
      · simp only [if_pos hn, reduceCtorEq] at h
      · simp only [if_neg hn, Except.error.injEq] at h
        exact .inl h.symm
  have hf : ∀ (x : PyNum) f, x.toF64 conv = .error f → f = .err (.py .overflow) := by
    intro x f h
    cases x with
    | float b => cases h
    | int n =>
      cases hn : conv.ofInt n with
      | none => simp only [PyNum.toF64, hn, Except.error.injEq] at h; exact h.symm
      | some b => simp [PyNum.toF64, hn] at h
  have hg : ∀ (x : PyNum) f, x.toF32 conv = .error f → f = .err (.py .overflow) := by
    intro x f h
    unfold PyNum.toF32 at h
    cases hx : x.toF64 conv with
    | error g => rw [hx] at h; cases h; exact hf x _ hx
    | ok b => rw [hx] at h; cases h
  have step' : ∀ {α β γ : Type} (x : Except Fail α) (y : Except Fail β) (z : Except Fail γ) (g : α → β → γ → Coordinate),
      (∀ f, x = .error f → f = .err (.py .overflow) ∨ f = .err (.py .type) ∨ f = .err (.py .value)) →
      (∀ f, y = .error f → f = .err (.py .overflow) ∨ f = .err (.py .type) ∨ f = .err (.py .value)) →
      (∀ f, z = .error f → f = .err (.py .overflow) ∨ f = .err (.py .type) ∨ f = .err (.py .value)) →
      (do let a ← x; let b ← y; let c ← z; return g a b c : Except Fail Coordinate) = .error f →
      f = .err (.py .overflow) ∨ f = .err (.py .type) ∨ f = .err (.py .value) := by
    intro α β γ x y z g h1 h2 h3 h
    cases x with
    | error e => cases h; exact h1 _ rfl
    | ok a =>
      cases y with
      | error e => cases h; exact h2 _ rfl
      | ok b =>
        cases z with
        | error e => cases h; exact h3 _ rfl
        | ok c => cases h
  have w : ∀ {f : Fail}, f = .err (.py .overflow) ∨ f = .err (.py .type) →
      f = .err (.py .overflow) ∨ f = .err (.py .type) ∨ f = .err (.py .value) := fun h => h.imp_right .inl
  cases dtype with
  | datetime64 => cases h; exact .inr (.inr rfl)
  | other => cases h; exact .inr (.inr rfl)
  | int32 =>
    exact step' _ _ _ (fun a d n => ⟨name, .i32 (Int32.ofInt a) (Int32.ofInt d) n⟩)
      (fun f h => w (hi _ _ f h)) (fun f h => w (hi _ _ f h)) (fun f h => w (hu _ f h)) h
  | int64 =>
    exact step' _ _ _ (fun a d n => ⟨name, .i64 (Int64.ofInt a) (Int64.ofInt d) n⟩)
      (fun f h => w (hi _ _ f h)) (fun f h => w (hi _ _ f h)) (fun f h => w (hu _ f h)) h
  | float32 =>
    exact step' _ _ _ (fun a d n => ⟨name, .f32 a d n⟩)
      (fun f h => .inl (hg _ f h)) (fun f h => .inl (hg _ f h)) (fun f h => w (hu _ f h)) h
  | float64 =>
    exact step' _ _ _ (fun a d n => ⟨name, .f64 a d n⟩)
      (fun f h => .inl (hf _ f h)) (fun f h => .inl (hf _ f h)) (fun f h => w (hu _ f h)) h

end

/-- The type of NumPy and its width. -/
def Spec.intType (w : Nat) (dtype : Dtype) : Prop := w = 32 ∧ dtype = .int32 ∨ w = 64 ∧ dtype = .int64

/-- C98 (partial: for less than `2 ^ 32` elements): a coordinate of integers that was made in Python, put into a data
set, committed and loaded again, has the length, the type and the elements that were asked for. -/
theorem C98_stored_partial {H : Hash} {utf8 : List Byte → Bool} (conv : FloatConv) (w : Nat) (dtype : Dtype)
    (hw : Spec.intType w dtype) (name : List Byte) (a s : Int) (n : Nat) (c : Coordinate)
    (hc : Py.range conv name (.int a) (.int s) (.int n) dtype = .ok c) (d : Dataset) (hd : d.WF utf8) (log log' : Saved)
    (cid : Cid) (hcommit : d.commit H log = (.ok cid, log')) (hnc : log'.NoCollision H) :
    ∃ d', (log'.load H).getDataset utf8 cid = .ok d' ∧
      ∀ get : Dataset → Coordinate, get = Dataset.coord0 ∨ get = Dataset.coord1 ∨ get = Dataset.coord2 → get d = c →
      (get d').name = name ∧ Py.coordDtype (get d') = some dtype ∧ (get d').len = .ok n ∧
      (∀ checked (i : Nat), i < n → Fits w i → Fits w (i * s) → Fits w (a + i * s) →
        Py.intItem checked (get d') (.int i) = some (.ok (.d0 (a + i * s)))) ∧
      ∀ checked (i : Int), i < 0 ∨ (n : Int) ≤ i → ∃ f, Py.intItem checked (get d') (.int i) = some (.error f) := by
  refine ⟨_, C34_round_trip d hd log cid log' hcommit hnc, fun get hget hg => ?_⟩
  have hsame : get { d with cid := some cid } = c := by
    rcases hget with rfl | rfl | rfl <;> exact hg
  rw [hsame]
  obtain ⟨m1, m2, -, -, n', m3, m4⟩ := C98_made dtype hc
  have hn : n' = n := by
    have := PyNum.int.inj m3
    omega
  rw [hn] at m4
  refine ⟨m1, m2, m4, ?_⟩
  have key : ∃ r : IntRange, r.start = a ∧ r.step = s ∧ r.steps = n ∧
      ∀ checked index, Py.intItem checked c index = some (r.getitem checked w index) := by
    rcases hw with ⟨rfl, rfl⟩ | ⟨rfl, rfl⟩
    · obtain ⟨a', d', n', h1, h2, h3, f1, f2, -, rfl⟩ := C98_int32.1 hc
      cases h1; cases h2
      have := PyNum.int.inj h3
      refine ⟨⟨a, s, n⟩, rfl, rfl, rfl, fun checked index => ?_⟩
      unfold Py.intItem
      have e : Py.coordData ⟨name, .i32 (Int32.ofInt a) (Int32.ofInt s) n'⟩ =
        .ok (.i32 (Int32.ofInt a) (Int32.ofInt s) n') := rfl
      have e1 : (Int32.ofInt a).toInt = a := Int32.toInt_ofInt_of_le (by unfold Fits at f1; omega) (by unfold Fits at f1; omega)
      have e2 : (Int32.ofInt s).toInt = s := Int32.toInt_ofInt_of_le (by unfold Fits at f2; omega) (by unfold Fits at f2; omega)
      have e3 : n' = n := by omega
      subst e3
      simp only [e, e1, e2]
    · obtain ⟨a', d', n', h1, h2, h3, f1, f2, -, rfl⟩ := C98_int64.1 hc
      cases h1; cases h2
      have := PyNum.int.inj h3
      refine ⟨⟨a, s, n⟩, rfl, rfl, rfl, fun checked index => ?_⟩
      unfold Py.intItem
      have e : Py.coordData ⟨name, .i64 (Int64.ofInt a) (Int64.ofInt s) n'⟩ =
        .ok (.i64 (Int64.ofInt a) (Int64.ofInt s) n') := rfl
      have e1 : (Int64.ofInt a).toInt = a := Int64.toInt_ofInt_of_le (by unfold Fits at f1; omega) (by unfold Fits at f1; omega)
      have e2 : (Int64.ofInt s).toInt = s := Int64.toInt_ofInt_of_le (by unfold Fits at f2; omega) (by unfold Fits at f2; omega)
      have e3 : n' = n := by omega
      subst e3
      simp only [e, e1, e2]
  obtain ⟨⟨a', s', n''⟩, rfl, rfl, rfl, hr⟩ := key
  refine ⟨fun checked i hi h1 h2 h3 => ?_, fun checked i hi => ?_⟩
  · rw [hr]
    unfold IntRange.getitem
    rw [coordGetitem_int (C42_get checked w _ i hi h1 h2 h3)]
  · obtain ⟨f, h⟩ := (C49_coordinate_rejects checked w ⟨a', s', n''⟩).1 i hi
    exact ⟨f, by rw [hr, h]⟩

/-- C98 does not hold for `2 ^ 32` elements or more: such coordinates are made, and the data set is committed without an
error, but it has only the rest of their number by `2 ^ 32` when it is loaded. -/
theorem C98_steps_wrong {H : Hash} {utf8 : List Byte → Bool} (conv : FloatConv) (name : List Byte) (a s : Int) (n : Nat)
    (ha : Fits 64 a) (hs : Fits 64 s) (hn : 2 ^ 32 ≤ n) (hn' : n < 2 ^ 64) (d : Dataset)
    (hd : ({ d with coord2 := ⟨name, .i64 (Int64.ofInt a) (Int64.ofInt s) 0⟩ } : Dataset).WF utf8) (log : Saved) :
    ∃ c, Py.range conv name (.int a) (.int s) (.int n) .int64 = .ok c ∧ c.len = .ok n ∧
      ∃ cid log', ({ d with coord2 := c } : Dataset).commit H log = (.ok cid, log') ∧
      (log'.NoCollision H → ∃ d', (log'.load H).getDataset utf8 cid = .ok d' ∧
        d'.coord2.len = .ok (n % 2 ^ 32) ∧ n % 2 ^ 32 < n) := by
  refine ⟨_, C98_int64.2 ⟨a, s, n, rfl, rfl, rfl, ha, hs, hn', rfl⟩, rfl, _, _, rfl, fun hnc => ?_⟩
  have hb : (Item.dataset { d with coord2 := ⟨name, .i64 (Int64.ofInt a) (Int64.ofInt s) n⟩ }).bytes =
      (Item.dataset { d with coord2 := ⟨name, .i64 (Int64.ofInt a) (Int64.ofInt s) (n % 2 ^ 32)⟩ }).bytes := by
    have e : asU32 n = asU32 (n % 2 ^ 32) := by
      apply BitVec.eq_of_toNat_eq
      simp [asU32]
    simp only [Item.bytes, Dataset.write, Coordinate.write, CoordinateKind.write]
    rw [e]
  refine ⟨_, Store.getDataset_of (d := { d with coord2 := ⟨name, .i64 (Int64.ofInt a) (Int64.ofInt s) (n % 2 ^ 32)⟩ })
    (by rw [← hb]; exact Saved.load_mem hnc (List.mem_cons_self ..)) ?_, rfl, ?_⟩
  · exact ⟨hd.coord0, hd.coord1, ⟨hd.coord2.name, hd.coord2.utf8, Nat.mod_lt _ (by decide)⟩, hd.len, hd.vars, hd.rows,
      hd.cols, hd.prev⟩
  · exact Nat.lt_of_lt_of_le (Nat.mod_lt _ (by decide)) hn

/-- Four elements from 10 in steps of -5; and what is refused: floats for a coordinate of integers, a negative number of
elements, a start that does not fit, a type that the code does not know. -/
example (conv : FloatConv) :
    Py.range conv [1] (.int 10) (.int (-5)) (.int 4) .int32 = .ok ⟨[1], .i32 10 (-5) 4⟩ ∧
    Py.intItem true ⟨[1], .i32 10 (-5) 4⟩ (.int 3) = some (.ok (.d0 (-5))) ∧
    Py.range conv [1] (.float 0) (.int 1) (.int 4) .int32 = .error (.err (.py .type)) ∧
    Py.range conv [1] (.int 0) (.int 1) (.int (-4)) .int64 = .error (.err (.py .overflow)) ∧
    Py.range conv [1] (.int (2 ^ 31)) (.int 1) (.int 4) .int32 = .error (.err (.py .overflow)) ∧
    Py.range conv [1] (.int 0) (.int 1) (.int 4) .other = .error (.err (.py .value)) := by
  refine ⟨rfl, ?_, rfl, rfl, rfl, rfl⟩
  decide +kernel

/-- A data set with such a coordinate meets what C98 asks for. -/
example (conv : FloatConv) : ∃ c, Py.range conv [1] (.int 0) (.int 1) (.int 4) .int64 = .ok c ∧
    exampleDataset.coord0 = c ∧ exampleDataset.WF fun _ => true :=
  ⟨_, rfl, rfl, exampleWF⟩

end Verif
