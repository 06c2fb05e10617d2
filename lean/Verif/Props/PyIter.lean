import Verif.Model.PyIter
import Verif.Props.Range
import Verif.Props.FloatRange
import Verif.Props.Py

/-!
Property C83: iterating over coordinates and variables in Python.
-/
namespace Verif

section
variable {β : Type} {getitem : Nat → Except Fail β}

theorem pyFor_ok {xs : Nat → β} : ∀ (n i : Nat), (∀ j, i ≤ j → j < i + n → getitem j = .ok (xs j)) →
    pyFor getitem n i = ((List.range' i n).map xs, .more) := by
  intro n
  induction n with
  | zero => intro i _; rfl
  | succ n ih =>
    intro i h
    unfold pyFor
    rw [h i (Nat.le_refl _) (by omega), ih (i + 1) fun j h1 h2 => h j (by omega) (by omega)]
    simp [List.range'_succ]

theorem pyFor_end {xs : Nat → β} {f : Fail} (len : Nat) (hx : ∀ j, j < len → getitem j = .ok (xs j))
    (hf : getitem len = .error f) : ∀ (n i : Nat), i ≤ len → len < i + n →
    pyFor getitem n i = ((List.range' i (len - i)).map xs, .of f) := by
  intro n
  induction n with
  | zero => intro i h1 h2; omega
  | succ n ih =>
    intro i h1 h2
    unfold pyFor
    by_cases he : i = len
    · subst he
      rw [hf]
      simp
    · rw [hx i (by omega), ih (i + 1) (by omega) (by omega), show len - i = len - (i + 1) + 1 by omega,
        List.range'_succ]
      rfl

open Classical in
theorem pyIn_end [DecidableEq β] {xs : Nat → β} {f : Fail} (len : Nat)
    (hx : ∀ j, j < len → getitem j = .ok (xs j)) (hf : getitem len = .error f) (hr : PyEnd.of f = .raised f)
    (x : β) : ∀ (n i : Nat), i ≤ len → len < i + n →
    pyIn getitem x n i = some (if ∃ j, i ≤ j ∧ j < len ∧ xs j = x then .ok true else .error f) := by
  intro n
  induction n with
  | zero => intro i h1 h2; omega
  | succ n ih =>
    intro i h1 h2
    unfold pyIn
    by_cases he : i = len
    · subst he
      rw [hf, if_neg (by rintro ⟨j, a, b, -⟩; omega)]
      simp only [hr]
    · rw [hx i (by omega)]
      by_cases hxi : xs i = x
      · simp only [hxi, if_true]
        rw [if_pos ⟨i, Nat.le_refl _, by omega, hxi⟩]
      · simp only [hxi, if_false]
        rw [ih (i + 1) (by omega) (by omega)]
        congr 1
        by_cases h : ∃ j, i ≤ j ∧ j < len ∧ xs j = x
        · rw [if_pos h, if_pos]
          obtain ⟨j, a, b, c⟩ := h
          have : j ≠ i := by rintro rfl; exact hxi c
          exact ⟨j, by omega, b, c⟩
        · rw [if_neg h, if_neg]
          rintro ⟨j, a, b, c⟩
          exact h ⟨j, by omega, b, c⟩

end

open Classical in
/-- Iterating over a coordinate with these elements gives all of them, and then `PanicException`; membership is
answered for the elements, and raises `PanicException` for anything else. -/
structure PyPanicsAtEnd {α : Type} [DecidableEq α] (getitem : PyIndex → Except Fail (Nd α)) (steps : Nat)
    (xs : Nat → α) : Prop where
  loop : ∀ n, steps < n → pyFor (fun i => getitem (.int i)) n 0 =
    ((List.range steps).map fun i => .d0 (xs i), .raised .panic)
  mem : ∀ n, steps < n → ∀ x, pyIn (fun i => getitem (.int i)) (.d0 x) n 0 =
    some (if ∃ i, i < steps ∧ xs i = x then .ok true else .error .panic)

theorem coord_panics {α : Type} [DecidableEq α] {len : Except Fail Nat} {get : Nat → Option α}
    {slice : Nat → Nat → Option (List α)} {steps : Nat} {xs : Nat → α} (hx : ∀ i, i < steps → get i = some (xs i))
    (hend : get steps = none) : PyPanicsAtEnd (coordGetitem len get slice) steps xs := by
  have h1 : ∀ i, i < steps → coordGetitem len get slice (.int i) = .ok (.d0 (xs i)) := by
    intro i hi
    simp [coordGetitem, toUsize, hx i hi]
  have h2 : coordGetitem len get slice (.int steps) = .error .panic := by
    simp [coordGetitem, toUsize, hend]
  refine ⟨fun n hn => ?_, fun n hn x => ?_⟩
  · rw [pyFor_end (xs := fun i => .d0 (xs i)) steps h1 h2 n 0 (Nat.zero_le _) (by omega), Nat.sub_zero,
      List.range_eq_range']
    rfl
  · rw [pyIn_end (xs := fun i => .d0 (xs i)) steps h1 h2 rfl _ n 0 (Nat.zero_le _) (by omega)]
    simp only [Nat.zero_le, true_and, Nd.d0.injEq]

/-- C83 is false of the code: to iterate over a coordinate of integers gives all elements and then panics, instead
of ending; to ask for a number that is not among them panics, instead of answering that it is not. -/
theorem C83_int_wrong (checked : Bool) (w : Nat) (r : IntRange)
    (h : ∀ i : Nat, i < r.steps → Fits w i ∧ Fits w (i * r.step) ∧ Fits w (r.start + i * r.step)) :
    PyPanicsAtEnd (r.getitem checked w) r.steps fun i => r.start + i * r.step :=
  coord_panics (fun i hi => C42_get checked w r i hi (h i hi).1 (h i hi).2.1 (h i hi).2.2)
    (C42_get_rejects checked w r r.steps (Nat.le_refl _))

/-- C83 is false of the code in the same way for all coordinates of floats. -/
theorem C83_float_wrong (p : Nat) (r : FloatRange) : PyPanicsAtEnd (r.getitem p) r.steps (r.at' p) :=
  coord_panics (fun _ hi => FloatRange.get_eq hi)
    (C48_get_rejects r r.steps (Nat.le_refl _))

/-- C49 for coordinates of floats on a binary grid (see C48 for others): indexing in Python gives what NumPy gives for an
array of the coordinates. -/
theorem C49_float_partial (p : Nat) (r : FloatRange) (hg : r.OnGrid p r.steps) (index : PyIndex)
    (hi : index.PlainTime r.steps) (hst : ∀ a b s, index = .slice a b s → s = none) :
    ∃ x, Spec.numpy1 r.steps (fun i => r.start + (i : Rat) * r.step) index = some x ∧
      r.getitem p index = .ok x := by
  have hgrid : ∀ k, k ≤ r.steps → r.OnGrid p k := by
    intro k hk
    obtain ⟨a, s, e, h1, h2, h3, h4⟩ := hg
    have : k * s.natAbs ≤ r.steps * s.natAbs := Nat.mul_le_mul_right _ hk
    exact ⟨a, s, e, h1, h2, h3, by omega⟩
  cases index with
  | int i =>
    obtain ⟨k, -, hk, hlt, -, hsel⟩ := sel_int hi
    refine ⟨.d0 (r.start + (k : Rat) * r.step), by simp [Spec.numpy1, hsel], ?_⟩
    have := C48_get_exact_partial r k hlt (hgrid k hlt.le)
    simp [FloatRange.getitem, coordGetitem, hk, this]
  | slice a b s =>
    obtain rfl := hst a b s rfl
    obtain ⟨h1, h2, h3, h4, -⟩ := hi
    rw [Spec.numpy1, Spec.sel, Spec.sliceOf_plain h1 h4 h2 rfl]
    refine ⟨_, rfl, ?_⟩
    have e1 : toUsize (a.getD 0) = some (a.getD 0).toNat := by simp [toUsize, h1]
    have e2 : toUsize (b.getD r.steps) = some (b.getD r.steps).toNat := by
      simp only [toUsize]; rw [if_pos (by omega)]
    obtain ⟨xs, c1, c2, c3⟩ := C48_slice_partial r (a.getD 0).toNat (b.getD r.steps).toNat (by omega) (by omega)
      (by omega) (hgrid _ (by omega))
    have e3 : r.getitem p (.slice a b none) = coordSlice (r.slice p) (a.getD 0) (b.getD r.steps) := by
      cases a <;> cases b <;> rfl
    rw [e3, coordSlice, e1, e2]
    simp only [c1, List.map_map]
    congr 2
    refine List.ext_getElem (by simp [c2]) fun k h _ => ?_
    rw [(c3 k h).2]
    simp

/-- C83: an iteration ends well by an `IndexError` only. If the data of a variable cannot be loaded, the loop gives
nothing and raises why. -/
theorem C83_load {α : Type} (kind : Kind α) (utf8 : List Byte → Bool) (st : Store) (fuel : Nat) (v : Variable)
    (f : Fail) (hf : f ≠ .err (.py .index)) (hv : v.data kind utf8 st = .error f) (n : Nat) :
    pyFor (fun i => v.lazyItem kind utf8 st fuel [.int i]) (n + 1) 0 = ([], .raised f) := by
  have e : PyEnd.of f = .raised f := by
    unfold PyEnd.of
    split
    · exact absurd rfl hf
    · rfl
  simp [pyFor, Variable.lazyItem, hv, e]

/-- C83: nor does the loop end well if the shape cannot be told, which a panic shows. -/
theorem C83_shape {α : Type} (kind : Kind α) (utf8 : List Byte → Bool) (st : Store) (fuel : Nat) (v : Variable)
    (data : MMStruct3) (hv : v.data kind utf8 st = .ok data) (hs : data.shape = none) (n : Nat) :
    pyFor (fun i => v.lazyItem kind utf8 st fuel [.int i]) (n + 1) 0 = ([], .raised .panic) := by
  simp [pyFor, Variable.lazyItem, hv, hs, PyEnd.of]

/-- C83: a single number cannot be iterated over, which is a `TypeError` as in NumPy; and what fails when the slice is
used is raised. -/
theorem C83_scalar {α : Type} (x : α) (n : Nat) :
    pyFor (sliceItem (.ok (.d0 x))) (n + 1) 0 = ([], .raised (.err (.py .type))) ∧
    ∀ f : Fail, f ≠ .err (.py .index) → pyFor (sliceItem (.error f : Except Fail (Nd α))) (n + 1) 0 = ([], .raised f) := by
  refine ⟨rfl, fun f hf => ?_⟩
  have e : PyEnd.of f = .raised f := by
    unfold PyEnd.of
    split
    · exact absurd rfl hf
    · rfl
  simp [pyFor, sliceItem, e, Except.bind]

/-- C83: the elements that an iteration over a coordinate gives are those of indexing, in order. -/
theorem C83_elements_partial {α : Type} [DecidableEq α] (getitem : PyIndex → Except Fail (Nd α)) (n : Nat) :
    ∀ (i : Nat) (x : Nd α), (pyFor (fun i => getitem (.int i)) n 0).1[i]? = some x → getitem (.int i) = .ok x := by
  have : ∀ (n k i : Nat) (x : Nd α), (pyFor (fun i => getitem (.int i)) n k).1[i]? = some x →
      getitem (.int (k + i : Nat)) = .ok x := by
    intro n
    induction n with
    | zero => intro k i x h; simp [pyFor] at h
    | succ n ih =>
      intro k i x h
      unfold pyFor at h
      cases hg : getitem (.int k) with
      | error f => simp [hg] at h
      | ok y =>
        simp only [hg] at h
        cases i with
        | zero =>
          simp only [List.getElem?_cons_zero, Option.some.injEq] at h
          subst h
          exact hg
        | succ i =>
          have := ih (k + 1) i x (by simpa using h)
          rw [show k + (i + 1) = k + 1 + i by omega]
          exact this
  intro i x h
  have := this n 0 i x h
  rwa [Nat.zero_add] at this

theorem arith_total (w : Nat) (hw : 0 < w) (x : Int) : ∃ y, arith false w x = some y :=
  ⟨_, arith_release hw x⟩

theorem arith_mod {w : Nat} (hw : 0 < w) {a b x y : Int} (h : arith false w b = some x)
    (h' : arith false w (a + x) = some y) (hf : Fits w (a + b)) : y = a + b := by
  rw [arith_release hw, Option.some.injEq] at h h'
  subst h h'
  rw [Int.add_comm, wrap_add_left, Int.add_comm, wrap_of_fits hw hf]

theorem TimeRange.get_release (r : TimeRange) (j : Nat) : ∃ x, r.get false j = some x ∧
    (Fits 64 j → Fits 64 (r.start + j * r.step) → x = r.start + j * r.step) := by
  obtain ⟨x, h⟩ := arith_total 64 (by omega) (wrap 64 j * r.step)
  obtain ⟨y, h'⟩ := arith_total 64 (by omega) (r.start + x)
  refine ⟨y, ?_, fun h1 h2 => ?_⟩
  · unfold TimeRange.get
    rw [h, Option.bind_eq_bind, Option.bind_some, h']
  · rw [wrap_of_fits (by omega) h1] at h
    exact arith_mod (by omega) h h' h2

theorem coord_goes_on {α : Type} {len : Except Fail Nat} {get : Nat → Option α}
    {slice : Nat → Nat → Option (List α)} {xs : Nat → α} (hx : ∀ i, get i = some (xs i)) (n : Nat) :
    pyFor (fun i => coordGetitem len get slice (.int i)) n 0 = ((List.range n).map fun i => .d0 (xs i), .more) := by
  rw [pyFor_ok (xs := fun i => .d0 (xs i)) n 0 (fun j _ _ => ?_), List.range_eq_range']
  simp [coordGetitem, toUsize, hx j]

/-- C83: time has no end (`len` says so), and to iterate over it does not end, as it should, in programs compiled
without overflow checks; the instants are right as long as they fit 64 bits. -/
theorem C83_time (r : TimeRange) (n : Nat) : ∃ xs : Nat → Int, pyFor (fun i => r.getitem false (.int i)) n 0 =
    ((List.range n).map fun i => .d0 (xs i), .more) ∧
    ∀ i, i < n → Fits 64 i → Fits 64 (r.start + i * r.step) → xs i = r.start + i * r.step := by
  choose xs hx using r.get_release
  exact ⟨xs, coord_goes_on (fun i => (hx i).1) n, fun i _ h1 h2 => (hx i).2 h1 h2⟩

/-- C83 is false of the code: to iterate over a variable never ends and never reads anything, however few instants
there are, because `__getitem__` takes every index; the error comes when the slice is used. -/
theorem C83_variable_wrong {α : Type} (kind : Kind α) (utf8 : List Byte → Bool) (st : Store) (fuel : Nat) (v : Variable)
    (data : MMStruct3) (instants rows cols : Nat) (hv : v.data kind utf8 st = .ok data)
    (hs : data.shape = some (instants, rows, cols)) (n : Nat) :
    pyFor (fun i => v.lazyItem kind utf8 st fuel [.int i]) n 0 =
      ((List.range n).map fun i : Nat => kind.getitem utf8 st fuel data [.int i], .more) := by
  rw [pyFor_ok (xs := fun i : Nat => kind.getitem utf8 st fuel data [.int i]) n 0 (fun j _ _ => ?_),
    List.range_eq_range']
  simp [Variable.lazyItem, hv, hs]

/-- The slices past the end give an error when they are used. -/
theorem C83_variable_late {α : Type} (kind : Kind α) (utf8 : List Byte → Bool) (st : Store) (fuel : Nat)
    (data : MMStruct3) (instants rows cols i : Nat) (hs : data.shape = some (instants, rows, cols))
    (hi : instants ≤ i) (res : Except Fail (Nd α)) (h : kind.getitem utf8 st fuel data [.int i] res) :
    res = .error .panic := by
  have e : toUsize ((i : Int) + 1) = some (i + 1) := by
    simp only [toUsize]; rw [if_pos (by omega)]; congr 1
  have e2 : Kind.window kind utf8 st fuel data (Cube.new i (i + 1) 0 rows 0 cols) = (· = .error .panic) := by
    funext x
    rw [Cube.new_of_le (by omega) (by omega) (by omega)]
    have : data.checkCube ⟨i, i + 1, 0, rows, 0, cols⟩ = none := by
      simp only [MMStruct3.checkCube, csub]
      split
      · next h1 h2 h3 =>
        simp only [MMStruct3.checkBounds, hs]
        simp at h1
        rw [if_pos (.inl (by omega))]
      · rfl
    simp [Kind.window, this]
  have e1 : ∀ x : Nat, toUsize (x : Int) = some x := by simp [toUsize]
  have e5 : toUsize 0 = some 0 := rfl
  simpa [Kind.getitem, hs, PyIndex.fix, PyIndex.asSlice, List.replicate, e, e1, e2, e5, PyIndex.isInt,
    Except.bind] using h

/-- C83: the slices before the end are the instants, in order, when they are used. -/
theorem C83_variable_partial {α : Type} {kind : Kind α} {utf8 : List Byte → Bool} {st : Store} {fuel : Nat}
    {m : MMStruct3} {n rows cols : Nat} {data : Nat → Nat → Nat → α}
    (h : ArrayReads kind utf8 st fuel m n rows cols data) (hr : 0 < rows) (hc : 0 < cols) (i : Nat) (hi : i < n)
    (res : Except Fail (Nd α)) : kind.getitem utf8 st fuel m [.int i] res ↔
      res = .ok (.d2 ((List.range rows).map fun r => (List.range cols).map fun c => data i r c)) := by
  rw [C49_variable_partial h (by omega) hr hc _ ⟨by simp, by
    simp only [List.getElem?_cons_zero, Option.mem_def, Option.some.injEq, forall_eq']
    exact ⟨by simp, by simpa using hi⟩, by simp, by simp⟩]
  have e : Spec.sel n (.int i) = some (.one i) := by
    have e1 : Spec.fromEnd n (i : Int) = i := by simp [Spec.fromEnd]
    simp only [Spec.sel, e1]
    rw [if_pos (by omega)]
    simp
  simp [Spec.numpy, e, Spec.take, Spec.everything]

/-- C83: to iterate over what was read of a variable gives its items and ends. -/
theorem C83_slice {α : Type} (xs : List (List (List α))) (ys : List (List α)) (zs : List α) (n : Nat) :
    (xs.length < n → pyFor (sliceItem (.ok (.d3 xs))) n 0 = (xs.map .d2, .done)) ∧
    (ys.length < n → pyFor (sliceItem (.ok (.d2 ys))) n 0 = (ys.map .d1, .done)) ∧
    (zs.length < n → pyFor (sliceItem (.ok (.d1 zs))) n 0 = (zs.map .d0, .done)) := by
  have key : ∀ {γ : Type} (l : List γ) (c : γ → Nd α) (a : Nd α), (∀ i, a.item i = match l[i]? with
      | none => .error (.err (.py .index))
      | some x => .ok (c x)) → l.length < n → pyFor (sliceItem (.ok a)) n 0 = (l.map c, .done) := by
    intro γ l c a h hn
    cases l with
    | nil =>
      rw [pyFor_end (getitem := sliceItem (.ok a)) (xs := fun _ => a) (f := .err (.py .index)) 0 (fun j hj => by omega) (h 0) n 0 (Nat.le_refl _)
        (by simpa using hn)]
      rfl
    | cons x0 l =>
      have h1 : ∀ j, j < (x0 :: l).length → sliceItem (.ok a) j = .ok (c ((x0 :: l)[j]?.getD x0)) := by
        intro j hj
        change a.item j = _
        rw [h j, List.getElem?_eq_getElem hj]
        rfl
      have h2 : sliceItem (.ok a) (x0 :: l).length = .error (.err (.py .index)) := by
        change a.item _ = _
        rw [h _, List.getElem?_eq_none (Nat.le_refl _)]
      rw [pyFor_end (xs := fun i => c ((x0 :: l)[i]?.getD x0)) (x0 :: l).length h1 h2 n 0 (Nat.zero_le _) (by omega)]
      have e : (List.range' 0 ((x0 :: l).length - 0)).map (fun i => c ((x0 :: l)[i]?.getD x0)) = (x0 :: l).map c := by
        apply List.ext_getElem
        · simp
        · intro i g1 g2
          rw [List.length_map] at g2
          rw [List.getElem_map, List.getElem_map, List.getElem_range', Nat.zero_add, Nat.one_mul,
            List.getElem?_eq_getElem g2]
          rfl
      rw [e]
      rfl
  refine ⟨key xs .d2 _ fun i => ?_, key ys .d1 _ fun i => ?_, key zs .d0 _ fun i => ?_⟩
  all_goals
    simp only [Nd.item]
    split <;> simp_all

/-- The assumptions of `C83_int_wrong`: 10, 12, 14. -/
example : pyFor (fun i => (⟨10, 2, 3⟩ : IntRange).getitem true 32 (.int i)) 100 0 =
    ([.d0 10, .d0 12, .d0 14], .raised .panic) :=
  (C83_int_wrong true 32 ⟨10, 2, 3⟩ (by decide)).loop 100 (by decide)

/-- The assumptions of `C83_variable_wrong` and `C83_variable_late`: a variable of two instants, of which a hundred
are given, the last of which panics when it is used. -/
example : ∃ (st : Store) (v : Variable) (m : MMStruct3), m.shape = some (2, 4, 4) ∧
    (pyFor (fun i => v.lazyItem .i64 (fun _ => true) st 40 [.int i]) 100 0).1.length = 100 ∧
    ∀ res, Kind.i64.getitem (fun _ => true) st 40 m [.int (99 : Nat)] res → res = .error .panic := by
  obtain ⟨s, -, -, -, v, m, -, h1, h2, -⟩ := C31_overflow_wrong
  exact ⟨_, v, m, h2, by rw [C83_variable_wrong _ _ _ _ v m 2 4 4 h1 h2 100]; simp,
    C83_variable_late _ _ _ _ m 2 4 4 99 h2 (by omega)⟩

/-- Two rows of an instant. -/
example : pyFor (sliceItem (.ok (.d2 [[1, 2], [3, 4]]))) 10 0 = ([.d1 [1, 2], .d1 [3, 4]], .done) :=
  (C83_slice [] [[1, 2], [3, 4]] [] 10).2.1 (by decide)

/-- The assumptions of `C49_float_partial`: latitudes from 90 down in steps of a quarter. -/
example : (⟨90, -1 / 4, 721⟩ : FloatRange).OnGrid 24 721 ∧ (PyIndex.slice (some 700) none none).PlainTime 721 := by
  refine ⟨⟨360, -1, -2, ?_, ?_, by decide, by decide⟩, by unfold PyIndex.PlainTime; decide⟩ <;> norm_num

/-- The assumptions of `C83_load`: a variable whose data is not in the store. -/
example (v : Variable) (utf8 : List Byte → Bool) :
    pyFor (fun i => v.lazyItem .i64 utf8 (fun _ => none) 40 [.int i]) 7 0 = ([], .raised (.err (.notFound v.cid))) :=
  C83_load _ _ _ _ v _ (by simp) rfl 6

end Verif
