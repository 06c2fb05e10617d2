import Verif.Model.Py
import Verif.Props.Array
import Verif.Props.Range

/-!
C49: indexing variables and coordinates in Python, against basic indexing of NumPy.
-/

namespace Verif

namespace Spec

/-- What an index selects of one dimension. -/
inductive Sel
  | one (i : Nat)
  | many (is : List Nat)

/-- A negative index counts from the end. -/
def fromEnd (dim : Nat) (i : Int) : Int := if i < 0 then i + dim else i

/-- The positions `start:stop:step` selects of a dimension in Python; a step of 0 is an error. -/
def sliceOf (dim : Nat) (start stop step : Option Int) : Option (List Nat) :=
  let s := step.getD 1
  if s = 0 then none
  else if 0 < s then
    let first := max 0 (fromEnd dim (start.getD 0))
    some ((List.range dim).filter fun i : Nat => first ≤ i ∧ (∀ b ∈ stop, (i : Int) < fromEnd dim b) ∧
      (i - first) % s = 0)
  else
    let first := min ((dim : Int) - 1) (fromEnd dim (start.getD (dim - 1)))
    some ((List.range dim).filter fun i : Nat => i ≤ first ∧ (∀ b ∈ stop, fromEnd dim b < i) ∧
      (first - i) % s = 0).reverse

/-- Basic indexing of NumPy, one dimension. -/
def sel (dim : Nat) : PyIndex → Option Sel
  | .int i => if 0 ≤ fromEnd dim i ∧ fromEnd dim i < dim then some (.one (fromEnd dim i).toNat) else none
  | .slice start stop step => (sliceOf dim start stop step).map .many

/-- The selected part of an array. -/
def take {α : Type} (data : Nat → Nat → Nat → α) : Sel → Sel → Sel → Nd α
  | .one t, .one r, .one c => .d0 (data t r c)
  | .one t, .one r, .many cs => .d1 (cs.map fun c => data t r c)
  | .one t, .many rs, .one c => .d1 (rs.map fun r => data t r c)
  | .many ts, .one r, .one c => .d1 (ts.map fun t => data t r c)
  | .one t, .many rs, .many cs => .d2 (rs.map fun r => cs.map fun c => data t r c)
  | .many ts, .one r, .many cs => .d2 (ts.map fun t => cs.map fun c => data t r c)
  | .many ts, .many rs, .one c => .d2 (ts.map fun t => rs.map fun r => data t r c)
  | .many ts, .many rs, .many cs => .d3 (ts.map fun t => rs.map fun r => cs.map fun c => data t r c)

/-- Everything of a dimension. -/
def everything (dim : Nat) : Sel := .many (List.range dim)

/-- Basic indexing of NumPy of an array of three dimensions. -/
def numpy {α : Type} (n rows cols : Nat) (data : Nat → Nat → Nat → α) : List PyIndex → Option (Nd α)
  | [] => some (take data (everything n) (everything rows) (everything cols))
  | [t] => do some (take data (← sel n t) (everything rows) (everything cols))
  | [t, r] => do some (take data (← sel n t) (← sel rows r) (everything cols))
  | [t, r, c] => do some (take data (← sel n t) (← sel rows r) (← sel cols c))
  | _ => none

example : sliceOf 10 none none (some 3) = some [0, 3, 6, 9] := by decide
example : sliceOf 4 none none (some (-1)) = some [3, 2, 1, 0] := by decide
example : sliceOf 10 (some (-3)) none none = some [7, 8, 9] := by decide
example : sliceOf 10 (some 8) (some 2) (some (-2)) = some [8, 6, 4] := by decide
example : sliceOf 10 (some (-20)) (some 5) (some 2) = some [0, 2, 4] := by decide
example : sliceOf 10 (some 20) (some (-20)) (some (-4)) = some [9, 5, 1] := by decide
example : sliceOf 10 (some 5) (some 3) none = some [] := by decide
example : sliceOf 10 (some 7) (some 99) none = some [7, 8, 9] := by decide

end Spec

/-- An index within the bounds of a dimension; a slice has no step, and is not empty. -/
def PyIndex.Plain (dim : Nat) : PyIndex → Prop
  | .int i => 0 ≤ i ∧ i < dim
  | .slice start stop step => 0 ≤ start.getD 0 ∧ start.getD 0 < stop.getD dim ∧ stop.getD dim ≤ dim ∧
    step.getD 1 = 1

/-- The same for time, where a slice may be empty if it ends after the start. -/
def PyIndex.PlainTime (dim : Nat) : PyIndex → Prop
  | .int i => 0 ≤ i ∧ i < dim
  | .slice start stop step => 0 ≤ start.getD 0 ∧ start.getD 0 ≤ stop.getD dim ∧ 0 < stop.getD dim ∧
    stop.getD dim ≤ dim ∧ step.getD 1 = 1

/-- Indices within the bounds of an array. -/
def PlainIndices (n rows cols : Nat) (indices : List PyIndex) : Prop :=
  indices.length ≤ 3 ∧ (∀ t ∈ indices[0]?, t.PlainTime n) ∧ (∀ r ∈ indices[1]?, r.Plain rows) ∧
    (∀ c ∈ indices[2]?, c.Plain cols)

theorem filter_range_between (a b dim : Nat) :
    (List.range dim).filter (fun i => decide (a ≤ i ∧ i < b)) =
      (List.range (min b dim - a)).map (a + ·) := by
  induction dim with
  | zero => simp
  | succ dim ih =>
    rw [List.range_succ, List.filter_append, ih]
    by_cases h : a ≤ dim ∧ dim < b
    · rw [List.filter_singleton, decide_eq_true h]
      rw [show min b (dim + 1) - a = (min b dim - a) + 1 by omega, List.range_succ, List.map_append]
      simp
      omega
    · rw [List.filter_singleton, decide_eq_false h]
      rw [show min b (dim + 1) - a = min b dim - a by omega]
      simp

theorem Spec.sliceOf_plain {dim : Nat} {start stop step : Option Int} (h0 : 0 ≤ start.getD 0)
    (h2 : stop.getD dim ≤ dim) (h1 : start.getD 0 ≤ stop.getD dim) (hs : step.getD 1 = 1) :
    Spec.sliceOf dim start stop step =
      some ((List.range ((stop.getD dim).toNat - (start.getD 0).toNat)).map ((start.getD 0).toNat + ·)) := by
  have e : min (stop.getD dim).toNat dim = (stop.getD dim).toNat := by omega
  conv => rhs; rw [← e, ← filter_range_between]
  simp only [Spec.sliceOf, hs, Int.emod_one, and_true]
  rw [if_neg (by omega), if_pos (by omega)]
  congr 1
  apply List.filter_congr
  intro i hi
  rw [List.mem_range] at hi
  rw [decide_eq_decide]
  have e1 : Spec.fromEnd dim (start.getD 0) = start.getD 0 := by rw [Spec.fromEnd, if_neg (by omega)]
  rw [e1]
  cases stop with
  | none => simp at *; omega
  | some b =>
    have e2 : Spec.fromEnd dim b = b := by
      simp only [Option.getD_some] at h1 h2
      rw [Spec.fromEnd, if_neg (by omega)]
    simp [e2] at *

theorem PyIndex.fix_slice (dim : Nat) (start stop step : Option Int) :
    ∃ s, (PyIndex.slice start stop step).fix dim = .slice (some (start.getD 0)) (some (stop.getD dim)) s := by
  cases start <;> cases stop <;> exact ⟨_, rfl⟩

theorem PyIndex.asSlice_slice {a b : Int} (ha : 0 ≤ a) (hb : 0 ≤ b) (s : Option Int) :
    (PyIndex.slice (some a) (some b) s).asSlice = some (a.toNat, b.toNat) := by
  simp [PyIndex.asSlice, toUsize, ha, hb]

theorem PyIndex.asSlice_int {i : Int} (h : 0 ≤ i) :
    (PyIndex.int i).asSlice = some (i.toNat, i.toNat + 1) := by
  have h1 : 0 ≤ i + 1 := by omega
  have h2 : (i + 1).toNat = i.toNat + 1 := by omega
  simp [PyIndex.asSlice, toUsize, h, h1, h2]

theorem mapM_ok {β δ : Type} {l : List β} {g : β → Except Fail δ} {h : β → δ} (hg : ∀ x, g x = .ok (h x)) :
    l.mapM g = .ok (l.map h) := by
  induction l with
  | nil => rfl
  | cons x l ih =>
    simp only [List.map_cons, List.mapM_cons, hg, ih]
    rfl

theorem ok_bind {β δ : Type} (x : β) (g : β → Except Fail δ) : (Except.ok x >>= g) = g x := rfl

theorem Cube.new_of_le {a b c d e f : Nat} (h1 : a ≤ b) (h2 : c ≤ d) (h3 : e ≤ f) :
    Cube.new a b c d e f = ⟨a, b, c, d, e, f⟩ := by
  simp only [Cube.new, rearrange]
  rw [if_neg (by omega), if_neg (by omega), if_neg (by omega)]

theorem bind_iff {β γ : Type} {P : Except Fail β → Prop} {v : β} (h : ∀ x, P x ↔ x = .ok v)
    (f : Except Fail β → Except Fail γ) (res : Except Fail γ) :
    (∃ x, P x ∧ res = f x) ↔ res = f (.ok v) := by
  constructor
  · rintro ⟨x, hx, rfl⟩
    rw [(h x).mp hx]
  · intro h'
    exact ⟨_, (h _).mpr rfl, h'⟩

section
variable {α : Type} {kind : Kind α} {utf8 : List Byte → Bool} {st : Store} {fuel : Nat} {m : MMStruct3}
  {n rows cols : Nat} {data : Nat → Nat → Nat → α}

theorem PyIndex.Plain.time {dim : Nat} {x : PyIndex} (h : x.Plain dim) : x.PlainTime dim := by
  cases x with
  | int i => exact h
  | slice a b s =>
    obtain ⟨h0, h1, h2, h3⟩ := h
    exact ⟨h0, by omega, by omega, h2, h3⟩

theorem sel_int {dim : Nat} {i : Int} (h : (PyIndex.int i).PlainTime dim) :
    ∃ k : Nat, (PyIndex.int i).fix dim = .int i ∧ toUsize i = some k ∧ k < dim ∧
      (PyIndex.int i).asSlice = some (k, k + 1) ∧ Spec.sel dim (.int i) = some (.one k) := by
  obtain ⟨h0, h1⟩ := h
  refine ⟨i.toNat, rfl, by simp [toUsize, h0], by omega, PyIndex.asSlice_int h0, ?_⟩
  have e : Spec.fromEnd dim i = i := by rw [Spec.fromEnd, if_neg (by omega)]
  simp [Spec.sel, e, h0, h1]

theorem sel_slice {dim : Nat} {a b s : Option Int} (h : (PyIndex.slice a b s).PlainTime dim) :
    ∃ x y s' A B, (PyIndex.slice a b s).fix dim = .slice x y s' ∧ A ≤ B ∧ 0 < B ∧ B ≤ dim ∧
      (PyIndex.slice x y s').asSlice = some (A, B) ∧
      Spec.sel dim (.slice a b s) = some (.many ((List.range (B - A)).map (A + ·))) ∧
      ((PyIndex.slice a b s).Plain dim → A < B) := by
  obtain ⟨h0, h1, h2, h3, h4⟩ := h
  obtain ⟨s', hs⟩ := PyIndex.fix_slice dim a b s
  refine ⟨_, _, _, (a.getD 0).toNat, (b.getD dim).toNat, hs, by omega, by omega, by omega,
    PyIndex.asSlice_slice h0 (by omega) s', ?_, fun h => ?_⟩
  · rw [Spec.sel, Spec.sliceOf_plain h0 h3 h1 h4]
    rfl
  · have := h.2.1
    omega

theorem getitem_three (h : ArrayReads kind utf8 st fuel m n rows cols data) {t r c : PyIndex}
    (ht : t.PlainTime n) (hr : r.Plain rows) (hc : c.Plain cols) (res : Except Fail (Nd α)) :
    kind.getitem utf8 st fuel m [t, r, c] res ↔
      ∃ x, Spec.numpy n rows cols data [t, r, c] = some x ∧ res = .ok x := by
  have rhs : ∀ {x : Nd α}, Spec.numpy n rows cols data [t, r, c] = some x →
      ((∃ x, Spec.numpy n rows cols data [t, r, c] = some x ∧ res = .ok x) ↔ res = .ok x) := by
    intro x hx
    simp [hx]
  have win : ∀ {A B C D E F : Nat} {ms : List Bool}, A ≤ B → 0 < B → B ≤ n → C < D → D ≤ rows → E < F →
      F ≤ cols → ((∃ x, kind.window utf8 st fuel m (Cube.new A B C D E F) x ∧ res = x.bind (Nd.mask ms)) ↔
        res = Nd.mask ms ((List.range (B - A)).map fun t => (List.range (D - C)).map fun r =>
          (List.range (F - E)).map fun c => data (A + t) (C + r) (E + c))) := by
    intro A B C D E F ms h1 h2 h3 h4 h5 h6 h7
    rw [Cube.new_of_le h1 (by omega) (by omega)]
    exact bind_iff (h.window _ _ _ _ _ _ h1 h2 h3 h4 h6 h5 h7) (fun x => x.bind (Nd.mask ms)) res
  simp only [Kind.getitem, List.length_cons, List.length_nil, h.shape, Nat.sub_self, List.replicate_zero,
    List.append_nil]
  rw [if_neg (by omega)]
  cases t with
  | int t =>
    obtain ⟨kt, ft, ut, lt, at', st'⟩ := sel_int ht
    cases r with
    | int r =>
      obtain ⟨kr, fr, ur, lr, ar, sr⟩ := sel_int hr.time
      cases c with
      | int c =>
        obtain ⟨kc, fc, uc, lc, ac, sc⟩ := sel_int hc.time
        rw [rhs (x := .d0 (data kt kr kc)) (by simp [Spec.numpy, st', sr, sc, Spec.take])]
        simp only [ft, fr, fc, ut, ur, uc]
        rw [h.get _ _ _ lt lr lc]
        rfl
      | slice a b s =>
        obtain ⟨x, y, s', C, D, fc, c1, c2, c3, ac, sc, c4⟩ := sel_slice hc.time
        rw [rhs (by simp only [Spec.numpy, st', sr, sc]; rfl)]
        simp only [ft, fr, fc, at', ar, ac]
        rw [win (by omega) (by omega) (by omega) (by omega) (by omega) (c4 hc) (by omega)]
        simp [Nd.mask, PyIndex.isInt, first, Spec.take, Function.comp_def, ok_bind]
    | slice a b s =>
      obtain ⟨x, y, s', A, B, fr, a1, a2, a3, ar, sr, a4⟩ := sel_slice hr.time
      cases c with
      | int c =>
        obtain ⟨kc, fc, uc, lc, ac, sc⟩ := sel_int hc.time
        rw [rhs (by simp only [Spec.numpy, st', sr, sc]; rfl)]
        simp only [ft, fr, fc, at', ar, ac]
        rw [win (by omega) (by omega) (by omega) (a4 hr) (by omega) (by omega) (by omega)]
        simp [Nd.mask, PyIndex.isInt, first, Spec.take, Function.comp_def, ok_bind]
        rw [mapM_ok (h := fun r => data kt (A + r) kc) (fun x => rfl)]
        rfl
      | slice c d s2 =>
        obtain ⟨x2, y2, s2', C, D, fc, c1, c2, c3, ac, sc, c4⟩ := sel_slice hc.time
        rw [rhs (by simp only [Spec.numpy, st', sr, sc]; rfl)]
        simp only [ft, fr, fc, at', ar, ac]
        rw [win (by omega) (by omega) (by omega) (a4 hr) (by omega) (c4 hc) (by omega)]
        simp [Nd.mask, PyIndex.isInt, first, Spec.take, Function.comp_def, ok_bind]
  | slice ta tb ts =>
    obtain ⟨tx, ty, ts', S, E, ft, t1, t2, t3, at', st', -⟩ := sel_slice ht
    cases r with
    | int r =>
      obtain ⟨kr, fr, ur, lr, ar, sr⟩ := sel_int hr.time
      cases c with
      | int c =>
        obtain ⟨kc, fc, uc, lc, ac, sc⟩ := sel_int hc.time
        rw [rhs (by simp only [Spec.numpy, st', sr, sc]; rfl)]
        simp only [ft, fr, fc, at', ur, uc]
        rw [bind_iff (h.cell _ _ _ _ t1 t2 t3 lr lc) (fun x => x.map .d1) res]
        simp [Spec.take, Function.comp_def, Except.map]
      | slice a b s =>
        obtain ⟨x, y, s', C, D, fc, c1, c2, c3, ac, sc, c4⟩ := sel_slice hc.time
        rw [rhs (by simp only [Spec.numpy, st', sr, sc]; rfl)]
        simp only [ft, fr, fc, at', ar, ac]
        rw [win t1 t2 t3 (by omega) (by omega) (c4 hc) (by omega)]
        simp [Nd.mask, PyIndex.isInt, first, Spec.take, Function.comp_def, ok_bind]
        rw [mapM_ok (h := fun t => (List.range (D - C)).map fun c => data (S + t) kr (C + c))
          (fun x => rfl)]
        rfl
    | slice a b s =>
      obtain ⟨x, y, s', A, B, fr, a1, a2, a3, ar, sr, a4⟩ := sel_slice hr.time
      cases c with
      | int c =>
        obtain ⟨kc, fc, uc, lc, ac, sc⟩ := sel_int hc.time
        rw [rhs (by simp only [Spec.numpy, st', sr, sc]; rfl)]
        simp only [ft, fr, fc, at', ar, ac]
        rw [win t1 t2 t3 (a4 hr) (by omega) (by omega) (by omega)]
        simp [Nd.mask, PyIndex.isInt, first, Spec.take, Function.comp_def, ok_bind]
        rw [mapM_ok (h := fun t => (List.range (B - A)).map fun r => data (S + t) (A + r) kc)
          (fun x => mapM_ok fun y => rfl)]
        rfl
      | slice c d s2 =>
        obtain ⟨x2, y2, s2', C, D, fc, c1, c2, c3, ac, sc, c4⟩ := sel_slice hc.time
        rw [rhs (by simp only [Spec.numpy, st', sr, sc]; rfl)]
        simp only [ft, fr, fc, at', ar, ac]
        rw [win t1 t2 t3 (a4 hr) (by omega) (c4 hc) (by omega)]
        simp [Nd.mask, PyIndex.isInt, first, Spec.take, Function.comp_def, ok_bind]

theorem sel_everything {dim : Nat} : Spec.sel dim (.slice (some 0) none none) = some (Spec.everything dim) := by
  rw [Spec.sel, Spec.sliceOf_plain (by simp) (by simp) (by simp) rfl]
  simp [Spec.everything]

theorem getitem_pad (h : m.shape = some (n, rows, cols)) (res : Except Fail (Nd α)) :
    (kind.getitem utf8 st fuel m [] res ↔ kind.getitem utf8 st fuel m
      [.slice (some 0) none none, .slice (some 0) none none, .slice (some 0) none none] res) ∧
    (∀ t, kind.getitem utf8 st fuel m [t] res ↔ kind.getitem utf8 st fuel m
      [t, .slice (some 0) none none, .slice (some 0) none none] res) ∧
    (∀ t r, kind.getitem utf8 st fuel m [t, r] res ↔ kind.getitem utf8 st fuel m
      [t, r, .slice (some 0) none none] res) := by
  have m0 : (Nd.mask [] : List (List (List α)) → _) = Nd.mask [false, false, false] := rfl
  have m1 : ∀ b, (Nd.mask [b] : List (List (List α)) → _) = Nd.mask [b, false, false] := fun _ => rfl
  have m2 : ∀ b c, (Nd.mask [b, c] : List (List (List α)) → _) = Nd.mask [b, c, false] := fun _ _ => rfl
  refine ⟨?_, fun t => ?_, fun t r => ?_⟩
  · simp [Kind.getitem, h, PyIndex.fix, PyIndex.isInt, m0]
  · simp [Kind.getitem, h, PyIndex.fix, PyIndex.isInt, m1, List.replicate]
  · simp [Kind.getitem, h, PyIndex.fix, PyIndex.isInt, m2, List.replicate]

/-- C49: indexing a variable in Python with indices within its bounds, slices without a step and not empty, gives
what NumPy gives for an array of the data, and never fails. -/
theorem C49_variable_partial (h : ArrayReads kind utf8 st fuel m n rows cols data) (hn : 0 < n) (hr : 0 < rows)
    (hc : 0 < cols) (indices : List PyIndex) (hp : PlainIndices n rows cols indices) (res : Except Fail (Nd α)) :
    kind.getitem utf8 st fuel m indices res ↔
      ∃ x, Spec.numpy n rows cols data indices = some x ∧ res = .ok x := by
  obtain ⟨hp0, hp1, hp2, hp3⟩ := hp
  have all : ∀ dim : Nat, 0 < dim → (PyIndex.slice (some 0) none none).Plain dim := fun dim hd =>
    ⟨by simp, by simpa using hd, by simp, rfl⟩
  match indices with
  | [] =>
    rw [(getitem_pad h.shape res).1, getitem_three h (all n hn).time (all rows hr) (all cols hc)]
    simp [Spec.numpy, sel_everything]
  | [t] =>
    rw [(getitem_pad h.shape res).2.1, getitem_three h (hp1 t (by simp)) (all rows hr) (all cols hc)]
    simp [Spec.numpy, sel_everything]
  | [t, r] =>
    rw [(getitem_pad h.shape res).2.2, getitem_three h (hp1 t (by simp)) (hp2 r (by simp)) (all cols hc)]
    simp [Spec.numpy, sel_everything]
  | [t, r, c] => exact getitem_three h (hp1 t (by simp)) (hp2 r (by simp)) (hp3 c (by simp)) res
  | _ :: _ :: _ :: _ :: _ => simp at hp0; omega

/-- C49: more than three indices are rejected, as NumPy does. -/
theorem C49_too_many (indices : List PyIndex) (hl : 3 < indices.length) (res : Except Fail (Nd α)) :
    kind.getitem utf8 st fuel m indices res ↔ res = .error (.err (.py .index)) := by
  simp [Kind.getitem, hl]

/-- C49: an `int` out of bounds is rejected. -/
theorem C49_out_of_bounds (h : m.shape = some (n, rows, cols)) (t r c : Int)
    (hb : t < 0 ∨ r < 0 ∨ c < 0 ∨ (n : Int) ≤ t ∨ (rows : Int) ≤ r ∨ (cols : Int) ≤ c) (res : Except Fail (Nd α))
    (hres : kind.getitem utf8 st fuel m [.int t, .int r, .int c] res) : ∃ f, res = .error f := by
  simp only [Kind.getitem, List.length_cons, List.length_nil, h, Nat.sub_self, List.replicate_zero,
    List.append_nil, PyIndex.fix] at hres
  rw [if_neg (by omega)] at hres
  by_cases hneg : t < 0 ∨ r < 0 ∨ c < 0
  · have e : toUsize t = none ∨ toUsize r = none ∨ toUsize c = none := by
      simp only [toUsize]
      rcases hneg with h | h | h
      · exact .inl (if_neg (by omega))
      · exact .inr (.inl (if_neg (by omega)))
      · exact .inr (.inr (if_neg (by omega)))
    refine ⟨.err (.py .overflow), ?_⟩
    split at hres
    · next h1 h2 h3 => simp [h1, h2, h3] at e
    · exact hres
  · have e : ∀ i : Int, 0 ≤ i → toUsize i = some i.toNat := fun i hi => by simp [toUsize, hi]
    rw [e t (by omega), e r (by omega), e c (by omega)] at hres
    simp only [Kind.get, MMStruct3.checkBounds, h] at hres
    rw [if_pos (by omega)] at hres
    exact ⟨.panic, hres⟩

/-- C49 does not hold for slices with a step: the step is ignored. `v[::2]` is all of `v`. -/
theorem C49_step_wrong (h : ArrayReads kind utf8 st fuel m n rows cols data) (hn : 2 ≤ n) (hr : 0 < rows)
    (hc : 0 < cols) :
    (∀ res, kind.getitem utf8 st fuel m [.slice none none (some 2)] res ↔
      res = .ok (Spec.take data (Spec.everything n) (Spec.everything rows) (Spec.everything cols))) ∧
    ∃ x, Spec.numpy n rows cols data [.slice none none (some 2)] = some x ∧
      x ≠ Spec.take data (Spec.everything n) (Spec.everything rows) (Spec.everything cols) := by
  constructor
  · intro res
    have e := (C49_variable_partial h (by omega) hr hc [] ⟨by simp, by simp, by simp, by simp⟩ res)
    simp only [Spec.numpy, Option.some.injEq, exists_eq_left'] at e
    rw [← e, (getitem_pad h.shape res).2.1, (getitem_pad h.shape res).1]
    simp [Kind.getitem, h.shape, PyIndex.fix]
  · refine ⟨_, rfl, ?_⟩
    intro hx
    simp only [Spec.take, Spec.everything, Nd.d3.injEq] at hx
    have hl := congrArg List.length hx
    simp only [List.length_map, List.length_range] at hl
    have hlt := List.length_filter_lt_length_iff_exists (p := fun i : Nat =>
      decide (max (0 : Int) (Spec.fromEnd n ((none : Option Int).getD 0)) ≤ i ∧
        (∀ b ∈ (none : Option Int), (i : Int) < Spec.fromEnd n b) ∧
        ((i : Int) - max (0 : Int) (Spec.fromEnd n ((none : Option Int).getD 0))) % 2 = 0)) (l := List.range n)
    have : ((List.range n).filter fun i : Nat =>
      decide (max (0 : Int) (Spec.fromEnd n ((none : Option Int).getD 0)) ≤ i ∧
        (∀ b ∈ (none : Option Int), (i : Int) < Spec.fromEnd n b) ∧
        ((i : Int) - max (0 : Int) (Spec.fromEnd n ((none : Option Int).getD 0))) % 2 = 0)).length <
        (List.range n).length := by
      rw [hlt]
      exact ⟨1, by simp; omega, by simp [Spec.fromEnd]⟩
    rw [List.length_range] at this
    simp [Spec.fromEnd] at hl this
    omega

/-- C49 does not hold for reversed slices: `v[b:a]` is `v[a:b]`, where NumPy gives an empty array. -/
theorem C49_reversed_wrong (h : ArrayReads kind utf8 st fuel m n rows cols data) (hr : 0 < rows)
    (hc : 0 < cols) (a b : Nat) (hab : a < b) (hb : b ≤ n) :
    (∀ res, kind.getitem utf8 st fuel m [.slice (some b) (some a) none] res ↔
      kind.getitem utf8 st fuel m [.slice (some a) (some b) none] res) ∧
    (∀ res, kind.getitem utf8 st fuel m [.slice (some b) (some a) none] res → ∃ xs, res = .ok (.d3 xs) ∧
      xs.length = b - a) ∧
    Spec.numpy n rows cols data [.slice (some b) (some a) none] = some (.d3 []) := by
  have swap : ∀ res, kind.getitem utf8 st fuel m [.slice (some b) (some a) none] res ↔
      kind.getitem utf8 st fuel m [.slice (some a) (some b) none] res := by
    intro res
    simp only [Kind.getitem, List.length_cons, List.length_nil, h.shape, PyIndex.fix, PyIndex.asSlice, toUsize,
      Int.natCast_nonneg, if_true, List.replicate, List.cons_append, List.nil_append, PyIndex.isInt, List.map_cons,
      Int.toNat_natCast, Option.bind_eq_bind, Option.bind_some]
    have e : ∀ x y z w, Cube.new b a x y z w = Cube.new a b x y z w := by
      intro x y z w
      simp [Cube.new, rearrange, hab, Nat.not_lt.mpr (Nat.le_of_lt hab)]
    simp [e]
  refine ⟨swap, fun res hres => ?_, ?_⟩
  · rw [swap, C49_variable_partial h (by omega) hr hc _ ⟨by simp, by
      simp only [List.getElem?_cons_zero, Option.mem_def, Option.some.injEq, forall_eq']
      exact ⟨by simp, by simp; omega, by simp; omega, by simpa using hb, rfl⟩, by simp, by simp⟩] at hres
    obtain ⟨x, hx, rfl⟩ := hres
    simp only [Spec.numpy] at hx
    rw [Spec.sel, Spec.sliceOf_plain (by simp) (by simpa using hb) (by simp; omega) rfl] at hx
    simp only [Option.map_some, Option.bind_eq_bind, Option.bind_some, Option.some.injEq] at hx
    exact ⟨_, congrArg Except.ok hx.symm, by simp⟩
  · have e : Spec.sliceOf n (some b) (some a) none = some [] := by
      simp only [Spec.sliceOf, Option.getD_none, Option.getD_some]
      rw [if_neg (by omega), if_pos (by omega)]
      congr 1
      rw [List.filter_eq_nil_iff]
      intro i _
      simp [Spec.fromEnd]
      omega
    simp [Spec.numpy, Spec.sel, e, Spec.take, Spec.everything]

/-- C49 does not hold for negative indices: they are rejected. -/
theorem C49_negative_wrong (h : ArrayReads kind utf8 st fuel m n rows cols data) (hn : 0 < n) :
    (∀ res, kind.getitem utf8 st fuel m [.int (-1)] res ↔ res = .error (.err (.py .overflow))) ∧
    (∀ res, kind.getitem utf8 st fuel m [.slice (some (-1)) none none] res ↔ res = .error (.err (.py .overflow))) ∧
    Spec.numpy n rows cols data [.int (-1)] =
      some (Spec.take data (.one (n - 1)) (Spec.everything rows) (Spec.everything cols)) ∧
    Spec.numpy n rows cols data [.slice (some (-1)) none none] =
      some (Spec.take data (.many [n - 1]) (Spec.everything rows) (Spec.everything cols)) := by
  refine ⟨fun res => ?_, fun res => ?_, ?_, ?_⟩
  · simp [Kind.getitem, h.shape, PyIndex.fix, PyIndex.asSlice, toUsize, List.replicate]
  · simp [Kind.getitem, h.shape, PyIndex.fix, PyIndex.asSlice, toUsize, List.replicate]
  · have e : Spec.sel n (.int (-1)) = some (.one (n - 1)) := by
      have e1 : Spec.fromEnd n (-1) = ((n - 1 : Nat) : Int) := by simp [Spec.fromEnd]; omega
      simp only [Spec.sel, e1]
      rw [if_pos (by omega)]
      rfl
    simp [Spec.numpy, e]
  · have e : Spec.sliceOf n (some (-1)) none none = some [n - 1] := by
      have e1 : Spec.fromEnd n (-1) = ((n - 1 : Nat) : Int) := by simp [Spec.fromEnd]; omega
      simp only [Spec.sliceOf, Option.getD_none, Option.getD_some, e1]
      rw [if_neg (by omega), if_pos (by omega)]
      have := filter_range_between (n - 1) n n
      rw [show min n n - (n - 1) = 1 by omega] at this
      simp only [List.range_one, List.map_cons, Nat.add_zero, List.map_nil] at this
      rw [← this]
      congr 1
      apply List.filter_congr
      intro i hi
      rw [List.mem_range] at hi
      simp
      omega
    simp [Spec.numpy, Spec.sel, e]

/-- C49 does not hold for slices that end out of bounds: the read panics, where NumPy gives what there is. -/
theorem C49_clamp_wrong (h : ArrayReads kind utf8 st fuel m n rows cols data) :
    (∀ res, kind.getitem utf8 st fuel m [.slice none (some (n + 1)) none] res ↔ res = .error .panic) ∧
    Spec.numpy n rows cols data [.slice none (some (n + 1)) none] =
      some (Spec.take data (Spec.everything n) (Spec.everything rows) (Spec.everything cols)) := by
  constructor
  · intro res
    have e : toUsize ((n : Int) + 1) = some (n + 1) := by
      simp only [toUsize]; rw [if_pos (by omega)]; congr 1
    have e2 : Kind.window kind utf8 st fuel m (Cube.new 0 (n + 1) 0 rows 0 cols) = (· = .error .panic) := by
      funext x
      rw [Cube.new_of_le (by omega) (by omega) (by omega)]
      have : m.checkCube ⟨0, n + 1, 0, rows, 0, cols⟩ = none := by
        simp only [MMStruct3.checkCube, csub]
        split
        · next h1 h2 h3 =>
          simp only [MMStruct3.checkBounds, h.shape]
          simp at h1
          rw [if_pos (.inl (by omega))]
        · rfl
      simp [Kind.window, this]
    have e3 : toUsize (rows : Int) = some rows := by simp [toUsize]
    have e4 : toUsize (cols : Int) = some cols := by simp [toUsize]
    have e5 : toUsize 0 = some 0 := rfl
    simp [Kind.getitem, h.shape, PyIndex.fix, PyIndex.asSlice, List.replicate, e, e2, e3, e4, e5, PyIndex.isInt]
    rfl
  · have e : Spec.sliceOf n none (some (n + 1)) none = some (List.range n) := by
      simp only [Spec.sliceOf, Option.getD_none]
      rw [if_neg (by omega), if_pos (by omega)]
      congr 1
      rw [List.filter_eq_self]
      intro i hi
      rw [List.mem_range] at hi
      simp [Spec.fromEnd]
      split <;> omega
    simp [Spec.numpy, Spec.sel, e, Spec.everything]

/-- C49 does not hold for empty slices: `v[0:0]` panics, where NumPy gives an empty array. -/
theorem C49_empty_wrong (h : ArrayReads kind utf8 st fuel m n rows cols data) :
    (∀ res, kind.getitem utf8 st fuel m [.slice (some 0) (some 0) none] res ↔ res = .error .panic) ∧
    Spec.numpy n rows cols data [.slice (some 0) (some 0) none] = some (.d3 []) := by
  constructor
  · intro res
    have e2 : Kind.window kind utf8 st fuel m (Cube.new 0 0 0 rows 0 cols) = (· = .error .panic) := by
      funext x
      rw [Cube.new_of_le (by omega) (by omega) (by omega)]
      simp [Kind.window, MMStruct3.checkCube, csub]
    have e3 : toUsize (rows : Int) = some rows := by simp [toUsize]
    have e4 : toUsize (cols : Int) = some cols := by simp [toUsize]
    have e5 : toUsize 0 = some 0 := rfl
    simp [Kind.getitem, h.shape, PyIndex.fix, PyIndex.asSlice, List.replicate, e2, e3, e4, e5, PyIndex.isInt]
    rfl
  · have e : Spec.sliceOf n (some 0) (some 0) none = some [] := by
      simp [Spec.sliceOf, Spec.fromEnd]
    simp [Spec.numpy, Spec.sel, e, Spec.take, Spec.everything]

end

/-- C49: after any history, indexing a variable of 64 bits in Python gives what NumPy gives for the arrays appended,
one after the other. -/
theorem C49_history_partial {H : Hash} {utf8 : List Byte → Bool} {clog : Nat → Nat} {lg : Rat → Int}
    {fuel readFuel ss cs : Nat} {levels : List Nat} (d : Dataset) (name : List Byte) (round : Option Nat)
    (ops : List Op) (log : Saved) (h : History utf8 clog readFuel d name round ss cs levels .i64 ops)
    (h64 : ∀ x ∈ arrays name ops, ∃ a, x.1 = .i64 a) (hf : 32 ≤ fuel) (hrf : levels.length + 34 ≤ readFuel)
    (s : Dataset × Saved)
    (hs : s = runs H utf8 clog lg fuel (.addVariable name round ss cs levels .i64 :: ops) (d, log))
    (hnc : s.2.NoCollision H) (hn : 0 < total (arrays name ops)) (hr : 0 < d.rows) (hc : 0 < d.cols) :
    ∃ v m, s.1.findVariable name = some v ∧ v.data .i64 utf8 (s.2.load H) = .ok m ∧
      ∀ indices, PlainIndices (total (arrays name ops)) d.rows d.cols indices →
        ∀ res, Kind.i64.getitem utf8 (s.2.load H) readFuel m indices res ↔
          ∃ x, Spec.numpy (total (arrays name ops)) d.rows d.cols (concat64 (arrays name ops)) indices = some x ∧
            res = .ok x := by
  obtain ⟨v, m, h1, h2, h3, -⟩ := C31_i64_partial (lg := lg) d name round ops log h h64 hf hrf s hs hnc
  exact ⟨v, m, h1, h2, fun indices hp res => C49_variable_partial h3 hn hr hc indices hp res⟩

namespace Spec

/-- Basic indexing of NumPy of an array of one dimension. -/
def numpy1 {α : Type} (n : Nat) (data : Nat → α) (index : PyIndex) : Option (Nd α) :=
  match sel n index with
  | none => none
  | some (.one i) => some (.d0 (data i))
  | some (.many is) => some (.d1 (is.map data))

end Spec

/-- C49: indexing a coordinate of integers in Python gives what NumPy gives for an array of the coordinates. -/
theorem C49_coordinate_partial (checked : Bool) (w : Nat) (r : IntRange) (hstep : r.step ≠ 0) (hn : Fits w r.steps)
    (hs : Fits w r.start) (hp : Fits w (r.steps * r.step)) (hv : Fits w (r.start + r.steps * r.step))
    (index : PyIndex) (hi : index.PlainTime r.steps) (hst : ∀ a b s, index = .slice a b s → s = none) :
    ∃ x, Spec.numpy1 r.steps (fun i => r.start + (i : Int) * r.step) index = some x ∧
      r.getitem checked w index = .ok x := by
  have h0 : Fits w 0 := by unfold Fits at *; omega
  have hmul : ∀ i : Nat, i ≤ r.steps → Fits w (i * r.step) := fun i hi =>
    h0.between hp ((mul_between hi r.step).imp_right (fun h => ⟨h.1, h.2⟩))
  have hadd : ∀ i : Nat, i ≤ r.steps → Fits w (r.start + i * r.step) := fun i hi => by
    refine hs.between hv ((mul_between hi r.step).imp (fun h => ?_) (fun h => ?_)) <;> omega
  cases index with
  | int i =>
    obtain ⟨k, -, hk, hlt, -, hsel⟩ := sel_int hi
    refine ⟨.d0 (r.start + (k : Int) * r.step), by simp [Spec.numpy1, hsel], ?_⟩
    have := C42_get checked w r k hlt (hn.ofNat_le hlt.le) (hmul k hlt.le) (hadd k hlt.le)
    simp [IntRange.getitem, coordGetitem, hk, this]
  | slice a b s =>
    obtain rfl := hst a b s rfl
    obtain ⟨h1, h2, h3, h4, -⟩ := hi
    rw [Spec.numpy1, Spec.sel, Spec.sliceOf_plain h1 h4 h2 rfl]
    refine ⟨_, rfl, ?_⟩
    have e1 : toUsize (a.getD 0) = some (a.getD 0).toNat := by simp [toUsize, h1]
    have e2 : toUsize (b.getD r.steps) = some (b.getD r.steps).toNat := by
      simp only [toUsize]; rw [if_pos (by omega)]
    have := C42_slice_partial checked w r (a.getD 0).toNat (b.getD r.steps).toNat (by omega) (by omega) (by omega)
      hstep (hn.ofNat_le (by omega)) hs (hmul _ (by omega)) (hadd _ (by omega))
    have e3 : r.getitem checked w (.slice a b none) = coordSlice (r.slice checked w) (a.getD 0) (b.getD r.steps) := by
      cases a <;> cases b <;> rfl
    rw [e3, coordSlice, e1, e2]
    simp only [this]
    simp [Function.comp_def]

theorem coordGetitem_int {α : Type} {len : Except Fail Nat} {get : Nat → Option α}
    {slice : Nat → Nat → Option (List α)} {i : Nat} {x : α} (h : get i = some x) :
    coordGetitem len get slice (.int i) = .ok (.d0 x) := by
  have e : toUsize (i : Int) = some i := by simp [toUsize]
  simp only [coordGetitem, e, h]

/-- C49: indexing the coordinate of time in Python, which has no end. -/
theorem C49_time (checked : Bool) (r : TimeRange) (hs : Fits 64 r.start) :
    (∀ i : Nat, Fits 64 i → Fits 64 (i * r.step) → Fits 64 (r.start + i * r.step) →
      r.getitem checked (.int i) = .ok (.d0 (r.start + i * r.step))) ∧
    (∀ (a : Option Int) (b : Nat), 0 ≤ a.getD 0 → Fits 64 b → Fits 64 (b * r.step) →
      Fits 64 (r.start + b * r.step) → r.getitem checked (.slice a (some b) none) =
        .ok (.d1 ((rangeExcl (a.getD 0).toNat b).map fun i : Nat => r.start + (i : Int) * r.step))) ∧
    ∀ a, r.getitem checked (.slice a none none) = .error (.err .timeIsInfinite) := by
  refine ⟨fun i h1 h2 h3 => ?_, fun a b h0 h1 h2 h3 => ?_, fun a => ?_⟩
  · unfold TimeRange.getitem
    exact coordGetitem_int (C42_time checked r i h1 h2 h3)
  · have e1 : toUsize (a.getD 0) = some (a.getD 0).toNat := by simp [toUsize, h0]
    have e2 : toUsize (b : Int) = some b := by simp [toUsize]
    have e3 : r.getitem checked (.slice a (some b) none) = coordSlice (r.slice checked) (a.getD 0) b := by
      cases a <;> simp [TimeRange.getitem, coordGetitem]
    rw [e3, coordSlice, e1, e2]
    simp only
    rw [C42_time_slice checked r _ b h1 hs h2 h3]
  · cases a <;> simp [TimeRange.getitem, coordGetitem, Except.bind]

/-- C49: negative indices, slices with a step and indices out of bounds are rejected by coordinates. -/
theorem C49_coordinate_rejects (checked : Bool) (w : Nat) (r : IntRange) :
    (∀ i : Int, i < 0 ∨ (r.steps : Int) ≤ i → ∃ f, r.getitem checked w (.int i) = .error f) ∧
    (∀ a b s, r.getitem checked w (.slice a b (some s)) = .error (.err (.py .value))) ∧
    ∀ a b : Option Int, a.getD 0 < 0 ∨ b.getD r.steps ≤ 0 ∨ r.steps < b.getD r.steps →
      ∃ f, r.getitem checked w (.slice a b none) = .error f := by
  refine ⟨fun i hi => ?_, fun a b s => rfl, fun a b h => ?_⟩
  · by_cases h0 : 0 ≤ i
    · refine ⟨.panic, ?_⟩
      have := C42_get_rejects checked w r i.toNat (by omega)
      simp [IntRange.getitem, coordGetitem, toUsize, h0, this]
    · exact ⟨.err (.py .overflow), by simp [IntRange.getitem, coordGetitem, toUsize, h0]⟩
  · have e3 : r.getitem checked w (.slice a b none) = coordSlice (r.slice checked w) (a.getD 0) (b.getD r.steps) := by
      cases a <;> cases b <;> rfl
    rw [e3, coordSlice]
    by_cases ha : 0 ≤ a.getD 0
    · by_cases hb : 0 ≤ b.getD r.steps
      · have e1 : toUsize (a.getD 0) = some (a.getD 0).toNat := by simp [toUsize, ha]
        have e2 : toUsize (b.getD r.steps) = some (b.getD r.steps).toNat := by simp [toUsize, hb]
        rw [e1, e2]
        have : r.slice checked w (a.getD 0).toNat (b.getD r.steps).toNat = none := by
          simp only [IntRange.slice, csub]
          by_cases h1 : 1 ≤ (b.getD r.steps).toNat
          · rw [if_pos h1]
            have : r.steps ≤ (b.getD r.steps).toNat - 1 := by omega
            simp [IntRange.checkBounds, this]
          · rw [if_neg h1]; rfl
        simp [this]
      · have e2 : toUsize (b.getD r.steps) = none := by simp only [toUsize]; rw [if_neg hb]
        rw [e2]
        cases toUsize (a.getD 0) <;> exact ⟨_, rfl⟩
    · have e1 : toUsize (a.getD 0) = none := by simp only [toUsize]; rw [if_neg ha]
      rw [e1]
      exact ⟨_, rfl⟩

/-- The coordinates of the tests: -20, -15, .., 125. -/
example : (⟨-20, 5, 30⟩ : IntRange).getitem true 32 (.slice (some 27) none none) = .ok (.d1 [115, 120, 125]) ∧
    (⟨-20, 5, 30⟩ : IntRange).getitem true 32 (.slice none (some 2) none) = .ok (.d1 [-20, -15]) ∧
    (PyIndex.slice (some 27) none none).PlainTime 30 := by
  refine ⟨by decide, by decide, ?_⟩
  simp [PyIndex.PlainTime]

/-- `dataset.t[20:22]`, `dataset.t[5:3]`. -/
example : (⟨1000000, 3600⟩ : TimeRange).getitem true (.slice (some 20) (some 22) none) = .ok (.d1 [1072000, 1075600]) ∧
    (⟨1000000, 3600⟩ : TimeRange).getitem true (.slice (some 5) (some 3) none) = .ok (.d1 []) := by decide

/-- `v[3:, 1, :2]` of a variable of 8 instants. -/
example : PlainIndices 8 4 4 [.slice (some 3) none none, .int 1, .slice none (some 2) none] := by
  simp [PlainIndices, PyIndex.PlainTime, PyIndex.Plain]

end Verif
