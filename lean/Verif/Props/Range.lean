import Verif.Model.Range
import Mathlib.Tactic.Linarith
import Mathlib.Tactic.Ring
import Mathlib.Algebra.Order.Ring.Int

/-!
Property C42: coordinate ranges. `checked` says whether the program was compiled with overflow checks
(the debug profile).
-/
namespace Verif

theorem wrap_of_fits {w : Nat} (hw : 0 < w) {x : Int} (h : Fits w x) : wrap w x = x := by
  unfold wrap
  obtain ⟨h1, h2⟩ := h
  have e : (2 : Int) ^ w = 2 * 2 ^ (w - 1) := by
    obtain ⟨v, rfl⟩ := Nat.exists_eq_succ_of_ne_zero (by omega : w ≠ 0)
    simp [Int.pow_succ, Int.mul_comm]
  have e' : (2 : Nat) ^ w = 2 * 2 ^ (w - 1) := by exact_mod_cast e
  apply Int.bmod_eq_of_le
  · rw [e']; push_cast; omega
  · rw [e']; push_cast; omega

theorem fits_wrap {w : Nat} (hw : 0 < w) (x : Int) : Fits w (wrap w x) := by
  unfold wrap Fits
  have e : (2 : Nat) ^ w = 2 * 2 ^ (w - 1) := by
    obtain ⟨v, rfl⟩ := Nat.exists_eq_succ_of_ne_zero (by omega : w ≠ 0)
    simp [Nat.pow_succ, Nat.mul_comm]
  have hpos : 0 < 2 ^ (w - 1) := Nat.two_pow_pos _
  have h1 := Int.le_bmod (x := x) (m := 2 ^ w) (by omega)
  have h2 := Int.bmod_lt (x := x) (m := 2 ^ w) (by omega)
  rw [e] at h1 h2
  push_cast at h1 h2
  rw [e]
  push_cast
  omega

theorem arith_of_fits {checked : Bool} {w : Nat} {x : Int} (h : Fits w x) : arith checked w x = some x := by
  simp [arith, h]

/-- In the release profile every operation gives the exact result wrapped around. -/
theorem arith_release {w : Nat} (hw : 0 < w) (x : Int) : arith false w x = some (wrap w x) := by
  unfold arith
  by_cases h : Fits w x
  · rw [if_pos h, wrap_of_fits hw h]
  · simp [h]

theorem wrap_add_left (w : Nat) (x y : Int) : wrap w (wrap w x + y) = wrap w (x + y) := by
  simp [wrap]

theorem wrap_sub_wrap (w : Nat) (x y : Int) : wrap w (wrap w x - wrap w y) = wrap w (x - y) := by
  simp [wrap]

namespace IntRange

theorem at_of_fits {checked : Bool} {w : Nat} (r : IntRange) (i : Nat) (hi : Fits w i)
    (hp : Fits w (i * r.step)) (hv : Fits w (r.start + i * r.step)) :
    r.at' checked w i = some (r.start + i * r.step) := by
  simp only [at', hi, if_true, Option.bind_eq_bind, Option.bind_some, arith_of_fits hp]
  rw [Int.add_comm, arith_of_fits hv]

theorem at_release {w : Nat} (hw : 0 < w) (r : IntRange) (i : Nat) (hi : Fits w i) :
    r.at' false w i = some (wrap w (r.start + i * r.step)) := by
  simp only [at', hi, if_true, Option.bind_eq_bind, Option.bind_some, arith_release hw]
  rw [wrap_add_left, Int.add_comm]

/-- The iterator of a range whose end is a number of `w` bits too. -/
theorem toList_of_fits {checked : Bool} {w : Nat} (n : Nat) : ∀ (m : Nat) (a step : Int), n < m →
    (∀ i : Nat, i ≤ n → Fits w (a + i * step)) →
    toList checked w m ⟨a, step, n⟩ = some ((List.range n).map fun i : Nat => a + i * step) := by
  induction n with
  | zero =>
    intro m a step hm _
    cases m with
    | zero => omega
    | succ m => simp [toList, next]
  | succ n ih =>
    intro m a step hm h
    cases m with
    | zero => omega
    | succ m =>
      have h1 : Fits w (a + step) := by
        have := h 1 (by omega)
        simpa using this
      simp only [toList, next, Nat.succ_pos, gt_iff_lt, if_true, arith_of_fits h1, Option.bind_eq_bind,
        Option.bind_some, Nat.add_sub_cancel]
      rw [ih m (a + step) step (by omega) (fun i hi => by
        have := h (i + 1) (by omega)
        have e : a + step + (i : Int) * step = a + ((i + 1 : Nat) : Int) * step := by push_cast; ring
        rw [e]
        exact this)]
      rw [List.range_succ_eq_map, List.map_cons, List.map_map]
      simp only [Option.map_some, Option.some.injEq, List.cons.injEq]
      refine ⟨by simp, List.map_congr_left fun i _ => ?_⟩
      simp only [Function.comp]
      push_cast
      ring

theorem toList_release {w : Nat} (hw : 0 < w) (n : Nat) : ∀ (m : Nat) (a step : Int), n < m →
    Fits w a →
    toList false w m ⟨a, step, n⟩ = some ((List.range n).map fun i : Nat => wrap w (a + i * step)) := by
  induction n with
  | zero =>
    intro m a step hm _
    cases m with
    | zero => omega
    | succ m => simp [toList, next]
  | succ n ih =>
    intro m a step hm ha
    cases m with
    | zero => omega
    | succ m =>
      simp only [toList, next, Nat.succ_pos, gt_iff_lt, if_true, arith_release hw, Option.bind_eq_bind,
        Option.bind_some, Nat.add_sub_cancel]
      rw [ih m (wrap w (a + step)) step (by omega) (fits_wrap hw _)]
      rw [List.range_succ_eq_map, List.map_cons, List.map_map]
      simp only [Option.map_some, Option.some.injEq, List.cons.injEq]
      refine ⟨by simp [wrap_of_fits hw ha], List.map_congr_left fun i _ => ?_⟩
      simp only [Function.comp, wrap_add_left]
      congr 1
      push_cast
      ring

theorem count_mul {w : Nat} {step : Int} (hs : step ≠ 0) (n : Nat) (hn : Fits w n) :
    count w step (n * step) = some n := by
  unfold count
  rw [if_neg hs, if_neg, Int.mul_tdiv_cancel _ hs, if_neg (by omega), Int.toNat_natCast]
  rintro ⟨h1, rfl⟩
  have := hn.2
  omega

end IntRange

theorem Fits.between {w : Nat} {x y z : Int} (hx : Fits w x) (hz : Fits w z)
    (h : x ≤ y ∧ y ≤ z ∨ z ≤ y ∧ y ≤ x) : Fits w y := by
  unfold Fits at *
  omega

theorem Fits.ofNat_le {w a b : Nat} (h : Fits w b) (hab : a ≤ b) : Fits w a := by
  unfold Fits at *
  have : (0 : Int) < 2 ^ (w - 1) := by positivity
  omega

/-- `a * s` is between 0 and `b * s`. -/
theorem mul_between {a b : Nat} (hab : a ≤ b) (s : Int) :
    (0 : Int) ≤ a * s ∧ (a : Int) * s ≤ b * s ∨ (b : Int) * s ≤ a * s ∧ (a : Int) * s ≤ 0 := by
  have h : (a : Int) ≤ b := by exact_mod_cast hab
  have ha : (0 : Int) ≤ a := by omega
  rcases le_total 0 s with hs | hs
  · exact .inl ⟨mul_nonneg ha hs, mul_le_mul_of_nonneg_right h hs⟩
  · exact .inr ⟨mul_le_mul_of_nonpos_right h hs, mul_nonpos_of_nonneg_of_nonpos ha hs⟩

/-- C42: `get` gives `start + i * step`, provided the program computes within the bounds of the
type. -/
theorem C42_get (checked : Bool) (w : Nat) (r : IntRange) (i : Nat) (hi : i < r.steps)
    (hn : Fits w i) (hp : Fits w (i * r.step)) (hv : Fits w (r.start + i * r.step)) :
    r.get checked w i = some (r.start + i * r.step) := by
  simp only [IntRange.get, IntRange.checkBounds, ge_iff_le, Nat.not_le.2 hi, if_false,
    Option.bind_eq_bind, Option.bind_some]
  exact r.at_of_fits i hn hp hv

/-- C42: in the release profile only the result has to be within the bounds of the type. -/
theorem C42_get_release (w : Nat) (hw : 0 < w) (r : IntRange) (i : Nat) (hi : i < r.steps)
    (hn : Fits w i) (hv : Fits w (r.start + i * r.step)) :
    r.get false w i = some (r.start + i * r.step) := by
  simp only [IntRange.get, IntRange.checkBounds, ge_iff_le, Nat.not_le.2 hi, if_false,
    Option.bind_eq_bind, Option.bind_some]
  rw [r.at_release hw i hn, wrap_of_fits hw hv]

/-- C42: `get` rejects every index that is out of bounds. -/
theorem C42_get_rejects (checked : Bool) (w : Nat) (r : IntRange) (i : Nat) (hi : r.steps ≤ i) :
    r.get checked w i = none := by
  simp [IntRange.get, IntRange.checkBounds, hi]

/-- C42: `slice` gives `start + i * step` for the indices asked for, if the end of the slice
is within the bounds of the type too. -/
theorem C42_slice_partial (checked : Bool) (w : Nat) (r : IntRange) (a b : Nat) (hab : a ≤ b)
    (hb : 1 ≤ b) (hbs : b ≤ r.steps) (hstep : r.step ≠ 0) (hn : Fits w b) (hs : Fits w r.start)
    (hp : Fits w (b * r.step)) (hv : Fits w (r.start + b * r.step)) :
    r.slice checked w a b =
      some ((List.range (b - a)).map fun i : Nat => r.start + ((a + i : Nat) : Int) * r.step) := by
  have h0 : Fits w 0 := by unfold Fits at *; omega
  have hmul : ∀ i : Nat, i ≤ b → Fits w (i * r.step) := fun i hi =>
    h0.between hp ((mul_between hi r.step).imp_right (fun h => ⟨h.1, h.2⟩))
  have hadd : ∀ i : Nat, i ≤ b → Fits w (r.start + i * r.step) := fun i hi => by
    refine hs.between hv ((mul_between hi r.step).imp (fun h => ?_) (fun h => ?_)) <;> omega
  have hd : (b : Int) * r.step - a * r.step = ((b - a : Nat) : Int) * r.step := by
    push_cast [hab]; ring
  have e : r.start + (b : Int) * r.step - (r.start + a * r.step) = ((b - a : Nat) : Int) * r.step := by
    rw [← hd]; ring
  have hb1 : ¬ r.steps ≤ b - 1 := by omega
  simp only [IntRange.slice, csub, hb, if_true, IntRange.checkBounds, ge_iff_le, hb1, if_false,
    Option.bind_eq_bind, Option.bind_some,
    r.at_of_fits a (hn.ofNat_le hab) (hmul a hab) (hadd a hab), r.at_of_fits b hn hp hv, e,
    arith_of_fits (hmul (b - a) (by omega)),
    IntRange.count_mul hstep (b - a) (hn.ofNat_le (by omega))]
  rw [IntRange.toList_of_fits _ _ _ _ (by omega)]
  · congr 1
    apply List.map_congr_left
    intro i _
    push_cast
    ring
  · intro i hi
    have := hadd (a + i) (by omega)
    have e : r.start + (a : Int) * r.step + i * r.step = r.start + ((a + i : Nat) : Int) * r.step := by
      push_cast; ring
    rw [e]
    exact this

/-- C42: in the release profile it is enough that the length of the slice in coordinates is within
the bounds of the type, and the slice agrees with `get`. -/
theorem C42_slice_release_partial (w : Nat) (hw : 0 < w) (r : IntRange) (a b : Nat) (hab : a ≤ b)
    (hb : 1 ≤ b) (hbs : b ≤ r.steps) (hstep : r.step ≠ 0) (hn : Fits w b)
    (hd : Fits w ((b - a : Nat) * r.step)) :
    r.slice false w a b = some ((List.range (b - a)).map fun i : Nat =>
        wrap w (r.start + ((a + i : Nat) : Int) * r.step)) ∧
      ∀ i < b - a, r.get false w (a + i) = some (wrap w (r.start + ((a + i : Nat) : Int) * r.step)) := by
  refine ⟨?_, fun i hi => ?_⟩
  · have e : r.start + (b : Int) * r.step - (r.start + a * r.step) = ((b - a : Nat) : Int) * r.step := by
      push_cast [hab]; ring
    have hb1 : ¬ r.steps ≤ b - 1 := by omega
    simp only [IntRange.slice, csub, hb, if_true, IntRange.checkBounds, ge_iff_le, hb1, if_false,
      Option.bind_eq_bind, Option.bind_some, r.at_release hw a (hn.ofNat_le hab), r.at_release hw b hn,
      arith_release hw, wrap_sub_wrap, e, wrap_of_fits hw hd,
      IntRange.count_mul hstep (b - a) (hn.ofNat_le (by omega))]
    rw [IntRange.toList_release hw _ _ _ _ (by omega) (fits_wrap hw _)]
    congr 1
    apply List.map_congr_left
    intro i _
    rw [wrap_add_left]
    congr 1
    push_cast
    ring
  · have hlt : ¬ r.steps ≤ a + i := by omega
    simp only [IntRange.get, IntRange.checkBounds, ge_iff_le, hlt, if_false, Option.bind_eq_bind,
      Option.bind_some]
    exact r.at_release hw _ (hn.ofNat_le (by omega))

/-- C42: `slice` rejects every slice that ends out of bounds, an empty one at the start, and a step
of 0. -/
theorem C42_slice_rejects (checked : Bool) (w : Nat) (r : IntRange) (a b : Nat)
    (h : r.steps < b ∨ b = 0 ∨ r.step = 0) : r.slice checked w a b = none := by
  unfold IntRange.slice
  by_cases hb : b = 0
  · simp [hb, csub]
  · have h1 : 1 ≤ b := by omega
    by_cases hs : r.steps ≤ b - 1
    · simp [csub, h1, IntRange.checkBounds, hs]
    · have hstep : r.step = 0 := by omega
      simp only [csub, h1, if_true, IntRange.checkBounds, ge_iff_le, hs, if_false, Option.bind_eq_bind,
        Option.bind_some]
      cases r.at' checked w a with
      | none => rfl
      | some x =>
        cases r.at' checked w b with
        | none => rfl
        | some y =>
          simp only [Option.bind_some]
          cases arith checked w (y - x) with
          | none => rfl
          | some d => simp [IntRange.count, hstep]

/-- C42: `slice` rejects a slice that ends before it starts, if the computation stays within the
bounds of the type. -/
theorem C42_slice_backwards_partial (checked : Bool) (w : Nat) (r : IntRange) (a b : Nat) (hab : b < a)
    (hstep : r.step ≠ 0) (hn : Fits w a) (hs : Fits w r.start)
    (hp : Fits w (a * r.step)) (hv : Fits w (r.start + a * r.step))
    (hd : Fits w (((b : Int) - a) * r.step)) :
    r.slice checked w a b = none := by
  unfold IntRange.slice
  cases csub b 1 with
  | none => rfl
  | some last =>
    simp only [Option.bind_eq_bind, Option.bind_some]
    cases r.checkBounds last with
    | none => rfl
    | some _ =>
      have h0 : Fits w 0 := by unfold Fits at *; omega
      have hpb : Fits w (b * r.step) :=
        h0.between hp ((mul_between hab.le r.step).imp_right (fun h => ⟨h.1, h.2⟩))
      have hvb : Fits w (r.start + b * r.step) := by
        refine hs.between hv ((mul_between hab.le r.step).imp (fun h => ?_) (fun h => ?_)) <;> omega
      have e : r.start + (b : Int) * r.step - (r.start + a * r.step) = ((b : Int) - a) * r.step := by ring
      simp only [Option.bind_some, r.at_of_fits a hn hp hv, r.at_of_fits b (hn.ofNat_le hab.le) hpb hvb,
        e, arith_of_fits hd]
      have : IntRange.count w r.step (((b : Int) - a) * r.step) = none := by
        unfold IntRange.count
        rw [if_neg hstep]
        split
        · rfl
        · rw [Int.mul_tdiv_cancel _ hstep, if_pos (by omega)]
      rw [this]
      rfl

/-- C42 is false at the bounds of the type. In all three, every coordinate of the range is an `i32`.

First: with overflow checks, `get` panics for a valid index, because `index * step` overflows.
Second: a slice of all the range panics with overflow checks and is empty without them, because
`stop - start` overflows. Third: without overflow checks a slice that is backwards and out of bounds
is answered. -/
theorem C42_wrong :
    (∃ (r : IntRange) (i : Nat), i < r.steps ∧ (∀ j : Nat, j < r.steps → Fits 32 (r.start + j * r.step)) ∧
      r.get true 32 i = none) ∧
    (∃ r : IntRange, (∀ j : Nat, j < r.steps → Fits 32 (r.start + j * r.step)) ∧ r.steps = 4 ∧
      r.slice true 32 0 4 = none ∧ r.slice false 32 0 4 = some []) ∧
    (∃ r : IntRange, (∀ j : Nat, j < r.steps → Fits 32 (r.start + j * r.step)) ∧ r.steps = 3 ∧
      r.slice false 32 4 1 = some [-2 ^ 31]) := by
  refine ⟨⟨⟨-2 ^ 31, 2 ^ 30, 4⟩, 3, by decide, by decide, by decide⟩,
    ⟨⟨-2 ^ 31, 2 ^ 30, 4⟩, by decide, rfl, by decide, by decide⟩,
    ⟨⟨-2 ^ 31, 2 ^ 30, 3⟩, by decide, rfl, by decide⟩⟩

/-- C42: coordinates of times. There are no bounds to check. -/
theorem C42_time (checked : Bool) (r : TimeRange) (i : Nat) (hi : Fits 64 i)
    (hp : Fits 64 (i * r.step)) (hv : Fits 64 (r.start + i * r.step)) :
    r.get checked i = some (r.start + i * r.step) := by
  simp only [TimeRange.get, wrap_of_fits (w := 64) (by omega) hi, arith_of_fits hp, arith_of_fits hv,
    Option.bind_eq_bind, Option.bind_some]

theorem collect_map_some {α β} (f : α → β) (g : α → Option (List β)) (l : List α)
    (h : ∀ x ∈ l, g x = some [f x]) : collect l g = some (l.map f) := by
  induction l with
  | nil => rfl
  | cons x l ih =>
    simp only [collect, h x (by simp), ih (fun y hy => h y (by simp [hy])), List.map_cons]
    rfl

theorem C42_time_slice (checked : Bool) (r : TimeRange) (a b : Nat) (hb : Fits 64 b)
    (hs : Fits 64 r.start) (hp : Fits 64 (b * r.step)) (hv : Fits 64 (r.start + b * r.step)) :
    r.slice checked a b =
      some ((rangeExcl a b).map fun i : Nat => r.start + (i : Int) * r.step) := by
  unfold TimeRange.slice
  apply collect_map_some
  intro i hi
  have hi' : i ≤ b := by
    simp only [rangeExcl, List.mem_range'_1] at hi
    omega
  have h0 : Fits 64 0 := by decide
  rw [C42_time checked r i (hb.ofNat_le hi')
    (h0.between hp ((mul_between hi' r.step).imp_right (fun h => ⟨h.1, h.2⟩)))
    (by refine hs.between hv ((mul_between hi' r.step).imp (fun h => ?_) (fun h => ?_)) <;> omega)]
  rfl

/-- The range of the tests: -20, -15, .., 125. -/
example : (⟨-20, 5, 30⟩ : IntRange).get true 32 29 = some 125 ∧
    (⟨-20, 5, 30⟩ : IntRange).slice true 32 2 5 = some [-10, -5, 0] ∧
    Fits 32 (30 * 5) ∧ Fits 32 (-20 + 30 * 5) ∧
    (⟨100, -5, 30⟩ : IntRange).slice true 32 2 5 = some [90, 85, 80] ∧
    (⟨-20, 5, 30⟩ : IntRange).slice true 32 5 2 = none := by decide

example : (⟨1000000, 3600⟩ : TimeRange).slice true 100 102 = some [1360000, 1363600] := by decide

end Verif
