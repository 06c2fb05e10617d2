import Verif.Model.FloatRange
import Verif.Lemmas.Nearest

/-! Rounding of rationals to floats. -/
namespace Verif

theorem roundEven_int (z : Int) : roundEven z = z := by
  unfold roundEven
  simp only [Int.floor_intCast, sub_self]
  rw [if_pos (by norm_num)]

theorem roundEven_near (x : Rat) : |(roundEven x : Rat) - x| ≤ 1 / 2 := by
  unfold roundEven
  have h1 := Int.floor_le x
  have h2 := Int.lt_floor_add_one x
  simp only
  rw [abs_le]
  split
  · constructor <;> linarith
  split
  · push_cast
    constructor <;> linarith
  · have : x - ⌊x⌋ = 1 / 2 := by linarith
    split
    · constructor <;> linarith
    · push_cast
      constructor <;> linarith

/-- The exponent of the last place of a float. -/
theorem fround_exp {q : Rat} (hq : q ≠ 0) : (2 : Rat) ^ Int.log 2 |q| ≤ |q| ∧
    |q| < 2 ^ (Int.log 2 |q| + 1) := by
  have h0 : 0 < |q| := abs_pos.2 hq
  constructor
  · simpa using Int.zpow_log_le_self (b := 2) (by norm_num) h0
  · simpa using Int.lt_zpow_succ_log_self (b := 2) (by norm_num) |q|

/-- Floats are not changed. -/
theorem fround_exact {p : Nat} {q : Rat} (h : Representable p q) : fround p q = q := by
  unfold fround
  by_cases hq : q = 0
  · rw [if_pos hq, hq]
  rw [if_neg hq]
  simp only
  obtain ⟨h1, h2⟩ := fround_exp hq
  obtain ⟨m, e, hm, he⟩ := h
  have hlt : |q| < 2 ^ ((p : Int) + e) := by
    rw [he, abs_mul, abs_of_pos (show (0 : Rat) < 2 ^ e from zpow_pos (by norm_num) e),
      zpow_add₀ (by norm_num)]
    apply mul_lt_mul_of_pos_right _ (zpow_pos (by norm_num) e)
    rw [zpow_natCast, ← Int.cast_abs, Int.abs_eq_natAbs]
    exact_mod_cast hm
  have hL : Int.log 2 |q| < p + e := by
    by_contra hn
    have : (2 : Rat) ^ ((p : Int) + e) ≤ 2 ^ Int.log 2 |q| :=
      zpow_le_zpow_right₀ (by norm_num) (by omega)
    linarith
  obtain ⟨j, hj⟩ : ∃ j : Nat, e = Int.log 2 |q| - (p - 1 : Int) + j :=
    ⟨(e - (Int.log 2 |q| - (p - 1 : Int))).toNat, by omega⟩
  generalize Int.log 2 |q| - (p - 1 : Int) = e' at hj
  have hx : q * 2 ^ (-e') = ((m * 2 ^ j : Int) : Rat) := by
    rw [he, hj, zpow_add₀ (by norm_num), zpow_natCast, zpow_neg]
    have : (2 : Rat) ^ e' ≠ 0 := zpow_ne_zero _ (by norm_num)
    push_cast
    field_simp
  rw [hx, roundEven_int, ← hx, mul_assoc, ← zpow_add₀ (by norm_num)]
  simp

/-- The relative error. -/
theorem fround_near (p : Nat) (q : Rat) : |fround p q - q| ≤ |q| / 2 ^ p := by
  unfold fround
  by_cases hq : q = 0
  · rw [if_pos hq, hq]
    simp
  rw [if_neg hq]
  simp only
  obtain ⟨h1, h2⟩ := fround_exp hq
  have h3 : (2 : Rat) ^ (Int.log 2 |q| - (p - 1 : Int)) * 2 ^ p = 2 * 2 ^ Int.log 2 |q| := by
    rw [← zpow_natCast, ← zpow_add₀ (by norm_num), ← zpow_one_add₀ (by norm_num)]
    congr 1
    omega
  generalize Int.log 2 |q| - (p - 1 : Int) = e at h3
  have he : (0 : Rat) < 2 ^ e := zpow_pos (by norm_num) e
  have hp : (0 : Rat) < 2 ^ p := by positivity
  have e1 : (roundEven (q * 2 ^ (-e)) : Rat) * 2 ^ e - q =
      ((roundEven (q * 2 ^ (-e)) : Rat) - q * 2 ^ (-e)) * 2 ^ e := by
    rw [sub_mul, mul_assoc q, ← zpow_add₀ (by norm_num)]
    simp
  rw [e1, abs_mul, abs_of_pos he, le_div_iff₀ hp]
  have h4 := roundEven_near (q * 2 ^ (-e))
  calc |(roundEven (q * 2 ^ (-e)) : Rat) - q * 2 ^ (-e)| * 2 ^ e * 2 ^ p
      = |(roundEven (q * 2 ^ (-e)) : Rat) - q * 2 ^ (-e)| * (2 * 2 ^ Int.log 2 |q|) := by
        rw [mul_assoc, h3]
    _ ≤ 1 / 2 * (2 * 2 ^ Int.log 2 |q|) :=
        mul_le_mul_of_nonneg_right h4 (mul_nonneg (by norm_num) (zpow_pos (by norm_num) _).le)
    _ = 2 ^ Int.log 2 |q| := by ring
    _ ≤ |q| := h1

theorem roundEven_nearest (x : Rat) (z : Int) : |(roundEven x : Rat) - x| ≤ |(z : Rat) - x| ∧
    (|(z : Rat) - x| = |(roundEven x : Rat) - x| → z ≠ roundEven x → 2 ∣ roundEven x) := by
  have h1 := Int.floor_le x
  have h2 := Int.lt_floor_add_one x
  have key : (z : Rat) ≤ ⌊x⌋ ∨ (⌊x⌋ : Rat) + 1 ≤ z := by
    rcases lt_or_ge ⌊x⌋ z with h | h
    · right; exact_mod_cast h
    · left; exact_mod_cast h
  unfold roundEven
  simp only
  have a1 : |(⌊x⌋ : Rat) - x| = x - ⌊x⌋ := by rw [abs_sub_comm, abs_of_nonneg]; linarith
  have a2 : |((⌊x⌋ + 1 : Int) : Rat) - x| = ⌊x⌋ + 1 - x := by
    rw [abs_of_nonneg] <;> push_cast <;> linarith
  have a3 : z ≠ ⌊x⌋ → (z : Rat) ≤ ⌊x⌋ → (z : Rat) ≤ ⌊x⌋ - 1 := by
    intro h1 h2
    have h2 : z ≤ ⌊x⌋ := by exact_mod_cast h2
    exact_mod_cast (show z ≤ ⌊x⌋ - 1 by omega)
  have a4 : z ≠ ⌊x⌋ + 1 → (⌊x⌋ : Rat) + 1 ≤ z → (⌊x⌋ : Rat) + 2 ≤ z := by
    intro h1 h2
    have h2 : ⌊x⌋ + 1 ≤ z := by exact_mod_cast h2
    exact_mod_cast (show ⌊x⌋ + 2 ≤ z by omega)
  have a5 : ((z : Rat) ≤ ⌊x⌋ ∧ |(z : Rat) - x| = x - z) ∨ ((⌊x⌋ : Rat) + 1 ≤ z ∧ |(z : Rat) - x| = z - x) := by
    rcases key with h | h
    · left; exact ⟨h, by rw [abs_sub_comm, abs_of_nonneg]; linarith⟩
    · right; exact ⟨h, by rw [abs_of_nonneg]; linarith⟩
  split
  · rw [a1]
    rcases a5 with ⟨h, e⟩ | ⟨h, e⟩ <;> rw [e]
    · exact ⟨by linarith, fun b1 b2 => by linarith [a3 b2 h]⟩
    · exact ⟨by linarith, fun b1 b2 => by linarith⟩
  split
  · rw [a2]
    rcases a5 with ⟨h, e⟩ | ⟨h, e⟩ <;> rw [e]
    · exact ⟨by linarith, fun b1 b2 => by linarith⟩
    · exact ⟨by linarith, fun b1 b2 => by linarith [a4 b2 h]⟩
  · split
    · rw [a1]
      rcases a5 with ⟨h, e⟩ | ⟨h, e⟩ <;> rw [e]
      · exact ⟨by linarith, fun b1 b2 => by linarith [a3 b2 h]⟩
      · exact ⟨by linarith, fun b1 b2 => by assumption⟩
    · rw [a2]
      rcases a5 with ⟨h, e⟩ | ⟨h, e⟩ <;> rw [e]
      · exact ⟨by linarith, fun b1 b2 => by omega⟩
      · exact ⟨by linarith, fun b1 b2 => by omega⟩

/-- Rounding gives the nearest float; of two it gives the one with an even significand. -/
theorem fround_nearest (p : Nat) (hp : 1 ≤ p) (q : Rat) :
    Representable p (fround p q) ∧ ∀ x, Representable p x →
      |fround p q - q| ≤ |x - q| ∧
      (|x - q| = |fround p q - q| → x ≠ fround p q →
        ∃ (m : Int) (e : Int), 2 ^ (p - 1) ≤ m.natAbs ∧ m.natAbs ≤ 2 ^ p ∧ 2 ∣ m ∧
          fround p q = m * 2 ^ e) := by
  by_cases hq : q = 0
  · have e : fround p q = 0 := by unfold fround; rw [if_pos hq]
    rw [e, hq]
    refine ⟨⟨0, 0, by simp, by simp⟩, fun x _ => ⟨by simp, fun h1 h2 => absurd ?_ h2⟩⟩
    simpa using h1
  have heq : fround p q = roundEven (q * 2 ^ (-(Int.log 2 |q| - (p - 1 : Int)))) *
      2 ^ (Int.log 2 |q| - (p - 1 : Int)) := by
    unfold fround
    rw [if_neg hq]
  obtain ⟨g1, g2⟩ := fround_exp hq
  rw [show Int.log 2 |q| + 1 = (Int.log 2 |q| - (p - 1 : Int)) + (p : Nat) by omega] at g2
  rw [show Int.log 2 |q| = (Int.log 2 |q| - (p - 1 : Int)) + (p - 1 : Nat) by omega] at g1
  generalize Int.log 2 |q| - (p - 1 : Int) = e at heq g1 g2
  have he : (0 : Rat) < 2 ^ e := zpow_pos (by norm_num) e
  rw [zpow_add₀ (by norm_num), zpow_natCast] at g1 g2
  rw [zpow_neg] at heq
  obtain ⟨y, hy⟩ : ∃ y, y = q * (2 ^ e)⁻¹ := ⟨_, rfl⟩
  have hqy : q = y * 2 ^ e := by rw [hy]; field_simp
  rw [← hy] at heq
  rw [heq]
  have hy1 : 2 ^ (p - 1) ≤ |y| := by
    rw [hqy, abs_mul, abs_of_pos he, mul_comm] at g1
    exact le_of_mul_le_mul_right g1 he
  have hy2 : |y| < 2 ^ p := by
    rw [hqy, abs_mul, abs_of_pos he, mul_comm] at g2
    exact lt_of_mul_lt_mul_left g2 he.le
  have hnear := roundEven_near y
  have hr2 : (roundEven y).natAbs ≤ 2 ^ p := by
    by_contra hn
    have h3 : (2 : Int) ^ p + 1 ≤ |roundEven y| := by
      rw [Int.abs_eq_natAbs]
      exact_mod_cast (show 2 ^ p + 1 ≤ (roundEven y).natAbs by omega)
    have h3 : (2 : Rat) ^ p + 1 ≤ |(roundEven y : Rat)| := by exact_mod_cast h3
    have := abs_sub_abs_le_abs_sub (roundEven y : Rat) y
    linarith
  have hr1 : 2 ^ (p - 1) ≤ (roundEven y).natAbs := by
    by_contra hn
    have h3 : |roundEven y| + 1 ≤ (2 : Int) ^ (p - 1) := by
      rw [Int.abs_eq_natAbs]
      exact_mod_cast (show (roundEven y).natAbs + 1 ≤ 2 ^ (p - 1) by omega)
    have h3 : |(roundEven y : Rat)| + 1 ≤ (2 : Rat) ^ (p - 1) := by exact_mod_cast h3
    have := abs_sub_abs_le_abs_sub y (roundEven y : Rat)
    rw [abs_sub_comm] at this
    linarith
  have escale : ∀ w : Rat, |w * 2 ^ e - q| = |w - y| * 2 ^ e := fun w => by
    rw [hqy, ← sub_mul, abs_mul, abs_of_pos he]
  constructor
  · rcases Nat.lt_or_ge (roundEven y).natAbs (2 ^ p) with h | h
    · exact ⟨_, e, h, rfl⟩
    · have h : (roundEven y).natAbs = 2 ^ p := le_antisymm hr2 h
      refine ⟨(roundEven y).sign, e + p, ?_, ?_⟩
      · have : 2 ≤ 2 ^ p := by
          calc 2 = 2 ^ 1 := rfl
            _ ≤ 2 ^ p := Nat.pow_le_pow_right (by norm_num) hp
        have : (roundEven y).sign.natAbs ≤ 1 := by
          rw [Int.natAbs_sign]; split <;> omega
        omega
      · have : (roundEven y : Rat) = (roundEven y).sign * 2 ^ p := by
          have h4 := Int.sign_mul_natAbs (roundEven y)
          rw [h] at h4
          have h4 : (((roundEven y).sign * ((2 ^ p : Nat) : Int) : Int) : Rat) = roundEven y := by rw [h4]
          push_cast at h4
          exact h4.symm
        rw [this, zpow_add₀ (by norm_num), zpow_natCast]
        ring
  · rintro x ⟨m, f, hm, rfl⟩
    rcases lt_or_ge f e with hf | hf
    · have hX : |(m : Rat) * 2 ^ (f - e)| < 2 ^ (p - 1) := by
        have b1 : (2 : Rat) ^ (f - e) ≤ 2 ^ (-1 : Int) := zpow_le_zpow_right₀ (by norm_num) (by omega)
        have b2 : |(m : Rat)| < 2 ^ p := by
          rw [← Int.cast_abs, Int.abs_eq_natAbs]
          exact_mod_cast hm
        have b3 : (2 : Rat) ^ p = 2 * 2 ^ (p - 1) := by
          rw [← pow_succ']
          congr 1
          omega
        rw [abs_mul, abs_of_pos (show (0 : Rat) < 2 ^ (f - e) from zpow_pos (by norm_num) _)]
        calc |(m : Rat)| * 2 ^ (f - e) ≤ |(m : Rat)| * 2 ^ (-1 : Int) :=
              mul_le_mul_of_nonneg_left b1 (abs_nonneg _)
          _ = |(m : Rat)| / 2 := by rw [zpow_neg_one]; rfl
          _ < 2 ^ (p - 1) := by linarith
      have hx : (m : Rat) * 2 ^ f = m * 2 ^ (f - e) * 2 ^ e := by
        rw [mul_assoc, ← zpow_add₀ (by norm_num)]
        congr 2
        omega
      rw [hx, escale, escale]
      generalize (m : Rat) * 2 ^ (f - e) = X at hX
      have b1 : |y| - |X| ≤ |X - y| := by
        have := abs_sub_abs_le_abs_sub y X
        rwa [abs_sub_comm] at this
      have b2 : |(roundEven y : Rat) - y| ≤ |y| - 2 ^ (p - 1) := by
        rcases le_total 0 y with h0 | h0
        · rw [abs_of_nonneg h0] at hy1 ⊢
          have := (roundEven_nearest y (2 ^ (p - 1))).1
          push_cast at this
          rwa [abs_sub_comm (2 ^ (p - 1)), abs_of_nonneg (by linarith : 0 ≤ y - 2 ^ (p - 1))] at this
        · rw [abs_of_nonpos h0] at hy1 ⊢
          have := (roundEven_nearest y (-2 ^ (p - 1))).1
          push_cast at this
          rw [abs_of_nonneg (by linarith : 0 ≤ -2 ^ (p - 1) - y)] at this
          linarith
      refine ⟨mul_le_mul_of_nonneg_right (by linarith) he.le, fun h1 _ => ?_⟩
      have := mul_right_cancel₀ he.ne' h1
      linarith
    · obtain ⟨j, rfl⟩ : ∃ j : Nat, f = e + j := ⟨(f - e).toNat, by omega⟩
      have hx : (m : Rat) * 2 ^ (e + (j : Int)) = ((m * 2 ^ j : Int) : Rat) * 2 ^ e := by
        rw [zpow_add₀ (by norm_num), zpow_natCast]
        push_cast
        ring
      rw [hx, escale, escale]
      obtain ⟨b1, b2⟩ := roundEven_nearest y (m * 2 ^ j)
      refine ⟨mul_le_mul_of_nonneg_right b1 he.le, fun h1 h2 => ⟨_, e, hr1, hr2, b2 ?_ ?_, rfl⟩⟩
      · exact mul_right_cancel₀ he.ne' h1
      · exact fun h => h2 (by rw [h])

/-- The error of rounding something that is not exact. -/
theorem fround_err {p : Nat} {q x D M : Rat} (h : |q - x| ≤ D) (hx : |x| ≤ M) :
    |fround p q - x| ≤ D + (M + D) / 2 ^ p := by
  have h1 := fround_near p q
  have h2 : |q| ≤ M + D := by
    calc |q| = |q - x + x| := by ring_nf
      _ ≤ |q - x| + |x| := abs_add_le _ _
      _ ≤ M + D := by linarith
  have h3 : |q| / 2 ^ p ≤ (M + D) / 2 ^ p := div_le_div_of_nonneg_right h2 (by positivity)
  calc |fround p q - x| = |(fround p q - q) + (q - x)| := by ring_nf
    _ ≤ |fround p q - q| + |q - x| := abs_add_le _ _
    _ ≤ D + (M + D) / 2 ^ p := by linarith

end Verif
