import Verif.Lemmas.Fixed

/-! Conversion of integers to floats: nearest, ties to even. -/
namespace Verif

theorem Representable.neg {p : Nat} {q : Rat} (h : Representable p q) : Representable p (-q) := by
  obtain ⟨m, e, hm, rfl⟩ := h
  exact ⟨-m, e, by omega, by push_cast; ring⟩

theorem roundToPrec_neg (p : Nat) (z : Int) : roundToPrec p (-z) = -roundToPrec p z := by
  unfold roundToPrec
  simp only [Int.natAbs_neg, Int.sign_neg]
  push_cast
  ring

/-- A multiple `m` of the spacing of the floats of `p` bits around it. -/
def Normal (p : Nat) (m : Int) (s : Nat) : Prop := 2 ^ (p - 1) ≤ m.natAbs ∧ m.natAbs ≤ 2 ^ p ∧ 0 < s

theorem roundToPrec_natural (p : Nat) (hp : 1 ≤ p) (a : Nat) :
    Representable p (roundToPrec p a) ∧ ∀ x, Representable p x →
      |roundToPrec p a - a| ≤ |x - a| ∧
      (|x - a| = |roundToPrec p a - a| → x ≠ roundToPrec p a →
        ∃ m s, Normal p m s ∧ 2 ∣ m ∧ roundToPrec p a = m * 2 ^ s) := by
  by_cases hs0 : Nat.size a ≤ p
  · have h : (a : Int).natAbs < 2 ^ p := by
      rw [Int.natAbs_natCast]
      exact Nat.size_le.1 hs0
    have e := roundToPrec_of_size h
    rw [Int.cast_natCast] at e
    rw [e]
    refine ⟨by simpa using Representable.of_lt h, fun x _ => ⟨?_, fun h1 h2 => absurd ?_ h2⟩⟩
    · rw [sub_self, abs_zero]
      exact abs_nonneg _
    · rw [sub_self, abs_zero, abs_eq_zero] at h1
      linarith
  have hs0 : p < Nat.size a := by omega
  obtain ⟨s, hs, hs1⟩ : ∃ s, Nat.size a - p = s ∧ 0 < s := ⟨_, rfl, by omega⟩
  have ha1 : a < 2 ^ (p + s) := by
    have := Nat.lt_size_self a
    rwa [show Nat.size a = p + s by omega] at this
  have ha2 : 2 ^ (p + s - 1) ≤ a := Nat.lt_size.1 (by omega)
  obtain ⟨low, rest, hdm, hlt, hlow, hrest⟩ : ∃ low rest, a = low * 2 ^ s + rest ∧ rest < 2 ^ s ∧
      a / 2 ^ s = low ∧ a % 2 ^ s = rest := by
    refine ⟨a / 2 ^ s, a % 2 ^ s, ?_, Nat.mod_lt _ (by positivity), rfl, rfl⟩
    rw [Nat.mul_comm]
    exact (Nat.div_add_mod a _).symm
  have hl1 : low < 2 ^ p := by
    rw [← hlow]
    apply Nat.div_lt_of_lt_mul
    rwa [Nat.mul_comm, ← Nat.pow_add]
  have hl2 : 2 ^ (p - 1) ≤ low := by
    rw [← hlow, Nat.le_div_iff_mul_le (by positivity), ← Nat.pow_add]
    rwa [show p - 1 + s = p + s - 1 by omega]
  have hapos : 0 < a := lt_of_lt_of_le (by positivity) ha2
  obtain ⟨m, hm, hr⟩ : ∃ m : Nat, m = (if 2 ^ s < 2 * rest ∨ (2 ^ s = 2 * rest ∧ low % 2 = 1) then low + 1
      else low) ∧ roundToPrec p a = (m : Rat) * 2 ^ s := by
    refine ⟨_, rfl, ?_⟩
    unfold roundToPrec
    simp only [Int.natAbs_natCast, hs, hlow, hrest]
    rw [Int.sign_eq_one_of_pos (by omega)]
    push_cast
    ring
  have hm1 : m ≤ 2 ^ p := by rw [hm]; split <;> omega
  have hm2 : 2 ^ (p - 1) ≤ m := by rw [hm]; split <;> omega
  rw [hr]
  have hdmq : (a : Rat) = low * 2 ^ s + rest := by rw [hdm]; push_cast; ring
  have hltq : (rest : Rat) < 2 ^ s := by exact_mod_cast hlt
  have hrq : (0 : Rat) ≤ rest := by positivity
  refine ⟨?_, fun x hx => ?_⟩
  · rcases Nat.lt_or_ge m (2 ^ p) with h | h
    · exact ⟨m, s, by simpa using h, by rw [zpow_natCast]; push_cast; rfl⟩
    · refine ⟨2 ^ (p - 1), s + 1, ?_, ?_⟩
      · rw [Int.natAbs_pow]
        exact Nat.pow_lt_pow_right (by decide) (by omega)
      · have : m = 2 ^ (p - 1) * 2 := by
          rw [← Nat.pow_succ, show (p - 1).succ = p by omega]
          omega
        rw [this, zpow_add₀ (by norm_num), zpow_natCast]
        push_cast
        ring
  -- other floats are multiples of the spacing, or below all of these
  have key : (∃ k : Int, x = k * 2 ^ s) ∨ x < low * 2 ^ s := by
    obtain ⟨M, e, hM, rfl⟩ := hx
    by_cases he : (s : Int) ≤ e
    · obtain ⟨j, rfl⟩ : ∃ j : Nat, e = s + j := ⟨(e - s).toNat, by omega⟩
      left
      refine ⟨M * 2 ^ j, ?_⟩
      rw [zpow_add₀ (by norm_num), zpow_natCast, zpow_natCast]
      push_cast
      ring
    · right
      have h1 : (2 : Rat) ^ e ≤ 2 ^ ((s : Int) - 1) := zpow_le_zpow_right₀ (by norm_num) (by omega)
      have h2 : (M : Rat) < 2 ^ p := by
        have : M < 2 ^ p := by
          have h3 : ((2 ^ p : Nat) : Int) = 2 ^ p := by push_cast; rfl
          omega
        exact_mod_cast this
      have h0 : (0 : Rat) < 2 ^ e := zpow_pos (by norm_num) e
      have h3 : (2 : Rat) ^ p * 2 ^ ((s : Int) - 1) = 2 ^ (p - 1) * 2 ^ s := by
        rw [← zpow_natCast, ← zpow_natCast, ← zpow_natCast, ← zpow_add₀ (by norm_num),
          ← zpow_add₀ (by norm_num)]
        congr 1
        omega
      have h4 : ((2 : Rat) ^ (p - 1)) ≤ low := by exact_mod_cast hl2
      calc (M : Rat) * 2 ^ e < 2 ^ p * 2 ^ e := by exact mul_lt_mul_of_pos_right h2 h0
        _ ≤ 2 ^ p * 2 ^ ((s : Int) - 1) := by exact mul_le_mul_of_nonneg_left h1 (by positivity)
        _ = 2 ^ (p - 1) * 2 ^ s := h3
        _ ≤ low * 2 ^ s := by exact mul_le_mul_of_nonneg_right h4 (by positivity)
  have far : x ≤ low * 2 ^ s ∨ (low + 1) * 2 ^ s ≤ x := by
    rcases key with ⟨k, rfl⟩ | h
    · rcases Int.lt_or_le (low : Int) k with h | h
      · right
        apply mul_le_mul_of_nonneg_right _ (by positivity)
        exact_mod_cast h
      · left
        apply mul_le_mul_of_nonneg_right _ (by positivity)
        exact_mod_cast h
    · exact .inl h.le
  by_cases hup : 2 ^ s < 2 * rest ∨ (2 ^ s = 2 * rest ∧ low % 2 = 1)
  · rw [if_pos hup] at hm
    have hge : (2 : Rat) ^ s ≤ 2 * rest := by
      have : 2 ^ s ≤ 2 * rest := by omega
      exact_mod_cast this
    have e1 : |(m : Rat) * 2 ^ s - a| = 2 ^ s - rest := by
      rw [hm, abs_of_nonneg] <;> push_cast <;> linarith
    rw [e1]
    rcases far with h | h
    · have e2 : |x - a| = a - x := by rw [abs_sub_comm, abs_of_nonneg]; linarith
      rw [e2]
      refine ⟨by linarith, fun h1 _ => ?_⟩
      have h3 : (2 : Rat) ^ s = 2 * rest := by linarith
      have h3 : 2 ^ s = 2 * rest := by exact_mod_cast h3
      refine ⟨m, s, ⟨by simpa using hm2, by simpa using hm1, hs1⟩, by omega, by push_cast; rfl⟩
    · have e2 : |x - a| = x - a := by rw [abs_of_nonneg]; linarith
      rw [e2]
      refine ⟨by linarith, fun h1 h2 => absurd ?_ h2⟩
      rw [hm]
      push_cast
      linarith
  · rw [if_neg hup] at hm
    have hle : 2 * (rest : Rat) ≤ 2 ^ s := by
      have : 2 * rest ≤ 2 ^ s := by omega
      exact_mod_cast this
    have e1 : |(m : Rat) * 2 ^ s - a| = rest := by
      rw [hm, abs_sub_comm, abs_of_nonneg] <;> linarith
    rw [e1]
    rcases far with h | h
    · have e2 : |x - a| = a - x := by rw [abs_sub_comm, abs_of_nonneg]; linarith
      rw [e2]
      refine ⟨by linarith, fun h1 h2 => absurd ?_ h2⟩
      rw [hm]
      linarith
    · have e2 : |x - a| = x - a := by rw [abs_of_nonneg]; linarith
      rw [e2]
      refine ⟨by linarith, fun h1 h2 => ?_⟩
      have h3 : (2 : Rat) ^ s = 2 * rest := by linarith
      have h3 : 2 ^ s = 2 * rest := by exact_mod_cast h3
      refine ⟨m, s, ⟨by simpa using hm2, by simpa using hm1, hs1⟩, by omega, by push_cast; rfl⟩

/-- Conversion gives the nearest float; of two it gives the one with an even significand. -/
theorem roundToPrec_nearest (p : Nat) (hp : 1 ≤ p) (z : Int) :
    Representable p (roundToPrec p z) ∧ ∀ x, Representable p x →
      |roundToPrec p z - z| ≤ |x - z| ∧
      (|x - z| = |roundToPrec p z - z| → x ≠ roundToPrec p z →
        ∃ m s, Normal p m s ∧ 2 ∣ m ∧ roundToPrec p z = m * 2 ^ s) := by
  rcases Int.le_total 0 z with h | h
  · obtain ⟨a, rfl⟩ := Int.eq_ofNat_of_zero_le h
    simpa using roundToPrec_natural p hp a
  · obtain ⟨a, ha⟩ : ∃ a : Nat, z = -a := ⟨z.natAbs, by omega⟩
    subst ha
    obtain ⟨h1, h2⟩ := roundToPrec_natural p hp a
    rw [roundToPrec_neg]
    refine ⟨h1.neg, fun x hx => ?_⟩
    obtain ⟨h3, h4⟩ := h2 (-x) hx.neg
    have e1 : ∀ r : Rat, |-r - ((-(a : Int) : Int) : Rat)| = |r - a| := fun r => by
      rw [← abs_neg]; congr 1; push_cast; ring
    have e2 : |x - ((-(a : Int) : Int) : Rat)| = |-x - a| := by
      rw [← abs_neg]; congr 1; push_cast; ring
    rw [e1, e2]
    refine ⟨h3, fun h5 h6 => ?_⟩
    obtain ⟨m, s, ⟨b1, b2, b3⟩, b4, b5⟩ := h4 h5 (fun h => h6 (by rw [← h, neg_neg]))
    exact ⟨-m, s, ⟨by omega, by omega, b3⟩, by omega, by rw [b5]; push_cast; ring⟩

end Verif
