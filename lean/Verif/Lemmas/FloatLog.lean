import Verif.Model.FloatLog
import Mathlib.Analysis.SpecialFunctions.Log.Deriv
import Mathlib.Tactic.NormNum.BigOperators
import Mathlib.Tactic.IntervalCases

/-! The logarithms computed in floats. -/
namespace Verif

/-! ### Relative errors -/

/-- The unit in the last place is small. -/
theorem ulp_le {x : ℝ} (hx : 0 < x) : (2 : ℝ) ^ (Int.log 2 x - 52) ≤ x / 2 ^ 52 := by
  have h : (2 : ℝ) ^ Int.log 2 x ≤ x := by simpa using Int.zpow_log_le_self (b := 2) (by norm_num) hx
  rw [zpow_sub₀ (by norm_num)]
  have : ((2 : ℝ) ^ (52 : ℤ)) = 2 ^ 52 := by norm_cast
  rw [this]
  exact div_le_div_of_nonneg_right h (by positivity)

theorem LnOk.rel {ln : Rat → Rat} (h : LnOk ln) {n : Nat} (h2 : 2 ≤ n) (hn : n < 2 ^ 32) :
    0 < Real.log n ∧ |(ln n : ℝ) - Real.log n| ≤ Real.log n / 2 ^ 52 := by
  have h0 : 0 < Real.log n := Real.log_pos (by exact_mod_cast h2)
  have h1 := h.close n h2 hn
  have h3 := ulp_le h0
  have h4 : (0 : ℝ) < 2 ^ (Int.log 2 (Real.log n) - 52) := zpow_pos (by norm_num) _
  exact ⟨h0, by linarith⟩

/-- Small relative errors of a quotient and its rounding. -/
theorem quot_rel {a b x y : ℝ} {f : ℝ} (ha : 0 < a) (hb : 0 < b) (hx : |x - a| ≤ a / 2 ^ 52)
    (hy : |y - b| ≤ b / 2 ^ 52) (hf : |f - x / y| ≤ |x / y| / 2 ^ 53) :
    |f - a / b| * 2 ^ 49 ≤ a / b := by
  rw [abs_le] at hx hy
  have y0 : 0 < y := by
    have : b / 2 ^ 52 ≤ b / 2 := div_le_div_of_nonneg_left hb.le (by norm_num) (by norm_num)
    linarith [hy.1]
  have x0 : 0 < x := by
    have : a / 2 ^ 52 ≤ a / 2 := div_le_div_of_nonneg_left ha.le (by norm_num) (by norm_num)
    linarith [hx.1]
  have q0 : 0 < x / y := div_pos x0 y0
  rw [abs_of_pos q0] at hf
  have r0 : 0 < a / b := div_pos ha hb
  have e1 : x / y ≤ a / b * (1 + 1 / 2 ^ 50) := by
    rw [div_mul_eq_mul_div, div_le_div_iff₀ y0 hb]
    have : x * b ≤ a * b * (1 + 1 / 2 ^ 52) := by
      calc x * b ≤ (a + a / 2 ^ 52) * b := mul_le_mul_of_nonneg_right (by linarith [hx.2]) hb.le
        _ = _ := by ring
    have h2 : a * (1 + 1 / 2 ^ 50) * (b * (1 - 1 / 2 ^ 52)) ≤ a * (1 + 1 / 2 ^ 50) * y :=
      mul_le_mul_of_nonneg_left (by linarith [hy.1]) (by positivity)
    have h3 : a * b * (1 + 1 / 2 ^ 52) ≤ a * b * ((1 + 1 / 2 ^ 50) * (1 - 1 / 2 ^ 52)) :=
      mul_le_mul_of_nonneg_left (by norm_num) (by positivity)
    linarith
  have e2 : a / b * (1 - 1 / 2 ^ 50) ≤ x / y := by
    rw [div_mul_eq_mul_div, div_le_div_iff₀ hb y0]
    have : a * b * (1 - 1 / 2 ^ 52) ≤ x * b := by
      calc a * b * (1 - 1 / 2 ^ 52) = (a - a / 2 ^ 52) * b := by ring
        _ ≤ _ := mul_le_mul_of_nonneg_right (by linarith [hx.1]) hb.le
    have h2 : a * (1 - 1 / 2 ^ 50) * y ≤ a * (1 - 1 / 2 ^ 50) * (b * (1 + 1 / 2 ^ 52)) :=
      mul_le_mul_of_nonneg_left (by linarith [hy.2]) (mul_nonneg ha.le (by norm_num))
    have h3 : a * b * ((1 - 1 / 2 ^ 50) * (1 + 1 / 2 ^ 52)) ≤ a * b * (1 - 1 / 2 ^ 52) :=
      mul_le_mul_of_nonneg_left (by norm_num) (by positivity)
    linarith
  have e3 : |f - x / y| ≤ a / b / 2 ^ 52 := by
    refine hf.trans ?_
    have : x / y ≤ a / b * 2 := e1.trans (mul_le_mul_of_nonneg_left (by norm_num) r0.le)
    linarith
  generalize a / b = r at *
  generalize x / y = q at *
  rw [abs_le] at e3
  have : |f - r| ≤ r / 2 ^ 49 := by
    rw [abs_le]
    constructor <;> linarith [e3.1, e3.2]
  linarith

/-! ### The gap between a logarithm and an integer -/

theorem log_gap {n : Nat} (h : 1 ≤ n) : Real.log n + 1 / (n + 1) ≤ Real.log (n + 1 : Nat) := by
  have hn : (0 : ℝ) < n := by exact_mod_cast h
  have h1 : Real.log (n + 1 : Nat) - Real.log n = Real.log ((n + 1 : ℝ) / n) := by
    rw [Real.log_div (by positivity) hn.ne']
    push_cast
    rfl
  have h2 := Real.one_sub_inv_le_log_of_pos (x := (n + 1 : ℝ) / n) (by positivity)
  have h3 : 1 - ((n + 1 : ℝ) / n)⁻¹ = 1 / (n + 1) := by
    field_simp
    ring
  rw [h3] at h2
  linarith

theorem log_lt_32 {n : Nat} (h1 : 1 ≤ n) (h : n < 2 ^ 32) : Real.log n < 32 := by
  have h2 : Real.log n ≤ Real.log (2 ^ 32) :=
    Real.log_le_log (by exact_mod_cast h1) (by exact_mod_cast h.le)
  rw [Real.log_pow] at h2
  have h3 : Real.log 2 < 1 := by
    have := Real.log_lt_sub_one_of_pos (x := 2) (by norm_num) (by norm_num)
    linarith
  push_cast at h2
  linarith

section
variable {ln : Rat → Rat} {k n : Nat}

theorem fround_nat {n : Nat} (h : n < 2 ^ 53) : fround 53 n = n := by
  have := fround_exact (p := 53) (q := (n : Int)) (Representable.of_lt (z := n) (by simpa using h))
  simpa using this

/-- The quotient that the program rounds up. -/
theorem clogOf_quot (h : LnOk ln) (hk : 2 ≤ k) (hk' : k < 2 ^ 32) (h2 : 2 ≤ n) (hn : n < 2 ^ 32) :
    ∃ f : Rat, clogOf ln k n = ⌈f⌉.toNat ∧ f = fround 53 (ln n / ln k) ∧
      |(f : ℝ) - Real.log n / Real.log k| * 2 ^ 49 ≤ Real.log n / Real.log k := by
  refine ⟨fround 53 (ln n / ln k), ?_, rfl, ?_⟩
  · unfold clogOf
    rw [if_neg (by omega), fround_nat (n := n) (by omega), fround_nat (n := k) (by omega)]
  · obtain ⟨n0, n1⟩ := h.rel h2 hn
    obtain ⟨k0, k1⟩ := h.rel hk hk'
    refine quot_rel n0 k0 n1 k1 ?_
    have := fround_near 53 (ln n / ln k)
    exact_mod_cast this

theorem quot_above (h : LnOk ln) (hk : 2 ≤ k) (hk' : k < 2 ^ 32) (h2 : 2 ≤ n) (hn : n < 2 ^ 32) {j : Nat}
    (hj : k ^ j < n) : j + 1 ≤ clogOf ln k n := by
  obtain ⟨f, e, -, hf⟩ := clogOf_quot h hk hk' h2 hn
  have k0 : 0 < Real.log k := (h.rel hk hk').1
  obtain ⟨m, rfl⟩ : ∃ m, n = m + 1 := ⟨n - 1, by omega⟩
  have hm : 1 ≤ m := by omega
  have hg := log_gap hm
  have h3 : (j : ℝ) * Real.log k ≤ Real.log m := by
    rw [← Real.log_pow]
    refine Real.log_le_log (by positivity) ?_
    exact_mod_cast (show k ^ j ≤ m by omega)
  have h4 := log_lt_32 (n := m + 1) (by omega) hn
  generalize Real.log (m + 1 : Nat) = L at *
  have hm' : ((m : ℝ) + 1) ≤ 2 ^ 32 := by exact_mod_cast (show m + 1 ≤ 2 ^ 32 by omega)
  have h5 : (1 : ℝ) / 2 ^ 32 ≤ 1 / (m + 1) := one_div_le_one_div_of_le (by positivity) hm'
  have hlt : (j : ℝ) < f := by
    have hf' := (abs_le.1 (le_of_mul_le_mul_right (b := |(f : ℝ) - L / Real.log k|)
      (c := L / Real.log k / 2 ^ 49) (by rw [div_mul_cancel₀ _ (by positivity)]; exact hf) (by positivity :
        (0 : ℝ) < 2 ^ 49))).1
    have h6 : (j : ℝ) < L / Real.log k - L / Real.log k / 2 ^ 49 := by
      rw [← sub_pos]
      have e : L / Real.log k - L / Real.log k / 2 ^ 49 - j = (L - L / 2 ^ 49 - j * Real.log k) / Real.log k := by
        field_simp
      rw [e]
      refine div_pos ?_ k0
      linarith
    linarith
  have hlt : ((j : Int) : Rat) < f := by
    have : ((j : Int) : Rat) = (j : Rat) := by norm_cast
    rw [this]
    exact_mod_cast hlt
  have := Int.lt_ceil.2 hlt
  omega

theorem quot_below (h : LnOk ln) (hk : 2 ≤ k) (hk' : k < 2 ^ 32) (h2 : 2 ≤ n) (hn : n < 2 ^ 32) {j : Nat}
    (hj : n < k ^ j) : clogOf ln k n ≤ j := by
  obtain ⟨f, e, -, hf⟩ := clogOf_quot h hk hk' h2 hn
  have k0 : 0 < Real.log k := (h.rel hk hk').1
  have hg := log_gap (n := n) (by omega)
  have h3 : Real.log (n + 1 : Nat) ≤ j * Real.log k := by
    rw [← Real.log_pow]
    refine Real.log_le_log (by positivity) ?_
    exact_mod_cast (show n + 1 ≤ k ^ j by omega)
  have h4 := log_lt_32 (n := n) (by omega) hn
  have hm' : ((n : ℝ) + 1) ≤ 2 ^ 32 := by exact_mod_cast (show n + 1 ≤ 2 ^ 32 by omega)
  have h5 : (1 : ℝ) / 2 ^ 32 ≤ 1 / (n + 1) := one_div_le_one_div_of_le (by positivity) hm'
  generalize Real.log n = L at *
  have hlt : (f : ℝ) ≤ j := by
    have hf' := (abs_le.1 (le_of_mul_le_mul_right (b := |(f : ℝ) - L / Real.log k|)
      (c := L / Real.log k / 2 ^ 49) (by rw [div_mul_cancel₀ _ (by positivity)]; exact hf) (by positivity :
        (0 : ℝ) < 2 ^ 49))).2
    have h6 : L / Real.log k + L / Real.log k / 2 ^ 49 ≤ j := by
      rw [← sub_nonneg]
      have e : (j : ℝ) - (L / Real.log k + L / Real.log k / 2 ^ 49) =
          (j * Real.log k - (L + L / 2 ^ 49)) / Real.log k := by
        field_simp
      rw [e]
      refine div_nonneg ?_ k0.le
      linarith
    linarith
  have hlt : f ≤ ((j : Int) : Rat) := by
    have : ((j : Int) : Rat) = (j : Rat) := by norm_cast
    rw [this]
    exact_mod_cast hlt
  have := Int.ceil_le.2 hlt
  omega

end

/-! ### The logarithm of two -/

/-- An approximation of the logarithm of two. -/
def ln2 : Rat := 837963523372001241319908 / 2 ^ 80

theorem ln2_near : |Real.log 2 - (ln2 : ℝ)| ≤ 1 / 2 ^ 63 := by
  have t : |(2⁻¹ : ℝ)| = 2⁻¹ := by rw [abs_of_pos]; norm_num
  have z := Real.abs_log_sub_add_sum_range_le (show |(2⁻¹ : ℝ)| < 1 by rw [t]; norm_num) 66
  rw [t, show (1 : ℝ) - 2⁻¹ = 2⁻¹ by norm_num, Real.log_inv] at z
  have hs : |(∑ i ∈ Finset.range 66, (2⁻¹ : Rat) ^ (i + 1) / ((i : Rat) + 1)) - ln2| ≤ 1 / 2 ^ 65 := by
    decide +kernel
  have hs' : |(∑ i ∈ Finset.range 66, (2⁻¹ : ℝ) ^ (i + 1) / ((i : ℝ) + 1)) - (ln2 : ℝ)| ≤ 1 / 2 ^ 65 := by
    have := (Rat.cast_le (K := ℝ)).2 hs
    push_cast at this
    exact this
  generalize (∑ i ∈ Finset.range 66, (2⁻¹ : ℝ) ^ (i + 1) / ((i : ℝ) + 1)) = S at *
  rw [abs_le] at *
  constructor
  · linarith [z.1, z.2, hs'.1, hs'.2, show ((2 : ℝ)⁻¹ ^ (66 + 1) / 2⁻¹) = 1 / 2 ^ 66 by norm_num]
  · linarith [z.1, z.2, hs'.1, hs'.2, show ((2 : ℝ)⁻¹ ^ (66 + 1) / 2⁻¹) = 1 / 2 ^ 66 by norm_num]

/-- A float closer than a unit to a float is that float. -/
theorem float_eq {q : Rat} (hq : Representable 53 q) {m u : Nat} (h1 : 2 ^ 52 < m)
    (h : |q - m / 2 ^ u| < 1 / 2 ^ u) : q = m / 2 ^ u := by
  obtain ⟨a, e, ha, rfl⟩ := hq
  have hu : (0 : Rat) < 2 ^ u := by positivity
  rw [abs_lt] at h
  have g1 : (m : Rat) - 1 < a * 2 ^ e * 2 ^ u := by
    have := mul_lt_mul_of_pos_right h.1 hu
    rw [neg_mul, sub_mul, div_mul_cancel₀ _ hu.ne', div_mul_cancel₀ _ hu.ne'] at this
    linarith
  have g2 : a * 2 ^ e * 2 ^ u < (m : Rat) + 1 := by
    have := mul_lt_mul_of_pos_right h.2 hu
    rw [sub_mul, div_mul_cancel₀ _ hu.ne', div_mul_cancel₀ _ hu.ne'] at this
    linarith
  have he : (2 : Rat) ^ e * 2 ^ u = 2 ^ (e + u) := by rw [zpow_add₀ (by norm_num), zpow_natCast]
  rw [mul_assoc, he] at g1 g2
  rw [eq_div_iff hu.ne', mul_assoc, he]
  rcases lt_or_ge (e + u) 0 with h0 | h0
  · exfalso
    have : (2 : Rat) ^ (e + u) ≤ 2⁻¹ := by
      have : (2 : Rat) ^ (e + u) ≤ 2 ^ (-1 : Int) := zpow_le_zpow_right₀ (by norm_num) (by omega)
      simpa using this
    have hp : (0 : Rat) < 2 ^ (e + u) := zpow_pos (by norm_num) _
    have ha' : (a : Rat) ≤ 2 ^ 53 := by
      have : a ≤ 2 ^ 53 := by omega
      exact_mod_cast this
    have h1' : (2 : Rat) ^ 52 + 1 ≤ m := by exact_mod_cast h1
    have : (a : Rat) * 2 ^ (e + u) ≤ 2 ^ 53 * 2⁻¹ :=
      (mul_le_mul_of_nonneg_right ha' hp.le).trans (mul_le_mul_of_nonneg_left this (by positivity))
    have h8 : (2 : Rat) ^ 53 * 2⁻¹ = 2 ^ 52 := by norm_num
    linarith
  · obtain ⟨j, hj⟩ : ∃ j : Nat, e + u = j := ⟨(e + u).toNat, by omega⟩
    rw [hj, zpow_natCast] at g1 g2 ⊢
    have g1 : (m : Int) - 1 < a * 2 ^ j := by exact_mod_cast g1
    have g2 : (a : Int) * 2 ^ j < m + 1 := by exact_mod_cast g2
    have : (a : Int) * 2 ^ j = m := by omega
    exact_mod_cast this

/-- The logarithms of the powers of two below `2 ^ 32`, as floats: `(m, u)` stands for `m / 2 ^ u`. -/
def lnTable : List (Nat × Nat) :=
  [(6243314768165359, 53), (6243314768165359, 52), (4682486076124019, 51), (6243314768165359, 51),
   (7804143460206699, 51), (4682486076124019, 50), (5462900422144689, 50), (6243314768165359, 50),
   (7023729114186029, 50), (7804143460206699, 50), (8584557806227369, 50), (4682486076124019, 49),
   (5072693249134354, 49), (5462900422144689, 49), (5853107595155024, 49), (6243314768165359, 49),
   (6633521941175694, 49), (7023729114186029, 49), (7413936287196364, 49), (7804143460206699, 49),
   (8194350633217034, 49), (8584557806227369, 49), (8974764979237704, 49), (4682486076124019, 48),
   (4877589662629187, 48), (5072693249134354, 48), (5267796835639522, 48), (5462900422144689, 48),
   (5658004008649857, 48), (5853107595155024, 48), (6048211181660192, 48)]

/-- What is checked of the table. -/
def LnRow (e m u : Nat) : Prop :=
  2 ^ 52 < m ∧ m < 2 ^ 53 ∧ u ≤ 53 ∧ |(e : Rat) * ln2 - m / 2 ^ u| + e / 2 ^ 63 + 11 / 20 / 2 ^ u < 1 / 2 ^ u ∧
    2 ^ 52 / 2 ^ u ≤ (e : Rat) * ln2 - e / 2 ^ 63 ∧ (e : Rat) * ln2 + e / 2 ^ 63 < 2 ^ 53 / 2 ^ u

instance (e m u : Nat) : Decidable (LnRow e m u) := by unfold LnRow; infer_instance

theorem lnTable_rows : ∀ i : Fin 31, LnRow (i + 1) (lnTable[i]).1 (lnTable[i]).2 := by decide +kernel

theorem ln_pow {ln : Rat → Rat} (h : LnOk ln) {e m u : Nat} (he : 1 ≤ e) (he' : e ≤ 31)
    (hr : LnRow e m u) : ln (2 ^ e : Nat) = m / 2 ^ u := by
  obtain ⟨r1, -, -, r4, r5, r6⟩ := hr
  have h2 : 2 ≤ 2 ^ e := by simpa using Nat.pow_le_pow_right (n := 2) (by omega) he
  have hn : 2 ^ e < 2 ^ 32 := Nat.pow_lt_pow_right (by omega) (by omega)
  have hu : (0 : ℝ) < 2 ^ u := by positivity
  have hlog : Real.log (2 ^ e : Nat) = e * Real.log 2 := by push_cast; rw [Real.log_pow]
  have hL := ln2_near
  rw [abs_le] at hL
  have he0 : (0 : ℝ) ≤ e := by positivity
  have a1 : (e : ℝ) * Real.log 2 ≤ e * ln2 + e / 2 ^ 63 := by
    have := mul_le_mul_of_nonneg_left (show Real.log 2 ≤ ln2 + 1 / 2 ^ 63 by linarith [hL.2]) he0
    rw [mul_add, mul_one_div] at this
    exact this
  have a2 : e * ln2 - e / 2 ^ 63 ≤ (e : ℝ) * Real.log 2 := by
    have := mul_le_mul_of_nonneg_left (show ln2 - 1 / 2 ^ 63 ≤ Real.log 2 by linarith [hL.1]) he0
    rw [mul_sub, mul_one_div] at this
    exact this
  have r4' : |(e : ℝ) * ln2 - m / 2 ^ u| + e / 2 ^ 63 + 11 / 20 / 2 ^ u < 1 / 2 ^ u := by
    have := (Rat.cast_lt (K := ℝ)).2 r4
    push_cast at this
    exact this
  have r5' : (2 : ℝ) ^ 52 / 2 ^ u ≤ e * ln2 - e / 2 ^ 63 := by
    have := (Rat.cast_le (K := ℝ)).2 r5
    push_cast at this
    exact this
  have r6' : (e : ℝ) * ln2 + e / 2 ^ 63 < 2 ^ 53 / 2 ^ u := by
    have := (Rat.cast_lt (K := ℝ)).2 r6
    push_cast at this
    exact this
  have hx0 : 0 < (e : ℝ) * Real.log 2 := by
    have : (0 : ℝ) < 2 ^ 52 / 2 ^ u := by positivity
    linarith
  have hp : ∀ a : Nat, (2 : ℝ) ^ a / 2 ^ u = 2 ^ ((a : Int) - u) := by
    intro a
    rw [zpow_sub₀ (by norm_num), zpow_natCast, zpow_natCast]
  have hl : Int.log 2 ((e : ℝ) * Real.log 2) = 52 - u := by
    have b1 : (52 : Int) - u ≤ Int.log 2 ((e : ℝ) * Real.log 2) := by
      refine (Int.zpow_le_iff_le_log (b := 2) (by norm_num) hx0).1 ?_
      have := hp 52
      push_cast at this ⊢
      rw [← this]
      linarith
    have b2 : Int.log 2 ((e : ℝ) * Real.log 2) < 53 - u := by
      refine (Int.lt_zpow_iff_log_lt (b := 2) (by norm_num) hx0).1 ?_
      have := hp 53
      push_cast at this ⊢
      rw [← this]
      linarith
    omega
  have hc := h.close _ h2 hn
  rw [hlog, hl] at hc
  have hulp : (2 : ℝ) ^ ((52 : Int) - u - 52) = 1 / 2 ^ u := by
    have := hp 0
    rw [pow_zero] at this
    rw [this]
    congr 1
    omega
  rw [hulp] at hc
  refine float_eq (h.float _ h2 hn) r1 ?_
  have : |((ln (2 ^ e : Nat) : Rat) : ℝ) - m / 2 ^ u| < 1 / 2 ^ u := by
    generalize ((ln (2 ^ e : Nat) : Rat) : ℝ) = x at *
    rw [mul_one_div] at hc
    have hab := abs_le.1 (le_refl |(e : ℝ) * ln2 - m / 2 ^ u|)
    rw [abs_le] at hc
    rw [abs_lt]
    constructor <;> linarith [hab.1, hab.2, hc.1, hc.2]
  have : ((|ln (2 ^ e : Nat) - m / 2 ^ u| : Rat) : ℝ) < ((1 / 2 ^ u : Rat) : ℝ) := by
    push_cast at this ⊢
    exact this
  exact (Rat.cast_lt (K := ℝ)).1 this

/-- A quotient just above an integer is rounded to it or to the next float. -/
theorem fround_int {e s : Nat} {q : Rat} (h1 : 2 ^ s ≤ e) (h2 : e < 2 ^ (s + 1)) (hs : s ≤ 52)
    (hq2 : (2 : Rat) ^ s ≤ q) :
    (q < e + 2 ^ s / 2 ^ 53 → fround 53 q ≤ e) ∧ (q < e + 1 / 2 → e + 2 ^ s / 2 ^ 53 < q → (e : Rat) < fround 53 q) := by
  have h1' : (2 : Rat) ^ s ≤ e := by exact_mod_cast h1
  have h2' : (e : Rat) + 1 ≤ 2 ^ (s + 1) := by exact_mod_cast h2
  have q0 : 0 < q := lt_of_lt_of_le (by positivity) hq2
  have key : q < e + 1 / 2 → ∃ E z : Int, (e : Rat) * 2 ^ (52 - s) = E ∧
      |(z : Rat) - q * 2 ^ (52 - s)| ≤ 1 / 2 ∧ fround 53 q * 2 ^ (52 - s) = z := by
    intro hlt
    have hl : Int.log 2 |q| = s := by
      rw [abs_of_pos q0]
      have b1 : (s : Int) ≤ Int.log 2 q := by
        refine (Int.zpow_le_iff_le_log (b := 2) (by norm_num) q0).1 ?_
        rw [zpow_natCast]
        exact_mod_cast hq2
      have b2 : Int.log 2 q < (s + 1 : Nat) := by
        refine (Int.lt_zpow_iff_log_lt (b := 2) (by norm_num) q0).1 ?_
        rw [zpow_natCast]
        push_cast
        linarith
      omega
    refine ⟨(e * 2 ^ (52 - s) : Nat), roundEven (q * 2 ^ (52 - s)), by push_cast; rfl, roundEven_near _, ?_⟩
    unfold fround
    rw [if_neg q0.ne', hl]
    simp only
    have e1 : -((s : Int) - ((53 : Nat) - 1)) = (52 - s : Nat) := by omega
    have e2 : ((s : Int) - ((53 : Nat) - 1)) = -((52 - s : Nat) : Int) := by omega
    rw [e1, e2, zpow_neg, zpow_natCast]
    have : (2 : Rat) ^ (52 - s) ≠ 0 := by positivity
    field_simp
  have hp : (0 : Rat) < 2 ^ (52 - s) := by positivity
  have hs2 : (2 : Rat) ^ s / 2 ^ 53 * 2 ^ (52 - s) = 1 / 2 := by
    rw [div_mul_eq_mul_div, ← pow_add, show s + (52 - s) = 52 by omega]
    norm_num
  have hs3 : (2 : Rat) ^ s / 2 ^ 53 ≤ 1 / 2 := by
    have : (2 : Rat) ^ s ≤ 2 ^ 52 := pow_le_pow_right₀ (by norm_num) hs
    linarith
  constructor
  · intro hlt
    obtain ⟨E, z, hE, hz, hf⟩ := key (by linarith)
    refine le_of_mul_le_mul_right ?_ hp
    rw [hf, hE]
    have := mul_lt_mul_of_pos_right hlt hp
    rw [add_mul, hs2, hE] at this
    have : (z : Rat) < E + 1 := by linarith [(abs_le.1 hz).2]
    have : z < E + 1 := by exact_mod_cast this
    exact_mod_cast (show z ≤ E by omega)
  · intro hlt hgt
    obtain ⟨E, z, hE, hz, hf⟩ := key hlt
    refine lt_of_mul_lt_mul_right ?_ hp.le
    rw [hf, hE]
    have := mul_lt_mul_of_pos_right hgt hp
    rw [add_mul, hs2, hE] at this
    linarith [(abs_le.1 hz).1]

end Verif
