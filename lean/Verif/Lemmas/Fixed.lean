import Verif.Model.Fixed
import Mathlib.Algebra.Order.Field.Basic
import Mathlib.Tactic.Linarith
import Mathlib.Tactic.Ring
import Mathlib.Tactic.FieldSimp
import Mathlib.Tactic.Positivity
import Mathlib.Tactic.NormNum
import Mathlib.Data.Rat.Cast.Order

/-! Fixed point conversion: exact products, truncation, rounding to the precision. -/
namespace Verif

/-- Values a float of `p` significant bits can hold (exponent range aside). -/
def Representable (p : Nat) (q : Rat) : Prop :=
  ∃ m e : Int, m.natAbs < 2 ^ p ∧ q = (m : Rat) * (2 : Rat) ^ e

theorem shl1_toInt {b : Nat} (h : b ≤ 62) : (shl1 b).toInt = 2 ^ b := by
  unfold shl1
  rw [Nat.mod_eq_of_lt (by omega), Int64.toInt_ofNat_of_lt]
  · push_cast; rfl
  · exact Nat.pow_lt_pow_right (by omega) (by omega)

theorem shl1_63 : (shl1 63).toInt = -2 ^ 63 := by decide +kernel

theorem ratTrunc_int (z : Int) : ratTrunc (z : Rat) = z := by
  unfold ratTrunc
  split <;> simp

theorem ratFract_int (z : Int) : ratFract (z : Rat) = 0 := by
  unfold ratFract; rw [ratTrunc_int]; simp

theorem ratFract_eq_zero {q : Rat} (h : ratFract q = 0) : q = (ratTrunc q : Rat) := by
  unfold ratFract at h; linarith

theorem ratTrunc_abs_le (q : Rat) : |(ratTrunc q : Rat)| ≤ |q| := by
  unfold ratTrunc
  split
  · rename_i h
    have h1 : (0 : Rat) ≤ ((⌊q⌋ : Int) : Rat) := by exact_mod_cast Int.floor_nonneg.2 h
    rw [abs_of_nonneg h1, abs_of_nonneg h]
    exact Int.floor_le q
  · rename_i h
    have h1 : ((⌈q⌉ : Int) : Rat) ≤ 0 := by
      have : ⌈q⌉ ≤ 0 := Int.ceil_le.2 (by push_cast; linarith)
      exact_mod_cast this
    rw [abs_of_nonpos h1, abs_of_neg (by linarith)]
    linarith [Int.le_ceil q]

theorem ratTrunc_near (q : Rat) : |(ratTrunc q : Rat) - q| < 1 := by
  unfold ratTrunc
  split
  · rw [abs_lt]
    constructor <;> linarith [Int.floor_le q, Int.lt_floor_add_one q]
  · rw [abs_lt]
    constructor <;> linarith [Int.le_ceil q, Int.ceil_lt_add_one q]

theorem ratRound_near (q : Rat) : |(ratRound q : Rat) - q| ≤ 1 / 2 := by
  unfold ratRound
  split
  · rw [abs_le]
    constructor <;> linarith [Int.floor_le (q + 1 / 2), Int.lt_floor_add_one (q + 1 / 2)]
  · rw [abs_le]
    constructor <;> linarith [Int.le_ceil (q - 1 / 2), Int.ceil_lt_add_one (q - 1 / 2)]

theorem ratFract_pos_iff (q : Rat) : 0 < ratFract q ↔ 0 < q ∧ q ≠ (ratTrunc q : Rat) := by
  unfold ratFract
  constructor
  · intro h
    refine ⟨?_, fun e => ?_⟩
    · by_contra hn
      unfold ratTrunc at h
      rcases eq_or_lt_of_le (not_lt.1 hn) with rfl | h0
      · simp at h
      · rw [if_neg (not_le.2 h0)] at h
        linarith [Int.le_ceil q]
    · rw [← e] at h; linarith
  · rintro ⟨h1, h2⟩
    unfold ratTrunc at *
    rw [if_pos h1.le] at *
    rcases lt_or_eq_of_le (Int.floor_le q) with h | h
    · linarith
    · exact absurd h.symm h2

/-! ### Rounding to the precision -/

theorem roundToPrec_of_size {p : Nat} {z : Int} (h : z.natAbs < 2 ^ p) : roundToPrec p z = z := by
  have hs : Nat.size z.natAbs - p = 0 := by
    have := Nat.size_le.2 h
    omega
  unfold roundToPrec
  simp only [hs, pow_zero, Nat.div_one, Nat.mod_one, Nat.mul_one]
  rw [if_neg (by omega)]
  have : (z.sign : Rat) * (z.natAbs : Rat) = z := by
    have h1 : z.sign * (z.natAbs : Int) = z := Int.sign_mul_natAbs z
    have h2 : ((z.sign * (z.natAbs : Int) : Int) : Rat) = (z : Rat) := by rw [h1]
    push_cast at h2
    simpa using h2
  exact_mod_cast this

theorem roundToPrec_mul_pow {p : Nat} {m : Int} (j : Nat) (h : m.natAbs < 2 ^ p) :
    roundToPrec p (m * 2 ^ j) = ((m * 2 ^ j : Int) : Rat) := by
  have ha : (m * 2 ^ j).natAbs = m.natAbs * 2 ^ j := by
    rw [Int.natAbs_mul, Int.natAbs_pow]; rfl
  have hs : Nat.size (m * 2 ^ j).natAbs - p ≤ j := by
    have : (m * 2 ^ j).natAbs < 2 ^ (p + j) := by
      rw [ha, Nat.pow_add]
      exact Nat.mul_lt_mul_of_pos_right h (by positivity)
    have := Nat.size_le.2 this
    omega
  unfold roundToPrec
  simp only
  generalize Nat.size (m * 2 ^ j).natAbs - p = s at hs ⊢
  have hd : 2 ^ s ∣ (m * 2 ^ j).natAbs := by
    rw [ha]
    exact Dvd.dvd.mul_left (Nat.pow_dvd_pow 2 hs) _
  have hpos : 0 < 2 ^ s := by positivity
  rw [Nat.mod_eq_zero_of_dvd hd, if_neg (by omega), Nat.div_mul_cancel hd]
  have h1 : (m * 2 ^ j).sign * ((m * 2 ^ j).natAbs : Int) = m * 2 ^ j := Int.sign_mul_natAbs _
  have h2 : (((m * 2 ^ j).sign * ((m * 2 ^ j).natAbs : Int) : Int) : Rat)
      = ((m * 2 ^ j : Int) : Rat) := by rw [h1]
  rw [← h2, Int.cast_mul, Int.cast_natCast]

/-- An integer of the precision is converted exactly. -/
theorem roundToPrec_exact {p : Nat} {z : Int} (h : Representable p z) : roundToPrec p z = z := by
  obtain ⟨m, e, hm, hq⟩ := h
  rcases Int.lt_or_le e 0 with he | he
  · apply roundToPrec_of_size
    obtain ⟨j, rfl⟩ : ∃ j : Nat, e = -((j : Int)) := ⟨e.natAbs, by omega⟩
    rw [zpow_neg, zpow_natCast] at hq
    have h2 : (z * 2 ^ j : Rat) = m := by
      rw [hq, mul_assoc, inv_mul_cancel₀ (by positivity), mul_one]
    have h3 : z * 2 ^ j = m := by exact_mod_cast h2
    have : m.natAbs = z.natAbs * 2 ^ j := by
      rw [← h3, Int.natAbs_mul, Int.natAbs_pow]; rfl
    have : z.natAbs ≤ m.natAbs := by
      rw [this]; exact Nat.le_mul_of_pos_right _ (by positivity)
    omega
  · obtain ⟨j, rfl⟩ : ∃ j : Nat, e = (j : Int) := ⟨e.toNat, by omega⟩
    rw [zpow_natCast] at hq
    have h2 : z = m * 2 ^ j := by exact_mod_cast hq
    rw [h2]
    exact roundToPrec_mul_pow j hm

theorem roundToPrec_isInt (p : Nat) (z : Int) : ∃ z' : Int, roundToPrec p z = z' := by
  unfold roundToPrec
  simp only
  exact ⟨z.sign * ((_ : Nat) : Int), by rw [Int.cast_mul, Int.cast_natCast]⟩

theorem Representable.mul_pow {p : Nat} {q : Rat} (h : Representable p q) (b : Nat) :
    Representable p (q * 2 ^ b) := by
  obtain ⟨m, e, hm, rfl⟩ := h
  refine ⟨m, e + b, hm, ?_⟩
  rw [zpow_add₀ (by norm_num), zpow_natCast, mul_assoc]

theorem Representable.of_lt {p : Nat} {z : Int} (h : z.natAbs < 2 ^ p) :
    Representable p (z : Rat) := ⟨z, 0, h, by simp⟩

/-- A value of the precision is an integer or small. -/
theorem Representable.int_or_small {p : Nat} {q : Rat} (h : Representable p q) :
    (∃ z : Int, q = z) ∨ |q * 2| < 2 ^ p := by
  obtain ⟨m, e, hm, rfl⟩ := h
  rcases Int.lt_or_le e 0 with he | he
  · right
    obtain ⟨j, rfl⟩ : ∃ j : Nat, e = -((j : Int)) - 1 := ⟨(-e - 1).toNat, by omega⟩
    rw [zpow_sub₀ (by norm_num), zpow_neg, zpow_natCast, zpow_one]
    have h1 : (m : Rat) * ((2 ^ j)⁻¹ / 2) * 2 = m * (2 ^ j)⁻¹ := by field_simp
    rw [h1, abs_mul]
    have h2 : |(m : Rat)| < 2 ^ p := by
      have : (m.natAbs : Rat) < 2 ^ p := by exact_mod_cast hm
      rwa [Nat.cast_natAbs, Int.cast_abs] at this
    have h3 : |((2 : Rat) ^ j)⁻¹| ≤ 1 := by
      rw [abs_of_pos (by positivity)]
      exact inv_le_one_of_one_le₀ (one_le_pow₀ (by norm_num))
    calc |(m : Rat)| * |((2 : Rat) ^ j)⁻¹| ≤ |(m : Rat)| * 1 := by
          exact mul_le_mul_of_nonneg_left h3 (abs_nonneg _)
      _ < 2 ^ p := by rw [mul_one]; exact h2
  · left
    obtain ⟨j, rfl⟩ : ∃ j : Nat, e = (j : Int) := ⟨e.toNat, by omega⟩
    exact ⟨m * 2 ^ j, by push_cast; rw [zpow_natCast]⟩

theorem Representable.trunc {p : Nat} {q : Rat} (h : Representable p q) :
    Representable p (ratTrunc (q * 2) : Int) := by
  rcases (h.mul_pow 1) |> fun h' => by rw [pow_one] at h'; exact h'.int_or_small with ⟨z, hz⟩ | hs
  · rw [hz, ratTrunc_int, ← hz]
    simpa using h.mul_pow 1
  · apply Representable.of_lt
    have h1 : |((ratTrunc (q * 2) : Int) : Rat)| ≤ |q * 2| := ratTrunc_abs_le _
    have h2 : |q * 2| ≤ |q * 2 * 2| := by
      rw [abs_mul (q * 2) 2]
      have : (0:Rat) ≤ |q * 2| := abs_nonneg _
      rw [show |(2:Rat)| = 2 from abs_of_pos (by norm_num)]
      linarith
    have h3 : |((ratTrunc (q * 2) : Int) : Rat)| < 2 ^ p := by linarith
    have h4 : (((ratTrunc (q * 2)).natAbs : Nat) : Rat) < ((2 ^ p : Nat) : Rat) := by
      rw [Nat.cast_natAbs, Int.cast_abs]; push_cast; exact h3
    exact_mod_cast h4

theorem Representable.round {p : Nat} (hp : 1 ≤ p) {q : Rat} (h : Representable p q) :
    Representable p (ratRound q : Int) := by
  rcases h.int_or_small with ⟨z, hz⟩ | hs
  · have : ratRound q = z := by
      rw [hz]
      unfold ratRound
      split
      · rw [Int.floor_intCast_add]
        norm_num
      · rw [Int.ceil_eq_iff]
        constructor <;> push_cast <;> linarith
    rw [this, ← hz]
    exact h
  · apply Representable.of_lt
    have h1 := ratRound_near q
    have h2 : |(ratRound q : Rat)| ≤ |q| + 1 / 2 := by
      have := abs_sub_abs_le_abs_sub (ratRound q : Rat) q
      linarith
    have h3 : |q| * 2 < 2 ^ p := by
      rw [abs_mul] at hs
      rwa [show |(2:Rat)| = 2 from abs_of_pos (by norm_num)] at hs
    have h4 : |(ratRound q : Rat)| * 2 < 2 ^ p + 1 := by linarith
    have h5 : (((ratRound q).natAbs * 2 : Nat) : Rat) < ((2 ^ p + 1 : Nat) : Rat) := by
      rw [Nat.cast_mul, Nat.cast_natAbs, Int.cast_abs]; push_cast; exact h4
    have h6 : (ratRound q).natAbs * 2 < 2 ^ p + 1 := by exact_mod_cast h5
    obtain ⟨p, rfl⟩ : ∃ p', p = p' + 1 := ⟨p - 1, by omega⟩
    rw [pow_succ] at h6 ⊢
    have : 0 < 2 ^ p := by positivity
    omega

/-! ### The conversions -/

theorem toFixed_fin (q : Rat) {b : Nat} (hb : b ≤ 62) (round : Bool) :
    toFixed (.fin q) b round =
      if 0 < ratFract (q * 2 ^ b) then
        if round then
          if -(2 ^ 63 : Rat) ≤ (ratRound (q * 2 ^ b) : Rat) * 2 ∧
              (ratRound (q * 2 ^ b) : Rat) * 2 < 2 ^ 63 then
            some (Int64.ofInt (ratRound (q * 2 ^ b) * 2) + 1) else none
        else none
      else if -(2 ^ 63 : Rat) ≤ q * 2 ^ b * 2 ∧ q * 2 ^ b * 2 < 2 ^ 63 then
        some (Int64.ofInt (ratTrunc (q * 2 ^ b * 2)) + 1) else none := by
  unfold toFixed
  simp only [shl1_toInt hb]
  have e : ratTrunc ((ratRound (q * 2 ^ b) : Rat) * 2) = ratRound (q * 2 ^ b) * 2 := by
    have : (ratRound (q * 2 ^ b) : Rat) * 2 = ((ratRound (q * 2 ^ b) * 2 : Int) : Rat) := by
      push_cast; rfl
    rw [this, ratTrunc_int]
  push_cast
  rw [e]

/-- Decoding `z + 1` gives `z / 2^(b+1)`. -/
theorem fromFixed_succ {p : Prec} {z : Int} {b : Nat} (hb : b ≤ 61) (h0 : z ≠ -1)
    (h1 : -(2 ^ 63) ≤ z) (h2 : z < 2 ^ 63) (hr : Representable p.bits (z : Rat)) :
    fromFixed p (Int64.ofInt z + 1) b = .fin (z / 2 ^ (b + 1)) := by
  have hz : (Int64.ofInt z).toInt = z := Int64.toInt_ofInt_of_le (by omega) (by omega)
  unfold fromFixed
  rw [if_neg, shl1_toInt (by omega)]
  · have : Int64.ofInt z + 1 - 1 = Int64.ofInt z := by grind
    rw [this, hz, roundToPrec_exact hr]
    push_cast
    rfl
  · intro e
    have : Int64.ofInt z = -1 := by grind
    rw [this] at hz
    exact h0 (hz.symm.trans (by decide))

/-! ### The suggested number of bits -/

theorem trailingZeros_spec (n : Int64) (i : Nat) (hi : i < trailingZeros n) (h64 : i < 64) :
    n.toBitVec.getLsbD i = false := by
  unfold trailingZeros at hi
  cases h : (List.range 64).find? (fun i => n.toBitVec.getLsbD i) with
  | none =>
    have := List.find?_eq_none.1 h i (List.mem_range.2 h64)
    simpa using this
  | some j =>
    rw [h] at hi
    simp only at hi
    rw [List.find?_eq_some_iff_append] at h
    obtain ⟨-, as, bs, e, hall⟩ := h
    have hlen : as.length = j := by
      have : (List.range 64)[as.length]? = some j := by rw [e]; simp
      rw [List.getElem?_range] at this
      · exact Option.some.inj this
      · have := congrArg List.length e
        simp at this
        omega
    have hmem : i ∈ as := by
      have h1 : (as ++ j :: bs)[i]? = some i := by rw [← e, List.getElem?_range h64]
      rw [List.getElem?_append_left (by omega)] at h1
      exact List.mem_of_getElem? h1
    simpa using hall i hmem

/-- The low bits are zero: divisible. -/
theorem trailingZeros_dvd (n : Int64) (j : Nat) (h : j ≤ trailingZeros n) (hj : j ≤ 64) :
    (2 ^ j : Int) ∣ n.toInt := by
  have h1 : n.toBitVec.toNat % 2 ^ j = 0 := by
    apply Nat.eq_of_testBit_eq
    intro i
    rw [Nat.testBit_mod_two_pow, Nat.zero_testBit]
    by_cases hi : i < j
    · have := trailingZeros_spec n i (by omega) (by omega)
      rw [BitVec.getLsbD] at this
      simp [this]
    · simp [hi]
  have h2 : (2 ^ j : Int) ∣ (n.toBitVec.toNat : Int) := by
    have := Nat.dvd_of_mod_eq_zero h1
    exact_mod_cast Int.natCast_dvd_natCast.2 this
  have h3 : n.toInt = n.toBitVec.toInt := rfl
  rw [h3, BitVec.toInt_eq_toNat_cond]
  split
  · exact h2
  · apply Int.dvd_sub h2
    have : (2 ^ j : Int) ∣ 2 ^ 64 := pow_dvd_pow 2 hj
    simpa using this

theorem fractionLoop_precise {maxBits acc : Nat} {ns : List Flt} {b : Nat}
    (h : fractionLoop maxBits acc ns = .precise b) :
    acc ≤ b ∧ ∀ n ∈ ns, ∃ c, fractionOf maxBits n = some c ∧ c ≤ b := by
  induction ns generalizing acc with
  | nil => simp only [fractionLoop, Fraction.precise.injEq] at h; simp [h]
  | cons n ns ih =>
    rw [fractionLoop] at h
    cases hf : fractionOf maxBits n with
    | none => rw [hf] at h; simp at h
    | some c =>
      rw [hf] at h
      obtain ⟨h1, h2⟩ := ih h
      have : acc ≤ b ∧ c ≤ b := by split at h1 <;> omega
      refine ⟨this.1, fun x hx => ?_⟩
      rcases List.mem_cons.1 hx with rfl | hx
      · exact ⟨c, hf, this.2⟩
      · exact h2 x hx

theorem fractionLoop_le {maxBits acc : Nat} {ns : List Flt} {b : Nat} (ha : acc ≤ maxBits)
    (h : fractionLoop maxBits acc ns = .precise b) : b ≤ maxBits := by
  induction ns generalizing acc with
  | nil => simp only [fractionLoop, Fraction.precise.injEq] at h; omega
  | cons n ns ih =>
    rw [fractionLoop] at h
    cases hf : fractionOf maxBits n with
    | none => rw [hf] at h; simp at h
    | some c =>
      rw [hf] at h
      refine ih ?_ h
      have hc : c ≤ maxBits := by
        unfold fractionOf at hf
        split at hf
        · obtain rfl := Option.some.inj hf; omega
        · simp at hf
        · simp only at hf
          split at hf
          · simp at hf
          · obtain rfl := Option.some.inj hf; omega
      split <;> omega

/-- What one value contributes is enough for it, if its product by the largest scale fits. -/
theorem fractionOf_exact {maxBits c b : Nat} {q : Rat} (hm : maxBits ≤ 62) (hcb : c ≤ b)
    (hbm : b ≤ maxBits) (hlo : -(2 ^ 63) ≤ q * 2 ^ maxBits) (hhi : q * 2 ^ maxBits < 2 ^ 63)
    (h : fractionOf maxBits (.fin q) = some c) : ∃ z : Int, q * 2 ^ b = z := by
  unfold fractionOf at h
  simp only [shl1_toInt hm] at h
  push_cast at h
  split at h
  · simp at h
  · rename_i hf
    rw [not_not] at hf
    have hz := ratFract_eq_zero hf
    have hc := Option.some.inj h
    generalize hzz : ratTrunc (q * 2 ^ maxBits) = z at hz
    have g1 : -(2 ^ 63) ≤ z := by rw [hz] at hlo; exact_mod_cast hlo
    have g2 : z < 2 ^ 63 := by rw [hz] at hhi; exact_mod_cast hhi
    have hsat : satI64 (q * 2 ^ maxBits) = Int64.ofInt z := by
      unfold satI64
      rw [if_neg (not_lt.2 hlo), if_neg (not_le.2 hhi), hzz]
    rw [hsat] at hc
    have hdvd := trailingZeros_dvd (Int64.ofInt z) (maxBits - b) (by omega) (by omega)
    rw [Int64.toInt_ofInt_of_le (by omega) (by omega)] at hdvd
    obtain ⟨w, hw⟩ := hdvd
    refine ⟨w, ?_⟩
    have e : q * 2 ^ maxBits = q * 2 ^ b * 2 ^ (maxBits - b) := by
      rw [mul_assoc, ← pow_add]; congr 2; omega
    rw [e, hw] at hz
    have hp : (2 : Rat) ^ (maxBits - b) ≠ 0 := by positivity
    have : q * 2 ^ b * 2 ^ (maxBits - b) = (w : Rat) * 2 ^ (maxBits - b) := by
      rw [hz]; push_cast; ring
    exact mul_right_cancel₀ hp this

theorem maxValue_ge {x : Flt} {xs : List Flt} {q : Rat} (h : Flt.fin q ∈ x :: xs)
    (hinf : Flt.inf false ∉ x :: xs) :
    ∃ m, maxValue (x :: xs) = .fin m ∧ q ≤ m := by
  have key : ∀ (xs : List Flt) (acc : Flt), acc ≠ .inf false → Flt.inf false ∉ xs →
      (∀ m, acc = .fin m → ∃ m', xs.foldl (fun m n =>
        if m = .nan then n else if n ≠ .nan ∧ n.gt m then n else m) acc = .fin m' ∧ m ≤ m') ∧
      (∀ q, Flt.fin q ∈ xs → ∃ m', xs.foldl (fun m n =>
        if m = .nan then n else if n ≠ .nan ∧ n.gt m then n else m) acc = .fin m' ∧ q ≤ m') := by
    intro xs
    induction xs with
    | nil =>
      intro acc _ _
      exact ⟨fun m hm => ⟨m, hm, le_refl _⟩, fun q hq => absurd hq (by simp)⟩
    | cons n ns ih =>
      intro acc ha hns
      have hn : n ≠ .inf false := fun e => hns (by simp [e])
      have hns' : Flt.inf false ∉ ns := fun e => hns (by simp [e])
      have hstep : (if acc = .nan then n else if n ≠ .nan ∧ n.gt acc then n else acc)
          ≠ .inf false := by split <;> [exact hn; (split <;> assumption)]
      obtain ⟨i1, i2⟩ := ih _ hstep hns'
      rw [List.foldl_cons]
      refine ⟨fun m hm => ?_, fun q hq => ?_⟩
      · subst hm
        rw [if_neg (by simp)] at i1 ⊢
        by_cases hc : n ≠ .nan ∧ n.gt (.fin m)
        · rw [if_pos hc] at i1 ⊢
          match n, hc with
          | .nan, hc => exact absurd rfl hc.1
          | .inf neg, hc => cases neg <;> simp_all [Flt.gt]
          | .fin n, hc =>
            have : m < n := by simpa [Flt.gt] using hc.2
            obtain ⟨m', e, h'⟩ := i1 n rfl
            exact ⟨m', e, by linarith⟩
        · rw [if_neg hc] at i1 ⊢
          exact i1 m rfl
      · rcases List.mem_cons.1 hq with hq | hq
        · subst hq
          match acc, ha with
          | .nan, _ => rw [if_pos rfl] at i1 ⊢; exact i1 q rfl
          | .inf true, _ =>
            rw [if_neg (by simp), if_pos (by simp [Flt.gt])] at i1 ⊢
            exact i1 q rfl
          | .fin a, _ =>
            rw [if_neg (by simp)] at i1 ⊢
            by_cases hc : a < q
            · rw [if_pos ⟨by simp, by simpa [Flt.gt] using hc⟩] at i1 ⊢
              exact i1 q rfl
            · rw [if_neg (by simp [Flt.gt, hc])] at i1 ⊢
              obtain ⟨m', e, h'⟩ := i1 a rfl
              exact ⟨m', e, by linarith⟩
        · exact i2 q hq
  have hx : x ≠ .inf false := fun e => hinf (by simp [e])
  have hxs : Flt.inf false ∉ xs := fun e => hinf (by simp [e])
  obtain ⟨k1, k2⟩ := key xs x hx hxs
  rcases List.mem_cons.1 h with h | h
  · exact k1 q h.symm
  · exact k2 q h

end Verif
