import Verif.Lemmas.Fixed
import Verif.Props.Fixed

/-!
What is stored for floats with a given number of bits, and what is read back.
-/
namespace Verif

/-- What is read back for a number stored with `B` fractional bits. Numbers that need no more than
`B` bits are read back as they are (`roundTo_exact`). The others are rounded to the nearest multiple
of `2^-B` if positive, and cut off to a multiple of `2^-(B+1)` if negative. -/
def roundTo (B : Nat) (q : Rat) : Rat :=
  if 0 ≤ q then (⌊q * 2 ^ B + 1 / 2⌋ : Rat) / 2 ^ B else (⌈q * 2 ^ (B + 1)⌉ : Rat) / 2 ^ (B + 1)

/-- The same for floats. -/
def Flt.rounded (B : Nat) : Flt → Flt
  | .fin q => .fin (roundTo B q)
  | x => x

/-- Floats that can be stored with `B` bits: those of the precision, of a magnitude that fits, exact
if no rounding is requested, and not among the numbers that are turned into NaN
(`C39_turned_into_nan`). -/
def Flt.Fits (p : Prec) (B : Nat) (round : Bool) : Flt → Prop
  | .nan => True
  | .inf _ => False
  | .fin q => Representable p.bits q ∧ |q| * 2 ^ B ≤ 2 ^ 60 ∧
      (round = false → ∃ z : Int, q * 2 ^ B = z) ∧ ¬ (-1 < q * 2 ^ B ∧ q * 2 ^ B ≤ -1 / 2)

/-- The integer stored for a number. -/
def fixedOf (b : Nat) (q : Rat) : Int :=
  if 0 ≤ q then 2 * ⌊q * 2 ^ b + 1 / 2⌋ + 1 else ⌈q * 2 ^ (b + 1)⌉ + 1

/-- The integer stored for a float. -/
def Flt.fixed (b : Nat) : Flt → Int
  | .fin q => fixedOf b q
  | _ => 0

/-- The number needs no more than `b` bits. -/
def ExactAt (b : Nat) (q : Rat) : Prop := ∃ z : Int, q * 2 ^ b = z

theorem ExactAt.mono {b b' : Nat} {q : Rat} (h : ExactAt b q) (hb : b ≤ b') : ExactAt b' q := by
  obtain ⟨z, hz⟩ := h
  refine ⟨z * 2 ^ (b' - b), ?_⟩
  push_cast
  rw [← hz, mul_assoc, ← pow_add]
  congr 2
  omega

theorem fixedOf_exact {b : Nat} {q : Rat} {z : Int} (h : q * 2 ^ b = z) : fixedOf b q = 2 * z + 1 := by
  unfold fixedOf
  rw [pow_succ, ← mul_assoc, h]
  split
  · rw [Int.floor_intCast_add, show ⌊(1 : Rat) / 2⌋ = 0 by norm_num]; simp
  · rw [show (z : Rat) * 2 = ((z * 2 : Int) : Rat) by push_cast; rfl, Int.ceil_intCast]; ring

theorem roundTo_fixed (b : Nat) (q : Rat) : roundTo b q = ((fixedOf b q - 1 : Int) : Rat) / 2 ^ (b + 1) := by
  unfold roundTo fixedOf
  have hp : (2 : Rat) ^ b ≠ 0 := by positivity
  split
  · push_cast
    rw [pow_succ]
    field_simp
    ring
  · push_cast
    ring

theorem roundTo_exact {b : Nat} {q : Rat} (h : ExactAt b q) : roundTo b q = q := by
  obtain ⟨z, hz⟩ := h
  rw [roundTo_fixed, fixedOf_exact hz]
  push_cast
  have hp : (2 : Rat) ^ b ≠ 0 := by positivity
  rw [add_sub_cancel_right, ← hz, pow_succ]
  field_simp

theorem fixedOf_mono {b : Nat} {q q' : Rat} (h : q ≤ q') : fixedOf b q ≤ fixedOf b q' := by
  have hp : (0 : Rat) < 2 ^ b := by positivity
  have hp' : (0 : Rat) < 2 ^ (b + 1) := by positivity
  unfold fixedOf
  split
  · rename_i h0
    rw [if_pos (le_trans h0 h)]
    have := Int.floor_le_floor (show q * 2 ^ b + 1 / 2 ≤ q' * 2 ^ b + 1 / 2 by
      linarith [mul_le_mul_of_nonneg_right h hp.le])
    omega
  · rename_i h0
    split
    · rename_i h1
      have a1 : ⌈q * 2 ^ (b + 1)⌉ ≤ 0 := Int.ceil_le.2 (by
        push_cast; exact mul_nonpos_of_nonpos_of_nonneg (not_le.1 h0).le hp'.le)
      have a2 : 0 ≤ ⌊q' * 2 ^ b + 1 / 2⌋ := Int.floor_nonneg.2 (by
        have := mul_nonneg h1 hp.le; linarith)
      omega
    · have := Int.ceil_le_ceil (mul_le_mul_of_nonneg_right h hp'.le)
      omega

theorem fixedOf_ne_zero {b : Nat} {q : Rat} (h : ¬ (-1 < q * 2 ^ b ∧ q * 2 ^ b ≤ -1 / 2)) :
    fixedOf b q ≠ 0 := by
  unfold fixedOf
  split
  · omega
  · intro hc
    apply h
    have h1 : ⌈q * 2 ^ (b + 1)⌉ = -1 := by omega
    rw [Int.ceil_eq_iff, pow_succ, ← mul_assoc] at h1
    push_cast at h1
    constructor <;> linarith [h1.1, h1.2]

theorem fixedOf_bound {b : Nat} {q : Rat} (h : |q| * 2 ^ b ≤ 2 ^ 60) :
    -(2 ^ 61) ≤ fixedOf b q ∧ fixedOf b q ≤ 2 ^ 61 + 1 := by
  have hp : (0 : Rat) < 2 ^ b := by positivity
  have h1 : |q * 2 ^ b| ≤ 2 ^ 60 := by rwa [abs_mul, abs_of_pos hp]
  rw [abs_le] at h1
  unfold fixedOf
  split
  · rename_i h0
    have a1 : 0 ≤ ⌊q * 2 ^ b + 1 / 2⌋ := Int.floor_nonneg.2 (by
      have := mul_nonneg h0 hp.le; linarith)
    have a2 : ⌊q * 2 ^ b + 1 / 2⌋ < 2 ^ 60 + 1 := Int.floor_lt.2 (by
      push_cast; linarith [h1.2])
    omega
  · have a1 : (-(2 ^ 61) : Int) ≤ ⌈q * 2 ^ (b + 1)⌉ := Int.le_ceil_iff.2 (by
      rw [pow_succ (2 : Rat) b, ← mul_assoc]; push_cast; linarith [h1.1])
    have a2 : ⌈q * 2 ^ (b + 1)⌉ ≤ 2 ^ 61 := Int.ceil_le.2 (by
      rw [pow_succ (2 : Rat) b, ← mul_assoc]; push_cast; linarith [h1.2])
    omega

/-- What is stored. -/
theorem toFixed_fixedOf {b : Nat} {q : Rat} {round : Bool} (hb : b ≤ 60) (h : |q| * 2 ^ b ≤ 2 ^ 60)
    (hr : round = false → ExactAt b q) :
    toFixed (.fin q) b round = some (Int64.ofInt (fixedOf b q)) := by
  have hp : (0 : Rat) < 2 ^ b := by positivity
  have h1 : |q * 2 ^ b| ≤ 2 ^ 60 := by rwa [abs_mul, abs_of_pos hp]
  rw [abs_le] at h1
  have hone : ∀ z : Int, Int64.ofInt z + 1 = Int64.ofInt (z + 1) := by
    intro z; rw [Int64.ofInt_add]; rfl
  rw [toFixed_fin q (by omega)]
  by_cases hf : 0 < ratFract (q * 2 ^ b)
  · rw [if_pos hf]
    obtain ⟨f1, f2⟩ := (ratFract_pos_iff _).1 hf
    have hq : 0 ≤ q := by
      by_contra hn
      linarith [mul_neg_of_neg_of_pos (not_le.1 hn) hp]
    cases round with
    | false =>
      obtain ⟨z, hz⟩ := hr rfl
      rw [hz, ratTrunc_int] at f2
      exact absurd rfl f2
    | true =>
      have a1 : ratRound (q * 2 ^ b) = ⌊q * 2 ^ b + 1 / 2⌋ := by
        unfold ratRound; rw [if_pos f1.le]
      rw [if_pos rfl, a1, if_pos, hone]
      · unfold fixedOf
        rw [if_pos hq, mul_comm]
      · have a1 : 0 ≤ ⌊q * 2 ^ b + 1 / 2⌋ := Int.floor_nonneg.2 (by linarith)
        have a2 : ⌊q * 2 ^ b + 1 / 2⌋ < 2 ^ 60 + 1 := Int.floor_lt.2 (by push_cast; linarith [h1.2])
        have a1' : (0 : Rat) ≤ ((⌊q * 2 ^ b + 1 / 2⌋ : Int) : Rat) := by exact_mod_cast a1
        have a2' : ((⌊q * 2 ^ b + 1 / 2⌋ : Int) : Rat) < 2 ^ 60 + 1 := by exact_mod_cast a2
        constructor <;> linarith
  · rw [if_neg hf, if_pos (by constructor <;> linarith [h1.1, h1.2]), hone]
    congr 2
    by_cases hq : 0 ≤ q
    · have : ∃ z : Int, q * 2 ^ b = z := by
        refine ⟨ratTrunc (q * 2 ^ b), ?_⟩
        rcases eq_or_lt_of_le (mul_nonneg hq hp.le) with h0 | h0
        · rw [← h0]
          have := ratTrunc_int 0
          rw [Int.cast_zero] at this
          rw [this, Int.cast_zero]
        · by_contra hne
          exact hf ((ratFract_pos_iff _).2 ⟨h0, hne⟩)
      obtain ⟨z, hz⟩ := this
      rw [fixedOf_exact hz, hz, show (z : Rat) * 2 = ((z * 2 : Int) : Rat) by push_cast; rfl, ratTrunc_int]
      ring
    · unfold fixedOf ratTrunc
      rw [if_neg hq, if_neg, pow_succ, ← mul_assoc]
      rw [not_le] at hq ⊢
      linarith [mul_neg_of_neg_of_pos hq hp]

/-- What is read back. -/
theorem fromFixed_fixedOf {p : Prec} {b : Nat} {q : Rat} (hb : b ≤ 60) (hq : Representable p.bits q)
    (h : |q| * 2 ^ b ≤ 2 ^ 60) (h0 : fixedOf b q ≠ 0) :
    fromFixed p (Int64.ofInt (fixedOf b q)) b = .fin (roundTo b q) := by
  have hp : 1 ≤ p.bits := by cases p <;> decide
  have hbd := fixedOf_bound h
  have hrep : Representable p.bits ((fixedOf b q - 1 : Int) : Rat) := by
    unfold fixedOf
    split
    · rename_i h0
      have := (hq.mul_pow b).round hp
      unfold ratRound at this
      rw [if_pos (mul_nonneg h0 (by positivity))] at this
      have := this.mul_pow 1
      push_cast at this ⊢
      rw [add_sub_cancel_right, mul_comm]
      simpa using this
    · rename_i h0
      have := (hq.mul_pow b).trunc
      rw [mul_assoc, ← pow_succ] at this
      unfold ratTrunc at this
      rw [if_neg] at this
      · push_cast at this ⊢
        rwa [add_sub_cancel_right]
      · rw [not_le] at h0 ⊢
        exact mul_neg_of_neg_of_pos h0 (by positivity)
  have := fromFixed_succ (p := p) (z := fixedOf b q - 1) (b := b) (by omega) (by omega) (by omega)
    (by omega) hrep
  rw [roundTo_fixed, ← this]
  congr 1
  rw [show (1 : Int64) = Int64.ofInt 1 by rfl, ← Int64.ofInt_add]
  congr 1
  omega

/-! ### With a number of bits that is the requested one or exact -/

/-- The number of bits in use: the requested one, or one that is enough for the value. -/
def Flt.BitsOk (B b : Nat) (x : Flt) : Prop := b = B ∨ ∀ q, x = .fin q → ExactAt b q

section
variable {p : Prec} {B b : Nat} {round : Bool}

theorem abs_mul_le {q : Rat} (hb : b ≤ B) (h : |q| * 2 ^ B ≤ 2 ^ 60) : |q| * 2 ^ b ≤ 2 ^ 60 := by
  have : (2 : Rat) ^ b ≤ 2 ^ B := pow_le_pow_right₀ (by norm_num) hb
  exact le_trans (mul_le_mul_of_nonneg_left this (abs_nonneg q)) h

theorem Flt.Fits.ne_zero {q : Rat} (h : (Flt.fin q).Fits p B round)
    (hx : (Flt.fin q).BitsOk B b) : fixedOf b q ≠ 0 := by
  obtain ⟨h1, h2, h3, h4⟩ := h
  rcases hx with rfl | hx
  · exact fixedOf_ne_zero h4
  · obtain ⟨z, hz⟩ := hx q rfl
    rw [fixedOf_exact hz]
    omega

theorem Flt.Fits.toFixed {x : Flt} (h : x.Fits p B round) (hB : B ≤ 60) (hb : b ≤ B)
    (hx : x.BitsOk B b) : Verif.toFixed x b round = some (Int64.ofInt (x.fixed b)) := by
  cases x with
  | nan => rfl
  | inf s => exact h.elim
  | fin q =>
    obtain ⟨h1, h2, h3, h4⟩ := h
    refine toFixed_fixedOf (by omega) (abs_mul_le hb h2) fun hr => ?_
    rcases hx with rfl | hx
    · exact h3 hr
    · exact hx q rfl

theorem Flt.Fits.fromFixed {x : Flt} (h : x.Fits p B round) (hB : B ≤ 60) (hb : b ≤ B)
    (hx : x.BitsOk B b) : Verif.fromFixed p (Int64.ofInt (x.fixed b)) b = x.rounded B := by
  cases x with
  | nan => rfl
  | inf s => exact h.elim
  | fin q =>
    have h0 := h.ne_zero hx
    obtain ⟨h1, h2, h3, h4⟩ := h
    have := fromFixed_fixedOf (by omega) h1 (abs_mul_le hb h2) h0
    refine this.trans ?_
    rcases hx with rfl | hx
    · rfl
    · have e := hx q rfl
      rw [roundTo_exact e]
      show _ = Flt.fin _
      rw [roundTo_exact (e.mono hb)]

theorem Flt.Fits.bound {x : Flt} (h : x.Fits p B round) (hb : b ≤ B) :
    -(2 ^ 61) ≤ x.fixed b ∧ x.fixed b ≤ 2 ^ 61 + 1 := by
  cases x with
  | nan => exact ⟨by show _ ≤ (0 : Int); norm_num, by show (0 : Int) ≤ _; norm_num⟩
  | inf s => exact h.elim
  | fin q => exact fixedOf_bound (abs_mul_le hb h.2.1)

theorem Flt.Fits.fixed_zero {x : Flt} (h : x.Fits p B round) (hx : x.BitsOk B b) :
    x.fixed b = 0 ↔ x = .nan := by
  cases x with
  | nan => exact ⟨fun _ => rfl, fun _ => rfl⟩
  | inf s => exact h.elim
  | fin q => exact ⟨fun e => absurd e (h.ne_zero hx), fun e => nomatch e⟩

/-- Equal integers are read back as equal floats, and the other way round. -/
theorem Flt.Fits.fixed_inj {x y : Flt} (h : x.Fits p B round) (h' : y.Fits p B round) (hB : B ≤ 60)
    (hb : b ≤ B) (hx : x.BitsOk B b) (hy : y.BitsOk B b) :
    x.fixed b = y.fixed b ↔ x.rounded B = y.rounded B := by
  constructor
  · intro e
    rw [← h.fromFixed hB hb hx, ← h'.fromFixed hB hb hy, e]
  · intro e
    cases x with
    | inf s => exact h.elim
    | nan =>
      cases y with
      | nan => rfl
      | inf s => exact h'.elim
      | fin q => cases e
    | fin q =>
      cases y with
      | nan => cases e
      | inf s => exact h'.elim
      | fin q' =>
        have e : roundTo B q = roundTo B q' := by injection e
        show fixedOf b q = fixedOf b q'
        have key : fixedOf B q = fixedOf B q' := by
          rw [roundTo_fixed, roundTo_fixed] at e
          have hp : (2 : Rat) ^ (B + 1) ≠ 0 := by positivity
          rw [div_left_inj' hp] at e
          have : fixedOf B q - 1 = fixedOf B q' - 1 := by exact_mod_cast e
          omega
        rcases hx with rfl | hx
        · exact key
        · rcases hy with rfl | hy
          · exact key
          · rw [roundTo_exact ((hx q rfl).mono hb), roundTo_exact ((hy q' rfl).mono hb)] at e
            rw [e]

/-- Reading back and storing again changes nothing. -/
theorem roundTo_idem (B : Nat) (q : Rat) : roundTo B (roundTo B q) = roundTo B q := by
  have hp : (0 : Rat) < 2 ^ B := by positivity
  have hp' : (0 : Rat) < 2 ^ (B + 1) := by positivity
  by_cases h : 0 ≤ q
  · apply roundTo_exact
    refine ⟨⌊q * 2 ^ B + 1 / 2⌋, ?_⟩
    unfold roundTo
    rw [if_pos h]
    field_simp
  · have h1 : roundTo B q = (⌈q * 2 ^ (B + 1)⌉ : Rat) / 2 ^ (B + 1) := by
      unfold roundTo; rw [if_neg h]
    generalize ⌈q * 2 ^ (B + 1)⌉ = z at h1
    have hz : z ≤ 0 ∨ 0 ≤ z := le_total _ _
    by_cases h2 : 0 ≤ roundTo B q
    · have hz0 : (0 : Rat) ≤ z := by
        rw [h1] at h2
        by_contra hn
        linarith [div_neg_of_neg_of_pos (not_le.1 hn) hp']
      have hz1 : roundTo B q ≤ 0 := by
        unfold roundTo
        rw [if_neg h]
        apply div_nonpos_of_nonpos_of_nonneg _ hp'.le
        have : ⌈q * 2 ^ (B + 1)⌉ ≤ 0 := Int.ceil_le.2 (by
          push_cast
          exact (mul_neg_of_neg_of_pos (not_le.1 h) hp').le)
        exact_mod_cast this
      have : roundTo B q = 0 := le_antisymm hz1 h2
      rw [this]
      exact roundTo_exact ⟨0, by simp⟩
    · rw [roundTo, if_neg h2, h1, div_mul_cancel₀ _ hp'.ne', Int.ceil_intCast]

theorem Flt.rounded_idem (B : Nat) (x : Flt) : (x.rounded B).rounded B = x.rounded B := by
  cases x with
  | nan => rfl
  | inf s => rfl
  | fin q => exact congrArg Flt.fin (roundTo_idem B q)

end

end Verif
