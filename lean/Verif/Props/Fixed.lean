import Verif.Lemmas.Fixed
import Verif.Lemmas.Nearest

/-!
Properties C39-C41: fixed point representation of floats.
-/
namespace Verif

/-- C39, for values that need at most `b` fractional bits, both signs, `b` up to 61 (the largest
count the library ever suggests): the value survives, and is not stored as NaN. Missing for the full
claim: `b = 62` and 63, and other values being turned into NaN, for both of which it is false. -/
theorem C39_exact_partial (p : Prec) (q : Rat) (b : Nat) (round : Bool) (hb : b ≤ 61)
    (hq : Representable p.bits q) (hint : ∃ z : Int, q * 2 ^ b = z)
    (hlo : -(2 ^ 62) ≤ q * 2 ^ b) (hhi : q * 2 ^ b < 2 ^ 62) :
    ∃ n, toFixed (.fin q) b round = some n ∧ n ≠ 0 ∧ fromFixed p n b = .fin q := by
  obtain ⟨z, hz⟩ := hint
  have hz2 : q * 2 ^ b * 2 = ((z * 2 : Int) : Rat) := by rw [hz]; push_cast; rfl
  have h1 : -(2 ^ 62) ≤ z := by rw [hz] at hlo; exact_mod_cast hlo
  have h2 : z < 2 ^ 62 := by rw [hz] at hhi; exact_mod_cast hhi
  rw [toFixed_fin q (by omega), hz, ratFract_int, if_neg (lt_irrefl _), ← hz, if_pos, hz2,
    ratTrunc_int]
  · refine ⟨_, rfl, ?_, ?_⟩
    · intro e
      have e' : Int64.ofInt (z * 2) = -1 := by grind
      have := Int64.toInt_ofInt_of_le (n := z * 2) (by omega) (by omega)
      rw [e'] at this
      have h3 : (-1 : Int64).toInt = -1 := by decide
      omega
    · rw [fromFixed_succ hb (by omega) (by omega) (by omega)]
      · congr 1
        rw [← hz2, pow_succ]
        field_simp
      · rw [← hz2]
        have := (hq.mul_pow b).mul_pow 1
        simpa using this
  · constructor
    · have : (-(2 ^ 62) : Rat) * 2 ≤ q * 2 ^ b * 2 := by linarith
      norm_num at this ⊢
      linarith
    · have : q * 2 ^ b * 2 < 2 ^ 62 * 2 := by linarith
      norm_num at this ⊢
      linarith

/-- C39: NaN survives. -/
theorem C39_nan (p : Prec) (b : Nat) (round : Bool) :
    toFixed .nan b round = some 0 ∧ fromFixed p 0 b = .nan := ⟨rfl, rfl⟩

/-- C39 is false of the code: exactly the numbers `q` with `-1 < q * 2^b ≤ -1/2` are stored as NaN,
with or without rounding, without a panic. -/
theorem C39_turned_into_nan (q : Rat) (b : Nat) (round : Bool) (hb : b ≤ 62) :
    toFixed (.fin q) b round = some 0 ↔ -1 < q * 2 ^ b ∧ q * 2 ^ b ≤ -1 / 2 := by
  rw [toFixed_fin q hb]
  generalize q * 2 ^ b = s
  by_cases hf : 0 < ratFract s
  · rw [if_pos hf]
    have hs := ((ratFract_pos_iff s).1 hf).1
    constructor
    · intro h
      cases round with
      | false => simp at h
      | true =>
        simp only [if_true] at h
        split at h
        · rename_i hr
          have h1 := Option.some.inj h
          have h2 : Int64.ofInt (ratRound s * 2) = -1 := by grind
          have h3 : (Int64.ofInt (ratRound s * 2)).toInt = ratRound s * 2 :=
            Int64.toInt_ofInt_of_le (by have := hr.1; push_cast; exact_mod_cast this)
              (by have := hr.2; push_cast; exact_mod_cast this)
          rw [h2] at h3
          have h4 : (-1 : Int64).toInt = -1 := by decide
          omega
        · simp at h
    · intro h; linarith [h.2]
  · rw [if_neg hf]
    constructor
    · intro h
      split at h
      · rename_i hr
        have h1 := Option.some.inj h
        have h2 : Int64.ofInt (ratTrunc (s * 2)) = -1 := by grind
        have hb1 := ratTrunc_abs_le (s * 2)
        have hn := ratTrunc_near (s * 2)
        rw [abs_lt] at hn
        have g1 : -(2 ^ 63) ≤ ratTrunc (s * 2) := by
          have h6 : (-(2 ^ 63) - 1 : Rat) < (ratTrunc (s * 2) : Rat) := by linarith [hr.1, hn.1]
          have h7 : -(2 ^ 63) - 1 < ratTrunc (s * 2) := by exact_mod_cast h6
          omega
        have g2 : ratTrunc (s * 2) < 2 ^ 63 := by
          have h5 : (ratTrunc (s * 2) : Rat) < 2 ^ 63 := by
            by_cases hs : 0 ≤ s * 2
            · unfold ratTrunc; rw [if_pos hs]; linarith [Int.floor_le (s * 2), hr.2]
            · have h8 : ratTrunc (s * 2) ≤ 0 := by
                unfold ratTrunc; rw [if_neg hs]
                exact Int.ceil_le.2 (by push_cast; linarith)
              have h9 : (ratTrunc (s * 2) : Rat) ≤ 0 := by exact_mod_cast h8
              have : (0 : Rat) < 2 ^ 63 := by norm_num
              linarith
          exact_mod_cast h5
        have h3 := Int64.toInt_ofInt_of_le (n := ratTrunc (s * 2)) (by omega) (by omega)
        rw [h2] at h3
        have h4 : (-1 : Int64).toInt = -1 := by decide
        have h5 : ratTrunc (s * 2) = -1 := by omega
        have h6 : s < 0 := by
          by_contra hc
          unfold ratTrunc at h5
          rw [if_pos (by linarith)] at h5
          have := Int.floor_nonneg.2 (show (0 : Rat) ≤ s * 2 by linarith)
          omega
        unfold ratTrunc at h5
        rw [if_neg (by linarith), Int.ceil_eq_iff] at h5
        push_cast at h5
        constructor <;> linarith [h5.1, h5.2]
      · simp at h
    · rintro ⟨h1, h2⟩
      have : ratTrunc (s * 2) = -1 := by
        unfold ratTrunc
        rw [if_neg (by linarith), Int.ceil_eq_iff]
        push_cast
        constructor <;> linarith
      rw [if_pos (by constructor <;> norm_num <;> linarith), this]
      rfl

/-- For instance -0.5 stored with no fractional bits, and -0.75 rounded to none. -/
theorem C39_minus_half (p : Prec) :
    toFixed (.fin (-1 / 2)) 0 false = some 0 ∧ toFixed (.fin (-3 / 4)) 0 true = some 0 ∧
      fromFixed p 0 0 = .nan :=
  ⟨(C39_turned_into_nan _ 0 _ (by omega)).2 (by norm_num),
    (C39_turned_into_nan _ 0 _ (by omega)).2 (by norm_num), rfl⟩

/-- With 62 bits the sign is lost, with 63 bits every positive number is read as a negative one. -/
theorem C39_62_bits_wrong :
    (∃ n, toFixed (.fin (1 / 4)) 62 false = some n ∧ fromFixed .double n 62 = .fin (-1 / 4)) ∧
      (∃ n, toFixed (.fin (1 / 4)) 63 false = some n ∧
        fromFixed .double n 63 = .fin (-4611686018427387904)) := by
  refine ⟨⟨2305843009213693953, ?_, ?_⟩, ⟨-4611686018427387903, ?_, ?_⟩⟩ <;> decide +kernel

/-- C40: with rounding requested, whatever is stored as a number is within half a unit of `2^-b`,
both signs. Missing for the full claim: the numbers of `C39_turned_into_nan`. -/
theorem C40_rounding_partial (p : Prec) (q : Rat) (b : Nat) (round : Bool) (n : Int64)
    (hb : b ≤ 61) (hq : Representable p.bits q) (h : toFixed (.fin q) b round = some n)
    (h0 : n ≠ 0) :
    ∃ q', fromFixed p n b = .fin q' ∧ |q' - q| ≤ 1 / 2 * (1 / 2 ^ b) := by
  have hpos : (0 : Rat) < 2 ^ b := by positivity
  have hp : 1 ≤ p.bits := by cases p <;> decide
  have hs : Representable p.bits (q * 2 ^ b) := hq.mul_pow b
  have key : ∀ z : Int, z ≠ -1 → -(2 ^ 63) ≤ z → z < 2 ^ 63 → Representable p.bits (z : Rat) →
      |(z : Rat) / 2 - q * 2 ^ b| ≤ 1 / 2 →
      ∃ q', fromFixed p (Int64.ofInt z + 1) b = .fin q' ∧ |q' - q| ≤ 1 / 2 * (1 / 2 ^ b) := by
    intro z a1 a2 a3 a4 a5
    refine ⟨_, fromFixed_succ hb a1 a2 a3 a4, ?_⟩
    have e : (z : Rat) / 2 ^ (b + 1) - q = ((z : Rat) / 2 - q * 2 ^ b) / 2 ^ b := by
      rw [pow_succ]; field_simp
    rw [e, abs_div, abs_of_pos hpos, div_eq_mul_one_div]
    exact mul_le_mul_of_nonneg_right a5 (by positivity)
  rw [toFixed_fin q (by omega)] at h
  generalize q * 2 ^ b = s at *
  split at h
  · split at h
    · split at h
      · rename_i hr
        have hn := Option.some.inj h
        rw [← hn]
        refine key _ (by omega) (by exact_mod_cast hr.1) (by exact_mod_cast hr.2) ?_ ?_
        · have := (hs.round hp).mul_pow 1
          push_cast
          simpa using this
        · push_cast
          rw [mul_div_assoc, div_self (by norm_num), mul_one]
          exact ratRound_near s
      · simp at h
    · simp at h
  · split at h
    · rename_i hr
      have hn := Option.some.inj h
      have hnear := ratTrunc_near (s * 2)
      have hnear' := hnear
      rw [abs_lt] at hnear'
      have g1 : -(2 ^ 63) ≤ ratTrunc (s * 2) := by
        have h6 : (-(2 ^ 63) - 1 : Rat) < (ratTrunc (s * 2) : Rat) := by linarith [hr.1, hnear'.1]
        have h7 : -(2 ^ 63) - 1 < ratTrunc (s * 2) := by exact_mod_cast h6
        omega
      have g2 : ratTrunc (s * 2) < 2 ^ 63 := by
        have h5 : (ratTrunc (s * 2) : Rat) < 2 ^ 63 := by
          by_cases hs : 0 ≤ s * 2
          · unfold ratTrunc; rw [if_pos hs]; linarith [Int.floor_le (s * 2), hr.2]
          · have h8 : ratTrunc (s * 2) ≤ 0 := by
              unfold ratTrunc; rw [if_neg hs]
              exact Int.ceil_le.2 (by push_cast; linarith)
            have h9 : (ratTrunc (s * 2) : Rat) ≤ 0 := by exact_mod_cast h8
            have : (0 : Rat) < 2 ^ 63 := by norm_num
            linarith
        exact_mod_cast h5
      rw [← hn]
      refine key _ ?_ g1 g2 hs.trunc ?_
      · intro e
        rw [e] at hn
        exact h0 (hn.symm.trans (by decide))
      · have : (ratTrunc (s * 2) : Rat) / 2 - s = ((ratTrunc (s * 2) : Rat) - s * 2) / 2 := by ring
        rw [this, abs_div, abs_of_pos (by norm_num : (0:Rat) < 2)]
        linarith
    · simp at h

/-- C40: what is decoded from any stored integer is the float nearest to the number it stands for; if
there are two, the one with an even significand. (For integers that are stored for floats of the same
precision it is that number, `C39_exact_partial`.) -/
theorem C40_decoded_nearest (p : Prec) (b : Nat) (hb : b ≤ 61) (n : Int64) (hn : n ≠ 0) (v : Rat)
    (hv : v = ((n - 1).toInt : Rat) / 2 ^ (b + 1)) :
    ∃ q, fromFixed p n b = .fin q ∧ Representable p.bits q ∧ ∀ x, Representable p.bits x →
      |q - v| ≤ |x - v| ∧
      (|x - v| = |q - v| → x ≠ q → ∃ (m : Int) (s : Nat), 2 ^ (p.bits - 1) ≤ m.natAbs ∧
        m.natAbs ≤ 2 ^ p.bits ∧ 2 ∣ m ∧ q = m * 2 ^ s / 2 ^ (b + 1)) := by
  have hpos : (0 : Rat) < 2 ^ (b + 1) := by positivity
  obtain ⟨h1, h2⟩ := roundToPrec_nearest p.bits (by cases p <;> decide) (n - 1).toInt
  refine ⟨roundToPrec p.bits (n - 1).toInt / 2 ^ (b + 1), ?_, ?_, fun x hx => ?_⟩
  · unfold fromFixed
    rw [if_neg hn, shl1_toInt (by omega)]
    push_cast
    rfl
  · obtain ⟨m, e, hm, h⟩ := h1
    refine ⟨m, e - (b + 1 : Nat), hm, ?_⟩
    rw [h, zpow_sub₀ (by norm_num), zpow_natCast, mul_div_assoc]
  · obtain ⟨h3, h4⟩ := h2 _ (hx.mul_pow (b + 1))
    have e1 : ∀ y : Rat, |y / 2 ^ (b + 1) - v| = |y - (n - 1).toInt| / 2 ^ (b + 1) := fun y => by
      rw [hv, ← sub_div, abs_div, abs_of_pos hpos]
    have e2 : |x - v| = |x * 2 ^ (b + 1) - (n - 1).toInt| / 2 ^ (b + 1) := by
      rw [← e1, mul_div_assoc, div_self hpos.ne', mul_one]
    rw [e1, e2]
    refine ⟨div_le_div_of_nonneg_right h3 hpos.le, fun h5 h6 => ?_⟩
    obtain ⟨m, s, ⟨c1, c2, -⟩, c3, c4⟩ := h4 ((div_left_inj' hpos.ne').1 h5) (fun h => h6 (by
      rw [← h, mul_div_assoc, div_self hpos.ne', mul_one]))
    exact ⟨m, s, c1, c2, c3, by rw [c4]⟩

/-- Halfway between two floats of 24 bits, and a little more. -/
example : fromFixed .single (2 * 2 ^ 24 + 2 + 1) 0 = .fin (2 ^ 24) ∧
    fromFixed .single (2 * 2 ^ 24 + 3 + 1) 0 = .fin (2 ^ 24 + 2) := by decide +kernel

/-- C40: without rounding, a positive value that needs more than `b` bits is rejected. Missing for
the full claim: negative values, for which it is false. -/
theorem C40_inexact_rejected_partial (q : Rat) (b : Nat) (hb : b ≤ 62) (h0 : 0 < q)
    (h : ¬ ∃ z : Int, q * 2 ^ b = z) : toFixed (.fin q) b false = none := by
  rw [toFixed_fin q hb, if_pos]
  · simp
  · rw [ratFract_pos_iff]
    exact ⟨by positivity, fun e => h ⟨_, e⟩⟩

/-- C40 is false of the code: every negative value that needs more than `b + 1` bits is stored
without rounding requested (if its magnitude fits), and reads back as another number or NaN. -/
theorem C40_negative_accepted (p : Prec) (q : Rat) (b : Nat) (hb : b ≤ 61) (h0 : q < 0)
    (hlo : -(2 ^ 62) ≤ q * 2 ^ b) (h : ¬ ∃ z : Int, q * 2 ^ (b + 1) = z) :
    ∃ n, toFixed (.fin q) b false = some n ∧ fromFixed p n b ≠ .fin q := by
  have hs : q * 2 ^ b < 0 := mul_neg_of_neg_of_pos h0 (by positivity)
  have hf : ¬ 0 < ratFract (q * 2 ^ b) := by
    rw [ratFract_pos_iff]; intro hc; linarith [hc.1]
  have e : q * 2 ^ b * 2 = q * 2 ^ (b + 1) := by rw [pow_succ]; ring
  rw [toFixed_fin q (by omega), if_neg hf, if_pos]
  · refine ⟨_, rfl, ?_⟩
    intro hq
    unfold fromFixed at hq
    split at hq
    · simp at hq
    · rename_i hne
      rw [shl1_toInt (by omega)] at hq
      have hq := Flt.fin.inj hq
      apply h
      obtain ⟨z, hz⟩ := roundToPrec_isInt p.bits
        (Int64.ofInt (ratTrunc (q * 2 ^ b * 2)) + 1 - 1).toInt
      rw [hz] at hq
      refine ⟨z, ?_⟩
      rw [← hq]
      push_cast
      field_simp
  · constructor
    · have : (-(2 ^ 62) : Rat) * 2 ≤ q * 2 ^ b * 2 := by linarith
      norm_num at this ⊢
      linarith
    · have : (0 : Rat) < 2 ^ 63 := by norm_num
      linarith

/-- The float computation `log2(q).floor()` does not underestimate. -/
def LogOk (lg : Rat → Int) : Prop :=
  ∀ q : Rat, 0 < q → (lg q).toNat < 1024 → q < 2 ^ ((lg q).toNat + 1)

theorem wholeBits_fin (lg : Rat → Int) (q : Rat) :
    wholeBits lg (.fin q) = if 0 < q then some (1 + (lg q).toNat) else some 1 := rfl

/-- C41, for data in which no value is more negative than the largest value is positive: a bit count
called precise is enough for every value, the values fit into 62 bits, and those of the float's
precision survive storage with it. Missing for the full claim: data with larger negative values, for
which it is false. -/
theorem C41_suggestion_partial (lg : Rat → Int) (hlg : LogOk lg) (data : List Flt) (b : Nat)
    (hfin : ∀ s, Flt.inf s ∉ data) (h : suggestFraction lg data = some (.precise b))
    (hneg : ∀ q, Flt.fin q ∈ data → ∃ M, Flt.fin M ∈ data ∧ -M ≤ q) :
    b ≤ 61 ∧ ∀ q, Flt.fin q ∈ data →
      (∃ z : Int, q * 2 ^ b = z) ∧ -(2 ^ 62) ≤ q * 2 ^ b ∧ q * 2 ^ b < 2 ^ 62 ∧
      (∀ p : Prec, Representable p.bits q → ∀ round, ∃ n, toFixed (.fin q) b round = some n ∧
        n ≠ 0 ∧ fromFixed p n b = .fin q) := by
  match data, h with
  | x :: xs, h =>
  unfold suggestFraction at h
  simp only at h
  split at h
  · rename_i hm
    obtain rfl := Fraction.precise.inj (Option.some.inj h)
    refine ⟨by omega, fun q hq => ?_⟩
    obtain ⟨m, e, -⟩ := maxValue_ge hq (hfin false)
    rw [hm] at e
    exact absurd e (by simp)
  · rename_i hnan
    split at h
    · rename_i hw
      have hloop := Option.some.inj h
      obtain ⟨-, hall⟩ := fractionLoop_precise hloop
      have hle := fractionLoop_le (Nat.zero_le _) hloop
      have hwhole : 1 ≤ (wholeBits lg (maxValue (x :: xs))).getD 0 ∨ Flt.inf false ∈ x :: xs := by
        by_cases hi : Flt.inf false ∈ x :: xs
        · exact Or.inr hi
        left
        have : maxValue (x :: xs) ≠ .inf false := by
          intro e
          have aux : ∀ (xs : List Flt) (acc : Flt), acc ≠ .inf false → Flt.inf false ∉ xs →
              xs.foldl (fun m n => if m = .nan then n else if n ≠ .nan ∧ n.gt m then n else m) acc
                ≠ .inf false := by
            intro xs
            induction xs with
            | nil => intro acc ha _; exact ha
            | cons n ns ih =>
              intro acc ha hn
              rw [List.foldl_cons]
              refine ih _ ?_ (fun e => hn (by simp [e]))
              split
              · exact fun e => hn (by simp [e])
              · split
                · exact fun e => hn (by simp [e])
                · exact ha
          exact aux xs x (fun e => hi (by simp [e])) (fun e => hi (by simp [e])) e
        match hmv : maxValue (x :: xs), this with
        | .nan, _ => simp [wholeBits]
        | .inf true, _ => simp [wholeBits]
        | .fin q, _ =>
          rw [wholeBits_fin]
          split <;> simp
      rcases hwhole with hwhole | hi
      swap
      · exact absurd hi (hfin false)
      have hb : b ≤ 61 := by omega
      refine ⟨hb, fun q hq => ?_⟩
      -- the range of the scaled value
      have hbound : ∀ M, Flt.fin M ∈ x :: xs →
          M < 2 ^ ((wholeBits lg (maxValue (x :: xs))).getD 0) := by
        intro M hM
        obtain ⟨m, e, hle⟩ := maxValue_ge hM (hfin false)
        rw [e, wholeBits_fin] at hw ⊢
        by_cases h0 : 0 < m
        · rw [if_pos h0] at hw ⊢
          simp only [Option.getD_some] at hw
          have := hlg m h0 (by omega)
          simp only [Option.getD_some]
          rw [add_comm]
          linarith
        · rw [if_neg h0]
          simp only [Option.getD_some]
          norm_num
          linarith
      obtain ⟨M, hM, hMq⟩ := hneg q hq
      have hq1 := hbound q hq
      have hq2 := hbound M hM
      generalize (wholeBits lg (maxValue (x :: xs))).getD 0 = w at *
      have hsplit : (2 : Rat) ^ w * 2 ^ (62 - w) = 2 ^ 62 := by
        rw [← pow_add]; congr 1; omega
      have hp : (0 : Rat) < 2 ^ (62 - w) := by positivity
      have b1 : q * 2 ^ (62 - w) < 2 ^ 62 := by
        rw [← hsplit]; exact mul_lt_mul_of_pos_right hq1 hp
      have b2 : -(2 ^ 62) ≤ q * 2 ^ (62 - w) := by
        rw [← hsplit, ← neg_mul]
        exact (mul_le_mul_of_nonneg_right (by linarith) hp.le)
      obtain ⟨c, hc, hcb⟩ := hall _ hq
      have hint := fractionOf_exact (by omega) hcb hle
        (by have : (-(2 ^ 63) : Rat) ≤ -(2 ^ 62) := by norm_num
            linarith)
        (by have : (2 ^ 62 : Rat) < 2 ^ 63 := by norm_num
            linarith) hc
      have hpb : (2 : Rat) ^ b ≤ 2 ^ (62 - w) := pow_le_pow_right₀ (by norm_num) hle
      have hpb0 : (0 : Rat) < 2 ^ b := by positivity
      have r1 : q * 2 ^ b < 2 ^ 62 := by
        by_cases h0 : 0 ≤ q
        · exact lt_of_le_of_lt (mul_le_mul_of_nonneg_left hpb h0) b1
        · have : q * 2 ^ b < 0 := mul_neg_of_neg_of_pos (not_le.1 h0) hpb0
          have : (0 : Rat) < 2 ^ 62 := by norm_num
          linarith
      have r2 : -(2 ^ 62) ≤ q * 2 ^ b := by
        by_cases h0 : 0 ≤ q
        · have : 0 ≤ q * 2 ^ b := mul_nonneg h0 hpb0.le
          have : (0 : Rat) < 2 ^ 62 := by norm_num
          linarith
        · exact le_trans b2 (mul_le_mul_of_nonpos_left hpb (not_le.1 h0).le)
      exact ⟨hint, r2, r1, fun p hr round => C39_exact_partial p q b round hb hr hint r2 r1⟩
    · simp at h

/-- C41 is false of the code: next to -1, every value below -4 makes the suggestion be "no
fractional bits, precise", whatever its fraction. -/
theorem C41_negative_wrong (lg : Rat → Int) (q : Rat) (hq : q < -4)
    (hint : ∃ z : Int, q * 2 ^ 61 = z) :
    suggestFraction lg [.fin q, .fin (-1)] = some (.precise 0) := by
  have hmax : maxValue [.fin q, .fin (-1)] = .fin (-1) := by
    simp only [maxValue, List.foldl_cons, List.foldl_nil]
    rw [if_neg (by simp), if_pos]
    exact ⟨by simp, by simp only [Flt.gt, decide_eq_true_eq]; linarith⟩
  have hw : wholeBits lg (.fin (-1)) = some 1 := by
    rw [wholeBits_fin, if_neg (by norm_num)]
  unfold suggestFraction
  simp only [hmax, hw, Option.getD_some]
  rw [if_neg (by simp), if_pos (by omega)]
  have h1 : fractionOf 61 (.fin q) = some 0 := by
    unfold fractionOf
    obtain ⟨z, hz⟩ := hint
    simp only [shl1_toInt (show 61 ≤ 62 by omega)]
    push_cast
    have hlt : q * 2 ^ 61 < -(2 ^ 63) := by
      have := mul_lt_mul_of_pos_right hq (show (0 : Rat) < 2 ^ 61 by norm_num)
      norm_num at this ⊢
      linarith
    have hsat : satI64 (q * 2 ^ 61) = Int64.minValue := by
      unfold satI64; rw [if_pos hlt]
    rw [show (2305843009213693952 : Rat) = 2 ^ 61 by norm_num, hsat, hz, ratFract_int,
      if_neg (by simp)]
    congr 1
  have h2 : fractionOf 61 (.fin (-1)) = some 0 := by decide +kernel
  simp [fractionLoop, h1, h2]

/-- For instance -5.25 next to -1: stored with no fractional bits it reads back as -5. -/
theorem C41_witness (lg : Rat → Int) :
    suggestFraction lg [.fin (-21 / 4), .fin (-1)] = some (.precise 0) ∧
      ∃ n, toFixed (.fin (-21 / 4)) 0 false = some n ∧ fromFixed .double n 0 = .fin (-5) := by
  refine ⟨C41_negative_wrong lg _ (by norm_num) ⟨-12105675798371893248, by norm_num⟩,
    -9, ?_, ?_⟩ <;> decide +kernel

/-! Examples meeting the hypotheses. -/

example : ∃ n, toFixed (.fin (-13 / 8)) 3 false = some n ∧ n ≠ 0 ∧
    fromFixed .single n 3 = .fin (-13 / 8) :=
  C39_exact_partial .single _ 3 false (by omega) ⟨-13, -3, by decide, by norm_num⟩
    ⟨-13, by norm_num⟩ (by norm_num) (by norm_num)

example : toFixed (.fin (17 / 10)) 0 true = some 5 ∧ fromFixed .double 5 0 = .fin 2 ∧
    toFixed (.fin (-17 / 10)) 0 true = some (-2) ∧
    fromFixed .double (-2) 0 = .fin (-3 / 2) := by decide +kernel

example : toFixed (.fin (1 / 3)) 20 false = none :=
  C40_inexact_rejected_partial _ _ (by omega) (by norm_num) (by
    rintro ⟨z, hz⟩
    have h : (1048576 : Rat) = (z * 3 : Int) := by push_cast; linarith
    have : (1048576 : Int) = z * 3 := by exact_mod_cast h
    omega)

/-- `log2` by repeated doubling, for the example. -/
def exampleLg (q : Rat) : Int := Nat.log2 q.floor.toNat

example : suggestFraction exampleLg [.fin (19 / 2), .nan, .fin (33 / 4), .fin (-3 / 8)] =
    some (.precise 3) := by decide +kernel

end Verif
