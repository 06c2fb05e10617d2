import Verif.Lemmas.FloatValue

/-!
The number of bits chosen for data that fit, and the extremes of floats.
-/
namespace Verif

/-- The float computation `log2(q).floor()` for floats: right, or one too large; a negative result counts
as 0. -/
def LogClose (lg : Rat → Int) : Prop :=
  ∀ q : Rat, 0 < q → q < 2 ^ 1024 → q < 2 ^ ((lg q).toNat + 1) ∧ 2 ^ (lg q).toNat ≤ max 1 (2 * q)

/-- No number that is not an integer is far more negative than the largest number is positive
(`C41_negative_wrong`): it may reach minus four times a power of two that the largest reaches. -/
def Balanced (data : List Flt) : Prop :=
  ∀ q, Flt.fin q ∈ data → -4 ≤ q ∨ (∃ z : Int, q = z) ∨
    ∃ M, Flt.fin M ∈ data ∧ ∃ e : Nat, 2 ^ e ≤ M ∧ -2 ^ (e + 2) ≤ q

theorem maxValue_mem (x : Flt) (xs : List Flt) : maxValue (x :: xs) ∈ x :: xs := by
  have key : ∀ (xs : List Flt) (acc : Flt), xs.foldl (fun m n =>
      if m = .nan then n else if n ≠ .nan ∧ n.gt m then n else m) acc ∈ acc :: xs := by
    intro xs
    induction xs with
    | nil => intro acc; simp
    | cons n ns ih =>
      intro acc
      rw [List.foldl_cons]
      have := ih (if acc = .nan then n else if n ≠ .nan ∧ n.gt acc then n else acc)
      rcases List.mem_cons.1 this with h | h
      · rw [h]
        split
        · simp
        · split <;> simp
      · simp [h]
  exact key xs x

theorem maxValue_cases {data : List Flt} (hne : data ≠ []) (hinf : ∀ s, Flt.inf s ∉ data) :
    (maxValue data = .nan ∧ ∀ x ∈ data, x = .nan) ∨
    ∃ M, maxValue data = .fin M ∧ Flt.fin M ∈ data ∧ ∀ q, Flt.fin q ∈ data → q ≤ M := by
  match data, hne with
  | x :: xs, _ =>
    have hmem := maxValue_mem x xs
    cases hm : maxValue (x :: xs) with
    | nan =>
      left
      refine ⟨rfl, fun y hy => ?_⟩
      cases y with
      | nan => rfl
      | inf s => exact absurd hy (hinf s)
      | fin q =>
        obtain ⟨m, e, -⟩ := maxValue_ge hy (hinf false)
        rw [hm] at e
        cases e
    | inf s => rw [hm] at hmem; exact absurd hmem (hinf s)
    | fin M =>
      right
      rw [hm] at hmem
      refine ⟨M, rfl, hmem, fun q hq => ?_⟩
      obtain ⟨m, e, h⟩ := maxValue_ge hq (hinf false)
      rw [hm] at e
      cases e
      exact h

/-- A divisor that is a power of two is seen in the trailing zeros. -/
theorem le_trailingZeros {n : Int64} {j : Nat} (h : (2 ^ j : Int) ∣ n.toInt) (hj : j ≤ 64) :
    j ≤ trailingZeros n := by
  unfold trailingZeros
  cases hf : (List.range 64).find? (fun i => n.toBitVec.getLsbD i) with
  | none => exact hj
  | some i =>
    simp only
    by_contra hlt
    have hlt : i < j := by omega
    have hbit := List.find?_some hf
    have h3 : n.toInt = n.toBitVec.toInt := rfl
    rw [h3, BitVec.toInt_eq_toNat_cond] at h
    have h4 : (2 ^ j : Int) ∣ (n.toBitVec.toNat : Int) := by
      split at h
      · exact h
      · have : (2 ^ j : Int) ∣ ((2 ^ 64 : Nat) : Int) := by
          push_cast
          exact pow_dvd_pow 2 hj
        have := Int.dvd_add h this
        rwa [Int.sub_add_cancel] at this
    have h5 : 2 ^ j ∣ n.toBitVec.toNat := by
      have : ((2 ^ j : Nat) : Int) ∣ (n.toBitVec.toNat : Int) := by push_cast; exact h4
      exact Int.natCast_dvd_natCast.1 this
    obtain ⟨w, hw⟩ := h5
    rw [BitVec.getLsbD, hw, Nat.testBit_two_pow_mul] at hbit
    simp at hbit
    omega

/-- What one value contributes, when its product by the largest scale is an integer in range. -/
theorem fractionOf_le {maxBits B : Nat} {q : Rat} (hm : maxBits ≤ 62) (hB : B ≤ maxBits)
    (hlo : -(2 ^ 63) ≤ q * 2 ^ maxBits) (hhi : q * 2 ^ maxBits < 2 ^ 63) (h : ExactAt B q) :
    ∃ c, fractionOf maxBits (.fin q) = some c ∧ c ≤ B := by
  obtain ⟨z, hz⟩ := h
  have hz' : q * 2 ^ maxBits = ((z * 2 ^ (maxBits - B) : Int) : Rat) := by
    push_cast
    rw [← hz, mul_assoc, ← pow_add]
    congr 2
    omega
  unfold fractionOf
  simp only [shl1_toInt hm]
  push_cast
  rw [hz', ratFract_int, if_neg (by simp)]
  refine ⟨_, rfl, ?_⟩
  have hsat : satI64 (q * 2 ^ maxBits) = Int64.ofInt (z * 2 ^ (maxBits - B)) := by
    unfold satI64
    rw [if_neg (not_lt.2 hlo), if_neg (not_le.2 hhi), hz', ratTrunc_int]
  rw [← hz', hsat]
  have g1 : -(2 ^ 63) ≤ z * 2 ^ (maxBits - B) := by rw [hz'] at hlo; exact_mod_cast hlo
  have g2 : z * 2 ^ (maxBits - B) < 2 ^ 63 := by rw [hz'] at hhi; exact_mod_cast hhi
  have := le_trailingZeros (n := Int64.ofInt (z * 2 ^ (maxBits - B))) (j := maxBits - B) (by
    rw [Int64.toInt_ofInt_of_le (by omega) (by omega)]
    exact Int.dvd_mul_left ..) (by omega)
  omega

theorem trailingZeros_minValue : trailingZeros Int64.minValue = 63 := by decide +kernel

/-- A value out of range contributes nothing. -/
theorem fractionOf_sat {maxBits : Nat} {q : Rat} (hm : maxBits ≤ 62)
    (hlo : q * 2 ^ maxBits < -(2 ^ 63)) (h : ExactAt maxBits q) :
    fractionOf maxBits (.fin q) = some 0 := by
  obtain ⟨z, hz⟩ := h
  unfold fractionOf
  simp only [shl1_toInt hm]
  push_cast
  rw [hz, ratFract_int, if_neg (by simp), ← hz]
  unfold satI64
  rw [if_pos hlo, trailingZeros_minValue]
  congr 1
  omega

theorem fractionLoop_of_all {maxBits B : Nat} : ∀ {acc : Nat} {ns : List Flt}, acc ≤ B →
    (∀ n ∈ ns, ∃ c, fractionOf maxBits n = some c ∧ c ≤ B) →
    ∃ b, fractionLoop maxBits acc ns = .precise b ∧ b ≤ B := by
  intro acc ns
  induction ns generalizing acc with
  | nil => intro h _; exact ⟨acc, rfl, h⟩
  | cons n ns ih =>
    intro h hall
    obtain ⟨c, hc, hcB⟩ := hall n (by simp)
    rw [fractionLoop, hc]
    exact ih (by split <;> assumption) fun m hm => hall m (by simp [hm])

section
variable {p : Prec} {B : Nat} {round : Bool} {lg : Rat → Int}

theorem Flt.Fits.no_inf {data : List Flt} (h : ∀ x ∈ data, Flt.Fits p B round x) (s : Bool) :
    Flt.inf s ∉ data := fun hm => (h _ hm).elim

/-- `computeBits` of balanced data that fit: it succeeds, with a number of bits that is the requested
one or enough for every value. Without rounding the number of bits before does not matter. -/
theorem computeBits_ok (hlg : LogClose lg) (hB : B ≤ 60) {data : List Flt} (hne : data ≠ [])
    (hfit : ∀ x ∈ data, x.Fits p B round) (hbal : Balanced data) {bits : Nat}
    (hbits : round = true → bits ≤ B ∧ ∀ x ∈ data, x.BitsOk B bits) :
    ∃ b, computeBits lg data bits round = some b ∧ b ≤ B ∧ ∀ x ∈ data, x.BitsOk B b := by
  have hinf := Flt.Fits.no_inf hfit
  unfold computeBits
  rcases maxValue_cases hne hinf with ⟨hm, hall⟩ | ⟨M, hm, hMmem, hMmax⟩
  · have hs : suggestFraction lg data = some (.precise 0) := by
      unfold suggestFraction
      match data, hne with
      | x :: xs, _ => simp only [hm, if_true]
    rw [hs]
    simp only
    have hok : ∀ x ∈ data, x.BitsOk B 0 := fun x hx => .inr fun q e => by rw [hall x hx] at e; cases e
    cases round with
    | true => exact ⟨0, by simp, by omega, hok⟩
    | false => exact ⟨0, by simp, by omega, hok⟩
  · -- the whole bits
    have hMfit := hfit _ hMmem
    obtain ⟨w, hw, hw62, hwB, hMw⟩ : ∃ w, wholeBits lg (.fin M) = some w ∧ 1 ≤ w ∧ B ≤ 62 - w ∧
        w ≤ 62 ∧ M < 2 ^ w := by
      rw [wholeBits_fin]
      by_cases h0 : 0 < M
      · rw [if_pos h0]
        have hM1024 : M < 2 ^ 1024 := by
          have h1 := hMfit.2.1
          rw [abs_of_pos h0] at h1
          have h2 : M * 1 ≤ M * 2 ^ B := mul_le_mul_of_nonneg_left (one_le_pow₀ (by norm_num)) h0.le
          rw [mul_one] at h2
          exact lt_of_le_of_lt (h2.trans h1) (pow_lt_pow_right₀ (by norm_num) (by norm_num))
        obtain ⟨l1, l2⟩ := hlg M h0 hM1024
        generalize (lg M).toNat = l at *
        refine ⟨_, rfl, by omega, ?_⟩
        have hMB : M * 2 ^ B ≤ 2 ^ 60 := by
          have := hMfit.2.1
          rwa [abs_of_pos h0] at this
        have hBp : (0 : Rat) < 2 ^ B := by positivity
        have h1 : (2 : Rat) ^ (l + B) ≤ 2 ^ 61 := by
          rw [pow_add]
          rcases le_total 1 (2 * M) with h | h
          · rw [max_eq_right h] at l2
            calc (2 : Rat) ^ l * 2 ^ B ≤ 2 * M * 2 ^ B := mul_le_mul_of_nonneg_right l2 hBp.le
              _ ≤ 2 ^ 61 := by linarith
          · rw [max_eq_left h] at l2
            calc (2 : Rat) ^ l * 2 ^ B ≤ 1 * 2 ^ B := mul_le_mul_of_nonneg_right l2 hBp.le
              _ ≤ 2 ^ 61 := by
                rw [one_mul]; exact pow_le_pow_right₀ (by norm_num) (by omega)
        have h2 : l + B ≤ 61 := by
          by_contra hc
          have : (2 : Rat) ^ 61 < 2 ^ (l + B) := pow_lt_pow_right₀ (by norm_num) (by omega)
          linarith
        refine ⟨by omega, by omega, ?_⟩
        rwa [Nat.add_comm]
      · rw [if_neg h0]
        exact ⟨1, rfl, by omega, by omega, by omega, by linarith⟩
    obtain ⟨hwle, hMlt⟩ := hMw
    have hs : suggestFraction lg data = some (fractionLoop (62 - w) 0 data) := by
      unfold suggestFraction
      match data, hne with
      | x :: xs, _ =>
        simp only [hm, hw, Option.getD_some]
        rw [if_neg (by simp), if_pos hwle]
    rw [hs]
    have hm61 : 62 - w ≤ 61 := by omega
    have hMm : M * 2 ^ (62 - w) < 2 ^ 62 := by
      have : (0 : Rat) < 2 ^ (62 - w) := by positivity
      calc M * 2 ^ (62 - w) < 2 ^ w * 2 ^ (62 - w) := mul_lt_mul_of_pos_right hMlt this
        _ = 2 ^ 62 := by rw [← pow_add]; congr 1; omega
    generalize 62 - w = m at *
    have hmp : (0 : Rat) < 2 ^ m := by positivity
    have hhi : ∀ q, Flt.fin q ∈ data → q * 2 ^ m < 2 ^ 63 := by
      intro q hq
      have := mul_le_mul_of_nonneg_right (hMmax q hq) hmp.le
      linarith
    have hlo : ∀ q, Flt.fin q ∈ data → -(2 ^ 63) ≤ q * 2 ^ m ∨ ∃ z : Int, q = z := by
      intro q hq
      rcases hbal q hq with h | h | ⟨M', hM', e, he, h⟩
      · left
        have h1 : (2 : Rat) ^ m ≤ 2 ^ 61 := pow_le_pow_right₀ (by norm_num) hm61
        have h2 := mul_le_mul_of_nonneg_right h hmp.le
        linarith
      · exact .inr h
      · left
        have hew : e + m < 62 := by
          by_contra hc
          have h1 : (2 : Rat) ^ 62 ≤ 2 ^ (e + m) := pow_le_pow_right₀ (by norm_num) (by omega)
          have h2 := mul_le_mul_of_nonneg_right (le_trans he (hMmax M' hM')) hmp.le
          rw [← pow_add] at h2
          linarith
        have h1 : (2 : Rat) ^ (e + 2 + m) ≤ 2 ^ 63 := pow_le_pow_right₀ (by norm_num) (by omega)
        have h2 := mul_le_mul_of_nonneg_right h hmp.le
        rw [neg_mul, ← pow_add] at h2
        linarith
    have hzero : ∀ q : Rat, (∃ z : Int, q = z) → ∀ b, ExactAt b q := by
      rintro q ⟨z, rfl⟩ b
      exact ExactAt.mono (b := 0) ⟨z, by simp⟩ (by omega)
    have hprec : ∀ b, fractionLoop m 0 data = .precise b → ∀ x ∈ data, ∀ q, x = .fin q → ExactAt b q := by
      rintro b hb x hx q rfl
      have hbm := fractionLoop_le (Nat.zero_le _) hb
      obtain ⟨c, hc, hcb⟩ := (fractionLoop_precise hb).2 _ hx
      rcases hlo q hx with h | h
      · exact fractionOf_exact (by omega) hcb hbm h (hhi q hx) hc
      · exact hzero q h b
    cases hround : round with
    | false =>
      subst hround
      obtain ⟨b, hb, hbB⟩ := fractionLoop_of_all (maxBits := m) (B := B) (acc := 0) (ns := data)
        (by omega) (by
          intro x hx
          cases x with
          | nan => exact ⟨0, rfl, by omega⟩
          | inf s => exact absurd hx (hinf s)
          | fin q =>
            have hex : ExactAt B q := (hfit _ hx).2.2.1 rfl
            by_cases h : -(2 ^ 63) ≤ q * 2 ^ m
            · exact fractionOf_le (by omega) (by omega) h (hhi q hx) hex
            · exact ⟨0, fractionOf_sat (by omega) (not_le.1 h) (hex.mono (by omega)), by omega⟩)
      rw [hb]
      exact ⟨b, by simp, hbB, fun x hx => .inr (hprec b hb x hx)⟩
    | true =>
      obtain ⟨h1, h2⟩ := hbits hround
      cases hl : fractionLoop m 0 data with
      | round b =>
        have hbm : b = m := by
          have : ∀ (ns : List Flt) acc b, fractionLoop m acc ns = .round b → b = m := by
            intro ns
            induction ns with
            | nil => intro acc b h; cases h
            | cons n ns ih =>
              intro acc b h
              rw [fractionLoop] at h
              cases hf : fractionOf m n with
              | none => rw [hf] at h; cases h; rfl
              | some c => rw [hf] at h; exact ih _ _ h
          exact this _ _ _ hl
        simp only [if_true]
        refine ⟨_, rfl, by omega, ?_⟩
        rw [show min b bits = bits by omega]
        exact h2
      | precise b =>
        simp only [if_true]
        refine ⟨_, rfl, by omega, fun x hx => ?_⟩
        rcases Nat.le_total b bits with h | h
        · rw [Nat.min_eq_left h]
          exact .inr (hprec b hl x hx)
        · rw [Nat.min_eq_right h]
          exact h2 x hx

end

/-! ### Extremes -/

theorem minMaxFloatGo_nan : ∀ (us : List Flt) (m : Rat), (∀ s, Flt.inf s ∉ us) →
    ∃ M, minMaxFloatGo .nan (.fin m) us = (.nan, .fin M) ∧ m ≤ M ∧ (M = m ∨ Flt.fin M ∈ us) ∧
      ∀ q, Flt.fin q ∈ us → q ≤ M := by
  intro us
  induction us with
  | nil => intro m _; exact ⟨m, rfl, le_refl _, .inl rfl, fun q hq => absurd hq (by simp)⟩
  | cons u us ih =>
    intro m hinf
    have hinf' : ∀ s, Flt.inf s ∉ us := fun s hs => hinf s (by simp [hs])
    rw [minMaxFloatGo]
    cases u with
    | inf s => exact absurd (by simp) (hinf s)
    | nan =>
      rw [if_pos rfl]
      obtain ⟨M, e, a1, a2, a3⟩ := ih m hinf'
      exact ⟨M, e, a1, a2.imp_right fun h => by simp [h], fun q hq => a3 q (by simpa using hq)⟩
    | fin q =>
      rw [if_neg (by simp), if_neg (show ¬ (Flt.fin q).lt .nan = true by simp [Flt.lt, Flt.gt])]
      by_cases hgt : (Flt.fin q).gt (.fin m) = true
      · rw [if_pos hgt]
        have hmq : m < q := of_decide_eq_true hgt
        obtain ⟨M, e, a1, a2, a3⟩ := ih q hinf'
        refine ⟨M, e, by linarith, .inr (by rcases a2 with h | h <;> simp [h]), fun x hx => ?_⟩
        rcases List.mem_cons.1 hx with h | h
        · cases h; exact a1
        · exact a3 x h
      · rw [if_neg hgt]
        have hmq : q ≤ m := by
          by_contra hc
          exact hgt (decide_eq_true (not_le.1 hc))
        obtain ⟨M, e, a1, a2, a3⟩ := ih m hinf'
        refine ⟨M, e, a1, a2.imp_right fun h => by simp [h], fun x hx => ?_⟩
        rcases List.mem_cons.1 hx with h | h
        · cases h; linarith
        · exact a3 x h

theorem minMaxFloatGo_spec : ∀ (us : List Flt) (a m : Rat), (∀ s, Flt.inf s ∉ us) → a ≤ m →
    ∃ mn M, minMaxFloatGo (.fin a) (.fin m) us = (mn, .fin M) ∧ m ≤ M ∧ (M = m ∨ Flt.fin M ∈ us) ∧
      (∀ q, Flt.fin q ∈ us → q ≤ M) ∧ (Flt.nan ∈ us → mn = .nan) ∧
      (Flt.nan ∉ us → ∃ a', mn = .fin a' ∧ a' ≤ a ∧ (a' = a ∨ Flt.fin a' ∈ us) ∧
        ∀ q, Flt.fin q ∈ us → a' ≤ q) := by
  intro us
  induction us with
  | nil =>
    intro a m _ _
    exact ⟨.fin a, m, rfl, le_refl _, .inl rfl, fun q hq => absurd hq (by simp), by simp, fun _ =>
      ⟨a, rfl, le_refl _, .inl rfl, fun q hq => absurd hq (by simp)⟩⟩
  | cons u us ih =>
    intro a m hinf ham
    have hinf' : ∀ s, Flt.inf s ∉ us := fun s hs => hinf s (by simp [hs])
    rw [minMaxFloatGo]
    cases u with
    | inf s => exact absurd (by simp) (hinf s)
    | nan =>
      rw [if_pos rfl]
      obtain ⟨M, e, a1, a2, a3⟩ := minMaxFloatGo_nan us m hinf'
      exact ⟨.nan, M, e, a1, a2.imp_right fun h => by simp [h], fun q hq => a3 q (by simpa using hq),
        fun _ => rfl, fun h => absurd (by simp) h⟩
    | fin q =>
      rw [if_neg (by simp)]
      by_cases hlt : (Flt.fin q).lt (.fin a) = true
      · rw [if_pos hlt]
        have hqa : q < a := of_decide_eq_true hlt
        obtain ⟨mn, M, e, a1, a2, a3, a4, a5⟩ := ih q m hinf' (by linarith)
        refine ⟨mn, M, e, a1, a2.imp_right fun h => by simp [h], fun x hx => ?_,
          fun h => a4 (by simpa using h), fun h => ?_⟩
        · rcases List.mem_cons.1 hx with h | h
          · cases h; linarith
          · exact a3 x h
        · obtain ⟨a', e', b1, b2, b3⟩ := a5 (fun hc => h (by simp [hc]))
          refine ⟨a', e', by linarith, .inr (by rcases b2 with h | h <;> simp [h]), fun x hx => ?_⟩
          rcases List.mem_cons.1 hx with h | h
          · cases h; exact b1
          · exact b3 x h
      · rw [if_neg hlt]
        have hqa : a ≤ q := by
          by_contra hc
          exact hlt (decide_eq_true (not_le.1 hc))
        by_cases hgt : (Flt.fin q).gt (.fin m) = true
        · rw [if_pos hgt]
          have hmq : m < q := of_decide_eq_true hgt
          obtain ⟨mn, M, e, a1, a2, a3, a4, a5⟩ := ih a q hinf' hqa
          refine ⟨mn, M, e, by linarith, .inr (by rcases a2 with h | h <;> simp [h]), fun x hx => ?_,
            fun h => a4 (by simpa using h), fun h => ?_⟩
          · rcases List.mem_cons.1 hx with h | h
            · cases h; exact a1
            · exact a3 x h
          · obtain ⟨a', e', b1, b2, b3⟩ := a5 (fun hc => h (by simp [hc]))
            refine ⟨a', e', b1, b2.imp_right fun h => by simp [h], fun x hx => ?_⟩
            rcases List.mem_cons.1 hx with h | h
            · cases h; linarith
            · exact b3 x h
        · rw [if_neg hgt]
          have hmq : q ≤ m := by
            by_contra hc
            exact hgt (decide_eq_true (not_le.1 hc))
          obtain ⟨mn, M, e, a1, a2, a3, a4, a5⟩ := ih a m hinf' ham
          refine ⟨mn, M, e, a1, a2.imp_right fun h => by simp [h], fun x hx => ?_,
            fun h => a4 (by simpa using h), fun h => ?_⟩
          · rcases List.mem_cons.1 hx with h | h
            · cases h; linarith
            · exact a3 x h
          · obtain ⟨a', e', b1, b2, b3⟩ := a5 (fun hc => h (by simp [hc]))
            refine ⟨a', e', b1, b2.imp_right fun h => by simp [h], fun x hx => ?_⟩
            rcases List.mem_cons.1 hx with h | h
            · cases h; linarith
            · exact b3 x h

/-- The extremes of an instant: all values are NaN; or after a number of NaNs there is a number, the
maximum is the largest number, and the minimum is NaN if NaN occurs after the first number, and
otherwise the smallest number. -/
theorem minMaxFloat_spec : ∀ {vs : List Flt}, vs ≠ [] → (∀ s, Flt.inf s ∉ vs) →
    (minMaxFloat vs = some (.nan, .nan) ∧ ∀ x ∈ vs, x = .nan) ∨
    ∃ k u us mn M, vs = List.replicate k .nan ++ Flt.fin u :: us ∧ minMaxFloat vs = some (mn, .fin M) ∧
      Flt.fin M ∈ Flt.fin u :: us ∧ (∀ q, Flt.fin q ∈ vs → q ≤ M) ∧ (Flt.nan ∈ us → mn = .nan) ∧
      (Flt.nan ∉ us → ∃ a, mn = .fin a ∧ Flt.fin a ∈ Flt.fin u :: us ∧ ∀ q, Flt.fin q ∈ vs → a ≤ q) := by
  intro vs
  induction vs with
  | nil => intro h; exact absurd rfl h
  | cons x xs ih =>
    intro _ hinf
    have hinf' : ∀ s, Flt.inf s ∉ xs := fun s hs => hinf s (by simp [hs])
    cases x with
    | inf s => exact absurd (by simp) (hinf s)
    | nan =>
      cases xs with
      | nil => exact .inl ⟨rfl, by simp⟩
      | cons y ys =>
        have e : minMaxFloat (.nan :: y :: ys) = minMaxFloat (y :: ys) := by
          rw [minMaxFloat, if_pos rfl]
        rw [e]
        rcases ih (by simp) hinf' with ⟨h1, h2⟩ | ⟨k, u, us, mn, M, h1, h2, h3, h4, h5, h6⟩
        · exact .inl ⟨h1, fun z hz => by rcases List.mem_cons.1 hz with rfl | hz <;> [rfl; exact h2 z hz]⟩
        · refine .inr ⟨k + 1, u, us, mn, M, by rw [h1]; rfl, h2, h3,
            fun q hq => h4 q (by simpa using hq), h5, fun hn => ?_⟩
          obtain ⟨a, b1, b2, b3⟩ := h6 hn
          exact ⟨a, b1, b2, fun q hq => b3 q (by simpa using hq)⟩
    | fin u =>
      right
      obtain ⟨mn, M, e, a1, a2, a3, a4, a5⟩ := minMaxFloatGo_spec xs u u hinf' (le_refl _)
      refine ⟨0, u, xs, mn, M, rfl, ?_, ?_, ?_, a4, ?_⟩
      · cases xs with
        | nil => simp only [minMaxFloatGo] at e; rw [minMaxFloat, e]
        | cons y ys => rw [minMaxFloat, if_neg (by simp), e]
      · rcases a2 with h | h <;> simp [h]
      · intro q hq
        rcases List.mem_cons.1 hq with h | h
        · cases h; exact a1
        · exact a3 q h
      · intro hn
        obtain ⟨a', e', b1, b2, b3⟩ := a5 hn
        refine ⟨a', e', by rcases b2 with h | h <;> simp [h], fun q hq => ?_⟩
        rcases List.mem_cons.1 hq with h | h
        · cases h; exact b1
        · exact b3 q h

end Verif
