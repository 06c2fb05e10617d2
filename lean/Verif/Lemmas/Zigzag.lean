import Verif.Lemmas.Dac

/-! Arithmetic meaning of the zigzag code (dac.rs:132-140). -/
namespace Verif

theorem zigzag_toNat (n : Int64) :
    ((zigzagEncode n).toNat : Int) = if 0 ≤ n.toInt then 2 * n.toInt else -2 * n.toInt - 1 := by
  unfold zigzagEncode
  have hn : n.toInt = n.toBitVec.toInt := rfl
  rw [hn]
  generalize n.toBitVec = b
  by_cases hm : b.msb = true
  · have e1 : b.sshiftRight 63 = BitVec.allOnes 64 := by
      apply BitVec.eq_of_getLsbD_eq
      intro i hi
      rw [BitVec.getLsbD_sshiftRight]
      rw [BitVec.msb_eq_getLsbD_last] at hm
      by_cases h0 : i = 0
      · subst h0; simp at hm ⊢; exact hm
      · have h3 : ¬ (63 + i < 64) := by omega
        have h2 : ¬ (64 ≤ i) := by omega
        rw [BitVec.getLsbD_allOnes]; simp [h3, h2, hi, BitVec.msb_eq_getLsbD_last]; simpa using hm
    rw [e1, BitVec.allOnes_xor, BitVec.toNat_not, BitVec.toNat_shiftLeft, Nat.shiftLeft_eq,
      BitVec.toInt_eq_msb_cond, if_pos hm]
    have := BitVec.msb_eq_true_iff_two_mul_ge.1 hm
    have h2 := b.isLt
    split <;> omega
  · have e1 : b.sshiftRight 63 = 0#64 := by
      apply BitVec.eq_of_getLsbD_eq
      intro i hi
      rw [BitVec.getLsbD_sshiftRight]
      simp only [Bool.not_eq_true] at hm
      rw [BitVec.msb_eq_getLsbD_last] at hm
      by_cases h0 : i = 0
      · subst h0; simp at hm ⊢; exact hm
      · have h3 : ¬ (63 + i < 64) := by omega
        simp [h3, BitVec.msb_eq_getLsbD_last]; intro _; simpa using hm
    rw [e1, BitVec.zero_xor, BitVec.toNat_shiftLeft, Nat.shiftLeft_eq, BitVec.toInt_eq_msb_cond,
      if_neg hm]
    simp only [Bool.not_eq_true] at hm
    have := BitVec.msb_eq_false_iff_two_mul_lt.1 hm
    split <;> omega

theorem zigzag_decode_encode (u : BitVec 64) : zigzagEncode (zigzagDecode u) = u := by
  unfold zigzagEncode zigzagDecode
  rw [Int64.toBitVec_ofBitVec]
  have hcond : (u &&& 1#64 = 1#64) ↔ u.getLsbD 0 = true := by
    constructor
    · intro h
      have h0 := congrArg (fun v => v.getLsbD 0) h
      simpa using h0
    · intro h
      apply BitVec.eq_of_getLsbD_eq
      intro i hi
      by_cases h0 : i = 0
      · subst h0; simpa using h
      · simp [BitVec.getLsbD_one, h0]
  by_cases h : u.getLsbD 0 = true
  · rw [if_pos (hcond.2 h)]
    apply BitVec.eq_of_getLsbD_eq
    intro i hi
    simp only [BitVec.getLsbD_xor, BitVec.getLsbD_sshiftRight, BitVec.getLsbD_shiftLeft,
      BitVec.getLsbD_ushiftRight, BitVec.getLsbD_allOnes, hi, decide_true,
      BitVec.msb_eq_getLsbD_last]
    by_cases h0 : i = 0
    · subst h0; simp at h ⊢; exact h
    · have h2 : ¬ (64 ≤ i) := by omega
      have h3 : ¬ (63 + i < 64) := by omega
      have h4 : ¬ (i < 1) := by omega
      have h5 : i - 1 < 64 := by omega
      have h6 : 1 + (i - 1) = i := by omega
      simp [h2, h3, h5, h6, h0]
  · rw [if_neg (fun hh => h (hcond.1 hh))]
    simp only [Bool.not_eq_true] at h
    apply BitVec.eq_of_getLsbD_eq
    intro i hi
    simp only [BitVec.getLsbD_xor, BitVec.getLsbD_sshiftRight, BitVec.getLsbD_shiftLeft,
      BitVec.getLsbD_ushiftRight, hi, decide_true, BitVec.msb_eq_getLsbD_last]
    by_cases h0 : i = 0
    · subst h0; simp at h ⊢; exact h
    · have h2 : ¬ (64 ≤ i) := by omega
      have h3 : ¬ (63 + i < 64) := by omega
      have h5 : i - 1 < 64 := by omega
      have h6 : 1 + (i - 1) = i := by omega
      simp [h2, h3, h6, h0]

theorem levels_length (n : Nat) : ∀ ls xs, LevelsHold n ls xs →
    (∀ x ∈ xs, x.toNat < 256 ^ n) → ∀ b, 0 < b → b ≤ n →
    (ls.length ≤ b ↔ ∀ x ∈ xs, x.toNat < 256 ^ b) := by
  induction n with
  | zero => intro ls xs _ _ b h1 h2; omega
  | succ n ih =>
    intro ls xs h hbd b hb1 hb2
    cases h with
    | empty => simp
    | cons _ hne hm hr =>
    rename_i m rest
    have key : ∀ b, 0 < b → ((∀ x ∈ xs, x.toNat < 256 ^ b) ↔
        ∀ y ∈ dacNext xs, y.toNat < 256 ^ (b - 1)) := by
      intro b hb1
      have e : 256 ^ b = 256 ^ (b - 1) * 256 := by
        rw [← Nat.pow_succ]; congr 1; omega
      have hsh : ∀ x : BitVec 64, (x >>> 8).toNat = x.toNat / 256 := by
        intro x; rw [BitVec.toNat_ushiftRight, Nat.shiftRight_eq_div_pow]
      have hpos : 0 < 256 ^ (b - 1) := Nat.pow_pos (by omega)
      constructor
      · intro h y hy
        simp only [dacNext, List.mem_map, List.mem_filter] at hy
        obtain ⟨x, ⟨hx, _⟩, rfl⟩ := hy
        have := h x hx
        rw [hsh, Nat.div_lt_iff_lt_mul (by omega)]; omega
      · intro h x hx
        by_cases hz : x >>> 8 = 0#64
        · have := hsh x
          rw [hz] at this
          simp at this
          omega
        · have := h (x >>> 8) (by
            simp only [dacNext, List.mem_map, List.mem_filter]
            exact ⟨x, ⟨hx, by simpa using hz⟩, rfl⟩)
          rw [hsh, Nat.div_lt_iff_lt_mul (by omega)] at this; omega
    have hbd' := (key (n + 1) (by omega)).1 hbd
    rw [key b hb1]
    by_cases hb : b = 1
    · subst hb
      simp only [List.length_cons, Nat.sub_self, Nat.pow_zero]
      constructor
      · intro h
        have : rest = [] := List.length_eq_zero_iff.1 (by omega)
        subst this
        generalize hq : dacNext xs = q at hr
        cases hr with
        | full => simpa [hq] using hbd'
        | empty => simp
      · intro h
        have hnil : dacNext xs = [] := by
          cases hq : dacNext xs with
          | nil => rfl
          | cons y ys =>
            have hy := h y (by rw [hq]; simp)
            have : y ∈ dacNext xs := by rw [hq]; simp
            simp only [dacNext, List.mem_map, List.mem_filter] at this
            obtain ⟨x, ⟨_, hx⟩, rfl⟩ := this
            have : x >>> 8 = 0#64 := by
              apply BitVec.eq_of_toNat_eq; simpa using hy
            simp [this] at hx
        rw [hnil] at hr
        cases hr with
        | full => simp
        | empty => simp
        | cons _ hne => exact absurd rfl hne
    · rw [← ih rest _ hr (by simpa using hbd') (b - 1) (by omega) (by omega)]
      simp only [List.length_cons]; omega

end Verif
