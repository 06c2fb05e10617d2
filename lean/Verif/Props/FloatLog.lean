import Verif.Lemmas.FloatLog
import Verif.Props.AnyData
import Verif.Props.Superchunk
import Verif.Props.Fixed

/-!
C80: the logarithms that the program computes in floats; C41 with infinities.
-/
namespace Verif

section
variable {ln : Rat → Rat} {k n : Nat}

theorem clogOf_one (h : LnOk ln) : clogOf ln k 1 = 0 := by
  unfold clogOf
  rw [if_neg (by omega), fround_nat (n := 1) (by omega)]
  have : ((1 : Nat) : Rat) = 1 := by norm_cast
  rw [this, h.one, zero_div]
  simp [fround]

/-- C80, every arity: the number of levels computed from a float logarithm is never too small, and
only for the powers of the arity can it be too large, by one. -/
theorem C80_levels (h : LnOk ln) (hk : 2 ≤ k) (hk' : k < 2 ^ 32) (h1 : 1 ≤ n) (hn : n < 2 ^ 32) :
    n ≤ k ^ clogOf ln k n ∧ ∀ j, n < k ^ j → clogOf ln k n ≤ j := by
  rcases Nat.eq_or_lt_of_le h1 with rfl | h2
  · rw [clogOf_one h]
    exact ⟨by simp, fun j _ => Nat.zero_le j⟩
  · refine ⟨?_, fun j hj => quot_below h hk hk' h2 hn hj⟩
    by_contra hlt
    have := quot_above h hk hk' h2 hn (not_le.1 hlt)
    omega

/-- An empty side has no levels. -/
theorem C80_empty : clogOf ln k 0 = 0 := by simp [clogOf]

/-- The quotients of the logarithms in the table, compared with the integers. -/
theorem lnTable_quot : ∀ i : Fin 31,
    (2 : Rat) ^ Nat.log2 (i + 1) ≤ ((lnTable[i]).1 / 2 ^ (lnTable[i]).2) / ((lnTable[(0 : Fin 31)]).1 / 2 ^ 53) ∧
    (if (i : Nat) = 28 ∨ (i : Nat) = 30 then
      (((i + 1 : Nat) : Rat) + 2 ^ Nat.log2 (i + 1) / 2 ^ 53 <
        ((lnTable[i]).1 / 2 ^ (lnTable[i]).2) / ((lnTable[(0 : Fin 31)]).1 / 2 ^ 53) ∧
      ((lnTable[i]).1 / 2 ^ (lnTable[i]).2) / ((lnTable[(0 : Fin 31)]).1 / 2 ^ 53) < ((i + 1 : Nat) : Rat) + 1 / 2)
    else ((lnTable[i]).1 / 2 ^ (lnTable[i]).2) / ((lnTable[(0 : Fin 31)]).1 / 2 ^ 53) <
      ((i + 1 : Nat) : Rat) + 2 ^ Nat.log2 (i + 1) / 2 ^ 53) := by
  decide +kernel

theorem clogOf_two_pow (h : LnOk ln) {e : Nat} (he : e ≤ 31) :
    clogOf ln 2 (2 ^ e) = if e = 29 ∨ e = 31 then e + 1 else e := by
  rcases Nat.eq_zero_or_pos e with rfl | h0
  · simpa using clogOf_one h
  have h2 : 2 ≤ 2 ^ e := by simpa using Nat.pow_le_pow_right (n := 2) (by omega) h0
  have hn : 2 ^ e < 2 ^ 32 := Nat.pow_lt_pow_right (by omega) (by omega)
  have a1 : e ≤ clogOf ln 2 (2 ^ e) := by
    have := quot_above h (k := 2) (by omega) (by omega) h2 hn (j := e - 1)
      (Nat.pow_lt_pow_right (by omega) (by omega))
    omega
  have a2 : clogOf ln 2 (2 ^ e) ≤ e + 1 :=
    quot_below h (k := 2) (by omega) (by omega) h2 hn (Nat.pow_lt_pow_right (by omega) (by omega))
  obtain ⟨i, rfl⟩ : ∃ i : Fin 31, e = i + 1 := ⟨⟨e - 1, by omega⟩, by simp; omega⟩
  obtain ⟨f, hf, hfq, -⟩ := clogOf_quot h (k := 2) (by omega) (by omega) h2 hn
  have r1 := ln_pow h (e := i + 1) (by omega) (by omega) (lnTable_rows i)
  have r2 := ln_pow h (e := 1) (by omega) (by omega) (lnTable_rows 0)
  have r2 : ln (2 : Nat) = (lnTable[(0 : Fin 31)]).1 / 2 ^ 53 := r2
  rw [r1, r2] at hfq
  obtain ⟨t1, t2⟩ := lnTable_quot i
  have s1 := Nat.log2_self_le (n := i + 1) (by omega)
  have s2 := Nat.lt_log2_self (n := i + 1)
  have s3 : Nat.log2 (i + 1) ≤ 52 := by
    by_contra hc
    have := Nat.pow_le_pow_right (n := 2) (by omega) (show 6 ≤ Nat.log2 (i + 1) by omega)
    omega
  generalize ((lnTable[i]).1 / 2 ^ (lnTable[i]).2 : Rat) / ((lnTable[(0 : Fin 31)]).1 / 2 ^ 53) = q at *
  obtain ⟨f1, f2⟩ := fround_int s1 s2 s3 t1
  rw [← hfq] at f1 f2
  by_cases hi : (i : Nat) = 28 ∨ (i : Nat) = 30
  · rw [if_pos hi] at t2
    rw [if_pos (by omega)]
    have := f2 t2.2 t2.1
    have : (((i + 1 : Nat) : Int) : Rat) < f := by exact_mod_cast this
    have := Int.lt_ceil.2 this
    omega
  · rw [if_neg hi] at t2
    rw [if_neg (by omega)]
    have := f1 t2
    have : f ≤ (((i + 1 : Nat) : Int) : Rat) := by exact_mod_cast this
    have := Int.ceil_le.2 this
    omega

/-- C80, arity two, which is the one that datasets use: the number of levels is the right one for every
length below `2 ^ 32`, except for `2 ^ 29` and `2 ^ 31`. -/
theorem C80_binary_partial (h : LnOk ln) (h1 : 1 ≤ n) (hn : n < 2 ^ 32) (h29 : n ≠ 2 ^ 29) (h31 : n ≠ 2 ^ 31)
    (j : Nat) : clogOf ln 2 n ≤ j ↔ n ≤ 2 ^ j := by
  obtain ⟨l1, l2⟩ := C80_levels h (k := 2) (by omega) (by omega) h1 hn
  constructor
  · intro hj
    exact l1.trans (Nat.pow_le_pow_right (by omega) hj)
  · intro hj
    rcases Nat.eq_or_lt_of_le hj with rfl | hlt
    · have hj : j ≤ 31 := by
        have := (Nat.pow_lt_pow_iff_right (a := 2) (by omega)).1 hn
        omega
      rw [clogOf_two_pow h hj, if_neg]
      rintro (rfl | rfl)
      · exact h29 rfl
      · exact h31 rfl
    · exact l2 j hlt

/-- C80 is false of the code: for an array with sides of `2 ^ 29` the program needs 29 levels and computes
30; for sides of `2 ^ 31` it computes 32. -/
theorem C80_binary_wrong (h : LnOk ln) :
    clogOf ln 2 (2 ^ 29) = 30 ∧ clogOf ln 2 (2 ^ 31) = 32 := by
  rw [clogOf_two_pow h (by omega), clogOf_two_pow h (by omega)]
  exact ⟨rfl, rfl⟩

/-- C80, what this does: the right levels for such an array are refused with a panic, whatever is in
the array. -/
theorem C80_refused_wrong (h : LnOk ln) {H : Hash} {lg : Rat → Int} (levels : List Nat)
    (hsum : levels.sum = 29) (log : Saved) (b : MMBuffer3) (instants rows cols : Nat)
    (hside : max rows cols = 2 ^ 29) :
    Superchunk.build H (clogOf ln 2) lg 2 levels log b instants rows cols = none := by
  match levels, hsum with
  | level :: sub, hsum =>
    unfold Superchunk.build Superchunk.buildLevel
    simp only
    rw [hside, (C80_binary_wrong h).1, if_pos (by omega)]

/-- C80 for the other theorems: what they assume of the logarithm. -/
theorem C80_clogOk (h : LnOk ln) {N : Nat} (hN : N < 2 ^ 29) : ClogOk (clogOf ln 2) 2 N :=
  fun _ j h1 h2 => C80_binary_partial h h1 (by omega) (by omega) (by omega) j

/-- C80 for the theorems about datasets: the logarithm of arrays below `2 ^ 29`. -/
theorem C80_settings (h : LnOk ln) {levels : List Nat} {N rows cols cs ss : Nat} (hr : 0 < rows)
    (hc : 0 < cols) (hr' : rows < 2 ^ 29) (hc' : cols < 2 ^ 29) (h1 : 1 ≤ cs) (h2 : cs < 2 ^ 32)
    (h3 : 2 ≤ ss) (h4 : ss < 2 ^ 32) (hN : N < 2 ^ 32) (hl : LevelsOk 2 cs levels) :
    Settings (clogOf ln 2) levels N rows cols cs ss :=
  ⟨C80_clogOk h (by omega), hr, hc, by omega, by omega, h1, h2, h3, h4, hN, hl⟩

end

/-! ### The logarithm to base two -/

section
variable {log2 : Rat → Rat}

/-- C80: the whole bits of the largest number that `suggest_fraction` computes are enough, and at most one
more than needed. -/
theorem C80_log2 (h : Log2Ok log2) : LogClose (lgOf log2) := by
  intro q hq hq'
  unfold lgOf
  have hle : log2 q ≤ (1024 : Nat) := by
    rw [← h.exact 1024 (by omega)]
    exact h.mono _ _ hq hq'.le
  have hfl : ⌊log2 q⌋ ≤ 1024 := by
    have : ⌊log2 q⌋ ≤ ⌊((1024 : Nat) : Rat)⌋ := Int.floor_mono hle
    simpa using this
  generalize hl : ⌊log2 q⌋.toNat = l
  have hl1024 : l ≤ 1024 := by omega
  constructor
  · by_contra hc
    have hc := not_lt.1 hc
    have hl' : l + 1 ≤ 1024 := by
      by_contra hn
      have : (2 : Rat) ^ 1024 ≤ 2 ^ (l + 1) := pow_le_pow_right₀ (by norm_num) (by omega)
      linarith
    have := h.mono _ _ (by positivity) hc
    rw [h.exact _ hl'] at this
    have : ((l + 1 : Nat) : Int) ≤ ⌊log2 q⌋ := Int.le_floor.2 (by exact_mod_cast this)
    omega
  · rcases Nat.eq_zero_or_pos l with rfl | h0
    · simp
    refine le_max_of_le_right ?_
    by_contra hc
    obtain ⟨m, rfl⟩ : ∃ m, l = m + 1 := ⟨l - 1, by omega⟩
    have hc : q < 2 ^ m := by
      rw [pow_succ] at hc
      linarith
    have := h.mono _ _ hq hc.le
    rw [h.exact _ (by omega)] at this
    have h3 : (m + 1 : Int) ≤ ⌊log2 q⌋ := by omega
    have h4 := Int.le_floor.1 h3
    push_cast at h4
    linarith

/-- C80: as it is assumed for the suggested bits. -/
theorem C80_suggestion (h : Log2Ok log2) : LogOk (lgOf log2) := by
  intro q hq hl
  unfold lgOf at *
  by_contra hc
  have := h.mono _ _ (by positivity) (not_lt.1 hc)
  rw [h.exact _ (by omega)] at this
  have : ((⌊log2 q⌋.toNat + 1 : Nat) : Int) ≤ ⌊log2 q⌋ := Int.le_floor.2 (by exact_mod_cast this)
  omega

end

/-! ### Logarithms meeting the hypotheses -/

/-- The natural logarithm, correctly rounded. -/
noncomputable def exampleLn (q : Rat) : Rat :=
  if q = 1 then 0
  else (round (Real.log q * 2 ^ (52 - Int.log 2 (Real.log q))) : Int) * 2 ^ (Int.log 2 (Real.log q) - 52)

example : LnOk exampleLn := by
  have key : ∀ n : Nat, 2 ≤ n → exampleLn n =
      (round (Real.log n * 2 ^ (52 - Int.log 2 (Real.log n))) : Int) * 2 ^ (Int.log 2 (Real.log n) - 52) := by
    intro n hn
    unfold exampleLn
    rw [if_neg]
    · push_cast
      rfl
    · intro h
      have : n = 1 := by exact_mod_cast h
      omega
  have hpos : ∀ n : Nat, 2 ≤ n → 0 < Real.log n := fun n hn => Real.log_pos (by exact_mod_cast hn)
  refine ⟨if_pos rfl, fun n hn _ => ?_, fun n hn _ => ?_⟩
  · rw [key n hn]
    have hx := hpos n hn
    generalize Real.log n = x at *
    generalize he : Int.log 2 x = e
    have h1 : (2 : ℝ) ^ e ≤ x := by
      rw [← he]
      simpa using Int.zpow_log_le_self (b := 2) (by norm_num) hx
    have h2 : x < (2 : ℝ) ^ (e + 1) := by
      rw [← he]
      simpa using Int.lt_zpow_succ_log_self (b := 2) (by norm_num) x
    have hp : (0 : ℝ) < 2 ^ (52 - e) := zpow_pos (by norm_num) _
    have y1 : (0 : ℝ) < x * 2 ^ (52 - e) := mul_pos hx hp
    have y2 : x * 2 ^ (52 - e) < 2 ^ 53 := by
      have := mul_lt_mul_of_pos_right h2 hp
      rw [← zpow_add₀ (by norm_num), show e + 1 + (52 - e) = (53 : Nat) by push_cast; ring, zpow_natCast] at this
      exact this
    generalize x * 2 ^ (52 - e) = y at *
    have hr := abs_le.1 (abs_sub_round y)
    have z1 : (0 : Int) ≤ round y := by
      have : ((-1 : Int) : ℝ) < round y := by push_cast; linarith [hr.2]
      have : (-1 : Int) < round y := by exact_mod_cast this
      omega
    have z2 : round y ≤ 2 ^ 53 := by
      have : (round y : ℝ) < ((2 ^ 53 + 1 : Int) : ℝ) := by push_cast; linarith [hr.1]
      have : round y < 2 ^ 53 + 1 := by exact_mod_cast this
      omega
    rcases Int.lt_or_eq_of_le z2 with h | h
    · exact ⟨round y, e - 52, by omega, rfl⟩
    · refine ⟨1, e + 1, by decide, ?_⟩
      rw [h, show e + 1 = (53 : Nat) + (e - 52) by push_cast; ring, zpow_add₀ (by norm_num), zpow_natCast]
      push_cast
      ring
  · rw [key n hn]
    have hx := hpos n hn
    generalize Real.log n = x at *
    generalize he : Int.log 2 x = e
    push_cast
    have hp : (0 : ℝ) < 2 ^ (e - 52) := zpow_pos (by norm_num) _
    have e1 : x = x * 2 ^ (52 - e) * 2 ^ (e - 52) := by
      rw [mul_assoc, ← zpow_add₀ (by norm_num)]
      simp
    have hr := abs_sub_round (x * 2 ^ (52 - e))
    calc |(round (x * 2 ^ (52 - e)) : ℝ) * 2 ^ (e - 52) - x|
        = |(x * 2 ^ (52 - e) - round (x * 2 ^ (52 - e))) * 2 ^ (e - 52)| := by
          rw [abs_sub_comm]
          rw [sub_mul, ← e1]
      _ = |x * 2 ^ (52 - e) - round (x * 2 ^ (52 - e))| * 2 ^ (e - 52) := by rw [abs_mul, abs_of_pos hp]
      _ ≤ 11 / 20 * 2 ^ (e - 52) := mul_le_mul_of_nonneg_right (by linarith) hp.le

/-- A logarithm to base two that is an integer. -/
def exampleLog2 (q : Rat) : Rat := Int.log 2 q

example : Log2Ok exampleLog2 := by
  refine ⟨fun m _ => ?_, fun a b h0 h => ?_⟩
  · unfold exampleLog2
    have : Int.log 2 ((2 : Rat) ^ m) = m := by
      have := Int.log_zpow (R := Rat) (b := 2) (by norm_num) m
      simpa using this
    rw [this]
    norm_cast
  · unfold exampleLog2
    exact_mod_cast Int.log_mono_right h0 h

/-- C41: if plus infinity is among the numbers, rounding to 62 bits is suggested, wherever it
stands (it cannot be converted itself, so an append of it fails). -/
theorem C41_infinite (lg : Rat → Int) (data : List Flt) (h : Flt.inf false ∈ data) :
    suggestFraction lg data = some (.round 62) := by
  have hfold : ∀ (xs : List Flt) (m : Flt), m = .inf false ∨ Flt.inf false ∈ xs →
      xs.foldl (fun m n => if m = .nan then n else if n ≠ .nan ∧ n.gt m then n else m) m = .inf false := by
    intro xs
    induction xs with
    | nil => intro m hm; exact hm.elim id (fun h => nomatch h)
    | cons x xs ih =>
      intro m hm
      refine ih _ ?_
      rcases hm with rfl | hm
      · left
        cases x with
        | nan => simp
        | inf neg => cases neg <;> simp [Flt.gt]
        | fin q => simp [Flt.gt]
      · rcases List.mem_cons.1 hm with rfl | hm
        · left
          cases m with
          | nan => simp
          | inf neg => cases neg <;> simp [Flt.gt]
          | fin q => simp [Flt.gt]
        · exact .inr hm
  have hloop : ∀ (xs : List Flt) (acc : Nat), Flt.inf false ∈ xs → fractionLoop 62 acc xs = .round 62 := by
    intro xs
    induction xs with
    | nil => intro acc hm; cases hm
    | cons x xs ih =>
      intro acc hm
      unfold fractionLoop
      cases hx : fractionOf 62 x with
      | none => rfl
      | some b =>
        rcases List.mem_cons.1 hm with rfl | hm
        · cases hx
        · exact ih _ hm
  cases data with
  | nil => cases h
  | cons x xs =>
    have hmax : maxValue (x :: xs) = .inf false :=
      hfold xs x ((List.mem_cons.1 h).imp Eq.symm id)
    unfold suggestFraction
    simp only [hmax, wholeBits, Option.getD_none]
    rw [if_neg (by simp), if_pos (by decide)]
    simp [hloop _ _ h]

example : suggestFraction (fun _ => 0) [.inf true, .fin 1, .inf false] = some (.round 62) ∧
    suggestFraction (fun _ => 0) [.inf true, .inf true] = some (.round 61) := by
  decide +kernel

end Verif
