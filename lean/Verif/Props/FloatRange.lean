import Verif.Lemmas.FRound

/-!
Property C48: ranges of floats.

For every range of floats, `get(i)` is `start + i * step` up to rounding, `slice(i, j)` has the `j - i`
elements `get(i)`, ..., `get(j - 1)`, and access past the end is rejected.

What is said about slices is true of ranges on a binary grid (`C48_slice_partial`); of others it is false
(`C48_length_wrong`, `C48_elements_wrong`, `C48_empty_wrong`), but what a slice gives is near to what it
should be (`C48_slice_near_partial`).
-/
namespace Verif

variable {p : Nat}

theorem FloatRange.get_eq {r : FloatRange} {i : Nat} (hi : i < r.steps) : r.get p i = some (r.at' p i) := by
  unfold FloatRange.get FloatRange.checkBounds
  rw [if_neg (by omega)]
  rfl

/-- C48: what is past the end is rejected. -/
theorem C48_get_rejects (r : FloatRange) (i : Nat) (hi : r.steps ≤ i) : r.get p i = none := by
  simp [FloatRange.get, FloatRange.checkBounds, hi]

/-- C48: a slice that stops past the end, or before the first element, is rejected. -/
theorem C48_slice_rejects (r : FloatRange) (i j : Nat) (hj : j = 0 ∨ r.steps < j) :
    r.slice p i j = none := by
  unfold FloatRange.slice
  cases h : csub j 1 with
  | none => rfl
  | some l =>
    have : j ≠ 0 ∧ l = j - 1 := by
      unfold csub at h
      split at h
      · rename_i h1
        exact ⟨by omega, (Option.some.inj h).symm⟩
      · cases h
    have hl : r.steps ≤ l := by omega
    simp [FloatRange.checkBounds, hl]

/-! ### Ranges on a binary grid -/

/-- `start` and `step` are multiples of a power of two, and all multiples of it that matter up to `n`
steps have no more than `p` bits. -/
def FloatRange.OnGrid (p : Nat) (r : FloatRange) (n : Nat) : Prop :=
  ∃ a s e : Int, r.start = a * 2 ^ e ∧ r.step = s * 2 ^ e ∧ s ≠ 0 ∧ a.natAbs + n * s.natAbs < 2 ^ p

theorem Representable.grid {z e : Int} (h : z.natAbs < 2 ^ p) : Representable p ((z : Rat) * 2 ^ e) :=
  ⟨z, e, h, rfl⟩

theorem grid_bounds {a s : Int} {n i : Nat} (hs : s ≠ 0) (h : a.natAbs + n * s.natAbs < 2 ^ p)
    (hi : i ≤ n) : i < 2 ^ p ∧ (i * s).natAbs < 2 ^ p ∧ (a + i * s).natAbs < 2 ^ p := by
  have h1 : i * s.natAbs ≤ n * s.natAbs := Nat.mul_le_mul_right _ hi
  have h2 : i ≤ i * s.natAbs := Nat.le_mul_of_pos_right _ (by omega)
  have h3 : (i * s : Int).natAbs = i * s.natAbs := by rw [Int.natAbs_mul]; rfl
  have h4 := Int.natAbs_add_le a (i * s)
  omega

theorem FloatRange.at_grid {r : FloatRange} {a s e : Int} {n i : Nat} (ha : r.start = a * 2 ^ e)
    (hst : r.step = s * 2 ^ e) (hs : s ≠ 0) (h : a.natAbs + n * s.natAbs < 2 ^ p) (hi : i ≤ n) :
    r.at' p i = (a + i * s : Int) * 2 ^ e := by
  obtain ⟨h1, h2, h3⟩ := grid_bounds hs h hi
  unfold FloatRange.at'
  have e1 : fround p (i : Rat) = i := fround_exact ⟨i, 0, by simpa using h1, by simp⟩
  have e2 : (i : Rat) * r.step = (i * s : Int) * 2 ^ e := by rw [hst]; push_cast; ring
  have e3 : ((i * s : Int) : Rat) * 2 ^ e + r.start = (a + i * s : Int) * 2 ^ e := by
    rw [ha]; push_cast; ring
  rw [e1, e2, fround_exact (Representable.grid h2), e3, fround_exact (Representable.grid h3)]

/-- C48: on a binary grid, `get(i)` is exactly `start + i * step`. -/
theorem C48_get_exact_partial (r : FloatRange) (i : Nat) (hi : i < r.steps) (h : r.OnGrid p i) :
    r.get p i = some (r.start + i * r.step) := by
  obtain ⟨a, s, e, h1, h2, h3, h4⟩ := h
  rw [FloatRange.get_eq hi, FloatRange.at_grid h1 h2 h3 h4 (le_refl i), h1, h2]
  push_cast
  congr 1
  ring

/-- C48 for ranges on a binary grid: a slice has the elements it should have, exactly.

Partial: without the grid it is false, see below. -/
theorem C48_slice_partial (r : FloatRange) (i j : Nat) (hij : i ≤ j) (h0 : 0 < j) (hj : j ≤ r.steps)
    (h : r.OnGrid p j) :
    ∃ xs, r.slice p i j = some xs ∧ xs.length = j - i ∧
      ∀ k (hk : k < xs.length), r.get p (i + k) = some xs[k] ∧ xs[k] = r.start + (i + k) * r.step := by
  have hgrid : ∀ k, k ≤ j → r.OnGrid p k := by
    intro k hk
    obtain ⟨a, s, e, h1, h2, h3, h4⟩ := h
    have : k * s.natAbs ≤ j * s.natAbs := Nat.mul_le_mul_right _ hk
    exact ⟨a, s, e, h1, h2, h3, by omega⟩
  obtain ⟨a, s, e, h1, h2, h3, h4⟩ := id h
  have he : (2 : Rat) ^ e ≠ 0 := zpow_ne_zero _ (by norm_num)
  have hs : (s : Rat) ≠ 0 := by exact_mod_cast h3
  have hstep : r.step ≠ 0 := by rw [h2]; exact mul_ne_zero hs he
  have ei := FloatRange.at_grid h1 h2 h3 h4 hij
  have ej := FloatRange.at_grid h1 h2 h3 h4 (le_refl j)
  have en : fround p (fround p (r.at' p j - r.at' p i) / r.step) = ((j - i : Nat) : Rat) := by
    obtain ⟨b1, b2, -⟩ := grid_bounds h3 h4 (show j - i ≤ j by omega)
    have e1 : r.at' p j - r.at' p i = (((j - i : Nat) : Int) * s : Int) * 2 ^ e := by
      rw [ei, ej, Nat.cast_sub hij]; push_cast; ring
    rw [e1, fround_exact (Representable.grid b2), h2]
    have e2 : (((((j - i : Nat) : Int) * s : Int) : Rat) * 2 ^ e) / (s * 2 ^ e) = ((j - i : Nat) : Rat) := by
      push_cast
      field_simp
    rw [e2]
    exact fround_exact ⟨(j - i : Nat), 0, by simpa using b1, by simp⟩
  refine ⟨(List.range (j - i)).map fun (k : Nat) =>
    fround p (r.at' p i + fround p (r.step * fround p k)), ?_, by simp, fun k hk => ?_⟩
  · have hc : csub j 1 = some (j - 1) := by unfold csub; rw [if_pos (by omega)]
    unfold FloatRange.slice FloatRange.ndRange
    rw [hc]
    have hb : ¬ r.steps ≤ j - 1 := by omega
    simp only [Option.bind_eq_bind, Option.bind_some, FloatRange.checkBounds, ge_iff_le, if_neg hb,
      if_neg hstep, en, Int.ceil_natCast]
    rw [if_neg (by omega)]
    simp
  · rw [List.length_map, List.length_range] at hk
    rw [List.getElem_map, List.getElem_range]
    have e3 : fround p (r.at' p i + fround p (r.step * fround p k)) = r.start + (i + k) * r.step := by
      obtain ⟨b1, b2, -⟩ := grid_bounds h3 h4 (show k ≤ j by omega)
      obtain ⟨-, -, b3⟩ := grid_bounds h3 h4 (show i + k ≤ j by omega)
      have c1 : fround p (k : Rat) = k := fround_exact ⟨k, 0, by simpa using b1, by simp⟩
      have c2 : r.step * (k : Rat) = (k * s : Int) * 2 ^ e := by rw [h2]; push_cast; ring
      have c3 : ((a + i * s : Int) : Rat) * 2 ^ e + (k * s : Int) * 2 ^ e =
          (a + (i + k : Nat) * s : Int) * 2 ^ e := by push_cast; ring
      rw [c1, c2, fround_exact (Representable.grid b2), ei, c3, fround_exact (Representable.grid b3), h1, h2]
      push_cast
      ring
    refine ⟨?_, e3⟩
    rw [C48_get_exact_partial r (i + k) (by omega) (hgrid _ (by omega)), e3]
    push_cast
    rfl

/-- Quarters of degrees. -/
example : (⟨-180, 1 / 4, 1440⟩ : FloatRange).OnGrid 24 1440 :=
  ⟨-720, 1, -2, by rw [zpow_neg]; norm_num, by rw [zpow_neg]; norm_num, by decide, by decide⟩

example : (⟨-180, 1 / 4, 1440⟩ : FloatRange).slice 24 3 6 = some [-179.25, -179, -178.75] := by
  decide +kernel

/-! ### Other ranges -/

/-- The size of what is computed with, up to `n` steps. -/
def FloatRange.size (r : FloatRange) (n : Nat) : Rat := |r.start| + n * |r.step|

theorem FloatRange.size_le (r : FloatRange) {i n : Nat} (hi : i ≤ n) :
    |r.start| + i * |r.step| ≤ r.size n := by
  unfold FloatRange.size
  have := mul_le_mul_of_nonneg_right (show (i : Rat) ≤ n by exact_mod_cast hi) (abs_nonneg r.step)
  linarith

theorem FloatRange.size_nonneg (r : FloatRange) (n : Nat) : 0 ≤ r.size n :=
  add_nonneg (abs_nonneg _) (mul_nonneg (by positivity) (abs_nonneg _))

/-- Rounding what has an error of `c` units, `c` small. -/
theorem fround_units (hp : 4 ≤ p) {q x M c : Rat} (hM : 0 ≤ M) (hc : 0 ≤ c) (h : |q - x| ≤ c * (M / 2 ^ p))
    (hx : |x| ≤ M) : |fround p q - x| ≤ (17 / 16 * c + 1) * (M / 2 ^ p) := by
  have hpow : (16 : Rat) ≤ 2 ^ p := by
    calc (16 : Rat) = 2 ^ 4 := by norm_num
      _ ≤ 2 ^ p := pow_le_pow_right₀ (by norm_num) hp
  have hu : 0 ≤ M / 2 ^ p := div_nonneg hM (by positivity)
  have h1 := fround_err (p := p) h hx
  have h2 : c * (M / 2 ^ p) / 2 ^ p ≤ c * (M / 2 ^ p) / 16 :=
    div_le_div_of_nonneg_left (mul_nonneg hc hu) (by norm_num) hpow
  rw [add_div] at h1
  linarith

theorem mul_near (hp : 4 ≤ p) (s : Rat) (i : Nat) {M : Rat} (hM : i * |s| ≤ M) :
    |fround p (fround p (i : Rat) * s) - i * s| ≤ 33 / 16 * (M / 2 ^ p) := by
  have hpos : (0 : Rat) < 2 ^ p := by positivity
  have hi : (0 : Rat) ≤ i := by positivity
  have h0 : 0 ≤ M := (mul_nonneg hi (abs_nonneg s)).trans hM
  have s1 : |fround p (i : Rat) - i| ≤ i / 2 ^ p := by
    have := fround_near p (i : Rat)
    rwa [abs_of_nonneg hi] at this
  have s2 : |fround p (i : Rat) * s - i * s| ≤ 1 * (M / 2 ^ p) := by
    rw [← sub_mul, abs_mul, one_mul]
    refine (mul_le_mul_of_nonneg_right s1 (abs_nonneg s)).trans ?_
    rw [div_mul_eq_mul_div]
    exact div_le_div_of_nonneg_right hM hpos.le
  have := fround_units hp h0 (by norm_num) s2 (by rwa [abs_mul, abs_of_nonneg hi])
  linarith

theorem FloatRange.abs_le_size (r : FloatRange) {i n : Nat} (hi : i ≤ n) :
    |r.start + i * r.step| ≤ r.size n := by
  refine (abs_add_le _ _).trans ?_
  rw [abs_mul, abs_of_nonneg (by positivity : (0 : Rat) ≤ i)]
  exact r.size_le hi

theorem at_near (hp : 4 ≤ p) (r : FloatRange) {i n : Nat} (hi : i ≤ n) :
    |r.at' p i - (r.start + i * r.step)| ≤ 4 * (r.size n / 2 ^ p) := by
  have h0 := r.size_nonneg n
  have hu : 0 ≤ r.size n / 2 ^ p := div_nonneg h0 (by positivity)
  have h1 := mul_near hp r.step i (M := r.size n) ((le_add_of_nonneg_left (abs_nonneg _)).trans (r.size_le hi))
  have h2 : |fround p (fround p (i : Rat) * r.step) + r.start - (r.start + i * r.step)| ≤
      33 / 16 * (r.size n / 2 ^ p) := by
    convert h1 using 2
    ring
  have := fround_units hp h0 (by norm_num) h2 (r.abs_le_size hi)
  unfold FloatRange.at'
  linarith

/-- C48: for every range, `get(i)` is `start + i * step` up to rounding: the error is no more than four
units in the last place of the numbers involved. -/
theorem C48_get (hp : 4 ≤ p) (r : FloatRange) (i : Nat) (hi : i < r.steps) :
    ∃ x, r.get p i = some x ∧
      |x - (r.start + i * r.step)| ≤ 4 * ((|r.start| + i * |r.step|) / 2 ^ p) :=
  ⟨r.at' p i, FloatRange.get_eq hi, at_near hp r (le_refl i)⟩

/-- C48 for ranges whose steps are not too small for the precision: a slice has the right number of
elements or one more, and each of them is `start + (i + k) * step` up to rounding.

Partial: the statement wants no additional element, and the same numbers that `get` gives. -/
theorem C48_slice_near_partial (hp : 4 ≤ p) (r : FloatRange) (i j : Nat) (hij : i ≤ j) (h0 : 0 < j)
    (hj : j ≤ r.steps) (hstep : r.step ≠ 0) (h : 16 * (|r.start| + j * |r.step|) ≤ |r.step| * 2 ^ p) :
    ∃ xs, r.slice p i j = some xs ∧ (xs.length = j - i ∨ xs.length = j - i + 1) ∧
      ∀ k (hk : k < xs.length),
        |xs[k] - (r.start + (i + k) * r.step)| ≤ 8 * ((|r.start| + j * |r.step|) / 2 ^ p) := by
  obtain ⟨M, hM⟩ : ∃ M, M = r.size j := ⟨_, rfl⟩
  obtain ⟨u, hu⟩ : ∃ u, u = M / 2 ^ p := ⟨_, rfl⟩
  have hM0 : 0 ≤ M := hM ▸ r.size_nonneg j
  have hpos : (0 : Rat) < 2 ^ p := by positivity
  have hs : 0 < |r.step| := abs_pos.2 hstep
  have hu0 : 0 ≤ u := hu ▸ div_nonneg hM0 hpos.le
  have hji : ((j - i : Nat) : Rat) = j - i := Nat.cast_sub hij
  have a1 := at_near hp r hij
  have a2 := at_near hp r (le_refl j)
  rw [← hM, ← hu] at a1 a2
  have hjs : ((j - i : Nat) : Rat) * |r.step| ≤ M := by
    have := r.size_le (Nat.sub_le j i)
    have := abs_nonneg r.start
    linarith
  have b1 : |r.at' p j - r.at' p i - ((j - i : Nat) : Rat) * r.step| ≤ 8 * u := by
    have e : r.at' p j - r.at' p i - ((j - i : Nat) : Rat) * r.step =
        (r.at' p j - (r.start + j * r.step)) - (r.at' p i - (r.start + i * r.step)) := by
      rw [hji]; ring
    rw [e]
    refine (abs_sub _ _).trans ?_
    linarith
  rw [hu] at b1
  have b2 := fround_units hp hM0 (by norm_num) b1 (by
    rw [abs_mul, abs_of_nonneg (by positivity : (0 : Rat) ≤ ((j - i : Nat) : Rat))]; exact hjs)
  generalize hd : fround p (r.at' p j - r.at' p i) = d at b2
  rw [← hu] at b2
  have b3 : |d / r.step - ((j - i : Nat) : Rat)| ≤ (17 / 16 * 8 + 1) * (M / |r.step| / 2 ^ p) := by
    have e : d / r.step - ((j - i : Nat) : Rat) = (d - ((j - i : Nat) : Rat) * r.step) / r.step := by
      field_simp
    rw [e, abs_div, div_le_iff₀ hs]
    have e2 : (17 / 16 * 8 + 1) * (M / |r.step| / 2 ^ p) * |r.step| = (17 / 16 * 8 + 1) * u := by
      rw [hu]; field_simp
    rwa [e2]
  have b4 := fround_units hp (div_nonneg hM0 hs.le) (by norm_num) b3 (by
    rw [abs_of_nonneg (by positivity : (0 : Rat) ≤ ((j - i : Nat) : Rat)), le_div_iff₀ hs]; exact hjs)
  have b5 : M / |r.step| / 2 ^ p ≤ 1 / 16 := by
    rw [div_div, div_le_iff₀ (by positivity)]
    have : M = |r.start| + j * |r.step| := hM
    linarith
  generalize hq : fround p (d / r.step) = q at b4
  obtain ⟨c1, c2⟩ := abs_le.1 b4
  have hceil : ⌈q⌉ = ((j - i : Nat) : Int) ∨ ⌈q⌉ = ((j - i : Nat) : Int) + 1 := by
    have l1 : ((j - i : Nat) : Int) - 1 < ⌈q⌉ := by
      rw [Int.lt_ceil]
      push_cast
      linarith
    have l2 : ⌈q⌉ ≤ ((j - i : Nat) : Int) + 1 := by
      rw [Int.ceil_le]
      push_cast
      linarith
    omega
  have hlen : ⌈q⌉.toNat = j - i ∨ ⌈q⌉.toNat = j - i + 1 := by omega
  refine ⟨(List.range ⌈q⌉.toNat).map fun (k : Nat) =>
    fround p (r.at' p i + fround p (r.step * fround p k)), ?_, by simpa using hlen, fun k hk => ?_⟩
  · have hc : csub j 1 = some (j - 1) := by unfold csub; rw [if_pos (by omega)]
    unfold FloatRange.slice FloatRange.ndRange
    rw [hc]
    have hb : ¬ r.steps ≤ j - 1 := by omega
    simp only [Option.bind_eq_bind, Option.bind_some, FloatRange.checkBounds, ge_iff_le, if_neg hb,
      if_neg hstep, hd, hq]
    rw [if_neg (by omega)]
  · rw [List.length_map, List.length_range] at hk
    rw [List.getElem_map, List.getElem_range]
    have hkj : i + k ≤ j := by omega
    have m1 := mul_near hp r.step k (M := M) (by
      have := r.size_le (show k ≤ j by omega)
      have := abs_nonneg r.start
      linarith)
    rw [← hu, mul_comm (fround p (k : Rat))] at m1
    have m2 : |r.at' p i + fround p (r.step * fround p k) - (r.start + ((i + k : Nat) : Rat) * r.step)| ≤
        97 / 16 * (M / 2 ^ p) := by
      have e : r.at' p i + fround p (r.step * fround p k) - (r.start + ((i + k : Nat) : Rat) * r.step) =
          (r.at' p i - (r.start + i * r.step)) + (fround p (r.step * fround p k) - k * r.step) := by
        push_cast; ring
      rw [e, ← hu]
      refine (abs_add_le _ _).trans ?_
      linarith
    have m3 := fround_units hp hM0 (by norm_num) m2 (by rw [hM]; exact r.abs_le_size hkj)
    push_cast at m3
    refine m3.trans ?_
    rw [show |r.start| + j * |r.step| = M from hM.symm, ← hu]
    linarith

/-- The `f64` nearest to 0.1. -/
def tenth : Rat := 3602879701896397 / 36028797018963968

/-- Degrees from -180 in steps of a tenth. -/
example : ∃ xs, (⟨-180, tenth, 3600⟩ : FloatRange).slice 53 100 200 = some xs ∧
    (xs.length = 100 ∨ xs.length = 101) := by
  obtain ⟨xs, h1, h2, -⟩ := C48_slice_near_partial (p := 53) (by decide) ⟨-180, tenth, 3600⟩ 100 200 (by decide)
    (by decide) (by decide) (by decide +kernel) (by
      change 16 * (|(-180 : Rat)| + (200 : Nat) * |tenth|) ≤ |tenth| * 2 ^ 53
      decide +kernel)
  exact ⟨xs, h1, h2⟩

/-- C48 is false of the code: a slice may have an element too many. Starting from 1, in steps of 0.1, the
slice of the first element has two. -/
theorem C48_length_wrong : fround 53 (1 / 10) = tenth ∧ ∃ x y,
    (⟨1, tenth, 10⟩ : FloatRange).slice 53 0 1 = some [x, y] := by
  refine ⟨by decide +kernel, 1, 2476979795053773 / 2251799813685248, by decide +kernel⟩

/-- C48 is false of the code for an axis that the project itself uses (examples/example.py:183): all latitudes
of `era5_land_precip`, from -90 in 1801 steps of 0.1, are 1802. -/
theorem C48_latitudes_wrong : fround 53 (1 / 10) = tenth ∧
    ((⟨-90, tenth, 1801⟩ : FloatRange).slice 53 0 1801).map List.length = some 1802 :=
  ⟨by decide +kernel, by decide +kernel⟩

/-- C48 is false of the code: an element of a slice may be another number than `get` gives. -/
theorem C48_elements_wrong : ∃ x y, (⟨1, tenth, 10⟩ : FloatRange).slice 53 1 3 = some [x, y] ∧
    (⟨1, tenth, 10⟩ : FloatRange).get 53 1 = some x ∧ (⟨1, tenth, 10⟩ : FloatRange).get 53 2 ≠ some y :=
  ⟨2476979795053773 / 2251799813685248, 1351079888211149 / 1125899906842624, by decide +kernel,
    by decide +kernel, by decide +kernel⟩

/-- C48 is false of the code: of a range whose step is zero no slice is given, although `get` works. -/
theorem C48_zero_wrong (r : FloatRange) (h : r.step = 0) (i j : Nat) : r.slice p i j = none := by
  unfold FloatRange.slice FloatRange.ndRange
  cases csub j 1 with
  | none => rfl
  | some l =>
    cases hb : r.checkBounds l with
    | none => simp [hb]
    | some u => simp [hb, h]

example : (⟨5 / 2, 0, 3⟩ : FloatRange).get 24 1 = some (5 / 2) := by decide +kernel

/-- C48 is false of the code: if the steps are too small for the precision, elements are missing. For
seconds since 1970 that are `f32`, in steps of one minute, the slice of one element is empty. -/
theorem C48_empty_wrong : Representable 24 1700000000 ∧ Representable 24 60 ∧
    (⟨1700000000, 60, 100⟩ : FloatRange).slice 24 0 1 = some [] :=
  ⟨⟨13281250, 7, by decide, by norm_num⟩, ⟨60, 0, by decide, by norm_num⟩, by decide +kernel⟩

end Verif
