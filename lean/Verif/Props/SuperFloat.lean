import Verif.Props.Superchunk
import Verif.Lemmas.SuperFloat

/-!
Properties C22, C23, C26 and C27 for floats.

A superchunk of floats stores every value as an integer with a number of fractional bits, which is
chosen anew for every subchunk. Callers read it back through `from_fixed` with the number of bits that
comes with the value. What they get is `Flt.rounded B`, where `B` is the number of bits they asked for
when rounding, and any number of bits that is enough for all values when not.
-/
namespace Verif

/-- Without rounding what is read back is what was stored. -/
theorem Flt.Fits.rounded_exact {p : Prec} {B : Nat} {x : Flt} (h : x.Fits p B false) :
    x.rounded B = x := by
  cases x with
  | nan => rfl
  | inf s => rfl
  | fin q => exact congrArg Flt.fin (roundTo_exact (h.2.2.1 rfl))

/-- With rounding it is within half a unit of the last bit. -/
theorem roundTo_near (B : Nat) (q : Rat) : |roundTo B q - q| ≤ 1 / 2 * (1 / 2 ^ B) := by
  have hp : (0 : Rat) < 2 ^ B := by positivity
  unfold roundTo
  split
  · have h1 := Int.floor_le (q * 2 ^ B + 1 / 2)
    have h2 := Int.lt_floor_add_one (q * 2 ^ B + 1 / 2)
    generalize ⌊q * 2 ^ B + 1 / 2⌋ = z at *
    have e : (z : Rat) / 2 ^ B - q = (z - q * 2 ^ B) / 2 ^ B := by field_simp
    rw [e, abs_div, abs_of_pos hp, div_le_iff₀ hp]
    have : (1 : Rat) / 2 * (1 / 2 ^ B) * 2 ^ B = 1 / 2 := by field_simp
    rw [this, abs_le]
    constructor <;> linarith
  · have h1 := Int.le_ceil (q * 2 ^ (B + 1))
    have h2 := Int.ceil_lt_add_one (q * 2 ^ (B + 1))
    generalize ⌈q * 2 ^ (B + 1)⌉ = z at *
    have hp' : (0 : Rat) < 2 ^ (B + 1) := by positivity
    have e : (z : Rat) / 2 ^ (B + 1) - q = (z - q * 2 ^ (B + 1)) / 2 ^ (B + 1) := by field_simp
    rw [e, abs_div, abs_of_pos hp', div_le_iff₀ hp']
    have : (1 : Rat) / 2 * (1 / 2 ^ B) * 2 ^ (B + 1) = 1 := by rw [pow_succ]; field_simp
    rw [this, abs_le]
    constructor <;> linarith

/-- The assumptions on a build from floats. The values fit (`Flt.Fits`: not infinite, of the float's
precision, small enough for the requested `B` bits, not among those turned into NaN; without rounding
exact with `B` bits). The number of bits of the buffer is `B` or enough for all values, as
`compute_fractional_bits` leaves it (`FltOk.computeBits`). In the squares of the grids NaN is not
mixed with a single number (`C27_nan_wrong`), and no number is far more negative than the largest is
positive (`C41_negative_wrong`). `clog` and `lg` are the float computations of logarithms. -/
structure FltInput (clog : Nat → Nat) (lg : Rat → Int) (k : Nat) (levels : List Nat) (p : Prec)
    (B : Nat) (round : Bool) (a : Nat → Nat → Nat → Flt) (bits n rows cols : Nat) : Prop where
  arity : 2 ≤ k
  even : k % 2 = 0
  arity_lt : k < 256
  clogOk : ClogOk clog k (max rows cols)
  lgOk : LogClose lg
  rows_pos : 0 < rows
  cols_pos : 0 < cols
  instants : n < 2 ^ 32
  levelsOk : LevelsOk k n levels
  max_bits : B ≤ 60
  ok : FltOk p B round k (fun e => ∃ s, s <:+ levels.tail ∧ e = s.sum) a bits n rows cols

section
variable {H : Hash} {clog : Nat → Nat} {lg : Rat → Int} {k : Nat} {levels : List Nat}
  {p : Prec} {B : Nat} {round : Bool} {a : Nat → Nat → Nat → Flt} {bits n rows cols : Nat}
  {log log' : Saved} {r : MMStruct3Build} {utf8 : List Byte → Bool}

theorem FltInput.repr (h : FltInput clog lg k levels p B round a bits n rows cols)
    (hb : Superchunk.build H clog lg k levels log (.flt p a bits round) n rows cols = some (r, log'))
    {log'' : Saved} (hsub : log' ⊆ log'') (hnc : log''.NoCollision H) :
    Represents utf8 (log''.load H) (fun bits v => fromFixed p v bits)
      (LeafReads fun bits v => fromFixed p v bits)
      (ExtOf fun _ _ => True) (levels.length + 1) r.data n rows cols
      (fun t r c => (a t r c).rounded B) :=
  ((superchunk_repr (fltReads clog h.lgOk h.arity h.even p h.max_bits round
      (fun e => ∃ s, s <:+ levels.tail ∧ e = s.sum)) H utf8 h.arity h.arity_lt
    _ n h.clogOk h.instants levels
    h.levelsOk (fun s hs => ⟨s, hs, rfl⟩) log _ rows cols r log' ⟨a, bits, rfl, h.ok⟩ h.rows_pos
    h.cols_pos (Nat.le_max_left ..) (Nat.le_max_right ..) hb).2.2.2 log'' hsub hnc).1

/-- C22, floats: every cell of every instant reads back as `Flt.rounded B` of its value. Missing for
the full claim: see `FltInput`. -/
theorem C22_float_get_partial (h : FltInput clog lg k levels p B round a bits n rows cols)
    (hb : Superchunk.build H clog lg k levels log (.flt p a bits round) n rows cols = some (r, log'))
    (log'' : Saved) (hsub : log' ⊆ log'') (hnc : log''.NoCollision H) (fuel : Nat)
    (hf : levels.length < fuel) (t row col : Nat) (ht : t < n) (hr : row < rows) (hc : col < cols) :
    ∃ bits' v, r.data.get utf8 (log''.load H) fuel r.data.fractionalBits t row col = .ok (bits', v) ∧
      fromFixed p v bits' = (a t row col).rounded B :=
  repr_get (fun _ _ _ _ _ h => h) _ fuel _ _ _ _ _
    (h.repr (utf8 := utf8) hb hsub hnc) hf t row col ht hr hc

/-- C23, cells, floats. -/
theorem C23_float_cell_partial (h : FltInput clog lg k levels p B round a bits n rows cols)
    (hb : Superchunk.build H clog lg k levels log (.flt p a bits round) n rows cols = some (r, log'))
    (log'' : Saved) (hsub : log' ⊆ log'') (hnc : log''.NoCollision H) (fuel : Nat)
    (hf : levels.length < fuel) (start fin row col : Nat) (hse : start ≤ fin) (hfin : fin ≤ n)
    (hr : row < rows) (hc : col < cols) :
    (∃ t s, r.data.fillCell utf8 (log''.load H) fuel r.data.fractionalBits start fin row col t s) ∧
    ∀ t s, r.data.fillCell utf8 (log''.load H) fuel r.data.fractionalBits start fin row col t s →
      s = none ∧ (t.map fun q => (q.1, fromFixed p q.2.2 q.2.1)).Perm
        ((List.range (fin - start)).map fun i => (i, (a (start + i) row col).rounded B)) := by
  obtain ⟨⟨t, s, u, h1, -⟩, h2⟩ := repr_fillCell (fun _ _ _ _ _ h => h) _ fuel _ _ _ _ _
    (h.repr (utf8 := utf8) hb hsub hnc) hf start fin row col hse hfin hr hc
  exact ⟨⟨u, s, h1⟩, fun t s hts => h2 _ s ⟨t, hts, rfl⟩⟩

/-- C23, windows, floats. -/
theorem C23_float_window_partial (h : FltInput clog lg k levels p B round a bits n rows cols)
    (hb : Superchunk.build H clog lg k levels log (.flt p a bits round) n rows cols = some (r, log'))
    (log'' : Saved) (hsub : log' ⊆ log'') (hnc : log''.NoCollision H) (fuel : Nat)
    (hf : levels.length < fuel) (start fin top bottom left right : Nat) (hse : start ≤ fin)
    (hfin : fin ≤ n) (htb : top < bottom) (hlr : left < right) (hbr : bottom ≤ rows)
    (hrc : right ≤ cols) :
    (∃ t s, r.data.fillWindow utf8 (log''.load H) fuel r.data.fractionalBits
      ⟨start, fin, top, bottom, left, right⟩ t s) ∧
    ∀ t s, r.data.fillWindow utf8 (log''.load H) fuel r.data.fractionalBits
        ⟨start, fin, top, bottom, left, right⟩ t s →
      s = none ∧ (t.map fun q => (q.1, q.2.1, q.2.2.1, fromFixed p q.2.2.2.2 q.2.2.2.1)).Perm
        (Spec.window3 (fun t r c => (a t r c).rounded B) start fin top bottom left right) := by
  obtain ⟨⟨t, s, u, h1, -⟩, h2⟩ := repr_fillWindow (fun _ _ _ _ _ h => h) _ fuel _ _ _ _ _
    (h.repr (utf8 := utf8) hb hsub hnc) hf start fin top bottom left right hse hfin htb hlr hbr hrc
  exact ⟨⟨u, s, h1⟩, fun t s hts => h2 _ s ⟨t, hts, rfl⟩⟩

/-- C22 without rounding: every cell reads back exactly, NaN as NaN. -/
theorem C22_float_exact_partial (h : FltInput clog lg k levels p B false a bits n rows cols)
    (hb : Superchunk.build H clog lg k levels log (.flt p a bits false) n rows cols = some (r, log'))
    (log'' : Saved) (hsub : log' ⊆ log'') (hnc : log''.NoCollision H) (fuel : Nat)
    (hf : levels.length < fuel) (t row col : Nat) (ht : t < n) (hr : row < rows) (hc : col < cols) :
    ∃ bits' v, r.data.get utf8 (log''.load H) fuel r.data.fractionalBits t row col = .ok (bits', v) ∧
      fromFixed p v bits' = a t row col := by
  obtain ⟨bits', v, e, h1⟩ := C22_float_get_partial (utf8 := utf8) h hb log'' hsub hnc fuel hf t row col
    ht hr hc
  exact ⟨bits', v, e, h1.trans (h.ok.fits t row col ht hr hc).rounded_exact⟩

/-- C22 with rounding to `B` bits: numbers read back as numbers within half a unit, NaN as NaN. -/
theorem C22_float_near_partial (h : FltInput clog lg k levels p B true a bits n rows cols)
    (hb : Superchunk.build H clog lg k levels log (.flt p a bits true) n rows cols = some (r, log'))
    (log'' : Saved) (hsub : log' ⊆ log'') (hnc : log''.NoCollision H) (fuel : Nat)
    (hf : levels.length < fuel) (t row col : Nat) (ht : t < n) (hr : row < rows) (hc : col < cols) :
    ∃ bits' v, r.data.get utf8 (log''.load H) fuel r.data.fractionalBits t row col = .ok (bits', v) ∧
      (a t row col = .nan → fromFixed p v bits' = .nan) ∧
      ∀ q, a t row col = .fin q → ∃ q', fromFixed p v bits' = .fin q' ∧ |q' - q| ≤ 1 / 2 * (1 / 2 ^ B) := by
  obtain ⟨bits', v, e, h1⟩ := C22_float_get_partial (utf8 := utf8) h hb log'' hsub hnc fuel hf t row col
    ht hr hc
  refine ⟨bits', v, e, fun hn => by rw [h1, hn]; rfl, fun q hq => ⟨roundTo B q, by rw [h1, hq]; rfl, roundTo_near B q⟩⟩

/-- C27, floats: a square of the grid that the builder elided is, as far as it is read back, constant
in every instant, with the value kept for it. -/
theorem C27_float_elision_partial (h : FltInput clog lg k levels p B round a bits n rows cols)
    (hb : Superchunk.build H clog lg k levels log (.flt p a bits round) n rows cols = some (r, log'))
    (hnc : log'.NoCollision H) :
    ∃ head, r.data = .superchunk head [] ∧ ∀ i j, i * head.chunksSidelen < rows →
      j * head.chunksSidelen < cols → head.references[i * head.subsidelen + j]? = some .elided →
      ∀ t, t < n → ∃ v, head.max.get (head.slot (i * head.subsidelen + j) t) = some v ∧
        ∀ row col, i * head.chunksSidelen ≤ row → row < (i + 1) * head.chunksSidelen → row < rows →
          j * head.chunksSidelen ≤ col → col < (j + 1) * head.chunksSidelen → col < cols →
          (a t row col).rounded B = fromFixed p v head.fractionalBits := by
  have hrep := h.repr (utf8 := fun _ => true) hb (List.Subset.refl _) hnc
  obtain ⟨⟨head, e, -⟩, -⟩ := superchunk_repr (fltReads clog h.lgOk h.arity h.even p h.max_bits round
      (fun e => ∃ s, s <:+ levels.tail ∧ e = s.sum))
    H (fun _ => true) h.arity
    h.arity_lt _ n h.clogOk h.instants levels h.levelsOk (fun s hs => ⟨s, hs, rfl⟩) log _ rows cols r log'
    ⟨a, bits, rfl, h.ok⟩ h.rows_pos h.cols_pos (Nat.le_max_left ..) (Nat.le_max_right ..) hb
  refine ⟨head, e, fun i j hi hj href t ht => ?_⟩
  rw [e] at hrep
  have hrep : SuperRepr _ _ _ _ _ head [] n rows cols _ := hrep
  rcases hrep.sub i j hi hj with ⟨-, h2⟩ | ⟨ref, m, h1, h2, -⟩
  · obtain ⟨v, e, hv⟩ := h2 t ht
    refine ⟨v, e, fun row col a1 a2 a3 a4 a5 a6 => ?_⟩
    rw [Nat.succ_mul] at a2 a5
    have := hv (row - i * head.chunksSidelen) (col - j * head.chunksSidelen) (by omega) (by omega)
      (by omega) (by omega)
    rwa [show i * head.chunksSidelen + (row - i * head.chunksSidelen) = row by omega,
      show j * head.chunksSidelen + (col - j * head.chunksSidelen) = col by omega] at this
  · rw [href] at h2
    cases h2
    exact absurd rfl h1

/-- C28, floats: what the builder makes fits the format, so that it reads back (`C28_round_trip_partial`). -/
theorem C28_float_built (h : FltInput clog lg k levels p B round a bits n rows cols)
    (hb : Superchunk.build H clog lg k levels log (.flt p a bits round) n rows cols = some (r, log')) :
    r.data.WF :=
  (superchunk_repr (fltReads clog h.lgOk h.arity h.even p h.max_bits round
      (fun e => ∃ s, s <:+ levels.tail ∧ e = s.sum)) H (fun _ => true) h.arity h.arity_lt
    _ n h.clogOk h.instants levels
    h.levelsOk (fun s hs => ⟨s, hs, rfl⟩) log _ rows cols r log' ⟨a, bits, rfl, h.ok⟩ h.rows_pos
    h.cols_pos (Nat.le_max_left ..) (Nat.le_max_right ..) hb).2.1

/-- C26, floats: the builder succeeds exactly for the levels that are `BuildOk`, in which parts are
constant if they are read back as constant. -/
theorem C26_float_accepts_iff (h : FltInput clog lg k levels p B round a bits n rows cols) (hn : 1 ≤ n) :
    (Superchunk.build H clog lg k levels log (.flt p a bits round) n rows cols).isSome ↔
      BuildOk clog k n levels (fun t r c => (a t r c).rounded B) rows cols :=
  Superchunk.build_total_iff (fltAccepts clog h.lgOk h.arity p h.max_bits round
      (fun e => ∃ s, s <:+ levels.tail ∧ e = s.sum) hn)
    (by have := h.arity; omega) levels log _ rows cols (fun s hs => ⟨s, hs, rfl⟩) ⟨a, bits, rfl, h.ok⟩
    h.rows_pos h.cols_pos h.clogOk

end

/-! Example meeting the hypotheses. -/

theorem exampleLgOk : LogClose exampleLg := by
  intro q hq _
  unfold exampleLg
  rw [Int.toNat_natCast]
  have hfl : q.floor = ⌊q⌋ := rfl
  rw [hfl]
  have h0 : 0 ≤ ⌊q⌋ := Int.floor_nonneg.2 hq.le
  obtain ⟨m, hm⟩ : ∃ m : Nat, ⌊q⌋ = m := ⟨⌊q⌋.toNat, by omega⟩
  have h1 := Int.floor_le q
  have h2 := Int.lt_floor_add_one q
  rw [hm] at *
  rw [Int.toNat_natCast]
  push_cast at h1 h2
  constructor
  · have h3 : m < 2 ^ (Nat.log2 m + 1) := Nat.lt_log2_self
    have h4 : ((m + 1 : Nat) : Rat) ≤ ((2 ^ (Nat.log2 m + 1) : Nat) : Rat) := by exact_mod_cast h3
    push_cast at h4
    linarith
  · by_cases hm0 : m = 0
    · subst hm0
      simp
    · have h3 := Nat.log2_self_le hm0
      have h4 : ((2 ^ Nat.log2 m : Nat) : Rat) ≤ (m : Rat) := by exact_mod_cast h3
      push_cast at h4
      apply le_trans _ (le_max_right _ _)
      linarith

/-- Two instants of 4 rows and columns of quarters, in part negative; the quarter at the upper left is
constant in each instant, and one cell is not a number. -/
def exampleFloats (t r c : Nat) : Flt :=
  if r = 3 ∧ c = 3 then .nan
  else if r < 2 ∧ c < 2 then .fin ((10 + t : Nat) / 4)
  else .fin (((4 * r + c * c + t : Nat) - 15 : Int) / 4)

theorem exampleFloats_fin {t r c : Nat} (ht : t < 2) (hr : r < 4) (hc : c < 4) {q : Rat}
    (h : exampleFloats t r c = .fin q) : ∃ z : Int, q = z / 4 ∧ -15 ≤ z ∧ z ≤ 15 := by
  unfold exampleFloats at h
  split at h
  · cases h
  split at h
  · cases h
    exact ⟨(10 + t : Nat), by push_cast; rfl, by omega, by omega⟩
  · cases h
    have : c * c ≤ 9 := Nat.mul_le_mul (show c ≤ 3 by omega) (show c ≤ 3 by omega)
    refine ⟨_, rfl, by omega, by omega⟩

theorem of_mem_squareValues {α : Type} {a : Nat → Nat → Nat → α} {top bottom left right t : Nat} {v : α}
    (h : v ∈ squareValues a top bottom left right t) :
    ∃ r c, top ≤ r ∧ r < bottom ∧ left ≤ c ∧ c < right ∧ v = a t r c := by
  unfold squareValues Spec.cells at h
  obtain ⟨q, hq, rfl⟩ := List.mem_map.1 h
  obtain ⟨r, hr, hq⟩ := List.mem_flatMap.1 hq
  obtain ⟨c, hc, rfl⟩ := List.mem_map.1 hq
  rw [List.mem_range'_1] at hr hc
  exact ⟨r, c, by omega, by omega, by omega, by omega, rfl⟩

theorem exampleFloats_ok : FltOk .single 2 false 2 (fun e => ∃ s, s <:+ [1] ∧ e = s.sum) exampleFloats 2
    2 4 4 where
  bits_le := by decide
  fits := by
    intro t r c ht hr hc
    cases h : exampleFloats t r c with
    | nan => trivial
    | inf s => unfold exampleFloats at h; split at h <;> [cases h; (split at h <;> cases h)]
    | fin q =>
      obtain ⟨z, rfl, h1, h2⟩ := exampleFloats_fin ht hr hc h
      have e : (z : Rat) / 4 * 2 ^ 2 = z := by ring
      refine ⟨⟨z, -2, ?_, ?_⟩, ?_, fun _ => ⟨z, e⟩, ?_⟩
      · show z.natAbs < 2 ^ 24
        omega
      · rw [zpow_neg]; norm_num; ring
      · rw [abs_div, show |(4 : Rat)| = 4 by norm_num]
        have : |(z : Rat)| ≤ 15 := by
          rw [abs_le]
          constructor <;> [exact_mod_cast h1; exact_mod_cast h2]
        linarith
      · rw [e]
        rintro ⟨a1, a2⟩
        have b1 : (-1 : Int) < z := by exact_mod_cast a1
        have b2 : ((2 * z : Int) : Rat) ≤ ((-1 : Int) : Rat) := by push_cast; linarith
        have b2 : 2 * z ≤ -1 := by exact_mod_cast b2
        omega
  bitsOk := fun _ _ _ _ _ _ => .inl rfl
  grid := by
    rintro e i j ⟨s, hs, rfl⟩ hi hj
    have hs' : s = [1] ∨ s = [] := by
      rcases List.suffix_cons_iff.1 hs with h | h
      · exact .inl h
      · exact .inr (List.suffix_nil.1 h)
    refine ⟨fun hst t ht => ?_, fun _ q hq => .inl ?_⟩
    · rcases hs' with rfl | rfl
      · have e2 : (2 : Nat) ^ [1].sum = 2 := rfl
        rw [e2] at hi hj
        have hi : i < 2 := by omega
        have hj : j < 2 := by omega
        by_cases h11 : i = 1 ∧ j = 1
        · obtain ⟨rfl, rfl⟩ := h11
          exfalso
          obtain ⟨y, hy⟩ := hst 0 (by omega)
          have e : (squareValues exampleFloats 2 4 2 4 0).dropWhile (· = .nan) =
              [.fin (-3 / 4), .fin (2 / 4), .fin (1 / 4), .nan] := by decide +kernel
          have hy : ∀ v ∈ (squareValues exampleFloats 2 4 2 4 0).dropWhile (· = .nan),
            v ≠ .nan ∧ v.rounded 2 = y := hy
          rw [e] at hy
          exact (hy .nan (by simp)).1 rfl
        · right
          rintro v hv rfl
          obtain ⟨r, c, h1, h2, h3, h4, h5⟩ := of_mem_squareValues hv
          rw [e2] at *
          unfold exampleFloats at h5
          rw [if_neg (by omega)] at h5
          split at h5 <;> cases h5
      · simp only [List.sum_nil, Nat.pow_zero, Nat.mul_one] at *
        by_cases hn : exampleFloats t i j = .nan
        · left
          intro v hv
          obtain ⟨r, c, h1, h2, h3, h4, rfl⟩ := of_mem_squareValues hv
          rw [show r = i by omega, show c = j by omega, hn]
        · right
          intro v hv
          obtain ⟨r, c, h1, h2, h3, h4, rfl⟩ := of_mem_squareValues hv
          rwa [show r = i by omega, show c = j by omega]
    · obtain ⟨t, ht, hq⟩ := List.mem_flatMap.1 hq
      obtain ⟨r, c, h1, h2, h3, h4, h5⟩ := of_mem_squareValues hq
      obtain ⟨z, rfl, h6, h7⟩ := exampleFloats_fin (List.mem_range.1 ht) (by omega) (by omega) h5.symm
      have : (-15 : Rat) ≤ z := by exact_mod_cast h6
      linarith

theorem exampleFltInput : FltInput exampleClog exampleLg 2 [1, 1] .single 2 false exampleFloats 2 2 4
    4 where
  arity := by decide
  even := by decide
  arity_lt := by decide
  clogOk := exampleClogOk.mono (by decide)
  lgOk := exampleLgOk
  rows_pos := by decide
  cols_pos := by decide
  instants := by decide
  levelsOk := ⟨by decide, by decide, by decide⟩
  max_bits := by decide
  ok := exampleFloats_ok

/-- It is accepted; one part is elided, and the others have their own numbers of bits. -/
example : (Superchunk.build exampleHash exampleClog exampleLg 2 [1, 1] []
    (.flt .single exampleFloats 2 false) 2 4 4).isSome :=
  (C26_float_accepts_iff exampleFltInput (by decide)).2 ⟨by decide, trivial⟩

example : ((Superchunk.build exampleHash exampleClog exampleLg 2 [1, 1] []
    (.flt .single exampleFloats 2 false) 2 4 4).map fun r => match r.1.data with
      | .superchunk h _ => (h.references, r.1.elided, r.1.external, r.2.length)
      | _ => ([], 0, 0, 0)) = some ([.elided, .external 0, .external 1, .external 2], 1, 3, 4) := by
  decide +kernel

end Verif
