import Verif.Props.Array
import Verif.Props.Resolver
import Verif.Props.SuperFloat
import Verif.Lemmas.Inexact

/-!
Properties C31, C32 and C45 for variables of floats; C40 for appends.
-/
namespace Verif

open Prog hiding pure bind

/-- `f32` or `f64`, as a type of array. -/
def Prec.kind : Prec → Kind Flt
  | .single => .f32
  | .double => .f64

/-- The assumptions on a history of a variable of floats: the arrays appended to it are of its type,
and all of them together fit (`FltVar`). -/
structure FltHistory (utf8 : List Byte → Bool) (clog : Nat → Nat) (lg : Rat → Int) (readFuel : Nat)
    (d : Dataset) (name : List Byte) (round : Option Nat) (ss cs : Nat) (levels : List Nat) (p : Prec)
    (B : Nat) (ops : List Op) : Prop extends
    HistoryShape utf8 readFuel d name round ss cs levels p.kind.encoding ops where
  type : ∀ x ∈ arrays name ops, ∃ a, x.1 = .flt p a
  flt : FltVar clog lg levels p B round (concatFlt (arrays name ops)) (total (arrays name ops)) d.rows
    d.cols cs ss

section
variable {H : Hash} {utf8 : List Byte → Bool} {clog : Nat → Nat} {lg : Rat → Int} {fuel readFuel : Nat}
  {levels : List Nat} {cs ss : Nat} {p : Prec} {B : Nat}

theorem FltHistory.follows {d : Dataset} {name : List Byte} {round : Option Nat}
    {ops : List Op} (h : FltHistory utf8 clog lg readFuel d name round ss cs levels p B ops) :
    Follows (NextFlt p (concatFlt (arrays name ops)) (total (arrays name ops)) d.rows d.cols) 0
      (arrays name ops) :=
  follows_flt _ _ (by omega) (fun t r c _ _ _ => by rw [Nat.zero_add]) h.type

theorem FltHistory.inv {d : Dataset} {name : List Byte} {round : Option Nat}
    {ops : List Op} (h : FltHistory utf8 clog lg readFuel d name round ss cs levels p B ops)
    (hf : 32 ≤ fuel) (hrf : levels.length < readFuel) (log : Saved)
    (hnc : (runs H utf8 clog lg fuel (.addVariable name round ss cs levels p.kind.encoding :: ops)
      (d, log)).2.NoCollision H) :
    HistInv H utf8 (h.flt.theory H p.kind.encoding) levels round name (runs H utf8 clog lg fuel
      (.addVariable name round ss cs levels p.kind.encoding :: ops) (d, log)) (total (arrays name ops)) :=
  HistoryShape.inv (T := h.flt.theory H p.kind.encoding) h.toHistoryShape rfl rfl (h.flt.appends hf hrf)
    h.follows log hnc

/-- A variable of floats reads as a series. -/
theorem HistInv.floats {D : Nat → Nat → Nat → Flt} {N rows cols : Nat} {round : Option Nat}
    (h : FltBase clog lg levels p B round D N rows cols cs ss) {name : List Byte} {enc : MMEncoding}
    {s : Dataset × Saved} {M : Nat} (hi : HistInv H utf8 (h.theory H enc) levels round name s M)
    (log : Saved) (hsub : s.2 ⊆ log) (hnc : log.NoCollision H) (hrf : levels.length + 34 ≤ readFuel) :
    ∃ v m, s.1.findVariable name = some v ∧ (log.load H).getStruct utf8 v.cid = .ok m ∧
      m.encoding = enc ∧ Reads (fun bits v => fromFixed p v bits) utf8 (log.load H) readFuel m M rows cols
        (fun t r c => (D t r c).rounded B) := by
  obtain ⟨v, tl, h1, h2, -, h3, h4, he, i, root, h5, h6, h7, -⟩ := hi.var
  have hh := VarTheory.height_lt _ h7
  have h5 := h5.mono hsub
  have h6 := h6.mono hsub
  refine ⟨v, .span root, h1, h5.get utf8 hnc, h6.shaped.encoding, ?_⟩
  have hrep := Tree.represents (T := h.theory H enc) (utf8 := utf8)
    (dec := fun bits v => fromFixed p v bits) (Leaf := LeafReads fun bits v => fromFixed p v bits)
    (Ext := ExtOf fun _ _ => True) (D := fun t r c => (D t r c).rounded B) (d := levels.length + 1) hnc
    (fun m a n hK => FltChunk.reads hK utf8 log (List.Subset.refl _) hnc) _ _ _ _ _ h6
  simp only [Nat.zero_add] at hrep
  refine ⟨h6.shape, fun t row col h1 h2 h3 => ?_, ?_, ?_⟩
  · exact repr_get (fun _ _ _ _ _ h => h) _ readFuel _ _ _ _ _ hrep (by omega) t row col h1 h2 h3
  · intro start fin row col a1 a2 a3 a4
    exact repr_fillCell (fun _ _ _ _ _ h => h) _ readFuel _ _ _ _ _ hrep (by omega) start fin row col a1 a2
      a3 a4
  · intro start fin top bottom left right a1 a2 a3 a4 a5 a6
    exact repr_fillWindow (fun _ _ _ _ _ h => h) _ readFuel _ _ _ _ _ hrep (by omega) start fin top
      bottom left right a1 a2 a3 a4 a5 a6

theorem Variable.data_ok {α : Type} {kind : Kind α} {st : Store} {v : Variable} {m : MMStruct3}
    (h : st.getStruct utf8 v.cid = .ok m) (he : m.encoding = kind.encoding) :
    v.data kind utf8 st = .ok m := by
  unfold Variable.data
  rw [h]
  simp only
  unfold Kind.new
  rw [he, if_neg (by exact fun h => h rfl)]

/-- C31 for floats: after any history, `data_f32` or `data_f64` gives an array whose reads return, for
every number appended, `Flt.rounded B` of it, where `B` is the number of bits to round to.

Partial: `FltHistory` (with `FltVar`) asks that the arrays are of the type of the variable, that all
numbers can be stored and the number of bits is right (see C39, C41), that squares of the grids do
not mix NaN with a single number (see C27), and that the superchunk builder accepts the rasters (see
C26). -/
theorem C31_float_history_partial (d : Dataset) (name : List Byte) (round : Option Nat)
    (ops : List Op) (log : Saved)
    (h : FltHistory utf8 clog lg readFuel d name round ss cs levels p B ops)
    (hf : 32 ≤ fuel) (hrf : levels.length + 34 ≤ readFuel) (s : Dataset × Saved)
    (hs : s = runs H utf8 clog lg fuel (.addVariable name round ss cs levels p.kind.encoding :: ops)
      (d, log))
    (hnc : s.2.NoCollision H) :
    ∃ v m, s.1.findVariable name = some v ∧ v.data p.kind utf8 (s.2.load H) = .ok m ∧
      ArrayReads p.kind utf8 (s.2.load H) readFuel m (total (arrays name ops)) d.rows d.cols
        (fun t r c => (concatFlt (arrays name ops) t r c).rounded B) := by
  subst hs
  obtain ⟨v, m, h1, h2, h3, h4⟩ := (h.inv hf (by omega) log hnc).floats h.flt.toFltBase _ (List.Subset.refl _) hnc hrf
  refine ⟨v, m, h1, Variable.data_ok h2 h3, Reads.array ?_⟩
  cases p <;> exact h4

/-- C31 for floats that are not rounded: reads return exactly what was appended, NaN included. -/
theorem C31_float_exact_partial (d : Dataset) (name : List Byte)
    (ops : List Op) (log : Saved)
    (h : FltHistory utf8 clog lg readFuel d name none ss cs levels p B ops)
    (hf : 32 ≤ fuel) (hrf : levels.length + 34 ≤ readFuel) (s : Dataset × Saved)
    (hs : s = runs H utf8 clog lg fuel (.addVariable name none ss cs levels p.kind.encoding :: ops)
      (d, log))
    (hnc : s.2.NoCollision H) :
    ∃ v m, s.1.findVariable name = some v ∧ v.data p.kind utf8 (s.2.load H) = .ok m ∧
      ArrayReads p.kind utf8 (s.2.load H) readFuel m (total (arrays name ops)) d.rows d.cols
        (concatFlt (arrays name ops)) := by
  subst hs
  obtain ⟨v, m, h1, h2, h3, h4⟩ := (h.inv hf (by omega) log hnc).floats h.flt.toFltBase _ (List.Subset.refl _) hnc hrf
  refine ⟨v, m, h1, Variable.data_ok h2 h3, Reads.array ?_⟩
  have := h4.congr (data' := concatFlt (arrays name ops)) fun t r c a1 a2 a3 =>
    (h.flt.fits t r c a1 a2 a3).rounded_exact
  cases p <;> exact this

/-- C31 for floats that are rounded to `B` bits: what is read differs by no more than half a unit from
what was appended, however often the chunk it is in was read back and stored again by later appends. -/
theorem C31_float_near_partial (d : Dataset) (name : List Byte)
    (ops : List Op) (log : Saved)
    (h : FltHistory utf8 clog lg readFuel d name (some B) ss cs levels p B ops)
    (hf : 32 ≤ fuel) (hrf : levels.length + 34 ≤ readFuel) (s : Dataset × Saved)
    (hs : s = runs H utf8 clog lg fuel (.addVariable name (some B) ss cs levels p.kind.encoding :: ops)
      (d, log))
    (hnc : s.2.NoCollision H) :
    ∃ v m, s.1.findVariable name = some v ∧ v.data p.kind utf8 (s.2.load H) = .ok m ∧
      m.shape = some (total (arrays name ops), d.rows, d.cols) ∧
      ∀ t row col, t < total (arrays name ops) → row < d.rows → col < d.cols →
        ∃ x, p.kind.get utf8 (s.2.load H) readFuel m t row col = .ok x ∧
          (concatFlt (arrays name ops) t row col = .nan → x = .nan) ∧
          ∀ q, concatFlt (arrays name ops) t row col = .fin q →
            ∃ q', x = .fin q' ∧ |q' - q| ≤ 1 / 2 * (1 / 2 ^ B) := by
  obtain ⟨v, m, h1, h2, h3⟩ := C31_float_history_partial d name (some B) ops log h hf hrf s hs hnc
  refine ⟨v, m, h1, h2, h3.shape, fun t row col a1 a2 a3 => ⟨_, h3.get t row col a1 a2 a3,
    fun hn => by rw [hn]; rfl, fun q hq => ⟨roundTo B q, by rw [hq]; rfl, roundTo_near B q⟩⟩⟩

/-- C31 for floats: an append that keeps to the assumptions succeeds after any history. -/
theorem C31_float_append_succeeds_partial (d : Dataset) (name : List Byte) (round : Option Nat)
    (ops : List Op) (log : Saved) (fill : Fill) (data : NdArray) (n : Nat)
    (h : FltHistory utf8 clog lg readFuel d name round ss cs levels p B
      (ops ++ [.append fill name data n d.rows d.cols]))
    (hf : 32 ≤ fuel) (hrf : levels.length < readFuel)
    (s : Dataset × Saved)
    (hs : s = runs H utf8 clog lg fuel (.addVariable name round ss cs levels p.kind.encoding :: ops)
      (d, log))
    (hnc : (Dataset.append H utf8 clog lg fuel fill s.1 name data n d.rows d.cols s.2).2.NoCollision H) :
    ∃ d' log', Dataset.append H utf8 clog lg fuel fill s.1 name data n d.rows d.cols s.2 =
      (.ok d', log') := by
  subst hs
  exact HistoryShape.append (T := h.flt.theory H p.kind.encoding) h.toHistoryShape rfl rfl
    (h.flt.appends hf hrf) h.follows log hnc

/-- C32 for floats: the contents of a variable, as they were at some point of a history, stay readable
under the identifier the variable had then. Partial as `C31_float_history_partial`. -/
theorem C32_float_contents_partial (d : Dataset) (name : List Byte) (round : Option Nat)
    (ops later : List Op) (log : Saved)
    (h : FltHistory utf8 clog lg readFuel d name round ss cs levels p B ops)
    (hf : 32 ≤ fuel) (hrf : levels.length + 34 ≤ readFuel) (s s' : Dataset × Saved)
    (hs : s = runs H utf8 clog lg fuel (.addVariable name round ss cs levels p.kind.encoding :: ops)
      (d, log))
    (hs' : s' = runs H utf8 clog lg fuel later s) (hnc : s'.2.NoCollision H) :
    ∃ v m, s.1.findVariable name = some v ∧ v.data p.kind utf8 (s'.2.load H) = .ok m ∧
      ArrayReads p.kind utf8 (s'.2.load H) readFuel m (total (arrays name ops)) d.rows d.cols
        (fun t r c => (concatFlt (arrays name ops) t r c).rounded B) := by
  subst hs hs'
  have hsub := runs_mono (H := H) (utf8 := utf8) (clog := clog) (lg := lg) (fuel := fuel) later
    (runs H utf8 clog lg fuel (.addVariable name round ss cs levels p.kind.encoding :: ops) (d, log))
  obtain ⟨v, m, h1, h2, h3, h4⟩ := (h.inv hf (by omega) log (NoCollision.mono hsub hnc)).floats h.flt.toFltBase _
    hsub hnc hrf
  refine ⟨v, m, h1, Variable.data_ok h2 h3, Reads.array ?_⟩
  cases p <;> exact h4

/-- C40 for appends: to a variable without rounding only data are appended that can be stored exactly,
whatever was appended before: no value is infinite, and every number is one of at most 61 bits after the
binary point. Everything else is rejected. (That what is accepted reads back exactly is
`C31_float_exact_partial`; for large negative numbers it is false, `C41_negative_wrong`.) -/
theorem C40_append_exact (fill : Fill) (d d' : Dataset) (name : List Byte) (v : Variable)
    (a : Nat → Nat → Nat → Flt) (n rows cols : Nat) (log log' : Saved)
    (hv : d.findVariable name = some v) (hr : v.round = none)
    (h : Dataset.append H utf8 clog lg fuel fill d name (.flt p a) n rows cols log = (.ok d', log')) :
    ∀ t r c, t < n → r < rows → c < cols → (∀ s, a t r c ≠ .inf s) ∧
      ∀ q, a t r c = .fin q → ∃ z : Int, q * 2 ^ 61 = z := by
  have key : Post (Dataset.append H utf8 clog lg fuel fill d name (.flt p a) n rows cols) fun _ =>
      ∀ t r c, t < n → r < rows → c < cols → (a t r c).Exact := by
    unfold Dataset.append
    rw [hv]
    refine Post.bind (Q := fun _ => ∀ t r c, t < n → r < rows → c < cols → (a t r c).Exact) ?_
      fun v' hv' => Post.pure hv'
    unfold Variable.appendArray
    refine (Post.any _).bind fun tail _ => ?_
    cases tail with
    | none =>
      simp only [NdArray.buffer, hr]
      exact Variable.append_exact _ _ _ _ _ _ _
    | some tail =>
      refine (Post.any _).bind fun shape _ => (Post.any _).bind fun st _ => ?_
      cases (fill tail st).2 with
      | some f => exact Post.fail
      | none =>
        simp only
        split
        · exact Post.fail
        · simp only [NdArray.prepend, NdArray.buffer, hr]
          intro log y log' e t r c ht hr hc
          have := Variable.append_exact _ _ _ _ _ _ _ _ _ _ e (shape.1 + t) r c (by omega) hr hc
          simpa [appendArray] using this
  intro t r c ht hr hc
  have := key _ _ _ h t r c ht hr hc
  refine ⟨fun s e => ?_, fun q e => ?_⟩ <;> rw [e] at this <;> exact this

end

/-! ### Examples -/

/-- Six instants of 4 rows and columns; `g` gives the numbers. A quarter is constant in each instant,
and one cell is not a number. -/
def exampleFltSeries (g : Int → Rat) (t r c : Nat) : Flt :=
  if 6 ≤ t ∨ r = 3 ∧ c = 3 then .nan
  else if r < 2 ∧ c < 2 then .fin (g (10 + t : Nat))
  else .fin (g ((4 * r + c * c + t : Nat) - 15))

theorem exampleFltSeries_fin {g : Int → Rat} {t r c : Nat} (hr : r < 4) (hc : c < 4) {q : Rat}
    (h : exampleFltSeries g t r c = .fin q) : ∃ z : Int, q = g z ∧ -15 ≤ z ∧ z ≤ 15 := by
  unfold exampleFltSeries at h
  split at h
  · cases h
  rename_i h6
  split at h
  · cases h
    exact ⟨_, rfl, by omega, by omega⟩
  · cases h
    have : c * c ≤ 9 := Nat.mul_le_mul (show c ≤ 3 by omega) (show c ≤ 3 by omega)
    refine ⟨_, rfl, by omega, by omega⟩

theorem exampleFltSeries_not_inf {g : Int → Rat} {t r c : Nat} {s : Bool} :
    exampleFltSeries g t r c ≠ .inf s := by
  intro h
  unfold exampleFltSeries at h
  split at h
  · cases h
  split at h <;> cases h

theorem exampleFltSeries_nan {g : Int → Rat} {t r c : Nat} (ht : t < 6) (h : exampleFltSeries g t r c = .nan) :
    r = 3 ∧ c = 3 := by
  unfold exampleFltSeries at h
  split at h
  · omega
  split at h <;> cases h

theorem exampleFltSeries_var (g : Int → Rat) (B : Nat) (round : Option Nat) (hB : B ≤ 60)
    (hround : ∀ b, round = some b → b = B)
    (hfit : ∀ z, -15 ≤ z → z ≤ 15 → (Flt.fin (g z)).Fits .single B round.isSome)
    (hlow : ∀ z, -15 ≤ z → -4 ≤ g z) :
    FltVar exampleClog exampleLg [1, 1] .single B round (exampleFltSeries g) 6 4 4 2 2 where
  clogOk := exampleClogOk.mono (by decide)
  lgOk := exampleLgOk
  rows_pos := by decide
  cols_pos := by decide
  rows_lt := by decide
  cols_lt := by decide
  cs_pos := by decide
  cs_lt := by decide
  ss_two := by decide
  ss_lt := by decide
  instants := by decide
  levelsOk := ⟨by decide, by decide, by decide⟩
  max_bits := hB
  roundOk := hround
  fits := by
    intro t r c ht hr hc
    cases h : exampleFltSeries g t r c with
    | nan => trivial
    | inf s => exact absurd h exampleFltSeries_not_inf
    | fin q =>
      obtain ⟨z, rfl, h1, h2⟩ := exampleFltSeries_fin hr hc h
      exact hfit z h1 h2
  grid := by
    rintro a n h1 h2 h3 e i j ⟨s, hs, rfl⟩ hi hj
    have hs' : s = [1] ∨ s = [] := by
      rcases List.suffix_cons_iff.1 hs with h | h
      · exact .inl h
      · exact .inr (List.suffix_nil.1 h)
    refine ⟨fun hst t ht => ?_, fun _ q hq => .inl ?_⟩
    · rcases hs' with rfl | rfl
      · have e2 : (2 : Nat) ^ [1].sum = 2 := rfl
        rw [e2] at hi hj
        have hi : i < 2 := by omega
        have hj : j < 2 := by omega
        by_cases h11 : i = 1 ∧ j = 1
        · obtain ⟨rfl, rfl⟩ := h11
          exfalso
          obtain ⟨y, hy⟩ := hst 0 (by omega)
          have hy : ∀ v ∈ ([exampleFltSeries g (a + 0) 2 2, exampleFltSeries g (a + 0) 2 3,
              exampleFltSeries g (a + 0) 3 2, exampleFltSeries g (a + 0) 3 3].dropWhile (· = .nan)),
            v ≠ .nan ∧ v.rounded B = y := hy
          have e1 : exampleFltSeries g (a + 0) 2 2 ≠ .nan := fun h => by
            have := exampleFltSeries_nan (by omega) h
            omega
          have e2 : exampleFltSeries g (a + 0) 3 3 = .nan := by
            unfold exampleFltSeries
            rw [if_pos (.inr ⟨rfl, rfl⟩)]
          rw [List.dropWhile_cons_of_neg (by simpa using e1), e2] at hy
          exact (hy .nan (by simp)).1 rfl
        · right
          rintro v hv rfl
          obtain ⟨r, c, h1, h2, h3, h4, h5⟩ := of_mem_squareValues hv
          rw [e2] at *
          have := exampleFltSeries_nan (by omega) h5.symm
          omega
      · simp only [List.sum_nil, Nat.pow_zero, Nat.mul_one] at *
        by_cases hn : exampleFltSeries g (a + t) i j = .nan
        · left
          intro v hv
          obtain ⟨r, c, h1, h2, h3, h4, rfl⟩ := of_mem_squareValues hv
          rw [show r = i by omega, show c = j by omega, hn]
        · right
          intro v hv
          obtain ⟨r, c, h1, h2, h3, h4, rfl⟩ := of_mem_squareValues hv
          rwa [show r = i by omega, show c = j by omega]
    · obtain ⟨t, ht, hq⟩ := List.mem_flatMap.1 hq
      obtain ⟨r, c, h1, h2, h3, h4, h5⟩ := of_mem_squareValues hq
      obtain ⟨z, rfl, h6, h7⟩ := exampleFltSeries_fin (by omega) (by omega) h5.symm
      exact hlow z h6
  balanced := by
    intro a n h1 h2 h3 q hq
    obtain ⟨t, ht, hq⟩ := List.mem_flatMap.1 hq
    obtain ⟨r, c, h1, h2, h3, h4, h5⟩ := of_mem_squareValues hq
    obtain ⟨z, rfl, h6, h7⟩ := exampleFltSeries_fin (by omega) (by omega) h5.symm
    exact .inl (hlow z h6)
  accepts := fun a n _ _ _ => ⟨rfl, trivial⟩

/-- `n` instants, a commit, up to four instants, and two more. With `n = 1` the second append reads back
the short chunk that the first has left. Chunks have two instants, spans two children. -/
def exampleFloatOps (g : Int → Rat) (n : Nat) : List Op :=
  [.append exampleFill [7] (.flt .single (exampleFltSeries g)) n 4 4, .reload,
    .append exampleFill [7] (.flt .single fun t => exampleFltSeries g (n + t)) (4 - n) 4 4,
    .append exampleFill [7] (.flt .single fun t => exampleFltSeries g (4 + t)) 2 4 4]

theorem exampleFloatConcat (g : Int → Rat) {n : Nat} (hn : n ≤ 4) :
    concatFlt (arrays [7] (exampleFloatOps g n)) = exampleFltSeries g := by
  have e : arrays [7] (exampleFloatOps g n) = [(.flt .single (exampleFltSeries g), n),
    (.flt .single fun t => exampleFltSeries g (n + t), 4 - n),
    (.flt .single fun t => exampleFltSeries g (4 + t), 2)] := rfl
  rw [e]
  funext t r c
  simp only [concatFlt, NdArray.floats]
  split
  · rfl
  split
  · rw [show n + (t - n) = t by omega]
  split
  · rw [show 4 + (t - n - (4 - n)) = t by omega]
  · unfold exampleFltSeries
    rw [if_pos (.inl (by omega))]

theorem exampleFloatHistory (g : Int → Rat) {n : Nat} (hn : n ≤ 4) (B : Nat) (round : Option Nat) (hB : B ≤ 60)
    (hround : ∀ b, round = some b → b = B)
    (hfit : ∀ z, -15 ≤ z → z ≤ 15 → (Flt.fin (g z)).Fits .single B round.isSome)
    (hlow : ∀ z, -15 ≤ z → -4 ≤ g z) :
    FltHistory (fun _ => true) exampleClog exampleLg 40 exampleDataset [7] round 2 2 [1, 1] .single B
      (exampleFloatOps g n) where
  dataset := ⟨exampleWF, fun c hc => by cases hc⟩
  new := rfl
  fits := by
    refine ⟨by decide, rfl, fun b hb => ?_, by decide, by decide, by decide, by decide⟩
    rw [hround b hb]
    omega
  count := by change 1 < 256; decide
  each := by
    have hf := exampleFill_valid
    intro op ho
    simp only [exampleFloatOps, List.mem_cons, List.not_mem_nil, or_false] at ho
    rcases ho with rfl | rfl | rfl | rfl
    · exact ⟨trivial, fun _ => ⟨hf, rfl, rfl⟩⟩
    · exact ⟨trivial, trivial⟩
    · exact ⟨trivial, fun _ => ⟨hf, rfl, rfl⟩⟩
    · exact ⟨trivial, fun _ => ⟨hf, rfl, rfl⟩⟩
  type := by
    have e : arrays [7] (exampleFloatOps g n) = [(.flt .single (exampleFltSeries g), n),
      (.flt .single fun t => exampleFltSeries g (n + t), 4 - n),
      (.flt .single fun t => exampleFltSeries g (4 + t), 2)] := rfl
    rw [e]
    intro x hx
    simp only [List.mem_cons, List.not_mem_nil, or_false] at hx
    rcases hx with rfl | rfl | rfl <;> exact ⟨_, rfl⟩
  flt := by
    rw [exampleFloatConcat g hn]
    have e : total (arrays [7] (exampleFloatOps g n)) = n + (4 - n + 2) := rfl
    rw [e, show n + (4 - n + 2) = 6 by omega]
    exact exampleFltSeries_var g B round hB hround hfit hlow

/-- Quarters, not rounded. -/
theorem exampleExact {n : Nat} (hn : n ≤ 4) : FltHistory (fun _ => true) exampleClog exampleLg 40 exampleDataset [7] none 2
    2 [1, 1] .single 2 (exampleFloatOps (fun z => z / 4) n) := by
  refine exampleFloatHistory _ hn 2 none (by decide) (fun b hb => nomatch hb) (fun z h1 h2 => ?_)
    (fun z h1 => ?_)
  · have e : (z : Rat) / 4 * 2 ^ 2 = z := by ring
    refine ⟨⟨z, -2, ?_, ?_⟩, ?_, fun _ => ⟨z, e⟩, ?_⟩
    · show z.natAbs < 2 ^ 24
      omega
    · rw [zpow_neg]; norm_num; ring
    · rw [abs_div, show |(4 : Rat)| = 4 by norm_num]
      have : |(z : Rat)| ≤ 15 := by
        rw [abs_le]
        constructor <;> [exact_mod_cast h1; exact_mod_cast h2]
      linarith
    · rw [e]
      rintro ⟨a1, a2⟩
      have b1 : (-1 : Int) < z := by exact_mod_cast a1
      have b2 : ((2 * z : Int) : Rat) ≤ ((-1 : Int) : Rat) := by push_cast; linarith
      have b2 : 2 * z ≤ -1 := by exact_mod_cast b2
      omega
  · have : (-15 : Rat) ≤ z := by exact_mod_cast h1
    linarith

/-- Sixteenths, rounded to eighths. -/
theorem exampleRounded {n : Nat} (hn : n ≤ 4) : FltHistory (fun _ => true) exampleClog exampleLg 40 exampleDataset [7]
    (some 3) 2 2 [1, 1] .single 3 (exampleFloatOps (fun z => (3 * z + 1 : Int) / 16) n) := by
  refine exampleFloatHistory _ hn 3 (some 3) (by decide) (fun b hb => (Option.some.inj hb).symm)
    (fun z h1 h2 => ?_) (fun z h1 => ?_)
  · refine ⟨⟨3 * z + 1, -4, ?_, ?_⟩, ?_, fun h => (nomatch h), ?_⟩
    · show (3 * z + 1).natAbs < 2 ^ 24
      omega
    · rw [zpow_neg]; norm_num; ring
    · rw [abs_div, show |(16 : Rat)| = 16 by norm_num]
      have : |((3 * z + 1 : Int) : Rat)| ≤ 46 := by
        rw [abs_le]
        constructor
        · exact_mod_cast (show (-46 : Int) ≤ 3 * z + 1 by omega)
        · exact_mod_cast (show 3 * z + 1 ≤ (46 : Int) by omega)
      linarith
    · generalize hw : 3 * z + 1 = w
      rintro ⟨a1, a2⟩
      have b1 : ((-2 : Int) : Rat) < (w : Rat) := by push_cast; linarith
      have b2 : (w : Rat) ≤ ((-1 : Int) : Rat) := by push_cast; linarith
      have b1 : -2 < w := by exact_mod_cast b1
      have b2 : w ≤ -1 := by exact_mod_cast b2
      omega
  · have : ((-44 : Int) : Rat) ≤ ((3 * z + 1 : Int) : Rat) := by exact_mod_cast (show -44 ≤ 3 * z + 1 by omega)
    push_cast at this ⊢
    linarith

/-- Nothing collides in such a history, and what is read in the end is rounded:
7 / 16 to 4 / 8. Negative numbers keep one more bit (C39). -/
example : (runs exampleHash (fun _ => true) exampleClog exampleLg 32 (.addVariable [7] (some 3) 2 2 [1, 1] .f32 ::
    exampleFloatOps (fun z => (3 * z + 1 : Int) / 16) 2) (exampleDataset, [])).2.NoCollision exampleHash := by
  unfold Saved.NoCollision
  decide +kernel

example : (match runs exampleHash (fun _ => true) exampleClog exampleLg 32
    (.addVariable [7] (some 3) 2 2 [1, 1] .f32 :: exampleFloatOps (fun z => (3 * z + 1 : Int) / 16) 2)
      (exampleDataset, []) with
    | (d, log) => match d.findVariable [7] with
      | none => []
      | some v => match v.data .f32 (fun _ => true) (log.load exampleHash) with
        | .ok m => [(0, 2, 3), (1, 0, 2), (3, 3, 3), (5, 0, 0)].map fun (t, r, c) =>
          match Kind.f32.get (fun _ => true) (log.load exampleHash) 40 m t r c with
          | .ok x => some (exampleFltSeries (fun z => (3 * z + 1 : Int) / 16) t r c, x)
          | .error _ => none
        | .error _ => []) = [some (.fin (7 / 16), .fin (1 / 2)),
          some (.fin (-29 / 16), .fin (-29 / 16)), some (.nan, .nan), some (.fin (23 / 8), .fin (23 / 8))] := by
  decide +kernel

/-- An append of a number of 62 bits after the binary point is rejected, of one of 61 is not. -/
example : (match runs exampleHash (fun _ => true) exampleClog exampleLg 32
    [.addVariable [7] none 2 2 [1, 1] .f32] (exampleDataset, []) with
    | (d, log) => [62, 61].map fun b => match Dataset.append exampleHash (fun _ => true) exampleClog exampleLg 32
        exampleFill d [7] (.flt .single fun _ r c => .fin ((r + c : Nat) / 2 ^ b)) 1 4 4 log with
      | (.ok _, _) => true
      | (.error _, _) => false) = [false, true] := by
  unfold exampleFill
  decide +kernel

end Verif
