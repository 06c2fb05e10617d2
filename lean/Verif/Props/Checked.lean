import Verif.Lemmas.CheckedAny
import Verif.Lemmas.CheckedChunk
import Verif.Props.Negations

/-! C85: chunks with overflow checks (`overflow-checks = true`, the default of the dev profile). -/
namespace Verif

/-- The mathematical differences of a log and its snapshot are numbers of 64 bits. -/
def Spec.DiffFits (a b : Int64) : Prop := -2 ^ 63 ≤ a.toInt - b.toInt ∧ a.toInt - b.toInt < 2 ^ 63

/-- Three times the number is a number of 64 bits. -/
def Spec.Third (v : Int64) : Prop := -2 ^ 63 < 3 * v.toInt ∧ 3 * v.toInt < 2 ^ 63

theorem searchFits_of_third {getS getT : Nat → Nat → Int64} {rows cols : Nat}
    (hS : ∀ r c, r < rows → c < cols → Spec.Third (getS r c))
    (hT : ∀ r c, r < rows → c < cols → Spec.Third (getT r c)) : SearchFits getS getT rows cols := by
  intro v hv r c r' c' h1 h2 h3 h4 _ _
  have a := hS r c h1 h2
  have b := hS r' c' h3 h4
  have d := hT r c h1 h2
  rw [hv r c h1 h2] at d
  unfold Spec.Third at a b d
  unfold InI64
  omega

section
variable {get : Nat → Nat → Nat → Int64} {instants rows cols k e : Nat} {enc : MMEncoding} {fb : Nat}

theorem BlocksFit.pairs {bs : List Block} (h : BlocksFit get rows cols k e bs) {t0 t : Nat}
    (hp : LogPair bs t0 t) : CellsFit (get t0) (get t) rows cols := by
  obtain ⟨i, off, hh, hpos, hsum⟩ := hp
  obtain ⟨off, rfl⟩ : ∃ o, off = o + 1 := ⟨off - 1, by omega⟩
  obtain ⟨b, h1, h2, h3⟩ := id hh
  obtain ⟨l, hl⟩ := hh.log h1
  have := ((h i b h1).2 off l hl).1
  rw [show blocksLen (bs.take i) = t0 by omega, show t0 + 1 + off = t by omega] at this
  exact this

theorem cube_rect {start fin top bottom left right : Nat} (a1 : start ≤ fin) (a3 : top < bottom)
    (a4 : left < right) : Cube.new start fin top bottom left right = ⟨start, fin, top, bottom, left, right⟩ ∧
      (Cube.mk start fin top bottom left right).rect = ⟨top, bottom, left, right⟩ := by
  constructor
  · unfold Cube.new rearrange
    rw [if_neg (by omega), if_neg (by omega), if_neg (by omega)]
  · unfold Cube.rect Rect.new rearrange
    simp only
    rw [if_neg (by omega), if_neg (by omega)]

/-- C85. A build with overflow checks that succeeds gives the chunk of a build without checks, and no
difference of a number of a log and the number of its snapshot leaves the range. -/
theorem C85_build_same (hs : ShapeOk rows cols k e) (hi : 1 ≤ instants) {r : Chunk.Build}
    (h : Chunk.buildC get instants rows cols k e enc fb = some r) :
    Chunk.build get instants rows cols k e enc fb = some r ∧
      ∀ t0 t, LogPair r.data.blocks t0 t → ∀ row col, row < rows → col < cols →
        Spec.DiffFits (get t row col) (get t0 row col) := by
  have hk : 0 < k := by have := hs.arity; omega
  obtain ⟨h1, bs, hd, -, h4, -, -⟩ := chunk_buildC_some hk hs.rows_le hs.cols_le hi h
  refine ⟨h1, fun t0 t hp row col hr hc => ?_⟩
  rw [hd] at hp
  have := h4.pairs hp row col hr hc
  unfold InI64 at this
  unfold Spec.DiffFits
  omega

/-- C85. After a build with checks, reads of cells, of cells over time and of windows give the same
with and without checks. -/
theorem C85_reads_same (hs : ShapeOk rows cols k e) (hi : 1 ≤ instants) {r : Chunk.Build}
    (h : Chunk.buildC get instants rows cols k e enc fb = some r) :
    (∀ t row col, row < rows → col < cols → r.data.getC t row col = r.data.get t row col) ∧
    (∀ start fin row col, row < rows → col < cols →
      r.data.fillCellC start fin row col = r.data.fillCell start fin row col) ∧
    ∀ start fin top bottom left right, start ≤ fin → top < bottom → left < right → bottom ≤ rows →
      right ≤ cols → r.data.fillWindowC (Cube.new start fin top bottom left right) =
        r.data.fillWindow (Cube.new start fin top bottom left right) := by
  have hk : 0 < k := by have := hs.arity; omega
  obtain ⟨h1, bs, hd, h3, h4, -, -⟩ := chunk_buildC_some hk hs.rows_le hs.cols_le hi h
  rw [hd]
  have cell : ∀ row col, row < rows → col < cols → ∀ b ∈ (Chunk.new bs enc fb).blocks, ∀ i,
      b.getC i row col = b.get i row col := by
    intro row col hr hc b hb i
    obtain ⟨j, hj⟩ := List.mem_iff_getElem?.1 hb
    exact blockC_get (h3 j b hj) hs (h4 j b hj) i row col hr hc
  refine ⟨fun t row col hr hc => chunkC_get row col (cell row col hr hc) t,
    fun start fin row col hr hc => chunkC_fillCell row col (cell row col hr hc) start fin,
    fun start fin top bottom left right a1 a3 a4 a5 a6 => chunkC_fill _ fun b hb i => ?_⟩
  obtain ⟨j, hj⟩ := List.mem_iff_getElem?.1 hb
  obtain ⟨e1, e2⟩ := cube_rect a1 a3 a4
  rw [e1, e2]
  exact blockC_fill (h3 j b hj) hs (h4 j b hj) i _ ⟨a3, a4, a5, a6⟩

/-- C85. After a build with checks and for even arities, every read with checks returns and is right. -/
theorem C85_reads_right (hs : ShapeOk rows cols k e) (hi : 1 ≤ instants) (heven : k % 2 = 0)
    {r : Chunk.Build} (h : Chunk.buildC get instants rows cols k e enc fb = some r) :
    (∀ t row col, t < instants → row < rows → col < cols →
      r.data.getC t row col = some (get t row col)) ∧
    ∀ start fin top bottom left right, start ≤ fin → fin ≤ instants → top < bottom → left < right →
      bottom ≤ rows → right ≤ cols →
      ∃ L, r.data.fillWindowC (Cube.new start fin top bottom left right) = some L ∧
        L.Perm (Spec.window3 get start fin top bottom left right) := by
  obtain ⟨c1, c2, c3⟩ := C85_reads_same hs hi h
  have hk : 0 < k := by have := hs.arity; omega
  obtain ⟨h1, bs, hd, h3, h4, hne, hlen⟩ := chunk_buildC_some hk hs.rows_le hs.cols_le hi h
  obtain ⟨r', b1, -, b2⟩ := C12_exact get instants rows cols k e enc fb hs hi heven
  rw [h1] at b1
  obtain rfl := Option.some.inj b1
  have ok := h3.logsOk_of_even hs heven
  have hno : ∀ t0 t, LogPair bs t0 t → NoSplit (get t0) (get t) rows cols k :=
    fun t0 t hp => ((h4.pairs hp).noOverflow).noSplit
  refine ⟨fun t row col ht hr hc => ?_, fun start fin top bottom left right a1 a2 a3 a4 a5 a6 => ?_⟩
  · rw [c1 t row col hr hc]
    exact b2.2 (by rw [hd]; exact hno) t row col ht hr hc
  · rw [c3 start fin top bottom left right a1 a3 a4 a5 a6, hd]
    obtain ⟨hw, hr⟩ := cube_rect a1 a3 a4
    rw [hw]
    obtain ⟨L, e1, h5⟩ := iterList_spec bs enc fb start fin hne a1 (by omega)
    unfold Chunk.fillWindow
    simp only
    rw [e1]
    simp only [hr]
    refine collect_forall₂ _ _ (fun t => (Spec.window (get t) top bottom left right).map
      fun p => (t - start, p)) ?_ _ _ h5
    rintro t p ⟨h5, h6, h7⟩
    simp only [Chunk.new, List.getElem?_eq_getElem h5.lt]
    obtain ⟨M, e2, pm⟩ := block_fill h3 hs h5 (List.getElem?_eq_getElem h5.lt) ok hno
      ⟨top, bottom, left, right⟩ ⟨a3, a4, a5, a6⟩
    rw [e2]
    exact ⟨_, rfl, by rw [h6]; exact pm.map _⟩

/-- C85. After a build with checks, searches give the same with and without checks, provided that a
constant log does not move a number of its snapshot out of the range. -/
theorem C85_search_same_partial (hs : ShapeOk rows cols k e) (hi : 1 ≤ instants) {r : Chunk.Build}
    (h : Chunk.buildC get instants rows cols k e enc fb = some r)
    (hf : ∀ t0 t, LogPair r.data.blocks t0 t → SearchFits (get t0) (get t) rows cols)
    (start fin top bottom left right : Nat) (a1 : start ≤ fin) (a3 : top < bottom) (a4 : left < right)
    (a5 : bottom ≤ rows) (a6 : right ≤ cols) (lower upper : Int64) :
    r.data.iterSearchC (Cube.new start fin top bottom left right) lower upper =
        r.data.iterSearch (Cube.new start fin top bottom left right) lower upper ∧
      ∀ it fuel, r.data.iterSearch (Cube.new start fin top bottom left right) lower upper = some it →
        it.toListC r.data fuel = it.toList r.data fuel := by
  have hk : 0 < k := by have := hs.arity; omega
  obtain ⟨h1, bs, hd, h3, h4, -, -⟩ := chunk_buildC_some hk hs.rows_le hs.cols_le hi h
  obtain ⟨hw, hr⟩ := cube_rect a1 a3 a4
  rw [hd] at hf ⊢
  rw [hw]
  refine iterSearchC fun b hb i lo up => ?_
  obtain ⟨j, hj⟩ := List.mem_iff_getElem?.1 hb
  rw [hr]
  refine blockC_search (h3 j b hj) hs (h4 j b hj) (fun off ho => hf _ _ ?_) i _ ⟨a3, a4, a5, a6⟩ lo up
  exact ⟨j, off + 1, ⟨b, hj, by unfold Block.len; omega, by simp only [Chunk.new]; omega⟩, by omega, by omega⟩

/-- C85. The condition of `C85_search_same_partial` is exact: searches give the same with and without checks
if and only if it holds. Where it does not hold, the search of a single instant for the number of its constant
log returns without checks and panics with checks. -/
theorem C85_search_exact (hs : ShapeOk rows cols k e) (hi : 1 ≤ instants) {r : Chunk.Build}
    (h : Chunk.buildC get instants rows cols k e enc fb = some r) :
    (∀ t0 t, LogPair r.data.blocks t0 t → SearchFits (get t0) (get t) rows cols) ↔
      ∀ start fin top bottom left right, start ≤ fin → fin ≤ instants → top < bottom → left < right →
        bottom ≤ rows → right ≤ cols → ∀ lower upper,
        r.data.iterSearchC (Cube.new start fin top bottom left right) lower upper =
          r.data.iterSearch (Cube.new start fin top bottom left right) lower upper ∧
        ∀ it fuel, r.data.iterSearch (Cube.new start fin top bottom left right) lower upper = some it →
          it.toListC r.data fuel = it.toList r.data fuel := by
  constructor
  · intro hf start fin top bottom left right a1 _ a3 a4 a5 a6 lower upper
    exact C85_search_same_partial hs hi h hf start fin top bottom left right a1 a3 a4 a5 a6 lower upper
  intro hsame t0 t hp v hv row col row' col' h1 h2 h3 h4 hlt hmax
  by_contra hnf
  have hk : 0 < k := by have := hs.arity; omega
  have h5 := hp.lt_len
  obtain ⟨hb, bs, hd, h3', h4', -, hlen⟩ := chunk_buildC_some hk hs.rows_le hs.cols_le hi h
  rw [hd] at h5 hp
  simp only [Chunk.new] at h5
  obtain ⟨r', hb', htot⟩ := C10_chunk_search_total get instants rows cols k e enc fb hs hi
  rw [hb] at hb'
  obtain rfl := Option.some.inj hb'
  obtain ⟨found, htot⟩ := htot v v
  obtain ⟨it, L, e1, -⟩ := htot t (t + 1) 0 rows 0 cols (by omega) (by omega) (by omega) (by omega)
    (Nat.le_refl _) (Nat.le_refl _)
  have e2 := (hsame t (t + 1) 0 rows 0 cols (by omega) (by omega) (by omega) (by omega)
    (Nat.le_refl _) (Nat.le_refl _) v v).1
  rw [e1, hd, chunkC_search_none h3' hs h4' hp h5 hv h1 h2 h3 h4 hlt hmax hnf] at e2
  cases e2

/-- C85. For numbers of at least −2⁶² and less than 2⁶² no build overflows. -/
theorem C85_build_middle (hs : ShapeOk rows cols k e) (hi : 1 ≤ instants)
    (h : ∀ t row col, t < instants → row < rows → col < cols →
      -2 ^ 62 ≤ (get t row col).toInt ∧ (get t row col).toInt < 2 ^ 62) :
    ∃ r, Chunk.buildC get instants rows cols k e enc fb = some r := by
  have hk : 0 < k := by have := hs.arity; omega
  obtain ⟨bs, -, -, -, h3, -⟩ := chunk_build get instants rows cols k e hk hi enc fb
  refine ⟨_, (chunk_buildC_of_mid hk (fun t ht row col hr hc => h t row col ht hr hc) hi enc fb).trans h3⟩

/-- C85. Whatever a chunk holds and however it was made, also by a build without checks: a read with checks gives what
the read without checks gives, or panics. -/
theorem C85_any (c : Chunk) :
    (∀ t row col v, c.getC t row col = some v → c.get t row col = some v) ∧
    (∀ start fin row col L, c.fillCellC start fin row col = some L → c.fillCell start fin row col = some L) ∧
    (∀ w L, c.fillWindowC w = some L → c.fillWindow w = some L) ∧
    ∀ w lower upper it, c.iterSearchC w lower upper = some it → c.iterSearch w lower upper = some it ∧
      ∀ fuel L, it.toListC c fuel = some L → it.toList c fuel = some L :=
  ⟨fun _ _ _ _ h => (c.get_refines _ _ _).some h, fun _ _ _ _ _ h => (c.fillCell_refines _ _ _ _).some h,
    fun _ _ h => (c.fillWindow_refines _).some h, fun _ _ _ _ h => ⟨(c.iterSearch_refines _ _ _).some h,
      fun _ _ h' => (SearchIter.toList_refines c _ _).some h'⟩⟩

/-- C85. For numbers of at most a third of the range no search overflows either. -/
theorem C85_search_third (hs : ShapeOk rows cols k e) (hi : 1 ≤ instants)
    (h : ∀ t row col, t < instants → row < rows → col < cols → Spec.Third (get t row col)) :
    ∃ r, Chunk.buildC get instants rows cols k e enc fb = some r ∧
      Chunk.build get instants rows cols k e enc fb = some r ∧
      ∀ start fin top bottom left right, start ≤ fin → top < bottom → left < right → bottom ≤ rows →
        right ≤ cols → ∀ lower upper,
        r.data.iterSearchC (Cube.new start fin top bottom left right) lower upper =
          r.data.iterSearch (Cube.new start fin top bottom left right) lower upper ∧
        ∀ it fuel, r.data.iterSearch (Cube.new start fin top bottom left right) lower upper = some it →
          it.toListC r.data fuel = it.toList r.data fuel := by
  obtain ⟨r, hr⟩ := C85_build_middle (enc := enc) (fb := fb) hs hi (get := get) (fun t row col a b c => by
    have := h t row col a b c; unfold Spec.Third at this; omega)
  have hk : 0 < k := by have := hs.arity; omega
  obtain ⟨h1, bs, hd, -, -, -, hlen⟩ := chunk_buildC_some hk hs.rows_le hs.cols_le hi hr
  refine ⟨r, hr, h1, fun start fin top bottom left right a1 a3 a4 a5 a6 lower upper =>
    C85_search_same_partial hs hi hr (fun t0 t hp => ?_) start fin top bottom left right a1 a3 a4 a5 a6
      lower upper⟩
  rw [hd] at hp
  have h5 := hp.lt_len
  have h6 := hp.lt
  simp only [Chunk.new] at h5
  exact searchFits_of_third (fun r c a b => h t0 r c (by omega) a b)
    (fun r c a b => h t r c (by omega) a b)

end

/-- One number of 2⁶² among numbers of −2⁶². -/
def wideRaster (_t r c : Nat) : Int64 := if r = 0 ∧ c = 0 then 2 ^ 62 else -(2 ^ 62)

/-- The bounds of `C85_build_middle` are exact: a build of −2⁶² and 2⁶² panics. -/
theorem C85_wide_panics : Chunk.buildC wideRaster 1 2 2 2 1 .i64 0 = none ∧
    (∀ t r c, -2 ^ 62 ≤ (wideRaster t r c).toInt ∧ (wideRaster t r c).toInt ≤ 2 ^ 62) ∧
    ∃ r, Chunk.build wideRaster 1 2 2 2 1 .i64 0 = some r := by
  refine ⟨by decide +kernel, fun t r c => ?_, ?_⟩
  · unfold wideRaster
    split <;> decide +kernel
  · obtain ⟨bs, -, -, -, h, -⟩ := chunk_build wideRaster 1 2 2 2 1 (by omega) (by omega) .i64 0
    exact ⟨_, h⟩

/-- C85. The raster of `C85_wide_panics`, built without checks: with checks the largest number is read, and reading
another, or the window of all, panics. Without checks all are read. -/
theorem C85_any_panics : ∃ r L, Chunk.build wideRaster 1 2 2 2 1 .i64 0 = some r ∧
    r.data.getC 0 0 0 = some (2 ^ 62) ∧ r.data.getC 0 0 1 = none ∧ r.data.get 0 0 1 = some (-(2 ^ 62)) ∧
    r.data.fillWindowC (Cube.new 0 1 0 2 0 2) = none ∧ r.data.fillWindow (Cube.new 0 1 0 2 0 2) = some L := by
  have key : (Chunk.build wideRaster 1 2 2 2 1 .i64 0).map (fun r =>
      decide (r.data.getC 0 0 0 = some (2 ^ 62)) && (decide (r.data.getC 0 0 1 = none) &&
      (decide (r.data.get 0 0 1 = some (-(2 ^ 62))) && ((r.data.fillWindowC (Cube.new 0 1 0 2 0 2)).isNone &&
      (r.data.fillWindow (Cube.new 0 1 0 2 0 2)).isSome)))) = some true := by decide +kernel
  obtain ⟨r, h1, h2⟩ := Option.map_eq_some_iff.1 key
  simp only [Bool.and_eq_true, Option.isNone_iff_eq_none, Option.isSome_iff_exists, decide_eq_true_eq] at h2
  obtain ⟨a, b, c, d, L, e⟩ := h2
  exact ⟨r, L, h1, a, b, c, d, e⟩

/-- The series of `C12_overflow_wrong`, which reads wrong without checks, cannot be built with checks. -/
theorem C85_wrap_panics : Chunk.buildC wrapSeries 2 4 4 2 2 .i64 0 = none := by decide +kernel

/-- A constant log of a snapshot with the smallest number. -/
def shiftSeries (t r c : Nat) : Int64 :=
  if t = 1 then -(2 ^ 55) - 1 else if r = 0 ∧ c = 0 then Int64.minValue else -(2 ^ 55)

/-- The full claim is false of searches: the build with checks succeeds and a search panics, which
without checks returns. -/
theorem C85_search_panics : ∃ r it, Chunk.buildC shiftSeries 2 2 2 2 1 .i64 0 = some r ∧
    LogPair r.data.blocks 0 1 ∧
    r.data.iterSearchC (Cube.new 1 2 0 2 0 2) (-(2 ^ 55) - 1) (-(2 ^ 55) - 1) = none ∧
    r.data.iterSearch (Cube.new 1 2 0 2 0 2) (-(2 ^ 55) - 1) (-(2 ^ 55) - 1) = some it := by
  have key : (Chunk.buildC shiftSeries 2 2 2 2 1 .i64 0).map (fun r =>
      (r.data.iterSearchC (Cube.new 1 2 0 2 0 2) (-(2 ^ 55) - 1) (-(2 ^ 55) - 1)).isNone &&
      ((r.data.iterSearch (Cube.new 1 2 0 2 0 2) (-(2 ^ 55) - 1) (-(2 ^ 55) - 1)).isSome &&
      decide (r.data.blocks.map (fun b => b.logs.length) = [1]))) = some true := by decide +kernel
  obtain ⟨r, h1, h2⟩ := Option.map_eq_some_iff.1 key
  simp only [Bool.and_eq_true, Option.isNone_iff_eq_none, Option.isSome_iff_exists,
    decide_eq_true_eq] at h2
  obtain ⟨h2, ⟨it, h3⟩, h4⟩ := h2
  refine ⟨r, it, h1, ?_, h2, h3⟩
  obtain ⟨b, hb, hl⟩ := List.map_eq_singleton_iff.1 h4
  exact ⟨0, 1, ⟨b, by rw [hb]; rfl, by unfold Block.len; omega, by rw [hb]; rfl⟩, by omega, rfl⟩

/-- The hypotheses of C85 are met by a chunk with a snapshot and logs. -/
example : ∃ r, Chunk.buildC exampleSeries 3 3 5 2 3 .i64 0 = some r ∧
    (∀ t row col, t < 3 → row < 3 → col < 5 → r.data.getC t row col = some (exampleSeries t row col)) := by
  have hs : ShapeOk 3 5 2 3 := ⟨by omega, by omega, by omega, by omega⟩
  obtain ⟨r, h, -⟩ := C85_search_third (get := exampleSeries) (instants := 3) (enc := .i64) (fb := 0) hs
    (by omega) (by
      intro t row col h1 h2 h3
      have : ∀ t < 3, ∀ row < 3, ∀ col < 5, -2 ^ 63 < 3 * (exampleSeries t row col).toInt ∧
        3 * (exampleSeries t row col).toInt < 2 ^ 63 := by decide +kernel
      exact this t h1 row h2 col h3)
  exact ⟨r, h, (C85_reads_right hs (by omega) rfl h).1⟩

end Verif
