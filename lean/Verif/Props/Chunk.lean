import Verif.Lemmas.ChunkRead

/-!
Properties C11-C15: blocks and chunks. `get t r c` is the input series; `e` is the exponent the code
computes from the shape (used alike by `Snapshot::build` and `Log::build`).
-/
namespace Verif

/-- C11. For every list of blocks and every instant below its length, the lookup ends within as many
iterations as there are blocks, at the block that holds the instant and the offset inside it. -/
theorem C11_find_block (bs : List Block) (enc : MMEncoding) (fb t : Nat)
    (ht : t < (bs.map fun b => b.logs.length + 1).sum) :
    ∃ i off b, bs[i]? = some b ∧ off < b.logs.length + 1 ∧
      t = ((bs.take i).map fun b => b.logs.length + 1).sum + off ∧
      (∀ fuel, bs.length ≤ fuel →
        (Chunk.new bs enc fb).findBlockFuel fuel t = some (i, off)) ∧
      (Chunk.new bs enc fb).findBlock t = some (i, off) := by
  obtain ⟨i, off, h⟩ := exists_holds bs t ht
  have h' := h
  obtain ⟨b, h1, h2, h3⟩ := h'
  refine ⟨i, off, b, h1, h2, h3, fun fuel hf => findBlock_spec bs enc fb t i off h fuel hf, ?_⟩
  exact findBlock_spec bs enc fb t i off h _ (by simp [Chunk.new])

/-- The bound is exact: the first instant past the end is located just past the last block, and the
lookup of any later instant never ends. -/
theorem C11_past_end (bs : List Block) (enc : MMEncoding) (fb t : Nat) (hne : bs ≠ []) :
    (t = (bs.map fun b => b.logs.length + 1).sum →
      (Chunk.new bs enc fb).findBlock t = some (bs.length, 0)) ∧
    ((bs.map fun b => b.logs.length + 1).sum < t →
      ∀ fuel, (Chunk.new bs enc fb).findBlockFuel fuel t = none) :=
  ⟨fun h => h ▸ findBlock_end bs enc fb hne _ (by simp [Chunk.new]),
    fun h fuel => findBlock_diverges bs enc fb t hne h fuel⟩

/-- No pair of instants has differences that overflow. -/
def SeriesNoOverflow (get : Nat → Nat → Nat → Int64) (instants rows cols : Nat) : Prop :=
  ∀ t0 t, t0 < t → t < instants → NoOverflow (get t0) (get t) rows cols

/-- No pair of instants has a square that is split by overflow. -/
def SeriesNoSplit (get : Nat → Nat → Nat → Int64) (instants rows cols k : Nat) : Prop :=
  ∀ t0 t, t0 < t → t < instants → NoSplit (get t0) (get t) rows cols k

theorem SeriesNoOverflow.noSplit {get instants rows cols k}
    (h : SeriesNoOverflow get instants rows cols) : SeriesNoSplit get instants rows cols k :=
  fun t0 t h1 h2 => (h t0 t h1 h2).noSplit

theorem LogPair.lt_len {bs t0 t} (h : LogPair bs t0 t) : t < blocksLen bs := by
  obtain ⟨i, off, ⟨b, h1, h2, h3⟩, -⟩ := h
  have e := blocksLen_take_succ h1
  have l := (List.getElem?_eq_some_iff.1 h1).1
  have := blocksLen_take_le bs (i := i + 1) (j := bs.length) (by omega) (by omega)
  rw [List.take_length] at this
  omega

theorem SeriesNoOverflow.pairs {get instants rows cols bs}
    (h : SeriesNoOverflow get instants rows cols) (hlen : blocksLen bs = instants) :
    ∀ t0 t, LogPair bs t0 t → NoOverflow (get t0) (get t) rows cols :=
  fun t0 t hp => h t0 t hp.lt (hlen ▸ hp.lt_len)

theorem SeriesNoSplit.pairs {get instants rows cols k bs}
    (h : SeriesNoSplit get instants rows cols k) (hlen : blocksLen bs = instants) :
    ∀ t0 t, LogPair bs t0 t → NoSplit (get t0) (get t) rows cols k :=
  fun t0 t hp => h t0 t hp.lt (hlen ▸ hp.lt_len)

section
variable (get : Nat → Nat → Nat → Int64) (instants rows cols k e : Nat) (enc : MMEncoding)
  (fb : Nat)

/-- C12, for shapes with two cells on the longer side and arities for which logs can be read: every
cell of every instant reads back. Missing for the full claim: see C07 and C10. -/
theorem C12_chunk_get_partial (hs : ShapeOk rows cols k e) (hi : 1 ≤ instants)
    (hno : SeriesNoSplit get instants rows cols k) :
    ∃ r, Chunk.build get instants rows cols k e enc fb = some r ∧
      (k % 2 = 0 → LogsOk r.data.blocks) ∧
      (LogsOk r.data.blocks → ∀ t row col, t < instants → row < rows → col < cols →
        r.data.get t row col = some (get t row col)) := by
  have hk : 0 < k := by have := hs.arity; omega
  obtain ⟨bs, h1, hne, h2, h3, -⟩ := chunk_build get instants rows cols k e hk hi enc fb
  refine ⟨_, h3, h1.logsOk_of_even hs, fun ok t row col ht hr hc => ?_⟩
  obtain ⟨i, off, h⟩ := exists_holds bs t (by omega)
  unfold Chunk.get Chunk.findBlock
  simp only
  rw [findBlock_spec bs enc fb t i off h _ (by simp [Chunk.new])]
  simp only [Chunk.new, List.getElem?_eq_getElem h.lt]
  exact block_get h1 hs h (List.getElem?_eq_getElem h.lt) ok (hno.pairs h2) row col hr hc

/-- The condition on the series is exact: for even arities every read of a cell returns, and all are
right if and only if no pair of a log and its snapshot is split by overflow. -/
theorem C12_exact (hs : ShapeOk rows cols k e) (hi : 1 ≤ instants) (heven : k % 2 = 0) :
    ∃ r, Chunk.build get instants rows cols k e enc fb = some r ∧
      (∀ t row col, t < instants → row < rows → col < cols → ∃ v, r.data.get t row col = some v) ∧
      ((∀ t row col, t < instants → row < rows → col < cols →
          r.data.get t row col = some (get t row col)) ↔
        ∀ t0 t, LogPair r.data.blocks t0 t → NoSplit (get t0) (get t) rows cols k) := by
  have hk : 0 < k := by have := hs.arity; omega
  obtain ⟨bs, h1, hne, h2, h3, -⟩ := chunk_build get instants rows cols k e hk hi enc fb
  have ok := h1.logsOk_of_even hs heven
  have look : ∀ t i off b, Holds bs t i off → bs[i]? = some b → ∀ row col,
      (Chunk.new bs enc fb).get t row col = b.get off row col := by
    intro t i off b h hb row col
    unfold Chunk.get Chunk.findBlock
    rw [findBlock_spec bs enc fb t i off h _ (by simp [Chunk.new])]
    simp only [Chunk.new, hb]
  refine ⟨_, h3, fun t row col ht hr hc => ?_, fun h t0 t hp => ?_, fun hno t row col ht hr hc => ?_⟩
  · obtain ⟨i, off, h⟩ := exists_holds bs t (by omega)
    rw [look t i off _ h (List.getElem?_eq_getElem h.lt)]
    cases off with
    | zero => exact ⟨_, block_get_zero h1 hs h (List.getElem?_eq_getElem h.lt) row col hr hc⟩
    | succ off => exact ⟨_, block_get_log h1 hs h (List.getElem?_eq_getElem h.lt) ok row col hr hc⟩
  · have htl : t < blocksLen bs := hp.lt_len
    obtain ⟨i, off, hh, h0, ht0⟩ := hp
    refine noSplit_of_logCell hs.arity hs.rows_le hs.cols_le fun r c hr hc => ?_
    have e1 := h t r c (by omega) hr hc
    obtain ⟨off, rfl⟩ : ∃ o, off = o + 1 := ⟨off - 1, by omega⟩
    rw [look t i _ _ hh (List.getElem?_eq_getElem hh.lt),
      block_get_log h1 hs hh (List.getElem?_eq_getElem hh.lt) ok r c hr hc,
      show t - (off + 1) = t0 by omega] at e1
    exact Option.some.inj e1
  · obtain ⟨i, off, h⟩ := exists_holds bs t (by omega)
    rw [look t i off _ h (List.getElem?_eq_getElem h.lt)]
    exact block_get h1 hs h (List.getElem?_eq_getElem h.lt) ok hno row col hr hc

/-- C13, cell part, with the same restriction: the values of a cell over a range of instants are
written in order, each once. -/
theorem C13_chunk_cell_partial (hs : ShapeOk rows cols k e) (hi : 1 ≤ instants)
    (hno : SeriesNoSplit get instants rows cols k) :
    ∃ r, Chunk.build get instants rows cols k e enc fb = some r ∧
      (k % 2 = 0 → LogsOk r.data.blocks) ∧
      (LogsOk r.data.blocks → ∀ start fin row col, start ≤ fin → fin ≤ instants → row < rows →
        col < cols → r.data.fillCell start fin row col =
          some ((List.range (fin - start)).map fun i => (i, get (start + i) row col))) := by
  have hk : 0 < k := by have := hs.arity; omega
  obtain ⟨bs, h1, hne, h2, h3, -⟩ := chunk_build get instants rows cols k e hk hi enc fb
  refine ⟨_, h3, h1.logsOk_of_even hs, fun ok start fin row col a1 a2 hr hc => ?_⟩
  obtain ⟨L, e1, h4⟩ := iterList_spec bs enc fb start fin hne a1 (by omega)
  unfold Chunk.fillCell
  rw [e1]
  simp only
  have key : ∀ (ts : List Nat) (L : List ((Nat × Nat) × Nat)),
      List.Forall₂ (fun t p => Holds bs t p.1.1 p.1.2 ∧ p.2 = t - start ∧ t < fin) ts L →
      collect L (fun p => match (Chunk.new bs enc fb).blocks[p.1.1]? with
        | none => none
        | some b => (b.get p.1.2 row col).map fun v => [(p.2, v)]) =
      some (ts.map fun t => (t - start, get t row col)) := by
    intro ts L h
    induction h with
    | nil => rfl
    | cons h1' h2' ih =>
      obtain ⟨h5, h6, h7⟩ := h1'
      rw [collect]
      simp only [Chunk.new, List.getElem?_eq_getElem h5.lt]
      rw [block_get h1 hs h5 (List.getElem?_eq_getElem h5.lt) ok (hno.pairs h2) row col hr hc]
      simp only [Option.map_some]
      simp only [Chunk.new] at ih
      rw [ih, h6]
      rfl
  refine (key _ _ h4).trans ?_
  rw [List.range'_eq_map_range, List.map_map]
  congr 1
  apply List.map_congr_left
  intro i _
  simp only [Function.comp]
  rw [Nat.add_sub_cancel_left]

/-- C13, window part, with the same restriction: a window read writes exactly the cells of the
window, once each, at relative positions. -/
theorem C13_chunk_window_partial (hs : ShapeOk rows cols k e) (hi : 1 ≤ instants)
    (hno : SeriesNoSplit get instants rows cols k) :
    ∃ r, Chunk.build get instants rows cols k e enc fb = some r ∧
      (k % 2 = 0 → LogsOk r.data.blocks) ∧
      (LogsOk r.data.blocks → ∀ start fin top bottom left right, start ≤ fin → fin ≤ instants →
        top < bottom → left < right → bottom ≤ rows → right ≤ cols →
        ∃ L, r.data.fillWindow (Cube.new start fin top bottom left right) = some L ∧
          L.Perm (Spec.window3 get start fin top bottom left right)) := by
  have hk : 0 < k := by have := hs.arity; omega
  obtain ⟨bs, h1, hne, h2, h3, -⟩ := chunk_build get instants rows cols k e hk hi enc fb
  refine ⟨_, h3, h1.logsOk_of_even hs, fun ok start fin top bottom left right a1 a2 a3 a4 a5 a6 => ?_⟩
  have hw : Cube.new start fin top bottom left right = ⟨start, fin, top, bottom, left, right⟩ := by
    unfold Cube.new rearrange
    rw [if_neg (by omega), if_neg (by omega), if_neg (by omega)]
  have hr : (Cube.mk start fin top bottom left right).rect = ⟨top, bottom, left, right⟩ := by
    unfold Cube.rect Rect.new rearrange
    simp only
    rw [if_neg (by omega), if_neg (by omega)]
  rw [hw]
  obtain ⟨L, e1, h4⟩ := iterList_spec bs enc fb start fin hne a1 (by omega)
  unfold Chunk.fillWindow
  simp only
  rw [e1]
  simp only [hr]
  refine collect_forall₂ _ _ (fun t => (Spec.window (get t) top bottom left right).map
    fun p => (t - start, p)) ?_ _ _ h4
  rintro t p ⟨h5, h6, h7⟩
  simp only [Chunk.new, List.getElem?_eq_getElem h5.lt]
  obtain ⟨M, e2, pm⟩ := block_fill h1 hs h5 (List.getElem?_eq_getElem h5.lt) ok (hno.pairs h2)
    ⟨top, bottom, left, right⟩ ⟨a3, a4, a5, a6⟩
  rw [e2]
  exact ⟨_, rfl, by rw [h6]; exact pm.map _⟩

/-- C14, for series whose log pairs are `SearchSafe`: draining the search iterator yields exactly
the cells of the window with a value in the closed interval, once each; the order of the bounds does
not matter. Missing for the full claim: the series that violate it, for which it is false
(`C14_unsafe_wrong`). -/
theorem C14_chunk_search_partial (hs : ShapeOk rows cols k e) (hi : 1 ≤ instants)
    (hno : SeriesNoOverflow get instants rows cols) :
    ∃ r, Chunk.build get instants rows cols k e enc fb = some r ∧
      ∀ start fin top bottom left right lower upper, start ≤ fin → fin ≤ instants →
        top < bottom → left < right → bottom ≤ rows → right ≤ cols →
        (∀ t0 t, LogPair r.data.blocks t0 t → start ≤ t → t < fin →
          SearchSafe (get t0) (get t) rows cols (k ^ e)) →
        ∃ it L, r.data.iterSearch (Cube.new start fin top bottom left right) lower upper = some it ∧
          (∀ fuel, L.length < fuel → it.toList r.data fuel = some L) ∧
          L.Perm (Spec.hits3 get start fin top bottom left right (min lower upper)
            (max lower upper)) := by
  have hk : 0 < k := by have := hs.arity; omega
  obtain ⟨bs, h1, hne, h2, h3, -⟩ := chunk_build get instants rows cols k e hk hi enc fb
  refine ⟨_, h3, fun start fin top bottom left right lower upper a1 a2 a3 a4 a5 a6 safe => ?_⟩
  have hw : Cube.new start fin top bottom left right = ⟨start, fin, top, bottom, left, right⟩ := by
    unfold Cube.new rearrange
    rw [if_neg (by omega), if_neg (by omega), if_neg (by omega)]
  have hr : (Cube.mk start fin top bottom left right).rect = ⟨top, bottom, left, right⟩ := by
    unfold Cube.rect Rect.new rearrange
    simp only
    rw [if_neg (by omega), if_neg (by omega)]
  have hlu : rearrangeI lower upper = (min lower upper, max lower upper) := by
    unfold rearrangeI
    show (if upper < lower then _ else _) = ((if lower ≤ upper then lower else upper),
      (if lower ≤ upper then upper else lower))
    by_cases h : upper < lower
    · rw [if_pos h, if_neg (Int64.not_le.2 h), if_neg (Int64.not_le.2 h)]
    · rw [if_neg h, if_pos (Int64.not_lt.1 h), if_pos (Int64.not_lt.1 h)]
  rw [hw]
  -- results of the individual searches
  have each : ∀ t, ∃ L, start ≤ t → t < fin → (∀ i off b, Holds bs t i off → bs[i]? = some b →
      b.searchWindow off ⟨top, bottom, left, right⟩ (min lower upper) (max lower upper) = some L) ∧
      L.Perm (Spec.hits (get t) top bottom left right (min lower upper) (max lower upper)) := by
    intro t
    by_cases ht : start ≤ t ∧ t < fin
    · obtain ⟨i, off, h⟩ := exists_holds bs t (by omega)
      obtain ⟨L, e1, p1⟩ := block_search h1 hs h (List.getElem?_eq_getElem h.lt) (hno.pairs h2)
        (fun t0 hp => safe t0 t hp ht.1 ht.2) ⟨top, bottom, left, right⟩ ⟨a3, a4, a5, a6⟩
        (min lower upper) (max lower upper)
      refine ⟨L, fun _ _ => ⟨fun i' off' b' h' hb' => ?_, p1⟩⟩
      obtain ⟨rfl, rfl⟩ := h.unique h'
      rw [List.getElem?_eq_getElem h.lt] at hb'
      obtain rfl := Option.some.inj hb'
      exact e1
    · exact ⟨[], fun x y => absurd ⟨x, y⟩ ht⟩
  choose g hg using each
  obtain ⟨it, e1, h4⟩ := iterSearch_spec bs enc fb hne ⟨start, fin, top, bottom, left, right⟩ a1
    (by simp only; omega) lower upper g (by
      intro t' i' off' b b1 b2 b3 b4
      rw [hr, hlu]
      exact (hg t' b1 b2).1 i' off' b b3 b4)
  refine ⟨it, _, e1, fun fuel hf => h4 fuel ?_, ?_⟩
  · refine Nat.lt_of_le_of_lt (Nat.le_of_eq ?_) hf
    simp [List.length_flatMap, Function.comp_def]
  · unfold Spec.hits3
    simp only
    refine List.Perm.flatMap_left _ (fun t ht => ?_)
    rw [List.mem_range'_1] at ht
    exact ((hg t (by omega) (by omega)).2).map _

/-- C14 is false of the code: whenever the builder stores an instant as a log whose pair violates
`SearchSafe`, some search of that instant returns a wrong answer (without panicking). -/
theorem C14_unsafe_wrong (hs : ShapeOk rows cols k e) (hi : 1 ≤ instants)
    (h0 : 0 < rows ∧ 0 < cols) (hm : ∀ t, t < instants → Moderate (get t) rows cols) :
    ∃ r, Chunk.build get instants rows cols k e enc fb = some r ∧
      ∀ t0 t, LogPair r.data.blocks t0 t → ¬ SearchSafe (get t0) (get t) rows cols (k ^ e) →
        ∃ lower upper it L, lower ≤ upper ∧
          r.data.iterSearch (Cube.new t (t + 1) 0 rows 0 cols) lower upper = some it ∧
          (∀ fuel, L.length < fuel → it.toList r.data fuel = some L) ∧
          ¬ L.Perm (Spec.hits3 get t (t + 1) 0 rows 0 cols lower upper) := by
  have hk : 0 < k := by have := hs.arity; omega
  obtain ⟨bs, h1, hne, h2, h3, -⟩ := chunk_build get instants rows cols k e hk hi enc fb
  refine ⟨_, h3, fun t0 t hp uns => ?_⟩
  have htl : t < blocksLen bs := hp.lt_len
  obtain ⟨i, off, h⟩ := exists_holds bs t htl
  obtain ⟨lower, upper, L, hle, e1, np⟩ := block_search_unsafe h1 hs h0 h
    (List.getElem?_eq_getElem h.lt) (fun t' ht' => hm t' (by omega)) ⟨t0, hp, uns⟩
  have hw : Cube.new t (t + 1) 0 rows 0 cols = ⟨t, t + 1, 0, rows, 0, cols⟩ := by
    unfold Cube.new rearrange
    rw [if_neg (by omega), if_neg (by omega), if_neg (by omega)]
  have hr : (Cube.mk t (t + 1) 0 rows 0 cols).rect = ⟨0, rows, 0, cols⟩ := by
    unfold Cube.rect Rect.new rearrange
    simp only
    rw [if_neg (by omega), if_neg (by omega)]
  have hlu : rearrangeI lower upper = (lower, upper) := by
    unfold rearrangeI
    rw [if_neg]
    exact Int64.not_lt.2 hle
  obtain ⟨it, e2, h4⟩ := iterSearch_spec bs enc fb hne ⟨t, t + 1, 0, rows, 0, cols⟩ (by simp)
    (by simp only; omega) lower upper (fun _ => L) (by
      intro t' i' off' b b1 b2 b3 b4
      simp only at b1 b2
      obtain rfl : t' = t := by omega
      obtain ⟨rfl, rfl⟩ := h.unique b3
      rw [List.getElem?_eq_getElem h.lt] at b4
      obtain rfl := Option.some.inj b4
      rw [hr, hlu]
      exact e1)
  have hlen : (List.range' t (t + 1 - t)) = [t] := by
    rw [show t + 1 - t = 1 by omega]; rfl
  simp only [hlen] at h4
  refine ⟨lower, upper, it, L.map fun p => (t, p), hle, by rw [hw]; exact e2, fun fuel hf => ?_, ?_⟩
  · rw [h4 fuel (by simpa using hf)]; simp
  · unfold Spec.hits3
    rw [hlen]
    simp only [List.flatMap_cons, List.flatMap_nil, List.append_nil]
    intro hp
    apply np
    have := hp.map Prod.snd
    simpa [List.map_map, Function.comp_def] using this

/-- C15. Whatever the sizes of snapshots and logs, every block of a built chunk holds between 1 and
255 instants, the block lengths add up to the number of instants, the reported shape is that of the
input, and the reported counts add up. -/
theorem C15_block_limits (hk : 0 < k) (hi : 1 ≤ instants) :
    ∃ r, Chunk.build get instants rows cols k e enc fb = some r ∧
      (∀ b ∈ r.data.blocks, b.logs.length + 1 ≤ 255) ∧
      (r.data.blocks.map fun b => b.logs.length + 1).sum = instants ∧
      r.data.shape = some (instants, rows, cols) ∧
      r.data.encoding = enc ∧ r.data.fractionalBits = fb ∧
      r.snapshots = r.data.blocks.length ∧
      r.logs = (r.data.blocks.map fun b => b.logs.length).sum ∧
      r.logs + r.snapshots = instants ∧ r.size = r.data.size := by
  obtain ⟨bs, h1, hne, h2, h3, h4⟩ := chunk_build get instants rows cols k e hk hi enc fb
  have hsum : ∀ bs : List Block, blocksLen bs = (bs.map fun b => b.logs.length).sum + bs.length := by
    intro bs
    induction bs with
    | nil => rfl
    | cons b bs ih => simp [ih, Block.len]; omega
  refine ⟨_, h3, fun b hb => ?_, h2, ?_, rfl, rfl, rfl, ?_, by simp only; omega, rfl⟩
  · obtain ⟨i, hi⟩ := List.mem_iff_getElem?.1 hb
    have := (h1 i b hi).limit
    omega
  · cases bs with
    | nil => exact absurd rfl hne
    | cons b bs =>
      obtain ⟨N, hS⟩ := snapLayout_of_build hk (h1 0 b rfl).snapshot
      unfold Chunk.shape Chunk.new
      simp only [List.getElem?_cons_zero, hS.hrows, hS.hcols]
      rw [← h2, show (fun b : Block => 1 + b.logs.length) = Block.len by
        funext b; exact Nat.add_comm _ _]
      rfl
  · have := hsum bs
    simp only [Chunk.new]
    omega

/-- C10 at the level of chunks: whatever the series is, starting and draining any search inside the
bounds never panics. What is found fits together: for every interval there is one set of cells such that the
search of any window gives the cells of the set that are in the window, once each. -/
theorem C10_chunk_search_total (hs : ShapeOk rows cols k e) (hi : 1 ≤ instants) :
    ∃ r, Chunk.build get instants rows cols k e enc fb = some r ∧
      ∀ lower upper, ∃ found : Nat → Nat → Nat → Bool, ∀ start fin top bottom left right, start ≤ fin →
        fin ≤ instants → top < bottom → left < right → bottom ≤ rows → right ≤ cols →
        ∃ it L, r.data.iterSearch (Cube.new start fin top bottom left right) lower upper = some it ∧
          (∀ fuel, L.length < fuel → it.toList r.data fuel = some L) ∧
          L.Perm ((List.range' start (fin - start)).flatMap fun t =>
            ((Spec.cells top bottom left right).filter fun p => found t p.1 p.2).map fun p => (t, p)) := by
  have hk : 0 < k := by have := hs.arity; omega
  obtain ⟨bs, h1, hne, h2, h3, -⟩ := chunk_build get instants rows cols k e hk hi enc fb
  refine ⟨_, h3, fun lower upper => ?_⟩
  obtain ⟨found, hfound⟩ := chunk_finds h1 hs hne enc fb lower upper
  refine ⟨found, fun start fin top bottom left right a1 a2 a3 a4 a5 a6 => ?_⟩
  have hw : Cube.new start fin top bottom left right = ⟨start, fin, top, bottom, left, right⟩ := by
    unfold Cube.new rearrange
    rw [if_neg (by omega), if_neg (by omega), if_neg (by omega)]
  rw [hw]
  exact hfound start fin top bottom left right a1 (by omega) a3 a4 a5 a6

end

/-! ### Examples -/

/-- Three instants of a 3×5 raster; the second differs from the first in one cell, the third
everywhere. -/
def exampleSeries (t r c : Nat) : Int64 :=
  if t = 2 then (1000 * r + 77 * c : Nat).toInt64
  else if t = 1 ∧ r = 1 ∧ c = 1 then 300000000
  else (100000 * r + 7000 * c : Nat).toInt64

example : ShapeOk 3 5 2 3 := ⟨by decide, by decide, by decide, by decide⟩

/-- The builder starts a new block for the third instant. -/
example : (Chunk.build exampleSeries 3 3 5 2 3 .i64 0).map
    (fun r => (r.data.blocks.map (·.logs.length), r.data.index, r.logs, r.snapshots)) =
    some ([1, 0], [2, 3], 1, 2) := by decide +kernel

example : (Chunk.build exampleSeries 3 3 5 2 3 .i64 0).bind (fun r => r.data.get 1 1 1) =
    some 300000000 := by decide +kernel

example : (Chunk.build exampleSeries 3 3 5 2 3 .i64 0).bind (fun r => r.data.fillCell 1 3 1 1) =
    some [(0, 300000000), (1, 1077)] := by decide +kernel

example : (Chunk.build exampleSeries 3 3 5 2 3 .i64 0).bind
    (fun r => r.data.fillWindow (Cube.new 1 3 1 2 1 3)) =
    some [(0, 0, 0, 300000000), (0, 0, 1, 114000), (1, 0, 0, 1077), (1, 0, 1, 1154)] := by
  decide +kernel

example : (Chunk.build exampleSeries 3 3 5 2 3 .i64 0).bind (fun r =>
    (r.data.iterSearch (Cube.new 0 3 0 3 0 2) 110000 1000).bind (·.toList r.data 20)) =
    some [(0, 0, 1), (0, 1, 0), (0, 1, 1), (1, 0, 1), (1, 1, 0), (2, 1, 0), (2, 1, 1),
      (2, 2, 0), (2, 2, 1)] := by
  decide +kernel

/-- A 2×2 raster and the same raster lowered by 5: the second is stored as a log. -/
def loweredSeries (t r c : Nat) : Int64 := (100 * r + 13 * c + 500 : Nat).toInt64 - (5 * t : Nat).toInt64

/-- C14 negated by a concrete series: the cell with the least value is missed. -/
theorem C14_witness : (Chunk.build loweredSeries 2 2 2 2 1 .i64 0).bind (fun r =>
    (r.data.iterSearch (Cube.new 1 2 0 2 0 2) 495 495).bind (·.toList r.data 5)) = some [] ∧
    Spec.hits3 loweredSeries 1 2 0 2 0 2 495 495 = [(1, 0, 0)] := by decide +kernel

example : SeriesNoOverflow exampleSeries 3 3 5 := by
  have key : ∀ t0, t0 < 3 → ∀ t, t < 3 → ∀ r, r < 3 → ∀ c, c < 5 →
      (exampleSeries t r c - exampleSeries t0 r c).toInt =
        (exampleSeries t r c).toInt - (exampleSeries t0 r c).toInt := by decide
  exact fun t0 t h1 h2 r c hr hc => key t0 (by omega) t h2 r hr c hc

/-- The only pair of `exampleSeries` stored as a log. -/
example : SearchSafe (exampleSeries 0) (exampleSeries 1) 3 5 (2 ^ 3) := by
  have nT : ∀ u, ¬ Const (exampleSeries 1) 3 5 u := by
    intro u h
    have h1 := h 0 0 (by omega) (by omega)
    rw [← h 0 4 (by omega) (by omega)] at h1
    revert h1; decide
  have nS : ∀ u, ¬ Const (exampleSeries 0) 3 5 u := by
    intro u h
    have h1 := h 0 0 (by omega) (by omega)
    rw [← h 0 4 (by omega) (by omega)] at h1
    revert h1; decide
  exact ⟨fun u v h => absurd h (nT u), fun u h => absurd h (nT u), fun v h => absurd h (nS v),
    fun d h => by omega⟩

example : ∀ t, t < 2 → Moderate (loweredSeries t) 2 2 := by
  have key : ∀ t, t < 2 → ∀ r, r < 2 → ∀ c, c < 2 → -2 ^ 61 ≤ (loweredSeries t r c).toInt ∧
      (loweredSeries t r c).toInt ≤ 2 ^ 61 := by decide
  exact fun t ht r c hr hc => key t ht r hr c hc

/-- `loweredSeries` violates `SearchSafe`, and its second instant is stored as a log. -/
example : ¬ SearchSafe (loweredSeries 0) (loweredSeries 1) 2 2 (2 ^ 1) := by
  intro h
  have := h.shift (-5) rfl rfl (fun u hu => by
    have h1 := hu 0 0 (by omega) (by omega)
    rw [← hu 0 1 (by omega) (by omega)] at h1
    revert h1; decide) (fun r c hr hc => by
    have key : ∀ r, r < 2 → ∀ c, c < 2 → loweredSeries 1 r c - loweredSeries 0 r c = -5 := by
      decide
    exact key r hr c hc)
  revert this; decide

example : (Chunk.build loweredSeries 2 2 2 2 1 .i64 0).map
    (fun r => r.data.blocks.map (·.logs.length)) = some [1] := by decide +kernel

end Verif
