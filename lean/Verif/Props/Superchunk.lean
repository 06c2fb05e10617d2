import Mathlib.Data.Nat.Log
import Verif.Lemmas.StructRead
import Verif.Lemmas.SuperTotal
import Verif.Lemmas.Encoding

/-!
Properties C21-C29: superchunks and spans.

`fuel` is the depth of recursion the model allows for; the code has no such limit. Reads are done in
any store that holds what the builder saved (`log'' ⊇ log'`) and in which no two different objects
have the same identifier (`Saved.NoCollision`).
-/
namespace Verif

/-! ### C21 -/

/-- C21. The parts of a window lie in different squares of the grid, none is empty, each is at the
same place whether seen from its square (`loc`) or from the window (`slice`), and together they are
the cells of the window, each once. -/
theorem C21_partition (h : SuperHead) (hcs : 0 < h.chunksSidelen) (top bottom left right : Nat)
    (htb : top < bottom) (hlr : left < right) :
    ∃ subs, h.subchunksFor ⟨top, bottom, left, right⟩ = some subs ∧
      (subs.map WindowSubchunk.chunk).Nodup ∧
      (∀ s ∈ subs, ∃ R C, s.index = R * h.subsidelen + C ∧
        s.chunk = ⟨R * h.chunksSidelen, (R + 1) * h.chunksSidelen, C * h.chunksSidelen,
          (C + 1) * h.chunksSidelen⟩ ∧
        s.loc.top < s.loc.bottom ∧ s.loc.left < s.loc.right ∧
        s.loc.bottom ≤ h.chunksSidelen ∧ s.loc.right ≤ h.chunksSidelen ∧
        s.chunk.top + s.loc.top = top + s.slice.top ∧
        s.chunk.top + s.loc.bottom = top + s.slice.bottom ∧
        s.chunk.left + s.loc.left = left + s.slice.left ∧
        s.chunk.left + s.loc.right = left + s.slice.right) ∧
      (subs.flatMap fun s => Spec.cells (s.chunk.top + s.loc.top) (s.chunk.top + s.loc.bottom)
        (s.chunk.left + s.loc.left) (s.chunk.left + s.loc.right)).Perm
        (Spec.cells top bottom left right) := by
  refine ⟨_, subchunksFor_eq h hcs htb hlr, ?_, ?_, ?_⟩
  · rw [List.map_flatMap]
    simp only [List.map_map]
    rw [List.nodup_flatMap]
    constructor
    · intro R _
      refine (List.nodup_map_iff_inj_on (List.nodup_range' ..)).2 fun C _ C' _ he => ?_
      simp only [Function.comp_apply, windowPart, Rect.mk.injEq] at he
      exact Nat.eq_of_mul_eq_mul_right hcs he.2.2.1
    · refine List.Pairwise.imp_of_mem ?_ (List.nodup_range' (s := top / h.chunksSidelen)
        (n := (bottom - 1) / h.chunksSidelen + 1 - top / h.chunksSidelen))
      intro R R' _ _ hne
      simp only [Function.onFun, List.disjoint_left, List.mem_map]
      rintro _ ⟨C, -, rfl⟩ ⟨C', -, he⟩
      simp only [Function.comp_apply, windowPart, Rect.mk.injEq] at he
      exact hne (Nat.eq_of_mul_eq_mul_right hcs he.1).symm
  · intro s hs
    obtain ⟨R, hR, hs⟩ := List.mem_flatMap.1 hs
    obtain ⟨C, hC, rfl⟩ := List.mem_map.1 hs
    have b1 := side_bounds hcs htb hR
    have b2 := side_bounds hcs hlr hC
    refine ⟨R, C, rfl, ?_, ?_⟩
    · simp only [windowPart, Nat.succ_mul]
    · simp only [windowPart]
      generalize R * h.chunksSidelen = x at *
      generalize C * h.chunksSidelen = y at *
      omega
  · refine List.Perm.trans (List.Perm.of_eq ?_) (cells_split hcs htb hlr)
    rw [List.flatMap_assoc]
    refine List.flatMap_congr fun R hR => ?_
    rw [List.flatMap_map]
    refine List.flatMap_congr fun C hC => ?_
    have b1 := side_bounds hcs htb hR
    have b2 := side_bounds hcs hlr hC
    simp only [windowPart]
    congr 1 <;> omega

/-! ### C22-C24, C27 -/

/-- The assumptions on a build from integers. `clog` is the float computation of the logarithm; it
has to be right for the sizes that occur. The arity is even (C07 fails for odd arities; the library
itself only uses 2). The sizes fit the binary format. -/
structure IntInput (clog : Nat → Nat) (k : Nat) (levels : List Nat) (b : MMBuffer3)
    (n rows cols : Nat) : Prop where
  arity : 2 ≤ k
  even : k % 2 = 0
  arity_lt : k < 256
  clogOk : ClogOk clog k (max rows cols)
  isInt : b.isInt
  rows_pos : 0 < rows
  cols_pos : 0 < cols
  instants : n < 2 ^ 32
  levelsOk : LevelsOk k n levels
  diffs : SeriesNoSplit b.int n rows cols k

section
variable {H : Hash} {clog : Nat → Nat} {lg : Rat → Int} {k : Nat} {levels : List Nat}
  {b : MMBuffer3} {n rows cols : Nat} {log log' : Saved} {r : MMStruct3Build}
  {utf8 : List Byte → Bool}

theorem IntInput.repr (h : IntInput clog k levels b n rows cols)
    (hb : Superchunk.build H clog lg k levels log b n rows cols = some (r, log'))
    {log'' : Saved} (hsub : log' ⊆ log'') (hnc : log''.NoCollision H) :
    Represents utf8 (log''.load H) (fun _ v => v) (LeafReads fun _ v => v)
      (ExtOf fun m v => m.1 ≤ v ∧ v ≤ m.2) (levels.length + 1) r.data n rows cols b.int :=
  ((superchunk_repr (intReads clog lg k h.arity h.even) H utf8 h.arity h.arity_lt _ n h.clogOk h.instants levels
    h.levelsOk (fun _ _ => trivial) log b rows cols r log' ⟨h.isInt, h.diffs⟩ h.rows_pos h.cols_pos
    (Nat.le_max_left ..) (Nat.le_max_right ..) hb).2.2.2 log'' hsub hnc).1

/-- C22, integers: every cell of every instant reads back, whatever levels the builder accepted and
whichever subchunks it elided or stored. Missing for the full claim: floats (C39-C41), odd arities
(C07), squares that are split by overflow (`C07_exact`). -/
theorem C22_superchunk_get_partial (h : IntInput clog k levels b n rows cols)
    (hb : Superchunk.build H clog lg k levels log b n rows cols = some (r, log'))
    (log'' : Saved) (hsub : log' ⊆ log'') (hnc : log''.NoCollision H) (fuel : Nat)
    (hf : levels.length < fuel) (t row col : Nat) (ht : t < n) (hr : row < rows) (hc : col < cols) :
    ∃ bits, r.data.get utf8 (log''.load H) fuel r.data.fractionalBits t row col =
      .ok (bits, b.int t row col) := by
  obtain ⟨bits, v, e, rfl⟩ := repr_get (fun _ _ _ _ _ h => h) _ fuel _ _ _ _ _
    (h.repr (utf8 := utf8) hb hsub hnc) hf t row col ht hr hc
  exact ⟨bits, e⟩

/-- C22: a superchunk says of its numbers that they are of the type of the array it is built from, and
so does every structure that is stored for it; besides such structures only lists of links are stored. -/
theorem C22_type (b : MMBuffer3) (enc : MMEncoding)
    (henc : (∀ a, b = .i32 a → enc = .i32) ∧ (∀ a, b = .i64 a → enc = .i64) ∧
      (∀ a bits round, b = .flt .single a bits round → enc = .f32) ∧
      ∀ a bits round, b = .flt .double a bits round → enc = .f64)
    (hb : Superchunk.build H clog lg k levels log b n rows cols = some (r, log')) :
    r.data.encoding = enc ∧ ∀ x ∈ log', x ∈ log ∨
      (∃ m, x = (Item.struct m).bytes ∧ m.encoding = enc) ∨ ∃ l, x = (Item.links l).bytes := by
  have e : b.encoding = enc := by
    obtain ⟨h1, h2, h3, h4⟩ := henc
    cases b with
    | i32 a => rw [h1 a rfl]; rfl
    | i64 a => rw [h2 a rfl]; rfl
    | flt p a bits round =>
      cases p with
      | single => rw [h3 a _ _ rfl]; rfl
      | double => rw [h4 a _ _ rfl]; rfl
  have := Superchunk.build_encoding _ _ _ _ _ _ _ _ hb
  rw [e] at this
  exact this

/-- C23, cells, integers: in whatever order the parts complete, the read ends well and writes every
instant of the range once, with the value it was built from. -/
theorem C23_superchunk_cell_partial (h : IntInput clog k levels b n rows cols)
    (hb : Superchunk.build H clog lg k levels log b n rows cols = some (r, log'))
    (log'' : Saved) (hsub : log' ⊆ log'') (hnc : log''.NoCollision H) (fuel : Nat)
    (hf : levels.length < fuel) (start fin row col : Nat) (hse : start ≤ fin) (hfin : fin ≤ n)
    (hr : row < rows) (hc : col < cols) :
    (∃ t s, r.data.fillCell utf8 (log''.load H) fuel r.data.fractionalBits start fin row col t s) ∧
    ∀ t s, r.data.fillCell utf8 (log''.load H) fuel r.data.fractionalBits start fin row col t s →
      s = none ∧ (t.map fun q => (q.1, q.2.2)).Perm
        ((List.range (fin - start)).map fun i => (i, b.int (start + i) row col)) := by
  obtain ⟨⟨t, s, u, h1, -⟩, h2⟩ := repr_fillCell (fun _ _ _ _ _ h => h) _ fuel _ _ _ _ _
    (h.repr (utf8 := utf8) hb hsub hnc) hf start fin row col hse hfin hr hc
  exact ⟨⟨u, s, h1⟩, fun t s hts => h2 _ s ⟨t, hts, rfl⟩⟩

/-- C23, windows, integers. -/
theorem C23_superchunk_window_partial (h : IntInput clog k levels b n rows cols)
    (hb : Superchunk.build H clog lg k levels log b n rows cols = some (r, log'))
    (log'' : Saved) (hsub : log' ⊆ log'') (hnc : log''.NoCollision H) (fuel : Nat)
    (hf : levels.length < fuel) (start fin top bottom left right : Nat) (hse : start ≤ fin)
    (hfin : fin ≤ n) (htb : top < bottom) (hlr : left < right) (hbr : bottom ≤ rows)
    (hrc : right ≤ cols) :
    (∃ t s, r.data.fillWindow utf8 (log''.load H) fuel r.data.fractionalBits
      ⟨start, fin, top, bottom, left, right⟩ t s) ∧
    ∀ t s, r.data.fillWindow utf8 (log''.load H) fuel r.data.fractionalBits
        ⟨start, fin, top, bottom, left, right⟩ t s →
      s = none ∧ (t.map fun q => (q.1, q.2.1, q.2.2.1, q.2.2.2.2)).Perm
        (Spec.window3 b.int start fin top bottom left right) := by
  obtain ⟨⟨t, s, u, h1, -⟩, h2⟩ := repr_fillWindow (fun _ _ _ _ _ h => h) _ fuel _ _ _ _ _
    (h.repr (utf8 := utf8) hb hsub hnc) hf start fin top bottom left right hse hfin htb hlr hbr hrc
  exact ⟨⟨u, s, h1⟩, fun t s hts => h2 _ s ⟨t, hts, rfl⟩⟩

/-- C24, integers, for rasters whose squares of the grids are safe for the search of logs (C09, C14):
exactly the matching cells are reported, each once, in whatever order; skipping parts by their
minimum and maximum loses none. -/
theorem C24_superchunk_search_partial (h : IntInput clog k levels b n rows cols)
    (hno : SeriesNoOverflow b.int n rows cols)
    (hsafe : GridSafe clog k (fun e => ∃ s, s <:+ levels.tail ∧ e = s.sum) b.int n rows cols)
    (hb : Superchunk.build H clog lg k levels log b n rows cols = some (r, log'))
    (log'' : Saved) (hsub : log' ⊆ log'') (hnc : log''.NoCollision H) (fuel : Nat)
    (hf : levels.length < fuel) (start fin top bottom left right : Nat) (lower upper : Int64)
    (hse : start ≤ fin) (hfin : fin ≤ n) (htb : top < bottom) (hlr : left < right)
    (hbr : bottom ≤ rows) (hrc : right ≤ cols) :
    (∃ t s, r.data.search utf8 (log''.load H) fuel ⟨start, fin, top, bottom, left, right⟩ lower
      upper t s) ∧
    ∀ t s, r.data.search utf8 (log''.load H) fuel ⟨start, fin, top, bottom, left, right⟩ lower
        upper t s →
      s = none ∧ t.Perm ((Spec.hits3 b.int start fin top bottom left right (min lower upper)
        (max lower upper)).map some) := by
  have hrep := ((superchunk_repr (intSearches clog lg k h.arity h.even
      (fun e => ∃ s, s <:+ levels.tail ∧ e = s.sum)) H utf8 h.arity h.arity_lt _ n
    h.clogOk h.instants levels h.levelsOk (fun s hs => ⟨s, hs, rfl⟩) log b rows cols r log'
    ⟨h.isInt, hno, hsafe⟩ h.rows_pos h.cols_pos
    (Nat.le_max_left ..) (Nat.le_max_right ..) hb).2.2.2 log'' hsub hnc).1
  exact repr_search (fun _ _ _ _ _ h => h) _ fuel _ _ _ _ _ hrep hf start fin top bottom left right
    lower upper hse hfin htb hlr hbr hrc

/-- C27, integers: a square of the grid that the builder elided is constant in every instant, with
the value kept for it. -/
theorem C27_elision_partial (h : IntInput clog k levels b n rows cols)
    (hb : Superchunk.build H clog lg k levels log b n rows cols = some (r, log'))
    (hnc : log'.NoCollision H) :
    ∃ head, r.data = .superchunk head [] ∧ ∀ i j, i * head.chunksSidelen < rows →
      j * head.chunksSidelen < cols → head.references[i * head.subsidelen + j]? = some .elided →
      ∀ t, t < n → ∃ v, head.max.get (head.slot (i * head.subsidelen + j) t) = some v ∧
        ∀ row col, i * head.chunksSidelen ≤ row → row < (i + 1) * head.chunksSidelen → row < rows →
          j * head.chunksSidelen ≤ col → col < (j + 1) * head.chunksSidelen → col < cols →
          b.int t row col = v := by
  have hrep := h.repr (utf8 := fun _ => true) hb (List.Subset.refl _) hnc
  obtain ⟨⟨head, e, -⟩, -⟩ := superchunk_repr (intReads clog lg k h.arity h.even) H (fun _ => true) h.arity
    h.arity_lt _ n h.clogOk h.instants levels h.levelsOk (fun _ _ => trivial) log b rows cols r log'
    ⟨h.isInt, h.diffs⟩ h.rows_pos h.cols_pos (Nat.le_max_left ..) (Nat.le_max_right ..) hb
  refine ⟨head, e, fun i j hi hj href t ht => ?_⟩
  rw [e] at hrep
  have hrep : SuperRepr _ _ _ _ _ head [] n rows cols b.int := hrep
  rcases hrep.sub i j hi hj with ⟨-, h2⟩ | ⟨ref, m, h1, h2, -⟩
  · obtain ⟨v, e, hv⟩ := h2 t ht
    refine ⟨v, e, fun row col a1 a2 a3 a4 a5 a6 => ?_⟩
    rw [Nat.succ_mul] at a2 a5
    have := hv (row - i * head.chunksSidelen) (col - j * head.chunksSidelen) (by omega) (by omega)
      (by omega) (by omega)
    rwa [show i * head.chunksSidelen + (row - i * head.chunksSidelen) = row by omega,
      show j * head.chunksSidelen + (col - j * head.chunksSidelen) = col by omega] at this
  · rw [href] at h2
    cases h2
    exact absurd rfl h1

end

/-! ### C26 -/

section
variable {H : Hash} {clog : Nat → Nat} {lg : Rat → Int} {k : Nat}

/-- C26, what is true of the code (integers): the builder succeeds exactly when the levels are
`BuildOk`. -/
theorem C26_accepts_iff (hk : 0 < k) (levels : List Nat) (log : Saved) (b : MMBuffer3)
    (n rows cols : Nat) (hn : 1 ≤ n) (hb : b.isInt) (hr : 0 < rows) (hc : 0 < cols)
    (hclog : ClogOk clog k (max rows cols)) :
    (Superchunk.build H clog lg k levels log b n rows cols).isSome ↔
      BuildOk clog k n levels b.int rows cols :=
  Superchunk.build_isSome_iff hk hn levels log b rows cols hb hr hc hclog

/-- C26 for lists of one or two levels: every shape. -/
theorem C26_two_levels_partial (hk : 0 < k) (levels : List Nat) (hl : levels ≠ [])
    (hl' : levels.length ≤ 2) (log : Saved) (b : MMBuffer3)
    (n rows cols : Nat) (hn : 1 ≤ n) (hb : b.isInt) (hr : 0 < rows) (hc : 0 < cols)
    (hclog : ClogOk clog k (max rows cols)) (hsum : levels.sum = clog (max rows cols)) :
    ∃ r log', Superchunk.build H clog lg k levels log b n rows cols = some (r, log') := by
  have : (Superchunk.build H clog lg k levels log b n rows cols).isSome := by
    rw [C26_accepts_iff hk levels log b n rows cols hn hb hr hc hclog]
    match levels, hl, hl', hsum with
    | [_], _, _, hs => exact ⟨hs, trivial⟩
    | [_, _], _, _, hs => exact ⟨hs, trivial⟩
  obtain ⟨⟨r, log'⟩, e⟩ := Option.isSome_iff_exists.1 this
  exact ⟨r, log', e⟩

theorem clog_pow {N : Nat} (hk : 2 ≤ k) (hclog : ClogOk clog k N) {s : Nat} (hs : k ^ s ≤ N) :
    clog (k ^ s) = s := by
  have h0 : 1 ≤ k ^ s := Nat.pow_pos (by omega)
  apply Nat.le_antisymm
  · exact (hclog _ _ h0 hs).2 (Nat.le_refl _)
  · by_contra hlt
    have := (hclog _ _ h0 hs).1 (Nat.le_refl (clog (k ^ s)))
    have := Nat.pow_lt_pow_right (show 1 < k by omega) (show clog (k ^ s) < s by omega)
    omega

theorem buildOk_full (hk : 2 ≤ k) (n N : Nat) (hclog : ClogOk clog k N) : ∀ (levels : List Nat)
    (get : Nat → Nat → Nat → Int64) (rows cols : Nat), levels ≠ [] → rows ≤ N → cols ≤ N →
    levels.sum = clog (max rows cols) → k ^ levels.tail.sum ∣ rows → k ^ levels.tail.sum ∣ cols →
    BuildOk clog k n levels get rows cols := by
  intro levels
  induction levels with
  | nil => intro get rows cols h; exact absurd rfl h
  | cons level sub ih =>
    intro get rows cols _ hr hc hsum d1 d2
    refine ⟨hsum, ?_⟩
    match sub, ih, d1, d2 with
    | [], _, _, _ => trivial
    | [_], _, _, _ => trivial
    | next :: x :: rest, ih, d1, d2 =>
      intro i j hi hj
      simp only [List.tail_cons] at d1 d2
      generalize hcs : k ^ (next :: x :: rest).sum = cs at *
      have full : ∀ {i y : Nat}, cs ∣ y → i * cs < y → min cs (y - i * cs) = cs := by
        rintro i y ⟨z, rfl⟩ h
        rw [Nat.mul_comm cs z] at *
        have : i < z := Nat.lt_of_mul_lt_mul_right h
        have := Nat.mul_le_mul_right cs (show i + 1 ≤ z by omega)
        rw [Nat.succ_mul] at this
        omega
      have hle : cs ≤ rows := by
        have := full d1 hi
        omega
      refine .inr (.inr ?_)
      rw [full d1 hi, full d2 hj]
      refine ih _ _ _ (by simp) (by omega) (by omega) ?_ ?_ ?_
      · rw [Nat.max_self, ← hcs, clog_pow hk hclog (by omega)]
      · rw [← hcs, List.tail_cons, List.sum_cons]
        exact Nat.pow_dvd_pow _ (Nat.le_add_left ..)
      · rw [← hcs, List.tail_cons, List.sum_cons]
        exact Nat.pow_dvd_pow _ (Nat.le_add_left ..)

/-- C26 for shapes that the first level divides into full squares: every list of levels. -/
theorem C26_full_squares_partial (hk : 2 ≤ k) (levels : List Nat) (hl : levels ≠ []) (log : Saved)
    (b : MMBuffer3) (n rows cols : Nat) (hn : 1 ≤ n) (hb : b.isInt) (hr : 0 < rows) (hc : 0 < cols)
    (hclog : ClogOk clog k (max rows cols)) (hsum : levels.sum = clog (max rows cols))
    (d1 : k ^ levels.tail.sum ∣ rows) (d2 : k ^ levels.tail.sum ∣ cols) :
    ∃ r log', Superchunk.build H clog lg k levels log b n rows cols = some (r, log') := by
  have : (Superchunk.build H clog lg k levels log b n rows cols).isSome := by
    rw [C26_accepts_iff (by omega) levels log b n rows cols hn hb hr hc hclog]
    exact buildOk_full hk n _ hclog levels _ rows cols hl (Nat.le_max_left ..) (Nat.le_max_right ..)
      hsum d1 d2
  obtain ⟨⟨r, log'⟩, e⟩ := Option.isSome_iff_exists.1 this
  exact ⟨r, log', e⟩

/-- C26 is false of the code: for a raster of 24 rows and columns and the levels 1, 2, 2, which sum
up to the 5 that 24 needs, the builder panics unless the last 8 rows and columns are constant. -/
theorem C26_wrong (log : Saved) (b : MMBuffer3) (n : Nat) (hn : 1 ≤ n) (hb : b.isInt)
    (hclog : ClogOk clog 2 24) (t : Nat) (ht : t < n) (h : b.int t 16 16 ≠ b.int t 23 23) :
    [1, 2, 2].sum = clog 24 ∧ Superchunk.build H clog lg 2 [1, 2, 2] log b n 24 24 = none := by
  have hcl : clog 24 = 5 := by
    apply Nat.le_antisymm
    · exact (hclog 24 5 (by omega) (by omega)).2 (by omega)
    · by_contra hlt
      have := (hclog 24 4 (by omega) (by omega)).1 (by omega)
      omega
  have h8 : clog 8 = 3 := clog_pow (k := 2) (s := 3) (by omega) hclog (by omega)
  refine ⟨by rw [hcl]; rfl, ?_⟩
  rw [← Option.not_isSome_iff_eq_none, C26_accepts_iff (by omega) _ log b n 24 24 hn hb (by omega)
    (by omega) hclog]
  rintro ⟨-, h1⟩
  rcases h1 1 1 (by decide) (by decide) with h2 | h2 | ⟨h2, -⟩
  · obtain ⟨u, hu⟩ := h2 t ht
    have a1 := hu 0 0 (by decide) (by decide)
    have a2 := hu 7 7 (by decide) (by decide)
    simp only at a1 a2
    exact h (a1.trans a2.symm)
  · have h2 : clog 8 ≤ 2 := h2
    omega
  · have h2 : 4 = clog 8 := h2
    omega

end

/-! ### C25 -/

theorem mem_collect {α β} {f : α → Option (List β)} {x : α} {l : List β} {y : β} :
    ∀ {xs : List α} {ys : List β}, collect xs f = some ys → x ∈ xs → f x = some l → y ∈ l →
      y ∈ ys := by
  intro xs
  induction xs with
  | nil => intro ys _ h; cases h
  | cons a xs ih =>
    intro ys h hx hf hy
    unfold collect at h
    cases ha : f a with
    | none => rw [ha] at h; cases h
    | some la =>
      rw [ha] at h
      cases hr : collect xs f with
      | none => rw [hr] at h; cases h
      | some lr =>
        rw [hr] at h
        cases h
        rcases List.mem_cons.1 hx with rfl | hx
        · rw [ha] at hf; cases hf; simp [hy]
        · simp [ih hr hx hf hy]

section
variable (utf8 : List Byte → Bool) (st : Store)

/-- C25 for cells: if the subchunk of a cell cannot be loaded, reading the cell fails with the
reason. -/
theorem C25_get_reports (h : SuperHead) (loc : List MMStruct3) (fuel bits t row col : Nat)
    (hcs : 0 < h.chunksSidelen) (ref : Reference) (f : Fail)
    (href : h.references[row / h.chunksSidelen * h.subsidelen + col / h.chunksSidelen]? = some ref)
    (hne : ref ≠ .elided) (hfail : h.deref utf8 st loc ref = .error f) :
    MMStruct3.get utf8 st (fuel + 1) (.superchunk h loc) bits t row col = .error f := by
  unfold MMStruct3.get SuperHead.locate
  simp only
  rw [if_neg (by omega)]
  simp only
  rw [href]
  cases ref with
  | elided => exact absurd rfl hne
  | loc i => simp only; rw [hfail]
  | external i => simp only; rw [hfail]

/-- C25 for ranges of a cell: no run of the read ends well. -/
theorem C25_cell_reports (h : SuperHead) (loc : List MMStruct3) (fuel bits start fin row col : Nat)
    (hcs : 0 < h.chunksSidelen) (ref : Reference) (f : Fail)
    (href : h.references[row / h.chunksSidelen * h.subsidelen + col / h.chunksSidelen]? = some ref)
    (hne : ref ≠ .elided) (hfail : h.deref utf8 st loc ref = .error f)
    (t : List (Nat × Nat × Int64)) (s : Option Fail)
    (hrun : MMStruct3.fillCell utf8 st (fuel + 1) (.superchunk h loc) bits start fin row col t s) :
    t = [] ∧ s = some f := by
  unfold MMStruct3.fillCell SuperHead.locate at hrun
  simp only at hrun
  rw [if_neg (by omega)] at hrun
  simp only at hrun
  rw [href] at hrun
  cases ref with
  | elided => exact absurd rfl hne
  | loc i => simp only [hfail, Out.await] at hrun; exact hrun
  | external i => simp only [hfail, Out.await] at hrun; exact hrun

/-- C25 is false of the code for windows of superchunks: the read never ends in an error, whatever
is missing from the store. -/
theorem C25_window_never_reports (h : SuperHead) (loc : List MMStruct3) (fuel bits : Nat)
    (window : Cube) (t : List (Nat × Nat × Nat × Nat × Int64)) (s : Option Fail)
    (hrun : MMStruct3.fillWindow utf8 st (fuel + 1) (.superchunk h loc) bits window t s) :
    ∀ e, s ≠ some (.err e) := by
  intro e
  unfold MMStruct3.fillWindow at hrun
  simp only at hrun
  cases hsubs : h.subchunksFor window.rect with
  | none => rw [hsubs] at hrun; simp only at hrun; rw [hrun.2]; simp
  | some subs =>
    rw [hsubs] at hrun
    obtain ⟨rs, -, hrun⟩ := hrun
    cases s with
    | none => simp
    | some f => simp only at hrun; rw [hrun.1]; simp

/-- In particular, with an empty store a window read of any superchunk whose subchunks are all
stored apart ends well and has written nothing. -/
theorem C25_window_silent (h : SuperHead) (fuel bits start fin top bottom left right : Nat)
    (hcs : 0 < h.chunksSidelen) (htb : top < bottom) (hlr : left < right)
    (hrefs : ∀ i j, i * h.chunksSidelen < bottom → j * h.chunksSidelen < right →
      ∃ x, h.references[i * h.subsidelen + j]? = some (.external x)) :
    MMStruct3.fillWindow utf8 (fun _ => none) (fuel + 1) (.superchunk h []) bits
      ⟨start, fin, top, bottom, left, right⟩ [] none := by
  unfold MMStruct3.fillWindow
  simp only
  rw [Cube.rect_eq (by omega) (by omega), subchunksFor_eq h hcs htb hlr]
  simp only
  generalize hsubs : ((rangeIncl (top / h.chunksSidelen) ((bottom - 1) / h.chunksSidelen)).flatMap
    fun R => (rangeIncl (left / h.chunksSidelen) ((right - 1) / h.chunksSidelen)).map fun C =>
      windowPart h.chunksSidelen h.subsidelen top bottom left right R C) = subs
  refine ⟨subs.map fun _ => ([], some (.err (.notFound h.externalCid))), ?_, ?_, ?_⟩
  · unfold Out.Runs
    rw [List.forall₂_map_left_iff, List.forall₂_map_right_iff, List.forall₂_same]
    intro sub hsub
    rw [← hsubs] at hsub
    obtain ⟨R, hR, hsub⟩ := List.mem_flatMap.1 hsub
    obtain ⟨C, hC, rfl⟩ := List.mem_map.1 hsub
    have b1 := side_bounds hcs htb hR
    have b2 := side_bounds hcs hlr hC
    obtain ⟨x, hx⟩ := hrefs R C (by omega) (by omega)
    refine ⟨[], ?_, rfl⟩
    simp only [windowPart]
    rw [hx]
    simp only [SuperHead.deref, Store.getLinks, Store.retrieve, Out.await]
    exact ⟨rfl, rfl⟩
  · intro r hr
    obtain ⟨_, -, rfl⟩ := List.mem_map.1 hr
    simp
  · refine .done fun l hl => ?_
    simp only [List.map_map, List.mem_map, Function.comp_apply] at hl
    obtain ⟨_, -, rfl⟩ := hl
    rfl

/-- C25 for spans: if a child needed for the window cannot be loaded, no run ends well. -/
theorem C25_span_reports (sp : Span) (fuel bits start fin top bottom left right : Nat)
    (hs : 0 < sp.stride) (i : Nat) (cid : Cid) (f : Fail) (hi : sp.spans[i]? = some cid)
    (h1 : start < (i + 1) * sp.stride) (h2 : i * sp.stride < fin) (h3 : start < fin)
    (hfail : st.getStruct utf8 cid = .error f) (t : List (Nat × Nat × Nat × Nat × Int64))
    (s : Option Fail)
    (hrun : MMStruct3.fillWindow utf8 st (fuel + 1) (.span sp) bits
      ⟨start, fin, top, bottom, left, right⟩ t s) : s ≠ none := by
  unfold MMStruct3.fillWindow Cube.instants csub at hrun
  simp only at hrun
  rw [if_pos (by omega)] at hrun
  simp only at hrun
  obtain ⟨ps, e, hp1, hp2⟩ := piecesFor_spec sp start (fin - start) hs
  rw [e] at hrun
  simp only at hrun
  split at hrun
  swap
  · rw [hrun.2]; simp
  rintro rfl
  obtain ⟨rs, hr, hok, -⟩ := hrun
  -- the piece of an instant in the child
  have hx : max start (i * sp.stride) - start ∈ ps.flatMap fun p => List.range' p.start p.len := by
    rw [hp2, List.mem_range]
    rw [Nat.succ_mul] at h1
    omega
  obtain ⟨p, hp, hx⟩ := List.mem_flatMap.1 hx
  rw [List.mem_range'_1] at hx
  obtain ⟨q1, q2, q3, q4⟩ := hp1 p hp
  have hspan : p.span = i := by
    rw [Nat.succ_mul] at h1
    have e1 : p.span * sp.stride < (i + 1) * sp.stride := by rw [Nat.succ_mul]; omega
    have e2 : i * sp.stride < (p.span + 1) * sp.stride := by rw [Nat.succ_mul]; omega
    have := Nat.lt_of_mul_lt_mul_right e1
    have := Nat.lt_of_mul_lt_mul_right e2
    omega
  obtain ⟨idx, hidx⟩ := List.mem_iff_getElem?.1 hp
  obtain ⟨run, g1, g2⟩ := forall₂_getElem? hr (by
    rw [List.getElem?_map, hidx]; rfl)
  rw [hspan, hi] at g2
  simp only [hfail, Out.await] at g2
  have := hok run (List.mem_of_getElem? g1)
  rw [g2.2] at this
  cases this

/-- C25 for searches of spans: a search that ends has reported the error as an item. -/
theorem C25_span_search_reports (sp : Span) (fuel start fin top bottom left right : Nat)
    (lower upper : Int64) (hs : 0 < sp.stride) (i : Nat) (cid : Cid) (hi : sp.spans[i]? = some cid)
    (h1 : start < (i + 1) * sp.stride) (h2 : i * sp.stride < fin) (h3 : start < fin)
    (e' : Err) (hfail : st.getStruct utf8 cid = .error (.err e')) (t : List (Option (Nat × Nat × Nat)))
    (hrun : MMStruct3.search utf8 st (fuel + 1) (.span sp) ⟨start, fin, top, bottom, left, right⟩
      lower upper t none) : none ∈ t := by
  unfold MMStruct3.search Cube.instants csub at hrun
  simp only at hrun
  rw [if_pos (by omega)] at hrun
  simp only at hrun
  obtain ⟨ps, e, hp1, hp2⟩ := piecesFor_spec sp start (fin - start) hs
  rw [e] at hrun
  simp only at hrun
  split at hrun
  swap
  · cases hrun.2
  obtain ⟨rs, hr, -, hi'⟩ := hrun
  have hx : max start (i * sp.stride) - start ∈ ps.flatMap fun p => List.range' p.start p.len := by
    rw [hp2, List.mem_range]
    rw [Nat.succ_mul] at h1
    omega
  obtain ⟨p, hp, hx⟩ := List.mem_flatMap.1 hx
  rw [List.mem_range'_1] at hx
  obtain ⟨q1, q2, q3, q4⟩ := hp1 p hp
  have hspan : p.span = i := by
    rw [Nat.succ_mul] at h1
    have e1 : p.span * sp.stride < (i + 1) * sp.stride := by rw [Nat.succ_mul]; omega
    have e2 : i * sp.stride < (p.span + 1) * sp.stride := by rw [Nat.succ_mul]; omega
    have := Nat.lt_of_mul_lt_mul_right e1
    have := Nat.lt_of_mul_lt_mul_right e2
    omega
  obtain ⟨idx, hidx⟩ := List.mem_iff_getElem?.1 hp
  obtain ⟨run, g1, g2⟩ := forall₂_getElem? hr (by
    rw [List.getElem?_map, hidx]; rfl)
  rw [hspan, hi] at g2
  simp only [hfail] at g2
  rw [hi'.perm.mem_iff]
  exact List.mem_flatten.2 ⟨run.1, List.mem_map_of_mem (List.mem_of_getElem? g1), by rw [g2.1]; simp⟩

/-- C25 for searches of superchunks: the same, for a subchunk that the search does not skip. -/
theorem C25_superchunk_search_reports (h : SuperHead) (loc : List MMStruct3)
    (fuel start fin top bottom left right : Nat) (lower upper : Int64) (hcs : 0 < h.chunksSidelen)
    (htb : top < bottom) (hlr : left < right) (row col : Nat) (hr1 : top ≤ row) (hr2 : row < bottom)
    (hc1 : left ≤ col) (hc2 : col < right) (ref : Reference)
    (href : h.references[row / h.chunksSidelen * h.subsidelen + col / h.chunksSidelen]? = some ref)
    (hne : ref ≠ .elided) (e' : Err) (hfail : h.deref utf8 st loc ref = .error (.err e'))
    (hcells : h.hasCells (rearrangeI lower upper).1 (rearrangeI lower upper).2
      (row / h.chunksSidelen * h.subsidelen + col / h.chunksSidelen) (rangeExcl start fin) =
        some true)
    (t : List (Option (Nat × Nat × Nat)))
    (hrun : MMStruct3.search utf8 st (fuel + 1) (.superchunk h loc)
      ⟨start, fin, top, bottom, left, right⟩ lower upper t none) : none ∈ t := by
  unfold MMStruct3.search at hrun
  simp only at hrun
  rw [Cube.rect_eq (by omega) (by omega), subchunksFor_eq h hcs htb hlr] at hrun
  simp only at hrun
  generalize hsubs : collect _ _ = o at hrun
  cases o with
  | none => cases hrun.2
  | some subs =>
  obtain ⟨rs, hr, -, hi'⟩ := hrun
  have hmem : windowPart h.chunksSidelen h.subsidelen top bottom left right (row / h.chunksSidelen)
      (col / h.chunksSidelen) ∈ subs := by
    refine mem_collect hsubs (List.mem_flatMap.2 ⟨row / h.chunksSidelen, ?_,
      List.mem_map.2 ⟨col / h.chunksSidelen, ?_, rfl⟩⟩) ?_ (List.mem_singleton.2 rfl)
    · rw [rangeIncl, List.mem_range'_1]
      have a1 := Nat.div_le_div_right (c := h.chunksSidelen) hr1
      have a2 := Nat.div_le_div_right (c := h.chunksSidelen) (show row ≤ bottom - 1 by omega)
      omega
    · rw [rangeIncl, List.mem_range'_1]
      have a1 := Nat.div_le_div_right (c := h.chunksSidelen) hc1
      have a2 := Nat.div_le_div_right (c := h.chunksSidelen) (show col ≤ right - 1 by omega)
      omega
    · simp only [windowPart]
      rw [hcells]
      rfl
  obtain ⟨idx, hidx⟩ := List.mem_iff_getElem?.1 hmem
  obtain ⟨run, g1, g2⟩ := forall₂_getElem? hr (by
    rw [List.getElem?_map, hidx]; rfl)
  simp only [windowPart] at g2
  rw [href] at g2
  rw [hi'.perm.mem_iff]
  refine List.mem_flatten.2 ⟨run.1, List.mem_map_of_mem (List.mem_of_getElem? g1), ?_⟩
  cases ref with
  | elided => exact absurd rfl hne
  | loc i => simp only [hfail] at g2; rw [g2.1]; simp
  | external i => simp only [hfail] at g2; rw [g2.1]; simp

/-! ### C28 -/

/-- C28: structures whose numbers fit the format (`u32` counts and shapes, `u8` levels and fractional
bits, valid identifiers) are read back, also when something follows. Everything the builder makes
from an `IntInput` is such (`C28_built`). Missing for the full claim: the structures with larger
numbers, which are not read back (`C28_large_wrong`). -/
theorem C28_round_trip_partial (m : MMStruct3) (h : m.WF) (rest : List Byte) :
    MMStruct3.read (m.write ++ rest) = .ok (m, rest) :=
  m.read_rt h rest

/-- C28: lists of links. -/
theorem C28_links_partial (l : Links) (h : l.WF) (rest : List Byte) :
    Links.read (l.write ++ rest) = .ok (l, []) :=
  l.read_all h rest

/-- C28: what was saved is retrieved, if the store gives back the bytes. -/
theorem C28_stored_partial (cid : Cid) :
    (∀ m : MMStruct3, m.WF → st cid = some (Item.struct m).bytes → st.getStruct utf8 cid = .ok m) ∧
    (∀ l : Links, l.WF → st cid = some (Item.links l).bytes → st.getLinks utf8 cid = .ok l) :=
  ⟨fun _ h hs => Store.getStruct_of hs h, fun _ h hs => Store.getLinks_of hs h⟩

theorem C28_built {H : Hash} {clog : Nat → Nat} {lg : Rat → Int} {k : Nat} {levels : List Nat}
    {b : MMBuffer3} {n rows cols : Nat} {log log' : Saved} {r : MMStruct3Build}
    (h : IntInput clog k levels b n rows cols)
    (hb : Superchunk.build H clog lg k levels log b n rows cols = some (r, log')) : r.data.WF :=
  (superchunk_repr (intReads clog lg k h.arity h.even) H (fun _ => true) h.arity
    h.arity_lt _ n h.clogOk h.instants levels h.levelsOk (fun _ _ => trivial) log b rows cols r log'
    ⟨h.isInt, h.diffs⟩ h.rows_pos h.cols_pos (Nat.le_max_left ..) (Nat.le_max_right ..) hb).2.1

/-- C28 is false of the code for numbers that do not fit: a span with too many instants comes back
with their number reduced modulo 2^32. -/
theorem C28_large_wrong (s : Span) (h : ({ s with instants := s.instants % 2 ^ 32 } : Span).WF)
    (rest : List Byte) :
    MMStruct3.read ((MMStruct3.span s).write ++ rest) =
      .ok (.span { s with instants := s.instants % 2 ^ 32 }, rest) := by
  have e : (MMStruct3.span s).write =
      (MMStruct3.span { s with instants := s.instants % 2 ^ 32 }).write := by
    unfold MMStruct3.write Span.write asU32
    simp only
    rw [show BitVec.ofNat 32 (s.instants % 2 ^ 32) = BitVec.ofNat 32 s.instants from
      BitVec.eq_of_toNat_eq (by simp)]
  rw [e]
  exact MMStruct3.read_rt (.span _) h rest

/-! ### C29 -/

/-- C29: an instant is answered by the child that holds it. -/
theorem C29_span_get (sp : Span) (hs : 0 < sp.stride) (fuel bits t row col : Nat) (cid : Cid)
    (m : MMStruct3) (hi : sp.spans[t / sp.stride]? = some cid)
    (hm : st.getStruct utf8 cid = .ok m) :
    MMStruct3.get utf8 st (fuel + 1) (.span sp) bits t row col =
      MMStruct3.get utf8 st fuel m m.fractionalBits (t % sp.stride) row col := by
  rw [MMStruct3.get]
  unfold Span.findSpan
  rw [if_neg (by omega)]
  simp only [hi, hm]

/-- C29: reads of a span tree give each instant of the range once, at its place in the range, with
what the child holds at the relative instant. `Represents` says that the tree holds the series:
children at index `i` of a span hold the instants from `i * stride`, superchunks and chunks below
them the rasters. -/
theorem C29_span_reads {α : Type} (dec : Nat → Int64 → α)
    (Ext : SuperHead → Nat → Nat → α → Prop)
    (sp : Span) (d n rows cols : Nat) (data : Nat → Nat → Nat → α)
    (h : Represents utf8 st dec (LeafReads dec) Ext d (.span sp) n rows cols data)
    (fuel : Nat) (hf : d ≤ fuel) :
    (∀ t row col, t < n → row < rows → col < cols →
      ∃ bits v, MMStruct3.get utf8 st fuel (.span sp) 0 t row col = .ok (bits, v) ∧
        dec bits v = data t row col) ∧
    (∀ start fin row col, start ≤ fin → fin ≤ n → row < rows → col < cols →
      (Out.map (fun q => (q.1, dec q.2.1 q.2.2))
        (MMStruct3.fillCell utf8 st fuel (.span sp) 0 start fin row col)).Yields
        ((List.range (fin - start)).map fun i => (i, data (start + i) row col))) ∧
    ∀ start fin top bottom left right, start ≤ fin → fin ≤ n → top < bottom → left < right →
      bottom ≤ rows → right ≤ cols →
      (Out.map (fun q => (q.1, q.2.1, q.2.2.1, dec q.2.2.2.1 q.2.2.2.2))
        (MMStruct3.fillWindow utf8 st fuel (.span sp) 0
          ⟨start, fin, top, bottom, left, right⟩)).Yields
        (Spec.window3 data start fin top bottom left right) :=
  ⟨fun t row col => repr_get (fun _ _ _ _ _ h => h) d fuel _ _ _ _ _ h hf t row col,
    fun start fin row col => repr_fillCell (fun _ _ _ _ _ h => h) d fuel _ _ _ _ _ h hf start fin
      row col,
    fun start fin top bottom left right => repr_fillWindow (fun _ _ _ _ _ h => h) d fuel _ _ _ _ _ h
      hf start fin top bottom left right⟩

/-- C29: searches. -/
theorem C29_span_search (sp : Span) (d n rows cols : Nat) (data : Nat → Nat → Nat → Int64)
    (h : Represents utf8 st (fun _ v => v) LeafSearches InBounds d (.span sp) n rows cols data)
    (fuel : Nat) (hf : d ≤ fuel) (start fin top bottom left right : Nat) (lower upper : Int64)
    (hse : start ≤ fin) (hfin : fin ≤ n) (htb : top < bottom) (hlr : left < right)
    (hbr : bottom ≤ rows) (hrc : right ≤ cols) :
    (MMStruct3.search utf8 st fuel (.span sp) ⟨start, fin, top, bottom, left, right⟩ lower
      upper).Yields ((Spec.hits3 data start fin top bottom left right (min lower upper)
        (max lower upper)).map some) :=
  repr_search (fun _ _ _ _ _ h => h) d fuel _ _ _ _ _ h hf start fin top bottom left right
    lower upper hse hfin htb hlr hbr hrc

end

/-! ### Examples -/

theorem clogOk_nat {k : Nat} (hk : 2 ≤ k) (N : Nat) : ClogOk (Nat.clog k) k N :=
  fun _ _ _ _ => Nat.clog_le_iff_le_pow (by omega)

/-- A computation of the logarithm to base 2 that the kernel can carry out. -/
def exampleClog (n : Nat) : Nat := if n ≤ 1 then 0 else if n ≤ 2 then 1 else if n ≤ 4 then 2 else 3

theorem exampleClogOk : ClogOk exampleClog 2 8 := by
  intro m j h1 h2
  have key : ∀ m, m < 9 → exampleClog m = Nat.clog 2 m := by decide
  rw [key m (by omega)]
  exact Nat.clog_le_iff_le_pow (by omega)

theorem ClogOk.mono {clog : Nat → Nat} {k N M : Nat} (h : ClogOk clog k N) (hM : M ≤ N) :
    ClogOk clog k M := fun m j h1 h2 => h m j h1 (by omega)

/-- Identifiers that are good enough for the examples. -/
def exampleHash : Hash where
  cidOf bytes := .v1 (bytes.length % 2 ^ 64)
    ((bytes.foldl (fun (a : Nat) (b : Byte) => (a * 31 + b.toNat) % 1000003) 7) % 2 ^ 64) []
  valid bytes := ⟨Nat.mod_lt _ (by decide), Nat.mod_lt _ (by decide), by simp⟩

/-- Two instants of 4 rows and columns; the quarter at the upper left is constant in each. -/
def exampleGrid (t r c : Nat) : Int64 :=
  if r < 2 ∧ c < 2 then (10 + t : Nat).toInt64
  else (100 * r + 7 * c * c + 3 * t * r * c + 5 * t : Nat).toInt64

def exampleBuffer : MMBuffer3 := .i64 exampleGrid

theorem exampleInput : IntInput exampleClog 2 [1, 1] exampleBuffer 2 4 4 where
  arity := by decide
  even := by decide
  arity_lt := by decide
  clogOk := exampleClogOk.mono (by decide)
  isInt := trivial
  rows_pos := by decide
  cols_pos := by decide
  instants := by decide
  levelsOk := ⟨by decide, by decide, by decide⟩
  diffs := by
    have key : ∀ t0, t0 < 2 → ∀ t, t < 2 → ∀ r, r < 4 → ∀ c, c < 4 →
        (exampleGrid t r c - exampleGrid t0 r c).toInt =
          (exampleGrid t r c).toInt - (exampleGrid t0 r c).toInt := by decide
    exact fun t0 t h1 h2 => NoOverflow.noSplit fun r c hr hc => key t0 (by omega) t h2 r hr c hc

/-- The superchunk of the example: one part is elided, three are stored apart. -/
example : ((Superchunk.build exampleHash exampleClog (fun _ => 0) 2 [1, 1] [] exampleBuffer 2 4
    4).map fun r => match r.1.data with
      | .superchunk h _ => (h.references, r.1.elided, r.1.external, r.2.length)
      | _ => ([], 0, 0, 0)) = some ([.elided, .external 0, .external 1, .external 2], 1, 3, 4) := by
  decide +kernel

/-- No two of its objects have the same identifier. -/
example : ((Superchunk.build exampleHash exampleClog (fun _ => 0) 2 [1, 1] [] exampleBuffer 2 4
    4).map fun r => decide (∀ a ∈ r.2, ∀ b ∈ r.2, exampleHash.cidOf a = exampleHash.cidOf b →
      a = b)) = some true := by
  decide +kernel

theorem exampleSafe : GridSafe exampleClog 2 (fun e => ∃ s, s <:+ [1] ∧ e = s.sum) exampleGrid 2 4 4
    := by
  rintro e i j ⟨s, hs, rfl⟩ hi hj
  have hs' : s = [1] ∨ s = [] := by
    rcases List.suffix_cons_iff.1 hs with h | h
    · exact .inl h
    · exact .inr (List.suffix_nil.1 h)
  rcases hs' with rfl | rfl
  · rintro ⟨t', ht', hnc⟩ t0 t h1 h2
    have hi : i < 2 := by simp at hi; omega
    have hj : j < 2 := by simp at hj; omega
    obtain rfl : t0 = 0 := by omega
    obtain rfl : t = 1 := by omega
    by_cases h00 : i = 0 ∧ j = 0
    · obtain ⟨rfl, rfl⟩ := h00
      exfalso
      refine hnc (10 + t' : Nat).toInt64 fun r c hr hc => ?_
      have : ∀ t, t < 2 → ∀ r, r < 2 → ∀ c, c < 2 →
          exampleGrid t (0 + r) (0 + c) = (10 + t : Nat).toInt64 := by decide
      simpa using this t' ht' r (by simpa using hr) c (by simpa using hc)
    · have nc : ∀ i, i < 2 → ∀ j, j < 2 → ¬ (i = 0 ∧ j = 0) → ∀ t, t < 2 →
          exampleGrid t (i * 2 + 0) (j * 2 + 0) ≠ exampleGrid t (i * 2 + 0) (j * 2 + 1) := by decide
      have nd : ∀ i, i < 2 → ∀ j, j < 2 → ¬ (i = 0 ∧ j = 0) →
          ¬ exampleGrid 1 (i * 2 + 1) (j * 2 + 0) - exampleGrid 0 (i * 2 + 1) (j * 2 + 0) =
            exampleGrid 1 (i * 2 + 1) (j * 2 + 1) - exampleGrid 0 (i * 2 + 1) (j * 2 + 1) := by
        decide
      have hR : min (2 ^ [1].sum) (4 - i * 2 ^ [1].sum) = 2 := by simp; omega
      have hC : min (2 ^ [1].sum) (4 - j * 2 ^ [1].sum) = 2 := by simp; omega
      rw [hR, hC]
      have hT : ∀ t, t < 2 → ∀ u, ¬ Const (fun r c => exampleGrid t (i * 2 ^ [1].sum + r)
          (j * 2 ^ [1].sum + c)) 2 2 u := by
        intro t ht u hu
        exact nc i hi j hj h00 t ht ((hu 0 0 (by omega) (by omega)).trans
          (hu 0 1 (by omega) (by omega)).symm)
      refine ⟨fun u v h => absurd h (hT 1 (by omega) u), fun u h => absurd h (hT 1 (by omega) u),
        fun v h => absurd h (hT 0 (by omega) v), fun d _ _ _ hd => ?_⟩
      exact absurd ((hd 1 0 (by omega) (by omega)).trans (hd 1 1 (by omega) (by omega)).symm)
        (nd i hi j hj h00)
  · rintro ⟨t, -, hnc⟩
    exfalso
    refine hnc (exampleGrid t i j) fun r c hr hc => ?_
    simp only [List.sum_nil, Nat.pow_zero, Nat.mul_one] at *
    rw [show r = 0 by omega, show c = 0 by omega]
    rfl

/-- The wrong program for C26 in numbers: 24 rows and columns, not constant at the lower right. -/
example : ClogOk (Nat.clog 2) 2 24 ∧ (MMBuffer3.i64 fun _ r c => (r * c : Nat).toInt64).int 0 16 16 ≠
    (MMBuffer3.i64 fun _ r c => (r * c : Nat).toInt64).int 0 23 23 :=
  ⟨clogOk_nat (by omega) _, by decide⟩

/-- 16 rows and columns are full squares for any levels. -/
example : [1, 2, 1].sum = Nat.clog 2 (max 16 16) ∧ 2 ^ [1, 2, 1].tail.sum ∣ 16 := by
  decide

/-- A window for C21. -/
example : (SuperHead.subchunksFor ⟨1, 8, 8, 8, 1, 4, 2, 0, .i64, [], .v1 0 0 [], ⟨[]⟩, ⟨[]⟩⟩
    ⟨1, 6, 3, 8⟩).map (·.map fun s => (s.index, s.loc, s.slice)) =
    some [(0, ⟨1, 4, 3, 4⟩, ⟨0, 3, 0, 1⟩), (1, ⟨1, 4, 0, 4⟩, ⟨0, 3, 1, 5⟩),
      (2, ⟨0, 2, 3, 4⟩, ⟨3, 5, 0, 1⟩), (3, ⟨0, 2, 0, 4⟩, ⟨3, 5, 1, 5⟩)] := by decide +kernel

/-! ### C24 and C27 are false of the code -/

/-- C27 is false of the code for floats: a part whose first values are not numbers and whose other
values are equal is elided, and its first cells then read as those values. Here all cells are 5,
except the first, which is not a number; it reads as 5. -/
theorem C27_nan_wrong :
    ((Superchunk.build exampleHash exampleClog (fun _ => 0) 2 [1, 1] []
        (.flt .double (fun _ r c => if r = 0 ∧ c = 0 then .nan else .fin 5) 1 false) 1 4 4).bind
      fun r => (r.1.data.get (fun _ => true) (r.2.load exampleHash) 3 1 0 0 0).toOption.map
        fun q => fromFixed .double q.2 q.1) = some (.fin 5) := by
  decide +kernel

theorem SearchIter.toList_nil {c : Chunk} {it : SearchIter} {n : Nat} (h : it.toList c n = some []) :
    ∀ m l, it.toList c m = some l → l = [] := by
  intro m l hm
  cases n with
  | zero => cases h
  | succ n =>
    cases m with
    | zero => cases hm
    | succ m =>
      unfold SearchIter.toList at h hm
      cases hx : it.next c with
      | none => rw [hx] at h; cases h
      | some p =>
        rw [hx] at h hm
        obtain ⟨x, it'⟩ := p
        cases x with
        | none => cases hm; rfl
        | some y =>
          simp only [Option.map_eq_some_iff] at h
          obtain ⟨_, -, h⟩ := h
          cases h

/-- What the search needs to know about the superchunk of `loweredSeries`, built with the levels 0
and 1: its only part is a chunk, and the chunk does not find 495. -/
def lostCheck (r : MMStruct3Build) (log : Saved) : Bool :=
  match r.data with
  | .superchunk h [] =>
    match h.deref (fun _ => true) (log.load exampleHash) [] (.external 0) with
    | .ok (.subchunk c) =>
      decide (h.references[0]? = some (.external 0)) &&
      decide (h.subchunksFor ⟨0, 2, 0, 2⟩ = some [⟨0, ⟨0, 2, 0, 2⟩, ⟨0, 2, 0, 2⟩, ⟨0, 2, 0, 2⟩⟩]) &&
      decide (h.hasCells 495 495 0 [1] = some true) &&
      decide ((c.iterSearch ⟨1, 2, 0, 2, 0, 2⟩ 495 495).map (fun it => it.toList c 5) =
        some (some [])) &&
      decide (∀ a ∈ log, ∀ b ∈ log, exampleHash.cidOf a = exampleHash.cidOf b → a = b)
    | _ => false
  | _ => false

/-- C24 is false of the code: the search for 495 in the second instant of `loweredSeries` ends well
and never finds the cell that has this value. -/
theorem C24_witness : ∃ r log', Superchunk.build exampleHash exampleClog (fun _ => 0) 2 [0, 1] []
      (.i64 loweredSeries) 2 2 2 = some (r, log') ∧ log'.NoCollision exampleHash ∧
    Spec.hits3 loweredSeries 1 2 0 2 0 2 495 495 = [(1, 0, 0)] ∧
    ∀ t s, r.data.search (fun _ => true) (log'.load exampleHash) 3 ⟨1, 2, 0, 2, 0, 2⟩ 495 495 t s →
      s = none ∧ t = [] := by
  have key : (Superchunk.build exampleHash exampleClog (fun _ => 0) 2 [0, 1] [] (.i64 loweredSeries)
      2 2 2).map (fun x => lostCheck x.1 x.2) = some true := by decide +kernel
  obtain ⟨⟨r, log'⟩, e, hl⟩ := Option.map_eq_some_iff.1 key
  refine ⟨r, log', e, ?_⟩
  unfold lostCheck at hl
  simp only at hl
  split at hl
  swap
  · cases hl
  rename_i h hd
  split at hl
  swap
  · cases hl
  rename_i c hc
  simp only [Bool.and_eq_true, decide_eq_true_eq] at hl
  obtain ⟨⟨⟨⟨h1, h2⟩, h3⟩, h4⟩, h5⟩ := hl
  refine ⟨h5, by decide +kernel, fun t s hrun => ?_⟩
  rw [hd] at hrun
  unfold MMStruct3.search at hrun
  simp only at hrun
  rw [Cube.rect_eq (by omega) (by omega), h2, show rearrangeI 495 495 = (495, 495) from rfl] at hrun
  simp only [collect] at hrun
  rw [show rangeExcl 1 2 = [1] from rfl, h3] at hrun
  simp only [Option.map_some, if_true, List.append_nil, List.map_cons, List.map_nil] at hrun
  rw [h1] at hrun
  simp only [hc] at hrun
  obtain ⟨it, hit, hL⟩ := Option.map_eq_some_iff.1 h4
  obtain ⟨rs, hr, hrun⟩ := hrun
  cases hr with
  | cons hp hr =>
  cases hr
  rename_i run
  obtain ⟨u, hp, hu⟩ := hp
  unfold MMStruct3.search at hp
  simp only at hp
  rw [Cube.new_eq (by omega) (by omega) (by omega), hit] at hp
  simp only at hp
  have hend : u = [] ∧ run.2 = none := by
    rcases hp with ⟨n, l, a1, a2, a3⟩ | ⟨a1, -⟩
    · rw [SearchIter.toList_nil hL n l a1] at a2
      exact ⟨a2, a3⟩
    · rw [a1 5] at hL; cases hL
  rw [hend.1] at hu
  cases s with
  | none =>
    refine ⟨rfl, ?_⟩
    have := hrun.2.perm
    rw [List.map_cons, hu] at this
    simpa using this
  | some f =>
    obtain ⟨-, ⟨x, hx, h6⟩, -⟩ := hrun
    rw [List.mem_singleton.1 hx, hend.2] at h6
    cases h6

end Verif
