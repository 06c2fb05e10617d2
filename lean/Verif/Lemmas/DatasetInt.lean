import Verif.Lemmas.DatasetAppend
import Verif.Lemmas.StructSearch
import Verif.Lemmas.SuperTotal

/-! Variables of integers. -/
namespace Verif

open Prog hiding pure bind

/-! ### Only the cells in range count -/

theorem Const.congr {get get' : Nat → Nat → Int64} {rows cols : Nat}
    (h : ∀ r c, r < rows → c < cols → get r c = get' r c) {v : Int64}
    (hc : Const get rows cols v) : Const get' rows cols v :=
  fun r c hr hcc => (h r c hr hcc) ▸ hc r c hr hcc

theorem Const.congr_iff {get get' : Nat → Nat → Int64} {rows cols : Nat}
    (h : ∀ r c, r < rows → c < cols → get r c = get' r c) {v : Int64} :
    Const get rows cols v ↔ Const get' rows cols v :=
  ⟨Const.congr h, Const.congr fun r c hr hc => (h r c hr hc).symm⟩

theorem SearchSafe.congr {s s' t t' : Nat → Nat → Int64} {rows cols side : Nat}
    (hs : ∀ r c, r < rows → c < cols → s r c = s' r c)
    (ht : ∀ r c, r < rows → c < cols → t r c = t' r c) (h : SearchSafe s t rows cols side) :
    SearchSafe s' t' rows cols side := by
  have es := fun v => Const.congr_iff (v := v) hs
  have et := fun v => Const.congr_iff (v := v) ht
  refine ⟨fun u v h1 h2 => h.both u v ((et u).2 h1) ((es v).2 h2), fun u h1 h2 => ?_,
    fun v h1 h2 => h.first v ((es v).2 h1) fun u hu => h2 u ((et u).1 hu), fun d h1 h2 h3 h4 =>
      h.shift d h1 h2 (fun u hu => h3 u ((et u).1 hu)) fun r c hr hc => by
        rw [hs r c hr hc, ht r c hr hc]; exact h4 r c hr hc⟩
  obtain ⟨h3, r, c, hr, hc, h4⟩ := h.second u ((et u).2 h1) fun v hv => h2 v ((es v).1 hv)
  exact ⟨fun r c hr hc => hs r c hr hc ▸ h3 r c hr hc, r, c, hr, hc, hs r c hr hc ▸ h4⟩

theorem BlockSafe.congr {g g' : Nat → Nat → Nat → Int64} {n rows cols side : Nat}
    (h : ∀ t r c, t < n → r < rows → c < cols → g t r c = g' t r c) (hb : BlockSafe g n rows cols side) :
    BlockSafe g' n rows cols side := by
  rintro ⟨t, ht, hv⟩ t0 t1 h0 h1
  exact (hb ⟨t, ht, fun u hu => hv u (hu.congr fun r c => h t r c ht)⟩ t0 t1 h0 h1).congr
    (fun r c => h t0 r c (by omega)) fun r c => h t1 r c h1

theorem GridSafe.congr {clog : Nat → Nat} {k : Nat} {J : Nat → Prop}
    {g g' : Nat → Nat → Nat → Int64} {n rows cols : Nat}
    (h : ∀ t r c, t < n → r < rows → c < cols → g t r c = g' t r c)
    (hg : GridSafe clog k J g n rows cols) : GridSafe clog k J g' n rows cols := by
  intro e i j hJ hi hj
  exact (hg e i j hJ hi hj).congr fun t r c ht hr hc => h _ _ _ ht (by omega) (by omega)

/-! ### The tree of a variable represents its series -/

theorem Tree.represents {H : Hash} {utf8 : List Byte → Bool} {T : VarTheory} {log : Saved} {α : Type}
    {dec : Nat → Int64 → α} {Leaf Ext} {D : Nat → Nat → Nat → α} {d : Nat} (hnc : log.NoCollision H)
    (hK : ∀ m a n, T.K log m a n →
      Represents utf8 (log.load H) dec Leaf Ext d m n T.rows T.cols (fun t => D (a + t))) :
    ∀ (i : Nat) (sp : Span) (a n tl : Nat), Tree H T log i sp a n tl →
      Represents utf8 (log.load H) dec Leaf Ext (d + i + 1) (.span sp) n T.rows T.cols
        (fun t => D (a + t)) := by
  intro i
  induction i with
  | zero =>
    intro sp a n tl ht
    have hst : sp.stride = T.cs := by rw [ht.shaped.stride, T.stride_zero]
    obtain ⟨-, -, -, -, -, h6⟩ := ht
    have hcs := T.cs_pos
    refine ⟨by omega, fun j hj => ?_⟩
    rw [hst] at hj ⊢
    obtain ⟨cid, m, a1, a2, a3⟩ := h6 j hj
    refine ⟨cid, m, a1, a2.get utf8 hnc, ?_⟩
    have := hK _ _ _ a3
    simpa only [Nat.add_zero, Nat.add_assoc] using this
  | succ i ih =>
    intro sp a n tl ht
    have hst := ht.shaped.stride
    have hpos := T.stride_pos (i + 1)
    obtain ⟨-, -, m, n', h3, hm, rfl, h5, cid, c, h6, h7, h8⟩ := ht
    have hle := h8.le
    refine ⟨by omega, fun j hj => ?_⟩
    rw [hst] at hj ⊢
    rcases Nat.lt_or_ge j m with h | h
    · obtain ⟨cid', c', tl', b1, b2, b3⟩ := h5 j h
      have h9 : (j + 1) * T.stride (i + 1) ≤ m * T.stride (i + 1) := Nat.mul_le_mul_right _ h
      rw [Nat.succ_mul] at h9
      refine ⟨cid', .span c', b1, b2.get utf8 hnc, ?_⟩
      rw [show min (T.stride (i + 1)) (m * T.stride (i + 1) + n' - j * T.stride (i + 1)) =
        T.stride (i + 1) by omega]
      have := ih _ _ _ _ b3
      simpa only [Nat.add_assoc] using this
    · have hjm : j = m := by
        by_contra hne
        have h9 : (m + 1) * T.stride (i + 1) ≤ j * T.stride (i + 1) := Nat.mul_le_mul_right _ (by omega)
        rw [Nat.succ_mul] at h9
        omega
      subst hjm
      refine ⟨cid, .span c, h6, h7.get utf8 hnc, ?_⟩
      rw [show min (T.stride (i + 1)) (j * T.stride (i + 1) + n' - j * T.stride (i + 1)) = n' by omega]
      have := ih _ _ _ _ h8
      simpa only [Nat.add_assoc] using this

/-! ### What is read of the tail -/

theorem written_eq {α : Type} {zero : α} {dec : Nat → Int64 → α} {calls : Calls}
    {data : Nat → Nat → Nat → α} {n rows cols : Nat}
    (h : (calls.map fun q => (q.1, q.2.1, q.2.2.1, dec q.2.2.2.1 q.2.2.2.2)).Perm
      (Spec.window3 data 0 n 0 rows 0 cols)) {t r c : Nat} (ht : t < n) (hr : r < rows) (hc : c < cols) :
    written zero dec calls t r c = data t r c := by
  have hval : ∀ q ∈ calls, q.1 = t → q.2.1 = r → q.2.2.1 = c →
      dec q.2.2.2.1 q.2.2.2.2 = data t r c := by
    rintro q hq rfl rfl rfl
    have : (q.1, q.2.1, q.2.2.1, dec q.2.2.2.1 q.2.2.2.2) ∈ Spec.window3 data 0 n 0 rows 0 cols :=
      h.mem_iff.1 (List.mem_map.2 ⟨q, hq, rfl⟩)
    rw [Spec.window3_eq, List.mem_map] at this
    obtain ⟨p, -, e⟩ := this
    simp only [Nat.sub_zero, Prod.mk.injEq] at e
    obtain ⟨e1, e2, e3, e4⟩ := e
    rw [← e4, e1, e2, e3]
  have hex : ∃ q ∈ calls, q.1 = t ∧ q.2.1 = r ∧ q.2.2.1 = c := by
    have : (t, r, c, data t r c) ∈ Spec.window3 data 0 n 0 rows 0 cols := by
      rw [Spec.window3_eq, List.mem_map]
      exact ⟨(t, r, c), Spec.mem_cells3.2 ⟨⟨by omega, ht⟩, ⟨by omega, hr⟩, by omega, hc⟩, rfl⟩
    have := h.mem_iff.2 this
    rw [List.mem_map] at this
    obtain ⟨q, hq, e⟩ := this
    simp only [Prod.mk.injEq] at e
    exact ⟨q, hq, e.1, e.2.1, e.2.2.1⟩
  unfold written
  cases hf : calls.reverse.find? fun q => q.1 = t ∧ q.2.1 = r ∧ q.2.2.1 = c with
  | none =>
    rw [List.find?_eq_none] at hf
    obtain ⟨q, hq, e⟩ := hex
    exact absurd (decide_eq_true e) (hf q (List.mem_reverse.2 hq))
  | some q =>
    have h1 := List.mem_reverse.1 (List.mem_of_find?_eq_some hf)
    have h2 := List.find?_some hf
    simp only [decide_eq_true_eq] at h2
    exact hval q h1 h2.1 h2.2.1 h2.2.2

/-! ### Integers -/

/-- The assumptions on a variable of integers for which the builder may refuse to build chunks: sizes
that fit the format, no squares that are split by overflow between the instants of a chunk. -/
structure IntBase (clog : Nat → Nat) (levels : List Nat) (D : Nat → Nat → Nat → Int64)
    (N rows cols cs ss : Nat) : Prop where
  clogOk : ClogOk clog 2 (max rows cols)
  rows_pos : 0 < rows
  cols_pos : 0 < cols
  rows_lt : rows < 2 ^ 32
  cols_lt : cols < 2 ^ 32
  cs_pos : 1 ≤ cs
  cs_lt : cs < 2 ^ 32
  ss_two : 2 ≤ ss
  ss_lt : ss < 2 ^ 32
  instants : N < 2 ^ 32
  levelsOk : LevelsOk 2 cs levels
  diffs : ∀ t0 t, t0 < t → t < t0 + cs → t < N → NoSplit (D t0) (D t) rows cols 2

/-- The assumptions on a variable of integers: sizes that fit the format, no squares that
are split by overflow between the instants of a chunk, levels that the builder accepts. -/
structure IntVar (clog : Nat → Nat) (levels : List Nat) (D : Nat → Nat → Nat → Int64)
    (N rows cols cs ss : Nat) : Prop extends IntBase clog levels D N rows cols cs ss where
  accepts : ∀ a n, 1 ≤ n → n ≤ cs → a + n ≤ N →
    BuildOk clog 2 n levels (fun t => D (a + t)) rows cols

/-- The rasters can be searched (see C09, C24): differences fit `i64`, and the squares are safe. -/
def IntSafe (clog : Nat → Nat) (levels : List Nat) (D : Nat → Nat → Nat → Int64)
    (N rows cols cs : Nat) : Prop :=
  ∀ a n, 1 ≤ n → n ≤ cs → a + n ≤ N → SeriesNoOverflow (fun t => D (a + t)) n rows cols ∧
    GridSafe clog 2 (fun e => ∃ s, s <:+ levels.tail ∧ e = s.sum) (fun t => D (a + t)) n rows cols

/-- What a chunk of integers that holds the instants from `a` to `a + n` is. -/
structure IntChunk (H : Hash) (clog : Nat → Nat) (levels : List Nat) (D : Nat → Nat → Nat → Int64)
    (N rows cols cs : Nat) (log : Saved) (m : MMStruct3) (a n : Nat) : Prop where
  wf : m.WF
  shape : m.shape = some (n, rows, cols)
  reads : ∀ utf8 log', log ⊆ log' → log'.NoCollision H →
    Represents utf8 (log'.load H) (fun _ v => v) (LeafReads fun _ v => v)
      (ExtOf fun m v => m.1 ≤ v ∧ v ≤ m.2) (levels.length + 1) m n rows cols (fun t => D (a + t))
  ground : ∀ utf8 log', log ⊆ log' → Ground utf8 H log' (2 * levels.length + 1) (.struct m)
  sides : ∀ utf8 log', log ⊆ log' → log'.NoCollision H → Sides utf8 (log'.load H) 2 levels m
  searches : IntSafe clog levels D N rows cols cs → ∀ utf8 log', log ⊆ log' → log'.NoCollision H →
    Represents utf8 (log'.load H) (fun _ v => v) LeafSearches
      (ExtOf fun m v => m.1 ≤ v ∧ v ≤ m.2) (levels.length + 1) m n rows cols (fun t => D (a + t))

section
variable {w : Prop} {H : Hash} {clog : Nat → Nat} {lg : Rat → Int} {levels : List Nat}
  {D : Nat → Nat → Nat → Int64} {N rows cols cs ss : Nat} {enc : MMEncoding}

def IntBase.theory (H : Hash) (enc : MMEncoding) (h : IntBase clog levels D N rows cols cs ss) :
    VarTheory where
  rows := rows
  cols := cols
  cs := cs
  ss := ss
  enc := enc
  B := max cs N
  K := IntChunk H clog levels D N rows cols cs
  rows_lt := h.rows_lt
  cols_lt := h.cols_lt
  cs_pos := h.cs_pos
  ss_two := h.ss_two
  ss_lt := h.ss_lt
  cs_le := Nat.le_max_left ..
  B_lt := by have := h.cs_lt; have := h.instants; omega
  mono := fun hs _ _ _ h => ⟨h.wf, h.shape, fun u l hl => h.reads u l (List.Subset.trans hs hl),
    fun u l hl => h.ground u l (List.Subset.trans hs hl),
    fun u l hl => h.sides u l (List.Subset.trans hs hl),
    fun hsafe u l hl => h.searches hsafe u l (List.Subset.trans hs hl)⟩
  shape := fun h => h.shape
  wf := fun h => h.wf

theorem MMBuffer3.int_slice0 (b : MMBuffer3) (s t r c : Nat) :
    (b.slice s 0 0).int t r c = b.int (s + t) r c := by
  cases b <;> simp [MMBuffer3.int, MMBuffer3.slice, MMBuffer3.get]

/-- The buffer holds the instants from `A` to `A + n`. -/
structure IntBuf (D : Nat → Nat → Nat → Int64) (rows cols : Nat) (b : MMBuffer3) (A n : Nat) : Prop where
  isInt : b.isInt
  int : ∀ t r c, t < n → r < rows → c < cols → b.int t r c = D (A + t) r c

theorem IntBase.chunksOk (h : IntBase clog levels D N rows cols cs ss) {b : MMBuffer3} {A n : Nat}
    (hacc : w ∨ ∀ a n, 1 ≤ n → n ≤ cs → a + n ≤ N →
      BuildOk clog 2 n levels (fun t => D (a + t)) rows cols)
    (hb : IntBuf D rows cols b A n) (hB : A + n ≤ N) :
    ChunksOk w H clog lg (h.theory H enc) levels b A n := by
  intro s log hs hnc
  change s * cs < n at hs
  have hmin : min (s * cs + cs) n - s * cs = min cs (n - s * cs) := by omega
  have hcs := h.cs_pos
  change Saved.NoCollision H (Prog.buildChunk H clog lg levels (b.slice (s * cs) 0 0)
    (min (s * cs + cs) n - s * cs) rows cols log).2 at hnc
  change (∃ a log', Prog.buildChunk H clog lg levels (b.slice (s * cs) 0 0)
    (min (s * cs + cs) n - s * cs) rows cols log = (.ok a, log') ∧
    IntChunk H clog levels D N rows cols cs log' a (A + s * cs) (min cs (n - s * cs))) ∨
    w ∧ ∃ f log', Prog.buildChunk H clog lg levels (b.slice (s * cs) 0 0)
      (min (s * cs + cs) n - s * cs) rows cols log = (.error f, log')
  rw [hmin] at hnc ⊢
  generalize hcn : min cs (n - s * cs) = cn at *
  have hcn1 : 1 ≤ cn := by omega
  have hcn2 : cn ≤ cs := by omega
  have hisInt := hb.isInt.slice (s * cs) 0 0
  have heq : ∀ t r c, t < cn → r < rows → c < cols →
      (b.slice (s * cs) 0 0).int t r c = D (A + s * cs + t) r c := by
    intro t r c h1 h2 h3
    rw [MMBuffer3.int_slice0, hb.int _ _ _ (by omega) h2 h3, Nat.add_assoc]
  generalize hbs : b.slice (s * cs) 0 0 = bs at *
  have hno : SeriesNoSplit bs.int cn rows cols 2 := by
    intro t0 t h0 h1
    exact (h.diffs (A + s * cs + t0) (A + s * cs + t) (by omega) (by omega) (by omega)).congr
      (fun r c hr hc => (heq t0 r c (by omega) hr hc).symm) (fun r c hr hc => (heq t r c h1 hr hc).symm)
  have hbits : bs.computeBits lg cn rows cols = some bs := by
    cases bs with
    | i32 a => rfl
    | i64 a => rfl
    | flt => exact hisInt.elim
  rcases hr : Superchunk.build H clog lg 2 levels log bs cn rows cols with _ | ⟨r, log'⟩
  · rcases hacc with hw | hacc
    · refine .inr ⟨hw, .panic, log, ?_⟩
      unfold Prog.buildChunk
      rw [hbits]
      simp only
      rw [hr]
    · have hsome := (Superchunk.build_isSome_iff (H := H) (lg := lg) (by omega) hcn1 levels log bs rows cols hisInt
        h.rows_pos h.cols_pos h.clogOk).2
        (BuildOk.congr (fun t r c h1 h2 h3 => (heq t r c h1 h2 h3).symm)
          (hacc (A + s * cs) cn hcn1 hcn2 (by omega)))
      rw [hr] at hsome
      cases hsome
  have hrun : Prog.buildChunk H clog lg levels bs cn rows cols log = (.ok r.data, log') := by
    unfold Prog.buildChunk
    rw [hbits]
    simp only
    rw [hr]
  have hlev : LevelsOk 2 cn levels :=
    ⟨h.levelsOk.side, h.levelsOk.tree, fun l hl =>
      Nat.lt_of_le_of_lt (Nat.mul_le_mul_right _ hcn2) (h.levelsOk.slots l hl)⟩
  have hn32 : cn < 2 ^ 32 := by have := h.cs_lt; omega
  have hrep := fun utf8 => superchunk_repr (intReads clog lg 2 (by omega) (by omega)) H utf8 (by omega) (by omega) _ cn
    h.clogOk hn32 levels hlev (fun _ _ => trivial) log bs rows cols r log' ⟨hisInt, hno⟩ h.rows_pos
    h.cols_pos (Nat.le_max_left ..) (Nat.le_max_right ..) hr
  refine .inl ⟨r.data, log', hrun, (hrep fun _ => true).2.1, ?_, ?_, fun u => (hrep u).2.2.1,
    fun u l hl hn => ((hrep u).2.2.2 l hl hn).2, ?_⟩
  · obtain ⟨⟨head, e, e1, e2, e3, -⟩, -⟩ := hrep fun _ => true
    rw [e]
    change some (head.instants, head.rows, head.cols) = _
    rw [e1, e2, e3]
  · intro utf8 log'' hsub hnc''
    have := ((hrep utf8).2.2.2 log'' hsub hnc'').1
    change Represents utf8 (log''.load H) (fun _ v => v) (LeafReads fun _ v => v)
      (ExtOf fun m v => m.1 ≤ v ∧ v ≤ m.2) (levels.length + 1) r.data cn rows cols bs.int at this
    exact Represents.congr (Leaf := LeafReads fun _ v => v) (fun _ _ _ _ _ _ h hl => LeafReads.congr h hl) heq this
  · intro hsafe utf8 log'' hsub hnc''
    obtain ⟨hover, hgs⟩ := hsafe (A + s * cs) cn hcn1 hcn2 (by omega)
    have hover : SeriesNoOverflow bs.int cn rows cols := by
      intro t0 t h0 h1 r c hr hc
      rw [heq t r c h1 hr hc, heq t0 r c (by omega) hr hc]
      exact hover t0 t h0 h1 r c hr hc
    have hgs := GridSafe.congr (fun t r c h1 h2 h3 => (heq t r c h1 h2 h3).symm) hgs
    have := ((superchunk_repr (intSearches clog lg 2 (by omega) (by omega)
        (fun e => ∃ s, s <:+ levels.tail ∧ e = s.sum)) H utf8 (by omega) (by omega) _ cn
      h.clogOk hn32 levels hlev (fun s hs => ⟨s, hs, rfl⟩) log bs rows cols r log' ⟨hisInt, hover, hgs⟩ h.rows_pos
      h.cols_pos (Nat.le_max_left ..) (Nat.le_max_right ..) hr).2.2.2 log'' hsub hnc'').1
    change Represents utf8 (log''.load H) (fun _ v => v) LeafSearches
      (ExtOf fun m v => m.1 ≤ v ∧ v ≤ m.2) (levels.length + 1) r.data cn rows cols bs.int at this
    exact Represents.congr (Leaf := LeafSearches) (fun _ _ _ _ _ _ h hl => LeafSearches.congr h hl) heq this

theorem IntVar.chunksOk (h : IntVar clog levels D N rows cols cs ss) {b : MMBuffer3} {A n : Nat}
    (hb : IntBuf D rows cols b A n) (hB : A + n ≤ N) :
    ChunksOk False H clog lg (h.theory H enc) levels b A n :=
  h.toIntBase.chunksOk (.inr h.accepts) hb hB

/-- An array of integers as it is passed to `append_i32` or `append_i64`. -/
def NdArray.int : NdArray → Nat → Nat → Nat → Int64
  | .i32 a, t, r, c => (a t r c).toInt64
  | .i64 a, t, r, c => a t r c
  | .flt _ _, _, _, _ => 0

/-- The array has the type of the variable. -/
def NdArray.HasType : NdArray → MMEncoding → Prop
  | .i32 _, e => e = .i32
  | .i64 _, e => e = .i64
  | .flt .single _, e => e = .f32
  | .flt .double _, e => e = .f64

/-- The array with the tail of the variable before it, as `append` reads it back. -/
theorem IntBase.prepend (h : IntBase clog levels D N rows cols cs ss) {utf8 : List Byte → Bool}
    {readFuel : Nat} {fill : Fill} (hfill : fill.Valid utf8 readFuel) (hrf : levels.length < readFuel)
    {log : Saved} {data : NdArray} {M n a p : Nat} {m : MMStruct3} {round : Option Nat}
    (hnc : log.NoCollision H) (hK : IntChunk H clog levels D N rows cols cs log m a p) (hap : a + p = M)
    (hdata : ∀ t r c, t < n → r < rows → c < cols → data.int t r c = D (M + t) r c)
    (htype : (∃ a, data = .i64 a) ∨
      (∃ a, data = .i32 a) ∧ ∀ t r c, t < M → r < rows → c < cols → ∃ x : Int32, D t r c = x.toInt64) :
    (fill m (log.load H)).2 = none ∧
      IntBuf D rows cols ((data.prepend p (fill m (log.load H)).1).buffer round) a (p + n) := by
  obtain ⟨hw, hsh, hreads, -⟩ := hK
  have hrep := hreads utf8 log (List.Subset.refl _) hnc
  have hwin := repr_fillWindow (fun _ _ _ _ _ h => h) _ readFuel _ _ _ _ _ hrep hrf 0 p 0 rows 0 cols
    (Nat.zero_le _) (Nat.le_refl _) h.rows_pos h.cols_pos (Nat.le_refl _) (Nat.le_refl _)
  obtain ⟨⟨t, s, u, h1, -⟩, h2⟩ := hwin
  have hv := hfill m (log.load H) p rows cols hsh (by
    rw [Cube.new_eq (Nat.zero_le _) (Nat.zero_le _) (Nat.zero_le _)]
    exact ⟨_, _, h1⟩)
  rw [Cube.new_eq (Nat.zero_le _) (Nat.zero_le _) (Nat.zero_le _)] at hv
  obtain ⟨g1, g2⟩ := h2 _ _ ⟨_, hv, rfl⟩
  refine ⟨g1, ?_⟩
  have hw := fun (t r c) (ht : t < p) (hr : r < rows) (hc : c < cols) =>
    written_eq (zero := 0) (dec := fun _ v => v) g2 ht hr hc
  rcases htype with ⟨x, rfl⟩ | ⟨⟨x, rfl⟩, hsmall⟩
  · refine ⟨trivial, fun t r c ht hr hc => ?_⟩
    change appendArray p (written 0 (fun _ v => v) (fill m (log.load H)).1) x t r c = _
    unfold appendArray
    split
    · exact hw t r c ‹_› hr hc
    · have := hdata (t - p) r c (by omega) hr hc
      change x (t - p) r c = _ at this
      rw [this, show M + (t - p) = a + t by omega]
  · refine ⟨trivial, fun t r c ht hr hc => ?_⟩
    change (appendArray p (written 0 (fun _ v => v.toInt32) (fill m (log.load H)).1) x t r c).toInt64 = _
    unfold appendArray
    split
    · rename_i htp
      have g3 : ((fill m (log.load H)).1.map fun q => (q.1, q.2.1, q.2.2.1, q.2.2.2.2.toInt32)).Perm
          (Spec.window3 (fun t r c => (D (a + t) r c).toInt32) 0 p 0 rows 0 cols) := by
        have := g2.map (fun q => (q.1, q.2.1, q.2.2.1, q.2.2.2.toInt32))
        rw [List.map_map, Spec.window3_eq, List.map_map] at this
        rw [Spec.window3_eq]
        exact this
      have := written_eq (zero := 0) (dec := fun _ v => v.toInt32) g3 htp hr hc
      rw [this]
      obtain ⟨y, hy⟩ := hsmall (a + t) r c (by omega) hr hc
      rw [hy]
      simp
    · have := hdata (t - p) r c (by omega) hr hc
      change (x (t - p) r c).toInt64 = _ at this
      rw [this, show M + (t - p) = a + t by omega]

/-- The array itself. -/
theorem IntBuf.ofData {data : NdArray} {M n : Nat} {round : Option Nat}
    (hdata : ∀ t r c, t < n → r < rows → c < cols → data.int t r c = D (M + t) r c)
    (htype : (∃ a, data = .i64 a) ∨ ∃ a, data = .i32 a) :
    IntBuf D rows cols (data.buffer round) M n := by
  rcases htype with ⟨a, rfl⟩ | ⟨a, rfl⟩
  · exact ⟨trivial, hdata⟩
  · exact ⟨trivial, hdata⟩

theorem IntBase.appendArray_sat (h : IntBase clog levels D N rows cols cs ss) {utf8 : List Byte → Bool}
    {readFuel : Nat} {fill : Fill} (hfill : fill.Valid utf8 readFuel) (hrf : levels.length < readFuel)
    {log : Saved} {v : Variable} {data : NdArray} {M tl n fuel : Nat} (hf : 32 ≤ fuel)
    (hacc : w ∨ ∀ a n, 1 ≤ n → n ≤ cs → a + n ≤ N →
      BuildOk clog 2 n levels (fun t => D (a + t)) rows cols)
    (hv : VarInv H (h.theory H enc) log v M tl) (hl : v.k2Levels = levels) (hB : M + n ≤ N)
    (hdata : ∀ t r c, t < n → r < rows → c < cols → data.int t r c = D (M + t) r c)
    (htype : (∃ a, data = .i64 a) ∨
      (∃ a, data = .i32 a) ∧ ∀ t r c, t < M → r < rows → c < cols → ∃ x : Int32, D t r c = x.toInt64) :
    Sat w H (v.appendArray H utf8 clog lg fuel fill data n rows cols) log (fun v' log' =>
      (∃ tl', VarInv H (h.theory H enc) log' v' (M + n) tl') ∧ ∃ cid, v' = { v with cid := cid }) := by
  refine Variable.appendArray_sat (T := h.theory H enc) hf hv hl
    (Nat.le_trans hB (Nat.le_max_right cs N)) ?_ ?_
  · exact h.chunksOk hacc (IntBuf.ofData hdata (htype.imp id (·.1))) hB
  · intro m a p hnc hK hap hp _
    obtain ⟨e1, e2⟩ := h.prepend (round := v.round) hfill hrf hnc hK hap hdata htype
    exact ⟨.inl e1, h.chunksOk hacc e2 (by omega)⟩

end

end Verif
