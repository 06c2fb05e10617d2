import Verif.Lemmas.SuperBuild
import Verif.Props.Chunk

/-! Superchunks of integers. -/
namespace Verif

theorem Spec.window3_congr {α} {data data' : Nat → Nat → Nat → α} {n rows cols : Nat}
    (h : ∀ t r c, t < n → r < rows → c < cols → data t r c = data' t r c)
    {start fin top bottom left right : Nat} (h1 : fin ≤ n) (h2 : bottom ≤ rows) (h3 : right ≤ cols) :
    Spec.window3 data start fin top bottom left right =
      Spec.window3 data' start fin top bottom left right := by
  rw [Spec.window3_eq, Spec.window3_eq]
  refine List.map_congr_left fun p hp => ?_
  rw [Spec.mem_cells3] at hp
  rw [h _ _ _ (by omega) (by omega) (by omega)]

theorem Spec.hits3_congr {data data' : Nat → Nat → Nat → Int64} {n rows cols : Nat}
    (h : ∀ t r c, t < n → r < rows → c < cols → data t r c = data' t r c)
    {start fin top bottom left right : Nat} (h1 : fin ≤ n) (h2 : bottom ≤ rows) (h3 : right ≤ cols)
    (lower upper : Int64) :
    Spec.hits3 data start fin top bottom left right lower upper =
      Spec.hits3 data' start fin top bottom left right lower upper := by
  rw [Spec.hits3_eq, Spec.hits3_eq]
  refine List.filter_congr fun p hp => ?_
  rw [Spec.mem_cells3] at hp
  rw [h _ _ _ (by omega) (by omega) (by omega)]

theorem LeafReads.congr {α} {dec : Nat → Int64 → α} {c n rows cols data data'}
    (h : ∀ t r c, t < n → r < rows → c < cols → data t r c = data' t r c)
    (hl : LeafReads dec c n rows cols data) : LeafReads dec c n rows cols data' := by
  refine ⟨fun t row col h1 h2 h3 => h t row col h1 h2 h3 ▸ hl.get t row col h1 h2 h3, ?_, ?_⟩
  · intro start fin row col h1 h2 h3 h4
    obtain ⟨L, e, p⟩ := hl.cell start fin row col h1 h2 h3 h4
    refine ⟨L, e, p.trans (List.Perm.of_eq (List.map_congr_left fun i hi => ?_))⟩
    rw [List.mem_range] at hi
    rw [h _ _ _ (by omega) h3 h4]
  · intro start fin top bottom left right h1 h2 h3 h4 h5 h6
    obtain ⟨L, e, p⟩ := hl.window start fin top bottom left right h1 h2 h3 h4 h5 h6
    exact ⟨L, e, p.trans (List.Perm.of_eq (Spec.window3_congr h h2 h5 h6))⟩

theorem LeafSearches.congr {c n rows cols data data'}
    (h : ∀ t r c, t < n → r < rows → c < cols → data t r c = data' t r c)
    (hl : LeafSearches c n rows cols data) : LeafSearches c n rows cols data' := by
  intro start fin top bottom left right lower upper h1 h2 h3 h4 h5 h6
  obtain ⟨it, L, e, f, p⟩ := hl start fin top bottom left right lower upper h1 h2 h3 h4 h5 h6
  exact ⟨it, L, e, f, p.trans (List.Perm.of_eq (Spec.hits3_congr h h2 h5 h6 _ _))⟩

/-! ### Minima and maxima -/

theorem minMaxOf_spec {α} [LT α] [DecidableLT α] {le : α → α → Prop} (hrefl : ∀ a, le a a)
    (htrans : ∀ a b c, le a b → le b c → le a c) (hlt : ∀ a b : α, a < b → le a b)
    (hnlt : ∀ a b : α, ¬ a < b → le b a) {vs : List α} {m : α × α}
    (h : MMBuffer3.minMaxOf vs = some m) : ∀ v ∈ vs, le m.1 v ∧ le v m.2 := by
  cases vs with
  | nil => cases h
  | cons w ws =>
    unfold MMBuffer3.minMaxOf at h
    have key : ∀ (vs : List α) (p : α × α),
        le (vs.foldl (fun m x => (if x < m.1 then x else m.1, if x > m.2 then x else m.2)) p).1 p.1 ∧
        le p.2 (vs.foldl (fun m x => (if x < m.1 then x else m.1, if x > m.2 then x else m.2)) p).2 ∧
        ∀ v ∈ vs,
          le (vs.foldl (fun m x => (if x < m.1 then x else m.1, if x > m.2 then x else m.2)) p).1 v ∧
          le v (vs.foldl (fun m x => (if x < m.1 then x else m.1, if x > m.2 then x else m.2)) p).2 := by
      intro vs
      induction vs with
      | nil => intro p; exact ⟨hrefl _, hrefl _, by simp⟩
      | cons v vs ih =>
        intro p
        rw [List.foldl_cons]
        obtain ⟨i1, i2, i3⟩ := ih (if v < p.1 then v else p.1, if v > p.2 then v else p.2)
        simp only at i1 i2
        have a1 : le (if v < p.1 then v else p.1) p.1 := by
          split
          · exact hlt _ _ ‹_›
          · exact hrefl _
        have a2 : le (if v < p.1 then v else p.1) v := by
          split
          · exact hrefl _
          · exact hnlt _ _ ‹_›
        have a3 : le p.2 (if v > p.2 then v else p.2) := by
          split
          · exact hlt _ _ ‹_›
          · exact hrefl _
        have a4 : le v (if v > p.2 then v else p.2) := by
          split
          · exact hrefl _
          · exact hnlt _ _ ‹_›
        refine ⟨htrans _ _ _ i1 a1, htrans _ _ _ a3 i2, fun x hx => ?_⟩
        rcases List.mem_cons.1 hx with rfl | hx
        · exact ⟨htrans _ _ _ i1 a2, htrans _ _ _ a4 i2⟩
        · exact i3 x hx
    cases h
    exact (key _ _).2.2

theorem minMaxOf_mem {α} [LT α] [DecidableLT α] {vs : List α} {m : α × α}
    (h : MMBuffer3.minMaxOf vs = some m) : m.1 ∈ vs ∧ m.2 ∈ vs := by
  cases vs with
  | nil => cases h
  | cons w ws =>
    unfold MMBuffer3.minMaxOf at h
    have key : ∀ (vs : List α) (p : α × α) (ws : List α), p.1 ∈ ws → p.2 ∈ ws → vs ⊆ ws →
        (vs.foldl (fun m x => (if x < m.1 then x else m.1, if x > m.2 then x else m.2)) p).1 ∈ ws ∧
        (vs.foldl (fun m x => (if x < m.1 then x else m.1, if x > m.2 then x else m.2)) p).2 ∈ ws := by
      intro vs
      induction vs with
      | nil => intro p ws h1 h2 _; exact ⟨h1, h2⟩
      | cons v vs ih =>
        intro p ws h1 h2 h3
        rw [List.foldl_cons]
        refine ih _ _ ?_ ?_ fun x hx => h3 (by simp [hx])
        · simp only
          split
          · exact h3 (by simp)
          · exact h1
        · simp only
          split
          · exact h3 (by simp)
          · exact h2
    cases h
    exact key _ _ _ (by simp) (by simp) (List.Subset.refl _)

theorem mem_values {α} {a : Nat → Nat → Nat → α} {rows cols t r c : Nat} (hr : r < rows)
    (hc : c < cols) : a t r c ∈ MMBuffer3.values a rows cols t :=
  List.mem_flatMap.2 ⟨r, List.mem_range.2 hr, List.mem_map.2 ⟨c, List.mem_range.2 hc, rfl⟩⟩

theorem of_mem_values {α} {a : Nat → Nat → Nat → α} {rows cols t : Nat} {v : α}
    (h : v ∈ MMBuffer3.values a rows cols t) : ∃ r c, r < rows ∧ c < cols ∧ a t r c = v := by
  obtain ⟨r, hr, h⟩ := List.mem_flatMap.1 h
  obtain ⟨c, hc, h⟩ := List.mem_map.1 h
  exact ⟨r, c, List.mem_range.1 hr, List.mem_range.1 hc, h⟩

theorem int32_toInt64_le {a b : Int32} (h : a ≤ b) : a.toInt64 ≤ b.toInt64 := by
  rw [Int64.le_iff_toInt_le, Int32.toInt_toInt64, Int32.toInt_toInt64]
  exact Int32.le_iff_toInt_le.1 h

/-- A buffer of integers. -/
def MMBuffer3.isInt : MMBuffer3 → Prop
  | .flt .. => False
  | _ => True

/-- The value of a cell of a buffer of integers. -/
def MMBuffer3.int (b : MMBuffer3) (t r c : Nat) : Int64 := (b.get t r c).getD 0

theorem MMBuffer3.isInt.get {b : MMBuffer3} (h : b.isInt) (t r c : Nat) :
    b.get t r c = some (b.int t r c) := by
  cases b with
  | i32 a => rfl
  | i64 a => rfl
  | flt => exact h.elim

theorem MMBuffer3.isInt.slice {b : MMBuffer3} (h : b.isInt) (t r c : Nat) : (b.slice t r c).isInt := by
  cases b <;> first | exact h | trivial

theorem MMBuffer3.int_slice (b : MMBuffer3) (top left t r c : Nat) :
    (b.slice 0 top left).int t r c = b.int t (top + r) (left + c) := by
  cases b <;> simp [MMBuffer3.int, MMBuffer3.slice, MMBuffer3.get]

/-- The extremes of an instant bound its values and are among them. -/
theorem int_minMax_spec {b : MMBuffer3} (hb : b.isInt) {n rows cols : Nat}
    {mm : List (Int64 × Int64)} (h : b.minMax n rows cols = some mm) {t : Nat} {m : Int64 × Int64}
    (hm : mm[t]? = some m) :
    t < n ∧ (∀ r c, r < rows → c < cols → m.1 ≤ b.int t r c ∧ b.int t r c ≤ m.2) ∧
      (∃ r c, r < rows ∧ c < cols ∧ b.int t r c = m.1) ∧
      ∃ r c, r < rows ∧ c < cols ∧ b.int t r c = m.2 := by
  unfold MMBuffer3.minMax at h
  have hlen : ∀ x ∈ List.range n, ∀ l, (match b with
    | .i32 a => (MMBuffer3.minMaxOf (MMBuffer3.values a rows cols x)).map
        fun m => [(m.1.toInt64, m.2.toInt64)]
    | .i64 a => (MMBuffer3.minMaxOf (MMBuffer3.values a rows cols x)).map fun m => [m]
    | .flt _ a bits round =>
      match minMaxFloat (MMBuffer3.values a rows cols x) with
      | none => none
      | some (mn, mx) =>
        match toFixed mn bits round, toFixed mx bits round with
        | some mn, some mx => some [(mn, mx)]
        | _, _ => none) = some l → l.length = 1 := by
    intro x _ l hl
    cases b with
    | i32 a =>
      simp only [Option.map_eq_some_iff] at hl
      obtain ⟨_, -, rfl⟩ := hl
      rfl
    | i64 a =>
      simp only [Option.map_eq_some_iff] at hl
      obtain ⟨_, -, rfl⟩ := hl
      rfl
    | flt => exact hb.elim
  obtain ⟨h1, h2⟩ := collect_getElem? h hlen
  have ht : t < n := by
    have := (List.getElem?_eq_some_iff.1 hm).1
    rw [h1, List.length_range] at this
    omega
  refine ⟨ht, ?_⟩
  obtain ⟨l, e, h3⟩ := h2 t t (by rw [List.getElem?_range ht])
  have h4 := h3 0 (by omega)
  rw [Nat.zero_add, Nat.mul_one, hm] at h4
  cases b with
  | i32 a =>
    simp only [Option.map_eq_some_iff] at e
    obtain ⟨m', e, rfl⟩ := e
    simp only [List.getElem?_cons_zero, Option.some.injEq] at h4
    obtain ⟨e1, e2⟩ := minMaxOf_mem e
    obtain ⟨r1, c1, l1, l2, l3⟩ := of_mem_values e1
    obtain ⟨r2, c2, n1, n2, n3⟩ := of_mem_values e2
    rw [h4]
    refine ⟨fun r c hr hc => ?_, ⟨r1, c1, l1, l2, congrArg Int32.toInt64 l3⟩,
      ⟨r2, c2, n1, n2, congrArg Int32.toInt64 n3⟩⟩
    obtain ⟨a1, a2⟩ := minMaxOf_spec (le := (· ≤ ·)) Int32.le_refl (fun _ _ _ => Int32.le_trans)
      (fun _ _ => Int32.le_of_lt) (fun _ _ => Int32.not_lt.1) e _ (mem_values (a := a) (t := t) hr hc)
    exact ⟨int32_toInt64_le a1, int32_toInt64_le a2⟩
  | i64 a =>
    simp only [Option.map_eq_some_iff] at e
    obtain ⟨m', e, rfl⟩ := e
    simp only [List.getElem?_cons_zero, Option.some.injEq] at h4
    obtain ⟨e1, e2⟩ := minMaxOf_mem e
    obtain ⟨r1, c1, l1, l2, l3⟩ := of_mem_values e1
    obtain ⟨r2, c2, n1, n2, n3⟩ := of_mem_values e2
    rw [h4]
    refine ⟨fun r c hr hc => ?_, ⟨r1, c1, l1, l2, l3⟩, ⟨r2, c2, n1, n2, n3⟩⟩
    exact minMaxOf_spec (le := (· ≤ ·)) Int64.le_refl (fun _ _ _ => Int64.le_trans)
      (fun _ _ => Int64.le_of_lt) (fun _ _ => Int64.not_lt.1) e _ (mem_values (a := a) (t := t) hr hc)
  | flt => exact hb.elim

/-- The extremes of an instant bound its values. -/
theorem int_minMax {b : MMBuffer3} (hb : b.isInt) {n rows cols : Nat} {mm : List (Int64 × Int64)}
    (h : b.minMax n rows cols = some mm) {t : Nat} {m : Int64 × Int64} (hm : mm[t]? = some m)
    {r c : Nat} (hr : r < rows) (hc : c < cols) :
    m.1 ≤ b.int t r c ∧ b.int t r c ≤ m.2 := (int_minMax_spec hb h hm).2.1 r c hr hc

/-- No cell of the buffer panics. -/
def MMBuffer3.Gets (b : MMBuffer3) (n rows cols : Nat) : Prop :=
  ∀ t r c, t < n → r < rows → c < cols → b.get t r c = some (b.int t r c)

theorem buildBuffer_gets {clog : Nat → Nat} {k : Nat} {b : MMBuffer3} {n rows cols : Nat}
    (hb : b.Gets n rows cols) :
    Chunk.buildBuffer clog b n rows cols k =
      (Chunk.build b.int n rows cols k (clog (max rows cols)) b.encoding b.fractionalBits).map
        fun r => ⟨.subchunk r.data, r.size, 0, 0, r.snapshots, r.logs⟩ := by
  unfold Chunk.buildBuffer
  rw [if_pos]
  · rfl
  · intro t ht r hr c hc
    rw [hb t r c ht hr hc]
    rfl

theorem buildBuffer_int {clog : Nat → Nat} {k : Nat} {b : MMBuffer3} (hb : b.isInt)
    (n rows cols : Nat) :
    Chunk.buildBuffer clog b n rows cols k =
      (Chunk.build b.int n rows cols k (clog (max rows cols)) b.encoding b.fractionalBits).map
        fun r => ⟨.subchunk r.data, r.size, 0, 0, r.snapshots, r.logs⟩ :=
  buildBuffer_gets fun _ _ _ _ _ _ => hb.get ..

theorem int_computeBits {lg : Rat → Int} {b b' : MMBuffer3} (hb : b.isInt) {n rows cols : Nat}
    (h : b.computeBits lg n rows cols = some b') : b' = b := by
  cases b with
  | i32 a => cases h; rfl
  | i64 a => cases h; rfl
  | flt => exact hb.elim

theorem int_fractionalBits {b : MMBuffer3} (hb : b.isInt) : b.fractionalBits = 0 := by
  cases b with
  | i32 a => rfl
  | i64 a => rfl
  | flt => exact hb.elim

/-- A built chunk. -/
theorem buffer_leaf {clog : Nat → Nat} {k : Nat} (heven : k % 2 = 0) {b : MMBuffer3}
    {n rows cols : Nat} {r : MMStruct3Build} (hb : b.Gets n rows cols) (hfb : b.fractionalBits < 256)
    (hno : SeriesNoSplit b.int n rows cols k) (hn : 1 ≤ n)
    (hn' : n < 2 ^ 32) (hs : ShapeOk rows cols k (clog (max rows cols)))
    (hf : FormatOk rows cols k (clog (max rows cols)))
    (h : Chunk.buildBuffer clog b n rows cols k = some r) :
    ∃ c, r.data = .subchunk c ∧ c.WF ∧ c.fractionalBits = b.fractionalBits ∧
      LeafReads (fun _ v => v) c n rows cols b.int ∧
      (SeriesNoOverflow b.int n rows cols → (∀ t0 t, t0 < t → t < n → SearchSafe (b.int t0) (b.int t) rows cols
        (k ^ clog (max rows cols))) → LeafSearches c n rows cols b.int) := by
  rw [buildBuffer_gets hb, Option.map_eq_some_iff] at h
  obtain ⟨q, hq, rfl⟩ := h
  refine ⟨q.data, rfl, ?_, ?_, ⟨?_, ?_, ?_⟩, ?_⟩
  · obtain ⟨bs, h1, -, -, h3, h4⟩ := chunk_build b.int n rows cols k (clog (max rows cols))
      (by have := hs.arity; omega) hn b.encoding b.fractionalBits
    rw [hq] at h3
    cases h3
    exact h1.wf hf (by omega) _ _ hfb
  · obtain ⟨bs, -, -, -, h3, -⟩ := chunk_build b.int n rows cols k (clog (max rows cols))
      (by have := hs.arity; omega) hn b.encoding b.fractionalBits
    rw [hq] at h3
    cases h3
    rfl
  · obtain ⟨_, e, h1, h2⟩ := C12_chunk_get_partial b.int n rows cols k _ b.encoding b.fractionalBits hs
      hn hno
    rw [hq] at e
    cases e
    intro t row col a1 a2 a3
    exact ⟨_, h2 (h1 heven) t row col a1 a2 a3, rfl⟩
  · obtain ⟨_, e, h1, h2⟩ := C13_chunk_cell_partial b.int n rows cols k _ b.encoding b.fractionalBits hs
      hn hno
    rw [hq] at e
    cases e
    intro start fin row col a1 a2 a3 a4
    refine ⟨_, h2 (h1 heven) start fin row col a1 a2 a3 a4, ?_⟩
    simp [Function.comp_def]
  · obtain ⟨_, e, h1, h2⟩ := C13_chunk_window_partial b.int n rows cols k _ b.encoding b.fractionalBits hs
      hn hno
    rw [hq] at e
    cases e
    intro start fin top bottom left right a1 a2 a3 a4 a5 a6
    obtain ⟨L, e, p⟩ := h2 (h1 heven) start fin top bottom left right a1 a2 a3 a4 a5 a6
    rw [Cube.new_eq a1 (by omega) (by omega)] at e
    refine ⟨L, e, ?_⟩
    simpa using p
  · intro hno safe
    obtain ⟨_, e, h1⟩ := C14_chunk_search_partial b.int n rows cols k _ b.encoding b.fractionalBits hs
      hn hno
    obtain ⟨bs, -, -, h2, h3, -⟩ := chunk_build b.int n rows cols k (clog (max rows cols))
      (by have := hs.arity; omega) hn b.encoding b.fractionalBits
    rw [hq] at e h3
    cases e
    cases h3
    intro start fin top bottom left right lower upper a1 a2 a3 a4 a5 a6
    obtain ⟨it, L, e1, e2, e3⟩ := h1 start fin top bottom left right lower upper a1 a2 a3 a4 a5 a6
      (fun t0 t hp h4 h5 => safe t0 t hp.lt (by omega))
    rw [Cube.new_eq a1 (by omega) (by omega)] at e1
    exact ⟨it, L, e1, e2, e3⟩

/-- A built chunk of integers. -/
theorem int_leaf {clog : Nat → Nat} {k : Nat} (heven : k % 2 = 0) {b : MMBuffer3} (hb : b.isInt)
    {n rows cols : Nat} {r : MMStruct3Build} (hno : SeriesNoSplit b.int n rows cols k) (hn : 1 ≤ n)
    (hn' : n < 2 ^ 32) (hs : ShapeOk rows cols k (clog (max rows cols)))
    (hf : FormatOk rows cols k (clog (max rows cols)))
    (h : Chunk.buildBuffer clog b n rows cols k = some r) :
    ∃ c, r.data = .subchunk c ∧ c.WF ∧ LeafReads (fun _ v => v) c n rows cols b.int ∧
      (SeriesNoOverflow b.int n rows cols → (∀ t0 t, t0 < t → t < n → SearchSafe (b.int t0) (b.int t) rows cols
        (k ^ clog (max rows cols))) → LeafSearches c n rows cols b.int) := by
  obtain ⟨c, h1, h2, -, h3⟩ := buffer_leaf heven (fun _ _ _ _ _ _ => hb.get ..)
    (by rw [int_fractionalBits hb]; omega) hno hn hn' hs hf h
  exact ⟨c, h1, h2, h3⟩

/-- The same values through another decoding. -/
theorem LeafReads.decode {α : Type} {dec : Nat → Int64 → α} {c : Chunk} {n rows cols : Nat}
    {data : Nat → Nat → Nat → Int64} (h : LeafReads (fun _ v => v) c n rows cols data) :
    LeafReads dec c n rows cols fun t r k => dec c.fractionalBits (data t r k) := by
  refine ⟨fun t row col h1 h2 h3 => ?_, fun start fin row col h1 h2 h3 h4 => ?_,
    fun start fin top bottom left right h1 h2 h3 h4 h5 h6 => ?_⟩
  · obtain ⟨v, e, rfl⟩ := h.get t row col h1 h2 h3
    exact ⟨_, e, rfl⟩
  · obtain ⟨L, e, p⟩ := h.cell start fin row col h1 h2 h3 h4
    refine ⟨L, e, ?_⟩
    have := p.map fun p => (p.1, dec c.fractionalBits p.2)
    simpa [Function.comp_def] using this
  · obtain ⟨L, e, p⟩ := h.window start fin top bottom left right h1 h2 h3 h4 h5 h6
    refine ⟨L, e, ?_⟩
    have := p.map fun p => (p.1, p.2.1, p.2.2.1, dec c.fractionalBits p.2.2.2)
    rw [Spec.window3_eq] at this ⊢
    simpa [Function.comp_def] using this

/-- Squares of a square of a grid are squares of the raster. -/
theorem NoSplit.slice {getS getT : Nat → Nat → Int64} {rows cols k e i j : Nat} (hk : 2 ≤ k)
    (h : NoSplit getS getT rows cols k) (hi : i * k ^ e < rows) (hj : j * k ^ e < cols) :
    NoSplit (fun r c => getS (i * k ^ e + r) (j * k ^ e + c))
      (fun r c => getT (i * k ^ e + r) (j * k ^ e + c)) (min (k ^ e) (rows - i * k ^ e))
      (min (k ^ e) (cols - j * k ^ e)) k := by
  intro h' i' j' d h1 h2 hd r c r' c' q q' ho
  have hle : h' ≤ e := (Nat.pow_le_pow_iff_right (by omega)).1 (show k ^ h' ≤ k ^ e by omega)
  obtain ⟨f, rfl⟩ : ∃ f, e = h' + f := ⟨e - h', by omega⟩
  have ei : ∀ i i', (i * k ^ f + i') * k ^ h' = i * k ^ (h' + f) + i' * k ^ h' := by
    intro i i'; rw [Nat.pow_add]; grind
  refine h h' (i * k ^ f + i') (j * k ^ f + j') d (by rw [ei]; omega) (by rw [ei]; omega) ?_
    (i * k ^ (h' + f) + r) (j * k ^ (h' + f) + c) (i * k ^ (h' + f) + r') (j * k ^ (h' + f) + c') ?_ ?_ ho
  · intro r c q
    unfold InSquare at q hd
    rw [ei, ei] at q
    have := hd (r - i * k ^ (h' + f)) (c - j * k ^ (h' + f)) ⟨by omega, by omega, by omega, by omega⟩
    simp only at this
    rw [show i * k ^ (h' + f) + (r - i * k ^ (h' + f)) = r by omega,
      show j * k ^ (h' + f) + (c - j * k ^ (h' + f)) = c by omega] at this
    exact this
  · unfold InSquare at q ⊢
    rw [ei, ei]; omega
  · unfold InSquare at q' ⊢
    rw [ei, ei]; omega

theorem intReads_slice {k : Nat} (hk : 2 ≤ k) {b : MMBuffer3} {n rows cols e i j : Nat}
    (h : b.isInt ∧ SeriesNoSplit b.int n rows cols k) (hi : i * k ^ e < rows) (hj : j * k ^ e < cols) :
    (b.slice 0 (i * k ^ e) (j * k ^ e)).isInt ∧
      SeriesNoSplit (b.slice 0 (i * k ^ e) (j * k ^ e)).int n (min (k ^ e) (rows - i * k ^ e))
        (min (k ^ e) (cols - j * k ^ e)) k := by
  obtain ⟨h1, h2⟩ := h
  refine ⟨h1.slice _ _ _, fun t0 t h3 h4 => ?_⟩
  have heq : ∀ t, (b.slice 0 (i * k ^ e) (j * k ^ e)).int t =
      fun r c => b.int t (i * k ^ e + r) (j * k ^ e + c) := by
    intro t; funext r c; exact MMBuffer3.int_slice ..
  rw [heq, heq]
  exact (h2 t0 t h3 h4).slice hk hi hj

/-- Reads of integers. -/
def intReads (clog : Nat → Nat) (lg : Rat → Int) (k : Nat) (hk : 2 ≤ k) (heven : k % 2 = 0) :
    BuildTheory clog lg k (fun _ v => v) (LeafReads fun _ v => v) (fun m v => m.1 ≤ v ∧ v ≤ m.2) where
  J := fun _ => True
  OK := fun b n rows cols => b.isInt ∧ SeriesNoSplit b.int n rows cols k
  val := MMBuffer3.int
  slice := fun b n rows cols e i j _ h => intReads_slice hk h
  slice_val := MMBuffer3.int_slice
  bits := by
    rintro b n rows cols e i j - h1 hi hj R C rfl rfl mm b' - - h
    rw [int_computeBits (h1.1.slice _ _ _) h]
    exact ⟨intReads_slice hk h1 hi hj, fun _ _ _ _ _ _ => MMBuffer3.int_slice ..⟩
  leaf := by
    rintro b n rows cols e i j - ⟨h1, h2⟩ hi hj R C rfl rfl mm b' r - - hb hn hn' hs hf h
    rw [int_computeBits (h1.slice _ _ _) hb] at h
    obtain ⟨c, c1, c2, c3, -⟩ := int_leaf heven (h1.slice _ _ _)
      (intReads_slice hk ⟨h1, h2⟩ hi hj).2 hn hn' hs hf h
    exact ⟨c, c1, c2, c3.congr fun t r c _ _ _ => MMBuffer3.int_slice ..⟩
  leaf_congr := fun c n rows cols data data' h hl => LeafReads.congr h hl
  elide := by
    rintro b n rows cols e i j - ⟨h1, h2⟩ hi hj R C rfl rfl mm t m h hall hm r c ht hr hc
    obtain ⟨a1, a2⟩ := int_minMax (h1.slice _ _ _) h hm hr hc
    rw [hall m (List.mem_of_getElem? hm)] at a1
    rw [← MMBuffer3.int_slice]
    exact Int64.le_antisymm a2 a1
  ext := fun b n rows cols mm t m hok h hm r c ht hr hc => int_minMax hok.1 h hm hr hc
  bits_lt := fun b n rows cols hok => by rw [int_fractionalBits hok.1]; omega

/-- Searches of a chunk of these rasters, not all of them constant, are right. -/
def BlockSafe (get : Nat → Nat → Nat → Int64) (n rows cols side : Nat) : Prop :=
  (∃ t, t < n ∧ ∀ u, ¬ Const (get t) rows cols u) →
    ∀ t0 t, t0 < t → t < n → SearchSafe (get t0) (get t) rows cols side

/-- Squares of a grid of squares of a raster are squares of the raster. -/
theorem grid_nested {k : Nat} (hk : 2 ≤ k) {e e' i i' rows : Nat} (h1 : i * k ^ e < rows)
    (h2 : i' * k ^ e' < min (k ^ e) (rows - i * k ^ e)) :
    ∃ i'', i'' * k ^ min e e' < rows ∧ i * k ^ e + i' * k ^ e' = i'' * k ^ min e e' ∧
      min (k ^ e') (min (k ^ e) (rows - i * k ^ e) - i' * k ^ e') =
        min (k ^ min e e') (rows - i'' * k ^ min e e') := by
  rcases Nat.lt_or_ge e e' with h | h
  · have hlt : k ^ e < k ^ e' := Nat.pow_lt_pow_right (by omega) h
    have : i' = 0 := by
      by_contra hne
      have : 1 * k ^ e' ≤ i' * k ^ e' := Nat.mul_le_mul_right _ (by omega)
      omega
    subst this
    rw [Nat.min_eq_left (Nat.le_of_lt h)]
    exact ⟨i, h1, by omega, by omega⟩
  · obtain ⟨d, rfl⟩ : ∃ d, e = e' + d := ⟨e - e', by omega⟩
    rw [Nat.min_eq_right h]
    rw [Nat.pow_add] at *
    have e1 : i * (k ^ e' * k ^ d) + i' * k ^ e' = (i * k ^ d + i') * k ^ e' := by
      rw [Nat.add_mul, Nat.mul_assoc, Nat.mul_comm (k ^ d)]
    have e2 : i' + 1 ≤ k ^ d := by
      by_contra hge
      have : k ^ d * k ^ e' ≤ i' * k ^ e' := Nat.mul_le_mul_right _ (by omega)
      rw [Nat.mul_comm (k ^ d)] at this
      omega
    have e3 : (i' + 1) * k ^ e' ≤ k ^ d * k ^ e' := Nat.mul_le_mul_right _ e2
    rw [Nat.succ_mul, Nat.mul_comm (k ^ d)] at e3
    exact ⟨i * k ^ d + i', by omega, e1, by omega⟩

/-- The squares of the grids with exponents in `J` can be searched. -/
def GridSafe (clog : Nat → Nat) (k : Nat) (J : Nat → Prop) (get : Nat → Nat → Nat → Int64)
    (n rows cols : Nat) : Prop :=
  ∀ e i j, J e → i * k ^ e < rows → j * k ^ e < cols →
    BlockSafe (fun t r c => get t (i * k ^ e + r) (j * k ^ e + c)) n
      (min (k ^ e) (rows - i * k ^ e)) (min (k ^ e) (cols - j * k ^ e))
      (k ^ clog (max (min (k ^ e) (rows - i * k ^ e)) (min (k ^ e) (cols - j * k ^ e))))

theorem int_not_all {b : MMBuffer3} (hb : b.isInt) {n rows cols : Nat} {mm : List (Int64 × Int64)}
    (h : b.minMax n rows cols = some mm) (hne : ¬ ∀ m ∈ mm, m.1 = m.2) :
    ∃ t, t < n ∧ ∀ u, ¬ Const (b.int t) rows cols u := by
  by_contra hc
  apply hne
  intro m hm
  obtain ⟨t, ht⟩ := List.mem_iff_getElem?.1 hm
  obtain ⟨h1, -, ⟨r1, c1, l1, l2, l3⟩, r2, c2, n1, n2, n3⟩ := int_minMax_spec hb h ht
  by_contra hmne
  refine hc ⟨t, h1, fun u hu => hmne ?_⟩
  rw [← l3, ← n3, hu r1 c1 l1 l2, hu r2 c2 n1 n2]

theorem intSearches_slice {clog : Nat → Nat} {k : Nat} (hk : 2 ≤ k) {J : Nat → Prop} {b : MMBuffer3}
    {n rows cols e i j : Nat} (hJ : J e) (h : b.isInt ∧ SeriesNoOverflow b.int n rows cols ∧
      GridSafe clog k J b.int n rows cols) (hi : i * k ^ e < rows) (hj : j * k ^ e < cols) :
    (b.slice 0 (i * k ^ e) (j * k ^ e)).isInt ∧
      SeriesNoOverflow (b.slice 0 (i * k ^ e) (j * k ^ e)).int n (min (k ^ e) (rows - i * k ^ e))
        (min (k ^ e) (cols - j * k ^ e)) ∧
      GridSafe clog k J (b.slice 0 (i * k ^ e) (j * k ^ e)).int n (min (k ^ e) (rows - i * k ^ e))
        (min (k ^ e) (cols - j * k ^ e)) := by
  obtain ⟨h1, h2, h3⟩ := h
  refine ⟨h1.slice _ _ _, fun t0 t h3 h4 r c hr hc => ?_, ?_⟩
  · rw [MMBuffer3.int_slice, MMBuffer3.int_slice]
    exact h2 t0 t h3 h4 _ _ (by omega) (by omega)
  · intro e' i' j' hJ' hi' hj'
    obtain ⟨i'', a1, a2, a3⟩ := grid_nested hk hi hi'
    obtain ⟨j'', b1, b2, b3⟩ := grid_nested hk hj hj'
    have := h3 (min e e') i'' j'' (by rcases Nat.le_total e e' with h | h <;> simp [h, hJ, hJ']) a1 b1
    rw [a3, b3]
    simp only [MMBuffer3.int_slice, ← Nat.add_assoc, a2, b2]
    exact this

/-- Searches of integers. -/
def intSearches (clog : Nat → Nat) (lg : Rat → Int) (k : Nat) (hk : 2 ≤ k) (heven : k % 2 = 0)
    (J : Nat → Prop) :
    BuildTheory clog lg k (fun _ v => v) LeafSearches (fun m v => m.1 ≤ v ∧ v ≤ m.2) where
  J := J
  OK := fun b n rows cols => b.isInt ∧ SeriesNoOverflow b.int n rows cols ∧
    GridSafe clog k J b.int n rows cols
  val := MMBuffer3.int
  slice := fun b n rows cols e i j hJ h => intSearches_slice hk hJ h
  slice_val := MMBuffer3.int_slice
  bits := by
    rintro b n rows cols e i j hJ h1 hi hj R C rfl rfl mm b' - - h
    rw [int_computeBits (h1.1.slice _ _ _) h]
    exact ⟨intSearches_slice hk hJ h1 hi hj, fun _ _ _ _ _ _ => MMBuffer3.int_slice ..⟩
  leaf := by
    rintro b n rows cols e i j hJ ⟨h1, h2, h3⟩ hi hj R C rfl rfl mm b' r hmm hne hb hn hn' hs hf h
    rw [int_computeBits (h1.slice _ _ _) hb] at h
    have hno := (intSearches_slice hk hJ ⟨h1, h2, h3⟩ hi hj).2.1
    obtain ⟨c, c1, c2, -, c3⟩ := int_leaf heven (h1.slice _ _ _)
      hno.noSplit hn hn' hs hf h
    have c3 := c3 hno
    have hvar := int_not_all (h1.slice _ _ _) hmm hne
    have heq : ∀ t, (b.slice 0 (i * k ^ e) (j * k ^ e)).int t =
        fun r c => b.int t (i * k ^ e + r) (j * k ^ e + c) := by
      intro t; funext r c; exact MMBuffer3.int_slice ..
    simp only [heq] at hvar c3
    exact ⟨c, c1, c2, (c3 (h3 e i j hJ hi hj hvar)).congr fun t r c _ _ _ => MMBuffer3.int_slice ..⟩
  leaf_congr := fun c n rows cols data data' h hl => LeafSearches.congr h hl
  elide := by
    rintro b n rows cols e i j - ⟨h1, h2⟩ hi hj R C rfl rfl mm t m h hall hm r c ht hr hc
    obtain ⟨a1, a2⟩ := int_minMax (h1.slice _ _ _) h hm hr hc
    rw [hall m (List.mem_of_getElem? hm)] at a1
    rw [← MMBuffer3.int_slice]
    exact Int64.le_antisymm a2 a1
  ext := fun b n rows cols mm t m hok h hm r c ht hr hc => int_minMax hok.1 h hm hr hc
  bits_lt := fun b n rows cols hok => by rw [int_fractionalBits hok.1]; omega

end Verif
