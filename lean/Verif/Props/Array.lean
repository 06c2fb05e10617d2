import Verif.Lemmas.MMArray
import Verif.Props.Dataset

/-! Properties of reads and searches through arrays: C44, C46, and C31 for them. -/
namespace Verif

/-! ### C44 -/

section
variable {α : Type} (kind : Kind α) (utf8 : List Byte → Bool) (m : MMStruct3)

/-- C44: a `get` outside of the shape panics, whatever is in the store. -/
theorem C44_get_rejects {n rows cols : Nat} (hs : m.shape = some (n, rows, cols)) (t r c : Nat)
    (h : ¬ (t < n ∧ r < rows ∧ c < cols)) (st : Store) (fuel : Nat) :
    kind.get utf8 st fuel m t r c = .error .panic := by
  unfold Kind.get
  rw [checkBounds_none hs h]

/-- C44: a `cell` outside of the shape, or with a start after the end, panics, whatever is in the
store. -/
theorem C44_cell_rejects {n rows cols : Nat} (hs : m.shape = some (n, rows, cols)) (start fin r c : Nat)
    (h : ¬ (start ≤ fin ∧ 0 < fin ∧ fin ≤ n ∧ r < rows ∧ c < cols)) (st : Store) (fuel : Nat)
    (res : Except Fail (List α)) :
    kind.cell utf8 st fuel m start fin r c res ↔ res = .error .panic := by
  unfold Kind.cell csub
  by_cases h1 : 1 ≤ fin
  · rw [if_pos h1]
    simp only
    by_cases h2 : fin - 1 < n ∧ r < rows ∧ c < cols
    · rw [checkBounds_some hs h2.1 h2.2.1 h2.2.2]
      simp only
      rw [if_neg (by omega)]
    · rw [checkBounds_none hs h2]
  · rw [if_neg h1]

/-- C44: a `window` outside of the shape, or with a first instant, row or column after the last one,
panics, whatever is in the store. -/
theorem C44_window_rejects {n rows cols : Nat} (hs : m.shape = some (n, rows, cols)) (b : Cube)
    (h : ¬ (b.start ≤ b.fin ∧ 0 < b.fin ∧ b.fin ≤ n ∧ b.top ≤ b.bottom ∧ 0 < b.bottom ∧ b.bottom ≤ rows ∧
      b.left ≤ b.right ∧ 0 < b.right ∧ b.right ≤ cols)) (st : Store) (fuel : Nat)
    (res : Except Fail (List (List (List α)))) :
    kind.window utf8 st fuel m b res ↔ res = .error .panic := by
  unfold Kind.window
  cases hc : m.checkCube b with
  | none => rfl
  | some u =>
    have := checkCube_inside hs hc
    simp only
    unfold csub
    by_cases h1 : b.start ≤ b.fin
    · by_cases h2 : b.top ≤ b.bottom
      · rw [if_pos h1, if_pos h2, if_neg (by omega)]
      · rw [if_pos h1, if_neg h2]
    · rw [if_neg h1]

/-- C44: a search outside of the shape panics before it gives anything, whatever is in the store. The
bounds are made by `Cube::new`, see `C44_search_wrong`. -/
theorem C44_search_rejects_partial {n rows cols : Nat} (hs : m.shape = some (n, rows, cols))
    (start fin top bottom left right : Nat) (b : Cube) (hb : b = Cube.new start fin top bottom left right)
    (h : ¬ (start ≤ n ∧ fin ≤ n ∧ top ≤ rows ∧ bottom ≤ rows ∧ left ≤ cols ∧ right ≤ cols ∧
      0 < max start fin ∧ 0 < max top bottom ∧ 0 < max left right))
    (lower upper : α) (st : Store) (fuel : Nat) :
    kind.search utf8 st fuel m b lower upper = Out.fail .panic := by
  unfold Kind.search
  cases kind.bound lower with
  | none => rfl
  | some lower =>
    cases kind.bound upper with
    | none => rfl
    | some upper =>
      simp only
      cases hc : m.checkCube b with
      | none => rfl
      | some u =>
        exfalso
        apply h
        have h1 := checkCube_inside hs hc
        subst hb
        unfold Cube.new rearrange at h1
        by_cases a1 : start > fin <;> by_cases a2 : top > bottom <;> by_cases a3 : left > right <;>
          simp only [a1, a2, a3, if_true, if_false] at h1 <;> omega

/-- C44: whatever is answered is inside of the shape. -/
theorem C44_answered {n rows cols : Nat} (hs : m.shape = some (n, rows, cols)) (st : Store) (fuel : Nat) :
    (∀ t r c x, kind.get utf8 st fuel m t r c = .ok x → t < n ∧ r < rows ∧ c < cols) ∧
    (∀ start fin r c x, kind.cell utf8 st fuel m start fin r c (.ok x) →
      start ≤ fin ∧ 0 < fin ∧ fin ≤ n ∧ r < rows ∧ c < cols) ∧
    (∀ b x, kind.window utf8 st fuel m b (.ok x) →
      b.start ≤ b.fin ∧ 0 < b.fin ∧ b.fin ≤ n ∧ b.top ≤ b.bottom ∧ 0 < b.bottom ∧ b.bottom ≤ rows ∧
      b.left ≤ b.right ∧ 0 < b.right ∧ b.right ≤ cols) := by
  refine ⟨fun t r c x hx => ?_, fun start fin r c x hx => ?_, fun b x hx => ?_⟩
  · by_contra h
    rw [C44_get_rejects kind utf8 m hs t r c h] at hx
    cases hx
  · by_contra h
    rw [C44_cell_rejects kind utf8 m hs start fin r c h] at hx
    cases hx
  · by_contra h
    rw [C44_window_rejects kind utf8 m hs b h] at hx
    cases hx

/-- C44: a search of floats always panics (`todo!()`). -/
theorem C44_search_floats (kind : Kind Flt) (hk : kind = .f32 ∨ kind = .f64) (b : Cube)
    (lower upper : Flt) (st : Store) (fuel : Nat) :
    kind.search utf8 st fuel m b lower upper = Out.fail .panic := by
  rcases hk with rfl | rfl <;> rfl

end

/-- The chunk of one raster of three rows and columns, with a 5 in the middle. -/
def exampleArray : Chunk :=
  ((Chunk.build (fun _ r c => if r = 1 ∧ c = 1 then 5 else 0) 1 3 3 2 2 .i64 0).map (·.data)).getD
    ⟨[], [], .i64, 0⟩

/-- C44 does not hold for searches with bounds whose fields were set by hand: a `top` greater than
`bottom` passes the check, then the two are swapped, and cells are found below the last row. -/
theorem C44_search_wrong : ∃ (m : MMStruct3) (b : Cube), m.shape = some (1, 3, 3) ∧
    ∀ utf8 st fuel, 0 < fuel →
      Kind.i64.search utf8 st fuel m b 0 0 [some (0, 3, 0), some (0, 3, 1), some (0, 3, 2)] none := by
  refine ⟨.subchunk exampleArray, ⟨0, 1, 4, 3, 0, 3⟩, by decide +kernel, fun utf8 st fuel hf => ?_⟩
  obtain ⟨fuel, rfl⟩ : ∃ e, fuel = e + 1 := ⟨fuel - 1, by omega⟩
  unfold Kind.search
  rw [show Kind.i64.bound 0 = some 0 from rfl]
  simp only
  rw [show (MMStruct3.subchunk exampleArray).checkCube ⟨0, 1, 4, 3, 0, 3⟩ = some () by decide +kernel]
  have h : (exampleArray.iterSearch ⟨0, 1, 4, 3, 0, 3⟩ 0 0).bind (fun it => it.toList exampleArray 30) =
    some [(0, 3, 0), (0, 3, 1), (0, 3, 2)] := by decide +kernel
  unfold MMStruct3.search
  simp only
  cases hi : exampleArray.iterSearch ⟨0, 1, 4, 3, 0, 3⟩ 0 0 with
  | none => rw [hi] at h; cases h
  | some it =>
    rw [hi] at h
    exact .inl ⟨30, _, h, rfl, rfl⟩

/-- Queries inside and outside of a shape. -/
example : (MMStruct3.subchunk exampleArray).shape = some (1, 3, 3) ∧
    Kind.i64.get (fun _ => true) (fun _ => none) 1 (.subchunk exampleArray) 0 1 1 = .ok 5 ∧
    Kind.i64.get (fun _ => true) (fun _ => none) 1 (.subchunk exampleArray) 0 3 1 = .error .panic ∧
    (MMStruct3.subchunk exampleArray).checkCube ⟨0, 1, 0, 3, 0, 3⟩ = some () ∧
    (MMStruct3.subchunk exampleArray).checkCube ⟨0, 1, 0, 3, 0, 4⟩ = none := by
  decide +kernel

/-! ### C31 and C46 through arrays -/

/-- Reads through an array give a series of `n` rasters, and nothing else. -/
structure ArrayReads {α : Type} (kind : Kind α) (utf8 : List Byte → Bool) (st : Store) (fuel : Nat)
    (m : MMStruct3) (n rows cols : Nat) (data : Nat → Nat → Nat → α) : Prop where
  shape : m.shape = some (n, rows, cols)
  get : ∀ t row col, t < n → row < rows → col < cols →
    kind.get utf8 st fuel m t row col = .ok (data t row col)
  cell : ∀ start fin row col, start ≤ fin → 0 < fin → fin ≤ n → row < rows → col < cols →
    ∀ res, kind.cell utf8 st fuel m start fin row col res ↔
      res = .ok ((List.range (fin - start)).map fun i => data (start + i) row col)
  window : ∀ start fin top bottom left right, start ≤ fin → 0 < fin → fin ≤ n → top < bottom →
    left < right → bottom ≤ rows → right ≤ cols →
    ∀ res, kind.window utf8 st fuel m ⟨start, fin, top, bottom, left, right⟩ res ↔
      res = .ok ((List.range (fin - start)).map fun t => (List.range (bottom - top)).map fun r =>
        (List.range (right - left)).map fun c => data (start + t) (top + r) (left + c))

theorem Reads.array {α : Type} {kind : Kind α} {utf8 st fuel m n rows cols data}
    (h : Reads kind.dec utf8 st fuel m n rows cols data) :
    ArrayReads kind utf8 st fuel m n rows cols data :=
  ⟨h.shape, fun _ _ _ => h.kind_get, fun _ _ _ _ h1 h2 h3 h4 h5 => h.kind_cell h1 h2 h3 h4 h5,
    fun _ _ _ _ _ _ h1 h0 h2 h3 h4 h5 h6 => h.kind_window h0 h1 h2 h3 h4 h5 h6⟩

/-- The arrays appended one after the other, if they are of 32 bits. -/
def concat32 : List (NdArray × Nat) → Nat → Nat → Nat → Int32
  | [], _, _, _ => 0
  | (a, n) :: as, t, r, c =>
    if t < n then (match a with | .i32 a => a t r c | _ => 0) else concat32 as (t - n) r c

/-- The arrays appended one after the other, if they are of 64 bits. -/
def concat64 : List (NdArray × Nat) → Nat → Nat → Nat → Int64
  | [], _, _, _ => 0
  | (a, n) :: as, t, r, c =>
    if t < n then (match a with | .i64 a => a t r c | _ => 0) else concat64 as (t - n) r c

theorem concatInt_eq32 (as : List (NdArray × Nat)) (h : ∀ x ∈ as, ∃ a, x.1 = .i32 a) (t r c : Nat) :
    concatInt as t r c = (concat32 as t r c).toInt64 := by
  induction as generalizing t with
  | nil => rfl
  | cons x as ih =>
    obtain ⟨a, ha⟩ := h x (List.mem_cons_self ..)
    obtain ⟨b, n⟩ := x
    change b = _ at ha
    subst ha
    simp only [concatInt, concat32]
    split
    · rfl
    · exact ih (fun y hy => h y (List.mem_cons_of_mem _ hy)) _

theorem concatInt_eq64 (as : List (NdArray × Nat)) (h : ∀ x ∈ as, ∃ a, x.1 = .i64 a) (t r c : Nat) :
    concatInt as t r c = concat64 as t r c := by
  induction as generalizing t with
  | nil => rfl
  | cons x as ih =>
    obtain ⟨a, ha⟩ := h x (List.mem_cons_self ..)
    obtain ⟨b, n⟩ := x
    change b = _ at ha
    subst ha
    simp only [concatInt, concat64]
    split
    · rfl
    · exact ih (fun y hy => h y (List.mem_cons_of_mem _ hy)) _

section
variable {H : Hash} {utf8 : List Byte → Bool} {clog : Nat → Nat} {lg : Rat → Int} {fuel readFuel : Nat}
  {levels : List Nat} {cs ss : Nat}

theorem HistInv.arrays {D : Nat → Nat → Nat → Int64} {N rows cols : Nat}
    (h : IntBase clog levels D N rows cols cs ss) {name : List Byte} {enc : MMEncoding}
    {round : Option Nat} {s : Dataset × Saved} {M : Nat}
    (hi : HistInv H utf8 (h.theory H enc) levels round name s M) (log : Saved) (hsub : s.2 ⊆ log)
    (hnc : log.NoCollision H) (hrf : levels.length + 34 ≤ readFuel) :
    ∃ v m, s.1.findVariable name = some v ∧ (log.load H).getStruct utf8 v.cid = .ok m ∧
      m.encoding = enc ∧ Reads (fun _ v => v) utf8 (log.load H) readFuel m M rows cols D ∧
      (IntSafe clog levels D N rows cols cs → SearchesAs utf8 (log.load H) readFuel m M rows cols D) := by
  obtain ⟨v, m, h1, h2, h3, h0, h4, h5⟩ := hi.reads h log hsub hnc hrf
  refine ⟨v, m, h1, h2, h3, ⟨h4.shape, ?_, ?_, ?_⟩, h5⟩
  · intro t row col a1 a2 a3
    obtain ⟨bits, e⟩ := h4.get t row col a1 a2 a3
    rw [h0]
    exact ⟨bits, _, e, rfl⟩
  · rw [h0]
    exact h4.cell
  · rw [h0]
    exact h4.window

/-- C46: after any history in which arrays of 32 bits were appended to a variable of 32 bits,
`data_i32` gives an array whose reads return the numbers appended, bit for bit, and whose searches
find them.

Partial as C31 (`History`, `IntVar`, `IntSafe`). -/
theorem C46_i32_partial (d : Dataset) (name : List Byte) (round : Option Nat) (ops : List Op) (log : Saved)
    (h : History utf8 clog readFuel d name round ss cs levels .i32 ops)
    (h32 : ∀ x ∈ arrays name ops, ∃ a, x.1 = .i32 a)
    (hf : 32 ≤ fuel) (hrf : levels.length + 34 ≤ readFuel) (s : Dataset × Saved)
    (hs : s = runs H utf8 clog lg fuel (.addVariable name round ss cs levels .i32 :: ops) (d, log))
    (hnc : s.2.NoCollision H) :
    ∃ v m, s.1.findVariable name = some v ∧ v.data .i32 utf8 (s.2.load H) = .ok m ∧
      ArrayReads .i32 utf8 (s.2.load H) readFuel m (total (arrays name ops)) d.rows d.cols
        (concat32 (arrays name ops)) ∧
      (IntSafe clog levels (concatInt (arrays name ops)) (total (arrays name ops)) d.rows d.cols cs →
        ∀ start fin top bottom left right (lower upper : Int32), start ≤ fin → 0 < fin →
          fin ≤ total (arrays name ops) → top < bottom → left < right → bottom ≤ d.rows →
          right ≤ d.cols →
          (Kind.i32.search utf8 (s.2.load H) readFuel m ⟨start, fin, top, bottom, left, right⟩ lower
            upper).Yields ((Spec.hits3 (fun t r c => (concat32 (arrays name ops) t r c).toInt64) start fin
              top bottom left right (min lower.toInt64 upper.toInt64)
              (max lower.toInt64 upper.toInt64)).map some)) := by
  subst hs
  obtain ⟨v, m, h1, h2, h3, h4, h6⟩ := (h.inv hf (by omega) log hnc).arrays h.int.toIntBase _
    (List.Subset.refl _) hnc hrf
  refine ⟨v, m, h1, ?_, ?_, ?_⟩
  · unfold Variable.data
    rw [h2]
    simp only
    unfold Kind.new
    rw [h3, if_neg (by exact fun h => h rfl)]
  · have := (h4.map fun v => v.toInt32).congr (data' := concat32 (arrays name ops)) fun t r c _ _ _ => by
      rw [concatInt_eq32 _ h32]
      simp
    exact Reads.array (kind := .i32) this
  · intro hsafe start fin top bottom left right lower upper a1 a2 a3 a4 a5 a6 a7
    unfold Kind.search
    change Out.Yields (match m.checkCube ⟨start, fin, top, bottom, left, right⟩ with
      | none => _ | some () => _) _
    rw [checkCube_some h4.shape (by exact a2) (by exact a3) (by change 0 < bottom; omega) (by exact a6)
      (by change 0 < right; omega) (by exact a7)]
    have := h6 hsafe start fin top bottom left right lower.toInt64 upper.toInt64 a1 a3 a4 a5 a6 a7
    refine this.perm (List.Perm.of_eq ?_)
    rw [Spec.hits3_congr (n := total (arrays name ops)) (rows := d.rows) (cols := d.cols)
      (fun t r c _ _ _ => concatInt_eq32 _ h32 t r c) a3 a6 a7]

/-- C31: after any history in which arrays of 64 bits were appended to a variable of 64 bits,
`data_i64` gives an array whose reads return the numbers appended, and whose searches find them.

Partial: the variable holds integers, the superchunk builder accepts the rasters (see C26),
no square of a chunk is split by overflow (`C07_exact`), all this is in `History` and
`IntVar`; searches need `IntSafe` (see C09 and C24). -/
theorem C31_i64_partial (d : Dataset) (name : List Byte) (round : Option Nat) (ops : List Op) (log : Saved)
    (h : History utf8 clog readFuel d name round ss cs levels .i64 ops)
    (h64 : ∀ x ∈ arrays name ops, ∃ a, x.1 = .i64 a)
    (hf : 32 ≤ fuel) (hrf : levels.length + 34 ≤ readFuel) (s : Dataset × Saved)
    (hs : s = runs H utf8 clog lg fuel (.addVariable name round ss cs levels .i64 :: ops) (d, log))
    (hnc : s.2.NoCollision H) :
    ∃ v m, s.1.findVariable name = some v ∧ v.data .i64 utf8 (s.2.load H) = .ok m ∧
      ArrayReads .i64 utf8 (s.2.load H) readFuel m (total (arrays name ops)) d.rows d.cols
        (concat64 (arrays name ops)) ∧
      (IntSafe clog levels (concatInt (arrays name ops)) (total (arrays name ops)) d.rows d.cols cs →
        ∀ start fin top bottom left right (lower upper : Int64), start ≤ fin → 0 < fin →
          fin ≤ total (arrays name ops) → top < bottom → left < right → bottom ≤ d.rows →
          right ≤ d.cols →
          (Kind.i64.search utf8 (s.2.load H) readFuel m ⟨start, fin, top, bottom, left, right⟩ lower
            upper).Yields ((Spec.hits3 (concat64 (arrays name ops)) start fin
              top bottom left right (min lower upper) (max lower upper)).map some)) := by
  subst hs
  obtain ⟨v, m, h1, h2, h3, h4, h6⟩ := (h.inv hf (by omega) log hnc).arrays h.int.toIntBase _
    (List.Subset.refl _) hnc hrf
  refine ⟨v, m, h1, ?_, ?_, ?_⟩
  · unfold Variable.data
    rw [h2]
    simp only
    unfold Kind.new
    rw [h3, if_neg (by exact fun h => h rfl)]
  · exact Reads.array (kind := .i64) (h4.congr fun t r c _ _ _ => concatInt_eq64 _ h64 t r c)
  · intro hsafe start fin top bottom left right lower upper a1 a2 a3 a4 a5 a6 a7
    unfold Kind.search
    change Out.Yields (match m.checkCube ⟨start, fin, top, bottom, left, right⟩ with
      | none => _ | some () => _) _
    rw [checkCube_some h4.shape (by exact a2) (by exact a3) (by change 0 < bottom; omega) (by exact a6)
      (by change 0 < right; omega) (by exact a7)]
    have := h6 hsafe start fin top bottom left right lower upper a1 a3 a4 a5 a6 a7
    refine this.perm (List.Perm.of_eq ?_)
    rw [Spec.hits3_congr (n := total (arrays name ops)) (rows := d.rows) (cols := d.cols)
      (fun t r c _ _ _ => concatInt_eq64 _ h64 t r c) a3 a6 a7]

/-- C31 does not hold if arrays of 64 bits are appended to a variable of 32 bits, which no check
prevents: the appends succeed, the array is refused by `data_i64` and read by `data_i32` cut down to
32 bits. -/
theorem C31_types_wrong (d : Dataset) (name : List Byte) (round : Option Nat) (ops : List Op) (log : Saved)
    (h : History utf8 clog readFuel d name round ss cs levels .i32 ops)
    (h64 : ∀ x ∈ arrays name ops, ∃ a, x.1 = .i64 a)
    (hf : 32 ≤ fuel) (hrf : levels.length + 34 ≤ readFuel) (s : Dataset × Saved)
    (hs : s = runs H utf8 clog lg fuel (.addVariable name round ss cs levels .i32 :: ops) (d, log))
    (hnc : s.2.NoCollision H) :
    ∃ v m, s.1.findVariable name = some v ∧ v.data .i64 utf8 (s.2.load H) = .error .panic ∧
      v.data .i32 utf8 (s.2.load H) = .ok m ∧
      ArrayReads .i32 utf8 (s.2.load H) readFuel m (total (arrays name ops)) d.rows d.cols
        (fun t r c => (concat64 (arrays name ops) t r c).toInt32) := by
  subst hs
  obtain ⟨v, m, h1, h2, h3, h4, -⟩ := (h.inv hf (by omega) log hnc).arrays h.int.toIntBase _
    (List.Subset.refl _) hnc hrf
  refine ⟨v, m, h1, ?_, ?_, ?_⟩
  · unfold Variable.data
    rw [h2]
    simp only
    unfold Kind.new
    rw [h3, if_pos (by decide)]
  · unfold Variable.data
    rw [h2]
    simp only
    unfold Kind.new
    rw [h3, if_neg (by exact fun h => h rfl)]
  · have := (h4.map fun v => v.toInt32).congr
      (data' := fun t r c => (concat64 (arrays name ops) t r c).toInt32) fun t r c _ _ _ => by
        rw [concatInt_eq64 _ h64]
    exact Reads.array (kind := .i32) this

end

/-- One instant of 32 bits, then three more, so that the second append reads back what the first one
left in a chunk that is not full. -/
def exampleOps32 : List Op :=
  [.append exampleFill [7] (.i32 fun t r c => (exampleGrid t r c).toInt32) 1 4 4,
    .append exampleFill [7] (.i32 fun t r c => (exampleGrid (1 + t) r c).toInt32) 3 4 4]

theorem exampleArrays32 : arrays [7] exampleOps32 =
    [(.i32 fun t r c => (exampleGrid t r c).toInt32, 1),
      (.i32 fun t r c => (exampleGrid (1 + t) r c).toInt32, 3)] := rfl

theorem exampleHistory32 : History (fun _ => true) exampleClog 40 exampleDataset [7] none 2 2 [1, 1] .i32
    exampleOps32 where
  dataset := ⟨exampleWF, fun c hc => by cases hc⟩
  new := rfl
  fits := by
    refine ⟨by decide, rfl, fun b hb => (nomatch hb), by decide, by decide, by decide, by decide⟩
  count := by decide +kernel
  each := by
    have hf := exampleFill_valid
    intro op ho
    simp only [exampleOps32, List.mem_cons, List.not_mem_nil, or_false] at ho
    rcases ho with rfl | rfl
    · exact ⟨trivial, fun _ => ⟨hf, rfl, rfl⟩⟩
    · exact ⟨trivial, fun _ => ⟨hf, rfl, rfl⟩⟩
  type := by
    rw [exampleArrays32]
    right
    intro x hx
    simp only [List.mem_cons, List.not_mem_nil, or_false] at hx
    rcases hx with rfl | rfl <;> exact ⟨_, rfl⟩
  int := by
    rw [exampleArrays32]
    have hD : ∀ t r c, t < 4 → r < 4 → c < 4 → concatInt [(.i32 fun t r c => (exampleGrid t r c).toInt32, 1),
        (.i32 fun t r c => (exampleGrid (1 + t) r c).toInt32, 3)] t r c =
          (exampleGrid t r c).toInt32.toInt64 := by
      intro t r c ht _ _
      simp only [concatInt]
      split
      · rfl
      · rw [if_pos (by omega)]
        change (exampleGrid (1 + (t - 1)) r c).toInt32.toInt64 = _
        rw [show 1 + (t - 1) = t by omega]
    refine ⟨⟨exampleClogOk.mono (by decide), by decide, by decide, by decide, by decide, by decide, by decide,
      by decide, by decide, by decide, ⟨by decide, by decide, by decide⟩, ?_⟩, fun a n _ _ _ => ⟨rfl, trivial⟩⟩
    intro t0 t h1 _ h3
    refine NoOverflow.noSplit fun r c hr hc => ?_
    change t < 4 at h3
    rw [hD t r c h3 hr hc, hD t0 r c (by omega) hr hc]
    have key : ∀ t0, t0 < 4 → ∀ t, t < 4 → ∀ r, r < 4 → ∀ c, c < 4 →
        ((exampleGrid t r c).toInt32.toInt64 - (exampleGrid t0 r c).toInt32.toInt64).toInt =
          (exampleGrid t r c).toInt32.toInt64.toInt - (exampleGrid t0 r c).toInt32.toInt64.toInt := by
      decide +kernel
    exact key t0 (by omega) t h3 r hr c hc

/-- The arrays of 64 bits of `exampleOps` appended to a variable of 32 bits. -/
example : History (fun _ => true) exampleClog 40 exampleDataset [7] none 2 2 [1, 1] .i32 exampleOps where
  dataset := exampleHistory.dataset
  new := exampleHistory.new
  fits := exampleHistory32.fits
  count := exampleHistory.count
  each := exampleHistory.each
  type := exampleHistory.type
  int := exampleHistory.int

/-- Two instants whose differences are all 1, if they are allowed to wrap around. -/
def wrapSeries (t r c : Nat) : Int64 :=
  (if (r + c) % 2 = 0 then Int64.maxValue else Int64.ofNat (4 * r + c)) + Int64.ofNat t

def wrapRun : Dataset × Saved :=
  runs exampleHash (fun _ => true) exampleClog (fun _ => 0) 32 [.addVariable [7] none 2 2 [1, 1] .i64,
    .append exampleFill [7] (.i64 wrapSeries) 2 4 4] (exampleDataset, [])

theorem wrapRun_noCollision : wrapRun.2.NoCollision exampleHash := by
  unfold Saved.NoCollision
  decide +kernel

theorem wrapRun_reads : (match wrapRun.1.findVariable [7] with
    | none => false
    | some v => match v.data .i64 (fun _ => true) (wrapRun.2.load exampleHash) with
      | .error _ => false
      | .ok m => m.shape == some (2, 4, 4) &&
        match Kind.i64.get (fun _ => true) (wrapRun.2.load exampleHash) 40 m 1 0 0 with
        | .error _ => false
        | .ok x => x == 5) = true := by
  decide +kernel

/-- C31 does not hold for numbers whose differences within a chunk overflow. In a release build the
append succeeds, and numbers of the second instant are read back as others. (A debug build panics.) -/
theorem C31_overflow_wrong : ∃ s, s = runs exampleHash (fun _ => true) exampleClog (fun _ => 0) 32
      [.addVariable [7] none 2 2 [1, 1] .i64, .append exampleFill [7] (.i64 wrapSeries) 2 4 4]
      (exampleDataset, []) ∧
    s.2.NoCollision exampleHash ∧ wrapSeries 1 0 0 = Int64.minValue ∧
    ∃ v m, s.1.findVariable [7] = some v ∧ v.data .i64 (fun _ => true) (s.2.load exampleHash) = .ok m ∧
      m.shape = some (2, 4, 4) ∧
      Kind.i64.get (fun _ => true) (s.2.load exampleHash) 40 m 1 0 0 = .ok 5 := by
  refine ⟨wrapRun, rfl, wrapRun_noCollision, by decide +kernel, ?_⟩
  have key := wrapRun_reads
  generalize wrapRun = s at key
  cases h1 : s.1.findVariable [7] with
  | none => rw [h1] at key; cases key
  | some v =>
    rw [h1] at key
    simp only at key
    cases h2 : v.data .i64 (fun _ => true) (s.2.load exampleHash) with
    | error e => rw [h2] at key; cases key
    | ok m =>
      rw [h2] at key
      simp only [Bool.and_eq_true, beq_iff_eq] at key
      cases h3 : Kind.i64.get (fun _ => true) (s.2.load exampleHash) 40 m 1 0 0 with
      | error e => rw [h3] at key; cases key.2
      | ok x =>
        rw [h3] at key
        have e : x = 5 := by simpa using key.2
        exact ⟨v, m, rfl, h2, key.1, by rw [h3, e]⟩

end Verif
