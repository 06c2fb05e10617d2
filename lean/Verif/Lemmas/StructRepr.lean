import Verif.Lemmas.WindowSplit

/-! What it means for a structure in a store to represent a series of rasters, and the consequences
for reads. -/
namespace Verif

theorem Cube.new_eq {start fin top bottom left right : Nat} (h1 : start ≤ fin) (h2 : top ≤ bottom)
    (h3 : left ≤ right) :
    Cube.new start fin top bottom left right = ⟨start, fin, top, bottom, left, right⟩ := by
  unfold Cube.new rearrange
  rw [if_neg (by omega), if_neg (by omega), if_neg (by omega)]

theorem Cube.rect_eq {start fin top bottom left right : Nat} (h2 : top ≤ bottom)
    (h3 : left ≤ right) :
    (Cube.mk start fin top bottom left right).rect = ⟨top, bottom, left, right⟩ := by
  unfold Cube.rect Rect.new rearrange
  simp only
  rw [if_neg (by omega), if_neg (by omega)]

section
variable (utf8 : List Byte → Bool) (st : Store) {α : Type} (dec : Nat → Int64 → α)
  (Leaf : Chunk → Nat → Nat → Nat → (Nat → Nat → Nat → α) → Prop)
  (Ext : SuperHead → Nat → Nat → α → Prop)

/-- A superchunk represents a series: every part of its grid that has cells is elided and constant
in each instant, or a reference to a structure that represents it (`R`). -/
structure SuperRepr (R : MMStruct3 → Nat → Nat → Nat → (Nat → Nat → Nat → α) → Prop)
    (h : SuperHead) (loc : List MMStruct3) (n rows cols : Nat) (data : Nat → Nat → Nat → α) :
    Prop where
  side : 0 < h.chunksSidelen
  grid : 0 < h.subsidelen
  ext : ∀ t r c, t < n → r < rows → c < cols →
    Ext h (r / h.chunksSidelen * h.subsidelen + c / h.chunksSidelen) t (data t r c)
  sub : ∀ i j, i * h.chunksSidelen < rows → j * h.chunksSidelen < cols →
    (h.references[i * h.subsidelen + j]? = some .elided ∧
      ∀ t, t < n → ∃ v, h.max.get (h.slot (i * h.subsidelen + j) t) = some v ∧
        ∀ r c, r < h.chunksSidelen → c < h.chunksSidelen → i * h.chunksSidelen + r < rows →
          j * h.chunksSidelen + c < cols →
          data t (i * h.chunksSidelen + r) (j * h.chunksSidelen + c) = dec h.fractionalBits v) ∨
    ∃ ref m, ref ≠ .elided ∧ h.references[i * h.subsidelen + j]? = some ref ∧
      h.deref utf8 st loc ref = .ok m ∧
      R m n (min h.chunksSidelen (rows - i * h.chunksSidelen))
        (min h.chunksSidelen (cols - j * h.chunksSidelen))
        (fun t r c => data t (i * h.chunksSidelen + r) (j * h.chunksSidelen + c))

/-- A span represents a series: its children represent the pieces of `stride` instants. -/
structure SpanRepr (R : MMStruct3 → Nat → Nat → Nat → (Nat → Nat → Nat → α) → Prop)
    (s : Span) (n rows cols : Nat) (data : Nat → Nat → Nat → α) : Prop where
  stride : 0 < s.stride
  sub : ∀ i, i * s.stride < n → ∃ cid m, s.spans[i]? = some cid ∧ st.getStruct utf8 cid = .ok m ∧
    R m (min s.stride (n - i * s.stride)) rows cols (fun t => data (i * s.stride + t))

/-- A structure represents a series of `n` rasters of shape `rows × cols`, with nesting below
`depth`. -/
def Represents : (depth : Nat) → MMStruct3 → (n rows cols : Nat) → (data : Nat → Nat → Nat → α) →
    Prop
  | 0, _, _, _, _, _ => False
  | _ + 1, .subchunk c, n, rows, cols, data => Leaf c n rows cols data
  | depth + 1, .superchunk h loc, n, rows, cols, data =>
    SuperRepr utf8 st dec Ext (Represents depth) h loc n rows cols data
  | depth + 1, .span s, n, rows, cols, data =>
    SpanRepr utf8 st (Represents depth) s n rows cols data

/-- What reads of a chunk that represents a series give. -/
structure LeafReads (c : Chunk) (n rows cols : Nat) (data : Nat → Nat → Nat → α) : Prop where
  get : ∀ t row col, t < n → row < rows → col < cols →
    ∃ v, c.get t row col = some v ∧ dec c.fractionalBits v = data t row col
  cell : ∀ start fin row col, start ≤ fin → fin ≤ n → row < rows → col < cols →
    ∃ L, c.fillCell start fin row col = some L ∧
      (L.map fun p => (p.1, dec c.fractionalBits p.2)).Perm
        ((List.range (fin - start)).map fun i => (i, data (start + i) row col))
  window : ∀ start fin top bottom left right, start ≤ fin → fin ≤ n → top < bottom →
    left < right → bottom ≤ rows → right ≤ cols →
    ∃ L, c.fillWindow ⟨start, fin, top, bottom, left, right⟩ = some L ∧
      (L.map fun p => (p.1, p.2.1, p.2.2.1, dec c.fractionalBits p.2.2.2)).Perm
        (Spec.window3 data start fin top bottom left right)

end

theorem Represents.mono {utf8 st} {α : Type} {dec : Nat → Int64 → α} {Leaf Ext}
    {st' : Store} (hst : ∀ c b, st c = some b → st' c = some b) :
    ∀ {d d' : Nat}, d ≤ d' → ∀ {m n rows cols data},
    Represents utf8 st dec Leaf Ext d m n rows cols data →
    Represents utf8 st' dec Leaf Ext d' m n rows cols data := by
  have hget : ∀ cid m, st.getStruct utf8 cid = .ok m → st'.getStruct utf8 cid = .ok m := by
    intro cid m h
    unfold Store.getStruct Store.retrieve at *
    cases hc : st cid with
    | none => rw [hc] at h; cases h
    | some b => rw [hc] at h; rw [hst _ _ hc]; exact h
  have hlinks : ∀ cid m, st.getLinks utf8 cid = .ok m → st'.getLinks utf8 cid = .ok m := by
    intro cid m h
    unfold Store.getLinks Store.retrieve at *
    cases hc : st cid with
    | none => rw [hc] at h; cases h
    | some b => rw [hc] at h; rw [hst _ _ hc]; exact h
  intro d
  induction d with
  | zero => intro d' _ m n rows cols data h; exact h.elim
  | succ d ih =>
    intro d' hd m n rows cols data h
    obtain ⟨d', rfl⟩ : ∃ e, d' = e + 1 := ⟨d' - 1, by omega⟩
    cases m with
    | subchunk c => exact h
    | superchunk hd' loc =>
      refine ⟨h.side, h.grid, h.ext, fun i j hi hj => ?_⟩
      rcases h.sub i j hi hj with h | ⟨ref, m, h1, h2, h3, h4⟩
      · exact .inl h
      · refine .inr ⟨ref, m, h1, h2, ?_, ih (by omega) h4⟩
        cases ref with
        | elided => cases h3
        | loc i => exact h3
        | external i =>
          unfold SuperHead.deref at *
          simp only at *
          cases hl : st.getLinks utf8 hd'.externalCid with
          | error e => rw [hl] at h3; cases h3
          | ok links =>
            rw [hl] at h3
            rw [hlinks _ _ hl]
            simp only at *
            cases hc : links.cids[i]? with
            | none => rw [hc] at h3; cases h3
            | some cid => rw [hc] at h3; exact hget _ _ h3
    | span s =>
      refine ⟨h.stride, fun i hi => ?_⟩
      obtain ⟨cid, m, h1, h2, h3⟩ := h.sub i hi
      exact ⟨cid, m, h1, hget _ _ h2, ih (by omega) h3⟩

/-! ### Pieces of time ranges -/

theorem pieces_spec (stride instants a : Nat) : ∀ (fuel span instant start : Nat),
    instant < stride → instants - start < fuel → start ≤ instants →
    (start < instants → span * stride + instant = a + start) →
    ∃ ps, Span.pieces stride instants fuel span instant start = some ps ∧
      (∀ p ∈ ps, p.span * stride + p.instant = a + p.start ∧ p.instant + p.len ≤ stride ∧
        0 < p.len ∧ p.start + p.len ≤ instants) ∧
      (ps.flatMap fun p => List.range' p.start p.len) = List.range' start (instants - start) := by
  intro fuel
  induction fuel with
  | zero => intro _ _ _ _ h; omega
  | succ fuel ih =>
    intro span instant start h1 h2 h3 h4
    unfold Span.pieces
    by_cases hs : start < instants
    · rw [if_pos hs]
      unfold csub
      rw [if_pos (by omega)]
      simp only
      generalize hlen : min (stride - instant) (instants - start) = len
      have e := h4 hs
      obtain ⟨ps, e1, h5, h6⟩ := ih (span + 1) 0 (start + len) (by omega) (by omega) (by omega)
        (by intro h; rw [Nat.succ_mul]; omega)
      refine ⟨_, by rw [e1]; rfl, ?_, ?_⟩
      · intro p hp
        rcases List.mem_cons.1 hp with rfl | hp
        · simp only; omega
        · exact h5 p hp
      · rw [List.flatMap_cons, h6]
        simp only
        rw [List.range'_append_1]
        congr 1
        omega
    · rw [if_neg hs]
      refine ⟨[], rfl, by simp, ?_⟩
      rw [show instants - start = 0 by omega]
      rfl

theorem piecesFor_spec (s : Span) (start instants : Nat) (hs : 0 < s.stride) :
    ∃ ps, s.piecesFor start instants = some ps ∧
      (∀ p ∈ ps, p.span * s.stride + p.instant = start + p.start ∧ p.instant + p.len ≤ s.stride ∧
        0 < p.len ∧ p.start + p.len ≤ instants) ∧
      (ps.flatMap fun p => List.range' p.start p.len) = List.range instants := by
  unfold Span.piecesFor Span.findSpan
  rw [if_neg (by omega)]
  simp only
  obtain ⟨ps, h1, h2, h3⟩ := pieces_spec s.stride instants start (instants + 1) (start / s.stride)
    (start % s.stride) 0 (Nat.mod_lt _ hs) (by omega) (by omega)
    (by intro _; rw [Nat.mul_comm, Nat.div_add_mod]; omega)
  refine ⟨ps, h1, h2, ?_⟩
  rw [h3, List.range_eq_range']
  rfl

theorem pieces_flatMap {β : Type} {ps : List Piece} {instants : Nat}
    (h : (ps.flatMap fun p => List.range' p.start p.len) = List.range instants)
    (f : Nat → List β) :
    (ps.flatMap fun p => (List.range p.len).flatMap fun i => f (p.start + i)) =
      (List.range instants).flatMap f := by
  rw [← h, List.flatMap_assoc]
  congr 1
  funext p
  rw [List.range'_eq_map_range, List.flatMap_map]

/-! ### Windows as lists of offsets -/

theorem Spec.window3_range {α} (get : Nat → Nat → Nat → α) (start fin top bottom left right : Nat) :
    Spec.window3 get start fin top bottom left right =
      (List.range (fin - start)).flatMap fun i => (List.range (bottom - top)).flatMap fun r =>
        (List.range (right - left)).map fun c => (i, r, c, get (start + i) (top + r) (left + c)) := by
  unfold Spec.window3 Spec.window Spec.cells
  simp only [List.range'_eq_map_range, List.flatMap_map, List.map_flatMap, List.map_map,
    Function.comp_def, Nat.add_sub_cancel_left]

theorem Spec.cells3_range (start fin top bottom left right : Nat) :
    Spec.cells3 start fin top bottom left right =
      (List.range (fin - start)).flatMap fun i => (List.range (bottom - top)).flatMap fun r =>
        (List.range (right - left)).map fun c => (start + i, top + r, left + c) := by
  unfold Spec.cells3 Spec.cells
  simp only [List.range'_eq_map_range, List.flatMap_map, List.map_flatMap, List.map_map,
    Function.comp_def]

end Verif
