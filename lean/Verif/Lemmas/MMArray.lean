import Verif.Model.MMArray
import Verif.Lemmas.DatasetInt

/-! Reads through arrays. -/
namespace Verif

/-- Reads of a structure give a series of `n` rasters of values in the form of `dec`. -/
structure Reads {α : Type} (dec : Nat → Int64 → α) (utf8 : List Byte → Bool) (st : Store) (fuel : Nat)
    (m : MMStruct3) (n rows cols : Nat) (data : Nat → Nat → Nat → α) : Prop where
  shape : m.shape = some (n, rows, cols)
  get : ∀ t row col, t < n → row < rows → col < cols →
    ∃ bits v, m.get utf8 st fuel m.fractionalBits t row col = .ok (bits, v) ∧ dec bits v = data t row col
  cell : ∀ start fin row col, start ≤ fin → fin ≤ n → row < rows → col < cols →
    ((m.fillCell utf8 st fuel m.fractionalBits start fin row col).map
      fun q => (q.1, dec q.2.1 q.2.2)).Yields
      ((List.range (fin - start)).map fun i => (i, data (start + i) row col))
  window : ∀ start fin top bottom left right, start ≤ fin → fin ≤ n → top < bottom →
    left < right → bottom ≤ rows → right ≤ cols →
    ((m.fillWindow utf8 st fuel m.fractionalBits ⟨start, fin, top, bottom, left, right⟩).map
      fun q => (q.1, q.2.1, q.2.2.1, dec q.2.2.2.1 q.2.2.2.2)).Yields
      (Spec.window3 data start fin top bottom left right)

theorem Out.Yields.map' {β γ : Type} {o : Out β} {l : List β} (h : o.Yields l) (g : β → γ) :
    (o.map g).Yields (l.map g) := by
  refine ⟨?_, ?_⟩
  · obtain ⟨⟨t, s, h⟩, -⟩ := h
    exact ⟨t.map g, s, t, h, rfl⟩
  · rintro _ s ⟨t, h1, rfl⟩
    exact ⟨(h.2 t s h1).1, (h.2 t s h1).2.map g⟩

section
variable {α β : Type} {dec : Nat → Int64 → α} {utf8 : List Byte → Bool} {st : Store} {fuel : Nat}
  {m : MMStruct3} {n rows cols : Nat} {data : Nat → Nat → Nat → α}

theorem Reads.map (h : Reads dec utf8 st fuel m n rows cols data) (f : α → β) :
    Reads (fun b v => f (dec b v)) utf8 st fuel m n rows cols (fun t r c => f (data t r c)) := by
  refine ⟨h.shape, ?_, ?_, ?_⟩
  · intro t row col h1 h2 h3
    obtain ⟨bits, v, e, hv⟩ := h.get t row col h1 h2 h3
    exact ⟨bits, v, e, congrArg f hv⟩
  · intro start fin row col h1 h2 h3 h4
    have := (h.cell start fin row col h1 h2 h3 h4).map' fun q => (q.1, f q.2)
    rw [Out.map_map, List.map_map] at this
    exact this
  · intro start fin top bottom left right h1 h2 h3 h4 h5 h6
    have := (h.window start fin top bottom left right h1 h2 h3 h4 h5 h6).map'
      fun q => (q.1, q.2.1, q.2.2.1, f q.2.2.2)
    rw [Out.map_map, Spec.window3_eq, List.map_map] at this
    rw [Spec.window3_eq]
    exact this

theorem Reads.congr (h : Reads dec utf8 st fuel m n rows cols data) {data' : Nat → Nat → Nat → α}
    (e : ∀ t r c, t < n → r < rows → c < cols → data t r c = data' t r c) :
    Reads dec utf8 st fuel m n rows cols data' := by
  refine ⟨h.shape, ?_, ?_, ?_⟩
  · intro t row col h1 h2 h3
    rw [← e t row col h1 h2 h3]
    exact h.get t row col h1 h2 h3
  · intro start fin row col h1 h2 h3 h4
    refine (h.cell start fin row col h1 h2 h3 h4).perm (List.Perm.of_eq (List.map_congr_left fun i hi => ?_))
    rw [List.mem_range] at hi
    rw [e _ _ _ (by omega) h3 h4]
  · intro start fin top bottom left right h1 h2 h3 h4 h5 h6
    exact (h.window start fin top bottom left right h1 h2 h3 h4 h5 h6).perm
      (List.Perm.of_eq (Spec.window3_congr e h2 h5 h6))

theorem Reads.of_repr {Leaf : Chunk → Nat → Nat → Nat → (Nat → Nat → Nat → α) → Prop}
    {Ext : SuperHead → Nat → Nat → α → Prop} {d : Nat}
    (hleaf : ∀ c n rows cols data, Leaf c n rows cols data → LeafReads dec c n rows cols data)
    (hs : m.shape = some (n, rows, cols))
    (h : Represents utf8 st dec Leaf Ext d m n rows cols data) (hd : d ≤ fuel) :
    Reads dec utf8 st fuel m n rows cols data :=
  ⟨hs, repr_get hleaf _ _ _ _ _ _ _ h hd, repr_fillCell hleaf _ _ _ _ _ _ _ h hd,
    repr_fillWindow hleaf _ _ _ _ _ _ _ h hd⟩

end

section
variable {α : Type} {kind : Kind α} {utf8 : List Byte → Bool} {st : Store} {fuel : Nat}
  {m : MMStruct3} {n rows cols : Nat} {data : Nat → Nat → Nat → α}

theorem written1_eq {calls : List (Nat × Nat × Int64)} {n : Nat} {f : Nat → α}
    (h : (calls.map fun q => (q.1, kind.dec q.2.1 q.2.2)).Perm ((List.range n).map fun i => (i, f i)))
    {i : Nat} (hi : i < n) : written1 kind calls i = f i := by
  have hval : ∀ q ∈ calls, q.1 = i → kind.dec q.2.1 q.2.2 = f i := by
    rintro q hq rfl
    have := h.mem_iff.1 (List.mem_map.2 ⟨q, hq, rfl⟩)
    rw [List.mem_map] at this
    obtain ⟨j, -, e⟩ := this
    simp only [Prod.mk.injEq] at e
    rw [← e.2, e.1]
  have hex : ∃ q ∈ calls, q.1 = i := by
    have := h.mem_iff.2 (List.mem_map.2 ⟨i, List.mem_range.2 hi, rfl⟩)
    rw [List.mem_map] at this
    obtain ⟨q, hq, e⟩ := this
    simp only [Prod.mk.injEq] at e
    exact ⟨q, hq, e.1⟩
  unfold written1
  cases hf : calls.reverse.find? fun q => q.1 = i with
  | none =>
    rw [List.find?_eq_none] at hf
    obtain ⟨q, hq, e⟩ := hex
    exact absurd (decide_eq_true e) (hf q (List.mem_reverse.2 hq))
  | some q =>
    have h1 := List.mem_reverse.1 (List.mem_of_find?_eq_some hf)
    have h2 := List.find?_some hf
    exact hval q h1 (of_decide_eq_true h2)

theorem checkBounds_some (hs : m.shape = some (n, rows, cols)) {t r c : Nat} (ht : t < n) (hr : r < rows)
    (hc : c < cols) : m.checkBounds t r c = some () := by
  unfold MMStruct3.checkBounds
  rw [hs]
  simp only
  rw [if_neg (by omega)]

theorem checkBounds_none (hs : m.shape = some (n, rows, cols)) {t r c : Nat}
    (h : ¬ (t < n ∧ r < rows ∧ c < cols)) : m.checkBounds t r c = none := by
  unfold MMStruct3.checkBounds
  rw [hs]
  simp only
  rw [if_pos (by omega)]

theorem Reads.kind_get (h : Reads kind.dec utf8 st fuel m n rows cols data) {t r c : Nat} (ht : t < n)
    (hr : r < rows) (hc : c < cols) : kind.get utf8 st fuel m t r c = .ok (data t r c) := by
  obtain ⟨bits, v, e, hv⟩ := h.get t r c ht hr hc
  unfold Kind.get
  rw [checkBounds_some h.shape ht hr hc]
  simp only
  rw [e]
  simp only
  rw [hv]

theorem Reads.kind_cell (h : Reads kind.dec utf8 st fuel m n rows cols data) {start fin r c : Nat}
    (h1 : start ≤ fin) (h2 : 0 < fin) (h3 : fin ≤ n) (hr : r < rows) (hc : c < cols)
    (res : Except Fail (List α)) : kind.cell utf8 st fuel m start fin r c res ↔
      res = .ok ((List.range (fin - start)).map fun i => data (start + i) r c) := by
  have hy := h.cell start fin r c h1 h3 hr hc
  have key : ∀ t s, m.fillCell utf8 st fuel m.fractionalBits start fin r c t s →
      Kind.finish t (fun q => q.1 < fin - start) s ((List.range (fin - start)).map (written1 kind t)) =
        .ok ((List.range (fin - start)).map fun i => data (start + i) r c) := by
    intro t s hts
    obtain ⟨rfl, hp⟩ := hy.2 _ _ ⟨t, hts, rfl⟩
    unfold Kind.finish
    rw [if_pos]
    · simp only
      congr 1
      exact List.map_congr_left fun i hi => written1_eq hp (List.mem_range.1 hi)
    · rw [List.all_eq_true]
      intro q hq
      have := hp.mem_iff.1 (List.mem_map.2 ⟨q, hq, rfl⟩)
      rw [List.mem_map] at this
      obtain ⟨j, hj, e⟩ := this
      rw [List.mem_range] at hj
      simp only [Prod.mk.injEq] at e
      exact decide_eq_true (by omega)
  unfold Kind.cell
  rw [show csub fin 1 = some (fin - 1) by unfold csub; rw [if_pos (by omega)]]
  simp only
  rw [checkBounds_some h.shape (by omega) hr hc]
  simp only
  rw [show csub fin start = some (fin - start) by unfold csub; rw [if_pos h1]]
  simp only
  constructor
  · rintro ⟨t, s, hts, rfl⟩
    exact key t s hts
  · rintro rfl
    obtain ⟨_, s, t, hts, -⟩ := hy.1
    exact ⟨t, s, hts, (key t s hts).symm⟩

theorem checkCube_some (hs : m.shape = some (n, rows, cols)) {b : Cube} (h1 : 0 < b.fin)
    (h2 : b.fin ≤ n) (h3 : 0 < b.bottom) (h4 : b.bottom ≤ rows) (h5 : 0 < b.right) (h6 : b.right ≤ cols) :
    m.checkCube b = some () := by
  unfold MMStruct3.checkCube csub
  rw [if_pos (by omega), if_pos (by omega), if_pos (by omega)]
  exact checkBounds_some hs (by omega) (by omega) (by omega)

theorem checkCube_inside (hs : m.shape = some (n, rows, cols)) {b : Cube} (h : m.checkCube b = some ()) :
    0 < b.fin ∧ b.fin ≤ n ∧ 0 < b.bottom ∧ b.bottom ≤ rows ∧ 0 < b.right ∧ b.right ≤ cols := by
  unfold MMStruct3.checkCube csub at h
  by_cases h1 : 1 ≤ b.fin
  · by_cases h2 : 1 ≤ b.bottom
    · by_cases h3 : 1 ≤ b.right
      · rw [if_pos h1, if_pos h2, if_pos h3] at h
        simp only at h
        by_contra hc
        rw [checkBounds_none hs (by omega)] at h
        cases h
      · rw [if_pos h1, if_pos h2, if_neg h3] at h
        cases h
    · rw [if_pos h1, if_neg h2] at h
      cases h
  · rw [if_neg h1] at h
    cases h

theorem Reads.kind_window (h : Reads kind.dec utf8 st fuel m n rows cols data)
    {start fin top bottom left right : Nat}
    (h0 : 0 < fin) (h1 : start ≤ fin) (h2 : fin ≤ n) (h3 : top < bottom) (h4 : left < right)
    (h5 : bottom ≤ rows) (h6 : right ≤ cols)
    (res : Except Fail (List (List (List α)))) :
    kind.window utf8 st fuel m ⟨start, fin, top, bottom, left, right⟩ res ↔
      res = .ok ((List.range (fin - start)).map fun t => (List.range (bottom - top)).map fun r =>
        (List.range (right - left)).map fun c => data (start + t) (top + r) (left + c)) := by
  have hy := h.window start fin top bottom left right h1 h2 h3 h4 h5 h6
  have hspec : Spec.window3 data start fin top bottom left right =
      Spec.window3 (fun t r c => data (start + t) (top + r) (left + c)) 0 (fin - start) 0 (bottom - top) 0
        (right - left) := by
    rw [Spec.window3_range, Spec.window3_range]
    simp only [Nat.sub_zero, Nat.zero_add]
  rw [hspec] at hy
  have key : ∀ t s, m.fillWindow utf8 st fuel m.fractionalBits ⟨start, fin, top, bottom, left, right⟩ t s →
      Kind.finish t (fun q => q.1 < fin - start ∧ q.2.1 < bottom - top ∧ q.2.2.1 < right - left) s
        ((List.range (fin - start)).map fun t' => (List.range (bottom - top)).map fun r =>
            (List.range (right - left)).map fun c => written kind.zero kind.dec t t' r c) =
        .ok ((List.range (fin - start)).map fun t => (List.range (bottom - top)).map fun r =>
        (List.range (right - left)).map fun c => data (start + t) (top + r) (left + c)) := by
    intro t s hts
    obtain ⟨rfl, hp⟩ := hy.2 _ _ ⟨t, hts, rfl⟩
    unfold Kind.finish
    rw [if_pos]
    · simp only
      congr 1
      refine List.map_congr_left fun i hi => List.map_congr_left fun j hj =>
        List.map_congr_left fun k hk => ?_
      rw [List.mem_range] at hi hj hk
      exact written_eq hp hi hj hk
    · rw [List.all_eq_true]
      intro q hq
      have := hp.mem_iff.1 (List.mem_map.2 ⟨q, hq, rfl⟩)
      rw [Spec.window3_eq, List.mem_map] at this
      obtain ⟨j, hj, e⟩ := this
      rw [Spec.mem_cells3] at hj
      simp only [Prod.mk.injEq] at e
      exact decide_eq_true (by omega)
  unfold Kind.window
  rw [checkCube_some h.shape (by exact h0) (by exact h2) (by change 0 < bottom; omega) (by exact h5)
    (by change 0 < right; omega) (by exact h6)]
  unfold csub
  simp only
  rw [if_pos h1, if_pos (by omega), if_pos (by omega)]
  simp only
  constructor
  · rintro ⟨t, s, hts, rfl⟩
    exact key t s hts
  · rintro rfl
    obtain ⟨_, s, t, hts, -⟩ := hy.1
    exact ⟨t, s, hts, (key t s hts).symm⟩

end

end Verif
