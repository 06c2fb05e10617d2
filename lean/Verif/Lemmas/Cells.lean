import Verif.Spec
import Verif.Lemmas.SnapshotRead

/-! Cells of windows: enumeration, and sums over them. -/
namespace Verif

theorem RectIter.toList_row (left bottom right : Nat) (hlr : left < right) :
    ∀ n fuel row col, left ≤ col → col < right → row < bottom → right - col = n → n < fuel →
      RectIter.toList fuel ⟨row, col, left, bottom, right⟩ =
        (RectIter.toList (fuel - n) ⟨row + 1, left, left, bottom, right⟩).map
          ((List.range' col n).map (fun c => (row, c)) ++ ·) := by
  intro n
  induction n with
  | zero => intro fuel row col h1 h2 h3 h4; omega
  | succ n ih =>
    intro fuel row col h1 h2 h3 h4 h5
    cases fuel with
    | zero => omega
    | succ fuel =>
      rw [RectIter.toList]
      unfold RectIter.next
      simp only [if_pos h3]
      by_cases hc : col + 1 = right
      · simp only [if_pos hc]
        have : n = 0 := by omega
        subst this
        simp [List.range']
      · simp only [if_neg hc]
        rw [ih fuel row (col + 1) (by omega) (by omega) h3 (by omega) (by omega)]
        rw [Option.map_map, Nat.succ_sub_succ]
        congr 1

theorem RectIter.toList_rows (left bottom right : Nat) (hlr : left < right) :
    ∀ n fuel row, row ≤ bottom → bottom - row = n → n * (right - left) < fuel →
      RectIter.toList fuel ⟨row, left, left, bottom, right⟩ =
        some (Spec.cells row bottom left right) := by
  intro n
  induction n with
  | zero =>
    intro fuel row h1 h2 h3
    cases fuel with
    | zero => omega
    | succ fuel =>
      rw [RectIter.toList]
      unfold RectIter.next
      simp only [if_neg (show ¬ row < bottom by omega)]
      simp [Spec.cells, h2]
  | succ n ih =>
    intro fuel row h1 h2 h3
    rw [Nat.add_mul] at h3
    rw [RectIter.toList_row left bottom right hlr (right - left) fuel row left (by omega) hlr
      (by omega) rfl (by omega)]
    rw [ih _ (row + 1) (by omega) (by omega) (by omega)]
    have e : bottom - row = (bottom - (row + 1)) + 1 := by omega
    simp only [Option.map_some, Spec.cells, e, List.range'_succ, List.flatMap_cons]

theorem Rect.cells_eq (r : Rect) (h1 : r.top ≤ r.bottom) (h2 : r.left < r.right) :
    r.cells = some (Spec.cells r.top r.bottom r.left r.right) := by
  unfold Rect.cells Rect.iter
  exact RectIter.toList_rows r.left r.bottom r.right h2 _ _ r.top h1 rfl (by omega)

/-- A rectangle of zero width and positive height is never exhausted. -/
theorem RectIter.toList_diverges (left bottom right : Nat) (fuel : Nat) : ∀ row col, row < bottom →
    right ≤ col → RectIter.toList fuel ⟨row, col, left, bottom, right⟩ = none := by
  induction fuel with
  | zero => intros; rfl
  | succ fuel ih =>
    intro row col h1 h2
    rw [RectIter.toList]
    unfold RectIter.next
    simp only [if_pos h1, if_neg (show ¬ col + 1 = right by omega)]
    rw [ih row (col + 1) h1 (by omega)]; rfl

theorem map_cells_sum {β} (f : Nat → Nat → Multiset β) (top bottom left right : Nat)
    (h1 : top < bottom) (h2 : left < right) :
    ((Spec.cells top bottom left right).map fun p => f p.1 p.2).sum =
      boxSum top (bottom - 1) left (right - 1) f := by
  unfold Spec.cells boxSum
  have e1 : bottom - top = bottom - 1 + 1 - top := by omega
  have e2 : right - left = right - 1 + 1 - left := by omega
  rw [e1, e2]
  change (((rangeIncl top (bottom - 1)).flatMap fun r =>
    (rangeIncl left (right - 1)).map fun c => (r, c)).map fun p => f p.1 p.2).sum = _
  rw [← sum_rangeIncl]
  induction rangeIncl top (bottom - 1) with
  | nil => rfl
  | cons x xs ih =>
    rw [List.flatMap_cons, List.map_append, List.sum_append, ih, List.map_cons, List.sum_cons,
      List.map_map, ← sum_rangeIncl]
    rfl

theorem window_coe (get : Nat → Nat → Int64) (top bottom left right : Nat)
    (h1 : top < bottom) (h2 : left < right) :
    (Spec.window get top bottom left right : Multiset (Nat × Nat × Int64)) =
      boxSum top (bottom - 1) left (right - 1) (fun r c => {(r - top, c - left, get r c)}) := by
  unfold Spec.window
  rw [coe_map_sum, ← map_cells_sum _ _ _ _ _ h1 h2]

theorem hits_coe (get : Nat → Nat → Int64) (top bottom left right : Nat) (lower upper : Int64)
    (h1 : top < bottom) (h2 : left < right) :
    (Spec.hits get top bottom left right lower upper : Multiset (Nat × Nat)) =
      boxSum top (bottom - 1) left (right - 1) (hitSet get lower upper) := by
  unfold Spec.hits
  rw [← map_cells_sum _ _ _ _ _ h1 h2]
  induction Spec.cells top bottom left right with
  | nil => rfl
  | cons p ps ih =>
    rw [List.map_cons, List.sum_cons, ← ih, List.filter_cons]
    unfold hitSet
    by_cases h : lower ≤ get p.1 p.2 ∧ get p.1 p.2 ≤ upper
    · rw [if_pos (by simpa using h), if_pos h, ← Multiset.cons_coe, Multiset.singleton_add]
    · rw [if_neg (by simpa using h), if_neg h, zero_add]

theorem mem_cells {top bottom left right r c : Nat} :
    (r, c) ∈ Spec.cells top bottom left right ↔ top ≤ r ∧ r < bottom ∧ left ≤ c ∧ c < right := by
  unfold Spec.cells
  simp only [List.mem_flatMap, List.mem_map, List.mem_range'_1, Prod.mk.injEq]
  constructor
  · rintro ⟨a, h1, b, h2, rfl, rfl⟩; omega
  · intro h; exact ⟨r, by omega, c, by omega, rfl, rfl⟩

theorem emitAll_eq (get : Nat → Nat → Int64) (top bottom left right : Nat) (v : Int64)
    (hv : ∀ r c, top ≤ r → r < bottom → left ≤ c → c < right → get r c = v) :
    emitAll (bottom - top) (right - left) v = Spec.window get top bottom left right := by
  have e : Spec.window get top bottom left right =
      (Spec.cells top bottom left right).map fun p => (p.1 - top, p.2 - left, v) := by
    unfold Spec.window
    apply List.map_congr_left
    intro p hp
    obtain ⟨r, c⟩ := p
    rw [mem_cells] at hp
    simp only
    rw [hv r c hp.1 hp.2.1 hp.2.2.1 hp.2.2.2]
  rw [e]
  unfold emitAll Spec.cells rangeExcl
  rw [List.map_flatMap, Nat.sub_zero, Nat.sub_zero, List.range'_eq_map_range (s := top),
    List.flatMap_map]
  simp only [← List.range_eq_range']
  congr 1
  funext a
  rw [List.map_map, List.range'_eq_map_range (s := left), List.map_map]
  apply List.map_congr_left
  intro b _
  simp

theorem hits_all (get : Nat → Nat → Int64) (top bottom left right : Nat) (v lower upper : Int64)
    (hv : ∀ r c, top ≤ r → r < bottom → left ≤ c → c < right → get r c = v) :
    Spec.hits get top bottom left right lower upper =
      if lower ≤ v ∧ v ≤ upper then Spec.cells top bottom left right else [] := by
  unfold Spec.hits
  split
  · rename_i h
    rw [List.filter_eq_self]
    rintro ⟨r, c⟩ hp
    rw [mem_cells] at hp
    simp only [hv r c hp.1 hp.2.1 hp.2.2.1 hp.2.2.2]
    simpa using h
  · rename_i h
    rw [List.filter_eq_nil_iff]
    rintro ⟨r, c⟩ hp
    rw [mem_cells] at hp
    simp only [hv r c hp.1 hp.2.1 hp.2.2.1 hp.2.2.2]
    simpa using h

section
variable {get : Nat → Nat → Int64} {rows cols k : Nat}

/-- A non-empty window inside a raster. -/
structure InRaster (w : Rect) (rows cols : Nat) : Prop where
  rows_pos : w.top < w.bottom
  cols_pos : w.left < w.right
  bottom_le : w.bottom ≤ rows
  right_le : w.right ≤ cols

theorem SnapLayout.fillWindow {s e N} (h : SnapLayout get rows cols k s (e + 1) N) (hk : 2 ≤ k)
    (hr : rows ≤ k ^ (e + 1)) (hc : cols ≤ k ^ (e + 1)) (w : Rect) (hw : InRaster w rows cols) :
    ∃ L, s.fillWindow w = some L ∧ L.Perm (Spec.window get w.top w.bottom w.left w.right) := by
  obtain ⟨h1, h2, h3, h4⟩ := hw
  unfold Snapshot.fillWindow Rect.rows Rect.cols
  rw [csub_of_le (by omega), csub_of_le (by omega)]
  simp only []
  rw [h.bit0 (by omega)]
  have hm := h.getMax _ _ h.root
  cases hin : (K2Node.build get rows cols k (e + 1) 0 0).internal with
  | false =>
    simp only []
    rw [hm]
    simp only []
    refine ⟨_, rfl, ?_⟩
    rw [emitAll_eq get]
    intro r c a1 a2 a3 a4
    exact build_leaf get rows cols k (by omega) (e + 1) 0 0 r c ⟨by omega, by omega, by omega,
      by omega, by omega, by omega⟩ hin
  | true =>
    simp only []
    rw [csub_of_le (by omega), csub_of_le (by omega), hm]
    simp only []
    rw [h.hside]
    obtain ⟨L, hL1, hL2⟩ := h.fillGo (by omega) w.top w.left e (k ^ (e + 1)) 0 _ 0 0 w.top
      (w.bottom - 1) w.left (w.right - 1) h.root hin rfl
      (Nat.lt_trans (Nat.lt_succ_self e) (lt_pow_self' hk _)) (by omega) (by omega) (by omega)
      (by omega) (by omega) (by omega) (by omega) (by omega)
    refine ⟨L, hL1, ?_⟩
    rw [← Multiset.coe_eq_coe, hL2, window_coe get _ _ _ _ h1 h2]
    simp only [Nat.zero_add]

theorem SnapLayout.searchWindow {s e N} (h : SnapLayout get rows cols k s (e + 1) N) (hk : 2 ≤ k)
    (hr : rows ≤ k ^ (e + 1)) (hc : cols ≤ k ^ (e + 1)) (w : Rect) (hw : InRaster w rows cols)
    (lower upper : Int64) :
    ∃ L, s.searchWindow w lower upper = some L ∧
      L.Perm (Spec.hits get w.top w.bottom w.left w.right lower upper) := by
  obtain ⟨h1, h2, h3, h4⟩ := hw
  unfold Snapshot.searchWindow
  rw [h.bit0 (by omega)]
  have hm := h.getMax _ _ h.root
  cases hin : (K2Node.build get rows cols k (e + 1) 0 0).internal with
  | false =>
    simp only []
    rw [hm]
    simp only []
    rw [hits_all get _ _ _ _ _ lower upper (fun r c a1 a2 a3 a4 =>
      build_leaf get rows cols k (by omega) (e + 1) 0 0 r c ⟨by omega, by omega, by omega,
      by omega, by omega, by omega⟩ hin)]
    split
    · exact ⟨_, Rect.cells_eq w (by omega) h2, List.Perm.refl _⟩
    · exact ⟨_, rfl, List.Perm.refl _⟩
  | true =>
    simp only []
    obtain ⟨r, g1, g2, -⟩ := h.step 0 _ h.root hin
    have g3 : r = 0 := by
      rw [h.nodes.rank 0 _ h.root (by
        show 0 < snapHt _
        unfold snapHt
        rw [K2Node.build_height _ _ _ _ (by omega)]; omega)] at g1
      simpa using g1.symm
    subst g3
    rw [csub_of_le (by omega), csub_of_le (by omega), g2, hm]
    simp only []
    rw [h.hside]
    obtain ⟨L, hL1, hL2⟩ := h.searchGo (by omega) lower upper e (k ^ (e + 1)) 0 _ 0 0 w.top
      (w.bottom - 1) w.left (w.right - 1) h.root hin rfl
      (Nat.lt_trans (Nat.lt_succ_self e) (lt_pow_self' hk _)) (by omega) (by omega) (by omega)
      (by omega) (by omega) (by omega)
    refine ⟨L, hL1, ?_⟩
    rw [← Multiset.coe_eq_coe, hL2, hits_coe get _ _ _ _ _ _ h1 h2]
    simp only [Nat.zero_add]

end
end Verif
