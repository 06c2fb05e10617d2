import Verif.Lemmas.Cells

/-!
Properties C04-C06: snapshots. `e` is the exponent the code computes from the shape
(snapshot.rs:118-119); only `k^e ≥ rows, cols` is used.
-/
namespace Verif

theorem exponent_pos {rows cols k e : Nat} (hshape : 2 ≤ rows ∨ 2 ≤ cols) (hr : rows ≤ k ^ e)
    (hc : cols ≤ k ^ e) : ∃ e', e = e' + 1 := by
  cases e with
  | zero => simp at hr hc; omega
  | succ e' => exact ⟨e', rfl⟩

/-- C04. Every raster with at least two cells on its longer side can be encoded, and every cell
reads back; there is no condition on the values. -/
theorem C04_snapshot_get (get : Nat → Nat → Int64) (rows cols k e : Nat) (hk : 2 ≤ k)
    (hshape : 2 ≤ rows ∨ 2 ≤ cols) (hr : rows ≤ k ^ e) (hc : cols ≤ k ^ e) :
    ∃ s, Snapshot.build get rows cols k e = some s ∧
      ∀ r c, r < rows → c < cols → s.get r c = some (get r c) := by
  obtain ⟨e, rfl⟩ := exponent_pos hshape hr hc
  obtain ⟨s, N, h1, h2⟩ := snapshot_build_layout get rows cols k (by omega) (e + 1)
  exact ⟨s, h1, fun r c a b => h2.get_cell hk hr hc r c a b⟩

/-- C05. A window read writes exactly the cells of the window, once each, at relative positions. -/
theorem C05_snapshot_window (get : Nat → Nat → Int64) (rows cols k e : Nat) (hk : 2 ≤ k)
    (hshape : 2 ≤ rows ∨ 2 ≤ cols) (hr : rows ≤ k ^ e) (hc : cols ≤ k ^ e) :
    ∃ s, Snapshot.build get rows cols k e = some s ∧
      ∀ top bottom left right, top < bottom → left < right → bottom ≤ rows → right ≤ cols →
        ∃ L, s.fillWindow (Rect.new top bottom left right) = some L ∧
          L.Perm (Spec.window get top bottom left right) := by
  obtain ⟨e, rfl⟩ := exponent_pos hshape hr hc
  obtain ⟨s, N, h1, h2⟩ := snapshot_build_layout get rows cols k (by omega) (e + 1)
  refine ⟨s, h1, fun top bottom left right a1 a2 a3 a4 => ?_⟩
  have hw : Rect.new top bottom left right = ⟨top, bottom, left, right⟩ := by
    unfold Rect.new rearrange
    rw [if_neg (by omega), if_neg (by omega)]
  rw [hw]
  exact h2.fillWindow hk hr hc _ ⟨a1, a2, a3, a4⟩

/-- C06. A search reports exactly the cells of the window whose value lies in the closed interval,
once each. -/
theorem C06_snapshot_search (get : Nat → Nat → Int64) (rows cols k e : Nat) (hk : 2 ≤ k)
    (hshape : 2 ≤ rows ∨ 2 ≤ cols) (hr : rows ≤ k ^ e) (hc : cols ≤ k ^ e) :
    ∃ s, Snapshot.build get rows cols k e = some s ∧
      ∀ top bottom left right lower upper, top < bottom → left < right → bottom ≤ rows →
        right ≤ cols →
        ∃ L, s.searchWindow (Rect.new top bottom left right) lower upper = some L ∧
          L.Perm (Spec.hits get top bottom left right lower upper) := by
  obtain ⟨e, rfl⟩ := exponent_pos hshape hr hc
  obtain ⟨s, N, h1, h2⟩ := snapshot_build_layout get rows cols k (by omega) (e + 1)
  refine ⟨s, h1, fun top bottom left right lower upper a1 a2 a3 a4 => ?_⟩
  have hw : Rect.new top bottom left right = ⟨top, bottom, left, right⟩ := by
    unfold Rect.new rearrange
    rw [if_neg (by omega), if_neg (by omega)]
  rw [hw]
  exact h2.searchWindow hk hr hc _ ⟨a1, a2, a3, a4⟩ lower upper

/-- A 3×5 raster with a constant part, negative and extreme values; it is padded to 8×8. -/
def exampleRaster (r c : Nat) : Int64 :=
  if c ≥ 3 then 7 else if r = 2 then Int64.minValue else (r * 10 + c : Nat).toInt64 - 5

example : (3 ≤ 2 ^ 3 ∧ 5 ≤ 2 ^ 3) ∧ (2 ≤ 3 ∨ 2 ≤ 5) := by decide

example : ((Snapshot.build exampleRaster 3 5 2 3).bind (·.get 2 1)) = some Int64.minValue := by
  decide +kernel

example : ((Snapshot.build exampleRaster 3 5 2 3).bind (·.fillWindow (Rect.new 1 3 2 4))) =
    some [(0, 0, 7), (0, 1, 7), (1, 0, Int64.minValue), (1, 1, 7)] := by decide +kernel

example : ((Snapshot.build exampleRaster 3 5 2 3).bind
    (·.searchWindow (Rect.new 0 3 1 5) (-10) 6)).map (·.length) = some 3 := by decide +kernel

/-- C43. Iterating a rectangle with positive width yields each of its cells exactly once in
row-major order; construction normalises swapped corners. -/
theorem C43_rect_iter (top bottom left right : Nat) :
    Rect.new top bottom left right = ⟨min top bottom, max top bottom, min left right,
      max left right⟩ ∧
    (left ≠ right → (Rect.new top bottom left right).cells =
      some (Spec.cells (min top bottom) (max top bottom) (min left right) (max left right))) ∧
    (Spec.cells top bottom left right).Nodup ∧
    (∀ r c, (r, c) ∈ Spec.cells top bottom left right ↔
      top ≤ r ∧ r < bottom ∧ left ≤ c ∧ c < right) := by
  have h0 : Rect.new top bottom left right = ⟨min top bottom, max top bottom, min left right,
      max left right⟩ := by
    unfold Rect.new rearrange
    split <;> split <;> simp <;> omega
  refine ⟨h0, ?_, ?_, fun r c => mem_cells⟩
  · intro hne
    rw [Rect.cells_eq _ (by rw [h0]; simp) (by rw [h0]; simp; omega), h0]
  · unfold Spec.cells
    rw [List.nodup_flatMap]
    refine ⟨fun r _ => ?_, ?_⟩
    · exact (List.nodup_range').map (fun a b h => by simpa using h)
    · refine (List.nodup_range' (s := top) (n := bottom - top)).imp ?_
      intro a b hab
      simp only [Function.onFun, List.Disjoint, List.mem_map]
      rintro x ⟨c, _, rfl⟩ ⟨d, _, h⟩
      simp at h; omega

/-- The restriction to positive width is needed: a rectangle with `left = right` and at least one
row never ends when iterated. -/
theorem C43_zero_width_diverges (top bottom left fuel : Nat) (h : top < bottom) :
    (Rect.new top bottom left left).iter.toList fuel = none := by
  have h0 : Rect.new top bottom left left = ⟨top, bottom, left, left⟩ := by
    unfold Rect.new rearrange
    rw [if_neg (by omega), if_neg (by omega)]
  rw [h0]
  exact RectIter.toList_diverges left bottom left fuel top left h (by omega)

example : (Rect.new 4 2 7 5).cells = some [(2, 5), (2, 6), (3, 5), (3, 6)] := by decide

end Verif
