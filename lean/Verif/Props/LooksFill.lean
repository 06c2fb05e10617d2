import Verif.Lemmas.LooksFill
import Verif.Props.LooksSearch

/-! C88: a window, and the series of a cell, is read from few places. -/
namespace Verif
open Spec (LooksAt)

/-- C88, the series of a cell: some 228 places for every level of the tree and every instant of the range, and two for
every halving of the list of blocks. -/
theorem C88_series (get : Nat → Nat → Nat → Int64) (instants rows cols k e : Nat) (hk : 2 ≤ k) (enc : MMEncoding)
    (fb start fin row col : Nat) (ht : start < fin) (hi : fin ≤ instants) :
    ∃ r, Chunk.build get instants rows cols k e enc fb = some r ∧
      LooksAt Chunk.look (fun c => c.fillCell start fin row col) r.data
        (2 * Nat.clog 2 r.data.blocks.length + 3 + (fin - start) * (228 * e + 430)) := by
  obtain ⟨bs, h1, -, h3, h4, -⟩ := chunk_build get instants rows cols k e (by omega) (by omega) enc fb
  refine ⟨_, h4, Chunk.looks_fillCell (k := k) (fun b hb => ?_) enc fb start fin row col ht (by omega)⟩
  obtain ⟨i, hi⟩ := List.getElem?_of_mem hb
  exact (h1 i b hi).small hk

/-- C88, a window of a range of instants: some 228 places for every level of the tree, every cell of the window and
every instant of the range. -/
theorem C88_window (get : Nat → Nat → Nat → Int64) (instants rows cols k e : Nat) (hs : ShapeOk rows cols k e)
    (enc : MMEncoding) (fb start fin top bottom left right : Nat) (ht : start < fin) (hi : fin ≤ instants)
    (h1 : top < bottom) (h2 : left < right) (h3 : bottom ≤ rows) (h4 : right ≤ cols) :
    ∃ r, Chunk.build get instants rows cols k e enc fb = some r ∧
      LooksAt Chunk.look (fun c => c.fillWindow (Cube.new start fin top bottom left right)) r.data
        (2 * Nat.clog 2 r.data.blocks.length + 3 +
          (fin - start) * (220 + 228 * e * ((bottom - top) * (right - left)))) := by
  have hk := hs.arity
  obtain ⟨bs, a1, -, a2, a3, -⟩ := chunk_build get instants rows cols k e (by omega) (by omega) enc fb
  refine ⟨_, a3, ?_⟩
  have hw : Cube.new start fin top bottom left right = ⟨start, fin, top, bottom, left, right⟩ := by
    unfold Cube.new rearrange
    rw [if_neg (by omega), if_neg (by omega), if_neg (by omega)]
  have hr : (Cube.mk start fin top bottom left right).rect = ⟨top, bottom, left, right⟩ := by
    unfold Cube.rect
    exact rect_new h1 h2
  have hrows := hs.rows_le
  have hcols := hs.cols_le
  have := Chunk.looks_fillWindow (k := k) (e := e) (bs := bs) (fun b hb => by
      obtain ⟨i, hi⟩ := List.getElem?_of_mem hb
      exact (a1 i b hi).small hk) enc fb ⟨start, fin, top, bottom, left, right⟩ ht (by simp only; omega)
    (by rw [hr]; exact h1) (by rw [hr]; exact h2) (by rw [hr]; simp only; omega) (by rw [hr]; simp only; omega)
  rw [hw]
  refine this.mono (Nat.le_of_eq ?_)
  rw [hr]
  simp only [Spec.area]
  rw [show 218 + 228 * e * ((bottom - top) * (right - left)) + 2 =
    220 + 228 * e * ((bottom - top) * (right - left)) by omega]
  rfl

/-- C88, in terms of the shape of the series, when the side of the square is the least power that covers the raster:
the size of the raster and the number of the other instants count with their logarithms only. -/
theorem C88_logarithmic (get : Nat → Nat → Nat → Int64) (instants rows cols k e : Nat) (hs : ShapeOk rows cols k e)
    (hleast : ∀ e', e' < e → k ^ e' < max rows cols) (enc : MMEncoding) (fb start fin top bottom left right : Nat)
    (ht : start < fin) (hi : fin ≤ instants) (h1 : top < bottom) (h2 : left < right) (h3 : bottom ≤ rows)
    (h4 : right ≤ cols) :
    ∃ r, Chunk.build get instants rows cols k e enc fb = some r ∧
      LooksAt Chunk.look (fun c => c.fillWindow (Cube.new start fin top bottom left right)) r.data
        (2 * Nat.clog 2 instants + 3 + (fin - start) *
          (220 + 228 * Nat.clog k (max rows cols) * ((bottom - top) * (right - left)))) ∧
      LooksAt Chunk.look (fun c => c.fillCell start fin top left) r.data
        (2 * Nat.clog 2 instants + 3 + (fin - start) * (228 * Nat.clog k (max rows cols) + 430)) := by
  have hk := hs.arity
  obtain ⟨bs, -, -, -, a3, a4⟩ := chunk_build get instants rows cols k e (by omega) (by omega) enc fb
  obtain ⟨r, b1, b2⟩ := C88_window get instants rows cols k e hs enc fb start fin top bottom left right ht hi h1 h2 h3 h4
  obtain ⟨r', b3, b4⟩ := C88_series get instants rows cols k e hk enc fb start fin top left ht hi
  rw [b1, Option.some.injEq] at b3
  subst b3
  have e1 : r.data.blocks.length ≤ instants := by
    rw [a3, Option.some.injEq] at b1
    rw [← b1]; exact a4
  have e2 : Nat.clog 2 r.data.blocks.length ≤ Nat.clog 2 instants := Nat.clog_mono_right 2 e1
  have e3 : e ≤ Nat.clog k (max rows cols) := by
    by_contra hc
    have a := hleast (Nat.clog k (max rows cols)) (by omega)
    have b := Nat.le_pow_clog (b := k) (by omega) (max rows cols)
    omega
  refine ⟨r, b1, b2.mono ?_, b4.mono ?_⟩
  · have := Nat.mul_le_mul_right ((bottom - top) * (right - left)) (Nat.mul_le_mul_left 228 e3)
    have := Nat.mul_le_mul_left (fin - start) (Nat.add_le_add_left this 220)
    omega
  · have := Nat.mul_le_mul_left (fin - start) (Nat.add_le_add_right (Nat.mul_le_mul_left 228 e3) 430)
    omega

/-- A window of 3 times 2 cells over 10 instants of 65536, in rasters of 1048576 times 1048576 cells: 275835 places;
and the series of a cell over all instants of a year of days: 1821385. -/
example (get : Nat → Nat → Nat → Int64) :
    (∃ r, Chunk.build get 65536 1048576 1048576 2 20 .i64 0 = some r ∧
      LooksAt Chunk.look (fun c => c.fillWindow (Cube.new 100 110 5000 5003 70000 70002)) r.data 275835) ∧
    ∃ r, Chunk.build get 65536 1048576 1048576 2 20 .i64 0 = some r ∧
      LooksAt Chunk.look (fun c => c.fillCell 1000 1365 5000 70000) r.data 1821385 := by
  have hs : ShapeOk 1048576 1048576 2 20 := ⟨by omega, by omega, by norm_num, by norm_num⟩
  have hl : ∀ e', e' < 20 → 2 ^ e' < max 1048576 1048576 := fun e' h => by
    have : 2 ^ e' < 2 ^ 20 := Nat.pow_lt_pow_right (by omega) h
    simpa using this
  have c1 : Nat.clog 2 (max 1048576 1048576) = 20 := by
    rw [show max 1048576 1048576 = 2 ^ 20 by norm_num, Nat.clog_pow 2 20 (by omega)]
  have c2 : Nat.clog 2 65536 = 16 := by
    rw [show 65536 = 2 ^ 16 by norm_num, Nat.clog_pow 2 16 (by omega)]
  obtain ⟨r, h1, h2, -⟩ := C88_logarithmic get 65536 1048576 1048576 2 20 hs hl .i64 0 100 110 5000 5003 70000 70002
    (by omega) (by omega) (by omega) (by omega) (by omega) (by omega)
  obtain ⟨r', h1', -, h2'⟩ := C88_logarithmic get 65536 1048576 1048576 2 20 hs hl .i64 0 1000 1365 5000 5003 70000 70002
    (by omega) (by omega) (by omega) (by omega) (by omega) (by omega)
  rw [c1, c2] at h2 h2'
  exact ⟨⟨r, h1, h2.mono (by omega)⟩, ⟨r', h1', h2'.mono (by omega)⟩⟩

end Verif
