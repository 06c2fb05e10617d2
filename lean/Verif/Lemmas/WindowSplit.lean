import Verif.Lemmas.ChunkRead
import Verif.Lemmas.Out

/-! How windows split over the subchunks of a superchunk, and time ranges over the parts of a span. -/
namespace Verif

namespace Spec

/-- Cells of a window of a time series. -/
def cells3 (start fin top bottom left right : Nat) : List (Nat × Nat × Nat) :=
  (List.range' start (fin - start)).flatMap fun t =>
    (cells top bottom left right).map fun p => (t, p)

theorem mem_cells {top bottom left right : Nat} {p : Nat × Nat} :
    p ∈ cells top bottom left right ↔ (top ≤ p.1 ∧ p.1 < bottom) ∧ left ≤ p.2 ∧ p.2 < right := by
  unfold cells
  simp only [List.mem_flatMap, List.mem_map, List.mem_range'_1]
  constructor
  · rintro ⟨r, h1, c, h2, rfl⟩
    simp only
    omega
  · rintro ⟨h1, h2⟩
    exact ⟨p.1, by omega, p.2, by omega, rfl⟩

theorem mem_cells3 {start fin top bottom left right : Nat} {p : Nat × Nat × Nat} :
    p ∈ cells3 start fin top bottom left right ↔
      (start ≤ p.1 ∧ p.1 < fin) ∧ (top ≤ p.2.1 ∧ p.2.1 < bottom) ∧ left ≤ p.2.2 ∧ p.2.2 < right := by
  unfold cells3
  simp only [List.mem_flatMap, List.mem_map, List.mem_range'_1]
  constructor
  · rintro ⟨t, h1, q, h2, rfl⟩
    have := mem_cells.1 h2
    refine ⟨by simp only; omega, this⟩
  · rintro ⟨h1, h2⟩
    exact ⟨p.1, by omega, p.2, mem_cells.2 h2, rfl⟩

theorem window3_eq {α} (get : Nat → Nat → Nat → α) (start fin top bottom left right : Nat) :
    window3 get start fin top bottom left right =
      (cells3 start fin top bottom left right).map fun p =>
        (p.1 - start, p.2.1 - top, p.2.2 - left, get p.1 p.2.1 p.2.2) := by
  unfold window3 cells3 window
  rw [List.map_flatMap]
  simp only [List.map_map, Function.comp_def]

theorem hits3_eq (get : Nat → Nat → Nat → Int64) (start fin top bottom left right : Nat)
    (lower upper : Int64) :
    hits3 get start fin top bottom left right lower upper =
      (cells3 start fin top bottom left right).filter fun p =>
        decide (lower ≤ get p.1 p.2.1 p.2.2 ∧ get p.1 p.2.1 p.2.2 ≤ upper) := by
  unfold hits3 cells3 hits
  rw [List.filter_flatMap]
  simp only [List.filter_map, Function.comp_def]

theorem range'_map_add (a s n : Nat) : (List.range' s n).map (a + ·) = List.range' (a + s) n := by
  rw [List.map_add_range']

theorem cells_shift (a b top bottom left right : Nat) :
    cells (a + top) (a + bottom) (b + left) (b + right) =
      (cells top bottom left right).map fun p => (a + p.1, b + p.2) := by
  unfold cells
  rw [Nat.add_sub_add_left, Nat.add_sub_add_left, ← range'_map_add a, ← range'_map_add b,
    List.flatMap_map, List.map_flatMap]
  simp only [List.map_map, Function.comp_def]

theorem cells3_shift (d a b start fin top bottom left right : Nat) :
    cells3 (d + start) (d + fin) (a + top) (a + bottom) (b + left) (b + right) =
      (cells3 start fin top bottom left right).map fun p => (d + p.1, a + p.2.1, b + p.2.2) := by
  unfold cells3
  rw [Nat.add_sub_add_left, cells_shift, ← range'_map_add d, List.flatMap_map, List.map_flatMap]
  simp only [List.map_map, Function.comp_def]

end Spec

/-! ### One side -/

theorem rangeIncl_self (a : Nat) : rangeIncl a a = [a] := by
  unfold rangeIncl
  rw [show a + 1 - a = 1 by omega]
  rfl

theorem rangeIncl_cons {a b : Nat} (h : a < b) : rangeIncl a b = a :: rangeIncl (a + 1) b := by
  unfold rangeIncl
  rw [show b + 1 - a = (b + 1 - (a + 1)) + 1 by omega, List.range'_succ]

/-- A side of a window is the concatenation of its parts in the subchunks it touches. -/
theorem side_split (cs : Nat) (hcs : 0 < cs) : ∀ (m lo hi : Nat), lo < hi →
    (hi - 1) / cs - lo / cs = m →
    (rangeIncl (lo / cs) ((hi - 1) / cs)).flatMap (fun n =>
      List.range' (max (n * cs) lo) (min (n * cs + cs) hi - max (n * cs) lo)) =
    List.range' lo (hi - lo) := by
  intro m
  induction m with
  | zero =>
    intro lo hi h hm
    have h1 : lo / cs ≤ (hi - 1) / cs := Nat.div_le_div_right (by omega)
    have h2 : (hi - 1) / cs = lo / cs := by omega
    rw [h2, rangeIncl_self]
    have e1 := Nat.div_mul_le_self lo cs
    have e2 := Nat.lt_div_mul_add (a := hi - 1) hcs
    rw [h2] at e2
    simp only [List.flatMap_cons, List.flatMap_nil, List.append_nil]
    generalize lo / cs * cs = x at *
    rw [show max x lo = lo by omega, show min (x + cs) hi = hi by omega]
  | succ m ih =>
    intro lo hi h hm
    have h1 : lo / cs < (hi - 1) / cs := by omega
    rw [rangeIncl_cons h1, List.flatMap_cons]
    have e1 := Nat.div_mul_le_self lo cs
    have e2 := Nat.lt_div_mul_add (a := lo) hcs
    have e3 : (lo / cs + 1) * cs ≤ hi - 1 :=
      Nat.le_trans (Nat.mul_le_mul_right cs h1) (Nat.div_mul_le_self (hi - 1) cs)
    have e4 : (lo / cs + 1) * cs = lo / cs * cs + cs := Nat.succ_mul _ _
    have e5 : ((lo / cs + 1) * cs) / cs = lo / cs + 1 := Nat.mul_div_cancel _ hcs
    have := ih ((lo / cs + 1) * cs) hi (by omega) (by rw [e5]; omega)
    rw [e5] at this
    have hcongr : (rangeIncl (lo / cs + 1) ((hi - 1) / cs)).flatMap (fun n =>
        List.range' (max (n * cs) lo) (min (n * cs + cs) hi - max (n * cs) lo)) =
      (rangeIncl (lo / cs + 1) ((hi - 1) / cs)).flatMap (fun n =>
        List.range' (max (n * cs) ((lo / cs + 1) * cs))
          (min (n * cs + cs) hi - max (n * cs) ((lo / cs + 1) * cs))) := by
      rw [List.flatMap_def, List.flatMap_def]
      congr 1
      apply List.map_congr_left
      intro n hn
      have := Nat.mul_le_mul_right cs (mem_rangeIncl.1 hn).1
      rw [show max (n * cs) lo = n * cs by omega,
        show max (n * cs) ((lo / cs + 1) * cs) = n * cs by omega]
    rw [hcongr, this]
    generalize (lo / cs + 1) * cs = y at *
    generalize lo / cs * cs = x at *
    rw [show max x lo = lo by omega, show min (x + cs) hi = y by omega]
    have := List.range'_append_1 (s := lo) (m := y - lo) (n := hi - y)
    rw [show lo + (y - lo) = y by omega] at this
    rw [this]
    congr 1
    omega

theorem side_split' {cs lo hi : Nat} (hcs : 0 < cs) (h : lo < hi) :
    (rangeIncl (lo / cs) ((hi - 1) / cs)).flatMap (fun n =>
      List.range' (max (n * cs) lo) (min (n * cs + cs) hi - max (n * cs) lo)) =
    List.range' lo (hi - lo) := side_split cs hcs _ lo hi h rfl

/-- Bounds of the part of a side in a subchunk it touches. -/
theorem side_bounds {cs lo hi n : Nat} (hcs : 0 < cs) (h : lo < hi)
    (hn : n ∈ rangeIncl (lo / cs) ((hi - 1) / cs)) :
    max (n * cs) lo < min (n * cs + cs) hi := by
  rw [mem_rangeIncl] at hn
  have e1 : n * cs ≤ hi - 1 := Nat.le_trans (Nat.mul_le_mul_right cs hn.2) (Nat.div_mul_le_self _ _)
  have e2 : lo < n * cs + cs := by
    have := Nat.lt_div_mul_add (a := lo) hcs
    have := Nat.mul_le_mul_right cs hn.1
    omega
  omega

theorem sideSlices_eq {cs lo hi n : Nat} (hcs : 0 < cs) (h : lo < hi)
    (hn : n ∈ rangeIncl (lo / cs) ((hi - 1) / cs)) :
    sideSlices n lo hi cs = some (n * cs, n * cs + cs, max (n * cs) lo - n * cs,
      min (n * cs + cs) hi - n * cs, max (n * cs) lo - lo, min (n * cs + cs) hi - lo) := by
  have := side_bounds hcs h hn
  unfold sideSlices csub
  simp only
  rw [if_pos (by omega), if_pos (by omega)]
  simp only
  rw [if_pos (by omega), if_pos (by omega)]

/-! ### Rectangles -/

/-- The part of a window in the subchunk in row `R` and column `C` of the grid. -/
def windowPart (cs ss top bottom left right R C : Nat) : WindowSubchunk :=
  ⟨R * ss + C, ⟨R * cs, R * cs + cs, C * cs, C * cs + cs⟩,
    ⟨max (R * cs) top - R * cs, min (R * cs + cs) bottom - R * cs,
      max (C * cs) left - C * cs, min (C * cs + cs) right - C * cs⟩,
    ⟨max (R * cs) top - top, min (R * cs + cs) bottom - top,
      max (C * cs) left - left, min (C * cs + cs) right - left⟩⟩

theorem collect_eq {α β} (f : α → Option (List β)) (g : α → List β) : ∀ (xs : List α),
    (∀ x ∈ xs, f x = some (g x)) → collect xs f = some (xs.flatMap g) := by
  intro xs
  induction xs with
  | nil => intro _; rfl
  | cons x xs ih =>
    intro h
    unfold collect
    rw [h x (by simp), ih fun y hy => h y (by simp [hy])]
    rfl

theorem subchunksFor_eq (h : SuperHead) {top bottom left right : Nat} (hcs : 0 < h.chunksSidelen)
    (htb : top < bottom) (hlr : left < right) :
    h.subchunksFor ⟨top, bottom, left, right⟩ = some (
      (rangeIncl (top / h.chunksSidelen) ((bottom - 1) / h.chunksSidelen)).flatMap fun R =>
        (rangeIncl (left / h.chunksSidelen) ((right - 1) / h.chunksSidelen)).map fun C =>
          windowPart h.chunksSidelen h.subsidelen top bottom left right R C) := by
  unfold SuperHead.subchunksFor
  rw [if_neg (by omega)]
  unfold csub
  simp only
  rw [if_pos (by omega), if_pos (by omega)]
  simp only
  generalize h.chunksSidelen = cs at *
  have d1 : top / cs ≤ (bottom - 1) / cs := Nat.div_le_div_right (by omega)
  have d2 : left / cs ≤ (right - 1) / cs := Nat.div_le_div_right (by omega)
  have hr : Rect.new (top / cs) ((bottom - 1) / cs) (left / cs) ((right - 1) / cs) =
      ⟨top / cs, (bottom - 1) / cs, left / cs, (right - 1) / cs⟩ := by
    unfold Rect.new rearrange
    rw [if_neg (by omega), if_neg (by omega)]
  rw [hr]
  simp only
  refine collect_eq _ _ _ fun R hR => ?_
  rw [sideSlices_eq hcs htb hR]
  simp only
  have b1 := side_bounds hcs htb hR
  rw [← List.flatMap_pure_eq_map]
  refine collect_eq _ _ _ fun C hC => ?_
  rw [sideSlices_eq hcs hlr hC]
  simp only
  have b2 := side_bounds hcs hlr hC
  unfold windowPart Rect.new rearrange
  simp only
  rw [if_neg (by omega), if_neg (by omega), if_neg (by omega), if_neg (by omega), if_neg (by omega),
    if_neg (by omega)]
  rfl

theorem perm_flatMap_comm {α β γ : Type} (xs : List α) (ys : List β) (f : α → β → List γ) :
    (xs.flatMap fun x => ys.flatMap fun y => f x y).Perm
      (ys.flatMap fun y => xs.flatMap fun x => f x y) := by
  induction xs with
  | nil => simp
  | cons x xs ih =>
    simp only [List.flatMap_cons]
    refine (ih.append_left _).trans ?_
    exact (List.flatMap_append_perm ys _ _).trans (List.Perm.refl _)

/-- The cells of a window are the cells of its parts. -/
theorem cells_split {cs top bottom left right : Nat} (hcs : 0 < cs) (htb : top < bottom)
    (hlr : left < right) :
    ((rangeIncl (top / cs) ((bottom - 1) / cs)).flatMap fun R =>
      (rangeIncl (left / cs) ((right - 1) / cs)).flatMap fun C =>
        Spec.cells (max (R * cs) top) (min (R * cs + cs) bottom) (max (C * cs) left)
          (min (C * cs + cs) right)).Perm (Spec.cells top bottom left right) := by
  unfold Spec.cells
  conv_rhs => rw [← side_split' hcs htb, List.flatMap_assoc]
  refine List.Perm.flatMap_left _ fun R hR => ?_
  refine (perm_flatMap_comm _ _ _).trans ?_
  refine List.Perm.flatMap_left _ fun r hr => ?_
  rw [← side_split' hcs hlr, List.map_flatMap]

theorem cells3_split {cs start fin top bottom left right : Nat} (hcs : 0 < cs) (htb : top < bottom)
    (hlr : left < right) :
    ((rangeIncl (top / cs) ((bottom - 1) / cs)).flatMap fun R =>
      (rangeIncl (left / cs) ((right - 1) / cs)).flatMap fun C =>
        Spec.cells3 start fin (max (R * cs) top) (min (R * cs + cs) bottom) (max (C * cs) left)
          (min (C * cs + cs) right)).Perm (Spec.cells3 start fin top bottom left right) := by
  unfold Spec.cells3
  refine ((List.Perm.flatMap_left _ fun R _ => perm_flatMap_comm _ _ _).trans
    (perm_flatMap_comm _ _ _)).trans ?_
  refine List.Perm.flatMap_left _ fun t _ => ?_
  refine List.Perm.trans ?_ ((cells_split hcs htb hlr).map _)
  rw [List.map_flatMap]
  simp only [List.map_flatMap]
  exact List.Perm.refl _

end Verif
