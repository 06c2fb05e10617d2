import Verif.Lemmas.LooksSearch
import Verif.Props.Chunk

/-! C87: a search looks at few places where the range settles it. -/
namespace Verif
open Spec (LooksAt)

theorem rect_new {top bottom left right : Nat} (h1 : top < bottom) (h2 : left < right) :
    Rect.new top bottom left right = ⟨top, bottom, left, right⟩ := by
  unfold Rect.new rearrange
  rw [if_neg (by omega), if_neg (by omega)]

/-- C87, one snapshot. A search looks at no more places than a constant for every square, of those that the raster is
divided into again and again, that is mixed: that has a cell in the window, a value that is not below the range, one
that is not above it and one that is not in it. -/
theorem C87_snapshot (get : Nat → Nat → Int64) (rows cols k e : Nat) (hs : ShapeOk rows cols k e)
    (top bottom left right : Nat) (h1 : top < bottom) (h2 : left < right) (h3 : bottom ≤ rows) (h4 : right ≤ cols)
    (lower upper : Int64) :
    ∃ s, Snapshot.build get rows cols k e = some s ∧
      LooksAt Snapshot.look (fun s => s.searchWindow (Rect.new top bottom left right) lower upper) s
        (196 + (10 + k * k * 205) *
          (1 + k * k * Spec.mixed get rows cols k (Rect.new top bottom left right) lower upper e 0 0)) := by
  have hk := hs.arity
  obtain ⟨e, rfl⟩ := exponent_pos hs.shape hs.rows_le hs.cols_le
  obtain ⟨s, N, a1, a2⟩ := snapshot_build_layout get rows cols k (by omega) (e + 1)
  rw [rect_new h1 h2]
  exact ⟨s, a1, a2.looks_search (Snapshot.build_smallMin a1) hk hs.rows_le hs.cols_le _ ⟨h1, h2, h3, h4⟩ lower upper⟩

/-- C87, a log on a snapshot: the squares that count are those of the raster of the log. -/
theorem C87_log (getS getT : Nat → Nat → Int64) (rows cols k e : Nat) (hs : ShapeOk rows cols k e)
    (hno : NoOverflow getS getT rows cols) (safe : SearchSafe getS getT rows cols (k ^ e))
    (top bottom left right : Nat) (h1 : top < bottom) (h2 : left < right) (h3 : bottom ≤ rows) (h4 : right ≤ cols)
    (lower upper : Int64) :
    ∃ s l, Snapshot.build getS rows cols k e = some s ∧ Log.build getS getT rows cols k e = some l ∧
      LooksAt lookPair (fun x => x.1.searchWindow x.2 (Rect.new top bottom left right) lower upper) (l, s)
        (391 + (19 + k * k * 421) *
          (1 + Spec.mixed getT rows cols k (Rect.new top bottom left right) lower upper e 0 0)) := by
  have hk := hs.arity
  obtain ⟨e, rfl⟩ := exponent_pos hs.shape hs.rows_le hs.cols_le
  obtain ⟨s, NS, a1, a2⟩ := snapshot_build_layout getS rows cols k (by omega) (e + 1)
  obtain ⟨l, N, a3, a4⟩ := log_build_layout getS getT rows cols k (by omega) (e + 1)
  rw [rect_new h1 h2]
  exact ⟨s, l, a1, a3, a4.looks_search a2 (Log.build_smallMin a3) (Snapshot.build_smallMin a1) hk hno hs.rows_le
    hs.cols_le safe _ ⟨h1, h2, h3, h4⟩ lower upper⟩

/-- C87, a chunk: draining the iterator over the results of a search of a cube looks at the sum of that over the
instants of the cube, and two places for every halving of the list of blocks. -/
theorem C87_chunk (get : Nat → Nat → Nat → Int64) (instants rows cols k e : Nat) (hs : ShapeOk rows cols k e)
    (enc : MMEncoding) (fb : Nat) (hno : SeriesNoOverflow get instants rows cols)
    (start fin top bottom left right : Nat) (ht : start < fin) (hi : fin ≤ instants)
    (h1 : top < bottom) (h2 : left < right) (h3 : bottom ≤ rows) (h4 : right ≤ cols) (lower upper : Int64)
    (hlu : lower ≤ upper) :
    ∃ r, Chunk.build get instants rows cols k e enc fb = some r ∧
      ((∀ t0 t, LogPair r.data.blocks t0 t → start ≤ t → t < fin → SearchSafe (get t0) (get t) rows cols (k ^ e)) →
        LooksAt Chunk.look (fun c fuel => (c.iterSearch (Cube.new start fin top bottom left right) lower upper).bind
            fun it => it.toList c fuel) r.data
          (2 * Nat.clog 2 r.data.blocks.length + 3 + ((List.range' start (fin - start)).map fun t =>
            394 + (19 + k * k * 421) * (1 + k * k *
              Spec.mixed (get t) rows cols k (Rect.new top bottom left right) lower upper e 0 0)).sum)) := by
  have hk := hs.arity
  obtain ⟨bs, a1, -, a2, a3, -⟩ := chunk_build get instants rows cols k e (by omega) (by omega) enc fb
  refine ⟨_, a3, fun safe => ?_⟩
  have hw : Cube.new start fin top bottom left right = ⟨start, fin, top, bottom, left, right⟩ := by
    unfold Cube.new rearrange
    rw [if_neg (by omega), if_neg (by omega), if_neg (by omega)]
  have hr : (Cube.mk start fin top bottom left right).rect = ⟨top, bottom, left, right⟩ := by
    unfold Cube.rect
    exact rect_new h1 h2
  have hre : rearrangeI lower upper = (lower, upper) := by
    unfold rearrangeI
    rw [if_neg (Int64.not_lt.2 hlu)]
  have := Chunk.looks_search a1 hs (hno.pairs a2) enc fb ⟨start, fin, top, bottom, left, right⟩ ht
    (by simp only; omega) safe (by rw [hr]; exact ⟨h1, h2, h3, h4⟩) lower upper
  rw [hr, hre] at this
  rw [hw, rect_new h1 h2]
  refine LooksAt.mono this (Nat.le_of_eq ?_)
  congr 2
  refine List.map_congr_left fun t _ => ?_
  simp only [Spec.searchPlaces]
  omega

/-- C87, counted: in a raster with a given number of values that are not below the range, there are no more mixed
squares than that number for every level. -/
theorem C87_few_above (get : Nat → Nat → Int64) (rows cols k e : Nat) (hr : rows ≤ k ^ e) (hc : cols ≤ k ^ e)
    (w : Rect) (lower upper : Int64) :
    Spec.mixed get rows cols k w lower upper e 0 0 ≤ e * Spec.count (fun r c => lower ≤ get r c) rows cols :=
  mixed_le_count _ (fun _ _ _ h => h.2.1) e hr hc

theorem C87_few_below (get : Nat → Nat → Int64) (rows cols k e : Nat) (hr : rows ≤ k ^ e) (hc : cols ≤ k ^ e)
    (w : Rect) (lower upper : Int64) :
    Spec.mixed get rows cols k w lower upper e 0 0 ≤ e * Spec.count (fun r c => get r c ≤ upper) rows cols :=
  mixed_le_count _ (fun _ _ _ h => h.2.2.1) e hr hc

theorem C87_few_outside (get : Nat → Nat → Int64) (rows cols k e : Nat) (hr : rows ≤ k ^ e) (hc : cols ≤ k ^ e)
    (w : Rect) (lower upper : Int64) :
    Spec.mixed get rows cols k w lower upper e 0 0 ≤
      e * Spec.count (fun r c => ¬ (lower ≤ get r c ∧ get r c ≤ upper)) rows cols :=
  mixed_le_count _ (fun _ _ _ h => h.2.2.2) e hr hc

theorem C87_few_window (get : Nat → Nat → Int64) (rows cols k e : Nat) (hr : rows ≤ k ^ e) (hc : cols ≤ k ^ e)
    (w : Rect) (lower upper : Int64) :
    Spec.mixed get rows cols k w lower upper e 0 0 ≤
      e * Spec.count (fun r c => w.top ≤ r ∧ r < w.bottom ∧ w.left ≤ c ∧ c < w.right) rows cols :=
  mixed_le_count _ (fun _ _ _ h => h.1) e hr hc

/-- C87: a search of a snapshot for the values from a bound on, of which there are `n`, looks at some places for every
level and every one of them, however large the raster is. -/
theorem C87_output (get : Nat → Nat → Int64) (rows cols k e : Nat) (hs : ShapeOk rows cols k e)
    (top bottom left right : Nat) (h1 : top < bottom) (h2 : left < right) (h3 : bottom ≤ rows) (h4 : right ≤ cols)
    (lower upper : Int64) :
    ∃ s, Snapshot.build get rows cols k e = some s ∧
      LooksAt Snapshot.look (fun s => s.searchWindow (Rect.new top bottom left right) lower upper) s
        (196 + (10 + k * k * 205) * (1 + k * k * (e * Spec.count (fun r c => lower ≤ get r c) rows cols))) := by
  obtain ⟨s, a1, a2⟩ := C87_snapshot get rows cols k e hs top bottom left right h1 h2 h3 h4 lower upper
  refine ⟨s, a1, a2.mono ?_⟩
  have := C87_few_above get rows cols k e hs.rows_le hs.cols_le (Rect.new top bottom left right) lower upper
  have := Nat.mul_le_mul_left (k * k) this
  have := Nat.mul_le_mul_left (10 + k * k * 205) (Nat.add_le_add_left this 1)
  omega

/-- A raster of 1024 times 1024 cells of which the one at row 700 and column 3 alone is 1000, the others less than
100: the search of all of it for values from 500 on looks at no more than 34226 places; and one for values from 2000
on looks at no more than 1026. -/
example (get : Nat → Nat → Int64) (h0 : get 700 3 = 1000) (h : ∀ r c, (r, c) ≠ (700, 3) → get r c < 100) :
    (∃ s, Snapshot.build get 1024 1024 2 10 = some s ∧
      LooksAt Snapshot.look (fun s => s.searchWindow (Rect.new 0 1024 0 1024) 500 5000) s 34226) ∧
    (∃ s, Snapshot.build get 1024 1024 2 10 = some s ∧
      LooksAt Snapshot.look (fun s => s.searchWindow (Rect.new 0 1024 0 1024) 2000 5000) s 1026) := by
  have hs : ShapeOk 1024 1024 2 10 := ⟨by omega, by omega, by norm_num, by norm_num⟩
  have n500 : Spec.count (fun r c => 500 ≤ get r c) 1024 1024 ≤ 1 := by
    rw [Spec.count_eq]
    have : ∀ r c, (if 500 ≤ get r c then 1 else 0) ≤ (if r = 700 then if c = 3 then 1 else 0 else 0) := by
      intro r c
      by_cases hrc : (r, c) = (700, 3)
      · simp only [Prod.mk.injEq] at hrc
        rw [hrc.1, hrc.2]; simp; split <;> omega
      · have := h r c hrc
        rw [if_neg (fun hc => absurd (Int64.lt_of_le_of_lt hc this) (by decide))]
        exact Nat.zero_le _
    refine (Finset.sum_le_sum fun r _ => Finset.sum_le_sum fun c _ => this r c).trans ?_
    simp only [Finset.sum_ite_irrel, Finset.sum_ite_eq', Finset.mem_range, Finset.sum_const_zero]
    norm_num
  have n2000 : Spec.count (fun r c => 2000 ≤ get r c) 1024 1024 = 0 := by
    rw [Spec.count_eq]
    refine Finset.sum_eq_zero fun r _ => Finset.sum_eq_zero fun c _ => if_neg fun hc => ?_
    by_cases hrc : (r, c) = (700, 3)
    · simp only [Prod.mk.injEq] at hrc
      rw [hrc.1, hrc.2, h0] at hc
      exact absurd hc (by decide)
    · exact absurd (Int64.lt_of_le_of_lt hc (h r c hrc)) (by decide)
  constructor
  · obtain ⟨s, a1, a2⟩ := C87_output get 1024 1024 2 10 hs 0 1024 0 1024 (by omega) (by omega) (by omega) (by omega)
      500 5000
    exact ⟨s, a1, a2.mono (by omega)⟩
  · obtain ⟨s, a1, a2⟩ := C87_output get 1024 1024 2 10 hs 0 1024 0 1024 (by omega) (by omega) (by omega) (by omega)
      2000 5000
    exact ⟨s, a1, a2.mono (by rw [n2000])⟩

/-- Three instants of 4 times 4 cells, the value the instant and the row together. -/
def risingSeries (t r _c : Nat) : Int64 := Int64.ofNat (t + r)

/-- All that `C87_chunk` and `C87_log` ask for is met: none of the instants is of one value only, and no difference of
two is less than 0. The search of rows 1 and 2 for the values from 3 to 4, which are in rows 1 to 3. -/
example : ∃ r, Chunk.build risingSeries 3 4 4 2 2 .i64 0 = some r ∧
    LooksAt Chunk.look (fun c fuel => (c.iterSearch (Cube.new 0 3 1 3 0 4) 3 4).bind fun it => it.toList c fuel) r.data
      (2 * Nat.clog 2 r.data.blocks.length + 3 + ((List.range' 0 3).map fun t =>
        394 + 1703 * (1 + 4 * Spec.mixed (risingSeries t) 4 4 2 (Rect.new 1 3 0 4) 3 4 2 0 0)).sum) := by
  have hno : SeriesNoOverflow risingSeries 3 4 4 := by
    have : ∀ t0 t : Fin 3, ∀ r : Fin 4, (risingSeries t r 0 - risingSeries t0 r 0).toInt =
        (risingSeries t r 0).toInt - (risingSeries t0 r 0).toInt := by decide
    intro t0 t h1 h2 r c h3 _
    exact this ⟨t0, by omega⟩ ⟨t, h2⟩ ⟨r, h3⟩
  obtain ⟨r, h1, h2⟩ := C87_chunk risingSeries 3 4 4 2 2 ⟨by omega, by omega, by omega, by omega⟩ .i64 0 hno 0 3 1 3 0 4
    (by omega) (by omega) (by omega) (by omega) (by omega) (by omega) 3 4 (by decide)
  refine ⟨r, h1, h2 fun t0 t hp _ ht => ?_⟩
  have hlt := hp.lt
  have ne : ∀ t : Fin 3, risingSeries t 0 0 ≠ risingSeries t 1 0 := by decide
  have nc : ∀ t, t < 3 → ∀ u, ¬ Const (risingSeries t) 4 4 u := fun t ht u hu =>
    ne ⟨t, ht⟩ ((hu 0 0 (by omega) (by omega)).trans (hu 1 0 (by omega) (by omega)).symm)
  have up : ∀ t0 t : Fin 3, t0 < t → 0 ≤ risingSeries t 0 0 - risingSeries t0 0 0 := by decide
  refine ⟨fun u v hu _ => absurd hu (nc t ht u), fun u hu _ => absurd hu (nc t ht u),
    fun v hv _ => absurd hv (nc t0 (by omega) v), fun d _ _ _ hd => ?_⟩
  rw [← hd 0 0 (by omega) (by omega)]
  exact up ⟨t0, by omega⟩ ⟨t, ht⟩ hlt

/-- A raster whose upper left quarter is in the range from 5 to 10. -/
def quarterRaster (r c : Nat) : Int64 := if r < 2 ∧ c < 2 then Int64.ofNat (5 + 2 * r + c) else 0

/-- The snapshot `s` with other numbers for the greatest values. -/
def Snapshot.withMax (s : Snapshot) (l : List Int64) : Option Snapshot :=
  (Dac.ofList l).map fun d => { s with max := d }

/-- The squares that count for a snapshot are not only those that the search has to divide: the test of a square takes
the least value of the square around it (snapshot.rs:393 `lower <= min_value`, where `min_value_` is meant). All values
of the upper left quarter are in the range, and still the search of it looks at the numbers of its cells: with other
numbers for these cells alone, it gives something else. -/
theorem C87_snapshot_wrong : ∃ s s' : Snapshot, Snapshot.build quarterRaster 4 4 2 2 = some s ∧
    s'.nodemap = s.nodemap ∧ s'.min = s.min ∧ s'.k = s.k ∧ s'.rows = s.rows ∧ s'.cols = s.cols ∧
    s'.sidelen = s.sidelen ∧ (∀ i < 5, s'.max.get i = s.max.get i) ∧
    (∀ r < 2, ∀ c < 2, 5 ≤ quarterRaster r c ∧ quarterRaster r c ≤ 10) ∧
    s.searchWindow (Rect.new 0 2 0 2) 5 10 = some [(0, 0), (0, 1), (1, 0), (1, 1)] ∧
    s'.searchWindow (Rect.new 0 2 0 2) 5 10 = some [(0, 1), (1, 0), (1, 1)] := by
  have key : (match Snapshot.build quarterRaster 4 4 2 2 with
      | none => false
      | some s => match s.withMax [8, 0, 8, 8, 8, 9, 2, 1, 0] with
        | none => false
        | some s' => decide ((∀ i : Fin 5, s'.max.get i = s.max.get i) ∧
            s.searchWindow (Rect.new 0 2 0 2) 5 10 = some [(0, 0), (0, 1), (1, 0), (1, 1)] ∧
            s'.searchWindow (Rect.new 0 2 0 2) 5 10 = some [(0, 1), (1, 0), (1, 1)])) = true := by decide +kernel
  cases h : Snapshot.build quarterRaster 4 4 2 2 with
  | none => rw [h] at key; simp at key
  | some s =>
    rw [h] at key
    cases h' : s.withMax [8, 0, 8, 8, 8, 9, 2, 1, 0] with
    | none => simp only [h'] at key; simp at key
    | some s' =>
      simp only [h'] at key
      obtain ⟨k1, k2, k3⟩ := of_decide_eq_true key
      unfold Snapshot.withMax at h'
      cases h2 : Dac.ofList [8, 0, 8, 8, 8, 9, 2, 1, 0] with
      | none => rw [h2] at h'; simp at h'
      | some d =>
        rw [h2] at h'
        simp only [Option.map_some, Option.some.injEq] at h'
        refine ⟨s, s', rfl, ?_, ?_, ?_, ?_, ?_, ?_, fun i hi => k1 ⟨i, hi⟩, by decide, k2, k3⟩ <;> rw [← h']

end Verif
