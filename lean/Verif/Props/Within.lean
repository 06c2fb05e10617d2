import Verif.Lemmas.Places
import Verif.Props.Agree
import Verif.Props.Superchunk
import Verif.Model.MMArray

/-!
Property C93: a search reports no cell twice and none outside of its window, whatever the object is.

Property C94: a read that ends well has written each place of its array, whatever the object is. False of windows
of superchunks if objects cannot be loaded.
-/
namespace Verif

theorem cells_nodup (top bottom left right : Nat) : (Spec.cells top bottom left right).Nodup := by
  have := Spec.cells3_nodup 0 1 top bottom left right
  unfold Spec.cells3 at this
  simp only [Nat.sub_zero, List.range'_one, List.flatMap_cons, List.flatMap_nil, List.append_nil] at this
  exact this.of_map _

theorem cells3_bounds {start fin top bottom left right : Nat} {q : Nat × Nat × Nat}
    (h : q ∈ Spec.cells3 start fin top bottom left right) : start ≤ q.1 ∧ q.1 < fin ∧ top ≤ q.2.1 ∧
      q.2.1 < bottom ∧ left ≤ q.2.2 ∧ q.2.2 < right := by
  unfold Spec.cells3 Spec.cells at h
  simp only [List.mem_flatMap, List.mem_map, List.mem_range'_1] at h
  obtain ⟨t, ht, p, ⟨r, hr, c, hc, rfl⟩, rfl⟩ := h
  simp only
  omega

theorem cells_of_subperm {L : List (Nat × Nat)} {top bottom left right : Nat}
    (h : L.Subperm (Spec.cells top bottom left right)) :
    L.Nodup ∧ ∀ r c, (r, c) ∈ L → top ≤ r ∧ r < bottom ∧ left ≤ c ∧ c < right := by
  refine ⟨subperm_nodup h (cells_nodup ..), fun r c hm => ?_⟩
  have := h.subset hm
  unfold Spec.cells at this
  simp only [List.mem_flatMap, List.mem_map, List.mem_range'_1, Prod.mk.injEq] at this
  obtain ⟨r', hr, c', hc, rfl, rfl⟩ := this
  omega

theorem cells3_of_subperm {L : List (Nat × Nat × Nat)} {start fin top bottom left right : Nat}
    (h : L.Subperm (Spec.cells3 start fin top bottom left right)) :
    L.Nodup ∧ ∀ t r c, (t, r, c) ∈ L → start ≤ t ∧ t < fin ∧ top ≤ r ∧ r < bottom ∧ left ≤ c ∧ c < right :=
  ⟨subperm_nodup h (Spec.cells3_nodup ..), fun _ _ _ hm => cells3_bounds (h.subset hm)⟩

/-- C93 for any snapshot, whether or not it was built or can be written. -/
theorem C93_snapshot (s : Snapshot) (top bottom left right : Nat) (h1 : top < bottom) (h2 : left < right)
    (lower upper : Int64) (L : List (Nat × Nat))
    (hL : s.searchWindow (Rect.new top bottom left right) lower upper = some L) :
    L.Nodup ∧ ∀ r c, (r, c) ∈ L → top ≤ r ∧ r < bottom ∧ left ≤ c ∧ c < right := by
  rw [rect_mk h1 h2] at hL
  exact cells_of_subperm (s.searchWindow_within h1 h2 lower upper hL)

/-- C93 for any log with any snapshot. -/
theorem C93_log (l : Log) (s : Snapshot) (top bottom left right : Nat) (h1 : top < bottom) (h2 : left < right)
    (lower upper : Int64) (L : List (Nat × Nat))
    (hL : l.searchWindow s (Rect.new top bottom left right) lower upper = some L) :
    L.Nodup ∧ ∀ r c, (r, c) ∈ L → top ≤ r ∧ r < bottom ∧ left ≤ c ∧ c < right := by
  rw [rect_mk h1 h2] at hL
  exact cells_of_subperm (l.searchWindow_within s h1 h2 lower upper hL)

/-- C93 for any chunk. -/
theorem C93_chunk (ch : Chunk) (start fin top bottom left right : Nat) (h0 : start ≤ fin) (h1 : top < bottom)
    (h2 : left < right) (lower upper : Int64) (it : SearchIter)
    (hi : ch.iterSearch (Cube.new start fin top bottom left right) lower upper = some it) (fuel : Nat)
    (L : List (Nat × Nat × Nat)) (hL : it.toList ch fuel = some L) :
    L.Nodup ∧ ∀ t r c, (t, r, c) ∈ L → start ≤ t ∧ t < fin ∧ top ≤ r ∧ r < bottom ∧ left ≤ c ∧ c < right := by
  rw [Cube.new_eq h0 h1.le h2.le] at hi
  exact cells3_of_subperm (Chunk.search_within h1 h2 hi hL)

section
variable {α : Type} (kind : Kind α) (utf8 : List Byte → Bool) (st : Store) (fuel : Nat) (m : MMStruct3)
  (start fin top bottom left right : Nat)

/-- C93 for an array of any kind, on any structure, in any store, in any order of the tasks, and also if there are
errors or panics on the way. -/
theorem C93_array (lower upper : α) (h0 : start ≤ fin) (h1 : top < bottom) (h2 : left < right)
    (t : List (Option (Nat × Nat × Nat))) (s : Option Fail)
    (hrun : kind.search utf8 st fuel m (Cube.new start fin top bottom left right) lower upper t s) :
    (t.filterMap fun q => q).Nodup ∧ ∀ i r c, some (i, r, c) ∈ t →
      start ≤ i ∧ i < fin ∧ top ≤ r ∧ r < bottom ∧ left ≤ c ∧ c < right := by
  rw [Cube.new_eq h0 h1.le h2.le] at hrun
  have key : (t.filterMap fun q => q).Subperm (Spec.cells3 start fin top bottom left right) := by
    unfold Kind.search at hrun
    cases e1 : kind.bound lower with
    | none =>
      simp only [e1] at hrun
      rw [hrun.1]
      exact List.nil_subperm
    | some lo =>
      cases e2 : kind.bound upper with
      | none =>
        simp only [e1, e2] at hrun
        rw [hrun.1]
        exact List.nil_subperm
      | some up =>
        simp only [e1, e2] at hrun
        cases e3 : m.checkCube ⟨start, fin, top, bottom, left, right⟩ with
        | none =>
          simp only [e3] at hrun
          rw [hrun.1]
          exact List.nil_subperm
        | some u =>
          simp only [e3] at hrun
          exact MMStruct3.search_inside fuel m start fin top bottom left right lo up h0 h1 h2 t s hrun
  obtain ⟨a, b⟩ := cells3_of_subperm key
  exact ⟨a, fun i r c hm => b i r c (List.mem_filterMap.2 ⟨_, hm, rfl⟩)⟩

/-- C94 for a chunk: a window that ends well has written each place of its array, once. -/
theorem C94_chunk (ch : Chunk) (h0 : start ≤ fin) (h1 : top < bottom) (h2 : left < right)
    (L : List (Nat × Nat × Nat × Int64)) (hL : ch.fillWindow (Cube.new start fin top bottom left right) = some L) :
    (L.map fun q => (q.1, q.2.1, q.2.2.1)).Nodup ∧ ∀ i r c,
      (i < fin - start ∧ r < bottom - top ∧ c < right - left) ↔ ∃ v, (i, r, c, v) ∈ L := by
  rw [Cube.new_eq h0 h1.le h2.le] at hL
  have key := Chunk.fillWindow_places h1 h2 hL
  rw [places_eq] at key
  refine ⟨key.nodup_iff.2 (Spec.cells3_nodup ..), fun i r c => ⟨fun h => ?_, ?_⟩⟩
  · have hm : (i, r, c) ∈ Spec.cells3 0 (fin - start) 0 (bottom - top) 0 (right - left) := by
      unfold Spec.cells3 Spec.cells
      simp only [List.mem_flatMap, List.mem_map, List.mem_range'_1]
      exact ⟨i, by omega, (r, c), ⟨r, by omega, c, by omega, rfl⟩, rfl⟩
    obtain ⟨⟨i', r', c', v⟩, h1, h2⟩ := List.mem_map.1 (key.mem_iff.2 hm)
    simp only [Prod.mk.injEq] at h2
    obtain ⟨rfl, rfl, rfl⟩ := h2
    exact ⟨v, h1⟩
  · rintro ⟨v, hv⟩
    have := cells3_bounds (key.mem_iff.1 (List.mem_map_of_mem (f := fun q => (q.1, q.2.1, q.2.2.1)) hv))
    simp only at this
    omega

/-- C94 for windows of any structure, in any store from which all objects that it refers to can be loaded, in any order
of the tasks. Without this condition it is false of the code (`C94_window_wrong`). -/
theorem C94_window_partial (bits : Nat) (hw : Spec.Whole utf8 st fuel m) (h0 : start ≤ fin) (h1 : top < bottom)
    (h2 : left < right) (t : List (Nat × Nat × Nat × Nat × Int64)) (s : Option Fail)
    (hrun : m.fillWindow utf8 st fuel bits (Cube.new start fin top bottom left right) t s) :
    (∀ e, s ≠ some (.err e)) ∧ (s = none → (t.map fun q => (q.1, q.2.1, q.2.2.1)).Nodup ∧
      ∀ i r c, (i < fin - start ∧ r < bottom - top ∧ c < right - left) ↔ ∃ b v, (i, r, c, b, v) ∈ t) := by
  rw [Cube.new_eq h0 h1.le h2.le] at hrun
  obtain ⟨a, key⟩ := MMStruct3.fillWindow_full fuel m bits start fin top bottom left right hw h0 h1 h2 t s hrun
  refine ⟨a, fun hs => ?_⟩
  have key := key hs
  rw [places_eq] at key
  refine ⟨key.nodup_iff.2 (Spec.cells3_nodup ..), fun i r c => ⟨fun h => ?_, ?_⟩⟩
  · have hm : (i, r, c) ∈ Spec.cells3 0 (fin - start) 0 (bottom - top) 0 (right - left) := by
      unfold Spec.cells3 Spec.cells
      simp only [List.mem_flatMap, List.mem_map, List.mem_range'_1]
      exact ⟨i, by omega, (r, c), ⟨r, by omega, c, by omega, rfl⟩, rfl⟩
    obtain ⟨⟨i', r', c', b, v⟩, h1, h2⟩ := List.mem_map.1 (key.mem_iff.2 hm)
    simp only [Prod.mk.injEq] at h2
    obtain ⟨rfl, rfl, rfl⟩ := h2
    exact ⟨b, v, h1⟩
  · rintro ⟨b, v, hv⟩
    have := cells3_bounds (key.mem_iff.1 (List.mem_map_of_mem (f := fun q => (q.1, q.2.1, q.2.2.1)) hv))
    simp only at this
    omega

/-- C94 for the series of a cell of any structure, in any store: no instant is written twice and none beyond the
end, and if the read ends well each of them has been written. -/
theorem C94_cell (bits row col : Nat) (t : List (Nat × Nat × Int64)) (s : Option Fail)
    (hrun : m.fillCell utf8 st fuel bits start fin row col t s) :
    (t.map Prod.fst).Nodup ∧ (∀ q ∈ t, q.1 < fin - start) ∧
      (s = none → ∀ i < fin - start, ∃ b v, (i, b, v) ∈ t) := by
  obtain ⟨a, b⟩ := MMStruct3.fillCell_covers fuel m bits start fin row col t s hrun
  refine ⟨subperm_nodup a List.nodup_range, fun q hq => ?_, fun hs i hi => ?_⟩
  · exact List.mem_range.1 (a.subset (List.mem_map_of_mem hq))
  · obtain ⟨⟨i', b', v⟩, h1, rfl⟩ := List.mem_map.1 ((b hs).mem_iff.2 (List.mem_range.2 hi))
    exact ⟨b', v, h1⟩

/-- C94 through an array: `cell` never panics because of a place outside of the array, and a series that is returned
holds nothing but what was read. -/
theorem C94_array_cell (row col : Nat) (h0 : start ≤ fin) (hf : 0 < fin)
    (hcheck : m.checkBounds (fin - 1) row col = some ()) (res : Except Fail (List α))
    (hres : kind.cell utf8 st fuel m start fin row col res) :
    ∃ t s, m.fillCell utf8 st fuel m.fractionalBits start fin row col t s ∧
      match s with
      | some f => res = .error f
      | none => ∃ a, res = .ok a ∧ a.length = fin - start ∧
          ∀ i x, a[i]? = some x → ∃ b v, (i, b, v) ∈ t ∧ x = kind.dec b v := by
  unfold Kind.cell at hres
  rw [csub_of_le (by omega : 1 ≤ fin)] at hres
  simp only [hcheck, csub_of_le h0] at hres
  obtain ⟨t, s, hrun, rfl⟩ := hres
  refine ⟨t, s, hrun, ?_⟩
  obtain ⟨-, hin, hall⟩ := C94_cell utf8 st fuel m start fin _ row col t s hrun
  unfold Kind.finish
  rw [if_pos (List.all_eq_true.2 fun q hq => decide_eq_true (hin q hq))]
  cases s with
  | some f => rfl
  | none =>
    refine ⟨_, rfl, by simp, fun i x hx => ?_⟩
    rw [List.getElem?_map] at hx
    obtain ⟨j, hj, rfl⟩ := Option.map_eq_some_iff.1 hx
    obtain ⟨hi, rfl⟩ := List.getElem?_eq_some_iff.1 hj
    rw [List.length_range] at hi
    rw [List.getElem_range]
    unfold written1
    cases hfind : t.reverse.find? fun q => q.1 = i with
    | none =>
      obtain ⟨b, v, hm⟩ := hall rfl i hi
      have := List.find?_eq_none.1 hfind _ (List.mem_reverse.2 hm)
      simp at this
    | some q =>
      have h1 := List.mem_reverse.1 (List.mem_of_find?_eq_some hfind)
      have h2 := List.find?_some hfind
      simp only [decide_eq_true_eq] at h2
      subst h2
      exact ⟨q.2.1, q.2.2, h1, rfl⟩

end

/-- C94 is false of the code for windows of superchunks whose parts cannot be loaded: the read of a window of nine
cells ends well and has written nothing. -/
theorem C94_window_wrong (utf8 : List Byte → Bool) : ∃ h : SuperHead,
    (MMStruct3.superchunk h []).shape = some (1, 4, 4) ∧
    (MMStruct3.superchunk h []).fillWindow utf8 (fun _ => none) 1 0 (Cube.new 0 1 0 3 0 3) [] none := by
  refine ⟨⟨1, 4, 4, 4, 1, 2, 2, 0, .i64, [.external 0, .external 1, .external 2, .external 3],
    .v0 (List.replicate 32 0), ⟨[]⟩, ⟨[]⟩⟩, rfl, ?_⟩
  rw [Cube.new_eq (by omega) (by omega) (by omega)]
  refine C25_window_silent utf8 _ 0 0 0 1 0 3 0 3 (by decide) (by decide) (by decide) fun i j hi hj => ?_
  simp only at hi hj ⊢
  have hi : i = 0 ∨ i = 1 := by omega
  have hj : j = 0 ∨ j = 1 := by omega
  rcases hi with rfl | rfl <;> rcases hj with rfl | rfl <;> exact ⟨_, rfl⟩

/-- What C93 and C94 ask for is met by an object that the library has not written: its search reports two cells, its
window has two places and its series one. -/
example : ∃ ch it, Example.apart = some ch ∧ ch.iterSearch (Cube.new 0 1 1 3 1 2) 3 7 = some it ∧
    it.toList ch 9 = some [(0, 1, 1), (0, 2, 1)] ∧
    (∀ utf8 st, (MMStruct3.subchunk ch).fillWindow utf8 st 1 0 (Cube.new 0 1 1 3 1 2)
      [(0, 0, 0, 0, 3), (0, 1, 0, 0, 7)] none) ∧
    ∀ utf8 st, (MMStruct3.subchunk ch).fillCell utf8 st 1 0 1 2 0 0 [(0, 0, 20)] none := by
  have key : (match Example.apart with
    | some ch => decide (((ch.iterSearch (Cube.new 0 1 1 3 1 2) 3 7).bind fun it => it.toList ch 9) =
          some [(0, 1, 1), (0, 2, 1)]) &&
        (decide (ch.fillWindow (Cube.new 0 1 1 3 1 2) = some [(0, 0, 0, 3), (0, 1, 0, 7)]) &&
        decide (ch.fillCell 1 2 0 0 = some [(0, 20)]))
    | none => false) = true := by decide +kernel
  cases h : Example.apart with
  | none => rw [h] at key; cases key
  | some ch =>
    rw [h] at key
    simp only [Bool.and_eq_true, decide_eq_true_eq] at key
    obtain ⟨k1, k2, k3⟩ := key
    obtain ⟨it, h1, h2⟩ := Option.bind_eq_some_iff.1 k1
    refine ⟨ch, it, rfl, h1, h2, fun utf8 st => ?_, fun utf8 st => ?_⟩
    · unfold MMStruct3.fillWindow
      simp only [k2]
      exact ⟨rfl, rfl⟩
    · unfold MMStruct3.fillCell
      simp only [k3]
      exact ⟨rfl, rfl⟩

/-- What `C94_window_partial` asks for is met by a superchunk with this chunk as its only part. -/
example (utf8 : List Byte → Bool) (st : Store) (ch : Chunk) : Spec.Whole utf8 st 2 (.superchunk
    ⟨2, 4, 4, 4, 1, 4, 1, 0, .i64, [.loc 0], .v0 (List.replicate 32 0), ⟨[]⟩, ⟨[]⟩⟩ [.subchunk ch]) := by
  intro ref href _
  cases List.mem_singleton.1 href
  refine ⟨nofun, fun m hm => ?_⟩
  cases hm
  trivial

end Verif
