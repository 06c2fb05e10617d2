import Mathlib.Algebra.BigOperators.Intervals
import Mathlib.Algebra.Order.Group.Multiset
import Verif.Model.Geom

/-! Sums of multisets over boxes of cells, and the loops that produce them. -/
namespace Verif

open Finset

theorem sum_range' {M} [AddCommMonoid M] (F : Nat → M) (a n : Nat) :
    ((List.range' a n).map F).sum = ∑ i ∈ Ico a (a + n), F i := by
  induction n with
  | zero => simp
  | succ n ih =>
    rw [List.range'_concat, List.map_append, List.sum_append, ih, ← Nat.add_assoc,
      Finset.sum_Ico_succ_top (by omega)]
    simp

theorem sum_rangeIncl {M} [AddCommMonoid M] (F : Nat → M) (a b : Nat) :
    ((rangeIncl a b).map F).sum = ∑ i ∈ Icc a b, F i := by
  unfold rangeIncl
  rw [sum_range']
  apply Finset.sum_congr _ (fun _ _ => rfl)
  ext x; simp; omega

theorem sum_rangeExcl {M} [AddCommMonoid M] (F : Nat → M) (a b : Nat) :
    ((rangeExcl a b).map F).sum = ∑ i ∈ Ico a b, F i := by
  unfold rangeExcl
  rw [sum_range']
  apply Finset.sum_congr _ (fun _ _ => rfl)
  ext x; simp; omega

theorem mem_rangeIncl {a b x : Nat} : x ∈ rangeIncl a b ↔ a ≤ x ∧ x ≤ b := by
  unfold rangeIncl; rw [List.mem_range'_1]; omega

theorem mem_rangeExcl {a b x : Nat} : x ∈ rangeExcl a b ↔ a ≤ x ∧ x < b := by
  unfold rangeExcl; rw [List.mem_range'_1]; omega

/-- An interval of positions cut by a grid of step `s`. -/
theorem sum_split {M} [AddCommMonoid M] (g : Nat → M) (s a b : Nat) (hs : 0 < s) (hab : a ≤ b) :
    ∑ r ∈ Icc a b, g r =
      ∑ i ∈ Icc (a / s) (b / s), ∑ r ∈ Icc (a - i * s) (Nat.min (s - 1) (b - i * s)),
        g (i * s + r) := by
  rw [Finset.sum_sigma']
  apply Finset.sum_bij' (i := fun r _ => (⟨r / s, r % s⟩ : Σ _ : Nat, Nat))
    (j := fun p _ => p.1 * s + p.2)
  · intro r hr
    simp only [Finset.mem_Icc] at hr
    have h1 : s * (r / s) + r % s = r := Nat.div_add_mod r s
    have h2 : r % s < s := Nat.mod_lt _ hs
    have h3 : r / s * s = s * (r / s) := Nat.mul_comm _ _
    simp only [Finset.mem_sigma, Finset.mem_Icc]
    refine ⟨⟨Nat.div_le_div_right hr.1, Nat.div_le_div_right hr.2⟩, ?_, ?_⟩
    · omega
    · exact Nat.le_min.2 ⟨by omega, by omega⟩
  · intro p hp
    simp only [Finset.mem_sigma, Finset.mem_Icc] at hp
    obtain ⟨⟨h1, h2⟩, h3, h4⟩ := hp
    have h5 := Nat.le_min.1 h4
    simp only [Finset.mem_Icc]
    have h6 : p.1 * s ≤ b := (Nat.le_div_iff_mul_le hs).1 h2
    omega
  · intro r hr
    have h1 : s * (r / s) + r % s = r := Nat.div_add_mod r s
    simp only
    rw [Nat.mul_comm]; exact h1
  · intro p hp
    simp only [Finset.mem_sigma, Finset.mem_Icc] at hp
    obtain ⟨⟨h1, h2⟩, h3, h4⟩ := hp
    have h5 := Nat.le_min.1 h4
    have h6 : p.2 < s := by omega
    rcases p with ⟨p1, p2⟩
    simp only at h6 ⊢
    have e1 : (p1 * s + p2) / s = p1 := by
      rw [Nat.mul_comm, Nat.mul_add_div hs, Nat.div_eq_of_lt h6]; rfl
    have e2 : (p1 * s + p2) % s = p2 := by
      rw [Nat.mul_comm, Nat.mul_add_mod, Nat.mod_eq_of_lt h6]
    rw [e1, e2]
  · intro r hr
    have h1 : s * (r / s) + r % s = r := Nat.div_add_mod r s
    simp only
    rw [Nat.mul_comm, h1]

/-- Sum of `g` over a box of cells (bounds inclusive). -/
def boxSum {M} [AddCommMonoid M] (top bottom left right : Nat) (g : Nat → Nat → M) : M :=
  ∑ r ∈ Icc top bottom, ∑ c ∈ Icc left right, g r c

theorem boxSum_congr {M} [AddCommMonoid M] {top bottom left right : Nat} {g g' : Nat → Nat → M}
    (h : ∀ r c, top ≤ r → r ≤ bottom → left ≤ c → c ≤ right → g r c = g' r c) :
    boxSum top bottom left right g = boxSum top bottom left right g' := by
  unfold boxSum
  apply Finset.sum_congr rfl
  intro r hr
  apply Finset.sum_congr rfl
  intro c hc
  simp only [Finset.mem_Icc] at hr hc
  exact h r c hr.1 hr.2 hc.1 hc.2

/-- A box cut by a grid of step `s`. -/
theorem boxSum_split {M} [AddCommMonoid M] (g : Nat → Nat → M) (s top bottom left right : Nat)
    (hs : 0 < s) (h1 : top ≤ bottom) (h2 : left ≤ right) :
    boxSum top bottom left right g =
      ∑ i ∈ Icc (top / s) (bottom / s), ∑ j ∈ Icc (left / s) (right / s),
        boxSum (top - i * s) (Nat.min (s - 1) (bottom - i * s))
          (left - j * s) (Nat.min (s - 1) (right - j * s))
          (fun r c => g (i * s + r) (j * s + c)) := by
  unfold boxSum
  rw [sum_split _ s top bottom hs h1]
  apply Finset.sum_congr rfl
  intro i _
  rw [Finset.sum_comm, sum_split _ s left right hs h2]
  apply Finset.sum_congr rfl
  intro j _
  rw [Finset.sum_comm]

/-- A loop whose body always succeeds. -/
theorem collect_some {α β} (xs : List α) (f : α → Option (List β)) (F : α → Multiset β)
    (h : ∀ x ∈ xs, ∃ l, f x = some l ∧ (l : Multiset β) = F x) :
    ∃ L, collect xs f = some L ∧ (L : Multiset β) = (xs.map F).sum := by
  induction xs with
  | nil => exact ⟨[], rfl, by simp⟩
  | cons x xs ih =>
    obtain ⟨l, h1, h2⟩ := h x (by simp)
    obtain ⟨L, h3, h4⟩ := ih (fun y hy => h y (by simp [hy]))
    refine ⟨l ++ L, ?_, ?_⟩
    · unfold collect; rw [h1]; simp only []; rw [h3]
    · rw [← Multiset.coe_add, h2, h4]; simp

theorem coe_flatMap {α β} (xs : List α) (f : α → List β) :
    ((xs.flatMap f : List β) : Multiset β) = (xs.map fun x => (f x : Multiset β)).sum := by
  induction xs with
  | nil => rfl
  | cons x xs ih => rw [List.flatMap_cons, ← Multiset.coe_add, ih]; simp

theorem coe_map_sum {α β} (xs : List α) (f : α → β) :
    ((xs.map f : List β) : Multiset β) = (xs.map fun x => ({f x} : Multiset β)).sum := by
  induction xs with
  | nil => rfl
  | cons x xs ih =>
    rw [List.map_cons, List.map_cons, List.sum_cons, ← ih, ← Multiset.cons_coe,
      Multiset.singleton_add]

/-- A double loop over a box. -/
theorem collect_box {β} (top bottom left right : Nat) (f : Nat → Nat → Option (List β))
    (F : Nat → Nat → Multiset β)
    (h : ∀ r c, top ≤ r → r ≤ bottom → left ≤ c → c ≤ right →
      ∃ l, f r c = some l ∧ (l : Multiset β) = F r c) :
    ∃ L, (collect (rangeIncl top bottom) fun r => collect (rangeIncl left right) (f r)) = some L ∧
      (L : Multiset β) = boxSum top bottom left right F := by
  obtain ⟨L, h1, h2⟩ := collect_some (rangeIncl top bottom)
    (fun r => collect (rangeIncl left right) (f r))
    (fun r => ∑ c ∈ Icc left right, F r c) (by
      intro r hr
      rw [mem_rangeIncl] at hr
      obtain ⟨l, h3, h4⟩ := collect_some (rangeIncl left right) (f r) (F r) (by
        intro c hc
        rw [mem_rangeIncl] at hc
        exact h r c hr.1 hr.2 hc.1 hc.2)
      exact ⟨l, h3, by rw [h4, sum_rangeIncl]⟩)
  exact ⟨L, h1, by rw [h2, sum_rangeIncl]; rfl⟩

end Verif
