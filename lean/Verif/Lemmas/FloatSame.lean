import Verif.Lemmas.SuperFloat

/-!
Values that were read back and are stored again.
-/
namespace Verif

/-- The value, or what is read back for it. -/
def Flt.Same (B : Nat) (x y : Flt) : Prop := y = x ∨ y = x.rounded B

theorem Flt.Same.rounded {B : Nat} {x y : Flt} (h : x.Same B y) : y.rounded B = x.rounded B := by
  rcases h with rfl | rfl
  · rfl
  · exact Flt.rounded_idem B x

theorem Flt.Same.nan_iff {B : Nat} {x y : Flt} (h : x.Same B y) : y = .nan ↔ x = .nan := by
  rcases h with rfl | rfl
  · exact Iff.rfl
  · cases x <;> simp [Flt.rounded]

theorem Representable.div_pow {p : Nat} {q : Rat} (h : Representable p q) (b : Nat) :
    Representable p (q / 2 ^ b) := by
  obtain ⟨m, e, hm, rfl⟩ := h
  refine ⟨m, e - b, hm, ?_⟩
  rw [zpow_sub₀ (by norm_num), zpow_natCast, mul_div_assoc]

theorem fixedOf_representable {p : Prec} {b : Nat} {q : Rat} (hq : Representable p.bits q) :
    Representable p.bits ((fixedOf b q - 1 : Int) : Rat) := by
  have hp : 1 ≤ p.bits := by cases p <;> decide
  unfold fixedOf
  split
  · rename_i h0
    have := (hq.mul_pow b).round hp
    unfold ratRound at this
    rw [if_pos (mul_nonneg h0 (by positivity))] at this
    have := this.mul_pow 1
    push_cast at this ⊢
    rw [add_sub_cancel_right, mul_comm]
    simpa using this
  · rename_i h0
    have := (hq.mul_pow b).trunc
    rw [mul_assoc, ← pow_succ] at this
    unfold ratTrunc at this
    rw [if_neg] at this
    · push_cast at this ⊢
      rwa [add_sub_cancel_right]
    · rw [not_le] at h0 ⊢
      exact mul_neg_of_neg_of_pos h0 (by positivity)

theorem roundTo_mono {B : Nat} {q q' : Rat} (h : q ≤ q') : roundTo B q ≤ roundTo B q' := by
  rw [roundTo_fixed, roundTo_fixed]
  have hp : (0 : Rat) < 2 ^ (B + 1) := by positivity
  rw [div_le_div_iff_of_pos_right hp]
  have := fixedOf_mono (b := B) h
  exact_mod_cast Int.sub_le_sub_right this 1

theorem le_roundTo_neg {B : Nat} {q : Rat} (h : q < 0) : q ≤ roundTo B q := by
  unfold roundTo
  rw [if_neg (not_le.2 h)]
  have hp : (0 : Rat) < 2 ^ (B + 1) := by positivity
  rw [le_div_iff₀ hp]
  exact Int.le_ceil _

theorem roundTo_int (B : Nat) (z : Int) : roundTo B z = z :=
  roundTo_exact ⟨z * 2 ^ B, by push_cast; rfl⟩

theorem roundTo_abs {B : Nat} {q : Rat} (h : |q| * 2 ^ B ≤ 2 ^ 60) : |roundTo B q| * 2 ^ B ≤ 2 ^ 60 := by
  have hp : (0 : Rat) < 2 ^ B := by positivity
  have key : ∀ q : Rat, q * 2 ^ B ≤ 2 ^ 60 → roundTo B q * 2 ^ B ≤ 2 ^ 60 := by
    intro q hq
    have : roundTo B q ≤ roundTo B (2 ^ 60 / 2 ^ B) := roundTo_mono ((le_div_iff₀ hp).2 hq)
    rw [roundTo_exact (q := 2 ^ 60 / 2 ^ B) ⟨2 ^ 60, by rw [div_mul_cancel₀ _ hp.ne']; norm_num⟩,
      le_div_iff₀ hp] at this
    exact this
  have key' : ∀ q : Rat, -2 ^ 60 ≤ q * 2 ^ B → -2 ^ 60 ≤ roundTo B q * 2 ^ B := by
    intro q hq
    have : roundTo B (-2 ^ 60 / 2 ^ B) ≤ roundTo B q := roundTo_mono ((div_le_iff₀ hp).2 hq)
    rw [roundTo_exact (q := -2 ^ 60 / 2 ^ B) ⟨-2 ^ 60, by rw [div_mul_cancel₀ _ hp.ne']; norm_num⟩,
      div_le_iff₀ hp] at this
    exact this
  have e : ∀ x : Rat, |x| * 2 ^ B = |x * 2 ^ B| := fun x => by rw [abs_mul, abs_of_pos hp]
  rw [e, abs_le] at h ⊢
  exact ⟨key' q h.1, key q h.2⟩

theorem Flt.Same.fits {p : Prec} {B : Nat} {round : Bool} {x y : Flt} (h : x.Same B y)
    (hf : x.Fits p B round) : y.Fits p B round := by
  rcases h with rfl | rfl
  · exact hf
  cases x with
  | nan => trivial
  | inf s => exact hf
  | fin q =>
    obtain ⟨h1, h2, h3, h4⟩ := hf
    refine ⟨?_, roundTo_abs h2, fun hr => ?_, ?_⟩
    · rw [roundTo_fixed]
      exact (fixedOf_representable h1).div_pow _
    · rw [roundTo_exact (h3 hr)]
      exact h3 hr
    · rintro ⟨a1, a2⟩
      have hp : (0 : Rat) < 2 ^ B := by positivity
      have h0 : fixedOf B q ≠ 0 := fixedOf_ne_zero h4
      have e : roundTo B q * 2 ^ B = ((fixedOf B q - 1 : Int) : Rat) / 2 := by
        rw [roundTo_fixed, pow_succ]
        field_simp
      rw [e] at a1 a2
      have b1 : ((-2 : Int) : Rat) < ((fixedOf B q - 1 : Int) : Rat) := by push_cast at a1 ⊢; linarith
      have b2 : ((fixedOf B q - 1 : Int) : Rat) ≤ ((-1 : Int) : Rat) := by push_cast at a2 ⊢; linarith
      have b1 := Int.cast_lt.1 b1
      have b2 := Int.cast_le.1 b2
      omega

theorem Balanced.same {B : Nat} {xs ys : List Flt} (h1 : ∀ y ∈ ys, ∃ x ∈ xs, x.Same B y)
    (h2 : ∀ x ∈ xs, ∃ y ∈ ys, x.Same B y) (h : Balanced xs) : Balanced ys := by
  intro q' hq'
  obtain ⟨x, hx, hs⟩ := h1 _ hq'
  obtain ⟨q, rfl, hq⟩ : ∃ q, x = .fin q ∧ (q' = q ∨ q' = roundTo B q) := by
    rcases hs with rfl | hs
    · exact ⟨q', rfl, .inl rfl⟩
    · cases x with
      | nan => cases hs
      | inf s => cases hs
      | fin q => cases hs; exact ⟨q, rfl, .inr rfl⟩
  have key : ∀ z : Int, (z : Rat) ≤ q → (z : Rat) ≤ q' := by
    intro z hz
    rcases hq with rfl | rfl
    · exact hz
    · have := roundTo_mono (B := B) hz
      rwa [roundTo_int] at this
  rcases h q hx with h | ⟨z, rfl⟩ | ⟨M, hM, e, he, h⟩
  · left
    have := key (-4) (by push_cast; exact h)
    push_cast at this
    exact this
  · right; left
    rw [roundTo_int] at hq
    exact ⟨z, by rcases hq with h | h <;> exact h⟩
  · right; right
    obtain ⟨y, hy, hs⟩ := h2 _ hM
    obtain ⟨M', rfl, hM'⟩ : ∃ M', y = .fin M' ∧ (M' = M ∨ M' = roundTo B M) := by
      rcases hs with rfl | rfl
      · exact ⟨M, rfl, .inl rfl⟩
      · exact ⟨_, rfl, .inr rfl⟩
    refine ⟨M', hy, e, ?_, ?_⟩
    · rcases hM' with rfl | rfl
      · exact he
      · have := roundTo_mono (B := B) he
        have h5 := roundTo_int B (2 ^ e)
        push_cast at h5
        rwa [h5] at this
    · have := key (-2 ^ (e + 2)) (by push_cast; exact h)
      push_cast at this
      exact this

theorem Steady.same {B : Nat} : ∀ {xs ys : List Flt}, List.Forall₂ (Flt.Same B) xs ys →
    (Steady B ys ↔ Steady B xs) := by
  intro xs ys h
  have key : List.Forall₂ (Flt.Same B) (xs.dropWhile (· = .nan)) (ys.dropWhile (· = .nan)) := by
    induction h with
    | nil => exact .nil
    | cons h hs ih =>
      rw [List.dropWhile_cons, List.dropWhile_cons]
      simp only [h.nan_iff]
      split
      · exact ih
      · exact .cons h hs
  unfold Steady
  refine exists_congr fun y => ?_
  generalize xs.dropWhile (· = .nan) = xs' at key
  generalize ys.dropWhile (· = .nan) = ys' at key
  induction key with
  | nil => simp
  | cons h hs ih =>
    simp only [List.mem_cons, forall_eq_or_imp, ih, ne_eq, h.nan_iff, h.rounded]

theorem all_same {B : Nat} {P : Flt → Prop} (hP : ∀ x y, x.Same B y → P x → P y) {xs ys : List Flt}
    (h : List.Forall₂ (Flt.Same B) xs ys) (hx : ∀ x ∈ xs, P x) : ∀ y ∈ ys, P y := by
  induction h with
  | nil => simp
  | cons h hs ih =>
    simp only [List.mem_cons, forall_eq_or_imp] at hx ⊢
    exact ⟨hP _ _ h hx.1, ih hx.2⟩

theorem forall₂_mem_right {α β : Type} {R : α → β → Prop} {xs : List α} {ys : List β}
    (h : List.Forall₂ R xs ys) : ∀ y ∈ ys, ∃ x ∈ xs, R x y := by
  induction h with
  | nil => simp
  | cons h hs ih =>
    intro y hy
    rcases List.mem_cons.1 hy with rfl | hy
    · exact ⟨_, by simp, h⟩
    · obtain ⟨x, hx, hR⟩ := ih y hy
      exact ⟨x, by simp [hx], hR⟩

theorem forall₂_mem_left {α β : Type} {R : α → β → Prop} {xs : List α} {ys : List β}
    (h : List.Forall₂ R xs ys) : ∀ x ∈ xs, ∃ y ∈ ys, R x y := by
  induction h with
  | nil => simp
  | cons h hs ih =>
    intro y hy
    rcases List.mem_cons.1 hy with rfl | hy
    · exact ⟨_, by simp, h⟩
    · obtain ⟨x, hx, hR⟩ := ih y hy
      exact ⟨x, by simp [hx], hR⟩

theorem Balanced.same_flat {B n : Nat} {vs ws : Nat → List Flt}
    (h : ∀ t, t < n → List.Forall₂ (Flt.Same B) (vs t) (ws t))
    (hb : Balanced ((List.range n).flatMap vs)) : Balanced ((List.range n).flatMap ws) := by
  refine Balanced.same (B := B) (fun y hy => ?_) (fun x hx => ?_) hb
  · obtain ⟨t, ht, hy⟩ := List.mem_flatMap.1 hy
    obtain ⟨x, hx, hs⟩ := forall₂_mem_right (h t (List.mem_range.1 ht)) y hy
    exact ⟨x, List.mem_flatMap.2 ⟨t, ht, hx⟩, hs⟩
  · obtain ⟨t, ht, hx⟩ := List.mem_flatMap.1 hx
    obtain ⟨y, hy, hs⟩ := forall₂_mem_left (h t (List.mem_range.1 ht)) x hx
    exact ⟨y, List.mem_flatMap.2 ⟨t, ht, hy⟩, hs⟩

theorem SquareOk.same {B n : Nat} {vs ws : Nat → List Flt}
    (h : ∀ t, t < n → List.Forall₂ (Flt.Same B) (vs t) (ws t)) (hs : SquareOk B n vs) :
    SquareOk B n ws := by
  have hst : (∀ t, t < n → Steady B (ws t)) ↔ ∀ t, t < n → Steady B (vs t) :=
    forall₂_congr fun t ht => Steady.same (h t ht)
  refine ⟨fun hw t ht => ?_, fun hw => ?_⟩
  · rcases hs.nans (hst.1 hw) t ht with h1 | h1
    · exact .inl (all_same (fun x y hxy => hxy.nan_iff.2) (h t ht) h1)
    · exact .inr (all_same (fun x y hxy hx hy => hx (hxy.nan_iff.1 hy)) (h t ht) h1)
  · exact Balanced.same_flat h (hs.balanced fun hc => hw (hst.2 hc))

theorem squareValues_same {B : Nat} {a a' : Nat → Nat → Nat → Flt} {top bottom left right t : Nat}
    (h : ∀ r c, top ≤ r → r < bottom → left ≤ c → c < right → (a t r c).Same B (a' t r c)) :
    List.Forall₂ (Flt.Same B) (squareValues a top bottom left right t)
      (squareValues a' top bottom left right t) := by
  unfold squareValues
  rw [List.forall₂_map_left_iff, List.forall₂_map_right_iff, List.forall₂_same]
  intro q hq
  have := Spec.mem_cells.1 hq
  exact h _ _ (by omega) (by omega) (by omega) (by omega)

theorem values_same {B : Nat} {a a' : Nat → Nat → Nat → Flt} {rows cols t : Nat}
    (h : ∀ r c, r < rows → c < cols → (a t r c).Same B (a' t r c)) :
    List.Forall₂ (Flt.Same B) (MMBuffer3.values a rows cols t) (MMBuffer3.values a' rows cols t) := by
  have e := fun a : Nat → Nat → Nat → Flt => squareValues_eq a 0 0 rows cols t
  simp only [Nat.zero_add] at e
  rw [← e, ← e]
  exact squareValues_same fun r c _ hr _ hc => h r c hr hc

theorem GridOk.same {B k : Nat} {J : Nat → Prop} {a a' : Nat → Nat → Nat → Flt} {n rows cols : Nat}
    (h : ∀ t r c, t < n → r < rows → c < cols → (a t r c).Same B (a' t r c))
    (hg : GridOk B k J a n rows cols) : GridOk B k J a' n rows cols := by
  intro e i j hJ hi hj
  refine (hg e i j hJ hi hj).same fun t ht => squareValues_same fun r c _ _ _ _ => h t r c ht ?_ ?_
  · omega
  · omega

end Verif
