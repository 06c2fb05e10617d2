import Verif.Lemmas.SnapshotTree

/-! Minimum and maximum of the nodes of a snapshot tree. -/
namespace Verif

theorem stepMax_fold (cs : List (Option Int64)) : ∀ init : Option Int64,
    (∀ v, init = some v → ∃ m, cs.foldl stepMax init = some m ∧ v ≤ m) ∧
    (∀ v, some v ∈ cs → ∃ m, cs.foldl stepMax init = some m ∧ v ≤ m) ∧
    (∀ m, cs.foldl stepMax init = some m → init = some m ∨ some m ∈ cs) := by
  induction cs with
  | nil =>
    intro init
    refine ⟨fun v h => ⟨v, h, Int64.le_refl _⟩, by simp, fun m h => Or.inl h⟩
  | cons c cs ih =>
    intro init
    obtain ⟨h1, h2, h3⟩ := ih (stepMax init c)
    rw [List.foldl_cons]
    refine ⟨?_, ?_, ?_⟩
    · intro v hv
      subst hv
      cases c with
      | none => exact h1 v rfl
      | some c =>
        simp only [stepMax] at h1 ⊢
        split at h1
        · rename_i hlt
          rw [if_pos hlt]
          obtain ⟨m, hm, hle⟩ := h1 c rfl
          exact ⟨m, hm, Int64.le_trans (Int64.le_of_lt hlt) hle⟩
        · rename_i hlt
          rw [if_neg hlt]
          exact h1 v rfl
    · intro v hv
      rw [List.mem_cons] at hv
      cases hv with
      | inr hv => exact h2 v hv
      | inl hv =>
        subst hv
        cases init with
        | none => exact h1 v rfl
        | some i =>
          simp only [stepMax] at h1 ⊢
          split at h1
          · rename_i hlt
            rw [if_pos hlt]; exact h1 v rfl
          · rename_i hlt
            rw [if_neg hlt]
            obtain ⟨m, hm, hle⟩ := h1 i rfl
            refine ⟨m, hm, Int64.le_trans ?_ hle⟩
            exact Int64.not_lt.1 hlt
    · intro m hm
      cases h3 m hm with
      | inr h => right; simp [h]
      | inl h =>
        cases c with
        | none => left; exact h
        | some c =>
          cases init with
          | none => right; simp only [stepMax] at h; simp [h]
          | some i =>
            simp only [stepMax] at h
            split at h
            · right; simp [h]
            · left; exact h

theorem stepMin_fold (cs : List (Option Int64)) : ∀ init : Option Int64,
    (∀ v, init = some v → ∃ m, cs.foldl stepMin init = some m ∧ m ≤ v) ∧
    (∀ v, some v ∈ cs → ∃ m, cs.foldl stepMin init = some m ∧ m ≤ v) ∧
    (∀ m, cs.foldl stepMin init = some m → init = some m ∨ some m ∈ cs) := by
  induction cs with
  | nil =>
    intro init
    refine ⟨fun v h => ⟨v, h, Int64.le_refl _⟩, by simp, fun m h => Or.inl h⟩
  | cons c cs ih =>
    intro init
    obtain ⟨h1, h2, h3⟩ := ih (stepMin init c)
    rw [List.foldl_cons]
    refine ⟨?_, ?_, ?_⟩
    · intro v hv
      subst hv
      cases c with
      | none => exact h1 v rfl
      | some c =>
        simp only [stepMin] at h1 ⊢
        split at h1
        · rename_i hlt
          rw [if_pos hlt]
          obtain ⟨m, hm, hle⟩ := h1 c rfl
          exact ⟨m, hm, Int64.le_trans hle (Int64.le_of_lt hlt)⟩
        · rename_i hlt
          rw [if_neg hlt]
          exact h1 v rfl
    · intro v hv
      rw [List.mem_cons] at hv
      cases hv with
      | inr hv => exact h2 v hv
      | inl hv =>
        subst hv
        cases init with
        | none => exact h1 v rfl
        | some i =>
          simp only [stepMin] at h1 ⊢
          split at h1
          · rename_i hlt
            rw [if_pos hlt]; exact h1 v rfl
          · rename_i hlt
            rw [if_neg hlt]
            obtain ⟨m, hm, hle⟩ := h1 i rfl
            refine ⟨m, hm, Int64.le_trans hle ?_⟩
            exact Int64.not_lt.1 hlt
    · intro m hm
      cases h3 m hm with
      | inr h => right; simp [h]
      | inl h =>
        cases c with
        | none => left; exact h
        | some c =>
          cases init with
          | none => right; simp only [stepMin] at h; simp [h]
          | some i =>
            simp only [stepMin] at h
            split at h
            · right; simp [h]
            · left; exact h

theorem foldMax_children {β} (f : β → Option Int64) (cs : List β) :
    (∀ c ∈ cs, ∀ v, f c = some v →
      ∃ m, cs.tail.foldl (fun mx c => stepMax mx (f c)) (cs.head?.bind f) = some m ∧ v ≤ m) ∧
    (∀ m, cs.tail.foldl (fun mx c => stepMax mx (f c)) (cs.head?.bind f) = some m →
      ∃ c ∈ cs, f c = some m) := by
  cases cs with
  | nil => simp
  | cons c0 cs =>
    simp only [List.tail_cons, List.head?_cons, Option.bind_some]
    have e : cs.foldl (fun mx c => stepMax mx (f c)) (f c0) = (cs.map f).foldl stepMax (f c0) := by
      rw [List.foldl_map]
    rw [e]
    obtain ⟨h1, h2, h3⟩ := stepMax_fold (cs.map f) (f c0)
    refine ⟨?_, ?_⟩
    · intro c hc v hv
      rw [List.mem_cons] at hc
      cases hc with
      | inl hc => subst hc; exact h1 v hv
      | inr hc => exact h2 v (List.mem_map.2 ⟨c, hc, hv⟩)
    · intro m hm
      cases h3 m hm with
      | inl h => exact ⟨c0, by simp, h⟩
      | inr h =>
        obtain ⟨c, hc, h⟩ := List.mem_map.1 h
        exact ⟨c, by simp [hc], h⟩

theorem foldMin_children {β} (f : β → Option Int64) (cs : List β) :
    (∀ c ∈ cs, ∀ v, f c = some v →
      ∃ m, cs.tail.foldl (fun mx c => stepMin mx (f c)) (cs.head?.bind f) = some m ∧ m ≤ v) ∧
    (∀ m, cs.tail.foldl (fun mx c => stepMin mx (f c)) (cs.head?.bind f) = some m →
      ∃ c ∈ cs, f c = some m) := by
  cases cs with
  | nil => simp
  | cons c0 cs =>
    simp only [List.tail_cons, List.head?_cons, Option.bind_some]
    have e : cs.foldl (fun mx c => stepMin mx (f c)) (f c0) = (cs.map f).foldl stepMin (f c0) := by
      rw [List.foldl_map]
    rw [e]
    obtain ⟨h1, h2, h3⟩ := stepMin_fold (cs.map f) (f c0)
    refine ⟨?_, ?_⟩
    · intro c hc v hv
      rw [List.mem_cons] at hc
      cases hc with
      | inl hc => subst hc; exact h1 v hv
      | inr hc => exact h2 v (List.mem_map.2 ⟨c, hc, hv⟩)
    · intro m hm
      cases h3 m hm with
      | inl h => exact ⟨c0, by simp, h⟩
      | inr h =>
        obtain ⟨c, hc, h⟩ := List.mem_map.1 h
        exact ⟨c, by simp [hc], h⟩

/-- Cell `(r, c)` is inside the raster and inside the square of side `k^h` at `(R, C)`. -/
def InBox (rows cols k h R C r c : Nat) : Prop :=
  R ≤ r ∧ r < R + k ^ h ∧ C ≤ c ∧ c < C + k ^ h ∧ r < rows ∧ c < cols

theorem InBox.child {rows cols k h R C r c : Nat} (hk : 0 < k)
    (hb : InBox rows cols k (h + 1) R C r c) :
    ∃ i j, i < k ∧ j < k ∧ InBox rows cols k h (R + i * k ^ h) (C + j * k ^ h) r c := by
  obtain ⟨h1, h2, h3, h4, h5, h6⟩ := hb
  have hpos : 0 < k ^ h := Nat.pow_pos hk
  have hpow : k ^ (h + 1) = k * k ^ h := by rw [Nat.pow_succ, Nat.mul_comm]
  refine ⟨(r - R) / k ^ h, (c - C) / k ^ h, ?_, ?_, ?_⟩
  · rw [Nat.div_lt_iff_lt_mul hpos]; omega
  · rw [Nat.div_lt_iff_lt_mul hpos]; omega
  · have e1 := Nat.div_add_mod (r - R) (k ^ h)
    have e2 := Nat.div_add_mod (c - C) (k ^ h)
    have l1 := Nat.mod_lt (r - R) hpos
    have l2 := Nat.mod_lt (c - C) hpos
    rw [Nat.mul_comm] at e1 e2
    generalize (r - R) % k ^ h = m1 at *
    generalize (c - C) % k ^ h = m2 at *
    refine ⟨by omega, by omega, by omega, by omega, h5, h6⟩

theorem InBox.parent {rows cols k h R C r c i j : Nat} (hi : i < k) (hj : j < k)
    (hb : InBox rows cols k h (R + i * k ^ h) (C + j * k ^ h) r c) :
    InBox rows cols k (h + 1) R C r c := by
  obtain ⟨h1, h2, h3, h4, h5, h6⟩ := hb
  have hpow : k ^ (h + 1) = k * k ^ h := by rw [Nat.pow_succ, Nat.mul_comm]
  have m1 : (i + 1) * k ^ h ≤ k * k ^ h := Nat.mul_le_mul_right _ (by omega)
  have m2 : (j + 1) * k ^ h ≤ k * k ^ h := Nat.mul_le_mul_right _ (by omega)
  rw [Nat.add_mul] at m1 m2
  refine ⟨by omega, by omega, by omega, by omega, h5, h6⟩

section
variable (get : Nat → Nat → Int64) (rows cols k : Nat)

theorem build_sem (hk : 0 < k) (h : Nat) : ∀ R C,
    (∀ r c, InBox rows cols k h R C r c → ∃ mn mx,
      (K2Node.build get rows cols k h R C).max = some mx ∧
      (K2Node.build get rows cols k h R C).min = some mn ∧ mn ≤ get r c ∧ get r c ≤ mx) ∧
    (∀ m, (K2Node.build get rows cols k h R C).max = some m →
      ∃ r c, InBox rows cols k h R C r c ∧ get r c = m) ∧
    (∀ m, (K2Node.build get rows cols k h R C).min = some m →
      ∃ r c, InBox rows cols k h R C r c ∧ get r c = m) := by
  induction h with
  | zero =>
    intro R C
    refine ⟨?_, ?_, ?_⟩
    · intro r c hb
      obtain ⟨h1, h2, h3, h4, h5, h6⟩ := hb
      have e1 : r = R := by simp at h2; omega
      have e2 : c = C := by simp at h4; omega
      subst e1; subst e2
      refine ⟨get r c, get r c, ?_, ?_, Int64.le_refl _, Int64.le_refl _⟩
      · simp [K2Node.build, K2Node.max, h5, h6]
      · simp [K2Node.build, K2Node.min, h5, h6]
    · intro m hm
      simp only [K2Node.build, K2Node.max] at hm
      split at hm
      · rename_i hb
        exact ⟨R, C, ⟨by omega, by simp, by omega, by simp, hb.1, hb.2⟩, by simpa using hm⟩
      · simp at hm
    · intro m hm
      simp only [K2Node.build, K2Node.min] at hm
      split at hm
      · rename_i hb
        exact ⟨R, C, ⟨by omega, by simp, by omega, by simp, hb.1, hb.2⟩, by simpa using hm⟩
      · simp at hm
  | succ h ih =>
    intro R C
    have hmax := foldMax_children K2Node.max (K2Node.build get rows cols k (h + 1) R C).children
    have hmin := foldMin_children K2Node.min (K2Node.build get rows cols k (h + 1) R C).children
    rw [K2Node.build_children] at hmax hmin
    have emax : (K2Node.build get rows cols k (h + 1) R C).max = _ := rfl
    have emin : (K2Node.build get rows cols k (h + 1) R C).min = _ := rfl
    simp only [K2Node.build, K2Node.max, K2Node.min] at emax emin
    have hmem : ∀ i j, i < k → j < k →
        K2Node.build get rows cols k h (R + i * k ^ h) (C + j * k ^ h) ∈
        ((List.range k).flatMap fun i => (List.range k).map fun j =>
          K2Node.build get rows cols k h (R + i * k ^ h) (C + j * k ^ h)) := by
      intro i j hi hj
      simp only [List.mem_flatMap, List.mem_map, List.mem_range]
      exact ⟨i, hi, j, hj, rfl⟩
    refine ⟨?_, ?_, ?_⟩
    · intro r c hb
      obtain ⟨i, j, hi, hj, hb'⟩ := hb.child hk
      obtain ⟨mn, mx, h1, h2, h3, h4⟩ := (ih _ _).1 r c hb'
      obtain ⟨m1, hm1, hle1⟩ := hmax.1 _ (hmem i j hi hj) mx h1
      obtain ⟨m2, hm2, hle2⟩ := hmin.1 _ (hmem i j hi hj) mn h2
      exact ⟨m2, m1, hm1, hm2, Int64.le_trans hle2 h3, Int64.le_trans h4 hle1⟩
    · intro m hm
      obtain ⟨c, hc, hcm⟩ := hmax.2 m hm
      simp only [List.mem_flatMap, List.mem_map, List.mem_range] at hc
      obtain ⟨i, hi, j, hj, rfl⟩ := hc
      obtain ⟨r, c, hb, hv⟩ := (ih _ _).2.1 m hcm
      exact ⟨r, c, hb.parent hi hj, hv⟩
    · intro m hm
      obtain ⟨c, hc, hcm⟩ := hmin.2 m hm
      simp only [List.mem_flatMap, List.mem_map, List.mem_range] at hc
      obtain ⟨i, hi, j, hj, rfl⟩ := hc
      obtain ⟨r, c, hb, hv⟩ := (ih _ _).2.2 m hcm
      exact ⟨r, c, hb.parent hi hj, hv⟩

/-- Cells of a node lie between its minimum and maximum. -/
theorem build_bounds (hk : 0 < k) (h R C r c : Nat) (hb : InBox rows cols k h R C r c) :
    (K2Node.build get rows cols k h R C).min.getD 0 ≤ get r c ∧
      get r c ≤ (K2Node.build get rows cols k h R C).max.getD 0 := by
  obtain ⟨mn, mx, h1, h2, h3, h4⟩ := (build_sem get rows cols k hk h R C).1 r c hb
  rw [h1, h2]; exact ⟨h3, h4⟩

/-- All cells of an unexpanded node equal its maximum. -/
theorem build_leaf (hk : 0 < k) (h R C r c : Nat) (hb : InBox rows cols k h R C r c)
    (hleaf : (K2Node.build get rows cols k h R C).internal = false) :
    get r c = (K2Node.build get rows cols k h R C).max.getD 0 := by
  have hbd := build_bounds get rows cols k hk h R C r c hb
  cases h with
  | zero =>
    obtain ⟨h1, h2, h3, h4, h5, h6⟩ := hb
    have e1 : r = R := by simp at h2; omega
    have e2 : c = C := by simp at h4; omega
    subst e1; subst e2
    simp [K2Node.build, K2Node.max, h5, h6]
  | succ h =>
    have hc : (K2Node.build get rows cols k (h + 1) R C).children.isEmpty = false := by
      rw [← K2Node.height_pos, K2Node.build_height _ _ _ _ hk]; omega
    unfold K2Node.internal at hleaf
    rw [hc] at hleaf
    simp at hleaf
    rw [hleaf] at hbd
    exact Int64.le_antisymm hbd.2 hbd.1

end

end Verif
