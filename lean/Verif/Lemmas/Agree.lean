import Verif.Lemmas.Cells
import Verif.Lemmas.SuperTotal
import Verif.Lemmas.LogRead
import Verif.Lemmas.ChunkRead

/-! Windows and cells of snapshots and logs that need not have been built: what one loop gives and the other. -/
namespace Verif

/-- What a loop over a box gives, if it does, is what the cells of the box give. -/
def Heeds (out : Option (List (Nat × Nat × Int64))) (top bottom left right : Nat) (cell : Nat → Nat → Option Int64)
    (tO lO wt wl : Nat) : Prop :=
  ∀ L, out = some L →
    (∀ r c, top ≤ r → r ≤ bottom → left ≤ c → c ≤ right → (cell r c).isSome) ∧
    (L : Multiset (Nat × Nat × Int64)) = boxSum top bottom left right
      (fun r c => {(tO + r - wt, lO + c - wl, (cell r c).getD 0)})

/-- A loop over a box does not panic if no cell of the box does. -/
def Backs (out : Option (List (Nat × Nat × Int64))) (top bottom left right : Nat) (cell : Nat → Nat → Option Int64) :
    Prop :=
  (∀ r c, top ≤ r → r ≤ bottom → left ≤ c → c ≤ right → (cell r c).isSome) → out.isSome

theorem inChild {sl top bottom r : Nat} (hs : 0 < sl) (h1 : top ≤ r) (h2 : r ≤ bottom) :
    top / sl ≤ r / sl ∧ r / sl ≤ bottom / sl ∧ top - r / sl * sl ≤ r % sl ∧
      r % sl ≤ Nat.min (sl - 1) (bottom - r / sl * sl) ∧ r / sl * sl + r % sl = r := by
  have e := Nat.div_add_mod' r sl
  have l := Nat.mod_lt r hs
  refine ⟨Nat.div_le_div_right h1, Nat.div_le_div_right h2, ?_, Nat.le_min.2 ⟨?_, ?_⟩, e⟩
  all_goals
    generalize r / sl * sl = x at *
    omega

section
variable {sl top bottom left right tO lO wt wl : Nat} {f : Nat → Nat → Nat → Nat → Option (List (Nat × Nat × Int64))}
  {cell : Nat → Nat → Option Int64}

theorem Heeds.grid (hs : 0 < sl) (h1 : top ≤ bottom) (h2 : left ≤ right)
    (h : ∀ i j, top / sl ≤ i → i ≤ bottom / sl → left / sl ≤ j → j ≤ right / sl →
      Heeds (f i j (bottom - i * sl) (right - j * sl)) (top - i * sl) (Nat.min (sl - 1) (bottom - i * sl))
        (left - j * sl) (Nat.min (sl - 1) (right - j * sl)) (fun r c => cell (i * sl + r) (j * sl + c))
        (tO + i * sl) (lO + j * sl) wt wl) :
    Heeds (collect (rangeIncl (top / sl) (bottom / sl)) fun i =>
        match csub bottom (i * sl) with
        | none => none
        | some b => collect (rangeIncl (left / sl) (right / sl)) fun j =>
          match csub right (j * sl) with
          | none => none
          | some r => f i j b r) top bottom left right cell tO lO wt wl := by
  intro L hL
  have body : ∀ i j, top / sl ≤ i → i ≤ bottom / sl → left / sl ≤ j → j ≤ right / sl →
      ∃ l, f i j (bottom - i * sl) (right - j * sl) = some l := by
    intro i j a1 a2 a3 a4
    have hi := collect_isSome.1 (Option.isSome_iff_exists.2 ⟨L, hL⟩) i (mem_rangeIncl.2 ⟨a1, a2⟩)
    rw [csub_of_le ((Nat.le_div_iff_mul_le hs).1 a2)] at hi
    have hj := collect_isSome.1 hi j (mem_rangeIncl.2 ⟨a3, a4⟩)
    rw [csub_of_le ((Nat.le_div_iff_mul_le hs).1 a4)] at hj
    exact Option.isSome_iff_exists.1 hj
  obtain ⟨L', e, hm⟩ := collect_grid sl top bottom left right hs h1 h2 f
    (fun r c => {(tO + r - wt, lO + c - wl, (cell r c).getD 0)}) (fun i j a1 a2 a3 a4 => by
      obtain ⟨l, hl⟩ := body i j a1 a2 a3 a4
      refine ⟨l, hl, ?_⟩
      rw [(h i j a1 a2 a3 a4 l hl).2]
      simp only [Nat.add_assoc])
  have e := hL.symm.trans e
  cases e
  refine ⟨fun r c a1 a2 a3 a4 => ?_, hm⟩
  obtain ⟨b1, b2, b3, b4, b5⟩ := inChild hs a1 a2
  obtain ⟨c1, c2, c3, c4, c5⟩ := inChild hs a3 a4
  obtain ⟨l, hl⟩ := body _ _ b1 b2 c1 c2
  have := (h _ _ b1 b2 c1 c2 l hl).1 _ _ b3 b4 c3 c4
  beta_reduce at this
  rw [b5, c5] at this
  exact this

theorem Backs.grid (hs : 0 < sl)
    (h : ∀ i j, top / sl ≤ i → i ≤ bottom / sl → left / sl ≤ j → j ≤ right / sl →
      Backs (f i j (bottom - i * sl) (right - j * sl)) (top - i * sl) (Nat.min (sl - 1) (bottom - i * sl))
        (left - j * sl) (Nat.min (sl - 1) (right - j * sl)) (fun r c => cell (i * sl + r) (j * sl + c))) :
    Backs (collect (rangeIncl (top / sl) (bottom / sl)) fun i =>
        match csub bottom (i * sl) with
        | none => none
        | some b => collect (rangeIncl (left / sl) (right / sl)) fun j =>
          match csub right (j * sl) with
          | none => none
          | some r => f i j b r) top bottom left right cell := by
  intro hc
  refine collect_isSome.2 fun i hi => ?_
  rw [mem_rangeIncl] at hi
  have hi' := (Nat.le_div_iff_mul_le hs).1 hi.2
  rw [csub_of_le hi']
  refine collect_isSome.2 fun j hj => ?_
  rw [mem_rangeIncl] at hj
  have hj' := (Nat.le_div_iff_mul_le hs).1 hj.2
  rw [csub_of_le hj']
  refine h i j hi.1 hi.2 hj.1 hj.2 fun r c a1 a2 a3 a4 => hc _ _ ?_ ?_ ?_ ?_
  · omega
  · have : Nat.min (sl - 1) (bottom - i * sl) ≤ bottom - i * sl := Nat.min_le_right _ _
    generalize Nat.min (sl - 1) (bottom - i * sl) = x at *
    generalize i * sl = y at *
    omega
  · omega
  · have : Nat.min (sl - 1) (right - j * sl) ≤ right - j * sl := Nat.min_le_right _ _
    generalize Nat.min (sl - 1) (right - j * sl) = x at *
    generalize j * sl = y at *
    omega

/-- A child that meets a box has a cell of it. -/
theorem child_mem {i : Nat} (hs : 0 < sl) (h1 : top ≤ bottom) (a1 : top / sl ≤ i) (a2 : i ≤ bottom / sl) :
    top - i * sl ≤ Nat.min (sl - 1) (bottom - i * sl) := by
  have := (Nat.le_div_iff_mul_le hs).1 a2
  have h3 : top < (i + 1) * sl := (Nat.div_lt_iff_lt_mul hs).1 (by omega)
  rw [Nat.add_mul, Nat.one_mul] at h3
  refine Nat.le_min.2 ⟨?_, ?_⟩ <;> (generalize i * sl = y at *; omega)

theorem min_lt {a : Nat} (hs : 0 < sl) : Nat.min (sl - 1) a < sl :=
  Nat.lt_of_le_of_lt (Nat.min_le_left _ _) (by omega)

theorem Heeds.none : Heeds none top bottom left right cell tO lO wt wl := fun _ h => nomatch h

theorem Heeds.leaf {v : Int64} (h1 : wt ≤ tO + top) (h2 : wl ≤ lO + left)
    (hv : ∀ r c, top ≤ r → r ≤ bottom → left ≤ c → c ≤ right → cell r c = some v) :
    Heeds (emitLeaf top bottom left right tO lO wt wl v) top bottom left right cell tO lO wt wl := by
  intro L hL
  obtain ⟨L', e, hm⟩ := emitLeaf_spec top bottom left right tO lO wt wl v h1 h2
  rw [hL] at e
  cases e
  refine ⟨fun r c a1 a2 a3 a4 => by rw [hv r c a1 a2 a3 a4]; rfl, hm.trans (boxSum_congr fun r c a1 a2 a3 a4 => ?_)⟩
  rw [hv r c a1 a2 a3 a4]
  rfl

theorem Heeds.congr {out : Option (List (Nat × Nat × Int64))} {cell' : Nat → Nat → Option Int64}
    (h : Heeds out top bottom left right cell' tO lO wt wl)
    (he : ∀ r c, top ≤ r → r ≤ bottom → left ≤ c → c ≤ right → cell r c = cell' r c) :
    Heeds out top bottom left right cell tO lO wt wl := by
  intro L hL
  obtain ⟨h1, h2⟩ := h L hL
  refine ⟨fun r c a1 a2 a3 a4 => by rw [he r c a1 a2 a3 a4]; exact h1 r c a1 a2 a3 a4,
    h2.trans (boxSum_congr fun r c a1 a2 a3 a4 => ?_)⟩
  rw [he r c a1 a2 a3 a4]

theorem Backs.congr {out : Option (List (Nat × Nat × Int64))} {cell' : Nat → Nat → Option Int64}
    (h : Backs out top bottom left right cell')
    (he : ∀ r c, top ≤ r → r ≤ bottom → left ≤ c → c ≤ right → cell r c = cell' r c) :
    Backs out top bottom left right cell := fun hc => h fun r c a1 a2 a3 a4 => by
  rw [← he r c a1 a2 a3 a4]
  exact hc r c a1 a2 a3 a4

end

theorem div_child {sl i r : Nat} (h : r < sl) : (i * sl + r) / sl = i ∧ (i * sl + r) % sl = r := by
  rw [Nat.mul_comm, Nat.mul_add_div (by omega), Nat.mul_add_mod, Nat.div_eq_of_lt h, Nat.mod_eq_of_lt h]
  exact ⟨by omega, rfl⟩

/-! ### Snapshots -/

theorem Snapshot.fillGo_agrees (s : Snapshot) (wt wl : Nat) :
    ∀ fuel side top bottom left right index m tO lO, top ≤ bottom → left ≤ right → wt ≤ tO + top → wl ≤ lO + left →
      Heeds (s.fillGo wt wl fuel side top bottom left right index m tO lO) top bottom left right
          (fun r c => s.getGo fuel side r c index m) tO lO wt wl ∧
        Backs (s.fillGo wt wl fuel side top bottom left right index m tO lO) top bottom left right
          (fun r c => s.getGo fuel side r c index m) := by
  intro fuel
  induction fuel with
  | zero =>
    intro side top bottom left right index m tO lO h1 h2 _ _
    exact ⟨Heeds.none, fun h => by simpa [Snapshot.getGo] using h top left (by omega) h1 (by omega) h2⟩
  | succ fuel ih =>
    intro side top bottom left right index m tO lO h1 h2 h3 h4
    simp only [Snapshot.fillGo, Snapshot.getGo]
    by_cases hk : s.k = 0
    · simp only [if_pos hk]
      exact ⟨Heeds.none, fun h => h top left (by omega) h1 (by omega) h2⟩
    simp only [if_neg hk]
    by_cases hs : side / s.k = 0
    · simp only [if_pos hs]
      exact ⟨Heeds.none, fun h => h top left (by omega) h1 (by omega) h2⟩
    simp only [if_neg hs]
    generalize side / s.k = sl at *
    cases s.nodemap.rank index with
    | none => exact ⟨Heeds.none, fun h => h top left (by omega) h1 (by omega) h2⟩
    | some r =>
      have hs' : 0 < sl := by omega
      have key : ∀ i j, top / sl ≤ i → i ≤ bottom / sl → left / sl ≤ j → j ≤ right / sl →
          Heeds (match s.max.get (1 + r * s.k * s.k + i * s.k + j) with
            | none => none
            | some d =>
              match isLeafGe s.nodemap (1 + r * s.k * s.k + i * s.k + j) with
              | none => none
              | some true => emitLeaf (top - i * sl) (Nat.min (sl - 1) (bottom - i * sl)) (left - j * sl)
                  (Nat.min (sl - 1) (right - j * sl)) (tO + i * sl) (lO + j * sl) wt wl (m - d)
              | some false => s.fillGo wt wl fuel sl (top - i * sl) (Nat.min (sl - 1) (bottom - i * sl)) (left - j * sl)
                  (Nat.min (sl - 1) (right - j * sl)) (1 + r * s.k * s.k + i * s.k + j) (m - d) (tO + i * sl) (lO + j * sl))
            (top - i * sl) (Nat.min (sl - 1) (bottom - i * sl))
            (left - j * sl) (Nat.min (sl - 1) (right - j * sl)) (fun r' c' =>
              match s.max.get (1 + r * s.k * s.k + (i * sl + r') / sl * s.k + (j * sl + c') / sl) with
              | none => none
              | some d =>
                match isLeafGe s.nodemap (1 + r * s.k * s.k + (i * sl + r') / sl * s.k + (j * sl + c') / sl) with
                | none => none
                | some true => some (m - d)
                | some false => s.getGo fuel sl ((i * sl + r') % sl) ((j * sl + c') % sl)
                    (1 + r * s.k * s.k + (i * sl + r') / sl * s.k + (j * sl + c') / sl) (m - d))
            (tO + i * sl) (lO + j * sl) wt wl ∧
          Backs (match s.max.get (1 + r * s.k * s.k + i * s.k + j) with
            | none => none
            | some d =>
              match isLeafGe s.nodemap (1 + r * s.k * s.k + i * s.k + j) with
              | none => none
              | some true => emitLeaf (top - i * sl) (Nat.min (sl - 1) (bottom - i * sl)) (left - j * sl)
                  (Nat.min (sl - 1) (right - j * sl)) (tO + i * sl) (lO + j * sl) wt wl (m - d)
              | some false => s.fillGo wt wl fuel sl (top - i * sl) (Nat.min (sl - 1) (bottom - i * sl)) (left - j * sl)
                  (Nat.min (sl - 1) (right - j * sl)) (1 + r * s.k * s.k + i * s.k + j) (m - d) (tO + i * sl) (lO + j * sl))
            (top - i * sl) (Nat.min (sl - 1) (bottom - i * sl))
            (left - j * sl) (Nat.min (sl - 1) (right - j * sl)) (fun r' c' =>
              match s.max.get (1 + r * s.k * s.k + (i * sl + r') / sl * s.k + (j * sl + c') / sl) with
              | none => none
              | some d =>
                match isLeafGe s.nodemap (1 + r * s.k * s.k + (i * sl + r') / sl * s.k + (j * sl + c') / sl) with
                | none => none
                | some true => some (m - d)
                | some false => s.getGo fuel sl ((i * sl + r') % sl) ((j * sl + c') % sl)
                    (1 + r * s.k * s.k + (i * sl + r') / sl * s.k + (j * sl + c') / sl) (m - d)) := by
        intro i j a1 a2 a3 a4
        have m1 := child_mem hs' h1 a1 a2
        have m2 := child_mem hs' h2 a3 a4
        have l1 := min_lt (a := bottom - i * sl) hs'
        have l2 := min_lt (a := right - j * sl) hs'
        have p1 : wt ≤ tO + i * sl + (top - i * sl) := by omega
        have p2 : wl ≤ lO + j * sl + (left - j * sl) := by omega
        have d1 : ∀ r', r' ≤ Nat.min (sl - 1) (bottom - i * sl) → (i * sl + r') / sl = i ∧ (i * sl + r') % sl = r' :=
          fun r' h => div_child (by omega)
        have d2 : ∀ r', r' ≤ Nat.min (sl - 1) (right - j * sl) → (j * sl + r') / sl = j ∧ (j * sl + r') % sl = r' :=
          fun r' h => div_child (by omega)
        generalize Nat.min (sl - 1) (bottom - i * sl) = B at *
        generalize Nat.min (sl - 1) (right - j * sl) = R at *
        suffices h : ∀ {P : (Nat → Nat → Option Int64) → Prop} (hP : ∀ cell cell', P cell' →
            (∀ r c, top - i * sl ≤ r → r ≤ B → left - j * sl ≤ c → c ≤ R → cell r c = cell' r c) → P cell),
            P (fun r' c' => match s.max.get (1 + r * s.k * s.k + i * s.k + j) with
              | none => none
              | some d =>
                match isLeafGe s.nodemap (1 + r * s.k * s.k + i * s.k + j) with
                | none => none
                | some true => some (m - d)
                | some false => s.getGo fuel sl r' c' (1 + r * s.k * s.k + i * s.k + j) (m - d)) → P _ by
          refine ⟨h (fun _ _ => Heeds.congr) ?_, h (fun _ _ => Backs.congr) ?_⟩
          · cases s.max.get (1 + r * s.k * s.k + i * s.k + j) with
            | none => exact Heeds.none
            | some d =>
              simp only
              cases isLeafGe s.nodemap (1 + r * s.k * s.k + i * s.k + j) with
              | none => exact Heeds.none
              | some leaf =>
                cases leaf with
                | true => exact Heeds.leaf p1 p2 fun _ _ _ _ _ _ => rfl
                | false => exact (ih _ _ _ _ _ _ _ _ _ m1 m2 p1 p2).1
          · cases s.max.get (1 + r * s.k * s.k + i * s.k + j) with
            | none => exact fun h => h _ _ (Nat.le_refl _) m1 (Nat.le_refl _) m2
            | some d =>
              simp only
              cases isLeafGe s.nodemap (1 + r * s.k * s.k + i * s.k + j) with
              | none => exact fun h => h _ _ (Nat.le_refl _) m1 (Nat.le_refl _) m2
              | some leaf =>
                cases leaf with
                | true =>
                  intro _
                  obtain ⟨L, e, -⟩ := emitLeaf_spec (top - i * sl) B (left - j * sl) R (tO + i * sl) (lO + j * sl) wt wl (m - d) p1 p2
                  simp only [e, Option.isSome_some]
                | false => exact (ih _ _ _ _ _ _ _ _ _ m1 m2 p1 p2).2
        intro P hP h0
        refine hP _ _ h0 fun r' c' b1 b2 b3 b4 => ?_
        rw [(d1 r' b2).1, (d1 r' b2).2, (d2 c' b4).1, (d2 c' b4).2]
      exact ⟨Heeds.grid hs' h1 h2 fun i j a1 a2 a3 a4 => (key i j a1 a2 a3 a4).1,
        Backs.grid hs' fun i j a1 a2 a3 a4 => (key i j a1 a2 a3 a4).2⟩

/-- What `Heeds` says of a window. -/
theorem Heeds.window {out : Option (List (Nat × Nat × Int64))} {top bottom left right : Nat}
    {cell : Nat → Nat → Option Int64} (h1 : top < bottom) (h2 : left < right)
    (h : Heeds out top (bottom - 1) left (right - 1) cell 0 0 top left) :
    ∀ L, out = some L →
      (∀ r c, top ≤ r → r < bottom → left ≤ c → c < right → (cell r c).isSome) ∧
        L.Perm (Spec.window (fun r c => (cell r c).getD 0) top bottom left right) := by
  intro L hL
  obtain ⟨a, b⟩ := h L hL
  refine ⟨fun r c a1 a2 a3 a4 => a r c a1 (by omega) a3 (by omega), Multiset.coe_eq_coe.1 ?_⟩
  rw [b, window_coe _ _ _ _ _ h1 h2]
  simp only [Nat.zero_add]

theorem emitAll_window {top bottom left right : Nat} {cell : Nat → Nat → Option Int64} {v : Int64}
    (hv : ∀ r c, top ≤ r → r < bottom → left ≤ c → c < right → cell r c = some v) :
    (∀ r c, top ≤ r → r < bottom → left ≤ c → c < right → (cell r c).isSome) ∧
      (emitAll (bottom - top) (right - left) v).Perm
        (Spec.window (fun r c => (cell r c).getD 0) top bottom left right) := by
  refine ⟨fun r c a1 a2 a3 a4 => by rw [hv r c a1 a2 a3 a4]; rfl, ?_⟩
  rw [emitAll_eq (fun r c => (cell r c).getD 0) _ _ _ _ v fun r c a1 a2 a3 a4 => by
    rw [hv r c a1 a2 a3 a4]
    rfl]

theorem Snapshot.fillWindow_heeds (s : Snapshot) {top bottom left right : Nat} (h1 : top < bottom)
    (h2 : left < right) : ∀ L, s.fillWindow ⟨top, bottom, left, right⟩ = some L →
      (∀ r c, top ≤ r → r < bottom → left ≤ c → c < right → (s.get r c).isSome) ∧
        L.Perm (Spec.window (fun r c => (s.get r c).getD 0) top bottom left right) := by
  intro L hL
  simp only [Snapshot.fillWindow, Rect.rows, Rect.cols, csub_of_le h1.le, csub_of_le h2.le,
    csub_of_le (Nat.one_le_of_lt h1), csub_of_le (Nat.one_le_of_lt h2)] at hL
  unfold Snapshot.get
  cases hb : s.nodemap.get 0 with
  | none => simp [hb] at hL
  | some bit =>
    cases hm : s.max.get 0 with
    | none => cases bit <;> simp [hb, hm] at hL
    | some m =>
      cases bit with
      | false =>
        simp only [hb, hm, Option.some.injEq] at hL
        subst hL
        exact emitAll_window fun _ _ _ _ _ _ => rfl
      | true =>
        simp only [hb, hm] at hL
        exact Heeds.window h1 h2 (s.fillGo_agrees top left _ _ _ _ _ _ _ _ 0 0 (by omega) (by omega) (by omega) (by omega)).1 L hL

theorem Snapshot.fillWindow_backs (s : Snapshot) {top bottom left right : Nat} (h1 : top < bottom)
    (h2 : left < right)
    (h : ∀ r c, top ≤ r → r < bottom → left ≤ c → c < right → (s.get r c).isSome) :
    (s.fillWindow ⟨top, bottom, left, right⟩).isSome := by
  have h0 := h top left (by omega) h1 (by omega) h2
  simp only [Snapshot.fillWindow, Rect.rows, Rect.cols, csub_of_le h1.le, csub_of_le h2.le,
    csub_of_le (Nat.one_le_of_lt h1), csub_of_le (Nat.one_le_of_lt h2)]
  unfold Snapshot.get at h h0
  cases hb : s.nodemap.get 0 with
  | none => simp [hb] at h0
  | some bit =>
    cases hm : s.max.get 0 with
    | none => cases bit <;> simp [hb, hm] at h0
    | some m =>
      cases bit with
      | false => rfl
      | true =>
        simp only [hb, hm] at h
        exact (s.fillGo_agrees top left _ _ _ _ _ _ _ _ 0 0 (by omega) (by omega) (by omega) (by omega)).2
          fun r c a1 a2 a3 a4 => h r c a1 (by omega) a3 (by omega)

/-! ### Logs -/

/-- Behind the last bit of the tree `equal` cannot be asked: `rank` panics. -/
theorem Log.equalAt_past (l : Log) (i : Nat) (h : l.nodemap.length ≤ i) : l.equalAt i = none := by
  unfold Log.equalAt BitMap.rank0 BitMap.rank
  rw [if_pos (by omega)]

theorem Log.leafT_get {l : Log} {index : Nat} (h : isLeafGt l.nodemap index = some true)
    (hi : index < l.nodemap.length) : l.nodemap.get index = some false := by
  unfold isLeafGt at h
  rw [if_neg (by omega)] at h
  cases hg : l.nodemap.get index with
  | none => simp [hg] at h
  | some b => cases b <;> simp [hg] at h ⊢

/-- What `Log.getGo` does with the child it has chosen. -/
def Log.goOn (l : Log) (s : Snapshot) (fuel sl : Nat) (mT mS : Int64) (xT xS : Option Nat) (r' c' : Nat) : Option Int64 :=
  match s.childMaxS mS xS, l.childMaxT mT xT, optLeaf isLeafGt l.nodemap xT, optLeaf isLeafGt s.nodemap xS with
  | some maxS, some maxT, some leafT, some leafS =>
    if leafT && leafS then some (maxT + maxS)
    else if leafS then l.getGo s fuel sl r' c' xT none maxT maxS
    else if leafT then
      match xT with
      | none => l.getGo s fuel sl r' c' none xS maxT maxS
      | some index =>
        if index < l.nodemap.length then
          match l.equalAt index with
          | none => none
          | some false => some (maxT + maxS)
          | some true => l.getGo s fuel sl r' c' none xS maxT maxS
        else l.getGo s fuel sl r' c' none xS maxT maxS
    else l.getGo s fuel sl r' c' xT xS maxT maxS
  | _, _, _, _ => none

theorem Log.fillGo_heeds (l : Log) (s : Snapshot) (wt wl : Nat) :
    ∀ fuel side top bottom left right iT iS mT mS tO lO, top ≤ bottom → left ≤ right → wt ≤ tO + top → wl ≤ lO + left →
      Heeds (l.fillGo s wt wl fuel side top bottom left right iT iS mT mS tO lO) top bottom left right
          (fun r c => l.getGo s fuel side r c iT iS mT mS) tO lO wt wl := by
  intro fuel
  induction fuel with
  | zero =>
    intro side top bottom left right iT iS mT mS tO lO h1 h2 _ _
    exact Heeds.none
  | succ fuel ih =>
    intro side top bottom left right iT iS mT mS tO lO h1 h2 h3 h4
    simp only [Log.fillGo, Log.getGo]
    by_cases hk : l.k = 0
    · simp only [if_pos hk]
      exact Heeds.none
    simp only [if_neg hk]
    by_cases hs : side / l.k = 0
    · simp only [if_pos hs]
      exact Heeds.none
    simp only [if_neg hs]
    generalize side / l.k = sl at *
    have hs' : 0 < sl := by omega
    cases childBase l.nodemap l.k iT with
    | none => exact Heeds.none
    | some bT =>
    cases childBase s.nodemap l.k iS with
    | none => exact Heeds.none
    | some bS =>
    simp only
    refine Heeds.grid hs' h1 h2 fun i j a1 a2 a3 a4 => ?_
    have m1 := child_mem hs' h1 a1 a2
    have m2 := child_mem hs' h2 a3 a4
    have l1 := min_lt (a := bottom - i * sl) hs'
    have l2 := min_lt (a := right - j * sl) hs'
    have p1 : wt ≤ tO + i * sl + (top - i * sl) := by omega
    have p2 : wl ≤ lO + j * sl + (left - j * sl) := by omega
    generalize Nat.min (sl - 1) (bottom - i * sl) = B at *
    generalize Nat.min (sl - 1) (right - j * sl) = R at *
    have d1 : ∀ r', r' ≤ B → (i * sl + r') / sl = i ∧ (i * sl + r') % sl = r' := fun r' h => div_child (by omega)
    have d2 : ∀ r', r' ≤ R → (j * sl + r') / sl = j ∧ (j * sl + r') % sl = r' := fun r' h => div_child (by omega)
    refine Heeds.congr (cell' := l.goOn s fuel sl mT mS (bT.map fun b => b + i * l.k + j)
      (bS.map fun b => b + i * l.k + j)) ?_ fun r' c' b1 b2 b3 b4 => by
        rw [(d1 r' b2).1, (d1 r' b2).2, (d2 c' b4).1, (d2 c' b4).2]
        rfl
    generalize bT.map (fun b => b + i * l.k + j) = xT
    generalize bS.map (fun b => b + i * l.k + j) = xS
    unfold Log.goOn
    cases s.childMaxS mS xS with
    | none => 
      cases l.childMaxT mT xT <;> cases optLeaf isLeafGt l.nodemap xT <;> exact Heeds.none
    | some maxS =>
    cases l.childMaxT mT xT with
    | none => exact Heeds.none
    | some maxT =>
    cases hT : optLeaf isLeafGt l.nodemap xT with
    | none => exact Heeds.none
    | some leafT =>
    cases optLeaf isLeafGt s.nodemap xS with
    | none => exact Heeds.none
    | some leafS =>
    simp only
    cases leafT <;> cases leafS <;> simp only [Bool.and_true, Bool.and_false, Bool.false_eq_true, if_true, if_false]
    · exact ih _ _ _ _ _ _ _ _ _ _ _ m1 m2 p1 p2
    · exact ih _ _ _ _ _ _ _ _ _ _ _ m1 m2 p1 p2
    · cases xT with
      | none => exact ih _ _ _ _ _ _ _ _ _ _ _ m1 m2 p1 p2
      | some index =>
        simp only
        by_cases hlen : index < l.nodemap.length
        · rw [Log.leafT_get hT hlen]
          simp only [if_pos hlen]
          cases l.equalAt index with
          | none => exact Heeds.none
          | some q =>
            cases q with
            | false => exact Heeds.leaf p1 p2 fun _ _ _ _ _ _ => rfl
            | true => exact ih _ _ _ _ _ _ _ _ _ _ _ m1 m2 p1 p2
        · simp only [if_neg hlen]
          cases hg : l.nodemap.get index with
          | none => exact Heeds.none
          | some bit =>
            cases bit with
            | true => exact ih _ _ _ _ _ _ _ _ _ _ _ m1 m2 p1 p2
            | false =>
              rw [l.equalAt_past index (by omega)]
              exact Heeds.none
    · exact Heeds.leaf p1 p2 fun _ _ _ _ _ _ => rfl

theorem Log.fillWindow_heeds (l : Log) (s : Snapshot) {top bottom left right : Nat}
    (h1 : top < bottom) (h2 : left < right) : ∀ L, l.fillWindow s ⟨top, bottom, left, right⟩ = some L →
      (∀ r c, top ≤ r → r < bottom → left ≤ c → c < right → (l.get s r c).isSome) ∧
        L.Perm (Spec.window (fun r c => (l.get s r c).getD 0) top bottom left right) := by
  intro L hL
  simp only [Log.fillWindow, Rect.rows, Rect.cols, csub_of_le h1.le, csub_of_le h2.le,
    csub_of_le (Nat.one_le_of_lt h1), csub_of_le (Nat.one_le_of_lt h2)] at hL
  unfold Log.get
  have go := fun iT iS mT mS => Heeds.window h1 h2 (l.fillGo_heeds s top left l.sidelen l.sidelen top (bottom - 1)
    left (right - 1) iT iS mT mS 0 0 (by omega) (by omega) (by omega) (by omega))
  cases hT : l.nodemap.get 0 with
  | none => simp [hT] at hL
  | some bT =>
  cases hS : s.nodemap.get 0 with
  | none => simp [hT, hS] at hL
  | some bS =>
  cases hmT : l.max.get 0 with
  | none =>
    cases bT <;> cases bS <;> cases hq : l.equal.get 0 <;> simp [hT, hS, hmT, hq] at hL
    all_goals (rename_i q; cases q <;> simp at hL)
  | some mT =>
  cases hmS : s.max.get 0 with
  | none =>
    cases bT <;> cases bS <;> cases hq : l.equal.get 0 <;> simp [hT, hS, hmT, hmS, hq] at hL
    all_goals (rename_i q; cases q <;> simp at hL)
  | some mS =>
  cases bT <;> cases bS
  · simp only [hT, hS, hmT, hmS, Bool.not_false, if_true, Option.some.injEq] at hL
    subst hL
    exact emitAll_window fun _ _ _ _ _ _ => rfl
  · cases hq : l.equal.get 0 with
    | none => simp [hT, hS, hq] at hL
    | some q =>
      cases q with
      | false =>
        simp only [hT, hS, hmT, hmS, hq, Bool.not_false, Bool.not_true, if_true, if_false, Bool.false_eq_true, Option.map_some, Option.some.injEq] at hL
        subst hL
        exact emitAll_window fun _ _ _ _ _ _ => by simp
      | true =>
        simp only [hT, hS, hmT, hmS, hq, Bool.not_false, Bool.not_true, if_true, if_false, Bool.false_eq_true, Option.map_some] at hL
        simpa using go _ _ _ _ L hL
  · simp only [hT, hS, hmT, hmS, Bool.not_false, Bool.not_true, if_true, if_false, Bool.false_eq_true] at hL
    simpa using go _ _ _ _ L hL
  · simp only [hT, hS, hmT, hmS, Bool.not_true, if_false, Bool.false_eq_true] at hL
    simpa using go _ _ _ _ L hL

end Verif
