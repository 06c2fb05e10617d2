import Verif.Lemmas.SnapshotSem
import Verif.Lemmas.Sums

/-! Reads of a snapshot. -/
namespace Verif

theorem i64_sub_sub (a b : Int64) : a - (a - b) = b := by grind

theorem i64_add_sub (a b : Int64) : a + (b - a) = b := by grind

section
variable {get : Nat → Nat → Int64} {rows cols k : Nat}

theorem SnapLayout.getGo {s e N} (h : SnapLayout get rows cols k s e N) (hk : 0 < k) (hh : Nat) :
    ∀ fuel p x R C row col, N[p]? = some x → x.2.2.internal = true →
      x.2.2 = K2Node.build get rows cols k (hh + 1) R C → hh < fuel →
      row < k ^ (hh + 1) → col < k ^ (hh + 1) → R + row < rows → C + col < cols →
      s.getGo fuel (k ^ (hh + 1)) row col p (x.2.2.max.getD 0) =
        some (get (R + row) (C + col)) := by
  induction hh with
  | zero =>
    intro fuel p x R C row col hp hint hx hf hr hc hR hC
    cases fuel with
    | zero => omega
    | succ fuel =>
    obtain ⟨r, h1, h2, h3⟩ := h.step p x hp hint
    have h4 := h3 _ _ _ hx row col (by simpa using hr) (by simpa using hc)
    simp only [Snapshot.getGo]
    rw [h.hk, if_neg (by omega), Nat.pow_succ, Nat.pow_zero, Nat.one_mul, Nat.div_self hk,
      if_neg (by omega), h1]
    simp only [Nat.div_one]
    rw [h.getMax _ _ h4]
    simp only [i64_sub_sub]
    rw [h.leafGe _ _ h4]
    simp only [K2Node.build, K2Node.internal, K2Node.children, List.isEmpty_nil, Nat.pow_zero,
      Nat.mul_one, K2Node.max]
    simp [hR, hC]
  | succ hh ih =>
    intro fuel p x R C row col hp hint hx hf hr hc hR hC
    cases fuel with
    | zero => omega
    | succ fuel =>
    obtain ⟨r, h1, h2, h3⟩ := h.step p x hp hint
    have hpos : 0 < k ^ (hh + 1) := Nat.pow_pos hk
    have hi : row / k ^ (hh + 1) < k := by
      rw [Nat.div_lt_iff_lt_mul hpos, Nat.mul_comm, ← Nat.pow_succ]; exact hr
    have hj : col / k ^ (hh + 1) < k := by
      rw [Nat.div_lt_iff_lt_mul hpos, Nat.mul_comm, ← Nat.pow_succ]; exact hc
    have h4 := h3 _ _ _ hx _ _ hi hj
    have er : R + row / k ^ (hh + 1) * k ^ (hh + 1) + row % k ^ (hh + 1) = R + row := by
      rw [Nat.add_assoc, Nat.mul_comm, Nat.div_add_mod]
    have ec : C + col / k ^ (hh + 1) * k ^ (hh + 1) + col % k ^ (hh + 1) = C + col := by
      rw [Nat.add_assoc, Nat.mul_comm, Nat.div_add_mod]
    have hmr := Nat.mod_lt row hpos
    have hmc := Nat.mod_lt col hpos
    simp only [Snapshot.getGo]
    have hdiv : k ^ (hh + 1 + 1) / k = k ^ (hh + 1) := by
      rw [Nat.pow_succ, Nat.mul_div_cancel _ hk]
    rw [h.hk, if_neg (by omega), hdiv, if_neg (by omega), h1]
    simp only []
    rw [h.getMax _ _ h4]
    simp only [i64_sub_sub]
    rw [h.leafGe _ _ h4]
    simp only []
    cases hin : (K2Node.build get rows cols k (hh + 1) (R + row / k ^ (hh + 1) * k ^ (hh + 1))
        (C + col / k ^ (hh + 1) * k ^ (hh + 1))).internal with
    | false =>
      simp only [Bool.not_false, Option.some.injEq]
      refine (build_leaf get rows cols k hk (hh + 1) _ _ _ _ ?_ hin).symm
      generalize row % k ^ (hh + 1) = m1 at *
      generalize col % k ^ (hh + 1) = m2 at *
      refine ⟨by omega, by omega, by omega, by omega, hR, hC⟩
    | true =>
      simp only [Bool.not_true]
      rw [ih fuel _ _ _ _ _ _ h4 hin rfl (by omega) hmr hmc (by omega) (by omega), er, ec]

theorem lt_pow_self' {k : Nat} (hk : 2 ≤ k) (e : Nat) : e < k ^ e :=
  Nat.lt_pow_self (by omega)

theorem SnapLayout.bit0 {s e N} (h : SnapLayout get rows cols k s (e + 1) N) (hk : 0 < k) :
    s.nodemap.get 0 = some (K2Node.build get rows cols k (e + 1) 0 0).internal :=
  (h.nodes.get 0 _ h.root (by
    show 0 < snapHt _
    unfold snapHt
    rw [K2Node.build_height _ _ _ _ hk]; omega)).1

/-- `Snapshot::get` reads every cell. -/
theorem SnapLayout.get_cell {s e N} (h : SnapLayout get rows cols k s (e + 1) N) (hk : 2 ≤ k)
    (hr : rows ≤ k ^ (e + 1)) (hc : cols ≤ k ^ (e + 1)) (row col : Nat) (h1 : row < rows)
    (h2 : col < cols) : s.get row col = some (get row col) := by
  unfold Snapshot.get
  rw [h.bit0 (by omega)]
  have hm := h.getMax _ _ h.root
  cases hin : (K2Node.build get rows cols k (e + 1) 0 0).internal with
  | false =>
    simp only []
    rw [hm]
    rw [build_leaf get rows cols k (by omega) (e + 1) 0 0 row col ⟨by omega, by omega, by omega,
      by omega, h1, h2⟩ hin]
  | true =>
    simp only []
    rw [hm]
    simp only []
    rw [h.hside]
    have := h.getGo (by omega) e (k ^ (e + 1)) 0 _ 0 0 row col h.root hin rfl
      (Nat.lt_trans (Nat.lt_succ_self e) (lt_pow_self' hk _)) (by omega) (by omega)
      (by omega) (by omega)
    simpa using this

end

/-! ### Windows -/

theorem csub_of_le {a b : Nat} (h : b ≤ a) : csub a b = some (a - b) := by
  unfold csub; rw [if_pos h]

/-- Interval arithmetic of one step down the tree. -/
structure ChildSpan (k sl lo hi i : Nat) : Prop where
  lt : i < k
  le : i * sl ≤ hi
  ne : lo - i * sl ≤ Nat.min (sl - 1) (hi - i * sl)
  bound : Nat.min (sl - 1) (hi - i * sl) < sl
  hi' : i * sl + Nat.min (sl - 1) (hi - i * sl) ≤ hi
  lo' : lo ≤ i * sl + (lo - i * sl)

theorem childSpan {k sl lo hi i : Nat} (hs : 0 < sl) (h1 : lo ≤ hi) (h2 : hi < k * sl)
    (h3 : lo / sl ≤ i) (h4 : i ≤ hi / sl) : ChildSpan k sl lo hi i := by
  have h6 : i * sl ≤ hi := (Nat.le_div_iff_mul_le hs).1 h4
  have h7 : lo < (i + 1) * sl := (Nat.div_lt_iff_lt_mul hs).1 (by omega)
  rw [Nat.add_mul] at h7
  have hi1 : i < k := by
    apply Nat.lt_of_mul_lt_mul_right (a := sl)
    omega
  have hle := Nat.min_le_left (sl - 1) (hi - i * sl)
  have hle' := Nat.min_le_right (sl - 1) (hi - i * sl)
  refine ⟨hi1, h6, Nat.le_min.2 ⟨by omega, by omega⟩, ?_, ?_, by omega⟩
  · exact Nat.lt_of_le_of_lt hle (by omega)
  · exact Nat.le_trans (Nat.add_le_add_left hle' _) (by omega)

/-- The double loop over the children that meet a window. -/
theorem collect_grid {β} (sl top bottom left right : Nat) (hs : 0 < sl) (h1 : top ≤ bottom)
    (h2 : left ≤ right) (f : Nat → Nat → Nat → Nat → Option (List β))
    (g : Nat → Nat → Multiset β)
    (h : ∀ i j, top / sl ≤ i → i ≤ bottom / sl → left / sl ≤ j → j ≤ right / sl →
      ∃ l, f i j (bottom - i * sl) (right - j * sl) = some l ∧
        (l : Multiset β) = boxSum (top - i * sl) (Nat.min (sl - 1) (bottom - i * sl))
          (left - j * sl) (Nat.min (sl - 1) (right - j * sl))
          (fun r c => g (i * sl + r) (j * sl + c))) :
    ∃ L, (collect (rangeIncl (top / sl) (bottom / sl)) fun i =>
        match csub bottom (i * sl) with
        | none => none
        | some b => collect (rangeIncl (left / sl) (right / sl)) fun j =>
          match csub right (j * sl) with
          | none => none
          | some r => f i j b r) = some L ∧
      (L : Multiset β) = boxSum top bottom left right g := by
  obtain ⟨L, hL1, hL2⟩ := collect_some (rangeIncl (top / sl) (bottom / sl))
    (fun i =>
        match csub bottom (i * sl) with
        | none => none
        | some b => collect (rangeIncl (left / sl) (right / sl)) fun j =>
          match csub right (j * sl) with
          | none => none
          | some r => f i j b r)
    (fun i => ∑ j ∈ Finset.Icc (left / sl) (right / sl),
      boxSum (top - i * sl) (Nat.min (sl - 1) (bottom - i * sl))
          (left - j * sl) (Nat.min (sl - 1) (right - j * sl))
          (fun r c => g (i * sl + r) (j * sl + c))) (by
    intro i hi
    rw [mem_rangeIncl] at hi
    have h6 : i * sl ≤ bottom := (Nat.le_div_iff_mul_le hs).1 hi.2
    rw [csub_of_le h6]
    simp only []
    rw [← sum_rangeIncl]
    apply collect_some
    intro j hj
    rw [mem_rangeIncl] at hj
    have h7 : j * sl ≤ right := (Nat.le_div_iff_mul_le hs).1 hj.2
    rw [csub_of_le h7]
    exact h i j hi.1 hi.2 hj.1 hj.2)
  refine ⟨L, hL1, ?_⟩
  rw [hL2, sum_rangeIncl, boxSum_split g sl top bottom left right hs h1 h2]

theorem emitLeaf_spec (top bottom left right tO lO wt wl : Nat) (v : Int64) (h1 : wt ≤ tO + top)
    (h2 : wl ≤ lO + left) :
    ∃ L, emitLeaf top bottom left right tO lO wt wl v = some L ∧
      (L : Multiset (Nat × Nat × Int64)) = boxSum top bottom left right
        (fun r c => {(tO + r - wt, lO + c - wl, v)}) := by
  unfold emitLeaf
  apply collect_box
  intro r c hr1 hr2 hc1 hc2
  rw [csub_of_le (by omega), csub_of_le (by omega)]
  exact ⟨_, rfl, rfl⟩

section
variable {get : Nat → Nat → Int64} {rows cols k : Nat}

theorem SnapLayout.fillGo {s e N} (h : SnapLayout get rows cols k s e N) (hk : 0 < k)
    (wt wl : Nat) (hh : Nat) :
    ∀ fuel p x R C top bottom left right, N[p]? = some x → x.2.2.internal = true →
      x.2.2 = K2Node.build get rows cols k (hh + 1) R C → hh < fuel →
      top ≤ bottom → left ≤ right → bottom < k ^ (hh + 1) → right < k ^ (hh + 1) →
      R + bottom < rows → C + right < cols → wt ≤ R + top → wl ≤ C + left →
      ∃ L, s.fillGo wt wl fuel (k ^ (hh + 1)) top bottom left right p (x.2.2.max.getD 0) R C =
        some L ∧ (L : Multiset (Nat × Nat × Int64)) = boxSum top bottom left right
          (fun r c => {(R + r - wt, C + c - wl, get (R + r) (C + c))}) := by
  induction hh using Nat.strongRecOn with
  | _ hh ih =>
    intro fuel p x R C top bottom left right hp hint hx hf htb hlr hb hr hR hC hwt hwl
    cases fuel with
    | zero => omega
    | succ fuel =>
    obtain ⟨r, h1, h2, h3⟩ := h.step p x hp hint
    have hpos : 0 < k ^ hh := Nat.pow_pos hk
    have hpow : k ^ (hh + 1) = k * k ^ hh := by rw [Nat.pow_succ, Nat.mul_comm]
    simp only [Snapshot.fillGo]
    rw [h.hk, if_neg (by omega), hpow, Nat.mul_div_cancel_left _ hk, if_neg (by omega), h1]
    simp only []
    apply collect_grid (k ^ hh) top bottom left right hpos htb hlr
      (f := fun i j b r' => _) (g := fun r c => {(R + r - wt, C + c - wl, get (R + r) (C + c))})
    intro i j hi1 hi2 hj1 hj2
    rw [hpow] at hb hr
    have si := childSpan (k := k) hpos htb hb hi1 hi2
    have sj := childSpan (k := k) hpos hlr hr hj1 hj2
    have h4 := h3 _ _ _ hx i j si.lt sj.lt
    rw [h.getMax _ _ h4]
    simp only [i64_sub_sub]
    rw [h.leafGe _ _ h4]
    simp only []
    obtain ⟨-, hi6, hi3, hi4, hi5, hi7⟩ := si
    obtain ⟨-, hj6, hj3, hj4, hj5, hj7⟩ := sj
    generalize Nat.min (k ^ hh - 1) (bottom - i * k ^ hh) = b' at *
    generalize Nat.min (k ^ hh - 1) (right - j * k ^ hh) = r' at *
    generalize htop : top - i * k ^ hh = top' at *
    generalize hleft : left - j * k ^ hh = left' at *
    cases hin : (K2Node.build get rows cols k hh (R + i * k ^ hh) (C + j * k ^ hh)).internal with
    | false =>
      simp only [Bool.not_false]
      obtain ⟨L, hL1, hL2⟩ := emitLeaf_spec top' b' left' r' (R + i * k ^ hh) (C + j * k ^ hh) wt wl
        ((K2Node.build get rows cols k hh (R + i * k ^ hh) (C + j * k ^ hh)).max.getD 0)
        (by omega) (by omega)
      refine ⟨L, hL1, ?_⟩
      rw [hL2]
      apply boxSum_congr
      intro r c hr1 hr2 hc1 hc2
      rw [← build_leaf get rows cols k hk hh (R + i * k ^ hh) (C + j * k ^ hh)
        (R + i * k ^ hh + r) (C + j * k ^ hh + c)
        ⟨by omega, by omega, by omega, by omega, by omega, by omega⟩ hin]
      simp only [Nat.add_assoc]
    | true =>
      simp only [Bool.not_true]
      cases hh with
      | zero => simp [K2Node.build, K2Node.internal, K2Node.children] at hin
      | succ hh =>
        obtain ⟨L, hL1, hL2⟩ := ih hh (by omega) fuel _ _ (R + i * k ^ (hh + 1))
          (C + j * k ^ (hh + 1)) top' b' left' r' h4 hin rfl (by omega) hi3 hj3 hi4 hj4
          (by omega) (by omega) (by omega) (by omega)
        refine ⟨L, hL1, ?_⟩
        rw [hL2]
        apply boxSum_congr
        intro r c hr1 hr2 hc1 hc2
        simp only [Nat.add_assoc]

/-- The cells that a search reports: those with a value in range. -/
def hitSet (get : Nat → Nat → Int64) (lower upper : Int64) (r c : Nat) : Multiset (Nat × Nat) :=
  if lower ≤ get r c ∧ get r c ≤ upper then {(r, c)} else 0

theorem pushCells_spec (top bottom left right tO lO : Nat) :
    (pushCells top bottom left right tO lO : Multiset (Nat × Nat)) =
      boxSum top bottom left right (fun r c => {(tO + r, lO + c)}) := by
  unfold pushCells boxSum
  rw [coe_flatMap, sum_rangeIncl]
  apply Finset.sum_congr rfl
  intro r _
  rw [coe_map_sum, sum_rangeIncl]

theorem boxSum_zero {M} [AddCommMonoid M] (top bottom left right : Nat) :
    boxSum top bottom left right (fun _ _ => (0 : M)) = 0 := by
  unfold boxSum; simp

theorem SnapLayout.searchGo {s e N} (h : SnapLayout get rows cols k s e N) (hk : 0 < k)
    (lower upper : Int64) (hh : Nat) :
    ∀ fuel p x R C top bottom left right, N[p]? = some x → x.2.2.internal = true →
      x.2.2 = K2Node.build get rows cols k (hh + 1) R C → hh < fuel →
      top ≤ bottom → left ≤ right → bottom < k ^ (hh + 1) → right < k ^ (hh + 1) →
      R + bottom < rows → C + right < cols →
      ∃ L, s.searchGo lower upper fuel (k ^ (hh + 1)) top bottom left right p (x.2.2.min.getD 0)
          (x.2.2.max.getD 0) R C =
        some L ∧ (L : Multiset (Nat × Nat)) = boxSum top bottom left right
          (fun r c => hitSet get lower upper (R + r) (C + c)) := by
  induction hh using Nat.strongRecOn with
  | _ hh ih =>
    intro fuel p x R C top bottom left right hp hint hx hf htb hlr hb hr hR hC
    cases fuel with
    | zero => omega
    | succ fuel =>
    obtain ⟨r, h1, h2, h3⟩ := h.step p x hp hint
    have hpos : 0 < k ^ hh := Nat.pow_pos hk
    have hpow : k ^ (hh + 1) = k * k ^ hh := by rw [Nat.pow_succ, Nat.mul_comm]
    simp only [Snapshot.searchGo]
    rw [h.hk, if_neg (by omega), hpow, Nat.mul_div_cancel_left _ hk, if_neg (by omega), h1]
    simp only []
    apply collect_grid (k ^ hh) top bottom left right hpos htb hlr
      (f := fun i j b r' => _) (g := fun r c => hitSet get lower upper (R + r) (C + c))
    intro i j hi1 hi2 hj1 hj2
    rw [hpow] at hb hr
    have si := childSpan (k := k) hpos htb hb hi1 hi2
    have sj := childSpan (k := k) hpos hlr hr hj1 hj2
    have h4 := h3 _ _ _ hx i j si.lt sj.lt
    have hpar : ∀ r c, InBox rows cols k hh (R + i * k ^ hh) (C + j * k ^ hh) r c →
        x.2.2.min.getD 0 ≤ get r c := by
      intro r c hb
      rw [hx]
      exact (build_bounds get rows cols k hk (hh + 1) R C r c (hb.parent si.lt sj.lt)).1
    have hbd := build_bounds get rows cols k hk hh (R + i * k ^ hh) (C + j * k ^ hh)
    rw [h.getMax _ _ h4]
    simp only [i64_sub_sub]
    rw [h.leafGe _ _ h4]
    simp only []
    obtain ⟨-, hi6, hi3, hi4, hi5, hi7⟩ := si
    obtain ⟨-, hj6, hj3, hj4, hj5, hj7⟩ := sj
    generalize Nat.min (k ^ hh - 1) (bottom - i * k ^ hh) = b' at *
    generalize Nat.min (k ^ hh - 1) (right - j * k ^ hh) = r' at *
    generalize htop : top - i * k ^ hh = top' at *
    generalize hleft : left - j * k ^ hh = left' at *
    have hbox : ∀ r c, top' ≤ r → r ≤ b' → left' ≤ c → c ≤ r' →
        InBox rows cols k hh (R + i * k ^ hh) (C + j * k ^ hh) (R + i * k ^ hh + r)
          (C + j * k ^ hh + c) := by
      intro r c hr1 hr2 hc1 hc2
      exact ⟨by omega, by omega, by omega, by omega, by omega, by omega⟩
    have hall : (∀ r c, top' ≤ r → r ≤ b' → left' ≤ c → c ≤ r' →
        lower ≤ get (R + i * k ^ hh + r) (C + j * k ^ hh + c) ∧
        get (R + i * k ^ hh + r) (C + j * k ^ hh + c) ≤ upper) →
        (pushCells top' b' left' r' (R + i * k ^ hh) (C + j * k ^ hh) : Multiset (Nat × Nat)) =
        boxSum top' b' left' r' (fun r c => hitSet get lower upper (R + (i * k ^ hh + r))
          (C + (j * k ^ hh + c))) := by
      intro hal
      rw [pushCells_spec]
      apply boxSum_congr
      intro r c hr1 hr2 hc1 hc2
      unfold hitSet
      rw [← Nat.add_assoc, ← Nat.add_assoc, if_pos (hal r c hr1 hr2 hc1 hc2)]
    have hnone : (∀ r c, top' ≤ r → r ≤ b' → left' ≤ c → c ≤ r' →
        ¬ (lower ≤ get (R + i * k ^ hh + r) (C + j * k ^ hh + c) ∧
        get (R + i * k ^ hh + r) (C + j * k ^ hh + c) ≤ upper)) →
        (([] : List (Nat × Nat)) : Multiset (Nat × Nat)) =
        boxSum top' b' left' r' (fun r c => hitSet get lower upper (R + (i * k ^ hh + r))
          (C + (j * k ^ hh + c))) := by
      intro hal
      rw [Multiset.coe_nil, ← boxSum_zero top' b' left' r']
      apply boxSum_congr
      intro r c hr1 hr2 hc1 hc2
      unfold hitSet
      rw [← Nat.add_assoc, ← Nat.add_assoc, if_neg (hal r c hr1 hr2 hc1 hc2)]
    cases hin : (K2Node.build get rows cols k hh (R + i * k ^ hh) (C + j * k ^ hh)).internal with
    | false =>
      simp only [Bool.not_false]
      have hval := fun r c hr1 hr2 hc1 hc2 =>
        build_leaf get rows cols k hk hh _ _ _ _ (hbox r c hr1 hr2 hc1 hc2) hin
      split
      · rename_i hcond
        refine ⟨_, rfl, hall ?_⟩
        intro r c hr1 hr2 hc1 hc2
        rw [hval r c hr1 hr2 hc1 hc2]; exact hcond
      · rename_i hcond
        refine ⟨_, rfl, hnone ?_⟩
        intro r c hr1 hr2 hc1 hc2
        rw [hval r c hr1 hr2 hc1 hc2]; exact hcond
    | true =>
      simp only [Bool.not_true]
      obtain ⟨r2, g1, g2, -⟩ := h.step _ _ h4 hin
      rw [g1]
      simp only []
      rw [g2]
      simp only [i64_add_sub]
      split
      · rename_i hcond
        refine ⟨_, rfl, hall ?_⟩
        intro r c hr1 hr2 hc1 hc2
        have hb := hbox r c hr1 hr2 hc1 hc2
        exact ⟨Int64.le_trans hcond.1 (hpar _ _ hb), Int64.le_trans (hbd _ _ hb).2 hcond.2⟩
      · split
        · cases hh with
          | zero => simp [K2Node.build, K2Node.internal, K2Node.children] at hin
          | succ hh =>
            obtain ⟨L, hL1, hL2⟩ := ih hh (by omega) fuel _ _ (R + i * k ^ (hh + 1))
              (C + j * k ^ (hh + 1)) top' b' left' r' h4 hin rfl (by omega) hi3 hj3 hi4 hj4
              (by omega) (by omega)
            refine ⟨L, hL1, ?_⟩
            rw [hL2]
            simp only [Nat.add_assoc]
        · rename_i hcond
          refine ⟨_, rfl, hnone ?_⟩
          intro r c hr1 hr2 hc1 hc2 hc
          have hb := hbox r c hr1 hr2 hc1 hc2
          exact hcond ⟨Int64.le_trans (hbd _ _ hb).1 hc.2, Int64.le_trans hc.1 (hbd _ _ hb).2⟩

end
end Verif
