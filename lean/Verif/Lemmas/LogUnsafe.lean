import Verif.Lemmas.LogSafe

/-! Searches of a log are wrong whenever `SearchSafe` fails. -/
namespace Verif

/-- Values far from the limits of `i64`. -/
def Moderate (get : Nat → Nat → Int64) (rows cols : Nat) : Prop :=
  ∀ r c, r < rows → c < cols → -2 ^ 61 ≤ (get r c).toInt ∧ (get r c).toInt ≤ 2 ^ 61

theorem toInt_sub_small {a b : Int64} (h1 : -2 ^ 63 ≤ a.toInt - b.toInt)
    (h2 : a.toInt - b.toInt < 2 ^ 63) : (a - b).toInt = a.toInt - b.toInt := by
  rw [Int64.toInt_sub]
  exact Int.bmod_eq_of_le (by omega) (by omega)

theorem toInt_add_small {a b : Int64} (h1 : -2 ^ 63 ≤ a.toInt + b.toInt)
    (h2 : a.toInt + b.toInt < 2 ^ 63) : (a + b).toInt = a.toInt + b.toInt := by
  rw [Int64.toInt_add]
  exact Int.bmod_eq_of_le (by omega) (by omega)

theorem Moderate.noOverflow {getS getT : Nat → Nat → Int64} {rows cols : Nat}
    (hS : Moderate getS rows cols) (hT : Moderate getT rows cols) :
    NoOverflow getS getT rows cols := by
  intro r c a b
  have := hS r c a b
  have := hT r c a b
  exact toInt_sub_small (by omega) (by omega)

/-- Without a node of the log, its contents do not matter. -/
theorem searchGo_none (l l' : Log) (s : Snapshot) (hkk : l.k = l'.k) (lower upper : Int64)
    (fuel : Nat) : ∀ sidelen top bottom left right indexS minT minS maxT maxS tO lO,
    l.searchGo s lower upper fuel sidelen top bottom left right none indexS minT minS maxT maxS tO
      lO =
    l'.searchGo s lower upper fuel sidelen top bottom left right none indexS minT minS maxT maxS tO
      lO := by
  induction fuel with
  | zero => intros; rfl
  | succ fuel ih =>
    intro sidelen top bottom left right indexS minT minS maxT maxS tO lO
    have e0 : ∀ (m : BitMap) (k : Nat), childBase m k none = some none := fun _ _ => rfl
    simp only [Log.searchGo, e0, hkk]
    cases childBase s.nodemap l'.k indexS with
    | none => rfl
    | some b => simp [Log.childMaxT, optLeaf, Log.childMinT, Log.leafMinT, ih]

/-- ... nor does its minimum, once the tests are passed. -/
theorem searchGo_none_min (l l' : Log) (s : Snapshot) (hkk : l.k = l'.k) (lower upper : Int64)
    (fuel sidelen top bottom left right : Nat) (indexS : Option Nat) (minT minT' minS maxT maxS :
    Int64) (tO lO : Nat)
    (h1 : ¬ (minS + minT ≥ lower ∧ maxS + maxT ≤ upper))
    (h2 : ¬ (minS + minT > upper ∨ maxS + maxT < lower))
    (h3 : ¬ (minS + minT' ≥ lower ∧ maxS + maxT ≤ upper))
    (h4 : ¬ (minS + minT' > upper ∨ maxS + maxT < lower)) :
    l.searchGo s lower upper fuel sidelen top bottom left right none indexS minT minS maxT maxS tO
      lO =
    l'.searchGo s lower upper fuel sidelen top bottom left right none indexS minT' minS maxT maxS tO
      lO := by
  cases fuel with
  | zero => rfl
  | succ fuel =>
    have e0 : ∀ (m : BitMap) (k : Nat), childBase m k none = some none := fun _ _ => rfl
    simp only [Log.searchGo, e0, hkk]
    rw [if_neg h1, if_neg h2, if_neg h3, if_neg h4]
    cases childBase s.nodemap l'.k indexS with
    | none => rfl
    | some b =>
      simp only [Log.childMaxT, optLeaf, Log.childMinT, Log.leafMinT, searchGo_none l l' s hkk,
        Option.map_none, if_true]
      congr 2
      congr 1
      funext i
      cases csub bottom (i * (sidelen / l'.k)) with
      | none => rfl
      | some b1 =>
      simp only []
      congr 1
      funext j
      cases csub right (j * (sidelen / l'.k)) with
      | none => rfl
      | some b2 =>
      simp only []
      cases s.childMaxS maxS (Option.map (fun b => b + i * l'.k + j) b) with
      | none => rfl
      | some m =>
      split
      · rename_i lt ls q1 q2 q3 q4
        simp only [Option.some.injEq] at q3
        subst q3
        generalize s.childMinS minS ls (Option.map (fun b => b + i * l'.k + j) b) = x
        cases x <;> simp [searchGo_none l l' s hkk]
      · rfl

section
variable {getS getT : Nat → Nat → Int64} {rows cols k : Nat}

theorem mem_hits {get : Nat → Nat → Int64} {rows cols r c : Nat} {lower upper : Int64}
    (h1 : r < rows) (h2 : c < cols) : (r, c) ∈ Spec.hits get 0 rows 0 cols lower upper ↔
      lower ≤ get r c ∧ get r c ≤ upper := by
  unfold Spec.hits
  rw [List.mem_filter, mem_cells]
  simp only [decide_eq_true_eq]
  constructor
  · exact fun h => h.2
  · exact fun h => ⟨⟨by omega, h1, by omega, h2⟩, h⟩

theorem mem_pushCells {bottom right : Nat} : (0, 0) ∈ pushCells 0 bottom 0 right 0 0 := by
  have : (0, 0) ∈ (pushCells 0 bottom 0 right 0 0 : Multiset (Nat × Nat)) := by
    rw [pushCells_spec]
    unfold boxSum
    rw [Multiset.mem_sum]
    refine ⟨0, by simp, ?_⟩
    rw [Multiset.mem_sum]
    exact ⟨0, by simp, by simp⟩
  exact this

theorem LogLayout.searchWindow_unsafe {l s e N NS}
    (h : LogLayout getS getT rows cols k l (e + 1) N)
    (hs : SnapLayout getS rows cols k s (e + 1) NS) (hk : 2 ≤ k)
    (hmS : Moderate getS rows cols) (hmT : Moderate getT rows cols)
    (hr : rows ≤ k ^ (e + 1)) (hc : cols ≤ k ^ (e + 1)) (h1 : 0 < rows) (h2 : 0 < cols)
    (uns : ¬ SearchSafe getS getT rows cols (k ^ (e + 1))) :
    ∃ lower upper L, lower ≤ upper ∧ l.searchWindow s ⟨0, rows, 0, cols⟩ lower upper = some L ∧
      ¬ L.Perm (Spec.hits getT 0 rows 0 cols lower upper) := by
  have hk0 : 0 < k := by omega
  have hno := hmS.noOverflow hmT
  obtain ⟨indexT, indexS, minT, minS, rc, run⟩ := searchWindow_root h hs hk0 hno hr hc h1 h2
  have run := fun lower upper => run ⟨0, rows, 0, cols⟩ lower upper h1 h2
  simp only [] at run
  simp only [run]
  have hb0 := inBox_root (k := k) hr hc h1 h2
  have bT := build_bounds getT rows cols k hk0 (e + 1) 0 0
  have bS := build_bounds getS rows cols k hk0 (e + 1) 0 0
  have aT := box_min_attained getT hk0 hb0
  have aS := box_min_attained getS hk0 hb0
  have aS' := box_max_attained getS hk0 hb0
  generalize (K2Node.build getT rows cols k (e + 1) 0 0).min.getD 0 = Tmin at *
  generalize (K2Node.build getT rows cols k (e + 1) 0 0).max.getD 0 = Tmax at *
  generalize hSmin : (K2Node.build getS rows cols k (e + 1) 0 0).min.getD 0 = Smin at *
  generalize hSmax : (K2Node.build getS rows cols k (e + 1) 0 0).max.getD 0 = Smax at *
  clear run
  obtain ⟨rt, ct, hbt, et⟩ := aT
  obtain ⟨rs, cs, hbs, es⟩ := aS
  obtain ⟨rm, cm, hbm, em⟩ := aS'
  have hbt' := hbt.2.2.2.2
  have hbs' := hbs.2.2.2.2
  have hbm' := hbm.2.2.2.2
  have z : (0 : Int64).toInt = 0 := rfl
  have one : (1 : Int64).toInt = 1 := rfl
  -- an answer with nothing in it, although the minimum is asked for
  have nothing : ∀ mT mS, mS + mT > Tmin → (∀ u, ¬ Const getT rows cols u) →
      ∃ lower upper L, lower ≤ upper ∧ l.searchGo s lower upper (k ^ (e + 1) + 1) (k ^ (e + 1)) 0 (rows - 1) 0
        (cols - 1) indexT indexS mT mS (Tmax - Smax) Smax 0 0 = some L ∧
        ¬ L.Perm (Spec.hits getT 0 rows 0 cols lower upper) := by
    intro mT mS hgt ne
    refine ⟨Tmin, Tmin, [], Int64.le_refl _, ?_, ?_⟩
    · simp only [Log.searchGo]
      rw [i64_add_sub'', if_neg, if_pos (Or.inl hgt)]
      rintro ⟨-, hle⟩
      refine ne Tmin (fun r c a b => ?_)
      have := bT r c (inBox_root hr hc a b)
      exact Int64.le_antisymm (Int64.le_trans this.2 hle) this.1
    · intro hp
      have := hp.mem_iff.2 ((mem_hits hbt'.1 hbt'.2).2 ⟨by rw [et]; exact Int64.le_refl _,
        by rw [et]; exact Int64.le_refl _⟩)
      simp at this
  -- an answer with everything in it, although nothing qualifies
  have everything : ∀ mT mS u lower upper, Const getT rows cols u → u < lower →
      mS + mT ≥ lower → Tmax ≤ upper → lower ≤ upper →
      ∃ lower upper L, lower ≤ upper ∧ l.searchGo s lower upper (k ^ (e + 1) + 1) (k ^ (e + 1)) 0 (rows - 1) 0
        (cols - 1) indexT indexS mT mS (Tmax - Smax) Smax 0 0 = some L ∧
        ¬ L.Perm (Spec.hits getT 0 rows 0 cols lower upper) := by
    intro mT mS u lower upper hu h3 h4 h5 h6
    refine ⟨lower, upper, pushCells 0 (rows - 1) 0 (cols - 1) 0 0, h6, ?_, ?_⟩
    · simp only [Log.searchGo]
      rw [i64_add_sub'', if_pos ⟨h4, h5⟩]
    · intro hp
      have := (mem_hits h1 h2).1 (hp.mem_iff.1 mem_pushCells)
      rw [hu 0 0 h1 h2] at this
      exact absurd this.1 (by rw [Int64.not_le]; exact h3)
  cases rc with
  | A okT okS ne ne' nd =>
    exact absurd ⟨fun u v a => absurd a (ne u), fun u a => absurd a (ne u),
      fun v a => absurd a (ne' v), fun d p q _ hd => absurd hd (nd p q d)⟩ uns
  | B okT okS ne =>
    refine nothing _ _ ?_ ne
    have e3 : Smin = Smax := by rw [← es, okS _ _ hbs'.1 hbs'.2]
    have e4 : ¬ 0 ≤ Smax := by
      intro h0
      apply uns
      refine ⟨fun u v a => absurd a (ne u), fun u a => absurd a (ne u), fun v a _ => ?_,
        fun d p q _ hd => ?_⟩
      · rw [← a 0 0 h1 h2, okS 0 0 h1 h2]; exact h0
      · exfalso
        refine ne (d + Smax) (fun r c a b => ?_)
        rw [← hd r c a b, okS r c a b, i64_add_sub']
    rw [i64_zero_add]
    have h5 := hno _ _ hbt'.1 hbt'.2
    rw [et, okS _ _ hbt'.1 hbt'.2] at h5
    rw [e3, gt_iff_lt, Int64.lt_iff_toInt_lt, h5]
    rw [Int64.le_iff_toInt_le] at e4
    omega
  | C okT okS ne pad =>
    refine nothing _ _ ?_ ne
    have e4 : ¬ 0 ≤ Tmax - Smax := by
      intro h0
      apply uns
      refine ⟨fun u v a => absurd a (ne u), fun u a => absurd a (ne u), fun v a _ => ?_,
        fun d p q _ hd => ?_⟩
      · exfalso
        refine ne (v + (Tmax - Smax)) (fun r c x y => ?_)
        rw [okT r c x y, a r c x y]
      · rw [← hd 0 0 h1 h2, okT 0 0 h1 h2]
        have : getS 0 0 + (Tmax - Smax) - getS 0 0 = Tmax - Smax := by grind
        rw [this]; exact h0
    rw [i64_add_zero]
    have h5 := hno _ _ hbs'.1 hbs'.2
    have h6 : getT rs cs - getS rs cs = Tmax - Smax := by rw [okT _ _ hbs'.1 hbs'.2]; grind
    rw [h6] at h5
    have h7 := (bT _ _ hbs).1
    rw [es] at h5
    rw [gt_iff_lt, Int64.lt_iff_toInt_lt]
    rw [Int64.le_iff_toInt_le] at e4 h7
    omega
  | D okT okS ne =>
    have e4 : minS ≠ Tmax := by
      intro h0
      apply uns
      refine ⟨fun u v _ b => absurd b (ne v), fun u a _ => ⟨?_, rs, cs, hbs'.1, hbs'.2, ?_⟩,
        fun v a => absurd a (ne v), fun d _ _ n => absurd okT (n _)⟩
      · intro r c x y
        rw [← a 0 0 h1 h2, okT 0 0 h1 h2, ← h0]
        exact (bS r c (inBox_root hr hc x y)).1
      · rw [es, ← a 0 0 h1 h2, okT 0 0 h1 h2, h0]
    have bu := hmT 0 0 h1 h2
    rw [okT 0 0 h1 h2] at bu
    by_cases hlt : minS < Tmax
    · have bs := hmS _ _ hbs'.1 hbs'.2
      have bm := hmS _ _ hbm'.1 hbm'.2
      rw [es] at bs
      rw [em] at bm
      have hlt' : minS < Smax := by
        rw [← Int64.not_le]
        intro hle
        refine ne minS (fun r c a b => ?_)
        have := bS r c (inBox_root hr hc a b)
        exact Int64.le_antisymm (Int64.le_trans this.2 hle) this.1
      have e5 : (Tmax - Smax).toInt = Tmax.toInt - Smax.toInt :=
        toInt_sub_small (by omega) (by omega)
      -- the raster the search looks at instead
      let getV : Nat → Nat → Int64 := fun r c => getS r c + (Tmax - Smax)
      have hV : ∀ r c, r < rows → c < cols →
          (getV r c).toInt = (getS r c).toInt + Tmax.toInt - Smax.toInt := by
        intro r c a b
        have := hmS r c a b
        rw [toInt_add_small (by omega) (by omega), e5]; omega
      have noV : NoOverflow getS getV rows cols := by
        intro r c a b
        have h8 : getV r c - getS r c = Tmax - Smax := by
          show getS r c + (Tmax - Smax) - getS r c = Tmax - Smax
          grind
        rw [h8, e5, hV r c a b]; omega
      obtain ⟨l', N', -, hl'⟩ := log_build_layout getS getV rows cols k (by omega) (e + 1)
      have dV : ∀ r c, InBox rows cols k (e + 1) 0 0 r c → getV r c - getS r c = Tmax - Smax := by
        intro r c _
        show getS r c + (Tmax - Smax) - getS r c = Tmax - Smax
        grind
      have bV := build_bounds getV rows cols k hk0 (e + 1) 0 0
      obtain ⟨d1, d2⟩ := box_shift hk0 noV hb0 _ dV
      rw [hSmin] at d2
      rw [hSmax] at d1
      have inv : SearchInv getS getV rows cols k N' NS (e + 1) 0 0 none (some 0) (Tmax - Smax) minS
          (Tmax - Smax) Smax := by
        refine ⟨?_, Or.inr ⟨by omega, fun r c hb => rfl, okS, fun _ _ => hSmin.symm⟩⟩
        intro r c hb
        have := bV r c hb
        rw [show minS + (Tmax - Smax) = (K2Node.build getV rows cols k (e + 1) 0 0).min.getD 0 by
          rw [← d2]; grind, show Smax + (Tmax - Smax) =
          (K2Node.build getV rows cols k (e + 1) 0 0).max.getD 0 by rw [← d1]; grind]
        exact this
      obtain ⟨L, hL1, hL2⟩ := hl'.searchGo hs hk0 noV Tmax Tmax (e + 1) (k ^ (e + 1) + 1) 0 0 0
        (rows - 1) 0 (cols - 1) _ _ _ _ _ _ inv
        (Nat.lt_succ_of_lt (lt_pow_self' hk _)) (by omega) (by omega) (by omega)
        (by omega) (by omega) (by omega)
      refine ⟨Tmax, Tmax, L, Int64.le_refl _, ?_, ?_⟩
      · have e6 : (minS + (Tmax - Smax)).toInt = minS.toInt + Tmax.toInt - Smax.toInt := by
          rw [toInt_add_small (by omega) (by omega), e5]; omega
        rw [searchGo_none_min l l' s (h.hk.trans hl'.hk.symm) Tmax Tmax _ _ _ _ _ _ _ 0
          (Tmax - Smax) minS (Tmax - Smax) Smax 0 0]
        · exact hL1
        all_goals rw [i64_add_sub'']
        all_goals try rw [i64_add_zero]
        all_goals simp only [ge_iff_le, gt_iff_lt, Int64.le_iff_toInt_le, Int64.lt_iff_toInt_lt, e6]
        all_goals rw [Int64.lt_iff_toInt_lt] at hlt hlt'
        all_goals omega
      · intro hp
        have m1 := hp.mem_iff.2 ((mem_hits (lower := Tmax) (upper := Tmax) hbs'.1 hbs'.2).2
          ⟨by rw [okT _ _ hbs'.1 hbs'.2]; exact Int64.le_refl _,
          by rw [okT _ _ hbs'.1 hbs'.2]; exact Int64.le_refl _⟩)
        have m2 : (rs, cs) ∈ (L : Multiset (Nat × Nat)) := m1
        rw [hL2, show (fun r c => hitSet getV Tmax Tmax (0 + r) (0 + c)) =
          hitSet getV Tmax Tmax by funext r c; rw [Nat.zero_add, Nat.zero_add]] at m2
        have hh := hits_coe getV 0 rows 0 cols Tmax Tmax h1 h2
        rw [← hh] at m2
        have m3 := (mem_hits hbs'.1 hbs'.2).1 (show (rs, cs) ∈ Spec.hits getV 0 rows 0 cols Tmax Tmax
          from m2)
        have h9 := hV _ _ hbs'.1 hbs'.2
        rw [es] at h9
        rw [Int64.le_iff_toInt_le, Int64.le_iff_toInt_le] at m3
        rw [Int64.lt_iff_toInt_lt] at hlt'
        omega
    · have hgt : Tmax.toInt < minS.toInt := by
        rw [Int64.lt_iff_toInt_lt] at hlt
        have : minS.toInt ≠ Tmax.toInt := fun h => e4 (Int64.toInt_inj.1 h)
        omega
      have e5 : (Tmax + 1).toInt = Tmax.toInt + 1 := by
        rw [toInt_add_small (by omega) (by omega), one]
      refine everything _ _ Tmax (Tmax + 1) (Tmax + 1) okT ?_ ?_
        (by rw [Int64.le_iff_toInt_le]; omega) (Int64.le_refl _)
      · rw [Int64.lt_iff_toInt_lt, e5]; omega
      · rw [i64_add_zero, ge_iff_le, Int64.le_iff_toInt_le, e5]; omega
  | E okT okS =>
    have bu := hmT 0 0 h1 h2
    rw [okT 0 0 h1 h2] at bu
    have e4 : ¬ 0 ≤ Tmax := by
      intro h0
      apply uns
      refine ⟨fun u v a _ => ?_, fun u _ n => absurd okS (n _),
        fun v _ n => absurd okT (n _), fun d _ _ n => absurd okT (n _)⟩
      rw [← a 0 0 h1 h2, okT 0 0 h1 h2]; exact h0
    rw [Int64.le_iff_toInt_le] at e4
    have e5 : (Tmax + 1).toInt = Tmax.toInt + 1 := by
      rw [toInt_add_small (by omega) (by omega), one]
    refine everything _ _ Tmax (Tmax + 1) (Tmax + 1) okT ?_ ?_
        (by rw [Int64.le_iff_toInt_le]; omega) (Int64.le_refl _)
    · rw [Int64.lt_iff_toInt_lt, e5]; omega
    · rw [i64_add_zero, ge_iff_le, Int64.le_iff_toInt_le, e5]; omega

end
end Verif
