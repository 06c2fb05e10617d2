import Verif.Lemmas.LogUnsafe

/-! Searches of a log, whatever the rasters: they return, and what they find does not depend on the
window. -/
namespace Verif

section
variable {getS getT : Nat → Nat → Int64} {rows cols k : Nat}

/-- A cell, if it is chosen. -/
def chosen (χ : Nat → Nat → Bool) (r c : Nat) : Multiset (Nat × Nat) := if χ r c then {(r, c)} else 0

theorem chosen_coe (χ : Nat → Nat → Bool) (top bottom left right : Nat)
    (h1 : top < bottom) (h2 : left < right) :
    (((Spec.cells top bottom left right).filter fun p => χ p.1 p.2 : List (Nat × Nat)) :
      Multiset (Nat × Nat)) = boxSum top (bottom - 1) left (right - 1) (chosen χ) := by
  rw [← map_cells_sum _ _ _ _ _ h1 h2]
  induction Spec.cells top bottom left right with
  | nil => rfl
  | cons p ps ih =>
    rw [List.map_cons, List.sum_cons, ← ih, List.filter_cons]
    unfold chosen
    by_cases h : χ p.1 p.2
    · rw [if_pos h, if_pos h, ← Multiset.cons_coe, Multiset.singleton_add]
    · rw [if_neg h, if_neg h, zero_add]

/-- State of a search at a square, whatever the rasters. -/
structure FindInv (getS getT : Nat → Nat → Int64) (rows cols k : Nat) (N : List K2PNode)
    (NS : List SnapEntry) (h R C : Nat) (indexT indexS : Option Nat) (minT minS maxT maxS : Int64) :
    Prop where
  bottom : h = 0 → minS + minT = maxS + maxT
  okT : ∃ getV, TOk getS getT getV rows cols k N h R C indexT maxT
  okS : SOk getS rows cols k NS h R C indexS maxS
  okm : ∀ q, indexS = some q → minS = (K2Node.build getS rows cols k h R C).min.getD 0

theorem TOk.free (N : List K2PNode) (h R C : Nat) (d : Int64) :
    ∃ getV, TOk getS getT getV rows cols k N h R C none d := ⟨fun r c => getS r c + d, fun _ _ _ => rfl⟩

theorem LogLayout.childFinds {l s e N NS} (h : LogLayout getS getT rows cols k l e N)
    (hs : SnapLayout getS rows cols k s e NS) (hk : 0 < k)
    (hh R C : Nat) (indexT indexS : Option Nat) (minT minS maxT maxS : Int64)
    (inv : FindInv getS getT rows cols k N NS (hh + 1) R C indexT indexS minT minS maxT maxS) :
    ∃ baseT baseS, childBase l.nodemap k indexT = some baseT ∧
      childBase s.nodemap k indexS = some baseS ∧
      ∀ i j, i < k → j < k →
        (∃ r c, InBox rows cols k hh (R + i * k ^ hh) (C + j * k ^ hh) r c) →
        ∃ maxT' maxS' leafT leafS minT0 minS0 minT',
          l.childMaxT maxT (baseT.map fun b => b + i * k + j) = some maxT' ∧
          s.childMaxS maxS (baseS.map fun b => b + i * k + j) = some maxS' ∧
          optLeaf isLeafGe l.nodemap (baseT.map fun b => b + i * k + j) = some leafT ∧
          optLeaf isLeafGe s.nodemap (baseS.map fun b => b + i * k + j) = some leafS ∧
          l.childMinT minT leafT (baseT.map fun b => b + i * k + j) = some minT0 ∧
          s.childMinS minS leafS (baseS.map fun b => b + i * k + j) = some minS0 ∧
          (if leafT then l.leafMinT (if leafS then maxS' else minS0) maxS' maxT'
            (baseT.map fun b => b + i * k + j) else some minT0) = some minT' ∧
          FindInv getS getT rows cols k N NS hh (R + i * k ^ hh) (C + j * k ^ hh)
            (if leafT then none else (baseT.map fun b => b + i * k + j))
            (if leafS then none else (baseS.map fun b => b + i * k + j)) minT'
            (if leafS then maxS' else minS0) maxT' maxS' := by
  obtain ⟨-, ⟨getV, okT⟩, okS, okm⟩ := inv
  obtain ⟨baseT, hbT, stepT⟩ := h.childStep hk hh R C indexT maxT okT
  obtain ⟨baseS, hbS, stepS⟩ := hs.childStep hk hh R C indexS maxS okS
  refine ⟨baseT, baseS, hbT, hbS, ?_⟩
  intro i j hi hj hne
  obtain ⟨maxT', leafT, t1, t2, -, tc⟩ := stepT i j hi hj hne
  obtain ⟨maxS', leafS, s1, s2, -, s3, s4, s5⟩ := stepS i j hi hj hne
  have hbS' : ∀ q, (baseS.map fun b => b + i * k + j) = some q → ∃ q', indexS = some q' := by
    intro q hq
    cases indexS with
    | none => simp [childBase] at hbS; subst hbS; simp at hq
    | some q' => exact ⟨q', rfl⟩
  generalize hR' : R + i * k ^ hh = R' at *
  generalize hC' : C + j * k ^ hh = C' at *
  generalize (baseT.map fun b => b + i * k + j) = idxT at *
  generalize (baseS.map fun b => b + i * k + j) = idxS at *
  obtain ⟨r0, c0, hb0⟩ := hne
  -- the snapshot side
  obtain ⟨minS0, m1, m2⟩ : ∃ minS0, s.childMinS minS leafS idxS = some minS0 ∧
      (leafS = false → minS0 = (K2Node.build getS rows cols k hh R' C').min.getD 0) := by
    cases leafS with
    | true =>
      cases idxS with
      | none => exact ⟨minS, rfl, by simp⟩
      | some q => exact ⟨minS, by simp [Snapshot.childMinS], by simp⟩
    | false =>
      obtain ⟨h0, q, hq, okq, r2, g1, g2⟩ := s5 rfl
      subst hq
      obtain ⟨q', hq'⟩ := hbS' q rfl
      have := okm q' hq'
      refine ⟨_, ?_, fun _ => rfl⟩
      simp only [Snapshot.childMinS]
      rw [g1]
      simp only [Bool.false_eq_true, if_false, g2, Option.map_some, this, i64_add_sub]
  have hminS : (if leafS then maxS' else minS0) =
      (K2Node.build getS rows cols k hh R' C').min.getD 0 := by
    cases leafS with
    | true => exact (box_const_min getS hk hb0 maxS' (s4 rfl)).symm
    | false => exact m2 rfl
  have hokS : SOk getS rows cols k NS hh R' C' (if leafS then none else idxS) maxS' := by
    cases leafS with
    | true => exact s4 rfl
    | false =>
      obtain ⟨h0, q, hq, okq, -⟩ := s5 rfl
      subst hq; exact okq
  have hlow : hh = 0 → (if leafS then maxS' else minS0) = maxS' := by
    intro h0
    cases leafS with
    | true => rfl
    | false => exact absurd h0 (s5 rfl).1
  cases leafT with
  | false =>
    cases tc with
    | node p h0 ok hmax =>
      obtain ⟨r2, g1, g2, -⟩ := h.step hk p hh R' C' ok.1 ok.2.1
      refine ⟨maxT', maxS', false, leafS, (K2Node.build getT rows cols k hh R' C').min.getD 0 -
        (K2Node.build getS rows cols k hh R' C').min.getD 0, minS0, _, t1, s1, t2, s2, ?_, m1, rfl,
        fun h => absurd h h0, ⟨getV, ok⟩, hokS, fun _ _ => hminS⟩
      simp only [Log.childMinT]
      rw [g1]
      simpa using g2
  | true =>
    obtain ⟨minT0, n1⟩ : ∃ minT0, l.childMinT minT true idxT = some minT0 := by
      cases idxT with
      | none => exact ⟨_, rfl⟩
      | some q => exact ⟨minT, by simp [Log.childMinT]⟩
    have shifted : FindInv getS getT rows cols k N NS hh R' C' none (if leafS then none else idxS)
        maxT' (if leafS then maxS' else minS0) maxT' maxS' :=
      ⟨fun h0 => by rw [hlow h0], TOk.free _ _ _ _ _, hokS, fun _ _ => hminS⟩
    refine ⟨maxT', maxS', true, leafS, minT0, minS0, ?_⟩
    cases tc with
    | inherit ok => exact ⟨maxT', t1, s1, t2, s2, n1, m1, rfl, shifted⟩
    | equal p hp hb he ok =>
      refine ⟨maxT', t1, s1, t2, s2, n1, m1, ?_, shifted⟩
      simp only [if_true, Log.leafMinT]
      rw [if_pos hp, he]
    | bottom p hp h0 ok =>
      refine ⟨maxT', t1, s1, t2, s2, n1, m1, ?_, shifted⟩
      simp only [if_true, Log.leafMinT]
      rw [if_neg (by omega)]
    | uniform p hp hb he ok =>
      refine ⟨maxS' + maxT' - (if leafS then maxS' else minS0), t1, s1, t2, s2, n1, m1, ?_,
        fun _ => by rw [i64_add_sub''], TOk.free _ _ _ _ _, hokS, fun _ _ => hminS⟩
      simp only [if_true, Log.leafMinT]
      rw [if_pos hp, he]

theorem LogLayout.searchGo_finds {l s e N NS} (h : LogLayout getS getT rows cols k l e N)
    (hs : SnapLayout getS rows cols k s e NS) (hk : 0 < k) (lower upper : Int64) (hh : Nat) :
    ∀ R C indexT indexS minT minS maxT maxS,
      FindInv getS getT rows cols k N NS hh R C indexT indexS minT minS maxT maxS →
      ∃ χ : Nat → Nat → Bool, ∀ fuel top bottom left right, hh < fuel →
      top ≤ bottom → left ≤ right → bottom < k ^ hh → right < k ^ hh →
      R + bottom < rows → C + right < cols →
      ∃ L, l.searchGo s lower upper fuel (k ^ hh) top bottom left right indexT indexS minT minS
          maxT maxS R C =
        some L ∧ (L : Multiset (Nat × Nat)) = boxSum top bottom left right
          (fun r c => chosen χ (R + r) (C + c)) := by
  have settled : ∀ (hh R C : Nat) (indexT indexS : Option Nat) (minT minS maxT maxS : Int64),
      ((minS + minT ≥ lower ∧ maxS + maxT ≤ upper) ∨ (minS + minT > upper ∨ maxS + maxT < lower)) →
      ∃ χ : Nat → Nat → Bool, ∀ fuel top bottom left right, hh < fuel →
      ∃ L, l.searchGo s lower upper fuel (k ^ hh) top bottom left right indexT indexS minT minS
          maxT maxS R C =
        some L ∧ (L : Multiset (Nat × Nat)) = boxSum top bottom left right
          (fun r c => chosen χ (R + r) (C + c)) := by
    intro hh R C indexT indexS minT minS maxT maxS hset
    by_cases hc1 : minS + minT ≥ lower ∧ maxS + maxT ≤ upper
    · refine ⟨fun _ _ => true, fun fuel top bottom left right hf => ?_⟩
      cases fuel with
      | zero => omega
      | succ fuel =>
        refine ⟨_, by simp only [Log.searchGo]; rw [if_pos hc1], ?_⟩
        rw [pushCells_spec]
        rfl
    · refine ⟨fun _ _ => false, fun fuel top bottom left right hf => ?_⟩
      cases fuel with
      | zero => omega
      | succ fuel =>
        refine ⟨[], by
          simp only [Log.searchGo]
          rw [if_neg hc1, if_pos (by rcases hset with h | h; exact absurd h hc1; exact h)], ?_⟩
        rw [Multiset.coe_nil, ← boxSum_zero top bottom left right]
        rfl
  induction hh with
  | zero =>
    intro R C indexT indexS minT minS maxT maxS inv
    obtain ⟨χ, hχ⟩ := settled 0 R C indexT indexS minT minS maxT maxS (by
      rw [inv.bottom rfl]
      by_contra hc
      rw [not_or, not_or] at hc
      simp only [gt_iff_lt, Int64.not_lt] at hc
      exact hc.1 ⟨hc.2.2, hc.2.1⟩)
    exact ⟨χ, fun fuel top bottom left right hf _ _ _ _ _ _ => hχ fuel top bottom left right hf⟩
  | succ hh ih =>
    intro R C indexT indexS minT minS maxT maxS inv
    by_cases hset : (minS + minT ≥ lower ∧ maxS + maxT ≤ upper) ∨
        (minS + minT > upper ∨ maxS + maxT < lower)
    · obtain ⟨χ, hχ⟩ := settled (hh + 1) R C indexT indexS minT minS maxT maxS hset
      exact ⟨χ, fun fuel top bottom left right hf _ _ _ _ _ _ => hχ fuel top bottom left right hf⟩
    rw [not_or] at hset
    obtain ⟨hc1, hc2⟩ := hset
    have hpos : 0 < k ^ hh := Nat.pow_pos hk
    have hpow : k ^ (hh + 1) = k * k ^ hh := by rw [Nat.pow_succ, Nat.mul_comm]
    obtain ⟨baseT, baseS, hbT, hbS, step⟩ := h.childFinds hs hk hh R C indexT indexS minT minS
      maxT maxS inv
    have kids : ∀ i j, ∃ χ : Nat → Nat → Bool, i < k → j < k →
        (∃ r c, InBox rows cols k hh (R + i * k ^ hh) (C + j * k ^ hh) r c) →
        ∃ maxT' maxS' leafT leafS minT0 minS0 minT',
          l.childMaxT maxT (baseT.map fun b => b + i * k + j) = some maxT' ∧
          s.childMaxS maxS (baseS.map fun b => b + i * k + j) = some maxS' ∧
          optLeaf isLeafGe l.nodemap (baseT.map fun b => b + i * k + j) = some leafT ∧
          optLeaf isLeafGe s.nodemap (baseS.map fun b => b + i * k + j) = some leafS ∧
          l.childMinT minT leafT (baseT.map fun b => b + i * k + j) = some minT0 ∧
          s.childMinS minS leafS (baseS.map fun b => b + i * k + j) = some minS0 ∧
          (if leafT then l.leafMinT (if leafS then maxS' else minS0) maxS' maxT'
            (baseT.map fun b => b + i * k + j) else some minT0) = some minT' ∧
          ∀ fuel top bottom left right, hh < fuel →
            top ≤ bottom → left ≤ right → bottom < k ^ hh → right < k ^ hh →
            R + i * k ^ hh + bottom < rows → C + j * k ^ hh + right < cols →
            ∃ L, l.searchGo s lower upper fuel (k ^ hh) top bottom left right
                (if leafT then none else (baseT.map fun b => b + i * k + j))
                (if leafS then none else (baseS.map fun b => b + i * k + j)) minT'
                (if leafS then maxS' else minS0) maxT' maxS' (R + i * k ^ hh) (C + j * k ^ hh) =
              some L ∧ (L : Multiset (Nat × Nat)) = boxSum top bottom left right
                (fun r c => chosen χ (R + i * k ^ hh + r) (C + j * k ^ hh + c)) := by
      intro i j
      by_cases hc : i < k ∧ j < k ∧ ∃ r c, InBox rows cols k hh (R + i * k ^ hh) (C + j * k ^ hh) r c
      · obtain ⟨maxT', maxS', leafT, leafS, minT0, minS0, minT', a1, a2, a3, a4, a5, a6, a7, inv'⟩ :=
          step i j hc.1 hc.2.1 hc.2.2
        obtain ⟨χ, hχ⟩ := ih _ _ _ _ _ _ _ _ inv'
        exact ⟨χ, fun _ _ _ => ⟨maxT', maxS', leafT, leafS, minT0, minS0, minT', a1, a2, a3, a4, a5,
          a6, a7, hχ⟩⟩
      · exact ⟨fun _ _ => false, fun h1 h2 h3 => absurd ⟨h1, h2, h3⟩ hc⟩
    choose X hX using kids
    refine ⟨fun r c => X ((r - R) / k ^ hh) ((c - C) / k ^ hh) r c, ?_⟩
    intro fuel top bottom left right hf htb hlr hb hr hR hC
    cases fuel with
    | zero => omega
    | succ fuel =>
    rw [hpow] at hb hr
    simp only [Log.searchGo]
    rw [if_neg hc1, if_neg hc2, h.hk, if_neg (by omega), hpow, Nat.mul_div_cancel_left _ hk,
      if_neg (by omega), hbT, hbS]
    simp only []
    apply collect_grid (k ^ hh) top bottom left right hpos htb hlr
      (f := fun i j b r' => _) (g := fun r c => chosen _ (R + r) (C + c))
    intro i j hi1 hi2 hj1 hj2
    obtain ⟨hi, hi6, hi3, hi4, hi5, hi7⟩ := childSpan (k := k) hpos htb hb hi1 hi2
    obtain ⟨hj, hj6, hj3, hj4, hj5, hj7⟩ := childSpan (k := k) hpos hlr hr hj1 hj2
    generalize Nat.min (k ^ hh - 1) (bottom - i * k ^ hh) = b' at *
    generalize Nat.min (k ^ hh - 1) (right - j * k ^ hh) = r' at *
    generalize htop : top - i * k ^ hh = top' at *
    generalize hleft : left - j * k ^ hh = left' at *
    have hne : InBox rows cols k hh (R + i * k ^ hh) (C + j * k ^ hh) (R + i * k ^ hh + top')
          (C + j * k ^ hh + left') :=
      ⟨by omega, by omega, by omega, by omega, by omega, by omega⟩
    obtain ⟨maxT', maxS', leafT, leafS, minT0, minS0, minT', a1, a2, a3, a4, a5, a6, a7, go⟩ :=
      hX i j hi hj ⟨_, _, hne⟩
    rw [a1, a2, a3, a4]
    simp only []
    rw [a5, a6]
    simp only []
    rw [a7]
    simp only []
    obtain ⟨L, hL1, hL2⟩ := go fuel top' b' left' r' (by omega) hi3 hj3 hi4 hj4 (by omega) (by omega)
    refine ⟨L, hL1, ?_⟩
    rw [hL2]
    apply boxSum_congr
    intro r c q1 q2 q3 q4
    have e1 : (R + (i * k ^ hh + r) - R) / k ^ hh = i := by
      rw [Nat.add_sub_cancel_left, Nat.mul_comm, Nat.mul_add_div hpos, Nat.div_eq_of_lt (by omega)]
      rfl
    have e2 : (C + (j * k ^ hh + c) - C) / k ^ hh = j := by
      rw [Nat.add_sub_cancel_left, Nat.mul_comm, Nat.mul_add_div hpos, Nat.div_eq_of_lt (by omega)]
      rfl
    unfold chosen
    beta_reduce
    rw [e1, e2, ← Nat.add_assoc, ← Nat.add_assoc]

/-- Whatever the rasters are, a search of a log returns, and what it finds in a window does not depend on
the rest of the window. -/
theorem LogLayout.searchWindow_finds {l s e N NS} (h : LogLayout getS getT rows cols k l (e + 1) N)
    (hs : SnapLayout getS rows cols k s (e + 1) NS) (hk : 2 ≤ k) (lower upper : Int64) :
    rows ≤ k ^ (e + 1) → cols ≤ k ^ (e + 1) → ∃ χ : Nat → Nat → Bool, ∀ w : Rect, InRaster w rows cols →
      ∃ L, l.searchWindow s w lower upper = some L ∧
        L.Perm ((Spec.cells w.top w.bottom w.left w.right).filter fun p => χ p.1 p.2) := by
  intro hr hc
  have hk0 : 0 < k := by omega
  obtain ⟨d, hd, hdv, hT⟩ := h.rootState (getV := logCell getS getT rows cols k (e + 1) 0 0) hk0
    fun _ _ _ => rfl
  obtain ⟨hm, hS⟩ := hs.rootState hk0
  have hpow := lt_pow_self' hk (e + 1)
  have go : ∀ indexT indexS minT minS, FindInv getS getT rows cols k N NS (e + 1) 0 0 indexT indexS
      minT minS d ((K2Node.build getS rows cols k (e + 1) 0 0).max.getD 0) →
      ∃ χ : Nat → Nat → Bool, ∀ w : Rect, InRaster w rows cols →
      ∃ L, l.searchGo s lower upper (l.sidelen + 1) l.sidelen w.top (w.bottom - 1) w.left (w.right - 1)
        indexT indexS minT minS d ((K2Node.build getS rows cols k (e + 1) 0 0).max.getD 0) 0 0 = some L ∧
        L.Perm ((Spec.cells w.top w.bottom w.left w.right).filter fun p => χ p.1 p.2) := by
    intro indexT indexS minT minS inv
    obtain ⟨χ, hχ⟩ := h.searchGo_finds hs hk0 lower upper (e + 1) 0 0 _ _ _ _ _ _ inv
    refine ⟨χ, fun w ⟨h1, h2, h3, h4⟩ => ?_⟩
    rw [h.hside]
    obtain ⟨L, hL1, hL2⟩ := hχ (k ^ (e + 1) + 1) w.top (w.bottom - 1) w.left (w.right - 1) (by omega)
      (by omega) (by omega) (by omega) (by omega) (by omega) (by omega)
    refine ⟨L, hL1, ?_⟩
    rw [← Multiset.coe_eq_coe, hL2, chosen_coe χ _ _ _ _ h1 h2]
    simp only [Nat.zero_add]
  have key : ∃ indexT indexS minT minS, FindInv getS getT rows cols k N NS (e + 1) 0 0 indexT indexS
      minT minS d ((K2Node.build getS rows cols k (e + 1) 0 0).max.getD 0) ∧
      ∃ bitT bitS, l.nodemap.get 0 = some bitT ∧ s.nodemap.get 0 = some bitS ∧ l.min.get 0 = some minT ∧
        s.min.get 0 = some minS ∧ indexT = (if bitT then some 0 else none) ∧
        indexS = (if bitS then some 0 else none) := by
    have hS' : ∃ indexS minS bitS, SOk getS rows cols k NS (e + 1) 0 0 indexS
        ((K2Node.build getS rows cols k (e + 1) 0 0).max.getD 0) ∧
        (∀ q, indexS = some q → minS = (K2Node.build getS rows cols k (e + 1) 0 0).min.getD 0) ∧
        s.nodemap.get 0 = some bitS ∧ s.min.get 0 = some minS ∧ indexS = (if bitS then some 0 else none) := by
      rcases hS with ⟨s1, s2, s3⟩ | ⟨s1, s2, s3⟩
      · exact ⟨_, _, true, s2, fun _ _ => rfl, s1, s3, rfl⟩
      · exact ⟨_, _, false, s3, fun _ h => (nomatch h), s1, s2, rfl⟩
    obtain ⟨indexS, minS, bitS, b1, b2, b3, b4, b5⟩ := hS'
    rcases hT with ⟨t1, t2, t3⟩ | ⟨t1, t2, t3, t4⟩ | ⟨t1, t2, t3, t4⟩
    · exact ⟨_, indexS, _, minS, ⟨by omega, ⟨_, t2⟩, b1, b2⟩, true, bitS, t1, b3, t3, b4, rfl, b5⟩
    · exact ⟨_, indexS, _, minS, ⟨by omega, ⟨_, t4⟩, b1, b2⟩, false, bitS, t1, b3, t3, b4, rfl, b5⟩
    · exact ⟨none, indexS, _, minS, ⟨by omega, TOk.free _ _ _ _ _, b1, b2⟩, false, bitS, t1, b3, t3, b4, rfl, b5⟩
  obtain ⟨indexT, indexS, minT, minS, inv, bitT, bitS, c1, c2, c3, c4, rfl, rfl⟩ := key
  obtain ⟨χ, hχ⟩ := go _ _ _ _ inv
  refine ⟨χ, fun w hw => ?_⟩
  obtain ⟨L, hL⟩ := hχ w hw
  have := hw.rows_pos
  have := hw.cols_pos
  unfold Log.searchWindow
  rw [c1, c2, csub_of_le (show 1 ≤ w.bottom by omega), csub_of_le (show 1 ≤ w.right by omega)]
  simp only
  rw [c3, c4, hd, hm]
  exact ⟨L, hL⟩

end
end Verif
