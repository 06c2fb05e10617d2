import Verif.Lemmas.LogRoot

/-! Searches of a log. -/
namespace Verif

section
variable {getS getT : Nat → Nat → Int64} {rows cols k : Nat}

/-- State of a search at a square: the bounds hold, and either they coincide or the descent can
continue. -/
structure SearchInv (getS getT : Nat → Nat → Int64) (rows cols k : Nat) (N : List K2PNode)
    (NS : List SnapEntry) (h R C : Nat) (indexT indexS : Option Nat) (minT minS maxT maxS : Int64) :
    Prop where
  bounds : ∀ r c, InBox rows cols k h R C r c → minS + minT ≤ getT r c ∧ getT r c ≤ maxS + maxT
  next : minS + minT = maxS + maxT ∨ (h ≠ 0 ∧ TOk getS getT getT rows cols k N h R C indexT maxT ∧
    SOk getS rows cols k NS h R C indexS maxS ∧
    (∀ q, indexS = some q → minS = (K2Node.build getS rows cols k h R C).min.getD 0))

theorem box_const_min (get : Nat → Nat → Int64) (hk : 0 < k) {h R C r c : Nat}
    (hb : InBox rows cols k h R C r c) (v : Int64)
    (hv : ∀ r c, InBox rows cols k h R C r c → get r c = v) :
    (K2Node.build get rows cols k h R C).min.getD 0 = v := by
  obtain ⟨r', c', hb', e⟩ := box_min_attained get hk hb
  rw [← e, hv r' c' hb']

theorem LogLayout.childSearch {l s e N NS} (h : LogLayout getS getT rows cols k l e N)
    (hs : SnapLayout getS rows cols k s e NS) (hk : 0 < k) (hno : NoOverflow getS getT rows cols)
    (hh R C : Nat) (indexT indexS : Option Nat) (minT minS maxT maxS : Int64)
    (okT : TOk getS getT getT rows cols k N (hh + 1) R C indexT maxT)
    (okS : SOk getS rows cols k NS (hh + 1) R C indexS maxS)
    (okm : ∀ q, indexS = some q → minS = (K2Node.build getS rows cols k (hh + 1) R C).min.getD 0) :
    ∃ baseT baseS, childBase l.nodemap k indexT = some baseT ∧
      childBase s.nodemap k indexS = some baseS ∧
      ∀ i j, i < k → j < k →
        (∃ r c, InBox rows cols k hh (R + i * k ^ hh) (C + j * k ^ hh) r c) →
        ∃ maxT' maxS' leafT leafS minT0 minS0 minT',
          l.childMaxT maxT (baseT.map fun b => b + i * k + j) = some maxT' ∧
          s.childMaxS maxS (baseS.map fun b => b + i * k + j) = some maxS' ∧
          optLeaf isLeafGe l.nodemap (baseT.map fun b => b + i * k + j) = some leafT ∧
          optLeaf isLeafGe s.nodemap (baseS.map fun b => b + i * k + j) = some leafS ∧
          l.childMinT minT leafT (baseT.map fun b => b + i * k + j) = some minT0 ∧
          s.childMinS minS leafS (baseS.map fun b => b + i * k + j) = some minS0 ∧
          (if leafT then l.leafMinT (if leafS then maxS' else minS0) maxS' maxT'
            (baseT.map fun b => b + i * k + j) else some minT0) = some minT' ∧
          SearchInv getS getT rows cols k N NS hh (R + i * k ^ hh) (C + j * k ^ hh)
            (if leafT then none else (baseT.map fun b => b + i * k + j))
            (if leafS then none else (baseS.map fun b => b + i * k + j)) minT'
            (if leafS then maxS' else minS0) maxT' maxS' := by
  obtain ⟨baseT, hbT, stepT⟩ := h.childStep hk hh R C indexT maxT okT
  obtain ⟨baseS, hbS, stepS⟩ := hs.childStep hk hh R C indexS maxS okS
  refine ⟨baseT, baseS, hbT, hbS, ?_⟩
  intro i j hi hj hne
  obtain ⟨maxT', leafT, t1, t2, -, tc⟩ := stepT i j hi hj hne
  obtain ⟨maxS', leafS, s1, s2, -, s3, s4, s5⟩ := stepS i j hi hj hne
  have hbS' : ∀ q, (baseS.map fun b => b + i * k + j) = some q → ∃ q', indexS = some q' := by
    intro q hq
    cases indexS with
    | none => simp [childBase] at hbS; subst hbS; simp at hq
    | some q' => exact ⟨q', rfl⟩
  generalize hR' : R + i * k ^ hh = R' at *
  generalize hC' : C + j * k ^ hh = C' at *
  generalize (baseT.map fun b => b + i * k + j) = idxT at *
  generalize (baseS.map fun b => b + i * k + j) = idxS at *
  obtain ⟨r0, c0, hb0⟩ := hne
  have bT := build_bounds getT rows cols k hk hh R' C'
  -- the snapshot side
  obtain ⟨minS0, m1, m2⟩ : ∃ minS0, s.childMinS minS leafS idxS = some minS0 ∧
      (leafS = false → minS0 = (K2Node.build getS rows cols k hh R' C').min.getD 0) := by
    cases leafS with
    | true =>
      cases idxS with
      | none => exact ⟨minS, rfl, by simp⟩
      | some q => exact ⟨minS, by simp [Snapshot.childMinS], by simp⟩
    | false =>
      obtain ⟨h0, q, hq, okq, r2, g1, g2⟩ := s5 rfl
      subst hq
      obtain ⟨q', hq'⟩ := hbS' q rfl
      have := okm q' hq'
      refine ⟨_, ?_, fun _ => rfl⟩
      simp only [Snapshot.childMinS]
      rw [g1]
      simp only [Bool.false_eq_true, if_false, g2, Option.map_some, this, i64_add_sub]
  -- minimum and state of the snapshot after the leaf adjustment
  have hminS : (if leafS then maxS' else minS0) =
      (K2Node.build getS rows cols k hh R' C').min.getD 0 := by
    cases leafS with
    | true => exact (box_const_min getS hk hb0 maxS' (s4 rfl)).symm
    | false => exact m2 rfl
  have hokS : SOk getS rows cols k NS hh R' C' (if leafS then none else idxS) maxS' := by
    cases leafS with
    | true => exact s4 rfl
    | false =>
      obtain ⟨h0, q, hq, okq, -⟩ := s5 rfl
      subst hq; exact okq
  have shift : TOk getS getT getT rows cols k N hh R' C' none maxT' →
      ∀ r c, InBox rows cols k hh R' C' r c →
        (if leafS then maxS' else minS0) + maxT' ≤ getT r c ∧ getT r c ≤ maxS' + maxT' := by
    intro ok r c hb
    have hd : ∀ r c, InBox rows cols k hh R' C' r c → getT r c - getS r c = maxT' := by
      intro r c hb
      rw [ok r c hb]; grind
    obtain ⟨d1, d2⟩ := box_shift hk hno hb maxT' hd
    have := bT r c hb
    rw [hminS, s3, ← d2, i64_add_sub'', d2, ← d1, i64_add_sub'']
    exact this
  cases leafT with
  | false =>
    cases tc with
    | node p h0 ok hmax =>
      obtain ⟨r2, g1, g2, -⟩ := h.step hk p hh R' C' ok.1 ok.2.1
      refine ⟨maxT', maxS', false, leafS, (K2Node.build getT rows cols k hh R' C').min.getD 0 -
        (K2Node.build getS rows cols k hh R' C').min.getD 0, minS0, _, t1, s1, t2, s2, ?_, m1, rfl,
        ?_, Or.inr ⟨h0, ok, hokS, fun _ _ => hminS⟩⟩
      · simp only [Log.childMinT]
        rw [g1]
        simpa using g2
      · intro r c hb
        rw [hminS, s3, hmax, i64_add_sub'', i64_add_sub'']
        exact bT r c hb
  | true =>
    obtain ⟨minT0, n1⟩ : ∃ minT0, l.childMinT minT true idxT = some minT0 := by
      cases idxT with
      | none => exact ⟨_, rfl⟩
      | some q => exact ⟨minT, by simp [Log.childMinT]⟩
    -- constant difference
    have shifted : TOk getS getT getT rows cols k N hh R' C' none maxT' →
        SearchInv getS getT rows cols k N NS hh R' C' none (if leafS then none else idxS) maxT'
          (if leafS then maxS' else minS0) maxT' maxS' := by
      intro ok
      refine ⟨shift ok, ?_⟩
      cases leafS with
      | true => left; rfl
      | false => exact Or.inr ⟨(s5 rfl).1, ok, hokS, fun _ _ => hminS⟩
    refine ⟨maxT', maxS', true, leafS, minT0, minS0, ?_⟩
    cases tc with
    | inherit ok => exact ⟨maxT', t1, s1, t2, s2, n1, m1, rfl, shifted ok⟩
    | equal p hp hb he ok =>
      refine ⟨maxT', t1, s1, t2, s2, n1, m1, ?_, shifted ok⟩
      simp only [if_true, Log.leafMinT]
      rw [if_pos hp, he]
    | bottom p hp h0 ok =>
      refine ⟨maxT', t1, s1, t2, s2, n1, m1, ?_, shifted ok⟩
      simp only [if_true, Log.leafMinT]
      rw [if_neg (by omega)]
    | uniform p hp hb he ok =>
      refine ⟨maxS' + maxT' - (if leafS then maxS' else minS0), t1, s1, t2, s2, n1, m1, ?_, ?_,
        Or.inl (by rw [i64_add_sub''])⟩
      · simp only [if_true, Log.leafMinT]
        rw [if_pos hp, he]
      · intro r c hb
        rw [i64_add_sub'', ok r c hb, s3, Int64.add_comm]
        exact ⟨Int64.le_refl _, Int64.le_refl _⟩

theorem hits_push {get : Nat → Nat → Int64} {lower upper : Int64} {top bottom left right R C : Nat}
    (hal : ∀ r c, top ≤ r → r ≤ bottom → left ≤ c → c ≤ right →
      lower ≤ get (R + r) (C + c) ∧ get (R + r) (C + c) ≤ upper) :
    (pushCells top bottom left right R C : Multiset (Nat × Nat)) =
      boxSum top bottom left right (fun r c => hitSet get lower upper (R + r) (C + c)) := by
  rw [pushCells_spec]
  apply boxSum_congr
  intro r c hr1 hr2 hc1 hc2
  unfold hitSet
  rw [if_pos (hal r c hr1 hr2 hc1 hc2)]

theorem hits_none {get : Nat → Nat → Int64} {lower upper : Int64} {top bottom left right R C : Nat}
    (hal : ∀ r c, top ≤ r → r ≤ bottom → left ≤ c → c ≤ right →
      ¬ (lower ≤ get (R + r) (C + c) ∧ get (R + r) (C + c) ≤ upper)) :
    (([] : List (Nat × Nat)) : Multiset (Nat × Nat)) =
      boxSum top bottom left right (fun r c => hitSet get lower upper (R + r) (C + c)) := by
  rw [Multiset.coe_nil, ← boxSum_zero top bottom left right]
  apply boxSum_congr
  intro r c hr1 hr2 hc1 hc2
  unfold hitSet
  rw [if_neg (hal r c hr1 hr2 hc1 hc2)]

/-- The two tests at the start of a call either settle it or leave a descent. -/
theorem search_top {l : Log} {s : Snapshot} {N : List K2PNode} {NS : List SnapEntry}
    (lower upper : Int64) {hh R C top bottom left right : Nat} {indexT indexS : Option Nat}
    {minT minS maxT maxS : Int64}
    (inv : SearchInv getS getT rows cols k N NS hh R C indexT indexS minT minS maxT maxS)
    (fuel : Nat) (htb : top ≤ bottom) (hlr : left ≤ right) (hb : bottom < k ^ hh)
    (hr : right < k ^ hh) (hR : R + bottom < rows) (hC : C + right < cols) :
    (∃ L, l.searchGo s lower upper (fuel + 1) (k ^ hh) top bottom left right indexT indexS minT minS
          maxT maxS R C =
        some L ∧ (L : Multiset (Nat × Nat)) = boxSum top bottom left right
          (fun r c => hitSet getT lower upper (R + r) (C + c))) ∨
      ((¬ (minS + minT ≥ lower ∧ maxS + maxT ≤ upper) ∧
        ¬ (minS + minT > upper ∨ maxS + maxT < lower)) ∧
        hh ≠ 0 ∧ TOk getS getT getT rows cols k N hh R C indexT maxT ∧
        SOk getS rows cols k NS hh R C indexS maxS ∧
        (∀ q, indexS = some q → minS = (K2Node.build getS rows cols k hh R C).min.getD 0)) := by
  have hbox : ∀ r c, top ≤ r → r ≤ bottom → left ≤ c → c ≤ right →
      InBox rows cols k hh R C (R + r) (C + c) := by
    intro r c hr1 hr2 hc1 hc2
    exact ⟨by omega, by omega, by omega, by omega, by omega, by omega⟩
  by_cases hc1 : minS + minT ≥ lower ∧ maxS + maxT ≤ upper
  · left
    refine ⟨_, by simp only [Log.searchGo]; rw [if_pos hc1], hits_push ?_⟩
    intro r c a1 a2 a3 a4
    have := inv.bounds _ _ (hbox r c a1 a2 a3 a4)
    exact ⟨Int64.le_trans hc1.1 this.1, Int64.le_trans this.2 hc1.2⟩
  · by_cases hc2 : minS + minT > upper ∨ maxS + maxT < lower
    · left
      refine ⟨[], by simp only [Log.searchGo]; rw [if_neg hc1, if_pos hc2], hits_none ?_⟩
      intro r c a1 a2 a3 a4 hh
      have := inv.bounds _ _ (hbox r c a1 a2 a3 a4)
      rcases hc2 with h1 | h1
      · exact absurd (Int64.le_trans this.1 hh.2) (by rw [Int64.not_le]; exact h1)
      · exact absurd (Int64.le_trans hh.1 this.2) (by rw [Int64.not_le]; exact h1)
    · right
      refine ⟨⟨hc1, hc2⟩, ?_⟩
      rcases inv.next with h1 | h1
      · exfalso
        rw [h1] at hc1 hc2
        simp only [not_or, gt_iff_lt, Int64.not_lt] at hc2
        exact hc1 ⟨hc2.2, hc2.1⟩
      · exact h1

theorem LogLayout.searchGo {l s e N NS} (h : LogLayout getS getT rows cols k l e N)
    (hs : SnapLayout getS rows cols k s e NS) (hk : 0 < k)
    (hno : NoOverflow getS getT rows cols) (lower upper : Int64) (hh : Nat) :
    ∀ fuel R C top bottom left right indexT indexS minT minS maxT maxS,
      SearchInv getS getT rows cols k N NS hh R C indexT indexS minT minS maxT maxS → hh < fuel →
      top ≤ bottom → left ≤ right → bottom < k ^ hh → right < k ^ hh →
      R + bottom < rows → C + right < cols →
      ∃ L, l.searchGo s lower upper fuel (k ^ hh) top bottom left right indexT indexS minT minS
          maxT maxS R C =
        some L ∧ (L : Multiset (Nat × Nat)) = boxSum top bottom left right
          (fun r c => hitSet getT lower upper (R + r) (C + c)) := by
  induction hh with
  | zero =>
    intro fuel R C top bottom left right indexT indexS minT minS maxT maxS inv hf htb hlr hb hr hR hC
    cases fuel with
    | zero => omega
    | succ fuel =>
    rcases search_top (l := l) (s := s) lower upper inv fuel htb hlr hb hr hR hC with h1 | ⟨_, h0, _⟩
    · exact h1
    · exact absurd rfl h0
  | succ hh ih =>
    intro fuel R C top bottom left right indexT indexS minT minS maxT maxS inv hf htb hlr hb hr hR hC
    cases fuel with
    | zero => omega
    | succ fuel =>
    rcases search_top (l := l) (s := s) lower upper inv fuel htb hlr hb hr hR hC with
      h1 | ⟨⟨hc1, hc2⟩, -, okT, okS, okm⟩
    · exact h1
    have hpos : 0 < k ^ hh := Nat.pow_pos hk
    have hpow : k ^ (hh + 1) = k * k ^ hh := by rw [Nat.pow_succ, Nat.mul_comm]
    rw [hpow] at hb hr
    obtain ⟨baseT, baseS, hbT, hbS, step⟩ := h.childSearch hs hk hno hh R C indexT indexS minT minS
      maxT maxS okT okS okm
    simp only [Log.searchGo]
    rw [if_neg hc1, if_neg hc2, h.hk, if_neg (by omega), hpow, Nat.mul_div_cancel_left _ hk,
      if_neg (by omega), hbT, hbS]
    simp only []
    apply collect_grid (k ^ hh) top bottom left right hpos htb hlr
      (f := fun i j b r' => _) (g := fun r c => hitSet getT lower upper (R + r) (C + c))
    intro i j hi1 hi2 hj1 hj2
    obtain ⟨hi, hi6, hi3, hi4, hi5, hi7⟩ := childSpan (k := k) hpos htb hb hi1 hi2
    obtain ⟨hj, hj6, hj3, hj4, hj5, hj7⟩ := childSpan (k := k) hpos hlr hr hj1 hj2
    generalize Nat.min (k ^ hh - 1) (bottom - i * k ^ hh) = b' at *
    generalize Nat.min (k ^ hh - 1) (right - j * k ^ hh) = r' at *
    generalize htop : top - i * k ^ hh = top' at *
    generalize hleft : left - j * k ^ hh = left' at *
    have hne : InBox rows cols k hh (R + i * k ^ hh) (C + j * k ^ hh) (R + i * k ^ hh + top')
          (C + j * k ^ hh + left') :=
      ⟨by omega, by omega, by omega, by omega, by omega, by omega⟩
    obtain ⟨maxT', maxS', leafT, leafS, minT0, minS0, minT', a1, a2, a3, a4, a5, a6, a7, inv'⟩ :=
      step i j hi hj ⟨_, _, hne⟩
    rw [a1, a2, a3, a4]
    simp only []
    rw [a5, a6]
    simp only []
    rw [a7]
    simp only []
    obtain ⟨L, hL1, hL2⟩ := ih fuel _ _ top' b' left' r' _ _ _ _ _ _ inv'
        (by omega) hi3 hj3 hi4 hj4 (by omega) (by omega)
    refine ⟨L, hL1, ?_⟩
    rw [hL2]
    simp only [Nat.add_assoc]

end
end Verif
