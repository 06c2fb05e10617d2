import Verif.Lemmas.CheckedRead

/-! Searches of a log with overflow checks. -/
namespace Verif

section
variable {getS getT : Nat → Nat → Int64} {rows cols k : Nat}

/-- If the second raster is constant, moving a smaller number of the first raster by the difference of the
constant and the largest number of the first raster stays within the range. -/
def SearchFits (getS getT : Nat → Nat → Int64) (rows cols : Nat) : Prop :=
  ∀ v, Const getT rows cols v → ∀ r c r' c', r < rows → c < cols → r' < rows → c' < cols →
    getS r c < v → (∀ a b, a < rows → b < cols → getS a b ≤ getS r' c') →
    InI64 ((getS r c).toInt + v.toInt - (getS r' c').toInt)

/-- State of a search with checks at a square. -/
structure CkInv (getS getT : Nat → Nat → Int64) (rows cols k : Nat) (N : List K2PNode)
    (NS : List SnapEntry) (h R C : Nat) (indexT indexS : Option Nat) (minT minS maxT maxS : Int64) :
    Prop where
  okS : SOk getS rows cols k NS h R C indexS maxS
  okm : ∀ q, indexS = some q → minS = (K2Node.build getS rows cols k h R C).min.getD 0
  fmax : InI64 (maxS.toInt + maxT.toInt)
  fmin : InI64 (minS.toInt + minT.toInt)
  okT : (∃ p, indexT = some p ∧ TOk getS getT getT rows cols k N h R C (some p) maxT) ∨
    (indexT = none ∧ (maxS + maxT ≤ minS + minT ∨
      ∀ r c, InBox rows cols k h R C r c → InI64 ((getS r c).toInt + maxT.toInt)))

/-- The snapshot side of a search. -/
theorem SnapLayout.childBoth {s e N} (h : SnapLayout getS rows cols k s e N) (hk : 0 < k)
    (hf : SnapSafe N) {hh R C : Nat} {indexS : Option Nat} {minS maxS : Int64}
    (ok : SOk getS rows cols k N (hh + 1) R C indexS maxS)
    (okm : ∀ q, indexS = some q → minS = (K2Node.build getS rows cols k (hh + 1) R C).min.getD 0) :
    ∃ base, childBase s.nodemap k indexS = some base ∧
      ∀ i j, i < k → j < k →
        (∃ r c, InBox rows cols k hh (R + i * k ^ hh) (C + j * k ^ hh) r c) →
        ∃ maxS' leaf minS0, s.childMaxS maxS (base.map fun b => b + i * k + j) = some maxS' ∧
          s.childMaxSC maxS (base.map fun b => b + i * k + j) = some maxS' ∧
          optLeaf isLeafGe s.nodemap (base.map fun b => b + i * k + j) = some leaf ∧
          s.childMinS minS leaf (base.map fun b => b + i * k + j) = some minS0 ∧
          s.childMinSC minS leaf (base.map fun b => b + i * k + j) = some minS0 ∧
          maxS' = (K2Node.build getS rows cols k hh (R + i * k ^ hh) (C + j * k ^ hh)).max.getD 0 ∧
          (if leaf then maxS' else minS0) =
            (K2Node.build getS rows cols k hh (R + i * k ^ hh) (C + j * k ^ hh)).min.getD 0 ∧
          SOk getS rows cols k N hh (R + i * k ^ hh) (C + j * k ^ hh)
            (if leaf then none else base.map fun b => b + i * k + j) maxS' := by
  obtain ⟨base, hb, step⟩ := h.childStep hk hh R C indexS maxS ok
  refine ⟨base, hb, fun i j hi hj hne => ?_⟩
  obtain ⟨c1, c2⟩ := h.childC hf ok hb hi hj
  obtain ⟨maxS', leaf, s1, s2, -, s3, s4, s5⟩ := step i j hi hj hne
  have hbS' : ∀ q, (base.map fun b => b + i * k + j) = some q → ∃ q', indexS = some q' := by
    intro q hq
    cases indexS with
    | none => simp [childBase] at hb; subst hb; simp at hq
    | some q' => exact ⟨q', rfl⟩
  obtain ⟨r0, c0, hb0⟩ := hne
  have c3 := c2 minS leaf okm s2
  rw [c1]
  generalize (base.map fun b => b + i * k + j) = idx at *
  cases leaf with
  | true =>
    have hm : s.childMinS minS true idx = some minS := by
      cases idx with
      | none => rfl
      | some q => simp [Snapshot.childMinS]
    refine ⟨maxS', true, minS, s1, s1, s2, hm, c3.trans hm, s3, ?_, s4 rfl⟩
    exact (box_const_min getS hk hb0 maxS' (s4 rfl)).symm
  | false =>
    obtain ⟨h0, q, hq, okq, r2, g1, g2⟩ := s5 rfl
    subst hq
    obtain ⟨q', hq'⟩ := hbS' q rfl
    have hm : s.childMinS minS false (some q) = some
        ((K2Node.build getS rows cols k hh (R + i * k ^ hh) (C + j * k ^ hh)).min.getD 0) := by
      simp only [Snapshot.childMinS]
      rw [g1]
      simp only [Bool.false_eq_true, if_false, g2, Option.map_some, okm q' hq', i64_add_sub]
    exact ⟨maxS', false, _, s1, s1, s2, hm, c3.trans hm, s3, rfl, okq⟩

/-- What holds for all cells of a square holds for its extremes. -/
theorem box_both (get : Nat → Nat → Int64) (hk : 0 < k) {P : Int64 → Prop} {h R C r c : Nat}
    (hb : InBox rows cols k h R C r c) (hp : ∀ r c, InBox rows cols k h R C r c → P (get r c)) :
    P ((K2Node.build get rows cols k h R C).max.getD 0) ∧
      P ((K2Node.build get rows cols k h R C).min.getD 0) := by
  obtain ⟨r1, c1, b1, e1⟩ := box_max_attained get hk hb
  obtain ⟨r2, c2, b2, e2⟩ := box_min_attained get hk hb
  rw [← e1, ← e2]
  exact ⟨hp _ _ b1, hp _ _ b2⟩

/-- A constant difference is exact. -/
theorem shift_fits (hcf : CellsFit getS getT rows cols) {h R C : Nat} {d : Int64}
    (ok : ∀ r c, InBox rows cols k h R C r c → getT r c = getS r c + d) :
    ∀ r c, InBox rows cols k h R C r c → InI64 ((getS r c).toInt + d.toInt) := by
  intro r c hb
  have hfit := fits_back (hcf r c hb.2.2.2.2.1 hb.2.2.2.2.2)
  rw [show getT r c - getS r c = d by rw [ok r c hb]; grind] at hfit
  rwa [Int.add_comm] at hfit

theorem fits_back' {a b : Int64} (h : InI64 (a.toInt - b.toInt)) :
    InI64 (b.toInt + (a - b).toInt) := by
  rw [Int.add_comm]; exact fits_back h

theorem LogLayout.childCk {l s e N NS} (h : LogLayout getS getT rows cols k l e N)
    (hs : SnapLayout getS rows cols k s e NS) (hk : 0 < k) (hf : LogSafe N) (hfs : SnapSafe NS)
    (hcf : CellsFit getS getT rows cols)
    (hh R C : Nat) (indexT indexS : Option Nat) (minT minS maxT maxS : Int64)
    (inv : CkInv getS getT rows cols k N NS (hh + 1) R C indexT indexS minT minS maxT maxS)
    (hopen : ¬ maxS + maxT ≤ minS + minT) :
    ∃ baseT baseS, childBase l.nodemap k indexT = some baseT ∧
      childBase s.nodemap k indexS = some baseS ∧
      ∀ i j, i < k → j < k →
        (∃ r c, InBox rows cols k hh (R + i * k ^ hh) (C + j * k ^ hh) r c) →
        ∃ maxT' maxS' leafT leafS minT0 minS0 minT',
          l.childMaxT maxT (baseT.map fun b => b + i * k + j) = some maxT' ∧
          s.childMaxS maxS (baseS.map fun b => b + i * k + j) = some maxS' ∧
          s.childMaxSC maxS (baseS.map fun b => b + i * k + j) = some maxS' ∧
          optLeaf isLeafGe l.nodemap (baseT.map fun b => b + i * k + j) = some leafT ∧
          optLeaf isLeafGe s.nodemap (baseS.map fun b => b + i * k + j) = some leafS ∧
          l.childMinT minT leafT (baseT.map fun b => b + i * k + j) = some minT0 ∧
          s.childMinS minS leafS (baseS.map fun b => b + i * k + j) = some minS0 ∧
          s.childMinSC minS leafS (baseS.map fun b => b + i * k + j) = some minS0 ∧
          (if leafT then l.leafMinT (if leafS then maxS' else minS0) maxS' maxT'
            (baseT.map fun b => b + i * k + j) else some minT0) = some minT' ∧
          (if leafT then l.leafMinTC (if leafS then maxS' else minS0) maxS' maxT'
            (baseT.map fun b => b + i * k + j) else some minT0) = some minT' ∧
          CkInv getS getT rows cols k N NS hh (R + i * k ^ hh) (C + j * k ^ hh)
            (if leafT then none else (baseT.map fun b => b + i * k + j))
            (if leafS then none else (baseS.map fun b => b + i * k + j)) minT'
            (if leafS then maxS' else minS0) maxT' maxS' := by
  obtain ⟨okS, okm, -, -, okT⟩ := inv
  obtain ⟨baseS, hbS, stepS⟩ := hs.childBoth hk hfs okS okm
  rcases okT with ⟨p, rfl, okT⟩ | ⟨rfl, hsh⟩
  · obtain ⟨baseT, hbT, stepT⟩ := h.childStep hk hh R C (some p) maxT okT
    obtain ⟨hf', -⟩ | ⟨b, rfl, hn⟩ := h.childNode hk okT hbT
    · cases hf'
    refine ⟨some b, baseS, hbT, hbS, fun i j hi hj hne => ?_⟩
    obtain ⟨maxS', leafS, minS0, s1, s2, s3, s4, s5, s6, s7, s8⟩ := stepS i j hi hj hne
    obtain ⟨maxT', leafT, t1, t2, -, tc⟩ := stepT i j hi hj hne
    have h4 := hn i j hi hj
    have hfit := hf.node hk h4
    have hval : maxT' = (K2Node.build getT rows cols k hh (R + i * k ^ hh) (C + j * k ^ hh)).max.getD 0 -
        (K2Node.build getS rows cols k hh (R + i * k ^ hh) (C + j * k ^ hh)).max.getD 0 := by
      simp only [Option.map_some, Log.childMaxT] at t1
      rw [h.getMax hk _ _ _ _ h4] at t1
      cases t1; rfl
    have hlf := hf _ (List.mem_of_getElem? h4)
    have hleafT := h.leafGe _ _ h4
    simp only [Option.map_some] at t1 t2 tc ⊢
    generalize b + i * k + j = q at *
    generalize hR' : R + i * k ^ hh = R' at *
    generalize hC' : C + j * k ^ hh = C' at *
    generalize (baseS.map fun b => b + i * k + j) = idxS at *
    obtain ⟨r0, c0, hb0⟩ := hne
    have fmax : InI64 (maxS'.toInt + maxT'.toInt) := by
      rw [hval, s6]
      exact fits_back' hfit
    cases leafT with
    | false =>
      have hint : (K2PNode.build getS getT rows cols k hh R' C').internal = true := by
        simp only [optLeaf] at t2
        rw [t2] at hleafT
        simpa using hleafT
      obtain ⟨r2, g1, g2, -⟩ := h.step hk q hh R' C' h4 hint
      have hcm : l.childMinT minT false (some q) = some
          ((K2Node.build getT rows cols k hh R' C').min.getD 0 -
            (K2Node.build getS rows cols k hh R' C').min.getD 0) := by
        simp only [Log.childMinT]
        rw [g1]
        simpa using g2
      refine ⟨maxT', maxS', false, leafS, _, minS0, _, t1, s1, s2, t2, s3, hcm, s4, s5, rfl, rfl, s8,
        fun _ _ => s7, fmax, ?_, ?_⟩
      · rw [s7]
        obtain ⟨f1, f2, f3, f4⟩ := K2PNode.build_fields getS getT rows cols k hk hh R' C'
        have := hlf.2 hint
        rw [f2, f4] at this
        exact fits_back' this
      · cases tc with
        | node p h0 ok hmax => exact Or.inl ⟨q, rfl, ok⟩
    | true =>
      have hcm : l.childMinT minT true (some q) = some minT := by simp [Log.childMinT]
      refine ⟨maxT', maxS', true, leafS, minT, minS0, ?_⟩
      simp only [if_true]
      have shifted : (∀ r c, InBox rows cols k hh R' C' r c → getT r c = getS r c + maxT') →
          CkInv getS getT rows cols k N NS hh R' C' none (if leafS then none else idxS)
            maxT' (if leafS then maxS' else minS0) maxT' maxS' := by
        intro hsh
        have hb := shift_fits hcf hsh
        refine ⟨s8, fun _ _ => s7, fmax, ?_, Or.inr ⟨rfl, Or.inr hb⟩⟩
        rw [s7]
        exact (box_both getS hk (P := fun v => InI64 (v.toInt + maxT'.toInt)) hb0 hb).2
      cases tc with
      | equal p hp hb he ok =>
        refine ⟨maxT', t1, s1, s2, t2, s3, hcm, s4, s5, ?_, ?_, shifted ok⟩
        · simp only [Log.leafMinT]; rw [if_pos hp, he]
        · simp only [Log.leafMinTC]; rw [if_pos hp, he]
      | bottom p hp h0 ok =>
        refine ⟨maxT', t1, s1, s2, t2, s3, hcm, s4, s5, ?_, ?_, shifted ok⟩
        · simp only [Log.leafMinT]; rw [if_neg (by omega)]
        · simp only [Log.leafMinTC]; rw [if_neg (by omega)]
      | uniform p hp hb he ok =>
        have hsum : maxS' + maxT' = (K2Node.build getT rows cols k hh R' C').max.getD 0 := by
          rw [hval, s6, i64_add_sub'']
        have hT : ∀ r c, InBox rows cols k hh R' C' r c →
            getT r c = (K2Node.build getT rows cols k hh R' C').max.getD 0 := by
          intro r c hb'
          rw [ok r c hb', hval, i64_add_sub']
        have hsub : InI64 ((maxS' + maxT').toInt - (if leafS then maxS' else minS0).toInt) := by
          rw [s7, hsum]
          obtain ⟨r2, c2, b2, e2⟩ := box_min_attained getS hk hb0
          rw [← e2, ← hT r2 c2 b2]
          exact hcf _ _ b2.2.2.2.2.1 b2.2.2.2.2.2
        refine ⟨maxS' + maxT' - (if leafS then maxS' else minS0), t1, s1, s2, t2, s3, hcm, s4, s5, ?_,
          ?_, s8, fun _ _ => s7, fmax, ?_, Or.inr ⟨rfl, Or.inl ?_⟩⟩
        · simp only [Log.leafMinT]; rw [if_pos hp, he]
        · simp only [Log.leafMinTC]
          rw [if_pos hp, he]
          simp only []
          rw [ckAdd_of fmax]
          simp only [Option.bind_some]
          exact ckSub_of hsub
        · exact fits_back' hsub
        · rw [i64_add_sub'']; exact Int64.le_refl _
  · have hsh := hsh.resolve_left hopen
    refine ⟨none, baseS, rfl, hbS, fun i j hi hj hne => ?_⟩
    obtain ⟨maxS', leafS, minS0, s1, s2, s3, s4, s5, s6, s7, s8⟩ := stepS i j hi hj hne
    have hsh' : ∀ r c, InBox rows cols k hh (R + i * k ^ hh) (C + j * k ^ hh) r c →
        InI64 ((getS r c).toInt + maxT.toInt) := fun r c hb => hsh r c (hb.parent hi hj)
    obtain ⟨r0, c0, hb0⟩ := hne
    obtain ⟨b1, b2⟩ := box_both getS hk (P := fun v => InI64 (v.toInt + maxT.toInt)) hb0 hsh'
    refine ⟨maxT, maxS', true, leafS, minT, minS0, maxT, rfl, s1, s2, rfl, s3, rfl, s4, s5, rfl, rfl,
      s8, fun _ _ => s7, ?_, ?_, Or.inr ⟨rfl, Or.inr hsh'⟩⟩
    · rw [s6]; exact b1
    · rw [s7]; exact b2

theorem LogLayout.searchGoC {l s e N NS} (h : LogLayout getS getT rows cols k l e N)
    (hs : SnapLayout getS rows cols k s e NS) (hk : 2 ≤ k) (hf : LogSafe N) (hfs : SnapSafe NS)
    (hcf : CellsFit getS getT rows cols) (lower upper : Int64) (hh : Nat) :
    ∀ fuel R C top bottom left right indexT indexS minT minS maxT maxS,
      CkInv getS getT rows cols k N NS hh R C indexT indexS minT minS maxT maxS →
      top ≤ bottom → left ≤ right → bottom < k ^ hh → right < k ^ hh →
      R + bottom < rows → C + right < cols →
      l.searchGoC s lower upper fuel (k ^ hh) top bottom left right indexT indexS minT minS
          maxT maxS R C =
        l.searchGo s lower upper fuel (k ^ hh) top bottom left right indexT indexS minT minS
          maxT maxS R C := by
  have hk0 : 0 < k := by omega
  have hk1 : ¬ k = 0 := by omega
  induction hh with
  | zero =>
    intro fuel R C top bottom left right indexT indexS minT minS maxT maxS inv _ _ _ _ _ _
    cases fuel with
    | zero => rfl
    | succ fuel =>
    simp only [Log.searchGoC, Log.searchGo]
    rw [ckAdd_of inv.fmax, ckAdd_of inv.fmin]
    simp only []
    have hd : k ^ 0 / k = 0 := by rw [Nat.pow_zero]; exact Nat.div_eq_of_lt hk
    rw [h.hk, hd]
    simp
  | succ hh ih =>
    intro fuel R C top bottom left right indexT indexS minT minS maxT maxS inv htb hlr hb hr hR hC
    cases fuel with
    | zero => rfl
    | succ fuel =>
    have hpos : 0 < k ^ hh := Nat.pow_pos hk0
    have hp0 : ¬ k ^ hh = 0 := by omega
    have hpow : k ^ (hh + 1) = k * k ^ hh := by rw [Nat.pow_succ, Nat.mul_comm]
    rw [hpow] at hb hr
    simp only [Log.searchGoC, Log.searchGo]
    rw [ckAdd_of inv.fmax, ckAdd_of inv.fmin]
    simp only []
    by_cases hc1 : minS + minT ≥ lower ∧ maxS + maxT ≤ upper
    · rw [if_pos hc1, if_pos hc1]
    by_cases hc2 : minS + minT > upper ∨ maxS + maxT < lower
    · rw [if_neg hc1, if_neg hc1, if_pos hc2, if_pos hc2]
    rw [if_neg hc1, if_neg hc1, if_neg hc2, if_neg hc2]
    have hopen : ¬ maxS + maxT ≤ minS + minT := by
      intro he
      rw [not_or] at hc2
      simp only [gt_iff_lt, Int64.not_lt] at hc2
      exact hc1 ⟨Int64.le_trans hc2.2 he, Int64.le_trans he hc2.1⟩
    obtain ⟨baseT, baseS, hbT, hbS, step⟩ := h.childCk hs hk0 hf hfs hcf hh R C indexT indexS minT minS
      maxT maxS inv hopen
    rw [h.hk, if_neg hk1, if_neg hk1, hpow, Nat.mul_div_cancel_left _ hk0, if_neg hp0, if_neg hp0, hbT,
      hbS]
    simp only []
    refine collect_congr fun i hi' => ?_
    rw [mem_rangeIncl] at hi'
    obtain ⟨hi, hi6, hi3, hi4, hi5, hi7⟩ := childSpan (k := k) hpos htb hb hi'.1 hi'.2
    rw [csub_of_le hi6]
    simp only []
    refine collect_congr fun j hj' => ?_
    rw [mem_rangeIncl] at hj'
    obtain ⟨hj, hj6, hj3, hj4, hj5, hj7⟩ := childSpan (k := k) hpos hlr hr hj'.1 hj'.2
    rw [csub_of_le hj6]
    simp only []
    generalize Nat.min (k ^ hh - 1) (bottom - i * k ^ hh) = b' at *
    generalize Nat.min (k ^ hh - 1) (right - j * k ^ hh) = r' at *
    generalize htop : top - i * k ^ hh = top' at *
    generalize hleft : left - j * k ^ hh = left' at *
    have hne : InBox rows cols k hh (R + i * k ^ hh) (C + j * k ^ hh) (R + i * k ^ hh + top')
          (C + j * k ^ hh + left') :=
      ⟨by omega, by omega, by omega, by omega, by omega, by omega⟩
    obtain ⟨maxT', maxS', leafT, leafS, minT0, minS0, minT', a1, a2, a2', a3, a4, a5, a6, a6', a7, a7',
      inv'⟩ := step i j hi hj ⟨_, _, hne⟩
    rw [a1, a2, a2', a3, a4]
    simp only []
    rw [a5, a6, a6']
    simp only []
    rw [a7, a7']
    simp only []
    exact ih fuel _ _ _ _ _ _ _ _ _ _ _ _ inv' hi3 hj3 hi4 hj4 (by omega) (by omega)

theorem LogLayout.searchWindowC {l s e N NS} (h : LogLayout getS getT rows cols k l (e + 1) N)
    (hs : SnapLayout getS rows cols k s (e + 1) NS) (hk : 2 ≤ k) (hf : LogSafe N)
    (hfs : SnapSafe NS) (hcf : CellsFit getS getT rows cols) (hsf : SearchFits getS getT rows cols)
    (hr : rows ≤ k ^ (e + 1)) (hc : cols ≤ k ^ (e + 1)) (w : Rect) (hw : InRaster w rows cols)
    (lower upper : Int64) :
    l.searchWindowC s w lower upper = l.searchWindow s w lower upper := by
  have hk0 : 0 < k := by omega
  obtain ⟨w1, w2, w3, w4⟩ := hw
  obtain ⟨d, hd, hdv, hT⟩ := h.rootState (getV := getT) hk0
    fun r c hb => (logCell_eq hk0 hcf.noOverflow _ 0 0 r c hb).symm
  obtain ⟨hm, hS⟩ := hs.rootState hk0
  have hb0 : InBox rows cols k (e + 1) 0 0 0 0 :=
    inBox_root hr hc (by omega) (by omega)
  have go : ∀ bt bs minT minS, l.nodemap.get 0 = some bt → s.nodemap.get 0 = some bs →
      l.min.get 0 = some minT → s.min.get 0 = some minS →
      CkInv getS getT rows cols k N NS (e + 1) 0 0 (if bt then some 0 else none)
        (if bs then some 0 else none) minT minS d
        ((K2Node.build getS rows cols k (e + 1) 0 0).max.getD 0) →
      l.searchWindowC s w lower upper = l.searchWindow s w lower upper := by
    intro bt bs minT minS a1 a2 a3 a4 inv
    unfold Log.searchWindowC Log.searchWindow
    rw [a1, a2, a3, a4, hd, hm, csub_of_le (show 1 ≤ w.bottom by omega),
      csub_of_le (show 1 ≤ w.right by omega), h.hside]
    exact h.searchGoC hs hk hf hfs hcf lower upper (e + 1) _ 0 0 _ _ _ _ _ _ _ _ _ _ inv (by omega)
      (by omega) (by omega) (by omega) (by omega) (by omega)
  have hfit := hf.node hk0 h.root
  have fmax : InI64 (((K2Node.build getS rows cols k (e + 1) 0 0).max.getD 0).toInt + d.toInt) := by
    rw [hdv]; exact fits_back' hfit
  have z1 : ∀ v : Int64, InI64 (v.toInt + (0 : Int64).toInt) := by
    intro v
    rw [show (0 : Int64).toInt = 0 by decide, Int.add_zero]
    exact fits_toInt v
  have z2 : ∀ v : Int64, InI64 ((0 : Int64).toInt + v.toInt) := by
    intro v; rw [Int.add_comm]; exact z1 v
  have hmin : ∀ minS minT : Int64, (minS = 0 ∨ minT = 0) → InI64 (minS.toInt + minT.toInt) := by
    rintro minS minT (rfl | rfl)
    · exact z2 _
    · exact z1 _
  have key : ∀ bt minT, l.nodemap.get 0 = some bt → l.min.get 0 = some minT →
      (∀ bs minS, s.nodemap.get 0 = some bs → s.min.get 0 = some minS →
        (bs = true → minS = (K2Node.build getS rows cols k (e + 1) 0 0).min.getD 0) →
        (bs = false → minS = 0 ∧ Const getS rows cols
          ((K2Node.build getS rows cols k (e + 1) 0 0).max.getD 0)) →
        InI64 (minS.toInt + minT.toInt) ∧
        ((∃ p, (if bt then some 0 else none) = some p ∧
            TOk getS getT getT rows cols k N (e + 1) 0 0 (some p) d) ∨
          ((if bt then some 0 else none) = none ∧
            ((K2Node.build getS rows cols k (e + 1) 0 0).max.getD 0 + d ≤ minS + minT ∨
            ∀ r c, InBox rows cols k (e + 1) 0 0 r c → InI64 ((getS r c).toInt + d.toInt))))) →
      l.searchWindowC s w lower upper = l.searchWindow s w lower upper := by
    intro bt minT a1 a2 a3
    rcases hS with ⟨s1, s2, s3⟩ | ⟨s1, s2, s3⟩
    · obtain ⟨b1, b2⟩ := a3 true _ s1 s3 (fun _ => rfl) (fun h => by cases h)
      exact go bt true minT _ a1 s1 a2 s3 ⟨s2, fun _ _ => rfl, fmax, b1, b2⟩
    · obtain ⟨b1, b2⟩ := a3 false _ s1 s2 (fun h => by cases h)
        (fun _ => ⟨rfl, fun r c a b => s3 r c (inBox_root hr hc a b)⟩)
      exact go bt false minT _ a1 s1 a2 s2 ⟨s3, (fun _ h => by cases h), fmax, b1, b2⟩
  rcases hT with ⟨t1, t2, t3⟩ | ⟨t1, t2, t3, t4⟩ | ⟨t1, t2, t3, t4⟩
  · refine key true _ t1 t3 fun bs minS _ _ b1 b2 => ⟨?_, Or.inl ⟨0, rfl, t2⟩⟩
    have hlf := (hf _ (List.mem_of_getElem? h.root)).2 t2.2.1
    obtain ⟨f1, f2, f3, f4⟩ := K2PNode.build_fields getS getT rows cols k hk0 (e + 1) 0 0
    rw [f2, f4] at hlf
    cases bs with
    | true => rw [b1 rfl]; exact fits_back' hlf
    | false => exact hmin _ _ (Or.inl (b2 rfl).1)
  · exact key false _ t1 t3 (fun bs minS _ _ _ _ => ⟨hmin _ _ (Or.inr rfl),
      Or.inr ⟨rfl, Or.inr (shift_fits hcf t4)⟩⟩)
  · refine key false _ t1 t3 fun bs minS _ _ b1 b2 => ⟨hmin _ _ (Or.inr rfl), Or.inr ⟨rfl, ?_⟩⟩
    have bS := build_bounds getS rows cols k hk0 (e + 1) 0 0
    obtain ⟨r1, c1, p1, e1⟩ := box_max_attained getS hk0 hb0
    obtain ⟨r2, c2, p2, e2⟩ := box_min_attained getS hk0 hb0
    have p1' := p1.2.2.2.2
    have p2' := p2.2.2.2.2
    have hdi := hfit.sub
    rw [← hdv] at hdi
    have hTv : Const getT rows cols ((K2Node.build getT rows cols k (e + 1) 0 0).max.getD 0) :=
      fun r c a b => t4 r c (inBox_root hr hc a b)
    rw [hdv, i64_add_sub'', ← hdv]
    have hsf' := fun r c a b => hsf _ hTv r c r1 c1 a b p1'.1 p1'.2
    rw [e1] at hsf'
    generalize (K2Node.build getT rows cols k (e + 1) 0 0).max.getD 0 = Tmax at *
    generalize (K2Node.build getS rows cols k (e + 1) 0 0).max.getD 0 = Smax at *
    generalize (K2Node.build getS rows cols k (e + 1) 0 0).min.getD 0 = Smin at *
    have hT64 := fits_toInt Tmax
    unfold InI64 at hT64 hsf' ⊢
    cases bs with
    | false =>
      right
      intro r c hb
      rw [(b2 rfl).2 r c hb.2.2.2.2.1 hb.2.2.2.2.2, hdi]
      omega
    | true =>
      rw [b1 rfl, i64_add_zero]
      by_cases hlt : Tmax ≤ Smin
      · exact Or.inl hlt
      · right
        intro r c hb
        rw [Int64.not_le] at hlt
        have := hsf' r2 c2 p2'.1 p2'.2 (by rw [e2]; exact hlt)
          (fun a b ha hb => (bS a b (inBox_root hr hc ha hb)).2)
        rw [e2] at this
        have hb' := bS r c hb
        rw [Int64.le_iff_toInt_le, Int64.le_iff_toInt_le] at hb'
        rw [hdi]
        omega

theorem collect_none {α β : Type} {f : α → Option (List β)} : ∀ {xs : List α} {x}, x ∈ xs → f x = none →
    collect xs f = none
  | y :: ys, x, hx, hf => by
    unfold collect
    rcases List.mem_cons.1 hx with rfl | hx
    · rw [hf]
    · rw [collect_none hx hf]
      cases f y <;> rfl

/-- Otherwise a search panics. -/
theorem LogLayout.searchWindowC_none {l s e N NS} (h : LogLayout getS getT rows cols k l (e + 1) N)
    (hs : SnapLayout getS rows cols k s (e + 1) NS) (hk : 2 ≤ k) (hf : LogSafe N)
    (hfs : SnapSafe NS) (hcf : CellsFit getS getT rows cols)
    (hr : rows ≤ k ^ (e + 1)) (hc : cols ≤ k ^ (e + 1)) {v : Int64} (hv : Const getT rows cols v)
    {r c r' c' : Nat} (h1 : r < rows) (h2 : c < cols) (h3 : r' < rows) (h4 : c' < cols)
    (hlt : getS r c < v) (hmax : ∀ a b, a < rows → b < cols → getS a b ≤ getS r' c')
    (hnf : ¬ InI64 ((getS r c).toInt + v.toInt - (getS r' c').toInt)) :
    l.searchWindowC s ⟨0, rows, 0, cols⟩ v v = none := by
  have hk0 : 0 < k := by omega
  have hk1 : ¬ k = 0 := by omega
  obtain ⟨d, hd, hdv, hT⟩ := h.rootState (getV := getT) hk0
    fun r c hb => (logCell_eq hk0 hcf.noOverflow _ 0 0 r c hb).symm
  obtain ⟨hm, hS⟩ := hs.rootState hk0
  have hb0 : InBox rows cols k (e + 1) 0 0 0 0 := inBox_root hr hc (by omega) (by omega)
  have bS := build_bounds getS rows cols k hk0 (e + 1) 0 0
  obtain ⟨r1, c1, p1, e1⟩ := box_max_attained getS hk0 hb0
  obtain ⟨r2, c2, p2, e2⟩ := box_min_attained getS hk0 hb0
  have p1' := p1.2.2.2.2
  have p2' := p2.2.2.2.2
  have hfit := hf.node hk0 h.root
  have hTmax : (K2Node.build getT rows cols k (e + 1) 0 0).max.getD 0 = v := by
    obtain ⟨r3, c3, p3, e3⟩ := box_max_attained getT hk0 hb0
    rw [← e3, hv _ _ p3.2.2.2.2.1 p3.2.2.2.2.2]
  have hSmax : getS r' c' = (K2Node.build getS rows cols k (e + 1) 0 0).max.getD 0 :=
    Int64.le_antisymm (bS _ _ (inBox_root hr hc h3 h4)).2 (by rw [← e1]; exact hmax _ _ p1'.1 p1'.2)
  have bS1 := bS _ _ (inBox_root hr hc h1 h2)
  rw [hTmax] at hdv hfit
  have hdi := hfit.sub
  rw [← hdv] at hdi
  have hv64 := fits_toInt v
  rw [hSmax] at hnf
  simp only [Int64.le_iff_toInt_le] at bS1
  rw [Int64.lt_iff_toInt_lt] at hlt
  unfold InI64 at hnf hv64
  -- the sum at the smallest number leaves the range
  have hlow : ((K2Node.build getS rows cols k (e + 1) 0 0).min.getD 0).toInt + d.toInt <
      -9223372036854775808 := by omega
  have notConst : ¬ Const getS rows cols ((K2Node.build getS rows cols k (e + 1) 0 0).max.getD 0) := by
    intro hcon
    have := hcon r2 c2 p2'.1 p2'.2
    rw [e2] at this
    rw [this] at hlow
    omega
  have tcase : l.nodemap.get 0 = some false ∧ l.min.get 0 = some 0 := by
    rcases hT with ⟨t1, t2, t3⟩ | ⟨t1, t2, t3, t4⟩ | ⟨t1, t2, t3, t4⟩
    · exfalso
      have hint := t2.2.1
      obtain ⟨f1, f2, -, -⟩ := K2PNode.build_fields getS getT rows cols k hk0 (e + 1) 0 0
      unfold K2PNode.internal at hint
      simp at hint
      have hne := hint.1.2
      rw [f1, f2] at hne
      exact hne ((root_minmax getT hk0 hr hc (by omega) (by omega)).2 ⟨v, hv⟩)
    · exact ⟨t1, t3⟩
    · exact ⟨t1, t3⟩
  rcases hS with ⟨s1, s2, s3⟩ | ⟨s1, s2, s3⟩
  swap
  · exact absurd (fun r c a b => s3 r c (inBox_root hr hc a b)) notConst
  have hpos : 0 < k ^ e := Nat.pow_pos hk0
  have hp0 : ¬ k ^ e = 0 := by omega
  have hpow : k ^ (e + 1) = k * k ^ e := by rw [Nat.pow_succ, Nat.mul_comm]
  unfold Log.searchWindowC
  rw [tcase.1, tcase.2, s1, s3, hd, hm, csub_of_le (show 1 ≤ rows by omega),
    csub_of_le (show 1 ≤ cols by omega), h.hside]
  simp only [Bool.false_eq_true, if_false, if_true]
  have fmax : InI64 (((K2Node.build getS rows cols k (e + 1) 0 0).max.getD 0).toInt + d.toInt) := by
    rw [hdi]; unfold InI64; omega
  have fmin : InI64 (((K2Node.build getS rows cols k (e + 1) 0 0).min.getD 0).toInt + (0 : Int64).toInt) := by
    rw [show (0 : Int64).toInt = 0 by decide, Int.add_zero]
    exact fits_toInt _
  have hsum : (K2Node.build getS rows cols k (e + 1) 0 0).max.getD 0 + d = v := by
    rw [hdv, i64_add_sub'']
  simp only [Log.searchGoC]
  rw [ckAdd_of fmax, ckAdd_of fmin, hsum, i64_add_zero]
  simp only []
  have hmn : (K2Node.build getS rows cols k (e + 1) 0 0).min.getD 0 < v := by
    rw [Int64.lt_iff_toInt_lt]; omega
  rw [if_neg (fun hh => by rw [ge_iff_le, ← Int64.not_lt] at hh; exact hh.1 hmn), if_neg (by
    rw [not_or]
    refine ⟨fun hh => ?_, Int64.lt_irrefl⟩
    rw [gt_iff_lt, Int64.lt_iff_toInt_lt] at hh
    omega)]
  obtain ⟨baseS, hbS, step⟩ := hs.childBoth hk0 hfs (minS := (K2Node.build getS rows cols k (e + 1) 0 0).min.getD 0)
    s2 (fun _ _ => rfl)
  rw [h.hk, if_neg hk1, hpow, Nat.mul_div_cancel_left _ hk0, if_neg hp0, hbS]
  simp only [childBase]
  have q1 : r2 < k * k ^ e := by rw [← hpow]; omega
  have q2 : c2 < k * k ^ e := by rw [← hpow]; omega
  have hi := Nat.div_lt_of_lt_mul (Nat.mul_comm k (k ^ e) ▸ q1)
  have hj := Nat.div_lt_of_lt_mul (Nat.mul_comm k (k ^ e) ▸ q2)
  have ri := Nat.div_add_mod r2 (k ^ e)
  have rj := Nat.div_add_mod c2 (k ^ e)
  have mi := Nat.mod_lt r2 hpos
  have mj := Nat.mod_lt c2 hpos
  rw [Nat.mul_comm] at ri rj
  have g1 : r2 / k ^ e ≤ (rows - 1) / k ^ e := Nat.div_le_div_right (by omega)
  have g2 : c2 / k ^ e ≤ (cols - 1) / k ^ e := Nat.div_le_div_right (by omega)
  generalize r2 / k ^ e = i at *
  generalize c2 / k ^ e = j at *
  refine collect_none (x := i) (mem_rangeIncl.2 ⟨by simp, g1⟩) ?_
  cases csub (rows - 1) (i * k ^ e) with
  | none => rfl
  | some b =>
  refine collect_none (x := j) (mem_rangeIncl.2 ⟨by simp, g2⟩) ?_
  cases csub (cols - 1) (j * k ^ e) with
  | none => rfl
  | some b' =>
  have hbox : InBox rows cols k e (0 + i * k ^ e) (0 + j * k ^ e) r2 c2 := by
    refine ⟨?_, ?_, ?_, ?_, p2'.1, p2'.2⟩
    all_goals
      generalize i * k ^ e = x at *
      generalize j * k ^ e = y at *
      generalize k ^ e = z at *
      omega
  obtain ⟨maxS', leaf, minS0, c1, c2', c3, c4, c5, c6, c7, c8⟩ := step i j hi hj ⟨r2, c2, hbox⟩
  simp only [Option.map_none, Log.childMaxT, optLeaf, Log.childMinT, Log.leafMinTC]
  rw [c2']
  have c3' := c3
  unfold optLeaf at c3'
  rw [c3']
  simp only
  rw [c5]
  simp only [if_true]
  have hbad : ckAdd (if leaf then maxS' else minS0) d = none := by
    unfold ckAdd
    rw [if_neg]
    intro hh
    rw [c7] at hh
    have := (build_bounds getS rows cols k hk0 e _ _ r2 c2 hbox).1
    rw [e2, Int64.le_iff_toInt_le] at this
    unfold InI64 at hh
    omega
  cases k * k ^ e with
  | zero => rfl
  | succ fuel =>
    simp only [Log.searchGoC]
    rw [hbad]
    cases ckAdd maxS' d <;> rfl

end
end Verif
