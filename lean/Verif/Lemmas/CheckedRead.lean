import Verif.Lemmas.CheckedBuild
import Verif.Lemmas.LogFinds

/-! Reads with overflow checks: they do what reads without checks do. -/
namespace Verif

theorem ckSub_back {a b : Int64} (h : InI64 (a.toInt - b.toInt)) : ckSub a (a - b) = some b := by
  have e := h.sub
  rw [ckSub_of, i64_sub_sub]
  rw [e, show a.toInt - (a.toInt - b.toInt) = b.toInt by omega]
  exact fits_toInt b

theorem ckAdd_back {a b : Int64} (h : InI64 (b.toInt - a.toInt)) : ckAdd a (b - a) = some b := by
  have e := h.sub
  rw [ckAdd_of, i64_add_sub]
  rw [e, show a.toInt + (b.toInt - a.toInt) = b.toInt by omega]
  exact fits_toInt b

/-- The test with `>` panics or is the test with `≥`. -/
theorem NodeLayout.leafGt_or {α} {m : BitMap} {N : List α} {kids : α → List α} {int : α → Bool}
    {ht : α → Nat} {K : Nat} (h : NodeLayout m N kids int ht K) (p : Nat) :
    isLeafGt m p = none ∨ isLeafGt m p = isLeafGe m p := by
  unfold isLeafGt isLeafGe
  by_cases hgt : p > m.length
  · right; rw [if_pos hgt, if_pos (by omega)]
  · rw [if_neg hgt]
    by_cases hpl : p = m.length
    · rw [hpl, h.repr.get_ge _ (by rw [h.repr.len]), ← h.repr.len]
      by_cases h32 : m.length % 32 = 0
      · left
        rw [if_neg (by omega)]
      · right
        rw [if_pos (by omega)]
        simp
    · right; rw [if_neg (by omega)]; rfl

theorem NodeLayout.optLeaf_or {α} {m : BitMap} {N : List α} {kids : α → List α} {int : α → Bool}
    {ht : α → Nat} {K : Nat} (h : NodeLayout m N kids int ht K) (p : Option Nat) :
    optLeaf isLeafGt m p = none ∨ optLeaf isLeafGt m p = optLeaf isLeafGe m p := by
  cases p with
  | none => right; rfl
  | some p => exact h.leafGt_or p

/-! ### Snapshots -/

section
variable {get : Nat → Nat → Int64} {rows cols k : Nat}

theorem SnapFits.child {hh R C i j : Nat} (h : SnapFits (K2Node.build get rows cols k (hh + 1) R C))
    (hi : i < k) (hj : j < k) :
    InI64 (((K2Node.build get rows cols k (hh + 1) R C).max.getD 0).toInt -
      ((K2Node.build get rows cols k hh (R + i * k ^ hh) (C + j * k ^ hh)).max.getD 0).toInt) ∧
    InI64 (((K2Node.build get rows cols k hh (R + i * k ^ hh) (C + j * k ^ hh)).min.getD 0).toInt -
      ((K2Node.build get rows cols k (hh + 1) R C).min.getD 0).toInt) := by
  apply h
  rw [K2Node.build_children]
  simp only [List.mem_flatMap, List.mem_map, List.mem_range]
  exact ⟨i, hi, j, hj, rfl⟩

theorem SnapLayout.getGoC {s e N} (h : SnapLayout get rows cols k s e N) (hk : 0 < k)
    (hf : SnapSafe N) (hh : Nat) :
    ∀ fuel p x R C row col, N[p]? = some x → x.2.2.internal = true →
      x.2.2 = K2Node.build get rows cols k (hh + 1) R C →
      row < k ^ (hh + 1) → col < k ^ (hh + 1) →
      s.getGoC fuel (k ^ (hh + 1)) row col p (x.2.2.max.getD 0) =
        s.getGo fuel (k ^ (hh + 1)) row col p (x.2.2.max.getD 0) := by
  induction hh using Nat.strongRecOn with
  | _ hh ih =>
    intro fuel p x R C row col hp hint hx hr hc
    cases fuel with
    | zero => rfl
    | succ fuel =>
    obtain ⟨r, h1, -, h3⟩ := h.step p x hp hint
    have hpos : 0 < k ^ hh := Nat.pow_pos hk
    have hpow : k ^ (hh + 1) = k * k ^ hh := by rw [Nat.pow_succ, Nat.mul_comm]
    rw [hpow] at hr hc
    have hi : row / k ^ hh < k := by rw [Nat.div_lt_iff_lt_mul hpos]; exact hr
    have hj : col / k ^ hh < k := by rw [Nat.div_lt_iff_lt_mul hpos]; exact hc
    have h4 := h3 _ _ _ hx _ _ hi hj
    have hmr := Nat.mod_lt row hpos
    have hmc := Nat.mod_lt col hpos
    have hsf : SnapFits x.2.2 := hf x (List.mem_of_getElem? hp) hint
    rw [hx] at hsf
    have hfit := (hsf.child hi hj).1
    simp only [Snapshot.getGoC, Snapshot.getGo]
    have hk0 : ¬ k = 0 := by omega
    have hp0 : ¬ k ^ hh = 0 := by omega
    rw [h.hk, if_neg hk0, if_neg hk0, hpow, Nat.mul_div_cancel_left _ hk, if_neg hp0, if_neg hp0, h1]
    simp only []
    rw [h.getMax _ _ h4]
    simp only []
    rw [hx, ckSub_back hfit, i64_sub_sub]
    simp only []
    rw [h.leafGe _ _ h4]
    simp only []
    cases hin : (K2Node.build get rows cols k hh (R + row / k ^ hh * k ^ hh)
        (C + col / k ^ hh * k ^ hh)).internal with
    | false => rfl
    | true =>
      simp only [Bool.not_true]
      cases hh with
      | zero => simp [K2Node.build, K2Node.internal, K2Node.children] at hin
      | succ hh => exact ih hh (by omega) fuel _ _ _ _ _ _ h4 hin rfl hmr hmc

theorem SnapLayout.fillGoC {s e N} (h : SnapLayout get rows cols k s e N) (hk : 0 < k)
    (hf : SnapSafe N) (wt wl : Nat) (hh : Nat) :
    ∀ fuel p x R C top bottom left right tO lO, N[p]? = some x → x.2.2.internal = true →
      x.2.2 = K2Node.build get rows cols k (hh + 1) R C →
      bottom < k ^ (hh + 1) → right < k ^ (hh + 1) →
      s.fillGoC wt wl fuel (k ^ (hh + 1)) top bottom left right p (x.2.2.max.getD 0) tO lO =
        s.fillGo wt wl fuel (k ^ (hh + 1)) top bottom left right p (x.2.2.max.getD 0) tO lO := by
  induction hh using Nat.strongRecOn with
  | _ hh ih =>
    intro fuel p x R C top bottom left right tO lO hp hint hx hb hr
    cases fuel with
    | zero => rfl
    | succ fuel =>
    obtain ⟨r, h1, -, h3⟩ := h.step p x hp hint
    have hpos : 0 < k ^ hh := Nat.pow_pos hk
    have hpow : k ^ (hh + 1) = k * k ^ hh := by rw [Nat.pow_succ, Nat.mul_comm]
    rw [hpow] at hb hr
    have hsf : SnapFits x.2.2 := hf x (List.mem_of_getElem? hp) hint
    rw [hx] at hsf
    simp only [Snapshot.fillGoC, Snapshot.fillGo]
    have hk0 : ¬ k = 0 := by omega
    have hp0 : ¬ k ^ hh = 0 := by omega
    rw [h.hk, if_neg hk0, if_neg hk0, hpow, Nat.mul_div_cancel_left _ hk, if_neg hp0, if_neg hp0, h1]
    simp only []
    refine collect_congr fun i hi => ?_
    rw [mem_rangeIncl] at hi
    have hi' : i < k :=
      Nat.lt_of_le_of_lt hi.2 (by rw [Nat.div_lt_iff_lt_mul hpos]; exact hb)
    cases csub bottom (i * k ^ hh) with
    | none => rfl
    | some b =>
    simp only []
    refine collect_congr fun j hj => ?_
    rw [mem_rangeIncl] at hj
    have hj' : j < k :=
      Nat.lt_of_le_of_lt hj.2 (by rw [Nat.div_lt_iff_lt_mul hpos]; exact hr)
    cases csub right (j * k ^ hh) with
    | none => rfl
    | some r' =>
    simp only []
    have h4 := h3 _ _ _ hx i j hi' hj'
    rw [h.getMax _ _ h4]
    simp only []
    rw [hx, ckSub_back (hsf.child hi' hj').1, i64_sub_sub]
    simp only []
    rw [h.leafGe _ _ h4]
    simp only []
    cases hin : (K2Node.build get rows cols k hh (R + i * k ^ hh) (C + j * k ^ hh)).internal with
    | false => rfl
    | true =>
      simp only [Bool.not_true]
      cases hh with
      | zero => simp [K2Node.build, K2Node.internal, K2Node.children] at hin
      | succ hh =>
        have hm1 := Nat.min_le_left (k ^ (hh + 1) - 1) b
        have hm2 := Nat.min_le_left (k ^ (hh + 1) - 1) r'
        exact ih hh (by omega) fuel _ _ _ _ _ _ _ _ _ _ h4 hin rfl
          (Nat.lt_of_le_of_lt hm1 (by omega)) (Nat.lt_of_le_of_lt hm2 (by omega))

theorem SnapLayout.searchGoC {s e N} (h : SnapLayout get rows cols k s e N) (hk : 0 < k)
    (hf : SnapSafe N) (lower upper : Int64) (hh : Nat) :
    ∀ fuel p x R C top bottom left right tO lO, N[p]? = some x → x.2.2.internal = true →
      x.2.2 = K2Node.build get rows cols k (hh + 1) R C →
      bottom < k ^ (hh + 1) → right < k ^ (hh + 1) →
      s.searchGoC lower upper fuel (k ^ (hh + 1)) top bottom left right p (x.2.2.min.getD 0)
          (x.2.2.max.getD 0) tO lO =
        s.searchGo lower upper fuel (k ^ (hh + 1)) top bottom left right p (x.2.2.min.getD 0)
          (x.2.2.max.getD 0) tO lO := by
  induction hh using Nat.strongRecOn with
  | _ hh ih =>
    intro fuel p x R C top bottom left right tO lO hp hint hx hb hr
    cases fuel with
    | zero => rfl
    | succ fuel =>
    obtain ⟨r, h1, -, h3⟩ := h.step p x hp hint
    have hpos : 0 < k ^ hh := Nat.pow_pos hk
    have hpow : k ^ (hh + 1) = k * k ^ hh := by rw [Nat.pow_succ, Nat.mul_comm]
    rw [hpow] at hb hr
    have hsf : SnapFits x.2.2 := hf x (List.mem_of_getElem? hp) hint
    rw [hx] at hsf
    simp only [Snapshot.searchGoC, Snapshot.searchGo]
    have hk0 : ¬ k = 0 := by omega
    have hp0 : ¬ k ^ hh = 0 := by omega
    rw [h.hk, if_neg hk0, if_neg hk0, hpow, Nat.mul_div_cancel_left _ hk, if_neg hp0, if_neg hp0, h1]
    simp only []
    refine collect_congr fun i hi => ?_
    rw [mem_rangeIncl] at hi
    have hi' : i < k :=
      Nat.lt_of_le_of_lt hi.2 (by rw [Nat.div_lt_iff_lt_mul hpos]; exact hb)
    cases csub bottom (i * k ^ hh) with
    | none => rfl
    | some b =>
    simp only []
    refine collect_congr fun j hj => ?_
    rw [mem_rangeIncl] at hj
    have hj' : j < k :=
      Nat.lt_of_le_of_lt hj.2 (by rw [Nat.div_lt_iff_lt_mul hpos]; exact hr)
    cases csub right (j * k ^ hh) with
    | none => rfl
    | some r' =>
    simp only []
    have h4 := h3 _ _ _ hx i j hi' hj'
    rw [h.getMax _ _ h4]
    simp only []
    rw [hx] at h4 ⊢
    rw [ckSub_back (hsf.child hi' hj').1, i64_sub_sub]
    simp only []
    rw [h.leafGe _ _ h4]
    simp only []
    cases hin : (K2Node.build get rows cols k hh (R + i * k ^ hh) (C + j * k ^ hh)).internal with
    | false => rfl
    | true =>
      simp only [Bool.not_true]
      obtain ⟨r2, g1, g2, -⟩ := h.step _ _ h4 hin
      rw [g1]
      simp only []
      rw [g2]
      simp only []
      rw [ckAdd_back (hsf.child hi' hj').2, i64_add_sub]
      simp only []
      split
      · rfl
      · split
        · cases hh with
          | zero => simp [K2Node.build, K2Node.internal, K2Node.children] at hin
          | succ hh =>
            have hm1 := Nat.min_le_left (k ^ (hh + 1) - 1) b
            have hm2 := Nat.min_le_left (k ^ (hh + 1) - 1) r'
            exact ih hh (by omega) fuel _ _ _ _ _ _ _ _ _ _ h4 hin rfl
              (Nat.lt_of_le_of_lt hm1 (by omega)) (Nat.lt_of_le_of_lt hm2 (by omega))
        · rfl

theorem SnapLayout.getC {s e N} (h : SnapLayout get rows cols k s (e + 1) N) (hk : 0 < k)
    (hf : SnapSafe N) (row col : Nat) (h1 : row < k ^ (e + 1)) (h2 : col < k ^ (e + 1)) :
    s.getC row col = s.get row col := by
  unfold Snapshot.getC Snapshot.get
  rw [h.bit0 hk]
  cases hin : (K2Node.build get rows cols k (e + 1) 0 0).internal with
  | false => rfl
  | true =>
    simp only []
    rw [h.getMax _ _ h.root, h.hside]
    exact h.getGoC hk hf e _ 0 _ 0 0 _ _ h.root hin rfl h1 h2

theorem SnapLayout.fillWindowC {s e N} (h : SnapLayout get rows cols k s (e + 1) N) (hk : 0 < k)
    (hf : SnapSafe N) (w : Rect) (h1 : w.bottom ≤ k ^ (e + 1)) (h2 : w.right ≤ k ^ (e + 1)) :
    s.fillWindowC w = s.fillWindow w := by
  have hpos : 0 < k ^ (e + 1) := Nat.pow_pos hk
  unfold Snapshot.fillWindowC Snapshot.fillWindow
  rw [h.bit0 hk]
  cases w.rows with
  | none => rfl
  | some _ =>
  cases w.cols with
  | none => rfl
  | some _ =>
  simp only []
  cases hin : (K2Node.build get rows cols k (e + 1) 0 0).internal with
  | false => rfl
  | true =>
    simp only []
    rw [h.getMax _ _ h.root, h.hside]
    unfold csub
    by_cases c1 : 1 ≤ w.bottom
    · rw [if_pos c1]
      by_cases c2 : 1 ≤ w.right
      · rw [if_pos c2]
        exact h.fillGoC hk hf _ _ e _ 0 _ 0 0 _ _ _ _ _ _ h.root hin rfl (by omega) (by omega)
      · rw [if_neg c2]
    · rw [if_neg c1]

theorem SnapLayout.searchWindowC {s e N} (h : SnapLayout get rows cols k s (e + 1) N) (hk : 0 < k)
    (hf : SnapSafe N) (w : Rect) (lower upper : Int64) (h1 : w.bottom ≤ k ^ (e + 1))
    (h2 : w.right ≤ k ^ (e + 1)) :
    s.searchWindowC w lower upper = s.searchWindow w lower upper := by
  have hpos : 0 < k ^ (e + 1) := Nat.pow_pos hk
  unfold Snapshot.searchWindowC Snapshot.searchWindow
  obtain ⟨m1, m2⟩ := h.rootState hk
  have hb := h.bit0 hk
  rw [hb]
  cases hin : (K2Node.build get rows cols k (e + 1) 0 0).internal with
  | false => rfl
  | true =>
    rw [hin] at hb
    simp only []
    rcases m2 with ⟨-, -, m3⟩ | ⟨m3, -⟩
    · rw [m1, m3, h.hside]
      unfold csub
      by_cases c1 : 1 ≤ w.bottom
      · rw [if_pos c1]
        by_cases c2 : 1 ≤ w.right
        · rw [if_pos c2]
          exact h.searchGoC hk hf _ _ e _ 0 _ 0 0 _ _ _ _ _ _ h.root hin rfl (by omega) (by omega)
        · rw [if_neg c2]
      · rw [if_neg c1]
    · rw [m3] at hb; cases hb
end

/-! ### Logs -/

section
variable {getS getT : Nat → Nat → Int64} {rows cols k : Nat}

theorem SnapLayout.childC {s e N} (h : SnapLayout getS rows cols k s e N) (hf : SnapSafe N)
    {hh R C : Nat} {indexS : Option Nat} {maxS : Int64} {base : Option Nat}
    (ok : SOk getS rows cols k N (hh + 1) R C indexS maxS)
    (hb : childBase s.nodemap k indexS = some base) {i j : Nat} (hi : i < k) (hj : j < k) :
    s.childMaxSC maxS (base.map fun b => b + i * k + j) =
        s.childMaxS maxS (base.map fun b => b + i * k + j) ∧
      ∀ minS leafS, (∀ q, indexS = some q →
          minS = (K2Node.build getS rows cols k (hh + 1) R C).min.getD 0) →
        optLeaf isLeafGe s.nodemap (base.map fun b => b + i * k + j) = some leafS →
        s.childMinSC minS leafS (base.map fun b => b + i * k + j) =
          s.childMinS minS leafS (base.map fun b => b + i * k + j) := by
  cases indexS with
  | none =>
    simp [childBase] at hb
    subst hb
    exact ⟨rfl, fun _ _ _ _ => rfl⟩
  | some p =>
    obtain ⟨x, hp, hx, hint, rfl⟩ := ok
    rw [← hx] at hint
    obtain ⟨r, h1, -, h3⟩ := h.step p x hp hint
    have hsf : SnapFits x.2.2 := hf x (List.mem_of_getElem? hp) hint
    rw [hx] at hsf
    simp only [childBase, h1, Option.map_some, Option.some.injEq] at hb
    subst hb
    have h4 := h3 hh _ _ hx i j hi hj
    simp only [Option.map_some]
    generalize 1 + r * k * k + i * k + j = q at *
    constructor
    · simp only [Snapshot.childMaxSC, Snapshot.childMaxS]
      rw [h.getMax _ _ h4, hx]
      simp only [Option.bind_some, Option.map_some]
      rw [ckSub_back (hsf.child hi hj).1, i64_sub_sub]
    · intro minS leafS hm hl
      obtain rfl := hm p rfl
      cases leafS with
      | true => simp [Snapshot.childMinSC, Snapshot.childMinS]
      | false =>
        simp only [optLeaf] at hl
        rw [h.leafGe _ _ h4] at hl
        simp only [Option.some.injEq, Bool.not_eq_false'] at hl
        obtain ⟨r2, g1, g2, -⟩ := h.step _ _ h4 hl
        simp only [Snapshot.childMinSC, Snapshot.childMinS, Bool.false_eq_true, if_false]
        rw [g1]
        simp only []
        rw [g2, hx]
        simp only [Option.bind_some, Option.map_some]
        rw [ckAdd_back (hsf.child hi hj).2, i64_add_sub]

/-- The children of a node of a log. -/
theorem LogLayout.childNode {getV l e N} (h : LogLayout getS getT rows cols k l e N) (hk : 0 < k)
    {hh R C : Nat} {indexT : Option Nat} {maxT : Int64} {base : Option Nat}
    (ok : TOk getS getT getV rows cols k N (hh + 1) R C indexT maxT)
    (hb : childBase l.nodemap k indexT = some base) :
    (indexT = none ∧ base = none) ∨ ∃ b, base = some b ∧ ∀ i j, i < k → j < k →
      N[b + i * k + j]? = some (K2PNode.build getS getT rows cols k hh (R + i * k ^ hh) (C + j * k ^ hh)) := by
  cases indexT with
  | none =>
    simp [childBase] at hb
    exact Or.inl ⟨rfl, hb.symm⟩
  | some p =>
    obtain ⟨hp, hint, -⟩ := ok
    obtain ⟨r, h1, -, h3⟩ := h.step hk p (hh + 1) R C hp hint
    simp only [childBase, h1, Option.map_some, Option.some.injEq] at hb
    exact Or.inr ⟨_, hb.symm, fun i j hi hj => h3 hh rfl i j hi hj⟩

theorem LogSafe.node {N : List K2PNode} (hk : 0 < k) (h : LogSafe N) {q hh R C : Nat}
    (hq : N[q]? = some (K2PNode.build getS getT rows cols k hh R C)) :
    InI64 (((K2Node.build getT rows cols k hh R C).max.getD 0).toInt -
      ((K2Node.build getS rows cols k hh R C).max.getD 0).toInt) := by
  have := (h _ (List.mem_of_getElem? hq)).1
  obtain ⟨f1, f2, f3, f4⟩ := K2PNode.build_fields getS getT rows cols k hk hh R C
  rwa [f1, f3] at this

theorem fits_back {a b : Int64} (h : InI64 (a.toInt - b.toInt)) :
    InI64 ((a - b).toInt + b.toInt) := by
  rw [h.sub, show a.toInt - b.toInt + b.toInt = a.toInt by omega]
  exact fits_toInt a

theorem LogLayout.childFits {l e N} (h : LogLayout getS getT rows cols k l e N) (hk : 0 < k)
    (hf : LogSafe N) (hc : CellsFit getS getT rows cols)
    {hh R C : Nat} {indexT : Option Nat} {maxT maxT' maxS' : Int64} {base : Option Nat}
    (ok : TOk getS getT getT rows cols k N (hh + 1) R C indexT maxT)
    (hb : childBase l.nodemap k indexT = some base) {i j : Nat} (hi : i < k) (hj : j < k) {r c : Nat}
    (hbx : InBox rows cols k hh (R + i * k ^ hh) (C + j * k ^ hh) r c)
    (h1 : l.childMaxT maxT (base.map fun b => b + i * k + j) = some maxT')
    (hS : base = none → getS r c = maxS')
    (hm : maxS' = (K2Node.build getS rows cols k hh (R + i * k ^ hh) (C + j * k ^ hh)).max.getD 0) :
    ckAdd maxT' maxS' = some (maxT' + maxS') := by
  apply ckAdd_of
  rcases h.childNode hk ok hb with ⟨rfl, rfl⟩ | ⟨b, rfl, hn⟩
  · simp only [Option.map_none, Log.childMaxT, Option.some.injEq] at h1
    subst h1
    have hv : getT r c = getS r c + maxT := ok r c (hbx.parent hi hj)
    have hfit := hc r c hbx.2.2.2.2.1 hbx.2.2.2.2.2
    rw [← hS rfl]
    have := fits_back hfit
    rwa [show getT r c - getS r c = maxT by rw [hv]; grind] at this
  · simp only [Option.map_some, Log.childMaxT] at h1
    rw [h.getMax hk _ _ _ _ (hn i j hi hj)] at h1
    cases h1
    rw [hm]
    exact fits_back (hf.node hk (hn i j hi hj))

theorem LogLayout.getGoC {l s e N NS} (h : LogLayout getS getT rows cols k l e N)
    (hs : SnapLayout getS rows cols k s e NS) (hk : 0 < k) (hf : LogSafe N) (hfs : SnapSafe NS)
    (hcf : CellsFit getS getT rows cols) (hh : Nat) :
    ∀ fuel R C row col indexT indexS maxT maxS,
      TOk getS getT getT rows cols k N (hh + 1) R C indexT maxT →
      SOk getS rows cols k NS (hh + 1) R C indexS maxS →
      row < k ^ (hh + 1) → col < k ^ (hh + 1) → R + row < rows → C + col < cols →
      l.getGoC s fuel (k ^ (hh + 1)) row col indexT indexS maxT maxS =
        l.getGo s fuel (k ^ (hh + 1)) row col indexT indexS maxT maxS := by
  induction hh using Nat.strongRecOn with
  | _ hh ih =>
    intro fuel R C row col indexT indexS maxT maxS okT okS hr hc hR hC
    cases fuel with
    | zero => rfl
    | succ fuel =>
    have hpos : 0 < k ^ hh := Nat.pow_pos hk
    have hpow : k ^ (hh + 1) = k * k ^ hh := by rw [Nat.pow_succ, Nat.mul_comm]
    rw [hpow] at hr hc
    have hi : row / k ^ hh < k := by rw [Nat.div_lt_iff_lt_mul hpos]; exact hr
    have hj : col / k ^ hh < k := by rw [Nat.div_lt_iff_lt_mul hpos]; exact hc
    have er : R + row / k ^ hh * k ^ hh + row % k ^ hh = R + row := by
      rw [Nat.add_assoc, Nat.mul_comm, Nat.div_add_mod]
    have ec : C + col / k ^ hh * k ^ hh + col % k ^ hh = C + col := by
      rw [Nat.add_assoc, Nat.mul_comm, Nat.div_add_mod]
    have hmr := Nat.mod_lt row hpos
    have hmc := Nat.mod_lt col hpos
    obtain ⟨baseT, hbT, stepT⟩ := h.childStep hk hh R C indexT maxT okT
    obtain ⟨baseS, hbS, stepS⟩ := hs.childStep hk hh R C indexS maxS okS
    simp only [Log.getGoC, Log.getGo]
    have hk0 : ¬ k = 0 := by omega
    have hp0 : ¬ k ^ hh = 0 := by omega
    rw [h.hk, if_neg hk0, if_neg hk0, hpow, Nat.mul_div_cancel_left _ hk, if_neg hp0, if_neg hp0, hbT, hbS]
    simp only []
    generalize row / k ^ hh = i at *
    generalize col / k ^ hh = j at *
    generalize row % k ^ hh = mr at *
    generalize col % k ^ hh = mc at *
    have hbox : InBox rows cols k hh (R + i * k ^ hh) (C + j * k ^ hh) (R + row) (C + col) :=
      ⟨by omega, by omega, by omega, by omega, hR, hC⟩
    obtain ⟨maxT', leafT, t1, t2, -, tc⟩ := stepT i j hi hj ⟨_, _, hbox⟩
    obtain ⟨maxS', leafS, s1, s2, -, s3, s4, s5⟩ := stepS i j hi hj ⟨_, _, hbox⟩
    have hadd := h.childFits (maxS' := maxS') hk hf hcf okT hbT hi hj hbox t1
    have o1 := h.nodes.optLeaf_or (baseT.map fun b => b + i * k + j)
    have o2 := hs.nodes.optLeaf_or (baseS.map fun b => b + i * k + j)
    have hnone : baseT ≠ none → ∀ p, p = (baseT.map fun b => b + i * k + j) → p ≠ none := by
      intro hb p hp
      cases baseT with
      | none => exact absurd rfl hb
      | some b => subst hp; simp
    rw [(hs.childC hfs okS hbS hi hj).1, t1, s1]
    rw [t2] at o1
    rw [s2] at o2
    have hidx : (baseT.map fun b => b + i * k + j) = none ↔ baseT = none := by
      cases baseT <;> simp
    generalize (baseT.map fun b => b + i * k + j) = idxT at *
    generalize (baseS.map fun b => b + i * k + j) = idxS at *
    rcases o1 with o1 | o1
    · rw [o1]
    rcases o2 with o2 | o2
    · rw [o1, o2]
    rw [o1, o2]
    simp only []
    have rec_ : ∀ it is, hh ≠ 0 →
        TOk getS getT getT rows cols k N hh (R + i * k ^ hh) (C + j * k ^ hh) it maxT' →
        SOk getS rows cols k NS hh (R + i * k ^ hh) (C + j * k ^ hh) is maxS' →
        l.getGoC s fuel (k ^ hh) mr mc it is maxT' maxS' =
          l.getGo s fuel (k ^ hh) mr mc it is maxT' maxS' := by
      intro it is h0 a1 a2
      obtain ⟨h', rfl⟩ := Nat.exists_eq_succ_of_ne_zero h0
      exact ih h' (by omega) fuel _ _ _ _ it is maxT' maxS' a1 a2 hmr hmc (by omega) (by omega)
    cases leafT with
    | false =>
      cases tc with
      | node p h0 ok =>
        cases leafS with
        | false =>
          obtain ⟨_, q, hq, okq, -⟩ := s5 rfl
          subst hq
          simp only [Bool.and_self, Bool.false_eq_true, if_false]
          exact rec_ _ _ h0 ok okq
        | true =>
          simp only [Bool.and_true, Bool.false_eq_true, if_false, if_true]
          exact rec_ _ _ h0 ok (s4 rfl)
    | true =>
      cases leafS with
      | true =>
        simp only [Bool.and_self, if_true]
        exact hadd (fun _ => s4 rfl _ _ hbox) s3
      | false =>
        simp only [Bool.and_false, Bool.false_eq_true, if_false, if_true]
        obtain ⟨h0, q, hq, okq, -⟩ := s5 rfl
        subst hq
        cases tc with
        | inherit ok => simp only []; exact rec_ _ _ h0 ok okq
        | equal p hp hb he ok =>
          simp only []
          rw [if_pos hp, if_pos hp, he]
          exact rec_ _ _ h0 ok okq
        | uniform p hp hb he ok =>
          simp only []
          rw [if_pos hp, if_pos hp, he]
          exact hadd (fun hn => by have := hidx.2 hn; cases this) s3
        | bottom p hp h0' ok => exact absurd h0' h0

theorem LogLayout.fillGoC {l s e N NS} (h : LogLayout getS getT rows cols k l e N)
    (hs : SnapLayout getS rows cols k s e NS) (hk : 0 < k) (hf : LogSafe N) (hfs : SnapSafe NS)
    (hcf : CellsFit getS getT rows cols) (wt wl : Nat) (hh : Nat) :
    ∀ fuel R C top bottom left right indexT indexS maxT maxS,
      TOk getS getT getT rows cols k N (hh + 1) R C indexT maxT →
      SOk getS rows cols k NS (hh + 1) R C indexS maxS →
      top ≤ bottom → left ≤ right → bottom < k ^ (hh + 1) → right < k ^ (hh + 1) →
      R + bottom < rows → C + right < cols →
      l.fillGoC s wt wl fuel (k ^ (hh + 1)) top bottom left right indexT indexS maxT maxS R C =
        l.fillGo s wt wl fuel (k ^ (hh + 1)) top bottom left right indexT indexS maxT maxS R C := by
  induction hh using Nat.strongRecOn with
  | _ hh ih =>
    intro fuel R C top bottom left right indexT indexS maxT maxS okT okS htb hlr hb hr hR hC
    cases fuel with
    | zero => rfl
    | succ fuel =>
    have hpos : 0 < k ^ hh := Nat.pow_pos hk
    have hpow : k ^ (hh + 1) = k * k ^ hh := by rw [Nat.pow_succ, Nat.mul_comm]
    rw [hpow] at hb hr
    obtain ⟨baseT, hbT, stepT⟩ := h.childStep hk hh R C indexT maxT okT
    obtain ⟨baseS, hbS, stepS⟩ := hs.childStep hk hh R C indexS maxS okS
    simp only [Log.fillGoC, Log.fillGo]
    have hk0 : ¬ k = 0 := by omega
    have hp0 : ¬ k ^ hh = 0 := by omega
    rw [h.hk, if_neg hk0, if_neg hk0, hpow, Nat.mul_div_cancel_left _ hk, if_neg hp0, if_neg hp0, hbT, hbS]
    simp only []
    refine collect_congr fun i hi' => ?_
    rw [mem_rangeIncl] at hi'
    obtain ⟨hi, hi6, hi3, hi4, hi5, hi7⟩ := childSpan (k := k) hpos htb hb hi'.1 hi'.2
    rw [csub_of_le hi6]
    simp only []
    refine collect_congr fun j hj' => ?_
    rw [mem_rangeIncl] at hj'
    obtain ⟨hj, hj6, hj3, hj4, hj5, hj7⟩ := childSpan (k := k) hpos hlr hr hj'.1 hj'.2
    rw [csub_of_le hj6]
    simp only []
    generalize Nat.min (k ^ hh - 1) (bottom - i * k ^ hh) = b' at *
    generalize Nat.min (k ^ hh - 1) (right - j * k ^ hh) = r' at *
    generalize htop : top - i * k ^ hh = top' at *
    generalize hleft : left - j * k ^ hh = left' at *
    have hbox : InBox rows cols k hh (R + i * k ^ hh) (C + j * k ^ hh) (R + i * k ^ hh + top')
          (C + j * k ^ hh + left') :=
      ⟨by omega, by omega, by omega, by omega, by omega, by omega⟩
    obtain ⟨maxT', leafT, t1, t2, -, tc⟩ := stepT i j hi hj ⟨_, _, hbox⟩
    obtain ⟨maxS', leafS, s1, s2, -, s3, s4, s5⟩ := stepS i j hi hj ⟨_, _, hbox⟩
    have hadd := h.childFits (maxS' := maxS') hk hf hcf okT hbT hi hj hbox t1
    have o1 := h.nodes.optLeaf_or (baseT.map fun b => b + i * k + j)
    have o2 := hs.nodes.optLeaf_or (baseS.map fun b => b + i * k + j)
    rw [(hs.childC hfs okS hbS hi hj).1, t1, s1]
    rw [t2] at o1
    rw [s2] at o2
    have hidx : (baseT.map fun b => b + i * k + j) = none ↔ baseT = none := by
      cases baseT <;> simp
    generalize (baseT.map fun b => b + i * k + j) = idxT at *
    generalize (baseS.map fun b => b + i * k + j) = idxS at *
    rcases o1 with o1 | o1
    · rw [o1]
    rcases o2 with o2 | o2
    · rw [o1, o2]
    rw [o1, o2]
    simp only []
    have rec_ : ∀ it is, hh ≠ 0 →
        TOk getS getT getT rows cols k N hh (R + i * k ^ hh) (C + j * k ^ hh) it maxT' →
        SOk getS rows cols k NS hh (R + i * k ^ hh) (C + j * k ^ hh) is maxS' →
        l.fillGoC s wt wl fuel (k ^ hh) top' b' left' r' it is maxT' maxS' (R + i * k ^ hh)
            (C + j * k ^ hh) =
          l.fillGo s wt wl fuel (k ^ hh) top' b' left' r' it is maxT' maxS' (R + i * k ^ hh)
            (C + j * k ^ hh) := by
      intro it is h0 a1 a2
      obtain ⟨h', rfl⟩ := Nat.exists_eq_succ_of_ne_zero h0
      exact ih h' (by omega) fuel _ _ _ _ _ _ it is maxT' maxS' a1 a2 hi3 hj3 hi4 hj4 (by omega)
        (by omega)
    cases leafT with
    | false =>
      cases tc with
      | node p h0 ok =>
        cases leafS with
        | false =>
          obtain ⟨_, q, hq, okq, -⟩ := s5 rfl
          subst hq
          simp only [Bool.and_self, Bool.false_eq_true, if_false]
          exact rec_ _ _ h0 ok okq
        | true =>
          simp only [Bool.and_true, Bool.false_eq_true, if_false, if_true]
          exact rec_ _ _ h0 ok (s4 rfl)
    | true =>
      cases leafS with
      | true =>
        simp only [Bool.and_self, if_true]
        rw [hadd (fun _ => s4 rfl _ _ hbox) s3]
      | false =>
        simp only [Bool.and_false, Bool.false_eq_true, if_false, if_true]
        obtain ⟨h0, q, hq, okq, -⟩ := s5 rfl
        subst hq
        cases tc with
        | inherit ok => simp only []; exact rec_ _ _ h0 ok okq
        | equal p hp hb he ok =>
          simp only []
          rw [hb, he]
          exact rec_ _ _ h0 ok okq
        | uniform p hp hb he ok =>
          simp only []
          rw [hb, he]
          simp only []
          rw [hadd (fun hn => by have := hidx.2 hn; cases this) s3]
        | bottom p hp h0' ok => exact absurd h0' h0

theorem LogLayout.getC {l s e N NS} (h : LogLayout getS getT rows cols k l (e + 1) N)
    (hs : SnapLayout getS rows cols k s (e + 1) NS) (hk : 0 < k) (hf : LogSafe N)
    (hfs : SnapSafe NS) (hcf : CellsFit getS getT rows cols) (hr : rows ≤ k ^ (e + 1))
    (hc : cols ≤ k ^ (e + 1)) (row col : Nat) (h1 : row < rows) (h2 : col < cols) :
    l.getC s row col = l.get s row col := by
  obtain ⟨d, hd, hdv, hT⟩ := h.rootState (getV := getT) hk
    fun r c hb => (logCell_eq hk hcf.noOverflow _ 0 0 r c hb).symm
  obtain ⟨hm, hS⟩ := hs.rootState hk
  have go : ∀ it is, TOk getS getT getT rows cols k N (e + 1) 0 0 it d →
      SOk getS rows cols k NS (e + 1) 0 0 is
        ((K2Node.build getS rows cols k (e + 1) 0 0).max.getD 0) →
      l.getGoC s l.sidelen l.sidelen row col it is d
          ((K2Node.build getS rows cols k (e + 1) 0 0).max.getD 0) =
        l.getGo s l.sidelen l.sidelen row col it is d
          ((K2Node.build getS rows cols k (e + 1) 0 0).max.getD 0) := by
    intro it is a b
    rw [h.hside]
    exact h.getGoC hs hk hf hfs hcf e (k ^ (e + 1)) 0 0 row col it is d _ a b (by omega) (by omega)
      (by omega) (by omega)
  have hadd : ckAdd d ((K2Node.build getS rows cols k (e + 1) 0 0).max.getD 0) =
      some (d + (K2Node.build getS rows cols k (e + 1) 0 0).max.getD 0) := by
    apply ckAdd_of
    rw [hdv]
    exact fits_back (hf.node hk h.root)
  unfold Log.getC Log.get
  rw [hd, hm]
  rcases hT with ⟨t1, t2, -⟩ | ⟨t1, t2, -, t3⟩ | ⟨t1, t2, -, t3⟩
  · rcases hS with ⟨s1, s2, -⟩ | ⟨s1, -, s2⟩
    · rw [t1, s1]; exact go _ _ t2 s2
    · rw [t1, s1]; exact go _ _ t2 s2
  · rcases hS with ⟨s1, s2, -⟩ | ⟨s1, -, s2⟩
    · rw [t1, s1, t2]; exact go _ _ t3 s2
    · rw [t1, s1]; exact hadd
  · rcases hS with ⟨s1, s2, -⟩ | ⟨s1, -, s2⟩
    · rw [t1, s1, t2]; exact hadd
    · rw [t1, s1]; exact hadd

theorem LogLayout.fillWindowC {l s e N NS} (h : LogLayout getS getT rows cols k l (e + 1) N)
    (hs : SnapLayout getS rows cols k s (e + 1) NS) (hk : 0 < k) (hf : LogSafe N)
    (hfs : SnapSafe NS) (hcf : CellsFit getS getT rows cols) (hr : rows ≤ k ^ (e + 1))
    (hc : cols ≤ k ^ (e + 1)) (w : Rect) (hw : InRaster w rows cols) :
    l.fillWindowC s w = l.fillWindow s w := by
  obtain ⟨w1, w2, w3, w4⟩ := hw
  obtain ⟨d, hd, hdv, hT⟩ := h.rootState (getV := getT) hk
    fun r c hb => (logCell_eq hk hcf.noOverflow _ 0 0 r c hb).symm
  obtain ⟨hm, hS⟩ := hs.rootState hk
  have go : ∀ it is, TOk getS getT getT rows cols k N (e + 1) 0 0 it d →
      SOk getS rows cols k NS (e + 1) 0 0 is
        ((K2Node.build getS rows cols k (e + 1) 0 0).max.getD 0) →
      l.fillGoC s w.top w.left l.sidelen l.sidelen w.top (w.bottom - 1) w.left (w.right - 1) it is d
          ((K2Node.build getS rows cols k (e + 1) 0 0).max.getD 0) 0 0 =
        l.fillGo s w.top w.left l.sidelen l.sidelen w.top (w.bottom - 1) w.left (w.right - 1) it is d
          ((K2Node.build getS rows cols k (e + 1) 0 0).max.getD 0) 0 0 := by
    intro it is a b
    rw [h.hside]
    exact h.fillGoC hs hk hf hfs hcf _ _ e (k ^ (e + 1)) 0 0 _ _ _ _ it is d _ a b (by omega)
      (by omega) (by omega) (by omega) (by omega) (by omega)
  have hadd : ckAdd d ((K2Node.build getS rows cols k (e + 1) 0 0).max.getD 0) =
      some (d + (K2Node.build getS rows cols k (e + 1) 0 0).max.getD 0) := by
    apply ckAdd_of
    rw [hdv]
    exact fits_back (hf.node hk h.root)
  unfold Log.fillWindowC Log.fillWindow
  rw [hd, hm, csub_of_le (show 1 ≤ w.bottom by omega), csub_of_le (show 1 ≤ w.right by omega)]
  have leaf : ∀ (a b : Option Nat), (match some d,
      some ((K2Node.build getS rows cols k (e + 1) 0 0).max.getD 0), a, b with
      | some maxT, some maxS, some rows, some cols =>
        (ckAdd maxT maxS).map fun value => emitAll rows cols value
      | _, _, _, _ => none) = (match some d,
      some ((K2Node.build getS rows cols k (e + 1) 0 0).max.getD 0), a, b with
      | some maxT, some maxS, some rows, some cols => some (emitAll rows cols (maxT + maxS))
      | _, _, _, _ => none) := by
    intro a b
    cases a with
    | none => rfl
    | some a =>
      cases b with
      | none => rfl
      | some b => simp only []; rw [hadd]; rfl
  rcases hT with ⟨t1, t2, -⟩ | ⟨t1, t2, -, t3⟩ | ⟨t1, t2, -, t3⟩
  · rcases hS with ⟨s1, s2, -⟩ | ⟨s1, -, s2⟩
    · rw [t1, s1]; exact go _ _ t2 s2
    · rw [t1, s1]; exact go _ _ t2 s2
  · rcases hS with ⟨s1, s2, -⟩ | ⟨s1, -, s2⟩
    · rw [t1, s1, t2]; exact go _ _ t3 s2
    · rw [t1, s1]; exact leaf _ _
  · rcases hS with ⟨s1, s2, -⟩ | ⟨s1, -, s2⟩
    · rw [t1, s1, t2]; exact leaf _ _
    · rw [t1, s1]; exact leaf _ _

end
end Verif
