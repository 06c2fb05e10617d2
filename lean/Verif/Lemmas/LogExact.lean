import Verif.Lemmas.LogRoot

/-! When exactly a log reads as the second raster. -/
namespace Verif

/-- The difference of the two values does not fit `i64`. -/
def Overflows (getS getT : Nat → Nat → Int64) (r c : Nat) : Prop :=
  (getT r c - getS r c).toInt ≠ (getT r c).toInt - (getS r c).toInt

/-- The cell `(r, c)` is in the square of side `n`, row `i` and column `j` of the squares of this
size. -/
def InSquare (n i j r c : Nat) : Prop :=
  i * n ≤ r ∧ r < i * n + n ∧ j * n ≤ c ∧ c < j * n + n

/-- No aligned square of the raster in which the differences, wrapped, are all the same, has cells
where the difference overflows beside cells where it does not. -/
def NoSplit (getS getT : Nat → Nat → Int64) (rows cols k : Nat) : Prop :=
  ∀ h i j d, i * k ^ h + k ^ h ≤ rows → j * k ^ h + k ^ h ≤ cols →
    (∀ r c, InSquare (k ^ h) i j r c → getT r c - getS r c = d) →
    ∀ r c r' c', InSquare (k ^ h) i j r c → InSquare (k ^ h) i j r' c' →
      Overflows getS getT r c → Overflows getS getT r' c'

section
variable {getS getT : Nat → Nat → Int64} {rows cols k : Nat}

theorem NoOverflow.noSplit (h : NoOverflow getS getT rows cols) : NoSplit getS getT rows cols k := by
  intro hh i j d h1 h2 _ r c r' c' hb _ ho
  obtain ⟨a1, a2, a3, a4⟩ := hb
  exact absurd (h r c (by omega) (by omega)) ho

theorem NoSplit.congr {getS' getT' : Nat → Nat → Int64}
    (hS : ∀ r c, r < rows → c < cols → getS r c = getS' r c)
    (hT : ∀ r c, r < rows → c < cols → getT r c = getT' r c) (h : NoSplit getS getT rows cols k) :
    NoSplit getS' getT' rows cols k := by
  intro hh i j d h1 h2 hd r c r' c' q q' ho
  have hb : ∀ {r c}, InSquare (k ^ hh) i j r c → r < rows ∧ c < cols := by
    intro r c q
    obtain ⟨a1, a2, a3, a4⟩ := q
    omega
  have ho' := h hh i j d h1 h2 (fun r c q => by
    rw [hS r c (hb q).1 (hb q).2, hT r c (hb q).1 (hb q).2]; exact hd r c q) r c r' c' q q'
  unfold Overflows at ho ho' ⊢
  rw [← hS r' c' (hb q').1 (hb q').2, ← hT r' c' (hb q').1 (hb q').2]
  apply ho'
  rw [hS r c (hb q).1 (hb q).2, hT r c (hb q).1 (hb q).2]
  exact ho

theorem sub_cases (a b : Int64) : (a - b).toInt = a.toInt - b.toInt ∨
    (a - b).toInt = a.toInt - b.toInt - 2 ^ 64 ∨ (a - b).toInt = a.toInt - b.toInt + 2 ^ 64 := by
  have h1 := a.toInt_lt
  have h2 := a.le_toInt
  have h3 := b.toInt_lt
  have h4 := b.le_toInt
  rw [Int64.toInt_sub, Int.bmod_def]
  split <;> omega

/-- Shifting by a constant shifts the extremes, if the difference overflows everywhere or nowhere. -/
theorem box_shift' (hk : 0 < k) {h R C r c : Nat}
    (hb : InBox rows cols k h R C r c) (d : Int64)
    (hd : ∀ r c, InBox rows cols k h R C r c → getT r c - getS r c = d)
    (hs : ∀ r c r' c', InBox rows cols k h R C r c → InBox rows cols k h R C r' c' →
      Overflows getS getT r c → Overflows getS getT r' c') :
    (K2Node.build getT rows cols k h R C).max.getD 0 -
      (K2Node.build getS rows cols k h R C).max.getD 0 = d := by
  have bT := build_bounds getT rows cols k hk h R C
  have bS := build_bounds getS rows cols k hk h R C
  simp only [Int64.le_iff_toInt_le] at bT bS
  obtain ⟨r1, c1, b1, e1⟩ := box_max_attained getT hk hb
  obtain ⟨r2, c2, b2, e2⟩ := box_max_attained getS hk hb
  have : getT r2 c2 = getT r1 c1 := by
    rw [← Int64.toInt_inj]
    have a1 := (bT r2 c2 b2).2
    have a2 := (bS r1 c1 b1).2
    rw [← e1] at a1
    rw [← e2] at a2
    have s1 := hs r1 c1 r2 c2 b1 b2
    have s2 := hs r2 c2 r1 c1 b2 b1
    unfold Overflows at s1 s2
    have d1 := sub_cases (getT r1 c1) (getS r1 c1)
    have d2 := sub_cases (getT r2 c2) (getS r2 c2)
    rw [hd r1 c1 b1] at s1 s2 d1
    rw [hd r2 c2 b2] at s1 s2 d2
    have h1 := (getT r1 c1).toInt_lt
    have h2 := (getT r1 c1).le_toInt
    have h3 := (getS r1 c1).toInt_lt
    have h4 := (getS r1 c1).le_toInt
    have h5 := (getT r2 c2).toInt_lt
    have h6 := (getT r2 c2).le_toInt
    have h7 := (getS r2 c2).toInt_lt
    have h8 := (getS r2 c2).le_toInt
    omega
  rw [← e1, ← e2, ← this]
  exact hd r2 c2 b2

/-- Otherwise they are not. -/
theorem box_split (hk : 0 < k) {h R C : Nat} (d : Int64)
    (hd : ∀ r c, InBox rows cols k h R C r c → getT r c - getS r c = d) {r c r' c' : Nat}
    (hb : InBox rows cols k h R C r c) (hb' : InBox rows cols k h R C r' c')
    (ho : Overflows getS getT r c) (ho' : ¬ Overflows getS getT r' c') :
    (K2Node.build getT rows cols k h R C).max.getD 0 -
      (K2Node.build getS rows cols k h R C).max.getD 0 ≠ d := by
  have bT := build_bounds getT rows cols k hk h R C
  have bS := build_bounds getS rows cols k hk h R C
  simp only [Int64.le_iff_toInt_le] at bT bS
  obtain ⟨r1, c1, b1, e1⟩ := box_max_attained getT hk hb
  obtain ⟨r2, c2, b2, e2⟩ := box_max_attained getS hk hb
  intro he
  rw [← e1, ← e2] at he
  have hSS : getS r1 c1 = getS r2 c2 := by
    have := hd r1 c1 b1
    grind
  have hTT : getT r1 c1 = getT r2 c2 := by
    have := hd r1 c1 b1
    have := hd r2 c2 b2
    grind
  have a1 := (bT r c hb).2
  have a2 := (bT r' c' hb').2
  have a3 := (bS r c hb).2
  have a4 := (bS r' c' hb').2
  rw [← e1] at a1 a2
  rw [← e2, ← hSS] at a3 a4
  unfold Overflows at ho ho'
  have d1 := sub_cases (getT r1 c1) (getS r1 c1)
  have d2 := sub_cases (getT r c) (getS r c)
  have d3 := sub_cases (getT r' c') (getS r' c')
  rw [hd r1 c1 b1] at d1
  rw [hd r c hb] at ho d2
  rw [hd r' c' hb'] at ho' d3
  have h1 := (getT r1 c1).toInt_lt
  have h2 := (getT r1 c1).le_toInt
  have h3 := (getS r1 c1).toInt_lt
  have h4 := (getS r1 c1).le_toInt
  have h5 := (getT r c).toInt_lt
  have h6 := (getT r c).le_toInt
  have h7 := (getS r c).toInt_lt
  have h8 := (getS r c).le_toInt
  have h9 := (getT r' c').toInt_lt
  have h10 := (getT r' c').le_toInt
  have h11 := (getS r' c').toInt_lt
  have h12 := (getS r' c').le_toInt
  omega

theorem inBox_iff {h i j r c : Nat} (h1 : i * k ^ h + k ^ h ≤ rows) (h2 : j * k ^ h + k ^ h ≤ cols) :
    InBox rows cols k h (i * k ^ h) (j * k ^ h) r c ↔ InSquare (k ^ h) i j r c := by
  unfold InBox InSquare
  omega

/-- What a node marked equal says: the difference is constant, and zero if the square reaches over
the edge. -/
theorem equal_diff (hk : 0 < k) {h R C : Nat}
    (heq : (K2PNode.build getS getT rows cols k h R C).equal = true) :
    (∀ r c, InBox rows cols k h R C r c → getT r c - getS r c = getT R C - getS R C) ∧
      (R + k ^ h ≤ rows ∧ C + k ^ h ≤ cols ∨
        ∀ r c, InBox rows cols k h R C r c → getT r c - getS r c = 0) := by
  rw [K2PNode.build_equal _ _ _ _ _ hk] at heq
  have hd : ∀ r c, InBox rows cols k h R C r c → getT r c - getS r c = getT R C - getS R C := by
    intro r c hb
    have hc := hb.corner
    obtain ⟨b1, b2, b3, b4, b5, b6⟩ := hb
    have := heq r c b1 b2 b3 b4
    unfold cellDiff at this
    rw [if_pos ⟨b5, b6⟩, if_pos hc] at this
    exact this
  refine ⟨hd, ?_⟩
  have hpos : 0 < k ^ h := Nat.pow_pos hk
  by_cases hin : R + k ^ h ≤ rows ∧ C + k ^ h ≤ cols
  · exact .inl hin
  · right
    intro r c hb
    rw [hd r c hb]
    have hc := hb.corner
    have := heq (R + k ^ h - 1) (C + k ^ h - 1) (by omega) (by omega) (by omega) (by omega)
    unfold cellDiff at this
    rw [if_pos hc, if_neg (by omega)] at this
    exact this.symm

theorem not_overflows_zero {r c : Nat} (h : getT r c - getS r c = 0) : ¬ Overflows getS getT r c := by
  intro ho
  have : getT r c = getS r c := by grind
  apply ho
  rw [h, this]
  simp

/-- The log reads as the second raster. -/
theorem logCell_eq' (hk : 0 < k) (hno : NoSplit getS getT rows cols k) (h : Nat) :
    ∀ i j r c, InBox rows cols k h (i * k ^ h) (j * k ^ h) r c →
      logCell getS getT rows cols k h (i * k ^ h) (j * k ^ h) r c = getT r c := by
  induction h with
  | zero => intro i j r c _; rfl
  | succ h ih =>
    intro i j r c hb
    cases hin : (K2PNode.build getS getT rows cols k (h + 1) (i * k ^ (h + 1))
        (j * k ^ (h + 1))).internal with
    | true =>
      obtain ⟨a, b, -, -, hb'⟩ := hb.child hk
      rw [logCell_child hk hin hb']
      have e1 : ∀ i a, i * k ^ (h + 1) + a * k ^ h = (i * k + a) * k ^ h := by
        intro i a; rw [Nat.pow_succ]; grind
      rw [e1, e1] at hb' ⊢
      exact ih _ _ _ _ hb'
    | false =>
      rw [logCell, hin, if_neg (by simp)]
      split
      · rfl
      · rename_i hu
        obtain ⟨hd, hz⟩ := equal_diff hk (cut_equal hk (by omega) hin hu)
        rw [box_shift' hk hb _ hd, ← hd r c hb]
        · grind
        · rcases hz with ⟨h1, h2⟩ | hz
          · simp only [inBox_iff h1 h2] at hd ⊢
            exact hno (h + 1) i j _ h1 h2 hd
          · intro r c r' c' hb _ ho
            exact absurd ho (not_overflows_zero (hz r c hb))

theorem square_sub {m q A a r : Nat} (h1 : A * (m * q) ≤ r) (h2 : r < A * (m * q) + m * q)
    (h3 : a * m ≤ r) (h4 : r < a * m + m) :
    ∀ x, a * m ≤ x → x < a * m + m → A * (m * q) ≤ x ∧ x < A * (m * q) + m * q := by
  intro x h5 h6
  have e1 : A * (m * q) = A * q * m := by grind
  have e2 : A * (m * q) + m * q = (A * q + q) * m := by grind
  have e3 : a * m + m = (a + 1) * m := by grind
  rw [e2] at h2 ⊢
  rw [e1] at h1 ⊢
  rw [e3] at h4 h6
  have l1 : A * q < a + 1 := Nat.lt_of_mul_lt_mul_right (Nat.lt_of_le_of_lt h1 h4)
  have l2 : a < A * q + q := Nat.lt_of_mul_lt_mul_right (Nat.lt_of_le_of_lt h3 h2)
  have m1 : A * q * m ≤ a * m := Nat.mul_le_mul_right _ (by omega)
  have m2 : (a + 1) * m ≤ (A * q + q) * m := Nat.mul_le_mul_right _ (by omega)
  omega

/-- Every cell of a square that is split reads wrong. -/
theorem logCell_ne (hk : 0 < k) {hq iq jq : Nat} {d : Int64}
    (h1 : iq * k ^ hq + k ^ hq ≤ rows) (h2 : jq * k ^ hq + k ^ hq ≤ cols)
    (hd : ∀ r c, InSquare (k ^ hq) iq jq r c → getT r c - getS r c = d)
    {r1 c1 r2 c2 : Nat} (q1 : InSquare (k ^ hq) iq jq r1 c1) (q2 : InSquare (k ^ hq) iq jq r2 c2)
    (o1 : Overflows getS getT r1 c1) (o2 : ¬ Overflows getS getT r2 c2) {r c : Nat}
    (q : InSquare (k ^ hq) iq jq r c) (h : Nat) (hh : hq ≤ h) :
    ∀ i j, (∀ r c, InSquare (k ^ hq) iq jq r c → InBox rows cols k h (i * k ^ h) (j * k ^ h) r c) →
      logCell getS getT rows cols k h (i * k ^ h) (j * k ^ h) r c ≠ getT r c := by
  induction h with
  | zero =>
    obtain rfl : hq = 0 := by omega
    obtain ⟨a1, a2, a3, a4⟩ := q1
    obtain ⟨b1, b2, b3, b4⟩ := q2
    rw [Nat.pow_zero] at *
    obtain rfl : r1 = r2 := by omega
    obtain rfl : c1 = c2 := by omega
    exact absurd o1 o2
  | succ h ih =>
    intro i j hsub
    cases hin : (K2PNode.build getS getT rows cols k (h + 1) (i * k ^ (h + 1))
        (j * k ^ (h + 1))).internal with
    | true =>
      have hlt : hq ≤ h := by
        by_contra hne
        obtain rfl : hq = h + 1 := by omega
        have hpos : 0 < k ^ (h + 1) := Nat.pow_pos hk
        have z1 := hsub (iq * k ^ (h + 1)) (jq * k ^ (h + 1)) ⟨by omega, by omega, by omega, by omega⟩
        have z2 := hsub (iq * k ^ (h + 1) + k ^ (h + 1) - 1) (jq * k ^ (h + 1) + k ^ (h + 1) - 1)
          ⟨by omega, by omega, by omega, by omega⟩
        obtain ⟨y1, y2, y3, y4, -, -⟩ := z1
        obtain ⟨x1, x2, x3, x4, -, -⟩ := z2
        have e1 : i * k ^ (h + 1) = iq * k ^ (h + 1) := by omega
        have e2 : j * k ^ (h + 1) = jq * k ^ (h + 1) := by omega
        rw [e1, e2] at hin
        have : (K2PNode.build getS getT rows cols k (h + 1) (iq * k ^ (h + 1))
            (jq * k ^ (h + 1))).equal = true := by
          rw [K2PNode.build_equal _ _ _ _ _ hk]
          intro r c a1 a2 a3 a4
          unfold cellDiff
          rw [if_pos ⟨by omega, by omega⟩, if_pos ⟨by omega, by omega⟩, hd r c ⟨a1, a2, a3, a4⟩,
            hd _ _ ⟨by omega, by omega, by omega, by omega⟩]
        unfold K2PNode.internal at hin
        rw [this] at hin
        simp at hin
      obtain ⟨a, b, -, -, hb'⟩ := (hsub r c q).child hk
      rw [logCell_child hk hin hb']
      have e1 : ∀ i a, i * k ^ (h + 1) + a * k ^ h = (i * k + a) * k ^ h := by
        intro i a; rw [Nat.pow_succ]; grind
      rw [e1, e1] at hb' ⊢
      refine ih hlt _ _ ?_
      intro r' c' q'
      obtain ⟨f1, f2, f3, f4, -, -⟩ := hb'
      obtain ⟨-, -, -, -, g1, g2⟩ := hsub r' c' q'
      have ep : k ^ h = k ^ hq * k ^ (h - hq) := by
        rw [← Nat.pow_add]; congr 1; omega
      obtain ⟨s1, s2, s3, s4⟩ := q
      obtain ⟨t1, t2, t3, t4⟩ := q'
      unfold InBox
      rw [ep] at f1 f2 f3 f4 ⊢
      obtain ⟨u1, u2⟩ := square_sub f1 f2 s1 s2 r' t1 t2
      obtain ⟨u3, u4⟩ := square_sub f3 f4 s3 s4 c' t3 t4
      exact ⟨u1, u2, u3, u4, g1, g2⟩
    | false =>
      rw [logCell, hin, if_neg (by simp)]
      split
      · rename_i hu
        exfalso
        have t1 := uniform_sem (getS := getS) hk (hsub _ _ q1) hu
        have t2 := uniform_sem (getS := getS) hk (hsub _ _ q2) hu
        have d1 := hd _ _ q1
        have d2 := hd _ _ q2
        have et : getT r1 c1 = getT r2 c2 := t1.trans t2.symm
        have es : getS r1 c1 = getS r2 c2 := by grind
        apply o2
        unfold Overflows at o1 ⊢
        rw [← et, ← es]
        exact o1
      · rename_i hu
        obtain ⟨hd', -⟩ := equal_diff hk (cut_equal hk (by omega) hin hu)
        have hne := box_split hk _ hd' (hsub _ _ q1) (hsub _ _ q2) o1 o2
        intro he
        apply hne
        rw [← hd' r c (hsub _ _ q), ← he]
        grind

theorem logCell_wrong (hk : 2 ≤ k) {e h i j : Nat} {d : Int64} (hr : rows ≤ k ^ e) (hc : cols ≤ k ^ e)
    (a1 : i * k ^ h + k ^ h ≤ rows) (a2 : j * k ^ h + k ^ h ≤ cols)
    (hd : ∀ r c, InSquare (k ^ h) i j r c → getT r c - getS r c = d) {r1 c1 r2 c2 : Nat}
    (q1 : InSquare (k ^ h) i j r1 c1) (q2 : InSquare (k ^ h) i j r2 c2)
    (o1 : Overflows getS getT r1 c1) (o2 : ¬ Overflows getS getT r2 c2) {r c : Nat}
    (q : InSquare (k ^ h) i j r c) : logCell getS getT rows cols k e 0 0 r c ≠ getT r c := by
  have hle : h ≤ e :=
    (Nat.pow_le_pow_iff_right (by omega)).1 (show k ^ h ≤ k ^ e by
      have := q.1
      omega)
  have := logCell_ne (rows := rows) (cols := cols) (by omega) a1 a2 hd q1 q2 o1 o2 q e hle 0 0
    (fun r c q => by
      unfold InSquare at q
      rw [Nat.zero_mul]
      exact ⟨by omega, by omega, by omega, by omega, by omega, by omega⟩)
  rwa [Nat.zero_mul] at this

theorem noSplit_of_logCell (hk : 2 ≤ k) {e : Nat} (hr : rows ≤ k ^ e) (hc : cols ≤ k ^ e)
    (h : ∀ r c, r < rows → c < cols → logCell getS getT rows cols k e 0 0 r c = getT r c) :
    NoSplit getS getT rows cols k := by
  intro hh i j d a1 a2 hd r c r' c' q q' o
  by_contra o'
  have hq := q
  unfold InSquare at hq
  exact logCell_wrong hk hr hc a1 a2 hd q q' o o' q (h r c (by omega) (by omega))

/-- Cells of the log read as the second raster. -/
theorem LogLayout.get_cell {l s e N NS} (h : LogLayout getS getT rows cols k l (e + 1) N)
    (hs : SnapLayout getS rows cols k s (e + 1) NS) (hk : 2 ≤ k)
    (hno : NoSplit getS getT rows cols k) (h32 : l.nodemap.length % 32 ≠ 0)
    (h32s : s.nodemap.length % 32 ≠ 0)
    (hr : rows ≤ k ^ (e + 1)) (hc : cols ≤ k ^ (e + 1)) (row col : Nat) (h1 : row < rows)
    (h2 : col < cols) : l.get s row col = some (getT row col) :=
  h.get_cellV hs hk (fun r c hb => by
    have := logCell_eq' (by omega) hno (e + 1) 0 0 r c (by simpa using hb)
    simpa using this.symm) h32 h32s hr hc row col h1 h2

theorem LogLayout.fillWindow {l s e N NS} (h : LogLayout getS getT rows cols k l (e + 1) N)
    (hs : SnapLayout getS rows cols k s (e + 1) NS) (hk : 2 ≤ k)
    (hno : NoSplit getS getT rows cols k) (h32 : l.nodemap.length % 32 ≠ 0)
    (h32s : s.nodemap.length % 32 ≠ 0)
    (hr : rows ≤ k ^ (e + 1)) (hc : cols ≤ k ^ (e + 1)) (w : Rect) (hw : InRaster w rows cols) :
    ∃ L, l.fillWindow s w = some L ∧ L.Perm (Spec.window getT w.top w.bottom w.left w.right) :=
  h.fillWindowV hs hk (fun r c hb => by
    have := logCell_eq' (by omega) hno (e + 1) 0 0 r c (by simpa using hb)
    simpa using this.symm) h32 h32s hr hc w hw

end
end Verif
