import Verif.Lemmas.LogSearch

/-! Searches of a log from the root: exactly when they are right. -/
namespace Verif

/-- Every cell of the raster has value `v`. -/
def Const {α : Type} (get : Nat → Nat → α) (rows cols : Nat) (v : α) : Prop :=
  ∀ r c, r < rows → c < cols → get r c = v

/-- What the two rasters must satisfy for searches of the log to be right (see `C09`). -/
structure SearchSafe (getS getT : Nat → Nat → Int64) (rows cols side : Nat) : Prop where
  both : ∀ u v, Const getT rows cols u → Const getS rows cols v → 0 ≤ u
  second : ∀ u, Const getT rows cols u → (∀ v, ¬ Const getS rows cols v) →
    (∀ r c, r < rows → c < cols → u ≤ getS r c) ∧ ∃ r c, r < rows ∧ c < cols ∧ getS r c = u
  first : ∀ v, Const getS rows cols v → (∀ u, ¬ Const getT rows cols u) → 0 ≤ v
  shift : ∀ d, rows = side → cols = side → (∀ u, ¬ Const getT rows cols u) →
    (∀ r c, r < rows → c < cols → getT r c - getS r c = d) → 0 ≤ d

section
variable {getS getT : Nat → Nat → Int64} {rows cols k : Nat}

theorem inBox_root {e r c : Nat} (hr : rows ≤ k ^ e) (hc : cols ≤ k ^ e) (h1 : r < rows)
    (h2 : c < cols) : InBox rows cols k e 0 0 r c := ⟨by omega, by omega, by omega, by omega, h1, h2⟩

/-- Minimum equal to maximum exactly when constant. -/
theorem root_minmax (get : Nat → Nat → Int64) (hk : 0 < k) {e : Nat} (hr : rows ≤ k ^ e)
    (hc : cols ≤ k ^ e) (h1 : 0 < rows) (h2 : 0 < cols) :
    ((K2Node.build get rows cols k e 0 0).min = (K2Node.build get rows cols k e 0 0).max ↔
      ∃ v, Const get rows cols v) := by
  have hb0 := inBox_root (k := k) hr hc h1 h2
  obtain ⟨mn, mx, g1, g2, -⟩ := (build_sem get rows cols k hk e 0 0).1 0 0 hb0
  constructor
  · intro h
    refine ⟨mx, fun r c a b => ?_⟩
    have := build_bounds get rows cols k hk e 0 0 r c (inBox_root hr hc a b)
    rw [h, g1] at this
    exact Int64.le_antisymm this.2 this.1
  · rintro ⟨v, hv⟩
    have e1 := box_const_max get hk hb0 v (fun r c hb => hv r c hb.2.2.2.2.1 hb.2.2.2.2.2)
    have e2 := box_const_min get hk hb0 v (fun r c hb => hv r c hb.2.2.2.2.1 hb.2.2.2.2.2)
    rw [g1] at e1 ⊢; rw [g2] at e2 ⊢
    simp at e1 e2
    rw [e1, e2]

/-- The states in which a search of a log can start. -/
inductive RootCase (getS getT : Nat → Nat → Int64) (rows cols k e : Nat) (N : List K2PNode)
    (NS : List SnapEntry) (Tmin Tmax Smin Smax : Int64) :
    Option Nat → Option Nat → Int64 → Int64 → Prop
  | A (okT : TOk getS getT getT rows cols k N e 0 0 (some 0) (Tmax - Smax))
      (okS : SOk getS rows cols k NS e 0 0 (some 0) Smax)
      (ne : ∀ u, ¬ Const getT rows cols u) (ne' : ∀ v, ¬ Const getS rows cols v)
      (nd : rows = k ^ e → cols = k ^ e → ∀ d,
        ¬ ∀ r c, r < rows → c < cols → getT r c - getS r c = d) :
      RootCase getS getT rows cols k e N NS Tmin Tmax Smin Smax (some 0) (some 0) (Tmin - Smin) Smin
  | B (okT : TOk getS getT getT rows cols k N e 0 0 (some 0) (Tmax - Smax))
      (okS : Const getS rows cols Smax) (ne : ∀ u, ¬ Const getT rows cols u) :
      RootCase getS getT rows cols k e N NS Tmin Tmax Smin Smax (some 0) none (Tmin - Smin) 0
  | C (okT : ∀ r c, r < rows → c < cols → getT r c = getS r c + (Tmax - Smax))
      (okS : SOk getS rows cols k NS e 0 0 (some 0) Smax) (ne : ∀ u, ¬ Const getT rows cols u)
      (pad : Tmax - Smax = 0 ∨ (rows = k ^ e ∧ cols = k ^ e)) :
      RootCase getS getT rows cols k e N NS Tmin Tmax Smin Smax none (some 0) 0 Smin
  | D (okT : Const getT rows cols Tmax)
      (okS : SOk getS rows cols k NS e 0 0 (some 0) Smax) (ne : ∀ v, ¬ Const getS rows cols v) :
      RootCase getS getT rows cols k e N NS Tmin Tmax Smin Smax none (some 0) 0 Smin
  | E (okT : Const getT rows cols Tmax) (okS : Const getS rows cols Smax) :
      RootCase getS getT rows cols k e N NS Tmin Tmax Smin Smax none none 0 0

theorem searchWindow_reads {l s e N NS} (h : LogLayout getS getT rows cols k l (e + 1) N)
    (hs : SnapLayout getS rows cols k s (e + 1) NS) (hk : 0 < k)
    (hno : NoOverflow getS getT rows cols)
    (hr : rows ≤ k ^ (e + 1)) (hc : cols ≤ k ^ (e + 1)) (h1 : 0 < rows) (h2 : 0 < cols) :
    ∃ indexT indexS minT minS,
      RootCase getS getT rows cols k (e + 1) N NS
        ((K2Node.build getT rows cols k (e + 1) 0 0).min.getD 0)
        ((K2Node.build getT rows cols k (e + 1) 0 0).max.getD 0)
        ((K2Node.build getS rows cols k (e + 1) 0 0).min.getD 0)
        ((K2Node.build getS rows cols k (e + 1) 0 0).max.getD 0) indexT indexS minT minS ∧
      l.nodemap.get 0 = some indexT.isSome ∧ s.nodemap.get 0 = some indexS.isSome ∧
      (indexT.isSome = true → indexT = some 0) ∧ (indexS.isSome = true → indexS = some 0) ∧
      l.min.get 0 = some minT ∧ s.min.get 0 = some minS ∧
      l.max.get 0 = some ((K2Node.build getT rows cols k (e + 1) 0 0).max.getD 0 -
        (K2Node.build getS rows cols k (e + 1) 0 0).max.getD 0) ∧
      s.max.get 0 = some ((K2Node.build getS rows cols k (e + 1) 0 0).max.getD 0) := by
  have hb0 := inBox_root (k := k) hr hc h1 h2
  obtain ⟨d, hd, hdv, hT⟩ := h.rootState (getV := getT) hk fun r c hb => (logCell_eq hk hno _ 0 0 r c hb).symm
  obtain ⟨hm, hS⟩ := hs.rootState hk
  subst hdv
  have hbitT := h.bit0 hk
  have hbitS := hs.bit0 hk
  have mmT := root_minmax getT hk hr hc h1 h2
  have mmS := root_minmax getS hk hr hc h1 h2
  obtain ⟨f1, f2, -, -⟩ := K2PNode.build_fields getS getT rows cols k hk (e + 1) 0 0
  have neT : (K2PNode.build getS getT rows cols k (e + 1) 0 0).minT ≠
      (K2PNode.build getS getT rows cols k (e + 1) 0 0).maxT → ∀ u, ¬ Const getT rows cols u := by
    intro hne u hu
    rw [f1, f2] at hne
    exact hne (mmT.2 ⟨u, hu⟩)
  have intT : l.nodemap.get 0 = some true → ∀ u, ¬ Const getT rows cols u := by
    intro ht
    rw [hbitT] at ht
    apply neT
    simp only [Option.some.injEq] at ht
    unfold K2PNode.internal at ht
    simp at ht
    exact ht.1.2
  have eqT : l.nodemap.get 0 = some false → l.equal.get 0 = some true →
      (K2PNode.build getS getT rows cols k (e + 1) 0 0).equal = true ∧
      (K2PNode.build getS getT rows cols k (e + 1) 0 0).minT ≠
      (K2PNode.build getS getT rows cols k (e + 1) 0 0).maxT := by
    intro ht he
    rw [hbitT] at ht
    simp only [Option.some.injEq] at ht
    rw [h.equal0 hk ht] at he
    simp at he
    refine ⟨?_, he⟩
    unfold K2PNode.internal at ht
    have hc : (K2PNode.build getS getT rows cols k (e + 1) 0 0).children.isEmpty = false := by
      rw [← K2PNode.height_pos, K2PNode.build_height _ _ _ _ _ hk]; omega
    rw [hc, decide_eq_false he] at ht
    simpa using ht
  have intS : s.nodemap.get 0 = some true → ∀ u, ¬ Const getS rows cols u := by
    intro ht u hu
    rw [hbitS] at ht
    simp only [Option.some.injEq] at ht
    have := mmS.2 ⟨u, hu⟩
    unfold K2Node.internal at ht
    simp at ht
    exact ht.2 (by rw [this])
  have sC : SOk getS rows cols k NS (e + 1) 0 0 none
      ((K2Node.build getS rows cols k (e + 1) 0 0).max.getD 0) →
      Const getS rows cols ((K2Node.build getS rows cols k (e + 1) 0 0).max.getD 0) :=
    fun ok r c a b => ok r c (inBox_root hr hc a b)
  rcases hT with ⟨t1, t2, t3⟩ | ⟨t1, t2, t3, t4⟩ | ⟨t1, t2, t3, t4⟩
  · rcases hS with ⟨s1, s2, s3⟩ | ⟨s1, s2, s3⟩
    · refine ⟨_, _, _, _, RootCase.A t2 s2 (intT t1) (intS s1) ?_, t1, s1, by simp, by simp, t3, s3, hd, hm⟩
      intro p q d hd
      have : (K2PNode.build getS getT rows cols k (e + 1) 0 0).equal = true := by
        rw [K2PNode.build_equal _ _ _ _ _ hk]
        intro r c _ a _ b
        unfold cellDiff
        rw [if_pos (by omega), if_pos (by omega), hd _ _ (by omega) (by omega), hd _ _ h1 h2]
      rw [hbitT] at t1
      simp only [Option.some.injEq] at t1
      unfold K2PNode.internal at t1
      rw [this] at t1
      simp at t1
    · exact ⟨_, _, _, _, RootCase.B t2 (sC s3) (intT t1), t1, s1, by simp, by simp, t3, s2, hd, hm⟩
  · obtain ⟨q1, q2⟩ := eqT t1 t2
    rcases hS with ⟨s1, s2, s3⟩ | ⟨s1, s2, s3⟩
    · refine ⟨_, _, _, _, RootCase.C (fun r c a b => t4 r c (inBox_root hr hc a b)) s2 (neT q2) ?_,
        t1, s1, by simp, by simp, t3, s3, hd, hm⟩
      have e0 : (K2Node.build getT rows cols k (e + 1) 0 0).max.getD 0 -
              (K2Node.build getS rows cols k (e + 1) 0 0).max.getD 0 = getT 0 0 - getS 0 0 := by
        rw [t4 0 0 hb0]; grind
      rw [K2PNode.build_equal _ _ _ _ _ hk] at q1
      by_cases hrk : rows = k ^ (e + 1)
      · by_cases hck : cols = k ^ (e + 1)
        · exact Or.inr ⟨hrk, hck⟩
        · left
          have := q1 0 cols (by omega) (by omega) (by omega) (by omega)
          unfold cellDiff at this
          rw [if_neg (by omega), if_pos (by omega)] at this
          rw [e0, ← this]
      · left
        have := q1 rows 0 (by omega) (by omega) (by omega) (by omega)
        unfold cellDiff at this
        rw [if_neg (by omega), if_pos (by omega)] at this
        rw [e0, ← this]
    · exfalso
      refine neT q2 ((K2Node.build getS rows cols k (e + 1) 0 0).max.getD 0 +
          ((K2Node.build getT rows cols k (e + 1) 0 0).max.getD 0 -
            (K2Node.build getS rows cols k (e + 1) 0 0).max.getD 0)) (fun r c a b => ?_)
      rw [t4 r c (inBox_root hr hc a b), s3 r c (inBox_root hr hc a b)]
  · rcases hS with ⟨s1, s2, s3⟩ | ⟨s1, s2, s3⟩
    · exact ⟨_, _, _, _, RootCase.D (fun r c a b => t4 r c (inBox_root hr hc a b)) s2 (intS s1),
        t1, s1, by simp, by simp, t3, s3, hd, hm⟩
    · exact ⟨_, _, _, _, RootCase.E (fun r c a b => t4 r c (inBox_root hr hc a b)) (sC s3),
        t1, s1, by simp, by simp, t3, s2, hd, hm⟩

theorem searchWindow_root {l s e N NS} (h : LogLayout getS getT rows cols k l (e + 1) N)
    (hs : SnapLayout getS rows cols k s (e + 1) NS) (hk : 0 < k)
    (hno : NoOverflow getS getT rows cols)
    (hr : rows ≤ k ^ (e + 1)) (hc : cols ≤ k ^ (e + 1)) (h1 : 0 < rows) (h2 : 0 < cols) :
    ∃ indexT indexS minT minS,
      RootCase getS getT rows cols k (e + 1) N NS
        ((K2Node.build getT rows cols k (e + 1) 0 0).min.getD 0)
        ((K2Node.build getT rows cols k (e + 1) 0 0).max.getD 0)
        ((K2Node.build getS rows cols k (e + 1) 0 0).min.getD 0)
        ((K2Node.build getS rows cols k (e + 1) 0 0).max.getD 0) indexT indexS minT minS ∧
      ∀ (w : Rect) (lower upper : Int64), 1 ≤ w.bottom → 1 ≤ w.right →
        l.searchWindow s w lower upper =
          l.searchGo s lower upper (k ^ (e + 1) + 1) (k ^ (e + 1)) w.top (w.bottom - 1) w.left
            (w.right - 1) indexT indexS minT minS
            ((K2Node.build getT rows cols k (e + 1) 0 0).max.getD 0 -
              (K2Node.build getS rows cols k (e + 1) 0 0).max.getD 0)
            ((K2Node.build getS rows cols k (e + 1) 0 0).max.getD 0) 0 0 := by
  obtain ⟨indexT, indexS, minT, minS, rc, a1, a2, b1, b2, a3, a4, hd, hm⟩ := searchWindow_reads h hs hk hno hr hc h1 h2
  refine ⟨indexT, indexS, minT, minS, rc, fun w lower upper a5 a6 => ?_⟩
  unfold Log.searchWindow
  rw [a1, a2, a3, a4, hd, hm, csub_of_le a5, csub_of_le a6, h.hside]
  cases indexT <;> cases indexS <;> simp_all

theorem i64_zero_add (a : Int64) : 0 + a = a := by grind
theorem i64_add_zero (a : Int64) : a + 0 = a := by grind

/-- The state in which a search starts is one from which it goes right. -/
theorem RootCase.inv {e N NS indexT indexS minT minS} (hk0 : 0 < k) (hno : NoOverflow getS getT rows cols)
    (hr : rows ≤ k ^ (e + 1)) (hc : cols ≤ k ^ (e + 1)) (h1 : 0 < rows) (h2 : 0 < cols)
    (safe : SearchSafe getS getT rows cols (k ^ (e + 1)))
    (rc : RootCase getS getT rows cols k (e + 1) N NS
        ((K2Node.build getT rows cols k (e + 1) 0 0).min.getD 0)
        ((K2Node.build getT rows cols k (e + 1) 0 0).max.getD 0)
        ((K2Node.build getS rows cols k (e + 1) 0 0).min.getD 0)
        ((K2Node.build getS rows cols k (e + 1) 0 0).max.getD 0) indexT indexS minT minS) :
    SearchInv getS getT rows cols k N NS (e + 1) 0 0 indexT indexS minT minS
      ((K2Node.build getT rows cols k (e + 1) 0 0).max.getD 0 -
        (K2Node.build getS rows cols k (e + 1) 0 0).max.getD 0)
      ((K2Node.build getS rows cols k (e + 1) 0 0).max.getD 0) := by
  have hb0 := inBox_root (k := k) (rows := rows) (cols := cols) (r := 0) (c := 0) hr hc h1 h2
  have bT := build_bounds getT rows cols k hk0 (e + 1) 0 0
  have bS := build_bounds getS rows cols k hk0 (e + 1) 0 0
  have aT := box_min_attained getT hk0 hb0
  have aS := box_min_attained getS hk0 hb0
  generalize (K2Node.build getT rows cols k (e + 1) 0 0).min.getD 0 = Tmin at *
  generalize (K2Node.build getT rows cols k (e + 1) 0 0).max.getD 0 = Tmax at *
  have emin : (K2Node.build getS rows cols k (e + 1) 0 0).min.getD 0 =
    (K2Node.build getS rows cols k (e + 1) 0 0).min.getD 0 := rfl
  generalize hSmin : (K2Node.build getS rows cols k (e + 1) 0 0).min.getD 0 = Smin at *
  generalize (K2Node.build getS rows cols k (e + 1) 0 0).max.getD 0 = Smax at *
  cases rc with
  | A okT okS ne ne' nd =>
    refine ⟨?_, Or.inr ⟨by omega, okT, okS, fun _ _ => hSmin.symm⟩⟩
    intro r c hb
    rw [i64_add_sub'', i64_add_sub'']
    exact bT r c hb
  | B okT okS ne =>
    refine ⟨?_, Or.inr ⟨by omega, okT, fun r c hb => okS r c hb.2.2.2.2.1 hb.2.2.2.2.2,
      fun q hq => by simp at hq⟩⟩
    intro r c hb
    rw [i64_zero_add, i64_add_sub'']
    refine ⟨?_, (bT r c hb).2⟩
    refine Int64.le_trans ?_ (bT r c hb).1
    have h0 := safe.first _ okS ne
    obtain ⟨r', c', hb', e1⟩ := aT
    obtain ⟨r2, c2, hb2, e2⟩ := aS
    have e3 : getS r' c' = Smin := by
      rw [← e2, okS r' c' hb'.2.2.2.2.1 hb'.2.2.2.2.2, okS r2 c2 hb2.2.2.2.2.1 hb2.2.2.2.2.2]
    have e4 : Smin = Smax := by rw [← e3, okS r' c' hb'.2.2.2.2.1 hb'.2.2.2.2.2]
    have := hno r' c' hb'.2.2.2.2.1 hb'.2.2.2.2.2
    rw [Int64.le_iff_toInt_le] at h0 ⊢
    rw [e1, e3] at this
    rw [this, e4]
    simp at h0
    omega
  | C okT okS ne pad =>
    refine ⟨?_, Or.inr ⟨by omega, fun r c hb => okT r c hb.2.2.2.2.1 hb.2.2.2.2.2, okS,
      fun _ _ => hSmin.symm⟩⟩
    intro r c hb
    rw [i64_add_zero, i64_add_sub'']
    refine ⟨Int64.le_trans (bS r c hb).1 ?_, (bT r c hb).2⟩
    have hd : ∀ r c, r < rows → c < cols → getT r c - getS r c = Tmax - Smax := by
      intro r c a b
      rw [okT r c a b]; grind
    have h0 : 0 ≤ Tmax - Smax := by
      rcases pad with p | ⟨p, q⟩
      · rw [p]; exact Int64.le_refl _
      · exact safe.shift _ p q ne hd
    have h1 := hno r c hb.2.2.2.2.1 hb.2.2.2.2.2
    rw [hd r c hb.2.2.2.2.1 hb.2.2.2.2.2] at h1
    rw [Int64.le_iff_toInt_le] at h0 ⊢
    rw [h1] at h0
    have z : (0 : Int64).toInt = 0 := rfl
    omega
  | D okT okS ne =>
    obtain ⟨g1, r', c', g2, g3, g4⟩ := safe.second _ okT ne
    have e1 : minS = Tmax := by
      obtain ⟨r2, c2, hb2, e2⟩ := aS
      apply Int64.le_antisymm
      · rw [← g4]; exact (bS r' c' (inBox_root hr hc g2 g3)).1
      · rw [← e2]; exact g1 _ _ hb2.2.2.2.2.1 hb2.2.2.2.2.2
    refine ⟨?_, Or.inl ?_⟩
    · intro r c hb
      rw [i64_add_zero, i64_add_sub'', e1, okT r c hb.2.2.2.2.1 hb.2.2.2.2.2]
      exact ⟨Int64.le_refl _, Int64.le_refl _⟩
    · rw [i64_add_zero, i64_add_sub'', e1]
  | E okT okS =>
    have h0 := safe.both _ _ okT okS
    refine ⟨?_, Or.inr ⟨by omega, ?_, fun r c hb => okS r c hb.2.2.2.2.1 hb.2.2.2.2.2,
      fun q hq => by simp at hq⟩⟩
    · intro r c hb
      rw [i64_add_zero, i64_add_sub'', okT r c hb.2.2.2.2.1 hb.2.2.2.2.2]
      exact ⟨h0, Int64.le_refl _⟩
    · intro r c hb
      rw [okT r c hb.2.2.2.2.1 hb.2.2.2.2.2, okS r c hb.2.2.2.2.1 hb.2.2.2.2.2, i64_add_sub'']

theorem LogLayout.searchWindow {l s e N NS} (h : LogLayout getS getT rows cols k l (e + 1) N)
    (hs : SnapLayout getS rows cols k s (e + 1) NS) (hk : 2 ≤ k)
    (hno : NoOverflow getS getT rows cols)
    (hr : rows ≤ k ^ (e + 1)) (hc : cols ≤ k ^ (e + 1))
    (safe : SearchSafe getS getT rows cols (k ^ (e + 1))) (w : Rect) (hw : InRaster w rows cols)
    (lower upper : Int64) :
    ∃ L, l.searchWindow s w lower upper = some L ∧
      L.Perm (Spec.hits getT w.top w.bottom w.left w.right lower upper) := by
  obtain ⟨w1, w2, w3, w4⟩ := hw
  have hk0 : 0 < k := by omega
  obtain ⟨indexT, indexS, minT, minS, rc, run⟩ := searchWindow_root h hs hk0 hno hr hc (by omega)
    (by omega)
  rw [run w lower upper (by omega) (by omega)]
  have inv := rc.inv hk0 hno hr hc (by omega) (by omega) safe
  obtain ⟨L, hL1, hL2⟩ := h.searchGo hs hk0 hno lower upper (e + 1) (k ^ (e + 1) + 1) 0 0 w.top
    (w.bottom - 1) w.left (w.right - 1) _ _ _ _ _ _ inv
    (Nat.lt_succ_of_lt (lt_pow_self' hk _)) (by omega) (by omega) (by omega)
    (by omega) (by omega) (by omega)
  refine ⟨L, hL1, ?_⟩
  rw [← Multiset.coe_eq_coe, hL2, hits_coe getT _ _ _ _ _ _ w1 w2]
  simp only [Nat.zero_add]

end
end Verif
