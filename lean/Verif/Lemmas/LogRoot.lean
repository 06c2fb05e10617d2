import Verif.Lemmas.LogRead

/-! Reads of a log from the root. -/
namespace Verif

section
variable {getS getT : Nat → Nat → Int64} {rows cols k : Nat}

theorem LogLayout.bit0 {l e N} (h : LogLayout getS getT rows cols k l (e + 1) N) (hk : 0 < k) :
    l.nodemap.get 0 = some (K2PNode.build getS getT rows cols k (e + 1) 0 0).internal :=
  (h.nodes.get 0 _ h.root (by rw [K2PNode.build_height _ _ _ _ _ hk]; omega)).1

theorem LogLayout.equal0 {l e N} (h : LogLayout getS getT rows cols k l (e + 1) N) (hk : 0 < k)
    (hint : (K2PNode.build getS getT rows cols k (e + 1) 0 0).internal = false) :
    l.equal.get 0 = some (!decide ((K2PNode.build getS getT rows cols k (e + 1) 0 0).minT =
      (K2PNode.build getS getT rows cols k (e + 1) 0 0).maxT)) := by
  have hcut : logCut (K2PNode.build getS getT rows cols k (e + 1) 0 0) = true := by
    unfold logCut
    rw [hint, K2PNode.build_height _ _ _ _ _ hk]; simp
  have h1 : ((N.filter logCut).map (fun a => !decide (a.minT = a.maxT)))[0]? =
      some (!decide ((K2PNode.build getS getT rows cols k (e + 1) 0 0).minT =
      (K2PNode.build getS getT rows cols k (e + 1) 0 0).maxT)) := by
    have := getElem?_filter_countP logCut N 0 _ h.root hcut
    simp only [List.take_zero, List.countP_nil] at this
    rw [List.getElem?_map, this]; rfl
  obtain ⟨h2, h3⟩ := List.getElem?_eq_some_iff.1 h1
  rw [h.eq.get _ h2, h3]

/-- State of the log side at the root: an expanded root, a constant difference or a constant. -/
theorem LogLayout.rootState {getV : Nat → Nat → Int64} {l e N} (h : LogLayout getS getT rows cols k l (e + 1) N) (hk : 0 < k)
    (hV : ∀ r c, InBox rows cols k (e + 1) 0 0 r c →
      getV r c = logCell getS getT rows cols k (e + 1) 0 0 r c) :
    ∃ d, l.max.get 0 = some d ∧
      d = (K2Node.build getT rows cols k (e + 1) 0 0).max.getD 0 -
        (K2Node.build getS rows cols k (e + 1) 0 0).max.getD 0 ∧
      ((l.nodemap.get 0 = some true ∧ TOk getS getT getV rows cols k N (e + 1) 0 0 (some 0) d ∧
          l.min.get 0 = some ((K2Node.build getT rows cols k (e + 1) 0 0).min.getD 0 -
            (K2Node.build getS rows cols k (e + 1) 0 0).min.getD 0)) ∨
        (l.nodemap.get 0 = some false ∧ l.equal.get 0 = some true ∧ l.min.get 0 = some 0 ∧
          TOk getS getT getV rows cols k N (e + 1) 0 0 none d) ∨
        (l.nodemap.get 0 = some false ∧ l.equal.get 0 = some false ∧ l.min.get 0 = some 0 ∧
          ∀ r c, InBox rows cols k (e + 1) 0 0 r c →
            getV r c = (K2Node.build getT rows cols k (e + 1) 0 0).max.getD 0)) := by
  have hb := h.bit0 hk
  refine ⟨_, h.getMax hk 0 _ _ _ h.root, rfl, ?_⟩
  cases hin : (K2PNode.build getS getT rows cols k (e + 1) 0 0).internal with
  | true =>
    left
    rw [hin] at hb
    refine ⟨hb, ⟨h.root, hin, hV⟩, ?_⟩
    obtain ⟨r, g1, g2, -⟩ := h.step hk 0 _ _ _ h.root hin
    rw [h.nodes.rank 0 _ h.root (by rw [K2PNode.build_height _ _ _ _ _ hk]; omega)] at g1
    simp only [List.take_zero, List.countP_nil, Option.some.injEq] at g1
    subst g1; exact g2
  | false =>
    right
    rw [hin] at hb
    have he := h.equal0 hk hin
    -- no expanded node at all
    have hmin : l.min.get 0 = some 0 := by
      have hN := h.nodes.single _ h.root (by unfold logKids; rw [hin]; rfl)
      have hnil : N.filter K2PNode.internal = [] := by rw [hN]; simp [hin]
      have := h.min
      rw [hnil] at this
      exact Dac.Repr.get_nil this 0
    by_cases hu : (K2PNode.build getS getT rows cols k (e + 1) 0 0).minT =
        (K2PNode.build getS getT rows cols k (e + 1) 0 0).maxT
    · right
      rw [decide_eq_true hu] at he
      refine ⟨hb, he, hmin, fun r c hbx => ?_⟩
      rw [hV r c hbx, logCell, hin, if_neg (by simp), if_pos hu]
      exact uniform_sem hk hbx hu
    · left
      rw [decide_eq_false hu] at he
      refine ⟨hb, he, hmin, fun r c hbx => ?_⟩
      rw [hV r c hbx, logCell, hin, if_neg (by simp), if_neg hu]

/-- State of the snapshot side at the root. -/
theorem SnapLayout.rootState {s e N} (h : SnapLayout getS rows cols k s (e + 1) N) (hk : 0 < k) :
    s.max.get 0 = some ((K2Node.build getS rows cols k (e + 1) 0 0).max.getD 0) ∧
      ((s.nodemap.get 0 = some true ∧ SOk getS rows cols k N (e + 1) 0 0 (some 0)
          ((K2Node.build getS rows cols k (e + 1) 0 0).max.getD 0) ∧
          s.min.get 0 = some ((K2Node.build getS rows cols k (e + 1) 0 0).min.getD 0)) ∨
        (s.nodemap.get 0 = some false ∧ s.min.get 0 = some 0 ∧
          SOk getS rows cols k N (e + 1) 0 0 none
          ((K2Node.build getS rows cols k (e + 1) 0 0).max.getD 0))) := by
  have hb := h.bit0 hk
  refine ⟨h.getMax _ _ h.root, ?_⟩
  cases hin : (K2Node.build getS rows cols k (e + 1) 0 0).internal with
  | true =>
    left
    rw [hin] at hb
    refine ⟨hb, ⟨_, h.root, rfl, hin, rfl⟩, ?_⟩
    obtain ⟨r, g1, g2, -⟩ := h.step 0 _ h.root hin
    rw [h.nodes.rank 0 _ h.root (by
        show 0 < snapHt _
        unfold snapHt
        rw [K2Node.build_height _ _ _ _ hk]; omega)] at g1
    simp only [List.take_zero, List.countP_nil, Option.some.injEq] at g1
    subst g1; exact g2
  | false =>
    right
    rw [hin] at hb
    refine ⟨hb, ?_, fun r c hbx => build_leaf getS rows cols k hk _ _ _ r c hbx hin⟩
    have hN := h.nodes.single _ h.root (by unfold snapKids; simp only [hin]; rfl)
    have hnil : N.filter snapInt = [] := by rw [hN]; simp [snapInt, hin]
    have := h.min
    rw [hnil] at this
    exact Dac.Repr.get_nil this 0

theorem LogLayout.get_cellV {getV : Nat → Nat → Int64} {l s e N NS} (h : LogLayout getS getT rows cols k l (e + 1) N)
    (hs : SnapLayout getS rows cols k s (e + 1) NS) (hk : 2 ≤ k)
    (hV : ∀ r c, InBox rows cols k (e + 1) 0 0 r c →
      getV r c = logCell getS getT rows cols k (e + 1) 0 0 r c) (h32 : l.nodemap.length % 32 ≠ 0)
    (h32s : s.nodemap.length % 32 ≠ 0)
    (hr : rows ≤ k ^ (e + 1)) (hc : cols ≤ k ^ (e + 1)) (row col : Nat) (h1 : row < rows)
    (h2 : col < cols) : l.get s row col = some (getV row col) := by
  have hk0 : 0 < k := by omega
  obtain ⟨d, hd, hdv, hT⟩ := h.rootState hk0 hV
  obtain ⟨hm, hS⟩ := hs.rootState hk0
  have hbox : InBox rows cols k (e + 1) 0 0 row col :=
    ⟨by omega, by omega, by omega, by omega, h1, h2⟩
  have go : ∀ it is, TOk getS getT getV rows cols k N (e + 1) 0 0 it d →
      SOk getS rows cols k NS (e + 1) 0 0 is
        ((K2Node.build getS rows cols k (e + 1) 0 0).max.getD 0) →
      l.getGo s l.sidelen l.sidelen row col it is d
        ((K2Node.build getS rows cols k (e + 1) 0 0).max.getD 0) = some (getV row col) := by
    intro it is a b
    rw [h.hside]
    have := h.getGo hs hk0 h32 h32s e (k ^ (e + 1)) 0 0 row col it is d _ a b
      (Nat.lt_trans (Nat.lt_succ_self e) (lt_pow_self' hk _)) (by omega) (by omega) (by omega)
      (by omega)
    simpa using this
  unfold Log.get
  rw [hd, hm]
  rcases hT with ⟨t1, t2, -⟩ | ⟨t1, t2, -, t3⟩ | ⟨t1, t2, -, t3⟩
  · rcases hS with ⟨s1, s2, -⟩ | ⟨s1, -, s2⟩
    · rw [t1, s1]; simp; exact go _ _ t2 s2
    · rw [t1, s1]; simp; exact go _ _ t2 s2
  · rcases hS with ⟨s1, s2, -⟩ | ⟨s1, -, s2⟩
    · rw [t1, s1, t2]; simp; exact go _ _ t3 s2
    · rw [t1, s1]; simp
      rw [t3 row col hbox, s2 row col hbox, Int64.add_comm]
  · rcases hS with ⟨s1, s2, -⟩ | ⟨s1, -, s2⟩
    · rw [t1, s1, t2]; simp
      rw [t3 row col hbox, hdv, i64_add_sub']
    · rw [t1, s1]; simp
      rw [t3 row col hbox, hdv, i64_add_sub']

theorem LogLayout.fillWindowV {getV : Nat → Nat → Int64} {l s e N NS} (h : LogLayout getS getT rows cols k l (e + 1) N)
    (hs : SnapLayout getS rows cols k s (e + 1) NS) (hk : 2 ≤ k)
    (hV : ∀ r c, InBox rows cols k (e + 1) 0 0 r c →
      getV r c = logCell getS getT rows cols k (e + 1) 0 0 r c) (h32 : l.nodemap.length % 32 ≠ 0)
    (h32s : s.nodemap.length % 32 ≠ 0)
    (hr : rows ≤ k ^ (e + 1)) (hc : cols ≤ k ^ (e + 1)) (w : Rect) (hw : InRaster w rows cols) :
    ∃ L, l.fillWindow s w = some L ∧ L.Perm (Spec.window getV w.top w.bottom w.left w.right) := by
  obtain ⟨h1, h2, h3, h4⟩ := hw
  have hk0 : 0 < k := by omega
  obtain ⟨d, hd, hdv, hT⟩ := h.rootState hk0 hV
  obtain ⟨hm, hS⟩ := hs.rootState hk0
  have hbox : ∀ row col, row < rows → col < cols → InBox rows cols k (e + 1) 0 0 row col :=
    fun row col h1 h2 => ⟨by omega, by omega, by omega, by omega, h1, h2⟩
  have go : ∀ it is, TOk getS getT getV rows cols k N (e + 1) 0 0 it d →
      SOk getS rows cols k NS (e + 1) 0 0 is
        ((K2Node.build getS rows cols k (e + 1) 0 0).max.getD 0) →
      ∃ L, l.fillGo s w.top w.left l.sidelen l.sidelen w.top (w.bottom - 1) w.left (w.right - 1) it
        is d ((K2Node.build getS rows cols k (e + 1) 0 0).max.getD 0) 0 0 = some L ∧
        L.Perm (Spec.window getV w.top w.bottom w.left w.right) := by
    intro it is a b
    rw [h.hside]
    obtain ⟨L, hL1, hL2⟩ := h.fillGo hs hk0 h32 h32s w.top w.left e (k ^ (e + 1)) 0 0 w.top
      (w.bottom - 1) w.left (w.right - 1) it is d _ a b
      (Nat.lt_trans (Nat.lt_succ_self e) (lt_pow_self' hk _)) (by omega) (by omega) (by omega)
      (by omega) (by omega) (by omega) (by omega) (by omega)
    refine ⟨L, hL1, ?_⟩
    rw [← Multiset.coe_eq_coe, hL2, window_coe getV _ _ _ _ h1 h2]
    simp only [Nat.zero_add]
  have all : (∀ r c, r < rows → c < cols → getV r c =
      d + (K2Node.build getS rows cols k (e + 1) 0 0).max.getD 0) →
      ∃ L, some (emitAll (w.bottom - w.top) (w.right - w.left)
        (d + (K2Node.build getS rows cols k (e + 1) 0 0).max.getD 0)) = some L ∧
        L.Perm (Spec.window getV w.top w.bottom w.left w.right) := by
    intro hv
    refine ⟨_, rfl, ?_⟩
    rw [emitAll_eq getV]
    intro r c a1 a2 a3 a4
    exact hv r c (by omega) (by omega)
  unfold Log.fillWindow Rect.rows Rect.cols
  rw [csub_of_le (show w.top ≤ w.bottom by omega), csub_of_le (show w.left ≤ w.right by omega),
    csub_of_le (show 1 ≤ w.bottom by omega), csub_of_le (show 1 ≤ w.right by omega), hd, hm]
  rcases hT with ⟨t1, t2, -⟩ | ⟨t1, t2, -, t3⟩ | ⟨t1, t2, -, t3⟩
  · rcases hS with ⟨s1, s2, -⟩ | ⟨s1, -, s2⟩
    · rw [t1, s1]; exact go _ _ t2 s2
    · rw [t1, s1]; exact go _ _ t2 s2
  · rcases hS with ⟨s1, s2, -⟩ | ⟨s1, -, s2⟩
    · rw [t1, s1, t2]; exact go _ _ t3 s2
    · rw [t1, s1]
      refine all ?_
      intro r c a b
      rw [t3 r c (hbox r c a b), s2 r c (hbox r c a b), Int64.add_comm]
  · rcases hS with ⟨s1, s2, -⟩ | ⟨s1, -, s2⟩
    · rw [t1, s1, t2]
      refine all ?_
      intro r c a b
      rw [t3 r c (hbox r c a b), hdv, i64_add_sub']
    · rw [t1, s1]
      refine all ?_
      intro r c a b
      rw [t3 r c (hbox r c a b), hdv, i64_add_sub']

end
end Verif
