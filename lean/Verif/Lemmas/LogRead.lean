import Verif.Lemmas.LogTree
import Verif.Lemmas.Cells

/-! Cell and window reads of a log. -/
namespace Verif

theorem NodeLayout.leafGt {α} {m : BitMap} {N : List α} {kids : α → List α} {int : α → Bool}
    {ht : α → Nat} {K : Nat} (h : NodeLayout m N kids int ht K)
    (hint : ∀ x, ht x = 0 → int x = false) (h32 : m.length % 32 ≠ 0) (p : Nat) (x : α)
    (hp : N[p]? = some x) : isLeafGt m p = some (!int x) := by
  unfold isLeafGt
  by_cases hx : 0 < ht x
  · obtain ⟨h1, h2⟩ := h.get p x hp hx
    rw [if_neg (by omega), h1]
  · have h0 : ht x = 0 := by omega
    have hb := h.bottom p x hp h0
    by_cases hgt : p > m.length
    · rw [if_pos hgt, hint x h0]; rfl
    · have hpl : p = m.length := by omega
      rw [if_neg hgt, hpl, h.repr.get_ge _ (by rw [h.repr.len]), ← h.repr.len,
        if_pos (by omega), hint x h0]

section
variable {getS getT : Nat → Nat → Int64} {rows cols k : Nat}

theorem logInt_of_ht {x : K2PNode} (h : x.height = 0) : x.internal = false := by
  have := K2PNode.height_pos x
  unfold K2PNode.internal
  cases hc : x.children.isEmpty with
  | true => simp
  | false => have := this.2 hc; omega

theorem LogLayout.getMax {l e N} (h : LogLayout getS getT rows cols k l e N) (hk : 0 < k)
    (p hh R C : Nat) (hp : N[p]? = some (K2PNode.build getS getT rows cols k hh R C)) :
    l.max.get p = some ((K2Node.build getT rows cols k hh R C).max.getD 0 -
      (K2Node.build getS rows cols k hh R C).max.getD 0) := by
  have h1 : (N.map (fun a => a.maxT.getD 0 - a.maxS.getD 0))[p]? =
      some ((K2Node.build getT rows cols k hh R C).max.getD 0 -
      (K2Node.build getS rows cols k hh R C).max.getD 0) := by
    obtain ⟨f1, f2, f3, f4⟩ := K2PNode.build_fields getS getT rows cols k hk hh R C
    rw [List.getElem?_map, hp, Option.map_some, f1, f3]
  obtain ⟨h2, h3⟩ := List.getElem?_eq_some_iff.1 h1
  rw [h.max.get p h2, h3]

theorem LogLayout.leafGe {l e N} (h : LogLayout getS getT rows cols k l e N) (p : Nat) (x : K2PNode)
    (hp : N[p]? = some x) : isLeafGe l.nodemap p = some (!x.internal) :=
  h.nodes.leafGe (fun _ => logInt_of_ht) p x hp

theorem LogLayout.leafGt {l e N} (h : LogLayout getS getT rows cols k l e N)
    (h32 : l.nodemap.length % 32 ≠ 0) (p : Nat) (x : K2PNode)
    (hp : N[p]? = some x) : isLeafGt l.nodemap p = some (!x.internal) :=
  h.nodes.leafGt (fun _ => logInt_of_ht) h32 p x hp

theorem SnapLayout.leafGt {get : Nat → Nat → Int64} {s e N} (h : SnapLayout get rows cols k s e N)
    (h32 : s.nodemap.length % 32 ≠ 0) (p : Nat) (x : SnapEntry)
    (hp : N[p]? = some x) : isLeafGt s.nodemap p = some (!x.2.2.internal) :=
  h.nodes.leafGt (fun _ => snapInt_of_ht) h32 p x hp

/-- One step down the log's tree. -/
theorem LogLayout.step {l e N} (h : LogLayout getS getT rows cols k l e N) (hk : 0 < k)
    (p hh R C : Nat) (hp : N[p]? = some (K2PNode.build getS getT rows cols k hh R C))
    (hint : (K2PNode.build getS getT rows cols k hh R C).internal = true) :
    ∃ r, l.nodemap.rank p = some r ∧
      l.min.get r = some ((K2Node.build getT rows cols k hh R C).min.getD 0 -
        (K2Node.build getS rows cols k hh R C).min.getD 0) ∧
      ∀ h', hh = h' + 1 → ∀ i j, i < k → j < k →
        N[1 + r * k * k + i * k + j]? =
          some (K2PNode.build getS getT rows cols k h' (R + i * k ^ h') (C + j * k ^ h')) := by
  have hht : 0 < (K2PNode.build getS getT rows cols k hh R C).height := by
    rw [K2PNode.height_pos]
    unfold K2PNode.internal at hint
    simp at hint; simpa using hint.1.1
  refine ⟨(N.take p).countP K2PNode.internal, h.nodes.rank p _ hp hht, ?_, ?_⟩
  · have h1 : ((N.filter K2PNode.internal).map (fun a => a.minT.getD 0 - a.minS.getD 0))[
        (N.take p).countP K2PNode.internal]? =
        some ((K2Node.build getT rows cols k hh R C).min.getD 0 -
          (K2Node.build getS rows cols k hh R C).min.getD 0) := by
      obtain ⟨f1, f2, f3, f4⟩ := K2PNode.build_fields getS getT rows cols k hk hh R C
      rw [List.getElem?_map, getElem?_filter_countP K2PNode.internal N p _ hp hint, Option.map_some,
        f2, f4]
    obtain ⟨h2, h3⟩ := List.getElem?_eq_some_iff.1 h1
    rw [h.min.get _ h2, h3]
  · intro h' hh' i j hi hj
    subst hh'
    have hkids : logKids (K2PNode.build getS getT rows cols k (h' + 1) R C) =
        (K2PNode.build getS getT rows cols k (h' + 1) R C).children := by
      unfold logKids; rw [if_pos hint]
    have hij : i * k + j < k * k := by
      have : (i + 1) * k ≤ k * k := Nat.mul_le_mul_right _ (by omega)
      rw [Nat.add_mul] at this; omega
    have := h.nodes.child p _ hp (i * k + j) (by
      rw [hkids, K2PNode.build_children, grid_length]; exact hij)
    have e1 : 1 + (N.take p).countP K2PNode.internal * k * k + i * k + j =
        1 + (N.take p).countP K2PNode.internal * (k * k) + (i * k + j) := by
      rw [Nat.mul_assoc]; omega
    rw [e1, this, hkids, K2PNode.build_children, grid_getElem? _ _ _ _ hi hj]

/-- The equality bit of a cut node above the bottom level. -/
theorem LogLayout.equalAt {l e N} (h : LogLayout getS getT rows cols k l e N)
    (p : Nat) (x : K2PNode) (hp : N[p]? = some x) (hht : 0 < x.height)
    (hint : x.internal = false) :
    l.equalAt p = some (!decide (x.minT = x.maxT)) := by
  have hlt := (h.nodes.get p x hp hht).2
  have hF := h.nodes.pre p x hp hht
  generalize hFd : N.filter (fun a => decide (0 < a.height)) = F at hF
  have hrep := h.nodes.repr
  rw [hFd] at hrep
  have hpF : p < F.length := (List.getElem?_eq_some_iff.1 hF).1
  have hFp : F[p] = x := (List.getElem?_eq_some_iff.1 hF).2
  unfold Log.equalAt
  rw [hrep.rank0 (p + 1) (by rw [List.length_map]; omega)]
  have hcount : ((F.map K2PNode.internal).take (p + 1)).count false =
      (F.take p).countP (fun a => !a.internal) + 1 := by
    rw [← List.map_take, List.count, List.countP_map, List.take_succ_eq_append_getElem hpF,
      List.countP_append, hFp]
    congr 1
    · apply List.countP_congr
      intro a _; simp
    · simp [hint]
  rw [hcount]
  simp only []
  rw [csub_of_le (by omega)]
  simp only [Nat.add_sub_cancel]
  have hcut : N.filter logCut = F.filter (fun a => !a.internal) := by
    rw [← hFd, List.filter_filter]
    apply List.filter_congr
    intro a _
    unfold logCut
    rw [Bool.and_comm]
  have h1 : ((N.filter logCut).map (fun a => !decide (a.minT = a.maxT)))[
      (F.take p).countP (fun a => !a.internal)]? = some (!decide (x.minT = x.maxT)) := by
    rw [hcut, List.getElem?_map,
      getElem?_filter_countP (fun a => !a.internal) F p x hF (by simp [hint])]
    rfl
  obtain ⟨h2, h3⟩ := List.getElem?_eq_some_iff.1 h1
  rw [h.eq.get _ h2, h3]

/-! ### Meaning of cut nodes -/

/-- No cell difference overflows. -/
def NoOverflow (getS getT : Nat → Nat → Int64) (rows cols : Nat) : Prop :=
  ∀ r c, r < rows → c < cols → (getT r c - getS r c).toInt = (getT r c).toInt - (getS r c).toInt

theorem box_max_attained (get : Nat → Nat → Int64) (hk : 0 < k) {h R C r c : Nat}
    (hb : InBox rows cols k h R C r c) :
    ∃ r' c', InBox rows cols k h R C r' c' ∧
      get r' c' = (K2Node.build get rows cols k h R C).max.getD 0 := by
  obtain ⟨h1, h2, h3⟩ := build_sem get rows cols k hk h R C
  obtain ⟨mn, mx, e1, e2, -⟩ := h1 r c hb
  obtain ⟨r', c', hb', hv⟩ := h2 mx e1
  exact ⟨r', c', hb', by rw [e1, hv]; rfl⟩

theorem box_min_attained (get : Nat → Nat → Int64) (hk : 0 < k) {h R C r c : Nat}
    (hb : InBox rows cols k h R C r c) :
    ∃ r' c', InBox rows cols k h R C r' c' ∧
      get r' c' = (K2Node.build get rows cols k h R C).min.getD 0 := by
  obtain ⟨h1, h2, h3⟩ := build_sem get rows cols k hk h R C
  obtain ⟨mn, mx, e1, e2, -⟩ := h1 r c hb
  obtain ⟨r', c', hb', hv⟩ := h3 mn e2
  exact ⟨r', c', hb', by rw [e2, hv]; rfl⟩

theorem box_const_max (get : Nat → Nat → Int64) (hk : 0 < k) {h R C r c : Nat}
    (hb : InBox rows cols k h R C r c) (v : Int64)
    (hv : ∀ r c, InBox rows cols k h R C r c → get r c = v) :
    (K2Node.build get rows cols k h R C).max.getD 0 = v := by
  obtain ⟨r', c', hb', e⟩ := box_max_attained get hk hb
  rw [← e, hv r' c' hb']

/-- Shifting by a constant shifts the extremes. -/
theorem box_shift (hk : 0 < k) (hno : NoOverflow getS getT rows cols) {h R C r c : Nat}
    (hb : InBox rows cols k h R C r c) (d : Int64)
    (hd : ∀ r c, InBox rows cols k h R C r c → getT r c - getS r c = d) :
    (K2Node.build getT rows cols k h R C).max.getD 0 -
      (K2Node.build getS rows cols k h R C).max.getD 0 = d ∧
    (K2Node.build getT rows cols k h R C).min.getD 0 -
      (K2Node.build getS rows cols k h R C).min.getD 0 = d := by
  have hint : ∀ r c, InBox rows cols k h R C r c →
      (getT r c).toInt - (getS r c).toInt = d.toInt := by
    intro r c hb
    obtain ⟨_, _, _, _, h5, h6⟩ := hb
    rw [← hno r c h5 h6, hd r c ⟨by assumption, by assumption, by assumption, by assumption, h5, h6⟩]
  have bT := build_bounds getT rows cols k hk h R C
  have bS := build_bounds getS rows cols k hk h R C
  simp only [Int64.le_iff_toInt_le] at bT bS
  constructor
  · obtain ⟨r1, c1, b1, e1⟩ := box_max_attained getT hk hb
    obtain ⟨r2, c2, b2, e2⟩ := box_max_attained getS hk hb
    have : getT r2 c2 = getT r1 c1 := by
      rw [← Int64.toInt_inj]
      have a1 := (bT r2 c2 b2).2
      have a2 := (bS r1 c1 b1).2
      rw [← e1] at a1
      rw [← e2] at a2
      have := hint r1 c1 b1
      have := hint r2 c2 b2
      omega
    rw [← e1, ← e2, ← this]
    exact hd r2 c2 b2
  · obtain ⟨r1, c1, b1, e1⟩ := box_min_attained getT hk hb
    obtain ⟨r2, c2, b2, e2⟩ := box_min_attained getS hk hb
    have : getT r2 c2 = getT r1 c1 := by
      rw [← Int64.toInt_inj]
      have a1 := (bT r2 c2 b2).1
      have a2 := (bS r1 c1 b1).1
      rw [← e1] at a1
      rw [← e2] at a2
      have := hint r1 c1 b1
      have := hint r2 c2 b2
      omega
    rw [← e1, ← e2, ← this]
    exact hd r2 c2 b2

theorem InBox.corner {h R C r c : Nat} (hb : InBox rows cols k h R C r c) : R < rows ∧ C < cols := by
  obtain ⟨b1, b2, b3, b4, b5, b6⟩ := hb; omega

/-- A node marked equal: the log is the snapshot plus the stored difference. -/
theorem equal_sem (hk : 0 < k) (hno : NoOverflow getS getT rows cols) {h R C r c : Nat}
    (hb : InBox rows cols k h R C r c)
    (heq : (K2PNode.build getS getT rows cols k h R C).equal = true) :
    getT r c = getS r c + ((K2Node.build getT rows cols k h R C).max.getD 0 -
      (K2Node.build getS rows cols k h R C).max.getD 0) := by
  rw [K2PNode.build_equal _ _ _ _ _ hk] at heq
  have hd : ∀ r c, InBox rows cols k h R C r c → getT r c - getS r c = getT R C - getS R C := by
    intro r c hb
    have hc := hb.corner
    obtain ⟨b1, b2, b3, b4, b5, b6⟩ := hb
    have := heq r c b1 b2 b3 b4
    unfold cellDiff at this
    rw [if_pos ⟨b5, b6⟩, if_pos hc] at this
    exact this
  rw [(box_shift hk hno hb _ hd).1, ← hd r c hb]
  grind

/-- A uniform node. -/
theorem uniform_sem (hk : 0 < k) {h R C r c : Nat} (hb : InBox rows cols k h R C r c)
    (hu : (K2PNode.build getS getT rows cols k h R C).minT =
      (K2PNode.build getS getT rows cols k h R C).maxT) :
    getT r c = (K2Node.build getT rows cols k h R C).max.getD 0 := by
  obtain ⟨f1, f2, -, -⟩ := K2PNode.build_fields getS getT rows cols k hk h R C
  have hbd := build_bounds getT rows cols k hk h R C r c hb
  rw [f1, f2] at hu
  rw [hu] at hbd
  exact Int64.le_antisymm hbd.2 hbd.1

/-! ### What is read -/

/-- What the log reads as, for all rasters: at the square of side `k^h` at `(R, C)`, the cell
`(r, c)`. Differs from `getT` where a difference overflows for a part of a square that is cut. -/
def logCell (getS getT : Nat → Nat → Int64) (rows cols k : Nat) : Nat → Nat → Nat → Nat → Nat → Int64
  | 0, _, _, r, c => getT r c
  | h + 1, R, C, r, c =>
    if (K2PNode.build getS getT rows cols k (h + 1) R C).internal then
      logCell getS getT rows cols k h (R + (r - R) / k ^ h * k ^ h) (C + (c - C) / k ^ h * k ^ h) r c
    else if (K2PNode.build getS getT rows cols k (h + 1) R C).minT =
        (K2PNode.build getS getT rows cols k (h + 1) R C).maxT then getT r c
    else getS r c + ((K2Node.build getT rows cols k (h + 1) R C).max.getD 0 -
      (K2Node.build getS rows cols k (h + 1) R C).max.getD 0)

theorem InBox.childCorner {h R C i j r c : Nat} (hk : 0 < k)
    (hb : InBox rows cols k h (R + i * k ^ h) (C + j * k ^ h) r c) :
    R + (r - R) / k ^ h * k ^ h = R + i * k ^ h ∧ C + (c - C) / k ^ h * k ^ h = C + j * k ^ h := by
  obtain ⟨b1, b2, b3, b4, -, -⟩ := hb
  have hpos : 0 < k ^ h := Nat.pow_pos hk
  have e1 : (r - R) / k ^ h = i := by
    rw [Nat.div_eq_iff hpos]; omega
  have e2 : (c - C) / k ^ h = j := by
    rw [Nat.div_eq_iff hpos]; omega
  rw [e1, e2]; exact ⟨rfl, rfl⟩

theorem InBox.toChild {h R C r c : Nat} (hk : 0 < k) (hb : InBox rows cols k (h + 1) R C r c) :
    InBox rows cols k h (R + (r - R) / k ^ h * k ^ h) (C + (c - C) / k ^ h * k ^ h) r c := by
  obtain ⟨i, j, -, -, hb'⟩ := hb.child hk
  obtain ⟨e1, e2⟩ := hb'.childCorner hk
  rw [e1, e2]
  exact hb'

theorem logCell_child {h R C i j r c : Nat} (hk : 0 < k)
    (hint : (K2PNode.build getS getT rows cols k (h + 1) R C).internal = true)
    (hb : InBox rows cols k h (R + i * k ^ h) (C + j * k ^ h) r c) :
    logCell getS getT rows cols k (h + 1) R C r c =
      logCell getS getT rows cols k h (R + i * k ^ h) (C + j * k ^ h) r c := by
  obtain ⟨e1, e2⟩ := hb.childCorner hk
  rw [logCell, if_pos hint, e1, e2]

theorem cut_equal (hk : 0 < k) {h R C : Nat} (h0 : h ≠ 0)
    (hin : (K2PNode.build getS getT rows cols k h R C).internal = false)
    (hu : ¬ (K2PNode.build getS getT rows cols k h R C).minT =
      (K2PNode.build getS getT rows cols k h R C).maxT) :
    (K2PNode.build getS getT rows cols k h R C).equal = true := by
  have hc : (K2PNode.build getS getT rows cols k h R C).children.isEmpty = false := by
    rw [← K2PNode.height_pos, K2PNode.build_height _ _ _ _ _ hk]; omega
  unfold K2PNode.internal at hin
  rw [hc, decide_eq_false hu] at hin
  simpa using hin

/-- Without overflow the log reads as the second raster. -/
theorem logCell_eq (hk : 0 < k) (hno : NoOverflow getS getT rows cols) (h : Nat) :
    ∀ R C r c, InBox rows cols k h R C r c →
      logCell getS getT rows cols k h R C r c = getT r c := by
  induction h with
  | zero => intro R C r c _; rfl
  | succ h ih =>
    intro R C r c hb
    rw [logCell]
    split
    · exact ih _ _ _ _ (hb.toChild hk)
    · rename_i hin
      split
      · rfl
      · rename_i hu
        exact (equal_sem hk hno hb (cut_equal hk (by omega) (by simpa using hin) hu)).symm

/-! ### States of the descent -/

/-- State of the log side at the square of side `k^h` at `(R, C)`, where `getV` is what is read. -/
def TOk (getS getT getV : Nat → Nat → Int64) (rows cols k : Nat) (N : List K2PNode) (h R C : Nat) :
    Option Nat → Int64 → Prop
  | some p, _ => N[p]? = some (K2PNode.build getS getT rows cols k h R C) ∧
      (K2PNode.build getS getT rows cols k h R C).internal = true ∧
      ∀ r c, InBox rows cols k h R C r c → getV r c = logCell getS getT rows cols k h R C r c
  | none, d => ∀ r c, InBox rows cols k h R C r c → getV r c = getS r c + d

/-- State of the snapshot side. -/
def SOk (getS : Nat → Nat → Int64) (rows cols k : Nat) (N : List SnapEntry) (h R C : Nat) :
    Option Nat → Int64 → Prop
  | some q, m => ∃ x, N[q]? = some x ∧ x.2.2 = K2Node.build getS rows cols k h R C ∧
      (K2Node.build getS rows cols k h R C).internal = true ∧
      m = (K2Node.build getS rows cols k h R C).max.getD 0
  | none, m => ∀ r c, InBox rows cols k h R C r c → getS r c = m

/-- What the log side knows about a child. -/
inductive TChild (getS getT getV : Nat → Nat → Int64) (rows cols k : Nat) (l : Log) (N : List K2PNode)
    (h R C : Nat) (maxT : Int64) : Option Nat → Bool → Prop
  /-- expanded node -/
  | node (p : Nat) (h0 : h ≠ 0) (ok : TOk getS getT getV rows cols k N h R C (some p) maxT)
      (hmax : maxT = (K2Node.build getT rows cols k h R C).max.getD 0 -
        (K2Node.build getS rows cols k h R C).max.getD 0) :
      TChild getS getT getV rows cols k l N h R C maxT (some p) false
  /-- inherited difference -/
  | inherit (ok : TOk getS getT getV rows cols k N h R C none maxT) :
      TChild getS getT getV rows cols k l N h R C maxT none true
  /-- cut node with a constant difference -/
  | equal (p : Nat) (hp : p < l.nodemap.length) (hb : l.nodemap.get p = some false)
      (he : l.equalAt p = some true) (ok : TOk getS getT getV rows cols k N h R C none maxT) :
      TChild getS getT getV rows cols k l N h R C maxT (some p) true
  /-- cut node with a constant value -/
  | uniform (p : Nat) (hp : p < l.nodemap.length) (hb : l.nodemap.get p = some false)
      (he : l.equalAt p = some false)
      (ok : ∀ r c, InBox rows cols k h R C r c →
        getV r c = maxT + (K2Node.build getS rows cols k h R C).max.getD 0) :
      TChild getS getT getV rows cols k l N h R C maxT (some p) true
  /-- cell -/
  | bottom (p : Nat) (hp : l.nodemap.length ≤ p) (h0 : h = 0)
      (ok : TOk getS getT getV rows cols k N h R C none maxT) :
      TChild getS getT getV rows cols k l N h R C maxT (some p) true

theorem i64_add_sub' (a b : Int64) : a - b + b = a := by grind
theorem i64_add_sub'' (a b : Int64) : b + (a - b) = a := by grind

theorem LogLayout.childStep {getV l e N} (h : LogLayout getS getT rows cols k l e N) (hk : 0 < k)
    (hh R C : Nat) (indexT : Option Nat) (maxT : Int64)
    (ok : TOk getS getT getV rows cols k N (hh + 1) R C indexT maxT) :
    ∃ base, childBase l.nodemap k indexT = some base ∧
      ∀ i j, i < k → j < k →
        (∃ r c, InBox rows cols k hh (R + i * k ^ hh) (C + j * k ^ hh) r c) →
        ∃ maxT' leaf, l.childMaxT maxT (base.map fun b => b + i * k + j) = some maxT' ∧
          optLeaf isLeafGe l.nodemap (base.map fun b => b + i * k + j) = some leaf ∧
          (l.nodemap.length % 32 ≠ 0 →
            optLeaf isLeafGt l.nodemap (base.map fun b => b + i * k + j) = some leaf) ∧
          TChild getS getT getV rows cols k l N hh (R + i * k ^ hh) (C + j * k ^ hh) maxT'
            (base.map fun b => b + i * k + j) leaf := by
  cases indexT with
  | none =>
    refine ⟨none, rfl, ?_⟩
    intro i j hi hj _
    refine ⟨maxT, true, rfl, rfl, fun _ => rfl, TChild.inherit ?_⟩
    intro r c hb
    exact ok r c (hb.parent hi hj)
  | some p =>
    obtain ⟨hp, hint, hV⟩ := ok
    obtain ⟨r, h1, h2, h3⟩ := h.step hk p (hh + 1) R C hp hint
    refine ⟨some (1 + r * k * k), by simp [childBase, h1], ?_⟩
    intro i j hi hj hne
    have h4 := h3 hh rfl i j hi hj
    simp only [Option.map_some]
    generalize 1 + r * k * k + i * k + j = q at *
    refine ⟨_, _, h.getMax hk _ _ _ _ h4, h.leafGe _ _ h4, fun h32 => h.leafGt h32 _ _ h4, ?_⟩
    have hht := K2PNode.build_height getS getT rows cols k hk hh (R + i * k ^ hh) (C + j * k ^ hh)
    have hV' : ∀ r c, InBox rows cols k hh (R + i * k ^ hh) (C + j * k ^ hh) r c → getV r c =
        logCell getS getT rows cols k hh (R + i * k ^ hh) (C + j * k ^ hh) r c :=
      fun r c hb => (hV r c (hb.parent hi hj)).trans (logCell_child hk hint hb)
    generalize hR' : R + i * k ^ hh = R' at *
    generalize hC' : C + j * k ^ hh = C' at *
    cases hin : (K2PNode.build getS getT rows cols k hh R' C').internal with
    | true =>
      refine TChild.node q ?_ ⟨h4, hin, hV'⟩ rfl
      intro h0
      have := logInt_of_ht (hht.trans h0)
      rw [hin] at this; simp at this
    | false =>
      by_cases h0 : hh = 0
      · refine TChild.bottom q (h.nodes.bottom q _ h4 (hht.trans h0)) h0 ?_
        subst h0
        intro r c hb
        have hrc : ∀ r' c', InBox rows cols k 0 R' C' r' c' → r' = r ∧ c' = c := by
          intro r' c' hb'
          obtain ⟨b1, b2, b3, b4, -, -⟩ := hb
          obtain ⟨c1, c2, c3, c4, -, -⟩ := hb'
          rw [Nat.pow_zero] at b2 b4 c2 c4
          omega
        rw [hV' r c hb, logCell, box_const_max getT hk hb (getT r c) fun r' c' hb' => by
          obtain ⟨rfl, rfl⟩ := hrc r' c' hb'; rfl, box_const_max getS hk hb (getS r c) fun r' c' hb' => by
          obtain ⟨rfl, rfl⟩ := hrc r' c' hb'; rfl, i64_add_sub'']
      · obtain ⟨g1, g2⟩ := h.nodes.get q _ h4 (by omega)
        rw [hin] at g1
        have g3 := h.equalAt q _ h4 (by omega) hin
        obtain ⟨h', rfl⟩ := Nat.exists_eq_succ_of_ne_zero h0
        by_cases hu : (K2PNode.build getS getT rows cols k (h' + 1) R' C').minT =
            (K2PNode.build getS getT rows cols k (h' + 1) R' C').maxT
        · rw [decide_eq_true hu] at g3
          refine TChild.uniform q g2 g1 g3 ?_
          intro r c hb
          rw [i64_add_sub', hV' r c hb, logCell, hin, if_neg (by simp), if_pos hu]
          exact uniform_sem hk hb hu
        · rw [decide_eq_false hu] at g3
          refine TChild.equal q g2 g1 g3 ?_
          intro r c hb
          rw [hV' r c hb, logCell, hin, if_neg (by simp), if_neg hu]

/-- What the snapshot side knows about a child. -/
theorem SnapLayout.childStep {s e N} (h : SnapLayout getS rows cols k s e N) (hk : 0 < k)
    (hh R C : Nat) (indexS : Option Nat) (maxS : Int64)
    (ok : SOk getS rows cols k N (hh + 1) R C indexS maxS) :
    ∃ base, childBase s.nodemap k indexS = some base ∧
      ∀ i j, i < k → j < k →
        (∃ r c, InBox rows cols k hh (R + i * k ^ hh) (C + j * k ^ hh) r c) →
        ∃ maxS' leaf, s.childMaxS maxS (base.map fun b => b + i * k + j) = some maxS' ∧
          optLeaf isLeafGe s.nodemap (base.map fun b => b + i * k + j) = some leaf ∧
          (s.nodemap.length % 32 ≠ 0 →
            optLeaf isLeafGt s.nodemap (base.map fun b => b + i * k + j) = some leaf) ∧
          maxS' = (K2Node.build getS rows cols k hh (R + i * k ^ hh) (C + j * k ^ hh)).max.getD 0 ∧
          (leaf = true → SOk getS rows cols k N hh (R + i * k ^ hh) (C + j * k ^ hh) none maxS') ∧
          (leaf = false → hh ≠ 0 ∧ ∃ q, (base.map fun b => b + i * k + j) = some q ∧
            SOk getS rows cols k N hh (R + i * k ^ hh) (C + j * k ^ hh) (some q) maxS' ∧
            ∃ r2, s.nodemap.rank q = some r2 ∧ s.min.get r2 =
              some ((K2Node.build getS rows cols k hh (R + i * k ^ hh) (C + j * k ^ hh)).min.getD 0 -
                (K2Node.build getS rows cols k (hh + 1) R C).min.getD 0)) := by
  cases indexS with
  | none =>
    refine ⟨none, rfl, ?_⟩
    intro i j hi hj hne
    obtain ⟨r, c, hb⟩ := hne
    refine ⟨maxS, true, rfl, rfl, fun _ => rfl, ?_, fun _ r c hb => ok r c (hb.parent hi hj),
      fun h => by simp at h⟩
    exact (box_const_max getS hk hb maxS (fun r c hb => ok r c (hb.parent hi hj))).symm
  | some p =>
    obtain ⟨x, hp, hx, hint, rfl⟩ := ok
    rw [← hx] at hint
    obtain ⟨r, h1, h2, h3⟩ := h.step p x hp hint
    refine ⟨some (1 + r * k * k), by simp [childBase, h1], ?_⟩
    intro i j hi hj hne
    have h4 := h3 hh _ _ hx i j hi hj
    simp only [Option.map_some]
    generalize 1 + r * k * k + i * k + j = q at *
    refine ⟨(K2Node.build getS rows cols k hh (R + i * k ^ hh) (C + j * k ^ hh)).max.getD 0, _, ?_,
      h.leafGe _ _ h4, fun h32 => h.leafGt h32 _ _ h4, rfl, ?_, ?_⟩
    · simp only [Snapshot.childMaxS]
      rw [h.getMax _ _ h4, hx]
      simp only [Option.map_some, i64_sub_sub]
    · intro hleaf r c hb
      simp only [Bool.not_eq_true'] at hleaf
      exact build_leaf getS rows cols k hk hh _ _ r c hb hleaf
    · intro hleaf
      simp only [Bool.not_eq_false'] at hleaf
      refine ⟨?_, q, rfl, ⟨_, h4, rfl, hleaf, rfl⟩, ?_⟩
      · intro h0
        subst h0
        simp [K2Node.build, K2Node.internal, K2Node.children] at hleaf
      · obtain ⟨r2, g1, g2, -⟩ := h.step _ _ h4 hleaf
        rw [hx] at g2
        exact ⟨r2, g1, g2⟩

theorem log_leaf_value {getV : Nat → Nat → Int64} {l : Log} {N : List K2PNode} {NS : List SnapEntry} {h R C : Nat}
    {maxT maxS : Int64} {idx : Option Nat}
    (hT : TChild getS getT getV rows cols k l N h R C maxT idx true)
    (hS : SOk getS rows cols k NS h R C none maxS)
    (hm : maxS = (K2Node.build getS rows cols k h R C).max.getD 0) {r c : Nat}
    (hb : InBox rows cols k h R C r c) : getV r c = maxT + maxS := by
  cases hT with
  | inherit ok => rw [ok r c hb, hS r c hb, Int64.add_comm]
  | equal p hp hb' he ok => rw [ok r c hb, hS r c hb, Int64.add_comm]
  | uniform p hp hb' he ok => rw [ok r c hb, hm]
  | bottom p hp h0 ok => rw [ok r c hb, hS r c hb, Int64.add_comm]

theorem LogLayout.getGo {getV l s e N NS} (h : LogLayout getS getT rows cols k l e N)
    (hs : SnapLayout getS rows cols k s e NS) (hk : 0 < k)
    (h32 : l.nodemap.length % 32 ≠ 0)
    (h32s : s.nodemap.length % 32 ≠ 0) (hh : Nat) :
    ∀ fuel R C row col indexT indexS maxT maxS,
      TOk getS getT getV rows cols k N (hh + 1) R C indexT maxT →
      SOk getS rows cols k NS (hh + 1) R C indexS maxS → hh < fuel →
      row < k ^ (hh + 1) → col < k ^ (hh + 1) → R + row < rows → C + col < cols →
      l.getGo s fuel (k ^ (hh + 1)) row col indexT indexS maxT maxS =
        some (getV (R + row) (C + col)) := by
  induction hh using Nat.strongRecOn with
  | _ hh ih =>
    intro fuel R C row col indexT indexS maxT maxS okT okS hf hr hc hR hC
    cases fuel with
    | zero => omega
    | succ fuel =>
    have hpos : 0 < k ^ hh := Nat.pow_pos hk
    have hpow : k ^ (hh + 1) = k * k ^ hh := by rw [Nat.pow_succ, Nat.mul_comm]
    rw [hpow] at hr hc
    have hi : row / k ^ hh < k := by rw [Nat.div_lt_iff_lt_mul hpos]; exact hr
    have hj : col / k ^ hh < k := by rw [Nat.div_lt_iff_lt_mul hpos]; exact hc
    have er : R + row / k ^ hh * k ^ hh + row % k ^ hh = R + row := by
      rw [Nat.add_assoc, Nat.mul_comm, Nat.div_add_mod]
    have ec : C + col / k ^ hh * k ^ hh + col % k ^ hh = C + col := by
      rw [Nat.add_assoc, Nat.mul_comm, Nat.div_add_mod]
    have hmr := Nat.mod_lt row hpos
    have hmc := Nat.mod_lt col hpos
    obtain ⟨baseT, hbT, stepT⟩ := h.childStep hk hh R C indexT maxT okT
    obtain ⟨baseS, hbS, stepS⟩ := hs.childStep hk hh R C indexS maxS okS
    simp only [Log.getGo]
    rw [h.hk, if_neg (by omega), hpow, Nat.mul_div_cancel_left _ hk, if_neg (by omega), hbT, hbS]
    simp only []
    generalize row / k ^ hh = i at *
    generalize col / k ^ hh = j at *
    generalize row % k ^ hh = mr at *
    generalize col % k ^ hh = mc at *
    have hbox : InBox rows cols k hh (R + i * k ^ hh) (C + j * k ^ hh) (R + row) (C + col) :=
      ⟨by omega, by omega, by omega, by omega, hR, hC⟩
    obtain ⟨maxT', leafT, t1, -, t2, tc⟩ := stepT i j hi hj ⟨_, _, hbox⟩
    obtain ⟨maxS', leafS, s1, -, s2, s3, s4, s5⟩ := stepS i j hi hj ⟨_, _, hbox⟩
    rw [t1, t2 h32, s1, s2 h32s]
    simp only []
    generalize (baseT.map fun b => b + i * k + j) = idxT at *
    generalize (baseS.map fun b => b + i * k + j) = idxS at *
    -- the recursive calls
    have rec_ : ∀ it is, hh ≠ 0 →
        TOk getS getT getV rows cols k N hh (R + i * k ^ hh) (C + j * k ^ hh) it maxT' →
        SOk getS rows cols k NS hh (R + i * k ^ hh) (C + j * k ^ hh) is maxS' →
        l.getGo s fuel (k ^ hh) mr mc it is maxT' maxS' = some (getV (R + row) (C + col)) := by
      intro it is h0 a1 a2
      obtain ⟨h', rfl⟩ := Nat.exists_eq_succ_of_ne_zero h0
      rw [ih h' (by omega) fuel _ _ _ _ it is maxT' maxS' a1 a2 (by omega) hmr hmc (by omega)
        (by omega), er, ec]
    cases leafT with
    | false =>
      cases tc with
      | node p h0 ok =>
        cases leafS with
        | false =>
          obtain ⟨_, q, hq, okq, -⟩ := s5 rfl
          subst hq
          simp only [Bool.and_self, Bool.false_eq_true, if_false]
          exact rec_ _ _ h0 ok okq
        | true =>
          simp only [Bool.and_true, Bool.false_eq_true, if_false, if_true]
          exact rec_ _ _ h0 ok (s4 rfl)
    | true =>
      cases leafS with
      | true =>
        simp only [Bool.and_self, if_true]
        rw [log_leaf_value tc (s4 rfl) s3 hbox]
      | false =>
        simp only [Bool.and_false, Bool.false_eq_true, if_false, if_true]
        obtain ⟨h0, q, hq, okq, -⟩ := s5 rfl
        subst hq
        cases tc with
        | inherit ok => simp only []; exact rec_ _ _ h0 ok okq
        | equal p hp hb he ok =>
          simp only []
          rw [if_pos hp, he]
          exact rec_ _ _ h0 ok okq
        | uniform p hp hb he ok =>
          simp only []
          rw [if_pos hp, he, ok _ _ hbox, s3]
        | bottom p hp h0' ok => exact absurd h0' h0

theorem LogLayout.fillGo {getV l s e N NS} (h : LogLayout getS getT rows cols k l e N)
    (hs : SnapLayout getS rows cols k s e NS) (hk : 0 < k)
    (h32 : l.nodemap.length % 32 ≠ 0)
    (h32s : s.nodemap.length % 32 ≠ 0) (wt wl : Nat) (hh : Nat) :
    ∀ fuel R C top bottom left right indexT indexS maxT maxS,
      TOk getS getT getV rows cols k N (hh + 1) R C indexT maxT →
      SOk getS rows cols k NS (hh + 1) R C indexS maxS → hh < fuel →
      top ≤ bottom → left ≤ right → bottom < k ^ (hh + 1) → right < k ^ (hh + 1) →
      R + bottom < rows → C + right < cols → wt ≤ R + top → wl ≤ C + left →
      ∃ L, l.fillGo s wt wl fuel (k ^ (hh + 1)) top bottom left right indexT indexS maxT maxS R C =
        some L ∧ (L : Multiset (Nat × Nat × Int64)) = boxSum top bottom left right
          (fun r c => {(R + r - wt, C + c - wl, getV (R + r) (C + c))}) := by
  induction hh using Nat.strongRecOn with
  | _ hh ih =>
    intro fuel R C top bottom left right indexT indexS maxT maxS okT okS hf htb hlr hb hr hR hC hwt
      hwl
    cases fuel with
    | zero => omega
    | succ fuel =>
    have hpos : 0 < k ^ hh := Nat.pow_pos hk
    have hpow : k ^ (hh + 1) = k * k ^ hh := by rw [Nat.pow_succ, Nat.mul_comm]
    rw [hpow] at hb hr
    obtain ⟨baseT, hbT, stepT⟩ := h.childStep hk hh R C indexT maxT okT
    obtain ⟨baseS, hbS, stepS⟩ := hs.childStep hk hh R C indexS maxS okS
    simp only [Log.fillGo]
    rw [h.hk, if_neg (by omega), hpow, Nat.mul_div_cancel_left _ hk, if_neg (by omega), hbT, hbS]
    simp only []
    apply collect_grid (k ^ hh) top bottom left right hpos htb hlr
      (f := fun i j b r' => _) (g := fun r c => {(R + r - wt, C + c - wl, getV (R + r) (C + c))})
    intro i j hi1 hi2 hj1 hj2
    obtain ⟨hi, hi6, hi3, hi4, hi5, hi7⟩ := childSpan (k := k) hpos htb hb hi1 hi2
    obtain ⟨hj, hj6, hj3, hj4, hj5, hj7⟩ := childSpan (k := k) hpos hlr hr hj1 hj2
    generalize Nat.min (k ^ hh - 1) (bottom - i * k ^ hh) = b' at *
    generalize Nat.min (k ^ hh - 1) (right - j * k ^ hh) = r' at *
    generalize htop : top - i * k ^ hh = top' at *
    generalize hleft : left - j * k ^ hh = left' at *
    have hbox : ∀ r c, top' ≤ r → r ≤ b' → left' ≤ c → c ≤ r' →
        InBox rows cols k hh (R + i * k ^ hh) (C + j * k ^ hh) (R + i * k ^ hh + r)
          (C + j * k ^ hh + c) := by
      intro r c hr1 hr2 hc1 hc2
      exact ⟨by omega, by omega, by omega, by omega, by omega, by omega⟩
    have hne := hbox top' left' (by omega) hi3 (by omega) hj3
    obtain ⟨maxT', leafT, t1, -, t2, tc⟩ := stepT i j hi hj ⟨_, _, hne⟩
    obtain ⟨maxS', leafS, s1, -, s2, s3, s4, s5⟩ := stepS i j hi hj ⟨_, _, hne⟩
    rw [t1, t2 h32, s1, s2 h32s]
    simp only []
    generalize (baseT.map fun b => b + i * k + j) = idxT at *
    generalize (baseS.map fun b => b + i * k + j) = idxS at *
    have rec_ : ∀ it is, hh ≠ 0 →
        TOk getS getT getV rows cols k N hh (R + i * k ^ hh) (C + j * k ^ hh) it maxT' →
        SOk getS rows cols k NS hh (R + i * k ^ hh) (C + j * k ^ hh) is maxS' →
        ∃ L, l.fillGo s wt wl fuel (k ^ hh) top' b' left' r' it is maxT' maxS' (R + i * k ^ hh)
            (C + j * k ^ hh) = some L ∧
          (L : Multiset (Nat × Nat × Int64)) = boxSum top' b' left' r'
          (fun r c => {(R + (i * k ^ hh + r) - wt, C + (j * k ^ hh + c) - wl,
            getV (R + (i * k ^ hh + r)) (C + (j * k ^ hh + c)))}) := by
      intro it is h0 a1 a2
      obtain ⟨h', rfl⟩ := Nat.exists_eq_succ_of_ne_zero h0
      obtain ⟨L, hL1, hL2⟩ := ih h' (by omega) fuel _ _ top' b' left' r' it is maxT' maxS' a1 a2
        (by omega) hi3 hj3 hi4 hj4 (by omega) (by omega) (by omega) (by omega)
      refine ⟨L, hL1, ?_⟩
      rw [hL2]
      simp only [Nat.add_assoc]
    have emit_ : (∀ r c, InBox rows cols k hh (R + i * k ^ hh) (C + j * k ^ hh) r c →
        getV r c = maxT' + maxS') →
        ∃ L, emitLeaf top' b' left' r' (R + i * k ^ hh) (C + j * k ^ hh) wt wl (maxT' + maxS') =
            some L ∧
          (L : Multiset (Nat × Nat × Int64)) = boxSum top' b' left' r'
          (fun r c => {(R + (i * k ^ hh + r) - wt, C + (j * k ^ hh + c) - wl,
            getV (R + (i * k ^ hh + r)) (C + (j * k ^ hh + c)))}) := by
      intro hv
      obtain ⟨L, hL1, hL2⟩ := emitLeaf_spec top' b' left' r' (R + i * k ^ hh) (C + j * k ^ hh) wt wl
        (maxT' + maxS') (by omega) (by omega)
      refine ⟨L, hL1, ?_⟩
      rw [hL2]
      apply boxSum_congr
      intro r c hr1 hr2 hc1 hc2
      rw [← hv _ _ (hbox r c hr1 hr2 hc1 hc2)]
      simp only [Nat.add_assoc]
    cases leafT with
    | false =>
      cases tc with
      | node p h0 ok =>
        cases leafS with
        | false =>
          obtain ⟨_, q, hq, okq, -⟩ := s5 rfl
          subst hq
          simp only [Bool.and_self, Bool.false_eq_true, if_false]
          exact rec_ _ _ h0 ok okq
        | true =>
          simp only [Bool.and_true, Bool.false_eq_true, if_false, if_true]
          exact rec_ _ _ h0 ok (s4 rfl)
    | true =>
      cases leafS with
      | true =>
        simp only [Bool.and_self, if_true]
        exact emit_ (fun r c hb => log_leaf_value tc (s4 rfl) s3 hb)
      | false =>
        simp only [Bool.and_false, Bool.false_eq_true, if_false, if_true]
        obtain ⟨h0, q, hq, okq, -⟩ := s5 rfl
        subst hq
        cases tc with
        | inherit ok => simp only []; exact rec_ _ _ h0 ok okq
        | equal p hp hb he ok =>
          simp only []
          rw [hb, he]
          exact rec_ _ _ h0 ok okq
        | uniform p hp hb he ok =>
          simp only []
          rw [hb, he]
          exact emit_ (fun r c hb => by rw [ok r c hb, s3])
        | bottom p hp h0' ok => exact absurd h0' h0

end
end Verif
