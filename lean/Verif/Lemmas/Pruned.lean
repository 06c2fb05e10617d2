import Verif.Lemmas.ChunkRead
import Verif.Lemmas.Zigzag

/-! How much of a raster is stored: the squares of the trees of snapshots and logs, counted, and the
bytes that bit maps and integer containers take. -/
namespace Verif

namespace Spec

/-- All cells of the raster within the square of side `side` at row `R`, column `C` hold one value. -/
def Uniform (get : Nat → Nat → Int64) (rows cols side R C : Nat) : Prop :=
  ∀ r c r' c', R ≤ r → r < R + side → C ≤ c → c < C + side → r < rows → c < cols →
    R ≤ r' → r' < R + side → C ≤ c' → c' < C + side → r' < rows → c' < cols →
    get r c = get r' c'

/-- All cells of the square differ by one amount between two rasters, a cell outside of the raster by
zero. -/
def Shifted (getS getT : Nat → Nat → Int64) (rows cols side R C : Nat) : Prop :=
  ∃ d, ∀ r c, R ≤ r → r < R + side → C ≤ c → c < C + side →
    (if r < rows ∧ c < cols then getT r c - getS r c else 0) = d

open Classical in
/-- The squares that a quadtree of height `e` at `(R, C)` consists of, if those are divided that have
the property `split`: their heights, rows and columns. -/
noncomputable def squares (split : Nat → Nat → Nat → Prop) (k : Nat) : Nat → Nat → Nat →
    List (Nat × Nat × Nat)
  | 0, R, C => [(0, R, C)]
  | e + 1, R, C => (e + 1, R, C) ::
    if split (k ^ (e + 1)) R C then
      (List.range k).flatMap fun i => (List.range k).flatMap fun j =>
        squares split k e (R + i * k ^ e) (C + j * k ^ e)
    else []

open Classical in
/-- Number of squares. -/
noncomputable def nodes (split : Nat → Nat → Nat → Prop) (k e : Nat) : Nat :=
  (squares split k e 0 0).length

/-- Number of squares that could be divided: those of more than one cell. -/
noncomputable def branches (split : Nat → Nat → Nat → Prop) (k e : Nat) : Nat :=
  (squares split k e 0 0).countP fun x => decide (0 < x.1)

open Classical in
/-- Number of squares that are divided. -/
noncomputable def divided (split : Nat → Nat → Nat → Prop) (k e : Nat) : Nat :=
  (squares split k e 0 0).countP fun x => decide (0 < x.1 ∧ split (k ^ x.1) x.2.1 x.2.2)

/-- Bytes of a bit map of `n` bits: two numbers, one number for every 128 bits, and the bits in words
of 32. -/
def bitmapBytes (n : Nat) : Nat := 8 + 4 * (n / 128) + 4 * ((n + 31) / 32)

/-- An integer as the natural number that is stored for it: 0, -1, 1, -2, 2, … become 0, 1, 2, 3, 4, … -/
def folded (x : Int64) : Nat :=
  if 0 ≤ x.toInt then (2 * x.toInt).toNat else (-2 * x.toInt - 1).toNat

/-- How many of the integers reach level `i`: those that do not fit `i` bytes. -/
def reach (xs : List Int64) (i : Nat) : Nat :=
  if i = 0 then xs.length else xs.countP fun x => decide (256 ^ i ≤ folded x)

/-- Bytes of an integer container: for every level a byte and a bit for each integer that reaches it. -/
def dacBytes (xs : List Int64) : Nat :=
  1 + ((List.range 8).map fun i =>
    if reach xs i = 0 then 0 else bitmapBytes (reach xs i) + reach xs i).sum

/-- Bytes that `n` integers take at most. -/
def dacMost (n : Nat) : Nat := if n = 0 then 1 else 1 + 8 * (bitmapBytes n + n)

end Spec

/-! ### Breadth first and depth first -/

section
variable {α β : Type _}

theorem bfs_rel (kids : α → List α) (kids' : β → List β) (R : α → β → Prop)
    (hR : ∀ x y, R x y → List.Forall₂ R (kids x) (kids' y)) :
    ∀ n q q' N, List.Forall₂ R q q' → bfs kids n q = some N →
      ∃ N', bfs kids' n q' = some N' ∧ List.Forall₂ R N N' := by
  intro n
  induction n with
  | zero =>
    intro q q' N hq h
    cases hq with
    | nil => simp [bfs] at h; subst h; exact ⟨[], rfl, .nil⟩
    | cons _ _ => simp [bfs] at h
  | succ n ih =>
    intro q q' N hq h
    cases hq with
    | nil => simp [bfs] at h; subst h; exact ⟨[], rfl, .nil⟩
    | cons h1 h2 =>
      simp only [bfs, Option.map_eq_some_iff] at h
      obtain ⟨M, hM, rfl⟩ := h
      obtain ⟨N', h3, h4⟩ := ih _ _ _ (List.rel_append h2 (hR _ _ h1)) hM
      exact ⟨_, by simp only [bfs, h3, Option.map_some], .cons h1 h4⟩

theorem bfs_perm (kids : α → List α) (dfs : α → List α)
    (hd : ∀ x, dfs x = x :: (kids x).flatMap dfs) :
    ∀ n q N, bfs kids n q = some N → N.Perm (q.flatMap dfs) := by
  intro n
  induction n with
  | zero =>
    intro q N h
    cases q with
    | nil => simp [bfs] at h; subst h; exact .refl _
    | cons x q => simp [bfs] at h
  | succ n ih =>
    intro q N h
    cases q with
    | nil => simp [bfs] at h; subst h; exact .refl _
    | cons x q =>
      simp only [bfs, Option.map_eq_some_iff] at h
      obtain ⟨M, hM, rfl⟩ := h
      have := ih _ _ hM
      rw [List.flatMap_append] at this
      rw [List.flatMap_cons, hd x, List.cons_append]
      exact (this.trans List.perm_append_comm).cons _

end

section
variable (split : Nat → Nat → Nat → Prop) (k : Nat)

open Classical in
/-- The squares a square is divided into. -/
noncomputable def squareKids : Nat × Nat × Nat → List (Nat × Nat × Nat)
  | (0, _, _) => []
  | (e + 1, R, C) =>
    if split (k ^ (e + 1)) R C then
      (List.range k).flatMap fun i => (List.range k).map fun j => (e, R + i * k ^ e, C + j * k ^ e)
    else []

theorem squares_eq (x : Nat × Nat × Nat) :
    Spec.squares split k x.1 x.2.1 x.2.2 =
      x :: (squareKids split k x).flatMap fun y => Spec.squares split k y.1 y.2.1 y.2.2 := by
  obtain ⟨e, R, C⟩ := x
  cases e with
  | zero => simp [Spec.squares, squareKids]
  | succ e =>
    simp only [Spec.squares, squareKids]
    congr 1
    split
    · rw [List.flatMap_assoc]
      congr 1; funext i
      rw [List.flatMap_map]
    · rfl

/-- Nodes that are built for squares and divided as the squares are, in breadth first order, are those
of the squares. -/
theorem bfs_squares {α : Type _} (kids : α → List α) (R : α → Nat × Nat × Nat → Prop)
    (hR : ∀ x y, R x y → List.Forall₂ R (kids x) (squareKids split k y))
    (x : α) (e : Nat) (hx : R x (e, 0, 0)) (n : Nat) (N : List α) (h : bfs kids n [x] = some N) :
    ∃ N', List.Forall₂ R N N' ∧ N'.Perm (Spec.squares split k e 0 0) := by
  obtain ⟨N', h1, h2⟩ := bfs_rel kids (squareKids split k) R hR n [x] [(e, 0, 0)] N
    (.cons hx .nil) h
  have := bfs_perm _ _ (squares_eq split k) _ _ _ h1
  exact ⟨N', h2, by simpa using this⟩

theorem forall₂_countP {α β : Type _} {R : α → β → Prop} {p : α → Bool} {q : β → Bool}
    (hpq : ∀ x y, R x y → p x = q y) {l : List α} {m : List β} (h : List.Forall₂ R l m) :
    l.countP p = m.countP q := by
  induction h with
  | nil => rfl
  | cons h1 _ ih => simp only [List.countP_cons, ih, hpq _ _ h1]

end

/-! ### Which squares are divided -/

section
variable (get : Nat → Nat → Int64) (rows cols k : Nat)

theorem K2Node.internal_iff (hk : 0 < k) (h R C : Nat) :
    (K2Node.build get rows cols k h R C).internal = true ↔
      0 < h ∧ ¬ Spec.Uniform get rows cols (k ^ h) R C := by
  have hlev : 0 < h ↔ (K2Node.build get rows cols k h R C).children.isEmpty = false := by
    rw [← K2Node.height_pos, K2Node.build_height _ _ _ _ hk]
  have sem := build_sem get rows cols k hk h R C
  constructor
  · intro hi
    unfold K2Node.internal at hi
    simp only [Bool.and_eq_true, Bool.not_eq_true'] at hi
    refine ⟨hlev.2 (by simpa using hi.1), fun hu => ?_⟩
    have hne : (K2Node.build get rows cols k h R C).min.getD 0 ≠
        (K2Node.build get rows cols k h R C).max.getD 0 := by simpa using hi.2
    apply hne
    cases hmx : (K2Node.build get rows cols k h R C).max with
    | none =>
      cases hmn : (K2Node.build get rows cols k h R C).min with
      | none => rfl
      | some m =>
        obtain ⟨r, c, hb, _⟩ := sem.2.2 m hmn
        obtain ⟨_, _, h1, _⟩ := sem.1 r c hb
        rw [hmx] at h1; simp at h1
    | some m =>
      obtain ⟨r, c, hb, hv⟩ := sem.2.1 m hmx
      obtain ⟨mn, _, _, h2, _⟩ := sem.1 r c hb
      obtain ⟨r', c', hb', hv'⟩ := sem.2.2 mn h2
      rw [h2]
      obtain ⟨a1, a2, a3, a4, a5, a6⟩ := hb
      obtain ⟨b1, b2, b3, b4, b5, b6⟩ := hb'
      have := hu r' c' r c b1 b2 b3 b4 b5 b6 a1 a2 a3 a4 a5 a6
      simp only [Option.getD_some]
      rw [← hv, ← hv', this]
  · rintro ⟨h0, hu⟩
    by_contra hi
    simp only [Bool.not_eq_true] at hi
    apply hu
    intro r c r' c' a1 a2 a3 a4 a5 a6 b1 b2 b3 b4 b5 b6
    rw [build_leaf get rows cols k hk h R C r c ⟨a1, a2, a3, a4, a5, a6⟩ hi,
      build_leaf get rows cols k hk h R C r' c' ⟨b1, b2, b3, b4, b5, b6⟩ hi]

/-- An entry of the queue is that of a square. -/
def SnapAt (x : SnapEntry) (y : Nat × Nat × Nat) : Prop :=
  x.2.2 = K2Node.build get rows cols k y.1 y.2.1 y.2.2

/-- Squares that a snapshot divides. -/
def snapSplit (side R C : Nat) : Prop := ¬ Spec.Uniform get rows cols side R C

theorem grid_forall₂ {α β : Type _} {R : α → β → Prop} (f : Nat → Nat → α) (g : Nat → Nat → β)
    (h : ∀ i j, R (f i j) (g i j)) :
    List.Forall₂ R ((List.range k).flatMap fun i => (List.range k).map fun j => f i j)
      ((List.range k).flatMap fun i => (List.range k).map fun j => g i j) := by
  refine List.rel_flatMap (R := Eq) (List.forall₂_eq_eq_eq ▸ rfl) ?_
  rintro i _ rfl
  exact List.rel_map (R := Eq) (fun j _ hj => hj ▸ h i j) (List.forall₂_eq_eq_eq ▸ rfl)

theorem snapAt_kids (hk : 0 < k) (x : SnapEntry) (y : Nat × Nat × Nat)
    (h : SnapAt get rows cols k x y) :
    List.Forall₂ (SnapAt get rows cols k) (snapKids x)
      (squareKids (snapSplit get rows cols) k y) := by
  obtain ⟨e, R, C⟩ := y
  have hx : x.2.2 = K2Node.build get rows cols k e R C := h
  have hi := K2Node.internal_iff get rows cols k hk e R C
  unfold snapKids
  rw [hx]
  cases e with
  | zero =>
    have : (K2Node.build get rows cols k 0 R C).internal = false := by
      by_contra hc
      have := (hi.1 (by simpa using hc)).1
      omega
    rw [this]; exact .nil
  | succ e =>
    simp only [squareKids]
    by_cases hs : snapSplit get rows cols (k ^ (e + 1)) R C
    · rw [if_pos (hi.2 ⟨by omega, hs⟩), if_pos hs]
      unfold K2Node.childEntries
      rw [K2Node.build_children]
      simp only [List.map_flatMap, List.map_map]
      apply grid_forall₂ k (R := SnapAt get rows cols k)
      intro i j
      rfl
    · rw [if_neg (fun hh => hs (hi.1 hh).2), if_neg hs]
      exact .nil

theorem snapAt_int (hk : 0 < k) (x : SnapEntry) (y : Nat × Nat × Nat)
    (h : SnapAt get rows cols k x y) :
    snapInt x = true ↔ 0 < y.1 ∧ snapSplit get rows cols (k ^ y.1) y.2.1 y.2.2 := by
  unfold snapInt
  rw [show x.2.2 = _ from h]
  exact K2Node.internal_iff get rows cols k hk y.1 y.2.1 y.2.2

theorem snapAt_ht (hk : 0 < k) (x : SnapEntry) (y : Nat × Nat × Nat)
    (h : SnapAt get rows cols k x y) : decide (0 < snapHt x) = decide (0 < y.1) := by
  unfold snapHt
  rw [show x.2.2 = _ from h, K2Node.build_height _ _ _ _ hk]

theorem SnapLayout.counts (hk : 0 < k) {s : Snapshot} {e : Nat} {N : List SnapEntry}
    (h : SnapLayout get rows cols k s e N) :
    N.length = Spec.nodes (snapSplit get rows cols) k e ∧
    s.nodemap.length = Spec.branches (snapSplit get rows cols) k e ∧
    (N.filter snapInt).length = Spec.divided (snapSplit get rows cols) k e := by
  obtain ⟨fuel, ho⟩ := h.order
  obtain ⟨N', h1, h2⟩ := bfs_squares (snapSplit get rows cols) k snapKids (SnapAt get rows cols k)
    (snapAt_kids get rows cols k hk) _ e (by exact rfl) _ _ ho
  refine ⟨?_, ?_, ?_⟩
  · rw [h1.length_eq, h2.length_eq]; rfl
  · rw [h.nodes.repr.len, List.length_map, ← List.countP_eq_length_filter,
      forall₂_countP (fun x y hxy => snapAt_ht get rows cols k hk x y hxy) h1]
    exact h2.countP_eq _
  · rw [← List.countP_eq_length_filter]
    unfold Spec.divided
    rw [← h2.countP_eq]
    refine forall₂_countP (fun x y hxy => ?_) h1
    rw [Bool.eq_iff_iff, snapAt_int get rows cols k hk x y hxy]
    simp only [decide_eq_true_eq]

end

section
variable (getS getT : Nat → Nat → Int64) (rows cols k : Nat)

/-- Squares that a log divides. -/
def logSplit (side R C : Nat) : Prop :=
  ¬ Spec.Uniform getT rows cols side R C ∧ ¬ Spec.Shifted getS getT rows cols side R C

theorem K2Node.min_eq_max_iff (get : Nat → Nat → Int64) (hk : 0 < k) (h R C : Nat) :
    (K2Node.build get rows cols k h R C).min = (K2Node.build get rows cols k h R C).max ↔
      Spec.Uniform get rows cols (k ^ h) R C := by
  have sem := build_sem get rows cols k hk h R C
  have hb := build_bounds get rows cols k hk h R C
  constructor
  · intro he r c r' c' a1 a2 a3 a4 a5 a6 b1 b2 b3 b4 b5 b6
    have h1 := hb r c ⟨a1, a2, a3, a4, a5, a6⟩
    have h2 := hb r' c' ⟨b1, b2, b3, b4, b5, b6⟩
    rw [he] at h1 h2
    rw [Int64.le_antisymm h1.2 h1.1, Int64.le_antisymm h2.2 h2.1]
  · intro hu
    cases hmx : (K2Node.build get rows cols k h R C).max with
    | none =>
      cases hmn : (K2Node.build get rows cols k h R C).min with
      | none => rfl
      | some m =>
        obtain ⟨r, c, hb, _⟩ := sem.2.2 m hmn
        obtain ⟨_, _, h1, _⟩ := sem.1 r c hb
        rw [hmx] at h1; simp at h1
    | some m =>
      obtain ⟨r, c, hb, hv⟩ := sem.2.1 m hmx
      obtain ⟨mn, _, _, h2, _⟩ := sem.1 r c hb
      obtain ⟨r', c', hb', hv'⟩ := sem.2.2 mn h2
      rw [h2]
      obtain ⟨a1, a2, a3, a4, a5, a6⟩ := hb
      obtain ⟨b1, b2, b3, b4, b5, b6⟩ := hb'
      have := hu r' c' r c b1 b2 b3 b4 b5 b6 a1 a2 a3 a4 a5 a6
      rw [← hv, ← hv', this]

theorem K2PNode.internal_iff (hk : 0 < k) (h R C : Nat) :
    (K2PNode.build getS getT rows cols k h R C).internal = true ↔
      0 < h ∧ logSplit getS getT rows cols (k ^ h) R C := by
  have hlev : 0 < h ↔ (K2PNode.build getS getT rows cols k h R C).children.isEmpty = false := by
    rw [← K2PNode.height_pos, K2PNode.build_height _ _ _ _ _ hk]
  obtain ⟨f1, f2, _, _⟩ := K2PNode.build_fields getS getT rows cols k hk h R C
  have heq : (K2PNode.build getS getT rows cols k h R C).equal = true ↔
      Spec.Shifted getS getT rows cols (k ^ h) R C := by
    rw [K2PNode.build_equal getS getT rows cols k hk h R C]
    have hpos : 0 < k ^ h := Nat.pow_pos hk
    constructor
    · intro hh; exact ⟨_, fun r c a b c' d => hh r c a b c' d⟩
    · rintro ⟨d, hd⟩ r c a b c' d'
      have h1 := hd r c a b c' d'
      have h2 := hd R C (Nat.le_refl _) (by omega) (Nat.le_refl _) (by omega)
      unfold cellDiff
      rw [h1, h2]
  unfold K2PNode.internal
  simp only [Bool.and_eq_true, Bool.not_eq_true', decide_eq_false_iff_not]
  rw [f1, f2, K2Node.min_eq_max_iff rows cols k getT hk, ← hlev, and_assoc]
  unfold logSplit
  rw [← heq, Bool.not_eq_true]

/-- A node is that of a square. -/
def LogAt (x : K2PNode) (y : Nat × Nat × Nat) : Prop :=
  x = K2PNode.build getS getT rows cols k y.1 y.2.1 y.2.2

theorem logAt_kids (hk : 0 < k) (x : K2PNode) (y : Nat × Nat × Nat)
    (h : LogAt getS getT rows cols k x y) :
    List.Forall₂ (LogAt getS getT rows cols k) (logKids x)
      (squareKids (logSplit getS getT rows cols) k y) := by
  obtain ⟨e, R, C⟩ := y
  have hx : x = K2PNode.build getS getT rows cols k e R C := h
  have hi := K2PNode.internal_iff getS getT rows cols k hk e R C
  unfold logKids
  rw [hx]
  cases e with
  | zero =>
    have : (K2PNode.build getS getT rows cols k 0 R C).internal = false := by
      by_contra hc
      have := (hi.1 (by simpa using hc)).1
      omega
    rw [this]; exact .nil
  | succ e =>
    simp only [squareKids]
    by_cases hs : logSplit getS getT rows cols (k ^ (e + 1)) R C
    · rw [if_pos (hi.2 ⟨by omega, hs⟩), if_pos hs, K2PNode.build_children]
      apply grid_forall₂ k (R := LogAt getS getT rows cols k)
      intro i j
      rfl
    · rw [if_neg (fun hh => hs (hi.1 hh).2), if_neg hs]
      exact .nil

theorem LogLayout.counts (hk : 0 < k) {l : Log} {e : Nat} {N : List K2PNode}
    (h : LogLayout getS getT rows cols k l e N) :
    N.length = Spec.nodes (logSplit getS getT rows cols) k e ∧
    l.nodemap.length = Spec.branches (logSplit getS getT rows cols) k e ∧
    l.equal.length + Spec.divided (logSplit getS getT rows cols) k e =
      Spec.branches (logSplit getS getT rows cols) k e ∧
    (N.filter K2PNode.internal).length = Spec.divided (logSplit getS getT rows cols) k e := by
  obtain ⟨fuel, ho⟩ := h.order
  obtain ⟨N', h1, h2⟩ := bfs_squares (logSplit getS getT rows cols) k logKids
    (LogAt getS getT rows cols k) (logAt_kids getS getT rows cols k hk) _ e (by exact rfl) _ _ ho
  have hb : N.countP (fun a => decide (0 < a.height)) =
      Spec.branches (logSplit getS getT rows cols) k e := by
    unfold Spec.branches
    rw [← h2.countP_eq]
    refine forall₂_countP (fun x y hxy => ?_) h1
    rw [show x = _ from hxy, K2PNode.build_height _ _ _ _ _ hk]
  have hd : N.countP K2PNode.internal = Spec.divided (logSplit getS getT rows cols) k e := by
    unfold Spec.divided
    rw [← h2.countP_eq]
    refine forall₂_countP (fun x y hxy => ?_) h1
    rw [show x = _ from hxy, Bool.eq_iff_iff, K2PNode.internal_iff getS getT rows cols k hk]
    simp only [decide_eq_true_eq]
  refine ⟨?_, ?_, ?_, ?_⟩
  · rw [h1.length_eq, h2.length_eq]; rfl
  · rw [h.nodes.repr.len, List.length_map, ← List.countP_eq_length_filter, hb]
  · rw [h.eq.len, List.length_map, ← List.countP_eq_length_filter, ← hb, ← hd]
    have hsub : ∀ x : K2PNode, x.internal = true → 0 < x.height := by
      intro x hx
      rw [K2PNode.height_pos]
      unfold K2PNode.internal at hx
      simp at hx; simpa using hx.1.1
    clear h h1 ho hb hd
    induction N with
    | nil => rfl
    | cons x N ih =>
      simp only [List.countP_cons]
      have : (if logCut x = true then 1 else 0) + (if x.internal = true then 1 else 0) =
          (if decide (0 < x.height) = true then 1 else 0) := by
        unfold logCut
        by_cases hx : x.internal = true
        · simp [hx, hsub x hx]
        · simp [hx]
      omega
  · rw [← List.countP_eq_length_filter, hd]

end

/-! ### Bytes -/

theorem BitMap.Repr.size {m : BitMap} {bs : List Bool} (h : m.Repr bs) :
    m.size = Spec.bitmapBytes bs.length := by
  unfold BitMap.size Spec.bitmapBytes
  rw [h.ilen, h.wlen, Nat.div_div_eq_div_mul]
  omega

/-- How many of the numbers reach a level. -/
def reachOf (xs : List (BitVec 64)) (i : Nat) : Nat :=
  if i = 0 then xs.length else xs.countP fun x => decide (256 ^ i ≤ x.toNat)

theorem shift_toNat (x : BitVec 64) : (x >>> 8).toNat = x.toNat / 256 := by
  rw [BitVec.toNat_ushiftRight, Nat.shiftRight_eq_div_pow]

theorem reachOf_next (xs : List (BitVec 64)) (i : Nat) :
    reachOf (dacNext xs) i = reachOf xs (i + 1) := by
  have hz : ∀ x : BitVec 64, decide (x >>> 8 ≠ 0#64) = decide (256 ≤ x.toNat) := by
    intro x
    rw [decide_eq_decide, Ne, BitVec.toNat_eq, shift_toNat, BitVec.toNat_ofNat]
    omega
  unfold reachOf dacNext
  rw [if_neg (Nat.succ_ne_zero i)]
  by_cases hi : i = 0
  · subst hi
    rw [if_pos rfl, List.length_map, ← List.countP_eq_length_filter]
    congr 1; funext x; rw [hz]; rfl
  · rw [if_neg hi, List.countP_map, List.countP_filter]
    congr 1; funext x
    simp only [Function.comp, hz, shift_toNat]
    have hp : 256 ^ (i + 1) = 256 ^ i * 256 := Nat.pow_succ ..
    have hp1 : 0 < 256 ^ i := Nat.pow_pos (by omega)
    rw [← Bool.decide_and, decide_eq_decide, hp, Nat.le_div_iff_mul_le (by omega)]
    generalize 256 ^ i = p at *
    omega

theorem levels_size (n : Nat) : ∀ ls xs, LevelsHold n ls xs →
    (ls.map fun l => l.1.size + l.2.length).sum =
      ((List.range n).map fun i =>
        if reachOf xs i = 0 then 0 else Spec.bitmapBytes (reachOf xs i) + reachOf xs i).sum := by
  induction n with
  | zero => intro ls xs h; cases h <;> rfl
  | succ n ih =>
    intro ls xs h
    rw [List.range_succ_eq_map, List.map_cons, List.map_map, List.sum_cons]
    cases h with
    | empty =>
      have : ∀ i, reachOf [] i = 0 := by intro i; unfold reachOf; split <;> rfl
      simp [this, Function.comp_def]
    | cons _ hne hm hr =>
      have h0 : reachOf xs 0 = xs.length := rfl
      have hp : 0 < xs.length := List.length_pos_iff.2 hne
      rw [h0, if_neg (by omega), List.map_cons, List.sum_cons, ih _ _ hr, hm.size]
      have hl1 : (dacBits xs).length = xs.length := by simp [dacBits]
      have hl2 : (dacBytes xs).length = xs.length := by simp [dacBytes]
      rw [hl1, hl2]
      congr 2
      apply List.map_congr_left
      intro i _
      simp only [Function.comp, reachOf_next]

theorem folded_eq (x : Int64) : (zigzagEncode x).toNat = Spec.folded x := by
  have := zigzag_toNat x
  unfold Spec.folded
  split at this <;> rename_i h
  · rw [if_pos h]; omega
  · rw [if_neg h]; omega

theorem reachOf_map (xs : List Int64) (i : Nat) :
    reachOf (xs.map zigzagEncode) i = Spec.reach xs i := by
  unfold reachOf Spec.reach
  split
  · rw [List.length_map]
  · rw [List.countP_map]
    congr 1; funext x
    simp only [Function.comp, folded_eq]

theorem Dac.Repr.size {d : Dac} {xs : List Int64} (h : d.Repr xs) : d.size = Spec.dacBytes xs := by
  unfold Dac.size Spec.dacBytes
  rw [levels_size 8 _ _ h]
  simp only [reachOf_map]

theorem reach_le (xs : List Int64) (i : Nat) : Spec.reach xs i ≤ xs.length := by
  unfold Spec.reach
  split
  · exact Nat.le_refl _
  · exact List.countP_le_length

theorem bitmapBytes_mono {m n : Nat} (h : m ≤ n) : Spec.bitmapBytes m ≤ Spec.bitmapBytes n := by
  unfold Spec.bitmapBytes
  have h1 : m / 128 ≤ n / 128 := Nat.div_le_div_right h
  have h2 : (m + 31) / 32 ≤ (n + 31) / 32 := Nat.div_le_div_right (by omega)
  omega

theorem dacBytes_le (xs : List Int64) : Spec.dacBytes xs ≤ Spec.dacMost xs.length := by
  unfold Spec.dacBytes Spec.dacMost
  have hk : ∀ n, ((List.range n).map fun i =>
      if Spec.reach xs i = 0 then 0 else Spec.bitmapBytes (Spec.reach xs i) + Spec.reach xs i).sum ≤
        if xs.length = 0 then 0 else n * (Spec.bitmapBytes xs.length + xs.length) := by
    intro n
    induction n with
    | zero => simp
    | succ n ih =>
      rw [List.range_succ, List.map_append, List.sum_append]
      simp only [List.map_cons, List.map_nil, List.sum_cons, List.sum_nil, Nat.add_zero]
      have h1 := reach_le xs n
      have h2 := bitmapBytes_mono h1
      by_cases hx : xs.length = 0
      · rw [if_pos hx] at ih ⊢
        rw [if_pos (by omega)]; omega
      · rw [if_neg hx] at ih ⊢
        rw [Nat.add_mul, Nat.one_mul]
        split <;> omega
  have := hk 8
  split at this
  · rename_i h; rw [if_pos h]; omega
  · rename_i h; rw [if_neg h]; omega

end Verif
