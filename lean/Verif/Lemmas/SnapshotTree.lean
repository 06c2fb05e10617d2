import Verif.Lemmas.Layout

/-! The tree built for a snapshot and its layout. -/
namespace Verif

/-- Tree height (along first children). -/
def K2Node.height : K2Node → Nat
  | .mk _ _ [] => 0
  | .mk _ _ (c :: _) => K2Node.height c + 1

/-- Expanded node: has children and is not elided. -/
def K2Node.internal (n : K2Node) : Bool :=
  !n.children.isEmpty && !(n.min.getD 0 == n.max.getD 0)

def snapKids (x : SnapEntry) : List SnapEntry :=
  if x.2.2.internal then x.2.2.childEntries else []

def snapInt (x : SnapEntry) : Bool := x.2.2.internal

def snapHt (x : SnapEntry) : Nat := x.2.2.height

theorem K2Node.height_pos (n : K2Node) : 0 < n.height ↔ n.children.isEmpty = false := by
  cases n with
  | mk a b cs => cases cs <;> simp [K2Node.height, K2Node.children]

theorem traverse_eq (fuel : Nat) : ∀ (q : List SnapEntry) (nm : List Bool) (mx mn : List Int64),
    Snapshot.traverse fuel q nm mx mn =
      (bfs snapKids fuel q).map fun N =>
        (nm ++ (N.filter (fun a => decide (0 < snapHt a))).map snapInt, mx ++ N.map (·.1),
          mn ++ (N.filter snapInt).map (·.2.1)) := by
  induction fuel with
  | zero =>
    intro q nm mx mn
    cases q with
    | nil => simp [Snapshot.traverse, bfs]
    | cons x q => simp [Snapshot.traverse, bfs]
  | succ fuel ih =>
    intro q nm mx mn
    cases q with
    | nil => simp [Snapshot.traverse, bfs]
    | cons x q =>
      obtain ⟨dmax, dmin, child⟩ := x
      unfold Snapshot.traverse bfs
      simp only []
      by_cases hc : child.children.isEmpty = true
      · have hint : snapInt (dmax, dmin, child) = false := by
          simp [snapInt, K2Node.internal, hc]
        have hk : snapKids (dmax, dmin, child) = [] := by
          unfold snapKids; simp [K2Node.internal, hc]
        have hh : ¬ (0 < snapHt (dmax, dmin, child)) := by
          unfold snapHt; rw [K2Node.height_pos]; simp [hc]
        rw [if_pos hc, ih, hk, List.append_nil]
        simp only [Option.map_map]
        congr 1; funext N
        simp [hint, hh]
      · have hh : 0 < snapHt (dmax, dmin, child) := by
          unfold snapHt; rw [K2Node.height_pos]; simpa using hc
        rw [if_neg hc]
        by_cases he : (child.min.getD 0 == child.max.getD 0) = true
        · have hint : snapInt (dmax, dmin, child) = false := by
            simp only [snapInt, K2Node.internal, he]; simp
          have hk : snapKids (dmax, dmin, child) = [] := by
            have : child.internal = false := hint
            unfold snapKids; simp [this]
          rw [if_pos he, ih, hk, List.append_nil]
          simp only [Option.map_map]
          congr 1; funext N
          simp [hint, hh]
        · have hint : snapInt (dmax, dmin, child) = true := by
            simp only [snapInt, K2Node.internal, he, hc]; simp
          have hk : snapKids (dmax, dmin, child) = child.childEntries := by
            have : child.internal = true := hint
            unfold snapKids; simp [this]
          rw [if_neg he, ih, hk]
          simp only [Option.map_map]
          congr 1; funext N
          simp [hint, hh]

section
variable (get : Nat → Nat → Int64) (rows cols k : Nat)

theorem K2Node.build_children (e R C : Nat) :
    (K2Node.build get rows cols k (e + 1) R C).children =
      (List.range k).flatMap fun i => (List.range k).map fun j =>
        K2Node.build get rows cols k e (R + i * k ^ e) (C + j * k ^ e) := by
  simp [K2Node.build, K2Node.children]

theorem grid_length {β} (k : Nat) (f : Nat → Nat → β) :
    ((List.range k).flatMap fun i => (List.range k).map fun j => f i j).length = k * k := by
  simp [List.map_const', List.sum_replicate_nat]

theorem grid_getElem? {β} (k : Nat) (f : Nat → Nat → β) (i j : Nat) (hi : i < k) (hj : j < k) :
    ((List.range k).flatMap fun i => (List.range k).map fun j => f i j)[i * k + j]? =
      some (f i j) := by
  suffices H : ∀ n, i < n → n ≤ k →
      ((List.range n).flatMap fun i => (List.range k).map fun j => f i j)[i * k + j]? =
        some (f i j) from H k hi (Nat.le_refl _)
  intro n
  induction n with
  | zero => intro h; omega
  | succ n ih =>
    intro h1 h2
    have hlen : ((List.range n).flatMap fun i => (List.range k).map fun j => f i j).length = n * k := by
      simp [List.map_const', List.sum_replicate_nat]
    rw [List.range_succ, List.flatMap_append]
    by_cases hin : i < n
    · have : i * k + j < n * k := by
        have : (i + 1) * k ≤ n * k := Nat.mul_le_mul_right _ (by omega)
        rw [Nat.add_mul] at this; omega
      rw [List.getElem?_append_left (by rw [hlen]; exact this)]
      exact ih hin (by omega)
    · have : i = n := by omega
      subst this
      rw [List.getElem?_append_right (by rw [hlen]; omega), hlen]
      have : i * k + j - i * k = j := by omega
      rw [this]
      simp [hj]

theorem K2Node.build_height (hk : 0 < k) (e : Nat) : ∀ R C,
    (K2Node.build get rows cols k e R C).height = e := by
  induction e with
  | zero => intro R C; simp [K2Node.build, K2Node.height]
  | succ e ih =>
    intro R C
    have hc := K2Node.build_children get rows cols k e R C
    have h0 := grid_getElem? k (fun i j =>
      K2Node.build get rows cols k e (R + i * k ^ e) (C + j * k ^ e)) 0 0 hk hk
    rw [← hc] at h0
    generalize hn : K2Node.build get rows cols k (e + 1) R C = n at *
    cases n with
    | mk a b cs =>
      cases cs with
      | nil => simp [K2Node.children] at h0
      | cons c cs =>
        simp [K2Node.children] at h0
        rw [K2Node.height, h0]
        rw [ih]

/-- The node covers `[R, R + k^h) × [C, C + k^h)`. -/
def IsBuilt (x : K2Node) : Prop := ∃ h R C, x = K2Node.build get rows cols k h R C

theorem childEntries_length (h R C : Nat) :
    (K2Node.build get rows cols k (h + 1) R C).childEntries.length = k * k := by
  unfold K2Node.childEntries
  rw [List.length_map, K2Node.build_children, grid_length]

theorem childEntries_getElem? (h R C i j : Nat) (hi : i < k) (hj : j < k) :
    (K2Node.build get rows cols k (h + 1) R C).childEntries[i * k + j]? =
      some ((K2Node.build get rows cols k (h + 1) R C).max.getD 0 -
          (K2Node.build get rows cols k h (R + i * k ^ h) (C + j * k ^ h)).max.getD 0,
        (K2Node.build get rows cols k h (R + i * k ^ h) (C + j * k ^ h)).min.getD 0 -
          (K2Node.build get rows cols k (h + 1) R C).min.getD 0,
        K2Node.build get rows cols k h (R + i * k ^ h) (C + j * k ^ h)) := by
  unfold K2Node.childEntries
  rw [List.getElem?_map, K2Node.build_children, grid_getElem? _ _ _ _ hi hj]
  rfl

theorem countList_eq (cs : List K2Node) : K2Node.countList cs = (cs.map K2Node.count).sum := by
  induction cs with
  | nil => rfl
  | cons c cs ih => simp [K2Node.countList, ih]

theorem K2Node.count_eq (n : K2Node) : n.count = 1 + (n.children.map K2Node.count).sum := by
  cases n with
  | mk a b cs => simp [K2Node.count, K2Node.children, countList_eq]

/-- The layout of a built snapshot. -/
structure SnapLayout (s : Snapshot) (e : Nat) (N : List SnapEntry) : Prop where
  hk : s.k = k
  hrows : s.rows = rows
  hcols : s.cols = cols
  hside : s.sidelen = k ^ e
  root : N[0]? = some ((K2Node.build get rows cols k e 0 0).max.getD 0,
    (K2Node.build get rows cols k e 0 0).min.getD 0, K2Node.build get rows cols k e 0 0)
  nodes : NodeLayout s.nodemap N snapKids snapInt snapHt (k * k)
  max : s.max.Repr (N.map (·.1))
  min : s.min.Repr ((N.filter snapInt).map (·.2.1))
  order : ∃ fuel, bfs snapKids fuel [((K2Node.build get rows cols k e 0 0).max.getD 0,
    (K2Node.build get rows cols k e 0 0).min.getD 0, K2Node.build get rows cols k e 0 0)] = some N

theorem snapshot_build_layout (hk : 0 < k) (e : Nat) :
    ∃ s N, Snapshot.build get rows cols k e = some s ∧ SnapLayout get rows cols k s e N := by
  unfold Snapshot.build
  simp only []
  generalize hroot : K2Node.build get rows cols k e 0 0 = root
  have hP0 : ∀ x : SnapEntry, IsBuilt get rows cols k x.2.2 → ∀ y ∈ snapKids x,
      IsBuilt get rows cols k y.2.2 ∧ snapHt y + 1 = snapHt x := by
    intro x hx y hy
    obtain ⟨h, R, C, hx⟩ := hx
    unfold snapKids at hy
    split at hy
    · rename_i hint
      cases h with
      | zero =>
        rw [hx] at hint; simp [K2Node.internal, K2Node.build, K2Node.children] at hint
      | succ h =>
        unfold K2Node.childEntries at hy
        rw [List.mem_map] at hy
        obtain ⟨d, hd, rfl⟩ := hy
        rw [hx, K2Node.build_children] at hd
        simp only [List.mem_flatMap, List.mem_map, List.mem_range] at hd
        obtain ⟨i, _, j, _, rfl⟩ := hd
        refine ⟨⟨_, _, _, rfl⟩, ?_⟩
        simp only [snapHt]
        rw [hx, K2Node.build_height _ _ _ _ hk, K2Node.build_height _ _ _ _ hk]
    · simp at hy
  have hlen : ∀ x : SnapEntry, IsBuilt get rows cols k x.2.2 →
      (snapKids x).length = if snapInt x then k * k else 0 := by
    intro x hx
    obtain ⟨h, R, C, hx⟩ := hx
    unfold snapKids snapInt
    split
    · rename_i hint
      cases h with
      | zero =>
        rw [hx] at hint; simp [K2Node.internal, K2Node.build, K2Node.children] at hint
      | succ h => rw [hx, childEntries_length]
    · rfl
  have hint : ∀ x : SnapEntry, IsBuilt get rows cols k x.2.2 → snapInt x = true → 0 < snapHt x := by
    intro x _ hx
    unfold snapHt; rw [K2Node.height_pos]
    unfold snapInt K2Node.internal at hx
    simp at hx; simpa using hx.1
  obtain ⟨N, hN⟩ := bfs_total snapKids (fun x => x.2.2.count) (fun _ => True)
    (fun _ _ _ _ => trivial) (by
      intro x _
      rw [K2Node.count_eq x.2.2]
      unfold snapKids
      split
      · unfold K2Node.childEntries; rw [List.map_map]; exact Nat.le_refl _
      · simp) root.count [(root.max.getD 0, root.min.getD 0, root)] (by simp) (by simp)
  rw [traverse_eq, hN]
  simp only [Option.map_some, List.nil_append]
  obtain ⟨nm, hnm1, hnm2⟩ := ofBits_repr ((N.filter (fun a => decide (0 < snapHt a))).map snapInt)
  obtain ⟨mx, hmx1, hmx2⟩ := dac_ofList_repr (N.map (·.1))
  obtain ⟨mn, hmn1, hmn2⟩ := dac_ofList_repr ((N.filter snapInt).map (·.2.1))
  rw [hnm1, hmx1, hmn1]
  refine ⟨_, N, rfl, ?_⟩
  refine ⟨rfl, rfl, rfl, rfl, ?_, ?_, hmx2, hmn2, _, by rw [hroot]; exact hN⟩
  · have := bfs_fix _ _ _ _ hN
    rw [hroot, this]; rfl
  · exact bfs_layout snapKids snapInt snapHt (k * k) (fun x => IsBuilt get rows cols k x.2.2)
      hP0 hlen hint _ ⟨e, 0, 0, hroot.symm⟩ _ N hN nm hnm2

variable {get rows cols k}

theorem snapInt_of_ht {x : SnapEntry} (h : snapHt x = 0) : snapInt x = false := by
  unfold snapHt at h
  have := K2Node.height_pos x.2.2
  unfold snapInt K2Node.internal
  cases hc : x.2.2.children.isEmpty with
  | true => simp
  | false => have := this.2 hc; omega

theorem SnapLayout.leafGe {s e N} (h : SnapLayout get rows cols k s e N) (p : Nat) (x : SnapEntry)
    (hp : N[p]? = some x) : isLeafGe s.nodemap p = some (!x.2.2.internal) :=
  h.nodes.leafGe (fun _ => snapInt_of_ht) p x hp

theorem SnapLayout.getMax {s e N} (h : SnapLayout get rows cols k s e N) (p : Nat) (x : SnapEntry)
    (hp : N[p]? = some x) : s.max.get p = some x.1 := by
  have h1 : (N.map (·.1))[p]? = some x.1 := by simp [hp]
  obtain ⟨h2, h3⟩ := List.getElem?_eq_some_iff.1 h1
  rw [h.max.get p h2, h3]

/-- One step down the tree: rank, child position, child entry. -/
theorem SnapLayout.step {s e N} (h : SnapLayout get rows cols k s e N) (p : Nat) (x : SnapEntry)
    (hp : N[p]? = some x) (hint : x.2.2.internal = true) :
    ∃ r, s.nodemap.rank p = some r ∧ s.min.get r = some x.2.1 ∧
      ∀ hh R C, x.2.2 = K2Node.build get rows cols k (hh + 1) R C → ∀ i j, i < k → j < k →
        N[1 + r * k * k + i * k + j]? =
          some (x.2.2.max.getD 0 -
              (K2Node.build get rows cols k hh (R + i * k ^ hh) (C + j * k ^ hh)).max.getD 0,
            (K2Node.build get rows cols k hh (R + i * k ^ hh) (C + j * k ^ hh)).min.getD 0 -
              x.2.2.min.getD 0,
            K2Node.build get rows cols k hh (R + i * k ^ hh) (C + j * k ^ hh)) := by
  have hht : 0 < snapHt x := by
    unfold snapHt; rw [K2Node.height_pos]
    unfold K2Node.internal at hint
    simp at hint; simpa using hint.1
  refine ⟨(N.take p).countP snapInt, h.nodes.rank p x hp hht, ?_, ?_⟩
  · have h1 : ((N.filter snapInt).map (·.2.1))[(N.take p).countP snapInt]? = some x.2.1 := by
      rw [List.getElem?_map, getElem?_filter_countP snapInt N p x hp hint]; rfl
    obtain ⟨h2, h3⟩ := List.getElem?_eq_some_iff.1 h1
    rw [h.min.get _ h2, h3]
  · intro hh R C hx i j hi hj
    have hkids : snapKids x = x.2.2.childEntries := by unfold snapKids; rw [if_pos hint]
    have hij : i * k + j < k * k := by
      have : (i + 1) * k ≤ k * k := Nat.mul_le_mul_right _ (by omega)
      rw [Nat.add_mul] at this; omega
    have := h.nodes.child p x hp (i * k + j) (by
      rw [hkids, hx, childEntries_length]; exact hij)
    have e1 : 1 + (N.take p).countP snapInt * k * k + i * k + j =
        1 + (N.take p).countP snapInt * (k * k) + (i * k + j) := by
      rw [Nat.mul_assoc]; omega
    rw [e1, this, hkids, hx, childEntries_getElem? _ _ _ _ _ _ _ _ _ hi hj]

end

end Verif
