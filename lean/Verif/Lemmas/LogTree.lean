import Verif.Lemmas.SnapshotRead
import Verif.Model.Log

/-! The tree built for a log and its layout. -/
namespace Verif
open K2PNode

/-! ### Fields of the tree nodes -/

theorem keepMax_fold (cs : List (Option Int64)) (v : Int64) :
    cs.foldl keepMax (some v) = cs.foldl stepMax (some v) := by
  induction cs generalizing v with
  | nil => rfl
  | cons c cs ih =>
    rw [List.foldl_cons, List.foldl_cons]
    cases c with
    | none => exact ih v
    | some c =>
      simp only [keepMax, isLt, stepMax, decide_eq_true_eq, gt_iff_lt]
      split
      · exact ih c
      · exact ih v

theorem keepMin_fold (cs : List (Option Int64)) (v : Int64) :
    cs.foldl keepMin (some v) = cs.foldl stepMin (some v) := by
  induction cs generalizing v with
  | nil => rfl
  | cons c cs ih =>
    rw [List.foldl_cons, List.foldl_cons]
    cases c with
    | none => exact ih v
    | some c =>
      simp only [keepMin, isLt, stepMin, decide_eq_true_eq]
      split
      · exact ih c
      · exact ih v

theorem keepMax_none (cs : List (Option Int64)) : cs.foldl keepMax none = none := by
  induction cs with
  | nil => rfl
  | cons c cs ih => rw [List.foldl_cons]; exact ih

theorem keepMin_none (cs : List (Option Int64)) : cs.foldl keepMin none = none := by
  induction cs with
  | nil => rfl
  | cons c cs ih =>
    rw [List.foldl_cons]
    have : keepMin none c = none := by cases c <;> rfl
    rw [this]; exact ih

theorem stepMax_none (cs : List (Option Int64)) (h : ∀ c ∈ cs, c = none) :
    cs.foldl stepMax none = none := by
  induction cs with
  | nil => rfl
  | cons c cs ih =>
    rw [List.foldl_cons, h c (by simp)]
    exact ih (fun x hx => h x (by simp [hx]))

theorem stepMin_none (cs : List (Option Int64)) (h : ∀ c ∈ cs, c = none) :
    cs.foldl stepMin none = none := by
  induction cs with
  | nil => rfl
  | cons c cs ih =>
    rw [List.foldl_cons, h c (by simp)]
    exact ih (fun x hx => h x (by simp [hx]))

theorem keepMax_children (cs : List (Option Int64))
    (h : cs.head?.bind id = none → ∀ c ∈ cs, c = none) :
    cs.tail.foldl keepMax (cs.head?.bind id) = cs.tail.foldl stepMax (cs.head?.bind id) := by
  cases cs with
  | nil => rfl
  | cons c cs =>
    simp only [List.head?_cons, Option.bind_some, id, List.tail_cons] at h ⊢
    cases c with
    | some c => exact keepMax_fold cs c
    | none => rw [keepMax_none, stepMax_none cs (fun x hx => h rfl x (by simp [hx]))]

theorem keepMin_children (cs : List (Option Int64))
    (h : cs.head?.bind id = none → ∀ c ∈ cs, c = none) :
    cs.tail.foldl keepMin (cs.head?.bind id) = cs.tail.foldl stepMin (cs.head?.bind id) := by
  cases cs with
  | nil => rfl
  | cons c cs =>
    simp only [List.head?_cons, Option.bind_some, id, List.tail_cons] at h ⊢
    cases c with
    | some c => exact keepMin_fold cs c
    | none => rw [keepMin_none, stepMin_none cs (fun x hx => h rfl x (by simp [hx]))]

section
variable (getS getT : Nat → Nat → Int64) (rows cols k : Nat)

theorem K2PNode.build_children (e R C : Nat) :
    (K2PNode.build getS getT rows cols k (e + 1) R C).children =
      (List.range k).flatMap fun i => (List.range k).map fun j =>
        K2PNode.build getS getT rows cols k e (R + i * k ^ e) (C + j * k ^ e) := by
  simp [K2PNode.build, K2PNode.children]

theorem build_none_iff (get : Nat → Nat → Int64) (hk : 0 < k) (h R C : Nat) :
    ((K2Node.build get rows cols k h R C).max = none ↔ ¬ (R < rows ∧ C < cols)) ∧
    ((K2Node.build get rows cols k h R C).min = none ↔ ¬ (R < rows ∧ C < cols)) := by
  obtain ⟨h1, h2, h3⟩ := build_sem get rows cols k hk h R C
  have hpos : 0 < k ^ h := Nat.pow_pos hk
  have a1 : R < rows ∧ C < cols → (K2Node.build get rows cols k h R C).max ≠ none ∧
      (K2Node.build get rows cols k h R C).min ≠ none := by
    intro hb
    obtain ⟨mn, mx, e1, e2, -⟩ := h1 R C ⟨by omega, by omega, by omega, by omega, hb.1, hb.2⟩
    rw [e1, e2]; simp
  have a2 : ∀ r c, InBox rows cols k h R C r c → R < rows ∧ C < cols := by
    intro r c hb
    obtain ⟨b1, b2, b3, b4, b5, b6⟩ := hb
    omega
  refine ⟨⟨fun e hb => (a1 hb).1 e, fun hn => ?_⟩, ⟨fun e hb => (a1 hb).2 e, fun hn => ?_⟩⟩
  · cases hm : (K2Node.build get rows cols k h R C).max with
    | none => rfl
    | some m => obtain ⟨r, c, hb, -⟩ := h2 m hm; exact absurd (a2 r c hb) hn
  · cases hm : (K2Node.build get rows cols k h R C).min with
    | none => rfl
    | some m => obtain ⟨r, c, hb, -⟩ := h3 m hm; exact absurd (a2 r c hb) hn

theorem grid_head? {β} (k : Nat) (hk : 0 < k) (f : Nat → Nat → β) :
    ((List.range k).flatMap fun i => (List.range k).map fun j => f i j).head? = some (f 0 0) := by
  have := grid_getElem? k f 0 0 hk hk
  rw [Nat.zero_mul, Nat.zero_add] at this
  rw [List.head?_eq_getElem?]; exact this

/-- The log tree keeps the same extremes as the two snapshot trees. -/
theorem K2PNode.build_fields (hk : 0 < k) (h : Nat) : ∀ R C,
    (K2PNode.build getS getT rows cols k h R C).maxT = (K2Node.build getT rows cols k h R C).max ∧
    (K2PNode.build getS getT rows cols k h R C).minT = (K2Node.build getT rows cols k h R C).min ∧
    (K2PNode.build getS getT rows cols k h R C).maxS = (K2Node.build getS rows cols k h R C).max ∧
    (K2PNode.build getS getT rows cols k h R C).minS = (K2Node.build getS rows cols k h R C).min := by
  induction h with
  | zero =>
    intro R C
    simp [K2PNode.build, K2Node.build, K2PNode.maxT, K2PNode.minT, K2PNode.maxS, K2PNode.minS,
      K2Node.max, K2Node.min]
  | succ h ih =>
    intro R C
    have key : ∀ (get : Nat → Nat → Int64) (fld : K2PNode → Option Int64)
        (fld' : K2Node → Option Int64),
        (∀ R C, fld (K2PNode.build getS getT rows cols k h R C) =
          fld' (K2Node.build get rows cols k h R C)) →
        ((List.range k).flatMap fun i => (List.range k).map fun j =>
          K2PNode.build getS getT rows cols k h (R + i * k ^ h) (C + j * k ^ h)).map fld =
        ((List.range k).flatMap fun i => (List.range k).map fun j =>
          K2Node.build get rows cols k h (R + i * k ^ h) (C + j * k ^ h)).map fld' := by
      intro get fld fld' hf
      simp only [List.map_flatMap, List.map_map]
      congr 1; funext i
      apply List.map_congr_left
      intro j _
      exact hf _ _
    have hnone : ∀ (get : Nat → Nat → Int64) (fld' : K2Node → Option Int64),
        (∀ R C, fld' (K2Node.build get rows cols k h R C) = none ↔ ¬ (R < rows ∧ C < cols)) →
        (((List.range k).flatMap fun i => (List.range k).map fun j =>
          K2Node.build get rows cols k h (R + i * k ^ h) (C + j * k ^ h)).map fld').head?.bind id
            = none →
        ∀ c ∈ ((List.range k).flatMap fun i => (List.range k).map fun j =>
          K2Node.build get rows cols k h (R + i * k ^ h) (C + j * k ^ h)).map fld', c = none := by
      intro get fld' hf h0 c hc
      rw [List.head?_map, grid_head? k hk] at h0
      simp only [Option.map_some, Option.bind_some, id, Nat.zero_mul, Nat.add_zero] at h0
      rw [hf] at h0
      simp only [List.mem_map, List.mem_flatMap, List.mem_range] at hc
      obtain ⟨n, ⟨i, _, j, _, rfl⟩, rfl⟩ := hc
      rw [hf]
      intro hb; apply h0; omega
    have conv1 : ∀ {β} (f : β → Option Int64) (g : Option Int64 → Option Int64 → Option Int64)
        (cs : List β), cs.tail.foldl (fun m c => g m (f c)) (cs.head?.bind f) =
          (cs.map f).tail.foldl g ((cs.map f).head?.bind id) := by
      intro β f g cs
      cases cs with
      | nil => rfl
      | cons c cs => simp [List.foldl_map]
    refine ⟨?_, ?_, ?_, ?_⟩
    · have e1 : (K2PNode.build getS getT rows cols k (h + 1) R C).maxT = _ :=
        conv1 K2PNode.maxT keepMax ((List.range k).flatMap fun i => (List.range k).map fun j =>
          K2PNode.build getS getT rows cols k h (R + i * k ^ h) (C + j * k ^ h))
      have e2 : (K2Node.build getT rows cols k (h + 1) R C).max = _ :=
        conv1 K2Node.max stepMax ((List.range k).flatMap fun i => (List.range k).map fun j =>
          K2Node.build getT rows cols k h (R + i * k ^ h) (C + j * k ^ h))
      rw [e1, e2,
        key getT _ _ (fun R C => (ih R C).1)]
      exact keepMax_children _ (hnone getT _ (fun R C => (build_none_iff rows cols k getT hk h R C).1))
    · have e1 : (K2PNode.build getS getT rows cols k (h + 1) R C).minT = _ :=
        conv1 K2PNode.minT keepMin ((List.range k).flatMap fun i => (List.range k).map fun j =>
          K2PNode.build getS getT rows cols k h (R + i * k ^ h) (C + j * k ^ h))
      have e2 : (K2Node.build getT rows cols k (h + 1) R C).min = _ :=
        conv1 K2Node.min stepMin ((List.range k).flatMap fun i => (List.range k).map fun j =>
          K2Node.build getT rows cols k h (R + i * k ^ h) (C + j * k ^ h))
      rw [e1, e2,
        key getT _ _ (fun R C => (ih R C).2.1)]
      exact keepMin_children _ (hnone getT _ (fun R C => (build_none_iff rows cols k getT hk h R C).2))
    · have e1 : (K2PNode.build getS getT rows cols k (h + 1) R C).maxS = _ :=
        conv1 K2PNode.maxS keepMax ((List.range k).flatMap fun i => (List.range k).map fun j =>
          K2PNode.build getS getT rows cols k h (R + i * k ^ h) (C + j * k ^ h))
      have e2 : (K2Node.build getS rows cols k (h + 1) R C).max = _ :=
        conv1 K2Node.max stepMax ((List.range k).flatMap fun i => (List.range k).map fun j =>
          K2Node.build getS rows cols k h (R + i * k ^ h) (C + j * k ^ h))
      rw [e1, e2,
        key getS _ _ (fun R C => (ih R C).2.2.1)]
      exact keepMax_children _ (hnone getS _ (fun R C => (build_none_iff rows cols k getS hk h R C).1))
    · have e1 : (K2PNode.build getS getT rows cols k (h + 1) R C).minS = _ :=
        conv1 K2PNode.minS keepMin ((List.range k).flatMap fun i => (List.range k).map fun j =>
          K2PNode.build getS getT rows cols k h (R + i * k ^ h) (C + j * k ^ h))
      have e2 : (K2Node.build getS rows cols k (h + 1) R C).min = _ :=
        conv1 K2Node.min stepMin ((List.range k).flatMap fun i => (List.range k).map fun j =>
          K2Node.build getS rows cols k h (R + i * k ^ h) (C + j * k ^ h))
      rw [e1, e2,
        key getS _ _ (fun R C => (ih R C).2.2.2)]
      exact keepMin_children _ (hnone getS _ (fun R C => (build_none_iff rows cols k getS hk h R C).2))

/-- Difference of a cell of the square, zero outside the raster. -/
def cellDiff (r c : Nat) : Int64 :=
  if r < rows ∧ c < cols then getT r c - getS r c else 0

theorem and_fold {β} (cs : List β) (f : β → Bool) : ∀ b : Bool,
    cs.foldl (fun q c => q && f c) b = (b && cs.all f) := by
  induction cs with
  | nil => intro b; simp
  | cons c cs ih => intro b; rw [List.foldl_cons, ih, List.all_cons, Bool.and_assoc]

theorem K2PNode.build_diff (hk : 0 < k) (h : Nat) : ∀ R C,
    (K2PNode.build getS getT rows cols k h R C).diff = cellDiff getS getT rows cols R C := by
  induction h with
  | zero =>
    intro R C
    simp only [K2PNode.build, K2PNode.diff, cellDiff]
    split <;> simp
  | succ h ih =>
    intro R C
    simp only [K2PNode.build, K2PNode.diff]
    rw [grid_head? k hk]
    simp only [Nat.zero_mul, Nat.add_zero]
    exact ih R C

/-- `equal` says that the difference is the same all over the square (zero outside the raster). -/
theorem K2PNode.build_equal (hk : 0 < k) (h : Nat) : ∀ R C,
    ((K2PNode.build getS getT rows cols k h R C).equal = true ↔
      ∀ r c, R ≤ r → r < R + k ^ h → C ≤ c → c < C + k ^ h →
        cellDiff getS getT rows cols r c = cellDiff getS getT rows cols R C) := by
  induction h with
  | zero =>
    intro R C
    simp only [K2PNode.build, K2PNode.equal, true_iff]
    intro r c h1 h2 h3 h4
    have e1 : r = R := by simp at h2; omega
    have e2 : c = C := by simp at h4; omega
    rw [e1, e2]
  | succ h ih =>
    intro R C
    have hd := K2PNode.build_diff getS getT rows cols k hk h
    have hpos : 0 < k ^ h := Nat.pow_pos hk
    have hpow : k ^ (h + 1) = k * k ^ h := by rw [Nat.pow_succ, Nat.mul_comm]
    have hdiff := K2PNode.build_diff getS getT rows cols k hk (h + 1) R C
    have e0 : (K2PNode.build getS getT rows cols k (h + 1) R C).equal =
        ((List.range k).flatMap fun i => (List.range k).map fun j =>
          K2PNode.build getS getT rows cols k h (R + i * k ^ h) (C + j * k ^ h)).tail.foldl
          (fun q c => q && (c.diff == (K2PNode.build getS getT rows cols k (h + 1) R C).diff))
          (((List.range k).flatMap fun i => (List.range k).map fun j =>
          K2PNode.build getS getT rows cols k h (R + i * k ^ h) (C + j * k ^ h)).all (·.equal)) := rfl
    have e1 : (K2PNode.build getS getT rows cols k (h + 1) R C).diff =
      (match ((List.range k).flatMap fun i => (List.range k).map fun j =>
          K2PNode.build getS getT rows cols k h (R + i * k ^ h) (C + j * k ^ h)).head? with
      | some c => c.diff
      | none => 0) := rfl
    rw [e0, hdiff, and_fold, Bool.and_eq_true, List.all_eq_true, List.all_eq_true]
    have hmem : ∀ n : K2PNode, n ∈ ((List.range k).flatMap fun i => (List.range k).map fun j =>
        K2PNode.build getS getT rows cols k h (R + i * k ^ h) (C + j * k ^ h)) ↔
        ∃ i j, i < k ∧ j < k ∧
          n = K2PNode.build getS getT rows cols k h (R + i * k ^ h) (C + j * k ^ h) := by
      intro n
      simp only [List.mem_flatMap, List.mem_map, List.mem_range]
      constructor
      · rintro ⟨i, hi, j, hj, rfl⟩; exact ⟨i, j, hi, hj, rfl⟩
      · rintro ⟨i, j, hi, hj, rfl⟩; exact ⟨i, hi, j, hj, rfl⟩
    constructor
    · rintro ⟨h1, h2⟩ r c a1 a2 a3 a4
      -- the child that holds (r, c)
      have e1 := Nat.div_add_mod (r - R) (k ^ h)
      have e2 := Nat.div_add_mod (c - C) (k ^ h)
      have l1 := Nat.mod_lt (r - R) hpos
      have l2 := Nat.mod_lt (c - C) hpos
      rw [Nat.mul_comm] at e1 e2
      have hi : (r - R) / k ^ h < k := by rw [Nat.div_lt_iff_lt_mul hpos]; omega
      have hj : (c - C) / k ^ h < k := by rw [Nat.div_lt_iff_lt_mul hpos]; omega
      generalize (r - R) % k ^ h = m1 at *
      generalize (c - C) % k ^ h = m2 at *
      generalize (r - R) / k ^ h = i at *
      generalize (c - C) / k ^ h = j at *
      have g1 := h1 _ ((hmem _).2 ⟨i, j, hi, hj, rfl⟩)
      rw [ih] at g1
      rw [g1 r c (by omega) (by omega) (by omega) (by omega)]
      -- its difference is the common one
      have hsplit : ∀ n ∈ ((List.range k).flatMap fun i => (List.range k).map fun j =>
        K2PNode.build getS getT rows cols k h (R + i * k ^ h) (C + j * k ^ h)),
          n.diff = cellDiff getS getT rows cols R C := by
        intro n hn
        generalize hcs : ((List.range k).flatMap fun i => (List.range k).map fun j =>
          K2PNode.build getS getT rows cols k h (R + i * k ^ h) (C + j * k ^ h)) = cs at *
        cases cs with
        | nil => simp at hn
        | cons c0 cs =>
          rw [List.mem_cons] at hn
          cases hn with
          | inl hn => subst hn; rw [← hdiff, e1]; rfl
          | inr hn => simpa using h2 n hn
      rw [← hd]
      exact hsplit _ ((hmem _).2 ⟨i, j, hi, hj, rfl⟩)
    · intro hall
      have hchild : ∀ i j, i < k → j < k → ∀ r c, R + i * k ^ h ≤ r → r < R + i * k ^ h + k ^ h →
          C + j * k ^ h ≤ c → c < C + j * k ^ h + k ^ h →
          cellDiff getS getT rows cols r c = cellDiff getS getT rows cols R C := by
        intro i j hi hj r c a1 a2 a3 a4
        have m1 : (i + 1) * k ^ h ≤ k * k ^ h := Nat.mul_le_mul_right _ (by omega)
        have m2 : (j + 1) * k ^ h ≤ k * k ^ h := Nat.mul_le_mul_right _ (by omega)
        rw [Nat.add_mul] at m1 m2
        exact hall r c (by omega) (by omega) (by omega) (by omega)
      refine ⟨?_, ?_⟩
      · intro n hn
        obtain ⟨i, j, hi, hj, rfl⟩ := (hmem n).1 hn
        rw [ih]
        intro r c a1 a2 a3 a4
        rw [hchild i j hi hj r c a1 a2 a3 a4,
          hchild i j hi hj (R + i * k ^ h) (C + j * k ^ h) (by omega) (by omega) (by omega)
            (by omega)]
      · intro n hn
        obtain ⟨i, j, hi, hj, rfl⟩ := (hmem n).1 (List.mem_of_mem_tail hn)
        rw [hd, beq_iff_eq]
        exact hchild i j hi hj (R + i * k ^ h) (C + j * k ^ h) (by omega) (by omega) (by omega)
          (by omega)

end

/-! ### Layout -/

def K2PNode.height : K2PNode → Nat
  | .mk _ _ _ _ _ _ [] => 0
  | .mk _ _ _ _ _ _ (c :: _) => K2PNode.height c + 1

/-- Expanded node. -/
def K2PNode.internal (n : K2PNode) : Bool :=
  !n.children.isEmpty && !(decide (n.minT = n.maxT)) && !n.equal

def logKids (x : K2PNode) : List K2PNode := if x.internal then x.children else []

theorem K2PNode.height_pos (n : K2PNode) : 0 < n.height ↔ n.children.isEmpty = false := by
  cases n with
  | mk a b c d e f cs => cases cs <;> simp [K2PNode.height, K2PNode.children]

/-- Node without children in the tree that is recorded as such. -/
def logCut (x : K2PNode) : Bool := decide (0 < x.height) && !x.internal

theorem log_traverse_eq (P : K2PNode → Prop) (hP : ∀ x, P x → ∀ y ∈ logKids x, P y)
    (hun : ∀ x, P x → x.internal = true → x.minT ≠ none ∧ x.minS ≠ none) (fuel : Nat) :
    ∀ (q : List K2PNode) (nm eq : List Bool) (mx mn : List Int64), (∀ x ∈ q, P x) →
    Log.traverse fuel q nm eq mx mn =
      (bfs logKids fuel q).map fun N =>
        (nm ++ (N.filter (fun a => decide (0 < a.height))).map K2PNode.internal,
          eq ++ (N.filter logCut).map (fun a => !decide (a.minT = a.maxT)),
          mx ++ N.map (fun a => a.maxT.getD 0 - a.maxS.getD 0),
          mn ++ (N.filter K2PNode.internal).map (fun a => a.minT.getD 0 - a.minS.getD 0)) := by
  induction fuel with
  | zero =>
    intro q nm eq mx mn _
    cases q with
    | nil => simp [Log.traverse, bfs]
    | cons x q => simp [Log.traverse, bfs]
  | succ fuel ih =>
    intro q nm eq mx mn hq
    cases q with
    | nil => simp [Log.traverse, bfs]
    | cons x q =>
      have hq' : ∀ y ∈ q, P y := fun y hy => hq y (by simp [hy])
      have hx := hq x (by simp)
      unfold Log.traverse bfs
      simp only []
      by_cases hc : x.children.isEmpty = true
      · have hint : x.internal = false := by simp [K2PNode.internal, hc]
        have hk : logKids x = [] := by unfold logKids; simp [hint]
        have hh : ¬ (0 < x.height) := by rw [K2PNode.height_pos]; simp [hc]
        have hcut : logCut x = false := by unfold logCut; simp [hh]
        rw [if_pos hc, ih _ _ _ _ _ hq', hk, List.append_nil]
        simp only [Option.map_map]
        congr 1; funext N
        simp [hint, hh, hcut]
      · have hh : 0 < x.height := by rw [K2PNode.height_pos]; simpa using hc
        rw [if_neg hc]
        by_cases hu : x.minT = x.maxT
        · have hint : x.internal = false := by simp [K2PNode.internal, hu]
          have hk : logKids x = [] := by unfold logKids; simp [hint]
          have hcut : logCut x = true := by unfold logCut; simp [hh, hint]
          rw [if_pos hu, ih _ _ _ _ _ hq', hk, List.append_nil]
          simp only [Option.map_map]
          congr 1; funext N
          simp [hint, hh, hcut, hu]
        · rw [if_neg hu]
          by_cases he : x.equal = true
          · have hint : x.internal = false := by simp [K2PNode.internal, he]
            have hk : logKids x = [] := by unfold logKids; simp [hint]
            have hcut : logCut x = true := by unfold logCut; simp [hh, hint]
            rw [if_pos he, ih _ _ _ _ _ hq', hk, List.append_nil]
            simp only [Option.map_map]
            congr 1; funext N
            simp [hint, hh, hcut, hu]
          · have hint : x.internal = true := by simp [K2PNode.internal, he, hc, hu]
            have hk : logKids x = x.children := by unfold logKids; simp [hint]
            have hcut : logCut x = false := by unfold logCut; simp [hint]
            rw [if_neg he]
            obtain ⟨u1, u2⟩ := hun x hx hint
            cases h1 : x.minT with
            | none => exact absurd h1 u1
            | some mt =>
              cases h2 : x.minS with
              | none => exact absurd h2 u2
              | some ms =>
                simp only []
                rw [ih, hk]
                · simp only [Option.map_map]
                  congr 1; funext N
                  simp [hint, hh, hcut, h1, h2]
                · intro y hy
                  rw [List.mem_append] at hy
                  cases hy with
                  | inl hy => exact hq' y hy
                  | inr hy => exact hP x hx y (by rw [hk]; exact hy)

theorem K2PNode.countList_eq (cs : List K2PNode) :
    K2PNode.countList cs = (cs.map K2PNode.count).sum := by
  induction cs with
  | nil => rfl
  | cons c cs ih => simp [K2PNode.countList, ih]

theorem K2PNode.count_eq (n : K2PNode) : n.count = 1 + (n.children.map K2PNode.count).sum := by
  cases n with
  | mk a b c d e f cs => simp [K2PNode.count, K2PNode.children, K2PNode.countList_eq]

section
variable (getS getT : Nat → Nat → Int64) (rows cols k : Nat)

theorem K2PNode.build_height (hk : 0 < k) (e : Nat) : ∀ R C,
    (K2PNode.build getS getT rows cols k e R C).height = e := by
  induction e with
  | zero => intro R C; simp [K2PNode.build, K2PNode.height]
  | succ e ih =>
    intro R C
    have hc := K2PNode.build_children getS getT rows cols k e R C
    have h0 := grid_getElem? k (fun i j =>
      K2PNode.build getS getT rows cols k e (R + i * k ^ e) (C + j * k ^ e)) 0 0 hk hk
    rw [← hc] at h0
    generalize hn : K2PNode.build getS getT rows cols k (e + 1) R C = n at *
    cases n with
    | mk a b c d e' f cs =>
      cases cs with
      | nil => simp [K2PNode.children] at h0
      | cons c cs =>
        simp [K2PNode.children] at h0
        rw [K2PNode.height, h0]
        rw [ih]

def LogBuilt (x : K2PNode) : Prop := ∃ h R C, x = K2PNode.build getS getT rows cols k h R C

/-- The layout of a built log. -/
structure LogLayout (l : Log) (e : Nat) (N : List K2PNode) : Prop where
  hk : l.k = k
  hrows : l.rows = rows
  hcols : l.cols = cols
  hside : l.sidelen = k ^ e
  root : N[0]? = some (K2PNode.build getS getT rows cols k e 0 0)
  nodes : NodeLayout l.nodemap N logKids K2PNode.internal K2PNode.height (k * k)
  eq : l.equal.Repr ((N.filter logCut).map (fun a => !decide (a.minT = a.maxT)))
  max : l.max.Repr (N.map (fun a => a.maxT.getD 0 - a.maxS.getD 0))
  min : l.min.Repr ((N.filter K2PNode.internal).map (fun a => a.minT.getD 0 - a.minS.getD 0))
  order : ∃ fuel, bfs logKids fuel [K2PNode.build getS getT rows cols k e 0 0] = some N

theorem log_build_layout (hk : 0 < k) (e : Nat) :
    ∃ l N, Log.build getS getT rows cols k e = some l ∧ LogLayout getS getT rows cols k l e N := by
  unfold Log.build
  simp only []
  generalize hroot : K2PNode.build getS getT rows cols k e 0 0 = root
  have hP0 : ∀ x : K2PNode, LogBuilt getS getT rows cols k x → ∀ y ∈ logKids x,
      LogBuilt getS getT rows cols k y ∧ y.height + 1 = x.height := by
    intro x hx y hy
    obtain ⟨h, R, C, hx⟩ := hx
    unfold logKids at hy
    split at hy
    · rename_i hint
      cases h with
      | zero =>
        rw [hx] at hint; simp [K2PNode.internal, K2PNode.build, K2PNode.children] at hint
      | succ h =>
        rw [hx, K2PNode.build_children] at hy
        simp only [List.mem_flatMap, List.mem_map, List.mem_range] at hy
        obtain ⟨i, _, j, _, rfl⟩ := hy
        refine ⟨⟨_, _, _, rfl⟩, ?_⟩
        rw [hx, K2PNode.build_height _ _ _ _ _ hk, K2PNode.build_height _ _ _ _ _ hk]
    · simp at hy
  have hlen : ∀ x : K2PNode, LogBuilt getS getT rows cols k x →
      (logKids x).length = if x.internal then k * k else 0 := by
    intro x hx
    obtain ⟨h, R, C, hx⟩ := hx
    unfold logKids
    split
    · rename_i hint
      cases h with
      | zero =>
        rw [hx] at hint; simp [K2PNode.internal, K2PNode.build, K2PNode.children] at hint
      | succ h => rw [hx, K2PNode.build_children, grid_length]
    · rfl
  have hint : ∀ x : K2PNode, LogBuilt getS getT rows cols k x → x.internal = true →
      0 < x.height := by
    intro x _ hx
    rw [K2PNode.height_pos]
    unfold K2PNode.internal at hx
    simp at hx; simpa using hx.1.1
  have hun : ∀ x, LogBuilt getS getT rows cols k x → x.internal = true →
      x.minT ≠ none ∧ x.minS ≠ none := by
    rintro x ⟨h, R, C, rfl⟩ hx
    obtain ⟨f1, f2, f3, f4⟩ := K2PNode.build_fields getS getT rows cols k hk h R C
    have n1 := build_none_iff rows cols k getT hk h R C
    have n2 := build_none_iff rows cols k getS hk h R C
    unfold K2PNode.internal at hx
    simp only [Bool.and_eq_true, Bool.not_eq_true', decide_eq_false_iff_not] at hx
    have hne := hx.1.2
    rw [f1, f2] at hne
    rw [f2, f4]
    by_cases hb : R < rows ∧ C < cols
    · exact ⟨fun hh => n1.2.1 hh hb, fun hh => n2.2.1 hh hb⟩
    · rw [n1.1.2 hb, n1.2.2 hb] at hne; simp at hne
  obtain ⟨N, hN⟩ := bfs_total logKids (fun x => x.count) (fun _ => True)
    (fun _ _ _ _ => trivial) (by
      intro x _
      rw [K2PNode.count_eq x]
      unfold logKids
      split
      · exact Nat.le_refl _
      · simp) root.count [root] (by simp) (by simp)
  rw [log_traverse_eq (LogBuilt getS getT rows cols k) (fun x hx y hy => (hP0 x hx y hy).1) hun _ _
    _ _ _ _ (by intro x hx; simp at hx; subst hx; exact ⟨e, 0, 0, hroot.symm⟩), hN]
  simp only [Option.map_some, List.nil_append]
  obtain ⟨nm, hnm1, hnm2⟩ := ofBits_repr
    ((N.filter (fun a : K2PNode => decide (0 < a.height))).map K2PNode.internal)
  obtain ⟨eq, heq1, heq2⟩ := ofBits_repr
    ((N.filter logCut).map (fun a : K2PNode => !decide (a.minT = a.maxT)))
  obtain ⟨mx, hmx1, hmx2⟩ := dac_ofList_repr (N.map (fun a : K2PNode => a.maxT.getD 0 - a.maxS.getD 0))
  obtain ⟨mn, hmn1, hmn2⟩ := dac_ofList_repr
    ((N.filter K2PNode.internal).map (fun a : K2PNode => a.minT.getD 0 - a.minS.getD 0))
  rw [hnm1, heq1, hmx1, hmn1]
  refine ⟨_, N, rfl, ?_⟩
  refine ⟨rfl, rfl, rfl, rfl, ?_, ?_, heq2, hmx2, hmn2, _, by rw [hroot]; exact hN⟩
  · have := bfs_fix _ _ _ _ hN
    rw [hroot, this]; rfl
  · exact bfs_layout logKids K2PNode.internal K2PNode.height (k * k)
      (LogBuilt getS getT rows cols k) hP0 hlen hint _ ⟨e, 0, 0, hroot.symm⟩ _ N hN nm hnm2

end
end Verif
