import Verif.Lemmas.Pruned

/-! The bytes of snapshots and logs, exactly. -/
namespace Verif

namespace Spec

/-- The values of the cells of the raster in a square. -/
def within (get : Nat → Nat → Int64) (rows cols side R C : Nat) : List Int64 :=
  (List.range' R side).flatMap fun r => (List.range' C side).filterMap fun c =>
    if r < rows ∧ c < cols then some (get r c) else none

/-- The greatest value of a square, 0 if no cell of the raster is in it. -/
def greatest (get : Nat → Nat → Int64) (rows cols side R C : Nat) : Int64 :=
  (within get rows cols side R C).max?.getD 0

/-- The least value of a square, 0 if no cell of the raster is in it. -/
def least (get : Nat → Nat → Int64) (rows cols side R C : Nat) : Int64 :=
  (within get rows cols side R C).min?.getD 0

end Spec

theorem mem_within {get : Nat → Nat → Int64} {rows cols side R C : Nat} {v : Int64} :
    v ∈ Spec.within get rows cols side R C ↔ ∃ r c, (R ≤ r ∧ r < R + side ∧ C ≤ c ∧ c < C + side ∧ r < rows ∧
      c < cols) ∧ get r c = v := by
  unfold Spec.within
  simp only [List.mem_flatMap, List.mem_range'_1, List.mem_filterMap, Option.ite_none_right_eq_some,
    Option.some.injEq]
  constructor
  · rintro ⟨r, h1, c, h2, h3, h4⟩
    exact ⟨r, c, ⟨h1.1, h1.2, h2.1, h2.2, h3.1, h3.2⟩, h4⟩
  · rintro ⟨r, c, ⟨h1, h2, h3, h4, h5, h6⟩, h7⟩
    exact ⟨r, ⟨h1, h2⟩, c, ⟨h3, h4⟩, ⟨h5, h6⟩, h7⟩

theorem i64_max (a b : Int64) : max a b = if a ≤ b then b else a := rfl

theorem i64_max?_getD {xs : List Int64} {m : Int64} (h1 : m ∈ xs) (h2 : ∀ x ∈ xs, x ≤ m) : xs.max?.getD 0 = m := by
  have key : ∀ (ys : List Int64) (a : Int64), (∀ x ∈ ys, x ≤ m) → a ≤ m → (a = m ∨ m ∈ ys) → ys.foldl max a = m := by
    intro ys
    induction ys with
    | nil => intro a _ _ h; simpa using h
    | cons y ys ih =>
      intro a h1 h2 h3
      have hy := h1 y (by simp)
      rw [List.foldl_cons, i64_max]
      refine ih _ (fun x hx => h1 x (by simp [hx])) ?_ ?_
      · split <;> assumption
      · rcases h3 with h3 | h3
        · subst h3
          left
          split
          · rename_i h; exact Int64.le_antisymm hy h
          · rfl
        · rcases List.mem_cons.1 h3 with h4 | h4
          · subst h4
            left
            rw [if_pos h2]
          · exact .inr h4
  cases xs with
  | nil => simp at h1
  | cons x xs =>
    rw [List.max?_cons', Option.getD_some]
    refine key xs x (fun y hy => h2 y (by simp [hy])) (h2 x (by simp)) ?_
    rcases List.mem_cons.1 h1 with h | h
    · exact .inl h.symm
    · exact .inr h

section
variable (get : Nat → Nat → Int64) (rows cols k : Nat)

theorem build_greatest (hk : 0 < k) (h R C : Nat) :
    (K2Node.build get rows cols k h R C).max.getD 0 = Spec.greatest get rows cols (k ^ h) R C := by
  have sem := build_sem get rows cols k hk h R C
  unfold Spec.greatest
  cases hm : (K2Node.build get rows cols k h R C).max with
  | none =>
    have : Spec.within get rows cols (k ^ h) R C = [] := List.eq_nil_iff_forall_not_mem.2 fun v hv => by
      obtain ⟨r, c, hb, -⟩ := mem_within.1 hv
      obtain ⟨_, _, h1, _⟩ := sem.1 r c hb
      rw [hm] at h1; simp at h1
    rw [this]; rfl
  | some m =>
    obtain ⟨r, c, hb, hv⟩ := sem.2.1 m hm
    refine (i64_max?_getD (mem_within.2 ⟨r, c, hb, hv⟩) fun x hx => ?_).symm
    obtain ⟨r', c', hb', hv'⟩ := mem_within.1 hx
    obtain ⟨_, _, h1, _, _, h3⟩ := sem.1 r' c' hb'
    rw [hm, Option.some.injEq] at h1
    rw [← hv', h1]; exact h3

theorem build_least (hk : 0 < k) (h R C : Nat) :
    (K2Node.build get rows cols k h R C).min.getD 0 = Spec.least get rows cols (k ^ h) R C := by
  have sem := build_sem get rows cols k hk h R C
  unfold Spec.least
  cases hm : (K2Node.build get rows cols k h R C).min with
  | none =>
    have : Spec.within get rows cols (k ^ h) R C = [] := List.eq_nil_iff_forall_not_mem.2 fun v hv => by
      obtain ⟨r, c, hb, -⟩ := mem_within.1 hv
      obtain ⟨_, _, _, h1, _⟩ := sem.1 r c hb
      rw [hm] at h1; simp at h1
    rw [this]; rfl
  | some m =>
    obtain ⟨r, c, hb, hv⟩ := sem.2.2 m hm
    have : (Spec.within get rows cols (k ^ h) R C).min? = some m :=
      List.min?_eq_some_iff.2 ⟨mem_within.2 ⟨r, c, hb, hv⟩, fun x hx => by
        obtain ⟨r', c', hb', hv'⟩ := mem_within.1 hx
        obtain ⟨_, _, _, h1, h3, _⟩ := sem.1 r' c' hb'
        rw [hm, Option.some.injEq] at h1
        rw [← hv', h1]; exact h3⟩
    rw [this]

end

/-! ### Sizes do not depend on the order -/

theorem reach_perm {xs ys : List Int64} (h : xs.Perm ys) (i : Nat) : Spec.reach xs i = Spec.reach ys i := by
  unfold Spec.reach
  rw [h.length_eq, h.countP_eq]

theorem dacBytes_perm {xs ys : List Int64} (h : xs.Perm ys) : Spec.dacBytes xs = Spec.dacBytes ys := by
  unfold Spec.dacBytes
  simp only [reach_perm h]

theorem forall₂_map_eq {α β γ : Type _} {R : α → β → Prop} {f : α → γ} {g : β → γ} (hfg : ∀ x y, R x y → f x = g y)
    {l : List α} {m : List β} (h : List.Forall₂ R l m) : l.map f = m.map g := by
  induction h with
  | nil => rfl
  | cons h1 _ ih => simp only [List.map_cons, ih, hfg _ _ h1]

theorem forall₂_filter {α β : Type _} {R : α → β → Prop} {p : α → Bool} {q : β → Bool}
    (hpq : ∀ x y, R x y → p x = q y) {l : List α} {m : List β} (h : List.Forall₂ R l m) :
    List.Forall₂ R (l.filter p) (m.filter q) := by
  induction h with
  | nil => exact .nil
  | @cons x y l m h1 _ ih =>
    simp only [List.filter_cons, hpq _ _ h1]
    cases q y with
    | true => exact .cons h1 ih
    | false => exact ih

/-! ### Snapshots -/

namespace Spec

/-- The square of side `k ^ h` that the square at `(R, C)` is in. -/
def around (k h R C : Nat) : Nat × Nat := (R / k ^ h * k ^ h, C / k ^ h * k ^ h)

/-- What a snapshot stores of the greatest values: of the whole square as it is, of others by how much it is below
that of the square around it. -/
def maxStored (get : Nat → Nat → Int64) (rows cols k e : Nat) (x : Nat × Nat × Nat) : Int64 :=
  if x.1 = e then greatest get rows cols (k ^ e) 0 0
  else greatest get rows cols (k ^ (x.1 + 1)) (around k (x.1 + 1) x.2.1 x.2.2).1 (around k (x.1 + 1) x.2.1 x.2.2).2 -
    greatest get rows cols (k ^ x.1) x.2.1 x.2.2

/-- What a snapshot stores of the least values: by how much it is above that of the square around it. -/
def minStored (get : Nat → Nat → Int64) (rows cols k e : Nat) (x : Nat × Nat × Nat) : Int64 :=
  if x.1 = e then least get rows cols (k ^ e) 0 0
  else least get rows cols (k ^ x.1) x.2.1 x.2.2 -
    least get rows cols (k ^ (x.1 + 1)) (around k (x.1 + 1) x.2.1 x.2.2).1 (around k (x.1 + 1) x.2.1 x.2.2).2

end Spec

section
variable (get : Nat → Nat → Int64) (rows cols k : Nat)

/-- An entry of the queue is that of a square, and holds what is stored for it. -/
structure SnapHolds (e : Nat) (x : SnapEntry) (y : Nat × Nat × Nat) : Prop where
  node : SnapAt get rows cols k x y
  le : y.1 ≤ e
  row : k ^ y.1 ∣ y.2.1
  col : k ^ y.1 ∣ y.2.2
  max : x.1 = Spec.maxStored get rows cols k e y
  min : x.2.1 = Spec.minStored get rows cols k e y

theorem above_child {k e R i : Nat} (hk : 0 < k) (hR : k ^ (e + 1) ∣ R) (hi : i < k) :
    (R + i * k ^ e) / k ^ (e + 1) * k ^ (e + 1) = R := by
  obtain ⟨a, rfl⟩ := hR
  have hp : 0 < k ^ e := Nat.pow_pos hk
  have h1 : i * k ^ e < k ^ (e + 1) := by
    rw [Nat.pow_succ, Nat.mul_comm]; exact Nat.mul_lt_mul_of_pos_left hi hp
  rw [Nat.mul_add_div (Nat.pow_pos hk), Nat.div_eq_of_lt h1, Nat.add_zero, Nat.mul_comm]

theorem grid_forall₂' {α β : Type _} {R : α → β → Prop} (f : Nat → Nat → α) (g : Nat → Nat → β)
    (h : ∀ i j, i < k → j < k → R (f i j) (g i j)) :
    List.Forall₂ R ((List.range k).flatMap fun i => (List.range k).map fun j => f i j)
      ((List.range k).flatMap fun i => (List.range k).map fun j => g i j) := by
  have self : ∀ l : List Nat, (∀ i ∈ l, i < k) → List.Forall₂ (fun i j => i = j ∧ i < k) l l := by
    intro l
    induction l with
    | nil => intro _; exact .nil
    | cons a l ih => intro h; exact .cons ⟨rfl, h a (by simp)⟩ (ih fun i hi => h i (by simp [hi]))
  have hr := self (List.range k) fun i hi => List.mem_range.1 hi
  refine List.rel_flatMap hr ?_
  rintro i _ ⟨rfl, hi⟩
  refine List.rel_map ?_ hr
  rintro j _ ⟨rfl, hj⟩
  exact h i j hi hj

theorem snapHolds_kids (hk : 0 < k) (e : Nat) (x : SnapEntry) (y : Nat × Nat × Nat)
    (h : SnapHolds get rows cols k e x y) :
    List.Forall₂ (SnapHolds get rows cols k e) (snapKids x) (squareKids (snapSplit get rows cols) k y) := by
  obtain ⟨h', R, C⟩ := y
  obtain ⟨hn, hle, hrow, hcol, -, -⟩ := h
  have hx : x.2.2 = K2Node.build get rows cols k h' R C := hn
  have hi := K2Node.internal_iff get rows cols k hk h' R C
  unfold snapKids
  rw [hx]
  cases h' with
  | zero =>
    have : (K2Node.build get rows cols k 0 R C).internal = false := by
      by_contra hc
      have := (hi.1 (by simpa using hc)).1
      omega
    rw [this]; exact .nil
  | succ h' =>
    simp only [squareKids]
    simp only at hle hrow hcol
    by_cases hs : snapSplit get rows cols (k ^ (h' + 1)) R C
    · rw [if_pos (hi.2 ⟨by omega, hs⟩), if_pos hs]
      unfold K2Node.childEntries
      rw [K2Node.build_children]
      simp only [List.map_flatMap, List.map_map]
      apply grid_forall₂' k (R := SnapHolds get rows cols k e)
      intro i j hi hj
      have hd : k ^ h' ∣ k ^ (h' + 1) := Nat.pow_dvd_pow k (by omega)
      refine ⟨rfl, by simp only; omega, Nat.dvd_add (Nat.dvd_trans hd hrow) (Nat.dvd_mul_left _ _),
        Nat.dvd_add (Nat.dvd_trans hd hcol) (Nat.dvd_mul_left _ _), ?_, ?_⟩
      · simp only [Function.comp, Spec.maxStored, Spec.around]
        rw [if_neg (by omega), above_child hk hrow hi, above_child hk hcol hj, build_greatest _ _ _ _ hk,
          build_greatest _ _ _ _ hk]
      · simp only [Function.comp, Spec.minStored, Spec.around]
        rw [if_neg (by omega), above_child hk hrow hi, above_child hk hcol hj, build_least _ _ _ _ hk,
          build_least _ _ _ _ hk]
    · rw [if_neg (fun hh => hs (hi.1 hh).2), if_neg hs]
      exact .nil

open Classical in
/-- What is in the containers of a snapshot, in some order. -/
theorem SnapLayout.stored (hk : 0 < k) {s : Snapshot} {e : Nat} {N : List SnapEntry}
    (h : SnapLayout get rows cols k s e N) :
    (N.map (·.1)).Perm ((Spec.squares (snapSplit get rows cols) k e 0 0).map (Spec.maxStored get rows cols k e)) ∧
    ((N.filter snapInt).map (·.2.1)).Perm (((Spec.squares (snapSplit get rows cols) k e 0 0).filter fun x =>
      decide (0 < x.1 ∧ snapSplit get rows cols (k ^ x.1) x.2.1 x.2.2)).map (Spec.minStored get rows cols k e)) := by
  obtain ⟨fuel, ho⟩ := h.order
  obtain ⟨N', h1, h2⟩ := bfs_squares (snapSplit get rows cols) k snapKids (SnapHolds get rows cols k e)
    (snapHolds_kids get rows cols k hk e) _ e ⟨by exact rfl, Nat.le_refl _, Nat.dvd_zero _, Nat.dvd_zero _, by
      simp only [Spec.maxStored, if_true]; exact build_greatest _ _ _ _ hk e 0 0, by
      simp only [Spec.minStored, if_true]; exact build_least _ _ _ _ hk e 0 0⟩ _ _ ho
  constructor
  · rw [forall₂_map_eq (fun x y hxy => hxy.max) h1]
    exact h2.map _
  · rw [forall₂_map_eq (g := Spec.minStored get rows cols k e) (fun x y hxy => hxy.min)
      (forall₂_filter (q := fun x => decide (0 < x.1 ∧ snapSplit get rows cols (k ^ x.1) x.2.1 x.2.2))
        (fun x y hxy => by
          rw [Bool.eq_iff_iff, snapAt_int get rows cols k hk x y hxy.node]
          simp only [decide_eq_true_eq]) h1)]
    exact (h2.filter _).map _

end

/-! ### Logs -/

section
variable (getS getT : Nat → Nat → Int64) (rows cols k : Nat)

open Classical in
theorem LogLayout.stored (hk : 0 < k) {l : Log} {e : Nat} {N : List K2PNode}
    (h : LogLayout getS getT rows cols k l e N) :
    (N.map fun a => a.maxT.getD 0 - a.maxS.getD 0).Perm
      ((Spec.squares (logSplit getS getT rows cols) k e 0 0).map fun x =>
        Spec.greatest getT rows cols (k ^ x.1) x.2.1 x.2.2 - Spec.greatest getS rows cols (k ^ x.1) x.2.1 x.2.2) ∧
    ((N.filter K2PNode.internal).map fun a => a.minT.getD 0 - a.minS.getD 0).Perm
      (((Spec.squares (logSplit getS getT rows cols) k e 0 0).filter fun x =>
        decide (0 < x.1 ∧ logSplit getS getT rows cols (k ^ x.1) x.2.1 x.2.2)).map fun x =>
        Spec.least getT rows cols (k ^ x.1) x.2.1 x.2.2 - Spec.least getS rows cols (k ^ x.1) x.2.1 x.2.2) := by
  obtain ⟨fuel, ho⟩ := h.order
  obtain ⟨N', h1, h2⟩ := bfs_squares (logSplit getS getT rows cols) k logKids
    (LogAt getS getT rows cols k) (logAt_kids getS getT rows cols k hk) _ e (by exact rfl) _ _ ho
  constructor
  · rw [forall₂_map_eq (g := fun x => Spec.greatest getT rows cols (k ^ x.1) x.2.1 x.2.2 -
      Spec.greatest getS rows cols (k ^ x.1) x.2.1 x.2.2) (fun x y hxy => by
        obtain ⟨f1, f2, f3, f4⟩ := K2PNode.build_fields getS getT rows cols k hk y.1 y.2.1 y.2.2
        rw [show x = _ from hxy, f1, f3, build_greatest _ _ _ _ hk, build_greatest _ _ _ _ hk]) h1]
    exact h2.map _
  · rw [forall₂_map_eq (g := fun x => Spec.least getT rows cols (k ^ x.1) x.2.1 x.2.2 -
      Spec.least getS rows cols (k ^ x.1) x.2.1 x.2.2) (fun x y hxy => by
        obtain ⟨f1, f2, f3, f4⟩ := K2PNode.build_fields getS getT rows cols k hk y.1 y.2.1 y.2.2
        rw [show x = _ from hxy, f2, f4, build_least _ _ _ _ hk, build_least _ _ _ _ hk])
      (forall₂_filter (q := fun x => decide (0 < x.1 ∧ logSplit getS getT rows cols (k ^ x.1) x.2.1 x.2.2))
        (fun x y hxy => by
          rw [show x = _ from hxy, Bool.eq_iff_iff, K2PNode.internal_iff getS getT rows cols k hk]
          simp only [decide_eq_true_eq]) h1)]
    exact (h2.filter _).map _

end

end Verif
