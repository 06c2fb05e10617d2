import Verif.Model.Checked
import Verif.Lemmas.BuildCongr
import Verif.Lemmas.LogUnsafe
import Verif.Lemmas.ChunkRead

/-! Builders with overflow checks: what it means that they succeed. -/
namespace Verif

/-! ### Arithmetic -/

theorem fits_toInt (a : Int64) : InI64 a.toInt := by
  have h1 := a.toInt_lt
  have h2 := a.le_toInt
  unfold InI64
  omega

theorem ckSub_of {a b : Int64} (h : InI64 (a.toInt - b.toInt)) : ckSub a b = some (a - b) := if_pos h

theorem ckAdd_of {a b : Int64} (h : InI64 (a.toInt + b.toInt)) : ckAdd a b = some (a + b) := if_pos h

theorem ckSub_some {a b c : Int64} (h : ckSub a b = some c) :
    InI64 (a.toInt - b.toInt) ∧ c = a - b := by
  unfold ckSub at h
  split at h
  · rename_i hf; cases h; exact ⟨hf, rfl⟩
  · cases h

theorem InI64.sub {a b : Int64} (h : InI64 (a.toInt - b.toInt)) :
    (a - b).toInt = a.toInt - b.toInt := by
  unfold InI64 at h
  exact toInt_sub_small (by omega) (by omega)

theorem InI64.add {a b : Int64} (h : InI64 (a.toInt + b.toInt)) :
    (a + b).toInt = a.toInt + b.toInt := by
  unfold InI64 at h
  exact toInt_add_small (by omega) (by omega)

theorem collect_filter {α β : Type} {f : α → Option (List β)} {P : α → Prop} {h : α → β}
    (h1 : ∀ x L, f x = some L → P x ∧ L = [h x]) : ∀ (xs : List α) (L : List β),
    collect xs f = some L → (∀ x ∈ xs, P x) ∧ L = xs.map h
  | [], L, e => by cases e; exact ⟨by simp, rfl⟩
  | x :: xs, L, e => by
    unfold collect at e
    cases ea : f x with
    | none => rw [ea] at e; cases e
    | some a =>
      rw [ea] at e
      cases eb : collect xs f with
      | none => rw [eb] at e; cases e
      | some b =>
        rw [eb] at e
        cases e
        obtain ⟨p1, rfl⟩ := h1 x a ea
        obtain ⟨p2, rfl⟩ := collect_filter h1 xs b eb
        exact ⟨by simp only [List.forall_mem_cons]; exact ⟨p1, p2⟩, rfl⟩

theorem collect_singles {α β : Type} {f : α → Option (List β)} {h : α → β} : ∀ (xs : List α),
    (∀ x ∈ xs, f x = some [h x]) → collect xs f = some (xs.map h)
  | [], _ => rfl
  | x :: xs, e => by
    unfold collect
    rw [e x (by simp), collect_singles xs fun y hy => e y (by simp [hy])]
    rfl

theorem collect_lists {α β : Type} {f : α → Option (List β)} {h : α → List β} : ∀ (xs : List α),
    (∀ x ∈ xs, f x = some (h x)) → collect xs f = some (xs.flatMap h)
  | [], _ => rfl
  | x :: xs, e => by
    unfold collect
    rw [e x (by simp), collect_lists xs fun y hy => e y (by simp [hy])]
    rfl

theorem collect_parts {α β : Type} {f : α → Option (List β)} {h : α → List β} {P : α → Prop}
    (xs : List α) (h1 : ∀ x ∈ xs, ∀ L, f x = some L → P x ∧ L = h x) (L : List β)
    (e : collect xs f = some L) : (∀ x ∈ xs, P x) ∧ L = xs.flatMap h := by
  induction xs generalizing L with
  | nil => cases e; exact ⟨by simp, rfl⟩
  | cons x xs ih =>
    unfold collect at e
    cases ea : f x with
    | none => rw [ea] at e; cases e
    | some a =>
      rw [ea] at e
      cases eb : collect xs f with
      | none => rw [eb] at e; cases e
      | some b =>
        rw [eb] at e
        cases e
        obtain ⟨p1, rfl⟩ := h1 x (by simp) a ea
        obtain ⟨p2, rfl⟩ := ih (fun y hy => h1 y (by simp [hy])) b eb
        exact ⟨by simp only [List.forall_mem_cons]; exact ⟨p1, p2⟩, rfl⟩

/-! ### Snapshots -/

/-- The differences between a node and its children fit. -/
def SnapFits (n : K2Node) : Prop :=
  ∀ d ∈ n.children, InI64 ((n.max.getD 0).toInt - (d.max.getD 0).toInt) ∧
    InI64 ((d.min.getD 0).toInt - (n.min.getD 0).toInt)

theorem childEntriesC_some {n : K2Node} {E : List SnapEntry} (h : n.childEntriesC = some E) :
    SnapFits n ∧ E = n.childEntries := by
  refine collect_filter (h := fun d =>
    ((n.max.getD 0 - d.max.getD 0, d.min.getD 0 - n.min.getD 0, d) : SnapEntry)) ?_ _ _ h
  intro d L e
  cases e1 : ckSub (n.max.getD 0) (d.max.getD 0) with
  | none => rw [e1] at e; simp at e
  | some a =>
    cases e2 : ckSub (d.min.getD 0) (n.min.getD 0) with
    | none => rw [e1, e2] at e; simp at e
    | some b =>
      rw [e1, e2] at e
      cases e
      obtain ⟨f1, rfl⟩ := ckSub_some e1
      obtain ⟨f2, rfl⟩ := ckSub_some e2
      exact ⟨⟨f1, f2⟩, rfl⟩

theorem childEntriesC_of {n : K2Node} (h : SnapFits n) : n.childEntriesC = some n.childEntries := by
  refine collect_singles _ fun d hd => ?_
  rw [ckSub_of (h d hd).1, ckSub_of (h d hd).2]

theorem snapInt_iff (a b : Int64) (n : K2Node) : snapInt (a, b, n) = true ↔
    n.children.isEmpty = false ∧ (n.min.getD 0 == n.max.getD 0) = false := by
  unfold snapInt K2Node.internal
  simp

theorem snapKids_of (a b : Int64) (n : K2Node) :
    snapKids (a, b, n) = if n.children.isEmpty = false ∧ (n.min.getD 0 == n.max.getD 0) = false
      then n.childEntries else [] := by
  unfold snapKids
  have := snapInt_iff a b n
  unfold snapInt at this
  by_cases h : n.children.isEmpty = false ∧ (n.min.getD 0 == n.max.getD 0) = false
  · rw [if_pos h, if_pos (this.2 h)]
  · rw [if_neg h, if_neg (fun hh => h (this.1 hh))]

theorem traverseC_some (fuel : Nat) : ∀ (q : List SnapEntry) (nm : List Bool) (mx mn : List Int64) r,
    Snapshot.traverseC fuel q nm mx mn = some r →
    Snapshot.traverse fuel q nm mx mn = some r ∧
      ∀ N, bfs snapKids fuel q = some N → ∀ x ∈ N, snapInt x = true → SnapFits x.2.2 := by
  induction fuel with
  | zero =>
    intro q nm mx mn r h
    cases q with
    | nil => exact ⟨h, fun N hN => by simp [bfs] at hN; subst hN; simp⟩
    | cons x q => simp [Snapshot.traverseC] at h
  | succ fuel ih =>
    intro q nm mx mn r h
    cases q with
    | nil => exact ⟨h, fun N hN => by simp [bfs] at hN; subst hN; simp⟩
    | cons x q =>
      obtain ⟨a, b, n⟩ := x
      unfold Snapshot.traverseC at h
      unfold Snapshot.traverse
      simp only at h ⊢
      have hk := snapKids_of a b n
      have fin : ∀ (q' : List SnapEntry), q' = q ++ snapKids (a, b, n) →
          (∀ N, bfs snapKids fuel q' = some N → ∀ x ∈ N, snapInt x = true → SnapFits x.2.2) →
          (snapInt (a, b, n) = true → SnapFits n) →
          ∀ N, bfs snapKids (fuel + 1) ((a, b, n) :: q) = some N → ∀ x ∈ N, snapInt x = true →
            SnapFits x.2.2 := by
        rintro q' rfl hq hn N hN x hx hi
        simp only [bfs, Option.map_eq_some_iff] at hN
        obtain ⟨M, hM, rfl⟩ := hN
        rcases List.mem_cons.1 hx with rfl | hx
        · exact hn hi
        · exact hq M hM x hx hi
      by_cases hc : n.children.isEmpty = true
      · rw [if_pos hc] at h ⊢
        obtain ⟨i1, i2⟩ := ih _ _ _ _ _ h
        refine ⟨i1, fin q ?_ i2 fun hi => ?_⟩
        · rw [hk, if_neg (by simp [hc]), List.append_nil]
        · rw [snapInt_iff, hc] at hi; simp at hi
      · rw [if_neg hc] at h ⊢
        by_cases he : (n.min.getD 0 == n.max.getD 0) = true
        · rw [if_pos he] at h ⊢
          obtain ⟨i1, i2⟩ := ih _ _ _ _ _ h
          refine ⟨i1, fin q ?_ i2 fun hi => ?_⟩
          · rw [hk, if_neg (by simp only [he]; simp), List.append_nil]
          · rw [snapInt_iff, he] at hi; simp at hi
        · rw [if_neg he] at h ⊢
          cases hE : n.childEntriesC with
          | none => rw [hE] at h; cases h
          | some E =>
            rw [hE] at h
            obtain ⟨hf, rfl⟩ := childEntriesC_some hE
            obtain ⟨i1, i2⟩ := ih _ _ _ _ _ h
            refine ⟨i1, fin _ ?_ i2 fun _ => hf⟩
            rw [hk, if_pos ⟨Bool.eq_false_iff.2 hc, Bool.eq_false_iff.2 he⟩]

theorem traverseC_of (fuel : Nat) : ∀ (q : List SnapEntry) (nm : List Bool) (mx mn : List Int64) N,
    bfs snapKids fuel q = some N → (∀ x ∈ N, snapInt x = true → SnapFits x.2.2) →
    Snapshot.traverseC fuel q nm mx mn = Snapshot.traverse fuel q nm mx mn := by
  induction fuel with
  | zero =>
    intro q nm mx mn N hN _
    cases q with
    | nil => rfl
    | cons x q => rfl
  | succ fuel ih =>
    intro q nm mx mn N hN hf
    cases q with
    | nil => rfl
    | cons x q =>
      obtain ⟨a, b, n⟩ := x
      simp only [bfs, Option.map_eq_some_iff] at hN
      obtain ⟨M, hM, rfl⟩ := hN
      have hf' : ∀ x ∈ M, snapInt x = true → SnapFits x.2.2 := fun x hx => hf x (by simp [hx])
      unfold Snapshot.traverseC Snapshot.traverse
      simp only
      have hk := snapKids_of a b n
      by_cases hc : n.children.isEmpty = true
      · rw [hk, if_neg (by simp [hc]), List.append_nil] at hM
        rw [if_pos hc, if_pos hc]
        exact ih _ _ _ _ _ hM hf'
      · rw [if_neg hc, if_neg hc]
        by_cases he : (n.min.getD 0 == n.max.getD 0) = true
        · rw [hk, if_neg (by simp only [he]; simp), List.append_nil] at hM
          rw [if_pos he, if_pos he]
          exact ih _ _ _ _ _ hM hf'
        · have hi : n.children.isEmpty = false ∧ (n.min.getD 0 == n.max.getD 0) = false :=
            ⟨Bool.eq_false_iff.2 hc, Bool.eq_false_iff.2 he⟩
          rw [hk, if_pos hi] at hM
          rw [if_neg he, if_neg he, childEntriesC_of (hf _ (by simp) ((snapInt_iff a b n).2 hi))]
          exact ih _ _ _ _ _ hM hf'

section
variable (get : Nat → Nat → Int64) (rows cols k : Nat)

/-- All differences recorded in a snapshot fit. -/
def SnapSafe (N : List SnapEntry) : Prop := ∀ x ∈ N, snapInt x = true → SnapFits x.2.2

theorem snap_order (e : Nat) : ∃ N,
    bfs snapKids (K2Node.build get rows cols k e 0 0).count
      [((K2Node.build get rows cols k e 0 0).max.getD 0,
        (K2Node.build get rows cols k e 0 0).min.getD 0, K2Node.build get rows cols k e 0 0)] = some N := by
  refine bfs_total snapKids (fun x => x.2.2.count) (fun _ => True)
    (fun _ _ _ _ => trivial) ?_ _ _ (by simp) (by simp)
  intro x _
  rw [K2Node.count_eq x.2.2]
  unfold snapKids
  split
  · unfold K2Node.childEntries; rw [List.map_map]; exact Nat.le_refl _
  · simp

theorem bfs_more {α : Type} (kids : α → List α) : ∀ (n : Nat) (q N : List α), bfs kids n q = some N → ∀ m,
    bfs kids (n + m) q = some N := by
  intro n
  induction n with
  | zero =>
    intro q N h m
    cases q with
    | nil => simp [bfs] at h; subst h; cases m <;> simp [bfs]
    | cons x q => simp [bfs] at h
  | succ n ih =>
    intro q N h m
    cases q with
    | nil => simp [bfs] at h; subst h; rw [Nat.succ_add]; simp [bfs]
    | cons x q =>
      simp only [bfs, Option.map_eq_some_iff] at h
      obtain ⟨M, hM, rfl⟩ := h
      rw [Nat.succ_add]
      simp only [bfs, ih _ _ hM m, Option.map_some]

theorem bfs_unique {α : Type} (kids : α → List α) {n m : Nat} {q N M : List α} (h1 : bfs kids n q = some N)
    (h2 : bfs kids m q = some M) : N = M := by
  have e1 := bfs_more kids _ _ _ h1 m
  have e2 := bfs_more kids _ _ _ h2 n
  rw [Nat.add_comm, e2] at e1
  cases e1; rfl

variable {get rows cols k}

theorem snapshot_buildC_some {e : Nat} {s : Snapshot}
    (h : Snapshot.buildC get rows cols k e = some s) :
    Snapshot.build get rows cols k e = some s ∧
      ∀ N, SnapLayout get rows cols k s e N → SnapSafe N := by
  unfold Snapshot.buildC at h
  unfold Snapshot.build
  simp only at h ⊢
  cases ht : Snapshot.traverseC (K2Node.build get rows cols k e 0 0).count
      [((K2Node.build get rows cols k e 0 0).max.getD 0,
        (K2Node.build get rows cols k e 0 0).min.getD 0, K2Node.build get rows cols k e 0 0)] [] [] []
      with
  | none => rw [ht] at h; cases h
  | some r =>
    obtain ⟨t1, t2⟩ := traverseC_some _ _ _ _ _ _ ht
    rw [ht] at h
    rw [t1]
    refine ⟨h, fun N hN => ?_⟩
    obtain ⟨fuel, ho⟩ := hN.order
    have hr := traverse_eq (K2Node.build get rows cols k e 0 0).count
      [((K2Node.build get rows cols k e 0 0).max.getD 0,
        (K2Node.build get rows cols k e 0 0).min.getD 0, K2Node.build get rows cols k e 0 0)] [] [] []
    rw [t1] at hr
    cases hM : bfs snapKids (K2Node.build get rows cols k e 0 0).count
        [((K2Node.build get rows cols k e 0 0).max.getD 0,
          (K2Node.build get rows cols k e 0 0).min.getD 0, K2Node.build get rows cols k e 0 0)] with
    | none => rw [hM] at hr; cases hr
    | some M =>
      rw [bfs_unique snapKids ho hM]
      exact t2 M hM

theorem snapshot_buildC_of {e : Nat}
    (h : ∀ N fuel, bfs snapKids fuel
      [((K2Node.build get rows cols k e 0 0).max.getD 0,
        (K2Node.build get rows cols k e 0 0).min.getD 0, K2Node.build get rows cols k e 0 0)] = some N →
      SnapSafe N) :
    Snapshot.buildC get rows cols k e = Snapshot.build get rows cols k e := by
  obtain ⟨N, hN⟩ := snap_order get rows cols k e
  unfold Snapshot.buildC Snapshot.build
  simp only
  rw [traverseC_of _ _ _ _ _ _ hN (h N _ hN)]
  rfl

end

/-! ### Logs -/

section
variable {getS getT : Nat → Nat → Int64} {rows cols k : Nat}

/-- All differences of cells fit. -/
def CellsFit (getS getT : Nat → Nat → Int64) (rows cols : Nat) : Prop :=
  ∀ r c, r < rows → c < cols → InI64 ((getT r c).toInt - (getS r c).toInt)

theorem CellsFit.noOverflow (h : CellsFit getS getT rows cols) : NoOverflow getS getT rows cols :=
  fun r c a b => (h r c a b).sub

theorem zero_fits : InI64 ((0 : Int64).toInt - (0 : Int64).toInt) := by decide

theorem buildC_of (h : CellsFit getS getT rows cols) (e : Nat) : ∀ R C,
    K2PNode.buildC getS getT rows cols k e R C = some (K2PNode.build getS getT rows cols k e R C) := by
  induction e with
  | zero =>
    intro R C
    unfold K2PNode.buildC K2PNode.build
    simp only
    by_cases hb : R < rows ∧ C < cols
    · simp only [if_pos hb, Option.getD_some]
      rw [ckSub_of (h R C hb.1 hb.2)]
    · simp only [if_neg hb, Option.getD_none]
      rw [ckSub_of zero_fits]
  | succ e ih =>
    intro R C
    unfold K2PNode.buildC
    simp only
    rw [collect_lists (h := fun i => (List.range k).map fun j =>
      K2PNode.build getS getT rows cols k e (R + i * k ^ e) (C + j * k ^ e))]
    · simp only [K2PNode.build]
      rfl
    · intro i _
      refine collect_singles _ fun j _ => ?_
      rw [ih]; rfl

theorem buildC_some (hk : 0 < k) (e : Nat) : ∀ R C n,
    K2PNode.buildC getS getT rows cols k e R C = some n →
    n = K2PNode.build getS getT rows cols k e R C ∧
      ∀ r c, InBox rows cols k e R C r c → InI64 ((getT r c).toInt - (getS r c).toInt) := by
  induction e with
  | zero =>
    intro R C n h
    unfold K2PNode.buildC at h
    unfold K2PNode.build
    simp only at h ⊢
    by_cases hb : R < rows ∧ C < cols
    · simp only [if_pos hb, Option.getD_some] at h ⊢
      cases e1 : ckSub (getT R C) (getS R C) with
      | none => rw [e1] at h; cases h
      | some d =>
        rw [e1] at h
        obtain ⟨f, rfl⟩ := ckSub_some e1
        cases h
        refine ⟨rfl, fun r c hbx => ?_⟩
        obtain ⟨b1, b2, b3, b4, -, -⟩ := hbx
        rw [Nat.pow_zero] at b2 b4
        rw [show r = R by omega, show c = C by omega]
        exact f
    · simp only [if_neg hb, Option.getD_none] at h ⊢
      rw [ckSub_of zero_fits] at h
      cases h
      refine ⟨rfl, fun r c hbx => ?_⟩
      obtain ⟨b1, b2, b3, b4, b5, b6⟩ := hbx
      rw [Nat.pow_zero] at b2 b4
      exact absurd ⟨by omega, by omega⟩ hb
  | succ e ih =>
    intro R C n h
    unfold K2PNode.buildC at h
    simp only at h
    cases hc : collect (List.range k) (fun i => collect (List.range k) fun j =>
        (K2PNode.buildC getS getT rows cols k e (R + i * k ^ e) (C + j * k ^ e)).map ([·])) with
    | none => rw [hc] at h; cases h
    | some L =>
      rw [hc] at h
      obtain ⟨p, rfl⟩ := collect_parts (h := fun i => (List.range k).map fun j =>
          K2PNode.build getS getT rows cols k e (R + i * k ^ e) (C + j * k ^ e))
        (P := fun i => ∀ j ∈ List.range k, ∀ r c,
          InBox rows cols k e (R + i * k ^ e) (C + j * k ^ e) r c →
          InI64 ((getT r c).toInt - (getS r c).toInt)) _ (by
        intro i _ L hL
        refine collect_filter (h := fun j =>
          K2PNode.build getS getT rows cols k e (R + i * k ^ e) (C + j * k ^ e)) ?_ _ _ hL
        intro j L' hL'
        obtain ⟨n', hn', rfl⟩ := Option.map_eq_some_iff.1 hL'
        obtain ⟨q1, q2⟩ := ih _ _ _ hn'
        exact ⟨q2, by rw [q1]⟩) _ hc
      simp only [Option.some.injEq] at h
      refine ⟨?_, fun r c hb => ?_⟩
      · rw [← h]; simp only [K2PNode.build]; rfl
      · obtain ⟨i, j, hi, hj, hb'⟩ := hb.child hk
        exact p i (List.mem_range.2 hi) j (List.mem_range.2 hj) r c hb'

/-- The differences recorded for a node fit. -/
def LogFits (n : K2PNode) : Prop :=
  InI64 ((n.maxT.getD 0).toInt - (n.maxS.getD 0).toInt) ∧
    (n.internal = true → InI64 ((n.minT.getD 0).toInt - (n.minS.getD 0).toInt))

def LogSafe (N : List K2PNode) : Prop := ∀ x ∈ N, LogFits x

theorem log_internal_iff (n : K2PNode) : n.internal = true ↔
    n.children.isEmpty = false ∧ ¬ n.minT = n.maxT ∧ n.equal = false := by
  unfold K2PNode.internal
  simp [and_assoc]

theorem log_traverseC_some (fuel : Nat) : ∀ (q : List K2PNode) (nm eq : List Bool)
    (mx mn : List Int64) r, Log.traverseC fuel q nm eq mx mn = some r →
    Log.traverse fuel q nm eq mx mn = some r ∧
      ∀ N, bfs logKids fuel q = some N → LogSafe N := by
  induction fuel with
  | zero =>
    intro q nm eq mx mn r h
    cases q with
    | nil => exact ⟨h, fun N hN => by simp [bfs] at hN; subst hN; simp [LogSafe]⟩
    | cons x q => simp [Log.traverseC] at h
  | succ fuel ih =>
    intro q nm eq mx mn r h
    cases q with
    | nil => exact ⟨h, fun N hN => by simp [bfs] at hN; subst hN; simp [LogSafe]⟩
    | cons n q =>
      unfold Log.traverseC at h
      unfold Log.traverse
      simp only at h ⊢
      cases hm : ckSub (n.maxT.getD 0) (n.maxS.getD 0) with
      | none => rw [hm] at h; cases h
      | some d =>
      rw [hm] at h
      obtain ⟨fm, rfl⟩ := ckSub_some hm
      simp only at h
      have fin : ∀ (q' : List K2PNode), q' = q ++ logKids n →
          (∀ N, bfs logKids fuel q' = some N → LogSafe N) → LogFits n →
          ∀ N, bfs logKids (fuel + 1) (n :: q) = some N → LogSafe N := by
        rintro q' rfl hq hn N hN x hx
        simp only [bfs, Option.map_eq_some_iff] at hN
        obtain ⟨M, hM, rfl⟩ := hN
        rcases List.mem_cons.1 hx with rfl | hx
        · exact hn
        · exact hq M hM x hx
      have leaf : ¬ n.internal = true → q = q ++ logKids n ∧ LogFits n := by
        intro hi
        refine ⟨?_, fm, fun h => absurd h hi⟩
        unfold logKids; rw [if_neg hi, List.append_nil]
      by_cases hc : n.children.isEmpty = true
      · rw [if_pos hc] at h ⊢
        obtain ⟨i1, i2⟩ := ih _ _ _ _ _ _ h
        obtain ⟨l1, l2⟩ := leaf (by rw [log_internal_iff, hc]; simp)
        exact ⟨i1, fin q l1 i2 l2⟩
      · rw [if_neg hc] at h ⊢
        by_cases hu : n.minT = n.maxT
        · rw [if_pos hu] at h ⊢
          obtain ⟨i1, i2⟩ := ih _ _ _ _ _ _ h
          obtain ⟨l1, l2⟩ := leaf (by rw [log_internal_iff]; simp [hu])
          exact ⟨i1, fin q l1 i2 l2⟩
        · rw [if_neg hu] at h ⊢
          by_cases he : n.equal = true
          · rw [if_pos he] at h ⊢
            obtain ⟨i1, i2⟩ := ih _ _ _ _ _ _ h
            obtain ⟨l1, l2⟩ := leaf (by rw [log_internal_iff, he]; simp)
            exact ⟨i1, fin q l1 i2 l2⟩
          · rw [if_neg he] at h ⊢
            have hi : n.internal = true := by
              rw [log_internal_iff]; exact ⟨by simpa using hc, hu, by simpa using he⟩
            cases h1 : n.minT with
            | none => rw [h1] at h; simp at h
            | some mt =>
              cases h2 : n.minS with
              | none => rw [h1, h2] at h; simp at h
              | some ms =>
                rw [h1, h2] at h
                simp only at h ⊢
                cases hd : ckSub mt ms with
                | none => rw [hd] at h; cases h
                | some d =>
                  rw [hd] at h
                  obtain ⟨fd, rfl⟩ := ckSub_some hd
                  obtain ⟨i1, i2⟩ := ih _ _ _ _ _ _ h
                  refine ⟨i1, fin _ ?_ i2 ⟨fm, fun _ => ?_⟩⟩
                  · unfold logKids; rw [if_pos hi]
                  · rw [h1, h2]; exact fd

theorem log_traverseC_of (fuel : Nat) : ∀ (q : List K2PNode) (nm eq : List Bool)
    (mx mn : List Int64) N, bfs logKids fuel q = some N → LogSafe N →
    Log.traverseC fuel q nm eq mx mn = Log.traverse fuel q nm eq mx mn := by
  induction fuel with
  | zero =>
    intro q nm eq mx mn N hN _
    cases q with
    | nil => rfl
    | cons x q => rfl
  | succ fuel ih =>
    intro q nm eq mx mn N hN hf
    cases q with
    | nil => rfl
    | cons n q =>
      simp only [bfs, Option.map_eq_some_iff] at hN
      obtain ⟨M, hM, rfl⟩ := hN
      have hf' : LogSafe M := fun x hx => hf x (by simp [hx])
      have hn : LogFits n := hf n (by simp)
      unfold Log.traverseC Log.traverse
      simp only
      rw [ckSub_of hn.1]
      simp only
      have leaf : ¬ n.internal = true → bfs logKids fuel q = some M := by
        intro hi
        unfold logKids at hM
        rwa [if_neg hi, List.append_nil] at hM
      by_cases hc : n.children.isEmpty = true
      · rw [if_pos hc, if_pos hc]
        exact ih _ _ _ _ _ _ (leaf (by rw [log_internal_iff, hc]; simp)) hf'
      · rw [if_neg hc, if_neg hc]
        by_cases hu : n.minT = n.maxT
        · rw [if_pos hu, if_pos hu]
          exact ih _ _ _ _ _ _ (leaf (by rw [log_internal_iff]; simp [hu])) hf'
        · rw [if_neg hu, if_neg hu]
          by_cases he : n.equal = true
          · rw [if_pos he, if_pos he]
            exact ih _ _ _ _ _ _ (leaf (by rw [log_internal_iff, he]; simp)) hf'
          · rw [if_neg he, if_neg he]
            have hi : n.internal = true := by
              rw [log_internal_iff]; exact ⟨by simpa using hc, hu, by simpa using he⟩
            have hd := hn.2 hi
            cases h1 : n.minT with
            | none => rfl
            | some mt =>
              cases h2 : n.minS with
              | none => rfl
              | some ms =>
                rw [h1, h2] at hd
                simp only [Option.getD_some] at hd ⊢
                rw [ckSub_of hd]
                refine ih _ _ _ _ _ M ?_ hf'
                unfold logKids at hM
                rwa [if_pos hi] at hM

theorem log_order (n : K2PNode) : ∃ N, bfs logKids n.count [n] = some N := by
  refine bfs_total logKids (fun x => x.count) (fun _ => True) (fun _ _ _ _ => trivial) ?_ _ _
    (by simp) (by simp)
  intro x _
  rw [K2PNode.count_eq x]
  unfold logKids
  split
  · exact Nat.le_refl _
  · simp

theorem log_buildC_some (hk : 0 < k) {e : Nat} {l : Log} (hr : rows ≤ k ^ e) (hc : cols ≤ k ^ e)
    (h : Log.buildC getS getT rows cols k e = some l) :
    Log.build getS getT rows cols k e = some l ∧ CellsFit getS getT rows cols ∧
      ∀ N, LogLayout getS getT rows cols k l e N → LogSafe N := by
  unfold Log.buildC at h
  unfold Log.build
  simp only at h ⊢
  cases hb : K2PNode.buildC getS getT rows cols k e 0 0 with
  | none => rw [hb] at h; cases h
  | some n =>
    rw [hb] at h
    obtain ⟨rfl, hf⟩ := buildC_some hk e 0 0 n hb
    simp only at h
    cases ht : Log.traverseC (K2PNode.build getS getT rows cols k e 0 0).count
        [K2PNode.build getS getT rows cols k e 0 0] [] [] [] [] with
    | none => rw [ht] at h; cases h
    | some r =>
      obtain ⟨t1, t2⟩ := log_traverseC_some _ _ _ _ _ _ _ ht
      rw [ht] at h
      rw [t1]
      refine ⟨h, fun r c a b => hf r c ⟨by omega, by omega, by omega, by omega, a, b⟩, fun N hN => ?_⟩
      obtain ⟨fuel, ho⟩ := hN.order
      obtain ⟨M, hM⟩ := log_order (K2PNode.build getS getT rows cols k e 0 0)
      rw [bfs_unique logKids ho hM]
      exact t2 M hM

theorem log_buildC_of {e : Nat} (h : CellsFit getS getT rows cols)
    (hs : ∀ N fuel, bfs logKids fuel [K2PNode.build getS getT rows cols k e 0 0] = some N → LogSafe N) :
    Log.buildC getS getT rows cols k e = Log.build getS getT rows cols k e := by
  obtain ⟨N, hN⟩ := log_order (K2PNode.build getS getT rows cols k e 0 0)
  unfold Log.buildC Log.build
  simp only
  rw [buildC_of h]
  simp only
  rw [log_traverseC_of _ _ _ _ _ _ _ hN (hs N _ hN)]
  rfl

end

/-! ### Values far from the limits -/

section
variable {getS getT : Nat → Nat → Int64} {rows cols k : Nat}

/-- A property of zero and of all cells holds for the extremes of all nodes. -/
theorem box_val (get : Nat → Nat → Int64) (hk : 0 < k) {P : Int64 → Prop} (h0 : P 0)
    (h : ∀ r c, r < rows → c < cols → P (get r c)) (e R C : Nat) :
    P ((K2Node.build get rows cols k e R C).max.getD 0) ∧
      P ((K2Node.build get rows cols k e R C).min.getD 0) := by
  by_cases hb : R < rows ∧ C < cols
  · have hpos : 0 < k ^ e := Nat.pow_pos hk
    have hbx : InBox rows cols k e R C R C := ⟨by omega, by omega, by omega, by omega, hb.1, hb.2⟩
    obtain ⟨r1, c1, b1, e1⟩ := box_max_attained get hk hbx
    obtain ⟨r2, c2, b2, e2⟩ := box_min_attained get hk hbx
    rw [← e1, ← e2]
    exact ⟨h _ _ b1.2.2.2.2.1 b1.2.2.2.2.2, h _ _ b2.2.2.2.2.1 b2.2.2.2.2.2⟩
  · obtain ⟨n1, n2⟩ := build_none_iff rows cols k get hk e R C
    rw [n1.2 hb, n2.2 hb]
    exact ⟨h0, h0⟩

/-- Values such that the difference of two of them fits. -/
def MidVal (v : Int64) : Prop := -2 ^ 62 ≤ v.toInt ∧ v.toInt < 2 ^ 62

instance (v : Int64) : Decidable (MidVal v) := inferInstanceAs (Decidable (_ ∧ _))

def Mid (get : Nat → Nat → Int64) (rows cols : Nat) : Prop :=
  ∀ r c, r < rows → c < cols → MidVal (get r c)

theorem Moderate.mid {get : Nat → Nat → Int64} (h : Moderate get rows cols) : Mid get rows cols := by
  intro r c a b
  have := h r c a b
  unfold MidVal
  omega

theorem mid_zero : MidVal 0 := by decide

theorem mid_fits {a b : Int64} (ha : MidVal a) (hb : MidVal b) : InI64 (a.toInt - b.toInt) := by
  unfold MidVal at ha hb
  unfold InI64
  omega

theorem snapSafe_of_mid {get : Nat → Nat → Int64} (hk : 0 < k) (h : Mid get rows cols) {e : Nat} :
    ∀ N fuel, bfs snapKids fuel
      [((K2Node.build get rows cols k e 0 0).max.getD 0,
        (K2Node.build get rows cols k e 0 0).min.getD 0, K2Node.build get rows cols k e 0 0)] = some N →
      SnapSafe N := by
  intro N fuel hN
  have hb : ∀ x ∈ N, IsBuilt get rows cols k x.2.2 := by
    refine bfs_forall snapKids (fun x => IsBuilt get rows cols k x.2.2) ?_ _ _ N hN ?_
    · intro x hx y hy
      obtain ⟨h, R, C, hx⟩ := hx
      unfold snapKids at hy
      split at hy
      · rename_i hint
        cases h with
        | zero => rw [hx] at hint; simp [K2Node.internal, K2Node.build, K2Node.children] at hint
        | succ h =>
          unfold K2Node.childEntries at hy
          rw [List.mem_map] at hy
          obtain ⟨d, hd, rfl⟩ := hy
          rw [hx, K2Node.build_children] at hd
          simp only [List.mem_flatMap, List.mem_map, List.mem_range] at hd
          obtain ⟨i, _, j, _, rfl⟩ := hd
          exact ⟨_, _, _, rfl⟩
      · simp at hy
    · intro x hx
      simp only [List.mem_singleton] at hx
      subst hx
      exact ⟨_, _, _, rfl⟩
  intro x hx hi d hd
  obtain ⟨hh, R, C, ex⟩ := hb x hx
  have bx := box_val get hk (P := MidVal) mid_zero h hh R C
  rw [← ex] at bx
  have bd : MidVal (d.max.getD 0) ∧ MidVal (d.min.getD 0) := by
    rw [ex] at hd
    cases hh with
    | zero => simp [K2Node.build, K2Node.children] at hd
    | succ hh =>
      rw [K2Node.build_children] at hd
      simp only [List.mem_flatMap, List.mem_map, List.mem_range] at hd
      obtain ⟨i, _, j, _, rfl⟩ := hd
      exact box_val get hk (P := MidVal) mid_zero h hh _ _
  exact ⟨mid_fits bx.1 bd.1, mid_fits bd.2 bx.2⟩

theorem logSafe_of_mid (hk : 0 < k) (hS : Mid getS rows cols) (hT : Mid getT rows cols) {e : Nat} :
    ∀ N fuel, bfs logKids fuel [K2PNode.build getS getT rows cols k e 0 0] = some N → LogSafe N := by
  intro N fuel hN
  have hb : ∀ x ∈ N, LogBuilt getS getT rows cols k x := by
    refine bfs_forall logKids (LogBuilt getS getT rows cols k) ?_ _ _ N hN ?_
    · intro x hx y hy
      obtain ⟨h, R, C, hx⟩ := hx
      unfold logKids at hy
      split at hy
      · rename_i hint
        cases h with
        | zero => rw [hx] at hint; simp [K2PNode.internal, K2PNode.build, K2PNode.children] at hint
        | succ h =>
          rw [hx, K2PNode.build_children] at hy
          simp only [List.mem_flatMap, List.mem_map, List.mem_range] at hy
          obtain ⟨i, _, j, _, rfl⟩ := hy
          exact ⟨_, _, _, rfl⟩
      · simp at hy
    · intro x hx
      simp only [List.mem_singleton] at hx
      subst hx
      exact ⟨_, _, _, rfl⟩
  intro x hx
  obtain ⟨hh, R, C, rfl⟩ := hb x hx
  obtain ⟨f1, f2, f3, f4⟩ := K2PNode.build_fields getS getT rows cols k hk hh R C
  unfold LogFits
  rw [f1, f2, f3, f4]
  have b1 := box_val getS hk (P := MidVal) mid_zero hS hh R C
  have b2 := box_val getT hk (P := MidVal) mid_zero hT hh R C
  exact ⟨mid_fits b2.1 b1.1, fun _ => mid_fits b2.2 b1.2⟩

theorem Mid.cellsFit (hS : Mid getS rows cols) (hT : Mid getT rows cols) :
    CellsFit getS getT rows cols := fun r c a b => mid_fits (hT r c a b) (hS r c a b)

end
end Verif
