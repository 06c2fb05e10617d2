import Verif.Lemmas.LogFinds
import Verif.Lemmas.LogExact
import Verif.Props.Snapshot

/-!
Properties C07-C10: logs. `e` is the exponent the code computes from the shape (log.rs:124-126);
only `k^e ≥ rows, cols` is used. `NoOverflow` says that no difference of corresponding cells
overflows, `NoSplit` that no square whose differences, wrapped, are all the same, has differences that
overflow beside others that do not. (Debug builds of the code panic where a difference overflows.)
-/
namespace Verif

/-- Number of nodemap bits not a multiple of the word size; reads of logs need this because they
compare indices with `>` instead of `>=` (log.rs:240, 245, 403, 418). -/
def NodemapsOk (s : Snapshot) (l : Log) : Prop :=
  s.nodemap.length % 32 ≠ 0 ∧ l.nodemap.length % 32 ≠ 0

theorem odd_of_even_arity {k n : Nat} (heven : k % 2 = 0) (h : n % (k * k) = 1 % (k * k)) :
    n % 32 ≠ 0 := by
  intro h0
  obtain ⟨m, rfl⟩ : ∃ m, k = 2 * m := ⟨k / 2, by omega⟩
  have e1 : n % 2 = 0 := by omega
  have e2 : n % (2 * m * (2 * m)) % 2 = n % 2 :=
    Nat.mod_mod_of_dvd n ⟨m * (2 * m), by rw [Nat.mul_assoc]⟩
  have e3 : 1 % (2 * m * (2 * m)) % 2 = 1 % 2 :=
    Nat.mod_mod_of_dvd 1 ⟨m * (2 * m), by rw [Nat.mul_assoc]⟩
  omega

theorem nodemapsOk_of_even {getS getT : Nat → Nat → Int64} {rows cols k e : Nat} {s : Snapshot}
    {l : Log} {NS N} (hs : SnapLayout getS rows cols k s (e + 1) NS)
    (h : LogLayout getS getT rows cols k l (e + 1) N) (hk : 2 ≤ k) (heven : k % 2 = 0) :
    NodemapsOk s l := by
  have hkk : 0 < k * k := Nat.mul_pos (by omega) (by omega)
  constructor
  · refine odd_of_even_arity heven (hs.nodes.length_mod hkk ?_)
    intro x hx
    rw [hs.root] at hx
    obtain rfl := Option.some.inj hx
    show 0 < snapHt _
    unfold snapHt
    rw [K2Node.build_height _ _ _ _ (by omega)]; omega
  · refine odd_of_even_arity heven (h.nodes.length_mod hkk ?_)
    intro x hx
    rw [h.root] at hx
    obtain rfl := Option.some.inj hx
    rw [K2PNode.build_height _ _ _ _ _ (by omega)]; omega

/-- C07, for arities that are even or happen to avoid the off-by-one: every cell of the second
raster reads back through log and snapshot. Missing for the full claim: odd arities with a nodemap
length divisible by 32, where the read panics (`C10_odd_arity_panics`), and rasters that are split by
overflow, of which a part reads as something else (`C07_exact`). -/
theorem C07_log_get_partial (getS getT : Nat → Nat → Int64) (rows cols k e : Nat) (hk : 2 ≤ k)
    (hshape : 2 ≤ rows ∨ 2 ≤ cols) (hr : rows ≤ k ^ e) (hc : cols ≤ k ^ e)
    (hno : NoSplit getS getT rows cols k) :
    ∃ s l, Snapshot.build getS rows cols k e = some s ∧
      Log.build getS getT rows cols k e = some l ∧
      (k % 2 = 0 → NodemapsOk s l) ∧
      (NodemapsOk s l → ∀ r c, r < rows → c < cols → l.get s r c = some (getT r c)) := by
  obtain ⟨e, rfl⟩ := exponent_pos hshape hr hc
  obtain ⟨s, NS, h1, h2⟩ := snapshot_build_layout getS rows cols k (by omega) (e + 1)
  obtain ⟨l, N, h3, h4⟩ := log_build_layout getS getT rows cols k (by omega) (e + 1)
  exact ⟨s, l, h1, h3, nodemapsOk_of_even h2 h4 hk, fun ok r c a b =>
    h4.get_cell h2 hk hno ok.2 ok.1 hr hc r c a b⟩

/-- The condition on the rasters is exact: reads return for all rasters, and they are all right if and
only if no square is split; every cell of a square that is split reads wrong. -/
theorem C07_exact (getS getT : Nat → Nat → Int64) (rows cols k e : Nat) (hk : 2 ≤ k)
    (hshape : 2 ≤ rows ∨ 2 ≤ cols) (hr : rows ≤ k ^ e) (hc : cols ≤ k ^ e) (heven : k % 2 = 0) :
    ∃ s l, Snapshot.build getS rows cols k e = some s ∧
      Log.build getS getT rows cols k e = some l ∧
      (∀ r c, r < rows → c < cols → ∃ v, l.get s r c = some v) ∧
      ((∀ r c, r < rows → c < cols → l.get s r c = some (getT r c)) ↔
        NoSplit getS getT rows cols k) ∧
      ∀ h i j d, i * k ^ h + k ^ h ≤ rows → j * k ^ h + k ^ h ≤ cols →
        (∀ r c, InSquare (k ^ h) i j r c → getT r c - getS r c = d) →
        ∀ r1 c1 r2 c2, InSquare (k ^ h) i j r1 c1 → InSquare (k ^ h) i j r2 c2 →
          Overflows getS getT r1 c1 → ¬ Overflows getS getT r2 c2 →
          ∀ r c, InSquare (k ^ h) i j r c → l.get s r c ≠ some (getT r c) := by
  obtain ⟨e, rfl⟩ := exponent_pos hshape hr hc
  obtain ⟨s, NS, h1, h2⟩ := snapshot_build_layout getS rows cols k (by omega) (e + 1)
  obtain ⟨l, N, h3, h4⟩ := log_build_layout getS getT rows cols k (by omega) (e + 1)
  have ok := nodemapsOk_of_even h2 h4 hk heven
  have hget := h4.get_cellV h2 hk (fun _ _ _ => rfl) ok.2 ok.1 hr hc
  have wrong : ∀ h i j d, i * k ^ h + k ^ h ≤ rows → j * k ^ h + k ^ h ≤ cols →
        (∀ r c, InSquare (k ^ h) i j r c → getT r c - getS r c = d) →
        ∀ r1 c1 r2 c2, InSquare (k ^ h) i j r1 c1 → InSquare (k ^ h) i j r2 c2 →
          Overflows getS getT r1 c1 → ¬ Overflows getS getT r2 c2 →
          ∀ r c, InSquare (k ^ h) i j r c → l.get s r c ≠ some (getT r c) := by
    intro h i j d a1 a2 hd r1 c1 r2 c2 q1 q2 o1 o2 r c q
    have hq := q
    unfold InSquare at hq
    rw [hget r c (by omega) (by omega)]
    exact fun he => logCell_wrong hk hr hc a1 a2 hd q1 q2 o1 o2 q (Option.some.inj he)
  refine ⟨s, l, h1, h3, fun r c a b => ⟨_, hget r c a b⟩, ⟨fun h => ?_, fun hno r c a b =>
    h4.get_cell h2 hk hno ok.2 ok.1 hr hc r c a b⟩, wrong⟩
  refine noSplit_of_logCell hk hr hc fun r c a b => ?_
  have := h r c a b
  rw [hget r c a b] at this
  exact Option.some.inj this

/-- The recommended arity 2: no side condition. -/
theorem C07_log_get_k2 (getS getT : Nat → Nat → Int64) (rows cols e : Nat)
    (hshape : 2 ≤ rows ∨ 2 ≤ cols) (hr : rows ≤ 2 ^ e) (hc : cols ≤ 2 ^ e)
    (hno : NoSplit getS getT rows cols 2) :
    ∃ s l, Snapshot.build getS rows cols 2 e = some s ∧
      Log.build getS getT rows cols 2 e = some l ∧
      ∀ r c, r < rows → c < cols → l.get s r c = some (getT r c) := by
  obtain ⟨s, l, h1, h2, h3, h4⟩ := C07_log_get_partial getS getT rows cols 2 e (by omega) hshape hr
    hc hno
  exact ⟨s, l, h1, h2, h4 (h3 rfl)⟩

/-- C08, with the same restriction as C07. -/
theorem C08_log_window_partial (getS getT : Nat → Nat → Int64) (rows cols k e : Nat) (hk : 2 ≤ k)
    (hshape : 2 ≤ rows ∨ 2 ≤ cols) (hr : rows ≤ k ^ e) (hc : cols ≤ k ^ e)
    (hno : NoSplit getS getT rows cols k) :
    ∃ s l, Snapshot.build getS rows cols k e = some s ∧
      Log.build getS getT rows cols k e = some l ∧
      (k % 2 = 0 → NodemapsOk s l) ∧
      (NodemapsOk s l → ∀ top bottom left right, top < bottom → left < right → bottom ≤ rows →
        right ≤ cols →
        ∃ L, l.fillWindow s (Rect.new top bottom left right) = some L ∧
          L.Perm (Spec.window getT top bottom left right)) := by
  obtain ⟨e, rfl⟩ := exponent_pos hshape hr hc
  obtain ⟨s, NS, h1, h2⟩ := snapshot_build_layout getS rows cols k (by omega) (e + 1)
  obtain ⟨l, N, h3, h4⟩ := log_build_layout getS getT rows cols k (by omega) (e + 1)
  refine ⟨s, l, h1, h3, nodemapsOk_of_even h2 h4 hk, fun ok top bottom left right a1 a2 a3 a4 => ?_⟩
  have hw : Rect.new top bottom left right = ⟨top, bottom, left, right⟩ := by
    unfold Rect.new rearrange
    rw [if_neg (by omega), if_neg (by omega)]
  rw [hw]
  exact h4.fillWindow h2 hk hno ok.2 ok.1 hr hc _ ⟨a1, a2, a3, a4⟩

/-- C09, for pairs of rasters satisfying `SearchSafe`: a search reports exactly the cells of the
window whose value lies in the closed interval, once each. Missing for the full claim: the pairs
that violate `SearchSafe`, for which it is false (`C09_unsafe_wrong`). -/
theorem C09_log_search_partial (getS getT : Nat → Nat → Int64) (rows cols k e : Nat) (hk : 2 ≤ k)
    (hshape : 2 ≤ rows ∨ 2 ≤ cols) (hr : rows ≤ k ^ e) (hc : cols ≤ k ^ e)
    (hno : NoOverflow getS getT rows cols) (safe : SearchSafe getS getT rows cols (k ^ e)) :
    ∃ s l, Snapshot.build getS rows cols k e = some s ∧
      Log.build getS getT rows cols k e = some l ∧
      ∀ top bottom left right lower upper, top < bottom → left < right → bottom ≤ rows →
        right ≤ cols →
        ∃ L, l.searchWindow s (Rect.new top bottom left right) lower upper = some L ∧
          L.Perm (Spec.hits getT top bottom left right lower upper) := by
  obtain ⟨e, rfl⟩ := exponent_pos hshape hr hc
  obtain ⟨s, NS, h1, h2⟩ := snapshot_build_layout getS rows cols k (by omega) (e + 1)
  obtain ⟨l, N, h3, h4⟩ := log_build_layout getS getT rows cols k (by omega) (e + 1)
  refine ⟨s, l, h1, h3, fun top bottom left right lower upper a1 a2 a3 a4 => ?_⟩
  have hw : Rect.new top bottom left right = ⟨top, bottom, left, right⟩ := by
    unfold Rect.new rearrange
    rw [if_neg (by omega), if_neg (by omega)]
  rw [hw]
  exact h4.searchWindow h2 hk hno hr hc safe _ ⟨a1, a2, a3, a4⟩ lower upper

/-- C09 is false of the code: every pair of rasters violating `SearchSafe` has an interval for which
the search of the whole raster returns a wrong answer (no panic). -/
theorem C09_unsafe_wrong (getS getT : Nat → Nat → Int64) (rows cols k e : Nat) (hk : 2 ≤ k)
    (hshape : 2 ≤ rows ∨ 2 ≤ cols) (h0 : 0 < rows ∧ 0 < cols) (hr : rows ≤ k ^ e) (hc : cols ≤ k ^ e)
    (hmS : Moderate getS rows cols) (hmT : Moderate getT rows cols)
    (uns : ¬ SearchSafe getS getT rows cols (k ^ e)) :
    ∃ s l, Snapshot.build getS rows cols k e = some s ∧
      Log.build getS getT rows cols k e = some l ∧
      ∃ lower upper L, lower ≤ upper ∧
        l.searchWindow s (Rect.new 0 rows 0 cols) lower upper = some L ∧
        ¬ L.Perm (Spec.hits getT 0 rows 0 cols lower upper) := by
  obtain ⟨e, rfl⟩ := exponent_pos hshape hr hc
  obtain ⟨s, NS, h1, h2⟩ := snapshot_build_layout getS rows cols k (by omega) (e + 1)
  obtain ⟨l, N, h3, h4⟩ := log_build_layout getS getT rows cols k (by omega) (e + 1)
  refine ⟨s, l, h1, h3, ?_⟩
  have hw : Rect.new 0 rows 0 cols = ⟨0, rows, 0, cols⟩ := by
    unfold Rect.new rearrange
    rw [if_neg (by omega), if_neg (by omega)]
  rw [hw]
  exact h4.searchWindow_unsafe h2 hk hmS hmT hr hc h0.1 h0.2 uns

/-- The first raster of the witnesses: 2×2, values 10..40. -/
def witS (r c : Nat) : Int64 := (r * 20 + c * 10 + 10 : Nat).toInt64
def constS (v : Int64) (_ _ : Nat) : Int64 := v

/-- Search of the whole 2×2 raster. -/
def search2 (getS getT : Nat → Nat → Int64) (lower upper : Int64) : Option (List (Nat × Nat)) :=
  match Snapshot.build getS 2 2 2 1, Log.build getS getT 2 2 2 1 with
  | some s, some l => l.searchWindow s (Rect.new 0 2 0 2) lower upper
  | _, _ => none

/-- C09 negated by concrete rasters, one for each way of violating `SearchSafe`. -/
theorem C09_witnesses :
    -- both constant and negative: reports cells out of range
    (search2 (constS (-10)) (constS (-10)) (-5) 5 = some [(0, 0), (0, 1), (1, 0), (1, 1)] ∧
      Spec.hits (constS (-10)) 0 2 0 2 (-5) 5 = []) ∧
    -- second constant below the first: reports cells out of range
    (search2 witS (constS 5) 7 12 = some [(0, 0), (0, 1), (1, 0), (1, 1)] ∧
      Spec.hits (constS 5) 0 2 0 2 7 12 = []) ∧
    -- second constant above the minimum of the first: misses cells
    (search2 witS (constS 25) 25 25 = some [(1, 1)] ∧
      Spec.hits (constS 25) 0 2 0 2 25 25 = [(0, 0), (0, 1), (1, 0), (1, 1)]) ∧
    -- first constant and negative: misses cells
    (search2 (constS (-10)) witS 10 10 = some [] ∧ Spec.hits witS 0 2 0 2 10 10 = [(0, 0)]) ∧
    -- second below the first by a constant: misses cells
    (search2 witS (fun r c => witS r c - 5) 5 5 = some [] ∧
      Spec.hits (fun r c => witS r c - 5) 0 2 0 2 5 5 = [(0, 0)]) := by
  decide +kernel

/-- Whatever the rasters are, a search of a log returns, and what it finds fits together: for every
interval there is one set of cells such that the search of any window gives the cells of the set that are in
the window, once each. -/
theorem C09_consistent (getS getT : Nat → Nat → Int64) (rows cols k e : Nat) (hk : 2 ≤ k)
    (hshape : 2 ≤ rows ∨ 2 ≤ cols) (hr : rows ≤ k ^ e) (hc : cols ≤ k ^ e) :
    ∃ s l, Snapshot.build getS rows cols k e = some s ∧
      Log.build getS getT rows cols k e = some l ∧
      ∀ lower upper, ∃ found : Nat → Nat → Bool, ∀ top bottom left right, top < bottom → left < right →
        bottom ≤ rows → right ≤ cols →
        ∃ L, l.searchWindow s (Rect.new top bottom left right) lower upper = some L ∧
          L.Perm ((Spec.cells top bottom left right).filter fun p => found p.1 p.2) := by
  obtain ⟨e, rfl⟩ := exponent_pos hshape hr hc
  obtain ⟨s, NS, h1, h2⟩ := snapshot_build_layout getS rows cols k (by omega) (e + 1)
  obtain ⟨l, N, h3, h4⟩ := log_build_layout getS getT rows cols k (by omega) (e + 1)
  refine ⟨s, l, h1, h3, fun lower upper => ?_⟩
  obtain ⟨χ, hχ⟩ := h4.searchWindow_finds h2 hk lower upper hr hc
  refine ⟨χ, fun top bottom left right a1 a2 a3 a4 => ?_⟩
  have hw : Rect.new top bottom left right = ⟨top, bottom, left, right⟩ := by
    unfold Rect.new rearrange
    rw [if_neg (by omega), if_neg (by omega)]
  rw [hw]
  exact hχ ⟨top, bottom, left, right⟩ ⟨a1, a2, a3, a4⟩

/-- C10 for shapes with at least two cells on the longer side: cell and window reads of snapshots
and logs of even arity never panic, whatever the rasters, and neither do searches of snapshots and of
logs of any arity. Missing for the full claim: 1×1 rasters (`C10_single_cell_panics`) and odd arities
(`C10_odd_arity_panics`). -/
theorem C10_reads_total_partial (getS getT : Nat → Nat → Int64) (rows cols k e : Nat) (hk : 2 ≤ k)
    (hshape : 2 ≤ rows ∨ 2 ≤ cols) (hr : rows ≤ k ^ e) (hc : cols ≤ k ^ e) :
    ∃ s l, Snapshot.build getS rows cols k e = some s ∧
      Log.build getS getT rows cols k e = some l ∧
      (∀ r c, r < rows → c < cols → (s.get r c).isSome ∧ (k % 2 = 0 → (l.get s r c).isSome)) ∧
      ∀ top bottom left right lower upper, top < bottom → left < right → bottom ≤ rows →
        right ≤ cols →
        (s.fillWindow (Rect.new top bottom left right)).isSome ∧
        (s.searchWindow (Rect.new top bottom left right) lower upper).isSome ∧
        (k % 2 = 0 → (l.fillWindow s (Rect.new top bottom left right)).isSome) ∧
        (l.searchWindow s (Rect.new top bottom left right) lower upper).isSome := by
  obtain ⟨e, rfl⟩ := exponent_pos hshape hr hc
  obtain ⟨s, NS, h1, h2⟩ := snapshot_build_layout getS rows cols k (by omega) (e + 1)
  obtain ⟨l, N, h3, h4⟩ := log_build_layout getS getT rows cols k (by omega) (e + 1)
  have ok := nodemapsOk_of_even h2 h4 hk
  refine ⟨s, l, h1, h3, fun r c a b => ⟨?_, fun he => ?_⟩,
    fun top bottom left right lower upper a1 a2 a3 a4 => ?_⟩
  · rw [h2.get_cell hk hr hc r c a b]; rfl
  · rw [h4.get_cellV h2 hk (fun _ _ _ => rfl) (ok he).2 (ok he).1 hr hc r c a b]; rfl
  have hw : Rect.new top bottom left right = ⟨top, bottom, left, right⟩ := by
    unfold Rect.new rearrange
    rw [if_neg (by omega), if_neg (by omega)]
  rw [hw]
  refine ⟨?_, ?_, fun he => ?_, ?_⟩
  · obtain ⟨L, hL, -⟩ := h2.fillWindow hk hr hc ⟨top, bottom, left, right⟩ ⟨a1, a2, a3, a4⟩
    rw [hL]; rfl
  · obtain ⟨L, hL, -⟩ := h2.searchWindow hk hr hc ⟨top, bottom, left, right⟩ ⟨a1, a2, a3, a4⟩ lower upper
    rw [hL]; rfl
  · obtain ⟨L, hL, -⟩ := h4.fillWindowV h2 hk (fun _ _ _ => rfl) (ok he).2 (ok he).1 hr hc ⟨top, bottom, left, right⟩ ⟨a1, a2, a3, a4⟩
    rw [hL]; rfl
  · obtain ⟨χ, hχ⟩ := h4.searchWindow_finds h2 hk lower upper hr hc
    obtain ⟨L, hL, -⟩ := hχ ⟨top, bottom, left, right⟩ ⟨a1, a2, a3, a4⟩
    rw [hL]; rfl

/-- C10 negated: a raster with one cell is encoded without complaint and no query on it succeeds
(the exponent of a 1×1 raster is 0). -/
theorem C10_single_cell_panics (get getT : Nat → Nat → Int64) (k : Nat) (hk : 2 ≤ k)
    (lower upper : Int64) :
    ∃ s l, Snapshot.build get 1 1 k 0 = some s ∧ Log.build get getT 1 1 k 0 = some l ∧
      s.get 0 0 = none ∧ s.fillWindow (Rect.new 0 1 0 1) = none ∧
      s.searchWindow (Rect.new 0 1 0 1) lower upper = none ∧ l.get s 0 0 = none ∧
      l.fillWindow s (Rect.new 0 1 0 1) = none ∧
      l.searchWindow s (Rect.new 0 1 0 1) lower upper = none := by
  obtain ⟨s, NS, h1, h2⟩ := snapshot_build_layout get 1 1 k (by omega) 0
  obtain ⟨l, N, h3, h4⟩ := log_build_layout get getT 1 1 k (by omega) 0
  have es : s.nodemap.get 0 = none := by
    have := h2.nodes.single _ h2.root (by
      simp [snapKids, K2Node.build, K2Node.internal, K2Node.children])
    have hrep := h2.nodes.repr
    rw [this] at hrep
    rw [hrep.get_ge 0 (by simp [snapHt, K2Node.build_height get 1 1 k (by omega : 0 < k)])]
    simp [snapHt, K2Node.build_height get 1 1 k (by omega : 0 < k)]
  have el : l.nodemap.get 0 = none := by
    have := h4.nodes.single _ h4.root (by
      simp [logKids, K2PNode.build, K2PNode.internal, K2PNode.children])
    have hrep := h4.nodes.repr
    rw [this] at hrep
    rw [hrep.get_ge 0 (by simp [K2PNode.build_height get getT 1 1 k (by omega : 0 < k)])]
    simp [K2PNode.build_height get getT 1 1 k (by omega : 0 < k)]
  refine ⟨s, l, h1, h3, ?_, ?_, ?_, ?_, ?_, ?_⟩
  · simp [Snapshot.get, es]
  · simp [Snapshot.fillWindow, es]
    split <;> rfl
  · simp [Snapshot.searchWindow, es]
  · simp only [Log.get, es, el]
    split <;> first | rfl | simp_all
  · simp [Log.fillWindow, es, el]
  · simp [Log.searchWindow, es, el]

/-- 27×27, arity 3; six of the nine top blocks vary, so that the log's nodemap has 64 bits. -/
def oddT (r c : Nat) : Int64 := if r < 18 then (r * 27 + c : Nat).toInt64 else 0

def oddPair : Option (Snapshot × Log) :=
  match Snapshot.build (constS 0) 27 27 3 3, Log.build (constS 0) oddT 27 27 3 3 with
  | some s, some l => some (s, l)
  | _, _ => none

/-- C07, C08 and C10 negated for odd arities: reading cell (0, 0) through the log panics. -/
theorem C10_odd_arity_panics :
    ∃ s l, oddPair = some (s, l) ∧ l.nodemap.length = 64 ∧ l.get s 0 0 = none ∧
      l.fillWindow s (Rect.new 0 1 0 1) = none := by
  have h : oddPair.map (fun (s, l) => decide (l.nodemap.length = 64 ∧ l.get s 0 0 = none ∧
      l.fillWindow s (Rect.new 0 1 0 1) = none)) = some true := by decide +kernel
  cases h0 : oddPair with
  | none => rw [h0] at h; simp at h
  | some p =>
    rw [h0] at h
    exact ⟨p.1, p.2, rfl, by simpa using h⟩

/-! ### Examples -/

/-- Second raster for `exampleRaster` (3×5): constant part shifted, another part changed. -/
def exampleLog (r c : Nat) : Int64 :=
  if c ≥ 3 then 9 else if r = 2 then Int64.minValue + 3 else (r * 10 + c : Nat).toInt64 - 4

example : NoOverflow exampleRaster exampleLog 3 5 := by
  intro r c hr hc
  have : r = 0 ∨ r = 1 ∨ r = 2 := by omega
  have : c = 0 ∨ c = 1 ∨ c = 2 ∨ c = 3 ∨ c = 4 := by omega
  rcases ‹r = 0 ∨ _› with rfl | rfl | rfl <;>
    rcases ‹c = 0 ∨ _› with rfl | rfl | rfl | rfl | rfl <;> decide

/-- Both rasters vary and their difference varies. -/
example : SearchSafe exampleRaster exampleLog 3 5 (2 ^ 3) := by
  have nT : ∀ u, ¬ Const exampleLog 3 5 u := by
    intro u h
    have h1 := h 0 0 (by omega) (by omega)
    rw [← h 0 4 (by omega) (by omega)] at h1
    revert h1; decide
  have nS : ∀ u, ¬ Const exampleRaster 3 5 u := by
    intro u h
    have h1 := h 0 0 (by omega) (by omega)
    rw [← h 0 4 (by omega) (by omega)] at h1
    revert h1; decide
  exact ⟨fun u v h => absurd h (nT u), fun u h => absurd h (nT u), fun v h => absurd h (nS v),
    fun d h => by omega⟩

def exampleBoth : Option (Snapshot × Log) :=
  match Snapshot.build exampleRaster 3 5 2 3, Log.build exampleRaster exampleLog 3 5 2 3 with
  | some s, some l => some (s, l)
  | _, _ => none

example : exampleBoth.bind (fun (s, l) => l.get s 2 1) = some (Int64.minValue + 3) := by
  decide +kernel

example : exampleBoth.bind (fun (s, l) => l.fillWindow s (Rect.new 1 3 2 4)) =
    some [(0, 0, 8), (0, 1, 9), (1, 0, Int64.minValue + 3), (1, 1, 9)] := by decide +kernel

example : exampleBoth.bind (fun (s, l) => l.searchWindow s (Rect.new 0 3 1 5) (-10) 6) =
    some [(0, 1), (0, 2)] := by decide +kernel

/-- Rasters without a split square, though differences overflow for half of the cells: they are not all
the same. -/
def wideS (r _ : Nat) : Int64 := if r = 0 then Int64.minValue else 5
def wideT (_ c : Nat) : Int64 := Int64.maxValue - c.toInt64

example : Overflows wideS wideT 0 1 ∧ ¬ Overflows wideS wideT 1 1 := by
  unfold Overflows; decide

example : NoSplit wideS wideT 2 2 2 := by
  intro h i j d h1 h2 hd r c r' c' q q' ho
  match h with
  | 0 =>
    unfold InSquare at q q'
    rw [Nat.pow_zero] at *
    obtain rfl : r = r' := by omega
    obtain rfl : c = c' := by omega
    exact ho
  | h + 1 =>
    have hle : h + 1 ≤ 1 :=
      (Nat.pow_le_pow_iff_right (by omega)).1 (show 2 ^ (h + 1) ≤ 2 ^ 1 by omega)
    obtain rfl : h = 0 := by omega
    obtain rfl : i = 0 := by omega
    obtain rfl : j = 0 := by omega
    have a := hd 0 0 (by unfold InSquare; omega)
    rw [← hd 0 1 (by unfold InSquare; omega)] at a
    exact absurd a (by decide)

example : (match Snapshot.build wideS 2 2 2 1, Log.build wideS wideT 2 2 2 1 with
    | some s, some l => l.get s 0 1
    | _, _ => none) = some (Int64.maxValue - 1) := by decide +kernel

/-- `NoSplit` is needed: differences that wrap for some cells make the log lose the second raster. -/
def wrapS (_ c : Nat) : Int64 := if c = 0 then Int64.minValue else Int64.maxValue
def wrapT (r c : Nat) : Int64 := wrapS r c + 1

example : wrapT 0 0 = Int64.minValue + 1 ∧
    (match Snapshot.build wrapS 2 2 2 1, Log.build wrapS wrapT 2 2 2 1 with
    | some s, some l => l.get s 0 0
    | _, _ => none) = some (Int64.minValue + 2) := by decide +kernel

end Verif
