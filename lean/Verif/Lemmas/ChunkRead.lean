import Verif.Lemmas.ChunkBuild
import Verif.Props.Log

/-! Reads and searches of built chunks. -/
namespace Verif

theorem snapLayout_of_build {g : Nat → Nat → Int64} {rows cols k e : Nat} {s : Snapshot}
    (hk : 0 < k) (h : Snapshot.build g rows cols k e = some s) :
    ∃ N, SnapLayout g rows cols k s e N := by
  obtain ⟨s', N, h1, h2⟩ := snapshot_build_layout g rows cols k hk e
  rw [h] at h1
  obtain rfl := Option.some.inj h1
  exact ⟨N, h2⟩

theorem logLayout_of_build {gS gT : Nat → Nat → Int64} {rows cols k e : Nat} {l : Log}
    (hk : 0 < k) (h : Log.build gS gT rows cols k e = some l) :
    ∃ N, LogLayout gS gT rows cols k l e N := by
  obtain ⟨s', N, h1, h2⟩ := log_build_layout gS gT rows cols k hk e
  rw [h] at h1
  obtain rfl := Option.some.inj h1
  exact ⟨N, h2⟩

/-- Shape and arity of a raster that can be read. -/
structure ShapeOk (rows cols k e : Nat) : Prop where
  arity : 2 ≤ k
  shape : 2 ≤ rows ∨ 2 ≤ cols
  rows_le : rows ≤ k ^ e
  cols_le : cols ≤ k ^ e

/-- Instant `t` is stored in a block that starts at instant `t0 < t`, so it is a log. -/
def LogPair (bs : List Block) (t0 t : Nat) : Prop :=
  ∃ i off, Holds bs t i off ∧ 0 < off ∧ t0 + off = t

theorem LogPair.lt {bs t0 t} (h : LogPair bs t0 t) : t0 < t := by
  obtain ⟨i, off, -, h1, h2⟩ := h; omega

/-- All logs of all blocks can be read. -/
def LogsOk (bs : List Block) : Prop := ∀ b ∈ bs, ∀ l ∈ b.logs, NodemapsOk b.snapshot l

theorem BlocksOf.logsOk_of_even {get rows cols k e bs} (h : BlocksOf get rows cols k e bs)
    (hs : ShapeOk rows cols k e) (heven : k % 2 = 0) : LogsOk bs := by
  intro b hb l hl
  obtain ⟨i, hi⟩ := List.mem_iff_getElem?.1 hb
  obtain ⟨j, hj⟩ := List.mem_iff_getElem?.1 hl
  have hk : 0 < k := by have := hs.arity; omega
  have hblk := h i b hi
  obtain ⟨e, rfl⟩ := exponent_pos hs.shape hs.rows_le hs.cols_le
  obtain ⟨NS, hS⟩ := snapLayout_of_build hk hblk.snapshot
  obtain ⟨N, hL⟩ := logLayout_of_build hk (hblk.logs j l hj)
  exact nodemapsOk_of_even hS hL hs.arity heven

section
variable {get : Nat → Nat → Nat → Int64} {rows cols k e : Nat} {bs : List Block} {t i off : Nat}
  {b : Block}

theorem Holds.pair (h : Holds bs t i (off + 1)) : LogPair bs (t - (off + 1)) t := by
  refine ⟨i, off + 1, h, by omega, ?_⟩
  obtain ⟨b, -, -, h⟩ := h
  omega

theorem Holds.log (h : Holds bs t i (off + 1)) (hb : bs[i]? = some b) :
    ∃ l, b.logs[off]? = some l := by
  obtain ⟨b', h1, h2, -⟩ := h
  rw [hb] at h1
  obtain rfl := Option.some.inj h1
  unfold Block.len at h2
  exact ⟨_, List.getElem?_eq_getElem (by omega)⟩

/-- A cell of a log, whatever the rasters. -/
theorem block_get_log (h : BlocksOf get rows cols k e bs) (hs : ShapeOk rows cols k e)
    (ht : Holds bs t i (off + 1)) (hb : bs[i]? = some b) (ok : LogsOk bs)
    (r c : Nat) (hr : r < rows) (hc : c < cols) :
    b.get (off + 1) r c = some (logCell (get (t - (off + 1))) (get t) rows cols k e 0 0 r c) := by
  have hk : 0 < k := by have := hs.arity; omega
  have hblk := h i b hb
  obtain ⟨e, rfl⟩ := exponent_pos hs.shape hs.rows_le hs.cols_le
  obtain ⟨NS, hS⟩ := snapLayout_of_build hk hblk.snapshot
  have ht' := ht
  obtain ⟨b', h1, h2, h3⟩ := ht'
  obtain ⟨l, hl⟩ := ht.log hb
  unfold Block.get
  simp only [hl]
  have hbl := hblk.logs off l hl
  obtain ⟨N, hL⟩ := logLayout_of_build hk hbl
  have hn := ok b (List.mem_of_getElem? hb) l (List.mem_of_getElem? hl)
  have e1 : blocksLen (bs.take i) + 1 + off = t := by omega
  rw [e1] at hL
  rw [show t - (off + 1) = blocksLen (bs.take i) by omega]
  exact hL.get_cellV hS hs.arity (fun _ _ _ => rfl) hn.2 hn.1 hs.rows_le hs.cols_le r c hr hc

/-- A cell of the snapshot of a block. -/
theorem block_get_zero (h : BlocksOf get rows cols k e bs) (hs : ShapeOk rows cols k e)
    (ht : Holds bs t i 0) (hb : bs[i]? = some b)
    (r c : Nat) (hr : r < rows) (hc : c < cols) : b.get 0 r c = some (get t r c) := by
  have hk : 0 < k := by have := hs.arity; omega
  have hblk := h i b hb
  obtain ⟨e, rfl⟩ := exponent_pos hs.shape hs.rows_le hs.cols_le
  obtain ⟨NS, hS⟩ := snapLayout_of_build hk hblk.snapshot
  obtain ⟨b', h1, h2, h3⟩ := ht
  unfold Block.get
  simp only
  rw [hS.get_cell hs.arity hs.rows_le hs.cols_le r c hr hc, h3]; rfl

theorem block_get (h : BlocksOf get rows cols k e bs) (hs : ShapeOk rows cols k e)
    (ht : Holds bs t i off) (hb : bs[i]? = some b) (ok : LogsOk bs)
    (hno : ∀ t0 t, LogPair bs t0 t → NoSplit (get t0) (get t) rows cols k)
    (r c : Nat) (hr : r < rows) (hc : c < cols) : b.get off r c = some (get t r c) := by
  have hk : 0 < k := by have := hs.arity; omega
  have hblk := h i b hb
  obtain ⟨e, rfl⟩ := exponent_pos hs.shape hs.rows_le hs.cols_le
  obtain ⟨NS, hS⟩ := snapLayout_of_build hk hblk.snapshot
  have ht' := ht
  obtain ⟨b', h1, h2, h3⟩ := ht'
  cases off with
  | zero =>
    unfold Block.get
    simp only
    rw [hS.get_cell hs.arity hs.rows_le hs.cols_le r c hr hc, h3]; rfl
  | succ off =>
    obtain ⟨l, hl⟩ := ht.log hb
    unfold Block.get
    simp only [hl]
    have hbl := hblk.logs off l hl
    obtain ⟨N, hL⟩ := logLayout_of_build hk hbl
    have hn := ok b (List.mem_of_getElem? hb) l (List.mem_of_getElem? hl)
    have e1 : blocksLen (bs.take i) + 1 + off = t := by omega
    rw [e1] at hL
    have := hno _ _ ht.pair
    rw [show t - (off + 1) = blocksLen (bs.take i) by omega] at this
    exact hL.get_cell hS hs.arity this hn.2 hn.1 hs.rows_le hs.cols_le r c hr hc

theorem block_fill (h : BlocksOf get rows cols k e bs) (hs : ShapeOk rows cols k e)
    (ht : Holds bs t i off) (hb : bs[i]? = some b) (ok : LogsOk bs)
    (hno : ∀ t0 t, LogPair bs t0 t → NoSplit (get t0) (get t) rows cols k)
    (w : Rect) (hw : InRaster w rows cols) :
    ∃ L, b.fillWindow off w = some L ∧
      L.Perm (Spec.window (get t) w.top w.bottom w.left w.right) := by
  have hk : 0 < k := by have := hs.arity; omega
  have hblk := h i b hb
  obtain ⟨e, rfl⟩ := exponent_pos hs.shape hs.rows_le hs.cols_le
  obtain ⟨NS, hS⟩ := snapLayout_of_build hk hblk.snapshot
  have ht' := ht
  obtain ⟨b', h1, h2, h3⟩ := ht'
  cases off with
  | zero =>
    unfold Block.fillWindow
    simp only
    rw [show t = blocksLen (bs.take i) by omega]
    exact hS.fillWindow hs.arity hs.rows_le hs.cols_le w hw
  | succ off =>
    obtain ⟨l, hl⟩ := ht.log hb
    unfold Block.fillWindow
    simp only [hl]
    have hbl := hblk.logs off l hl
    obtain ⟨N, hL⟩ := logLayout_of_build hk hbl
    have hn := ok b (List.mem_of_getElem? hb) l (List.mem_of_getElem? hl)
    have e1 : blocksLen (bs.take i) + 1 + off = t := by omega
    rw [e1] at hL
    have := hno _ _ ht.pair
    rw [show t - (off + 1) = blocksLen (bs.take i) by omega] at this
    exact hL.fillWindow hS hs.arity this hn.2 hn.1 hs.rows_le hs.cols_le w hw

theorem block_search (h : BlocksOf get rows cols k e bs) (hs : ShapeOk rows cols k e)
    (ht : Holds bs t i off) (hb : bs[i]? = some b)
    (hno : ∀ t0 t, LogPair bs t0 t → NoOverflow (get t0) (get t) rows cols)
    (safe : ∀ t0, LogPair bs t0 t → SearchSafe (get t0) (get t) rows cols (k ^ e))
    (w : Rect) (hw : InRaster w rows cols) (lower upper : Int64) :
    ∃ L, b.searchWindow off w lower upper = some L ∧
      L.Perm (Spec.hits (get t) w.top w.bottom w.left w.right lower upper) := by
  have hk : 0 < k := by have := hs.arity; omega
  have hblk := h i b hb
  obtain ⟨e, rfl⟩ := exponent_pos hs.shape hs.rows_le hs.cols_le
  obtain ⟨NS, hS⟩ := snapLayout_of_build hk hblk.snapshot
  have ht' := ht
  obtain ⟨b', h1, h2, h3⟩ := ht'
  cases off with
  | zero =>
    unfold Block.searchWindow
    simp only
    rw [show t = blocksLen (bs.take i) by omega]
    exact hS.searchWindow hs.arity hs.rows_le hs.cols_le w hw lower upper
  | succ off =>
    obtain ⟨l, hl⟩ := ht.log hb
    unfold Block.searchWindow
    simp only [hl]
    have hbl := hblk.logs off l hl
    obtain ⟨N, hL⟩ := logLayout_of_build hk hbl
    have e1 : blocksLen (bs.take i) + 1 + off = t := by omega
    rw [e1] at hL
    have h4 := hno _ _ ht.pair
    have h5 := safe _ ht.pair
    rw [show t - (off + 1) = blocksLen (bs.take i) by omega] at h4 h5
    exact hL.searchWindow hS hs.arity h4 hs.rows_le hs.cols_le h5 w hw lower upper

/-- A search of a log whose pair is not `SearchSafe` is wrong for some interval. -/
theorem block_search_unsafe (h : BlocksOf get rows cols k e bs) (hs : ShapeOk rows cols k e)
    (h0 : 0 < rows ∧ 0 < cols)
    (ht : Holds bs t i off) (hb : bs[i]? = some b)
    (hm : ∀ t', t' ≤ t → Moderate (get t') rows cols)
    (uns : ∃ t0, LogPair bs t0 t ∧ ¬ SearchSafe (get t0) (get t) rows cols (k ^ e)) :
    ∃ lower upper L, lower ≤ upper ∧ b.searchWindow off ⟨0, rows, 0, cols⟩ lower upper = some L ∧
      ¬ L.Perm (Spec.hits (get t) 0 rows 0 cols lower upper) := by
  have hk : 0 < k := by have := hs.arity; omega
  have hblk := h i b hb
  obtain ⟨e, rfl⟩ := exponent_pos hs.shape hs.rows_le hs.cols_le
  obtain ⟨NS, hS⟩ := snapLayout_of_build hk hblk.snapshot
  obtain ⟨t0, ⟨i', off', hh, hpos, hsum⟩, uns⟩ := uns
  obtain ⟨rfl, rfl⟩ := ht.unique hh
  have ht' := ht
  obtain ⟨b', h1, h2, h3⟩ := ht'
  cases off with
  | zero => omega
  | succ off =>
    obtain ⟨l, hl⟩ := ht.log hb
    unfold Block.searchWindow
    simp only [hl]
    have hbl := hblk.logs off l hl
    obtain ⟨N, hL⟩ := logLayout_of_build hk hbl
    have e1 : blocksLen (bs.take i) + 1 + off = t := by omega
    rw [e1] at hL
    rw [show t0 = blocksLen (bs.take i) by omega] at uns
    exact hL.searchWindow_unsafe hS hs.arity (hm _ (by omega)) (hm _ (by omega)) hs.rows_le
      hs.cols_le h0.1 h0.2 uns

/-- A window of a log or snapshot, whatever the rasters. -/
theorem block_fill_any (h : BlocksOf get rows cols k e bs) (hs : ShapeOk rows cols k e)
    (ht : Holds bs t i off) (hb : bs[i]? = some b) (ok : LogsOk bs) {D : Nat → Nat → Int64}
    (hD : ∀ r c, r < rows → c < cols → b.get off r c = some (D r c))
    (w : Rect) (hw : InRaster w rows cols) :
    ∃ L, b.fillWindow off w = some L ∧ L.Perm (Spec.window D w.top w.bottom w.left w.right) := by
  have hk : 0 < k := by have := hs.arity; omega
  have hblk := h i b hb
  have hcongr : ∀ D', (∀ r c, r < rows → c < cols → D' r c = D r c) →
      Spec.window D' w.top w.bottom w.left w.right = Spec.window D w.top w.bottom w.left w.right := by
    intro D' e
    obtain ⟨w1, w2, w3, w4⟩ := hw
    unfold Spec.window
    refine List.map_congr_left fun p hp => ?_
    unfold Spec.cells at hp
    simp only [List.mem_flatMap, List.mem_map, List.mem_range'_1] at hp
    obtain ⟨r, hr, c, hc, rfl⟩ := hp
    simp only
    rw [e r c (by omega) (by omega)]
  cases off with
  | zero =>
    rw [← hcongr (get t) fun r c hr hc => Option.some.inj
      ((block_get_zero h hs ht hb r c hr hc).symm.trans (hD r c hr hc))]
    obtain ⟨e, rfl⟩ := exponent_pos hs.shape hs.rows_le hs.cols_le
    obtain ⟨NS, hS⟩ := snapLayout_of_build hk hblk.snapshot
    obtain ⟨b', h1, h2, h3⟩ := ht
    unfold Block.fillWindow
    simp only
    rw [show t = blocksLen (bs.take i) by omega]
    exact hS.fillWindow hs.arity hs.rows_le hs.cols_le w hw
  | succ off =>
    rw [← hcongr (logCell (get (t - (off + 1))) (get t) rows cols k e 0 0) fun r c hr hc => Option.some.inj
      ((block_get_log h hs ht hb ok r c hr hc).symm.trans (hD r c hr hc))]
    obtain ⟨e, rfl⟩ := exponent_pos hs.shape hs.rows_le hs.cols_le
    obtain ⟨NS, hS⟩ := snapLayout_of_build hk hblk.snapshot
    obtain ⟨l, hl⟩ := ht.log hb
    obtain ⟨b', h1, h2, h3⟩ := ht
    unfold Block.fillWindow
    simp only [hl]
    have hbl := hblk.logs off l hl
    obtain ⟨N, hL⟩ := logLayout_of_build hk hbl
    have hn := ok b (List.mem_of_getElem? hb) l (List.mem_of_getElem? hl)
    have e1 : blocksLen (bs.take i) + 1 + off = t := by omega
    rw [e1] at hL
    rw [show t - (off + 1) = blocksLen (bs.take i) by omega]
    exact hL.fillWindowV hS hs.arity (fun _ _ _ => rfl) hn.2 hn.1 hs.rows_le hs.cols_le w hw

/-- A search of a log or snapshot, whatever the rasters. -/
theorem block_search_any (h : BlocksOf get rows cols k e bs) (hs : ShapeOk rows cols k e)
    (ht : Holds bs t i off) (hb : bs[i]? = some b) (lower upper : Int64) :
    ∃ χ : Nat → Nat → Bool, ∀ w : Rect, InRaster w rows cols →
      ∃ L, b.searchWindow off w lower upper = some L ∧
        L.Perm ((Spec.cells w.top w.bottom w.left w.right).filter fun p => χ p.1 p.2) := by
  have hk : 0 < k := by have := hs.arity; omega
  have hblk := h i b hb
  obtain ⟨e, rfl⟩ := exponent_pos hs.shape hs.rows_le hs.cols_le
  obtain ⟨NS, hS⟩ := snapLayout_of_build hk hblk.snapshot
  cases off with
  | zero =>
    unfold Block.searchWindow
    simp only
    exact ⟨fun r c => decide (lower ≤ get (blocksLen (bs.take i)) r c ∧
      get (blocksLen (bs.take i)) r c ≤ upper),
      fun w hw => hS.searchWindow hs.arity hs.rows_le hs.cols_le w hw lower upper⟩
  | succ off =>
    obtain ⟨l, hl⟩ := ht.log hb
    unfold Block.searchWindow
    simp only [hl]
    have hbl := hblk.logs off l hl
    obtain ⟨N, hL⟩ := logLayout_of_build hk hbl
    exact hL.searchWindow_finds hS hs.arity lower upper hs.rows_le hs.cols_le
end

/-! ### Loops over instants -/

theorem collect_forall₂ {α β γ} (R : γ → α → Prop) (f : α → Option (List β)) (g : γ → List β)
    (hR : ∀ t a, R t a → ∃ L, f a = some L ∧ L.Perm (g t)) :
    ∀ (ts : List γ) (as : List α), List.Forall₂ R ts as →
      ∃ L, collect as f = some L ∧ L.Perm (ts.flatMap g) := by
  intro ts as h
  induction h with
  | nil => exact ⟨[], rfl, .refl _⟩
  | cons h1 h2 ih =>
    obtain ⟨L1, e1, p1⟩ := hR _ _ h1
    obtain ⟨L2, e2, p2⟩ := ih
    refine ⟨L1 ++ L2, ?_, by rw [List.flatMap_cons]; exact p1.append p2⟩
    rw [collect, e1]; simp only; rw [e2]

theorem forall₂_zipIdx {α} (R : Nat → α → Prop) : ∀ (n t m : Nat) (as : List α),
    List.Forall₂ R (List.range' t n) as →
    List.Forall₂ (fun t' p => R t' p.1 ∧ t' + m = t + p.2) (List.range' t n) (as.zipIdx m) := by
  intro n
  induction n with
  | zero => intro t m as h; cases h; exact .nil
  | succ n ih =>
    intro t m as h
    rw [List.range'_succ] at h ⊢
    cases h with
    | cons h1 h2 =>
      rw [List.zipIdx_cons]
      refine .cons ⟨h1, rfl⟩ ?_
      have := ih (t + 1) (m + 1) _ h2
      exact this.imp fun a p hp => ⟨hp.1, by omega⟩

theorem iterList_spec (bs : List Block) (enc : MMEncoding) (fb start fin : Nat) (hne : bs ≠ [])
    (h1 : start ≤ fin) (h2 : fin ≤ blocksLen bs) :
    ∃ L, (Chunk.new bs enc fb).iterList start fin = some L ∧
      List.Forall₂ (fun t p => Holds bs t p.1.1 p.1.2 ∧ p.2 = t - start ∧ t < fin)
        (List.range' start (fin - start)) L := by
  obtain ⟨i, off, e1, h3⟩ := chunk_iter bs enc fb start fin hne h1 h2
  obtain ⟨L, e2, h4⟩ := iter_toList bs enc fb (fin - start) (fin - start + 1) start i off h3
    (by omega) (by omega)
  unfold Chunk.iterList
  rw [e1]
  simp only
  rw [e2]
  refine ⟨L.zipIdx, rfl, ?_⟩
  have h5 := forall₂_zipIdx _ (fin - start) start 0 L h4
  rw [List.forall₂_iff_get] at h5 ⊢
  refine ⟨h5.1, fun j hj1 hj2 => ?_⟩
  have h6 := h5.2 j hj1 hj2
  refine ⟨h6.1, by omega, ?_⟩
  have : (List.range' start (fin - start)).get ⟨j, hj1⟩ ∈ List.range' start (fin - start) :=
    List.get_mem _ _
  rw [List.mem_range'_1] at this
  omega

/-! ### The search iterator -/

/-- Draining the search iterator from a state with results `xs` pending, when the searches of the
`n` remaining instants give the lists `g t`. -/
theorem search_toList (bs : List Block) (enc : MMEncoding) (fb : Nat) (w : Rect)
    (lower upper : Int64) (g : Nat → List (Nat × Nat)) :
    ∀ n t i off, (n = 0 ∨ Holds bs t i off) → t + n ≤ blocksLen bs →
      (∀ t' i' off' b, t ≤ t' → t' < t + n → Holds bs t' i' off' → bs[i']? = some b →
        b.searchWindow off' w lower upper = some (g t')) →
      ∀ xs fuel, 0 < t →
        xs.length + ((List.range' t n).flatMap g).length < fuel →
        SearchIter.toList (Chunk.new bs enc fb) fuel ⟨⟨i, off, n⟩, w, lower, upper, t, some xs⟩ =
          some (xs.map (fun p => (t - 1, p)) ++
            (List.range' t n).flatMap fun t => (g t).map fun p => (t, p)) := by
  intro n
  induction n with
  | zero =>
    intro t i off _ _ _ xs
    induction xs with
    | nil =>
      intro fuel ht hf
      obtain ⟨fuel, rfl⟩ : ∃ f, fuel = f + 1 := ⟨fuel - 1, by omega⟩
      simp [SearchIter.toList, SearchIter.next, SearchIter.skip, SearchIter.nextResults,
        ChunkIter.next]
    | cons x xs ih =>
      intro fuel ht hf
      obtain ⟨fuel, rfl⟩ : ∃ f, fuel = f + 1 := ⟨fuel - 1, by omega⟩
      simp only [SearchIter.toList, SearchIter.next]
      rw [show csub t 1 = some (t - 1) by unfold csub; rw [if_pos (by omega)]]
      simp only
      rw [ih fuel ht (by simp at hf ⊢; omega)]
      simp
  | succ n ihn =>
    intro t i off h hle hg xs
    have h : Holds bs t i off := by rcases h with h | h; omega; exact h
    have l := h.lt
    have hb : bs[i]? = some bs[i] := List.getElem?_eq_getElem l
    induction xs with
    | nil =>
      intro fuel ht hf
      -- the next state has the results of instant `t` pending
      have hs := hg t i off _ (by omega) (by omega) h hb
      obtain ⟨i', off', hn, hh⟩ : ∃ i' off',
          (ChunkIter.next (Chunk.new bs enc fb) ⟨i, off, n + 1⟩ =
            some (some ((i, off), ⟨i', off', n⟩))) ∧ (n = 0 ∨ Holds bs (t + 1) i' off') := by
        have hn := fun hlt => h.next hb hlt
        by_cases hc : off = (bs[i]).logs.length
        · refine ⟨i + 1, 0, ?_, ?_⟩
          · simp only [ChunkIter.next, Chunk.new, Nat.add_one_ne_zero, if_false, hb, if_pos hc,
              Nat.add_sub_cancel]
          · rcases Nat.eq_zero_or_pos n with h0 | h0
            · exact .inl h0
            · have := hn (by omega)
              rw [if_pos hc] at this
              exact .inr this
        · refine ⟨i, off + 1, ?_, ?_⟩
          · simp only [ChunkIter.next, Chunk.new, Nat.add_one_ne_zero, if_false, hb, if_neg hc,
              Nat.add_sub_cancel]
          · rcases Nat.eq_zero_or_pos n with h0 | h0
            · exact .inl h0
            · have := hn (by omega)
              rw [if_neg hc] at this
              exact .inr this
      have hres : SearchIter.nextResults (Chunk.new bs enc fb)
          ⟨⟨i, off, n + 1⟩, w, lower, upper, t, some []⟩ =
          some ⟨⟨i', off', n⟩, w, lower, upper, t + 1, some (g t)⟩ := by
        unfold SearchIter.nextResults
        simp only [hn]
        simp only [Chunk.new, hb, hs]
      have ih := ihn (t + 1) i' off' hh (by omega)
        (fun t' i' off' b a1 a2 a3 a4 => hg t' i' off' b (by omega) (by omega) a3 a4)
      obtain ⟨fuel, rfl⟩ : ∃ f, fuel = f + 1 := ⟨fuel - 1, by omega⟩
      -- both states give the same next item
      have same : SearchIter.next (Chunk.new bs enc fb)
            ⟨⟨i, off, n + 1⟩, w, lower, upper, t, some []⟩ =
          SearchIter.next (Chunk.new bs enc fb)
            ⟨⟨i', off', n⟩, w, lower, upper, t + 1, some (g t)⟩ := by
        unfold SearchIter.next
        simp only
        rw [SearchIter.skip, hres]
        cases g t with
        | nil => rfl
        | cons x xs => rfl
      have := ih (g t) (fuel + 1) (by omega) (by
        rw [List.range'_succ, List.flatMap_cons, List.length_append, List.length_nil] at hf
        omega)
      rw [SearchIter.toList] at this ⊢
      rw [same]
      rw [this, List.range'_succ, List.flatMap_cons]
      simp
    | cons x xs ih =>
      intro fuel ht hf
      obtain ⟨fuel, rfl⟩ : ∃ f, fuel = f + 1 := ⟨fuel - 1, by omega⟩
      simp only [SearchIter.toList, SearchIter.next]
      rw [show csub t 1 = some (t - 1) by unfold csub; rw [if_pos (by omega)]]
      simp only
      rw [ih fuel ht (by simp at hf ⊢; omega)]
      simp

/-- Starting a search and draining it. -/
theorem iterSearch_spec (bs : List Block) (enc : MMEncoding) (fb : Nat) (hne : bs ≠ [])
    (w : Cube) (h1 : w.start ≤ w.fin) (h2 : w.fin ≤ blocksLen bs)
    (lower upper : Int64) (g : Nat → List (Nat × Nat))
    (hg : ∀ t' i' off' b, w.start ≤ t' → t' < w.fin → Holds bs t' i' off' → bs[i']? = some b →
        b.searchWindow off' w.rect (rearrangeI lower upper).1 (rearrangeI lower upper).2
          = some (g t')) :
    ∃ it, (Chunk.new bs enc fb).iterSearch w lower upper = some it ∧
      ∀ fuel, ((List.range' w.start (w.fin - w.start)).flatMap g).length < fuel →
        it.toList (Chunk.new bs enc fb) fuel = some
          ((List.range' w.start (w.fin - w.start)).flatMap fun t => (g t).map fun p => (t, p)) := by
  obtain ⟨i, off, e1, h3⟩ := chunk_iter bs enc fb w.start w.fin hne h1 h2
  unfold Chunk.iterSearch
  rw [e1]
  simp only
  by_cases h0 : w.fin - w.start = 0
  · rw [h0]
    refine ⟨_, by simp [SearchIter.nextResults, ChunkIter.next]; rfl, ?_⟩
    intro fuel hf
    obtain ⟨fuel, rfl⟩ : ∃ f, fuel = f + 1 := ⟨fuel - 1, by omega⟩
    simp [SearchIter.toList, SearchIter.next]
  · have h : Holds bs w.start i off := by rcases h3 with h | h; omega; exact h
    obtain ⟨n, hn⟩ : ∃ n, w.fin - w.start = n + 1 := ⟨w.fin - w.start - 1, by omega⟩
    have l := h.lt
    have hb : bs[i]? = some bs[i] := List.getElem?_eq_getElem l
    have hs := hg w.start i off _ (by omega) (by omega) h hb
    rw [hn]
    obtain ⟨i', off', hnx, hh⟩ : ∃ i' off',
        (ChunkIter.next (Chunk.new bs enc fb) ⟨i, off, n + 1⟩ =
          some (some ((i, off), ⟨i', off', n⟩))) ∧ (n = 0 ∨ Holds bs (w.start + 1) i' off') := by
      have hnx := fun hlt => h.next hb hlt
      by_cases hc : off = (bs[i]).logs.length
      · refine ⟨i + 1, 0, ?_, ?_⟩
        · simp only [ChunkIter.next, Chunk.new, Nat.add_one_ne_zero, if_false, hb, if_pos hc,
            Nat.add_sub_cancel]
        · rcases Nat.eq_zero_or_pos n with h0 | h0
          · exact .inl h0
          · have := hnx (by omega)
            rw [if_pos hc] at this
            exact .inr this
      · refine ⟨i, off + 1, ?_, ?_⟩
        · simp only [ChunkIter.next, Chunk.new, Nat.add_one_ne_zero, if_false, hb, if_neg hc,
            Nat.add_sub_cancel]
        · rcases Nat.eq_zero_or_pos n with h0 | h0
          · exact .inl h0
          · have := hnx (by omega)
            rw [if_neg hc] at this
            exact .inr this
    refine ⟨⟨⟨i', off', n⟩, w.rect, (rearrangeI lower upper).1, (rearrangeI lower upper).2, w.start + 1,
      some (g w.start)⟩, ?_, ?_⟩
    · unfold SearchIter.nextResults
      simp only [hnx]
      simp only [Chunk.new, hb, hs]
    · intro fuel hf
      rw [search_toList bs enc fb w.rect _ _ g n (w.start + 1) i' off' hh (by omega)
        (fun t' i' off' b a1 a2 a3 a4 => hg t' i' off' b (by omega) (by omega) a3 a4)
        (g w.start) fuel (by omega) (by
          rw [List.range'_succ, List.flatMap_cons, List.length_append] at hf
          omega)]
      rw [List.range'_succ, List.flatMap_cons]
      simp

/-- Whatever the series is, a search of a chunk returns, and what it finds in a window does not depend on
the rest of the window. -/
theorem chunk_finds {get : Nat → Nat → Nat → Int64} {rows cols k e : Nat} {bs : List Block}
    (h : BlocksOf get rows cols k e bs) (hs : ShapeOk rows cols k e) (hne : bs ≠ []) (enc : MMEncoding)
    (fb : Nat) (lower upper : Int64) :
    ∃ found : Nat → Nat → Nat → Bool, ∀ start fin top bottom left right, start ≤ fin →
      fin ≤ blocksLen bs → top < bottom → left < right → bottom ≤ rows → right ≤ cols →
      ∃ it L, (Chunk.new bs enc fb).iterSearch ⟨start, fin, top, bottom, left, right⟩ lower upper =
          some it ∧ (∀ fuel, L.length < fuel → it.toList (Chunk.new bs enc fb) fuel = some L) ∧
        L.Perm ((List.range' start (fin - start)).flatMap fun t =>
          ((Spec.cells top bottom left right).filter fun p => found t p.1 p.2).map fun p => (t, p)) := by
  have each : ∀ t, ∃ χ : Nat → Nat → Bool, t < blocksLen bs → ∀ w : Rect, InRaster w rows cols → ∃ L,
      (∀ i off b, Holds bs t i off → bs[i]? = some b →
        b.searchWindow off w (rearrangeI lower upper).1 (rearrangeI lower upper).2 = some L) ∧
      L.Perm ((Spec.cells w.top w.bottom w.left w.right).filter fun p => χ p.1 p.2) := by
    intro t
    by_cases ht : t < blocksLen bs
    · obtain ⟨i, off, hh⟩ := exists_holds bs t ht
      obtain ⟨χ, hχ⟩ := block_search_any h hs hh (List.getElem?_eq_getElem hh.lt)
        (rearrangeI lower upper).1 (rearrangeI lower upper).2
      refine ⟨χ, fun _ w hw => ?_⟩
      obtain ⟨L, e1, p⟩ := hχ w hw
      refine ⟨L, fun i' off' b' h' hb' => ?_, p⟩
      obtain ⟨rfl, rfl⟩ := hh.unique h'
      rw [List.getElem?_eq_getElem hh.lt] at hb'
      obtain rfl := Option.some.inj hb'
      exact e1
    · exact ⟨fun _ _ => false, fun x => absurd x ht⟩
  choose found hfound using each
  refine ⟨found, fun start fin top bottom left right a1 a2 a3 a4 a5 a6 => ?_⟩
  have hr : (Cube.mk start fin top bottom left right).rect = ⟨top, bottom, left, right⟩ := by
    unfold Cube.rect Rect.new rearrange
    simp only
    rw [if_neg (by omega), if_neg (by omega)]
  have lists : ∀ t, ∃ L, start ≤ t → t < fin → (∀ i off b, Holds bs t i off → bs[i]? = some b →
        b.searchWindow off ⟨top, bottom, left, right⟩ (rearrangeI lower upper).1
          (rearrangeI lower upper).2 = some L) ∧
      L.Perm ((Spec.cells top bottom left right).filter fun p => found t p.1 p.2) := by
    intro t
    by_cases ht : start ≤ t ∧ t < fin
    · obtain ⟨L, hL⟩ := hfound t (by omega) ⟨top, bottom, left, right⟩ ⟨a3, a4, a5, a6⟩
      exact ⟨L, fun _ _ => hL⟩
    · exact ⟨[], fun x y => absurd ⟨x, y⟩ ht⟩
  choose g hg using lists
  obtain ⟨it, e1, h4⟩ := iterSearch_spec bs enc fb hne ⟨start, fin, top, bottom, left, right⟩ a1
    a2 lower upper g (by
      intro t' i' off' b b1 b2 b3 b4
      rw [hr]
      exact (hg t' b1 b2).1 i' off' b b3 b4)
  refine ⟨it, _, e1, fun fuel hf => h4 fuel ?_, ?_⟩
  · refine Nat.lt_of_le_of_lt (Nat.le_of_eq ?_) hf
    simp [List.length_flatMap, Function.comp_def]
  · refine List.Perm.flatMap_left _ fun t ht => ?_
    rw [List.mem_range'_1] at ht
    simp only at ht
    exact ((hg t (by omega) (by omega)).2).map _

end Verif
