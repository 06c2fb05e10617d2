import Verif.Lemmas.CheckedSearch
import Verif.Lemmas.ChunkRead

/-! Chunks with overflow checks. -/
namespace Verif

section
variable {get : Nat → Nat → Nat → Int64} {rows cols k e : Nat}

/-- No sum or difference that a read of the block takes overflows. -/
def BlockFits (get : Nat → Nat → Nat → Int64) (rows cols k e t0 : Nat) (b : Block) : Prop :=
  (∀ N, SnapLayout (get t0) rows cols k b.snapshot e N → SnapSafe N) ∧
    ∀ (j : Nat) l, b.logs[j]? = some l → CellsFit (get t0) (get (t0 + 1 + j)) rows cols ∧
      ∀ N, LogLayout (get t0) (get (t0 + 1 + j)) rows cols k l e N → LogSafe N

def BlocksFit (get : Nat → Nat → Nat → Int64) (rows cols k e : Nat) (bs : List Block) : Prop :=
  ∀ (i : Nat) b, bs[i]? = some b → BlockFits get rows cols k e (blocksLen (bs.take i)) b

theorem snoc_cases {α : Type} {l : List α} {a x : α} {i : Nat} (h : (l ++ [a])[i]? = some x) :
    (i < l.length ∧ l[i]? = some x) ∨ (i = l.length ∧ a = x) := by
  rw [List.getElem?_append] at h
  by_cases hl : i < l.length
  · rw [if_pos hl] at h
    exact Or.inl ⟨hl, h⟩
  · rw [if_neg hl] at h
    have hi0 : i - l.length = 0 := by
      by_contra hc
      rw [List.getElem?_eq_none (by simp; omega)] at h
      simp at h
    rw [hi0] at h
    simp at h
    exact Or.inr ⟨by omega, h⟩

theorem BlocksFit.push {bs b} (h : BlocksFit get rows cols k e bs)
    (hb : BlockFits get rows cols k e (blocksLen bs) b) : BlocksFit get rows cols k e (bs ++ [b]) := by
  intro i b' hi
  rcases snoc_cases hi with ⟨hl, hi⟩ | ⟨rfl, rfl⟩
  · rw [List.take_append_of_le_length (by omega)]
    exact h i b' hi
  · rw [List.take_left]
    exact hb

theorem buildStepC_some {st st' i} (hk : 0 < k) (hr : rows ≤ k ^ e) (hc : cols ≤ k ^ e)
    (inv : BuildInv get rows cols k e st i) (h1 : BlocksFit get rows cols k e st.blocks)
    (h2 : BlockFits get rows cols k e st.snapshotIndex ⟨st.snapshot, st.logs⟩)
    (h : Chunk.buildStepC get rows cols k e st i = some st') :
    Chunk.buildStep get rows cols k e st i = some st' ∧ BlocksFit get rows cols k e st'.blocks ∧
      BlockFits get rows cols k e st'.snapshotIndex ⟨st'.snapshot, st'.logs⟩ := by
  unfold Chunk.buildStepC at h
  cases hs : Snapshot.buildC (get i) rows cols k e with
  | none => rw [hs] at h; simp at h
  | some s =>
  cases hl : Log.buildC (get st.snapshotIndex) (get i) rows cols k e with
  | none => rw [hs, hl] at h; simp at h
  | some l =>
  obtain ⟨s1, s2⟩ := snapshot_buildC_some hs
  obtain ⟨l1, l2, l3⟩ := log_buildC_some hk hr hc hl
  rw [hs, hl] at h
  unfold Chunk.buildStep
  rw [s1, l1]
  refine ⟨h, ?_⟩
  simp only at h
  by_cases hcond : st.logs.length = 254 ∨ s.size ≤ l.size
  · rw [if_pos hcond] at h
    cases hb : Block.new st.snapshot st.logs with
    | none => rw [hb] at h; simp at h
    | some b =>
      rw [hb] at h
      simp only [Option.some.injEq] at h
      subst h
      have hb' : b = ⟨st.snapshot, st.logs⟩ := by
        unfold Block.new at hb
        split at hb
        · simp at hb
        · exact (Option.some.inj hb).symm
      subst hb'
      rw [inv.index] at h2
      exact ⟨h1.push h2, s2, fun j l' hl' => by simp at hl'⟩
  · rw [if_neg hcond] at h
    simp only [Option.some.injEq] at h
    subst h
    refine ⟨h1, h2.1, ?_⟩
    intro j l' hl'
    rcases snoc_cases hl' with ⟨-, hl'⟩ | ⟨rfl, rfl⟩
    · exact h2.2 j l' hl'
    · have : st.snapshotIndex + 1 + st.logs.length = i := by
        have := inv.count; have := inv.index; omega
      simp only [this]
      exact ⟨l2, l3⟩

theorem buildFoldC_some (hk : 0 < k) (hr : rows ≤ k ^ e) (hc : cols ≤ k ^ e) : ∀ n st st' i,
    BuildInv get rows cols k e st i → BlocksFit get rows cols k e st.blocks →
    BlockFits get rows cols k e st.snapshotIndex ⟨st.snapshot, st.logs⟩ →
    (List.range' i n).foldlM (Chunk.buildStepC get rows cols k e) st = some st' →
    (List.range' i n).foldlM (Chunk.buildStep get rows cols k e) st = some st' ∧
      BuildInv get rows cols k e st' (i + n) ∧ BlocksFit get rows cols k e st'.blocks ∧
      BlockFits get rows cols k e st'.snapshotIndex ⟨st'.snapshot, st'.logs⟩ := by
  intro n
  induction n with
  | zero =>
    intro st st' i inv h1 h2 h
    simp at h
    subst h
    exact ⟨rfl, inv, h1, h2⟩
  | succ n ih =>
    intro st st' i inv h1 h2 h
    rw [List.range'_succ, List.foldlM_cons] at h ⊢
    cases hst : Chunk.buildStepC get rows cols k e st i with
    | none => rw [hst] at h; simp at h
    | some st1 =>
      rw [hst] at h
      obtain ⟨a1, a2, a3⟩ := buildStepC_some hk hr hc inv h1 h2 hst
      obtain ⟨st1', b1, b2⟩ := buildStep_inv hk inv
      rw [a1] at b1
      obtain rfl := Option.some.inj b1
      obtain ⟨c1, c2, c3⟩ := ih st1 st' (i + 1) b2 a2 a3 h
      rw [a1]
      exact ⟨c1, by rw [show i + (n + 1) = i + 1 + n by omega]; exact c2, c3⟩

/-- A build with checks that succeeds. -/
theorem chunk_buildC_some {instants : Nat} (hk : 0 < k) (hr : rows ≤ k ^ e) (hc : cols ≤ k ^ e)
    (hi : 1 ≤ instants) {enc : MMEncoding} {fb : Nat} {r : Chunk.Build}
    (h : Chunk.buildC get instants rows cols k e enc fb = some r) :
    Chunk.build get instants rows cols k e enc fb = some r ∧
      ∃ bs, r.data = Chunk.new bs enc fb ∧ BlocksOf get rows cols k e bs ∧
        BlocksFit get rows cols k e bs ∧ bs ≠ [] ∧ blocksLen bs = instants := by
  unfold Chunk.buildC at h
  cases hs : Snapshot.buildC (get 0) rows cols k e with
  | none => rw [hs] at h; simp at h
  | some s =>
  obtain ⟨s1, s2⟩ := snapshot_buildC_some hs
  rw [hs] at h
  simp only [rangeExcl] at h
  unfold Chunk.build
  rw [s1]
  simp only [rangeExcl]
  cases hf : (List.range' 1 (instants - 1)).foldlM (Chunk.buildStepC get rows cols k e)
      ⟨0, 0, [], s, 0, []⟩ with
  | none => rw [hf] at h; simp at h
  | some st =>
  rw [hf] at h
  obtain ⟨a1, a2, a3, a4⟩ := buildFoldC_some hk hr hc (instants - 1) ⟨0, 0, [], s, 0, []⟩ st 1
    ⟨fun i b h => by simp at h, rfl, ⟨s1, fun j l hl => by simp at hl, by simp⟩, rfl, rfl, rfl⟩
    (fun i b h => by simp at h) ⟨s2, fun j l hl => by simp at hl⟩ hf
  rw [a1]
  refine ⟨h, ?_⟩
  simp only at h
  have hb : Block.new st.snapshot st.logs = some ⟨st.snapshot, st.logs⟩ := by
    have := a2.current.limit
    simp only at this
    unfold Block.new
    rw [if_neg (by omega)]
  rw [hb] at h
  simp only [Option.some.injEq] at h
  have hcur := a2.current
  rw [a2.index] at a4 hcur
  refine ⟨st.blocks ++ [⟨st.snapshot, st.logs⟩], by rw [← h], a2.blocks.push hcur, a3.push a4, by simp,
    ?_⟩
  simp [Block.len]; have := a2.count; omega

/-- For numbers in the middle half of the range no check fails. -/
theorem chunk_buildC_of_mid {instants : Nat} (hk : 0 < k)
    (h : ∀ t, t < instants → Mid (get t) rows cols) (hi : 1 ≤ instants) (enc : MMEncoding) (fb : Nat) :
    Chunk.buildC get instants rows cols k e enc fb = Chunk.build get instants rows cols k e enc fb := by
  have hsn : ∀ t, t < instants → Snapshot.buildC (get t) rows cols k e = Snapshot.build (get t) rows cols k e :=
    fun t ht => snapshot_buildC_of (snapSafe_of_mid hk (h t ht))
  have hlg : ∀ t0 t, t0 < instants → t < instants → Log.buildC (get t0) (get t) rows cols k e =
      Log.build (get t0) (get t) rows cols k e :=
    fun t0 t h0 ht => log_buildC_of ((h t0 h0).cellsFit (h t ht)) (logSafe_of_mid hk (h t0 h0) (h t ht))
  have hfold : ∀ n st i, i + n ≤ instants → st.snapshotIndex < i →
      (List.range' i n).foldlM (Chunk.buildStepC get rows cols k e) st =
        (List.range' i n).foldlM (Chunk.buildStep get rows cols k e) st := by
    intro n
    induction n with
    | zero => intros; rfl
    | succ n ih =>
      intro st i hi hst
      rw [List.range'_succ, List.foldlM_cons, List.foldlM_cons]
      have hstep : Chunk.buildStepC get rows cols k e st i = Chunk.buildStep get rows cols k e st i := by
        unfold Chunk.buildStepC Chunk.buildStep
        rw [hsn i (by omega), hlg _ _ (by omega) (by omega)]
        rfl
      rw [hstep]
      cases hst' : Chunk.buildStep get rows cols k e st i with
      | none => rfl
      | some st' =>
        refine ih st' (i + 1) (by omega) ?_
        unfold Chunk.buildStep at hst'
        split at hst'
        · split at hst'
          · split at hst'
            · simp at hst'
            · simp only [Option.some.injEq] at hst'
              subst hst'
              simp
          · simp only [Option.some.injEq] at hst'
            subst hst'
            simp only; omega
        · simp at hst'
  unfold Chunk.buildC Chunk.build
  rw [hsn 0 (by omega)]
  cases Snapshot.build (get 0) rows cols k e with
  | none => rfl
  | some s =>
    simp only [rangeExcl]
    rw [hfold _ _ _ (by omega) (by simp)]
    rfl

variable {t0 : Nat} {b : Block}

theorem blockC_get (hb : BlockOf get rows cols k e t0 b) (hs : ShapeOk rows cols k e)
    (safe : BlockFits get rows cols k e t0 b) (instant row col : Nat) (hr : row < rows) (hc : col < cols) :
    b.getC instant row col = b.get instant row col := by
  have hk : 0 < k := by have := hs.arity; omega
  have := hs.rows_le
  have := hs.cols_le
  obtain ⟨e, rfl⟩ := exponent_pos hs.shape hs.rows_le hs.cols_le
  obtain ⟨NS, hS⟩ := snapLayout_of_build hk hb.snapshot
  unfold Block.getC Block.get
  cases instant with
  | zero => exact hS.getC hk (safe.1 _ hS) row col (by omega) (by omega)
  | succ i =>
    simp only
    cases hl : b.logs[i]? with
    | none => rfl
    | some l =>
      obtain ⟨N, hL⟩ := logLayout_of_build hk (hb.logs i l hl)
      obtain ⟨h1, h2⟩ := safe.2 i l hl
      exact hL.getC hS hk (h2 _ hL) (safe.1 _ hS) h1 hs.rows_le hs.cols_le row col hr hc

theorem blockC_fill (hb : BlockOf get rows cols k e t0 b) (hs : ShapeOk rows cols k e)
    (safe : BlockFits get rows cols k e t0 b) (instant : Nat) (w : Rect) (hw : InRaster w rows cols) :
    b.fillWindowC instant w = b.fillWindow instant w := by
  have hk : 0 < k := by have := hs.arity; omega
  have h1 := hs.rows_le
  have h2 := hs.cols_le
  obtain ⟨e, rfl⟩ := exponent_pos hs.shape hs.rows_le hs.cols_le
  obtain ⟨NS, hS⟩ := snapLayout_of_build hk hb.snapshot
  obtain ⟨-, -, w3, w4⟩ := id hw
  unfold Block.fillWindowC Block.fillWindow
  cases instant with
  | zero => exact hS.fillWindowC hk (safe.1 _ hS) w (by omega) (by omega)
  | succ i =>
    simp only
    cases hl : b.logs[i]? with
    | none => rfl
    | some l =>
      obtain ⟨N, hL⟩ := logLayout_of_build hk (hb.logs i l hl)
      obtain ⟨h1, h2⟩ := safe.2 i l hl
      exact hL.fillWindowC hS hk (h2 _ hL) (safe.1 _ hS) h1 hs.rows_le hs.cols_le w hw

theorem blockC_search (hb : BlockOf get rows cols k e t0 b) (hs : ShapeOk rows cols k e)
    (safe : BlockFits get rows cols k e t0 b)
    (hsf : ∀ j, j < b.logs.length → SearchFits (get t0) (get (t0 + 1 + j)) rows cols)
    (instant : Nat) (w : Rect) (hw : InRaster w rows cols) (lower upper : Int64) :
    b.searchWindowC instant w lower upper = b.searchWindow instant w lower upper := by
  have hk : 0 < k := by have := hs.arity; omega
  have h1 := hs.rows_le
  have h2 := hs.cols_le
  obtain ⟨e, rfl⟩ := exponent_pos hs.shape hs.rows_le hs.cols_le
  obtain ⟨NS, hS⟩ := snapLayout_of_build hk hb.snapshot
  obtain ⟨-, -, w3, w4⟩ := id hw
  unfold Block.searchWindowC Block.searchWindow
  cases instant with
  | zero => exact hS.searchWindowC hk (safe.1 _ hS) w lower upper (by omega) (by omega)
  | succ i =>
    simp only
    cases hl : b.logs[i]? with
    | none => rfl
    | some l =>
      obtain ⟨N, hL⟩ := logLayout_of_build hk (hb.logs i l hl)
      obtain ⟨h1, h2⟩ := safe.2 i l hl
      have hi : i < b.logs.length := (List.getElem?_eq_some_iff.1 hl).1
      exact hL.searchWindowC hS hs.arity (h2 _ hL) (safe.1 _ hS) h1 (hsf i hi) hs.rows_le hs.cols_le w hw
        lower upper

end

section
variable {c : Chunk}

theorem chunkC_get (row col : Nat)
    (h : ∀ b ∈ c.blocks, ∀ i, b.getC i row col = b.get i row col) (t : Nat) :
    c.getC t row col = c.get t row col := by
  unfold Chunk.getC Chunk.get
  cases c.findBlock t with
  | none => rfl
  | some p =>
    simp only
    cases hb : c.blocks[p.1]? with
    | none => rfl
    | some b => exact h b (List.mem_of_getElem? hb) _

theorem chunkC_fillCell (row col : Nat)
    (h : ∀ b ∈ c.blocks, ∀ i, b.getC i row col = b.get i row col) (start fin : Nat) :
    c.fillCellC start fin row col = c.fillCell start fin row col := by
  unfold Chunk.fillCellC Chunk.fillCell
  cases c.iterList start fin with
  | none => rfl
  | some L =>
    simp only
    refine collect_congr fun p _ => ?_
    cases hb : c.blocks[p.1.1]? with
    | none => rfl
    | some b => simp only; rw [h b (List.mem_of_getElem? hb)]

theorem chunkC_fill (w : Cube)
    (h : ∀ b ∈ c.blocks, ∀ i, b.fillWindowC i w.rect = b.fillWindow i w.rect) :
    c.fillWindowC w = c.fillWindow w := by
  unfold Chunk.fillWindowC Chunk.fillWindow
  cases c.iterList w.start w.fin with
  | none => rfl
  | some L =>
    simp only
    refine collect_congr fun p _ => ?_
    cases hb : c.blocks[p.1.1]? with
    | none => rfl
    | some b => simp only; rw [h b (List.mem_of_getElem? hb)]

/-- The searches that an iterator makes take no sum that overflows. -/
def SearchIter.Safe (c : Chunk) (it : SearchIter) : Prop :=
  ∀ b ∈ c.blocks, ∀ i, b.searchWindowC i it.bounds it.lower it.upper =
    b.searchWindow i it.bounds it.lower it.upper

theorem nextResultsC {it : SearchIter} (h : it.Safe c) : it.nextResultsC c = it.nextResults c := by
  unfold SearchIter.nextResultsC SearchIter.nextResults
  cases it.iter.next c with
  | none => rfl
  | some o =>
    cases o with
    | none => rfl
    | some p =>
      simp only
      cases hb : c.blocks[p.1.1]? with
      | none => rfl
      | some b => simp only; rw [h b (List.mem_of_getElem? hb)]; rfl

theorem nextResults_safe {it it' : SearchIter} (h : it.Safe c) (h' : it.nextResults c = some it') :
    it'.Safe c := by
  unfold SearchIter.nextResults at h'
  split at h'
  · simp at h'
  · simp only [Option.some.injEq] at h'; subst h'; exact h
  · split at h'
    · simp at h'
    · split at h'
      · simp at h'
      · simp only [Option.some.injEq] at h'; subst h'; exact h

theorem skipC {fuel : Nat} : ∀ {it : SearchIter}, it.Safe c → it.skipC c fuel = it.skip c fuel := by
  induction fuel with
  | zero => intros; rfl
  | succ fuel ih =>
    intro it h
    simp only [SearchIter.skipC, SearchIter.skip]
    rw [nextResultsC h]
    cases hn : it.nextResults c with
    | none => rfl
    | some it' =>
      simp only
      cases it'.results with
      | none => rfl
      | some L =>
        cases L with
        | nil => exact ih (nextResults_safe h hn)
        | cons x xs => rfl

theorem skip_safe {fuel : Nat} : ∀ {it it' : SearchIter} {o}, it.Safe c →
    it.skip c fuel = some (o, it') → it'.Safe c := by
  induction fuel with
  | zero => intro it it' o h h'; simp [SearchIter.skip] at h'
  | succ fuel ih =>
    intro it it' o h h'
    simp only [SearchIter.skip] at h'
    cases hn : it.nextResults c with
    | none => rw [hn] at h'; simp at h'
    | some it1 =>
      have h1 := nextResults_safe h hn
      rw [hn] at h'
      simp only at h'
      cases hr : it1.results with
      | none => rw [hr] at h'; simp at h'; rw [← h'.2]; exact h1
      | some L =>
        rw [hr] at h'
        cases L with
        | nil => exact ih h1 h'
        | cons x xs => simp at h'; rw [← h'.2]; exact h1

theorem nextC {it : SearchIter} (h : it.Safe c) : it.nextC c = it.next c := by
  unfold SearchIter.nextC SearchIter.next
  cases it.results with
  | none => rfl
  | some L =>
    cases L with
    | nil => simp only; rw [skipC h]; rfl
    | cons x xs => rfl

theorem next_safe {it it' : SearchIter} {o} (h : it.Safe c) (h' : it.next c = some (o, it')) :
    it'.Safe c := by
  unfold SearchIter.next at h'
  cases hr : it.results with
  | none => rw [hr] at h'; simp at h'; rw [← h'.2]; exact h
  | some L =>
    rw [hr] at h'
    have fin : ∀ (found : Option (Option (Nat × Nat) × SearchIter)),
        (∀ o it', found = some (o, it') → it'.Safe c) →
        (match found with
          | none => none
          | some (none, it) => some (none, it)
          | some (some (row, col), it) =>
            match csub it.instant 1 with
            | none => none
            | some instant => some (some (instant, row, col), it) :
          Option (Option (Nat × Nat × Nat) × SearchIter)) = some (o, it') → it'.Safe c := by
      intro found hf hm
      split at hm
      · simp at hm
      · simp only [Option.some.injEq, Prod.mk.injEq] at hm
        rw [← hm.2]; exact hf _ _ rfl
      · split at hm
        · simp at hm
        · simp only [Option.some.injEq, Prod.mk.injEq] at hm
          rw [← hm.2]; exact hf _ _ rfl
    cases L with
    | nil => exact fin _ (fun o it' e => skip_safe h e) h'
    | cons x xs =>
      refine fin (some (some x, { it with results := some xs })) (fun o it' e => ?_) h'
      simp only [Option.some.injEq, Prod.mk.injEq] at e
      rw [← e.2]; exact h

theorem toListC {fuel : Nat} : ∀ {it : SearchIter}, it.Safe c → it.toListC c fuel = it.toList c fuel := by
  induction fuel with
  | zero => intros; rfl
  | succ fuel ih =>
    intro it h
    simp only [SearchIter.toListC, SearchIter.toList]
    rw [nextC h]
    cases hn : it.next c with
    | none => rfl
    | some p =>
      obtain ⟨o, it'⟩ := p
      cases o with
      | none => rfl
      | some x => simp only; rw [ih (next_safe h hn)]

theorem iterSearchC {w : Cube} {lower upper : Int64}
    (h : ∀ b ∈ c.blocks, ∀ i lo up, b.searchWindowC i w.rect lo up = b.searchWindow i w.rect lo up) :
    c.iterSearchC w lower upper = c.iterSearch w lower upper ∧
      ∀ it fuel, c.iterSearch w lower upper = some it → it.toListC c fuel = it.toList c fuel := by
  unfold Chunk.iterSearchC Chunk.iterSearch
  cases c.iter w.start w.fin with
  | none => exact ⟨rfl, fun _ _ h => by simp at h⟩
  | some it0 =>
    simp only
    have hsafe : SearchIter.Safe c ⟨it0, w.rect, (rearrangeI lower upper).1, (rearrangeI lower upper).2,
        w.start, none⟩ := fun b hb i => h b hb i _ _
    exact ⟨nextResultsC hsafe, fun it fuel hit => toListC (nextResults_safe hsafe hit)⟩

end

/-- A search that leaves the range panics. -/
theorem chunkC_search_none {get : Nat → Nat → Nat → Int64} {rows cols k e : Nat} {bs : List Block}
    {enc : MMEncoding} {fb : Nat} (hbs : BlocksOf get rows cols k e bs) (hs : ShapeOk rows cols k e)
    (safe : BlocksFit get rows cols k e bs) {t0 t : Nat} (hp : LogPair bs t0 t) (hlen : t < blocksLen bs)
    {v : Int64}
    (hv : Const (get t) rows cols v) {r c r' c' : Nat} (h1 : r < rows) (h2 : c < cols) (h3 : r' < rows)
    (h4 : c' < cols) (hlt : get t0 r c < v)
    (hmax : ∀ a b, a < rows → b < cols → get t0 a b ≤ get t0 r' c')
    (hnf : ¬ InI64 ((get t0 r c).toInt + v.toInt - (get t0 r' c').toInt)) :
    (Chunk.new bs enc fb).iterSearchC (Cube.new t (t + 1) 0 rows 0 cols) v v = none := by
  have hk : 0 < k := by have := hs.arity; omega
  have g1 := hs.rows_le
  have g2 := hs.cols_le
  obtain ⟨i, off, hh, hpos, hsum⟩ := hp
  obtain ⟨off, rfl⟩ : ∃ o, off = o + 1 := ⟨off - 1, by omega⟩
  obtain ⟨b, b1, b2, b3⟩ := id hh
  obtain ⟨l, hl⟩ := hh.log b1
  have ht0 : blocksLen (bs.take i) = t0 := by omega
  have hb := hbs i b b1
  have hsafe := safe i b b1
  rw [ht0] at hb hsafe
  obtain ⟨i', off', e1, hh'⟩ := chunk_iter bs enc fb t (t + 1)
    (by intro h; rw [h] at b1; simp at b1) (by omega) (by omega)
  have hh'' : Holds bs t i' off' := by rcases hh' with h | h; omega; exact h
  obtain ⟨rfl, rfl⟩ := hh.unique hh''
  have hw : Cube.new t (t + 1) 0 rows 0 cols = ⟨t, t + 1, 0, rows, 0, cols⟩ := by
    unfold Cube.new rearrange
    rw [if_neg (by omega), if_neg (by omega), if_neg (by omega)]
  have hwr : (Cube.mk t (t + 1) 0 rows 0 cols).rect = ⟨0, rows, 0, cols⟩ := by
    unfold Cube.rect Rect.new rearrange
    simp only
    rw [if_neg (by omega), if_neg (by omega)]
  have hvv : rearrangeI v v = (v, v) := by unfold rearrangeI; split <;> rfl
  obtain ⟨e, rfl⟩ := exponent_pos hs.shape hs.rows_le hs.cols_le
  obtain ⟨NS, hS⟩ := snapLayout_of_build hk hb.snapshot
  obtain ⟨N, hL⟩ := logLayout_of_build hk (hb.logs off l hl)
  obtain ⟨f1, f2⟩ := hsafe.2 off l hl
  have f2 := f2 _ hL
  rw [show t0 + 1 + off = t by omega] at hL f1
  have key := hL.searchWindowC_none hS hs.arity f2 (hsafe.1 _ hS) f1 g1 g2 hv h1 h2 h3 h4 hlt hmax hnf
  unfold Chunk.iterSearchC
  rw [hw]
  simp only
  rw [e1, hvv, hwr]
  simp only [SearchIter.nextResultsC, ChunkIter.next]
  rw [if_neg (by omega)]
  simp only [Chunk.new]
  rw [b1]
  simp only
  have kb : b.searchWindowC (off + 1) ⟨0, rows, 0, cols⟩ v v = none := by
    unfold Block.searchWindowC
    simp only
    rw [hl]
    exact key
  split <;> rename_i heq <;> split at heq <;> simp at heq
  all_goals
    obtain ⟨⟨rfl, rfl⟩, rfl⟩ := heq
    rw [b1]
    simp only
    rw [kb]

end Verif
