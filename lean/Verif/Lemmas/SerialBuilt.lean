import Verif.Lemmas.SerialStruct
import Verif.Lemmas.ChunkRead

/-! Structures made by the builders fit their binary format. -/
namespace Verif

theorem onesIn_le (f : Nat → Bool) (a n : Nat) : onesIn f a n ≤ n := by
  unfold onesIn
  exact Nat.le_trans List.countP_le_length (by simp)

theorem BitMap.Repr.wf {m : BitMap} {bs : List Bool} (h : m.Repr bs) (hl : bs.length < 2 ^ 32) :
    m.WF := by
  refine ⟨by rw [h.len]; exact hl, by rw [h.k]; omega, by rw [h.k]; omega,
    by rw [h.ilen, h.len, h.k], ?_, ?_⟩
  · intro i hi
    obtain ⟨j, hj⟩ := List.mem_iff_getElem?.1 hi
    have hjl := (List.getElem?_eq_some_iff.1 hj).1
    rw [h.ilen] at hjl
    rw [h.idx j hjl] at hj
    have := onesIn_le (wordBit m.bitmap) 0 (32 * ((j + 1) * 4))
    obtain rfl := Option.some.inj hj
    omega
  · rw [h.wlen, h.len]
    unfold divCeil
    simp only
    split <;> omega

theorem levelsHold_wf : ∀ (n : Nat) (ls : List (BitMap × List Byte)) (xs : List (BitVec 64)),
    LevelsHold n ls xs → xs.length < 2 ^ 32 →
    ls.length ≤ n ∧ (∀ l ∈ ls, l.1.WF) ∧ (∀ l ∈ ls, l.2.length = l.1.length) := by
  intro n ls xs h
  induction h with
  | full xs => intro _; simp
  | empty n => intro _; simp
  | cons xs hne hm hr ih =>
    intro hl
    have hn : (dacNext xs).length ≤ xs.length := by
      unfold dacNext; rw [List.length_map]; exact List.length_filter_le _ _
    obtain ⟨i1, i2, i3⟩ := ih (by omega)
    refine ⟨by simp; omega, ?_, ?_⟩
    · intro l hl'
      rcases List.mem_cons.1 hl' with rfl | hl'
      · exact hm.wf (by simp [dacBits]; exact hl)
      · exact i2 l hl'
    · intro l hl'
      rcases List.mem_cons.1 hl' with rfl | hl'
      · simp only; rw [hm.len]; simp [dacBits, dacBytes]
      · exact i3 l hl'

theorem levelsHold_pos : ∀ (n : Nat) (ls : List (BitMap × List Byte)) (xs : List (BitVec 64)),
    LevelsHold n ls xs → ∀ l ∈ ls, 0 < l.2.length := by
  intro n ls xs h
  induction h with
  | full xs => simp
  | empty n => simp
  | cons xs hne hm hr ih =>
    intro l hl'
    rcases List.mem_cons.1 hl' with rfl | hl'
    · simp only [dacBytes, List.length_map]; exact List.length_pos_iff.2 hne
    · exact ih l hl'

theorem Dac.Repr.wf {d : Dac} {data : List Int64} (h : d.Repr data) (hl : data.length < 2 ^ 32) :
    d.WF := by
  obtain ⟨i1, i2, i3⟩ := levelsHold_wf 8 _ _ h (by rw [List.length_map]; exact hl)
  exact ⟨by omega, i2, i3⟩

/-- The last level of a container with values is not empty. -/
theorem Dac.Repr.tail_pos {d : Dac} {data : List Int64} (h : d.Repr data)
    (hne : data ≠ []) : 0 < d.tail := by
  have i4 := levelsHold_pos 8 _ _ h
  unfold Dac.tail
  have : d.levels ≠ [] := by
    intro h0
    unfold Dac.Repr at h
    rw [h0] at h
    generalize hx : data.map zigzagEncode = xs at h
    cases h
    simp at hx
    exact hne hx
  rcases hl' : d.levels.getLast? with _ | l
  · rw [List.getLast?_eq_none_iff] at hl'; exact absurd hl' this
  · exact i4 l (List.mem_of_getLast? hl')

theorem BitMap.ofBits_wf {bs : List Bool} {m : BitMap} (h : BitMap.ofBits bs = some m)
    (hl : bs.length < 2 ^ 32) : m.WF := by
  obtain ⟨m', h1, h2⟩ := ofBits_repr bs
  rw [h] at h1
  obtain rfl := Option.some.inj h1
  exact h2.wf hl

theorem Dac.ofList_wf {data : List Int64} {d : Dac} (h : Dac.ofList data = some d)
    (hl : data.length < 2 ^ 32) : d.WF := by
  obtain ⟨m', h1, h2⟩ := dac_ofList_repr data
  rw [h] at h1
  obtain rfl := Option.some.inj h1
  exact h2.wf hl

/-! ### Trees -/

theorem countList_flatMap {β : Type} (f : β → List K2Node) (xs : List β) :
    K2Node.countList (xs.flatMap f) = (xs.map fun x => K2Node.countList (f x)).sum := by
  have happ : ∀ a b, K2Node.countList (a ++ b) = K2Node.countList a + K2Node.countList b := by
    intro a b
    induction a with
    | nil => simp [K2Node.countList]
    | cons x a ih => rw [List.cons_append, K2Node.countList, K2Node.countList, ih]; omega
  induction xs with
  | nil => rfl
  | cons x xs ih => rw [List.flatMap_cons, happ, ih, List.map_cons, List.sum_cons]

theorem countList_map_const {β : Type} (g : β → K2Node) (n : Nat) : ∀ (xs : List β), (∀ x ∈ xs, (g x).count = n) →
    K2Node.countList (xs.map g) = xs.length * n := by
  intro xs
  induction xs with
  | nil => intro _; simp [K2Node.countList]
  | cons x xs ih =>
    intro h
    rw [List.map_cons, K2Node.countList, ih (fun y hy => h y (by simp [hy])), h x (by simp), List.length_cons]
    ring

/-- Number of nodes of a complete tree. -/
def treeSize (k : Nat) : Nat → Nat
  | 0 => 1
  | e + 1 => 1 + k * (k * treeSize k e)

theorem sum_map_const {β : Type} (n : Nat) (f : β → Nat) : ∀ (xs : List β), (∀ x ∈ xs, f x = n) →
    (xs.map f).sum = xs.length * n := by
  intro xs
  induction xs with
  | nil => intro _; simp
  | cons x xs ih =>
    intro h
    rw [List.map_cons, List.sum_cons, ih (fun y hy => h y (by simp [hy])), h x (by simp), List.length_cons]
    ring

theorem K2Node.count_build (get : Nat → Nat → Int64) (rows cols k : Nat) : ∀ e R C,
    (K2Node.build get rows cols k e R C).count = treeSize k e := by
  intro e
  induction e with
  | zero => intro R C; simp [K2Node.build, K2Node.count, K2Node.countList, treeSize]
  | succ e ih =>
    intro R C
    rw [K2Node.build, K2Node.count, countList_flatMap,
      sum_map_const (k * treeSize k e), List.length_range, treeSize]
    intro i _
    rw [countList_map_const _ (treeSize k e), List.length_range]
    intro j _
    exact ih _ _

theorem K2PNode.countList_append (a b : List K2PNode) :
    K2PNode.countList (a ++ b) = K2PNode.countList a + K2PNode.countList b := by
  induction a with
  | nil => simp [K2PNode.countList]
  | cons x a ih => rw [List.cons_append, K2PNode.countList, K2PNode.countList, ih]; omega

theorem K2PNode.count_build (getS getT : Nat → Nat → Int64) (rows cols k : Nat) : ∀ e R C,
    (K2PNode.build getS getT rows cols k e R C).count = treeSize k e := by
  intro e
  induction e with
  | zero => intro R C; simp [K2PNode.build, K2PNode.count, K2PNode.countList, treeSize]
  | succ e ih =>
    intro R C
    have hmap : ∀ (g : Nat → K2PNode), (∀ x, (g x).count = treeSize k e) → ∀ xs : List Nat,
        K2PNode.countList (xs.map g) = xs.length * treeSize k e := by
      intro g hg xs
      induction xs with
      | nil => simp [K2PNode.countList]
      | cons x xs ihx => rw [List.map_cons, K2PNode.countList, ihx, hg, List.length_cons]; ring
    have hflat : ∀ (g : Nat → List K2PNode), (∀ x, K2PNode.countList (g x) = k * treeSize k e) →
        ∀ xs : List Nat, K2PNode.countList (xs.flatMap g) = xs.length * (k * treeSize k e) := by
      intro g hg xs
      induction xs with
      | nil => simp [K2PNode.countList]
      | cons x xs ihx =>
        rw [List.flatMap_cons, K2PNode.countList_append, ihx, hg, List.length_cons]; ring
    rw [K2PNode.build, K2PNode.count, hflat, List.length_range, treeSize]
    intro i
    rw [hmap, List.length_range]
    intro j
    exact ih _ _

theorem treeSize_le (k : Nat) (hk : 2 ≤ k) : ∀ e, 3 * treeSize k e + 1 ≤ 4 * (k ^ e * k ^ e) := by
  intro e
  induction e with
  | zero => simp [treeSize]
  | succ e ih =>
    have h4 : 4 ≤ k * k := Nat.mul_le_mul hk hk
    have h1 : k * k * (3 * treeSize k e + 1) ≤ k * k * (4 * (k ^ e * k ^ e)) := Nat.mul_le_mul_left _ ih
    have e1 : 4 * (k ^ (e + 1) * k ^ (e + 1)) = k * k * (4 * (k ^ e * k ^ e)) := by ring
    have e2 : k * k * (3 * treeSize k e + 1) = 3 * (k * (k * treeSize k e)) + k * k := by ring
    rw [e1, treeSize]
    omega

theorem Snapshot.traverse_len : ∀ (fuel : Nat) q nm mx mn r,
    Snapshot.traverse fuel q nm mx mn = some r →
    r.1.length ≤ nm.length + fuel ∧ r.2.1.length ≤ mx.length + fuel ∧
      r.2.2.length ≤ mn.length + fuel := by
  intro fuel
  induction fuel with
  | zero =>
    intro q nm mx mn r h
    cases q with
    | nil => rw [Snapshot.traverse] at h; obtain rfl := Option.some.inj h; simp
    | cons x q => rw [Snapshot.traverse] at h; simp at h
  | succ fuel ih =>
    intro q nm mx mn r h
    cases q with
    | nil => rw [Snapshot.traverse] at h; obtain rfl := Option.some.inj h; simp
    | cons x q =>
      obtain ⟨a, b, c⟩ := x
      rw [Snapshot.traverse] at h
      simp only at h
      split at h
      · have := ih _ _ _ _ _ h; simp at this; omega
      · split at h
        · have := ih _ _ _ _ _ h; simp at this; omega
        · have := ih _ _ _ _ _ h; simp at this; omega

theorem Log.traverse_len : ∀ (fuel : Nat) q nm eq mx mn r,
    Log.traverse fuel q nm eq mx mn = some r →
    r.1.length ≤ nm.length + fuel ∧ r.2.1.length ≤ eq.length + fuel ∧
      r.2.2.1.length ≤ mx.length + fuel ∧ r.2.2.2.length ≤ mn.length + fuel := by
  intro fuel
  induction fuel with
  | zero =>
    intro q nm eq mx mn r h
    cases q with
    | nil => rw [Log.traverse] at h; obtain rfl := Option.some.inj h; simp
    | cons x q => rw [Log.traverse] at h; simp at h
  | succ fuel ih =>
    intro q nm eq mx mn r h
    cases q with
    | nil => rw [Log.traverse] at h; obtain rfl := Option.some.inj h; simp
    | cons x q =>
      rw [Log.traverse] at h
      split at h
      · have := ih _ _ _ _ _ _ h; simp at this; omega
      · split at h
        · have := ih _ _ _ _ _ _ h; simp at this; omega
        · split at h
          · have := ih _ _ _ _ _ _ h; simp at this; omega
          · split at h
            · have := ih _ _ _ _ _ _ h; simp at this; omega
            · simp at h

/-- The shape, the arity and the tree fit the format. -/
structure FormatOk (rows cols k e : Nat) : Prop where
  arity : 2 ≤ k
  arity_lt : k < 256
  rows_le : rows ≤ k ^ e
  cols_le : cols ≤ k ^ e
  tree : 4 * (k ^ e * k ^ e) ≤ 3 * 2 ^ 32

theorem FormatOk.size {rows cols k e} (h : FormatOk rows cols k e) : treeSize k e < 2 ^ 32 := by
  have := treeSize_le k h.arity e
  have := h.tree
  omega

theorem FormatOk.side {rows cols k e} (h : FormatOk rows cols k e) : k ^ e < 2 ^ 32 := by
  have h1 := h.tree
  have h2 : 1 ≤ k ^ e := Nat.one_le_pow _ _ (by have := h.arity; omega)
  have h3 : k ^ e * 1 ≤ k ^ e * k ^ e := Nat.mul_le_mul_left _ h2
  omega

theorem snapshot_build_wf {get rows cols k e s} (h : FormatOk rows cols k e)
    (hs : Snapshot.build get rows cols k e = some s) : s.WF := by
  unfold Snapshot.build at hs
  simp only at hs
  rw [K2Node.count_build] at hs
  split at hs
  · simp at hs
  · rename_i nm mx mn ht
    obtain ⟨l1, l2, l3⟩ := Snapshot.traverse_len _ _ _ _ _ _ ht
    simp only [List.length_nil, Nat.zero_add] at l1 l2 l3
    have hsz := h.size
    have hside := h.side
    have := h.rows_le
    have := h.cols_le
    split at hs
    · rename_i a b c h1 h2 h3
      obtain rfl := Option.some.inj hs
      exact ⟨h.arity_lt, by simp only; omega, by simp only; omega, by simp only; omega,
        BitMap.ofBits_wf h1 (by omega), Dac.ofList_wf h2 (by omega), Dac.ofList_wf h3 (by omega)⟩
    · simp at hs

theorem log_build_wf {getS getT rows cols k e l} (h : FormatOk rows cols k e)
    (hs : Log.build getS getT rows cols k e = some l) : l.WF := by
  unfold Log.build at hs
  simp only at hs
  rw [K2PNode.count_build] at hs
  split at hs
  · simp at hs
  · rename_i nm eq mx mn ht
    obtain ⟨l1, l2, l3, l4⟩ := Log.traverse_len _ _ _ _ _ _ _ ht
    simp only [List.length_nil, Nat.zero_add] at l1 l2 l3 l4
    have hsz := h.size
    have hside := h.side
    have := h.rows_le
    have := h.cols_le
    split at hs
    · rename_i a b c d h1 h2 h3 h4
      obtain rfl := Option.some.inj hs
      exact ⟨h.arity_lt, by simp only; omega, by simp only; omega, by simp only; omega,
        BitMap.ofBits_wf h1 (by omega), BitMap.ofBits_wf h2 (by omega), Dac.ofList_wf h3 (by omega),
        Dac.ofList_wf h4 (by omega)⟩
    · simp at hs

theorem BlockOf.wf {get rows cols k e t0 b} (h : FormatOk rows cols k e)
    (hb : BlockOf get rows cols k e t0 b) : b.WF := by
  refine ⟨by have := hb.limit; omega, snapshot_build_wf h hb.snapshot, fun l hl => ?_⟩
  obtain ⟨j, hj⟩ := List.mem_iff_getElem?.1 hl
  exact log_build_wf h (hb.logs j l hj)

theorem BlocksOf.wf {get rows cols k e bs} (h : FormatOk rows cols k e)
    (hb : BlocksOf get rows cols k e bs) (hl : bs.length < 2 ^ 32) (enc fb) (hf : fb < 256) :
    (Chunk.new bs enc fb).WF := by
  refine ⟨hf, hl, fun b hm => ?_, rfl⟩
  obtain ⟨i, hi⟩ := List.mem_iff_getElem?.1 hm
  exact (hb i b hi).wf h

/-- The container of minima of a raster with two different values is not empty. -/
theorem snapshot_tail_pos {get rows cols k e s} (hk : 0 < k)
    (hs : Snapshot.build get rows cols k e = some s) (hr : rows ≤ k ^ e) (hc : cols ≤ k ^ e)
    {r c r' c' : Nat} (h1 : r < rows ∧ c < cols) (h2 : r' < rows ∧ c' < cols)
    (hne : get r c ≠ get r' c') : 0 < s.min.tail := by
  obtain ⟨N, hS⟩ := snapLayout_of_build hk hs
  refine hS.min.tail_pos ?_
  have hroot := hS.root
  intro h0
  rw [List.map_eq_nil_iff, List.filter_eq_nil_iff] at h0
  have := h0 _ (List.mem_of_getElem? hroot)
  have hleaf : (K2Node.build get rows cols k e 0 0).internal = false := by
    simpa [snapInt] using this
  apply hne
  rw [build_leaf get rows cols k hk e 0 0 r c ⟨by omega, by omega, by omega, by omega, h1.1, h1.2⟩ hleaf,
    build_leaf get rows cols k hk e 0 0 r' c' ⟨by omega, by omega, by omega, by omega, h2.1, h2.2⟩ hleaf]

/-- Whatever bytes it comes from, a chunk that was read has the index its blocks call for. -/
theorem chunk_read_new {bytes rest c} (h : Chunk.read bytes = .ok (c, rest)) :
    c = Chunk.new c.blocks c.encoding c.fractionalBits := by
  change Reader.bind readByte _ bytes = _ at h
  unfold Reader.bind at h
  split at h
  · simp at h
  rename_i a1 s1 _
  change Reader.bind (Reader.ofOption _) _ s1 = _ at h
  unfold Reader.bind at h
  split at h
  · simp at h
  rename_i a2 s2 _
  change Reader.bind readByte _ s2 = _ at h
  unfold Reader.bind at h
  split at h
  · simp at h
  rename_i a3 s3 _
  change Reader.bind readU32 _ s3 = _ at h
  unfold Reader.bind at h
  split at h
  · simp at h
  rename_i a4 s4 _
  change Reader.bind (Reader.many Block.read _) _ s4 = _ at h
  unfold Reader.bind at h
  split at h
  · simp at h
  rename_i a5 s5 _
  change Except.ok (_, _) = Except.ok (c, rest) at h
  rw [Except.ok.injEq, Prod.mk.injEq] at h
  obtain ⟨rfl, -⟩ := h
  rfl

end Verif
