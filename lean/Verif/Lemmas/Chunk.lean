import Verif.Model.Chunk
import Mathlib.Tactic.Linarith

/-! Blocks of a chunk: positions, lookup and iteration. -/
namespace Verif

/-- Number of instants held by blocks. -/
def Block.len (b : Block) : Nat := b.logs.length + 1

def blocksLen (bs : List Block) : Nat := (bs.map Block.len).sum

@[simp] theorem blocksLen_nil : blocksLen [] = 0 := rfl

@[simp] theorem blocksLen_cons (b : Block) (bs : List Block) :
    blocksLen (b :: bs) = b.len + blocksLen bs := by simp [blocksLen]

@[simp] theorem blocksLen_append (as bs : List Block) :
    blocksLen (as ++ bs) = blocksLen as + blocksLen bs := by simp [blocksLen]

/-- Instant `t` of a list of blocks is instant `off` of block `i`. -/
def Holds (bs : List Block) (t i off : Nat) : Prop :=
  ∃ b, bs[i]? = some b ∧ off < b.len ∧ t = blocksLen (bs.take i) + off

theorem mkIndex_getElem? (bs : List Block) : ∀ n i, i < bs.length →
    (Chunk.mkIndex n bs)[i]? = some (n + blocksLen (bs.take (i + 1))) := by
  induction bs with
  | nil => intro n i h; simp at h
  | cons b bs ih =>
    intro n i h
    cases i with
    | zero => simp [Chunk.mkIndex, Block.len]
    | succ i =>
      simp only [Chunk.mkIndex, List.getElem?_cons_succ, List.take_succ_cons, blocksLen_cons]
      rw [ih _ i (by simpa using h)]
      simp [Block.len]; omega

theorem mkIndex_length (bs : List Block) : ∀ n, (Chunk.mkIndex n bs).length = bs.length := by
  induction bs with
  | nil => intro n; rfl
  | cons b bs ih => intro n; simp [Chunk.mkIndex, ih]

theorem blocksLen_take_lt (bs : List Block) {i j : Nat} (hij : i < j) (hj : j ≤ bs.length) :
    blocksLen (bs.take i) < blocksLen (bs.take j) := by
  induction bs generalizing i j with
  | nil => simp at hj; omega
  | cons b bs ih =>
    cases j with
    | zero => omega
    | succ j =>
      cases i with
      | zero => simp [Block.len]
      | succ i =>
        simp only [List.take_succ_cons, blocksLen_cons]
        have := ih (i := i) (j := j) (by omega) (by simpa using hj)
        omega

theorem blocksLen_take_le (bs : List Block) {i j : Nat} (hij : i ≤ j) (hj : j ≤ bs.length) :
    blocksLen (bs.take i) ≤ blocksLen (bs.take j) := by
  rcases Nat.lt_or_ge i j with h | h
  · exact Nat.le_of_lt (blocksLen_take_lt bs h hj)
  · have : i = j := by omega
    rw [this]

/-- The loop of `find_block` ends, within `upper - lower` iterations, at the first block that ends
after the instant. -/
theorem findLoop_spec (bs : List Block) (t p : Nat) (hp : p < bs.length)
    (h1 : blocksLen (bs.take p) ≤ t) (h2 : t < blocksLen (bs.take (p + 1))) :
    ∀ fuel lower upper i, lower < p → p < upper → upper ≤ bs.length → i = (lower + upper) / 2 →
      upper - lower ≤ fuel → Chunk.findLoop (Chunk.mkIndex 0 bs) t fuel lower upper i = some p := by
  intro fuel
  induction fuel with
  | zero => intros; omega
  | succ fuel ih =>
    intro lower upper i a1 a2 a3 a4 a5
    rw [Chunk.findLoop, mkIndex_getElem? bs 0 i (by omega)]
    simp only [Nat.zero_add]
    have mono := fun {x y} => blocksLen_take_le bs (i := x) (j := y)
    by_cases c1 : blocksLen (bs.take (i + 1)) = t
    · rw [if_pos c1]
      have : i + 1 = p := by
        rcases Nat.lt_trichotomy (i + 1) p with h | h | h
        · have := blocksLen_take_lt bs h (by omega); omega
        · exact h
        · have := mono (x := p + 1) (y := i + 1) (by omega) (by omega); omega
      rw [this]
    · rw [if_neg c1]
      by_cases c2 : blocksLen (bs.take (i + 1)) < t
      · rw [if_pos c2]
        have : i < p := by
          by_contra hc
          have := mono (x := p + 1) (y := i + 1) (by omega) (by omega); omega
        exact ih i upper _ this a2 a3 rfl (by omega)
      · rw [if_neg c2]
        have hi : p ≤ i := by
          by_contra hc
          have := mono (x := i + 1) (y := p) (by omega) (by omega); omega
        rw [show csub i 1 = some (i - 1) by unfold csub; rw [if_pos (by omega)]]
        simp only
        rw [mkIndex_getElem? bs 0 (i - 1) (by omega), show i - 1 + 1 = i by omega]
        simp only [Nat.zero_add]
        by_cases c3 : blocksLen (bs.take i) ≤ t
        · rw [if_pos c3]
          have : i = p := by
            by_contra hc
            have := mono (x := p + 1) (y := i) (by omega) (by omega); omega
          rw [this]
        · rw [if_neg c3]
          have : p < i := by
            rcases Nat.lt_or_ge p i with h | h
            · exact h
            · have : i = p := by omega
              subst this; omega
          exact ih lower i _ a1 this (by omega) rfl (by omega)

theorem exists_holds (bs : List Block) (t : Nat) (h : t < blocksLen bs) :
    ∃ i off, Holds bs t i off := by
  induction bs generalizing t with
  | nil => simp at h
  | cons b bs ih =>
    rw [blocksLen_cons] at h
    by_cases hb : t < b.len
    · exact ⟨0, t, b, rfl, hb, by simp⟩
    · obtain ⟨i, off, b', h1, h2, h3⟩ := ih (t - b.len) (by omega)
      refine ⟨i + 1, off, b', by simpa using h1, h2, ?_⟩
      rw [List.take_succ_cons, blocksLen_cons]; omega

theorem Holds.lt {bs t i off} (h : Holds bs t i off) : i < bs.length := by
  obtain ⟨b, h1, -⟩ := h
  exact (List.getElem?_eq_some_iff.1 h1).1

theorem blocksLen_take_succ {bs : List Block} {i : Nat} {b : Block} (h : bs[i]? = some b) :
    blocksLen (bs.take (i + 1)) = blocksLen (bs.take i) + b.len := by
  rw [List.take_add_one, h, blocksLen_append]; simp

theorem Holds.unique {bs t i off i' off'} (h : Holds bs t i off) (h' : Holds bs t i' off') :
    i = i' ∧ off = off' := by
  obtain ⟨b, h1, h2, h3⟩ := h
  obtain ⟨b', h1', h2', h3'⟩ := h'
  have e := blocksLen_take_succ h1
  have e' := blocksLen_take_succ h1'
  have l := (List.getElem?_eq_some_iff.1 h1).1
  have l' := (List.getElem?_eq_some_iff.1 h1').1
  have : i = i' := by
    rcases Nat.lt_trichotomy i i' with h | h | h
    · have := blocksLen_take_le bs (i := i + 1) (j := i') (by omega) (by omega); omega
    · exact h
    · have := blocksLen_take_le bs (i := i' + 1) (j := i) (by omega) (by omega); omega
  subst this
  exact ⟨rfl, by omega⟩

theorem findBlock_spec (bs : List Block) (enc : MMEncoding) (fb t i off : Nat)
    (h : Holds bs t i off) (fuel : Nat) (hf : bs.length ≤ fuel) :
    (Chunk.new bs enc fb).findBlockFuel fuel t = some (i, off) := by
  obtain ⟨b, h1, h2, h3⟩ := h
  have l := (List.getElem?_eq_some_iff.1 h1).1
  have e := blocksLen_take_succ h1
  unfold Chunk.findBlockFuel Chunk.new
  simp only
  rw [mkIndex_getElem? bs 0 0 (by omega)]
  simp only [Nat.zero_add]
  by_cases hi : i = 0
  · subst hi
    simp at h3 e
    rw [if_pos (by omega)]; simp [h3]
  · have m := blocksLen_take_le bs (i := 1) (j := i) (by omega) (by omega)
    rw [if_neg (by omega)]
    rw [findLoop_spec bs t i l (by omega) (by omega) fuel 0 bs.length _ (by omega) l (by omega)
      (by omega) (by omega)]
    simp only [show csub i 1 = some (i - 1) by unfold csub; rw [if_pos (by omega)]]
    rw [mkIndex_getElem? bs 0 (i - 1) (by omega), show i - 1 + 1 = i by omega]
    simp only [Nat.zero_add]
    rw [show csub t (blocksLen (bs.take i)) = some off by
      unfold csub; rw [if_pos (by omega)]; congr 1; omega]

/-- Looking up the instant just past the end yields the position just past the last block. -/
theorem findBlock_end (bs : List Block) (enc : MMEncoding) (fb : Nat) (hne : bs ≠ []) (fuel : Nat)
    (hf : bs.length ≤ fuel) :
    (Chunk.new bs enc fb).findBlockFuel fuel (blocksLen bs) = some (bs.length, 0) := by
  have hl : 0 < bs.length := List.length_pos_iff.2 hne
  have key : ∀ fuel lower i, lower < bs.length → i = (lower + bs.length) / 2 →
      lower + 1 ≤ bs.length → bs.length - lower ≤ fuel →
      Chunk.findLoop (Chunk.mkIndex 0 bs) (blocksLen bs) fuel lower bs.length i
        = some bs.length := by
    intro fuel
    induction fuel with
    | zero => intros; omega
    | succ fuel ih =>
      intro lower i a1 a2 a3 a4
      rw [Chunk.findLoop, mkIndex_getElem? bs 0 i (by omega)]
      simp only [Nat.zero_add]
      by_cases c1 : i + 1 = bs.length
      · rw [c1, List.take_length, if_pos rfl]
      · have := blocksLen_take_lt bs (i := i + 1) (j := bs.length) (by omega) (by omega)
        rw [List.take_length] at this
        rw [if_neg (by omega), if_pos this]
        exact ih i _ (by omega) rfl (by omega) (by omega)
  unfold Chunk.findBlockFuel Chunk.new
  simp only
  rw [mkIndex_getElem? bs 0 0 (by omega)]
  simp only [Nat.zero_add]
  have m := blocksLen_take_le bs (i := 1) (j := bs.length) (by omega) (by omega)
  rw [List.take_length] at m
  rw [if_neg (by omega), key fuel 0 _ hl (by omega) (by omega) (by omega)]
  simp only [show csub bs.length 1 = some (bs.length - 1) by unfold csub; rw [if_pos (by omega)]]
  rw [mkIndex_getElem? bs 0 (bs.length - 1) (by omega), show bs.length - 1 + 1 = bs.length by omega,
    List.take_length]
  simp [csub]

/-- Looking up an instant beyond that never ends. -/
theorem findBlock_diverges (bs : List Block) (enc : MMEncoding) (fb t : Nat) (hne : bs ≠ [])
    (ht : blocksLen bs < t) (fuel : Nat) :
    (Chunk.new bs enc fb).findBlockFuel fuel t = none := by
  have hl : 0 < bs.length := List.length_pos_iff.2 hne
  have key : ∀ fuel lower i, lower < bs.length → i = (lower + bs.length) / 2 →
      Chunk.findLoop (Chunk.mkIndex 0 bs) t fuel lower bs.length i = none := by
    intro fuel
    induction fuel with
    | zero => intros; rfl
    | succ fuel ih =>
      intro lower i a1 a2
      rw [Chunk.findLoop, mkIndex_getElem? bs 0 i (by omega)]
      simp only [Nat.zero_add]
      have := blocksLen_take_le bs (i := i + 1) (j := bs.length) (by omega) (by omega)
      rw [List.take_length] at this
      rw [if_neg (by omega), if_pos (by omega)]
      exact ih i _ (by omega) rfl
  unfold Chunk.findBlockFuel Chunk.new
  simp only
  rw [mkIndex_getElem? bs 0 0 (by omega)]
  simp only [Nat.zero_add]
  have m := blocksLen_take_le bs (i := 1) (j := bs.length) (by omega) (by omega)
  rw [List.take_length] at m
  rw [if_neg (by omega), key fuel 0 _ hl (by omega)]

/-- The position after a position. -/
theorem Holds.next {bs t i off b} (h : Holds bs t i off) (hb : bs[i]? = some b)
    (hlt : t + 1 < blocksLen bs) :
    if off = b.logs.length then Holds bs (t + 1) (i + 1) 0 else Holds bs (t + 1) i (off + 1) := by
  obtain ⟨b', h1, h2, h3⟩ := h
  rw [hb] at h1
  obtain rfl := Option.some.inj h1
  have e := blocksLen_take_succ hb
  have l := (List.getElem?_eq_some_iff.1 hb).1
  split
  · have hlt' : i + 1 < bs.length := by
      rcases Nat.lt_or_ge (i + 1) bs.length with h | h
      · exact h
      · have : i + 1 = bs.length := by omega
        rw [this, List.take_length] at e
        unfold Block.len at *
        omega
    refine ⟨bs[i + 1], List.getElem?_eq_getElem hlt', by unfold Block.len; omega, ?_⟩
    rw [e]; unfold Block.len at *; omega
  · exact ⟨b, hb, by unfold Block.len at *; omega, by omega⟩

theorem iter_toList (bs : List Block) (enc : MMEncoding) (fb : Nat) :
    ∀ n fuel t i off, (n = 0 ∨ Holds bs t i off) → t + n ≤ blocksLen bs → n < fuel →
      ∃ L, ChunkIter.toList (Chunk.new bs enc fb) fuel ⟨i, off, n⟩ = some L ∧
        List.Forall₂ (fun t p => Holds bs t p.1 p.2) (List.range' t n) L := by
  intro n
  induction n with
  | zero =>
    intro fuel t i off _ _ hf
    cases fuel with
    | zero => omega
    | succ fuel => exact ⟨[], by simp [ChunkIter.toList, ChunkIter.next], .nil⟩
  | succ n ih =>
    intro fuel t i off h hle hf
    have h : Holds bs t i off := by rcases h with h | h; omega; exact h
    cases fuel with
    | zero => omega
    | succ fuel =>
      have l := h.lt
      have hb : bs[i]? = some bs[i] := List.getElem?_eq_getElem l
      have hn := fun hlt => h.next hb hlt
      simp only [ChunkIter.toList, ChunkIter.next, Chunk.new, Nat.add_one_ne_zero, if_false, hb]
      by_cases hc : off = (bs[i]).logs.length
      · simp only [if_pos hc, Nat.add_sub_cancel]
        obtain ⟨L, h1, h2⟩ := ih fuel (t + 1) (i + 1) 0 (by
          rcases Nat.eq_zero_or_pos n with h0 | h0
          · exact .inl h0
          · have := hn (by omega)
            rw [if_pos hc] at this
            exact .inr this) (by omega) (by omega)
        refine ⟨(i, off) :: L, ?_, ?_⟩
        · change (ChunkIter.toList (Chunk.new bs enc fb) fuel _).map _ = _
          rw [h1]; rfl
        · rw [List.range'_succ]; exact .cons h h2
      · simp only [if_neg hc, Nat.add_sub_cancel]
        obtain ⟨L, h1, h2⟩ := ih fuel (t + 1) i (off + 1) (by
          rcases Nat.eq_zero_or_pos n with h0 | h0
          · exact .inl h0
          · have := hn (by omega)
            rw [if_neg hc] at this
            exact .inr this) (by omega) (by omega)
        refine ⟨(i, off) :: L, ?_, ?_⟩
        · change (ChunkIter.toList (Chunk.new bs enc fb) fuel _).map _ = _
          rw [h1]; rfl
        · rw [List.range'_succ]; exact .cons h h2

theorem chunk_iter (bs : List Block) (enc : MMEncoding) (fb start fin : Nat) (hne : bs ≠ [])
    (h1 : start ≤ fin) (h2 : fin ≤ blocksLen bs) :
    ∃ i off, (Chunk.new bs enc fb).iter start fin = some ⟨i, off, fin - start⟩ ∧
      (fin - start = 0 ∨ Holds bs start i off) := by
  unfold Chunk.iter Chunk.findBlock
  rw [show csub fin start = some (fin - start) by unfold csub; rw [if_pos h1]]
  by_cases h : start < blocksLen bs
  · obtain ⟨i, off, hh⟩ := exists_holds bs start h
    rw [findBlock_spec bs enc fb start i off hh _ (by simp [Chunk.new])]
    exact ⟨i, off, rfl, .inr hh⟩
  · have : start = blocksLen bs := by omega
    subst this
    rw [findBlock_end bs enc fb hne _ (by simp [Chunk.new])]
    exact ⟨bs.length, 0, rfl, .inl (by omega)⟩

end Verif
