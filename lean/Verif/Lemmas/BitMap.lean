import Verif.Model.BitMap

/-! Helper lemmas for the bit map (bitmap.rs). -/
namespace Verif

/-- Bit `i` of a byte string, most significant bit first, `false` past the end. -/
def byteBit (l : List (BitVec 8)) (i : Nat) : Bool := (l[i / 8]?.getD 0#8).getMsbD (i % 8)

/-- Bit `i` of a word string, most significant bit first, `false` past the end. -/
def wordBit (l : List (BitVec 32)) (i : Nat) : Bool := (l[i / 32]?.getD 0#32).getMsbD (i % 32)

theorem oneShl_getMsbD (s i : Nat) (hs : s < 8) (hi : i < 8) :
    (1#8 <<< (7 - s)).getMsbD i = decide (i = s) := by
  have : ∀ s : Fin 8, ∀ i : Fin 8, (1#8 <<< (7 - s.1)).getMsbD i.1 = decide (i.1 = s.1) := by
    decide
  exact this ⟨s, hs⟩ ⟨i, hi⟩

theorem add_bit_getMsbD (b : BitVec 8) (s i : Nat) (hs : s < 8) (hi : i < 8)
    (hb : b.getMsbD s = false) :
    (b + 1#8 <<< (7 - s)).getMsbD i = (b.getMsbD i || decide (i = s)) := by
  have h0 : b &&& (1#8 <<< (7 - s)) = 0#8 := by
    apply BitVec.eq_of_getMsbD_eq
    intro j hj
    rw [BitVec.getMsbD_and, oneShl_getMsbD s j hs hj]
    by_cases h : j = s
    · subst h; simp [hb]
    · simp [h]
  rw [BitVec.add_eq_or_of_and_eq_zero _ _ h0, BitVec.getMsbD_or, oneShl_getMsbD s i hs hi]

/-- Builder invariant: the builder holds exactly the bits `bs`. -/
structure BuilderInv (b : BitMapBuilder) (bs : List Bool) : Prop where
  len : b.length = bs.length
  blen : b.bitmap.length = (bs.length + 7) / 8
  bits : ∀ i, byteBit b.bitmap i = bs.getD i false

theorem builderInv_new : BuilderInv BitMapBuilder.new [] := by
  refine ⟨rfl, rfl, ?_⟩
  intro i; simp [byteBit, BitMapBuilder.new]

theorem builderInv_push (b : BitMapBuilder) (bs : List Bool) (h : BuilderInv b bs) (x : Bool) :
    ∃ b', b.push x = some b' ∧ BuilderInv b' (bs ++ [x]) := by
  obtain ⟨hl, hbl, hb⟩ := h
  unfold BitMapBuilder.push
  simp only []
  have hgetD : ∀ i, (bs ++ [x]).getD i false =
      if i < bs.length then bs.getD i false else if i = bs.length then x else false := by
    intro i
    simp only [List.getD_eq_getElem?_getD, List.getElem?_append]
    by_cases h1 : i < bs.length
    · simp [h1]
    · simp only [h1, if_false]
      by_cases h2 : i = bs.length
      · subst h2; simp
      · have h3 : 1 ≤ i - bs.length := by omega
        have : [x][i - bs.length]? = none := by
          rw [List.getElem?_eq_none_iff]; simpa using h3
        simp [this, h2]
  by_cases hp : b.length % 8 = 0
  · rw [if_pos hp]
    refine ⟨_, rfl, ?_, ?_, ?_⟩
    · simp [hl]
    · simp only [List.length_append, List.length_singleton]; omega
    · intro i
      rw [hgetD]
      have hb' := hb i
      unfold byteBit at hb' ⊢
      have hlen8 : b.bitmap.length = bs.length / 8 := by omega
      by_cases h1 : i < bs.length
      · have : i / 8 < b.bitmap.length := by omega
        rw [List.getElem?_append_left this, if_pos h1]; exact hb'
      · rw [if_neg h1]
        by_cases h2 : i / 8 = b.bitmap.length
        · rw [List.getElem?_append_right (by omega)]
          simp only [h2, Nat.sub_self, List.getElem?_cons_zero, Option.getD_some]
          by_cases hx : x = true
          · subst hx
            simp only [if_true, hp]
            rw [oneShl_getMsbD 0 _ (by omega) (by omega)]
            by_cases h3 : i = bs.length
            · rw [if_pos h3]; have : i % 8 = 0 := by omega
              simp [this]
            · rw [if_neg h3]; have : i % 8 ≠ 0 := by omega
              simp [this]
          · simp only [Bool.not_eq_true] at hx; subst hx; simp
        · have hh : (b.bitmap ++ [if x then 1#8 <<< (7 - b.length % 8) else 0#8])[i / 8]? = none := by
            rw [List.getElem?_eq_none_iff]; simp; omega
          rw [hh]
          have : i ≠ bs.length := by omega
          simp [this]
  · rw [if_neg hp]
    have hlen8 : b.bitmap.length = bs.length / 8 + 1 := by omega
    by_cases hx : x = true
    · subst hx
      simp only [if_true]
      have hne : b.bitmap ≠ [] := by
        intro h; rw [h] at hlen8; simp at hlen8
      rw [List.getLast?_eq_some_getLast hne]
      refine ⟨_, rfl, ?_, ?_, ?_⟩
      · simp [hl]
      · simp only [List.length_append, List.length_dropLast, List.length_singleton]; omega
      · intro i
        rw [hgetD]
        have hb' := hb i
        have hbl' := hb bs.length
        unfold byteBit at hb' hbl' ⊢
        have hlast : b.bitmap[bs.length / 8]? = some (b.bitmap.getLast hne) := by
          rw [List.getLast_eq_getElem, List.getElem?_eq_getElem (by omega)]
          congr 1; congr 1; omega
        have hfalse : (b.bitmap.getLast hne).getMsbD (b.length % 8) = false := by
          rw [hlast] at hbl'
          rw [hl]; simpa using hbl'
        by_cases h2 : i / 8 = bs.length / 8
        · rw [List.getElem?_append_right (by simp; omega)]
          have h0 : i / 8 - b.bitmap.dropLast.length = 0 := by simp; omega
          rw [h0]
          simp only [List.getElem?_cons_zero, Option.getD_some]
          rw [add_bit_getMsbD _ _ _ (by omega) (by omega) hfalse]
          rw [h2, hlast] at hb'
          simp only [Option.getD_some] at hb'
          rw [hb']
          by_cases h1 : i < bs.length
          · rw [if_pos h1]
            have : i % 8 ≠ b.length % 8 := by omega
            simp [this]
          · rw [if_neg h1]
            have hge : bs.getD i false = false := by
              rw [List.getD_eq_getElem?_getD, List.getElem?_eq_none (by omega)]; rfl
            rw [hge]
            by_cases h3 : i = bs.length
            · have : bs.length % 8 = b.length % 8 := by rw [hl]
              simp [this, h3]
            · have : i % 8 ≠ b.length % 8 := by omega
              simp [this, h3]
        · by_cases h1 : i < bs.length
          · rw [List.getElem?_append_left (by simp; omega), if_pos h1, List.getElem?_dropLast,
              if_pos (by omega)]
            exact hb'
          · have h4 : i ≠ bs.length := by omega
            rw [if_neg h1, if_neg h4, List.getElem?_eq_none (by simp; omega)]
            simp
    · simp only [Bool.not_eq_true] at hx; subst hx
      simp only [Bool.false_eq_true, if_false]
      refine ⟨_, rfl, ?_, ?_, ?_⟩
      · simp [hl]
      · simp only [List.length_append, List.length_singleton]; omega
      · intro i
        rw [hgetD, hb i]
        by_cases h1 : i < bs.length
        · rw [if_pos h1]
        · rw [if_neg h1, List.getD_eq_getElem?_getD, List.getElem?_eq_none (by omega)]
          split <;> rfl

theorem builder_foldlM (bs : List Bool) : ∀ (b : BitMapBuilder) (pre : List Bool),
    BuilderInv b pre → ∃ b', bs.foldlM BitMapBuilder.push b = some b' ∧ BuilderInv b' (pre ++ bs) := by
  induction bs with
  | nil => intro b pre h; exact ⟨b, rfl, by simpa using h⟩
  | cons x xs ih =>
    intro b pre h
    obtain ⟨b1, h1, hi1⟩ := builderInv_push b pre h x
    obtain ⟨b2, h2, hi2⟩ := ih b1 _ hi1
    refine ⟨b2, ?_, by simpa using hi2⟩
    simp only [List.foldlM_cons, h1]
    exact h2

theorem byteBit_append_singleton (p : List (BitVec 8)) (b : BitVec 8) (i : Nat) :
    byteBit (p ++ [b]) i =
      if i / 8 = p.length then b.getMsbD (i % 8) else byteBit p i := by
  unfold byteBit
  by_cases h : i / 8 = p.length
  · rw [if_pos h, h]; simp
  · rw [if_neg h]
    by_cases h2 : i / 8 < p.length
    · rw [List.getElem?_append_left h2]
    · rw [List.getElem?_eq_none (by simp; omega), List.getElem?_eq_none (by omega)]

theorem byteBit_out (p : List (BitVec 8)) (i : Nat) (h : p.length * 8 ≤ i) : byteBit p i = false := by
  unfold byteBit
  rw [List.getElem?_eq_none (by omega)]; simp

theorem shifted_byte_getMsbD (b : BitVec 8) (q i : Nat) (hq : q < 4) (hi : i < 32) :
    ((b.zeroExtend 32) <<< (24 - 8 * q)).getMsbD i =
      (decide (i / 8 = q) && b.getMsbD (i % 8)) := by
  simp only [BitVec.truncate_eq_setWidth, BitVec.getMsbD_shiftLeft, BitVec.getMsbD_setWidth]
  have key : decide (i / 8 = q) = (decide (q * 8 ≤ i) && decide (i < q * 8 + 8)) := by
    rw [Bool.eq_iff_iff]; simp; omega
  rw [key]
  by_cases h1 : q * 8 ≤ i
  · by_cases h2 : i < q * 8 + 8
    · have e1 : i + (24 - 8 * q) - (32 - 8) = i % 8 := by omega
      simp [h1, h2, e1]
      omega
    · have e1 : 8 ≤ i + (24 - 8 * q) - (32 - 8) := by omega
      simp [h1, h2]
      intro _; exact BitVec.getMsbD_of_ge _ _ e1
  · simp [h1]
    intro; omega

theorem packBytes_spec (bytes : List (BitVec 8)) :
    ∀ (p : List (BitVec 8)) (acc : List (BitVec 32)),
      acc.length = (p.length + 3) / 4 →
      (∀ i, wordBit acc i = byteBit p i) →
      ∃ ws, packBytes bytes acc (24 - 8 * (p.length % 4)) (p.length / 4) = some ws ∧
        ws.length = ((p ++ bytes).length + 3) / 4 ∧
        ∀ i, wordBit ws i = byteBit (p ++ bytes) i := by
  induction bytes with
  | nil => intro p acc h1 h2; exact ⟨acc, rfl, by simpa using h1, by simpa using h2⟩
  | cons b rest ih =>
    intro p acc hlen hbits
    unfold packBytes
    simp only []
    have hlt : p.length % 4 < 4 := Nat.mod_lt _ (by omega)
    -- the accumulator after the optional push
    generalize hacc' : (if 24 - 8 * (p.length % 4) = 24 then acc ++ [0#32] else acc) = acc'
    have hlen' : acc'.length = p.length / 4 + 1 := by
      rw [← hacc']; split
      · simp; omega
      · omega
    have hbits' : ∀ i, wordBit acc' i = byteBit p i := by
      intro i; rw [← hbits i, ← hacc']
      split
      · unfold wordBit
        by_cases h : i / 32 < acc.length
        · rw [List.getElem?_append_left h]
        · rw [List.getElem?_eq_none (l := acc) (by omega)]
          by_cases h2 : i / 32 = acc.length
          · rw [h2]; simp
          · rw [List.getElem?_eq_none (by simp; omega)]
      · rfl
    have hidx : p.length / 4 < acc'.length := by omega
    rw [List.getElem?_eq_getElem hidx]
    simp only []
    -- new word list
    generalize hw : acc'[p.length / 4] = w
    generalize hacc2 : acc'.set (p.length / 4)
      (w ||| (b.zeroExtend 32) <<< (24 - 8 * (p.length % 4))) = acc2
    have hlen2 : acc2.length = ((p ++ [b]).length + 3) / 4 := by
      rw [← hacc2]; simp; omega
    have hbits2 : ∀ i, wordBit acc2 i = byteBit (p ++ [b]) i := by
      intro i
      rw [byteBit_append_singleton, ← hbits' i, ← hacc2]
      unfold wordBit
      by_cases h : i / 32 = p.length / 4
      · rw [h, List.getElem?_set_self hidx]
        simp only [Option.getD_some, BitVec.getMsbD_or]
        rw [List.getElem?_eq_getElem hidx, hw]
        simp only [Option.getD_some]
        rw [shifted_byte_getMsbD _ _ _ hlt (by omega)]
        by_cases h3 : i / 8 = p.length
        · rw [if_pos h3]
          have e1 : i % 32 / 8 = p.length % 4 := by omega
          have e2 : i % 32 % 8 = i % 8 := by omega
          have hb0 : byteBit p i = false := byteBit_out p i (by omega)
          rw [← hbits' i] at hb0
          unfold wordBit at hb0
          rw [h, List.getElem?_eq_getElem hidx, hw] at hb0
          simp only [Option.getD_some] at hb0
          rw [hb0, e1, e2]; simp
        · rw [if_neg h3]
          have e1 : i % 32 / 8 ≠ p.length % 4 := by omega
          simp [e1]
      · have h3 : i / 8 ≠ p.length := by omega
        rw [if_neg h3, List.getElem?_set_ne (by omega)]
    obtain ⟨ws, hws1, hws2, hws3⟩ := ih (p ++ [b]) acc2 hlen2 hbits2
    refine ⟨ws, ?_, by simpa using hws2, by simpa using hws3⟩
    rw [← hws1]
    have hpl : (p ++ [b]).length = p.length + 1 := by simp
    rw [hpl]
    by_cases hs : 24 - 8 * (p.length % 4) = 0
    · rw [if_pos hs]
      have e1 : (p.length + 1) % 4 = 0 := by omega
      have e2 : (p.length + 1) / 4 = p.length / 4 + 1 := by omega
      rw [e1, e2]
    · rw [if_neg hs]
      have e1 : (p.length + 1) % 4 = p.length % 4 + 1 := by omega
      have e2 : (p.length + 1) / 4 = p.length / 4 := by omega
      rw [e1, e2]
      congr 1

/-- number of set bits in positions `a ..< a + n` -/
def onesIn (f : Nat → Bool) (a n : Nat) : Nat := (List.range' a n).countP f

theorem onesIn_append (f : Nat → Bool) (a n m : Nat) :
    onesIn f a (n + m) = onesIn f a n + onesIn f (a + n) m := by
  unfold onesIn; rw [← List.countP_append, List.range'_append_1]

theorem onesIn_zero (f : Nat → Bool) (a : Nat) : onesIn f a 0 = 0 := rfl

theorem countOnes_word (ws : List (BitVec 32)) (j : Nat) (w : BitVec 32) (h : ws[j]? = some w) :
    countOnes w = onesIn (wordBit ws) (32 * j) 32 := by
  unfold countOnes onesIn
  have : List.range' (32 * j) 32 = (List.range 32).map (32 * j + ·) := by
    rw [List.range_eq_range', List.map_add_range']
    simp
  rw [this, List.countP_map]
  apply List.countP_congr
  intro i hi
  simp only [List.mem_range] at hi
  have e1 : (32 * j + i) / 32 = j := by omega
  have e2 : (32 * j + i) % 32 = i := by omega
  simp [wordBit, e1, e2, h]

theorem sumBlock_spec (ws : List (BitVec 32)) (n : Nat) :
    ∀ start c, start + n ≤ ws.length →
      sumBlock ws start n c = some (c + onesIn (wordBit ws) (32 * start) (32 * n)) := by
  induction n with
  | zero => intro start c _; simp [sumBlock, onesIn_zero]
  | succ n ih =>
    intro start c h
    unfold sumBlock
    rw [List.getElem?_eq_getElem (by omega)]
    simp only []
    rw [ih _ _ (by omega), countOnes_word ws start _ (List.getElem?_eq_getElem (by omega))]
    have : 32 * (n + 1) = 32 + 32 * n := by omega
    rw [this, onesIn_append]
    have : 32 * (start + 1) = 32 * start + 32 := by omega
    rw [this, Nat.add_assoc]

theorem genIndex_spec (ws : List (BitVec 32)) (k n : Nat) :
    ∀ i, (i + n) * k ≤ ws.length →
      ∃ idx, genIndex ws k i n (onesIn (wordBit ws) 0 (32 * (i * k))) = some idx ∧
        idx.length = n ∧
        ∀ j, j < n → idx[j]? = some (onesIn (wordBit ws) 0 (32 * ((i + j + 1) * k))) := by
  induction n with
  | zero => intro i _; exact ⟨[], rfl, rfl, by intro j hj; omega⟩
  | succ n ih =>
    intro i h
    unfold genIndex
    have h1 : i * k + k ≤ ws.length := by
      have : (i + 1) * k ≤ (i + (n + 1)) * k := Nat.mul_le_mul_right _ (by omega)
      rw [Nat.add_mul] at this; omega
    rw [sumBlock_spec ws k (i * k) _ h1]
    simp only []
    have e : onesIn (wordBit ws) 0 (32 * (i * k)) + onesIn (wordBit ws) (32 * (i * k)) (32 * k) =
        onesIn (wordBit ws) 0 (32 * ((i + 1) * k)) := by
      have : 32 * ((i + 1) * k) = 32 * (i * k) + 32 * k := by
        rw [Nat.add_mul, Nat.mul_add, Nat.one_mul]
      rw [this, onesIn_append, Nat.zero_add]
    rw [e]
    obtain ⟨idx, h2, h3, h4⟩ := ih (i + 1) (by
      have : i + 1 + n = i + (n + 1) := by omega
      rw [this]; exact h)
    rw [h2]
    refine ⟨_, rfl, by simp [h3], ?_⟩
    intro j hj
    cases j with
    | zero => simp
    | succ j =>
      rw [List.getElem?_cons_succ, h4 j (by omega)]
      have : i + 1 + j + 1 = i + (j + 1) + 1 := by omega
      rw [this]

/-- What a finished bit map looks like for the bits `bs`. -/
structure BitMap.Repr (m : BitMap) (bs : List Bool) : Prop where
  len : m.length = bs.length
  k : m.k = 4
  wlen : m.bitmap.length = (bs.length + 31) / 32
  ilen : m.index.length = bs.length / 32 / 4
  bits : ∀ i, wordBit m.bitmap i = bs.getD i false
  idx : ∀ j, j < bs.length / 32 / 4 →
    m.index[j]? = some (onesIn (wordBit m.bitmap) 0 (32 * ((j + 1) * 4)))

theorem ofBits_repr (bs : List Bool) : ∃ m, BitMap.ofBits bs = some m ∧ m.Repr bs := by
  obtain ⟨b, hb, hlen, hblen, hbits⟩ := builder_foldlM bs _ _ builderInv_new
  simp only [List.nil_append] at hlen hblen hbits
  unfold BitMap.ofBits
  rw [hb]
  simp only []
  unfold BitMapBuilder.finish
  simp only []
  obtain ⟨ws, hw1, hw2, hw3⟩ := packBytes_spec b.bitmap [] [] rfl (by intro i; simp [wordBit, byteBit])
  simp only [List.length_nil, Nat.zero_mod, Nat.mul_zero, Nat.sub_zero, Nat.zero_div,
    List.nil_append] at hw1 hw2 hw3
  have hmatch : (if divCeil b.length 32 > 0 then packBytes b.bitmap [] 24 0 else some []) = some ws := by
    split
    · exact hw1
    · rename_i h
      unfold divCeil at h
      simp only [] at h
      have : b.length = 0 := by
        split at h <;> omega
      have : ws.length = 0 := by omega
      rw [List.length_eq_zero_iff] at this
      rw [this]
  rw [hmatch]
  simp only []
  obtain ⟨idx, hi1, hi2, hi3⟩ := genIndex_spec ws 4 (b.length / 32 / 4) 0 (by omega)
  simp only [Nat.zero_mul, Nat.mul_zero, onesIn_zero, Nat.zero_add] at hi1 hi3
  rw [hi1]
  refine ⟨_, rfl, ?_, ?_, ?_, ?_, ?_, ?_⟩
  · exact hlen
  · rfl
  · simp only []; omega
  · simp only [hi2, hlen]
  · intro i; simp only [hw3, hbits]
  · intro j hj; rw [← hlen] at hj; exact hi3 j hj

theorem BitMap.Repr.get_wordBit {m : BitMap} (i : Nat) (h : i / 32 < m.bitmap.length) :
    m.get i = some (wordBit m.bitmap i) := by
  unfold BitMap.get wordBit
  simp only []
  rw [List.getElem?_eq_getElem h]
  simp only [Option.getD_some, Option.some.injEq]
  generalize m.bitmap[i / 32] = w
  have hlt : i % 32 < 32 := Nat.mod_lt _ (by omega)
  rw [BitVec.getMsbD_eq_getLsbD]
  simp only [hlt, decide_true, Bool.true_and]
  have : 32 - 1 - i % 32 = 31 - i % 32 := by omega
  rw [this]
  generalize 31 - i % 32 = s
  have h2 : (w >>> s) &&& 1#32 = if w.getLsbD s then 1#32 else 0#32 := by
    apply BitVec.eq_of_getLsbD_eq
    intro j hj
    rw [BitVec.getLsbD_and, BitVec.getLsbD_ushiftRight, BitVec.getLsbD_one]
    by_cases hj0 : j = 0
    · subst hj0; cases h : w.getLsbD s <;> simp
    · simp [hj0]
      split <;> simp [BitVec.getLsbD_one, hj0]
  rw [h2]
  cases w.getLsbD s <;> decide

theorem BitMap.Repr.get {m : BitMap} {bs : List Bool} (h : m.Repr bs) (i : Nat)
    (hi : i < bs.length) : m.get i = some bs[i] := by
  have h1 : i / 32 < m.bitmap.length := by rw [h.wlen]; omega
  rw [BitMap.Repr.get_wordBit i h1, h.bits, List.getD_eq_getElem?_getD,
    List.getElem?_eq_getElem hi]; rfl

/-- Reading past the end: padding bits of the last word read as `false`, anything further panics. -/
theorem BitMap.Repr.get_ge {m : BitMap} {bs : List Bool} (h : m.Repr bs) (i : Nat)
    (hi : bs.length ≤ i) :
    m.get i = if i / 32 < (bs.length + 31) / 32 then some false else none := by
  split
  · rename_i h1
    rw [BitMap.Repr.get_wordBit i (by rw [h.wlen]; exact h1), h.bits, List.getD_eq_getElem?_getD,
      List.getElem?_eq_none hi]; rfl
  · rename_i h1
    unfold BitMap.get
    simp only []
    rw [List.getElem?_eq_none (by rw [h.wlen]; omega)]

theorem foldl_count (ws : List (BitVec 32)) : ∀ c,
    ws.foldl (fun c w => c + countOnes w) c = c + onesIn (wordBit ws) 0 (32 * ws.length) := by
  suffices H : ∀ (suf pre : List (BitVec 32)) c,
      suf.foldl (fun c w => c + countOnes w) c =
        c + onesIn (wordBit (pre ++ suf)) (32 * pre.length) (32 * suf.length) by
    intro c; simpa using H ws [] c
  intro suf
  induction suf with
  | nil => intro pre c; simp [onesIn_zero]
  | cons w suf ih =>
    intro pre c
    rw [List.foldl_cons, ih (pre ++ [w])]
    rw [countOnes_word (pre ++ w :: suf) pre.length w (by simp)]
    have e1 : 32 * (w :: suf).length = 32 + 32 * suf.length := by simp; omega
    rw [e1, onesIn_append]
    have e2 : 32 * (pre ++ [w]).length = 32 * pre.length + 32 := by simp; omega
    rw [e2]
    simp only [List.append_assoc, List.singleton_append]
    omega

theorem wordBit_sub (ws : List (BitVec 32)) (a b : Nat) (i : Nat) (hi : i < 32 * (b - a)) :
    wordBit ((ws.drop a).take (b - a)) i = wordBit ws (32 * a + i) := by
  unfold wordBit
  have e1 : (32 * a + i) / 32 = a + i / 32 := by omega
  have e2 : (32 * a + i) % 32 = i % 32 := by omega
  rw [e1, e2, List.getElem?_take_of_lt (by omega), List.getElem?_drop]

theorem onesIn_shift (f g : Nat → Bool) (a b n : Nat) (h : ∀ i, i < n → f (a + i) = g (b + i)) :
    onesIn f a n = onesIn g b n := by
  unfold onesIn
  have e : ∀ c, List.range' c n = (List.range n).map (c + ·) := by
    intro c; rw [List.range_eq_range', List.map_add_range']; simp
  rw [e a, e b, List.countP_map, List.countP_map]
  apply List.countP_congr
  intro i hi
  simp only [List.mem_range] at hi
  simp [h i hi]

theorem countOnes_shift (w : BitVec 32) (l : Nat) (hl : l ≤ 32) :
    countOnes (w >>> (32 - l)) = (List.range l).countP (fun i => w.getMsbD i) := by
  unfold countOnes
  have e : List.range 32 = List.range (32 - l) ++ (List.range l).map ((32 - l) + ·) := by
    rw [← List.range_add]; congr 1; omega
  rw [e, List.countP_append, List.countP_map]
  have h0 : (List.range (32 - l)).countP (fun i => (w >>> (32 - l)).getMsbD i) = 0 := by
    rw [List.countP_eq_zero]
    intro i hi
    simp only [List.mem_range] at hi
    rw [BitVec.getMsbD_ushiftRight]
    simp; omega
  rw [h0, Nat.zero_add]
  apply List.countP_congr
  intro i hi
  simp only [List.mem_range] at hi
  simp only [Function.comp_apply, BitVec.getMsbD_ushiftRight]
  have : 32 - l + i - (32 - l) = i := by omega
  rw [this]
  have h1 : ¬ (32 - l + i < 32 - l) := by omega
  have h2 : 32 - l + i < 32 := by omega
  simp [h1, h2]

theorem onesIn_bits (bs : List Bool) (i : Nat) (hi : i ≤ bs.length) :
    onesIn (fun j => bs.getD j false) 0 i = (bs.take i).count true := by
  induction i with
  | zero => simp [onesIn]
  | succ i ih =>
    rw [onesIn_append, ih (by omega), List.take_succ_eq_append_getElem (by omega),
      List.count_append]
    congr 1
    simp [onesIn, List.getElem?_eq_getElem (show i < bs.length by omega), List.count_singleton]

theorem BitMap.Repr.rank {m : BitMap} {bs : List Bool} (h : m.Repr bs) (i : Nat)
    (hi : i ≤ bs.length) : m.rank i = some ((bs.take i).count true) := by
  unfold BitMap.rank
  have hk := h.k
  have hw := h.wlen
  rw [h.len, if_neg (by omega), hk, if_neg (by omega)]
  simp only []
  have hcount : (if i / 32 / 4 > 0 then m.index[i / 32 / 4 - 1]? else some 0) =
      some (onesIn (wordBit m.bitmap) 0 (32 * (i / 32 / 4 * 4))) := by
    split
    · rename_i hb
      have hdiv : i / 32 / 4 ≤ bs.length / 32 / 4 := by omega
      rw [h.idx (i / 32 / 4 - 1) (by omega)]
      have : i / 32 / 4 - 1 + 1 = i / 32 / 4 := by omega
      rw [this]
    · rename_i hb
      have : i / 32 / 4 = 0 := by omega
      rw [this]; simp [onesIn_zero]
  rw [hcount]
  simp only []
  have hsl : slice? m.bitmap (i / 32 / 4 * 4) (i / 32) =
      some ((m.bitmap.drop (i / 32 / 4 * 4)).take (i / 32 - i / 32 / 4 * 4)) := by
    unfold slice?; rw [if_pos (by omega)]
  rw [hsl]
  simp only []
  rw [foldl_count]
  have hlen : ((m.bitmap.drop (i / 32 / 4 * 4)).take (i / 32 - i / 32 / 4 * 4)).length =
      i / 32 - i / 32 / 4 * 4 := by simp; omega
  rw [hlen]
  have hmid : onesIn (wordBit ((m.bitmap.drop (i / 32 / 4 * 4)).take (i / 32 - i / 32 / 4 * 4))) 0
      (32 * (i / 32 - i / 32 / 4 * 4)) =
      onesIn (wordBit m.bitmap) (32 * (i / 32 / 4 * 4)) (32 * (i / 32 - i / 32 / 4 * 4)) := by
    apply onesIn_shift
    intro j hj
    rw [Nat.zero_add, wordBit_sub _ _ _ _ hj]
  rw [hmid]
  have hsum : onesIn (wordBit m.bitmap) 0 (32 * (i / 32 / 4 * 4)) +
      onesIn (wordBit m.bitmap) (32 * (i / 32 / 4 * 4)) (32 * (i / 32 - i / 32 / 4 * 4)) =
      onesIn (wordBit m.bitmap) 0 (32 * (i / 32)) := by
    have := onesIn_append (wordBit m.bitmap) 0 (32 * (i / 32 / 4 * 4))
      (32 * (i / 32 - i / 32 / 4 * 4))
    rw [Nat.zero_add] at this
    rw [← this]; congr 1; omega
  rw [hsum]
  have hfin : (bs.take i).count true =
      onesIn (wordBit m.bitmap) 0 (32 * (i / 32)) +
        onesIn (wordBit m.bitmap) (32 * (i / 32)) (i - i / 32 * 32) := by
    rw [← onesIn_bits bs i hi]
    have := onesIn_append (wordBit m.bitmap) 0 (32 * (i / 32)) (i - i / 32 * 32)
    rw [Nat.zero_add] at this
    rw [← this]
    have e : 32 * (i / 32) + (i - i / 32 * 32) = i := by omega
    rw [e]
    apply onesIn_shift
    intro j _; rw [h.bits]
  rw [hfin]
  split
  · rename_i hl
    have hlt : i / 32 < m.bitmap.length := by omega
    rw [List.getElem?_eq_getElem hlt]
    simp only []
    rw [countOnes_shift _ _ (by omega)]
    congr 2
    have e : List.range' (32 * (i / 32)) (i - i / 32 * 32) =
        (List.range (i - i / 32 * 32)).map (32 * (i / 32) + ·) := by
      rw [List.range_eq_range', List.map_add_range']; simp
    unfold onesIn
    rw [e, List.countP_map]
    apply List.countP_congr
    intro j hj
    simp only [List.mem_range] at hj
    have e1 : (32 * (i / 32) + j) / 32 = i / 32 := by omega
    have e2 : (32 * (i / 32) + j) % 32 = j := by omega
    simp [wordBit, e1, e2, List.getElem?_eq_getElem hlt]
  · rename_i hl
    have : i - i / 32 * 32 = 0 := by omega
    rw [this, onesIn_zero]; rfl

theorem BitMap.Repr.rank_gt {m : BitMap} {bs : List Bool} (h : m.Repr bs) (i : Nat)
    (hi : bs.length < i) : m.rank i = none := by
  unfold BitMap.rank; rw [if_pos (by rw [h.len]; exact hi)]

theorem BitMap.Repr.rank0 {m : BitMap} {bs : List Bool} (h : m.Repr bs) (i : Nat)
    (hi : i ≤ bs.length) : m.rank0 i = some ((bs.take i).count false) := by
  unfold BitMap.rank0
  rw [h.rank i hi]
  have h1 : ∀ l : List Bool, l.count true + l.count false = l.length := by
    intro l
    induction l with
    | nil => rfl
    | cons x l ih => cases x <;> simp <;> omega
  have h1 := h1 (bs.take i)
  have h2 : (bs.take i).length = i := by simp; omega
  simp only
  rw [if_pos (by omega), Option.some.injEq]
  omega

end Verif
