import Verif.Lemmas.BitMap
import Verif.Model.Dac

/-! Helper lemmas for the integer container (dac.rs). -/
namespace Verif

theorem zigzag_roundtrip (n : Int64) : zigzagDecode (zigzagEncode n) = n := by
  unfold zigzagDecode zigzagEncode
  generalize hb : n.toBitVec = b
  suffices H : ((b.sshiftRight 63 ^^^ b <<< 1) >>> 1) ^^^
      (if (b.sshiftRight 63 ^^^ b <<< 1) &&& 1#64 = 1#64 then BitVec.allOnes 64 else 0#64) = b by
    rw [H, ← hb]; exact Int64.ofBitVec_toBitVec n
  have hcond : ((b.sshiftRight 63 ^^^ b <<< 1) &&& 1#64 = 1#64) ↔ b.msb = true := by
    constructor
    · intro h
      have h0 := congrArg (fun v => v.getLsbD 0) h
      simp only [BitVec.getLsbD_and, BitVec.getLsbD_xor, BitVec.getLsbD_shiftLeft,
        BitVec.getLsbD_sshiftRight, BitVec.getLsbD_one] at h0
      rw [BitVec.msb_eq_getLsbD_last]; simpa using h0
    · intro h
      rw [BitVec.msb_eq_getLsbD_last] at h
      apply BitVec.eq_of_getLsbD_eq
      intro i hi
      by_cases h0 : i = 0
      · subst h0
        simp only [BitVec.getLsbD_and, BitVec.getLsbD_xor, BitVec.getLsbD_shiftLeft,
          BitVec.getLsbD_sshiftRight, BitVec.getLsbD_one]
        simpa using h
      · simp [BitVec.getLsbD_one, h0]
  apply BitVec.eq_of_getLsbD_eq
  intro i hi
  by_cases hm : b.msb = true
  · rw [if_pos (hcond.2 hm)]
    simp only [BitVec.getLsbD_xor, BitVec.getLsbD_ushiftRight, BitVec.getLsbD_sshiftRight,
      BitVec.getLsbD_shiftLeft, BitVec.getLsbD_allOnes, hi, decide_true, hm]
    by_cases h63 : i = 63
    · subst h63
      rw [BitVec.msb_eq_getLsbD_last] at hm
      simp at hm ⊢; exact hm
    · have : 1 + i < 64 := by omega
      have h2 : ¬ (64 ≤ 1 + i) := by omega
      have h3 : ¬ (63 + (1 + i) < 64) := by omega
      simp [this, h2, h3]
  · rw [if_neg (fun h => hm (hcond.1 h))]
    simp only [Bool.not_eq_true] at hm
    simp only [BitVec.getLsbD_xor, BitVec.getLsbD_ushiftRight, BitVec.getLsbD_sshiftRight,
      BitVec.getLsbD_shiftLeft, hm]
    by_cases h63 : i = 63
    · subst h63
      rw [BitVec.msb_eq_getLsbD_last] at hm
      simp at hm ⊢; exact hm
    · have : 1 + i < 64 := by omega
      have h2 : ¬ (64 ≤ 1 + i) := by omega
      have h3 : ¬ (63 + (1 + i) < 64) := by omega
      simp [this, h2, h3]

/-- The data that reach the next level. -/
def dacNext (xs : List (BitVec 64)) : List (BitVec 64) :=
  (xs.filter (fun x : BitVec 64 => decide (x >>> 8 ≠ 0#64))).map (fun x : BitVec 64 => x >>> 8)

def dacBits (xs : List (BitVec 64)) : List Bool := xs.map (fun x : BitVec 64 => decide (x >>> 8 ≠ 0#64))

def dacBytes (xs : List (BitVec 64)) : List Byte := xs.map (·.truncate 8)

/-- Builder levels hold `xs`. -/
inductive BuilderHolds : DacBuilder → List (BitVec 64) → Prop
  | nil (xs) : BuilderHolds [] xs
  | cons {b rest} (xs) : BuilderInv b (dacBits xs) → BuilderHolds rest (dacNext xs) →
      BuilderHolds ((b, dacBytes xs) :: rest) xs

theorem dacNext_append (xs : List (BitVec 64)) (x : BitVec 64) :
    dacNext (xs ++ [x]) = if x >>> 8 = 0#64 then dacNext xs else dacNext xs ++ [x >>> 8] := by
  unfold dacNext
  by_cases h : x >>> 8 = 0#64
  · simp [List.filter_append, h]
  · simp [List.filter_append, h]

theorem pushDatum_holds (ls : DacBuilder) : ∀ (xs : List (BitVec 64)) (x : BitVec 64),
    BuilderHolds ls xs →
    ∃ ls', Dac.pushDatum ls x = some ls' ∧ BuilderHolds ls' (xs ++ [x]) ∧
      ls'.length = ls.length := by
  induction ls with
  | nil => intro xs x _; exact ⟨[], rfl, .nil _, rfl⟩
  | cons l rest ih =>
    intro xs x h
    cases h with
    | cons _ hb hr =>
    rename_i b
    unfold Dac.pushDatum
    simp only []
    have hbytes : dacBytes xs ++ [x.truncate 8] = dacBytes (xs ++ [x]) := by simp [dacBytes]
    rw [hbytes]
    by_cases hx : x >>> 8 = 0#64
    · rw [if_pos hx]
      obtain ⟨b', h1, h2⟩ := builderInv_push b _ hb false
      rw [h1]
      refine ⟨_, rfl, ?_, by simp⟩
      refine .cons _ ?_ ?_
      · have : dacBits (xs ++ [x]) = dacBits xs ++ [false] := by simp [dacBits, hx]
        rw [this]; exact h2
      · rw [dacNext_append, if_pos hx]; exact hr
    · rw [if_neg hx]
      obtain ⟨b', h1, h2⟩ := builderInv_push b _ hb true
      obtain ⟨rest', h3, h4, h5⟩ := ih _ (x >>> 8) hr
      rw [h1]; simp only []; rw [h3]
      refine ⟨_, rfl, ?_, by simp [h5]⟩
      refine .cons _ ?_ ?_
      · have : dacBits (xs ++ [x]) = dacBits xs ++ [true] := by simp [dacBits, hx]
        rw [this]; exact h2
      · rw [dacNext_append, if_neg hx]; exact h4

theorem pushAll_holds (data : List Int64) : ∀ (ls : DacBuilder) (xs : List (BitVec 64)),
    BuilderHolds ls xs →
    ∃ ls', data.foldlM (fun ls x => Dac.pushDatum ls (zigzagEncode x)) ls = some ls' ∧
      BuilderHolds ls' (xs ++ data.map zigzagEncode) ∧ ls'.length = ls.length := by
  induction data with
  | nil => intro ls xs h; exact ⟨ls, rfl, by simpa using h, rfl⟩
  | cons d ds ih =>
    intro ls xs h
    obtain ⟨l1, h1, h2, h3⟩ := pushDatum_holds ls xs (zigzagEncode d) h
    obtain ⟨l2, h4, h5, h6⟩ := ih l1 _ h2
    refine ⟨l2, ?_, by simpa using h5, by omega⟩
    simp only [List.foldlM_cons, h1]
    exact h4

/-- Finished levels hold `xs`, using at most `n` levels. -/
inductive LevelsHold : Nat → List (BitMap × List Byte) → List (BitVec 64) → Prop
  | full (xs) : LevelsHold 0 [] xs
  | empty (n) : LevelsHold n [] []
  | cons {n m rest} (xs) : xs ≠ [] → m.Repr (dacBits xs) → LevelsHold n rest (dacNext xs) →
      LevelsHold (n + 1) ((m, dacBytes xs) :: rest) xs

theorem finish_of_inv (b : BitMapBuilder) (bs : List Bool) (h : BuilderInv b bs) :
    ∃ m, b.finish = some m ∧ m.Repr bs := by
  obtain ⟨hlen, hblen, hbits⟩ := h
  unfold BitMapBuilder.finish
  simp only []
  obtain ⟨ws, hw1, hw2, hw3⟩ := packBytes_spec b.bitmap [] [] rfl (by intro i; simp [wordBit, byteBit])
  simp only [List.length_nil, Nat.zero_mod, Nat.mul_zero, Nat.sub_zero, Nat.zero_div,
    List.nil_append] at hw1 hw2 hw3
  have hmatch : (if divCeil b.length 32 > 0 then packBytes b.bitmap [] 24 0 else some []) = some ws := by
    split
    · exact hw1
    · rename_i h
      unfold divCeil at h
      simp only [] at h
      have : b.length = 0 := by
        split at h <;> omega
      have : ws.length = 0 := by omega
      rw [List.length_eq_zero_iff] at this
      rw [this]
  rw [hmatch]
  simp only []
  obtain ⟨idx, hi1, hi2, hi3⟩ := genIndex_spec ws 4 (b.length / 32 / 4) 0 (by omega)
  simp only [Nat.zero_mul, Nat.mul_zero, onesIn_zero, Nat.zero_add] at hi1 hi3
  rw [hi1]
  refine ⟨_, rfl, ?_, ?_, ?_, ?_, ?_, ?_⟩
  · exact hlen
  · rfl
  · simp only []; omega
  · simp only [hi2, hlen]
  · intro i; simp only [hw3, hbits]
  · intro j hj; rw [← hlen] at hj; exact hi3 j hj

theorem finishLevels_holds (ls : DacBuilder) : ∀ xs, BuilderHolds ls xs →
    ∃ fs, Dac.finishLevels ls = some fs ∧ LevelsHold ls.length fs xs := by
  induction ls with
  | nil => intro xs _; exact ⟨[], rfl, .full _⟩
  | cons l rest ih =>
    intro xs h
    cases h with
    | cons _ hb hr =>
    rename_i b
    unfold Dac.finishLevels
    have hl : b.length = xs.length := by rw [hb.len]; simp [dacBits]
    by_cases hx : xs = []
    · subst hx
      rw [if_neg (by simp at hl; omega)]
      exact ⟨[], rfl, .empty _⟩
    · have : 0 < xs.length := List.length_pos_iff.2 hx
      rw [if_pos (by omega)]
      obtain ⟨m, h1, h2⟩ := finish_of_inv b _ hb
      obtain ⟨fs, h3, h4⟩ := ih _ hr
      rw [h1]; simp only []; rw [h3]
      exact ⟨_, rfl, .cons _ hx h2 h4⟩

/-- What a finished container looks like for the integers `data`. -/
def Dac.Repr (d : Dac) (data : List Int64) : Prop :=
  LevelsHold 8 d.levels (data.map zigzagEncode)

theorem dac_ofList_repr (data : List Int64) : ∃ d, Dac.ofList data = some d ∧ d.Repr data := by
  unfold Dac.ofList
  simp only []
  have h0 : ∀ n, BuilderHolds (List.replicate n (BitMapBuilder.new, [])) [] := by
    intro n
    induction n with
    | zero => exact .nil _
    | succ n ih =>
      rw [List.replicate_succ]
      exact .cons [] (by simpa [dacBits] using builderInv_new) (by simpa [dacNext] using ih)
  obtain ⟨ls, h1, h2, h3⟩ := pushAll_holds data _ _ (h0 8)
  rw [h1]
  obtain ⟨fs, h4, h5⟩ := finishLevels_holds ls _ h2
  simp only [h4]
  refine ⟨_, rfl, ?_⟩
  unfold Dac.Repr
  rw [h3] at h5
  simpa using h5

theorem dacNext_rank (xs : List (BitVec 64)) : ∀ (i : Nat) (x : BitVec 64), xs[i]? = some x →
    x >>> 8 ≠ 0#64 → (dacNext xs)[((dacBits xs).take i).count true]? = some (x >>> 8) := by
  induction xs with
  | nil => intro i x h; simp at h
  | cons y ys ih =>
    intro i x h hx
    cases i with
    | zero =>
      simp at h; subst h
      simp [dacNext, hx]
    | succ i =>
      simp at h
      have := ih i x h hx
      by_cases hy : y >>> 8 = 0#64
      · simp [dacNext, dacBits, hy] at this ⊢; exact this
      · simp [dacNext, dacBits, hy] at this ⊢; exact this

theorem getLoop_spec (n : Nat) : ∀ (ls : List (BitMap × List Byte)) (xs : List (BitVec 64)),
    LevelsHold n ls xs → ∀ (lvl idx : Nat) (x acc : BitVec 64), xs[idx]? = some x →
    x >>> (8 * n) = 0#64 →
    lvl + n ≤ 8 →
    Dac.getLoop ls lvl idx acc = some (acc ||| x <<< (lvl * 8)) := by
  induction n with
  | zero =>
    intro ls xs h lvl idx x acc hx h0 hl8
    simp at h0; subst h0
    cases h with
    | full => simp [Dac.getLoop]
    | empty => simp at hx
  | succ n ih =>
    intro ls xs h lvl idx x acc hx h0 hl8
    cases h with
    | empty => simp at hx
    | cons _ hne hm hr =>
    rename_i m rest
    unfold Dac.getLoop
    have hb : (dacBytes xs)[idx]? = some (x.truncate 8) := by simp [dacBytes, hx]
    rw [hb]
    simp only []
    rw [Nat.mod_eq_of_lt (show lvl * 8 < 64 by omega)]
    have hlt : idx < (dacBits xs).length := by
      have := (List.getElem?_eq_some_iff.1 hx).1
      simpa [dacBits] using this
    rw [hm.get idx hlt]
    have hbit : (dacBits xs)[idx] = decide (x >>> 8 ≠ 0#64) := by
      have h1 : (dacBits xs)[idx]? = some (decide (x >>> 8 ≠ 0#64)) := by simp [dacBits, hx]
      rw [List.getElem?_eq_getElem hlt] at h1
      exact Option.some.inj h1
    rw [hbit]
    have hlow : ∀ l, (BitVec.zeroExtend 64 (x.truncate 8)) <<< (l * 8) ||| (x >>> 8) <<< ((l + 1) * 8) =
        x <<< (l * 8) := by
      intro l
      apply BitVec.eq_of_getLsbD_eq
      intro i hi
      simp only [BitVec.getLsbD_or, BitVec.getLsbD_shiftLeft, BitVec.truncate_eq_setWidth,
        BitVec.getLsbD_setWidth, BitVec.getLsbD_ushiftRight, hi, decide_true, Bool.true_and]
      by_cases h1 : i < l * 8
      · have : i < (l + 1) * 8 := by omega
        simp [h1, this]
      · by_cases h2 : i < (l + 1) * 8
        · have h3 : i - l * 8 < 8 := by omega
          have h4 : i - l * 8 < 64 := by omega
          simp [h1, h2, h3, h4]
        · have h3 : ¬ (i - l * 8 < 8) := by omega
          have h4 : 8 + (i - (l + 1) * 8) = i - l * 8 := by omega
          simp [h1, h2, h3, h4]
    by_cases hz : x >>> 8 = 0#64
    · simp only [hz, ne_eq, not_true_eq_false, decide_false]
      have := hlow lvl
      rw [hz] at this
      simp only [BitVec.zero_shiftLeft, BitVec.or_zero] at this
      rw [this]
    · simp only [hz, ne_eq, not_false_eq_true, decide_true]
      rw [hm.rank idx (by omega)]
      simp only []
      rw [ih rest _ hr (lvl + 1) _ (x >>> 8) _ (dacNext_rank xs idx x hx hz)
        (by rw [← BitVec.shiftRight_add]; rw [← h0]; congr 1; omega)
        (by omega)]
      rw [BitVec.or_assoc, hlow]

theorem Dac.Repr.get {d : Dac} {data : List Int64} (h : d.Repr data) (i : Nat)
    (hi : i < data.length) : d.get i = some data[i] := by
  unfold Dac.get
  rw [getLoop_spec 8 d.levels _ h 0 i (zigzagEncode data[i]) 0#64 (by simp [hi])
    (BitVec.ushiftRight_eq_zero (by omega)) (by omega)]
  simp [zigzag_roundtrip]

theorem Dac.Repr.get_ge {d : Dac} {data : List Int64} (h : d.Repr data) (i : Nat)
    (hne : data ≠ []) (hi : data.length ≤ i) : d.get i = none := by
  unfold Dac.get
  unfold Dac.Repr at h
  generalize hx : data.map zigzagEncode = xs at h
  cases hl : d.levels with
  | nil => 
    rw [hl] at h
    cases h
    simp at hx; exact absurd hx hne
  | cons l rest =>
    rw [hl] at h
    cases h with
    | cons _ hne' hm hr =>
    unfold Dac.getLoop
    have : (dacBytes xs)[i]? = none := by
      rw [List.getElem?_eq_none_iff]; simp [dacBytes, ← hx]; exact hi
    rw [this]

/-- The value read from an empty container (any index) is zero. -/
theorem Dac.Repr.get_nil {d : Dac} (h : d.Repr []) (i : Nat) : d.get i = some 0 := by
  unfold Dac.Repr at h
  simp only [List.map_nil] at h
  unfold Dac.get
  generalize hl : d.levels = ls at h
  cases h with
  | empty => rfl
  | cons _ hne _ _ => exact absurd rfl hne

end Verif
