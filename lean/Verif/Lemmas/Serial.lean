import Verif.Model.Serial
import Mathlib.Tactic.Linarith
import Mathlib.Tactic.Ring

/-! Readers undo writers; truncated input. -/
namespace Verif

namespace Reader

/-- On any stream that starts with `bs`, the reader yields `a` and leaves the rest. -/
def RT {α} (r : Reader α) (bs : List Byte) (a : α) : Prop := ∀ rest, r (bs ++ rest) = .ok (a, rest)

/-- Every prefix of `bs` of less than `m` bytes is rejected with an error. -/
def Rejects {α} (r : Reader α) (bs : List Byte) (m : Nat) : Prop :=
  ∀ n, n < m → r (bs.take n) = .error (.err .io)

/-- Every proper prefix of `bs` of at least `m` bytes is read to its end without error. -/
def Soft {α} (r : Reader α) (bs : List Byte) (m : Nat) : Prop :=
  ∀ n, m ≤ n → n < bs.length → ∃ a, r (bs.take n) = .ok (a, [])

section
variable {α β : Type} {r : Reader α} {f : α → Reader β} {bs cs : List Byte} {a : α} {b : β}
  {m m' : Nat}

theorem bind_def : (r >>= f) = Reader.bind r f := rfl
theorem pure_def : (Pure.pure a : Reader α) = Reader.pure a := rfl

theorem RT.pure (a : α) : RT (Reader.pure a) [] a := fun _ => rfl

theorem RT.bind (h : RT r bs a) (h' : RT (f a) cs b) : RT (Reader.bind r f) (bs ++ cs) b := by
  intro rest
  unfold Reader.bind
  rw [List.append_assoc, h]
  exact h' rest

theorem RT.map {g : α → β} (h : RT r bs a) :
    RT (Reader.bind r fun a => Reader.pure (g a)) bs (g a) := by
  intro rest
  unfold Reader.bind
  rw [h]
  rfl

/-- A reader that is right on `bs` and rejects its proper prefixes, then another. -/
theorem Rejects.bind (h : RT r bs a) (hr : Rejects r bs bs.length) (h' : Rejects (f a) cs m) :
    Rejects (Reader.bind r f) (bs ++ cs) (bs.length + m) := by
  intro n hn
  unfold Reader.bind
  by_cases hlt : n < bs.length
  · rw [List.take_append_of_le_length (by omega), hr n hlt]
  · rw [List.take_append, List.take_of_length_le (by omega), h]
    exact h' _ (by omega)

theorem Soft.bind (h : RT r bs a) (h' : Soft (f a) cs m) :
    Soft (Reader.bind r f) (bs ++ cs) (bs.length + m) := by
  intro n h1 h2
  rw [List.length_append] at h2
  unfold Reader.bind
  rw [List.take_append, List.take_of_length_le (by omega), h]
  exact h' _ (by omega) (by omega)

/-- A reader that accepts some truncated input, then one that needs at least a byte. -/
theorem Rejects.bind_soft (h : RT r bs a) (hr : Rejects r bs m') (hs : Soft r bs m')
    (h' : Rejects (f a) cs m) (h0 : ∀ a', f a' [] = .error (.err .io)) :
    Rejects (Reader.bind r f) (bs ++ cs) (bs.length + m) := by
  intro n hn
  unfold Reader.bind
  by_cases hlt : n < bs.length
  · rw [List.take_append_of_le_length (by omega)]
    by_cases h2 : n < m'
    · rw [hr n h2]
    · obtain ⟨a', e⟩ := hs n (by omega) hlt
      rw [e]
      exact h0 a'
  · rw [List.take_append, List.take_of_length_le (by omega), h]
    exact h' _ (by omega)

theorem Rejects.map {g : α → β} (h : Rejects r bs m) :
    Rejects (Reader.bind r fun a => Reader.pure (g a)) bs m := by
  intro n hn
  unfold Reader.bind
  rw [h n hn]

theorem Soft.map {g : α → β} (h : Soft r bs m) :
    Soft (Reader.bind r fun a => Reader.pure (g a)) bs m := by
  intro n h1 h2
  obtain ⟨a, e⟩ := h n h1 h2
  unfold Reader.bind
  rw [e]
  exact ⟨g a, rfl⟩

theorem Soft.of_rejects (r : Reader α) (bs : List Byte) : Soft r bs bs.length :=
  fun n h1 h2 => absurd h2 (by omega)

theorem Rejects.zero (r : Reader α) (bs : List Byte) : Rejects r bs 0 :=
  fun n h => absurd h (by omega)

theorem Rejects.mono (h : Rejects r bs m) (hm : m' ≤ m) : Rejects r bs m' :=
  fun n hn => h n (by omega)

/-! Repetition. -/

theorem RT.many {ι} {w : ι → List Byte} {g : ι → α} : ∀ (xs : List ι),
    (∀ x ∈ xs, RT r (w x) (g x)) → RT (Reader.many r xs.length) (xs.flatMap w) (xs.map g) := by
  intro xs
  induction xs with
  | nil => intro _; exact RT.pure _
  | cons x xs ih =>
    intro h
    rw [List.flatMap_cons]
    exact (h x (by simp)).bind ((ih fun y hy => h y (by simp [hy])).map)

theorem Rejects.many {ι} {w : ι → List Byte} {g : ι → α} : ∀ (xs : List ι),
    (∀ x ∈ xs, RT r (w x) (g x)) → (∀ x ∈ xs, Rejects r (w x) (w x).length) →
    Rejects (Reader.many r xs.length) (xs.flatMap w) (xs.flatMap w).length := by
  intro xs
  induction xs with
  | nil => intro _ _; exact Rejects.zero _ _
  | cons x xs ih =>
    intro h h'
    rw [List.flatMap_cons, List.length_append]
    exact Rejects.bind (h x (by simp)) (h' x (by simp))
      ((ih (fun y hy => h y (by simp [hy])) (fun y hy => h' y (by simp [hy]))).map)

/-- Repetition of a reader that accepts some truncated inputs: only the last one matters. `t x` is
the number of bytes of `w x` whose absence goes unnoticed. -/
theorem Rejects.many_soft {ι} {w : ι → List Byte} {g : ι → α} {t : ι → Nat}
    (h0 : r [] = .error (.err .io)) : ∀ (xs : List ι),
    (∀ x ∈ xs, RT r (w x) (g x)) → (∀ x ∈ xs, t x ≤ (w x).length) →
    (∀ x ∈ xs, Rejects r (w x) ((w x).length - t x)) →
    (∀ x ∈ xs, Soft r (w x) ((w x).length - t x)) →
    Rejects (Reader.many r xs.length) (xs.flatMap w)
      ((xs.flatMap w).length - (xs.getLast?.map t).getD 0) ∧
    Soft (Reader.many r xs.length) (xs.flatMap w)
      ((xs.flatMap w).length - (xs.getLast?.map t).getD 0) := by
  intro xs
  induction xs with
  | nil => intro _ _ _ _; exact ⟨Rejects.zero _ _, fun n h1 h2 => by simp at h2⟩
  | cons x xs ih =>
    intro h ht hr hs
    obtain ⟨ih1, ih2⟩ := ih (fun y hy => h y (by simp [hy])) (fun y hy => ht y (by simp [hy]))
      (fun y hy => hr y (by simp [hy])) (fun y hy => hs y (by simp [hy]))
    have htl : (xs.getLast?.map t).getD 0 ≤ (xs.flatMap w).length := by
      cases hl : xs.getLast? with
      | none => simp
      | some y =>
        have hy : y ∈ xs := List.mem_of_getLast? hl
        have := ht y (by simp [hy])
        simp only [Option.map_some, Option.getD_some]
        refine Nat.le_trans this ?_
        clear * - hy
        induction xs with
        | nil => simp at hy
        | cons z zs ihz =>
          rw [List.flatMap_cons, List.length_append]
          rcases List.mem_cons.1 hy with rfl | hy
          · omega
          · have := ihz hy; omega
    rw [List.flatMap_cons]
    cases xs with
    | nil =>
      simp only [List.flatMap_nil, List.append_nil, List.getLast?_singleton, Option.map_some,
        Option.getD_some, List.length_singleton]
      constructor
      · intro n hn
        show Reader.bind r _ _ = _
        unfold Reader.bind
        rw [hr x (by simp) n hn]
      · intro n h1 h2
        obtain ⟨a, e⟩ := hs x (by simp) n h1 h2
        show ∃ a, Reader.bind r _ _ = _
        unfold Reader.bind
        rw [e]
        exact ⟨_, rfl⟩
    | cons y ys =>
      rw [List.getLast?_cons_cons]
      rw [List.length_append, Nat.add_sub_assoc htl]
      constructor
      · refine Rejects.bind_soft (h x (by simp)) (hr x (by simp)) (hs x (by simp)) ih1.map ?_
        intro a'
        show Reader.bind (Reader.bind r _) _ [] = _
        unfold Reader.bind
        rw [h0]
      · exact Soft.bind (h x (by simp)) ih2.map

end
end Reader

open Reader

/-! ### Primitive codecs -/

theorem toBE_length (n : Nat) : ∀ v, (toBE n v).length = n := by
  induction n with
  | zero => intro v; rfl
  | succ n ih => intro v; simp [toBE, ih]

theorem ofBE_toBE (n : Nat) : ∀ v, v < 256 ^ n → ofBE (toBE n v) = v := by
  induction n with
  | zero => intro v h; simp at h; subst h; rfl
  | succ n ih =>
    intro v h
    have h1 := ih (v / 256) (by rw [Nat.div_lt_iff_lt_mul (by omega), ← Nat.pow_succ]; exact h)
    have e : toBE (n + 1) v = toBE n (v / 256) ++ [BitVec.ofNat 8 v] := rfl
    unfold ofBE at *
    rw [e, List.foldl_append, h1]
    simp only [List.foldl_cons, List.foldl_nil, BitVec.toNat_ofNat]
    omega

theorem readExact_rt (bs : List Byte) : RT (readExact bs.length) bs bs := by
  intro rest
  unfold readExact
  rw [if_pos (by simp)]
  simp

theorem readExact_rejects (bs : List Byte) : Rejects (readExact bs.length) bs bs.length := by
  intro n hn
  unfold readExact
  rw [if_neg (by rw [List.length_take]; omega)]

theorem readUpTo_rt (bs : List Byte) : RT (readUpTo bs.length) bs bs := by
  intro rest
  unfold readUpTo
  simp

theorem readUpTo_soft (bs : List Byte) : Soft (readUpTo bs.length) bs 0 := by
  intro n _ hn
  refine ⟨bs.take n, ?_⟩
  unfold readUpTo
  rw [List.take_of_length_le (by rw [List.length_take]; omega),
    List.drop_of_length_le (by rw [List.length_take]; omega)]

/-- Reading `n` big-endian bytes and converting. -/
theorem be_rt {α} (n v : Nat) (hv : v < 256 ^ n) (g : Nat → α) :
    RT (Reader.bind (readExact n) fun bytes => Reader.pure (g (ofBE bytes))) (toBE n v) (g v) := by
  have h := readExact_rt (toBE n v)
  rw [toBE_length] at h
  have := h.map (g := fun bytes => g (ofBE bytes))
  rwa [ofBE_toBE n v hv] at this

theorem be_rejects {α} (n v : Nat) (g : Nat → α) :
    Rejects (Reader.bind (readExact n) fun bytes => Reader.pure (g (ofBE bytes))) (toBE n v) n := by
  have h := readExact_rejects (toBE n v)
  rw [toBE_length] at h
  exact h.map

theorem readByte_rt (b : Byte) : RT readByte (writeByte b) b := by
  have h := be_rt 1 b.toNat (by have := b.isLt; omega) (BitVec.ofNat 8)
  have e : toBE 1 b.toNat = writeByte b := by simp [toBE, writeByte]
  rw [e, BitVec.ofNat_toNat, BitVec.setWidth_eq] at h
  exact h

theorem readByte_rejects (b : Byte) : Rejects readByte (writeByte b) 1 := by
  have h := be_rejects 1 b.toNat (BitVec.ofNat 8)
  have e : toBE 1 b.toNat = writeByte b := by simp [toBE, writeByte]
  rw [e] at h
  exact h

theorem readU16_rt (w : BitVec 16) : RT readU16 (writeU16 w) w := by
  have h := be_rt 2 w.toNat (by have := w.isLt; omega) (BitVec.ofNat 16)
  rw [BitVec.ofNat_toNat, BitVec.setWidth_eq] at h
  exact h

theorem readU16_rejects (w : BitVec 16) : Rejects readU16 (writeU16 w) 2 :=
  be_rejects 2 w.toNat (BitVec.ofNat 16)

theorem readU32_rt (w : BitVec 32) : RT readU32 (writeU32 w) w := by
  have h := be_rt 4 w.toNat (by have := w.isLt; omega) (BitVec.ofNat 32)
  rw [BitVec.ofNat_toNat, BitVec.setWidth_eq] at h
  exact h

theorem readU32_rejects (w : BitVec 32) : Rejects readU32 (writeU32 w) 4 :=
  be_rejects 4 w.toNat (BitVec.ofNat 32)

theorem readI32_rt (w : Int32) : RT readI32 (writeI32 w) w := by
  have h := be_rt 4 w.toBitVec.toNat (by have := w.toBitVec.isLt; omega)
    (fun v => Int32.ofBitVec (BitVec.ofNat 32 v))
  simp only [BitVec.ofNat_toNat, BitVec.setWidth_eq, Int32.ofBitVec_toBitVec] at h
  exact h

theorem readI64_rt (w : Int64) : RT readI64 (writeI64 w) w := by
  have h := be_rt 8 w.toBitVec.toNat (by have := w.toBitVec.isLt; omega)
    (fun v => Int64.ofBitVec (BitVec.ofNat 64 v))
  simp only [BitVec.ofNat_toNat, BitVec.setWidth_eq, Int64.ofBitVec_toBitVec] at h
  exact h

theorem readI64_rejects (w : Int64) : Rejects readI64 (writeI64 w) 8 :=
  be_rejects 8 _ (fun v => Int64.ofBitVec (BitVec.ofNat 64 v))

theorem readF32_rt (w : BitVec 32) : RT readF32 (writeF32 w) w := readU32_rt w

theorem readF64_rt (w : BitVec 64) : RT readF64 (writeF64 w) w := by
  have h := be_rt 8 w.toNat (by have := w.isLt; omega) (BitVec.ofNat 64)
  rw [BitVec.ofNat_toNat, BitVec.setWidth_eq] at h
  exact h

theorem writeU32_length (w : BitVec 32) : (writeU32 w).length = 4 := toBE_length _ _
theorem writeByte_length (b : Byte) : (writeByte b).length = 1 := rfl

theorem asU8_toNat {n : Nat} (h : n < 256) : (asU8 n).toNat = n := by
  unfold asU8; rw [BitVec.toNat_ofNat]; omega

theorem asU32_toNat {n : Nat} (h : n < 2 ^ 32) : (asU32 n).toNat = n := by
  unfold asU32; rw [BitVec.toNat_ofNat]; omega

theorem readByte_nil : readByte [] = .error (.err .io) := rfl
theorem readU32_nil : readU32 [] = .error (.err .io) := rfl

theorem readStr_rt (utf8 : List Byte → Bool) (s : List Byte) (h : s.length < 256)
    (hu : utf8 s = true) : RT (readStr utf8) (writeStr s) s := by
  unfold readStr writeStr
  refine RT.bind (readByte_rt _) ?_
  rw [asU8_toNat h]
  have := (readUpTo_rt s)
  have h2 := RT.bind (f := fun buf => if utf8 buf then (Pure.pure buf : Reader (List Byte)) else
    Reader.fail (.err .io)) this (cs := []) (b := s) (by
    rw [hu]; exact RT.pure s)
  rwa [List.append_nil] at h2

/-! ### Variable length integers and content identifiers -/

theorem readVarintGo_rt : ∀ (fuel n i acc : Nat), n < 128 ^ fuel → 0 < fuel →
    acc + n * 128 ^ i < 2 ^ 64 → (0 < i → 0 < n) →
    RT (readVarintGo fuel i acc) (varintEncode fuel n) (acc + n * 128 ^ i) := by
  intro fuel
  induction fuel with
  | zero => intros; omega
  | succ fuel ih =>
    intro n i acc h _ hacc hpos
    unfold varintEncode readVarintGo
    by_cases hn : n < 128
    · rw [if_pos hn]
      have h1 : (BitVec.ofNat 8 n).toNat = n := by rw [BitVec.toNat_ofNat]; omega
      have h2 := RT.bind (f := fun b : Byte =>
        if b.toNat < 128 then
          if b.toNat = 0 ∧ 0 < i then (Reader.fail (.err .varint) : Reader Nat)
          else if acc + b.toNat % 128 * 128 ^ i < 2 ^ 64 then
            (Pure.pure (acc + b.toNat % 128 * 128 ^ i) : Reader Nat)
          else Reader.fail (.err .varint)
        else readVarintGo fuel (i + 1) (acc + b.toNat % 128 * 128 ^ i))
        (readByte_rt (BitVec.ofNat 8 n)) (cs := []) (b := acc + n * 128 ^ i) (by
          simp only [h1, Nat.mod_eq_of_lt hn, if_pos hn]
          rw [if_neg (by omega), if_pos hacc]
          exact RT.pure _)
      rw [List.append_nil] at h2
      exact h2
    · rw [if_neg hn]
      have hfuel : 0 < fuel := by
        rcases Nat.eq_zero_or_pos fuel with h0 | h0
        · subst h0; simp at h; omega
        · exact h0
      have h1 : (BitVec.ofNat 8 (n % 128 + 128)).toNat = n % 128 + 128 := by
        rw [BitVec.toNat_ofNat]; omega
      have e : acc + n % 128 * 128 ^ i + n / 128 * 128 ^ (i + 1) = acc + n * 128 ^ i := by
        have : n = n % 128 + n / 128 * 128 := by omega
        conv => rhs; rw [this]
        ring
      have ih' := ih (n / 128) (i + 1) (acc + n % 128 * 128 ^ i)
        (by rw [Nat.div_lt_iff_lt_mul (by omega), ← Nat.pow_succ]; exact h) hfuel (by omega)
        (fun _ => by omega)
      rw [e] at ih'
      refine RT.bind (readByte_rt _) ?_
      simp only [h1, show ¬ n % 128 + 128 < 128 by omega, if_false,
        show (n % 128 + 128) % 128 = n % 128 by omega]
      exact ih'

theorem withErr_rt {α} {r : Reader α} {bs : List Byte} {a : α} (h : RT r bs a) (e : Err) : RT (r.withErr e) bs a := by
  intro rest
  unfold Reader.withErr
  rw [h rest]

theorem withErr_ok {α} {r : Reader α} {e : Err} {s : List Byte} {x : α × List Byte} :
    r.withErr e s = .ok x ↔ r s = .ok x := by
  unfold Reader.withErr
  cases h : r s with
  | ok y => rfl
  | error f => cases f <;> simp

theorem readVarint_rt (n : Nat) (h : n < 2 ^ 64) : RT readVarint (writeVarint n) n := by
  have := readVarintGo_rt 10 n 0 0 (by omega) (by omega) (by omega) (by omega)
  exact withErr_rt (by simpa [writeVarint] using this) _

theorem Cid.parse_rt (c : Cid) (h : c.Valid) : RT Cid.parse c.toBytes c := by
  refine withErr_rt ?_ _
  cases c with
  | v0 digest =>
    have e : Cid.toBytes (.v0 digest) = writeVarint 0x12 ++ (writeVarint 0x20 ++ digest) := rfl
    rw [e]
    unfold Cid.parseGo
    refine RT.bind (readVarint_rt _ (by omega)) (RT.bind (readVarint_rt _ (by omega)) ?_)
    simp only [and_self, if_true]
    have h32 := readExact_rt digest
    rw [show digest.length = 32 from h] at h32
    exact h32.map
  | v1 codec code digest =>
    obtain ⟨h1, h2, h3⟩ := h
    have e : Cid.toBytes (.v1 codec code digest) = writeVarint 1 ++ (writeVarint codec ++
        (writeVarint code ++ (writeVarint digest.length ++ digest))) := by simp [Cid.toBytes]
    rw [e]
    unfold Cid.parseGo
    refine RT.bind (readVarint_rt _ (by omega)) (RT.bind (readVarint_rt _ h1) ?_)
    simp only [show ¬ (1 = 0x12 ∧ codec = 0x20) by omega, if_false, if_true]
    refine RT.bind (readVarint_rt _ h2) (RT.bind (readVarint_rt _ (by omega)) ?_)
    rw [if_neg (by omega)]
    exact (readExact_rt digest).map

theorem onBuffer_rt {α} {r : Reader α} {bs : List Byte} {a : α} (h : RT r bs a) :
    RT (r.onBuffer bs) [] a := by
  intro rest
  have := h []
  rw [List.append_nil] at this
  unfold Reader.onBuffer
  rw [this]
  rfl

theorem readCid_rt (c : Cid) (h : c.Valid) : RT readCid (writeCid c) c := by
  have hp := onBuffer_rt (Cid.parse_rt c h)
  cases c with
  | v0 digest =>
    have e : writeCid (.v0 digest) = writeVarint 0x12 ++ (writeVarint 0x20 ++ (digest ++ [])) := by
      simp [writeCid, Cid.toBytes, writeVarint, varintEncode]
    rw [e]
    unfold readCid
    refine RT.bind (readVarint_rt _ (by omega)) (RT.bind (readVarint_rt _ (by omega)) ?_)
    simp only [and_self, if_true]
    have h32 := readUpTo_rt digest
    rw [show digest.length = 32 from h] at h32
    exact RT.bind h32 hp
  | v1 codec code digest =>
    obtain ⟨h1, h2, h3⟩ := h
    have e : writeCid (.v1 codec code digest) = writeVarint 1 ++ (writeVarint codec ++
        (writeVarint code ++ (writeVarint digest.length ++ (digest ++ [])))) := by
      simp [writeCid, Cid.toBytes]
    rw [e]
    unfold readCid
    refine RT.bind (readVarint_rt _ (by omega)) (RT.bind (readVarint_rt _ h1) ?_)
    simp only [show ¬ (1 = 0x12 ∧ codec = 0x20) by omega, if_false]
    refine RT.bind (readVarint_rt _ h2) (RT.bind (readVarint_rt _ (by omega)) ?_)
    exact RT.bind (readUpTo_rt digest) hp

end Verif
