import Verif.Lemmas.ReadWF

/-! What readers give, written again, is what they have read. -/
namespace Verif

open Reader

/-- Writing what was read gives the bytes that were read. -/
def Exact {α : Type} (r : Reader α) (w : α → List Byte) : Prop :=
  ∀ s a s', r s = .ok (a, s') → w a ++ s' = s

section
variable {α β : Type} {w : α → List Byte} {w' : β → List Byte}

theorem read_bind_ok {r : Reader α} {f : α → Reader β} {s s' : List Byte} {b : β}
    (h : Reader.bind r f s = .ok (b, s')) : ∃ a s1, r s = .ok (a, s1) ∧ f a s1 = .ok (b, s') := by
  unfold Reader.bind at h
  cases h1 : r s with
  | error x => rw [h1] at h; cases h
  | ok x => rw [h1] at h; exact ⟨x.1, x.2, rfl, h⟩

theorem Exact.pure (a : α) (h : w a = []) : Exact (Reader.pure a) w := by
  intro s b s' hr
  cases hr
  rw [h]; rfl

theorem Exact.fail (f : Fail) : Exact (Reader.fail f) w := fun _ _ _ hr => nomatch hr

/-- A reader that reads something first. -/
theorem Exact.bind {r : Reader α} {f : α → Reader β} {g : β → List Byte} (hr : Exact r w)
    (hf : ∀ a s b s', f a s = .ok (b, s') → g b ++ s' = w a ++ s) : Exact (Reader.bind r f) g := by
  intro s b s' h
  obtain ⟨a, s1, h1, h2⟩ := read_bind_ok h
  rw [hf a s1 b s' h2, hr s a s1 h1]

theorem Exact.many {r : Reader α} (h : Exact r w) (n : Nat) :
    Exact (Reader.many r n) (fun as => as.flatMap w) ∧
      ∀ s as s', Reader.many r n s = .ok (as, s') → as.length = n := by
  induction n with
  | zero =>
    refine ⟨Exact.pure _ rfl, fun s as s' h => ?_⟩
    cases h; rfl
  | succ n ih =>
    constructor
    · intro s as s' hr
      obtain ⟨a, s1, h1, h2⟩ := read_bind_ok hr
      obtain ⟨as', s2, h3, h4⟩ := read_bind_ok h2
      cases h4
      have e := ih.1 _ _ _ h3
      simp only at e ⊢
      rw [List.flatMap_cons, List.append_assoc, e, h _ _ _ h1]
    · intro s as s' hr
      obtain ⟨a, s1, h1, h2⟩ := read_bind_ok hr
      obtain ⟨as', s2, h3, h4⟩ := read_bind_ok h2
      cases h4
      rw [List.length_cons, ih.2 _ _ _ h3]

theorem ofOption_ok {o : Option α} {s s' : List Byte} {a : α} (h : Reader.ofOption o s = .ok (a, s')) :
    o = some a ∧ s' = s := by
  cases o with
  | none => cases h
  | some b => cases h; exact ⟨rfl, rfl⟩

theorem pure_ok {a b : α} {s s' : List Byte} (h : Reader.pure a s = .ok (b, s')) : b = a ∧ s' = s := by
  cases h; exact ⟨rfl, rfl⟩

end

theorem toBE_ofBE : ∀ (l : List Byte), toBE l.length (ofBE l) = l := by
  intro l
  induction l using List.reverseRecOn with
  | nil => rfl
  | append_singleton l b ih =>
    have e : ofBE (l ++ [b]) = ofBE l * 256 + b.toNat := by unfold ofBE; rw [List.foldl_append]; rfl
    have hb : b.toNat < 256 := b.isLt
    rw [e, List.length_append, List.length_singleton, toBE]
    rw [show (ofBE l * 256 + b.toNat) / 256 = ofBE l by omega, ih]
    congr 1
    rw [List.cons.injEq]
    refine ⟨?_, rfl⟩
    apply BitVec.eq_of_toNat_eq
    rw [BitVec.toNat_ofNat]
    omega

theorem ofBE_lt : ∀ (l : List Byte), ofBE l < 256 ^ l.length := by
  intro l
  induction l using List.reverseRecOn with
  | nil => decide
  | append_singleton l b ih =>
    have e : ofBE (l ++ [b]) = ofBE l * 256 + b.toNat := by unfold ofBE; rw [List.foldl_append]; rfl
    have hb : b.toNat < 256 := b.isLt
    rw [e, List.length_append, List.length_singleton, Nat.pow_succ]
    generalize 256 ^ l.length = p at *
    omega

theorem readExact_ok {n : Nat} {s s' l : List Byte} (h : readExact n s = .ok (l, s')) :
    l.length = n ∧ l ++ s' = s := by
  unfold readExact at h
  split at h
  · cases h
    exact ⟨by rw [List.length_take]; omega, List.take_append_drop n s⟩
  · cases h

theorem readUpTo_ok {n : Nat} {s s' l : List Byte} (h : readUpTo n s = .ok (l, s')) :
    l.length ≤ n ∧ l ++ s' = s ∧ (l.length = n ∨ s' = []) := by
  unfold readUpTo at h
  cases h
  refine ⟨List.length_take_le .., List.take_append_drop n s, ?_⟩
  rw [List.length_take]
  rcases Nat.le_total n s.length with h | h
  · left; omega
  · right; exact List.drop_eq_nil_of_le h

theorem be_exact {α : Type} (n : Nat) (g : Nat → α) (v : α → Nat) (hv : ∀ m, m < 256 ^ n → v (g m) = m) :
    Exact (Reader.bind (readExact n) fun bytes => Reader.pure (g (ofBE bytes))) (fun a => toBE n (v a)) := by
  intro s a s' h
  obtain ⟨l, s1, h1, h2⟩ := read_bind_ok h
  obtain ⟨hl, hs⟩ := readExact_ok h1
  obtain ⟨rfl, rfl⟩ := pure_ok h2
  have := ofBE_lt l
  rw [hl] at this
  simp only
  rw [hv _ this, ← hs]
  congr 1
  rw [← hl]
  exact toBE_ofBE l

theorem readByte_exact : Exact readByte writeByte := by
  have := be_exact 1 (BitVec.ofNat 8) BitVec.toNat (fun m h => by rw [BitVec.toNat_ofNat]; omega)
  intro s a s' h
  rw [← this s a s' h]
  congr 1
  unfold writeByte toBE toBE
  simp

theorem readU16_exact : Exact readU16 writeU16 :=
  be_exact 2 (BitVec.ofNat 16) BitVec.toNat (fun m h => by rw [BitVec.toNat_ofNat]; omega)

theorem readU32_exact : Exact readU32 writeU32 :=
  be_exact 4 (BitVec.ofNat 32) BitVec.toNat (fun m h => by rw [BitVec.toNat_ofNat]; omega)

theorem readF32_exact : Exact readF32 writeF32 := readU32_exact

theorem readF64_exact : Exact readF64 writeF64 :=
  be_exact 8 (BitVec.ofNat 64) BitVec.toNat (fun m h => by rw [BitVec.toNat_ofNat]; omega)

theorem readI32_exact : Exact readI32 writeI32 :=
  be_exact 4 (fun n => Int32.ofBitVec (BitVec.ofNat 32 n)) (fun w => w.toBitVec.toNat)
    (fun m h => by change (BitVec.ofNat 32 m).toNat = m; rw [BitVec.toNat_ofNat]; omega)

theorem readI64_exact : Exact readI64 writeI64 :=
  be_exact 8 (fun n => Int64.ofBitVec (BitVec.ofNat 64 n)) (fun w => w.toBitVec.toNat)
    (fun m h => by change (BitVec.ofNat 64 m).toNat = m; rw [BitVec.toNat_ofNat]; omega)

theorem asU32_ofNat (w : BitVec 32) : asU32 w.toNat = w := by unfold asU32; simp
theorem asU8_ofNat (b : Byte) : asU8 b.toNat = b := by unfold asU8; simp

theorem toByte_ofByte {b : Byte} {e : MMEncoding} (h : MMEncoding.ofByte b = some e) : e.toByte = b := by
  unfold MMEncoding.ofByte at h
  split at h
  · cases h; subst b; rfl
  split at h
  · cases h; subst b; rfl
  split at h
  · cases h; subst b; rfl
  split at h
  · cases h; subst b; rfl
  split at h
  · cases h; subst b; rfl
  · cases h

/-- A string that is cut off by the end of the stream is written with another length. -/
theorem readStr_exact (utf8 : List Byte → Bool) {s s' l : List Byte} (h : readStr utf8 s = .ok (l, s'))
    (hs : s' ≠ []) : writeStr l ++ s' = s := by
  obtain ⟨b, s1, h1, h2⟩ := read_bind_ok h
  obtain ⟨l', s2, h3, h4⟩ := read_bind_ok h2
  split at h4
  · cases h4
    obtain ⟨-, h5, h6⟩ := readUpTo_ok h3
    rcases h6 with h6 | h6
    · unfold writeStr
      rw [List.append_assoc, h5, h6, asU8_ofNat, readByte_exact _ _ _ h1]
    · exact (hs h6).elim
  · cases h4

theorem readVarintGo_exact : ∀ (fuel i acc : Nat) (s : List Byte) (n : Nat) (s' : List Byte),
    readVarintGo fuel i acc s = .ok (n, s') →
      ∃ m, n = acc + m * 128 ^ i ∧ varintEncode fuel m ++ s' = s ∧ (0 < i → 0 < m) := by
  intro fuel
  induction fuel with
  | zero => intro i acc s n s' h; cases h
  | succ fuel ih =>
    intro i acc s n s' h
    obtain ⟨b, s1, h1, h2⟩ := read_bind_ok h
    have hb := b.isLt
    have he := readByte_exact _ _ _ h1
    simp only at h2
    split at h2
    · rename_i hlt
      split at h2
      · cases h2
      · rename_i hz
        split at h2
        · cases h2
          refine ⟨b.toNat, by rw [Nat.mod_eq_of_lt hlt], ?_, fun hi => by omega⟩
          rw [varintEncode, if_pos hlt, ← he]
          unfold writeByte
          simp
        · cases h2
    · rename_i hge
      obtain ⟨m, e1, e2, e3⟩ := ih _ _ _ _ _ h2
      have hm := e3 (by omega)
      refine ⟨b.toNat % 128 + m * 128, ?_, ?_, fun _ => by omega⟩
      · rw [e1, Nat.pow_succ]; ring
      · rw [varintEncode, if_neg (by omega)]
        rw [show (b.toNat % 128 + m * 128) % 128 + 128 = b.toNat by omega,
          show (b.toNat % 128 + m * 128) / 128 = m by omega]
        rw [List.cons_append, e2, ← he]
        unfold writeByte
        simp

theorem readVarint_exact : Exact readVarint writeVarint := by
  intro s n s' h
  obtain ⟨m, e1, e2, -⟩ := readVarintGo_exact 10 0 0 s n s' (withErr_ok.1 h)
  rw [Nat.pow_zero, Nat.mul_one, Nat.zero_add] at e1
  subst e1
  exact e2

theorem writeVarint_small {n : Nat} (h : n < 128) : writeVarint n = [BitVec.ofNat 8 n] := by
  unfold writeVarint
  rw [varintEncode, if_pos h]

theorem Cid.parse_exact : Exact Cid.parse Cid.toBytes := by
  intro s c s' h
  replace h := withErr_ok.1 h
  obtain ⟨version, s1, h1, h2⟩ := read_bind_ok h
  obtain ⟨codec, s2, h3, h4⟩ := read_bind_ok h2
  have e1 := readVarint_exact _ _ _ h1
  have e2 := readVarint_exact _ _ _ h3
  split at h4
  · rename_i hv
    obtain ⟨digest, s3, h5, h6⟩ := read_bind_ok h4
    cases h6
    obtain ⟨hl, e3⟩ := readExact_ok h5
    rw [hv.1, writeVarint_small (by omega)] at e1
    rw [hv.2, writeVarint_small (by omega)] at e2
    rw [← e1, ← e2, ← e3]
    rfl
  split at h4
  · rename_i hv
    obtain ⟨code, s3, h5, h6⟩ := read_bind_ok h4
    obtain ⟨size, s4, h7, h8⟩ := read_bind_ok h6
    split at h8
    · cases h8
    obtain ⟨digest, s5, h9, h10⟩ := read_bind_ok h8
    cases h10
    obtain ⟨hl, e5⟩ := readExact_ok h9
    have e3 := readVarint_exact _ _ _ h5
    have e4 := readVarint_exact _ _ _ h7
    rw [← e1, ← e2, ← e3, ← e4, ← e5, hv, ← hl]
    unfold Cid.toBytes
    simp only [List.append_assoc]
  · cases h4

/-- Parsing a buffer that has nothing after the identifier: `read_cid` reads no more than it needs. -/
theorem readCid_exact : Exact readCid writeCid := by
  intro s c s' h
  obtain ⟨version, s1, h1, h2⟩ := read_bind_ok h
  obtain ⟨codec, s2, h3, h4⟩ := read_bind_ok h2
  have e1 := readVarint_exact _ _ _ h1
  have e2 := readVarint_exact _ _ _ h3
  have l1 := (Gives.readVarint (e := true) _ _ _ h1).2 (.inl rfl)
  have l2 := (Gives.readVarint (e := true) _ _ _ h3).2 (.inl rfl)
  split at h4
  · rename_i hv
    obtain ⟨rest, s3, h5, h6⟩ := read_bind_ok h4
    unfold Reader.onBuffer at h6
    split at h6
    · rename_i c' s4 h7
      cases h6
      have e4 := Cid.parse_exact _ _ _ h7
      replace h7 := withErr_ok.1 h7
      obtain ⟨hl, e3, -⟩ := readUpTo_ok h5
      -- nothing is left in the buffer
      have h8 : s4 = [] := by
        rw [hv.1, hv.2] at h7
        obtain ⟨digest, t3, g5, g6⟩ := read_bind_ok h7
        cases g6
        obtain ⟨hd, e5⟩ := readExact_ok (s := rest) g5
        apply List.eq_nil_of_length_eq_zero
        have := congrArg List.length e5
        rw [List.length_append] at this
        omega
      subst h8
      rw [List.append_nil] at e4
      unfold writeCid
      rw [e4, ← e1, ← e2, ← e3, hv.1, hv.2, writeVarint_small (by omega), writeVarint_small (by omega)]
      rfl
    · cases h6
  · rename_i hv
    obtain ⟨code, s3, h5, h6⟩ := read_bind_ok h4
    obtain ⟨size, s4, h7, h8⟩ := read_bind_ok h6
    obtain ⟨rest, s5, h9, h10⟩ := read_bind_ok h8
    have l3 := (Gives.readVarint (e := true) _ _ _ h5).2 (.inl rfl)
    have l4 := (Gives.readVarint (e := true) _ _ _ h7).2 (.inl rfl)
    have e3 := readVarint_exact _ _ _ h5
    have e4 := readVarint_exact _ _ _ h7
    unfold Reader.onBuffer at h10
    split at h10
    · rename_i c' s6 h11
      cases h10
      have e6 := Cid.parse_exact _ _ _ h11
      replace h11 := withErr_ok.1 h11
      obtain ⟨hl, e5, -⟩ := readUpTo_ok h9
      have h12 : s6 = [] := by
        obtain ⟨v', t1, g1, g2⟩ := read_bind_ok h11
        have r1 := readVarint_rt version l1 (writeVarint codec ++ writeVarint code ++ writeVarint size ++ rest)
        simp only [List.append_assoc] at r1 g1
        have r1' := r1.symm.trans g1
        cases r1'
        obtain ⟨c', t2, g3, g4⟩ := read_bind_ok g2
        have r2 := readVarint_rt codec l2 (writeVarint code ++ writeVarint size ++ rest)
        simp only [List.append_assoc] at r2 g3
        have r2' := r2.symm.trans g3
        cases r2'
        rw [if_neg hv] at g4
        split at g4
        · obtain ⟨code', t3, g5, g6⟩ := read_bind_ok g4
          have r3 := readVarint_rt code l3 (writeVarint size ++ rest)
          have r3' := r3.symm.trans g5
          cases r3'
          obtain ⟨size', t4, g7, g8⟩ := read_bind_ok g6
          have r4 := readVarint_rt size l4 rest
          have r4' := r4.symm.trans g7
          cases r4'
          split at g8
          · cases g8
          obtain ⟨digest, t5, g9, g10⟩ := read_bind_ok g8
          cases g10
          obtain ⟨hd, e7⟩ := readExact_ok g9
          apply List.eq_nil_of_length_eq_zero
          have := congrArg List.length e7
          rw [List.length_append] at this
          omega
        · cases g4
      subst h12
      rw [List.append_nil] at e6
      unfold writeCid
      rw [e6, ← e1, ← e2, ← e3, ← e4, ← e5]
      simp only [List.append_assoc]
    · cases h10

theorem u32s_exact (n : Nat) : Exact (Reader.many readU32 n) (fun ws => ws.flatMap writeU32) :=
  (Exact.many readU32_exact n).1

theorem u32s_nat (ws : List (BitVec 32)) :
    (ws.map BitVec.toNat).flatMap (fun i => writeU32 (asU32 i)) = ws.flatMap writeU32 := by
  rw [List.flatMap_map]
  congr 1
  funext w
  rw [asU32_ofNat]

theorem BitMap.read_exact : Exact BitMap.read BitMap.write := by
  intro s m s' h
  obtain ⟨length, s1, h1, h⟩ := read_bind_ok h
  obtain ⟨k, s2, h2, h⟩ := read_bind_ok h
  split at h
  · cases h
  obtain ⟨index, s3, h3, h⟩ := read_bind_ok h
  obtain ⟨bitmap, s4, h4, h⟩ := read_bind_ok h
  cases h
  rw [← readU32_exact _ _ _ h1, ← readU32_exact _ _ _ h2, ← u32s_exact _ _ _ _ h3, ← u32s_exact _ _ _ _ h4]
  unfold BitMap.write
  simp only [asU32_ofNat, u32s_nat, List.append_assoc]

theorem Dac.readLevel_exact : Exact Dac.readLevel (fun l => l.1.write ++ l.2) := by
  intro s l s' h
  obtain ⟨m, s1, h1, h⟩ := read_bind_ok h
  obtain ⟨bytes, s2, h2, h⟩ := read_bind_ok h
  cases h
  obtain ⟨-, e, -⟩ := readUpTo_ok h2
  rw [← BitMap.read_exact _ _ _ h1, ← e]
  simp only [List.append_assoc]

theorem Dac.read_exact : Exact Dac.read Dac.write := by
  intro s d s' h
  obtain ⟨n, s1, h1, h⟩ := read_bind_ok h
  obtain ⟨levels, s2, h2, h⟩ := read_bind_ok h
  cases h
  have hm := Exact.many Dac.readLevel_exact n.toNat
  rw [← readByte_exact _ _ _ h1, ← hm.1 _ _ _ h2]
  unfold Dac.write
  simp only [hm.2 _ _ _ h2, asU8_ofNat, List.append_assoc]

theorem Snapshot.read_exact : Exact Snapshot.read Snapshot.write := by
  intro s x s' h
  obtain ⟨k, s1, h1, h⟩ := read_bind_ok h
  obtain ⟨rows, s2, h2, h⟩ := read_bind_ok h
  obtain ⟨cols, s3, h3, h⟩ := read_bind_ok h
  obtain ⟨side, s4, h4, h⟩ := read_bind_ok h
  obtain ⟨nm, s5, h5, h⟩ := read_bind_ok h
  obtain ⟨mx, s6, h6, h⟩ := read_bind_ok h
  obtain ⟨mn, s7, h7, h⟩ := read_bind_ok h
  cases h
  rw [← readByte_exact _ _ _ h1, ← readU32_exact _ _ _ h2, ← readU32_exact _ _ _ h3,
    ← readU32_exact _ _ _ h4, ← BitMap.read_exact _ _ _ h5, ← Dac.read_exact _ _ _ h6,
    ← Dac.read_exact _ _ _ h7]
  unfold Snapshot.write
  simp only [asU8_ofNat, asU32_ofNat, List.append_assoc]

theorem Log.read_exact : Exact Log.read Log.write := by
  intro s x s' h
  obtain ⟨k, s1, h1, h⟩ := read_bind_ok h
  obtain ⟨rows, s2, h2, h⟩ := read_bind_ok h
  obtain ⟨cols, s3, h3, h⟩ := read_bind_ok h
  obtain ⟨side, s4, h4, h⟩ := read_bind_ok h
  obtain ⟨nm, s5, h5, h⟩ := read_bind_ok h
  obtain ⟨eq, s6, h6, h⟩ := read_bind_ok h
  obtain ⟨mx, s7, h7, h⟩ := read_bind_ok h
  obtain ⟨mn, s8, h8, h⟩ := read_bind_ok h
  cases h
  rw [← readByte_exact _ _ _ h1, ← readU32_exact _ _ _ h2, ← readU32_exact _ _ _ h3,
    ← readU32_exact _ _ _ h4, ← BitMap.read_exact _ _ _ h5, ← BitMap.read_exact _ _ _ h6,
    ← Dac.read_exact _ _ _ h7, ← Dac.read_exact _ _ _ h8]
  unfold Log.write
  simp only [asU8_ofNat, asU32_ofNat, List.append_assoc]

theorem Block.read_exact : Exact Block.read Block.write := by
  intro s x s' h
  obtain ⟨n, s1, h1, h⟩ := read_bind_ok h
  obtain ⟨snap, s2, h2, h⟩ := read_bind_ok h
  obtain ⟨m, s3, h3, h⟩ := read_bind_ok h
  obtain ⟨logs, s4, h4, h⟩ := read_bind_ok h
  cases h
  obtain ⟨hm, rfl⟩ := ofOption_ok h3
  have hl := Exact.many Log.read_exact m
  have hn : m + 1 = n.toNat := by
    unfold csub at hm
    split at hm
    · cases hm; omega
    · cases hm
  rw [← readByte_exact _ _ _ h1, ← Snapshot.read_exact _ _ _ h2, ← hl.1 _ _ _ h4]
  unfold Block.write
  simp only [hl.2 _ _ _ h4, hn, asU8_ofNat, List.append_assoc]

theorem Chunk.read_exact : Exact Chunk.read Chunk.write := by
  intro s x s' h
  obtain ⟨b, s1, h1, h⟩ := read_bind_ok h
  obtain ⟨enc, s2, h2, h⟩ := read_bind_ok h
  obtain ⟨bits, s3, h3, h⟩ := read_bind_ok h
  obtain ⟨n, s4, h4, h⟩ := read_bind_ok h
  obtain ⟨blocks, s5, h5, h⟩ := read_bind_ok h
  cases h
  obtain ⟨he, rfl⟩ := ofOption_ok h2
  have hl := Exact.many Block.read_exact n.toNat
  rw [← readByte_exact _ _ _ h1, ← readByte_exact _ _ _ h3, ← readU32_exact _ _ _ h4, ← hl.1 _ _ _ h5]
  unfold Chunk.write
  simp only [hl.2 _ _ _ h5, toByte_ofByte he, asU8_ofNat, asU32_ofNat, List.append_assoc]

theorem Span.read_exact : Exact Span.read Span.write := by
  intro s x s' h
  obtain ⟨b, s1, h1, h⟩ := read_bind_ok h
  obtain ⟨enc, s2, h2, h⟩ := read_bind_ok h
  obtain ⟨instants, s3, h3, h⟩ := read_bind_ok h
  obtain ⟨rows, s4, h4, h⟩ := read_bind_ok h
  obtain ⟨cols, s5, h5, h⟩ := read_bind_ok h
  obtain ⟨stride, s6, h6, h⟩ := read_bind_ok h
  obtain ⟨n, s7, h7, h⟩ := read_bind_ok h
  obtain ⟨spans, s8, h8, h⟩ := read_bind_ok h
  cases h
  obtain ⟨he, rfl⟩ := ofOption_ok h2
  have hl := Exact.many readCid_exact n.toNat
  rw [← readByte_exact _ _ _ h1, ← readU32_exact _ _ _ h3, ← readU32_exact _ _ _ h4,
    ← readU32_exact _ _ _ h5, ← readU32_exact _ _ _ h6, ← readU32_exact _ _ _ h7, ← hl.1 _ _ _ h8]
  unfold Span.write
  simp only [hl.2 _ _ _ h8, toByte_ofByte he, asU32_ofNat, List.append_assoc]

theorem Reference.read_exact : Exact Reference.read Reference.write := by
  intro s x s' h
  obtain ⟨b, s1, h1, h⟩ := read_bind_ok h
  have e1 := readByte_exact _ _ _ h1
  split at h
  · rename_i hb
    cases h
    rw [← e1, hb]; rfl
  split at h
  · rename_i hb
    obtain ⟨i, s2, h2, h⟩ := read_bind_ok h
    cases h
    rw [← e1, ← readU32_exact _ _ _ h2, hb]
    unfold Reference.write
    simp only [asU32_ofNat, List.append_assoc]
  split at h
  · rename_i hb
    obtain ⟨i, s2, h2, h⟩ := read_bind_ok h
    cases h
    rw [← e1, ← readU32_exact _ _ _ h2, hb]
    unfold Reference.write
    simp only [asU32_ofNat, List.append_assoc]
  · cases h

theorem SuperHead.readWith_exact {node : Reader MMStruct3} (hn : Exact node MMStruct3.write) :
    ∀ s x s', SuperHead.readWith node s = .ok (x, s') → x.write ++ s' = writeByte 5 ++ s := by
  intro s x s' h
  obtain ⟨instants, s1, h1, h⟩ := read_bind_ok h
  obtain ⟨rows, s2, h2, h⟩ := read_bind_ok h
  obtain ⟨cols, s3, h3, h⟩ := read_bind_ok h
  obtain ⟨side, s4, h4, h⟩ := read_bind_ok h
  obtain ⟨levels, s5, h5, h⟩ := read_bind_ok h
  obtain ⟨cside, s6, h6, h⟩ := read_bind_ok h
  obtain ⟨sside, s7, h7, h⟩ := read_bind_ok h
  obtain ⟨bits, s8, h8, h⟩ := read_bind_ok h
  obtain ⟨b, s9, h9, h⟩ := read_bind_ok h
  obtain ⟨enc, s10, h10, h⟩ := read_bind_ok h
  obtain ⟨nr, s11, h11, h⟩ := read_bind_ok h
  obtain ⟨refs, s12, h12, h⟩ := read_bind_ok h
  obtain ⟨cid, s13, h13, h⟩ := read_bind_ok h
  obtain ⟨nl, s14, h14, h⟩ := read_bind_ok h
  obtain ⟨loc, s15, h15, h⟩ := read_bind_ok h
  obtain ⟨mx, s16, h16, h⟩ := read_bind_ok h
  obtain ⟨mn, s17, h17, h⟩ := read_bind_ok h
  cases h
  obtain ⟨he, rfl⟩ := ofOption_ok h10
  have hr := Exact.many Reference.read_exact nr.toNat
  have hl := Exact.many hn nl.toNat
  rw [← readU32_exact _ _ _ h1, ← readU32_exact _ _ _ h2, ← readU32_exact _ _ _ h3,
    ← readU32_exact _ _ _ h4, ← readByte_exact _ _ _ h5, ← readU32_exact _ _ _ h6,
    ← readU32_exact _ _ _ h7, ← readByte_exact _ _ _ h8, ← readByte_exact _ _ _ h9,
    ← readU32_exact _ _ _ h11, ← hr.1 _ _ _ h12, ← readCid_exact _ _ _ h13, ← readU32_exact _ _ _ h14,
    ← hl.1 _ _ _ h15, ← Dac.read_exact _ _ _ h16, ← Dac.read_exact _ _ _ h17]
  unfold MMStruct3.write SuperHead.writeFixed
  simp only [hr.2 _ _ _ h12, hl.2 _ _ _ h15, toByte_ofByte he, asU8_ofNat, asU32_ofNat,
    MMStruct3.writes_eq, List.append_assoc]

theorem MMStruct3.readFuel_exact (fuel : Nat) : Exact (MMStruct3.readFuel fuel) MMStruct3.write := by
  induction fuel with
  | zero => exact Exact.fail _
  | succ fuel ih =>
    intro s x s' h
    obtain ⟨tag, s1, h1, h⟩ := read_bind_ok h
    have e1 := readByte_exact _ _ _ h1
    split at h
    · rename_i hb
      obtain ⟨c, s2, h2, h⟩ := read_bind_ok h
      cases h
      rw [← e1, ← Chunk.read_exact _ _ _ h2, hb]
      unfold MMStruct3.write
      simp only [List.append_assoc]
    split at h
    · rename_i hb
      obtain ⟨c, s2, h2, h⟩ := read_bind_ok h
      cases h
      rw [← e1, ← Span.read_exact _ _ _ h2, hb]
      unfold MMStruct3.write
      simp only [List.append_assoc]
    split at h
    · rename_i hb
      rw [SuperHead.readWith_exact ih _ _ _ h, ← e1, hb]
    · cases h

theorem MMStruct3.read_exact : Exact MMStruct3.read MMStruct3.write :=
  fun s => MMStruct3.readFuel_exact _ s

/-! ### Data sets -/

/-- Bytes that say the same in a data set: any byte but 1 stands for an absent field, and is written
as 0. -/
def SameFlag (a b : Byte) : Prop := a = b ∨ a = 0 ∧ b ≠ 1

theorem SameFlag.refl (l : List Byte) : List.Forall₂ SameFlag l l := by
  induction l with
  | nil => exact .nil
  | cons a l ih => exact .cons (.inl rfl) ih

/-- Writing what was read gives the bytes that were read, but for flags. -/
def Alike {α : Type} (r : Reader α) (w : α → List Byte) : Prop :=
  ∀ s a s', r s = .ok (a, s') → ∃ l, List.Forall₂ SameFlag (w a) l ∧ l ++ s' = s

theorem Exact.alike {α : Type} {r : Reader α} {w : α → List Byte} (h : Exact r w) : Alike r w :=
  fun s a s' hr => ⟨w a, SameFlag.refl _, h s a s' hr⟩

theorem Alike.many {α : Type} {r : Reader α} {w : α → List Byte} (h : Alike r w) (n : Nat) :
    Alike (Reader.many r n) (fun as => as.flatMap w) ∧
      ∀ s as s', Reader.many r n s = .ok (as, s') → as.length = n := by
  induction n with
  | zero => exact ⟨(Exact.pure [] rfl).alike, fun s as s' h => by cases h; rfl⟩
  | succ n ih =>
    constructor
    · intro s as s' hr
      obtain ⟨a, s1, h1, h2⟩ := read_bind_ok hr
      obtain ⟨as', s2, h3, h4⟩ := read_bind_ok h2
      cases h4
      obtain ⟨l1, f1, e1⟩ := h _ _ _ h1
      obtain ⟨l2, f2, e2⟩ := ih.1 _ _ _ h3
      refine ⟨l1 ++ l2, List.rel_append f1 f2, by rw [List.append_assoc, e2, e1]⟩
    · intro s as s' hr
      obtain ⟨a, s1, h1, h2⟩ := read_bind_ok hr
      obtain ⟨as', s2, h3, h4⟩ := read_bind_ok h2
      cases h4
      rw [List.length_cons, ih.2 _ _ _ h3]

theorem CoordinateKind.read_exact : Exact CoordinateKind.read CoordinateKind.write := by
  intro s x s' h
  obtain ⟨b, s1, h1, h⟩ := read_bind_ok h
  obtain ⟨enc, s2, h2, h⟩ := read_bind_ok h
  obtain ⟨he, rfl⟩ := ofOption_ok h2
  have e1 := readByte_exact _ _ _ h1
  rw [← toByte_ofByte he] at e1
  rw [← e1]
  cases enc with
  | time =>
    obtain ⟨a, s3, h3, h⟩ := read_bind_ok h
    obtain ⟨c, s4, h4, h⟩ := read_bind_ok h
    cases h
    rw [← readI64_exact _ _ _ h3, ← readI64_exact _ _ _ h4]
    unfold CoordinateKind.write
    simp only [List.append_assoc]
  | i32 =>
    obtain ⟨a, s3, h3, h⟩ := read_bind_ok h
    obtain ⟨c, s4, h4, h⟩ := read_bind_ok h
    obtain ⟨d, s5, h5, h⟩ := read_bind_ok h
    cases h
    rw [← readI32_exact _ _ _ h3, ← readI32_exact _ _ _ h4, ← readU32_exact _ _ _ h5]
    unfold CoordinateKind.write
    simp only [asU32_ofNat, List.append_assoc]
  | i64 =>
    obtain ⟨a, s3, h3, h⟩ := read_bind_ok h
    obtain ⟨c, s4, h4, h⟩ := read_bind_ok h
    obtain ⟨d, s5, h5, h⟩ := read_bind_ok h
    cases h
    rw [← readI64_exact _ _ _ h3, ← readI64_exact _ _ _ h4, ← readU32_exact _ _ _ h5]
    unfold CoordinateKind.write
    simp only [asU32_ofNat, List.append_assoc]
  | f32 =>
    obtain ⟨a, s3, h3, h⟩ := read_bind_ok h
    obtain ⟨c, s4, h4, h⟩ := read_bind_ok h
    obtain ⟨d, s5, h5, h⟩ := read_bind_ok h
    cases h
    rw [← readF32_exact _ _ _ h3, ← readF32_exact _ _ _ h4, ← readU32_exact _ _ _ h5]
    unfold CoordinateKind.write
    simp only [asU32_ofNat, List.append_assoc]
  | f64 =>
    obtain ⟨a, s3, h3, h⟩ := read_bind_ok h
    obtain ⟨c, s4, h4, h⟩ := read_bind_ok h
    obtain ⟨d, s5, h5, h⟩ := read_bind_ok h
    cases h
    rw [← readF64_exact _ _ _ h3, ← readF64_exact _ _ _ h4, ← readU32_exact _ _ _ h5]
    unfold CoordinateKind.write
    simp only [asU32_ofNat, List.append_assoc]

theorem readByte_ne_nil {s s' : List Byte} {b : Byte} (h : readByte s = .ok (b, s')) : s ≠ [] := by
  rintro rfl
  cases h

theorem Coordinate.read_exact (utf8 : List Byte → Bool) : Exact (Coordinate.read utf8) Coordinate.write := by
  intro s x s' h
  obtain ⟨name, s1, h1, h⟩ := read_bind_ok h
  obtain ⟨kind, s2, h2, h⟩ := read_bind_ok h
  cases h
  have hn : s1 ≠ [] := by
    obtain ⟨b, _, h3, _⟩ := read_bind_ok h2
    exact readByte_ne_nil h3
  rw [← readStr_exact utf8 h1 hn, ← CoordinateKind.read_exact _ _ _ h2]
  unfold Coordinate.write
  simp only [List.append_assoc]

theorem Variable.readRound_alike : Alike Variable.readRound (fun r => match r with
    | some bits => writeByte 1 ++ writeByte (asU8 bits)
    | none => writeByte 0) := by
  intro s x s' h
  obtain ⟨b, s1, h1, h⟩ := read_bind_ok h
  have e1 := readByte_exact _ _ _ h1
  split at h
  · rename_i hb
    obtain ⟨bits, s2, h2, h⟩ := read_bind_ok h
    cases h
    refine ⟨_, SameFlag.refl _, ?_⟩
    rw [← e1, hb, ← readByte_exact _ _ _ h2]
    simp only [asU8_ofNat, List.append_assoc]
  · rename_i hb
    cases h
    exact ⟨writeByte b, .cons (.inr ⟨rfl, hb⟩) .nil, e1⟩

theorem Dataset.readPrev_alike : Alike Dataset.readPrev (fun p => match p with
    | some cid => writeByte 1 ++ writeCid cid
    | none => writeByte 0) := by
  intro s x s' h
  obtain ⟨b, s1, h1, h⟩ := read_bind_ok h
  have e1 := readByte_exact _ _ _ h1
  split at h
  · rename_i hb
    obtain ⟨bits, s2, h2, h⟩ := read_bind_ok h
    cases h
    refine ⟨_, SameFlag.refl _, ?_⟩
    rw [← e1, hb, ← readCid_exact _ _ _ h2]
    simp only [List.append_assoc]
  · rename_i hb
    cases h
    exact ⟨writeByte b, .cons (.inr ⟨rfl, hb⟩) .nil, e1⟩

theorem Variable.read_alike (utf8 : List Byte → Bool) : Alike (Variable.read utf8) Variable.write := by
  intro s x s' h
  obtain ⟨name, s1, h1, h⟩ := read_bind_ok h
  obtain ⟨round, s2, h2, h⟩ := read_bind_ok h
  obtain ⟨ss, s3, h3, h⟩ := read_bind_ok h
  obtain ⟨cs, s4, h4, h⟩ := read_bind_ok h
  obtain ⟨n, s5, h5, h⟩ := read_bind_ok h
  obtain ⟨levels, s6, h6, h⟩ := read_bind_ok h
  obtain ⟨b, s7, h7, h⟩ := read_bind_ok h
  obtain ⟨enc, s8, h8, h⟩ := read_bind_ok h
  obtain ⟨cid, s9, h9, h⟩ := read_bind_ok h
  cases h
  obtain ⟨he, rfl⟩ := ofOption_ok h8
  have hn : s1 ≠ [] := by
    obtain ⟨b, _, h3, _⟩ := read_bind_ok h2
    exact readByte_ne_nil h3
  obtain ⟨l, hf, hl⟩ := Variable.readRound_alike _ _ _ h2
  have hm := Exact.many readU32_exact n.toNat
  have e6 := hm.1 _ _ _ h6
  simp only at e6
  rw [← readStr_exact utf8 h1 hn, ← hl, ← readU32_exact _ _ _ h3, ← readU32_exact _ _ _ h4,
    ← readByte_exact _ _ _ h5, ← e6, ← readByte_exact _ _ _ h7, ← readCid_exact _ _ _ h9]
  refine ⟨writeStr name ++ (l ++ (writeU32 ss ++ (writeU32 cs ++ (writeByte n ++ (levels.flatMap writeU32 ++
    (writeByte b ++ writeCid cid)))))), ?_, by simp only [List.append_assoc]⟩
  unfold Variable.write
  simp only [List.append_assoc, asU32_ofNat, u32s_nat, toByte_ofByte he, List.length_map, hm.2 _ _ _ h6,
    asU8_ofNat]
  exact List.rel_append (SameFlag.refl _) (List.rel_append hf (SameFlag.refl _))

theorem Dataset.read_alike (utf8 : List Byte → Bool) : Alike (Dataset.read utf8) Dataset.write := by
  intro s x s' h
  obtain ⟨c0, s1, h1, h⟩ := read_bind_ok h
  obtain ⟨c1, s2, h2, h⟩ := read_bind_ok h
  obtain ⟨c2, s3, h3, h⟩ := read_bind_ok h
  obtain ⟨n, s4, h4, h⟩ := read_bind_ok h
  obtain ⟨vs, s5, h5, h⟩ := read_bind_ok h
  obtain ⟨rows, s6, h6, h⟩ := read_bind_ok h
  obtain ⟨cols, s7, h7, h⟩ := read_bind_ok h
  obtain ⟨prev, s8, h8, h⟩ := read_bind_ok h
  cases h
  have hm := Alike.many (Variable.read_alike utf8) n.toNat
  obtain ⟨l1, f1, e1⟩ := hm.1 _ _ _ h5
  obtain ⟨l2, f2, e2⟩ := Dataset.readPrev_alike _ _ _ h8
  rw [← Coordinate.read_exact utf8 _ _ _ h1, ← Coordinate.read_exact utf8 _ _ _ h2,
    ← Coordinate.read_exact utf8 _ _ _ h3, ← readByte_exact _ _ _ h4, ← e1, ← readU32_exact _ _ _ h6,
    ← readU32_exact _ _ _ h7, ← e2]
  refine ⟨c0.write ++ (c1.write ++ (c2.write ++ (writeByte n ++ (l1 ++ (writeU32 rows ++ (writeU32 cols ++ l2)))))),
    ?_, by simp only [List.append_assoc]⟩
  unfold Dataset.write
  simp only [List.append_assoc, asU32_ofNat, hm.2 _ _ _ h5, asU8_ofNat]
  exact List.rel_append (SameFlag.refl _) (List.rel_append (SameFlag.refl _) (List.rel_append (SameFlag.refl _)
    (List.rel_append (SameFlag.refl _) (List.rel_append f1 (List.rel_append (SameFlag.refl _)
      (List.rel_append (SameFlag.refl _) f2))))))

/-- Links are read from all that is left of the stream. -/
theorem Links.read_prefix {s s' : List Byte} {l : Links} (h : Links.read s = .ok (l, s')) :
    ∃ rest, l.write ++ rest = s := by
  obtain ⟨n, s1, h1, h⟩ := read_bind_ok h
  obtain ⟨cids, s2, h2, h⟩ := read_bind_ok h
  cases h
  split at h2
  · rename_i cids' s3 h3
    cases h2
    have hm := Exact.many Cid.parse_exact n.toNat
    refine ⟨s3, ?_⟩
    have e3 := hm.1 _ _ _ h3
    simp only at e3
    rw [← readU32_exact _ _ _ h1, ← e3]
    unfold Links.write
    simp only [hm.2 _ _ _ h3, asU32_ofNat, List.append_assoc]
    rfl
  · cases h2

theorem readHeader_exact : Exact readHeader header := by
  intro s b s' h
  obtain ⟨m, s1, h1, h⟩ := read_bind_ok h
  split at h
  · cases h
  rename_i hm
  obtain ⟨v, s2, h2, h⟩ := read_bind_ok h
  split at h
  · cases h
  rename_i hv
  rw [ne_eq, not_not] at hm hv
  rw [← readU16_exact _ _ _ h1, ← readU32_exact _ _ _ h2, ← readByte_exact _ _ _ h, hm, hv]
  unfold header
  simp only [List.append_assoc]

end Verif
