import Verif.Lemmas.SerialBuilt
import Verif.Props.Chunk

/-!
Properties C16-C20 and the loaded half of C11: the binary format.

`FormatOk rows cols k e` says that the shape and the tree fit the format: `2 ≤ k < 256`, the square
of side `k^e` covers the raster, and a complete tree has fewer than `2^32` nodes
(`4 * (k^e)^2 ≤ 3 * 2^32`). Beyond it the casts `as u8`, `as u32` of the writers truncate
(`C16_arity_limit`).
-/
namespace Verif

/-! ### C16 -/

/-- C16, bit maps: any list of less than `2^32` bits. -/
theorem C16_bitmap (bits : List Bool) (h : bits.length < 2 ^ 32) :
    ∃ m, BitMap.ofBits bits = some m ∧ ∀ rest, BitMap.read (m.write ++ rest) = .ok (m, rest) := by
  obtain ⟨m, h1, h2⟩ := ofBits_repr bits
  exact ⟨m, h1, m.read_rt (h2.wf h)⟩

/-- C16, containers: any list of less than `2^32` values. -/
theorem C16_dac (data : List Int64) (h : data.length < 2 ^ 32) :
    ∃ d, Dac.ofList data = some d ∧ ∀ rest, Dac.read (d.write ++ rest) = .ok (d, rest) := by
  obtain ⟨d, h1, h2⟩ := dac_ofList_repr data
  exact ⟨d, h1, d.read_rt (h2.wf h)⟩

section
variable (rows cols k e : Nat)

/-- C16, snapshots. -/
theorem C16_snapshot (get : Nat → Nat → Int64) (h : FormatOk rows cols k e) :
    ∃ s, Snapshot.build get rows cols k e = some s ∧
      ∀ rest, Snapshot.read (s.write ++ rest) = .ok (s, rest) := by
  obtain ⟨s, N, h1, -⟩ := snapshot_build_layout get rows cols k (by have := h.arity; omega) e
  exact ⟨s, h1, s.read_rt (snapshot_build_wf h h1)⟩

/-- C16, logs. -/
theorem C16_log (getS getT : Nat → Nat → Int64) (h : FormatOk rows cols k e) :
    ∃ l, Log.build getS getT rows cols k e = some l ∧
      ∀ rest, Log.read (l.write ++ rest) = .ok (l, rest) := by
  obtain ⟨l, N, h1, -⟩ := log_build_layout getS getT rows cols k (by have := h.arity; omega) e
  exact ⟨l, h1, l.read_rt (log_build_wf h h1)⟩

/-- C16, blocks: any block the constructor accepts, made of built snapshots and logs. -/
theorem C16_block (h : FormatOk rows cols k e) (snapshot : Snapshot) (logs : List Log) (b : Block)
    (hs : ∃ get, Snapshot.build get rows cols k e = some snapshot)
    (hl : ∀ l ∈ logs, ∃ getS getT, Log.build getS getT rows cols k e = some l)
    (hb : Block.new snapshot logs = some b) :
    ∀ rest, Block.read (b.write ++ rest) = .ok (b, rest) := by
  unfold Block.new at hb
  split at hb
  · simp at hb
  obtain rfl := Option.some.inj hb
  obtain ⟨g, hg⟩ := hs
  refine Block.read_rt _ ⟨by simp only; omega, snapshot_build_wf h hg, fun l hm => ?_⟩
  obtain ⟨gS, gT, hg⟩ := hl l hm
  exact log_build_wf h hg

/-- C16, chunks. -/
theorem C16_chunk (get : Nat → Nat → Nat → Int64) (instants : Nat) (enc : MMEncoding) (fb : Nat)
    (h : FormatOk rows cols k e) (hi : 1 ≤ instants) (hi' : instants < 2 ^ 32) (hf : fb < 256) :
    ∃ r, Chunk.build get instants rows cols k e enc fb = some r ∧
      ∀ rest, Chunk.read (r.data.write ++ rest) = .ok (r.data, rest) := by
  obtain ⟨bs, h1, -, -, h3, h4⟩ := chunk_build get instants rows cols k e
    (by have := h.arity; omega) hi enc fb
  exact ⟨_, h3, Chunk.read_rt _ (h1.wf h (by omega) enc fb hf)⟩

end

/-- The restriction on the arity is needed: with `k = 256` the arity reads back as 0. -/
theorem C16_arity_limit (s : Snapshot) (hk : s.k = 256) (rest : List Byte) :
    Snapshot.read (s.write ++ rest) ≠ .ok (s, rest) := by
  intro h
  have e : s.write ++ rest = writeByte (asU8 256) ++ (writeU32 (asU32 s.rows) ++
      writeU32 (asU32 s.cols) ++ writeU32 (asU32 s.sidelen) ++ s.nodemap.write ++ s.max.write ++
      s.min.write ++ rest) := by simp [Snapshot.write, hk, List.append_assoc]
  rw [e] at h
  unfold Snapshot.read at h
  change Reader.bind readByte _ _ = _ at h
  unfold Reader.bind at h
  rw [readByte_rt] at h
  simp only at h
  generalize writeU32 (asU32 s.rows) ++ writeU32 (asU32 s.cols) ++ writeU32 (asU32 s.sidelen) ++
    s.nodemap.write ++ s.max.write ++ s.min.write ++ rest = tail at h
  have step : ∀ {α β : Type} (r : Reader α) (f : α → Reader β) (s : List Byte) b,
      Reader.bind r f s = .ok b → ∃ a s', f a s' = .ok b := by
    intro α β r f s b h
    unfold Reader.bind at h
    split at h
    · simp at h
    · exact ⟨_, _, h⟩
  obtain ⟨a1, s1, h⟩ := step readU32 _ _ _ h
  obtain ⟨a2, s2, h⟩ := step readU32 _ _ _ h
  obtain ⟨a3, s3, h⟩ := step readU32 _ _ _ h
  obtain ⟨a4, s4, h⟩ := step BitMap.read _ _ _ h
  obtain ⟨a5, s5, h⟩ := step Dac.read _ _ _ h
  obtain ⟨a6, s6, h⟩ := step Dac.read _ _ _ h
  change Except.ok (_, _) = Except.ok (s, rest) at h
  rw [Except.ok.injEq, Prod.mk.injEq] at h
  obtain ⟨h, -⟩ := h
  rw [← h] at hk
  simp [asU8] at hk

/-! ### C17 -/

/-- C17. For every value of these types, built or not, the reported size is the number of bytes
written. -/
theorem C17_sizes :
    (∀ m : BitMap, m.size = m.write.length) ∧ (∀ d : Dac, d.size = d.write.length) ∧
    (∀ s : Snapshot, s.size = s.write.length) ∧ (∀ l : Log, l.size = l.write.length) ∧
    (∀ b : Block, b.size = b.write.length) ∧ (∀ c : Chunk, c.size = c.write.length) :=
  ⟨fun m => m.size_eq.symm, fun d => d.size_eq.symm, fun s => s.size_eq.symm,
    fun l => l.size_eq.symm, fun b => b.size_eq.symm, fun c => c.size_eq.symm⟩

/-! ### C18 -/

/-- C18 for bit maps: every proper prefix is an error. -/
theorem C18_bitmap (bits : List Bool) (h : bits.length < 2 ^ 32) :
    ∃ m, BitMap.ofBits bits = some m ∧
      ∀ n, n < m.write.length → BitMap.read (m.write.take n) = .error (.err .io) := by
  obtain ⟨m, h1, h2⟩ := ofBits_repr bits
  exact ⟨m, h1, m.read_rejects (h2.wf h)⟩

/-- The number of bytes at the end of a serialized chunk, namely the last level of the last
container, that are read with `take(n).read_to_end()`. -/
def Chunk.unchecked (c : Chunk) : Nat := c.tail

/-- C18, partial: a chunk cut before the last level of its last container is an error, never a
panic or a value. Missing for the full claim: cuts inside that level, which are accepted
(`C18_cut_accepted`). -/
theorem C18_chunk_partial (get : Nat → Nat → Nat → Int64) (instants rows cols k e : Nat)
    (enc : MMEncoding) (fb : Nat) (h : FormatOk rows cols k e) (hi : 1 ≤ instants)
    (hi' : instants < 2 ^ 32) (hf : fb < 256) :
    ∃ r, Chunk.build get instants rows cols k e enc fb = some r ∧
      ∀ n, n < r.data.write.length - r.data.unchecked →
        Chunk.read (r.data.write.take n) = .error (.err .io) := by
  obtain ⟨bs, h1, -, -, h3, h4⟩ := chunk_build get instants rows cols k e
    (by have := h.arity; omega) hi enc fb
  exact ⟨_, h3, (Chunk.read_trunc _ (h1.wf h (by omega) enc fb hf)).1⟩

/-- C18, partial, snapshots and logs. -/
theorem C18_tree_partial (getS getT : Nat → Nat → Int64) (rows cols k e : Nat)
    (h : FormatOk rows cols k e) :
    (∃ s, Snapshot.build getT rows cols k e = some s ∧
      ∀ n, n < s.write.length - s.min.tail → Snapshot.read (s.write.take n) = .error (.err .io)) ∧
    (∃ l, Log.build getS getT rows cols k e = some l ∧
      ∀ n, n < l.write.length - l.min.tail → Log.read (l.write.take n) = .error (.err .io)) := by
  have hk : 0 < k := by have := h.arity; omega
  obtain ⟨s, N, h1, -⟩ := snapshot_build_layout getT rows cols k hk e
  obtain ⟨l, N', h2, -⟩ := log_build_layout getS getT rows cols k hk e
  exact ⟨⟨s, h1, (s.read_trunc (snapshot_build_wf h h1)).1⟩,
    ⟨l, h2, (l.read_trunc (log_build_wf h h2)).1⟩⟩

/-- C18 is false of the code: a chunk cut inside the last level of its last container is accepted,
whatever the chunk. -/
theorem C18_cut_accepted (get : Nat → Nat → Nat → Int64) (instants rows cols k e : Nat)
    (enc : MMEncoding) (fb : Nat) (h : FormatOk rows cols k e) (hi : 1 ≤ instants)
    (hi' : instants < 2 ^ 32) (hf : fb < 256) :
    ∃ r, Chunk.build get instants rows cols k e enc fb = some r ∧
      ∀ n, r.data.write.length - r.data.unchecked ≤ n → n < r.data.write.length →
        ∃ c, Chunk.read (r.data.write.take n) = .ok (c, []) := by
  obtain ⟨bs, h1, -, -, h3, h4⟩ := chunk_build get instants rows cols k e
    (by have := h.arity; omega) hi enc fb
  exact ⟨_, h3, (Chunk.read_trunc _ (h1.wf h (by omega) enc fb hf)).2⟩

/-- Every snapshot of a raster with two different values can be cut by a byte without an error. -/
theorem C18_snapshot_wrong (get : Nat → Nat → Int64) (rows cols k e : Nat)
    (h : FormatOk rows cols k e) (r c r' c' : Nat) (h1 : r < rows ∧ c < cols)
    (h2 : r' < rows ∧ c' < cols) (hne : get r c ≠ get r' c') :
    ∃ s s', Snapshot.build get rows cols k e = some s ∧
      Snapshot.read s.write.dropLast = .ok (s', []) := by
  have hk : 0 < k := by have := h.arity; omega
  obtain ⟨s, N, hs, -⟩ := snapshot_build_layout get rows cols k hk e
  have ht := snapshot_tail_pos hk hs h.rows_le h.cols_le h1 h2 hne
  have hl := s.tail_le_write
  obtain ⟨s', e'⟩ := (s.read_trunc (snapshot_build_wf h hs)).2 (s.write.length - 1) (by omega)
    (by omega)
  exact ⟨s, s', hs, by rw [List.dropLast_eq_take]; exact e'⟩

/-! ### C19 -/

/-- C19, integers and floats of all widths (a float is its bit pattern). -/
theorem C19_integers (rest : List Byte) :
    (∀ v, readByte (writeByte v ++ rest) = .ok (v, rest)) ∧
    (∀ v, readU16 (writeU16 v ++ rest) = .ok (v, rest)) ∧
    (∀ v, readU32 (writeU32 v ++ rest) = .ok (v, rest)) ∧
    (∀ v, readI32 (writeI32 v ++ rest) = .ok (v, rest)) ∧
    (∀ v, readI64 (writeI64 v ++ rest) = .ok (v, rest)) ∧
    (∀ v, readF32 (writeF32 v ++ rest) = .ok (v, rest)) ∧
    (∀ v, readF64 (writeF64 v ++ rest) = .ok (v, rest)) :=
  ⟨fun v => readByte_rt v rest, fun v => readU16_rt v rest, fun v => readU32_rt v rest,
    fun v => readI32_rt v rest, fun v => readI64_rt v rest, fun v => readF32_rt v rest,
    fun v => readF64_rt v rest⟩

/-- The integers are written most significant byte first, in their width. -/
theorem C19_big_endian :
    (∀ v : BitVec 16, writeU16 v = [v.extractLsb' 8 8, v.extractLsb' 0 8]) ∧
    (∀ v : BitVec 32, writeU32 v =
      [v.extractLsb' 24 8, v.extractLsb' 16 8, v.extractLsb' 8 8, v.extractLsb' 0 8]) ∧
    (∀ v : Int32, writeI32 v = writeU32 v.toBitVec) ∧
    (∀ v : Int64, writeI64 v = writeU32 (v.toBitVec.extractLsb' 32 32) ++
      writeU32 (v.toBitVec.extractLsb' 0 32)) := by
  refine ⟨fun v => ?_, fun v => ?_, fun v => rfl, fun v => ?_⟩
  · simp only [writeU16, toBE, List.nil_append, List.cons_append]
    congr 1 <;> apply BitVec.eq_of_toNat_eq <;> simp [Nat.shiftRight_eq_div_pow]
  · simp only [writeU32, toBE, List.nil_append, List.cons_append]
    have := v.isLt
    simp only [List.cons.injEq, and_true]
    refine ⟨?_, ?_, ?_, ?_⟩ <;> apply BitVec.eq_of_toNat_eq <;>
      simp [Nat.shiftRight_eq_div_pow, Nat.div_div_eq_div_mul]
  · simp only [writeI64, writeU32, toBE, List.nil_append, List.cons_append]
    have := v.toBitVec.isLt
    simp only [List.cons.injEq, and_true]
    refine ⟨?_, ?_, ?_, ?_, ?_, ?_, ?_, ?_⟩ <;> apply BitVec.eq_of_toNat_eq <;>
      simp [Nat.shiftRight_eq_div_pow, Nat.div_div_eq_div_mul] <;> omega

/-- C19, strings of at most 255 bytes, for any notion of valid UTF-8. -/
theorem C19_strings (utf8 : List Byte → Bool) (s : List Byte) (h : s.length ≤ 255)
    (hu : utf8 s = true) (rest : List Byte) :
    readStr utf8 (writeStr s ++ rest) = .ok (s, rest) :=
  readStr_rt utf8 s (by omega) hu rest

/-- The bound is exact: a longer string never reads back. -/
theorem C19_long_strings (utf8 : List Byte → Bool) (s : List Byte) (h : 255 < s.length)
    (rest : List Byte) : readStr utf8 (writeStr s ++ rest) ≠ .ok (s, rest) := by
  intro h'
  unfold writeStr at h'
  rw [List.append_assoc] at h'
  unfold readStr at h'
  change Reader.bind readByte _ _ = _ at h'
  unfold Reader.bind at h'
  rw [readByte_rt] at h'
  change (if utf8 _ then (pure _ : Reader _) else Reader.fail (.err .io)) _ = _ at h'
  split at h'
  · change Except.ok (_, _) = Except.ok (s, rest) at h'
    rw [Except.ok.injEq, Prod.mk.injEq] at h'
    have := congrArg List.length h'.1
    rw [List.length_take] at this
    have := (asU8 s.length).isLt
    omega
  · exact absurd h' (by unfold Reader.fail; simp)

/-- C19, content identifiers. -/
theorem C19_cids (c : Cid) (h : c.Valid) (rest : List Byte) :
    readCid (writeCid c ++ rest) = .ok (c, rest) :=
  readCid_rt c h rest

/-! ### C20 -/

/-- C20. A byte is read as an encoding exactly if it is the byte written for it; in particular the
bytes differ, and every other byte is rejected (with a panic). -/
theorem C20_encoding_tags (b : Byte) (e : MMEncoding) :
    MMEncoding.ofByte b = some e ↔ b = e.toByte := by
  constructor
  · intro h
    unfold MMEncoding.ofByte at h
    split at h
    · simp at h; subst h; assumption
    split at h
    · simp at h; subst h; assumption
    split at h
    · simp at h; subst h; assumption
    split at h
    · simp at h; subst h; assumption
    split at h
    · simp at h; subst h; assumption
    · simp at h
  · rintro rfl
    exact e.ofByte_toByte

theorem C20_distinct (e e' : MMEncoding) (h : e.toByte = e'.toByte) : e = e' := by
  have := (C20_encoding_tags e.toByte e).2 rfl
  rw [h, MMEncoding.ofByte_toByte] at this
  exact (Option.some.inj this).symm

/-- A chunk with any other tag is never read. -/
theorem C20_chunk_rejected (b : Byte) (h : ∀ e : MMEncoding, b ≠ e.toByte) (rest : List Byte) :
    Chunk.read (b :: rest) = .error .panic := by
  have hn : MMEncoding.ofByte b = none := by
    cases he : MMEncoding.ofByte b with
    | none => rfl
    | some e => exact absurd ((C20_encoding_tags b e).1 he) (h e)
  have := readByte_rt b rest
  unfold Chunk.read
  change Reader.bind readByte _ _ = _
  unfold Reader.bind
  rw [show b :: rest = writeByte b ++ rest from rfl, this]
  simp only
  rw [hn]
  rfl

/-! ### C11 for loaded chunks -/

/-- C11 for chunks loaded from any bytes: the lookup finds the block that holds the instant. -/
theorem C11_find_block_loaded (bytes rest : List Byte) (c : Chunk) (t : Nat)
    (hc : Chunk.read bytes = .ok (c, rest))
    (ht : t < (c.blocks.map fun b => b.logs.length + 1).sum) :
    ∃ i off b, c.blocks[i]? = some b ∧ off < b.logs.length + 1 ∧
      t = ((c.blocks.take i).map fun b => b.logs.length + 1).sum + off ∧
      c.findBlock t = some (i, off) := by
  rw [chunk_read_new hc]
  obtain ⟨i, off, b, h1, h2, h3, -, h5⟩ := C11_find_block c.blocks c.encoding c.fractionalBits t ht
  exact ⟨i, off, b, h1, h2, h3, h5⟩

/-! ### Examples -/

example : FormatOk 3 5 2 3 := ⟨by decide, by decide, by decide, by decide, by decide⟩

/-- The largest binary trees of the format have side `2^15`. -/
example : FormatOk 32768 20000 2 15 := ⟨by decide, by decide, by decide, by decide, by decide⟩

def exampleRaster2 (r c : Nat) : Int64 := (10 * r + c : Nat).toInt64

example : (Snapshot.build exampleRaster2 2 2 2 1).map (fun s => s.write.map (·.toNat)) =
    some [2, 0, 0, 0, 2, 0, 0, 0, 2, 0, 0, 0, 2, 0, 0, 0, 1, 0, 0, 0, 4, 128, 0, 0, 0, 1, 0, 0, 0,
      5, 0, 0, 0, 4, 0, 0, 0, 0, 22, 22, 20, 2, 0, 1, 0, 0, 0, 1, 0, 0, 0, 4, 0, 0, 0, 0, 0] := by
  decide +kernel

/-- What becomes of a snapshot without its last byte: unread bytes, equality, a search. -/
def exampleCut (s : Snapshot) : Option (Nat × Bool × Option (List (Nat × Nat))) :=
  match Snapshot.read s.write.dropLast with
  | .ok (s', rest) => some (rest.length, decide (s' = s), s'.searchWindow ⟨0, 2, 0, 2⟩ 1 1)
  | .error _ => none

/-- C18 negated by a concrete snapshot: without its last byte it is accepted as a different
snapshot, whose searches then panic. -/
theorem C18_witness : ∃ s s', Snapshot.build exampleRaster2 2 2 2 1 = some s ∧
    Snapshot.read s.write.dropLast = .ok (s', []) ∧ s' ≠ s ∧
    s.searchWindow ⟨0, 2, 0, 2⟩ 1 1 = some [(0, 1)] ∧ s'.searchWindow ⟨0, 2, 0, 2⟩ 1 1 = none := by
  have key : (Snapshot.build exampleRaster2 2 2 2 1).bind exampleCut = some (0, false, none) := by
    decide +kernel
  have key2 : (Snapshot.build exampleRaster2 2 2 2 1).bind
      (fun s => s.searchWindow ⟨0, 2, 0, 2⟩ 1 1) = some [(0, 1)] := by
    decide +kernel
  cases hs : Snapshot.build exampleRaster2 2 2 2 1 with
  | none => rw [hs] at key; simp at key
  | some s =>
    rw [hs] at key key2
    simp only [Option.bind_some] at key key2
    unfold exampleCut at key
    split at key
    · rename_i s' rest he
      simp only [Option.some.injEq, Prod.mk.injEq, decide_eq_false_iff_not,
        List.length_eq_zero_iff] at key
      exact ⟨s, s', rfl, by rw [he, key.1], key.2.1, key2, key.2.2⟩
    · simp at key

example : Cid.Valid (.v1 0x71 0x12 (List.replicate 32 7#8)) := ⟨by decide, by decide, by decide⟩

/-- A CIDv1 with a three byte codec. -/
example : writeCid (.v1 0x300001 0x12 [1, 2, 3]) = [1, 0x81, 0x80, 0xc0, 0x01, 0x12, 3, 1, 2, 3] := by
  decide +kernel

example : writeI64 (-2) = [255, 255, 255, 255, 255, 255, 255, 254] := by decide +kernel

example : MMEncoding.ofByte 7 = none := by decide

end Verif
