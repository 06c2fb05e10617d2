import Verif.Lemmas.Serial

/-! Reading back structures that fit their format. -/
namespace Verif

open Reader

/-- The bit map fits its binary format. -/
structure BitMap.WF (m : BitMap) : Prop where
  length : m.length < 2 ^ 32
  kpos : 0 < m.k
  k : m.k < 2 ^ 32
  ilen : m.index.length = m.length / 32 / m.k
  idx : ∀ i ∈ m.index, i < 2 ^ 32
  wlen : m.bitmap.length = divCeil m.length 32

/-- The number of trailing bytes of a container whose absence goes unnoticed. -/
def Dac.tail (d : Dac) : Nat := (d.levels.getLast?.map fun l => l.2.length).getD 0

structure Dac.WF (d : Dac) : Prop where
  levels : d.levels.length < 256
  maps : ∀ l ∈ d.levels, l.1.WF
  bytes : ∀ l ∈ d.levels, l.2.length = l.1.length

structure Snapshot.WF (s : Snapshot) : Prop where
  k : s.k < 256
  rows : s.rows < 2 ^ 32
  cols : s.cols < 2 ^ 32
  sidelen : s.sidelen < 2 ^ 32
  nodemap : s.nodemap.WF
  max : s.max.WF
  min : s.min.WF

structure Log.WF (l : Log) : Prop where
  k : l.k < 256
  rows : l.rows < 2 ^ 32
  cols : l.cols < 2 ^ 32
  sidelen : l.sidelen < 2 ^ 32
  nodemap : l.nodemap.WF
  equal : l.equal.WF
  max : l.max.WF
  min : l.min.WF

structure Block.WF (b : Block) : Prop where
  len : b.logs.length + 1 < 256
  snapshot : b.snapshot.WF
  logs : ∀ l ∈ b.logs, l.WF

structure Chunk.WF (c : Chunk) : Prop where
  bits : c.fractionalBits < 256
  len : c.blocks.length < 2 ^ 32
  blocks : ∀ b ∈ c.blocks, b.WF
  index : c.index = Chunk.mkIndex 0 c.blocks

/-- Trailing bytes that go unnoticed in a block and in a chunk. -/
def Block.tail (b : Block) : Nat := (b.logs.getLast?.map fun l => l.min.tail).getD b.snapshot.min.tail

def Chunk.tail (c : Chunk) : Nat := (c.blocks.getLast?.map Block.tail).getD 0

/-! ### Bit maps -/

theorem u32s_rt (ws : List (BitVec 32)) : RT (Reader.many readU32 ws.length) (ws.flatMap writeU32) ws := by
  have := RT.many (r := readU32) (w := writeU32) (g := id) ws (fun w _ => readU32_rt w)
  simpa using this

theorem u32s_rejects (ws : List (BitVec 32)) :
    Rejects (Reader.many readU32 ws.length) (ws.flatMap writeU32) (ws.flatMap writeU32).length :=
  Rejects.many (g := id) ws (fun w _ => readU32_rt w)
    (fun w _ => by rw [writeU32_length]; exact readU32_rejects w)

theorem index_flatMap (is : List Nat) :
    is.flatMap (fun i => writeU32 (asU32 i)) = (is.map asU32).flatMap writeU32 := by
  rw [List.flatMap_map]

theorem index_map (is : List Nat) (h : ∀ i ∈ is, i < 2 ^ 32) :
    (is.map asU32).map BitVec.toNat = is := by
  rw [List.map_map]
  conv => rhs; rw [← List.map_id is]
  exact List.map_congr_left fun i hi => asU32_toNat (h i hi)

theorem u32s_length (ws : List (BitVec 32)) : (ws.flatMap writeU32).length = 4 * ws.length := by
  induction ws with
  | nil => rfl
  | cons w ws ih => rw [List.flatMap_cons, List.length_append, ih, writeU32_length, List.length_cons]; ring

theorem BitMap.write_eq (m : BitMap) : m.write = writeU32 (asU32 m.length) ++ (writeU32 (asU32 m.k) ++
    ((m.index.map asU32).flatMap writeU32 ++ m.bitmap.flatMap writeU32)) := by
  unfold BitMap.write
  rw [index_flatMap, List.append_assoc, List.append_assoc]

theorem BitMap.read_rt (m : BitMap) (h : m.WF) : RT BitMap.read m.write m := by
  rw [BitMap.write_eq]
  unfold BitMap.read
  refine RT.bind (readU32_rt _) (RT.bind (readU32_rt _) ?_)
  rw [asU32_toNat h.length, asU32_toNat h.k, if_neg (by have := h.kpos; omega)]
  have h1 := u32s_rt (m.index.map asU32)
  rw [List.length_map, h.ilen] at h1
  refine RT.bind h1 ?_
  have h2 := u32s_rt m.bitmap
  rw [h.wlen] at h2
  have h3 := h2.map (g := fun bm => (⟨m.length, m.k, (m.index.map asU32).map BitVec.toNat, bm⟩ : BitMap))
  rw [index_map _ h.idx] at h3
  rw [index_map _ h.idx]
  exact h3

theorem BitMap.read_rejects (m : BitMap) (h : m.WF) : Rejects BitMap.read m.write m.write.length := by
  rw [BitMap.write_eq]
  unfold BitMap.read
  simp only [List.length_append]
  have hl := fun w => readU32_rejects w
  have hl' : ∀ w, Rejects readU32 (writeU32 w) (writeU32 w).length := by
    intro w; rw [writeU32_length]; exact hl w
  refine Rejects.bind (readU32_rt _) (hl' _) (Rejects.bind (readU32_rt _) (hl' _) ?_)
  rw [asU32_toNat h.length, asU32_toNat h.k, if_neg (by have := h.kpos; omega)]
  have h1 := u32s_rt (m.index.map asU32)
  have h1' := u32s_rejects (m.index.map asU32)
  rw [List.length_map, h.ilen] at h1 h1'
  refine Rejects.bind h1 h1' ?_
  have h2 := u32s_rejects m.bitmap
  rw [h.wlen] at h2
  exact h2.map

theorem BitMap.size_eq (m : BitMap) : m.write.length = m.size := by
  rw [BitMap.write_eq]
  simp only [List.length_append, u32s_length, writeU32_length, List.length_map]
  unfold BitMap.size
  omega

theorem BitMap.read_nil : BitMap.read [] = .error (.err .io) := rfl

/-! ### Containers -/

theorem flatMap_length_eq {α} (f : α → List Byte) (g : α → Nat) (xs : List α)
    (h : ∀ x ∈ xs, (f x).length = g x) : (xs.flatMap f).length = (xs.map g).sum := by
  rw [List.length_flatMap]
  congr 1
  exact List.map_congr_left fun x hx => h x hx

theorem Dac.size_eq (d : Dac) : d.write.length = d.size := by
  unfold Dac.write Dac.size
  rw [List.length_append, writeByte_length, flatMap_length_eq _ (fun l => l.1.size + l.2.length)]
  intro l _
  rw [List.length_append, BitMap.size_eq]

theorem Dac.readLevel_rt (l : BitMap × List Byte) (h : l.1.WF) (hb : l.2.length = l.1.length) :
    RT Dac.readLevel (l.1.write ++ l.2) l := by
  unfold Dac.readLevel
  refine RT.bind (l.1.read_rt h) ?_
  have := (readUpTo_rt l.2).map (g := fun b => (l.1, b))
  rw [hb] at this
  exact this

theorem Dac.readLevel_rejects (l : BitMap × List Byte) (h : l.1.WF) (hb : l.2.length = l.1.length) :
    Rejects Dac.readLevel (l.1.write ++ l.2) ((l.1.write ++ l.2).length - l.2.length) ∧
    Soft Dac.readLevel (l.1.write ++ l.2) ((l.1.write ++ l.2).length - l.2.length) := by
  have e : (l.1.write ++ l.2).length - l.2.length = l.1.write.length + 0 := by
    rw [List.length_append]; omega
  rw [e]
  constructor
  · exact Rejects.bind (l.1.read_rt h) (l.1.read_rejects h) (Rejects.zero _ _)
  · refine Soft.bind (l.1.read_rt h) ?_
    have := (readUpTo_soft l.2).map (g := fun b => (l.1, b))
    rw [hb] at this
    exact this

theorem Dac.tail_le (d : Dac) : d.tail ≤ (d.levels.flatMap fun l => l.1.write ++ l.2).length := by
  unfold Dac.tail
  cases hl : d.levels.getLast? with
  | none => simp
  | some y =>
    simp only [Option.map_some, Option.getD_some]
    have hy : y ∈ d.levels := List.mem_of_getLast? hl
    generalize d.levels = xs at hy
    induction xs with
    | nil => simp at hy
    | cons z zs ih =>
      rw [List.flatMap_cons, List.length_append]
      rcases List.mem_cons.1 hy with rfl | hy
      · rw [List.length_append]; omega
      · have := ih hy; omega

theorem Dac.read_rt (d : Dac) (h : d.WF) : RT Dac.read d.write d := by
  unfold Dac.write Dac.read
  refine RT.bind (readByte_rt _) ?_
  rw [asU8_toNat h.levels]
  have hl : ∀ l ∈ d.levels, RT Dac.readLevel ((fun l : BitMap × List Byte => l.1.write ++ l.2) l)
      (id l) := fun l hl => Dac.readLevel_rt l (h.maps l hl) (h.bytes l hl)
  have := RT.many d.levels hl
  rw [List.map_id] at this
  exact this.map (g := Dac.mk)

theorem Dac.read_trunc (d : Dac) (h : d.WF) :
    Rejects Dac.read d.write (d.write.length - d.tail) ∧ Soft Dac.read d.write (d.write.length - d.tail) := by
  have ht := d.tail_le
  have e : d.write.length - d.tail = (writeByte (asU8 d.levels.length)).length +
      ((d.levels.flatMap fun l => l.1.write ++ l.2).length - d.tail) := by
    unfold Dac.write; rw [List.length_append]; omega
  rw [e]
  unfold Dac.write Dac.read
  have hl : ∀ l ∈ d.levels, RT Dac.readLevel ((fun l : BitMap × List Byte => l.1.write ++ l.2) l)
      (id l) := fun l hl => Dac.readLevel_rt l (h.maps l hl) (h.bytes l hl)
  have hm := Rejects.many_soft (t := fun l => l.2.length) rfl d.levels hl
    (fun l _ => by rw [List.length_append]; omega)
    (fun l hl => (Dac.readLevel_rejects l (h.maps l hl) (h.bytes l hl)).1)
    (fun l hl => (Dac.readLevel_rejects l (h.maps l hl) (h.bytes l hl)).2)
  have et : (d.levels.getLast?.map fun l => l.2.length).getD 0 = d.tail := rfl
  rw [et] at hm
  constructor
  · refine Rejects.bind (readByte_rt _) (by rw [writeByte_length]; exact readByte_rejects _) ?_
    rw [asU8_toNat h.levels]
    exact Rejects.map (g := Dac.mk) hm.1
  · refine Soft.bind (readByte_rt _) ?_
    rw [asU8_toNat h.levels]
    exact Soft.map (g := Dac.mk) hm.2

theorem Dac.read_nil : Dac.read [] = .error (.err .io) := rfl

theorem bind_nil {α β} {r : Reader α} {f : α → Reader β} (h : r [] = .error (.err .io)) :
    Reader.bind r f [] = .error (.err .io) := by
  unfold Reader.bind; rw [h]

/-! ### Snapshots and logs -/

theorem Snapshot.write_eq (s : Snapshot) : s.write = writeByte (asU8 s.k) ++ (writeU32 (asU32 s.rows) ++
    (writeU32 (asU32 s.cols) ++ (writeU32 (asU32 s.sidelen) ++ (s.nodemap.write ++ (s.max.write ++ s.min.write))))) := by
  simp only [Snapshot.write, List.append_assoc]

theorem Log.write_eq (s : Log) : s.write = writeByte (asU8 s.k) ++ (writeU32 (asU32 s.rows) ++
    (writeU32 (asU32 s.cols) ++ (writeU32 (asU32 s.sidelen) ++ (s.nodemap.write ++ (s.equal.write ++
    (s.max.write ++ s.min.write)))))) := by
  simp only [Log.write, List.append_assoc]

theorem Snapshot.size_eq (s : Snapshot) : s.write.length = s.size := by
  rw [Snapshot.write_eq]
  simp only [List.length_append, BitMap.size_eq, Dac.size_eq, writeU32_length, writeByte_length]
  unfold Snapshot.size
  omega

theorem Log.size_eq (s : Log) : s.write.length = s.size := by
  rw [Log.write_eq]
  simp only [List.length_append, BitMap.size_eq, Dac.size_eq, writeU32_length, writeByte_length]
  unfold Log.size
  omega

theorem Snapshot.read_rt (s : Snapshot) (h : s.WF) : RT Snapshot.read s.write s := by
  rw [Snapshot.write_eq]
  unfold Snapshot.read
  refine RT.bind (readByte_rt _) (RT.bind (readU32_rt _) (RT.bind (readU32_rt _)
    (RT.bind (readU32_rt _) (RT.bind (s.nodemap.read_rt h.nodemap) (RT.bind (s.max.read_rt h.max) ?_)))))
  rw [asU8_toNat h.k, asU32_toNat h.rows, asU32_toNat h.cols, asU32_toNat h.sidelen]
  exact (s.min.read_rt h.min).map

theorem Log.read_rt (s : Log) (h : s.WF) : RT Log.read s.write s := by
  rw [Log.write_eq]
  unfold Log.read
  refine RT.bind (readByte_rt _) (RT.bind (readU32_rt _) (RT.bind (readU32_rt _)
    (RT.bind (readU32_rt _) (RT.bind (s.nodemap.read_rt h.nodemap)
    (RT.bind (s.equal.read_rt h.equal) (RT.bind (s.max.read_rt h.max) ?_))))))
  rw [asU8_toNat h.k, asU32_toNat h.rows, asU32_toNat h.cols, asU32_toNat h.sidelen]
  exact (s.min.read_rt h.min).map

theorem Dac.tail_le_write (d : Dac) : d.tail ≤ d.write.length := by
  have := d.tail_le
  unfold Dac.write
  rw [List.length_append]
  omega

theorem byte_rejects (b : Byte) : Rejects readByte (writeByte b) (writeByte b).length := readByte_rejects b
theorem u32_rejects (w : BitVec 32) : Rejects readU32 (writeU32 w) (writeU32 w).length := by
  rw [writeU32_length]; exact readU32_rejects w

theorem Snapshot.read_trunc (s : Snapshot) (h : s.WF) :
    Rejects Snapshot.read s.write (s.write.length - s.min.tail) ∧
    Soft Snapshot.read s.write (s.write.length - s.min.tail) := by
  have ht := s.min.tail_le_write
  have e : s.write.length - s.min.tail = (writeByte (asU8 s.k)).length + ((writeU32 (asU32 s.rows)).length +
    ((writeU32 (asU32 s.cols)).length + ((writeU32 (asU32 s.sidelen)).length + (s.nodemap.write.length +
      (s.max.write.length + (s.min.write.length - s.min.tail)))))) := by
    rw [Snapshot.write_eq]; simp only [List.length_append]; omega
  rw [e, Snapshot.write_eq]
  unfold Snapshot.read
  constructor
  · refine Rejects.bind (readByte_rt _) (byte_rejects _) (Rejects.bind (readU32_rt _) (u32_rejects _)
      (Rejects.bind (readU32_rt _) (u32_rejects _) (Rejects.bind (readU32_rt _) (u32_rejects _)
      (Rejects.bind (s.nodemap.read_rt h.nodemap) (s.nodemap.read_rejects h.nodemap)
      (Rejects.bind_soft (s.max.read_rt h.max) (s.max.read_trunc h.max).1 (s.max.read_trunc h.max).2 ?_
        (fun _ => bind_nil Dac.read_nil))))))
    exact (s.min.read_trunc h.min).1.map
  · refine Soft.bind (readByte_rt _) (Soft.bind (readU32_rt _) (Soft.bind (readU32_rt _)
      (Soft.bind (readU32_rt _) (Soft.bind (s.nodemap.read_rt h.nodemap)
      (Soft.bind (s.max.read_rt h.max) ?_)))))
    exact (s.min.read_trunc h.min).2.map

theorem Log.read_trunc (s : Log) (h : s.WF) :
    Rejects Log.read s.write (s.write.length - s.min.tail) ∧
    Soft Log.read s.write (s.write.length - s.min.tail) := by
  have ht := s.min.tail_le_write
  have e : s.write.length - s.min.tail = (writeByte (asU8 s.k)).length + ((writeU32 (asU32 s.rows)).length +
    ((writeU32 (asU32 s.cols)).length + ((writeU32 (asU32 s.sidelen)).length + (s.nodemap.write.length +
      (s.equal.write.length + (s.max.write.length + (s.min.write.length - s.min.tail))))))) := by
    rw [Log.write_eq]; simp only [List.length_append]; omega
  rw [e, Log.write_eq]
  unfold Log.read
  constructor
  · refine Rejects.bind (readByte_rt _) (byte_rejects _) (Rejects.bind (readU32_rt _) (u32_rejects _)
      (Rejects.bind (readU32_rt _) (u32_rejects _) (Rejects.bind (readU32_rt _) (u32_rejects _)
      (Rejects.bind (s.nodemap.read_rt h.nodemap) (s.nodemap.read_rejects h.nodemap)
      (Rejects.bind (s.equal.read_rt h.equal) (s.equal.read_rejects h.equal)
      (Rejects.bind_soft (s.max.read_rt h.max) (s.max.read_trunc h.max).1 (s.max.read_trunc h.max).2 ?_
        (fun _ => bind_nil Dac.read_nil)))))))
    exact (s.min.read_trunc h.min).1.map
  · refine Soft.bind (readByte_rt _) (Soft.bind (readU32_rt _) (Soft.bind (readU32_rt _)
      (Soft.bind (readU32_rt _) (Soft.bind (s.nodemap.read_rt h.nodemap)
      (Soft.bind (s.equal.read_rt h.equal) (Soft.bind (s.max.read_rt h.max) ?_))))))
    exact (s.min.read_trunc h.min).2.map

theorem Snapshot.tail_le_write (s : Snapshot) : s.min.tail ≤ s.write.length := by
  have := s.min.tail_le_write
  rw [Snapshot.write_eq]; simp only [List.length_append]; omega

theorem Log.tail_le_write (s : Log) : s.min.tail ≤ s.write.length := by
  have := s.min.tail_le_write
  rw [Log.write_eq]; simp only [List.length_append]; omega

/-! ### Blocks and chunks -/

theorem Block.size_eq (b : Block) : b.write.length = b.size := by
  unfold Block.write Block.size
  rw [List.length_append, List.length_append, writeByte_length, Snapshot.size_eq,
    flatMap_length_eq _ Log.size _ (fun l _ => Log.size_eq l)]

theorem Chunk.size_eq (c : Chunk) : c.write.length = c.size := by
  unfold Chunk.write Chunk.size
  rw [List.length_append, List.length_append, List.length_append, writeByte_length, writeByte_length,
    writeU32_length, flatMap_length_eq _ Block.size _ (fun l _ => Block.size_eq l)]

theorem ofOption_rt {α} (a : α) : RT (Reader.ofOption (some a)) [] a := fun _ => rfl

theorem RT.bind_nil_left {α β} {r : Reader α} {f : α → Reader β} {a : α} {b : β} {cs}
    (h : RT r [] a) (h' : RT (f a) cs b) : RT (Reader.bind r f) cs b := by
  have := RT.bind h h'
  rwa [List.nil_append] at this

theorem Rejects.bind_nil_left {α β} {r : Reader α} {f : α → Reader β} {a : α} {cs} {m}
    (h : RT r [] a) (h' : Rejects (f a) cs m) : Rejects (Reader.bind r f) cs m := by
  have := Rejects.bind h (Rejects.zero _ _) h'
  rwa [List.nil_append, List.length_nil, Nat.zero_add] at this

theorem Soft.bind_nil_left {α β} {r : Reader α} {f : α → Reader β} {a : α} {cs} {m}
    (h : RT r [] a) (h' : Soft (f a) cs m) : Soft (Reader.bind r f) cs m := by
  have := Soft.bind h h'
  rwa [List.nil_append, List.length_nil, Nat.zero_add] at this

theorem Block.read_rt (b : Block) (h : b.WF) : RT Block.read b.write b := by
  unfold Block.write Block.read
  rw [List.append_assoc]
  refine RT.bind (readByte_rt _) (RT.bind (b.snapshot.read_rt h.snapshot) ?_)
  rw [asU8_toNat h.len]
  have e : csub (b.logs.length + 1) 1 = some b.logs.length := by simp [csub]
  rw [e]
  refine RT.bind_nil_left (ofOption_rt _) ?_
  have := RT.many (r := Log.read) (w := Log.write) (g := id) b.logs (fun l hl => l.read_rt (h.logs l hl))
  rw [List.map_id] at this
  exact this.map

theorem Block.read_trunc (b : Block) (h : b.WF) :
    Rejects Block.read b.write (b.write.length - b.tail) ∧ Soft Block.read b.write (b.write.length - b.tail) := by
  have hs := b.snapshot.tail_le_write
  have e0 : csub (b.logs.length + 1) 1 = some b.logs.length := by simp [csub]
  have hm := Rejects.many_soft (r := Log.read) (w := Log.write) (g := id) (t := fun l => l.min.tail)
    rfl b.logs (fun l hl => l.read_rt (h.logs l hl)) (fun l _ => l.tail_le_write)
    (fun l hl => (l.read_trunc (h.logs l hl)).1) (fun l hl => (l.read_trunc (h.logs l hl)).2)
  obtain ⟨hm1, hm2⟩ := hm
  by_cases hlogs : b.logs = []
  · have et : b.tail = b.snapshot.min.tail := by unfold Block.tail; rw [hlogs]; rfl
    have ew : b.write = writeByte (asU8 (b.logs.length + 1)) ++ b.snapshot.write := by
      unfold Block.write; rw [hlogs]; simp
    have e : b.write.length - b.tail = (writeByte (asU8 (b.logs.length + 1))).length +
        (b.snapshot.write.length - b.snapshot.min.tail) := by
      rw [ew, et, List.length_append]; omega
    rw [e, ew]
    unfold Block.read
    have st := b.snapshot.read_trunc h.snapshot
    constructor
    · refine Rejects.bind (readByte_rt _) (byte_rejects _) ?_
      intro n hn
      show Reader.bind Snapshot.read _ _ = _
      unfold Reader.bind
      rw [st.1 n hn]
    · refine Soft.bind (readByte_rt _) ?_
      intro n h1 h2
      obtain ⟨a, ea⟩ := st.2 n h1 h2
      rw [asU8_toNat h.len, e0, hlogs]
      show ∃ a, Reader.bind Snapshot.read _ _ = _
      unfold Reader.bind
      rw [ea]
      exact ⟨⟨a, []⟩, rfl⟩
  · obtain ⟨l, hl⟩ : ∃ l, b.logs.getLast? = some l := by
      rcases h' : b.logs.getLast? with _ | l
      · rw [List.getLast?_eq_none_iff] at h'; exact absurd h' hlogs
      · exact ⟨l, rfl⟩
    have et : (b.logs.getLast?.map fun l => l.min.tail).getD 0 = b.tail := by
      unfold Block.tail; rw [hl]; rfl
    have hle : b.tail ≤ (b.logs.flatMap Log.write).length := by
      rw [← et, hl]
      simp only [Option.map_some, Option.getD_some]
      have hy : l ∈ b.logs := List.mem_of_getLast? hl
      refine Nat.le_trans l.tail_le_write ?_
      generalize b.logs = xs at hy
      clear * - hy
      induction xs with
      | nil => simp at hy
      | cons z zs ih =>
        rw [List.flatMap_cons, List.length_append]
        rcases List.mem_cons.1 hy with rfl | hy
        · omega
        · have := ih hy; omega
    rw [et] at hm1 hm2
    have e : b.write.length - b.tail = (writeByte (asU8 (b.logs.length + 1))).length +
        (b.snapshot.write.length + ((b.logs.flatMap Log.write).length - b.tail)) := by
      unfold Block.write; simp only [List.length_append]; omega
    rw [e]
    unfold Block.write Block.read
    rw [List.append_assoc]
    have st := b.snapshot.read_trunc h.snapshot
    constructor
    · refine Rejects.bind (readByte_rt _) (byte_rejects _)
        (Rejects.bind_soft (b.snapshot.read_rt h.snapshot) st.1 st.2 ?_ ?_)
      · rw [asU8_toNat h.len, e0]
        exact Rejects.bind_nil_left (ofOption_rt _) hm1.map
      · intro a'
        rw [asU8_toNat h.len, e0]
        obtain ⟨x, xs, hx⟩ := List.exists_cons_of_ne_nil hlogs
        rw [hx]
        rfl
    · refine Soft.bind (readByte_rt _) (Soft.bind (b.snapshot.read_rt h.snapshot) ?_)
      rw [asU8_toNat h.len, e0]
      exact Soft.bind_nil_left (ofOption_rt _) hm2.map

theorem Block.tail_le_write (b : Block) (h : b.WF) : b.tail ≤ b.write.length := by
  by_contra hc
  -- otherwise even the empty input would be accepted
  have hs := (b.read_trunc h).2
  have h0 : 0 < b.write.length := by
    unfold Block.write; simp only [List.length_append, writeByte_length]; omega
  obtain ⟨a, ea⟩ := hs 0 (by omega) h0
  rw [List.take_zero] at ea
  exact absurd ea (by rw [show Block.read [] = .error (.err .io) from rfl]; simp)

theorem MMEncoding.ofByte_toByte (e : MMEncoding) : MMEncoding.ofByte e.toByte = some e := by
  cases e <;> rfl

theorem Chunk.write_eq (c : Chunk) : c.write = writeByte c.encoding.toByte ++
    (writeByte (asU8 c.fractionalBits) ++ (writeU32 (asU32 c.blocks.length) ++ c.blocks.flatMap Block.write)) := by
  simp only [Chunk.write, List.append_assoc]

theorem Chunk.read_rt (c : Chunk) (h : c.WF) : RT Chunk.read c.write c := by
  rw [Chunk.write_eq]
  unfold Chunk.read
  refine RT.bind (readByte_rt _) ?_
  rw [MMEncoding.ofByte_toByte]
  refine RT.bind_nil_left (ofOption_rt _) (RT.bind (readByte_rt _) (RT.bind (readU32_rt _) ?_))
  rw [asU8_toNat h.bits, asU32_toNat h.len]
  have := RT.many (r := Block.read) (w := Block.write) (g := id) c.blocks (fun l hl => l.read_rt (h.blocks l hl))
  rw [List.map_id] at this
  have h2 := this.map (g := fun blocks => (⟨blocks, Chunk.mkIndex 0 blocks, c.encoding, c.fractionalBits⟩ : Chunk))
  rw [← h.index] at h2
  exact h2

theorem Chunk.read_trunc (c : Chunk) (h : c.WF) :
    Rejects Chunk.read c.write (c.write.length - c.tail) ∧ Soft Chunk.read c.write (c.write.length - c.tail) := by
  have hm := Rejects.many_soft (r := Block.read) (w := Block.write) (g := id) (t := Block.tail)
    rfl c.blocks (fun l hl => l.read_rt (h.blocks l hl)) (fun l hl => l.tail_le_write (h.blocks l hl))
    (fun l hl => (l.read_trunc (h.blocks l hl)).1) (fun l hl => (l.read_trunc (h.blocks l hl)).2)
  have hle : c.tail ≤ (c.blocks.flatMap Block.write).length := by
    unfold Chunk.tail
    cases hl : c.blocks.getLast? with
    | none => simp
    | some y =>
      simp only [Option.map_some, Option.getD_some]
      have hy : y ∈ c.blocks := List.mem_of_getLast? hl
      refine Nat.le_trans (y.tail_le_write (h.blocks y hy)) ?_
      generalize c.blocks = xs at hy
      clear * - hy
      induction xs with
      | nil => simp at hy
      | cons z zs ih =>
        rw [List.flatMap_cons, List.length_append]
        rcases List.mem_cons.1 hy with rfl | hy
        · omega
        · have := ih hy; omega
  have e : c.write.length - c.tail = (writeByte c.encoding.toByte).length +
      ((writeByte (asU8 c.fractionalBits)).length + ((writeU32 (asU32 c.blocks.length)).length +
        ((c.blocks.flatMap Block.write).length - c.tail))) := by
    rw [Chunk.write_eq]; simp only [List.length_append]; omega
  rw [e, Chunk.write_eq]
  unfold Chunk.read
  constructor
  · refine Rejects.bind (readByte_rt _) (byte_rejects _) ?_
    rw [MMEncoding.ofByte_toByte]
    refine Rejects.bind_nil_left (ofOption_rt _) (Rejects.bind (readByte_rt _) (byte_rejects _)
      (Rejects.bind (readU32_rt _) (u32_rejects _) ?_))
    rw [asU32_toNat h.len]
    exact hm.1.map
  · refine Soft.bind (readByte_rt _) ?_
    rw [MMEncoding.ofByte_toByte]
    refine Soft.bind_nil_left (ofOption_rt _) (Soft.bind (readByte_rt _) (Soft.bind (readU32_rt _) ?_))
    rw [asU32_toNat h.len]
    exact hm.2.map

end Verif
