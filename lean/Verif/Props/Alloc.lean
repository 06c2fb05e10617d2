import Verif.Lemmas.Rooms

/-! C90: room asked for when an object is loaded. -/
namespace Verif

open AReader

/-- An object that is not a data set. -/
def Spec.NoDataset : Item → Prop
  | .dataset _ => False
  | _ => True

/-- C90: the readers that tell what they ask for are those of the other theorems. -/
theorem C90_same (utf8 : List Byte → Bool) (cid : Cid) (bytes : List Byte) :
    (Item.readA utf8 cid bytes).2 = Item.read utf8 cid bytes :=
  congrFun (Item.erase_readA utf8 cid) bytes

/-- C90: if an object loads, all the room asked for is at most nine places for each byte that was read; for a
data set, which has names, 256. -/
theorem C90_partial (utf8 : List Byte → Bool) (cid : Cid) (bytes rest : List Byte) (x : Item)
    (h : Item.read utf8 cid bytes = .ok (x, rest)) :
    rest.length ≤ bytes.length ∧
    (Item.readA utf8 cid bytes).1.sum ≤ 256 * (bytes.length - rest.length) ∧
    (Spec.NoDataset x → (Item.readA utf8 cid bytes).1.sum ≤ 9 * (bytes.length - rest.length)) := by
  rw [← C90_same] at h
  unfold Item.readA at h ⊢
  cases hh : readHeader bytes with
  | error f =>
    rw [AReader.bind_error (t := []) (e := f) (r := AReader.lift readHeader) (by
      unfold AReader.lift
      rw [hh])] at h
    cases h
  | ok p =>
    obtain ⟨t, s1⟩ := p
    have l1 := Takes.header bytes t s1 hh
    rw [AReader.bind_lift hh] at h ⊢
    by_cases h0 : t = 0
    · rw [if_pos h0] at h ⊢
      have l2 := (Costs.bind (Costs.dataset utf8 0) fun d =>
        Costs.pure (Item.dataset { d with cid := some cid })) s1 x rest h
      beta_reduce at l2
      have hx : ∃ d, x = .dataset d := by
        change (AReader.bind _ _ _).2 = _ at h
        unfold AReader.bind at h
        rcases hd : Dataset.readA utf8 s1 with ⟨t, e | ⟨d, s2⟩⟩
        · rw [hd] at h; cases h
        · rw [hd] at h; cases h; exact ⟨_, rfl⟩
      obtain ⟨d, rfl⟩ := hx
      exact ⟨by omega, by omega, fun hn => hn.elim⟩
    · rw [if_neg h0] at h ⊢
      by_cases h1 : t = 1
      · rw [if_pos h1] at h ⊢
        have l2 := (Costs.bind (Costs.links 0) fun l => Costs.pure (Item.links l)) s1 x rest h
        beta_reduce at l2
        exact ⟨by omega, by omega, fun _ => by omega⟩
      · rw [if_neg h1] at h ⊢
        by_cases h2 : t = 2
        · rw [if_pos h2] at h ⊢
          have l2 := (Costs.bind (Costs.struct 0) fun m => Costs.pure (Item.struct m)) s1 x rest h
          beta_reduce at l2
          exact ⟨by omega, by omega, fun _ => by omega⟩
        · rw [if_neg h2] at h
          cases h

/-- C90: loading what the library has written asks for at most nine places for each byte of it, or 256 for a
data set. -/
theorem C90_written_partial (utf8 : List Byte → Bool) (cid : Cid) (x : Item) (h : x.WF utf8) :
    (Item.readA utf8 cid x.bytes).1.sum ≤ 256 * x.bytes.length ∧
    (Spec.NoDataset x → (Item.readA utf8 cid x.bytes).1.sum ≤ 9 * x.bytes.length) := by
  obtain ⟨-, h1, h2⟩ := C90_partial utf8 cid x.bytes [] _ (Item.read_bytes x h cid)
  refine ⟨h1, fun hn => h2 ?_⟩
  cases x <;> exact hn

/-- C90: if an object loads, what is asked for is exactly what it has (`Spec.room`: the lengths of its vectors and
names, in the order in which they are read), so no vector ever has to grow and none is too large. The bytes of a
level of a container are counted by the bits of the level; they are as many in all that the library writes. -/
theorem C90_exact (utf8 : List Byte → Bool) (cid : Cid) (bytes rest : List Byte) (x : Item)
    (h : Item.read utf8 cid bytes = .ok (x, rest)) : (Item.readA utf8 cid bytes).1 = Spec.room x := by
  rw [← C90_same] at h
  exact Wants.item utf8 cid [] bytes x rest h

/-- C90: loading what the library has written asks for exactly what it has. -/
theorem C90_exact_written (utf8 : List Byte → Bool) (cid : Cid) (x : Item) (h : x.WF utf8) :
    (Item.readA utf8 cid x.bytes).1 = Spec.room x := by
  rw [C90_exact utf8 cid x.bytes [] _ (Item.read_bytes x h cid)]
  cases x <;> rfl

/-! ### What cannot be read -/

theorem Block.readA_nil : Block.readA [] = ([], .error (.err .io)) := rfl

/-- C90 is false of the code for objects that do not load: 14 bytes that end after the number of blocks of a
chunk ask for that many blocks and as many places of the index before the end is noticed. -/
theorem C90_chunk_wrong (utf8 : List Byte → Bool) (cid : Cid) (n : BitVec 32) (hn : n ≠ 0) :
    ∃ bytes : List Byte, bytes.length = 14 ∧
      Item.readA utf8 cid bytes = ([n.toNat, n.toNat], .error (.err .io)) := by
  refine ⟨header 2 ++ (writeByte 4 ++ (writeByte 8 ++ (writeByte 0 ++ (writeU32 n ++ [])))), ?_, ?_⟩
  · simp [header, writeU16, writeU32, writeByte, toBE]
  · unfold Item.readA
    rw [AReader.bind_lift (readHeader_rt 2 _), if_neg (by decide), if_neg (by decide), if_pos rfl]
    refine AReader.bind_error ?_
    unfold MMStruct3.readA MMStruct3.readFuelA
    rw [AReader.bind_lift (readByte_rt 4 _), if_pos rfl]
    refine AReader.bind_error ?_
    unfold Chunk.readA
    rw [AReader.bind_lift (readByte_rt 8 _), AReader.bind_lift (r := Reader.ofOption _) (a := MMEncoding.i64) rfl,
      AReader.bind_lift (readByte_rt 0 _), AReader.bind_lift (readU32_rt n _), AReader.bind_ask, AReader.bind_ask]
    have h0 : n.toNat ≠ 0 := fun h => hn (BitVec.eq_of_toNat_eq (by simpa using h))
    obtain ⟨m, hm⟩ := Nat.exists_eq_succ_of_ne_zero h0
    have h1 : AReader.many Block.readA n.toNat [] = ([], .error (.err .io)) := by
      rw [hm]
      exact AReader.bind_error (f := fun a => AReader.bind _ _) Block.readA_nil
    rw [AReader.bind_error h1]

/-- The same for 11 bytes of links. -/
theorem C90_links_wrong (utf8 : List Byte → Bool) (cid : Cid) (n : BitVec 32) (hn : n ≠ 0) :
    ∃ bytes : List Byte, bytes.length = 11 ∧
      Item.readA utf8 cid bytes = ([n.toNat], .error (.err .cid)) := by
  refine ⟨header 1 ++ (writeU32 n ++ []), ?_, ?_⟩
  · simp [header, writeU16, writeU32, writeByte, toBE]
  · unfold Item.readA
    rw [AReader.bind_lift (readHeader_rt 1 _), if_neg (by decide), if_pos rfl]
    refine AReader.bind_error ?_
    unfold Links.readA
    rw [AReader.bind_lift (readU32_rt n _), AReader.bind_ask]
    have h0 : n.toNat ≠ 0 := fun h => hn (BitVec.eq_of_toNat_eq (by simpa using h))
    obtain ⟨m, hm⟩ := Nat.exists_eq_succ_of_ne_zero h0
    have h1 : Reader.many Cid.parse n.toNat [] = .error (.err .cid) := by
      rw [hm]
      rfl
    rw [AReader.bind_error (t := []) (e := .err .cid)]
    unfold AReader.lift
    beta_reduce
    rw [h1]

/-- No bound on the bytes bounds what is asked for: with the largest number there is, the 14 bytes ask for more
than eight thousand million places. -/
theorem C90_wrong (utf8 : List Byte → Bool) (cid : Cid) :
    ∃ bytes : List Byte, bytes.length = 14 ∧ 8000000000 < (Item.readA utf8 cid bytes).1.sum := by
  obtain ⟨bytes, h1, h2⟩ := C90_chunk_wrong utf8 cid 0xffffffff#32 (by decide)
  refine ⟨bytes, h1, ?_⟩
  rw [h2]
  decide

/-! ### Each request -/

/-- All requests of a reader are below `2 ^ 32`, also if it fails. -/
def Each {α : Type} (r : AReader α) : Prop := ∀ s, ∀ n ∈ (r s).1, n < 2 ^ 32

section
variable {α β : Type}

theorem Each.lift (r : Reader α) : Each (AReader.lift r) := fun _ _ h => nomatch h

theorem Each.pure (a : α) : Each (Pure.pure a : AReader α) := fun _ _ h => nomatch h

theorem Each.ask {n : Nat} (h : n < 2 ^ 32) : Each (AReader.ask n) := by
  intro s m hm
  cases List.mem_singleton.1 hm
  exact h

theorem Each.bind_of {r : AReader α} {f : α → AReader β} {P : α → Prop} (hr : Each r)
    (hp : ∀ s a s', (r s).2 = .ok (a, s') → P a) (hf : ∀ a, P a → Each (f a)) : Each (r >>= f) := by
  intro s n hn
  change n ∈ (AReader.bind r f s).1 at hn
  unfold AReader.bind at hn
  have h1 := hr s
  have h2 := hp s
  rcases h : r s with ⟨t, e | ⟨a, s1⟩⟩
  · rw [h] at hn h1
    exact h1 n hn
  · rw [h] at hn h1 h2
    rcases List.mem_append.1 hn with hn | hn
    · exact h1 n hn
    · exact hf a (h2 a s1 rfl) s1 n hn

theorem Each.bind {r : AReader α} {f : α → AReader β} (hr : Each r) (hf : ∀ a, Each (f a)) : Each (r >>= f) :=
  Each.bind_of (P := fun _ => True) hr (fun _ _ _ _ => trivial) fun a _ => hf a

theorem Each.many {r : AReader α} (h : Each r) (n : Nat) : Each (AReader.many r n) := by
  induction n with
  | zero => exact Each.pure []
  | succ n ih => exact Each.bind h fun a => Each.bind ih fun as => Each.pure _

end

theorem Each.bitmap : Each BitMap.readA := by
  refine Each.bind (Each.lift _) fun length => Each.bind (Each.lift _) fun k => ?_
  have := length.isLt
  split
  · exact Each.lift _
  · refine Each.bind (Each.ask ?_) fun _ => Each.bind (Each.many (Each.lift _) _) fun index =>
      Each.bind (Each.ask ?_) fun _ => Each.bind (Each.many (Each.lift _) _) fun bitmap => Each.pure _
    · have h := Nat.div_le_self (length.toNat / 32) k.toNat
      generalize length.toNat / 32 / k.toNat = x at *
      omega
    · unfold divCeil
      dsimp only
      split <;> omega

theorem Each.dac : Each Dac.readA := by
  refine Each.bind (Each.lift _) fun n => Each.bind (Each.ask ?_) fun _ => Each.bind (Each.many ?_ _) fun levels =>
    Each.pure _
  · have := byte_lt n
    omega
  · refine Each.bind_of (P := fun m => m.length < 2 ^ 32) Each.bitmap ?_ fun m hm => Each.bind (Each.ask hm) fun _ =>
      Each.bind (Each.lift _) fun bytes => Each.pure _
    intro s m s' h
    have h1 : BitMap.read s = .ok (m, s') := by
      rw [← BitMap.erase_readA]
      exact h
    exact ((Gives.bitmap (e := true) _ _ _ h1).2 (.inl rfl)).1

theorem Each.block : Each Block.readA := by
  refine Each.bind (Each.lift _) fun n => Each.bind ?_ fun snapshot =>
    Each.bind_of (P := fun m => m < 256) (Each.lift _) ?_ fun m hm => Each.bind (Each.ask (by omega)) fun _ =>
    Each.bind (Each.many ?_ _) fun logs => Each.pure _
  · exact Each.bind (Each.lift _) fun _ => Each.bind (Each.lift _) fun _ => Each.bind (Each.lift _) fun _ =>
      Each.bind (Each.lift _) fun _ => Each.bind Each.bitmap fun _ => Each.bind Each.dac fun _ =>
      Each.bind Each.dac fun _ => Each.pure _
  · intro s m s' h
    have := byte_lt n
    unfold csub at h
    change Reader.ofOption _ s = _ at h
    split at h
    · cases h
      omega
    · cases h
  · exact Each.bind (Each.lift _) fun _ => Each.bind (Each.lift _) fun _ => Each.bind (Each.lift _) fun _ =>
      Each.bind (Each.lift _) fun _ => Each.bind Each.bitmap fun _ => Each.bind Each.bitmap fun _ =>
      Each.bind Each.dac fun _ => Each.bind Each.dac fun _ => Each.pure _

theorem Each.chunk : Each Chunk.readA :=
  Each.bind (Each.lift _) fun _ => Each.bind (Each.lift _) fun _ => Each.bind (Each.lift _) fun _ =>
    Each.bind (Each.lift _) fun n => Each.bind (Each.ask n.isLt) fun _ => Each.bind (Each.ask n.isLt) fun _ =>
    Each.bind (Each.many Each.block _) fun _ => Each.pure _

theorem Each.span : Each Span.readA :=
  Each.bind (Each.lift _) fun _ => Each.bind (Each.lift _) fun _ => Each.bind (Each.lift _) fun _ =>
    Each.bind (Each.lift _) fun _ => Each.bind (Each.lift _) fun _ => Each.bind (Each.lift _) fun _ =>
    Each.bind (Each.lift _) fun n => Each.bind (Each.ask n.isLt) fun _ =>
    Each.bind (Each.many (Each.lift _) _) fun _ => Each.pure _

theorem Each.structFuel (fuel : Nat) : Each (MMStruct3.readFuelA fuel) := by
  induction fuel with
  | zero => exact Each.lift _
  | succ fuel ih =>
    refine Each.bind (Each.lift _) fun tag => ?_
    split
    · exact Each.bind Each.chunk fun _ => Each.pure _
    · split
      · exact Each.bind Each.span fun _ => Each.pure _
      · split
        · exact Each.bind (Each.lift _) fun _ => Each.bind (Each.lift _) fun _ => Each.bind (Each.lift _) fun _ =>
            Each.bind (Each.lift _) fun _ => Each.bind (Each.lift _) fun _ => Each.bind (Each.lift _) fun _ =>
            Each.bind (Each.lift _) fun _ => Each.bind (Each.lift _) fun _ => Each.bind (Each.lift _) fun _ =>
            Each.bind (Each.lift _) fun _ => Each.bind (Each.lift _) fun n => Each.bind (Each.ask n.isLt) fun _ =>
            Each.bind (Each.many (Each.lift _) _) fun _ => Each.bind (Each.lift _) fun _ =>
            Each.bind (Each.lift _) fun n => Each.bind (Each.ask n.isLt) fun _ => Each.bind (Each.many ih _) fun _ =>
            Each.bind Each.dac fun _ => Each.bind Each.dac fun _ => Each.pure _
        · exact Each.lift _

theorem Each.byte (n : Byte) : Each (AReader.ask n.toNat) := Each.ask (by have := byte_lt n; omega)

theorem Each.readStr (utf8 : List Byte → Bool) : Each (readStrA utf8) := by
  refine Each.bind (Each.lift _) fun n => Each.bind (Each.byte n) fun _ => Each.bind (Each.lift _) fun buf => ?_
  split
  · exact Each.pure _
  · exact Each.lift _

theorem Each.coordinate (utf8 : List Byte → Bool) : Each (Coordinate.readA utf8) :=
  Each.bind (Each.readStr utf8) fun _ => Each.bind (Each.lift _) fun _ => Each.pure _

/-- C90: no single request is for `2 ^ 32` places or more, whether the object loads or not. -/
theorem C90_each_partial (utf8 : List Byte → Bool) (cid : Cid) (bytes : List Byte) :
    ∀ n ∈ (Item.readA utf8 cid bytes).1, n < 2 ^ 32 := by
  suffices h : Each (Item.readA utf8 cid) from h bytes
  refine Each.bind (Each.lift _) fun t => ?_
  split
  · refine Each.bind (Each.bind (Each.coordinate utf8) fun _ => Each.bind (Each.coordinate utf8) fun _ =>
      Each.bind (Each.coordinate utf8) fun _ => Each.bind (Each.lift _) fun n => Each.bind (Each.byte n) fun _ =>
      Each.bind (Each.many ?_ _) fun _ => Each.bind (Each.lift _) fun _ => Each.bind (Each.lift _) fun _ =>
      Each.bind (Each.lift _) fun _ => Each.pure _) fun _ => Each.pure _
    exact Each.bind (Each.readStr utf8) fun _ => Each.bind (Each.lift _) fun _ => Each.bind (Each.lift _) fun _ =>
      Each.bind (Each.lift _) fun _ => Each.bind (Each.lift _) fun n => Each.bind (Each.byte n) fun _ =>
      Each.bind (Each.many (Each.lift _) _) fun _ => Each.bind (Each.lift _) fun _ => Each.bind (Each.lift _) fun _ =>
      Each.bind (Each.lift _) fun _ => Each.pure _
  · split
    · exact Each.bind (Each.bind (Each.lift _) fun n => Each.bind (Each.ask n.isLt) fun _ =>
        Each.bind (Each.lift _) fun _ => Each.pure _) fun _ => Each.pure _
    · split
      · exact Each.bind (fun s => Each.structFuel _ s) fun _ => Each.pure _
      · exact Each.lift _

/-- A chunk of one raster of one cell: 68 bytes, and what loading it asks for. -/
theorem Example.C90_chunk : ∃ s : Snapshot, Snapshot.build (fun _ _ => 300) 1 1 1 2 = some s ∧
    (Item.struct (.subchunk ⟨[⟨s, []⟩], [1], .i64, 0⟩)).bytes.length = 68 ∧
    (Item.readA (fun _ => true) (.v0 []) (Item.struct (.subchunk ⟨[⟨s, []⟩], [1], .i64, 0⟩)).bytes).1 =
      [1, 1, 0, 1, 2, 0, 1, 1, 0, 1, 1, 0, 0] := by
  refine ⟨_, rfl, ?_, ?_⟩ <;> decide +kernel

end Verif
