import Verif.Lemmas.StoreSerial

/-! What readers give fits the format. -/
namespace Verif

open Reader

/-- All that a reader gives has some property, if it does not reach the end of the stream or `end_` is
`true`; nothing is put back to the stream. -/
def Gives {α : Type} (end_ : Bool) (r : Reader α) (P : α → Prop) : Prop :=
  ∀ s a s', r s = .ok (a, s') → s'.length ≤ s.length ∧ (end_ = true ∨ s' ≠ [] → P a)

section
variable {α β : Type} {e : Bool} {P : α → Prop} {Q : β → Prop}

theorem Gives.mono {r : Reader α} {P' : α → Prop} (h : Gives e r P) (hp : ∀ a, P a → P' a) :
    Gives e r P' :=
  fun s a s' hr => ⟨(h s a s' hr).1, fun hs => hp a ((h s a s' hr).2 hs)⟩

theorem Gives.pure (a : α) (h : P a) : Gives e (Reader.pure a) P := by
  intro s b s' hr
  cases hr
  exact ⟨Nat.le_refl _, fun _ => h⟩

theorem Gives.fail (f : Fail) : Gives e (Reader.fail f) P := fun _ _ _ hr => nomatch hr

theorem Gives.bind {r : Reader α} {f : α → Reader β} (hr : Gives e r P)
    (hf : ∀ a, Gives e (f a) (fun b => P a → Q b)) : Gives e (Reader.bind r f) Q := by
  intro s b s' h
  unfold Reader.bind at h
  cases h1 : r s with
  | error x => rw [h1] at h; cases h
  | ok x =>
    obtain ⟨a, s1⟩ := x
    rw [h1] at h
    obtain ⟨l1, p1⟩ := hr s a s1 h1
    obtain ⟨l2, p2⟩ := hf a s1 b s' h
    refine ⟨by omega, fun hs => p2 hs (p1 ?_)⟩
    rcases hs with hs | hs
    · exact .inl hs
    · right
      intro h0
      subst h0
      exact hs (List.eq_nil_of_length_eq_zero (by simpa using l2))

theorem Gives.ofOption (o : Option α) (h : ∀ a, o = some a → P a) : Gives e (Reader.ofOption o) P := by
  cases o with
  | none => exact Gives.fail _
  | some a => exact Gives.pure a (h a rfl)

theorem Gives.many {r : Reader α} (h : Gives e r P) (n : Nat) :
    Gives e (Reader.many r n) (fun as => as.length = n ∧ ∀ a ∈ as, P a) := by
  induction n with
  | zero => exact Gives.pure [] ⟨rfl, fun a ha => nomatch ha⟩
  | succ n ih =>
    refine Gives.bind h fun a => Gives.bind ih fun as => Gives.pure _ fun h1 h2 => ⟨by simp [h1.1], ?_⟩
    intro x hx
    rcases List.mem_cons.1 hx with rfl | hx
    · exact h2
    · exact h1.2 x hx

end

/-! ### Numbers -/

theorem Gives.readExact {e : Bool} (n : Nat) : Gives e (readExact n) (fun l => l.length = n) := by
  intro s a s' h
  unfold Verif.readExact at h
  split at h
  · cases h
    exact ⟨by simp, fun _ => by simp; omega⟩
  · cases h

theorem Gives.readUpTo {e : Bool} (n : Nat) : Gives e (readUpTo n) (fun l => l.length ≤ n) := by
  intro s a s' h
  unfold Verif.readUpTo at h
  cases h
  exact ⟨by simp, fun _ => by simp⟩

/-- If it is not the end, all bytes are there. -/
theorem Gives.readUpTo_all (n : Nat) : Gives false (Verif.readUpTo n) (fun l => l.length = n) := by
  intro s a s' h
  unfold Verif.readUpTo at h
  cases h
  refine ⟨by simp, fun hs => ?_⟩
  simp at hs
  simp
  omega

section
variable {e : Bool}

theorem Gives.readByte : Gives e readByte (fun _ => True) :=
  Gives.bind (Gives.readExact 1) fun _ => Gives.pure _ fun _ => trivial

theorem Gives.readU16 : Gives e readU16 (fun _ => True) :=
  Gives.bind (Gives.readExact 2) fun _ => Gives.pure _ fun _ => trivial

theorem Gives.readU32 : Gives e readU32 (fun _ => True) :=
  Gives.bind (Gives.readExact 4) fun _ => Gives.pure _ fun _ => trivial

theorem Gives.readI32 : Gives e readI32 (fun _ => True) :=
  Gives.bind (Gives.readExact 4) fun _ => Gives.pure _ fun _ => trivial

theorem Gives.readI64 : Gives e readI64 (fun _ => True) :=
  Gives.bind (Gives.readExact 8) fun _ => Gives.pure _ fun _ => trivial

theorem Gives.readF32 : Gives e readF32 (fun _ => True) :=
  Gives.bind (Gives.readExact 4) fun _ => Gives.pure _ fun _ => trivial

theorem Gives.readF64 : Gives e readF64 (fun _ => True) :=
  Gives.bind (Gives.readExact 8) fun _ => Gives.pure _ fun _ => trivial

theorem byte_lt (b : Byte) : b.toNat < 256 := b.isLt

theorem u32_lt (w : BitVec 32) : w.toNat < 2 ^ 32 := w.isLt

theorem Gives.readStr (utf8 : List Byte → Bool) :
    Gives e (readStr utf8) (fun s => s.length < 256 ∧ utf8 s = true) := by
  refine Gives.bind Gives.readByte fun n => Gives.bind (Gives.readUpTo n.toNat) fun s => ?_
  have := byte_lt n
  split
  · rename_i h
    exact Gives.pure _ fun h1 _ => ⟨by omega, h⟩
  · exact Gives.fail _

/-! ### Identifiers -/

theorem Gives.readVarintGo (fuel i acc : Nat) : Gives e (readVarintGo fuel i acc) (· < 2 ^ 64) := by
  induction fuel generalizing i acc with
  | zero => exact Gives.fail _
  | succ fuel ih =>
    refine Gives.bind Gives.readByte fun b => ?_
    dsimp only
    split
    · split
      · exact Gives.fail _
      · split
        · rename_i h
          exact Gives.pure _ fun _ => h
        · exact Gives.fail _
    · exact (ih _ _).mono fun _ h _ => h

theorem Gives.readVarint : Gives e readVarint (· < 2 ^ 64) :=
  fun _ _ _ h => Gives.readVarintGo 10 0 0 _ _ _ (withErr_ok.1 h)

theorem Gives.parse : Gives e Cid.parse Cid.Valid := by
  suffices h : Gives e Cid.parseGo Cid.Valid from fun _ _ _ hr => h _ _ _ (withErr_ok.1 hr)
  refine Gives.bind Gives.readVarint fun version => Gives.bind Gives.readVarint fun codec => ?_
  split
  · exact Gives.bind (Gives.readExact 32) fun digest => Gives.pure _ fun h _ _ => h
  · split
    · refine Gives.bind Gives.readVarint fun code => Gives.bind Gives.readVarint fun size => ?_
      split
      · exact Gives.fail _
      · rename_i h
        exact Gives.bind (Gives.readExact size) fun digest => Gives.pure _ fun h1 _ h2 h3 _ =>
          ⟨h3, h2, by omega⟩
    · exact Gives.fail _

theorem Gives.onBuffer {α : Type} {P : α → Prop} {r : Reader α} (h : Gives true r P) (bytes : List Byte) :
    Gives e (r.onBuffer bytes) P := by
  intro s a s' hr
  unfold Reader.onBuffer at hr
  cases h1 : r bytes with
  | error x => rw [h1] at hr; cases hr
  | ok x =>
    obtain ⟨a', s1⟩ := x
    rw [h1] at hr
    cases hr
    exact ⟨Nat.le_refl _, fun _ => (h _ _ _ h1).2 (.inl rfl)⟩

theorem Gives.readCid : Gives e readCid Cid.Valid := by
  refine Gives.bind Gives.readVarint fun version => Gives.bind Gives.readVarint fun codec => ?_
  split
  · exact Gives.bind (Gives.readUpTo 32) fun rest => (Gives.parse.onBuffer _).mono fun _ h _ _ _ => h
  · exact Gives.bind Gives.readVarint fun code => Gives.bind Gives.readVarint fun size =>
      Gives.bind (Gives.readUpTo size) fun rest => (Gives.parse.onBuffer _).mono fun _ h _ _ _ _ _ => h

end

/-! ### Structures -/

theorem Gives.bitmap {e : Bool} : Gives e BitMap.read BitMap.WF := by
  refine Gives.bind Gives.readU32 fun length => Gives.bind Gives.readU32 fun k => ?_
  split
  · exact Gives.fail _
  · rename_i h
    refine Gives.bind (Gives.many Gives.readU32 _) fun index => Gives.bind (Gives.many Gives.readU32 _)
      fun bitmap => Gives.pure _ fun h1 h2 _ _ => ?_
    refine ⟨u32_lt _, Nat.pos_of_ne_zero h, u32_lt _, by simpa using h2.1, ?_, h1.1⟩
    intro i hi
    obtain ⟨w, -, rfl⟩ := List.mem_map.1 hi
    exact u32_lt w

/-- One level, if the stream does not end there. -/
theorem Gives.level : Gives false Dac.readLevel (fun l => l.1.WF ∧ l.2.length = l.1.length) :=
  Gives.bind Gives.bitmap fun m => Gives.bind (Gives.readUpTo_all m.length) fun bytes =>
    Gives.pure _ fun h1 h2 => ⟨h2, h1⟩

theorem Gives.dac : Gives false Dac.read Dac.WF := by
  refine Gives.bind Gives.readByte fun n => Gives.bind (Gives.many Gives.level n.toNat) fun levels =>
    Gives.pure _ fun h _ => ⟨?_, fun l hl => (h.2 l hl).1, fun l hl => (h.2 l hl).2⟩
  have := byte_lt n
  simp only
  omega

theorem Gives.snapshot : Gives false Snapshot.read Snapshot.WF :=
  Gives.bind Gives.readByte fun k => Gives.bind Gives.readU32 fun rows => Gives.bind Gives.readU32 fun cols =>
    Gives.bind Gives.readU32 fun sidelen => Gives.bind Gives.bitmap fun nodemap =>
    Gives.bind Gives.dac fun max => Gives.bind Gives.dac fun min =>
    Gives.pure _ fun h1 h2 h3 _ _ _ _ => ⟨byte_lt _, u32_lt _, u32_lt _, u32_lt _, h3, h2, h1⟩

theorem Gives.log : Gives false Log.read Log.WF :=
  Gives.bind Gives.readByte fun k => Gives.bind Gives.readU32 fun rows => Gives.bind Gives.readU32 fun cols =>
    Gives.bind Gives.readU32 fun sidelen => Gives.bind Gives.bitmap fun nodemap =>
    Gives.bind Gives.bitmap fun equal => Gives.bind Gives.dac fun max => Gives.bind Gives.dac fun min =>
    Gives.pure _ fun h1 h2 h3 h4 _ _ _ _ => ⟨byte_lt _, u32_lt _, u32_lt _, u32_lt _, h4, h3, h2, h1⟩

theorem Gives.block : Gives false Block.read Block.WF := by
  refine Gives.bind Gives.readByte fun n => Gives.bind Gives.snapshot fun snapshot =>
    Gives.bind (Gives.ofOption (P := fun m => m + 1 < 256) _ ?_) fun m => Gives.bind (Gives.many Gives.log m)
    fun logs => Gives.pure _ fun h1 h2 h3 _ => ⟨?_, h3, h1.2⟩
  · intro m hm
    have := byte_lt n
    unfold csub at hm
    split at hm
    · cases hm
      omega
    · cases hm
  · rw [h1.1]
    exact h2

theorem Gives.chunk : Gives false Chunk.read Chunk.WF :=
  Gives.bind Gives.readByte fun b => Gives.bind (Gives.ofOption (P := fun _ => True) _ fun _ _ => trivial)
    fun encoding => Gives.bind Gives.readByte fun fractionalBits => Gives.bind Gives.readU32 fun n =>
    Gives.bind (Gives.many Gives.block n.toNat) fun blocks => Gives.pure _ fun h _ _ _ _ =>
      ⟨byte_lt _, by rw [h.1]; exact u32_lt _, h.2, rfl⟩

theorem Gives.span {e : Bool} : Gives e Span.read Span.WF :=
  Gives.bind Gives.readByte fun b => Gives.bind (Gives.ofOption (P := fun _ => True) _ fun _ _ => trivial)
    fun encoding => Gives.bind Gives.readU32 fun instants => Gives.bind Gives.readU32 fun rows =>
    Gives.bind Gives.readU32 fun cols => Gives.bind Gives.readU32 fun stride => Gives.bind Gives.readU32 fun n =>
    Gives.bind (Gives.many Gives.readCid n.toNat) fun spans => Gives.pure _ fun h _ _ _ _ _ _ _ =>
      ⟨u32_lt _, u32_lt _, u32_lt _, u32_lt _, by rw [h.1]; exact u32_lt _, h.2⟩

theorem Gives.links {e : Bool} : Gives true Links.read Links.WF ∧ Gives e Links.read (fun _ => True) := by
  have key : Gives true Links.read Links.WF := by
    refine Gives.bind Gives.readU32 fun n => Gives.bind (P := fun cids => cids.length = n.toNat ∧
      ∀ c ∈ cids, c.Valid) ?_ fun cids => Gives.pure _ fun h _ => ⟨by rw [h.1]; exact u32_lt _, h.2⟩
    intro s a s' h
    beta_reduce at h
    cases h1 : Reader.many Cid.parse n.toNat s with
    | error x => rw [h1] at h; cases h
    | ok x =>
      obtain ⟨cids, s1⟩ := x
      rw [h1] at h
      cases h
      exact ⟨by simp, fun _ => (Gives.many (e := true) Gives.parse n.toNat _ _ _ h1).2 (.inl rfl)⟩
  exact ⟨key, fun s a s' h => ⟨(key s a s' h).1, fun _ => trivial⟩⟩

theorem Gives.reference {e : Bool} : Gives e Reference.read Reference.WF := by
  refine Gives.bind Gives.readByte fun tag => ?_
  split
  · exact Gives.pure _ fun _ => trivial
  · split
    · exact Gives.bind Gives.readU32 fun i => Gives.pure _ fun _ _ => u32_lt i
    · split
      · exact Gives.bind Gives.readU32 fun i => Gives.pure _ fun _ _ => u32_lt i
      · exact Gives.fail _

theorem Gives.superchunk {node : Reader MMStruct3} (h : Gives false node MMStruct3.WF) :
    Gives false (SuperHead.readWith node) MMStruct3.WF := by
  refine Gives.bind Gives.readU32 fun instants => Gives.bind Gives.readU32 fun rows =>
    Gives.bind Gives.readU32 fun cols => Gives.bind Gives.readU32 fun sidelen =>
    Gives.bind Gives.readByte fun levels => Gives.bind Gives.readU32 fun chunksSidelen =>
    Gives.bind Gives.readU32 fun subsidelen => Gives.bind Gives.readByte fun fractionalBits =>
    Gives.bind Gives.readByte fun b => Gives.bind (Gives.ofOption (P := fun _ => True) _ fun _ _ => trivial)
    fun encoding => Gives.bind Gives.readU32 fun n => Gives.bind (Gives.many Gives.reference n.toNat)
    fun references => Gives.bind Gives.readCid fun cid => Gives.bind Gives.readU32 fun m =>
    Gives.bind (Gives.many h m.toNat) fun loc => Gives.bind Gives.dac fun max => Gives.bind Gives.dac fun min =>
    Gives.pure _ fun h1 h2 h3 _ h4 h5 _ _ _ _ _ _ _ _ _ _ _ => ?_
  refine ⟨⟨u32_lt _, u32_lt _, u32_lt _, u32_lt _, byte_lt _, u32_lt _, u32_lt _, byte_lt _, ?_, h5.2, h4, h2, h1⟩,
    ?_, (MMStruct3.wfs_iff _).2 h3.2⟩
  · simp only
    rw [h5.1]
    exact u32_lt _
  · rw [h3.1]
    exact u32_lt _

theorem Gives.struct (fuel : Nat) : Gives false (MMStruct3.readFuel fuel) MMStruct3.WF := by
  induction fuel with
  | zero => exact Gives.fail _
  | succ fuel ih =>
    refine Gives.bind Gives.readByte fun tag => ?_
    split
    · exact Gives.bind Gives.chunk fun c => Gives.pure _ fun h _ => h
    · split
      · exact Gives.bind Gives.span fun s => Gives.pure _ fun h _ => h
      · split
        · exact (Gives.superchunk ih).mono fun _ h _ => h
        · exact Gives.fail _

/-! ### Data sets -/

section
variable {e : Bool} {utf8 : List Byte → Bool}

theorem Gives.coordinateKind : Gives e CoordinateKind.read CoordinateKind.WF := by
  refine Gives.bind Gives.readByte fun b => Gives.bind (Gives.ofOption (P := fun _ => True) _ fun _ _ => trivial)
    fun encoding => ?_
  cases encoding with
  | time => exact Gives.bind Gives.readI64 fun a => Gives.bind Gives.readI64 fun b => Gives.pure _ fun _ _ _ _ => trivial
  | i32 => exact Gives.bind Gives.readI32 fun a => Gives.bind Gives.readI32 fun b => Gives.bind Gives.readU32 fun n =>
      Gives.pure _ fun _ _ _ _ _ => u32_lt n
  | i64 => exact Gives.bind Gives.readI64 fun a => Gives.bind Gives.readI64 fun b => Gives.bind Gives.readU32 fun n =>
      Gives.pure _ fun _ _ _ _ _ => u32_lt n
  | f32 => exact Gives.bind Gives.readF32 fun a => Gives.bind Gives.readF32 fun b => Gives.bind Gives.readU32 fun n =>
      Gives.pure _ fun _ _ _ _ _ => u32_lt n
  | f64 => exact Gives.bind Gives.readF64 fun a => Gives.bind Gives.readF64 fun b => Gives.bind Gives.readU32 fun n =>
      Gives.pure _ fun _ _ _ _ _ => u32_lt n

theorem Gives.coordinate : Gives e (Coordinate.read utf8) (Coordinate.WF utf8) :=
  Gives.bind (Gives.readStr utf8) fun name => Gives.bind Gives.coordinateKind fun kind =>
    Gives.pure _ fun h1 h2 => ⟨h2.1, h2.2, h1⟩

theorem Gives.readRound : Gives e Variable.readRound (fun r => ∀ b, r = some b → b < 256) := by
  refine Gives.bind Gives.readByte fun flag => ?_
  split
  · exact Gives.bind Gives.readByte fun bits => Gives.pure _ fun _ _ b hb => by
      obtain rfl := Option.some.inj hb
      exact byte_lt _
  · exact Gives.pure _ fun _ b hb => nomatch hb

theorem Gives.variable : Gives e (Variable.read utf8) (Variable.WF utf8) := by
  unfold Variable.read
  refine Gives.bind (Gives.readStr utf8) fun name => Gives.bind Gives.readRound fun round =>
    Gives.bind Gives.readU32 fun spanSize => Gives.bind Gives.readU32 fun chunkSize =>
    Gives.bind Gives.readByte fun n => Gives.bind (Gives.many Gives.readU32 n.toNat) fun levels =>
    Gives.bind Gives.readByte fun b => Gives.bind (Gives.ofOption (P := fun _ => True) _ fun _ _ => trivial)
    fun encoding => Gives.bind Gives.readCid fun cid => Gives.pure _ fun h1 _ _ h2 _ _ _ h3 h4 => ?_
  refine ⟨h4.1, h4.2, h3, u32_lt _, u32_lt _, ?_, ?_, h1⟩
  · simp only [List.length_map, h2.1]
    exact byte_lt n
  · intro l hl
    obtain ⟨w, -, rfl⟩ := List.mem_map.1 hl
    exact u32_lt w

theorem Gives.readPrev : Gives e Dataset.readPrev (fun p => ∀ c, p = some c → c.Valid) := by
  refine Gives.bind Gives.readByte fun flag => ?_
  split
  · exact Gives.bind Gives.readCid fun cid => Gives.pure _ fun h _ c hc => by
      obtain rfl := Option.some.inj hc
      exact h
  · exact Gives.pure _ fun _ c hc => nomatch hc

theorem Gives.dataset : Gives e (Dataset.read utf8) (Dataset.WF utf8) := by
  refine Gives.bind Gives.coordinate fun coord0 => Gives.bind Gives.coordinate fun coord1 =>
    Gives.bind Gives.coordinate fun coord2 => Gives.bind Gives.readByte fun n =>
    Gives.bind (Gives.many Gives.variable n.toNat) fun vars => Gives.bind Gives.readU32 fun rows =>
    Gives.bind Gives.readU32 fun cols => Gives.bind Gives.readPrev fun prev => Gives.pure _
      fun h1 _ _ h2 _ h3 h4 h5 => ⟨h5, h4, h3, ?_, h2.2, u32_lt _, u32_lt _, h1⟩
  simp only
  rw [h2.1]
  exact byte_lt n

end

/-- What a store gives as a data set fits the format. -/
theorem Store.getDataset_wf {utf8 : List Byte → Bool} {st : Store} {cid : Cid} {d : Dataset}
    (h : st.getDataset utf8 cid = .ok d) : d.WF utf8 := by
  unfold Store.getDataset Store.retrieve at h
  cases h1 : st cid with
  | none => rw [h1] at h; cases h
  | some bytes =>
    rw [h1] at h
    simp only at h
    have key : Gives true (Item.read utf8 cid) (fun x => ∀ d, x = .dataset d → d.WF utf8) := by
      refine Gives.bind (P := fun _ => True) ?_ fun t => ?_
      · refine Gives.bind Gives.readU16 fun a => ?_
        split
        · exact Gives.fail _
        · refine Gives.bind Gives.readU32 fun a => ?_
          split
          · exact Gives.fail _
          · exact Gives.readByte.mono fun _ _ _ _ => trivial
      · split
        · refine Gives.bind Gives.dataset fun d => Gives.pure _ fun h _ d' hd' => ?_
          cases hd'
          exact ⟨h.coord0, h.coord1, h.coord2, h.len, h.vars, h.rows, h.cols, h.prev⟩
        · split
          · exact Gives.bind (Gives.links (e := true)).2 fun l => Gives.pure _ fun _ _ d' hd' => nomatch hd'
          · split
            · refine Gives.bind (P := fun _ => True) ?_ fun l => Gives.pure _ fun _ _ d' hd' => nomatch hd'
              intro s a s' hr
              exact ⟨(Gives.struct _ s a s' hr).1, fun _ => trivial⟩
            · exact Gives.fail _
    cases h2 : Item.read utf8 cid bytes with
    | error x => rw [h2] at h; cases h
    | ok x =>
      obtain ⟨item, rest⟩ := x
      rw [h2] at h
      cases item with
      | dataset d' =>
        cases h
        exact (key _ _ _ h2).2 (.inl rfl) d rfl
      | links l => cases h
      | struct m => cases h

end Verif
