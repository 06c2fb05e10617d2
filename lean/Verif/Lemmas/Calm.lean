import Verif.Props.Foreign

/-! Readers of bytes that are continued. -/
namespace Verif

open Reader

/-- What was read is the same if the stream goes on. -/
def Firm {α : Type} (r : Reader α) : Prop :=
  ∀ s t a s', r s = .ok (a, s') → r (s ++ t) = .ok (a, s' ++ t)

/-- The same, or the stream was read to its end, and something can be read if it goes on. -/
def Soft {α : Type} (r : Reader α) : Prop :=
  ∀ s t a s', r s = .ok (a, s') →
    r (s ++ t) = .ok (a, s' ++ t) ∨ s' = [] ∧ ∃ x, r (s ++ t) = .ok x

/-- The same, or the stream was read to its end. -/
def Loose {α : Type} (r : Reader α) : Prop :=
  ∀ s t a s', r s = .ok (a, s') → r (s ++ t) = .ok (a, s' ++ t) ∨ s' = []

/-- If it panics, it does so whatever comes later. -/
def Calm {α : Type} (r : Reader α) : Prop := ∀ s t, r s = .error .panic → r (s ++ t) = .error .panic

section
variable {α β : Type} {r : Reader α} {f : α → Reader β}

theorem Firm.soft (h : Firm r) : Soft r := fun s t a s' hr => .inl (h s t a s' hr)

theorem Soft.loose (h : Soft r) : Loose r := fun s t a s' hr => (h s t a s' hr).imp id fun x => x.1

theorem Firm.pure (a : α) : Firm (Reader.pure a) := by
  intro s t b s' h
  cases h
  rfl

theorem Calm.pure (a : α) : Calm (Reader.pure a) := fun _ _ h => nomatch h

theorem Firm.fail (e : Fail) : Firm (Reader.fail e : Reader α) := fun _ _ _ _ h => nomatch h

theorem Calm.fail (e : Fail) : Calm (Reader.fail e : Reader α) := fun _ _ h => h

theorem Firm.ofOption (o : Option α) : Firm (Reader.ofOption o) := by
  cases o with
  | none => exact Firm.fail _
  | some a => exact Firm.pure a

theorem Calm.ofOption (o : Option α) : Calm (Reader.ofOption o) := by
  cases o with
  | none => exact Calm.fail _
  | some a => exact Calm.pure a

theorem NoPanic.calm (h : NoPanic r) : Calm r := fun s _ hs => absurd hs (h s)

theorem read_bind_panic {s : List Byte} (h : Reader.bind r f s = .error .panic) :
    r s = .error .panic ∨ ∃ a s1, r s = .ok (a, s1) ∧ f a s1 = .error .panic := by
  unfold Reader.bind at h
  cases h1 : r s with
  | error e => rw [h1] at h; cases h; exact .inl rfl
  | ok x => rw [h1] at h; exact .inr ⟨x.1, x.2, rfl, h⟩

theorem bind_of_ok {s s1 : List Byte} {a : α} (h : r s = .ok (a, s1)) : Reader.bind r f s = f a s1 := by
  unfold Reader.bind
  rw [h]

theorem bind_of_panic {s : List Byte} (h : r s = .error .panic) : Reader.bind r f s = .error .panic := by
  unfold Reader.bind
  rw [h]

theorem Firm.bind (hr : Firm r) (hf : ∀ a, Firm (f a)) : Firm (Reader.bind r f) := by
  intro s t b s' h
  obtain ⟨a, s1, h1, h2⟩ := read_bind_ok h
  rw [bind_of_ok (hr s t a s1 h1)]
  exact hf a s1 t b s' h2

theorem Firm.bind_loose (hr : Loose r) (hf : ∀ a, Firm (f a)) (h0 : ∀ a x, f a [] ≠ .ok x) :
    Firm (Reader.bind r f) := by
  intro s t b s' h
  obtain ⟨a, s1, h1, h2⟩ := read_bind_ok h
  rcases hr s t a s1 h1 with h3 | h3
  · rw [bind_of_ok h3]
    exact hf a s1 t b s' h2
  · rw [h3] at h2
    exact absurd h2 (h0 a _)

theorem Calm.bind (hr : Firm r) (hc : Calm r) (hf : ∀ a, Calm (f a)) : Calm (Reader.bind r f) := by
  intro s t h
  rcases read_bind_panic h with h1 | ⟨a, s1, h1, h2⟩
  · exact bind_of_panic (hc s t h1)
  · rw [bind_of_ok (hr s t a s1 h1)]
    exact hf a s1 t h2

theorem Calm.bind_loose (hr : Loose r) (hc : Calm r) (hf : ∀ a, Calm (f a)) (h0 : ∀ a, f a [] ≠ .error .panic) :
    Calm (Reader.bind r f) := by
  intro s t h
  rcases read_bind_panic h with h1 | ⟨a, s1, h1, h2⟩
  · exact bind_of_panic (hc s t h1)
  · rcases hr s t a s1 h1 with h3 | h3
    · rw [bind_of_ok h3]
      exact hf a s1 t h2
    · rw [h3] at h2
      exact absurd h2 (h0 a)

/-- What follows panics in any case. -/
theorem Calm.bind_panics (hr : Soft r) (hc : Calm r) (h0 : ∀ a s, f a s = .error .panic) :
    Calm (Reader.bind r f) := by
  intro s t h
  rcases read_bind_panic h with h1 | ⟨a, s1, h1, h2⟩
  · exact bind_of_panic (hc s t h1)
  · rcases hr s t a s1 h1 with h3 | ⟨-, x, h3⟩
    · rw [bind_of_ok h3]
      exact h0 _ _
    · rw [bind_of_ok (a := x.1) (s1 := x.2) h3]
      exact h0 _ _

theorem Soft.bind (hr : Firm r) (hf : ∀ a, Soft (f a)) : Soft (Reader.bind r f) := by
  intro s t b s' h
  obtain ⟨a, s1, h1, h2⟩ := read_bind_ok h
  rw [bind_of_ok (hr s t a s1 h1)]
  exact hf a s1 t b s' h2

/-- What follows reads something. -/
theorem Soft.bind_reads (hr : Loose r) (hf : ∀ a, Soft (f a)) (h0 : ∀ a x, f a [] ≠ .ok x) :
    Soft (Reader.bind r f) := by
  intro s t b s' h
  obtain ⟨a, s1, h1, h2⟩ := read_bind_ok h
  rcases hr s t a s1 h1 with h3 | h3
  · rw [bind_of_ok h3]
    exact hf a s1 t b s' h2
  · rw [h3] at h2
    exact absurd h2 (h0 a _)

/-- What follows reads nothing. -/
theorem Soft.map (hr : Soft r) (g : α → β) (h0 : ∀ a s, f a s = .ok (g a, s)) : Soft (Reader.bind r f) := by
  intro s t b s' h
  obtain ⟨a, s1, h1, h2⟩ := read_bind_ok h
  rw [h0] at h2
  cases h2
  rcases hr s t a _ h1 with h3 | ⟨e, x, h3⟩
  · left
    rw [bind_of_ok h3, h0]
  · right
    refine ⟨e, ?_⟩
    rw [bind_of_ok (a := x.1) (s1 := x.2) h3, h0]
    exact ⟨_, rfl⟩

theorem Calm.map (hc : Calm r) (g : α → β) (h0 : ∀ a s, f a s = .ok (g a, s)) : Calm (Reader.bind r f) := by
  intro s t h
  rcases read_bind_panic h with h1 | ⟨a, s1, h1, h2⟩
  · exact bind_of_panic (hc s t h1)
  · rw [h0] at h2
    cases h2

/-- A reader reads something first: it fails at the end of the stream, with an error. -/
def Starts (r : Reader α) : Prop := ∃ e, r [] = .error (.err e)

theorem Starts.ok (h : Starts r) (x : α × List Byte) : r [] ≠ .ok x := by
  obtain ⟨e, h⟩ := h
  rw [h]
  intro h
  cases h

theorem Starts.panic (h : Starts r) : r [] ≠ .error .panic := by
  obtain ⟨e, h⟩ := h
  rw [h]
  intro h
  cases h

theorem Starts.bind (h : Starts r) : Starts (Reader.bind r f) := by
  obtain ⟨e, h⟩ := h
  refine ⟨e, ?_⟩
  unfold Reader.bind
  rw [h]

theorem Firm.many (h : Firm r) (n : Nat) : Firm (Reader.many r n) := by
  induction n with
  | zero => exact Firm.pure _
  | succ n ih => exact Firm.bind h fun a => Firm.bind ih fun as => Firm.pure _

theorem Calm.many (hr : Firm r) (h : Calm r) (n : Nat) : Calm (Reader.many r n) := by
  induction n with
  | zero => exact Calm.pure _
  | succ n ih => exact Calm.bind hr h fun a => Calm.map ih (fun as => a :: as) fun _ _ => rfl

theorem Starts.many (h : Starts r) (n : Nat) : Starts (Reader.many r (n + 1)) := h.bind

theorem Soft.many (hr : Soft r) (h : Starts r) (n : Nat) : Soft (Reader.many r n) := by
  induction n with
  | zero => exact (Firm.pure _).soft
  | succ n ih =>
    cases n with
    | zero => exact hr.map (fun a => [a]) fun _ _ => rfl
    | succ n =>
      refine Soft.bind_reads hr.loose (fun a => ih.map (fun as => a :: as) fun _ _ => rfl) fun a => ?_
      exact (h.many n).bind.ok

theorem Calm.many_soft (hr : Soft r) (hc : Calm r) (h : Starts r) (n : Nat) : Calm (Reader.many r n) := by
  induction n with
  | zero => exact Calm.pure _
  | succ n ih =>
    cases n with
    | zero => exact hc.map (fun a => [a]) fun _ _ => rfl
    | succ n =>
      refine Calm.bind_loose hr.loose hc (fun a => ih.map (fun as => a :: as) fun _ _ => rfl) fun a => ?_
      exact (h.many n).bind.panic

/-- A reader that gives back what is written, and nothing else. -/
theorem Firm.of_exact {w : α → List Byte} {P : α → Prop} (he : Exact r w) (hg : Gives true r P)
    (hw : ∀ a, P a → RT r (w a) a) : Firm r := by
  intro s t a s' h
  have h1 := he s a s' h
  have h2 := (hg s a s' h).2 (.inl rfl)
  rw [← h1, List.append_assoc]
  exact hw a h2 _

end

theorem Firm.readExact (n : Nat) : Firm (readExact n) := by
  intro s t a s' h
  obtain ⟨h1, h2⟩ := readExact_ok h
  subst h2
  unfold Verif.readExact
  rw [if_pos (by simp; omega), List.append_assoc]
  subst h1
  simp

theorem Soft.readUpTo (n : Nat) : Soft (readUpTo n) := by
  intro s t a s' h
  obtain ⟨h1, h2, h3⟩ := readUpTo_ok h
  rcases h3 with h3 | h3
  · left
    subst h2 h3
    unfold Verif.readUpTo
    simp
  · exact .inr ⟨h3, _, rfl⟩

theorem Calm.readUpTo (n : Nat) : Calm (readUpTo n) := fun _ _ h => nomatch h

/-- Numbers of fixed length. -/
theorem Firm.be {α : Type} (n : Nat) (g : List Byte → α) :
    Firm (Reader.bind (Verif.readExact n) fun bytes => Reader.pure (g bytes)) :=
  Firm.bind (Firm.readExact n) fun _ => Firm.pure _

theorem Calm.be {α : Type} (n : Nat) (g : List Byte → α) :
    Calm (Reader.bind (Verif.readExact n) fun bytes => Reader.pure (g bytes)) :=
  (NoPanic.bind (NoPanic.readExact n) fun _ => NoPanic.pure _).calm

theorem Firm.readByte : Firm readByte := Firm.be 1 _
theorem Calm.readByte : Calm readByte := Calm.be 1 _
theorem Firm.readU32 : Firm readU32 := Firm.be 4 _
theorem Calm.readU32 : Calm readU32 := Calm.be 4 _
theorem Firm.readU16 : Firm readU16 := Firm.be 2 _
theorem Calm.readU16 : Calm readU16 := Calm.be 2 _

theorem Firm.readCid : Firm readCid := Firm.of_exact readCid_exact Gives.readCid readCid_rt

theorem NoPanic.onBuffer {α : Type} {r : Reader α} (h : NoPanic r) (b : List Byte) : NoPanic (r.onBuffer b) := by
  intro s hs
  unfold Reader.onBuffer at hs
  cases h1 : r b with
  | error e =>
    rw [h1] at hs
    cases hs
    exact h b h1
  | ok x => rw [h1] at hs; cases hs

theorem NoPanic.readUpTo (n : Nat) : NoPanic (readUpTo n) := fun _ h => nomatch h

theorem NoPanic.readCid : NoPanic readCid := by
  refine NoPanic.bind NoPanic.readVarint fun version => NoPanic.bind NoPanic.readVarint fun codec => ?_
  split
  · exact NoPanic.bind (NoPanic.readUpTo _) fun _ => NoPanic.parse.onBuffer _
  · exact NoPanic.bind NoPanic.readVarint fun code => NoPanic.bind NoPanic.readVarint fun size =>
      NoPanic.bind (NoPanic.readUpTo _) fun _ => NoPanic.parse.onBuffer _

theorem Firm.bitmap : Firm BitMap.read := Firm.of_exact BitMap.read_exact Gives.bitmap fun m h => m.read_rt h

theorem Calm.bitmap : Calm BitMap.read := by
  refine Calm.bind Firm.readU32 Calm.readU32 fun length => Calm.bind Firm.readU32 Calm.readU32 fun k => ?_
  split
  · exact Calm.fail _
  · exact (NoPanic.bind (NoPanic.many (NoPanic.bind (NoPanic.readExact 4) fun _ => NoPanic.pure _) _) fun _ =>
      NoPanic.bind (NoPanic.many (NoPanic.bind (NoPanic.readExact 4) fun _ => NoPanic.pure _) _) fun _ =>
      NoPanic.pure _).calm

theorem Starts.readByte : Starts readByte := ⟨.io, rfl⟩
theorem Starts.readU32 : Starts readU32 := ⟨.io, rfl⟩

theorem Soft.level : Soft Dac.readLevel :=
  Soft.bind Firm.bitmap fun m => (Soft.readUpTo _).map (fun bytes => (m, bytes)) fun _ _ => rfl

theorem Calm.level : Calm Dac.readLevel :=
  Calm.bind Firm.bitmap Calm.bitmap fun m => (Calm.readUpTo _).map (fun bytes => (m, bytes)) fun _ _ => rfl

theorem Starts.level : Starts Dac.readLevel := (Starts.readU32.bind : Starts BitMap.read).bind

theorem Starts.dac : Starts Dac.read := Starts.readByte.bind

theorem Soft.dac : Soft Dac.read :=
  Soft.bind Firm.readByte fun _ => (Soft.level.many Starts.level _).map (fun levels => ⟨levels⟩) fun _ _ => rfl

theorem Calm.dac : Calm Dac.read :=
  Calm.bind Firm.readByte Calm.readByte fun _ =>
    (Calm.level.many_soft Soft.level Starts.level _).map (fun levels => ⟨levels⟩) fun _ _ => rfl

/-- Reading a number first. -/
theorem Calm.byte {β : Type} {f : Byte → Reader β} (h : ∀ b, Calm (f b)) : Calm (Reader.bind Verif.readByte f) :=
  Calm.bind Firm.readByte Calm.readByte h

theorem Calm.u32 {β : Type} {f : BitVec 32 → Reader β} (h : ∀ b, Calm (f b)) : Calm (Reader.bind Verif.readU32 f) :=
  Calm.bind Firm.readU32 Calm.readU32 h

theorem Calm.option {α β : Type} {o : Option α} {f : α → Reader β} (h : ∀ b, Calm (f b)) :
    Calm (Reader.bind (Reader.ofOption o) f) :=
  Calm.bind (Firm.ofOption o) (Calm.ofOption o) h

theorem Calm.cid {β : Type} {f : Cid → Reader β} (h : ∀ b, Calm (f b)) : Calm (Reader.bind Verif.readCid f) :=
  Calm.bind Firm.readCid NoPanic.readCid.calm h

theorem Soft.byte {β : Type} {f : Byte → Reader β} (h : ∀ b, Soft (f b)) : Soft (Reader.bind Verif.readByte f) :=
  Soft.bind Firm.readByte h

theorem Soft.u32 {β : Type} {f : BitVec 32 → Reader β} (h : ∀ b, Soft (f b)) : Soft (Reader.bind Verif.readU32 f) :=
  Soft.bind Firm.readU32 h

theorem Soft.option {α β : Type} {o : Option α} {f : α → Reader β} (h : ∀ b, Soft (f b)) :
    Soft (Reader.bind (Reader.ofOption o) f) :=
  Soft.bind (Firm.ofOption o) h

/-- Two containers at the end of a structure. -/
theorem Soft.pair {β : Type} (g : Dac → Dac → β) :
    Soft (Reader.bind Dac.read fun a => Reader.bind Dac.read fun b => Reader.pure (g a b)) :=
  Soft.bind_reads Soft.dac.loose (fun a => Soft.dac.map (g a) fun _ _ => rfl) fun _ => Starts.dac.bind.ok

theorem Calm.pair {β : Type} (g : Dac → Dac → β) :
    Calm (Reader.bind Dac.read fun a => Reader.bind Dac.read fun b => Reader.pure (g a b)) :=
  Calm.bind_loose Soft.dac.loose Calm.dac (fun a => Calm.dac.map (g a) fun _ _ => rfl) fun _ => Starts.dac.bind.panic

theorem Soft.snapshot : Soft Snapshot.read :=
  Soft.byte fun _ => Soft.u32 fun _ => Soft.u32 fun _ => Soft.u32 fun _ => Soft.bind Firm.bitmap fun _ => Soft.pair _

theorem Calm.snapshot : Calm Snapshot.read :=
  Calm.byte fun _ => Calm.u32 fun _ => Calm.u32 fun _ => Calm.u32 fun _ => Calm.bind Firm.bitmap Calm.bitmap fun _ =>
    Calm.pair _

theorem Soft.log : Soft Log.read :=
  Soft.byte fun _ => Soft.u32 fun _ => Soft.u32 fun _ => Soft.u32 fun _ => Soft.bind Firm.bitmap fun _ =>
    Soft.bind Firm.bitmap fun _ => Soft.pair _

theorem Calm.log : Calm Log.read :=
  Calm.byte fun _ => Calm.u32 fun _ => Calm.u32 fun _ => Calm.u32 fun _ => Calm.bind Firm.bitmap Calm.bitmap fun _ =>
    Calm.bind Firm.bitmap Calm.bitmap fun _ => Calm.pair _

theorem Starts.log : Starts Log.read := Starts.readByte.bind

theorem Starts.block : Starts Block.read := Starts.readByte.bind

theorem Soft.block : Soft Block.read := by
  refine Soft.byte fun n => ?_
  cases csub n.toNat 1 with
  | none =>
    intro s t a s' h
    obtain ⟨x, s1, -, h2⟩ := read_bind_ok h
    cases h2
  | some m =>
    cases m with
    | zero => exact Soft.snapshot.map (fun snapshot => ⟨snapshot, []⟩) fun _ _ => rfl
    | succ m =>
      refine Soft.bind_reads Soft.snapshot.loose (fun snapshot => Soft.option fun m =>
        (Soft.log.many Starts.log m).map (fun logs => ⟨snapshot, logs⟩) fun _ _ => rfl) fun snapshot => ?_
      exact ((Starts.log.many m).bind (f := fun logs => Reader.pure (⟨snapshot, logs⟩ : Block))).ok

theorem Calm.block : Calm Block.read := by
  refine Calm.byte fun n => ?_
  cases csub n.toNat 1 with
  | none => exact Calm.bind_panics Soft.snapshot Calm.snapshot fun _ _ => rfl
  | some m =>
    cases m with
    | zero => exact Calm.snapshot.map (fun snapshot => ⟨snapshot, []⟩) fun _ _ => rfl
    | succ m =>
      refine Calm.bind_loose Soft.snapshot.loose Calm.snapshot (fun snapshot => Calm.option fun m =>
        (Calm.log.many_soft Soft.log Starts.log m).map (fun logs => ⟨snapshot, logs⟩) fun _ _ => rfl)
        fun snapshot => ?_
      exact ((Starts.log.many m).bind (f := fun logs => Reader.pure (⟨snapshot, logs⟩ : Block))).panic

theorem Soft.chunk : Soft Chunk.read :=
  Soft.byte fun _ => Soft.option fun encoding => Soft.byte fun bits => Soft.u32 fun _ =>
    (Soft.block.many Starts.block _).map
      (fun blocks => (⟨blocks, Chunk.mkIndex 0 blocks, encoding, bits.toNat⟩ : Chunk)) fun _ _ => rfl

theorem Calm.chunk : Calm Chunk.read :=
  Calm.byte fun _ => Calm.option fun encoding => Calm.byte fun bits => Calm.u32 fun _ =>
    (Calm.block.many_soft Soft.block Starts.block _).map
      (fun blocks => (⟨blocks, Chunk.mkIndex 0 blocks, encoding, bits.toNat⟩ : Chunk)) fun _ _ => rfl

theorem Firm.span : Firm Span.read :=
  Firm.bind Firm.readByte fun _ => Firm.bind (Firm.ofOption _) fun _ => Firm.bind Firm.readU32 fun _ =>
    Firm.bind Firm.readU32 fun _ => Firm.bind Firm.readU32 fun _ => Firm.bind Firm.readU32 fun _ =>
    Firm.bind Firm.readU32 fun _ => Firm.bind (Firm.readCid.many _) fun _ => Firm.pure _

theorem Calm.span : Calm Span.read :=
  Calm.byte fun _ => Calm.option fun _ => Calm.u32 fun _ => Calm.u32 fun _ => Calm.u32 fun _ => Calm.u32 fun _ =>
    Calm.u32 fun _ => (Calm.many Firm.readCid NoPanic.readCid.calm _).map _ fun _ _ => rfl

theorem Firm.reference : Firm Reference.read := by
  refine Firm.bind Firm.readByte fun tag => ?_
  split
  · exact Firm.pure _
  · split
    · exact Firm.bind Firm.readU32 fun _ => Firm.pure _
    · split
      · exact Firm.bind Firm.readU32 fun _ => Firm.pure _
      · exact Firm.fail _

theorem Calm.reference : Calm Reference.read := by
  refine Calm.byte fun tag => ?_
  split
  · exact Calm.pure _
  · split
    · exact Calm.u32 fun _ => Calm.pure _
    · split
      · exact Calm.u32 fun _ => Calm.pure _
      · exact Calm.fail _

theorem Soft.superchunk {node : Reader MMStruct3} (h : Soft node) (h0 : Starts node) :
    Soft (SuperHead.readWith node) :=
  Soft.u32 fun _ => Soft.u32 fun _ => Soft.u32 fun _ => Soft.u32 fun _ => Soft.byte fun _ => Soft.u32 fun _ =>
    Soft.u32 fun _ => Soft.byte fun _ => Soft.byte fun _ => Soft.option fun _ => Soft.u32 fun _ =>
    Soft.bind (Firm.reference.many _) fun _ => Soft.bind Firm.readCid fun _ => Soft.u32 fun _ =>
    Soft.bind_reads (h.many h0 _).loose (fun _ => Soft.pair _) fun _ => Starts.dac.bind.ok

theorem Calm.superchunk {node : Reader MMStruct3} (h : Soft node) (hc : Calm node) (h0 : Starts node) :
    Calm (SuperHead.readWith node) :=
  Calm.u32 fun _ => Calm.u32 fun _ => Calm.u32 fun _ => Calm.u32 fun _ => Calm.byte fun _ => Calm.u32 fun _ =>
    Calm.u32 fun _ => Calm.byte fun _ => Calm.byte fun _ => Calm.option fun _ => Calm.u32 fun _ =>
    Calm.bind (Firm.reference.many _) (Calm.many Firm.reference Calm.reference _) fun _ => Calm.cid fun _ =>
    Calm.u32 fun _ => Calm.bind_loose (h.many h0 _).loose (hc.many_soft h h0 _) (fun _ => Calm.pair _)
    fun _ => Starts.dac.bind.panic

/-- `MMStruct3.readFuel` with an error where the fuel ends. -/
def MMStruct3.readErr : (fuel : Nat) → Reader MMStruct3
  | 0 => Reader.fail (.err .io)
  | fuel + 1 => do
    let tag ← readByte
    if tag = 4 then
      let c ← Chunk.read
      return .subchunk c
    else if tag = 3 then
      let s ← Span.read
      return .span s
    else if tag = 5 then SuperHead.readWith (MMStruct3.readErr fuel)
    else Reader.fail .panic

/-- With more fuel than bytes it is the same. -/
theorem MMStruct3.readErr_eq : ∀ (n : Nat) (s : List Byte), s.length < n →
    MMStruct3.readFuel n s = MMStruct3.readErr n s := by
  intro n
  induction n with
  | zero => intro s h; omega
  | succ n ih =>
    intro s hs
    change Reader.bind readByte _ s = Reader.bind readByte _ s
    unfold Reader.bind
    cases h1 : readByte s with
    | error x => rfl
    | ok x =>
      have hl : x.2.length + 1 ≤ s.length := by
        cases s with
        | nil => cases h1
        | cons b t => cases h1; simp
      simp only
      split
      · rfl
      split
      · rfl
      split
      · rcases Nat.eq_zero_or_pos n with h0 | h0
        · omega
        refine readWith_congr_len (n := n - 1) (Gives.struct n).shrinks (fun s' hs' => ?_) _ (by omega)
        exact ih s' (by omega)
      · rfl

theorem struct_calm (fuel : Nat) : Soft (MMStruct3.readErr fuel) ∧ Calm (MMStruct3.readErr fuel) ∧
    Starts (MMStruct3.readErr fuel) := by
  induction fuel with
  | zero => exact ⟨(Firm.fail _).soft, Calm.fail _, ⟨.io, rfl⟩⟩
  | succ fuel ih =>
    refine ⟨Soft.byte fun tag => ?_, Calm.byte fun tag => ?_, Starts.readByte.bind⟩
    · split
      · exact Soft.chunk.map _ fun _ _ => rfl
      split
      · exact Firm.span.soft.map _ fun _ _ => rfl
      split
      · exact Soft.superchunk ih.1 ih.2.2
      · exact (Firm.fail _).soft
    · split
      · exact Calm.chunk.map _ fun _ _ => rfl
      split
      · exact Calm.span.map _ fun _ _ => rfl
      split
      · exact Calm.superchunk ih.1 ih.2.1 ih.2.2
      · exact Calm.fail _

theorem Calm.struct : Calm MMStruct3.read := by
  intro s t h
  have e1 : MMStruct3.read s = MMStruct3.readErr ((s ++ t).length + 1) s := by
    rw [← MMStruct3.readErr_eq _ _ (by rw [List.length_append]; omega)]
    unfold MMStruct3.read
    exact (MMStruct3.readFuel_enough _ _ _ (by omega) (by simp)).symm
  have e2 : MMStruct3.read (s ++ t) = MMStruct3.readErr ((s ++ t).length + 1) (s ++ t) :=
    MMStruct3.readErr_eq _ _ (by omega)
  rw [e1] at h
  rw [e2]
  exact (struct_calm _).2.1 s t h

/-! ### Data sets -/

section
variable (utf8 : List Byte → Bool)

theorem Loose.readStr : Loose (readStr utf8) := by
  intro s t a s' h
  obtain ⟨n, s1, h1, h2⟩ := read_bind_ok h
  obtain ⟨buf, s2, h3, h4⟩ := read_bind_ok h2
  cases hu : utf8 buf with
  | false => simp only [hu] at h4; cases h4
  | true =>
    simp only [hu] at h4
    cases h4
    rcases Soft.readUpTo _ s1 t _ _ h3 with h5 | h5
    · left
      unfold Verif.readStr
      refine (bind_of_ok (Firm.readByte s t n s1 h1)).trans ?_
      refine (bind_of_ok h5).trans ?_
      rw [if_pos hu]
      rfl
    · exact .inr h5.1

theorem NoPanic.readStr : NoPanic (readStr utf8) := by
  refine NoPanic.bind (NoPanic.bind (NoPanic.readExact 1) fun _ => NoPanic.pure _) fun n =>
    NoPanic.bind (NoPanic.readUpTo _) fun buf => ?_
  split
  · exact NoPanic.pure _
  · exact NoPanic.err

theorem Firm.kind : Firm CoordinateKind.read := by
  refine Firm.bind Firm.readByte fun b => Firm.bind (Firm.ofOption _) fun encoding => ?_
  cases encoding
  · exact Firm.bind (Firm.be 8 _) fun _ => Firm.bind (Firm.be 8 _) fun _ => Firm.pure _
  · exact Firm.bind (Firm.be 4 _) fun _ => Firm.bind (Firm.be 4 _) fun _ => Firm.bind Firm.readU32 fun _ => Firm.pure _
  · exact Firm.bind (Firm.be 8 _) fun _ => Firm.bind (Firm.be 8 _) fun _ => Firm.bind Firm.readU32 fun _ => Firm.pure _
  · exact Firm.bind (Firm.be 4 _) fun _ => Firm.bind (Firm.be 4 _) fun _ => Firm.bind Firm.readU32 fun _ => Firm.pure _
  · exact Firm.bind (Firm.be 8 _) fun _ => Firm.bind (Firm.be 8 _) fun _ => Firm.bind Firm.readU32 fun _ => Firm.pure _

theorem Calm.kind : Calm CoordinateKind.read := by
  refine Calm.byte fun b => Calm.option fun encoding => ?_
  cases encoding
  · exact Calm.bind (Firm.be 8 _) (Calm.be 8 _) fun _ => Calm.bind (Firm.be 8 _) (Calm.be 8 _) fun _ => Calm.pure _
  · exact Calm.bind (Firm.be 4 _) (Calm.be 4 _) fun _ => Calm.bind (Firm.be 4 _) (Calm.be 4 _) fun _ =>
      Calm.u32 fun _ => Calm.pure _
  · exact Calm.bind (Firm.be 8 _) (Calm.be 8 _) fun _ => Calm.bind (Firm.be 8 _) (Calm.be 8 _) fun _ =>
      Calm.u32 fun _ => Calm.pure _
  · exact Calm.bind (Firm.be 4 _) (Calm.be 4 _) fun _ => Calm.bind (Firm.be 4 _) (Calm.be 4 _) fun _ =>
      Calm.u32 fun _ => Calm.pure _
  · exact Calm.bind (Firm.be 8 _) (Calm.be 8 _) fun _ => Calm.bind (Firm.be 8 _) (Calm.be 8 _) fun _ =>
      Calm.u32 fun _ => Calm.pure _

theorem Starts.kind : Starts CoordinateKind.read := Starts.readByte.bind

theorem Firm.coordinate : Firm (Coordinate.read utf8) :=
  Firm.bind_loose (Loose.readStr utf8) (fun _ => Firm.bind Firm.kind fun _ => Firm.pure _) fun _ => Starts.kind.bind.ok

theorem Calm.coordinate : Calm (Coordinate.read utf8) :=
  Calm.bind_loose (Loose.readStr utf8) (NoPanic.readStr utf8).calm (fun _ => Calm.bind Firm.kind Calm.kind fun _ =>
    Calm.pure _) fun _ => Starts.kind.bind.panic

theorem Firm.round : Firm Variable.readRound := by
  refine Firm.bind Firm.readByte fun flag => ?_
  split
  · exact Firm.bind Firm.readByte fun _ => Firm.pure _
  · exact Firm.pure _

theorem Calm.round : Calm Variable.readRound := by
  refine Calm.byte fun flag => ?_
  split
  · exact Calm.byte fun _ => Calm.pure _
  · exact Calm.pure _

theorem Starts.round : Starts Variable.readRound := Starts.readByte.bind

theorem Firm.variable : Firm (Variable.read utf8) :=
  Firm.bind_loose (Loose.readStr utf8) (fun _ => Firm.bind Firm.round fun _ => Firm.bind Firm.readU32 fun _ =>
    Firm.bind Firm.readU32 fun _ => Firm.bind Firm.readByte fun _ => Firm.bind (Firm.readU32.many _) fun _ =>
    Firm.bind Firm.readByte fun _ => Firm.bind (Firm.ofOption _) fun _ => Firm.bind Firm.readCid fun _ =>
    Firm.pure _) fun _ => Starts.round.bind.ok

theorem Calm.variable : Calm (Variable.read utf8) :=
  Calm.bind_loose (Loose.readStr utf8) (NoPanic.readStr utf8).calm (fun _ => Calm.bind Firm.round Calm.round fun _ =>
    Calm.u32 fun _ => Calm.u32 fun _ => Calm.byte fun _ =>
    Calm.bind (Firm.readU32.many _) (Calm.many Firm.readU32 Calm.readU32 _) fun _ => Calm.byte fun _ =>
    Calm.option fun _ => Calm.cid fun _ => Calm.pure _) fun _ => Starts.round.bind.panic

theorem Calm.prev : Calm Dataset.readPrev := by
  refine Calm.byte fun flag => ?_
  split
  · exact Calm.cid fun _ => Calm.pure _
  · exact Calm.pure _

theorem Calm.dataset : Calm (Dataset.read utf8) :=
  Calm.bind (Firm.coordinate utf8) (Calm.coordinate utf8) fun _ =>
    Calm.bind (Firm.coordinate utf8) (Calm.coordinate utf8) fun _ =>
    Calm.bind (Firm.coordinate utf8) (Calm.coordinate utf8) fun _ => Calm.byte fun _ =>
    Calm.bind ((Firm.variable utf8).many _) (Calm.many (Firm.variable utf8) (Calm.variable utf8) _) fun _ =>
    Calm.u32 fun _ => Calm.u32 fun _ => Calm.prev.map _ fun _ _ => rfl

theorem NoPanic.links : NoPanic Links.read := by
  refine NoPanic.bind (NoPanic.bind (NoPanic.readExact 4) fun _ => NoPanic.pure _) fun n => NoPanic.bind ?_
    fun _ => NoPanic.pure _
  intro s h
  have h1 := NoPanic.many NoPanic.parse n.toNat s
  beta_reduce at h
  rcases h2 : Reader.many Cid.parse n.toNat s with e | ⟨x, s1⟩
  · rw [h2] at h h1
    cases h
    exact h1 rfl
  · rw [h2] at h
    cases h

theorem Firm.header : Firm readHeader := by
  refine Firm.bind Firm.readU16 fun magic => ?_
  split
  · exact Firm.fail _
  · refine Firm.bind Firm.readU32 fun version => ?_
    split
    · exact Firm.fail _
    · exact Firm.readByte

theorem Calm.header : Calm readHeader := by
  refine Calm.bind Firm.readU16 Calm.readU16 fun magic => ?_
  split
  · exact Calm.fail _
  · refine Calm.u32 fun version => ?_
    split
    · exact Calm.fail _
    · exact Calm.readByte

theorem Calm.item (cid : Cid) : Calm (Item.read utf8 cid) := by
  refine Calm.bind Firm.header Calm.header fun t => ?_
  split
  · exact (Calm.dataset utf8).map _ fun _ _ => rfl
  split
  · exact (NoPanic.bind NoPanic.links fun _ => NoPanic.pure _).calm
  split
  · exact Calm.struct.map _ fun _ _ => rfl
  · exact Calm.fail _

end

end Verif
