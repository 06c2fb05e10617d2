import Verif.Lemmas.ReadWF
import Verif.Model.Alloc

/-! What readers ask for. -/
namespace Verif

namespace AReader

/-- A reader without what it asks for. -/
def erase {α : Type} (r : AReader α) : Reader α := fun s => (r s).2

section
variable {α β : Type}

theorem erase_pure (a : α) : erase (Pure.pure a : AReader α) = Pure.pure a := rfl

theorem erase_lift (r : Reader α) : erase (lift r) = r := rfl

theorem erase_bind (r : AReader α) (f : α → AReader β) :
    erase (r >>= f) = erase r >>= fun a => erase (f a) := by
  funext s
  change (AReader.bind r f s).2 = Reader.bind (erase r) (fun a => erase (f a)) s
  unfold AReader.bind Reader.bind erase
  rcases h : r s with ⟨t, e | ⟨a, s'⟩⟩ <;> rfl

theorem erase_ask (n : Nat) (f : Unit → Reader β) : (erase (ask n) >>= f) = f () := rfl

theorem erase_ite (c : Prop) [Decidable c] (r r' : AReader α) :
    erase (if c then r else r') = if c then erase r else erase r' := by split <;> rfl

theorem erase_many (r : AReader α) (n : Nat) : erase (many r n) = Reader.many (erase r) n := by
  induction n with
  | zero => rfl
  | succ n ih =>
    have h : many r (n + 1) = r >>= fun a => many r n >>= fun as => Pure.pure (a :: as) := rfl
    rw [h, erase_bind]
    simp only [erase_bind, ih, erase_pure]
    rfl

end
end AReader

open AReader

theorem BitMap.erase_readA : erase BitMap.readA = BitMap.read := by
  simp only [BitMap.readA, BitMap.read, erase_bind, erase_lift, erase_ite, erase_ask, erase_many, erase_pure]

theorem Dac.erase_readA : erase Dac.readA = Dac.read := by
  simp only [Dac.readA, Dac.read, Dac.readLevelA, Dac.readLevel, erase_bind, erase_lift, erase_ask, erase_many,
    erase_pure, BitMap.erase_readA]

theorem Block.erase_readA : erase Block.readA = Block.read := by
  simp only [Block.readA, Block.read, Snapshot.readA, Snapshot.read, Log.readA, Log.read, erase_bind, erase_lift,
    erase_ask, erase_many, erase_pure, BitMap.erase_readA, Dac.erase_readA]

theorem Chunk.erase_readA : erase Chunk.readA = Chunk.read := by
  simp only [Chunk.readA, Chunk.read, erase_bind, erase_lift, erase_ask, erase_many, erase_pure,
    Block.erase_readA]

theorem MMStruct3.erase_readFuelA (fuel : Nat) :
    erase (MMStruct3.readFuelA fuel) = MMStruct3.readFuel fuel := by
  induction fuel with
  | zero => rfl
  | succ fuel ih =>
    simp only [MMStruct3.readFuelA, MMStruct3.readFuel, SuperHead.readWithA, SuperHead.readWith, Span.readA,
      Span.read, erase_bind, erase_lift, erase_ite, erase_ask, erase_many, erase_pure, Chunk.erase_readA,
      Dac.erase_readA, ih]

theorem MMStruct3.erase_readA : erase MMStruct3.readA = MMStruct3.read := by
  funext s
  have h := congrFun (MMStruct3.erase_readFuelA (s.length + 1)) s
  unfold erase at h ⊢
  unfold MMStruct3.readA MMStruct3.read
  exact h

theorem Links.erase_readA : erase Links.readA = Links.read := by
  simp only [Links.readA, Links.read, erase_bind, erase_lift, erase_ask, erase_pure]
  rfl

theorem Item.erase_readA (utf8 : List Byte → Bool) (cid : Cid) : erase (Item.readA utf8 cid) = Item.read utf8 cid := by
  simp only [Item.readA, Item.read, Dataset.readA, Dataset.read, Coordinate.readA, Coordinate.read, Variable.readA,
    Variable.read, readStrA, readStr, Links.erase_readA, erase_bind, erase_lift, erase_ite, erase_ask,
    erase_many, erase_pure, MMStruct3.erase_readA]

/-! ### Bytes taken -/

/-- A reader that succeeds takes at least that many bytes. -/
def Takes {α : Type} (r : Reader α) (m : Nat) : Prop :=
  ∀ s a s', r s = .ok (a, s') → s'.length + m ≤ s.length

section
variable {α β : Type}

theorem Takes.mono {r : Reader α} {m m' : Nat} (h : Takes r m) (hm : m' ≤ m) : Takes r m' := by
  intro s a s' hr
  have := h s a s' hr
  omega

theorem Takes.of_gives {r : Reader α} {e : Bool} {P : α → Prop} (h : Gives e r P) : Takes r 0 :=
  fun s a s' hr => (h s a s' hr).1

theorem Takes.fail (e : Fail) (m : Nat) : Takes (Reader.fail e : Reader α) m := fun _ _ _ hr => nomatch hr

theorem Takes.bind {r : Reader α} {f : α → Reader β} {m n : Nat} (hr : Takes r m) (hf : ∀ a, Takes (f a) n) :
    Takes (Reader.bind r f) (m + n) := by
  intro s b s' h
  unfold Reader.bind at h
  cases h1 : r s with
  | error x => rw [h1] at h; cases h
  | ok x =>
    obtain ⟨a, s1⟩ := x
    rw [h1] at h
    have l1 := hr s a s1 h1
    have l2 := hf a s1 b s' h
    omega

theorem Takes.pure (a : α) : Takes (Reader.pure a) 0 := by
  intro s b s' hr
  cases hr
  exact Nat.le_refl _

theorem Takes.many {r : Reader α} {m : Nat} (h : Takes r m) (n : Nat) : Takes (Reader.many r n) (n * m) := by
  induction n with
  | zero => exact (Takes.pure []).mono (by omega)
  | succ n ih =>
    refine (Takes.bind h fun a => Takes.bind ih fun as => Takes.pure (a :: as)).mono ?_
    rw [Nat.succ_mul]
    omega

theorem Takes.readExact (n : Nat) : Takes (Verif.readExact n) n := by
  intro s a s' h
  unfold Verif.readExact at h
  split at h
  · cases h
    simp
    omega
  · cases h

theorem Takes.readByte : Takes Verif.readByte 1 := Takes.bind (Takes.readExact 1) fun _ => Takes.pure _

theorem Takes.readU16 : Takes Verif.readU16 2 := Takes.bind (Takes.readExact 2) fun _ => Takes.pure _

theorem Takes.readU32 : Takes Verif.readU32 4 := Takes.bind (Takes.readExact 4) fun _ => Takes.pure _

theorem Takes.readVarint : Takes Verif.readVarint 1 := by
  intro s a s' h
  have h1 : readVarintGo 10 0 0 s = .ok (a, s') := withErr_ok.1 h
  refine (Takes.bind (f := _) (n := 0) Takes.readByte fun b => ?_) s a s' h1
  refine Takes.of_gives (e := true) (P := fun _ => True) ?_
  dsimp only
  split
  · split
    · exact Gives.fail _
    · split
      · exact Gives.pure _ trivial
      · exact Gives.fail _
  · exact (Gives.readVarintGo _ _ _).mono fun _ _ => trivial

theorem Takes.parse : Takes Cid.parse 1 := by
  suffices h : Takes Cid.parseGo 1 from fun _ _ _ hr => h _ _ _ (withErr_ok.1 hr)
  refine Takes.bind (n := 0) Takes.readVarint fun version => ?_
  refine Takes.of_gives (e := true) (P := fun _ => True) ?_
  refine Gives.bind Gives.readVarint fun codec => ?_
  split
  · exact Gives.bind (Gives.readExact 32) fun digest => Gives.pure _ fun _ _ => trivial
  · split
    · refine Gives.bind Gives.readVarint fun code => Gives.bind Gives.readVarint fun size => ?_
      split
      · exact Gives.fail _
      · exact Gives.bind (Gives.readExact size) fun digest => Gives.pure _ fun _ _ _ _ => trivial
    · exact Gives.fail _

theorem Takes.readCid : Takes Verif.readCid 1 := by
  refine Takes.bind (n := 0) Takes.readVarint fun version => ?_
  refine Takes.of_gives (e := true) (P := fun _ => True) ?_
  refine Gives.bind Gives.readVarint fun codec => ?_
  split
  · exact Gives.bind (Gives.readUpTo 32) fun rest => (Gives.parse.onBuffer _).mono fun _ _ _ _ => trivial
  · exact Gives.bind Gives.readVarint fun code => Gives.bind Gives.readVarint fun size =>
      Gives.bind (Gives.readUpTo size) fun rest => (Gives.parse.onBuffer _).mono fun _ _ _ _ _ _ => trivial

theorem Takes.reference : Takes Reference.read 1 := by
  refine Takes.bind (n := 0) Takes.readByte fun tag => ?_
  refine Takes.of_gives (e := true) (P := fun _ => True) ?_
  split
  · exact Gives.pure _ trivial
  · split
    · exact Gives.bind Gives.readU32 fun _ => Gives.pure _ fun _ => trivial
    · split
      · exact Gives.bind Gives.readU32 fun _ => Gives.pure _ fun _ => trivial
      · exact Gives.fail _

theorem Takes.ofOption (o : Option α) : Takes (Reader.ofOption o) 0 := by
  cases o with
  | none => exact Takes.fail _ _
  | some a => exact Takes.pure a

theorem Takes.header : Takes readHeader 7 := by
  refine Takes.bind (m := 2) (n := 5) Takes.readU16 fun magic => ?_
  split
  · exact Takes.fail _ _
  · refine Takes.bind (m := 4) (n := 1) Takes.readU32 fun version => ?_
    split
    · exact Takes.fail _ _
    · exact Takes.readByte

end

/-! ### Accounts -/

/-- With `K` for each byte taken and `c` at the beginning, what is asked for can be paid, and `ρ` is left.
Only at the end; debts are allowed. -/
def Costs {α : Type} (K : Nat) (c : Int) (r : AReader α) (ρ : α → Int) : Prop :=
  ∀ s a s', (r s).2 = .ok (a, s') →
    (((r s).1.sum : Nat) : Int) + ((K * s'.length : Nat) : Int) + ρ a ≤ ((K * s.length : Nat) : Int) + c

section
variable {α β : Type} {K : Nat}

theorem Costs.mono {c : Int} {r : AReader α} {ρ ρ' : α → Int} (h : Costs K c r ρ) (hp : ∀ a, ρ' a ≤ ρ a) :
    Costs K c r ρ' := by
  intro s a s' hr
  have h1 := h s a s' hr
  have h2 := hp a
  omega

theorem Costs.pure {c : Int} (a : α) : Costs K c (Pure.pure a : AReader α) (fun _ => c) := by
  intro s b s' hr
  cases hr
  change (0 : Int) + _ + c ≤ _
  omega

theorem Costs.bind {c : Int} {r : AReader α} {f : α → AReader β} {σ : α → Int} {ρ : β → Int}
    (hr : Costs K c r σ) (hf : ∀ a, Costs K (σ a) (f a) ρ) : Costs K c (r >>= f) ρ := by
  intro s b s' h
  change (AReader.bind r f s).2 = _ at h
  change (((AReader.bind r f s).1.sum : Nat) : Int) + _ + _ ≤ _
  unfold AReader.bind at h ⊢
  have h1 := hr s
  rcases h2 : r s with ⟨t, e | ⟨a, s1⟩⟩
  · rw [h2] at h
    cases h
  · rw [h2] at h h1
    have l1 := h1 a s1 rfl
    have l2 := hf a s1 b s' h
    simp only [List.sum_append] at l1 ⊢
    omega

theorem Costs.ask {c : Int} (n : Nat) : Costs K c (AReader.ask n) (fun _ => c - n) := by
  intro s a s' h
  cases h
  change ((([n] : List Nat).sum : Nat) : Int) + _ + _ ≤ _
  simp only [List.sum_cons, List.sum_nil]
  omega

theorem Costs.lift {c : Int} {r : Reader α} {m : Nat} (h : Takes r m) :
    Costs K c (AReader.lift r) (fun _ => c + (K * m : Nat)) := by
  intro s a s' hr
  have h1 := Nat.mul_le_mul_left K (h s a s' hr)
  rw [Nat.mul_add] at h1
  change (0 : Int) + _ + (c + ((K * m : Nat) : Int)) ≤ _
  omega

theorem Costs.fail {c : Int} (e : Fail) (ρ : α → Int) : Costs K c (AReader.lift (Reader.fail e)) ρ :=
  fun _ _ _ hr => nomatch hr

theorem Costs.many {r : AReader α} (x : Nat) (h : ∀ c : Int, Costs K c r (fun _ => c + x)) (c : Int) (n : Nat) :
    Costs K c (AReader.many r n) (fun _ => c + x * n) := by
  induction n generalizing c with
  | zero => exact (Costs.pure []).mono fun _ => by simp
  | succ n ih =>
    refine (Costs.bind (h c) fun a => Costs.bind (ih _) fun as => Costs.pure _).mono fun _ => ?_
    simp only [Int.natCast_add, Int.mul_add]
    omega

end

theorem le_divCeil (n : Nat) : n ≤ 32 * divCeil n 32 := by
  unfold divCeil
  dsimp only
  split <;> omega

theorem Costs.readByte {K : Nat} (c : Int) : Costs K c (AReader.lift readByte) (fun _ => c + K) :=
  (Costs.lift Takes.readByte).mono fun _ => by omega

theorem Costs.readU32 {K : Nat} (c : Int) : Costs K c (AReader.lift readU32) (fun _ => c + 4 * K) :=
  (Costs.lift Takes.readU32).mono fun _ => by omega

theorem Costs.bitmap (c : Int) : Costs 9 c BitMap.readA (fun m => c + m.length + 2) := by
  refine Costs.bind (Costs.readU32 _) fun length => Costs.bind (Costs.readU32 _) fun k => ?_
  split
  · exact Costs.fail _ _
  · refine Costs.bind (Costs.ask _) fun _ => Costs.bind (Costs.many 36 (fun c => (Costs.readU32 _).mono fun _ => ?_) _ _) fun index =>
      Costs.bind (Costs.ask _) fun _ => Costs.bind (Costs.many 36 (fun c => (Costs.readU32 _).mono fun _ => ?_) _ _) fun bitmap => ?_
    · omega
    · omega
    · have := le_divCeil length.toNat
      generalize length.toNat / 32 / k.toNat = x at *
      generalize divCeil length.toNat 32 = y at *
      intro s b s' h
      cases h
      change (0 : Int) + _ + (c + (length.toNat : Int) + 2) ≤ _
      omega

theorem Costs.level (c : Int) : Costs 9 c Dac.readLevelA (fun _ => c + 2) := by
  refine Costs.bind (Costs.bitmap _) fun m => Costs.bind (Costs.ask _) fun _ =>
    Costs.bind (Costs.lift (Takes.of_gives (e := true) (Gives.readUpTo _))) fun bytes => (Costs.pure _).mono fun _ => ?_
  omega

theorem Costs.dac (c : Int) : Costs 9 c Dac.readA (fun _ => c + 2) := by
  refine Costs.bind (Costs.readByte _) fun n => Costs.bind (Costs.ask _) fun _ =>
    Costs.bind (Costs.many 2 Costs.level _ _) fun levels => (Costs.pure _).mono fun _ => ?_
  omega

theorem Costs.snapshot (c : Int) : Costs 9 c Snapshot.readA (fun _ => c + 2) := by
  refine Costs.bind (Costs.readByte _) fun k => Costs.bind (Costs.readU32 _) fun rows => Costs.bind (Costs.readU32 _)
    fun cols => Costs.bind (Costs.readU32 _) fun sidelen => Costs.bind (Costs.bitmap _) fun nodemap =>
    Costs.bind (Costs.dac _) fun max => Costs.bind (Costs.dac _) fun min => (Costs.pure _).mono fun _ => ?_
  omega

theorem Costs.log (c : Int) : Costs 9 c Log.readA (fun _ => c + 2) := by
  refine Costs.bind (Costs.readByte _) fun k => Costs.bind (Costs.readU32 _) fun rows => Costs.bind (Costs.readU32 _)
    fun cols => Costs.bind (Costs.readU32 _) fun sidelen => Costs.bind (Costs.bitmap _) fun nodemap =>
    Costs.bind (Costs.bitmap _) fun equal => Costs.bind (Costs.dac _) fun max => Costs.bind (Costs.dac _) fun min =>
    (Costs.pure _).mono fun _ => ?_
  omega

theorem Costs.block (c : Int) : Costs 9 c Block.readA (fun _ => c + 2) := by
  refine Costs.bind (Costs.readByte _) fun n => Costs.bind (Costs.snapshot _) fun snapshot =>
    Costs.bind (Costs.lift (Takes.ofOption _)) fun m => Costs.bind (Costs.ask _) fun _ =>
    Costs.bind (Costs.many 2 Costs.log _ _) fun logs => (Costs.pure _).mono fun _ => ?_
  omega

theorem Costs.chunk (c : Int) : Costs 9 c Chunk.readA (fun _ => c + 2) := by
  refine Costs.bind (Costs.readByte _) fun b => Costs.bind (Costs.lift (Takes.ofOption _)) fun encoding =>
    Costs.bind (Costs.readByte _) fun bits => Costs.bind (Costs.readU32 _) fun n => Costs.bind (Costs.ask _) fun _ =>
    Costs.bind (Costs.ask _) fun _ => Costs.bind (Costs.many 2 Costs.block _ _) fun blocks =>
    (Costs.pure _).mono fun _ => ?_
  omega

theorem Costs.span (c : Int) : Costs 9 c Span.readA (fun _ => c + 2) := by
  refine Costs.bind (Costs.readByte _) fun b => Costs.bind (Costs.lift (Takes.ofOption _)) fun encoding =>
    Costs.bind (Costs.readU32 _) fun instants => Costs.bind (Costs.readU32 _) fun rows => Costs.bind (Costs.readU32 _)
    fun cols => Costs.bind (Costs.readU32 _) fun stride => Costs.bind (Costs.readU32 _) fun n =>
    Costs.bind (Costs.ask _) fun _ => Costs.bind (Costs.many 9 (fun c => (Costs.lift Takes.readCid).mono fun _ => ?_) _ _)
    fun spans => (Costs.pure _).mono fun _ => ?_
  · omega
  · omega

theorem Costs.links (c : Int) : Costs 9 c Links.readA (fun _ => c + 2) := by
  refine Costs.bind (Costs.readU32 _) fun n => Costs.bind (Costs.ask _) fun _ =>
    Costs.bind (Costs.lift (m := n.toNat) ?_) fun cids => (Costs.pure _).mono fun _ => ?_
  · intro s a s' h
    have h1 := Takes.many Takes.parse n.toNat s
    beta_reduce at h
    rcases h2 : Reader.many Cid.parse n.toNat s with e | ⟨x, s1⟩
    · rw [h2] at h
      cases h
    · rw [h2] at h
      cases h
      have := h1 _ _ h2
      simp only [List.length_nil]
      omega
  · omega

theorem Costs.superchunk {node : AReader MMStruct3} (hn : ∀ c : Int, Costs 9 c node (fun _ => c + 2)) (c : Int) :
    Costs 9 c (SuperHead.readWithA node) (fun _ => c + 2) := by
  refine Costs.bind (Costs.readU32 _) fun instants => Costs.bind (Costs.readU32 _) fun rows =>
    Costs.bind (Costs.readU32 _) fun cols => Costs.bind (Costs.readU32 _) fun sidelen =>
    Costs.bind (Costs.readByte _) fun levels => Costs.bind (Costs.readU32 _) fun chunksSidelen =>
    Costs.bind (Costs.readU32 _) fun subsidelen => Costs.bind (Costs.readByte _) fun bits =>
    Costs.bind (Costs.readByte _) fun b => Costs.bind (Costs.lift (Takes.ofOption _)) fun encoding =>
    Costs.bind (Costs.readU32 _) fun n => Costs.bind (Costs.ask _) fun _ =>
    Costs.bind (Costs.many 9 (fun c => (Costs.lift Takes.reference).mono fun _ => ?_) _ _) fun references =>
    Costs.bind (Costs.lift Takes.readCid) fun external => Costs.bind (Costs.readU32 _) fun nLocal =>
    Costs.bind (Costs.ask _) fun _ => Costs.bind (Costs.many 2 hn _ _) fun loc => Costs.bind (Costs.dac _) fun max =>
    Costs.bind (Costs.dac _) fun min => (Costs.pure _).mono fun _ => ?_
  · omega
  · omega

theorem Costs.structFuel (fuel : Nat) (c : Int) : Costs 9 c (MMStruct3.readFuelA fuel) (fun _ => c + 2) := by
  induction fuel generalizing c with
  | zero => exact Costs.fail _ _
  | succ fuel ih =>
    refine Costs.bind (Costs.readByte _) fun tag => ?_
    split
    · exact Costs.bind (Costs.chunk _) fun _ => (Costs.pure _).mono fun _ => by omega
    · split
      · exact Costs.bind (Costs.span _) fun _ => (Costs.pure _).mono fun _ => by omega
      · split
        · exact (Costs.superchunk ih _).mono fun _ => by omega
        · exact Costs.fail _ _

theorem Costs.struct (c : Int) : Costs 9 c MMStruct3.readA (fun _ => c + 2) :=
  fun s a s' h => Costs.structFuel (s.length + 1) c s a s' h

/-! ### Datasets: the room for a name is at most 255 -/

section
variable (utf8 : List Byte → Bool)

theorem Costs.readStr (c : Int) : Costs 256 c (readStrA utf8) (fun _ => c + 1) := by
  refine Costs.bind (Costs.readByte _) fun n => Costs.bind (Costs.ask _) fun _ =>
    Costs.bind (Costs.lift (Takes.of_gives (e := true) (Gives.readUpTo _))) fun buf => ?_
  have := byte_lt n
  split
  · exact (Costs.pure _).mono fun _ => by omega
  · exact Costs.fail _ _

theorem Costs.coordinate (c : Int) : Costs 256 c (Coordinate.readA utf8) (fun _ => c + 1) := by
  refine Costs.bind (Costs.readStr utf8 _) fun name =>
    Costs.bind (Costs.lift (Takes.of_gives (e := true) (P := fun _ => True) ?_)) fun kind =>
    (Costs.pure _).mono fun _ => by omega
  exact Gives.coordinateKind.mono fun _ _ => trivial

theorem Costs.variable (c : Int) : Costs 256 c (Variable.readA utf8) (fun _ => c + 1) := by
  refine Costs.bind (Costs.readStr utf8 _) fun name =>
    Costs.bind (Costs.lift (Takes.of_gives (e := true) (P := fun _ => True) ?_)) fun round =>
    Costs.bind (Costs.readU32 _) fun spanSize => Costs.bind (Costs.readU32 _) fun chunkSize =>
    Costs.bind (Costs.readByte _) fun n => Costs.bind (Costs.ask _) fun _ =>
    Costs.bind (Costs.many 1 (fun c => (Costs.readU32 _).mono fun _ => ?_) _ _) fun levels =>
    Costs.bind (Costs.readByte _) fun b => Costs.bind (Costs.lift (Takes.ofOption _)) fun encoding =>
    Costs.bind (Costs.lift Takes.readCid) fun cid => (Costs.pure _).mono fun _ => ?_
  · refine Gives.bind Gives.readByte fun flag => ?_
    split
    · exact Gives.bind Gives.readByte fun _ => Gives.pure _ fun _ _ => trivial
    · exact Gives.pure _ fun _ => trivial
  · omega
  · omega

theorem Costs.dataset (c : Int) : Costs 256 c (Dataset.readA utf8) (fun _ => c + 1) := by
  refine Costs.bind (Costs.coordinate utf8 _) fun _ => Costs.bind (Costs.coordinate utf8 _) fun _ =>
    Costs.bind (Costs.coordinate utf8 _) fun _ => Costs.bind (Costs.readByte _) fun n => Costs.bind (Costs.ask _) fun _ =>
    Costs.bind (Costs.many 1 (fun c => Costs.variable utf8 c) _ _) fun vars =>
    Costs.bind (Costs.readU32 _) fun rows => Costs.bind (Costs.readU32 _) fun cols =>
    Costs.bind (Costs.lift (Takes.of_gives (e := true) (P := fun _ => True) ?_)) fun prev =>
    (Costs.pure _).mono fun _ => ?_
  · refine Gives.bind Gives.readByte fun flag => ?_
    split
    · exact Gives.bind Gives.readCid fun _ => Gives.pure _ fun _ _ => trivial
    · exact Gives.pure _ fun _ => trivial
  · omega

end

end Verif
