import Verif.Lemmas.SerialBuilt
import Verif.Model.Store

/-! Objects of the store read back. -/
namespace Verif

open Reader

structure Span.WF (s : Span) : Prop where
  instants : s.instants < 2 ^ 32
  rows : s.rows < 2 ^ 32
  cols : s.cols < 2 ^ 32
  stride : s.stride < 2 ^ 32
  len : s.spans.length < 2 ^ 32
  cids : ∀ c ∈ s.spans, c.Valid

structure Links.WF (l : Links) : Prop where
  len : l.cids.length < 2 ^ 32
  cids : ∀ c ∈ l.cids, c.Valid

def Reference.WF : Reference → Prop
  | .elided => True
  | .loc i | .external i => i < 2 ^ 32

structure SuperHead.WF (h : SuperHead) : Prop where
  instants : h.instants < 2 ^ 32
  rows : h.rows < 2 ^ 32
  cols : h.cols < 2 ^ 32
  sidelen : h.sidelen < 2 ^ 32
  levels : h.levels < 256
  chunksSidelen : h.chunksSidelen < 2 ^ 32
  subsidelen : h.subsidelen < 2 ^ 32
  fractionalBits : h.fractionalBits < 256
  len : h.references.length < 2 ^ 32
  references : ∀ r ∈ h.references, r.WF
  externalCid : h.externalCid.Valid
  max : h.max.WF
  min : h.min.WF

mutual

/-- A structure that fits its binary format. -/
def MMStruct3.WF : MMStruct3 → Prop
  | .span s => s.WF
  | .subchunk c => c.WF
  | .superchunk h loc => h.WF ∧ loc.length < 2 ^ 32 ∧ MMStruct3.WFs loc

def MMStruct3.WFs : List MMStruct3 → Prop
  | [] => True
  | x :: xs => x.WF ∧ MMStruct3.WFs xs

end

theorem MMStruct3.wfs_iff (xs : List MMStruct3) : MMStruct3.WFs xs ↔ ∀ x ∈ xs, x.WF := by
  induction xs with
  | nil => simp [MMStruct3.WFs]
  | cons x xs ih => simp [MMStruct3.WFs, ih]

theorem MMStruct3.writes_eq (xs : List MMStruct3) :
    MMStruct3.writes xs = xs.flatMap MMStruct3.write := by
  induction xs with
  | nil => rfl
  | cons x xs ih => rw [MMStruct3.writes, ih]; rfl

theorem many_id {α} {r : Reader α} {w : α → List Byte} (xs : List α)
    (h : ∀ x ∈ xs, RT r (w x) x) : RT (Reader.many r xs.length) (xs.flatMap w) xs := by
  have := RT.many (r := r) (w := w) (g := id) xs h
  rwa [List.map_id] at this

theorem Reference.read_rt (r : Reference) (h : r.WF) : RT Reference.read r.write r := by
  cases r with
  | elided =>
    unfold Reference.read Reference.write
    have := RT.bind (f := fun tag : Byte => if tag = 0 then (Pure.pure .elided : Reader Reference)
      else if tag = 1 then do
        let i ← readU32
        return .loc i.toNat
      else if tag = 2 then do
        let i ← readU32
        return .external i.toNat
      else Reader.fail .panic) (readByte_rt 0) (cs := []) (RT.pure _)
    rwa [List.append_nil] at this
  | loc i =>
    unfold Reference.read Reference.write
    refine RT.bind (readByte_rt 1) ?_
    rw [if_neg (by decide), if_pos rfl]
    have := (readU32_rt (asU32 i)).map (g := fun w : BitVec 32 => Reference.loc w.toNat)
    rwa [asU32_toNat h] at this
  | external i =>
    unfold Reference.read Reference.write
    refine RT.bind (readByte_rt 2) ?_
    rw [if_neg (by decide), if_neg (by decide), if_pos rfl]
    have := (readU32_rt (asU32 i)).map (g := fun w : BitVec 32 => Reference.external w.toNat)
    rwa [asU32_toNat h] at this

theorem Span.read_rt (s : Span) (h : s.WF) : RT Span.read s.write s := by
  have e : s.write = writeByte s.encoding.toByte ++ (writeU32 (asU32 s.instants) ++
      (writeU32 (asU32 s.rows) ++ (writeU32 (asU32 s.cols) ++ (writeU32 (asU32 s.stride) ++
      (writeU32 (asU32 s.spans.length) ++ s.spans.flatMap writeCid))))) := by
    simp only [Span.write, List.append_assoc]
  rw [e]
  unfold Span.read
  refine RT.bind (readByte_rt _) ?_
  rw [MMEncoding.ofByte_toByte]
  refine RT.bind_nil_left (ofOption_rt _) (RT.bind (readU32_rt _) (RT.bind (readU32_rt _)
    (RT.bind (readU32_rt _) (RT.bind (readU32_rt _) (RT.bind (readU32_rt _) ?_)))))
  rw [asU32_toNat h.instants, asU32_toNat h.rows, asU32_toNat h.cols, asU32_toNat h.stride,
    asU32_toNat h.len]
  exact (many_id s.spans fun c hc => readCid_rt c (h.cids c hc)).map
    (g := fun spans => (⟨s.instants, s.rows, s.cols, s.stride, spans, s.encoding⟩ : Span))

/-- Links take all that is left of the stream. -/
theorem Links.read_all (l : Links) (h : l.WF) (rest : List Byte) :
    Links.read (l.write ++ rest) = .ok (l, []) := by
  unfold Links.read Links.write
  change Reader.bind readU32 _ _ = _
  unfold Reader.bind
  rw [List.append_assoc, readU32_rt]
  simp only
  rw [asU32_toNat h.len]
  have e := (many_id (r := Cid.parse) (w := writeCid) l.cids fun c hc => Cid.parse_rt c (h.cids c hc)) rest
  change Reader.bind _ _ _ = _
  unfold Reader.bind
  beta_reduce
  rw [e]
  rfl

theorem SuperHead.readWith_rt (node : Reader MMStruct3) (h : SuperHead) (loc : List MMStruct3)
    (hw : h.WF) (hl : loc.length < 2 ^ 32) (hn : ∀ x ∈ loc, RT node x.write x) :
    RT (SuperHead.readWith node) (h.writeFixed ++ writeU32 (asU32 h.references.length) ++
      h.references.flatMap Reference.write ++ writeCid h.externalCid ++
      writeU32 (asU32 loc.length) ++ MMStruct3.writes loc ++ h.max.write ++ h.min.write)
      (.superchunk h loc) := by
  rw [MMStruct3.writes_eq]
  simp only [SuperHead.writeFixed, List.append_assoc]
  unfold SuperHead.readWith
  refine RT.bind (readU32_rt _) (RT.bind (readU32_rt _) (RT.bind (readU32_rt _)
    (RT.bind (readU32_rt _) (RT.bind (readByte_rt _) (RT.bind (readU32_rt _)
    (RT.bind (readU32_rt _) (RT.bind (readByte_rt _) (RT.bind (readByte_rt _) ?_))))))))
  rw [MMEncoding.ofByte_toByte]
  refine RT.bind_nil_left (ofOption_rt _) (RT.bind (readU32_rt _) ?_)
  rw [asU32_toNat hw.len]
  refine RT.bind (many_id h.references fun r hr => r.read_rt (hw.references r hr))
    (RT.bind (readCid_rt _ hw.externalCid) (RT.bind (readU32_rt _) ?_))
  rw [asU32_toNat hl]
  refine RT.bind (many_id loc hn) (RT.bind (h.max.read_rt hw.max) ?_)
  rw [asU32_toNat hw.instants, asU32_toNat hw.rows, asU32_toNat hw.cols, asU32_toNat hw.sidelen,
    asU8_toNat hw.levels, asU32_toNat hw.chunksSidelen, asU32_toNat hw.subsidelen,
    asU8_toNat hw.fractionalBits]
  exact (h.min.read_rt hw.min).map (g := fun min => MMStruct3.superchunk ⟨h.instants, h.rows, h.cols,
    h.sidelen, h.levels, h.chunksSidelen, h.subsidelen, h.fractionalBits, h.encoding, h.references,
    h.externalCid, h.max, min⟩ loc)

theorem mem_flatMap_length {α} {f : α → List Byte} {xs : List α} {x : α} (h : x ∈ xs) :
    (f x).length ≤ (xs.flatMap f).length := by
  induction xs with
  | nil => cases h
  | cons y ys ih =>
    rw [List.flatMap_cons, List.length_append]
    rcases List.mem_cons.1 h with rfl | h
    · omega
    · have := ih h; omega

theorem MMStruct3.readFuel_rt : ∀ (fuel : Nat) (m : MMStruct3), m.write.length ≤ fuel → m.WF →
    RT (MMStruct3.readFuel fuel) m.write m := by
  intro fuel
  induction fuel with
  | zero =>
    intro m h
    cases m <;> simp [MMStruct3.write, writeByte] at h
  | succ fuel ih =>
    intro m hl hw
    cases m with
    | span s =>
      unfold MMStruct3.readFuel MMStruct3.write
      refine RT.bind (readByte_rt 3) ?_
      rw [if_neg (by decide), if_pos rfl]
      exact (s.read_rt hw).map
    | subchunk c =>
      unfold MMStruct3.readFuel MMStruct3.write
      refine RT.bind (readByte_rt 4) ?_
      rw [if_pos rfl]
      exact (c.read_rt hw).map
    | superchunk h loc =>
      obtain ⟨h1, h2, h3⟩ := hw
      have hmem : ∀ x ∈ loc, RT (MMStruct3.readFuel fuel) x.write x := by
        intro x hx
        refine ih x ?_ ((MMStruct3.wfs_iff loc).1 h3 x hx)
        have := mem_flatMap_length (f := MMStruct3.write) hx
        rw [MMStruct3.write, MMStruct3.writes_eq] at hl
        simp only [List.length_append, writeByte_length] at hl
        omega
      unfold MMStruct3.readFuel MMStruct3.write
      refine RT.bind (readByte_rt 5) ?_
      rw [if_neg (by decide), if_neg (by decide), if_pos rfl]
      exact SuperHead.readWith_rt _ h loc h1 h2 hmem

theorem MMStruct3.read_rt (m : MMStruct3) (h : m.WF) : RT MMStruct3.read m.write m := by
  intro rest
  unfold MMStruct3.read
  exact MMStruct3.readFuel_rt _ m (by simp only [List.length_append]; omega) h rest

/-! ### Data sets -/

def CoordinateKind.WF : CoordinateKind → Prop
  | .time .. => True
  | .i32 _ _ steps | .i64 _ _ steps | .f32 _ _ steps | .f64 _ _ steps => steps < 2 ^ 32

theorem CoordinateKind.read_rt (k : CoordinateKind) (h : k.WF) :
    RT CoordinateKind.read k.write k := by
  cases k with
  | time start step =>
    unfold CoordinateKind.read CoordinateKind.write
    simp only [List.append_assoc]
    refine RT.bind (readByte_rt _) ?_
    rw [MMEncoding.ofByte_toByte]
    refine RT.bind_nil_left (ofOption_rt _) (RT.bind (readI64_rt _) ?_)
    exact (readI64_rt _).map
  | i32 start step steps =>
    unfold CoordinateKind.read CoordinateKind.write
    simp only [List.append_assoc]
    refine RT.bind (readByte_rt _) ?_
    rw [MMEncoding.ofByte_toByte]
    refine RT.bind_nil_left (ofOption_rt _) (RT.bind (readI32_rt _) (RT.bind (readI32_rt _) ?_))
    have := (readU32_rt (asU32 steps)).map (g := fun w : BitVec 32 =>
      CoordinateKind.i32 start step w.toNat)
    rwa [asU32_toNat h] at this
  | i64 start step steps =>
    unfold CoordinateKind.read CoordinateKind.write
    simp only [List.append_assoc]
    refine RT.bind (readByte_rt _) ?_
    rw [MMEncoding.ofByte_toByte]
    refine RT.bind_nil_left (ofOption_rt _) (RT.bind (readI64_rt _) (RT.bind (readI64_rt _) ?_))
    have := (readU32_rt (asU32 steps)).map (g := fun w : BitVec 32 =>
      CoordinateKind.i64 start step w.toNat)
    rwa [asU32_toNat h] at this
  | f32 start step steps =>
    unfold CoordinateKind.read CoordinateKind.write
    simp only [List.append_assoc]
    refine RT.bind (readByte_rt _) ?_
    rw [MMEncoding.ofByte_toByte]
    refine RT.bind_nil_left (ofOption_rt _) (RT.bind (readF32_rt _) (RT.bind (readF32_rt _) ?_))
    have := (readU32_rt (asU32 steps)).map (g := fun w : BitVec 32 =>
      CoordinateKind.f32 start step w.toNat)
    rwa [asU32_toNat h] at this
  | f64 start step steps =>
    unfold CoordinateKind.read CoordinateKind.write
    simp only [List.append_assoc]
    refine RT.bind (readByte_rt _) ?_
    rw [MMEncoding.ofByte_toByte]
    refine RT.bind_nil_left (ofOption_rt _) (RT.bind (readF64_rt _) (RT.bind (readF64_rt _) ?_))
    have := (readU32_rt (asU32 steps)).map (g := fun w : BitVec 32 =>
      CoordinateKind.f64 start step w.toNat)
    rwa [asU32_toNat h] at this

section
variable (utf8 : List Byte → Bool)

structure Coordinate.WF (c : Coordinate) : Prop where
  name : c.name.length < 256
  utf8 : utf8 c.name = true
  kind : c.kind.WF

structure Variable.WF (v : Variable) : Prop where
  name : v.name.length < 256
  utf8 : utf8 v.name = true
  round : ∀ b, v.round = some b → b < 256
  spanSize : v.spanSize < 2 ^ 32
  chunkSize : v.chunkSize < 2 ^ 32
  levels : v.k2Levels.length < 256
  level : ∀ l ∈ v.k2Levels, l < 2 ^ 32
  cid : v.cid.Valid

structure Dataset.WF (d : Dataset) : Prop where
  coord0 : d.coord0.WF utf8
  coord1 : d.coord1.WF utf8
  coord2 : d.coord2.WF utf8
  len : d.variables.length < 256
  vars : ∀ v ∈ d.variables, v.WF utf8
  rows : d.rows < 2 ^ 32
  cols : d.cols < 2 ^ 32
  prev : ∀ c, d.prev = some c → c.Valid

variable {utf8}

theorem Coordinate.read_rt (c : Coordinate) (h : c.WF utf8) : RT (Coordinate.read utf8) c.write c := by
  unfold Coordinate.read Coordinate.write
  exact RT.bind (readStr_rt utf8 _ h.name h.utf8) ((c.kind.read_rt h.kind).map
    (g := fun kind => (⟨c.name, kind⟩ : Coordinate)))

theorem Variable.readRound_rt (r : Option Nat) : (∀ b, r = some b → b < 256) →
    RT Variable.readRound (match r with
      | some bits => writeByte 1 ++ writeByte (asU8 bits)
      | none => writeByte 0) r := by
  intro h
  cases r with
  | none =>
    unfold Variable.readRound
    have := RT.bind (f := fun flag : Byte => if flag = 1 then (do
        let bits ← readByte
        return some bits.toNat)
      else (Pure.pure none : Reader (Option Nat))) (readByte_rt 0) (cs := []) (b := none) (by
        rw [if_neg (by decide)]
        exact RT.pure _)
    rwa [List.append_nil] at this
  | some b =>
    unfold Variable.readRound
    refine RT.bind (readByte_rt 1) ?_
    rw [if_pos rfl]
    have := (readByte_rt (asU8 b)).map (g := fun w : Byte => some w.toNat)
    rwa [asU8_toNat (h b rfl)] at this

theorem Variable.read_rt (v : Variable) (h : v.WF utf8) : RT (Variable.read utf8) v.write v := by
  unfold Variable.write
  simp only [List.append_assoc]
  unfold Variable.read
  refine RT.bind (readStr_rt utf8 _ h.name h.utf8) (RT.bind (Variable.readRound_rt _ h.round)
    (RT.bind (readU32_rt _) (RT.bind (readU32_rt _) (RT.bind (readByte_rt _) ?_))))
  rw [asU8_toNat h.levels]
  have hm := RT.many (r := readU32) (w := fun l => writeU32 (asU32 l)) (g := asU32) v.k2Levels
    (fun l _ => readU32_rt _)
  refine RT.bind hm (RT.bind (readByte_rt _) ?_)
  rw [MMEncoding.ofByte_toByte]
  refine RT.bind_nil_left (ofOption_rt _) ?_
  have hl : (v.k2Levels.map asU32).map BitVec.toNat = v.k2Levels := by
    rw [List.map_map]
    conv_rhs => rw [← List.map_id v.k2Levels]
    apply List.map_congr_left
    intro l hl
    exact asU32_toNat (h.level l hl)
  rw [hl, asU32_toNat h.spanSize, asU32_toNat h.chunkSize]
  exact (readCid_rt _ h.cid).map (g := fun cid => (⟨v.name, v.round, v.spanSize, v.chunkSize,
    v.k2Levels, v.encoding, cid⟩ : Variable))

theorem Dataset.readPrev_rt (p : Option Cid) : (∀ c, p = some c → c.Valid) →
    RT Dataset.readPrev (match p with
      | some cid => writeByte 1 ++ writeCid cid
      | none => writeByte 0) p := by
  intro h
  cases p with
  | none =>
    unfold Dataset.readPrev
    have := RT.bind (f := fun flag : Byte => if flag = 1 then (do
        let cid ← readCid
        return some cid)
      else (Pure.pure none : Reader (Option Cid))) (readByte_rt 0) (cs := []) (b := none) (by
        rw [if_neg (by decide)]
        exact RT.pure _)
    rwa [List.append_nil] at this
  | some c =>
    unfold Dataset.readPrev
    refine RT.bind (readByte_rt 1) ?_
    rw [if_pos rfl]
    exact (readCid_rt c (h c rfl)).map

theorem Dataset.read_rt (d : Dataset) (h : d.WF utf8) :
    RT (Dataset.read utf8) d.write { d with cid := none } := by
  unfold Dataset.write
  simp only [List.append_assoc]
  unfold Dataset.read
  refine RT.bind (d.coord0.read_rt h.coord0) (RT.bind (d.coord1.read_rt h.coord1)
    (RT.bind (d.coord2.read_rt h.coord2) (RT.bind (readByte_rt _) ?_)))
  rw [asU8_toNat h.len]
  refine RT.bind (many_id d.variables fun v hv => v.read_rt (h.vars v hv))
    (RT.bind (readU32_rt _) (RT.bind (readU32_rt _) ?_))
  rw [asU32_toNat h.rows, asU32_toNat h.cols]
  exact (Dataset.readPrev_rt d.prev h.prev).map (g := fun prev => (⟨d.coord0, d.coord1, d.coord2,
    d.variables, d.rows, d.cols, none, prev⟩ : Dataset))

/-! ### Objects -/

variable (utf8) in
/-- An object that fits its binary format. -/
def Item.WF : Item → Prop
  | .dataset d => d.WF utf8
  | .links l => l.WF
  | .struct m => m.WF

/-- What is loaded of an object that was saved: data sets get their identifier. -/
def Item.loaded (cid : Cid) : Item → Item
  | .dataset d => .dataset { d with cid := some cid }
  | .links l => .links l
  | .struct m => .struct m

theorem readHeader_rt (b : Byte) : RT readHeader (header b) b := by
  unfold readHeader header
  rw [List.append_assoc]
  refine RT.bind (readU16_rt _) ?_
  rw [if_neg (by decide)]
  refine RT.bind (readU32_rt _) ?_
  rw [if_neg (by decide)]
  exact readByte_rt b

theorem Item.read_bytes (x : Item) (h : x.WF utf8) (cid : Cid) :
    Item.read utf8 cid x.bytes = .ok (x.loaded cid, []) := by
  unfold Item.read
  change Reader.bind _ _ _ = _
  unfold Reader.bind
  cases x with
  | dataset d =>
    unfold Item.bytes
    rw [readHeader_rt]
    simp only [if_true]
    change Reader.bind _ _ _ = _
    unfold Reader.bind
    have := (d.read_rt h) []
    rw [List.append_nil] at this
    rw [this]
    rfl
  | links l =>
    unfold Item.bytes
    rw [readHeader_rt]
    simp only [show ¬ ((1 : Byte) = 0) by decide, if_true, if_false]
    change Reader.bind _ _ _ = _
    unfold Reader.bind
    have := (l.read_all h) []
    rw [List.append_nil] at this
    rw [this]
    rfl
  | struct m =>
    unfold Item.bytes
    rw [readHeader_rt]
    simp only [show ¬ ((2 : Byte) = 0) by decide, show ¬ ((2 : Byte) = 1) by decide, if_true, if_false]
    change Reader.bind _ _ _ = _
    unfold Reader.bind
    have := (m.read_rt h) []
    rw [List.append_nil] at this
    rw [this]
    rfl

theorem Store.retrieve_of {st : Store} {cid : Cid} {x : Item} (hs : st cid = some x.bytes)
    (h : x.WF utf8) : st.retrieve utf8 cid = .ok (x.loaded cid) := by
  unfold Store.retrieve
  rw [hs]
  simp only
  rw [Item.read_bytes x h]

theorem Store.getStruct_of {st : Store} {cid : Cid} {m : MMStruct3}
    (hs : st cid = some (Item.struct m).bytes) (h : m.WF) : st.getStruct utf8 cid = .ok m := by
  unfold Store.getStruct
  rw [Store.retrieve_of (x := .struct m) hs h]
  rfl

theorem Store.getLinks_of {st : Store} {cid : Cid} {l : Links}
    (hs : st cid = some (Item.links l).bytes) (h : l.WF) : st.getLinks utf8 cid = .ok l := by
  unfold Store.getLinks
  rw [Store.retrieve_of (x := .links l) hs h]
  rfl

theorem Store.getDataset_of {st : Store} {cid : Cid} {d : Dataset}
    (hs : st cid = some (Item.dataset d).bytes) (h : d.WF utf8) :
    st.getDataset utf8 cid = .ok { d with cid := some cid } := by
  unfold Store.getDataset
  rw [Store.retrieve_of (x := .dataset d) hs h]
  rfl

end

/-! ### The store -/

theorem Saved.load_mem {H : Hash} {log : Saved} (hc : log.NoCollision H) {b : List Byte}
    (h : b ∈ log) : log.load H (H.cidOf b) = some b := by
  unfold Saved.load
  cases hf : log.find? fun a => decide (H.cidOf a = H.cidOf b) with
  | none =>
    rw [List.find?_eq_none] at hf
    exact absurd (decide_eq_true rfl) (hf b h)
  | some a =>
    have h1 := List.find?_some hf
    have h2 := List.mem_of_find?_eq_some hf
    rw [hc a h2 b h (of_decide_eq_true h1)]

theorem Saved.NoCollision.mono {H : Hash} {log log' : Saved} (h : log'.NoCollision H)
    (hs : ∀ b ∈ log, b ∈ log') : log.NoCollision H :=
  fun a ha b hb => h a (hs a ha) b (hs b hb)

/-- What was saved before stays. -/
theorem Saved.load_mono {H : Hash} {log log' : Saved} (hc : log'.NoCollision H)
    (hs : ∀ b ∈ log, b ∈ log') : ∀ c b, log.load H c = some b → log'.load H c = some b := by
  intro c b h
  have h1 := List.find?_some h
  have h2 := List.mem_of_find?_eq_some h
  have := Saved.load_mem hc (hs b h2)
  rwa [of_decide_eq_true h1] at this

end Verif
