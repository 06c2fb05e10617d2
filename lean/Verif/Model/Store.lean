import Verif.Model.Serial

/-!
Model of the objects kept in the content-addressed store and of their binary format: links
(`/repo/dcdf/src/links.rs`), spans (`span.rs`), superchunks (`superchunk.rs`), the union of the
structures (`mmstruct.rs`), data sets (`dataset.rs`) and the resolver (`resolver.rs`).

The store itself (trait `Mapper`) is a function from content identifiers to bytes when it is read,
and the list of all objects saved when it is written; the identifier of some bytes is a parameter `H`.
Stores that fail while writing are not modelled. The cache between `get_*` and `retrieve` is modelled
apart (`Model/Cache.lean`); here every access goes to the store. The fields `resolver` and `external` (a weak reference to links
loaded before) are left out. Names are their UTF-8 bytes; floats are their bit patterns.
-/
namespace Verif

open Reader

/-! ### Structures -/

/-- span.rs:26-32 `struct Span`. -/
structure Span where
  instants : Nat
  rows : Nat
  cols : Nat
  stride : Nat
  spans : List Cid
  encoding : MMEncoding
deriving DecidableEq, Repr

/-- superchunk.rs:827-831 `enum Reference`. -/
inductive Reference where
  | elided
  | loc (index : Nat)
  | external (index : Nat)
deriving DecidableEq, Repr

/-- superchunk.rs:38-84 `struct Superchunk`, without the locally stored subchunks. -/
structure SuperHead where
  instants : Nat
  rows : Nat
  cols : Nat
  sidelen : Nat
  levels : Nat
  chunksSidelen : Nat
  subsidelen : Nat
  fractionalBits : Nat
  encoding : MMEncoding
  references : List Reference
  externalCid : Cid
  max : Dac
  min : Dac
deriving DecidableEq, Repr

/-- mmstruct.rs:62-66 `enum MMStruct3`; `loc` are the locally stored subchunks of a superchunk. -/
inductive MMStruct3 where
  | span (s : Span)
  | subchunk (c : Chunk)
  | superchunk (h : SuperHead) (loc : List MMStruct3)

/-- mmstruct.rs:71-77 `MMStruct3::encoding`. -/
def MMStruct3.encoding : MMStruct3 → MMEncoding
  | .span s => s.encoding
  | .subchunk c => c.encoding
  | .superchunk h _ => h.encoding

/-- mmstruct.rs:82-88 `MMStruct3::fractional_bits`. -/
def MMStruct3.fractionalBits : MMStruct3 → Nat
  | .span _ => 0
  | .subchunk c => c.fractionalBits
  | .superchunk h _ => h.fractionalBits

/-- mmstruct.rs:92-98 `MMStruct3::shape`; a chunk without blocks panics. -/
def MMStruct3.shape : MMStruct3 → Option (Nat × Nat × Nat)
  | .span s => some (s.instants, s.rows, s.cols)
  | .subchunk c => c.shape
  | .superchunk h _ => some (h.instants, h.rows, h.cols)

/-- links.rs:19 `struct Links`. -/
structure Links where
  cids : List Cid
deriving DecidableEq, Repr

/-- dataset.rs:73-79 `enum CoordinateKind` (only ranges; `External` is `todo!()` throughout). -/
inductive CoordinateKind where
  | time (start step : Int64)
  | i32 (start step : Int32) (steps : Nat)
  | i64 (start step : Int64) (steps : Nat)
  | f32 (start step : BitVec 32) (steps : Nat)
  | f64 (start step : BitVec 64) (steps : Nat)
deriving DecidableEq, Repr

/-- dataset.rs:40-43 `struct Coordinate`. -/
structure Coordinate where
  name : List Byte
  kind : CoordinateKind
deriving DecidableEq, Repr

/-- dataset.rs:46-70 `struct Variable`. -/
structure Variable where
  name : List Byte
  round : Option Nat
  spanSize : Nat
  chunkSize : Nat
  k2Levels : List Nat
  encoding : MMEncoding
  cid : Cid
deriving DecidableEq, Repr

/-- dataset.rs:28-37 `struct Dataset`. -/
structure Dataset where
  coord0 : Coordinate
  coord1 : Coordinate
  coord2 : Coordinate
  variables : List Variable
  rows : Nat
  cols : Nat
  cid : Option Cid
  prev : Option Cid
deriving DecidableEq, Repr

/-! ### Sizes -/

/-- resolver.rs:58 `HEADER_SIZE`. -/
def headerSize : Nat := 2 + 4 + 1

/-- `Cid::encoded_len`. -/
def Cid.encodedLen (c : Cid) : Nat := c.toBytes.length

/-- superchunk.rs:873-879 `Reference::size`. -/
def Reference.size : Reference → Nat
  | .elided => 1
  | .loc _ => 1 + 4
  | .external _ => 1 + 4

/-- span.rs:342-349 `Span::size`. -/
def Span.size (s : Span) : Nat :=
  headerSize + 1 + 4 * 3 + 4 + 4 + (s.spans.map Cid.encodedLen).sum

/-- links.rs:90-92 `Links::size`. -/
def Links.size (l : Links) : Nat := headerSize + 4 + (l.cids.map Cid.encodedLen).sum

/-- superchunk.rs:654-669 `Superchunk::size`; `sizeLoc` is the size of the local subchunks. -/
def SuperHead.size (h : SuperHead) (sizeLoc : Nat) : Nat :=
  headerSize + 4 * 3 + 4 + 1 + 4 + 4 + 1 + 4 + (h.references.map Reference.size).sum
    + h.externalCid.encodedLen + 4 + sizeLoc + h.max.size + h.min.size

mutual

/-- mmstruct.rs:188-196 `MMStruct3::size`. -/
def MMStruct3.size : MMStruct3 → Nat
  | .span s => s.size + 1
  | .subchunk c => c.size + 1
  | .superchunk h loc => h.size (MMStruct3.sizes loc) + 1

def MMStruct3.sizes : List MMStruct3 → Nat
  | [] => 0
  | x :: xs => x.size + MMStruct3.sizes xs

end

/-- dataset.rs:822-830 `CoordinateKind::size`. -/
def CoordinateKind.size : CoordinateKind → Nat
  | .time .. => 16
  | .i32 .. => 12
  | .i64 .. => 20
  | .f32 .. => 12
  | .f64 .. => 20

/-- dataset.rs:699-701 `Coordinate::size`. -/
def Coordinate.size (c : Coordinate) : Nat := 1 + c.name.length + c.kind.size

/-- dataset.rs:1081-1089 `Variable::size`. -/
def Variable.size (v : Variable) : Nat :=
  1 + v.name.length + 1 + (if v.round.isSome then 1 else 0) + 4 + 4 + 4 * v.k2Levels.length + 1
    + v.cid.encodedLen

/-- dataset.rs:487-495 `Dataset::size`. -/
def Dataset.size (d : Dataset) : Nat :=
  headerSize + (d.coord0.size + d.coord1.size + d.coord2.size) + (d.variables.map Variable.size).sum
    + 8 + 1 + (match d.prev with
      | some c => c.encodedLen
      | none => 0)

/-! ### Binary format -/

/-- superchunk.rs:840-856 `Reference::write_to`. -/
def Reference.write : Reference → List Byte
  | .elided => writeByte 0
  | .loc i => writeByte 1 ++ writeU32 (asU32 i)
  | .external i => writeByte 2 ++ writeU32 (asU32 i)

/-- superchunk.rs:859-868 `Reference::read_from`; another tag panics. -/
def Reference.read : Reader Reference := do
  let tag ← readByte
  if tag = 0 then return .elided
  else if tag = 1 then
    let i ← readU32
    return .loc i.toNat
  else if tag = 2 then
    let i ← readU32
    return .external i.toNat
  else Reader.fail .panic

/-- span.rs:288-304 `Span::save_to`. -/
def Span.write (s : Span) : List Byte :=
  writeByte s.encoding.toByte ++ writeU32 (asU32 s.instants) ++ writeU32 (asU32 s.rows) ++
    writeU32 (asU32 s.cols) ++ writeU32 (asU32 s.stride) ++ writeU32 (asU32 s.spans.length) ++
    s.spans.flatMap writeCid

/-- span.rs:307-330 `Span::load_from`. -/
def Span.read : Reader Span := do
  let b ← readByte
  let encoding ← Reader.ofOption (MMEncoding.ofByte b)
  let instants ← readU32
  let rows ← readU32
  let cols ← readU32
  let stride ← readU32
  let n ← readU32
  let spans ← Reader.many readCid n.toNat
  return ⟨instants.toNat, rows.toNat, cols.toNat, stride.toNat, spans, encoding⟩

/-- links.rs:65-76 `Links::save_to`. -/
def Links.write (l : Links) : List Byte :=
  writeU32 (asU32 l.cids.length) ++ l.cids.flatMap writeCid

/-- links.rs:46-63 `Links::load_from`: everything left of the stream goes to a buffer first. -/
def Links.read : Reader Links := do
  let n ← readU32
  let cids ← fun s => match Reader.many Cid.parse n.toNat s with
    | .ok (cids, _) => .ok (cids, [])
    | .error e => .error e
  return ⟨cids⟩

/-- superchunk.rs:678-692, the part of `Superchunk::save_to` before the references. -/
def SuperHead.writeFixed (h : SuperHead) : List Byte :=
  writeU32 (asU32 h.instants) ++ writeU32 (asU32 h.rows) ++ writeU32 (asU32 h.cols) ++
    writeU32 (asU32 h.sidelen) ++ writeByte (asU8 h.levels) ++ writeU32 (asU32 h.chunksSidelen) ++
    writeU32 (asU32 h.subsidelen) ++ writeByte (asU8 h.fractionalBits) ++
    writeByte h.encoding.toByte

mutual

/-- mmstruct.rs:205-226 `MMStruct3::save_to`, with superchunk.rs:678-710 `Superchunk::save_to`. -/
def MMStruct3.write : MMStruct3 → List Byte
  | .span s => writeByte 3 ++ s.write
  | .subchunk c => writeByte 4 ++ c.write
  | .superchunk h loc =>
    writeByte 5 ++ (h.writeFixed ++ writeU32 (asU32 h.references.length) ++
      h.references.flatMap Reference.write ++ writeCid h.externalCid ++
      writeU32 (asU32 loc.length) ++ MMStruct3.writes loc ++ h.max.write ++ h.min.write)

def MMStruct3.writes : List MMStruct3 → List Byte
  | [] => []
  | x :: xs => x.write ++ MMStruct3.writes xs

end

/-- superchunk.rs:713-764 `Superchunk::load_from`; `node` reads a locally stored subchunk. -/
def SuperHead.readWith (node : Reader MMStruct3) : Reader MMStruct3 := do
  let instants ← readU32
  let rows ← readU32
  let cols ← readU32
  let sidelen ← readU32
  let levels ← readByte
  let chunksSidelen ← readU32
  let subsidelen ← readU32
  let fractionalBits ← readByte
  let b ← readByte
  let encoding ← Reader.ofOption (MMEncoding.ofByte b)
  let nReferences ← readU32
  let references ← Reader.many Reference.read nReferences.toNat
  let externalCid ← readCid
  let nLocal ← readU32
  let loc ← Reader.many node nLocal.toNat
  let max ← Dac.read
  let min ← Dac.read
  return .superchunk ⟨instants.toNat, rows.toNat, cols.toNat, sidelen.toNat, levels.toNat,
    chunksSidelen.toNat, subsidelen.toNat, fractionalBits.toNat, encoding, references, externalCid,
    max, min⟩ loc

/-- mmstruct.rs:229-244 `MMStruct3::load_from`. The fuel limits the nesting of local subchunks; a
nested one takes at least one byte. -/
def MMStruct3.readFuel : (fuel : Nat) → Reader MMStruct3
  | 0 => Reader.fail .panic
  | fuel + 1 => do
    let tag ← readByte
    if tag = 4 then
      let c ← Chunk.read
      return .subchunk c
    else if tag = 3 then
      let s ← Span.read
      return .span s
    else if tag = 5 then SuperHead.readWith (MMStruct3.readFuel fuel)
    else Reader.fail .panic

def MMStruct3.read : Reader MMStruct3 := fun s => MMStruct3.readFuel (s.length + 1) s

/-- dataset.rs:706-773 `CoordinateKind::write_to`. -/
def CoordinateKind.write : CoordinateKind → List Byte
  | .time start step => writeByte MMEncoding.time.toByte ++ writeI64 start ++ writeI64 step
  | .i32 start step steps =>
    writeByte MMEncoding.i32.toByte ++ writeI32 start ++ writeI32 step ++ writeU32 (asU32 steps)
  | .i64 start step steps =>
    writeByte MMEncoding.i64.toByte ++ writeI64 start ++ writeI64 step ++ writeU32 (asU32 steps)
  | .f32 start step steps =>
    writeByte MMEncoding.f32.toByte ++ writeF32 start ++ writeF32 step ++ writeU32 (asU32 steps)
  | .f64 start step steps =>
    writeByte MMEncoding.f64.toByte ++ writeF64 start ++ writeF64 step ++ writeU32 (asU32 steps)

/-- dataset.rs:775-818 `CoordinateKind::read_from`. -/
def CoordinateKind.read : Reader CoordinateKind := do
  let b ← readByte
  let encoding ← Reader.ofOption (MMEncoding.ofByte b)
  match encoding with
  | .time =>
    let start ← readI64
    let step ← readI64
    return .time start step
  | .i32 =>
    let start ← readI32
    let step ← readI32
    let steps ← readU32
    return .i32 start step steps.toNat
  | .i64 =>
    let start ← readI64
    let step ← readI64
    let steps ← readU32
    return .i64 start step steps.toNat
  | .f32 =>
    let start ← readF32
    let step ← readF32
    let steps ← readU32
    return .f32 start step steps.toNat
  | .f64 =>
    let start ← readF64
    let step ← readF64
    let steps ← readU32
    return .f64 start step steps.toNat

/-- dataset.rs:683-688 `Coordinate::write_to`. -/
def Coordinate.write (c : Coordinate) : List Byte := writeStr c.name ++ c.kind.write

section
-- whether some bytes are valid UTF-8
variable (utf8 : List Byte → Bool)

/-- dataset.rs:690-695 `Coordinate::read_from`. -/
def Coordinate.read : Reader Coordinate := do
  let name ← readStr utf8
  let kind ← CoordinateKind.read
  return ⟨name, kind⟩

/-- dataset.rs:1017-1039 `Variable::save_to`. -/
def Variable.write (v : Variable) : List Byte :=
  writeStr v.name ++
    (match v.round with
      | some bits => writeByte 1 ++ writeByte (asU8 bits)
      | none => writeByte 0) ++
    writeU32 (asU32 v.spanSize) ++ writeU32 (asU32 v.chunkSize) ++
    writeByte (asU8 v.k2Levels.length) ++ v.k2Levels.flatMap (fun l => writeU32 (asU32 l)) ++
    writeByte v.encoding.toByte ++ writeCid v.cid

/-- dataset.rs:1045-1049, the optional number of bits. -/
def Variable.readRound : Reader (Option Nat) := do
  let flag ← readByte
  if flag = 1 then
    let bits ← readByte
    return some bits.toNat
  else return none

/-- dataset.rs:1041-1071 `Variable::load_from`. -/
def Variable.read : Reader Variable := do
  let name ← readStr utf8
  let round ← Variable.readRound
  let spanSize ← readU32
  let chunkSize ← readU32
  let n ← readByte
  let k2Levels ← Reader.many readU32 n.toNat
  let b ← readByte
  let encoding ← Reader.ofOption (MMEncoding.ofByte b)
  let cid ← readCid
  return ⟨name, round, spanSize.toNat, chunkSize.toNat, k2Levels.map BitVec.toNat, encoding, cid⟩

/-- dataset.rs:413-436 `Dataset::save_to`. -/
def Dataset.write (d : Dataset) : List Byte :=
  d.coord0.write ++ d.coord1.write ++ d.coord2.write ++ writeByte (asU8 d.variables.length) ++
    d.variables.flatMap Variable.write ++ writeU32 (asU32 d.rows) ++ writeU32 (asU32 d.cols) ++
    (match d.prev with
      | some cid => writeByte 1 ++ writeCid cid
      | none => writeByte 0)

/-- dataset.rs:456-460, the optional identifier of the version before. -/
def Dataset.readPrev : Reader (Option Cid) := do
  let flag ← readByte
  if flag = 1 then
    let cid ← readCid
    return some cid
  else return none

/-- dataset.rs:439-471 `Dataset::load_from`. -/
def Dataset.read : Reader Dataset := do
  let coord0 ← Coordinate.read utf8
  let coord1 ← Coordinate.read utf8
  let coord2 ← Coordinate.read utf8
  let n ← readByte
  let variables ← Reader.many (Variable.read utf8) n.toNat
  let rows ← readU32
  let cols ← readU32
  let prev ← Dataset.readPrev
  return ⟨coord0, coord1, coord2, variables, rows.toNat, cols.toNat, none, prev⟩

/-! ### The store -/

/-- `Mapper::load`: the bytes of an object, `none` if it is missing. -/
abbrev Store := Cid → Option (List Byte)

/-- The identifier a store computes for some bytes. -/
structure Hash where
  cidOf : List Byte → Cid
  valid : ∀ bytes, (cidOf bytes).Valid

/-- What was saved so far, latest first. -/
abbrev Saved := List (List Byte)

/-- A store that keeps everything that was saved; of two objects with the same identifier the later
one is found. -/
def Saved.load (H : Hash) (log : Saved) : Store := fun c => log.find? fun b => H.cidOf b = c

/-- No two different objects have the same identifier. -/
def Saved.NoCollision (H : Hash) (log : Saved) : Prop :=
  ∀ a ∈ log, ∀ b ∈ log, H.cidOf a = H.cidOf b → a = b

/-- resolver.rs:17-18. -/
def magicNumber : BitVec 16 := 0xDCE0#16
def formatVersion : BitVec 32 := 1#32

/-- resolver.rs:135-137, the header written by `Resolver::save`. -/
def header (nodeType : Byte) : List Byte :=
  writeU16 magicNumber ++ writeU32 formatVersion ++ writeByte nodeType

/-- resolver.rs:31-35 `enum CacheItem`. -/
inductive Item where
  | dataset (d : Dataset)
  | links (l : Links)
  | struct (m : MMStruct3)

/-- resolver.rs:135-139, all bytes written by `Resolver::save`. -/
def Item.bytes : Item → List Byte
  | .dataset d => header 0 ++ d.write
  | .links l => header 1 ++ l.write
  | .struct m => header 2 ++ m.write

/-- resolver.rs:126-138 `Resolver::save`. -/
def save (H : Hash) (log : Saved) (x : Item) : Saved × Cid := (x.bytes :: log, H.cidOf x.bytes)

/-- resolver.rs:167-179 `Resolver::read_header`. -/
def readHeader : Reader Byte := do
  let magic ← readU16
  if magic ≠ magicNumber then Reader.fail .panic
  else
    let version ← readU32
    if version ≠ formatVersion then Reader.fail .panic
    else readByte

/-- resolver.rs:150-165, reading one object. -/
def Item.read (cid : Cid) : Reader Item := do
  let nodeType ← readHeader
  if nodeType = 0 then
    let d ← Dataset.read utf8
    return .dataset { d with cid := some cid }
  else if nodeType = 1 then
    let l ← Links.read
    return .links l
  else if nodeType = 2 then
    let m ← MMStruct3.read
    return .struct m
  else Reader.fail .panic

/-- resolver.rs:142-165 `Resolver::retrieve`. -/
def Store.retrieve (st : Store) (cid : Cid) : Except Fail Item :=
  match st cid with
  | none => .error (.err (.notFound cid))
  | some bytes =>
    match Item.read utf8 cid bytes with
    | .ok (item, _) => .ok item
    | .error e => .error e

/-- resolver.rs:82-88 `Resolver::get_dataset`. -/
def Store.getDataset (st : Store) (cid : Cid) : Except Fail Dataset :=
  match st.retrieve utf8 cid with
  | .ok (.dataset d) => .ok d
  | .ok _ => .error .panic
  | .error e => .error e

/-- resolver.rs:96-102 `Resolver::get_mmstruct3`. -/
def Store.getStruct (st : Store) (cid : Cid) : Except Fail MMStruct3 :=
  match st.retrieve utf8 cid with
  | .ok (.struct m) => .ok m
  | .ok _ => .error .panic
  | .error e => .error e

/-- resolver.rs:110-116 `Resolver::get_links`. -/
def Store.getLinks (st : Store) (cid : Cid) : Except Fail Links :=
  match st.retrieve utf8 cid with
  | .ok (.links l) => .ok l
  | .ok _ => .error .panic
  | .error e => .error e

end

end Verif
