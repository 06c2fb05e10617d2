import Verif.Model.Store

/-! Room asked for when an object is read: the calls of `Vec::with_capacity` and `String::with_capacity`
with a number taken from the bytes. Each reader is the one of Model/Serial.lean or Model/Store.lean with
the numbers of elements it asks for, in the order of the calls, also if reading fails afterwards. Vectors
that grow with what is pushed to them (`read_cid`, the buffer of `Links::load_from`) ask for nothing. -/
namespace Verif

/-- A reader together with the numbers of elements it asks room for. -/
def AReader (α : Type) := List Byte → List Nat × Except Fail (α × List Byte)

namespace AReader

def pure {α} (a : α) : AReader α := fun s => ([], .ok (a, s))

def bind {α β} (r : AReader α) (f : α → AReader β) : AReader β := fun s =>
  match r s with
  | (t, .error e) => (t, .error e)
  | (t, .ok (a, s)) => (t ++ (f a s).1, (f a s).2)

instance : Monad AReader where
  pure := AReader.pure
  bind := AReader.bind

/-- `with_capacity(n)`. -/
def ask (n : Nat) : AReader Unit := fun s => ([n], .ok ((), s))

/-- A reader that asks for nothing. -/
def lift {α} (r : Reader α) : AReader α := fun s => ([], r s)

/-- `for _ in 0..n { v.push(r) }`. -/
def many {α} (r : AReader α) : Nat → AReader (List α)
  | 0 => AReader.pure []
  | n + 1 => AReader.bind r fun a => AReader.bind (AReader.many r n) fun as => AReader.pure (a :: as)

end AReader

open AReader

/-- bitmap.rs:142-164 `BitMap::read_from`. -/
def BitMap.readA : AReader BitMap := do
  let length ← lift readU32
  let k ← lift readU32
  if k.toNat = 0 then lift (Reader.fail .panic)
  else
    let blocks := length.toNat / 32 / k.toNat
    ask blocks
    let index ← AReader.many (lift readU32) blocks
    let words := divCeil length.toNat 32
    ask words
    let bitmap ← AReader.many (lift readU32) words
    return ⟨length.toNat, k.toNat, index.map BitVec.toNat, bitmap⟩

/-- dac.rs:52-60, one level. -/
def Dac.readLevelA : AReader (BitMap × List Byte) := do
  let bitmap ← BitMap.readA
  ask bitmap.length
  let bytes ← lift (readUpTo bitmap.length)
  return (bitmap, bytes)

/-- dac.rs:48-63 `Dac::read_from`. -/
def Dac.readA : AReader Dac := do
  let n ← lift readByte
  ask n.toNat
  let levels ← AReader.many Dac.readLevelA n.toNat
  return ⟨levels⟩

/-- snapshot.rs:62-81 `Snapshot::read_from`. -/
def Snapshot.readA : AReader Snapshot := do
  let k ← lift readByte
  let rows ← lift readU32
  let cols ← lift readU32
  let sidelen ← lift readU32
  let nodemap ← BitMap.readA
  let max ← Dac.readA
  let min ← Dac.readA
  return ⟨nodemap, max, min, k.toNat, rows.toNat, cols.toNat, sidelen.toNat⟩

/-- log.rs:68-89 `Log::read_from`. -/
def Log.readA : AReader Log := do
  let k ← lift readByte
  let rows ← lift readU32
  let cols ← lift readU32
  let sidelen ← lift readU32
  let nodemap ← BitMap.readA
  let equal ← BitMap.readA
  let max ← Dac.readA
  let min ← Dac.readA
  return ⟨nodemap, equal, max, min, k.toNat, rows.toNat, cols.toNat, sidelen.toNat⟩

/-- block.rs:99-109 `Block::read_from`. -/
def Block.readA : AReader Block := do
  let n ← lift readByte
  let snapshot ← Snapshot.readA
  let m ← lift (Reader.ofOption (csub n.toNat 1))
  ask m
  let logs ← AReader.many Log.readA m
  return ⟨snapshot, logs⟩

/-- chunk.rs:247-266 `Chunk::read_from`: room for the blocks and for the index. -/
def Chunk.readA : AReader Chunk := do
  let b ← lift readByte
  let encoding ← lift (Reader.ofOption (MMEncoding.ofByte b))
  let fractionalBits ← lift readByte
  let n ← lift readU32
  ask n.toNat
  ask n.toNat
  let blocks ← AReader.many Block.readA n.toNat
  return ⟨blocks, Chunk.mkIndex 0 blocks, encoding, fractionalBits.toNat⟩

/-- span.rs:307-330 `Span::load_from`. -/
def Span.readA : AReader Span := do
  let b ← lift readByte
  let encoding ← lift (Reader.ofOption (MMEncoding.ofByte b))
  let instants ← lift readU32
  let rows ← lift readU32
  let cols ← lift readU32
  let stride ← lift readU32
  let n ← lift readU32
  ask n.toNat
  let spans ← AReader.many (lift readCid) n.toNat
  return ⟨instants.toNat, rows.toNat, cols.toNat, stride.toNat, spans, encoding⟩

/-- links.rs:46-63 `Links::load_from`. -/
def Links.readA : AReader Links := do
  let n ← lift readU32
  ask n.toNat
  let cids ← lift fun s => match Reader.many Cid.parse n.toNat s with
    | .ok (cids, _) => .ok (cids, [])
    | .error e => .error e
  return ⟨cids⟩

/-- superchunk.rs:713-764 `Superchunk::load_from`. -/
def SuperHead.readWithA (node : AReader MMStruct3) : AReader MMStruct3 := do
  let instants ← lift readU32
  let rows ← lift readU32
  let cols ← lift readU32
  let sidelen ← lift readU32
  let levels ← lift readByte
  let chunksSidelen ← lift readU32
  let subsidelen ← lift readU32
  let fractionalBits ← lift readByte
  let b ← lift readByte
  let encoding ← lift (Reader.ofOption (MMEncoding.ofByte b))
  let nReferences ← lift readU32
  ask nReferences.toNat
  let references ← AReader.many (lift Reference.read) nReferences.toNat
  let externalCid ← lift readCid
  let nLocal ← lift readU32
  ask nLocal.toNat
  let loc ← AReader.many node nLocal.toNat
  let max ← Dac.readA
  let min ← Dac.readA
  return .superchunk ⟨instants.toNat, rows.toNat, cols.toNat, sidelen.toNat, levels.toNat,
    chunksSidelen.toNat, subsidelen.toNat, fractionalBits.toNat, encoding, references, externalCid,
    max, min⟩ loc

/-- mmstruct.rs:229-244 `MMStruct3::load_from`. -/
def MMStruct3.readFuelA : (fuel : Nat) → AReader MMStruct3
  | 0 => lift (Reader.fail .panic)
  | fuel + 1 => do
    let tag ← lift readByte
    if tag = 4 then
      let c ← Chunk.readA
      return .subchunk c
    else if tag = 3 then
      let s ← Span.readA
      return .span s
    else if tag = 5 then SuperHead.readWithA (MMStruct3.readFuelA fuel)
    else lift (Reader.fail .panic)

def MMStruct3.readA : AReader MMStruct3 := fun s => MMStruct3.readFuelA (s.length + 1) s

section
variable (utf8 : List Byte → Bool)

/-- extio.rs:154-160 `read_str`. -/
def readStrA : AReader (List Byte) := do
  let len ← lift readByte
  ask len.toNat
  let buf ← lift (readUpTo len.toNat)
  if utf8 buf then return buf else lift (Reader.fail (.err .io))

/-- dataset.rs:690-695 `Coordinate::read_from`. -/
def Coordinate.readA : AReader Coordinate := do
  let name ← readStrA utf8
  let kind ← lift CoordinateKind.read
  return ⟨name, kind⟩

/-- dataset.rs:1041-1071 `Variable::load_from`. -/
def Variable.readA : AReader Variable := do
  let name ← readStrA utf8
  let round ← lift Variable.readRound
  let spanSize ← lift readU32
  let chunkSize ← lift readU32
  let n ← lift readByte
  ask n.toNat
  let k2Levels ← AReader.many (lift readU32) n.toNat
  let b ← lift readByte
  let encoding ← lift (Reader.ofOption (MMEncoding.ofByte b))
  let cid ← lift readCid
  return ⟨name, round, spanSize.toNat, chunkSize.toNat, k2Levels.map BitVec.toNat, encoding, cid⟩

/-- dataset.rs:439-471 `Dataset::load_from`. -/
def Dataset.readA : AReader Dataset := do
  let coord0 ← Coordinate.readA utf8
  let coord1 ← Coordinate.readA utf8
  let coord2 ← Coordinate.readA utf8
  let n ← lift readByte
  ask n.toNat
  let variables ← AReader.many (Variable.readA utf8) n.toNat
  let rows ← lift readU32
  let cols ← lift readU32
  let prev ← lift Dataset.readPrev
  return ⟨coord0, coord1, coord2, variables, rows.toNat, cols.toNat, none, prev⟩

/-- resolver.rs:150-165, reading one object. -/
def Item.readA (cid : Cid) : AReader Item := do
  let nodeType ← lift readHeader
  if nodeType = 0 then
    let d ← Dataset.readA utf8
    return .dataset { d with cid := some cid }
  else if nodeType = 1 then
    let l ← Links.readA
    return .links l
  else if nodeType = 2 then
    let m ← MMStruct3.readA
    return .struct m
  else lift (Reader.fail .panic)

end

end Verif
