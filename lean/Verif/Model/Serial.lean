import Verif.Model.Chunk
import Verif.Model.Errors

/-!
Model of the binary format: `/repo/dcdf/src/extio.rs` and the `Serialize` implementations of bit
maps, integer containers, snapshots, logs, blocks and chunks.

Writing yields the bytes written (streams that fail are not modelled). Reading consumes a list of
bytes and ends in a value and the unread bytes, in an error (`Fail.err`) or in a panic
(`Fail.panic`). Allocation failures (`Vec::with_capacity` of a huge announced length) are not
modelled.

External crates: `unsigned_varint` and `cid` are modelled from their documentation (LEB128, at most
10 bytes, minimal encodings only; CIDv0 = sha2-256 multihash, CIDv1 = version, codec, multihash;
digests of at most 64 bytes).
-/
namespace Verif

def Reader (α : Type) := List Byte → Except Fail (α × List Byte)

namespace Reader

def pure {α} (a : α) : Reader α := fun s => .ok (a, s)

def bind {α β} (r : Reader α) (f : α → Reader β) : Reader β := fun s =>
  match r s with
  | .error e => .error e
  | .ok (a, s) => f a s

instance : Monad Reader where
  pure := Reader.pure
  bind := Reader.bind

def fail {α} (e : Fail) : Reader α := fun _ => .error e

/-- A panic if `none`. -/
def ofOption {α} (o : Option α) : Reader α := match o with
  | some a => Reader.pure a
  | none => fail .panic

/-- Any error becomes this one. -/
def withErr {α} (r : Reader α) (e : Err) : Reader α := fun s =>
  match r s with
  | .error (.err _) => .error (.err e)
  | x => x

/-- `for _ in 0..n { v.push(r) }`. -/
def many {α} (r : Reader α) : Nat → Reader (List α)
  | 0 => Reader.pure []
  | n + 1 => Reader.bind r fun a => Reader.bind (Reader.many r n) fun as => Reader.pure (a :: as)

end Reader

open Reader

/-- The `n` low bytes of a number, most significant first (`to_be_bytes`). -/
def toBE : Nat → Nat → List Byte
  | 0, _ => []
  | n + 1, v => toBE n (v / 256) ++ [BitVec.ofNat 8 v]

/-- `from_be_bytes`. -/
def ofBE (bytes : List Byte) : Nat := bytes.foldl (fun acc b => acc * 256 + b.toNat) 0

/-- `read_exact`: an error if the stream is too short. -/
def readExact (n : Nat) : Reader (List Byte) := fun s =>
  if n ≤ s.length then .ok (s.take n, s.drop n) else .error (.err .io)

/-- `take(n).read_to_end(..)`: no error if the stream is too short. -/
def readUpTo (n : Nat) : Reader (List Byte) := fun s => .ok (s.take n, s.drop n)

/-- extio.rs:196-201, 57-62 `write_byte`, `read_byte`. -/
def writeByte (b : Byte) : List Byte := [b]
def readByte : Reader Byte := do
  let bytes ← readExact 1
  return BitVec.ofNat 8 (ofBE bytes)

/-- extio.rs:204-209, 65-70 `write_u16`, `read_u16`. -/
def writeU16 (w : BitVec 16) : List Byte := toBE 2 w.toNat
def readU16 : Reader (BitVec 16) := do
  let bytes ← readExact 2
  return BitVec.ofNat 16 (ofBE bytes)

/-- extio.rs:228-233, 89-94 `write_u32`, `read_u32`. -/
def writeU32 (w : BitVec 32) : List Byte := toBE 4 w.toNat
def readU32 : Reader (BitVec 32) := do
  let bytes ← readExact 4
  return BitVec.ofNat 32 (ofBE bytes)

/-- extio.rs:212-217, 73-78 `write_i32`, `read_i32`: two's complement. -/
def writeI32 (w : Int32) : List Byte := toBE 4 w.toBitVec.toNat
def readI32 : Reader Int32 := do
  let bytes ← readExact 4
  return Int32.ofBitVec (BitVec.ofNat 32 (ofBE bytes))

/-- extio.rs:220-225, 81-86 `write_i64`, `read_i64`: two's complement. -/
def writeI64 (w : Int64) : List Byte := toBE 8 w.toBitVec.toNat
def readI64 : Reader Int64 := do
  let bytes ← readExact 8
  return Int64.ofBitVec (BitVec.ofNat 64 (ofBE bytes))

/-- extio.rs:236-241, 97-102 `write_f32`, `read_f32`; a float is its bit pattern. -/
def writeF32 (bits : BitVec 32) : List Byte := toBE 4 bits.toNat
def readF32 : Reader (BitVec 32) := do
  let bytes ← readExact 4
  return BitVec.ofNat 32 (ofBE bytes)

/-- extio.rs:244-249, 105-110 `write_f64`, `read_f64`; a float is its bit pattern. -/
def writeF64 (bits : BitVec 64) : List Byte := toBE 8 bits.toNat
def readF64 : Reader (BitVec 64) := do
  let bytes ← readExact 8
  return BitVec.ofNat 64 (ofBE bytes)

/-- `n as u8` and `n as u32`: truncating casts. -/
def asU8 (n : Nat) : BitVec 8 := BitVec.ofNat 8 n
def asU32 (n : Nat) : BitVec 32 := BitVec.ofNat 32 n

/-! ### Strings -/

/-- extio.rs:260-265 `write_str`; a string is its UTF-8 bytes, the length is cast to `u8`. -/
def writeStr (s : List Byte) : List Byte := writeByte (asU8 s.length) ++ s

/-- extio.rs:154-160 `read_str`; `utf8` is the validity check of `read_to_string`. -/
def readStr (utf8 : List Byte → Bool) : Reader (List Byte) := do
  let len ← readByte
  let buf ← readUpTo len.toNat
  if utf8 buf then return buf else Reader.fail (.err .io)

/-! ### Content identifiers -/

/-- `unsigned_varint::encode::u64`: little endian groups of seven bits. -/
def varintEncode : (fuel : Nat) → Nat → List Byte
  | 0, _ => []
  | fuel + 1, n =>
    if n < 128 then [BitVec.ofNat 8 n]
    else BitVec.ofNat 8 (n % 128 + 128) :: varintEncode fuel (n / 128)

/-- A `u64` needs at most 10 groups. -/
def writeVarint (n : Nat) : List Byte := varintEncode 10 n

/-- `unsigned_varint::aio::read_u64`: reads up to the first byte without continuation bit; more than
10 bytes, a value above `u64` or a superfluous last zero byte are errors. (Whether ten bytes with a
value above `u64` are refused or cut off differs between versions of that crate; nobody writes such
bytes.) `i` bytes have been read, `acc` is their value. -/
def readVarintGo : (fuel i acc : Nat) → Reader Nat
  | 0, _, _ => Reader.fail (.err .varint)
  | fuel + 1, i, acc => do
    let b ← readByte
    let acc := acc + b.toNat % 128 * 128 ^ i
    if b.toNat < 128 then
      if b.toNat = 0 ∧ 0 < i then Reader.fail (.err .varint)
      else if acc < 2 ^ 64 then return acc else Reader.fail (.err .varint)
    else readVarintGo fuel (i + 1) acc

/-- The end of the stream is such an error, too. -/
def readVarint : Reader Nat := (readVarintGo 10 0 0).withErr .varint

/-- The identifiers that exist: a CIDv0 has a digest of 32 bytes, codes are `u64`, digests have at
most 64 bytes. -/
def Cid.Valid : Cid → Prop
  | .v0 digest => digest.length = 32
  | .v1 codec code digest => codec < 2 ^ 64 ∧ code < 2 ^ 64 ∧ digest.length ≤ 64

/-- `Cid::to_bytes`. -/
def Cid.toBytes : Cid → List Byte
  | .v0 digest => 0x12#8 :: 0x20#8 :: digest
  | .v1 codec code digest =>
    writeVarint 1 ++ writeVarint codec ++ writeVarint code ++ writeVarint digest.length ++ digest

/-- `Cid::try_from(bytes)`, applied in extio.rs:123 and 149, and `Cid::read_bytes`. Bytes after the identifier
are ignored. -/
def Cid.parseGo : Reader Cid := do
  let version ← readVarint
  let codec ← readVarint
  if version = 0x12 ∧ codec = 0x20 then
    let digest ← readExact 32
    return .v0 digest
  else if version = 1 then
    let code ← readVarint
    let size ← readVarint
    if size > 64 then Reader.fail (.err .cid)
    else
      let digest ← readExact size
      return .v1 codec code digest
  else Reader.fail (.err .cid)

/-- Any error is one of crate `cid`. -/
def Cid.parse : Reader Cid := Cid.parseGo.withErr .cid

/-- Running a reader on a buffer and ignoring what is left. -/
def Reader.onBuffer {α} (r : Reader α) (bytes : List Byte) : Reader α := fun s =>
  match r bytes with
  | .ok (a, _) => .ok (a, s)
  | .error e => .error e

/-- extio.rs:252-257 `write_cid`. -/
def writeCid (c : Cid) : List Byte := c.toBytes

/-- extio.rs:113-151 `read_cid`. -/
def readCid : Reader Cid := do
  let version ← readVarint
  let codec ← readVarint
  if version = 0x12 ∧ codec = 0x20 then
    let rest ← readUpTo 32
    Cid.parse.onBuffer (BitVec.ofNat 8 version :: BitVec.ofNat 8 codec :: rest)
  else
    let code ← readVarint
    let size ← readVarint
    let rest ← readUpTo size
    Cid.parse.onBuffer
      (writeVarint version ++ writeVarint codec ++ writeVarint code ++ writeVarint size ++ rest)

/-! ### Structures -/

/-- bitmap.rs:128-138 `BitMap::write_to`; the index entries are `u32`. -/
def BitMap.write (m : BitMap) : List Byte :=
  writeU32 (asU32 m.length) ++ writeU32 (asU32 m.k) ++ m.index.flatMap (fun i => writeU32 (asU32 i))
    ++ m.bitmap.flatMap writeU32

/-- bitmap.rs:142-164 `BitMap::read_from`; a division by zero panics. -/
def BitMap.read : Reader BitMap := do
  let length ← readU32
  let k ← readU32
  if k.toNat = 0 then Reader.fail .panic
  else
    let blocks := length.toNat / 32 / k.toNat
    let index ← Reader.many readU32 blocks
    let words := divCeil length.toNat 32
    let bitmap ← Reader.many readU32 words
    return ⟨length.toNat, k.toNat, index.map BitVec.toNat, bitmap⟩

/-- dac.rs:37-44 `Dac::write_to`. -/
def Dac.write (d : Dac) : List Byte :=
  writeByte (asU8 d.levels.length) ++ d.levels.flatMap fun l => l.1.write ++ l.2

/-- dac.rs:52-60, one level. -/
def Dac.readLevel : Reader (BitMap × List Byte) := do
  let bitmap ← BitMap.read
  let bytes ← readUpTo bitmap.length
  return (bitmap, bytes)

/-- dac.rs:48-63 `Dac::read_from`. -/
def Dac.read : Reader Dac := do
  let n ← readByte
  let levels ← Reader.many Dac.readLevel n.toNat
  return ⟨levels⟩

/-- snapshot.rs:48-58 `Snapshot::write_to`. -/
def Snapshot.write (s : Snapshot) : List Byte :=
  writeByte (asU8 s.k) ++ writeU32 (asU32 s.rows) ++ writeU32 (asU32 s.cols) ++
    writeU32 (asU32 s.sidelen) ++ s.nodemap.write ++ s.max.write ++ s.min.write

/-- snapshot.rs:62-81 `Snapshot::read_from`. -/
def Snapshot.read : Reader Snapshot := do
  let k ← readByte
  let rows ← readU32
  let cols ← readU32
  let sidelen ← readU32
  let nodemap ← BitMap.read
  let max ← Dac.read
  let min ← Dac.read
  return ⟨nodemap, max, min, k.toNat, rows.toNat, cols.toNat, sidelen.toNat⟩

/-- log.rs:53-64 `Log::write_to`. -/
def Log.write (l : Log) : List Byte :=
  writeByte (asU8 l.k) ++ writeU32 (asU32 l.rows) ++ writeU32 (asU32 l.cols) ++
    writeU32 (asU32 l.sidelen) ++ l.nodemap.write ++ l.equal.write ++ l.max.write ++ l.min.write

/-- log.rs:68-89 `Log::read_from`. -/
def Log.read : Reader Log := do
  let k ← readByte
  let rows ← readU32
  let cols ← readU32
  let sidelen ← readU32
  let nodemap ← BitMap.read
  let equal ← BitMap.read
  let max ← Dac.read
  let min ← Dac.read
  return ⟨nodemap, equal, max, min, k.toNat, rows.toNat, cols.toNat, sidelen.toNat⟩

/-- block.rs:88-95 `Block::write_to`. -/
def Block.write (b : Block) : List Byte :=
  writeByte (asU8 (b.logs.length + 1)) ++ b.snapshot.write ++ b.logs.flatMap Log.write

/-- block.rs:99-109 `Block::read_from`; `n_instants - 1` panics for 0. -/
def Block.read : Reader Block := do
  let n ← readByte
  let snapshot ← Snapshot.read
  let m ← Reader.ofOption (csub n.toNat 1)
  let logs ← Reader.many Log.read m
  return ⟨snapshot, logs⟩

/-- mmstruct.rs:36-43, `self as u8`. -/
def MMEncoding.toByte : MMEncoding → Byte
  | .time => 0
  | .i32 => 4
  | .i64 => 8
  | .f32 => 32
  | .f64 => 64

/-- mmstruct.rs:48-59 `MMEncoding::try_from`: panics for other values. -/
def MMEncoding.ofByte (b : Byte) : Option MMEncoding :=
  if b = 0 then some .time
  else if b = 4 then some .i32
  else if b = 8 then some .i64
  else if b = 32 then some .f32
  else if b = 64 then some .f64
  else none

/-- chunk.rs:235-243 `Chunk::write_to`. -/
def Chunk.write (c : Chunk) : List Byte :=
  writeByte c.encoding.toByte ++ writeByte (asU8 c.fractionalBits) ++
    writeU32 (asU32 c.blocks.length) ++ c.blocks.flatMap Block.write

/-- chunk.rs:247-266 `Chunk::read_from`. -/
def Chunk.read : Reader Chunk := do
  let b ← readByte
  let encoding ← Reader.ofOption (MMEncoding.ofByte b)
  let fractionalBits ← readByte
  let n ← readU32
  let blocks ← Reader.many Block.read n.toNat
  return ⟨blocks, Chunk.mkIndex 0 blocks, encoding, fractionalBits.toNat⟩

end Verif
