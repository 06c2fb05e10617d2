import Verif.Model.BitMap

/-!
Model of `/repo/dcdf/src/dac.rs`.

`i64` is `Int64`, `u64` is `BitVec 64`, a panic is `none`. The type parameter of
`impl From<Vec<I>> for Dac` is fixed to `i64` (its only use in the crate).
-/
namespace Verif

abbrev Byte := BitVec 8

/-- dac.rs:29-31 `struct Dac`. -/
structure Dac where
  levels : List (BitMap × List Byte)
deriving DecidableEq, Repr

/-- dac.rs:134-137 `zigzag_encode`; `n >> 63` is arithmetic on `i64`. -/
def zigzagEncode (n : Int64) : BitVec 64 :=
  (n.toBitVec.sshiftRight 63) ^^^ (n.toBitVec <<< 1)

/-- dac.rs:139-142 `zigzag_decode`. -/
def zigzagDecode (zz : BitVec 64) : Int64 :=
  Int64.ofBitVec ((zz >>> 1) ^^^ (if zz &&& 1#64 = 1#64 then BitVec.allOnes 64 else 0#64))

/-- dac.rs:68-74 `Dac::size`. -/
def Dac.size (d : Dac) : Nat :=
  1 + (d.levels.map (fun l => l.1.size + l.2.length)).sum

/-- dac.rs:82-90, the loop of `Dac::get`; `i` is the level number, `n` the bits so far. Shifts by
64 and more (which no dac that was built has) are taken modulo 64, as in release builds. -/
def Dac.getLoop : List (BitMap × List Byte) → (i index : Nat) → (n : BitVec 64) →
    Option (BitVec 64)
  | [], _, _, n => some n
  | (bitmap, bytes) :: rest, i, index, n =>
    match bytes[index]? with
    | none => none
    | some byte =>
      let n := n ||| ((byte.zeroExtend 64) <<< (i * 8 % 64))
      match bitmap.get index with
      | none => none
      | some true =>
        match bitmap.rank index with
        | none => none
        | some index => Dac.getLoop rest (i + 1) index n
      | some false => some n

/-- dac.rs:80-93 `Dac::get`. -/
def Dac.get (d : Dac) (index : Nat) : Option Int64 :=
  match Dac.getLoop d.levels 0 index 0#64 with
  | none => none
  | some n => some (zigzagDecode n)

/-- A level under construction, dac.rs:103-106. -/
abbrev DacBuilder := List (BitMapBuilder × List Byte)

/-- dac.rs:109-121, the inner loop: one datum is cut in bytes, one per level. -/
def Dac.pushDatum : DacBuilder → BitVec 64 → Option DacBuilder
  | [], _ => some []
  | (bitmap, bytes) :: rest, datum =>
    let bytes := bytes ++ [datum.truncate 8]
    let datum := datum >>> 8
    if datum = 0#64 then
      match bitmap.push false with
      | none => none
      | some bitmap => some ((bitmap, bytes) :: rest)
    else
      match bitmap.push true with
      | none => none
      | some bitmap =>
        match Dac.pushDatum rest datum with
        | none => none
        | some rest => some ((bitmap, bytes) :: rest)

/-- dac.rs:124-128: `take_while` non-empty, then finish each bit map. -/
def Dac.finishLevels : DacBuilder → Option (List (BitMap × List Byte))
  | [] => some []
  | (bitmap, bytes) :: rest =>
    if bitmap.length > 0 then
      match bitmap.finish with
      | none => none
      | some m =>
        match Dac.finishLevels rest with
        | none => none
        | some ls => some ((m, bytes) :: ls)
    else some []

/-- dac.rs:101-131 `Dac::from`. -/
def Dac.ofList (data : List Int64) : Option Dac :=
  let levels : DacBuilder := List.replicate 8 (BitMapBuilder.new, [])
  match data.foldlM (fun ls x => Dac.pushDatum ls (zigzagEncode x)) levels with
  | none => none
  | some levels =>
    match Dac.finishLevels levels with
    | none => none
    | some levels => some ⟨levels⟩

end Verif
