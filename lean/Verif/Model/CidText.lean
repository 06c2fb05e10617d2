import Verif.Model.Dataset
import Verif.Model.Ls
import Mathlib.Data.Nat.Digits.Defs

/-!
Model of identifiers as text: `to_string` and `from_str` of crate `cid` (0.10) with the encodings of crate `multibase`,
from their documentation; and of the functions of py-dcdf/src/lib.rs that give identifiers to Python, or take them.

Simplifications:
* Strings are their bytes.
* What `multibase::decode` does with strings that begin with another letter than `b` or `z` is a parameter.
-/
namespace Verif

namespace CidText

def base58 : List Byte := ascii "123456789ABCDEFGHJKLMNPQRSTUVWXYZabcdefghijkmnopqrstuvwxyz"

def base32 : List Byte := ascii "abcdefghijklmnopqrstuvwxyz234567"

def charOf (alphabet : List Byte) (d : Nat) : Byte := alphabet.getD d 0

def digitOf (alphabet : List Byte) (c : Byte) : Option Nat := alphabet.idxOf? c

/-- The number with the digits given, the highest first. -/
def number (b : Nat) (ds : List Nat) : Nat := ds.foldl (fun acc d => acc * b + d) 0

/-- The lowest `k` digits of a number, the highest first. -/
def digits (b : Nat) : Nat → Nat → List Nat
  | 0, _ => []
  | k + 1, n => digits b k (n / b) ++ [n % b]

/-- `Base58Btc`: the digits of the number that the bytes are; bytes of zero at the beginning are digits of zero. -/
def encode58 (bs : List Byte) : List Byte :=
  List.replicate (bs.takeWhile (· = 0)).length (charOf base58 0) ++
    (Nat.digits 58 (ofBE bs)).reverse.map (charOf base58)

def decode58 (s : List Byte) : Option (List Byte) :=
  match s.mapM (digitOf base58) with
  | none => none
  | some ds => some (List.replicate (ds.takeWhile (· = 0)).length 0 ++
      (Nat.digits 256 (number 58 ds)).reverse.map (BitVec.ofNat 8))

/-- `Base32Lower`: five bits a letter, filled up with zeros. -/
def encode32 (bs : List Byte) : List Byte :=
  let k := (8 * bs.length + 4) / 5
  (digits 32 k (ofBE bs * 2 ^ (5 * k - 8 * bs.length))).map (charOf base32)

/-- Bits that are left over must be zeros, and less than a letter. -/
def decode32 (s : List Byte) : Option (List Byte) :=
  match s.mapM (digitOf base32) with
  | none => none
  | some ds =>
    let count := 5 * ds.length / 8
    let over := 5 * ds.length - 8 * count
    if 5 ≤ over ∨ number 32 ds % 2 ^ over ≠ 0 then none
    else some (toBE count (number 32 ds / 2 ^ over))

/-- What follows the first `/ipfs/`, or all. -/
def afterIpfs (s : List Byte) : List Byte :=
  let rec go : List Byte → Option (List Byte)
    | [] => none
    | c :: cs => if (ascii "/ipfs/").isPrefixOf (c :: cs) then some ((c :: cs).drop 6) else go cs
  (go s).getD s

end CidText

open CidText

/-- `Cid::to_string`. -/
def Cid.text : Cid → List Byte
  | .v0 digest => encode58 (Cid.v0 digest).toBytes
  | .v1 codec code digest => ascii "b" ++ encode32 (Cid.v1 codec code digest).toBytes

/-- `Cid::from_str`. -/
def Cid.ofText (other : List Byte → Option (List Byte)) (s : List Byte) : Option Cid :=
  let s := afterIpfs s
  let decoded :=
    if s.length < 2 then none
    else if s.length = 46 ∧ (ascii "Qm").isPrefixOf s then decode58 s
    else
      match s with
      | [] => none
      | c :: cs =>
        if [c] = ascii "b" then decode32 cs
        else if [c] = ascii "z" then decode58 cs
        else other s
  match decoded with
  | none => none
  | some bytes =>
    match Cid.parse bytes with
    | .ok (cid, _) => some cid
    | .error _ => none

namespace Py

/-- py-dcdf/src/lib.rs:55-58 `PyDataset::cid`. -/
def cid (d : Dataset) : Option (List Byte) := d.cid.map Cid.text

/-- py-dcdf/src/lib.rs:60-63 `PyDataset::prev`. -/
def prev (d : Dataset) : Option (List Byte) := d.prev.map Cid.text

/-- py-dcdf/src/lib.rs:70-74 `PyDataset::commit`. -/
def commit (H : Hash) (d : Dataset) (log : Saved) : Except Fail (List Byte) × Saved :=
  match d.commit H log with
  | (.ok cid, log) => (.ok cid.text, log)
  | (.error f, log) => (.error f, log)

/-- py-dcdf/src/lib.rs:635-639 `parse_cid`. -/
def parseCid (other : List Byte → Option (List Byte)) (s : List Byte) : Except Fail Cid :=
  match Cid.ofText other s with
  | none => .error (.err .cid)
  | some cid => .ok cid

/-- py-dcdf/src/lib.rs:150-154 `PyResolver::get_dataset`. -/
def getDataset (other : List Byte → Option (List Byte)) (utf8 : List Byte → Bool) (st : Store) (s : List Byte) :
    Except Fail Dataset :=
  match parseCid other s with
  | .error f => .error f
  | .ok cid => st.getDataset utf8 cid

/-- py-dcdf/src/lib.rs:156-160 `PyResolver::ls`. -/
def ls (other : List Byte → Option (List Byte)) (utf8 : List Byte → Bool) (st : Store) (s : List Byte) :
    Except Fail (List LsEntry) :=
  match parseCid other s with
  | .error f => .error f
  | .ok cid => st.ls utf8 cid

end Py

end Verif
