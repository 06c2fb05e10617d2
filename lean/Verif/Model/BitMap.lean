/-!
Model of `/repo/dcdf/src/bitmap.rs`.

A panic is `none`. Bytes are `BitVec 8`, words are `BitVec 32`. `usize` and the `u32` counters are
`Nat`; the counters cannot wrap for bit maps that were built and are shorter than `2^32` bits (the
serialised form stores the length in 32 bits, so longer maps are outside the format anyway). That they
wrap for bytes that nobody has built, with numbers close to `2^32` in the index, is not modelled.
-/
namespace Verif

/-- bitmap.rs:29-32 `struct BitMapBuilder`. -/
structure BitMapBuilder where
  length : Nat
  bitmap : List (BitVec 8)
deriving DecidableEq, Repr

/-- bitmap.rs:36-41 `BitMapBuilder::new`. -/
def BitMapBuilder.new : BitMapBuilder := ⟨0, []⟩

/-- bitmap.rs:44-62 `BitMapBuilder::push`. `self.bitmap[last] += 1 << shift` with
`last = len - 1` panics on an empty vector. -/
def BitMapBuilder.push (b : BitMapBuilder) (bit : Bool) : Option BitMapBuilder :=
  let position := b.length % 8
  let shift := 7 - position
  if position = 0 then
    some ⟨b.length + 1, b.bitmap ++ [if bit then 1#8 <<< shift else 0#8]⟩
  else if bit then
    match b.bitmap.getLast? with
    | none => none
    | some last => some ⟨b.length + 1, b.bitmap.dropLast ++ [last + 1#8 <<< shift]⟩
  else
    some ⟨b.length + 1, b.bitmap⟩

/-- bitmap.rs:117-122 `struct BitMap`. -/
structure BitMap where
  length : Nat
  k : Nat
  index : List Nat
  bitmap : List (BitVec 32)
deriving DecidableEq, Repr

/-- bitmap.rs:221-231 `div_ceil` (for `n > 0`). -/
def divCeil (m n : Nat) : Nat :=
  let a := m / n
  if m % n > 0 then a + 1 else a

/-- `u32::count_ones`. -/
def countOnes (w : BitVec 32) : Nat := (List.range 32).countP (fun i => w.getMsbD i)

/-- bitmap.rs:75-93, the loop turning bytes into words; the loop variables are `bitmap32`,
`shift`; `word_index` is always the index of the last word of `bitmap32` after the push. Writing
to `bitmap32[word_index]` before any push would panic. -/
def packBytes : List (BitVec 8) → (bitmap32 : List (BitVec 32)) → (shift : Nat) →
    (wordIndex : Nat) → Option (List (BitVec 32))
  | [], bitmap32, _, _ => some bitmap32
  | byte :: rest, bitmap32, shift, wordIndex =>
    let bitmap32 := if shift = 24 then bitmap32 ++ [0#32] else bitmap32
    let word : BitVec 32 := (byte.zeroExtend 32) <<< shift
    match bitmap32[wordIndex]? with
    | none => none
    | some w =>
      let bitmap32 := bitmap32.set wordIndex (w ||| word)
      if shift = 0 then packBytes rest bitmap32 24 (wordIndex + 1)
      else packBytes rest bitmap32 (shift - 8) wordIndex

/-- bitmap.rs:97-100, inner loop: popcounts of words `i*k .. i*k+k`. -/
def sumBlock (words : List (BitVec 32)) : (start n : Nat) → (count : Nat) → Option Nat
  | _, 0, count => some count
  | start, n + 1, count =>
    match words[start]? with
    | none => none
    | some w => sumBlock words (start + 1) n (count + countOnes w)

/-- bitmap.rs:95-102, generation of the cumulative index. `i` counts up, `n` blocks remain. -/
def genIndex (words : List (BitVec 32)) (k : Nat) : (i n : Nat) → (count : Nat) →
    Option (List Nat)
  | _, 0, _ => some []
  | i, n + 1, count =>
    match sumBlock words (i * k) k count with
    | none => none
    | some count' => (genIndex words k (i + 1) n count').map (count' :: ·)

/-- bitmap.rs:66-112 `BitMapBuilder::finish`. -/
def BitMapBuilder.finish (b : BitMapBuilder) : Option BitMap :=
  let k := 4
  let blocks := b.length / 32 / k
  let words := divCeil b.length 32
  match (if words > 0 then packBytes b.bitmap [] 24 0 else some []) with
  | none => none
  | some bitmap32 =>
    match genIndex bitmap32 k 0 blocks 0 with
    | none => none
    | some index => some ⟨b.length, k, index, bitmap32⟩

/-- The sequence "new builder, push every bit, finish". The other modules use a builder only in
this way: they interleave pushes with other work and call `finish` at the end. -/
def BitMap.ofBits (bits : List Bool) : Option BitMap :=
  match bits.foldlM BitMapBuilder.push BitMapBuilder.new with
  | none => none
  | some b => b.finish

/-- bitmap.rs:169-171 `BitMap::size`. -/
def BitMap.size (m : BitMap) : Nat := 4 + 4 + m.index.length * 4 + m.bitmap.length * 4

/-- bitmap.rs:176-183 `BitMap::get`. -/
def BitMap.get (m : BitMap) (i : Nat) : Option Bool :=
  let wordIndex := i / 32
  let bitIndex := i % 32
  let shift := 31 - bitIndex
  match m.bitmap[wordIndex]? with
  | none => none
  | some word => some (decide (((word >>> shift) &&& 1#32) > 0#32))

/-- Rust slice `&v[a..b]`: panics unless `a <= b <= len`. -/
def slice? {α} (l : List α) (a b : Nat) : Option (List α) :=
  if a ≤ b ∧ b ≤ l.length then some ((l.drop a).take (b - a)) else none

/-- bitmap.rs:186-212 `BitMap::rank`. -/
def BitMap.rank (m : BitMap) (i : Nat) : Option Nat :=
  if i > m.length then none
  else if m.k = 0 then none
  else
    let block := i / 32 / m.k
    match (if block > 0 then m.index[block - 1]? else some 0) with
    | none => none
    | some count =>
      let start := block * m.k
      let fin := i / 32
      match slice? m.bitmap start fin with
      | none => none
      | some ws =>
        let count := ws.foldl (fun c w => c + countOnes w) count
        let leftover := i - fin * 32
        if leftover > 0 then
          match m.bitmap[fin]? with
          | none => none
          | some word => some (count + countOnes (word >>> (32 - leftover)))
        else some count

/-- bitmap.rs:215-217 `BitMap::rank0`. -/
def BitMap.rank0 (m : BitMap) (i : Nat) : Option Nat :=
  match m.rank i with
  | none => none
  | some r => if r ≤ i then some (i - r) else none

end Verif
