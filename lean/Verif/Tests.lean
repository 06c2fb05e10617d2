import Verif.Model.Cache
import Verif.Model.Dataset
import Verif.Model.FloatRange
import Verif.Model.Ls
import Verif.Model.PyDataset
import Verif.Model.PyTime

/-!
The unit tests of `/repo`, run on the model. These are tests of the model, not proofs: each `#guard`
evaluates the model on the input of a test of the repository and compares with the values written in
that test. Where the input is smaller than in the test, the comment says so.

Most tests that only compare reads with the array they were made of are not repeated, since the
theorems prove that for all arrays. Repeated are the tests that look inside: bit maps, differences,
numbers of references, listings, the list of the cache, fixed point numbers, and calls that panic.
Identifiers are made with a digest of 8 bytes in place of SHA-256, so that none is compared with a
value of the repository.
-/
namespace Verif.Tests

/-- testing.rs:200-240 `array8`; also the first rasters in the tests of snapshot.rs and log.rs. -/
def frames : Array (Array (Array Int64)) :=
  #[#[#[9, 8, 7, 7, 6, 6, 3, 2],
      #[7, 7, 7, 7, 6, 6, 3, 3],
      #[6, 6, 6, 6, 3, 3, 3, 3],
      #[5, 5, 6, 6, 3, 3, 3, 3],
      #[4, 5, 5, 5, 4, 4, 4, 4],
      #[3, 3, 5, 5, 4, 4, 4, 4],
      #[3, 3, 3, 5, 4, 4, 4, 4],
      #[4, 4, 3, 4, 4, 4, 4, 4]],
    #[#[9, 8, 7, 7, 7, 7, 2, 2],
      #[7, 7, 7, 7, 7, 7, 2, 2],
      #[6, 6, 6, 6, 4, 3, 3, 3],
      #[5, 5, 6, 6, 3, 3, 3, 3],
      #[4, 5, 5, 5, 4, 4, 4, 4],
      #[3, 3, 5, 5, 4, 4, 4, 4],
      #[3, 3, 4, 5, 5, 4, 4, 4],
      #[4, 4, 4, 4, 4, 4, 4, 4]],
    #[#[9, 8, 7, 7, 8, 7, 5, 5],
      #[7, 7, 7, 7, 7, 7, 5, 5],
      #[7, 7, 6, 6, 4, 3, 4, 4],
      #[6, 6, 6, 6, 4, 4, 4, 4],
      #[4, 5, 5, 5, 4, 4, 4, 4],
      #[3, 3, 5, 5, 4, 4, 4, 4],
      #[3, 3, 4, 5, 6, 4, 4, 4],
      #[4, 4, 4, 4, 5, 4, 4, 4]]]

/-- testing.rs:242-249 `array`: repeated in all directions. -/
def cell (t r c : Nat) : Int64 := ((frames[t % 3]!)[r % 8]!)[c % 8]!

/-- dac.rs:153-160: `Dac::len` and `Dac::collect` of the tests. -/
def collectDac (d : Dac) : Option (List Int64) :=
  (List.range (d.levels.head?.elim 0 (·.1.length))).mapM d.get

/-! ### bitmap.rs -/

-- bitmap.rs:261-284 `from_bitmap`
#guard ((⟨36, [99, 104, 114, 105, 115]⟩ : BitMapBuilder).finish.map (·.bitmap)) =
  some [1667789417, 1929379840]
#guard ((⟨129, [99, 104, 114, 105, 115, 0, 0, 0, 99, 104, 114, 105, 115, 0, 0, 0, 128]⟩ :
    BitMapBuilder).finish.map fun m => (m.bitmap, m.index)) =
  some ([1667789417, 1929379840, 1667789417, 1929379840, 2147483648], [40])

-- bitmap.rs:319-334 `get`
#guard
  let bits := [true, false, true, false, true, false, true, false, false, false, true]
  ((BitMap.ofBits bits).bind fun m => (List.range 11).mapM m.get) = some bits

-- bitmap.rs:336-346 `rank`, 348-359 `rank_out_of_bounds`
#guard ((⟨10, [170, 64]⟩ : BitMapBuilder).finish.bind fun m => (List.range 10).mapM m.rank) =
  some [0, 1, 1, 2, 2, 3, 3, 4, 4, 4]
#guard ((⟨10, [170, 64]⟩ : BitMapBuilder).finish.map fun m => m.rank 11) = some none

/-! ### dac.rs -/

-- dac.rs:163-171 `get` (there `-2.pow(9)` is `-(2.pow(9))`), 173-179 `this_one`
#guard
  let data : List Int64 := [0, 2, -3, -2 ^ 9, 2 ^ 17 + 1, -2 ^ 30 - 42]
  ((Dac.ofList data).bind fun d => ((List.range 6).mapM d.get).map fun l =>
    (l, (d.levels.head?.bind fun level => level.1.get 2))) = some (data, some false)
#guard zigzagDecode (zigzagEncode (-512)) = -512
#guard ((Dac.ofList [-512]).bind (Dac.get · 0)) = some (-512)

/-! ### snapshot.rs -/

-- snapshot.rs:538-558 `build`
#guard ((Snapshot.build (cell 0) 8 8 2 3).map fun s => (s.nodemap.length, s.nodemap.bitmap)) =
  some (17, [0b11110101001001011000000000000000])
#guard ((Snapshot.build (cell 0) 8 8 2 3).bind fun s => collectDac s.max) =
  some [9, 0, 3, 4, 5, 0, 2, 3, 3, 0, 3, 3, 3, 0, 0, 1, 0, 0, 1, 2, 2, 0, 0, 1, 1, 0, 1, 0,
    0, 1, 0, 2, 2, 1, 1, 0, 0, 2, 0, 2, 1]
#guard ((Snapshot.build (cell 0) 8 8 2 3).bind fun s => collectDac s.min) =
  some [2, 3, 0, 1, 2, 0, 0, 0, 0, 0]

-- snapshot.rs:560-572 `build_make_sure_fill_values_match_local_nonfill_values_in_same_quadbox`
#guard
  let data (r c : Nat) := if r < 8 ∧ c < 8 then cell 0 r c else 5
  ((Snapshot.build data 9 9 2 4).map fun s => (s.nodemap.length, s.get 8 8)) = some (21, some 5)

-- snapshot.rs:586-599 `get_single_node_tree`
#guard ((Snapshot.build (fun _ _ => 42) 16 16 2 4).map fun s =>
    (s.nodemap.bitmap.length, s.max.levels.head?.map (·.2.length), s.min.levels.length)) =
  some (1, some 1, 0)

/-! ### log.rs -/

-- log.rs:901-937 `build`
#guard ((Log.build (cell 0) (cell 1) 8 8 2 3).map fun l =>
    (l.nodemap.length, l.nodemap.bitmap, l.equal.length, l.equal.bitmap)) =
  some (17, [0b10111001000010010000000000000000], 10, [0b10001010000000000000000000000000])
#guard ((Log.build (cell 0) (cell 1) 8 8 2 3).bind fun l => collectDac l.max) =
  some [0, 0, 1, 0, 1, 1, -1, 1, 0, 0, 0, 0, 0, 0, 0, 1, 0, 1, 0, 0, 0, 1, 0, 1, 0, 1, 0, 0, 0]
#guard ((Log.build (cell 0) (cell 1) 8 8 2 3).bind fun l => collectDac l.min) =
  some [0, 0, 0, 0, 0, 1, 0]
#guard ((Log.build (cell 0) (cell 2) 8 8 2 3).map fun l =>
    (l.nodemap.length, l.nodemap.bitmap, l.equal.length, l.equal.bitmap)) =
  some (21, [0b11111000010100001001000000000000], 12, [0b10100010100000000000000000000000])
#guard ((Log.build (cell 0) (cell 2) 8 8 2 3).bind fun l => collectDac l.max) =
  some [0, 0, 2, 0, 2, 0, 0, 1, 0, 2, 2, 1, 1, 0, 0, 0, 0, 0, 0, 2, 0, 2, 1, 1, 1, 1, 0, 1,
    1, 1, 0, 1, 0, 2, 0, 1, 0]
#guard ((Log.build (cell 0) (cell 2) 8 8 2 3).bind fun l => collectDac l.min) =
  some [1, 1, 1, 0, 0, 1, 0, 1, 0]

/-- log.rs:863-899 `array9`, the first raster: row 8 and column 8. -/
def row8 : Array Int64 := #[4, 4, 3, 4, 4, 4, 4, 4, 4]
def col8 : Array Int64 := #[1, 3, 3, 2, 4, 4, 4, 4, 4]

-- log.rs:939-955 `build_make_sure_fill_values_match_local_nonfill_values_in_same_quadbox`
#guard
  let s (r c : Nat) := if r < 8 ∧ c < 8 then cell 0 r c else if r < 8 then col8[r]! else row8[c]!
  let t (r c : Nat) := if r < 8 ∧ c < 8 then cell 1 r c else 5
  match Snapshot.build s 9 9 2 4, Log.build s t 9 9 2 4 with
  | some snapshot, some log => log.nodemap.length = 21 ∧ log.get snapshot 8 8 = some 5
  | _, _ => false

/-! ### block.rs, chunk.rs -/

/-- chunk.rs:397-417 `chunk`. -/
def blocks (n : Nat) : Option (List Block) :=
  (List.range n).mapM fun i =>
    match Snapshot.build (cell (4 * i)) 8 8 2 3,
        [1, 2, 3].mapM fun j => Log.build (cell (4 * i)) (cell (4 * i + j)) 8 8 2 3 with
    | some s, some ls => Block.new s ls
    | _, _ => none

-- chunk.rs:419-424 `from_blocks`
#guard ((blocks 25).map fun bs => (Chunk.new bs .i32 0).blocks.length) = some 25
#guard ((blocks 25).bind fun bs => (Chunk.new bs .i32 0).shape) = some (100, 8, 8)

/-- The first raster as a snapshot and some of them as logs. -/
def block (logs : List Nat) : Option Block :=
  match Snapshot.build (cell 0) 8 8 2 3, logs.mapM fun t => Log.build (cell 0) (cell t) 8 8 2 3 with
  | some s, some ls => Block.new s ls
  | _, _ => none

-- block.rs:164-193 `too_many_logs`, 195-199 `test_too_many_logs`: 300 logs panic, 254 do not
#guard (block ((List.range 300).map (· + 1))).isNone
#guard (block ((List.range 254).map (· + 1))).isSome

-- block.rs:306-339 `serialize_deserialize`, chunk.rs:567-592 `serialize_deserialize`: the sizes
#guard ((block [1, 2]).map fun b => decide (b.write.length = b.size)) = some true
#guard ((blocks 25).map fun bs =>
  decide ((Chunk.new bs .i32 0).write.length = (Chunk.new bs .i32 0).size)) = some true

/-! ### fixed.rs -/

/-- `log2(q).floor()`, exact. -/
def lg (q : Rat) : Int := Int.log 2 q

/-- The `f64` nearest to 1/10. -/
def tenth : Flt := .fin (fround 53 (1 / 10))

-- fixed.rs:208-223 `test_to_fixed`
#guard toFixed (.fin (3 / 2)) 1 false = some 7
#guard toFixed (.fin (-3 / 2)) 1 false = some (-5)
#guard toFixed (.fin (3 / 2)) 8 false = some 769
#guard toFixed (.fin (1 / 16)) 4 false = some 3
#guard toFixed (.fin 0) 16 false = some 1

-- fixed.rs:225-245 `test_to_fixed_round`
#guard toFixed (.fin (3 / 2)) 1 true = some 7
#guard toFixed (.fin (3 / 2)) 8 true = some 769
#guard toFixed (.fin (1 / 16)) 4 true = some 3
#guard toFixed (.fin (1 / 16)) 3 true = some 3
#guard toFixed (.fin (1 / 16)) 2 true = some 1
#guard toFixed tenth 16 true = some (6554 * 2 + 1)
#guard toFixed (.fin 0) 16 true = some 1

-- fixed.rs:247-258 `test_from_fixed`
#guard fromFixed .single 7 1 = .fin (3 / 2)
#guard fromFixed .single (-5) 1 = .fin (-3 / 2)
#guard fromFixed .double 769 8 = .fin (3 / 2)
#guard fromFixed .single 3 4 = .fin (1 / 16)
#guard fromFixed .single 1 13 = .fin 0

-- fixed.rs:260-299: the calls that panic, and NaN
#guard toFixed (.fin (1 / 16)) 3 false = none
#guard toFixed (.fin (17 / 16)) 3 false = none
#guard toFixed .nan 12 false = some 0
#guard toFixed (.inf false) 14 false = none
#guard toFixed (.inf true) 14 false = none
#guard toFixed (.fin (15 * 10 ^ 99)) 1 false = none

-- fixed.rs:301-309 `test_round_trip_lots_of_fractional_bits`
#guard ((toFixed (.fin (fround 24 (10241 / 10))) 34 false).map fun n => fromFixed .single n 34) =
  some (.fin (fround 24 (10241 / 10)))

-- fixed.rs:311-401: `suggest_fraction_*`; the first with each value of the array (fixed.rs:166-206)
-- once
#guard suggestFraction lg [.fin (19 / 2), .fin (33 / 4), .fin (31 / 4), .fin (49 / 8),
    .fin (27 / 8), .fin (21 / 8), .fin 5, .fin (39 / 8)] = some (.precise 3)
#guard suggestFraction lg [.fin 16, .fin (1 / 16)] = some (.precise 4)
#guard suggestFraction lg [.fin 16, tenth] = some (.precise 55)
#guard suggestFraction lg [.fin 316, tenth] = some (.round 53)
#guard suggestFraction lg [.nan, .fin 16, .nan, .fin (1 / 16)] = some (.precise 4)
#guard suggestFraction lg [.nan, .nan, .nan, .nan] = some (.precise 0)

/-! ### range.rs, time.rs -/

-- range.rs:221-230 `range_i32`, 234-243 `range_i64`, and
-- 142-180 `int_range_tests` of them
#guard ((List.range 30).mapM ((⟨-20, 5, 30⟩ : IntRange).get true 32)) =
  some ((List.range 30).map fun i => (-20 + 5 * i : Int))
#guard (⟨-20, 5, 30⟩ : IntRange).get true 32 30 = none
#guard (List.range 15).all fun i => (⟨-20, 5, 30⟩ : IntRange).slice true 64 i (30 - i) =
  some ((rangeExcl i (30 - i)).map fun i => (-20 + 5 * i : Int))
#guard (⟨-20, 5, 30⟩ : IntRange).slice true 64 29 31 = none

-- range.rs:247-256 `range_f32`, 260-269 `range_f64`, and
-- 182-219 `float_range_tests` of them
#guard ((List.range 30).mapM ((⟨-20, 5, 30⟩ : FloatRange).get 24)) =
  some ((List.range 30).map fun i => (-20 + 5 * i : Rat))
#guard (⟨-20, 5, 30⟩ : FloatRange).get 53 30 = none
#guard (List.range 15).all fun i => (⟨-20, 5, 30⟩ : FloatRange).slice 53 i (30 - i) =
  some ((rangeExcl i (30 - i)).map fun i => (-20 + 5 * i : Rat))
#guard (⟨-20, 5, 30⟩ : FloatRange).slice 24 29 31 = none

-- time.rs:29-40
#guard (⟨1000000, 3600⟩ : TimeRange).get true 0 = some 1000000
#guard (⟨1000000, 3600⟩ : TimeRange).get true 100 = some 1360000
#guard (⟨1000000, 3600⟩ : TimeRange).slice true 100 102 = some [1360000, 1363600]

/-! ### extio.rs -/

-- extio.rs:273-296 `test_all_of_it`; floats are their bits
#guard
  let bytes := writeByte 42 ++ writeU16 41968 ++ writeU32 31441968 ++ writeI32 (-31441968) ++
    writeI64 (-3144196876) ++ writeF32 0x40490FD8 ++ writeF64 0x401921FAFC8B007A ++
    writeStr (ascii "Hi Mom!")
  let read : Reader (Byte × BitVec 16 × BitVec 32 × Int32 × Int64 × BitVec 32 × BitVec 64 × List Byte) := do
    let a ← readByte
    let b ← readU16
    let c ← readU32
    let d ← readI32
    let e ← readI64
    let f ← readF32
    let g ← readF64
    let h ← readStr fun _ => true
    return (a, b, c, d, e, f, g, h)
  match read bytes with
  | .ok ((a, b, c, d, e, f, g, h), rest) => a = 42 ∧ b = 41968 ∧ c = 31441968 ∧ d = -31441968 ∧
      e = -3144196876 ∧ f = 0x40490FD8 ∧ g = 0x401921FAFC8B007A ∧ h = ascii "Hi Mom!" ∧ rest = []
  | .error _ => false

/-! ### cache.rs -/

/-- cache.rs:432-467 `collect_linked_list`, from front to back, and from back to front. -/
def front (s : Cache.Entries Nat (Nat × Nat)) : Nat → Option Nat → List Nat
  | 0, _ => []
  | n + 1, k => match k.bind (Cache.Map.find s.map) with
    | none => []
    | some e => e.object.1 :: front s n e.less
def back (s : Cache.Entries Nat (Nat × Nat)) : Nat → Option Nat → List Nat
  | 0, _ => []
  | n + 1, k => match k.bind (Cache.Map.find s.map) with
    | none => []
    | some e => e.object.1 :: back s n e.more

/-- What the test looks at after some calls of `get`: the size, the number of entries, the list from
both ends. -/
def look (calls : List (Nat × (Nat → Cache.Loaded (Nat × Nat)))) : Option (Nat × Nat × List Nat × List Nat) :=
  ((Cache.Entries.new 100).gets (fun v : Nat × Nat => v.2) calls).map fun (s, _) =>
    (s.size, s.map.length, front s 9 s.most, (back s 9 s.least).reverse)

def load25 (k : Nat) : Cache.Loaded (Nat × Nat) := .object (k, 25)
def load50 (k : Nat) : Cache.Loaded (Nat × Nat) := .object (k, 50)
def load33 (k : Nat) : Cache.Loaded (Nat × Nat) := .object (k * 2, 33)
def load101 (k : Nat) : Cache.Loaded (Nat × Nat) := .object (k, 101)
def never (_ : Nat) : Cache.Loaded (Nat × Nat) := .panic

/-- The calls of the test. -/
def calls : List (Nat × (Nat → Cache.Loaded (Nat × Nat))) :=
  [(1, load25), (1, never), (2, load25), (3, load25), (4, load25), (3, never), (3, never),
    (1, never), (5, load50), (1, load33), (3, load33), (5, load33), (7, load33), (1, load33),
    (3, load33), (5, load33), (7, load101)]

-- cache.rs:469-553 `test_common_use`
#guard look (calls.take 1) = some (25, 1, [1], [1])
#guard look (calls.take 2) = some (25, 1, [1], [1])
#guard look (calls.take 3) = some (50, 2, [2, 1], [2, 1])
#guard look (calls.take 5) = some (100, 4, [4, 3, 2, 1], [4, 3, 2, 1])
#guard look (calls.take 6) = some (100, 4, [3, 4, 2, 1], [3, 4, 2, 1])
#guard look (calls.take 7) = some (100, 4, [3, 4, 2, 1], [3, 4, 2, 1])
#guard look (calls.take 8) = some (100, 4, [1, 3, 4, 2], [1, 3, 4, 2])
#guard look (calls.take 9) = some (100, 3, [5, 1, 3], [5, 1, 3])
#guard look calls = some (0, 0, [], [])
#guard (((Cache.Entries.new 100).gets (fun v : Nat × Nat => v.2) calls).map fun (_, as) =>
    as.map fun a => a.1) =
  some [.ok (1, 25), .ok (1, 25), .ok (2, 25), .ok (3, 25), .ok (4, 25), .ok (3, 25), .ok (3, 25),
    .ok (1, 25), .ok (5, 50), .ok (1, 25), .ok (3, 25), .ok (5, 50), .ok (14, 33), .ok (2, 33),
    .ok (6, 33), .ok (10, 33), .ok (7, 101)]

/-! ### superchunk.rs, span.rs, mmstruct.rs, links.rs -/

/-- A digest of 8 bytes, in place of SHA-256. -/
def digest (bytes : List Byte) : List Byte :=
  toBE 8 (bytes.foldl (fun h b => (h * 257 + b.toNat + 1) % (2 ^ 61 - 1)) 7)

/-- testing.rs:172-183, with that digest. -/
def H : Hash := ⟨fun bytes => .v1 0x12 0x12 (digest bytes), fun _ => by simp [Cid.Valid, digest, toBE]⟩

/-- `(n as f64).log(2.0).ceil()`. -/
def clog (n : Nat) : Nat := Nat.clog 2 n

/-- superchunk.rs: the tests build superchunks of 100 instants. -/
def superchunk (levels : List Nat) (data : Nat → Nat → Nat → Int64) (side : Nat) (instants := 100) :=
  Superchunk.build H clog lg 2 levels [] (.i64 data) instants side side

/-- How many references are elided, local and external, and how many links there are. -/
def references (b : Option (MMStruct3Build × Saved)) : Option (Nat × Nat × Nat × Nat) :=
  match b with
  | some (⟨.superchunk h _, _, _, external, _, _⟩, _) => some
      (h.references.countP (fun r => match r with | .elided => true | _ => false),
        h.references.countP (fun r => match r with | .loc _ => true | _ => false),
        h.references.countP (fun r => match r with | .external _ => true | _ => false), external)
  | _ => none

-- superchunk.rs:1005-1019 `no_subchunks`, 1023-1037 `no_subchunks_four_levels`,
-- 1041-1064 `no_subchunks_coarse`, 1068-1093 `external_subchunks`, 1097-1131 `mixed_subchunks`,
-- 1135-1173 `elide_everything`
#guard references (superchunk [3, 0] cell 8) = some (64, 0, 0, 0)
#guard references (superchunk [4, 0] cell 16) = some (256, 0, 0, 0)
#guard references (superchunk [3, 1] (fun t r c => cell t (r / 2) (c / 2)) 16) = some (64, 0, 0, 0)
#guard references (superchunk [2, 2] cell 16) = some (0, 0, 16, 4)
#guard references (superchunk [2, 3] cell 17) = some (8, 0, 8, 3)
#guard references (superchunk [2, 2] (fun t _ _ => Int64.ofNat t) 16) = some (16, 0, 0, 0)

/-- `Resolver::ls`: the names and the types. -/
def names (log : Saved) (cid : Cid) : List (List Byte × Option NodeType) :=
  match (log.load H).ls (fun _ => true) cid with
  | .ok es => es.map fun e => (e.name, e.nodeType)
  | .error _ => []

/-- The identifier of an entry. -/
def entry (log : Saved) (cid : Cid) (i : Nat) : Cid :=
  match (log.load H).ls (fun _ => true) cid with
  | .ok es => (es[i]?.map (·.cid)).getD cid
  | .error _ => cid

-- mmstruct.rs:412-445 `$name_test_high_level_ls` of mmstruct.rs:463-477 `superchunk`
#guard
  match superchunk [1, 2, 2] cell 17 with
  | some (b, log) =>
    let saved := save H log (.struct b.data)
    names saved.1 saved.2 = [(ascii "subchunks", some .links)] ∧
      names saved.1 (entry saved.1 saved.2 0) =
        [(ascii "0", some .superchunk), (ascii "1", some .superchunk), (ascii "2", some .superchunk)]
  | none => false

/-- span.rs:473-503 `superchunks`, one of them. -/
def part (start len : Nat) (side := 16) : Prog MMStruct3 := fun log =>
  match Superchunk.build H clog lg 2 [2, 2] log (.i64 fun t => cell ((start + t) % 100)) len side side with
  | some (b, log) => (.ok b.data, log)
  | none => (.error .panic, log)

/-- Append some superchunks to a span. -/
def appends (sp : Span) : (start : Nat) → List Nat → Prog Span
  | _, [] => pure sp
  | start, len :: lens => do
    let m ← part start len
    let sp ← Span.append H (fun _ => true) sp m
    appends sp (start + len) lens

/-- The shape and the number of subspans. -/
def shapeOf (p : Prog Span) : Option (Nat × Nat × Nat × Nat) :=
  match p [] with
  | (.ok sp, _) => some (sp.instants, sp.rows, sp.cols, sp.spans.length)
  | _ => none

-- span.rs:505-513 `new`
#guard shapeOf (pure (Span.new 16 16 100 .i64)) = some (0, 16, 16, 0)

-- span.rs:525-536 `span_of_5`, 540-551 `span_of_four_and_a_half`
#guard shapeOf (appends (Span.new 16 16 100 .i64) 0 [100, 100, 100, 100, 100]) = some (500, 16, 16, 5)
#guard shapeOf (appends (Span.new 16 16 100 .i64) 0 [100, 100, 100, 100, 50]) = some (450, 16, 16, 5)

/-- Does the program panic? -/
def panics {α : Type} (p : Prog α) : Bool :=
  match p [] with
  | (.error .panic, _) => true
  | _ => false

-- span.rs:555-565 `test_append_to_partially_filled_span`, 567-585 `test_append_mismatched_shape`,
-- 587-594 `test_append_overly_large_chunk`
#guard panics (do
    let sp ← appends (Span.new 16 16 100 .i64) 0 [10]
    let m ← part 0 10
    Span.append H (fun _ => true) sp m)
#guard panics (do let m ← part 0 100 15; Span.append H (fun _ => true) (Span.new 16 16 100 .i64) m)
#guard panics (appends (Span.new 16 16 100 .i64) 0 [101])
#guard !panics (appends (Span.new 16 16 100 .i64) 0 [100])

-- span.rs:616-633 `update`
#guard shapeOf (do
    let sp ← appends (Span.new 16 16 100 .i64) 0 [100, 100, 100, 100, 50]
    let m ← part 0 75
    Span.update H (fun _ => true) sp m) = some (475, 16, 16, 5)

/-- span.rs:596-612 `nested_spans`, with `n` for 10. -/
def nested (n : Nat) : Prog Cid := do
  let mut sp := Span.new 16 16 (n * n) .i64
  for i in List.range n do
    let sub ← appends (Span.new 16 16 n .i64) (n * n * i) (List.replicate n n)
    sp ← Span.append H (fun _ => true) sp (.span sub)
  Prog.save H (.struct (.span sp))

-- span.rs:637-662 `test_high_level_ls`, with 3 for 10
#guard
  match nested 3 [] with
  | (.ok cid, log) =>
    let sub := entry log cid 0
    let chunk := entry log sub 0
    let links := entry log chunk 0
    names log cid = [(ascii "0", some .span), (ascii "1", some .span), (ascii "2", some .span)] ∧
      names log sub = [(ascii "0", some .superchunk), (ascii "1", some .superchunk),
        (ascii "2", some .superchunk)] ∧
      names log chunk = [(ascii "subchunks", some .links)] ∧
      names log links = [(ascii "0", some .subchunk), (ascii "1", some .subchunk),
        (ascii "2", some .subchunk), (ascii "3", some .subchunk)]
  | _ => false

/-- mmstruct.rs:481-500 `span`. -/
def spanOf17 : Prog Cid := do
  let mut sp := Span.new 17 17 20 .i64
  for i in List.range 5 do
    let m ← fun log =>
      match Superchunk.build H clog lg 2 [1, 2, 2] log (.i64 fun t => cell (20 * i + t)) 20 17 17 with
      | some (b, log) => (.ok b.data, log)
      | none => (.error .panic, log)
    sp ← Span.append H (fun _ => true) sp m
  Prog.save H (.struct (.span sp))

-- mmstruct.rs:390-410 `$name_test_ls` and 412-445 `$name_test_high_level_ls` of that span
#guard
  match spanOf17 [] with
  | (.ok cid, log) => names log cid = [(ascii "0", some .superchunk), (ascii "1", some .superchunk),
      (ascii "2", some .superchunk), (ascii "3", some .superchunk), (ascii "4", some .superchunk)]
  | _ => false

-- links.rs:101-108 `make_one`, 110-121 `load_save`, 123-130 `ls`
#guard
  let cids := [H.cidOf (ascii "zero"), H.cidOf (ascii "one"), H.cidOf (ascii "two")]
  let saved := save H [] (.links ⟨cids⟩)
  match (saved.1.load H).getLinks (fun _ => true) saved.2 with
  | .ok l => l.cids = cids
  | .error _ => false
#guard Links.ls ⟨[H.cidOf (ascii "zero"), H.cidOf (ascii "one"), H.cidOf (ascii "two")]⟩ =
  [(ascii "0", H.cidOf (ascii "zero")), (ascii "1", H.cidOf (ascii "one")),
    (ascii "2", H.cidOf (ascii "two"))]

/-! ### dataset.rs -/

/-- dataset.rs:1110-1116 `make_one_$type` of `i64`, with the number of rows and columns. -/
def makeOne (side : Nat) : Dataset :=
  Dataset.new ⟨ascii "t", .time 0 100⟩ ⟨ascii "y", .i64 (-160) 20 16⟩ ⟨ascii "x", .i64 (-200) 25 16⟩
    side side

/-- The length of a coordinate, if there is one. -/
def lenOf (c : Coordinate) : Option Nat :=
  match c.len with
  | .ok n => some n
  | .error _ => none

-- dataset.rs:1118-1150 `test_new_$type`; the coordinates of all four types
#guard ((makeOne 16).coord0.name, (makeOne 16).coord1.name, (makeOne 16).coord2.name) =
  (ascii "t", ascii "y", ascii "x")
#guard (lenOf (makeOne 16).coord0, lenOf (makeOne 16).coord1, lenOf (makeOne 16).coord2) =
  (none, some 16, some 16)
#guard ((makeOne 16).rows, (makeOne 16).cols, (makeOne 16).variables.length) = (16, 16, 0)
#guard ((makeOne 16).prev, (makeOne 16).cid) = (none, none)
#guard (⟨0, 100⟩ : TimeRange).get true 10 = some 1000
#guard (⟨-160, 20, 16⟩ : IntRange).get true 32 10 = some 40
#guard (⟨-200, 25, 16⟩ : IntRange).get true 64 10 = some 50
#guard (⟨-160, 20, 16⟩ : FloatRange).get 24 10 = some 40
#guard (⟨-200, 25, 16⟩ : FloatRange).get 53 10 = some 50
#guard ((makeOne 16).getCoordinate (ascii "t")) = some (makeOne 16).coord0
#guard ((makeOne 16).getCoordinate (ascii "doesn't exist")) = none
#guard ((makeOne 16).getVariable (ascii "also doesn't exist")) = none

/-- A window read that reads one cell after the other. -/
def fill : Fill := fun m st =>
  match m.shape with
  | none => ([], some .panic)
  | some (instants, rows, cols) =>
    let cells := (List.range instants).flatMap fun t => (List.range rows).flatMap fun r =>
      (List.range cols).map fun c => (t, r, c)
    match cells.mapM fun p => m.get (fun _ => true) st 9 m.fractionalBits p.1 p.2.1 p.2.2 with
    | .error f => ([], some f)
    | .ok vs => (cells.zipWith (fun p v => (p.1, p.2.1, p.2.2, v.1, v.2)) vs, none)

/-- dataset.rs:1178-1288 `populate`, for two variables of integers in 4 rows and 4 columns: chunks of
3 instants, 2 to a span. -/
def populate : Prog Dataset := do
  let d ← Dataset.addVariable H (makeOne 4) (ascii "bananas") none 2 3 [1, 1] .i32
  let d ← Dataset.append H (fun _ => true) clog lg 20 fill d (ascii "bananas")
    (.i32 fun t r c => (cell t r c).toInt32) 5 4 4
  let d ← Dataset.append H (fun _ => true) clog lg 20 fill d (ascii "bananas")
    (.i32 fun t r c => (cell (5 + t) r c).toInt32) 9 4 4
  let cid ← Dataset.commit H d
  let d ← Prog.getDataset H (fun _ => true) cid
  let d ← Dataset.addVariable H d (ascii "grapes") none 2 3 [1, 1] .i64
  let d ← Dataset.append H (fun _ => true) clog lg 20 fill d (ascii "grapes") (.i64 cell) 7 4 4
  Dataset.append H (fun _ => true) clog lg 20 fill d (ascii "grapes")
    (.i64 fun t => cell (7 + t)) 8 4 4

/-- Does a variable hold the first rasters? -/
def holds (log : Saved) (v : Variable) (instants : Nat) : Bool :=
  match (log.load H).getStruct (fun _ => true) v.cid with
  | .error _ => false
  | .ok m =>
    match fill m (log.load H) with
    | (calls, none) => decide (m.shape = some (instants, 4, 4)) &&
        decide (calls.length = instants * 16) && calls.all fun (t, r, c, _, v) => v = cell t r c
    | _ => false

-- dataset.rs:1330-1439 `test_populate_variables_and_save_load`
#guard
  match populate [] with
  | (.ok d, log) =>
    match Dataset.commit H d log with
    | (.ok cid, log) =>
      names log cid = [(ascii "bananas", some .span), (ascii "grapes", some .span),
          (ascii "prev", some .dataset)] ∧
        d.cid = none ∧ d.prev = some (entry log cid 2) ∧
        (d.variables.map fun v => (v.spanSize, v.chunkSize, v.k2Levels)) =
          [(2, 3, [1, 1]), (2, 3, [1, 1])] ∧
        (d.variables.map (·.encoding)) = [.i32, .i64] ∧
        (d.variables.map (·.cid)) = [entry log cid 0, entry log cid 1] ∧
        (d.getVariable (ascii "bananas")).any (holds log · 14) ∧
        (d.getVariable (ascii "grapes")).any (holds log · 15)
    | _ => false
  | _ => false

end Verif.Tests
