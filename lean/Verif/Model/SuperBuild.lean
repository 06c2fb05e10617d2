import Verif.Model.Fixed
import Verif.Model.Struct

/-!
Model of input buffers (`/repo/dcdf/src/mmbuffer.rs`) and of `Superchunk::build`
(`/repo/dcdf/src/superchunk.rs:88-270`).

A buffer is a function of instant, row and column; its shape is passed along. Parameters: `H` the
identifiers of the store, `clog n` the float computation `(n as f64).log(k as f64).ceil() as u32`,
`lg` the float computation in `suggest_fraction`. The subchunks are built one after the other: the
futures share nothing but the store, in which objects do not depend on the order of saving.
`k.pow(..)` is not limited to `i32`.
-/
namespace Verif

/-- mmbuffer.rs:255-260 `enum MMBuffer3`. -/
inductive MMBuffer3 where
  | i32 (a : Nat → Nat → Nat → Int32)
  | i64 (a : Nat → Nat → Nat → Int64)
  | flt (p : Prec) (a : Nat → Nat → Nat → Flt) (bits : Nat) (round : Bool)

namespace MMBuffer3

/-- mmbuffer.rs:301-308 `MMBuffer3::get`; `none` is a panic. -/
def get (b : MMBuffer3) (instant row col : Nat) : Option Int64 :=
  match b with
  | .i32 a => some (a instant row col).toInt64
  | .i64 a => some (a instant row col)
  | .flt _ a bits round => toFixed (a instant row col) bits round

/-- mmbuffer.rs:263-278 `MMBuffer3::slice`. -/
def slice (b : MMBuffer3) (start top left : Nat) : MMBuffer3 :=
  match b with
  | .i32 a => .i32 fun t r c => a (start + t) (top + r) (left + c)
  | .i64 a => .i64 fun t r c => a (start + t) (top + r) (left + c)
  | .flt p a bits round => .flt p (fun t r c => a (start + t) (top + r) (left + c)) bits round

/-- mmbuffer.rs:397-403 `MMBuffer3::fractional_bits`. -/
def fractionalBits : MMBuffer3 → Nat
  | .i32 _ | .i64 _ => 0
  | .flt _ _ bits _ => bits

/-- mmbuffer.rs:405-412 `MMBuffer3::encoding`. -/
def encoding : MMBuffer3 → MMEncoding
  | .i32 _ => .i32
  | .i64 _ => .i64
  | .flt .single _ _ _ => .f32
  | .flt .double _ _ _ => .f64

/-- The values of an instant in the order of `subarray.iter()`. -/
def values {α} (a : Nat → Nat → Nat → α) (rows cols t : Nat) : List α :=
  (List.range rows).flatMap fun r => (List.range cols).map fun c => a t r c

/-- mmbuffer.rs:435-454, one instant of `min_max`; without values `subarray[[0, 0]]` panics. -/
def minMaxOf {α} [LT α] [DecidableLT α] : List α → Option (α × α)
  | [] => none
  | v :: vs => some ((v :: vs).foldl (fun m x => (if x < m.1 then x else m.1, if x > m.2 then x else m.2))
      (v, v))

/-- mmbuffer.rs:366-395 `MMBuffer3::min_max`. -/
def minMax (b : MMBuffer3) (instants rows cols : Nat) : Option (List (Int64 × Int64)) :=
  collect (List.range instants) fun t =>
    match b with
    | .i32 a => (minMaxOf (values a rows cols t)).map fun m => [(m.1.toInt64, m.2.toInt64)]
    | .i64 a => (minMaxOf (values a rows cols t)).map fun m => [m]
    | .flt _ a bits round =>
      match minMaxFloat (values a rows cols t) with
      | none => none
      | some (mn, mx) =>
        match toFixed mn bits round, toFixed mx bits round with
        | some mn, some mx => some [(mn, mx)]
        | _, _ => none

/-- mmbuffer.rs:425-431, 596-613, 658-675 `compute_fractional_bits`; `none` is a panic. -/
def computeBits (lg : Rat → Int) (b : MMBuffer3) (instants rows cols : Nat) : Option MMBuffer3 :=
  match b with
  | .i32 _ | .i64 _ => some b
  | .flt p a bits round =>
    (Verif.computeBits lg ((List.range instants).flatMap (values a rows cols)) bits round).map
      fun bits => .flt p a bits round

end MMBuffer3

/-- mmstruct.rs:24-34 `struct MMStruct3Build`; `local` is always 0. -/
structure MMStruct3Build where
  data : MMStruct3
  size : Nat
  elided : Nat
  external : Nat
  snapshots : Nat
  logs : Nat

/-- chunk.rs:42-96 `Chunk::build` from a buffer: every cell is read. -/
def Chunk.buildBuffer (clog : Nat → Nat) (b : MMBuffer3) (instants rows cols k : Nat) :
    Option MMStruct3Build :=
  if ∀ t < instants, ∀ r < rows, ∀ c < cols, (b.get t r c).isSome then
    (Chunk.build (fun t r c => (b.get t r c).getD 0) instants rows cols k (clog (max rows cols))
      b.encoding b.fractionalBits).map fun r =>
        ⟨.subchunk r.data, r.size, 0, 0, r.snapshots, r.logs⟩
  else none

namespace Superchunk

/-- A subchunk to build: its buffer and shape, and whether it is a chunk. -/
structure Job where
  buffer : MMBuffer3
  rows : Nat
  cols : Nat
  chunk : Bool

/-- What the first loop finds out about a subarray; without a job it is elided. -/
structure Part where
  minMax : List (Int64 × Int64)
  job : Option Job

section
variable (H : Hash) (clog : Nat → Nat) (lg : Rat → Int) (k : Nat)

/-- superchunk.rs:127-181, one subarray in the first loop. -/
def plan (sub : List Nat) (buffer : MMBuffer3) (instants rows cols chunksSidelen : Nat)
    (pos : Nat × Nat) : Option Part :=
  let top := pos.1 * chunksSidelen
  let bottom := min (top + chunksSidelen) rows
  let left := pos.2 * chunksSidelen
  let right := min (left + chunksSidelen) cols
  if top ≥ rows ∨ left ≥ cols then some ⟨List.replicate instants (0, 0), none⟩
  else
    let subBuffer := buffer.slice 0 top left
    match subBuffer.minMax instants (bottom - top) (right - left) with
    | none => none
    | some minMax =>
      if minMax.all (fun m => m.1 = m.2) then some ⟨minMax, none⟩
      else
        let needed := clog (max (bottom - top) (right - left))
        let buildSubchunk : Option Bool :=
          if sub.length = 1 then some true else sub.head?.map fun l => decide (needed ≤ l)
        match buildSubchunk with
        | none => none
        | some chunk => some ⟨minMax, some ⟨subBuffer, bottom - top, right - left, chunk⟩⟩

/-- superchunk.rs:164-172, the future of one subarray; `rec` is `Superchunk::build` on the remaining
levels. -/
def runJob (rec : Saved → MMBuffer3 → (instants rows cols : Nat) → Option (MMStruct3Build × Saved))
    (instants : Nat) (log : Saved) (job : Job) : Option (MMStruct3Build × Saved) :=
  match job.buffer.computeBits lg instants job.rows job.cols with
  | none => none
  | some buffer =>
    if job.chunk then
      (Chunk.buildBuffer clog buffer instants job.rows job.cols k).map fun b => (b, log)
    else rec log buffer instants job.rows job.cols

/-- superchunk.rs:187-193: all futures. -/
def runJobs (rec : Saved → MMBuffer3 → (instants rows cols : Nat) → Option (MMStruct3Build × Saved))
    (instants : Nat) : Saved → List Part → Option (List (Part × Option MMStruct3Build) × Saved)
  | log, [] => some ([], log)
  | log, part :: parts =>
    match part.job with
    | none => (runJobs rec instants log parts).map fun r => ((part, none) :: r.1, r.2)
    | some job =>
      match runJob clog lg k rec instants log job with
      | none => none
      | some (build, log) =>
        (runJobs rec instants log parts).map fun r => ((part, some build) :: r.1, r.2)

/-- The local variables of the loop that saves the subchunks. -/
structure SaveState where
  log : Saved
  external : List Cid
  references : List Reference
  sizes : Nat
  elided : Nat
  snapshots : Nat
  logs : Nat

/-- superchunk.rs:213-244, one subchunk. `external_references` maps the identifiers in `external` to
their index. -/
def saveStep (s : SaveState) (p : Part × Option MMStruct3Build) : SaveState :=
  match p.2 with
  | none => { s with elided := s.elided + 1, references := s.references ++ [.elided] }
  | some build =>
    if p.1.minMax.all (fun m => m.2 = m.1) then
      { s with elided := s.elided + 1, references := s.references ++ [.elided] }
    else
      let saved := save H s.log (.struct build.data)
      let known := s.external.idxOf? saved.2
      let s := { s with
        log := saved.1
        sizes := s.sizes + build.data.size
        snapshots := s.snapshots + build.snapshots
        logs := s.logs + build.logs }
      match known with
      | some index => { s with references := s.references ++ [.external index] }
      | none => { s with
          external := s.external ++ [saved.2]
          references := s.references ++ [.external s.external.length] }

/-- superchunk.rs:195-203: the minima (`pick = Prod.fst`) or maxima, instant by instant. -/
def extremes (pick : Int64 × Int64 → Int64) (instants : Nat)
    (parts : List (Part × Option MMStruct3Build)) : Option (List Int64) :=
  collect (List.range instants) fun i =>
    collect parts fun p => (p.1.minMax[i]?).map fun m => [pick m]

/-- superchunk.rs:88-270 `Superchunk::build`, given the build on the remaining levels. -/
def buildLevel
    (rec : Saved → MMBuffer3 → (instants rows cols : Nat) → Option (MMStruct3Build × Saved))
    (level : Nat) (sub : List Nat) (log : Saved) (buffer : MMBuffer3) (instants rows cols : Nat) :
    Option (MMStruct3Build × Saved) :=
  let totalLevels := clog (max rows cols)
  if (level :: sub).sum ≠ totalLevels then none
  else
    let sidelen := k ^ totalLevels
    let subsidelen := k ^ level
    let chunksSidelen := sidelen / subsidelen
    let positions := (List.range subsidelen).flatMap fun r => (List.range subsidelen).map fun c => (r, c)
    match collect positions fun pos =>
        (plan clog sub buffer instants rows cols chunksSidelen pos).map fun p => [p] with
    | none => none
    | some parts =>
      match runJobs clog lg k rec instants log parts with
      | none => none
      | some (parts, log) =>
        match extremes Prod.fst instants parts, extremes Prod.snd instants parts with
        | some min, some max =>
          let s := parts.foldl (saveStep H) ⟨log, [], [], 0, 0, 0, 0⟩
          let saved := save H s.log (.links ⟨s.external⟩)
          match Dac.ofList max, Dac.ofList min with
          | some max, some min =>
            let head : SuperHead := ⟨instants, rows, cols, sidelen, level, chunksSidelen, subsidelen,
              buffer.fractionalBits, buffer.encoding, s.references, saved.2, max, min⟩
            some (⟨.superchunk head [], head.size 0 + Links.size ⟨s.external⟩ + s.sizes, s.elided,
              s.external.length, s.snapshots, s.logs⟩, saved.1)
          | _, _ => none
        | _, _ => none

/-- superchunk.rs:88-270 `Superchunk::build`; `none` is a panic (`&levels[1..]` of no levels is). -/
def build : (levels : List Nat) → Saved → MMBuffer3 → (instants rows cols : Nat) →
    Option (MMStruct3Build × Saved)
  | [], _, _, _, _, _ => none
  | level :: sub, log, buffer, instants, rows, cols =>
    buildLevel H clog lg k (build sub) level sub log buffer instants rows cols

end

end Superchunk

end Verif
