import Verif.Lemmas.NeedsRead
import Verif.Props.AnyData
import Verif.Props.Example

/-!
Property C73: a read depends on few objects of the store, however many there are.

`Spec.blocks d lo hi` counts the intervals of length `d` that meet `[lo, hi)`, `Spec.tiles` the squares,
`Spec.spans` the spans and chunks of a tree that meet a time range, and `Spec.nested` the objects below a
chunk that meet a window (`Lemmas/Needs.lean`).
-/
namespace Verif

/-- The result depends on at most `n` objects of the store: whatever happens to all others (they may be
missing, or hold anything), it is the same. -/
def Spec.DependsOn {β : Type} (st : Store) (n : Nat) (f : Store → β) : Prop :=
  ∃ cids : List Cid, cids.length ≤ n ∧ ∀ st' : Store, (∀ c ∈ cids, st' c = st c) → f st' = f st

section
variable {α : Type} (kind : Kind α) (utf8 : List Byte → Bool) (readFuel : Nat) (v : Variable)

/-- `data_*` and then `get` (dataset.rs:988-1010, mmarray.rs:156-163), as a function of the store. -/
def Variable.readGet (instant row col : Nat) (st : Store) : Except Fail α :=
  match v.data kind utf8 st with
  | .error f => .error f
  | .ok m => kind.get utf8 st readFuel m instant row col

/-- `data_*` and then `cell` (mmarray.rs:167-182). -/
def Variable.readCell (start fin row col : Nat) (st : Store) : Except Fail (List α) → Prop :=
  match v.data kind utf8 st with
  | .error f => fun res => res = .error f
  | .ok m => kind.cell utf8 st readFuel m start fin row col

/-- `data_*` and then `window` (mmarray.rs:186-199). -/
def Variable.readWindow (bounds : Cube) (st : Store) : Except Fail (List (List (List α))) → Prop :=
  match v.data kind utf8 st with
  | .error f => fun res => res = .error f
  | .ok m => kind.window utf8 st readFuel m bounds

/-- `data_*` and then `search` (mmarray.rs:206-215). -/
def Variable.readSearch (bounds : Cube) (lower upper : α) (st : Store) : Out (Option (Nat × Nat × Nat)) :=
  match v.data kind utf8 st with
  | .error f => Out.fail f
  | .ok m => kind.search utf8 st readFuel m bounds lower upper

/-- Reads of a variable of `N` instants depend on few objects. `h` is a height that is enough for `N`
instants: with `h = 0` there is one span, which has room for `cs * ss` instants. -/
structure ReadsFew (st : Store) (levels : List Nat) (cs ss N : Nat) : Prop where
  get : ∀ h, N ≤ cs * ss ^ (h + 1) → ∀ instant row col,
    Spec.DependsOn st (h + 2 + 2 * (levels.length - 1)) (v.readGet kind utf8 readFuel instant row col)
  cell : ∀ h, N ≤ cs * ss ^ (h + 1) → ∀ start fin row col,
    Spec.DependsOn st (1 + Spec.spans cs ss start fin h +
      Spec.blocks cs start fin * (2 * (levels.length - 1))) (v.readCell kind utf8 readFuel start fin row col)
  window : ∀ h, N ≤ cs * ss ^ (h + 1) → ∀ start fin top bottom left right, top < bottom → left < right →
    Spec.DependsOn st (1 + Spec.spans cs ss start fin h +
      Spec.blocks cs start fin * Spec.nested 2 top bottom left right levels)
      (v.readWindow kind utf8 readFuel ⟨start, fin, top, bottom, left, right⟩)
  search : ∀ h, N ≤ cs * ss ^ (h + 1) → ∀ start fin top bottom left right lower upper, start ≤ fin →
    top < bottom → left < right →
    Spec.DependsOn st (1 + Spec.spans cs ss start fin h +
      Spec.blocks cs start fin * Spec.nested 2 top bottom left right levels)
      (v.readSearch kind utf8 readFuel ⟨start, fin, top, bottom, left, right⟩ lower upper)

end

section
variable {α : Type} {kind : Kind α} {H : Hash} {utf8 : List Byte → Bool} {T : VarTheory} {log : Saved}

theorem Needs.depends {β : Type} {st : Store} {n : Nat} {f : Store → β} (h : Needs st [] n f) :
    Spec.DependsOn st n f := h

theorem Variable.data_needs {β : Type} {st : Store} {v : Variable} {n : Nat} {f : MMStruct3 → Store → β}
    {g : Fail → β} (h : ∀ m, st.getStruct utf8 v.cid = .ok m → Needs st [] n (f m)) :
    Needs st [] (n + 1) (fun s => match v.data kind utf8 s with
      | .error e => g e
      | .ok m => f m s) := by
  unfold Variable.data
  refine Needs.struct (utf8 := utf8) (F := fun s x => match (match x with
      | .error e => (.error e : Except Fail MMStruct3)
      | .ok m => match kind.new m with
        | none => .error .panic
        | some a => .ok a) with
      | .error e => g e
      | .ok m => f m s) (fun m hm => ?_) fun _ _ => rfl
  unfold Kind.new
  by_cases he : m.encoding ≠ kind.encoding
  · simp only [if_pos he]
    exact Needs.const fun _ => rfl
  · simp only [if_neg he]
    exact h m hm

theorem spans_mono {cs ss start fin h h' : Nat} (hh : h ≤ h') :
    Spec.spans cs ss start fin h ≤ Spec.spans cs ss start fin h' := by
  induction hh with
  | refl => exact Nat.le_refl _
  | step _ ih => rw [spans_succ]; omega

/-- The reads of any variable whose chunks have the sides of the levels depend on few objects. -/
theorem VarInv.readsFew {levels : List Nat} {v : Variable} {N tl readFuel : Nat} (hinv : VarInv H T log v N tl)
    (hK : ∀ m a n, T.K log m a n → Sides utf8 (log.load H) 2 levels m) (hnc : log.NoCollision H) :
    ReadsFew kind utf8 readFuel v (log.load H) levels T.cs T.ss N := by
  have htl := hinv.tail
  obtain ⟨-, -, -, i, root, hroot, htree, -, ⟨a, ha, htall⟩, -⟩ := hinv
  have hget : ∀ m, (log.load H).getStruct utf8 v.cid = .ok m → m = .span root := by
    intro m hm
    rw [hroot.get utf8 hnc] at hm
    exact (Except.ok.inj hm).symm
  have height : ∀ h, N ≤ T.cs * T.ss ^ (h + 1) → i ≤ h := by
    intro h hN
    by_contra hlt
    rcases htall with rfl | ht
    · omega
    · have h1 : T.stride (h + 1) ≤ T.stride i :=
        Nat.mul_le_mul_left _ (Nat.pow_le_pow_right (by have := T.ss_two; omega) (by omega))
      have h2 := T.stride_pos i
      unfold VarTheory.stride at h1 h2 ht
      omega
  refine ⟨?_, ?_, ?_, ?_⟩
  · intro h hN instant row col
    have hi := height h hN
    refine (Needs.le (n := i + 1 + 2 * (levels.length - 1) + 1) (Variable.data_needs (fun m hm => ?_)) (by omega)).depends
    obtain rfl := hget m hm
    unfold Kind.get
    rcases (MMStruct3.span root).checkBounds instant row col with _ | ⟨⟩
    · exact Needs.const fun _ => rfl
    · exact Needs.comp (Tree.get_needs hnc (fun m a n hKm fuel bits t =>
        Sides.get_needs levels fuel m bits t row col (hK m a n hKm)) i root 0 N tl readFuel _ instant htree)
        (fun x => match x with
          | .error f => (.error f : Except Fail α)
          | .ok (bits, v) => .ok (kind.dec bits v))
  · intro h hN start fin row col
    have hi := height h hN
    have hsp := spans_mono (cs := T.cs) (ss := T.ss) (start := start) (fin := fin) hi
    refine (Needs.le (n := Spec.spans T.cs T.ss start fin i +
      Spec.blocks T.cs start fin * (2 * (levels.length - 1)) + 1) (Variable.data_needs (fun m hm => ?_)) (by omega)).depends
    obtain rfl := hget m hm
    unfold Kind.cell
    rcases csub fin 1 with _ | last
    · exact Needs.const fun _ => rfl
    simp only
    rcases (MMStruct3.span root).checkBounds last row col with _ | ⟨⟩
    · exact Needs.const fun _ => rfl
    simp only
    by_cases hsf : start ≤ fin
    · have hc : csub fin start = some (fin - start) := by unfold csub; rw [if_pos hsf]
      rw [hc]
      exact Needs.comp ((SpanOp.cell (utf8 := utf8) T row col).needs hnc (fun m a n hKm fuel bits start fin _ =>
        Sides.cell_needs levels fuel m bits start fin row col (hK m a n hKm)) i root 0 N tl readFuel _ start fin hsf
        htree) (fun o => fun res => ∃ t s, o t s ∧ res = Kind.finish t (fun q => q.1 < fin - start) s
          ((List.range (fin - start)).map (written1 kind t)))
    · have hc : csub fin start = none := by unfold csub; rw [if_neg hsf]
      rw [hc]
      exact Needs.const fun _ => rfl
  · intro h hN start fin top bottom left right htb hlr
    have hi := height h hN
    have hsp := spans_mono (cs := T.cs) (ss := T.ss) (start := start) (fin := fin) hi
    refine (Needs.le (n := Spec.spans T.cs T.ss start fin i +
      Spec.blocks T.cs start fin * Spec.nested 2 top bottom left right levels + 1)
      (Variable.data_needs (fun m hm => ?_)) (by omega)).depends
    obtain rfl := hget m hm
    unfold Kind.window
    rcases (MMStruct3.span root).checkCube ⟨start, fin, top, bottom, left, right⟩ with _ | ⟨⟩
    · exact Needs.const fun _ => rfl
    simp only
    by_cases hsf : start ≤ fin
    · have h1 : csub fin start = some (fin - start) := by unfold csub; rw [if_pos hsf]
      have h2 : csub bottom top = some (bottom - top) := by unfold csub; rw [if_pos (by omega)]
      have h3 : csub right left = some (right - left) := by unfold csub; rw [if_pos (by omega)]
      rw [h1, h2, h3]
      exact Needs.comp ((SpanOp.window (utf8 := utf8) T (by omega : top ≤ bottom) (by omega : left ≤ right)).needs hnc
        (fun m a n hKm fuel bits start fin hsf =>
          Sides.window_needs (by decide) levels fuel m bits start fin top bottom left right hsf htb hlr (hK m a n hKm))
        i root 0 N tl readFuel _ start fin hsf htree) (fun o => fun res => ∃ t s, o t s ∧
          res = Kind.finish t (fun q => q.1 < fin - start ∧ q.2.1 < bottom - top ∧ q.2.2.1 < right - left) s
            ((List.range (fin - start)).map fun t' => (List.range (bottom - top)).map fun r =>
              (List.range (right - left)).map fun c => written kind.zero kind.dec t t' r c))
    · have h1 : csub fin start = none := by unfold csub; rw [if_neg hsf]
      rw [h1]
      exact Needs.const fun _ => rfl
  · intro h hN start fin top bottom left right lower upper hsf htb hlr
    have hi := height h hN
    have hsp := spans_mono (cs := T.cs) (ss := T.ss) (start := start) (fin := fin) hi
    refine (Needs.le (n := Spec.spans T.cs T.ss start fin i +
      Spec.blocks T.cs start fin * Spec.nested 2 top bottom left right levels + 1)
      (Variable.data_needs (fun m hm => ?_)) (by omega)).depends
    obtain rfl := hget m hm
    unfold Kind.search
    rcases kind.bound lower with _ | lower
    · exact Needs.const fun _ => rfl
    rcases kind.bound upper with _ | upper
    · exact Needs.const fun _ => rfl
    simp only
    rcases (MMStruct3.span root).checkCube ⟨start, fin, top, bottom, left, right⟩ with _ | ⟨⟩
    · exact Needs.const fun _ => rfl
    · exact (SpanOp.search (utf8 := utf8) T lower upper (by omega : top ≤ bottom) (by omega : left ≤ right)).needs hnc
        (fun m a n hKm fuel bits start fin hsf =>
          Sides.search_needs (by decide) levels fuel m start fin top bottom left right lower upper hsf htb hlr
            (hK m a n hKm)) i root 0 N tl readFuel 0 start fin hsf htree

end

section
variable {H : Hash} {utf8 : List Byte → Bool} {clog : Nat → Nat} {lg : Rat → Int} {fuel readFuel ss cs : Nat}
  {levels : List Nat}

/-- C73: however a variable was filled, and whatever failed meanwhile, reads of it depend on few objects of the
store. -/
theorem C73_reads {α : Type} (kind : Kind α) (d : Dataset) (name : List Byte) (round : Option Nat)
    (enc : MMEncoding) (ops : List Op) (log : Saved) (as : List (NdArray × Nat))
    (has : as = acceptedAfter H utf8 clog lg fuel d log name (.addVariable name round ss cs levels enc) ops)
    (h : AnyHistory utf8 readFuel d name round ss cs levels enc ops)
    (hset : Settings clog levels (total as) d.rows d.cols cs ss) (hf : 32 ≤ fuel) (s : Dataset × Saved)
    (hs : s = runs H utf8 clog lg fuel (.addVariable name round ss cs levels enc :: ops) (d, log))
    (hnc : s.2.NoCollision H) :
    ∃ v, s.1.findVariable name = some v ∧
      ∀ n, ReadsFew kind utf8 n v (s.2.load H) levels cs ss (total as) := by
  obtain ⟨v, tl, h1, -, -, h2⟩ := (h.any has hset hf hs hnc).var
  exact ⟨v, h1, fun n => VarInv.readsFew h2
    (fun m a n hK => AnyChunk.sides hK utf8 _ (List.Subset.refl _) hnc) hnc⟩

end

/-- C73: a point of `cpc_precip` depends on four objects as long as there are at most 1280000 instants: the
span, the superchunk, its links and the chunk. -/
theorem C73_cpc {α : Type} {kind : Kind α} {utf8 : List Byte → Bool} {readFuel N : Nat} {v : Variable} {st : Store}
    (h : ReadsFew kind utf8 readFuel v st Example.cpcPrecip.k2Levels Example.cpcPrecip.chunkSize
      Example.cpcPrecip.spanSize N) (hN : N ≤ 1280000) (instant row col : Nat) :
    Spec.DependsOn st 4 (v.readGet kind utf8 readFuel instant row col) :=
  h.get 0 hN instant row col

/-- C73: a point of `era5_land_precip` depends on six objects as long as there are at most 1280000 instants. -/
theorem C73_era5 {α : Type} {kind : Kind α} {utf8 : List Byte → Bool} {readFuel N : Nat} {v : Variable} {st : Store}
    (h : ReadsFew kind utf8 readFuel v st Example.era5LandPrecip.k2Levels Example.era5LandPrecip.chunkSize
      Example.era5LandPrecip.spanSize N) (hN : N ≤ 1280000) (instant row col : Nat) :
    Spec.DependsOn st 6 (v.readGet kind utf8 readFuel instant row col) :=
  h.get 0 hN instant row col

/-! ### Examples -/

/-- Four instants have room in one span: a point depends on four objects. -/
example : ∃ v, (runs exampleHash (fun _ => true) exampleClog exampleLg 32
      (.addVariable [7] none 2 2 [1, 1] .i64 :: exampleMixed) (exampleDataset, [])).1.findVariable [7] = some v ∧
    Spec.DependsOn ((runs exampleHash (fun _ => true) exampleClog exampleLg 32
      (.addVariable [7] none 2 2 [1, 1] .i64 :: exampleMixed) (exampleDataset, [])).2.load exampleHash) 4
        (v.readGet .i64 (fun _ => true) 40 3 1 2) := by
  obtain ⟨v, h1, h2⟩ := C73_reads .i64 (H := exampleHash) (fuel := 32) exampleDataset [7] none .i64 exampleMixed []
    _ exampleMixed_accepted.symm exampleMixed_any (exampleSettings (by decide)) (by decide) _ rfl
    exampleMixed_noCollision
  exact ⟨v, h1, (h2 40).get 0 (by decide) 3 1 2⟩

/-- Six instants are more than one span of four has room for, so there are two levels of spans: a point
depends on five objects, and a window of two rows, two columns and one instant on as many. -/
example : ∃ v, (runs exampleHash (fun _ => true) exampleClog (fun _ => 0) 32
      (.addVariable [7] none 2 2 [1, 1] .i64 :: exampleFails) (exampleDataset, [])).1.findVariable [7] = some v ∧
    Spec.DependsOn ((runs exampleHash (fun _ => true) exampleClog (fun _ => 0) 32
      (.addVariable [7] none 2 2 [1, 1] .i64 :: exampleFails) (exampleDataset, [])).2.load exampleHash) 5
        (v.readGet .i64 (fun _ => true) 40 3 1 2) ∧
    Spec.DependsOn ((runs exampleHash (fun _ => true) exampleClog (fun _ => 0) 32
      (.addVariable [7] none 2 2 [1, 1] .i64 :: exampleFails) (exampleDataset, [])).2.load exampleHash) 5
        (v.readWindow .i64 (fun _ => true) 40 ⟨3, 4, 2, 4, 0, 2⟩) := by
  obtain ⟨v, h1, h2⟩ := C73_reads .i64 (H := exampleHash) (lg := fun _ => 0) (fuel := 32)
    exampleDataset [7] none .i64 exampleFails [] _ exampleFails_accepted.symm exampleFails_any
    (exampleSettings (by decide)) (by decide) _ rfl (by
      unfold Saved.NoCollision
      decide +kernel)
  exact ⟨v, h1, (h2 40).get 1 (by decide) 3 1 2, (h2 40).window 1 (by decide) 3 4 2 4 0 2 (by decide) (by decide)⟩

end Verif
