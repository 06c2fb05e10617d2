import Verif.Lemmas.AnyData
import Verif.Props.Resolver
import Verif.Props.Accepted

/-!
Properties C28, C45 and C64 for arrays of any type with any values: what does not depend on the values
holds whatever they are, and whatever fails.
-/
namespace Verif

open Prog hiding pure bind

section
variable {H : Hash} {utf8 : List Byte → Bool} {clog : Nat → Nat} {lg : Rat → Int} {fuel readFuel : Nat}
  {levels : List Nat} {cs ss : Nat}

/-- C28: what the builder makes fits the format whatever is in the buffer, so that it reads back
(`C28_round_trip_partial`). -/
theorem C28_any_built {k : Nat} {b : MMBuffer3} {n rows cols : Nat} {log log' : Saved} {r : MMStruct3Build}
    (hk : 2 ≤ k) (hk' : k < 256) (hclog : ClogOk clog k (max rows cols)) (hr : 0 < rows) (hc : 0 < cols)
    (hn : n < 2 ^ 32) (hl : LevelsOk k n levels) (hbits : b.fractionalBits < 256)
    (hb : Superchunk.build H clog lg k levels log b n rows cols = some (r, log')) : r.data.WF :=
  (superchunk_repr (anyReads clog lg k) H (fun _ => true) hk hk' _ n hclog hn levels hl (fun _ _ => trivial) log b
    rows cols r log' hbits hr hc (Nat.le_max_left ..) (Nat.le_max_right ..) hb).2.1

theorem AnyHistory.any {d : Dataset} {name : List Byte} {round : Option Nat} {enc : MMEncoding} {ops : List Op}
    {log : Saved} {as : List (NdArray × Nat)}
    (has : as = acceptedAfter H utf8 clog lg fuel d log name (.addVariable name round ss cs levels enc) ops)
    (h : AnyHistory utf8 readFuel d name round ss cs levels enc ops)
    (hset : Settings clog levels (total as) d.rows d.cols cs ss) (hf : 32 ≤ fuel) {s : Dataset × Saved}
    (hs : s = runs H utf8 clog lg fuel (.addVariable name round ss cs levels enc :: ops) (d, log))
    (hnc : s.2.NoCollision H) :
    HistInv H utf8 (hset.theory H enc) levels round name s (total as) := by
  have hfo : Follows (NextAny (total as)) 0 as := follows_any _ _ (by omega)
  have hinv := AnyHistory.inv (H := H) (T := hset.theory H enc) (lg := lg) (fuel := fuel)
    (Next := NextAny (total as)) h rfl rfl (hset.appends hf)
    (fun M data n hn => Nat.le_trans hn (Nat.le_max_right ..)) hf log
    (Eq.subst (motive := Follows _ 0) has hfo) (hs ▸ hnc)
  subst hs
  have ht : total (acceptedAfter H utf8 clog lg fuel d log name (.addVariable name round ss cs levels enc) ops) =
    total as := by rw [has]
  exact (congrArg (HistInv H utf8 (hset.theory H enc) levels round name _) ht).mp hinv

/-- C64: whatever is appended and whatever fails, the number of instants of a variable is that of the
arrays whose appends succeeded, and it keeps the shape of the data set and its type. -/
theorem C64_instants (d : Dataset) (name : List Byte) (round : Option Nat) (enc : MMEncoding) (ops : List Op)
    (log : Saved) (as : List (NdArray × Nat))
    (has : as = acceptedAfter H utf8 clog lg fuel d log name (.addVariable name round ss cs levels enc) ops)
    (h : AnyHistory utf8 readFuel d name round ss cs levels enc ops)
    (hset : Settings clog levels (total as) d.rows d.cols cs ss) (hf : 32 ≤ fuel) (s : Dataset × Saved)
    (hs : s = runs H utf8 clog lg fuel (.addVariable name round ss cs levels enc :: ops) (d, log))
    (hnc : s.2.NoCollision H) :
    ∃ v m, s.1.findVariable name = some v ∧ (s.2.load H).getStruct utf8 v.cid = .ok m ∧
      m.shape = some (total as, d.rows, d.cols) ∧ m.encoding = enc := by
  obtain ⟨v, tl, h1, -, -, -, -, -, i, root, h2, h3, -⟩ := (h.any has hset hf hs hnc).var
  refine ⟨v, .span root, h1, h2.get utf8 hnc, ?_, h3.shaped.encoding⟩
  have e1 := h3.shaped.rows
  have e2 := h3.shaped.cols
  have e3 := h3.instants
  change root.rows = d.rows at e1
  change root.cols = d.cols at e2
  change some (root.instants, root.rows, root.cols) = _
  rw [e1, e2, e3]

/-- C45: whatever is appended and whatever fails, everything that can be reached through listings from a
variable is stored, and listing it gives the type and the size of everything it refers to. Reads of the variable
have the same outcome in every other store that has the objects reachable. -/
theorem C45_history (d : Dataset) (name : List Byte) (round : Option Nat) (enc : MMEncoding) (ops : List Op)
    (log : Saved) (as : List (NdArray × Nat))
    (has : as = acceptedAfter H utf8 clog lg fuel d log name (.addVariable name round ss cs levels enc) ops)
    (h : AnyHistory utf8 readFuel d name round ss cs levels enc ops)
    (hset : Settings clog levels (total as) d.rows d.cols cs ss) (hf : 32 ≤ fuel) (s : Dataset × Saved)
    (hs : s = runs H utf8 clog lg fuel (.addVariable name round ss cs levels enc :: ops) (d, log))
    (hnc : s.2.NoCollision H) :
    ∃ v m, s.1.findVariable name = some v ∧ (s.2.load H).getStruct utf8 v.cid = .ok m ∧
      (∀ c, Reach utf8 (s.2.load H) v.cid c → ∃ x es, (s.2.load H).retrieve utf8 c = .ok x ∧
        (s.2.load H).ls utf8 c = .ok es ∧ es.map LsEntry.cid = x.refs ∧
        ∀ e ∈ es, e.nodeType ≠ none ∧ e.size ≠ none) ∧
      ∀ st', (∀ c, Reach utf8 (s.2.load H) v.cid c → st' c = s.2.load H c) →
        st'.getStruct utf8 v.cid = .ok m ∧ SameReads utf8 (s.2.load H) st' m := by
  obtain ⟨v, root, dep, h1, h2, h3⟩ := (h.any has hset hf hs hnc).ground (d := 2 * levels.length + 1)
    fun m a n hK => AnyChunk.ground hK utf8 _ (List.Subset.refl _)
  obtain ⟨a1, a2, a3⟩ := Ground.complete hnc h2 h3
  exact ⟨v, .span root, h1, a1, a2, a3⟩

/-- C74: whatever is appended and whatever fails, a variable is one array. Reads through an array of its type
never fail, and there is one value for each cell of each instant such that every `get`, `cell` and `window` gives
these values. Searches never fail either and give cells of the window, each at most once. (The values are
those that were appended unless something overflows, `C64_int_partial`.) -/
theorem C74_one_array (d : Dataset) (name : List Byte) (round : Option Nat) (enc : MMEncoding) (ops : List Op)
    (log : Saved) (as : List (NdArray × Nat))
    (has : as = acceptedAfter H utf8 clog lg fuel d log name (.addVariable name round ss cs levels enc) ops)
    (h : AnyHistory utf8 readFuel d name round ss cs levels enc ops)
    (hset : Settings clog levels (total as) d.rows d.cols cs ss) (hf : 32 ≤ fuel)
    (hrf : levels.length + 34 ≤ readFuel) (s : Dataset × Saved)
    (hs : s = runs H utf8 clog lg fuel (.addVariable name round ss cs levels enc :: ops) (d, log))
    (hnc : s.2.NoCollision H) :
    ∃ v m, s.1.findVariable name = some v ∧ ∀ (α : Type) (kind : Kind α), kind.encoding = enc →
      v.data kind utf8 (s.2.load H) = .ok m ∧
      (∃ D, ArrayReads kind utf8 (s.2.load H) readFuel m (total as) d.rows d.cols D) ∧
      ∀ start fin top bottom left right lower upper, kind.bound lower ≠ none → kind.bound upper ≠ none →
        start ≤ fin → 0 < fin → fin ≤ total as → top < bottom → left < right → bottom ≤ d.rows → right ≤ d.cols →
        ∃ L : List (Nat × Nat × Nat), (kind.search utf8 (s.2.load H) readFuel m
          (Cube.new start fin top bottom left right) lower upper).Yields (L.map some) ∧ L.Nodup ∧
          ∀ q ∈ L, (start ≤ q.1 ∧ q.1 < fin) ∧ (top ≤ q.2.1 ∧ q.2.1 < bottom) ∧ left ≤ q.2.2 ∧ q.2.2 < right := by
  obtain ⟨v, tl, h1, -, -, -, -, -, i, root, h2, h3, h7, -⟩ := (h.any has hset hf hs hnc).var
  have hh := VarTheory.height_lt _ h7
  have hsnd : Sound utf8 (s.2.load H) (levels.length + 1 + i + 1) (.span root) (total as) d.rows d.cols :=
    Tree.represents (T := hset.theory H enc) (D := fun _ _ _ => ()) (d := levels.length + 1) hnc
      (fun m a n hK => AnyChunk.sound hK utf8 _ (List.Subset.refl _) hnc) _ _ _ _ _ h3
  have hshape : (MMStruct3.span root).shape = some (total as, d.rows, d.cols) := h3.shape
  refine ⟨v, .span root, h1, fun α kind henc => ⟨?_, ?_, ?_⟩⟩
  · unfold Variable.data Kind.new
    rw [h2.get utf8 hnc]
    simp only
    rw [if_neg (not_not.2 (show (MMStruct3.span root).encoding = kind.encoding from
      (h3.shaped.encoding : root.encoding = enc).trans henc.symm))]
  · obtain ⟨D, hD⟩ := hsnd.represents kind.dec
    exact ⟨D, (Reads.of_repr (fun _ _ _ _ _ h => h) hshape hD (by omega)).array⟩
  · intro start fin top bottom left right lower upper hlo hup a1 a0 a2 a3 a4 a5 a6
    obtain ⟨lo, hlo⟩ := Option.ne_none_iff_exists'.1 hlo
    obtain ⟨up, hup⟩ := Option.ne_none_iff_exists'.1 hup
    obtain ⟨L, hL, hp⟩ := Sound.finds _ readFuel _ _ _ _ hsnd (by omega) start fin top bottom left right lo up
      a1 a2 a3 a4 a5 a6
    rw [Cube.new_eq a1 (by omega) (by omega)]
    refine ⟨L, ?_, subperm_nodup hp (Spec.cells3_nodup ..), fun q hq => Spec.mem_cells3.1 (hp.subset hq)⟩
    unfold Kind.search
    rw [hlo, hup, checkCube_some hshape (by exact a0) (by exact a2) (by change 0 < bottom; omega) (by exact a5)
      (by change 0 < right; omega) (by exact a6)]
    exact hL

theorem AnyHistory.room {d : Dataset} {name : List Byte} {round : Option Nat} {enc : MMEncoding} {ops : List Op}
    {log : Saved} {as : List (NdArray × Nat)} {N : Nat}
    (has : as = acceptedAfter H utf8 clog lg fuel d log name (.addVariable name round ss cs levels enc) ops)
    (h : AnyHistory utf8 readFuel d name round ss cs levels enc ops)
    (hset : Settings clog levels N d.rows d.cols cs ss) (hN : total as ≤ N) (hf : 32 ≤ fuel) {s : Dataset × Saved}
    (hs : s = runs H utf8 clog lg fuel (.addVariable name round ss cs levels enc :: ops) (d, log))
    (hnc : s.2.NoCollision H) :
    HistInv H utf8 (hset.theory H enc) levels round name s (total as) := by
  have hfo : Follows (NextAny N) 0 as := follows_any _ _ (by omega)
  have hinv := AnyHistory.inv (H := H) (T := hset.theory H enc) (lg := lg) (fuel := fuel)
    (Next := NextAny N) h rfl rfl (hset.appends hf)
    (fun M data n hn => Nat.le_trans hn (Nat.le_max_right ..)) hf log
    (Eq.subst (motive := Follows _ 0) has hfo) (hs ▸ hnc)
  subst hs
  have ht : total (acceptedAfter H utf8 clog lg fuel d log name (.addVariable name round ss cs levels enc) ops) =
    total as := by rw [has]
  exact (congrArg (HistInv H utf8 (hset.theory H enc) levels round name _) ht).mp hinv

/-- C57, what is true of the code: a variable with a chunk size of at least 1, a span size of at least 2 and
levels that the builder accepts for all integers takes any append of integers of the right shape, after any
history, whatever was appended, whatever its type is, and whatever has failed. -/
theorem C57_works (d : Dataset) (name : List Byte) (round : Option Nat) (enc : MMEncoding) (ops : List Op)
    (log : Saved) (fill : Fill) (data : NdArray) (n : Nat) (as : List (NdArray × Nat))
    (has : as = acceptedAfter H utf8 clog lg fuel d log name (.addVariable name round ss cs levels enc) ops)
    (h : AnyHistory utf8 readFuel d name round ss cs levels enc ops)
    (hset : Settings clog levels (total as + n) d.rows d.cols cs ss) (hlev : Fitting clog levels d.rows d.cols)
    (hfill : fill.Valid utf8 readFuel) (hdata : (∃ a, data = .i32 a) ∨ ∃ a, data = .i64 a)
    (hf : 32 ≤ fuel) (hrf : levels.length < readFuel) (s : Dataset × Saved)
    (hs : s = runs H utf8 clog lg fuel (.addVariable name round ss cs levels enc :: ops) (d, log))
    (hnc : (Dataset.append H utf8 clog lg fuel fill s.1 name data n d.rows d.cols s.2).2.NoCollision H) :
    ∃ d' log', Dataset.append H utf8 clog lg fuel fill s.1 name data n d.rows d.cols s.2 = (.ok d', log') := by
  have hnc0 : s.2.NoCollision H := NoCollision.mono (Dataset.append_mono fill _ name data n d.rows d.cols _) hnc
  have hinv := h.room has hset (by omega) hf hs hnc0
  obtain ⟨d', log', e, -⟩ := (HistInv.append (hset.appends_int (H := H) (enc := enc) (lg := lg) hlev hf hrf) hinv hfill
    ⟨Nat.le_refl _, hdata⟩).ok hnc
  exact ⟨d', log', e⟩

/-- One or two levels that add up to the logarithm of the longer side are accepted for all integers. -/
theorem C57_two_levels (rows cols : Nat) (hl : levels ≠ []) (hl2 : levels.length ≤ 2)
    (hsum : levels.sum = clog (max rows cols)) : Fitting clog levels rows cols := by
  intro n get
  match levels, hl, hl2, hsum with
  | [_], _, _, hs => exact ⟨hs, trivial⟩
  | [_, _], _, _, hs => exact ⟨hs, trivial⟩

/-- C64: whatever was appended before, an append of an array with other rows or columns than the data set fails,
if the array has instants. -/
theorem C64_shape (d : Dataset) (name : List Byte) (round : Option Nat) (enc : MMEncoding) (ops : List Op)
    (log : Saved) (as : List (NdArray × Nat))
    (has : as = acceptedAfter H utf8 clog lg fuel d log name (.addVariable name round ss cs levels enc) ops)
    (h : AnyHistory utf8 readFuel d name round ss cs levels enc ops)
    (hset : Settings clog levels (total as) d.rows d.cols cs ss) (hf : 32 ≤ fuel) (s : Dataset × Saved)
    (hs : s = runs H utf8 clog lg fuel (.addVariable name round ss cs levels enc :: ops) (d, log))
    (fill : Fill) (data : NdArray) (n rows cols : Nat) (hn : 1 ≤ n) (hne : rows ≠ d.rows ∨ cols ≠ d.cols)
    (hnc : (Dataset.append H utf8 clog lg fuel fill s.1 name data n rows cols s.2).2.NoCollision H) :
    ∃ f log', Dataset.append H utf8 clog lg fuel fill s.1 name data n rows cols s.2 = (.error f, log') := by
  have hnc0 : s.2.NoCollision H := NoCollision.mono (Dataset.append_mono fill _ name data n rows cols _) hnc
  obtain ⟨v, tl, h1, h2, h0, h3⟩ := (h.any has hset hf hs hnc0).var
  have hsat : Sat True H (Dataset.append H utf8 clog lg fuel fill s.1 name data n rows cols) s.2
      (fun _ _ => False) := by
    unfold Dataset.append
    rw [h1]
    refine Sat.bind (Q := fun _ _ => False) (Variable.appendArray_mono H utf8 clog lg fuel fill v data n rows cols)
      (fun _ => Mono.pure _) ?_ fun _ _ _ h => h.elim
    exact (Variable.appendArray_other hf h3 (Nat.le_max_right ..) hne).mono fun _ _ h => by omega
  rcases hsat hnc with ⟨_, _, _, h⟩ | ⟨-, h⟩
  · exact h.elim
  · exact h

end

/-! ### Examples -/

/-- Numbers of every type, appended to a variable of 64-bit integers: the type of arrays is not checked (F23).
The differences of the first array overflow. The second does not fit, and the last cannot be built. -/
def exampleMixed : List Op :=
  [.append exampleFill [7] (.i64 fun t r c => if (t + r + c) % 2 = 0 then Int64.minValue else Int64.maxValue) 2 4 4,
    .append exampleFill [7] (.i64 exampleGrid) 2 3 4, .reload,
    .append exampleFill [7] (.flt .single (exampleFltSeries fun z => z / 4)) 2 4 4,
    .append exampleFill [7] (.flt .single fun _ r c => .fin ((r + c : Nat) / 2 ^ 62)) 1 4 4]

theorem exampleMixed_accepted : acceptedAfter exampleHash (fun _ => true) exampleClog exampleLg 32
    exampleDataset [] [7] (.addVariable [7] none 2 2 [1, 1] .i64) exampleMixed =
      [(.i64 fun t r c => if (t + r + c) % 2 = 0 then Int64.minValue else Int64.maxValue, 2),
        (.flt .single (exampleFltSeries fun z => z / 4), 2)] := by
  unfold acceptedAfter exampleMixed accepted
  rw [Op.taken_eq true (by decide +kernel)]
  unfold accepted
  rw [Op.taken_eq false (by decide +kernel)]
  unfold accepted
  rw [Op.taken_eq true (by decide +kernel)]
  unfold accepted
  rw [Op.taken_eq true (by decide +kernel)]
  unfold accepted
  rw [Op.taken_eq false (by decide +kernel)]
  rfl

theorem exampleMixed_any :
    AnyHistory (fun _ => true) 40 exampleDataset [7] none 2 2 [1, 1] .i64 exampleMixed where
  dataset := exampleHistory.dataset
  new := rfl
  fits := exampleHistory.fits
  count := by decide +kernel
  each := by
    have hf := exampleFill_valid
    intro op ho
    simp only [exampleMixed, List.mem_cons, List.not_mem_nil, or_false] at ho
    rcases ho with rfl | rfl | rfl | rfl | rfl
    · exact ⟨trivial, fun _ => hf⟩
    · exact ⟨trivial, fun _ => hf⟩
    · exact ⟨trivial, trivial⟩
    · exact ⟨trivial, fun _ => hf⟩
    · exact ⟨trivial, fun _ => hf⟩

theorem exampleSettings {N : Nat} (h : N < 2 ^ 32) : Settings exampleClog [1, 1] N exampleDataset.rows exampleDataset.cols 2 2 :=
  ⟨exampleClogOk.mono (by decide), by decide, by decide, by decide, by decide, by decide, by decide,
    by decide, by decide, h, ⟨by decide, by decide, by decide⟩⟩

theorem exampleMixed_noCollision : (runs exampleHash (fun _ => true) exampleClog exampleLg 32
    (.addVariable [7] none 2 2 [1, 1] .i64 :: exampleMixed) (exampleDataset, [])).2.NoCollision exampleHash := by
  unfold Saved.NoCollision
  decide +kernel

/-- The assumptions of `C64_instants` and `C45_history`. -/
example : ∃ v m,
    (runs exampleHash (fun _ => true) exampleClog exampleLg 32
      (.addVariable [7] none 2 2 [1, 1] .i64 :: exampleMixed) (exampleDataset, [])).1.findVariable [7] = some v ∧
    ((runs exampleHash (fun _ => true) exampleClog exampleLg 32
      (.addVariable [7] none 2 2 [1, 1] .i64 :: exampleMixed) (exampleDataset, [])).2.load exampleHash).getStruct
        (fun _ => true) v.cid = .ok m ∧
    m.shape = some (4, 4, 4) ∧ m.encoding = .i64 :=
  C64_instants (H := exampleHash) (fuel := 32) exampleDataset [7] none .i64 exampleMixed [] _
    exampleMixed_accepted.symm exampleMixed_any (exampleSettings (by decide)) (by decide) _ rfl
    exampleMixed_noCollision

/-- The assumptions of `C74_one_array`. -/
example : ∃ v m,
    (runs exampleHash (fun _ => true) exampleClog exampleLg 32
      (.addVariable [7] none 2 2 [1, 1] .i64 :: exampleMixed) (exampleDataset, [])).1.findVariable [7] = some v ∧
    ∃ D, ArrayReads Kind.i64 (fun _ => true) ((runs exampleHash (fun _ => true) exampleClog exampleLg 32
      (.addVariable [7] none 2 2 [1, 1] .i64 :: exampleMixed) (exampleDataset, [])).2.load exampleHash) 40 m 4 4 4 D :=
  let ⟨v, m, h1, h2⟩ := C74_one_array (H := exampleHash) (fuel := 32) (readFuel := 40) exampleDataset [7] none .i64
    exampleMixed [] _ exampleMixed_accepted.symm exampleMixed_any (exampleSettings (by decide)) (by decide)
    (by decide) _ rfl exampleMixed_noCollision
  ⟨v, m, h1, (h2 Int64 .i64 rfl).2.1⟩

/-- The assumptions of `C57_works` and `C64_shape`: after numbers of every type, integers are still taken. -/
example : ∃ d' log', Dataset.append exampleHash (fun _ => true) exampleClog exampleLg 32 exampleFill
    (runs exampleHash (fun _ => true) exampleClog exampleLg 32
      (.addVariable [7] none 2 2 [1, 1] .i64 :: exampleMixed) (exampleDataset, [])).1 [7] (.i64 exampleGrid) 3 4 4
    (runs exampleHash (fun _ => true) exampleClog exampleLg 32
      (.addVariable [7] none 2 2 [1, 1] .i64 :: exampleMixed) (exampleDataset, [])).2 = (.ok d', log') :=
  C57_works (H := exampleHash) (fuel := 32) (readFuel := 40) exampleDataset [7] none .i64 exampleMixed [] exampleFill
    (.i64 exampleGrid) 3 _ exampleMixed_accepted.symm exampleMixed_any (exampleSettings (by decide))
    (C57_two_levels _ _ (by decide) (by decide) (by decide)) exampleFill_valid (.inr ⟨_, rfl⟩) (by decide) (by decide)
    _ rfl (by unfold Saved.NoCollision; decide +kernel)

example : ∃ f log', Dataset.append exampleHash (fun _ => true) exampleClog exampleLg 32 exampleFill
    (runs exampleHash (fun _ => true) exampleClog exampleLg 32
      (.addVariable [7] none 2 2 [1, 1] .i64 :: exampleMixed) (exampleDataset, [])).1 [7] (.i64 exampleGrid) 3 4 5
    (runs exampleHash (fun _ => true) exampleClog exampleLg 32
      (.addVariable [7] none 2 2 [1, 1] .i64 :: exampleMixed) (exampleDataset, [])).2 = (.error f, log') :=
  C64_shape (H := exampleHash) (fuel := 32) (readFuel := 40) exampleDataset [7] none .i64 exampleMixed [] _
    exampleMixed_accepted.symm exampleMixed_any (exampleSettings (by decide)) (by decide) _ rfl exampleFill
    (.i64 exampleGrid) 3 4 5 (by decide) (by decide) (by unfold Saved.NoCollision; decide +kernel)

end Verif
