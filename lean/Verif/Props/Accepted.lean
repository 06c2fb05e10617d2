import Verif.Lemmas.Accepted
import Verif.Props.DatasetFloat

/-!
Property C64: whatever fails, a variable holds the arrays whose appends succeeded.
-/
namespace Verif

open Prog hiding pure bind

/-- The assumptions on a history in which anything may fail: a variable is added to a data set that
has no variable of that name, then follow any operations; arrays may have any shape. -/
structure AnyHistory (utf8 : List Byte → Bool) (readFuel : Nat) (d : Dataset)
    (name : List Byte) (round : Option Nat) (ss cs : Nat) (levels : List Nat) (enc : MMEncoding)
    (ops : List Op) : Prop where
  dataset : d.Fits utf8
  new : d.findVariable name = none
  fits : (Op.addVariable name round ss cs levels enc).Fits utf8
  count : d.variables.length + 1 + adds ops < 256
  each : ∀ op ∈ ops, op.Fits utf8 ∧ op.Reads utf8 readFuel name

section
variable {H : Hash} {utf8 : List Byte → Bool} {clog : Nat → Nat} {lg : Rat → Int} {fuel readFuel : Nat}
  {levels : List Nat} {cs ss : Nat}

variable (H utf8 clog lg fuel) in
/-- The arrays whose appends to the variable succeeded after it was added. -/
def acceptedAfter (d : Dataset) (log : Saved) (name : List Byte) (add : Op) (ops : List Op) :
    List (NdArray × Nat) :=
  accepted H utf8 clog lg fuel name ops (add.step H utf8 clog lg fuel (d, log))

theorem AnyHistory.inv {T : VarTheory} {Next : Nat → NdArray → Nat → Prop} {d : Dataset}
    {name : List Byte} {round : Option Nat} {ops : List Op}
    (h : AnyHistory utf8 readFuel d name round T.ss T.cs levels T.enc ops)
    (hr : d.rows = T.rows) (hc : d.cols = T.cols)
    (ha : Appends True H utf8 clog lg fuel readFuel T levels round Next)
    (hB : ∀ M data n, Next M data n → M + n ≤ T.B) (hf : 32 ≤ fuel) (log : Saved)
    (hfo : Follows Next 0 (acceptedAfter H utf8 clog lg fuel d log name
      (.addVariable name round T.ss T.cs levels T.enc) ops))
    (hnc : (runs H utf8 clog lg fuel (.addVariable name round T.ss T.cs levels T.enc :: ops)
      (d, log)).2.NoCollision H) :
    HistInv H utf8 T levels round name (runs H utf8 clog lg fuel
      (.addVariable name round T.ss T.cs levels T.enc :: ops) (d, log))
      (total (acceptedAfter H utf8 clog lg fuel d log name
        (.addVariable name round T.ss T.cs levels T.enc) ops)) := by
  have hnc1 : ((Op.addVariable name round T.ss T.cs levels T.enc).step H utf8 clog lg fuel
      (d, log)).2.NoCollision H := NoCollision.mono (runs_mono ops _) hnc
  have hcount := h.count
  have h1 := HistInv.start (H := H) (lg := lg) (clog := clog) (fuel := fuel) (log := log) (round := round)
    T h.dataset hr hc h.new h.fits (by omega) hnc1
  have hlen : ((Op.addVariable name round T.ss T.cs levels T.enc).step H utf8 clog lg fuel
      (d, log)).1.variables.length = d.variables.length + 1 := by
    change (d.variables ++ [_]).length = _
    simp
  have := HistInv.runs_accepted ha hB hf ops _ 0 h1 h.each (by rw [hlen]; omega) hfo hnc
  rwa [Nat.zero_add] at this

/-- C64: after any history in which any operations may have failed, for whatever reason (rasters that
the superchunk builder refuses, arrays of the wrong shape, unknown names), reads of a variable of
integers give the arrays whose appends succeeded, one after the other and nothing else, and searches
find what is in them if the rasters can be searched.

Partial: the arrays that were accepted are all of 32 or all of 64 bits, they split no square of a
chunk by overflow (`C07_exact`), and the settings are within the limits of the format
(`IntBase`). -/
theorem C64_int_partial (d : Dataset) (name : List Byte) (round : Option Nat)
    (enc : MMEncoding) (ops : List Op) (log : Saved) (as : List (NdArray × Nat))
    (has : as = acceptedAfter H utf8 clog lg fuel d log name (.addVariable name round ss cs levels enc) ops)
    (h : AnyHistory utf8 readFuel d name round ss cs levels enc ops) (htype : OneType as)
    (hint : IntBase clog levels (concatInt as) (total as) d.rows d.cols cs ss)
    (hf : 32 ≤ fuel) (hrf : levels.length + 34 ≤ readFuel)
    (s : Dataset × Saved)
    (hs : s = runs H utf8 clog lg fuel (.addVariable name round ss cs levels enc :: ops) (d, log))
    (hnc : s.2.NoCollision H) :
    ∃ v m, s.1.findVariable name = some v ∧ (s.2.load H).getStruct utf8 v.cid = .ok m ∧
      m.encoding = enc ∧
      ReadsAs utf8 (s.2.load H) readFuel m (total as) d.rows d.cols (concatInt as) ∧
      (IntSafe clog levels (concatInt as) (total as) d.rows d.cols cs →
        SearchesAs utf8 (s.2.load H) readFuel m (total as) d.rows d.cols (concatInt as)) := by
  have hfo : Follows (NextInt (concatInt as) (total as) d.rows d.cols) 0 as := by
    refine follows_int _ _ (by omega) (fun t r c _ _ _ => by rw [Nat.zero_add]) ?_
    rcases htype with h | h
    · exact .inl h
    · exact .inr ⟨h, fun t r c ht => by omega⟩
  have hinv := AnyHistory.inv (H := H) (T := hint.theory H enc) (lg := lg) (fuel := fuel)
    (Next := NextInt (concatInt as) (total as) d.rows d.cols) h rfl rfl
    (hint.appends hf (by omega) (.inl trivial)) (fun M data n hn => Nat.le_trans hn.1 (Nat.le_max_right ..)) hf log
    (Eq.subst (motive := Follows _ 0) has hfo) (hs ▸ hnc)
  subst hs
  have ht : total (acceptedAfter H utf8 clog lg fuel d log name (.addVariable name round ss cs levels enc) ops) =
    total as := by rw [has]
  obtain ⟨v, m, h1, h2, h3, -, h4⟩ := (ht ▸ hinv).reads hint _ (List.Subset.refl _) hnc hrf
  exact ⟨v, m, h1, h2, h3, h4⟩

/-- C64 for floats: reads give the arrays whose appends succeeded, rounded.

Partial: as C31 for floats, but that the superchunk builder accepts the rasters (`FltBase`). -/
theorem C64_float_partial {p : Prec} {B : Nat} (d : Dataset) (name : List Byte) (round : Option Nat)
    (ops : List Op) (log : Saved) (as : List (NdArray × Nat))
    (has : as = acceptedAfter H utf8 clog lg fuel d log name
      (.addVariable name round ss cs levels p.kind.encoding) ops)
    (h : AnyHistory utf8 readFuel d name round ss cs levels p.kind.encoding ops)
    (htype : ∀ x ∈ as, ∃ a, x.1 = .flt p a)
    (hflt : FltBase clog lg levels p B round (concatFlt as) (total as) d.rows d.cols cs ss)
    (hf : 32 ≤ fuel) (hrf : levels.length + 34 ≤ readFuel) (s : Dataset × Saved)
    (hs : s = runs H utf8 clog lg fuel (.addVariable name round ss cs levels p.kind.encoding :: ops)
      (d, log))
    (hnc : s.2.NoCollision H) :
    ∃ v m, s.1.findVariable name = some v ∧ v.data p.kind utf8 (s.2.load H) = .ok m ∧
      ArrayReads p.kind utf8 (s.2.load H) readFuel m (total as) d.rows d.cols
        (fun t r c => (concatFlt as t r c).rounded B) := by
  have hfo : Follows (NextFlt p (concatFlt as) (total as) d.rows d.cols) 0 as :=
    follows_flt _ _ (by omega) (fun t r c _ _ _ => by rw [Nat.zero_add]) htype
  have hinv := AnyHistory.inv (H := H) (T := hflt.theory H p.kind.encoding) (lg := lg) (fuel := fuel)
    (Next := NextFlt p (concatFlt as) (total as) d.rows d.cols) h rfl rfl
    (hflt.appends hf (by omega) (.inl trivial)) (fun M data n hn => Nat.le_trans hn.1 (Nat.le_max_right ..)) hf log
    (Eq.subst (motive := Follows _ 0) has hfo) (hs ▸ hnc)
  subst hs
  have ht : total (acceptedAfter H utf8 clog lg fuel d log name
    (.addVariable name round ss cs levels p.kind.encoding) ops) = total as := by rw [has]
  obtain ⟨v, m, h1, h2, h3, h4⟩ := (ht ▸ hinv).floats hflt _ (List.Subset.refl _) hnc hrf
  refine ⟨v, m, h1, Variable.data_ok h2 h3, Reads.array ?_⟩
  cases p <;> exact h4

end

/-! ### Examples -/

/-- Appends of which some fail: the third has the wrong shape, and the fourth the wrong name. -/
def exampleFails : List Op :=
  [.append exampleFill [7] (.i64 exampleGrid) 2 4 4, .reload,
    .append exampleFill [7] (.i64 exampleGrid) 2 3 4, .append exampleFill [9] (.i64 exampleGrid) 2 4 4,
    .append exampleFill [7] (.i64 fun t => exampleGrid (2 + t)) 4 4 4]

theorem Op.taken_eq {H : Hash} {utf8 : List Byte → Bool} {clog : Nat → Nat} {lg : Rat → Int} {fuel : Nat}
    {name : List Byte} {op : Op} {s : Dataset × Saved} (ok : Bool)
    (h : (op.prog H utf8 clog lg fuel s.1 s.2).1.isOk = ok) :
    op.taken H utf8 clog lg fuel name s = if ok then arrays name [op] else [] := by
  unfold Op.taken
  cases e : (op.prog H utf8 clog lg fuel s.1 s.2).1 with
  | ok a => rw [e] at h; subst h; rfl
  | error f => rw [e] at h; subst h; rfl

theorem exampleFails_accepted : acceptedAfter exampleHash (fun _ => true) exampleClog (fun _ => 0) 32
    exampleDataset [] [7] (.addVariable [7] none 2 2 [1, 1] .i64) exampleFails =
      [(.i64 exampleGrid, 2), (.i64 fun t => exampleGrid (2 + t), 4)] := by
  unfold acceptedAfter exampleFails accepted
  rw [Op.taken_eq true (by decide +kernel)]
  unfold accepted
  rw [Op.taken_eq true (by decide +kernel)]
  unfold accepted
  rw [Op.taken_eq false (by decide +kernel)]
  unfold accepted
  rw [Op.taken_eq false (by decide +kernel)]
  unfold accepted
  rw [Op.taken_eq true (by decide +kernel)]
  rfl

theorem exampleFails_any : AnyHistory (fun _ => true) 40 exampleDataset [7] none 2 2 [1, 1] .i64 exampleFails where
  dataset := exampleHistory.dataset
  new := rfl
  fits := exampleHistory.fits
  count := by decide +kernel
  each := by
    have hf := exampleFill_valid
    intro op ho
    simp only [exampleFails, List.mem_cons, List.not_mem_nil, or_false] at ho
    rcases ho with rfl | rfl | rfl | rfl | rfl
    · exact ⟨trivial, fun _ => hf⟩
    · exact ⟨trivial, trivial⟩
    · exact ⟨trivial, fun _ => hf⟩
    · exact ⟨trivial, fun _ => hf⟩
    · exact ⟨trivial, fun _ => hf⟩

/-- The assumptions of `C64_int_partial`. -/
example : ∃ v m,
    (runs exampleHash (fun _ => true) exampleClog (fun _ => 0) 32
      (.addVariable [7] none 2 2 [1, 1] .i64 :: exampleFails) (exampleDataset, [])).1.findVariable [7] = some v ∧
    ((runs exampleHash (fun _ => true) exampleClog (fun _ => 0) 32
      (.addVariable [7] none 2 2 [1, 1] .i64 :: exampleFails) (exampleDataset, [])).2.load exampleHash).getStruct
        (fun _ => true) v.cid = .ok m ∧
    m.shape = some (6, 4, 4) := by
  have hint := exampleHistory.int.toIntBase
  rw [exampleArrays] at hint
  obtain ⟨v, m, h1, h2, -, h3, -⟩ := C64_int_partial (H := exampleHash) (lg := fun _ => 0) (fuel := 32)
    exampleDataset [7] none .i64 exampleFails [] _ exampleFails_accepted.symm exampleFails_any
    (by have := exampleHistory.type; rwa [exampleArrays] at this) hint (by decide) (by decide) _ rfl (by
      unfold Saved.NoCollision
      decide +kernel)
  exact ⟨v, m, h1, h2, h3.shape⟩

/-- Two of these appends fail: one has too few rows, one is of a number that needs too many bits. -/
def exampleFloatFails : List Op :=
  [.append exampleFill [7] (.flt .single (exampleFltSeries fun z => z / 4)) 2 4 4,
    .append exampleFill [7] (.flt .single (exampleFltSeries fun z => z / 4)) 2 3 4, .reload,
    .append exampleFill [7] (.flt .single fun _ r c => .fin ((r + c : Nat) / 2 ^ 62)) 1 4 4,
    .append exampleFill [7] (.flt .single fun t => exampleFltSeries (fun z => z / 4) (2 + t)) 4 4 4]

theorem exampleFloatFails_accepted : acceptedAfter exampleHash (fun _ => true) exampleClog exampleLg 32
    exampleDataset [] [7] (.addVariable [7] none 2 2 [1, 1] .f32) exampleFloatFails =
      [(.flt .single (exampleFltSeries fun z => z / 4), 2),
        (.flt .single fun t => exampleFltSeries (fun z => z / 4) (2 + t), 4)] := by
  unfold acceptedAfter exampleFloatFails accepted
  rw [Op.taken_eq true (by decide +kernel)]
  unfold accepted
  rw [Op.taken_eq false (by decide +kernel)]
  unfold accepted
  rw [Op.taken_eq true (by decide +kernel)]
  unfold accepted
  rw [Op.taken_eq false (by decide +kernel)]
  unfold accepted
  rw [Op.taken_eq true (by decide +kernel)]
  rfl

theorem exampleFloatFails_any :
    AnyHistory (fun _ => true) 40 exampleDataset [7] none 2 2 [1, 1] Prec.single.kind.encoding exampleFloatFails where
  dataset := exampleHistory.dataset
  new := rfl
  fits := (exampleExact (n := 2) (by decide)).fits
  count := by decide +kernel
  each := by
    have hf := exampleFill_valid
    intro op ho
    simp only [exampleFloatFails, List.mem_cons, List.not_mem_nil, or_false] at ho
    rcases ho with rfl | rfl | rfl | rfl | rfl
    · exact ⟨trivial, fun _ => hf⟩
    · exact ⟨trivial, fun _ => hf⟩
    · exact ⟨trivial, trivial⟩
    · exact ⟨trivial, fun _ => hf⟩
    · exact ⟨trivial, fun _ => hf⟩

theorem exampleFloatFails_concat : concatFlt [(.flt .single (exampleFltSeries fun z => z / 4), 2),
    (.flt .single fun t => exampleFltSeries (fun z => z / 4) (2 + t), 4)] = exampleFltSeries fun z => z / 4 := by
  funext t r c
  simp only [concatFlt, NdArray.floats]
  split
  · rfl
  split
  · rw [show 2 + (t - 2) = t by omega]
  · unfold exampleFltSeries
    rw [if_pos (.inl (by omega))]

theorem exampleFloatFails_base : FltBase exampleClog exampleLg [1, 1] .single 2 none
    (concatFlt [(.flt .single (exampleFltSeries fun z => z / 4), 2),
      (.flt .single fun t => exampleFltSeries (fun z => z / 4) (2 + t), 4)]) 6 4 4 2 2 := by
  have h := (exampleExact (n := 2) (by decide)).flt.toFltBase
  rw [exampleFloatConcat _ (by decide)] at h
  rw [exampleFloatFails_concat]
  exact h

/-- The assumptions of `C64_float_partial`. -/
example : ∃ v m,
    (runs exampleHash (fun _ => true) exampleClog exampleLg 32
      (.addVariable [7] none 2 2 [1, 1] .f32 :: exampleFloatFails) (exampleDataset, [])).1.findVariable [7] = some v ∧
    v.data .f32 (fun _ => true) ((runs exampleHash (fun _ => true) exampleClog exampleLg 32
      (.addVariable [7] none 2 2 [1, 1] .f32 :: exampleFloatFails) (exampleDataset, [])).2.load exampleHash) =
        .ok m ∧ m.shape = some (6, 4, 4) := by
  obtain ⟨v, m, h1, h2, h3⟩ := C64_float_partial (p := .single) (B := 2) (H := exampleHash) (lg := exampleLg)
    (fuel := 32) (readFuel := 40)
    exampleDataset [7] none exampleFloatFails [] _ exampleFloatFails_accepted.symm exampleFloatFails_any
    (by
      intro x hx
      simp only [List.mem_cons, List.not_mem_nil, or_false] at hx
      rcases hx with rfl | rfl <;> exact ⟨_, rfl⟩) exampleFloatFails_base (by decide) (by decide) _ rfl (by
      unfold Saved.NoCollision
      decide +kernel)
  exact ⟨v, m, h1, h2, h3.1⟩

end Verif
