import Verif.Lemmas.Asks
import Verif.Props.Adds
import Verif.Props.Needs

/-!
Property C84: an append depends on few objects of the store, however long the history is.
-/
namespace Verif

open Prog hiding pure bind
open Example (cpcPrecip)

/-- How the window read of the last chunk goes depends on nothing but how it can go. -/
def Fill.Fair (utf8 : List Byte → Bool) (readFuel : Nat) (fill : Fill) : Prop :=
  ∀ (m : MMStruct3) (st st' : Store) (instants rows cols : Nat), m.shape = some (instants, rows, cols) →
    m.fillWindow utf8 st readFuel m.fractionalBits (Cube.new 0 instants 0 rows 0 cols) =
      m.fillWindow utf8 st' readFuel m.fractionalBits (Cube.new 0 instants 0 rows 0 cols) →
    fill m st = fill m st'

section
open Classical

/-- One of the ways in which something can go. -/
noncomputable def Out.pick {β : Type} (o : Out β) : List β × Option Fail :=
  if h : ∃ p : List β × Option Fail, o p.1 p.2 then h.choose else ([], none)

/-- A way for the window read to go that depends on nothing else. -/
noncomputable def Fill.some (utf8 : List Byte → Bool) (readFuel : Nat) : Fill := fun m st =>
  match m.shape with
  | none => ([], none)
  | Option.some (n, rows, cols) =>
    Out.pick (m.fillWindow utf8 st readFuel m.fractionalBits (Cube.new 0 n 0 rows 0 cols))

end

theorem Fill.some_fair (utf8 : List Byte → Bool) (readFuel : Nat) : (Fill.some utf8 readFuel).Fair utf8 readFuel := by
  intro m st st' n rows cols h e
  unfold Fill.some
  rw [h]
  simp only
  rw [e]

theorem Fill.some_valid (utf8 : List Byte → Bool) (readFuel : Nat) : (Fill.some utf8 readFuel).Valid utf8 readFuel := by
  intro m st n rows cols h ⟨t, s, e⟩
  have hp : ∃ p : Calls × Option Fail,
      m.fillWindow utf8 st readFuel m.fractionalBits (Cube.new 0 n 0 rows 0 cols) p.1 p.2 := ⟨(t, s), e⟩
  have := hp.choose_spec
  unfold Fill.some
  rw [h]
  simp only [Out.pick]
  rw [dif_pos hp]
  exact this

section
variable {H : Hash} {utf8 : List Byte → Bool} {clog : Nat → Nat} {lg : Rat → Int} {fuel readFuel : Nat}
  {levels : List Nat} {cs ss : Nat}

/-- C84: an append that succeeds, after any history, depends on few objects of the store: with any other store that
agrees on these objects, and whatever else that holds or lacks, it has the same result and saves the same objects.
There is one object for each chunk that is written and some spans, whose number grows with the logarithm of the number
of instants and with the number of new chunks divided by the span size; and if the last chunk was not full, there are
the parts of it. -/
theorem C84_append (d : Dataset) (name : List Byte) (round : Option Nat) (enc : MMEncoding) (ops : List Op)
    (log : Saved) (fill : Fill) (data : NdArray) (n rows cols : Nat) (as : List (NdArray × Nat))
    (has : as = acceptedAfter H utf8 clog lg fuel d log name (.addVariable name round ss cs levels enc) ops)
    (h : AnyHistory utf8 readFuel d name round ss cs levels enc ops)
    (hset : Settings clog levels (total as + n) d.rows d.cols cs ss) (hf : 32 ≤ fuel) (fillFuel : Nat)
    (hfair : fill.Fair utf8 fillFuel) (s : Dataset × Saved)
    (hs : s = runs H utf8 clog lg fuel (.addVariable name round ss cs levels enc :: ops) (d, log))
    (d' : Dataset) (log' : Saved)
    (ha : Dataset.append H utf8 clog lg fuel fill s.1 name data n rows cols s.2 = (.ok d', log'))
    (hnc : log'.NoCollision H) (height : Nat) (hh : total as + n ≤ cs * ss ^ height) (chunks : Nat)
    (hc : chunks = (total as % cs + n + cs - 1) / cs) :
    ∃ (cids : List Cid) (new : Saved), log' = new ++ s.2 ∧
      cids.length ≤ chunks + (ss + chunks - 1) / ss * (4 * height + 4) + 3 * height + 3 +
        (if total as % cs = 0 then 0 else Spec.nested 2 0 d.rows 0 d.cols levels) ∧
      ∀ log0 : Saved, (∀ c ∈ cids, log0.load H c = s.2.load H c) →
        Dataset.append H utf8 clog lg fuel fill s.1 name data n rows cols log0 = (.ok d', new ++ log0) := by
  have hnc0 : s.2.NoCollision H := by
    have := Dataset.append_mono (H := H) (utf8 := utf8) (clog := clog) (lg := lg) (fuel := fuel) fill s.1 name data n
      rows cols s.2
    rw [ha] at this
    exact NoCollision.mono this hnc
  have hinv := h.room has hset (by omega) hf hs hnc0
  obtain ⟨-, -, -, v, tl, h1, h2, h0, h3⟩ := hinv
  have hmod : tl % cs = total as % cs := h3.tail_mod
  unfold Dataset.append at ha ⊢
  change s.1.findVariable name = some v at h1
  rw [h1] at ha ⊢
  obtain ⟨v', log1, e1, e2⟩ := Prog.ok_bind ha
  cases e2
  rw [← Variable.appendArray_run] at e1
  obtain ⟨k, hk, o, ho, hko⟩ := Variable.appendArrayT_asks (T := hset.theory H enc) (D := height) hf h3 h2
    (Nat.le_max_right ..) hh (fun b A m => hset.chunksOk b A m) rows cols _ _ e1 hnc
  have hbound : k ≤ chunks + (ss + chunks - 1) / ss * (4 * height + 4) + 3 * height + 3 := by
    subst hc
    have hss := hset.ss_two
    change o * ss ≤ ss + (total as % cs + n + cs - 1) / cs - 1 at ho
    change k ≤ (total as % cs + n + cs - 1) / cs + _ + _ + _ at hko
    have := Nat.mul_le_mul_right (4 * height + 4) ((Nat.le_div_iff_mul_le (by omega)).2 ho)
    omega
  have hend : ∀ log0 new : Saved, Task.run H utf8 fill (v.appendArrayT H clog lg fuel data n rows cols) log0 =
      (.ok v', new ++ log0) → (v.appendArray H utf8 clog lg fuel fill data n rows cols >>= fun v => (pure
        { s.1 with «variables» := replaceVariable v s.1.variables, prev := s.1.nextPrev, cid := none } :
          Prog Dataset)) log0 = (.ok { s.1 with
            «variables» := replaceVariable v' s.1.variables, prev := s.1.nextPrev, cid := none }, new ++ log0) := by
    intro log0 new e
    rw [Variable.appendArray_run] at e
    change Prog.bind _ _ log0 = _
    unfold Prog.bind
    rw [e]
    rfl
  obtain ⟨new, rfl, ⟨hz, hl⟩ | ⟨hz, m, hK, hl⟩⟩ := Variable.appendArrayT_local hf h3 e1 hnc
  · refine ⟨_, new, rfl, ?_, fun log0 h0 => hend _ _ (hl log0 h0)⟩
    omega
  · change tl % cs ≠ 0 at hz
    have hside := AnyChunk.sides hK utf8 _ (List.Subset.refl _) hnc0
    obtain ⟨cids, g1, g2⟩ := Sides.window_needs (by decide) levels fillFuel m m.fractionalBits 0 (tl % cs) 0 d.rows 0
      d.cols (Nat.zero_le _) hset.rows_pos hset.cols_pos hside
    refine ⟨_ ++ cids, new, rfl, ?_, fun log0 h0 => hend _ _ (hl log0 (fun c hc => h0 c (List.mem_append_left _ hc)) ?_)⟩
    · rw [if_neg (by omega), List.length_append]
      omega
    · refine hfair m _ _ _ _ _ ((hset.theory H enc).shape hK) ?_
      change m.fillWindow utf8 _ fillFuel m.fractionalBits (Cube.new 0 (tl % cs) 0 d.rows 0 d.cols) =
        m.fillWindow utf8 _ fillFuel m.fractionalBits (Cube.new 0 (tl % cs) 0 d.rows 0 d.cols)
      rw [Cube.new_eq (Nat.zero_le _) (Nat.zero_le _) (Nat.zero_le _)]
      exact g2 _ fun c hc => h0 c (List.mem_append_right _ hc)

/-- C84: the other operations depend on nothing in the store. -/
theorem C84_other (d : Dataset) (log log0 : Saved) (name : List Byte) (round : Option Nat) (enc : MMEncoding) :
    (∃ r b, d.commit H log = (r, b :: log) ∧ d.commit H log0 = (r, b :: log0)) ∧
      ∃ r b, d.addVariable H name round ss cs levels enc log = (r, b :: log) ∧
        d.addVariable H name round ss cs levels enc log0 = (r, b :: log0) := ⟨⟨_, _, rfl, rfl⟩, _, _, rfl, rfl⟩

/-- C84 for the data set of the example program: to append a file of a year to `cpc_precip` depends on at most 94
objects, whatever was appended before, up to 1280000 days. -/
theorem C84_cpc (hclog : ClogOk clog 2 720) (d : Dataset) (round : Option Nat) (enc : MMEncoding) (ops : List Op)
    (log : Saved) (fill : Fill) (data : NdArray) (n rows cols : Nat) (as : List (NdArray × Nat))
    (has : as = acceptedAfter H utf8 clog lg fuel d log cpcPrecip.name (.addVariable cpcPrecip.name round
      cpcPrecip.spanSize cpcPrecip.chunkSize cpcPrecip.k2Levels enc) ops)
    (h : AnyHistory utf8 readFuel d cpcPrecip.name round cpcPrecip.spanSize cpcPrecip.chunkSize cpcPrecip.k2Levels
      enc ops) (hr : d.rows = cpcPrecip.rows) (hc : d.cols = cpcPrecip.cols) (hn : n ≤ 366)
    (hN : total as + n ≤ 1280000) (hf : 32 ≤ fuel) (fillFuel : Nat) (hfair : fill.Fair utf8 fillFuel)
    (s : Dataset × Saved)
    (hs : s = runs H utf8 clog lg fuel (.addVariable cpcPrecip.name round cpcPrecip.spanSize cpcPrecip.chunkSize
      cpcPrecip.k2Levels enc :: ops) (d, log)) (d' : Dataset) (log' : Saved)
    (ha : Dataset.append H utf8 clog lg fuel fill s.1 cpcPrecip.name data n rows cols s.2 = (.ok d', log'))
    (hnc : log'.NoCollision H) :
    ∃ (cids : List Cid) (new : Saved), log' = new ++ s.2 ∧ cids.length ≤ 94 ∧
      ∀ log0 : Saved, (∀ c ∈ cids, log0.load H c = s.2.load H c) →
        Dataset.append H utf8 clog lg fuel fill s.1 cpcPrecip.name data n rows cols log0 = (.ok d', new ++ log0) := by
  have hset : Settings clog cpcPrecip.k2Levels (total as + n) d.rows d.cols cpcPrecip.chunkSize
      cpcPrecip.spanSize := by
    rw [hr, hc]
    exact ⟨hclog, by decide, by decide, by decide, by decide, by decide, by decide, by decide, by decide, by omega,
      ⟨by decide, by decide, by decide⟩⟩
  obtain ⟨cids, new, h1, h2, h3⟩ := C84_append d cpcPrecip.name round enc ops log fill data n rows cols as has h hset hf
    fillFuel hfair s hs d' log' ha hnc 1 hN _ rfl
  refine ⟨cids, new, h1, ?_, h3⟩
  have hp : Spec.nested 2 0 d.rows 0 d.cols cpcPrecip.k2Levels = 73 := by rw [hr, hc]; decide
  rw [hp] at h2
  change cids.length ≤ (total as % 64 + n + 64 - 1) / 64 +
    (20000 + (total as % 64 + n + 64 - 1) / 64 - 1) / 20000 * 8 + 3 * 1 + 3 + (if total as % 64 = 0 then 0 else 73) at h2
  split at h2 <;> omega

end

/-! ### Examples -/

/-- Three instants: the last chunk, of two instants, is not full. -/
def exampleOdd : List Op := [.append exampleFill [7] (.i64 exampleGrid) 3 4 4]

theorem exampleOdd_accepted : acceptedAfter exampleHash (fun _ => true) exampleClog exampleLg 32
    exampleDataset [] [7] (.addVariable [7] none 2 2 [1, 1] .i64) exampleOdd = [(.i64 exampleGrid, 3)] := by
  unfold acceptedAfter exampleOdd accepted
  rw [Op.taken_eq true (by decide +kernel)]
  rfl

theorem exampleOdd_any : AnyHistory (fun _ => true) 40 exampleDataset [7] none 2 2 [1, 1] .i64 exampleOdd where
  dataset := exampleHistory.dataset
  new := rfl
  fits := exampleHistory.fits
  count := by decide +kernel
  each := by
    intro op ho
    simp only [exampleOdd, List.mem_cons, List.not_mem_nil, or_false] at ho
    subst ho
    exact ⟨trivial, fun _ => exampleFill_valid⟩

/-- The data set with three instants. -/
def exampleThree : Dataset × Saved := runs exampleHash (fun _ => true) exampleClog exampleLg 32
  (.addVariable [7] none 2 2 [1, 1] .i64 :: exampleOdd) (exampleDataset, [])

/-- How the window read of its last chunk goes. -/
def exampleThreeFill : Fill := fun m _ => exampleFill m (exampleThree.2.load exampleHash)

/-- The assumptions of `C84_append`: two more instants make the last chunk full and begin another, so that a span has
to be opened. -/
example : ∃ d' log', Dataset.append exampleHash (fun _ => true) exampleClog exampleLg 32 exampleThreeFill
      exampleThree.1 [7] (.i64 exampleGrid) 2 4 4 exampleThree.2 = (.ok d', log') ∧
    ∃ (cids : List Cid) (new : Saved), log' = new ++ exampleThree.2 ∧ cids.length ≤ 28 ∧
      ∀ log0 : Saved, (∀ c ∈ cids, log0.load exampleHash c = exampleThree.2.load exampleHash c) →
        Dataset.append exampleHash (fun _ => true) exampleClog exampleLg 32 exampleThreeFill
          exampleThree.1 [7] (.i64 exampleGrid) 2 4 4 log0 = (.ok d', new ++ log0) := by
  have hnc : (Dataset.append exampleHash (fun _ => true) exampleClog exampleLg 32 exampleThreeFill
      exampleThree.1 [7] (.i64 exampleGrid) 2 4 4 exampleThree.2).2.NoCollision exampleHash := by
    unfold Saved.NoCollision
    decide +kernel
  have hok : (Dataset.append exampleHash (fun _ => true) exampleClog exampleLg 32 exampleThreeFill
      exampleThree.1 [7] (.i64 exampleGrid) 2 4 4 exampleThree.2).1.isOk = true := by decide +kernel
  rcases e : Dataset.append exampleHash (fun _ => true) exampleClog exampleLg 32 exampleThreeFill
      exampleThree.1 [7] (.i64 exampleGrid) 2 4 4 exampleThree.2 with ⟨_ | d', log'⟩
  · rw [e] at hok
    cases hok
  rw [e] at hnc
  refine ⟨d', log', rfl, ?_⟩
  exact C84_append (H := exampleHash) (fuel := 32) (readFuel := 40) exampleDataset [7] none .i64 exampleOdd [] _ _ 2 _ _ _
    exampleOdd_accepted.symm exampleOdd_any (exampleSettings (by decide)) (by decide) 40
    (fun _ _ _ _ _ _ _ _ => rfl) _ rfl d' log' e hnc 2 (by decide) 2 (by decide)

end Verif
