import Verif.Props.Accepted
import Verif.Lemmas.AnyData

/-!
Property C46 without assumptions on the data: whatever fails, a variable of 32-bit integers gives back
what was accepted, bit for bit.
-/
namespace Verif

theorem int32_sub (x y : Int32) : (x.toInt64 - y.toInt64).toInt = x.toInt64.toInt - y.toInt64.toInt := by
  have h1 := x.toInt_lt
  have h2 := x.le_toInt
  have h3 := y.toInt_lt
  have h4 := y.le_toInt
  rw [Int64.toInt_sub, Int32.toInt_toInt64, Int32.toInt_toInt64]
  exact Int.bmod_eq_of_le (by omega) (by omega)

theorem Settings.int32 {clog : Nat → Nat} {levels : List Nat} {rows cols cs ss : Nat}
    {as : List (NdArray × Nat)} (h : Settings clog levels (total as) rows cols cs ss)
    (h32 : ∀ x ∈ as, ∃ a, x.1 = .i32 a) :
    IntBase clog levels (concatInt as) (total as) rows cols cs ss where
  clogOk := h.clogOk
  rows_pos := h.rows_pos
  cols_pos := h.cols_pos
  rows_lt := h.rows_lt
  cols_lt := h.cols_lt
  cs_pos := h.cs_pos
  cs_lt := h.cs_lt
  ss_two := h.ss_two
  ss_lt := h.ss_lt
  instants := h.instants
  levelsOk := h.levelsOk
  diffs := fun t0 t _ _ _ => NoOverflow.noSplit fun r c _ _ => by
    rw [concatInt_eq32 as h32, concatInt_eq32 as h32]
    exact int32_sub _ _

section
variable {H : Hash} {utf8 : List Byte → Bool} {clog : Nat → Nat} {lg : Rat → Int} {fuel readFuel : Nat}
  {levels : List Nat} {cs ss : Nat}

/-- C46: after any history of operations, of which any may have failed, `data_i32` of a variable of 32-bit
integers gives an array whose reads return the numbers of the arrays that were accepted, bit for bit,
whatever these numbers are. -/
theorem C46_i32 (d : Dataset) (name : List Byte) (round : Option Nat) (ops : List Op) (log : Saved)
    (as : List (NdArray × Nat))
    (has : as = acceptedAfter H utf8 clog lg fuel d log name (.addVariable name round ss cs levels .i32) ops)
    (h : AnyHistory utf8 readFuel d name round ss cs levels .i32 ops)
    (h32 : ∀ x ∈ as, ∃ a, x.1 = .i32 a)
    (hset : Settings clog levels (total as) d.rows d.cols cs ss)
    (hf : 32 ≤ fuel) (hrf : levels.length + 34 ≤ readFuel) (s : Dataset × Saved)
    (hs : s = runs H utf8 clog lg fuel (.addVariable name round ss cs levels .i32 :: ops) (d, log))
    (hnc : s.2.NoCollision H) :
    ∃ v m, s.1.findVariable name = some v ∧ v.data .i32 utf8 (s.2.load H) = .ok m ∧
      ArrayReads .i32 utf8 (s.2.load H) readFuel m (total as) d.rows d.cols (concat32 as) := by
  have hint := hset.int32 h32
  have hfo : Follows (NextInt (concatInt as) (total as) d.rows d.cols) 0 as :=
    follows_int _ _ (by omega) (fun t r c _ _ _ => by rw [Nat.zero_add])
      (.inr ⟨h32, fun t r c ht => by omega⟩)
  have hinv := AnyHistory.inv (H := H) (T := hint.theory H .i32) (lg := lg) (fuel := fuel)
    (Next := NextInt (concatInt as) (total as) d.rows d.cols) h rfl rfl
    (hint.appends hf (by omega) (.inl trivial)) (fun M data n hn => Nat.le_trans hn.1 (Nat.le_max_right ..)) hf log
    (Eq.subst (motive := Follows _ 0) has hfo) (hs ▸ hnc)
  subst hs
  have ht : total (acceptedAfter H utf8 clog lg fuel d log name (.addVariable name round ss cs levels .i32) ops) =
    total as := by rw [has]
  obtain ⟨v, m, h1, h2, h3, h4, -⟩ := (ht ▸ hinv).arrays hint _ (List.Subset.refl _) hnc hrf
  refine ⟨v, m, h1, ?_, ?_⟩
  · exact Variable.data_ok h2 h3
  · have := (h4.map fun v => v.toInt32).congr (data' := concat32 as) fun t r c _ _ _ => by
      rw [concatInt_eq32 _ h32]
      simp
    exact Reads.array (kind := .i32) this

end

/-! ### Example -/

/-- The least and the greatest number of 32 bits next to one another. -/
def exampleGrid32 (t r c : Nat) : Int32 := if (t + r + c) % 2 = 0 then Int32.minValue else Int32.maxValue

/-- Appends of which the second one has the wrong shape. -/
def exampleOpsExtreme : List Op :=
  [.append exampleFill [7] (.i32 exampleGrid32) 1 4 4, .append exampleFill [7] (.i32 exampleGrid32) 3 5 4,
    .append exampleFill [7] (.i32 fun t => exampleGrid32 (1 + t)) 3 4 4]

theorem exampleExtreme_accepted : acceptedAfter exampleHash (fun _ => true) exampleClog (fun _ => 0) 32
    exampleDataset [] [7] (.addVariable [7] none 2 2 [1, 1] .i32) exampleOpsExtreme =
      [(.i32 exampleGrid32, 1), (.i32 fun t => exampleGrid32 (1 + t), 3)] := by
  unfold acceptedAfter exampleOpsExtreme accepted
  rw [Op.taken_eq true (by decide +kernel)]
  unfold accepted
  rw [Op.taken_eq false (by decide +kernel)]
  unfold accepted
  rw [Op.taken_eq true (by decide +kernel)]
  rfl

theorem exampleExtreme_any :
    AnyHistory (fun _ => true) 40 exampleDataset [7] none 2 2 [1, 1] .i32 exampleOpsExtreme where
  dataset := exampleHistory.dataset
  new := rfl
  fits := exampleHistory32.fits
  count := by decide +kernel
  each := by
    have hf := exampleFill_valid
    intro op ho
    simp only [exampleOpsExtreme, List.mem_cons, List.not_mem_nil, or_false] at ho
    rcases ho with rfl | rfl | rfl <;> exact ⟨trivial, fun _ => hf⟩

example : ∃ v m,
    (runs exampleHash (fun _ => true) exampleClog (fun _ => 0) 32
      (.addVariable [7] none 2 2 [1, 1] .i32 :: exampleOpsExtreme) (exampleDataset, [])).1.findVariable [7] =
        some v ∧
    v.data .i32 (fun _ => true) ((runs exampleHash (fun _ => true) exampleClog (fun _ => 0) 32
      (.addVariable [7] none 2 2 [1, 1] .i32 :: exampleOpsExtreme) (exampleDataset, [])).2.load exampleHash) =
        .ok m ∧ m.shape = some (4, 4, 4) := by
  obtain ⟨v, m, h1, h2, h3⟩ := C46_i32 (H := exampleHash) (lg := fun _ => 0) (fuel := 32) (readFuel := 40)
    exampleDataset [7] none exampleOpsExtreme [] _ exampleExtreme_accepted.symm exampleExtreme_any
    (by
      intro x hx
      simp only [List.mem_cons, List.not_mem_nil, or_false] at hx
      rcases hx with rfl | rfl <;> exact ⟨_, rfl⟩)
    ⟨exampleClogOk.mono (by decide), by decide, by decide, by decide, by decide, by decide, by decide,
      by decide, by decide, by decide, ⟨by decide, by decide, by decide⟩⟩ (by decide) (by decide) _ rfl (by
      unfold Saved.NoCollision
      decide +kernel)
  exact ⟨v, m, h1, h2, h3.1⟩

end Verif
