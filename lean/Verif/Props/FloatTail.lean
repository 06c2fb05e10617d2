import Verif.Props.Canon

/-!
C57 for floats: whether an array is accepted depends on where the chunks begin.
-/
namespace Verif

/-- Rasters of one number. -/
def flatFlt (q : Rat) : NdArray := .flt .double fun _ _ _ => .fin q

/-- A variable of 64-bit floats without rounding, with two instants per chunk, to which rasters of `2 ^ -40` have
been appended. -/
def tinyRun (n : Nat) : Dataset × Saved :=
  runs exampleHash (fun _ => true) exampleClog exampleLg 32
    [.addVariable [7] none 2 2 [1, 1] .f64, .append exampleFill [7] (flatFlt (1 / 2 ^ 40)) n 4 4] (exampleDataset, [])

/-- The append of a raster of `2 ^ 40` to it. -/
def tinyNext (n : Nat) : Except Fail Dataset × Saved :=
  Dataset.append exampleHash (fun _ => true) exampleClog exampleLg 32 exampleFill (tinyRun n).1 [7]
    (flatFlt (2 ^ 40)) 1 4 4 (tinyRun n).2

/-- C57 does not hold for floats: a variable that does not round accepts an array of numbers that it can hold, and
does not accept the same array when the last chunk is not full and holds numbers so small that the two have not
enough bits in common. After one more of the small ones it is accepted again. -/
theorem C57_float_wrong :
    (∃ d, (tinyNext 0).1 = .ok d) ∧ (∃ f, (tinyNext 1).1 = .error f) ∧ (∃ d, (tinyNext 2).1 = .ok d) ∧
    ∀ n, n < 3 → (tinyNext n).2.NoCollision exampleHash := by
  have key : ∀ n, n < 3 → (match (tinyNext n).1 with | .ok _ => true | .error _ => false) = decide (n ≠ 1) := by
    decide +kernel
  have ok : ∀ {x : Except Fail Dataset}, (match x with | .ok _ => true | .error _ => false) = true →
      ∃ d, x = .ok d := by
    intro x hx
    cases x with
    | ok d => exact ⟨d, rfl⟩
    | error f => cases hx
  refine ⟨ok (key 0 (by decide)), ?_, ok (key 2 (by decide)), ?_⟩
  · have := key 1 (by decide)
    generalize (tinyNext 1).1 = x at this
    cases x with
    | ok d => cases this
    | error f => exact ⟨f, rfl⟩
  · unfold Saved.NoCollision
    decide +kernel

end Verif
