import Verif.Lemmas.Adds
import Verif.Props.AnyData
import Verif.Props.Example

/-!
Property C82: an append saves few objects, however long the history is.
-/
namespace Verif

open Prog hiding pure bind
open Example (cpcPrecip)

section
variable {H : Hash} {utf8 : List Byte → Bool} {clog : Nat → Nat} {lg : Rat → Int} {fuel readFuel : Nat}
  {levels : List Nat} {cs ss : Nat}

/-- C82: an append that succeeds, after any history, saves at most a fixed number of objects for each chunk that it
writes, which are those of the new instants and of the last chunk if that was not full, and some spans: their number
grows with the logarithm of the number of instants, and with the number of new chunks divided by the span size. -/
theorem C82_append (d : Dataset) (name : List Byte) (round : Option Nat) (enc : MMEncoding) (ops : List Op)
    (log : Saved) (fill : Fill) (data : NdArray) (n rows cols : Nat) (as : List (NdArray × Nat))
    (has : as = acceptedAfter H utf8 clog lg fuel d log name (.addVariable name round ss cs levels enc) ops)
    (h : AnyHistory utf8 readFuel d name round ss cs levels enc ops)
    (hset : Settings clog levels (total as + n) d.rows d.cols cs ss) (hf : 32 ≤ fuel) (s : Dataset × Saved)
    (hs : s = runs H utf8 clog lg fuel (.addVariable name round ss cs levels enc :: ops) (d, log))
    (d' : Dataset) (log' : Saved)
    (ha : Dataset.append H utf8 clog lg fuel fill s.1 name data n rows cols s.2 = (.ok d', log'))
    (hnc : log'.NoCollision H) (height : Nat) (hh : total as + n ≤ cs * ss ^ height) (chunks : Nat)
    (hc : chunks = (total as % cs + n + cs - 1) / cs) :
    log'.length ≤ s.2.length + chunks * (Spec.parts levels + 1) +
      (ss + chunks - 1) / ss * (2 * height + 4) + height + 1 := by
  have hnc0 : s.2.NoCollision H := by
    have := Dataset.append_mono (H := H) (utf8 := utf8) (clog := clog) (lg := lg) (fuel := fuel) fill s.1 name data n
      rows cols s.2
    rw [ha] at this
    exact NoCollision.mono this hnc
  have hinv := h.room has hset (by omega) hf hs hnc0
  have hsat := HistInv.append_adds (lg := lg) (clog := clog) (fill := fill) (data := data) (D := height) hf hinv
    (Nat.le_max_right ..) hh (fun b A m => hset.chunksOk b A m) rows cols
  unfold Sat at hsat
  rw [ha] at hsat
  rcases hsat hnc with ⟨a, l, e, o, h1, h2⟩ | ⟨-, f, l, e⟩
  · cases e
    subst hc
    have hss := hset.ss_two
    change o * ss ≤ ss + (total as % cs + n + cs - 1) / cs - 1 at h1
    change log'.length ≤ s.2.length + (total as % cs + n + cs - 1) / cs * (Spec.parts levels + 1) + _ + _ + _ at h2
    have := Nat.mul_le_mul_right (2 * height + 4) ((Nat.le_div_iff_mul_le (by omega)).2 h1)
    omega
  · cases congrArg Prod.fst e

/-- C82: the other operations save one object each. -/
theorem C82_other (d : Dataset) (log : Saved) (name : List Byte) (round : Option Nat) (enc : MMEncoding) :
    (d.commit H log).2.length = log.length + 1 ∧
      (d.addVariable H name round ss cs levels enc log).2.length = log.length + 1 := ⟨rfl, rfl⟩

/-- C82 for the data set of the example program: to append a file of a year to `cpc_precip` saves at most 1814
objects, whatever was appended before, up to 1280000 days. -/
theorem C82_cpc (hclog : ClogOk clog 2 720) (d : Dataset) (round : Option Nat) (enc : MMEncoding) (ops : List Op)
    (log : Saved) (fill : Fill) (data : NdArray) (n rows cols : Nat) (as : List (NdArray × Nat))
    (has : as = acceptedAfter H utf8 clog lg fuel d log cpcPrecip.name (.addVariable cpcPrecip.name round
      cpcPrecip.spanSize cpcPrecip.chunkSize cpcPrecip.k2Levels enc) ops)
    (h : AnyHistory utf8 readFuel d cpcPrecip.name round cpcPrecip.spanSize cpcPrecip.chunkSize cpcPrecip.k2Levels
      enc ops) (hr : d.rows = cpcPrecip.rows) (hc : d.cols = cpcPrecip.cols) (hn : n ≤ 366)
    (hN : total as + n ≤ 1280000) (hf : 32 ≤ fuel) (s : Dataset × Saved)
    (hs : s = runs H utf8 clog lg fuel (.addVariable cpcPrecip.name round cpcPrecip.spanSize cpcPrecip.chunkSize
      cpcPrecip.k2Levels enc :: ops) (d, log)) (d' : Dataset) (log' : Saved)
    (ha : Dataset.append H utf8 clog lg fuel fill s.1 cpcPrecip.name data n rows cols s.2 = (.ok d', log'))
    (hnc : log'.NoCollision H) : log'.length ≤ s.2.length + 1814 := by
  have hset : Settings clog cpcPrecip.k2Levels (total as + n) d.rows d.cols cpcPrecip.chunkSize
      cpcPrecip.spanSize := by
    rw [hr, hc]
    exact ⟨hclog, by decide, by decide, by decide, by decide, by decide, by decide, by decide, by decide, by omega,
      ⟨by decide, by decide, by decide⟩⟩
  have := C82_append d cpcPrecip.name round enc ops log fill data n rows cols as has h hset hf s hs d' log' ha hnc 1
    hN _ rfl
  have hp : Spec.parts cpcPrecip.k2Levels = 257 := by decide
  rw [hp] at this
  change log'.length ≤ s.2.length + (total as % 64 + n + 64 - 1) / 64 * 258 +
    (20000 + (total as % 64 + n + 64 - 1) / 64 - 1) / 20000 * 6 + 1 + 1 at this
  omega

end

/-- The objects that an append of one instant saves in the example, after numbers of every type. -/
def exampleSaved : Saved := (Dataset.append exampleHash (fun _ => true) exampleClog exampleLg 32 exampleFill
    (runs exampleHash (fun _ => true) exampleClog exampleLg 32
      (.addVariable [7] none 2 2 [1, 1] .i64 :: exampleMixed) (exampleDataset, [])).1 [7] (.i64 exampleGrid) 1
    exampleDataset.rows exampleDataset.cols
    (runs exampleHash (fun _ => true) exampleClog exampleLg 32
      (.addVariable [7] none 2 2 [1, 1] .i64 :: exampleMixed) (exampleDataset, [])).2).2

/-- The assumptions of `C82_append`: four instants are in two chunks, so that one more needs a new chunk and a new
span; the root gets a parent. -/
example : exampleSaved.length ≤ (runs exampleHash (fun _ => true) exampleClog exampleLg 32
      (.addVariable [7] none 2 2 [1, 1] .i64 :: exampleMixed) (exampleDataset, [])).2.length + 17 := by
  have hnc : exampleSaved.NoCollision exampleHash := by unfold Saved.NoCollision exampleSaved; decide +kernel
  obtain ⟨d', log', e⟩ := C57_works (H := exampleHash) (fuel := 32) (readFuel := 40) exampleDataset [7] none .i64
    exampleMixed [] exampleFill (.i64 exampleGrid) 1 _ exampleMixed_accepted.symm exampleMixed_any
    (exampleSettings (by decide)) (C57_two_levels _ _ (by decide) (by decide) (by decide)) exampleFill_valid
    (.inr ⟨_, rfl⟩) (by decide) (by decide) _ rfl hnc
  have hl : exampleSaved = log' := by unfold exampleSaved; rw [e]
  have := C82_append (H := exampleHash) (fuel := 32) (readFuel := 40) exampleDataset [7] none .i64 exampleMixed []
    exampleFill (.i64 exampleGrid) 1 _ _ _ exampleMixed_accepted.symm exampleMixed_any (exampleSettings (by decide))
    (by decide) _ rfl d' log' e (hl ▸ hnc) 2 (by decide) 1 (by decide)
  rw [show Spec.parts [1, 1] = 5 from rfl] at this
  rw [hl]
  omega

end Verif
