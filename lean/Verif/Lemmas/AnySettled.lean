import Verif.Lemmas.AnyData
import Verif.Props.Schedule

/-! However the tail of a variable is read back, the same is read, whatever was appended. -/
namespace Verif

open Prog hiding pure bind

section
variable {H : Hash} {utf8 : List Byte → Bool} {clog : Nat → Nat} {lg : Rat → Int} {fuel readFuel : Nat}
  {levels : List Nat} {N rows cols cs ss : Nat} {enc : MMEncoding} {round : Option Nat}

/-- What is read back of a chunk does not depend on the order of the reads, nor on what else is stored. -/
theorem AnyChunk.written {α : Type} (zero : α) (dec : Nat → Int64 → α) {log : Saved} {m : MMStruct3} {p : Nat}
    (h : AnyChunk H levels rows cols log m p) (hr : 0 < rows) (hc : 0 < cols) (hrf : levels.length < readFuel)
    (hnc : log.NoCollision H) :
    ∃ E : Nat → Nat → Nat → α, ∀ (fill : Fill) (log' : Saved), fill.Valid utf8 readFuel → log ⊆ log' →
      log'.NoCollision H → (fill m (log'.load H)).2 = none ∧ ∀ t r c, t < p → r < rows → c < cols →
        Verif.written zero dec (fill m (log'.load H)).1 t r c = E t r c := by
  obtain ⟨E, hE⟩ := (h.sound utf8 log (List.Subset.refl _) hnc).represents dec
  refine ⟨E, fun fill log' hfill hsub hnc' => ?_⟩
  have hE' := hE.mono (st' := log'.load H) (Saved.load_mono hnc' hsub) (Nat.le_refl _)
  obtain ⟨⟨t, s, u, h1, -⟩, h2⟩ := repr_fillWindow (fun _ _ _ _ _ h => h) _ readFuel _ _ _ _ _ hE' hrf 0 p 0 rows 0 cols
    (Nat.zero_le _) (Nat.le_refl _) hr hc (Nat.le_refl _) (Nat.le_refl _)
  have hv := hfill m (log'.load H) p rows cols h.shape (by
    rw [Cube.new_eq (Nat.zero_le _) (Nat.zero_le _) (Nat.zero_le _)]
    exact ⟨_, _, h1⟩)
  rw [Cube.new_eq (Nat.zero_le _) (Nat.zero_le _) (Nat.zero_le _)] at hv
  obtain ⟨g1, g2⟩ := h2 _ _ ⟨_, hv, rfl⟩
  exact ⟨g1, fun t r c ht hr hc => written_eq g2 ht hr hc⟩

theorem appendArray_agree {α : Type} {p n : Nat} {x x' y : Nat → Nat → Nat → α}
    (h : ∀ t r c, t < p → r < rows → c < cols → x t r c = x' t r c) :
    ∀ t r c, t < p + n → r < rows → c < cols → appendArray p x y t r c = appendArray p x' y t r c := by
  intro t r c _ hr hc
  unfold appendArray
  split
  · exact h t r c ‹_› hr hc
  · rfl

theorem Settings.settled (h : Settings clog levels N rows cols cs ss) (hrf : levels.length < readFuel) :
    Settled H utf8 readFuel (h.theory H enc) round fun _ _ _ => True := by
  intro log log' fill fill' data M n m a p hfill hfill' _ hsub hnc hK hap
  have hK : AnyChunk H levels rows cols log m p := hK
  have hnc0 := NoCollision.mono hsub hnc
  have key : ∀ {α : Type} (zero : α) (dec : Nat → Int64 → α),
      (fill m (log.load H)).2 = none ∧ (fill' m (log'.load H)).2 = none ∧
      ∀ t r c, t < p → r < rows → c < cols → Verif.written zero dec (fill m (log.load H)).1 t r c =
        Verif.written zero dec (fill' m (log'.load H)).1 t r c := by
    intro α zero dec
    obtain ⟨E, hE⟩ := hK.written (utf8 := utf8) zero dec h.rows_pos h.cols_pos hrf hnc0
    obtain ⟨e1, e2⟩ := hE fill log hfill (List.Subset.refl _) hnc0
    obtain ⟨e1', e2'⟩ := hE fill' log' hfill' hsub hnc
    exact ⟨e1, e1', fun t r c ht hr hc => (e2 t r c ht hr hc).trans (e2' t r c ht hr hc).symm⟩
  obtain ⟨k1, k2, -⟩ := key () fun _ _ => ()
  refine ⟨k1, k2, ?_⟩
  cases data with
  | i32 x => exact .i32 (appendArray_agree (key 0 fun _ v => v.toInt32).2.2)
  | i64 x => exact .i64 (appendArray_agree (key 0 fun _ v => v).2.2)
  | flt p x => exact .flt (appendArray_agree (key (Flt.fin 0) fun bits v => fromFixed p v bits).2.2)

end

end Verif
