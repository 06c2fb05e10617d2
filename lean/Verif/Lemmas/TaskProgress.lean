import Verif.Lemmas.TaskEnds
import Verif.Lemmas.Sequential

/-! Operations that run at the same time always get to their ends. -/
namespace Verif

section
variable {H : Hash} {utf8 : List Byte → Bool} {readFuel : Nat} {faults : Bool} {α : Type}

/-- An operation that has not ended can take a step, whatever is saved. -/
theorem Task.progress (t : Task α) (log : Saved) :
    (∃ r, t = .done r) ∨ ∃ log' t', Task.Step H utf8 readFuel faults log t log' t' := by
  cases t with
  | done r => exact .inl ⟨r, rfl⟩
  | load cid k =>
    refine .inr ?_
    cases e : (log.load H).retrieve utf8 cid with
    | ok x => exact ⟨_, _, .load e⟩
    | error f => exact ⟨_, _, .loadFails e⟩
  | save b k => exact .inr ⟨_, _, .save⟩
  | saveAll bs t =>
    refine .inr ?_
    cases bs with
    | nil => exact ⟨_, _, .saved⟩
    | cons b bs => exact ⟨_, _, .saveOne (bs := [])⟩
  | fill m k => exact .inr ⟨_, _, .fillBegins⟩
  | filling since m k =>
    refine .inr ?_
    cases e : m.shape with
    | none => exact ⟨_, _, .fillPanics e⟩
    | some x =>
      obtain ⟨n, rows, cols⟩ := x
      have hw := m.has_fillWindow (utf8 := utf8) (st := log.load H) false readFuel m.fractionalBits
        (Cube.new 0 n 0 rows 0 cols)
      unfold Out.Has at hw
      cases h : (m.fillWindowSeq utf8 (log.load H) false readFuel m.fractionalBits
        (Cube.new 0 n 0 rows 0 cols)).2 with
      | none =>
        rw [h] at hw
        exact ⟨_, _, .fill e (.now since log) hw⟩
      | some f =>
        rw [h] at hw
        exact ⟨_, _, .fillFails e (.now since log) hw⟩

variable (H utf8 readFuel faults)

/-- Some step leads from `t` to `t'`. -/
def Task.Next (t' t : Task α) : Prop := ∃ log log', Task.Step H utf8 readFuel faults log t log' t'

theorem Task.acc_done (r : Except Fail α) : Acc (Task.Next H utf8 readFuel faults) (.done r) :=
  .intro _ fun _ ⟨_, _, h⟩ => nomatch h

theorem Task.acc_filling {since : Saved} {m : MMStruct3} {k : Calls → Task α}
    (ih : ∀ calls, Acc (Task.Next H utf8 readFuel faults) (k calls)) :
    Acc (Task.Next H utf8 readFuel faults) (.filling since m k) := by
  refine .intro _ fun t' ⟨_, _, h⟩ => ?_
  cases h with
  | fill => exact ih _
  | fillFails => exact Task.acc_done ..
  | fillPanics => exact Task.acc_done ..
  | fillFault => exact Task.acc_done ..

theorem Task.acc (t : Task α) : Acc (Task.Next H utf8 readFuel faults) t := by
  induction t with
  | done r => exact Task.acc_done _ _ _ _ r
  | load cid k ih =>
    refine .intro _ fun t' ⟨_, _, h⟩ => ?_
    cases h with
    | load => exact ih _
    | loadFails => exact Task.acc_done ..
    | loadFault => exact Task.acc_done ..
  | save b k ih =>
    refine .intro _ fun t' ⟨_, _, h⟩ => ?_
    cases h with
    | save => exact ih _
    | saveFault => exact Task.acc_done ..
  | saveAll bs t ih =>
    generalize hn : bs.length = n
    induction n generalizing bs with
    | zero =>
      cases List.eq_nil_of_length_eq_zero hn
      refine .intro _ fun t' ⟨_, _, h⟩ => ?_
      generalize hbs : ([] : List (List Byte)) = bs at h
      cases h with
      | saveOne => simp at hbs
      | saved => exact ih
      | saveAllFault => exact Task.acc_done ..
    | succ n ihn =>
      refine .intro _ fun t' ⟨_, _, h⟩ => ?_
      cases h with
      | saveOne => exact ihn _ (by simp at hn ⊢; omega)
      | saved => exact ih
      | saveAllFault => exact Task.acc_done ..
  | fill m k ih =>
    refine .intro _ fun t' ⟨_, _, h⟩ => ?_
    cases h with
    | fillBegins => exact Task.acc_filling _ _ _ _ ih
  | filling since m k ih => exact Task.acc_filling _ _ _ _ ih

/-- One of the operations has taken a step. -/
def Tasks.Next (ts' ts : List (Task α)) : Prop :=
  ∃ i t t', ts[i]? = some t ∧ Task.Next H utf8 readFuel faults t' t ∧ ts' = ts.set i t'

theorem Tasks.acc (ts : List (Task α)) : Acc (Tasks.Next H utf8 readFuel faults) ts := by
  induction ts with
  | nil => exact .intro _ fun _ ⟨i, t, t', h, _⟩ => by simp at h
  | cons t ts ih =>
    induction Task.acc H utf8 readFuel faults t generalizing ts with
    | intro t _ iht =>
      induction ih with
      | intro ts hts ihts =>
        refine .intro _ fun ts' ⟨i, u, u', h1, h2, h3⟩ => ?_
        subst h3
        cases i with
        | zero =>
          simp only [List.getElem?_cons_zero, Option.some.injEq] at h1
          subst h1
          exact iht u' h2 ts (.intro _ hts)
        | succ i =>
          rw [List.set_cons_succ]
          exact ihts _ ⟨i, u, u', by simpa using h1, h2, rfl⟩

end

end Verif
