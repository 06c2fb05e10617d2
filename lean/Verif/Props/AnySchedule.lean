import Verif.Lemmas.AnySettled
import Verif.Props.AnyData
import Verif.Props.Names

/-!
Property C60 for arrays of any type with any values, and for all variables of a data set at once.
-/
namespace Verif

open Prog hiding pure bind

/-- Two operations that differ at most in how the tail is read back, if they append. -/
inductive Op.Rescheduled (utf8 : List Byte → Bool) (readFuel : Nat) : Op → Op → Prop
  | same (op : Op) : Op.Rescheduled utf8 readFuel op op
  | append (fill fill' : Fill) (name : List Byte) (data : NdArray) (n rows cols : Nat) :
      fill'.Valid utf8 readFuel →
      Op.Rescheduled utf8 readFuel (.append fill name data n rows cols) (.append fill' name data n rows cols)

/-- The limits of one operation: variables that are added have settings within the limits of the format for their
shape, and what `append` reads back is possible. Nothing is asked of arrays. -/
def Op.Limits (utf8 : List Byte → Bool) (clog : Nat → Nat) (readFuel rows cols : Nat) : Op → Prop
  | .append fill _ _ _ _ _ => fill.Valid utf8 readFuel
  | .addVariable _ _ ss cs levels _ =>
    Settings clog levels (2 ^ 32 - 1) rows cols cs ss ∧ levels.length < readFuel
  | _ => True

/-- The instants of all arrays of a history. -/
def instantsIn : List Op → Nat
  | [] => 0
  | .append _ _ _ n _ _ :: ops => n + instantsIn ops
  | _ :: ops => instantsIn ops

theorem accepted_le {H : Hash} {utf8 : List Byte → Bool} {clog : Nat → Nat} {lg : Rat → Int} {fuel : Nat}
    (name : List Byte) : ∀ (ops : List Op) (s : Dataset × Saved),
    total (accepted H utf8 clog lg fuel name ops s) ≤ instantsIn ops := by
  intro ops
  induction ops with
  | nil => intro s; exact Nat.le_refl _
  | cons op ops ih =>
    intro s
    have hacc : accepted H utf8 clog lg fuel name (op :: ops) s = op.taken H utf8 clog lg fuel name s ++
      accepted H utf8 clog lg fuel name ops (op.step H utf8 clog lg fuel s) := rfl
    rw [hacc, total_append]
    have h1 := ih (op.step H utf8 clog lg fuel s)
    have h2 : total (op.taken H utf8 clog lg fuel name s) ≤ instantsIn [op] := by
      unfold Op.taken
      split
      · cases op with
        | append fill nm data n r c =>
          unfold arrays
          split <;> simp [total, arrays, instantsIn]
        | _ => exact Nat.zero_le _
      · exact Nat.zero_le _
    have h3 : instantsIn (op :: ops) = instantsIn [op] + instantsIn ops := by
      cases op <;> simp [instantsIn]
    omega

/-- A history of a new data set within the limits of the format, with room for some more instants: nothing is
asked of the arrays, and operations may fail. -/
structure Limited (H : Hash) (utf8 : List Byte → Bool) (clog : Nat → Nat) (lg : Rat → Int) (fuel readFuel : Nat)
    (d : Dataset) (ops : List Op) (log : Saved) (room : Nat) : Prop where
  new : d.variables = [] ∧ d.cid = none ∧ d.prev = none
  wf : d.WF utf8
  each : ∀ op ∈ ops, op.Fits utf8 ∧ op.Limits utf8 clog readFuel d.rows d.cols
  count : adds ops < 256
  instants : ∀ name, total (accepted H utf8 clog lg fuel name ops (d, log)) + room < 2 ^ 32

section
variable {H : Hash} {utf8 : List Byte → Bool} {clog : Nat → Nat} {lg : Rat → Int} {fuel readFuel : Nat}
  {levels : List Nat} {round : Option Nat} {T : VarTheory}

theorem Variable.appendArray_same_any (hs : Settled H utf8 readFuel T round fun _ _ _ => True) (hf : 32 ≤ fuel)
    {log : Saved} {v : Variable} {fill fill' : Fill} {data : NdArray} {M n tl rows cols : Nat}
    (hfill : fill.Valid utf8 readFuel) (hfill' : fill'.Valid utf8 readFuel) (hv : VarInv H T log v M tl)
    (hr : v.round = round) (hnc : log.NoCollision H) :
    v.appendArray H utf8 clog lg fuel fill data n rows cols log =
      v.appendArray H utf8 clog lg fuel fill' data n rows cols log := by
  by_cases hsh : rows = T.rows ∧ cols = T.cols
  · obtain ⟨rfl, rfl⟩ := hsh
    exact Variable.appendArray_same hs hf hfill hfill' hv hr trivial hnc
  unfold Variable.appendArray
  change Prog.bind _ _ log = Prog.bind _ _ log
  unfold Prog.bind
  rcases ht : v.tailData H utf8 fuel log with ⟨_ | tail, log'⟩
  · rfl
  have hlog : log' = log := by
    have := Variable.tailData_readOnly (H := H) (utf8 := utf8) (fuel := fuel) v log
    rw [ht] at this
    exact this
  subst hlog
  have hsat := Sat.ok (Variable.tailData_sat (utf8 := utf8) hf hv) (by rw [ht]; exact hnc)
  rw [ht] at hsat
  obtain ⟨o, l, e, -, ho⟩ := hsat
  cases e
  cases tail with
  | none => rfl
  | some m =>
    split at ho
    · cases ho
    · obtain ⟨m', cid, e, hk, hK, hle⟩ := ho
      cases e
      obtain ⟨e1, e2, e3⟩ := hs log' log' fill fill' data M n m _ _ hfill hfill' trivial
        (List.Subset.refl _) hnc hK (by omega)
      simp only
      change Prog.bind _ _ log' = Prog.bind _ _ log'
      unfold Prog.bind
      rw [T.shape hK]
      change Prog.bind _ _ log' = Prog.bind _ _ log'
      unfold Prog.bind
      have hst : Prog.store H log' = (.ok (log'.load H), log') := rfl
      rw [hst]
      simp only
      rw [e1, e2]
      simp only
      have hne : T.rows ≠ rows ∨ T.cols ≠ cols := by
        by_contra h
        simp only [not_or, not_not] at h
        exact hsh ⟨h.1.symm, h.2.symm⟩
      rw [if_pos hne, if_pos hne]

variable (H utf8 clog lg fuel readFuel) in
/-- The state of a history, with `ops` still to come: what is known of every variable, each of which has fewer than
`B` instants in the end. -/
structure Every (B rows cols : Nat) (ops : List Op) (s : Dataset × Saved) : Prop where
  fits : s.1.Fits utf8
  shape : s.1.rows = rows ∧ s.1.cols = cols
  vars : ∀ name, s.1.findVariable name ≠ none → ∃ (levels : List Nat) (cs ss : Nat) (enc : MMEncoding)
    (round : Option Nat) (hset : Settings clog levels (2 ^ 32 - 1) rows cols cs ss) (M : Nat),
      HistInv H utf8 (hset.theory H enc) levels round name s M ∧ levels.length < readFuel ∧
      M + total (accepted H utf8 clog lg fuel name ops s) < B

theorem Every.step {B rows cols : Nat} {op : Op} {ops : List Op} {s : Dataset × Saved}
    (h : Every H utf8 clog lg fuel readFuel B rows cols (op :: ops) s) (hB : B ≤ 2 ^ 32) (hf : 32 ≤ fuel)
    (ho : op.Fits utf8) (hon : op.Limits utf8 clog readFuel rows cols)
    (hn : s.1.variables.length + adds [op] < 256)
    (htot : ∀ name, total (accepted H utf8 clog lg fuel name ops (op.step H utf8 clog lg fuel s)) < B)
    (hnc : (op.step H utf8 clog lg fuel s).2.NoCollision H) :
    Every H utf8 clog lg fuel readFuel B rows cols ops (op.step H utf8 clog lg fuel s) := by
  obtain ⟨f1, f2, f3, f4⟩ := op.step_fits s.1 s.2 h.fits ho hn hnc
  refine ⟨f1, ⟨f3.trans h.shape.1, f4.trans h.shape.2⟩, fun name hv => ?_⟩
  by_cases e : s.1.findVariable name = none
  · have hd := (op.step_declared s h.fits hnc).1
    have h1 := find_declared (op.step H utf8 clog lg fuel s).1.variables name
    rw [hd, List.find?_append, find_declared] at h1
    have e' : s.1.variables.find? (fun v => v.name = name) = none := e
    rw [e', Option.map_none, Option.none_or] at h1
    cases op with
    | append =>
      refine absurd ?_ hv
      exact Option.map_eq_none_iff.1 h1.symm
    | commit =>
      refine absurd ?_ hv
      exact Option.map_eq_none_iff.1 h1.symm
    | reload =>
      refine absurd ?_ hv
      exact Option.map_eq_none_iff.1 h1.symm
    | addVariable nm round ss cs levels enc =>
      by_cases hnm : nm = name
      · subst hnm
        refine ⟨levels, cs, ss, enc, round, hon.1, 0, ?_, hon.2, by rw [Nat.zero_add]; exact htot _⟩
        exact HistInv.start (hon.1.theory H enc) h.fits h.shape.1 h.shape.2 e ho hn hnc
      · refine absurd ?_ hv
        refine Option.map_eq_none_iff.1 (h1.symm.trans ?_)
        simp [Spec.declarations, hnm]
  · obtain ⟨levels, cs, ss, enc, round, hset, M, hi, hrf, hM⟩ := h.vars name e
    have hacc : accepted H utf8 clog lg fuel name (op :: ops) s =
      op.taken H utf8 clog lg fuel name s ++ accepted H utf8 clog lg fuel name ops (op.step H utf8 clog lg fuel s) := rfl
    rw [hacc, total_append] at hM
    have hreads : op.Reads utf8 readFuel name := by
      cases op with
      | append => exact fun _ => hon
      | _ => trivial
    refine ⟨levels, cs, ss, enc, round, hset, _, hi.step_taken (hset.appends (lg := lg) (readFuel := readFuel) hf)
      (fun M data n hn => Nat.le_trans hn (Nat.le_max_right ..)) hf ho hreads hn ?_ hnc, hrf, by omega⟩
    intro x hx
    rcases op.taken_one (H := H) (utf8 := utf8) (clog := clog) (lg := lg) (fuel := fuel) name s with e | ⟨y, e⟩
    · rw [e] at hx
      cases hx
    · rw [e] at hx hM
      rw [List.mem_singleton] at hx
      subst hx
      have : total [x] = x.2 := by simp [total]
      change M + x.2 ≤ 2 ^ 32 - 1
      omega

/-- The numbers of instants that are left. -/
theorem accepted_step {name : List Byte} {op : Op} {ops : List Op} {s : Dataset × Saved} {B : Nat}
    (h : total (accepted H utf8 clog lg fuel name (op :: ops) s) < B) :
    total (accepted H utf8 clog lg fuel name ops (op.step H utf8 clog lg fuel s)) < B := by
  have hacc : accepted H utf8 clog lg fuel name (op :: ops) s =
    op.taken H utf8 clog lg fuel name s ++ accepted H utf8 clog lg fuel name ops (op.step H utf8 clog lg fuel s) := rfl
  rw [hacc, total_append] at h
  omega

/-- Every variable of a data set that was made within the limits. -/
theorem Every.runs {B rows cols : Nat} (hB : B ≤ 2 ^ 32) (hf : 32 ≤ fuel) : ∀ (ops : List Op) (s : Dataset × Saved),
    Every H utf8 clog lg fuel readFuel B rows cols ops s →
    (∀ op ∈ ops, op.Fits utf8 ∧ op.Limits utf8 clog readFuel rows cols) →
    s.1.variables.length + adds ops < 256 →
    (∀ name, total (accepted H utf8 clog lg fuel name ops s) < B) →
    (runs H utf8 clog lg fuel ops s).2.NoCollision H →
    Every H utf8 clog lg fuel readFuel B rows cols [] (runs H utf8 clog lg fuel ops s) := by
  intro ops
  induction ops with
  | nil => intro s h _ _ _ _; exact h
  | cons op ops ih =>
    intro s h ho hn htot hnc
    rw [adds_cons] at hn
    have hnc1 : (op.step H utf8 clog lg fuel s).2.NoCollision H := NoCollision.mono (runs_mono ops _) hnc
    obtain ⟨ho1, ho2⟩ := ho op (List.mem_cons_self ..)
    have hlen : (op.step H utf8 clog lg fuel s).1.variables.length ≤ s.1.variables.length + adds [op] :=
      (op.step_fits s.1 s.2 h.fits ho1 (by omega) hnc1).2.1
    exact ih _ (h.step hB hf ho1 ho2 (by omega) (fun nm => accepted_step (htot nm)) hnc1)
      (fun o h => ho o (List.mem_cons_of_mem _ h)) (by omega) (fun nm => accepted_step (htot nm)) hnc

theorem Every.runs_same {B rows cols : Nat} (hB : B ≤ 2 ^ 32) (hf : 32 ≤ fuel) {ops ops' : List Op}
    (hops : List.Forall₂ (Op.Rescheduled utf8 readFuel) ops ops') : ∀ (s : Dataset × Saved),
    Every H utf8 clog lg fuel readFuel B rows cols ops s →
    (∀ op ∈ ops, op.Fits utf8 ∧ op.Limits utf8 clog readFuel rows cols) →
    s.1.variables.length + adds ops < 256 →
    (∀ name, total (accepted H utf8 clog lg fuel name ops s) < B) →
    (Verif.runs H utf8 clog lg fuel ops s).2.NoCollision H →
    Verif.runs H utf8 clog lg fuel ops' s = Verif.runs H utf8 clog lg fuel ops s := by
  induction hops with
  | nil => intro s _ _ _ _ _; rfl
  | @cons op op' ops ops' hop _ ih =>
    intro s h ho hn htot hnc
    rw [adds_cons] at hn
    have hnc1 : (op.step H utf8 clog lg fuel s).2.NoCollision H := NoCollision.mono (runs_mono ops _) hnc
    obtain ⟨ho1, ho2⟩ := ho op (List.mem_cons_self ..)
    have hlen : (op.step H utf8 clog lg fuel s).1.variables.length ≤ s.1.variables.length + adds [op] :=
      (op.step_fits s.1 s.2 h.fits ho1 (by omega) hnc1).2.1
    have h2 := ih _ (h.step hB hf ho1 ho2 (by omega) (fun nm => accepted_step (htot nm)) hnc1)
      (fun o h => ho o (List.mem_cons_of_mem _ h)) (by omega) (fun nm => accepted_step (htot nm)) hnc
    change Verif.runs H utf8 clog lg fuel ops' (op'.step H utf8 clog lg fuel s) =
      Verif.runs H utf8 clog lg fuel ops (op.step H utf8 clog lg fuel s)
    rw [← h2]
    have hstep : op'.step H utf8 clog lg fuel s = op.step H utf8 clog lg fuel s := by
      cases hop with
      | same => rfl
      | append fill fill' name data n r c hv =>
        have hncs : s.2.NoCollision H := NoCollision.mono (Op.step_mono _ s) hnc1
        have e : Dataset.append H utf8 clog lg fuel fill' s.1 name data n r c s.2 =
            Dataset.append H utf8 clog lg fuel fill s.1 name data n r c s.2 := by
          unfold Dataset.append
          cases e : s.1.findVariable name with
          | none => rfl
          | some v =>
            obtain ⟨levels, cs, ss, enc, round, hset, M, hi, hrf, -⟩ := h.vars name (by rw [e]; simp)
            obtain ⟨v', tl, h1, h2, h0, h3⟩ := hi.var
            rw [e] at h1
            cases h1
            simp only
            change Prog.bind _ _ s.2 = Prog.bind _ _ s.2
            unfold Prog.bind
            rw [Variable.appendArray_same_any (hset.settled hrf) hf hv ho2 h3 h0 hncs]
        unfold Op.step Op.prog
        simp only
        rw [e]
    rw [hstep]

theorem Limited.every {d : Dataset} {ops : List Op} {log : Saved} {room : Nat}
    (h : Limited H utf8 clog lg fuel readFuel d ops log room) (ops' : List Op) :
    Every H utf8 clog lg fuel readFuel (2 ^ 32 - room) d.rows d.cols ops' (d, log) :=
  ⟨⟨h.wf, fun c hc => by rw [h.new.2.1] at hc; cases hc⟩, ⟨rfl, rfl⟩, fun name hv => by
    unfold Dataset.findVariable at hv
    rw [h.new.1] at hv
    exact (hv rfl).elim⟩

theorem Limited.runs {d : Dataset} {ops : List Op} {log : Saved} {room : Nat}
    (h : Limited H utf8 clog lg fuel readFuel d ops log room) (hf : 32 ≤ fuel) {s : Dataset × Saved}
    (hs : s = Verif.runs H utf8 clog lg fuel ops (d, log)) (hnc : s.2.NoCollision H) :
    Every H utf8 clog lg fuel readFuel (2 ^ 32 - room) d.rows d.cols [] s := by
  subst hs
  refine Every.runs (by omega) hf ops _ (h.every ops) h.each ?_ (fun nm => by have := h.instants nm; omega) hnc
  rw [h.new.1]
  have := h.count
  simpa using this

/-- More operations than had been looked at. -/
theorem Every.more {B rows cols : Nat} {s : Dataset × Saved}
    (h : Every H utf8 clog lg fuel readFuel B rows cols [] s) {ops : List Op} {B' : Nat}
    (hB : B + instantsIn ops ≤ B') : Every H utf8 clog lg fuel readFuel B' rows cols ops s := by
  refine ⟨h.fits, h.shape, fun name hv => ?_⟩
  obtain ⟨levels, cs, ss, enc, round, hset, M, hi, hrf, hM⟩ := h.vars name hv
  have := accepted_le (H := H) (utf8 := utf8) (clog := clog) (lg := lg) (fuel := fuel) name ops s
  exact ⟨levels, cs, ss, enc, round, hset, M, hi, hrf, by omega⟩

/-- C60: what a history stores does not depend on the order in which the tails of variables are read back,
whatever is appended to whichever variables, and whatever fails: the data set is the same in the end, and the
same objects were saved in the same order. -/
theorem C60_any (d : Dataset) (ops ops' : List Op) (log : Saved)
    (h : Limited H utf8 clog lg fuel readFuel d ops log 0)
    (hsame : List.Forall₂ (Op.Rescheduled utf8 readFuel) ops ops') (hf : 32 ≤ fuel) (s s' : Dataset × Saved)
    (hs : s = runs H utf8 clog lg fuel ops (d, log)) (hs' : s' = runs H utf8 clog lg fuel ops' (d, log))
    (hnc : s.2.NoCollision H) : s' = s := by
  subst hs hs'
  refine Every.runs_same (Nat.le_refl _) hf hsame _ (h.every ops) h.each ?_ h.instants hnc
  rw [h.new.1]
  have := h.count
  simpa using this

end

/-! ### Examples -/

/-- Two variables, arrays of several types, extreme values, and appends that fail. -/
def exampleTwo : List Op :=
  .addVariable [7] none 2 2 [1, 1] .i64 :: .addVariable [8] (some 3) 3 3 [2] .f32 ::
    .append exampleFill [8] (.flt .single (exampleFltSeries fun z => z / 4)) 2 4 4 :: (exampleMixed ++
    [.append exampleFill [8] (.i64 exampleGrid) 2 4 4, .append exampleFill [7] (.i64 exampleGrid) 3 4 4])

/-- Tails are read back backwards. -/
def Op.backwards : Op → Op
  | .append _ name data n rows cols => .append (.sequential (fun _ => true) 40 true) name data n rows cols
  | op => op

theorem exampleTwo_limited {lg : Rat → Int} {room : Nat} (h : room < 1000) :
    Limited exampleHash (fun _ => true) exampleClog lg 32 40 exampleDataset exampleTwo [] room := by
  have hset : Settings exampleClog [2] (2 ^ 32 - 1) 4 4 3 3 :=
    ⟨exampleClogOk.mono (by decide), by decide, by decide, by decide, by decide, by decide, by decide,
      by decide, by decide, by decide, ⟨by decide, by decide, by decide⟩⟩
  refine ⟨⟨rfl, rfl, rfl⟩, exampleWF, ?_, by decide, ?_⟩
  · intro op ho
    simp only [exampleTwo, exampleMixed, List.cons_append, List.nil_append, List.mem_cons, List.not_mem_nil, or_false] at ho
    rcases ho with rfl | rfl | rfl | rfl | rfl | rfl | rfl | rfl | rfl | rfl
    · exact ⟨⟨by decide, rfl, fun b hb => (nomatch hb), by decide, by decide, by decide, by decide⟩,
        exampleSettings (by decide), by decide⟩
    · exact ⟨⟨by decide, rfl, fun b hb => by cases hb; decide, by decide, by decide, by decide, by decide⟩,
        hset, by decide⟩
    all_goals first | exact ⟨trivial, exampleFill_valid⟩ | exact ⟨trivial, trivial⟩
  · intro name
    have := accepted_le (H := exampleHash) (utf8 := fun _ => true) (clog := exampleClog) (lg := lg) (fuel := 32) name
      exampleTwo (exampleDataset, [])
    have e : instantsIn exampleTwo < 1000 := by decide
    omega

theorem exampleTwo_noCollision : (runs exampleHash (fun _ => true) exampleClog exampleLg 32 exampleTwo
    (exampleDataset, [])).2.NoCollision exampleHash := by
  unfold Saved.NoCollision
  decide +kernel

/-- The assumptions of `C60_any`. -/
example : runs exampleHash (fun _ => true) exampleClog exampleLg 32 (exampleTwo.map Op.backwards) (exampleDataset, []) =
    runs exampleHash (fun _ => true) exampleClog exampleLg 32 exampleTwo (exampleDataset, []) := by
  refine C60_any (H := exampleHash) (readFuel := 40) exampleDataset exampleTwo (exampleTwo.map Op.backwards) []
    (exampleTwo_limited (by decide)) ?_ (by decide) _ _ rfl rfl exampleTwo_noCollision
  rw [List.forall₂_map_right_iff]
  refine List.forall₂_same.2 fun op _ => ?_
  cases op with
  | append => exact .append _ _ _ _ _ _ _ (Fill.sequential_valid (fun _ => true) 40 true)
  | _ => exact .same _

end Verif
