import Verif.Props.Canon
import Verif.Lemmas.BuildSame

/-!
Property C60: what appending stores does not depend on the order in which tasks run.
-/
namespace Verif

open Prog hiding pure bind

/-- Two operations that differ at most in how the tail of the variable `name` is read back, when they
append to it. -/
inductive Op.Alike (utf8 : List Byte → Bool) (readFuel : Nat) (name : List Byte) : Op → Op → Prop
  | same (op : Op) : Op.Alike utf8 readFuel name op op
  | append (fill fill' : Fill) (data : NdArray) (n rows cols : Nat) : fill'.Valid utf8 readFuel →
      Op.Alike utf8 readFuel name (.append fill name data n rows cols) (.append fill' name data n rows cols)

section
variable {H : Hash} {utf8 : List Byte → Bool} {clog : Nat → Nat} {lg : Rat → Int} {fuel readFuel : Nat}
  {levels : List Nat} {round : Option Nat} {T : VarTheory} {Next : Nat → NdArray → Nat → Prop}

/-- However the tail is read back, and whatever was saved before that, it and the array after it make the
same buffer. -/
def Settled (H : Hash) (utf8 : List Byte → Bool) (readFuel : Nat) (T : VarTheory) (round : Option Nat)
    (Next : Nat → NdArray → Nat → Prop) : Prop :=
  ∀ (log log' : Saved) (fill fill' : Fill) (data : NdArray) (M n : Nat) (m : MMStruct3) (a p : Nat),
    fill.Valid utf8 readFuel → fill'.Valid utf8 readFuel → Next M data n → log ⊆ log' → log'.NoCollision H →
    T.K log m a p → a + p = M →
    (fill m (log.load H)).2 = none ∧ (fill' m (log'.load H)).2 = none ∧
      ((data.prepend p (fill m (log.load H)).1).buffer round).Agree (p + n) T.rows T.cols
        ((data.prepend p (fill' m (log'.load H)).1).buffer round)

/-- Saves nothing. -/
def Prog.ReadOnly {α : Type} (m : Prog α) : Prop := ∀ log, (m log).2 = log

theorem Prog.ReadOnly.bind {α β : Type} {m : Prog α} {f : α → Prog β} (hm : m.ReadOnly)
    (hf : ∀ a, (f a).ReadOnly) : (m >>= f).ReadOnly := by
  intro log
  change (Prog.bind m f log).2 = log
  unfold Prog.bind
  have := hm log
  rcases e : m log with ⟨_ | a, log'⟩
  · rw [e] at this
    exact this
  · rw [e] at this
    simp only at this ⊢
    rw [hf a log', this]

theorem Prog.ReadOnly.ofOption {α : Type} (x : Option α) : (Prog.ofOption x).ReadOnly := by
  intro log
  cases x <;> rfl

theorem Prog.ReadOnly.pure {α : Type} (a : α) : (Pure.pure a : Prog α).ReadOnly := fun _ => rfl

theorem Prog.ReadOnly.fail {α : Type} (f : Fail) : (Prog.fail f : Prog α).ReadOnly := fun _ => rfl

theorem Prog.ReadOnly.getStruct (cid : Cid) : (Prog.getStruct H utf8 cid).ReadOnly := fun _ => rfl

theorem Prog.ReadOnly.getSpan (cid : Cid) : (Prog.getSpan H utf8 cid).ReadOnly := by
  unfold Prog.getSpan
  refine (Prog.ReadOnly.getStruct cid).bind fun m => ?_
  cases m with
  | span s => exact Prog.ReadOnly.pure _
  | subchunk c => exact Prog.ReadOnly.fail _
  | superchunk h l => exact Prog.ReadOnly.fail _

theorem tailSpansLoop_readOnly (cs : Nat) : ∀ (fuel : Nat) (above : List Span) (sp : Span),
    (tailSpansLoop H utf8 cs fuel above sp).ReadOnly := by
  intro fuel
  induction fuel with
  | zero => intro above sp; exact Prog.ReadOnly.fail _
  | succ fuel ih =>
    intro above sp
    unfold tailSpansLoop
    split
    · exact (Prog.ReadOnly.ofOption _).bind fun cid => (Prog.ReadOnly.getSpan cid).bind fun child => ih _ _
    · exact Prog.ReadOnly.pure _

theorem Variable.tailData_readOnly (v : Variable) : (v.tailData H utf8 fuel).ReadOnly := by
  unfold Variable.tailData
  refine Prog.ReadOnly.bind ?_ fun spans => ?_
  · unfold Variable.tailSpans
    exact (Prog.ReadOnly.getSpan _).bind fun root => tailSpansLoop_readOnly _ _ _ _
  · cases spans with
    | nil => exact Prog.ReadOnly.fail _
    | cons tail _ =>
      simp only
      cases tail.spans.getLast? with
      | none => exact Prog.ReadOnly.pure _
      | some cid =>
        refine (Prog.ReadOnly.getStruct cid).bind fun m => (Prog.ReadOnly.ofOption _).bind fun s => ?_
        split
        · exact Prog.ReadOnly.pure _
        · exact Prog.ReadOnly.pure _

theorem Variable.appendArray_same (hs : Settled H utf8 readFuel T round Next) (hf : 32 ≤ fuel) {log : Saved}
    {v : Variable} {fill fill' : Fill} {data : NdArray} {M n tl : Nat} (hfill : fill.Valid utf8 readFuel)
    (hfill' : fill'.Valid utf8 readFuel) (hv : VarInv H T log v M tl) (hr : v.round = round)
    (hd : Next M data n) (hnc : log.NoCollision H) :
    v.appendArray H utf8 clog lg fuel fill data n T.rows T.cols log =
      v.appendArray H utf8 clog lg fuel fill' data n T.rows T.cols log := by
  unfold Variable.appendArray
  change Prog.bind _ _ log = Prog.bind _ _ log
  unfold Prog.bind
  rcases ht : v.tailData H utf8 fuel log with ⟨_ | tail, log'⟩
  · rfl
  · have hlog : log' = log := by
      have := Variable.tailData_readOnly (H := H) (utf8 := utf8) (fuel := fuel) v log
      rw [ht] at this
      exact this
    subst hlog
    have hsat := Sat.ok (Variable.tailData_sat (utf8 := utf8) hf hv) (by rw [ht]; exact hnc)
    rw [ht] at hsat
    obtain ⟨o, l, e, -, ho⟩ := hsat
    cases e
    cases tail with
    | none => rfl
    | some m =>
      split at ho
      · cases ho
      · obtain ⟨m', cid, e, hk, hK, hle⟩ := ho
        cases e
        obtain ⟨e1, e2, e3⟩ := hs log' log' fill fill' data M n m _ _ hfill hfill' hd
          (List.Subset.refl _) hnc hK (by omega)
        simp only
        change Prog.bind _ _ log' = Prog.bind _ _ log'
        unfold Prog.bind
        rw [T.shape hK]
        change Prog.bind _ _ log' = Prog.bind _ _ log'
        unfold Prog.bind
        have hst : Prog.store H log' = (.ok (log'.load H), log') := rfl
        rw [hst]
        simp only
        rw [e1, e2]
        simp only
        rw [hr]
        rw [if_neg (by simp), if_neg (by simp)]
        rw [Variable.append_same fuel v e3 true]

theorem HistInv.append_same (hs : Settled H utf8 readFuel T round Next) (hf : 32 ≤ fuel)
    {name : List Byte} {s : Dataset × Saved} {M : Nat} {fill fill' : Fill} {data : NdArray} {n : Nat}
    (hi : HistInv H utf8 T levels round name s M) (hfill : fill.Valid utf8 readFuel)
    (hfill' : fill'.Valid utf8 readFuel) (hd : Next M data n) (hnc : s.2.NoCollision H) :
    (Op.append fill' name data n T.rows T.cols).step H utf8 clog lg fuel s =
      (Op.append fill name data n T.rows T.cols).step H utf8 clog lg fuel s := by
  obtain ⟨v, tl, h1, h2, h0, h3⟩ := hi.var
  have key := Variable.appendArray_same (clog := clog) (lg := lg) hs hf hfill' hfill h3 h0 hd hnc
  unfold Op.step Op.prog
  simp only
  have e : Dataset.append H utf8 clog lg fuel fill' s.1 name data n T.rows T.cols s.2 =
      Dataset.append H utf8 clog lg fuel fill s.1 name data n T.rows T.cols s.2 := by
    unfold Dataset.append
    rw [h1]
    change Prog.bind _ _ s.2 = Prog.bind _ _ s.2
    unfold Prog.bind
    rw [key]
  rw [e]

theorem HistInv.runs_same (ha : Appends False H utf8 clog lg fuel readFuel T levels round Next)
    (hs : Settled H utf8 readFuel T round Next) (hf : 32 ≤ fuel) {name : List Byte} {ops ops' : List Op}
    (hops : List.Forall₂ (Op.Alike utf8 readFuel name) ops ops') : ∀ (s : Dataset × Saved) (M : Nat),
    HistInv H utf8 T levels round name s M →
    (∀ op ∈ ops, op.Fits utf8 ∧ op.On utf8 readFuel name T.rows T.cols) →
    s.1.variables.length + adds ops < 256 → Follows Next M (Verif.arrays name ops) →
    (Verif.runs H utf8 clog lg fuel ops s).2.NoCollision H →
    Verif.runs H utf8 clog lg fuel ops' s = Verif.runs H utf8 clog lg fuel ops s := by
  induction hops with
  | nil => intro s M _ _ _ _ _; rfl
  | @cons op op' ops ops' hop _ ih =>
    intro s M hi ho hn hfo hnc
    rw [arrays_cons] at hfo
    rw [adds_cons] at hn
    have hnc1 : (op.step H utf8 clog lg fuel s).2.NoCollision H :=
      NoCollision.mono (runs_mono ops _) hnc
    have hlen : (op.step H utf8 clog lg fuel s).1.variables.length ≤ s.1.variables.length + adds [op] :=
      (op.step_fits s.1 s.2 hi.fits (ho op (List.mem_cons_self ..)).1 (by omega) hnc1).2.1
    have hnext : (∀ x ∈ Verif.arrays name [op], Next M x.1 x.2) ∧
        Follows Next (M + total (Verif.arrays name [op])) (Verif.arrays name ops) := by
      rcases arrays_one name op with e | ⟨x, e⟩
      · rw [e] at hfo ⊢
        exact ⟨fun x hx => by (cases hx), by simpa [total] using hfo⟩
      · rw [e] at hfo ⊢
        obtain ⟨g1, g2⟩ := hfo
        refine ⟨fun y hy => ?_, by simpa [total] using g2⟩
        rw [List.mem_singleton] at hy
        subst hy
        exact g1
    have h2 := ih _ _ (hi.step ha (ho op (List.mem_cons_self ..)).1 (ho op (List.mem_cons_self ..)).2
      (by omega) hnext.1 hnc1) (fun o h => ho o (List.mem_cons_of_mem _ h)) (by omega) hnext.2 hnc
    change Verif.runs H utf8 clog lg fuel ops' (op'.step H utf8 clog lg fuel s) =
      Verif.runs H utf8 clog lg fuel ops (op.step H utf8 clog lg fuel s)
    rw [← h2]
    have hstep : op'.step H utf8 clog lg fuel s = op.step H utf8 clog lg fuel s := by
      cases hop with
      | same => rfl
      | append fill fill' data n rows cols hv =>
        obtain ⟨o1, o2, o3⟩ := (ho _ (List.mem_cons_self ..)).2 rfl
        subst o2 o3
        exact hi.append_same hs hf o1 hv (hnext.1 (data, n) (by simp [Verif.arrays]))
          (NoCollision.mono (Op.step_mono _ s) hnc1)
    rw [hstep]

theorem HistoryShape.same {d : Dataset} {name : List Byte} {ops ops' : List Op}
    (h : HistoryShape utf8 readFuel d name round T.ss T.cs levels T.enc ops)
    (hr : d.rows = T.rows) (hc : d.cols = T.cols)
    (ha : Appends False H utf8 clog lg fuel readFuel T levels round Next)
    (hs : Settled H utf8 readFuel T round Next) (hf : 32 ≤ fuel)
    (hfo : Follows Next 0 (arrays name ops))
    (hops : List.Forall₂ (Op.Alike utf8 readFuel name) ops ops') (log : Saved)
    (hnc : (runs H utf8 clog lg fuel (.addVariable name round T.ss T.cs levels T.enc :: ops)
      (d, log)).2.NoCollision H) :
    runs H utf8 clog lg fuel (.addVariable name round T.ss T.cs levels T.enc :: ops') (d, log) =
      runs H utf8 clog lg fuel (.addVariable name round T.ss T.cs levels T.enc :: ops) (d, log) := by
  have hnc1 : ((Op.addVariable name round T.ss T.cs levels T.enc).step H utf8 clog lg fuel
      (d, log)).2.NoCollision H := NoCollision.mono (runs_mono ops _) hnc
  have hcount := h.count
  have h1 := HistInv.start (H := H) (lg := lg) (clog := clog) (fuel := fuel) (log := log) (round := round)
    T h.dataset hr hc h.new h.fits (by omega) hnc1
  have hlen : ((Op.addVariable name round T.ss T.cs levels T.enc).step H utf8 clog lg fuel
      (d, log)).1.variables.length = d.variables.length + 1 := by
    change (d.variables ++ [_]).length = _
    simp
  exact HistInv.runs_same ha hs hf hops _ 0 h1 (by rw [← hr, ← hc]; exact h.each) (by rw [hlen]; omega) hfo
    hnc

end

section
variable {H : Hash} {utf8 : List Byte → Bool} {clog : Nat → Nat} {lg : Rat → Int} {fuel readFuel : Nat}
  {levels : List Nat} {cs ss : Nat}

theorem IntBuf.alike {D : Nat → Nat → Nat → Int64} {rows cols : Nat} {round : Option Nat} {A n : Nat}
    {data data' : NdArray} {wide : Bool} (hw : data.Wide wide) (hw' : data'.Wide wide)
    (h : IntBuf D rows cols (data.buffer round) A n) (h' : IntBuf D rows cols (data'.buffer round) A n) :
    (data.buffer round).Agree n rows cols (data'.buffer round) := by
  cases wide with
  | true =>
    obtain ⟨x, rfl⟩ := hw
    obtain ⟨x', rfl⟩ := hw'
    exact .i64 fun t r c ht hr hc => (h.int t r c ht hr hc).trans (h'.int t r c ht hr hc).symm
  | false =>
    obtain ⟨x, rfl⟩ := hw
    obtain ⟨x', rfl⟩ := hw'
    refine .i32 fun t r c ht hr hc => ?_
    have : (x t r c).toInt64 = (x' t r c).toInt64 :=
      (h.int t r c ht hr hc).trans (h'.int t r c ht hr hc).symm
    simpa using congrArg Int64.toInt32 this

theorem IntVar.settled {D : Nat → Nat → Nat → Int64} {N rows cols : Nat} {round : Option Nat}
    {enc : MMEncoding} (h : IntVar clog levels D N rows cols cs ss) (hrf : levels.length < readFuel) :
    Settled H utf8 readFuel (h.theory H enc) round (NextInt D N rows cols) := by
  rintro log log' fill fill' data M n m a p hfill hfill' ⟨h1, h2, h3⟩ hsub hnc hK hap
  obtain ⟨e1, e2⟩ := h.prepend (round := round) hfill hrf (NoCollision.mono hsub hnc) hK hap h2 h3
  obtain ⟨e1', e2'⟩ := h.prepend (round := round) hfill' hrf hnc ((h.theory H enc).mono hsub hK) hap h2 h3
  refine ⟨e1, e1', ?_⟩
  rcases h3 with ⟨x, rfl⟩ | ⟨⟨x, rfl⟩, -⟩
  · exact e2.alike (wide := true) ⟨_, rfl⟩ ⟨_, rfl⟩ e2'
  · exact e2.alike (wide := false) ⟨_, rfl⟩ ⟨_, rfl⟩ e2'

theorem FltVar.settled {p : Prec} {B : Nat} {D : Nat → Nat → Nat → Flt} {N rows cols : Nat}
    {round : Option Nat} {enc : MMEncoding} (h : FltVar clog lg levels p B round D N rows cols cs ss)
    (hrf : levels.length < readFuel) :
    Settled H utf8 readFuel (h.theory H enc) round (NextFlt p D N rows cols) := by
  rintro log log' fill fill' data M n m a q hfill hfill' ⟨h1, x, rfl, h2⟩ hsub hnc hK hap
  obtain ⟨e1, y, e2, e3⟩ := h.prepend hfill hrf (NoCollision.mono hsub hnc) hK hap h2
  obtain ⟨e1', y', e2', e3'⟩ := h.prepend hfill' hrf hnc ((h.theory H enc).mono hsub hK) hap h2
  refine ⟨e1, e1', ?_⟩
  rw [e2, e2']
  exact .flt fun t r c ht hr hc => (e3 t r c ht hr hc).trans (e3' t r c ht hr hc).symm

/-- C60 for integers: two histories that differ only in the orders in which the reads of the tail of the
variable went end in the same data set, and have saved the same objects in the same order.

Partial: `History`. -/
theorem C60_int_partial (d : Dataset) (name : List Byte) (round : Option Nat) (enc : MMEncoding)
    (ops ops' : List Op) (log : Saved)
    (h : History utf8 clog readFuel d name round ss cs levels enc ops)
    (hops : List.Forall₂ (Op.Alike utf8 readFuel name) ops ops')
    (hf : 32 ≤ fuel) (hrf : levels.length < readFuel) (s s' : Dataset × Saved)
    (hs : s = runs H utf8 clog lg fuel (.addVariable name round ss cs levels enc :: ops) (d, log))
    (hs' : s' = runs H utf8 clog lg fuel (.addVariable name round ss cs levels enc :: ops') (d, log))
    (hnc : s.2.NoCollision H) : s' = s := by
  subst hs hs'
  exact HistoryShape.same (T := h.int.theory H enc) h.toHistoryShape rfl rfl (h.int.appends hf hrf)
    (h.int.settled hrf) hf h.follows hops log hnc

/-- C60 for floats, rounded or not. Partial: `FltHistory`. -/
theorem C60_float_partial {p : Prec} {B : Nat} (d : Dataset) (name : List Byte) (round : Option Nat)
    (ops ops' : List Op) (log : Saved)
    (h : FltHistory utf8 clog lg readFuel d name round ss cs levels p B ops)
    (hops : List.Forall₂ (Op.Alike utf8 readFuel name) ops ops')
    (hf : 32 ≤ fuel) (hrf : levels.length < readFuel) (s s' : Dataset × Saved)
    (hs : s = runs H utf8 clog lg fuel (.addVariable name round ss cs levels p.kind.encoding :: ops)
      (d, log))
    (hs' : s' = runs H utf8 clog lg fuel (.addVariable name round ss cs levels p.kind.encoding :: ops')
      (d, log))
    (hnc : s.2.NoCollision H) : s' = s := by
  subst hs hs'
  exact HistoryShape.same (T := h.flt.theory H p.kind.encoding) h.toHistoryShape rfl rfl
    (h.flt.appends hf hrf) (h.flt.settled hrf) hf h.follows hops log hnc

end

/-! ### Examples -/

/-- `exampleOther`, but the tail is read back backwards. -/
def exampleBack : List Op :=
  [.append (.sequential (fun _ => true) 40 true) [8] (.i64 exampleGrid) 1 4 4,
    .append exampleFill [7] (.i64 exampleGrid) 2 4 4,
    .append (.sequential (fun _ => true) 40 true) [8] (.i64 fun t => exampleGrid (1 + t)) 5 4 4]

example : List.Forall₂ (Op.Alike (fun _ => true) 40 [8]) exampleOther exampleBack :=
  have hf := Fill.sequential_valid (fun _ => true) 40 true
  .cons (.append _ _ _ _ _ _ hf) (.cons (.same _) (.cons (.append _ _ _ _ _ _ hf) .nil))

/-- The first cell of the tail that the second append to `[8]` gets, if the tail is read by `fill`. -/
def exampleFirst (fill : Fill) : Option (Nat × Nat × Nat × Nat × Int64) :=
  let s := runs exampleHash (fun _ => true) exampleClog (fun _ => 0) 32
    (.addVariable [8] (some 3) 2 2 [1, 1] .i64 :: exampleOther.take 1) (exampleDataset, [])
  match s.1.findVariable [8] with
  | none => none
  | some v =>
    match (v.tailData exampleHash (fun _ => true) 32 s.2).1 with
    | .ok (some m) => (fill m (s.2.load exampleHash)).1[0]?
    | _ => none

/-- The two ways to read the tail back do give its cells in different orders. -/
example : exampleFirst exampleFill = some (0, 0, 0, 0, 10) ∧
    exampleFirst (.sequential (fun _ => true) 40 true) = some (0, 2, 2, 0, 228) := by
  decide +kernel

/-- C60 in numbers: the same objects are saved. -/
example : (runs exampleHash (fun _ => true) exampleClog (fun _ => 0) 32
      (.addVariable [8] (some 3) 2 2 [1, 1] .i64 :: exampleOther) (exampleDataset, [])).2 =
    (runs exampleHash (fun _ => true) exampleClog (fun _ => 0) 32
      (.addVariable [8] (some 3) 2 2 [1, 1] .i64 :: exampleBack) (exampleDataset, [])).2 := by
  decide +kernel

end Verif
