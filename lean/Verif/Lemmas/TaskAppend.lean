import Verif.Lemmas.TaskEnds
import Verif.Props.Schedule

/-! Appends that run at the same time as other operations. -/
namespace Verif

open Prog hiding pure bind

theorem Task.Fillless.bind {α β : Type} {t : Task α} {f : α → Task β} (h : t.Fillless)
    (hf : ∀ a, (f a).Fillless) : (t >>= f).Fillless := by
  change (t.bind f).Fillless
  induction t with
  | done r =>
    cases r with
    | ok a => exact hf a
    | error e => trivial
  | load cid k ih => exact fun x => ih x (h x)
  | save b k ih => exact fun x => ih x (h x)
  | saveAll bs t ih => exact ih h
  | fill m k ih => exact h.elim
  | filling since m k ih => exact h.elim

theorem Task.Fillless.pure {α : Type} (a : α) : (Pure.pure a : Task α).Fillless := trivial

theorem Task.Fillless.fail {α : Type} (f : Fail) : (Task.fail f : Task α).Fillless := trivial

theorem Task.Fillless.ofOption {α : Type} (x : Option α) : (Task.ofOption x).Fillless := by
  cases x <;> trivial

theorem Task.Fillless.getStruct (cid : Cid) : (Task.getStruct cid).Fillless := by
  intro x
  cases x <;> trivial

theorem Task.Fillless.getSpan (cid : Cid) : (Task.getSpan cid).Fillless := by
  refine (Task.Fillless.getStruct cid).bind fun m => ?_
  cases m <;> trivial

theorem Task.Fillless.saveItem (x : Item) : (Task.saveItem x).Fillless := fun _ => trivial

theorem Span.appendT_fillless (sp : Span) (m : MMStruct3) : (sp.appendT m).Fillless := by
  refine Task.Fillless.bind ?_ fun _ => (Task.Fillless.ofOption _).bind fun shape => ?_
  · unfold Span.checkLastT
    cases sp.spans.getLast? with
    | none => trivial
    | some last =>
      refine (Task.Fillless.getStruct last).bind fun _ => (Task.Fillless.ofOption _).bind fun shape => ?_
      split <;> trivial
  · split
    · trivial
    · split
      · trivial
      · exact (Task.Fillless.saveItem _).bind fun _ => Task.Fillless.pure _

theorem Span.updateT_fillless (sp : Span) (m : MMStruct3) : (sp.updateT m).Fillless :=
  Span.appendT_fillless _ _

theorem tailSpansLoopT_fillless (cs : Nat) : ∀ (fuel : Nat) (above : List Span) (sp : Span),
    (tailSpansLoopT cs fuel above sp).Fillless := by
  intro fuel
  induction fuel with
  | zero => intro above sp; trivial
  | succ fuel ih =>
    intro above sp
    unfold tailSpansLoopT
    split
    · exact (Task.Fillless.ofOption _).bind fun cid => (Task.Fillless.getSpan cid).bind fun _ => ih _ _
    · trivial

theorem Variable.tailSpansT_fillless (fuel : Nat) (v : Variable) : (v.tailSpansT fuel).Fillless :=
  (Task.Fillless.getSpan _).bind fun _ => tailSpansLoopT_fillless ..

theorem saveSpansLoopT_fillless : ∀ (rest : List Span) (sp : Span), (saveSpansLoopT sp rest).Fillless
  | [], _ => trivial
  | last :: rest, sp => (Span.updateT_fillless ..).bind fun _ => saveSpansLoopT_fillless rest _

theorem Variable.saveSpansT_fillless (v : Variable) (spans : List Span) : (v.saveSpansT spans).Fillless := by
  cases spans with
  | nil => trivial
  | cons sp rest =>
    exact (saveSpansLoopT_fillless ..).bind fun _ => (Task.Fillless.saveItem _).bind fun _ => trivial

theorem openSpanUpT_fillless : ∀ (rest : List Span) (sp : Span), (openSpanUpT sp rest).Fillless
  | [], _ => trivial
  | _ :: rest, _ => (Span.updateT_fillless ..).bind fun _ => openSpanUpT_fillless rest _

theorem openSpanLoopT_fillless (v : Variable) (rows cols : Nat) : ∀ (rest : List Span) (leftHand sp : Span),
    (openSpanLoopT v rows cols leftHand sp rest).Fillless
  | [], _, _ => (Span.appendT_fillless ..).bind fun _ => (Span.appendT_fillless ..).bind fun _ => trivial
  | parent :: rest, _, sp => by
    unfold openSpanLoopT
    split
    · exact (Span.appendT_fillless ..).bind fun _ => openSpanLoopT_fillless v rows cols rest _ _
    · exact (Span.appendT_fillless ..).bind fun _ => trivial

theorem Variable.createOpenSpanT_fillless (fuel : Nat) (v : Variable) (rows cols : Nat) :
    (v.createOpenSpanT fuel rows cols).Fillless := by
  refine (Variable.tailSpansT_fillless _ _).bind fun spans => ?_
  cases spans with
  | nil => trivial
  | cons sp rest =>
    exact (openSpanLoopT_fillless ..).bind fun _ => (openSpanUpT_fillless ..).bind fun _ =>
      (Task.Fillless.saveItem _).bind fun _ => trivial

theorem Variable.tailDataT_fillless (fuel : Nat) (v : Variable) : (v.tailDataT fuel).Fillless := by
  refine (Variable.tailSpansT_fillless _ _).bind fun spans => ?_
  cases spans with
  | nil => trivial
  | cons tail rest =>
    simp only
    cases tail.spans.getLast? with
    | none => trivial
    | some cid =>
      refine (Task.Fillless.getStruct cid).bind fun _ => (Task.Fillless.ofOption _).bind fun shape => ?_
      split <;> trivial

section
variable {H : Hash} {utf8 : List Byte → Bool} {clog : Nat → Nat} {lg : Rat → Int}

theorem Task.Fillless.buildChunk (levels : List Nat) (b : MMBuffer3) (n rows cols : Nat) :
    (Task.buildChunk H clog lg levels b n rows cols).Fillless := by
  unfold Task.buildChunk
  cases b.computeBits lg n rows cols with
  | none => trivial
  | some b =>
    simp only
    cases Superchunk.build H clog lg 2 levels [] b n rows cols <;> trivial

theorem Variable.openIfFullT_fillless (fuel : Nat) (v : Variable) (rows cols : Nat) (sp : Span)
    (rest : List Span) : (v.openIfFullT fuel rows cols sp rest).Fillless := by
  unfold Variable.openIfFullT
  split
  · refine (Variable.saveSpansT_fillless ..).bind fun _ => (Variable.createOpenSpanT_fillless _ _ _ _).bind fun _ =>
      (Variable.tailSpansT_fillless _ _).bind fun spans => ?_
    cases spans with
    | nil => trivial
    | cons sp rest =>
      simp only
      split <;> trivial
  · trivial

theorem Variable.appendLoopT_fillless (fuel : Nat) (data : MMBuffer3) (n rows cols : Nat) :
    ∀ (starts : List Nat) (v : Variable) (spans : List Span) (update : Bool),
    (Variable.appendLoopT H clog lg fuel data n rows cols starts v spans update).Fillless
  | [], _, _, _ => trivial
  | start :: starts, v, spans, update => by
    unfold Variable.appendLoopT
    refine (Task.Fillless.buildChunk ..).bind fun chunk => ?_
    cases spans with
    | nil => trivial
    | cons sp rest =>
      refine (Variable.openIfFullT_fillless ..).bind fun x => Task.Fillless.bind ?_ fun sp =>
        Variable.appendLoopT_fillless fuel data n rows cols starts _ _ _
      unfold Span.addChunkT
      split <;> exact Span.appendT_fillless _ _

theorem Variable.appendT_fillless (fuel : Nat) (v : Variable) (data : MMBuffer3) (n rows cols : Nat)
    (update : Bool) : (v.appendT H clog lg fuel data n rows cols update).Fillless := by
  refine (Variable.tailSpansT_fillless _ _).bind fun spans => ?_
  split
  · trivial
  · exact (Variable.appendLoopT_fillless ..).bind fun _ => Variable.saveSpansT_fillless ..

variable {fuel readFuel : Nat} {levels : List Nat} {round : Option Nat} {T : VarTheory}
  {Next : Nat → NdArray → Nat → Prop}

/-- The result of the operation, if it runs without interruption, and that what it saves then is saved. -/
def Alone {α : Type} (m : Prog α) (log : Saved) (a : α) (log' : Saved) : Prop :=
  ∃ own, m log = (.ok a, own) ∧ own ⊆ log'

theorem Alone.lasting {α : Type} (m : Prog α) (log : Saved) : Lasting (Alone m log) :=
  fun _ _ _ hs ⟨own, h1, h2⟩ => ⟨own, h1, List.Subset.trans h2 hs⟩

open Classical in
/-- `fill`, but for one structure and store. -/
noncomputable def Fill.but (fill : Fill) (m : MMStruct3) (st : Store) (x : Calls × Option Fail) : Fill :=
  fun m' st' => if m' = m ∧ st' = st then x else fill m' st'

theorem Fill.but_valid {fill : Fill} {m : MMStruct3} {st : Store} {x : Calls × Option Fail} {n rows cols : Nat}
    (h : fill.Valid utf8 readFuel) (hm : m.shape = some (n, rows, cols))
    (hx : m.fillWindow utf8 st readFuel m.fractionalBits (Cube.new 0 n 0 rows 0 cols) x.1 x.2) :
    (fill.but m st x).Valid utf8 readFuel := by
  intro m' st' n' rows' cols' hm' hex
  unfold Fill.but
  split
  · rename_i e
    obtain ⟨rfl, rfl⟩ := e
    rw [hm] at hm'
    cases hm'
    exact hx
  · exact h m' st' n' rows' cols' hm' hex

theorem Variable.appendArrayT_ends (hs : Settled H utf8 readFuel T round Next) (hf : 32 ≤ fuel) {log : Saved}
    {v : Variable} {fill : Fill} {data : NdArray} {M n tl : Nat} (hfill : fill.Valid utf8 readFuel)
    (hv : VarInv H T log v M tl) (hr : v.round = round) (hd : Next M data n)
    (hok : (v.appendArray H utf8 clog lg fuel fill data n T.rows T.cols log).2.NoCollision H →
      ∃ a l, v.appendArray H utf8 clog lg fuel fill data n T.rows T.cols log = (.ok a, l)) :
    (v.appendArrayT H clog lg fuel data n T.rows T.cols).Ends H utf8 readFuel
      (Alone (v.appendArray H utf8 clog lg fuel fill data n T.rows T.cols) log) log := by
  have htail : (v.tailDataT fuel).Ends H utf8 readFuel
      (fun o _ => v.tailData H utf8 fuel log = (.ok o, log) ∧ ∀ m, o = some m →
        T.K log m (M - tl % T.cs) (tl % T.cs) ∧ tl % T.cs ≤ M) log := by
    refine (Variable.tailDataT_fillless fuel v).ends (fill := fill) ?_
    rw [Variable.tailData_run]
    intro hnc
    obtain ⟨o, l, e, h1, h2⟩ := Sat.ok (Variable.tailData_sat (utf8 := utf8) hf hv) hnc
    subst h1
    refine ⟨o, log, e, e, fun m hm => ?_⟩
    subst hm
    split at h2
    · cases h2
    · obtain ⟨m', cid, e', -, h3, h4⟩ := h2
      cases e'
      exact ⟨h3, h4⟩
  unfold Variable.appendArrayT
  refine htail.bind fun o log' hsub hnc' ⟨ho, hk⟩ => ?_
  refine Task.Ends.mono (Alone.lasting _ _) hsub ?_
  have hnc := NoCollision.mono hsub hnc'
  have halone : ∀ f : Option MMStruct3 → Prog Variable,
      (v.tailData H utf8 fuel >>= f) log = f o log := by
    intro f
    change Prog.bind _ _ log = _
    unfold Prog.bind
    rw [ho]
  cases o with
  | none =>
    refine (Variable.appendT_fillless fuel v _ n T.rows T.cols false).ends (fill := fill) ?_
    rw [Variable.append_run]
    have e : v.appendArray H utf8 clog lg fuel fill data n T.rows T.cols log =
        v.append H utf8 clog lg fuel (data.buffer v.round) n T.rows T.cols false log := by
      unfold Variable.appendArray
      rw [halone]
    intro h
    rw [← e] at h ⊢
    obtain ⟨a, l, h1⟩ := hok h
    exact ⟨a, l, h1, l, h1, List.Subset.refl _⟩
  | some m =>
    obtain ⟨hK, hle⟩ := hk m rfl
    simp only
    rw [T.shape hK]
    change Task.Ends H utf8 readFuel (.fill m _) _ _
    intro _
    refine ⟨_, _, _, T.shape hK, fun l hl hncl calls s hw => ?_⟩
    obtain ⟨e1, e2, e3⟩ := hs log l fill (fill.but m (l.load H) (calls, s)) data M n m _ _ hfill
      (Fill.but_valid hfill (T.shape hK) hw) hd hl hncl hK (by omega)
    have e : fill.but m (l.load H) (calls, s) m (l.load H) = (calls, s) := if_pos ⟨rfl, rfl⟩
    rw [e] at e2 e3
    refine ⟨e2, Task.Ends.mono (Alone.lasting _ _) hl ?_⟩
    beta_reduce
    rw [if_neg (by simp)]
    refine (Variable.appendT_fillless fuel v _ _ T.rows T.cols true).ends (fill := fill) ?_
    rw [Variable.append_run]
    have e : v.appendArray H utf8 clog lg fuel fill data n T.rows T.cols log =
        v.append H utf8 clog lg fuel ((data.prepend (tl % T.cs) calls).buffer v.round) (tl % T.cs + n)
          T.rows T.cols true log := by
      unfold Variable.appendArray
      rw [halone]
      simp only
      rw [T.shape hK]
      change Prog.bind _ _ log = _
      unfold Prog.bind
      change Prog.bind _ _ log = _
      unfold Prog.bind
      have hst : Prog.store H log = (.ok (log.load H), log) := rfl
      rw [hst]
      simp only
      rw [e1]
      simp only
      rw [if_neg (by simp), hr, Variable.append_same fuel v e3 true]
    intro h
    rw [← e] at h ⊢
    obtain ⟨a, l, h1⟩ := hok h
    exact ⟨a, l, h1, l, h1, List.Subset.refl _⟩

theorem Dataset.appendT_ends_of (hs : Settled H utf8 readFuel T round Next) (hf : 32 ≤ fuel) {d : Dataset}
    {log : Saved} {name : List Byte} {fill : Fill} {data : NdArray} {M n : Nat} (hfill : fill.Valid utf8 readFuel)
    (hi : HistInv H utf8 T levels round name (d, log) M) (hd : Next M data n)
    (hok : ∀ v tl, d.findVariable name = some v → v.k2Levels = levels → VarInv H T log v M tl → v.round = round →
      (v.appendArray H utf8 clog lg fuel fill data n T.rows T.cols log).2.NoCollision H →
      ∃ a l, v.appendArray H utf8 clog lg fuel fill data n T.rows T.cols log = (.ok a, l)) :
    (d.appendT H clog lg fuel name data n T.rows T.cols).Ends H utf8 readFuel
      (Alone (d.append H utf8 clog lg fuel fill name data n T.rows T.cols) log) log := by
  obtain ⟨v, tl, h1, h2, h0, h3⟩ := hi.var
  change d.findVariable name = some v at h1
  unfold Dataset.appendT
  rw [h1]
  refine (Variable.appendArrayT_ends hs hf hfill h3 h0 hd (hok v tl h1 h2 h3 h0)).bind
    fun v' log' hsub hnc ⟨own, e, ho⟩ => ?_
  refine fun _ => ⟨_, rfl, own, ?_, ho⟩
  unfold Dataset.append
  rw [h1]
  change Prog.bind _ _ log = _
  unfold Prog.bind
  rw [e]
  rfl

theorem Dataset.appendT_ends (ha : Appends False H utf8 clog lg fuel readFuel T levels round Next)
    (hs : Settled H utf8 readFuel T round Next) (hf : 32 ≤ fuel) {d : Dataset} {log : Saved} {name : List Byte}
    {fill : Fill} {data : NdArray} {M n : Nat} (hfill : fill.Valid utf8 readFuel)
    (hi : HistInv H utf8 T levels round name (d, log) M) (hd : Next M data n) :
    (d.appendT H clog lg fuel name data n T.rows T.cols).Ends H utf8 readFuel
      (Alone (d.append H utf8 clog lg fuel fill name data n T.rows T.cols) log) log := by
  refine Dataset.appendT_ends_of hs hf hfill hi hd fun v tl _ h2 h3 h0 h => ?_
  obtain ⟨a, l, h1, -⟩ := (ha log v fill data M tl n hfill h3 h2 h0 hd).ok h
  exact ⟨a, l, h1⟩

end

end Verif
