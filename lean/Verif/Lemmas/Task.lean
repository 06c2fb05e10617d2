import Verif.Model.Task
import Verif.Lemmas.DatasetHistory

/-! Operations in steps: run without interruption they are the programs of Model/Dataset.lean. -/
namespace Verif

/-! ### What building saves -/

namespace Superchunk

section
variable {H : Hash} {clog : Nat → Nat} {lg : Rat → Int} {k : Nat}
  {rec : Saved → MMBuffer3 → (instants rows cols : Nat) → Option (MMStruct3Build × Saved)}

/-- What is saved already makes no difference to a builder. -/
def Framed (rec : Saved → MMBuffer3 → (instants rows cols : Nat) → Option (MMStruct3Build × Saved)) :
    Prop :=
  ∀ (log : Saved) (b : MMBuffer3) (n rows cols : Nat),
    rec log b n rows cols = (rec [] b n rows cols).map fun r => (r.1, r.2 ++ log)

theorem runJob_framed (hr : Framed rec) (n : Nat) (log : Saved) (job : Job) :
    runJob clog lg k rec n log job =
      (runJob clog lg k rec n [] job).map fun r => (r.1, r.2 ++ log) := by
  unfold runJob
  cases job.buffer.computeBits lg n job.rows job.cols with
  | none => rfl
  | some b =>
    simp only
    split
    · rw [Option.map_map]
      rfl
    · exact hr ..

theorem runJobs_framed (hr : Framed rec) (n : Nat) : ∀ (parts : List Part) (log : Saved),
    runJobs clog lg k rec n log parts =
      (runJobs clog lg k rec n [] parts).map fun r => (r.1, r.2 ++ log) := by
  intro parts
  induction parts with
  | nil => intro log; rfl
  | cons part parts ih =>
    intro log
    unfold runJobs
    cases part.job with
    | none =>
      simp only
      rw [ih log, Option.map_map, Option.map_map]
      rfl
    | some job =>
      simp only
      rw [runJob_framed hr n log job]
      cases runJob clog lg k rec n [] job with
      | none => rfl
      | some x =>
        simp only [Option.map_some]
        rw [ih (x.2 ++ log), ih x.2, Option.map_map, Option.map_map, Option.map_map]
        congr 1
        funext r
        simp

theorem saveStep_framed (log : Saved) (s : SaveState) (p : Part × Option MMStruct3Build) :
    saveStep H { s with log := s.log ++ log } p =
      { saveStep H s p with log := (saveStep H s p).log ++ log } := by
  unfold saveStep
  cases p.2 with
  | none => rfl
  | some build =>
    simp only
    split
    · rfl
    · simp only [save]
      cases s.external.idxOf? (H.cidOf (Item.struct build.data).bytes) <;> rfl

theorem saveAll_framed (log : Saved) : ∀ (ps : List (Part × Option MMStruct3Build)) (s : SaveState),
    ps.foldl (saveStep H) { s with log := s.log ++ log } =
      { ps.foldl (saveStep H) s with log := (ps.foldl (saveStep H) s).log ++ log } := by
  intro ps
  induction ps with
  | nil => intro s; rfl
  | cons p ps ih =>
    intro s
    rw [List.foldl_cons, List.foldl_cons, saveStep_framed, ih]

theorem buildLevel_framed (hr : Framed rec) (level : Nat) (sub : List Nat) :
    Framed (buildLevel H clog lg k rec level sub) := by
  intro log b n rows cols
  unfold buildLevel
  simp only
  split
  · rfl
  · cases collect ((List.range (k ^ level)).flatMap fun r => (List.range (k ^ level)).map fun c => (r, c))
        (fun pos => (plan clog sub b n rows cols (k ^ clog (max rows cols) / k ^ level) pos).map fun p => [p]) with
    | none => rfl
    | some parts =>
      simp only
      rw [runJobs_framed hr n parts log]
      cases runJobs clog lg k rec n [] parts with
      | none => rfl
      | some x =>
        obtain ⟨parts, l⟩ := x
        simp only [Option.map_some]
        cases extremes Prod.fst n parts with
        | none => rfl
        | some mn =>
          cases extremes Prod.snd n parts with
          | none => rfl
          | some mx =>
            simp only
            have := saveAll_framed (H := H) log parts ⟨l, [], [], 0, 0, 0, 0⟩
            simp only at this
            rw [this]
            cases Dac.ofList mx with
            | none => rfl
            | some mx =>
              cases Dac.ofList mn with
              | none => rfl
              | some mn => rfl

theorem build_framed : ∀ levels : List Nat, Framed (build H clog lg k levels) := by
  intro levels
  induction levels with
  | nil => intro _ _ _ _ _; rfl
  | cons level sub ih => exact buildLevel_framed ih level sub

end

end Superchunk

/-! ### Without interruption -/

section
variable (H : Hash) (utf8 : List Byte → Bool) (fill : Fill)

/-- All steps one after the other; nothing fails by itself. -/
def Task.run {α : Type} : Task α → Prog α
  | .done r => Prog.ofExcept r
  | .load cid k => fun log =>
    match (log.load H).retrieve utf8 cid with
    | .ok x => (k x).run log
    | .error f => (.error f, log)
  | .save b k => fun log => (k (H.cidOf b)).run (b :: log)
  | .saveAll bs t => fun log => t.run (bs ++ log)
  | .fill m k => fun log =>
    match (fill m (log.load H)).2 with
    | some f => (.error f, log)
    | none => (k (fill m (log.load H)).1).run log
  | .filling _ m k => fun log =>
    match (fill m (log.load H)).2 with
    | some f => (.error f, log)
    | none => (k (fill m (log.load H)).1).run log

end

section
variable {H : Hash} {utf8 : List Byte → Bool} {fill : Fill} {clog : Nat → Nat} {lg : Rat → Int}

local notation "run" => Task.run H utf8 fill

theorem Task.run_pure {α : Type} (a : α) : run (pure a : Task α) = pure a := rfl

theorem Task.run_fail {α : Type} (f : Fail) : run (Task.fail f : Task α) = Prog.fail f := rfl

theorem Task.run_load {α : Type} (cid : Cid) (k : Item → Task α) (log : Saved) :
    run (.load cid k) log =
      match (log.load H).retrieve utf8 cid with
      | .ok x => run (k x) log
      | .error f => (.error f, log) := by
  rw [Task.run]

theorem Task.run_fill {α : Type} (m : MMStruct3) (k : Calls → Task α) (log : Saved) :
    run (.fill m k) log =
      match (fill m (log.load H)).2 with
      | some f => (.error f, log)
      | none => run (k (fill m (log.load H)).1) log := rfl

theorem Task.run_filling {α : Type} (since : Saved) (m : MMStruct3) (k : Calls → Task α) (log : Saved) :
    run (.filling since m k) log = run (.fill m k) log := rfl

theorem Task.run_bind {α β : Type} (t : Task α) (f : α → Task β) :
    run (t >>= f) = run t >>= fun a => run (f a) := by
  funext log
  change run (t.bind f) log = Prog.bind (run t) _ log
  induction t generalizing log with
  | done r =>
    cases r with
    | ok a => rfl
    | error e => rfl
  | load cid k ih =>
    rw [show (Task.load cid k).bind f = .load cid fun x => (k x).bind f from rfl]
    unfold Prog.bind
    rw [Task.run_load, Task.run_load]
    cases (log.load H).retrieve utf8 cid with
    | ok x => exact ih x log
    | error f => rfl
  | save b k ih => exact ih _ _
  | saveAll bs t ih => exact ih _
  | fill m k ih =>
    rw [show (Task.fill m k).bind f = .fill m fun c => (k c).bind f from rfl]
    unfold Prog.bind
    rw [Task.run_fill, Task.run_fill]
    cases (fill m (log.load H)).2 with
    | some f => rfl
    | none => exact ih _ log
  | filling since m k ih =>
    rw [show (Task.filling since m k).bind f = .filling since m fun c => (k c).bind f from rfl]
    unfold Prog.bind
    rw [Task.run_filling, Task.run_filling, Task.run_fill, Task.run_fill]
    cases (fill m (log.load H)).2 with
    | some f => rfl
    | none => exact ih _ log

theorem Task.run_ofOption {α : Type} (o : Option α) : run (Task.ofOption o) = Prog.ofOption o := by
  cases o <;> rfl

theorem Task.run_getStruct (cid : Cid) : run (Task.getStruct cid) = Prog.getStruct H utf8 cid := by
  funext log
  unfold Task.getStruct Prog.getStruct Task.run Store.getStruct
  simp only
  cases (log.load H).retrieve utf8 cid with
  | error f => rfl
  | ok x => cases x <;> rfl

theorem Task.run_getDataset (cid : Cid) : run (Task.getDataset cid) = Prog.getDataset H utf8 cid := by
  funext log
  unfold Task.getDataset Prog.getDataset Task.run Store.getDataset
  simp only
  cases (log.load H).retrieve utf8 cid with
  | error f => rfl
  | ok x => cases x <;> rfl

theorem Task.run_saveItem (x : Item) : run (Task.saveItem x) = Prog.save H x := rfl

theorem Task.run_getSpan (cid : Cid) : run (Task.getSpan cid) = Prog.getSpan H utf8 cid := by
  unfold Task.getSpan Prog.getSpan
  rw [Task.run_bind, Task.run_getStruct]
  congr 1
  funext m
  cases m <;> rfl

theorem Span.checkLast_run (sp : Span) : run sp.checkLastT = sp.checkLast H utf8 := by
  unfold Span.checkLastT Span.checkLast
  cases sp.spans.getLast? with
  | none => rfl
  | some last =>
    simp only [Task.run_bind, Task.run_getStruct, Task.run_ofOption]
    congr 1
    funext m
    congr 1
    funext shape
    split <;> rfl

theorem Span.append_run (sp : Span) (m : MMStruct3) : run (sp.appendT m) = sp.append H utf8 m := by
  unfold Span.appendT Span.append
  rw [Task.run_bind, Span.checkLast_run]
  congr 1
  funext _
  rw [Task.run_bind, Task.run_ofOption]
  congr 1
  funext shape
  split
  · rfl
  · split
    · rfl
    · rw [Task.run_bind]
      rfl

theorem Span.update_run (sp : Span) (m : MMStruct3) : run (sp.updateT m) = sp.update H utf8 m :=
  Span.append_run _ _

theorem tailSpansLoop_run (cs : Nat) : ∀ (fuel : Nat) (above : List Span) (sp : Span),
    run (tailSpansLoopT cs fuel above sp) = tailSpansLoop H utf8 cs fuel above sp := by
  intro fuel
  induction fuel with
  | zero => intro above sp; rfl
  | succ fuel ih =>
    intro above sp
    unfold tailSpansLoopT tailSpansLoop
    split
    · simp only [Task.run_bind, Task.run_ofOption, Task.run_getSpan, ih]
    · rfl

theorem Variable.tailSpans_run (fuel : Nat) (v : Variable) :
    run (v.tailSpansT fuel) = v.tailSpans H utf8 fuel := by
  unfold Variable.tailSpansT Variable.tailSpans
  simp only [Task.run_bind, Task.run_getSpan, tailSpansLoop_run]

theorem saveSpansLoop_run : ∀ (rest : List Span) (sp : Span),
    run (saveSpansLoopT sp rest) = saveSpansLoop H utf8 sp rest := by
  intro rest
  induction rest with
  | nil => intro sp; rfl
  | cons last rest ih =>
    intro sp
    unfold saveSpansLoopT saveSpansLoop
    simp only [Task.run_bind, Span.update_run, ih]

theorem Variable.saveSpans_run (v : Variable) (spans : List Span) :
    run (v.saveSpansT spans) = v.saveSpans H utf8 spans := by
  cases spans with
  | nil => rfl
  | cons sp rest =>
    unfold Variable.saveSpansT Variable.saveSpans
    simp only [Task.run_bind, saveSpansLoop_run, Task.run_saveItem, Task.run_pure]

theorem openSpanUp_run : ∀ (rest : List Span) (sp : Span),
    run (openSpanUpT sp rest) = openSpanUp H utf8 sp rest := by
  intro rest
  induction rest with
  | nil => intro sp; rfl
  | cons last rest ih =>
    intro sp
    unfold openSpanUpT openSpanUp
    simp only [Task.run_bind, Span.update_run, ih]

theorem openSpanLoop_run (v : Variable) (rows cols : Nat) : ∀ (spans : List Span) (leftHand sp : Span),
    run (openSpanLoopT v rows cols leftHand sp spans) =
      openSpanLoop H utf8 v rows cols leftHand sp spans := by
  intro spans
  induction spans with
  | nil =>
    intro leftHand sp
    unfold openSpanLoopT openSpanLoop
    simp only [Task.run_bind, Span.append_run, Task.run_pure]
  | cons parent rest ih =>
    intro leftHand sp
    unfold openSpanLoopT openSpanLoop
    split
    · simp only [Task.run_bind, Span.append_run, ih]
    · simp only [Task.run_bind, Span.append_run, Task.run_pure]

theorem Variable.createOpenSpan_run (fuel : Nat) (v : Variable) (rows cols : Nat) :
    run (v.createOpenSpanT fuel rows cols) = v.createOpenSpan H utf8 fuel rows cols := by
  unfold Variable.createOpenSpanT Variable.createOpenSpan
  simp only [Task.run_bind, Variable.tailSpans_run]
  congr 1
  funext spans
  cases spans with
  | nil => rfl
  | cons leftHand spans =>
    simp only [Task.run_bind, openSpanLoop_run, openSpanUp_run, Task.run_saveItem, Task.run_pure]

theorem Variable.tailData_run (fuel : Nat) (v : Variable) :
    run (v.tailDataT fuel) = v.tailData H utf8 fuel := by
  unfold Variable.tailDataT Variable.tailData
  simp only [Task.run_bind, Variable.tailSpans_run]
  congr 1
  funext spans
  cases spans with
  | nil => rfl
  | cons tail _ =>
    simp only
    cases tail.spans.getLast? with
    | none => rfl
    | some cid =>
      simp only [Task.run_bind, Task.run_getStruct, Task.run_ofOption]
      congr 1
      funext m
      congr 1
      funext shape
      split <;> rfl

theorem Task.run_buildChunk (levels : List Nat) (b : MMBuffer3) (n rows cols : Nat) :
    run (Task.buildChunk H clog lg levels b n rows cols) =
      Prog.buildChunk H clog lg levels b n rows cols := by
  funext log
  unfold Task.buildChunk Prog.buildChunk
  cases b.computeBits lg n rows cols with
  | none => rfl
  | some b =>
    simp only
    rw [Superchunk.build_framed levels log]
    cases Superchunk.build H clog lg 2 levels [] b n rows cols with
    | none => rfl
    | some x => rfl

theorem Variable.openIfFull_run (fuel : Nat) (v : Variable) (rows cols : Nat) (sp : Span)
    (rest : List Span) :
    run (v.openIfFullT fuel rows cols sp rest) = v.openIfFull H utf8 fuel rows cols sp rest := by
  unfold Variable.openIfFullT Variable.openIfFull
  split
  · simp only [Task.run_bind, Variable.saveSpans_run, Variable.createOpenSpan_run, Variable.tailSpans_run]
    congr 1
    funext v
    congr 1
    funext v
    congr 1
    funext spans
    cases spans with
    | nil => rfl
    | cons sp rest =>
      simp only
      split <;> rfl
  · rfl

theorem Span.addChunk_run (update : Bool) (sp : Span) (chunk : MMStruct3) :
    run (Span.addChunkT update sp chunk) = Span.addChunk H utf8 update sp chunk := by
  unfold Span.addChunkT Span.addChunk
  cases update with
  | true => exact Span.update_run sp chunk
  | false => exact Span.append_run sp chunk

theorem Variable.appendLoop_run (fuel : Nat) (data : MMBuffer3) (n rows cols : Nat) :
    ∀ (starts : List Nat) (v : Variable) (spans : List Span) (update : Bool),
    run (Variable.appendLoopT H clog lg fuel data n rows cols starts v spans update) =
      Variable.appendLoop H utf8 clog lg fuel data n rows cols starts v spans update := by
  intro starts
  induction starts with
  | nil => intro v spans update; rfl
  | cons start starts ih =>
    intro v spans update
    unfold Variable.appendLoopT Variable.appendLoop
    simp only [Task.run_bind, Task.run_buildChunk]
    congr 1
    funext chunk
    cases spans with
    | nil => rfl
    | cons sp rest =>
      simp only [Task.run_bind, Variable.openIfFull_run, Span.addChunk_run, ih]

theorem Variable.append_run (fuel : Nat) (v : Variable) (data : MMBuffer3) (n rows cols : Nat)
    (update : Bool) : run (v.appendT H clog lg fuel data n rows cols update) =
      v.append H utf8 clog lg fuel data n rows cols update := by
  unfold Variable.appendT Variable.append
  simp only [Task.run_bind, Variable.tailSpans_run]
  congr 1
  funext spans
  split
  · rfl
  · simp only [Task.run_bind, Variable.appendLoop_run, Variable.saveSpans_run]

theorem Variable.appendArray_run (fuel : Nat) (v : Variable) (data : NdArray) (n rows cols : Nat) :
    run (v.appendArrayT H clog lg fuel data n rows cols) =
      v.appendArray H utf8 clog lg fuel fill data n rows cols := by
  unfold Variable.appendArrayT Variable.appendArray
  simp only [Task.run_bind, Variable.tailData_run]
  congr 1
  funext tail
  cases tail with
  | none => exact Variable.append_run ..
  | some tail =>
    simp only [Task.run_bind, Task.run_ofOption]
    congr 1
    funext shape
    funext log
    change _ = Prog.bind (Prog.store H) _ log
    unfold Task.run Prog.bind Prog.store
    simp only
    cases (fill tail (log.load H)).2 with
    | some f => rfl
    | none =>
      simp only
      split
      · rfl
      · rw [Variable.append_run]

/-- An append in steps, run without interruption. -/
theorem Dataset.append_run (fuel : Nat) (d : Dataset) (name : List Byte) (data : NdArray)
    (n rows cols : Nat) : run (d.appendT H clog lg fuel name data n rows cols) =
      d.append H utf8 clog lg fuel fill name data n rows cols := by
  unfold Dataset.appendT Dataset.append
  cases d.findVariable name with
  | none => rfl
  | some v =>
    simp only [Task.run_bind, Variable.appendArray_run, Task.run_pure]

theorem Dataset.commit_run (d : Dataset) : run d.commitT = d.commit H := rfl

theorem Dataset.addVariable_run (d : Dataset) (name : List Byte) (round : Option Nat)
    (spanSize chunkSize : Nat) (k2Levels : List Nat) (encoding : MMEncoding) :
    run (d.addVariableT name round spanSize chunkSize k2Levels encoding) =
      d.addVariable H name round spanSize chunkSize k2Levels encoding := by
  unfold Dataset.addVariableT Dataset.addVariable
  rw [Task.run_bind]
  rfl

end

end Verif
