import Verif.Lemmas.DatasetFloat

/-! Histories of a data set. -/
namespace Verif

open Prog hiding pure bind

/-- What can be done with a data set. `reload` is `commit` followed by `Resolver::get_dataset` of the
identifier. -/
inductive Op where
  | append (fill : Fill) (name : List Byte) (data : NdArray) (instants rows cols : Nat)
  | addVariable (name : List Byte) (round : Option Nat) (spanSize chunkSize : Nat)
      (k2Levels : List Nat) (encoding : MMEncoding)
  | commit
  | reload

/-- The arrays appended to a variable in a history, with their numbers of instants. -/
def arrays (name : List Byte) : List Op → List (NdArray × Nat)
  | [] => []
  | .append _ nm data n _ _ :: ops => if nm = name then (data, n) :: arrays name ops else arrays name ops
  | _ :: ops => arrays name ops

/-- The number of instants of some arrays. -/
def total (as : List (NdArray × Nat)) : Nat := (as.map (·.2)).sum

/-- The arrays one after the other. -/
def concatInt : List (NdArray × Nat) → Nat → Nat → Nat → Int64
  | [], _, _, _ => 0
  | (a, n) :: as, t, r, c => if t < n then a.int t r c else concatInt as (t - n) r c

/-- The number of variables added in a history. -/
def adds : List Op → Nat
  | [] => 0
  | .addVariable .. :: ops => adds ops + 1
  | _ :: ops => adds ops

section
variable (H : Hash) (utf8 : List Byte → Bool) (clog : Nat → Nat) (lg : Rat → Int) (fuel : Nat)

def Op.prog : Op → Dataset → Prog Dataset
  | .append fill name data n rows cols, d =>
    Dataset.append H utf8 clog lg fuel fill d name data n rows cols
  | .addVariable name round spanSize chunkSize k2Levels encoding, d =>
    d.addVariable H name round spanSize chunkSize k2Levels encoding
  | .commit, d => do
    let _ ← d.commit H
    pure d
  | .reload, d => do
    let cid ← d.commit H
    Prog.getDataset H utf8 cid

/-- One operation; if it fails, the data set stays as it was (what was saved stays saved). -/
def Op.step (op : Op) (s : Dataset × Saved) : Dataset × Saved :=
  match op.prog H utf8 clog lg fuel s.1 s.2 with
  | (.ok d, log) => (d, log)
  | (.error _, log) => (s.1, log)

/-- Some operations one after the other. -/
def runs : List Op → Dataset × Saved → Dataset × Saved
  | [], s => s
  | op :: ops, s => runs ops (op.step H utf8 clog lg fuel s)

/-- The limits of the format for a new variable (dataset.rs:1017-1040). -/
def Op.Fits : Op → Prop
  | .addVariable name round spanSize chunkSize k2Levels _ =>
    name.length < 256 ∧ utf8 name = true ∧ (∀ b, round = some b → b < 256) ∧ spanSize < 2 ^ 32 ∧
      chunkSize < 2 ^ 32 ∧ k2Levels.length < 256 ∧ ∀ l ∈ k2Levels, l < 2 ^ 32
  | _ => True

/-- The limits of the format for a data set, and of the identifier it was loaded from. -/
structure Dataset.Fits (d : Dataset) : Prop where
  wf : d.WF utf8
  cid : ∀ c, d.cid = some c → c.Valid

end

/-! ### Nothing is forgotten -/

section
variable {H : Hash} {utf8 : List Byte → Bool} {clog : Nat → Nat} {lg : Rat → Int} {fuel : Nat}

theorem Dataset.append_mono (fill : Fill) (d : Dataset) (name : List Byte) (data : NdArray)
    (n rows cols : Nat) : Mono (Dataset.append H utf8 clog lg fuel fill d name data n rows cols) := by
  unfold Dataset.append
  cases d.findVariable name with
  | none => exact Mono.fail _
  | some v => exact (Variable.appendArray_mono H utf8 clog lg fuel fill v data n rows cols).bind fun _ =>
      Mono.pure _

theorem Op.prog_mono (op : Op) (d : Dataset) : Mono (op.prog H utf8 clog lg fuel d) := by
  cases op with
  | append fill name data n rows cols => exact Dataset.append_mono fill d name data n rows cols
  | addVariable name round spanSize chunkSize k2Levels encoding =>
    exact (Mono.save H _).bind fun _ => Mono.pure _
  | commit => exact (Mono.save H _).bind fun _ => Mono.pure _
  | reload => exact (Mono.save H _).bind fun _ => fun log => List.Subset.refl log

theorem Op.step_mono (op : Op) (s : Dataset × Saved) : s.2 ⊆ (op.step H utf8 clog lg fuel s).2 := by
  have := Op.prog_mono (H := H) (utf8 := utf8) (clog := clog) (lg := lg) (fuel := fuel) op s.1 s.2
  unfold Op.step
  rcases h : op.prog H utf8 clog lg fuel s.1 s.2 with ⟨_ | _, log⟩ <;> rw [h] at this <;> exact this

theorem runs_mono (ops : List Op) : ∀ s : Dataset × Saved, s.2 ⊆ (runs H utf8 clog lg fuel ops s).2 := by
  induction ops with
  | nil => intro s; exact List.Subset.refl _
  | cons op ops ih => intro s; exact List.Subset.trans (op.step_mono s) (ih _)

/-! ### Reads in a store that has grown -/

theorem Store.retrieve_mono {st st' : Store} (hst : ∀ c b, st c = some b → st' c = some b) (cid : Cid)
    (x : Item) (h : st.retrieve utf8 cid = .ok x) : st'.retrieve utf8 cid = .ok x := by
  unfold Store.retrieve at *
  cases hc : st cid with
  | none => rw [hc] at h; cases h
  | some b => rw [hc] at h; rw [hst cid b hc]; exact h

theorem Store.getStruct_mono {st st' : Store} (hst : ∀ c b, st c = some b → st' c = some b) (cid : Cid)
    (m : MMStruct3) (h : st.getStruct utf8 cid = .ok m) : st'.getStruct utf8 cid = .ok m := by
  unfold Store.getStruct at *
  cases hc : st.retrieve utf8 cid with
  | error e => rw [hc] at h; cases h
  | ok x => rw [hc] at h; rw [Store.retrieve_mono hst cid x hc]; exact h

theorem Store.getLinks_mono {st st' : Store} (hst : ∀ c b, st c = some b → st' c = some b) (cid : Cid)
    (l : Links) (h : st.getLinks utf8 cid = .ok l) : st'.getLinks utf8 cid = .ok l := by
  unfold Store.getLinks at *
  cases hc : st.retrieve utf8 cid with
  | error e => rw [hc] at h; cases h
  | ok x => rw [hc] at h; rw [Store.retrieve_mono hst cid x hc]; exact h

theorem SuperHead.deref_mono {st st' : Store} (hst : ∀ c b, st c = some b → st' c = some b)
    (hd : SuperHead) (loc : List MMStruct3) (r : Reference) (m : MMStruct3)
    (h : hd.deref utf8 st loc r = .ok m) : hd.deref utf8 st' loc r = .ok m := by
  cases r with
  | elided => exact h
  | loc i => exact h
  | external i =>
    unfold SuperHead.deref at *
    simp only at h ⊢
    cases e : st.getLinks utf8 hd.externalCid with
    | error f => rw [e] at h; cases h
    | ok links =>
      rw [e] at h
      rw [Store.getLinks_mono hst _ _ e]
      simp only at h ⊢
      cases e2 : links.cids[i]? with
      | none => rw [e2] at h; cases h
      | some cid => rw [e2] at h; exact Store.getStruct_mono hst _ _ h

theorem MMStruct3.get_mono {st st' : Store} (hst : ∀ c b, st c = some b → st' c = some b) :
    ∀ (fuel : Nat) (m : MMStruct3) (bits t row col : Nat) (x : Nat × Int64),
    MMStruct3.get utf8 st fuel m bits t row col = .ok x →
    MMStruct3.get utf8 st' fuel m bits t row col = .ok x := by
  intro fuel
  induction fuel with
  | zero => intro m bits t row col x h; cases h
  | succ fuel ih =>
    intro m bits t row col x h
    cases m with
    | subchunk c => exact h
    | superchunk hd loc =>
      rw [MMStruct3.get] at h ⊢
      generalize hd.locate row col = q at h ⊢
      rcases q with _ | ⟨index, row', col'⟩
      · exact h
      simp only at h ⊢
      generalize hd.references[index]? = q at h ⊢
      rcases q with _ | r
      · exact h
      cases r with
      | elided => exact h
      | loc i =>
        simp only at h ⊢
        cases e : hd.deref utf8 st loc (.loc i) with
        | error f => rw [e] at h; cases h
        | ok m => rw [e] at h; rw [SuperHead.deref_mono hst hd loc _ m e]; exact ih _ _ _ _ _ _ h
      | external i =>
        simp only at h ⊢
        cases e : hd.deref utf8 st loc (.external i) with
        | error f => rw [e] at h; cases h
        | ok m => rw [e] at h; rw [SuperHead.deref_mono hst hd loc _ m e]; exact ih _ _ _ _ _ _ h
    | span s =>
      rw [MMStruct3.get] at h ⊢
      generalize s.findSpan t = q at h ⊢
      rcases q with _ | ⟨n, t'⟩
      · exact h
      simp only at h ⊢
      generalize s.spans[n]? = q at h ⊢
      rcases q with _ | cid
      · exact h
      simp only at h ⊢
      cases e : st.getStruct utf8 cid with
      | error f => rw [e] at h; cases h
      | ok m => rw [e] at h; rw [Store.getStruct_mono hst cid m e]; exact ih _ _ _ _ _ _ h

/-! ### What a successful append changes -/

/-- If the program ends well, then with `Q`. -/
def Post {α : Type} (m : Prog α) (Q : α → Prop) : Prop := ∀ log a log', m log = (.ok a, log') → Q a

theorem Post.pure {α : Type} {a : α} {Q : α → Prop} (h : Q a) : Post (Pure.pure a : Prog α) Q := by
  intro log b log' e
  have : a = b := by
    have := congrArg Prod.fst e
    exact Except.ok.inj this
  exact this ▸ h

theorem Post.fail {α : Type} {f : Fail} {Q : α → Prop} : Post (Prog.fail f : Prog α) Q := by
  intro log b log' e
  have := congrArg Prod.fst e
  cases this

theorem Post.bind {α β : Type} {m : Prog α} {f : α → Prog β} {Q : α → Prop} {R : β → Prop}
    (hm : Post m Q) (hf : ∀ a, Q a → Post (f a) R) : Post (m >>= f) R := by
  intro log b log' e
  change Prog.bind m f log = _ at e
  unfold Prog.bind at e
  rcases h : m log with ⟨_ | a, log1⟩
  · rw [h] at e
    have := congrArg Prod.fst e
    cases this
  · rw [h] at e
    exact hf a (hm _ _ _ h) _ _ _ e

theorem Post.any {α : Type} (m : Prog α) : Post m fun _ => True := fun _ _ _ _ => trivial

/-- The same variable with other data. -/
def SameVar (v v' : Variable) : Prop := ∃ cid : Cid, cid.Valid ∧ v' = { v with cid := cid }

theorem SameVar.trans {v v' v'' : Variable} (h : SameVar v v') (h' : SameVar v' v'') : SameVar v v'' := by
  obtain ⟨c, -, rfl⟩ := h
  obtain ⟨c', h, rfl⟩ := h'
  exact ⟨c', h, rfl⟩

theorem Post.save (x : Item) : Post (Prog.save H x) fun cid => cid.Valid := by
  intro log cid log' e
  have : H.cidOf x.bytes = cid := Except.ok.inj (congrArg Prod.fst e)
  exact this ▸ H.valid _

theorem Variable.saveSpans_post (v : Variable) (spans : List Span) :
    Post (v.saveSpans H utf8 spans) (SameVar v) := by
  unfold Variable.saveSpans
  cases spans with
  | nil => exact Post.fail
  | cons sp rest =>
    exact (Post.any _).bind fun _ _ => (Post.save _).bind fun cid h => Post.pure ⟨cid, h, rfl⟩

theorem Variable.createOpenSpan_post (v : Variable) (rows cols : Nat) :
    Post (v.createOpenSpan H utf8 fuel rows cols) (SameVar v) := by
  unfold Variable.createOpenSpan
  refine (Post.any _).bind fun spans _ => ?_
  cases spans with
  | nil => exact Post.fail
  | cons l spans =>
    refine (Post.any _).bind fun x _ => ?_
    exact (Post.any _).bind fun s _ => (Post.save _).bind fun cid h => Post.pure ⟨cid, h, rfl⟩

theorem Variable.openIfFull_post (v : Variable) (rows cols : Nat) (sp : Span) (rest : List Span) :
    Post (v.openIfFull H utf8 fuel rows cols sp rest) fun x => x.1 = v ∨ SameVar v x.1 := by
  unfold Variable.openIfFull
  split
  · refine (Variable.saveSpans_post v _).bind fun v1 h1 =>
      (Variable.createOpenSpan_post v1 rows cols).bind fun v2 h2 => (Post.any _).bind fun spans _ => ?_
    cases spans with
    | nil => exact Post.fail
    | cons s rest =>
      change Post (if s.spans.length = 0 then Pure.pure (v2, s, rest) else Prog.fail .panic) _
      split
      · exact Post.pure (Or.inr (h1.trans h2))
      · exact Post.fail
  · exact Post.pure (.inl rfl)

theorem Variable.appendLoop_post (data : MMBuffer3) (n rows cols : Nat) : ∀ (starts : List Nat)
    (v : Variable) (spans : List Span) (update : Bool),
    Post (Variable.appendLoop H utf8 clog lg fuel data n rows cols starts v spans update)
      fun x => x.1 = v ∨ SameVar v x.1 := by
  intro starts
  induction starts with
  | nil => intro v spans update; exact Post.pure (.inl rfl)
  | cons start starts ih =>
    intro v spans update
    unfold Variable.appendLoop
    refine (Post.any _).bind fun chunk _ => ?_
    cases spans with
    | nil => exact Post.fail
    | cons sp rest =>
      refine (Variable.openIfFull_post v rows cols sp rest).bind fun x hx => (Post.any _).bind fun sp _ => ?_
      intro log a log' e
      rcases ih x.1 _ _ log a log' e with h | h <;> rcases hx with h' | h'
      · exact .inl (h.trans h')
      · exact .inr (h ▸ h')
      · exact .inr (h' ▸ h)
      · exact .inr (h'.trans h)

theorem Variable.append_post (v : Variable) (data : MMBuffer3) (n rows cols : Nat) (update : Bool) :
    Post (v.append H utf8 clog lg fuel data n rows cols update) (SameVar v) := by
  unfold Variable.append
  refine (Post.any _).bind fun spans _ => ?_
  split
  · exact Post.fail
  · refine (Variable.appendLoop_post data n rows cols _ v spans update).bind fun x hx => ?_
    intro log a log' e
    have := Variable.saveSpans_post x.1 x.2 log a log' e
    rcases hx with h | h
    · exact h ▸ this
    · exact h.trans this

theorem Variable.appendArray_post (fill : Fill) (v : Variable) (data : NdArray) (n rows cols : Nat) :
    Post (v.appendArray H utf8 clog lg fuel fill data n rows cols) (SameVar v) := by
  unfold Variable.appendArray
  refine (Post.any _).bind fun tail _ => ?_
  cases tail with
  | none => exact Variable.append_post v _ n rows cols false
  | some tail =>
    refine (Post.any _).bind fun shape _ => (Post.any _).bind fun st _ => ?_
    cases (fill tail st).2 with
    | some f => exact Post.fail
    | none =>
      change Post (if _ then _ else _) _
      split
      · exact Post.fail
      · exact Variable.append_post v _ _ rows cols true

/-! ### The limits of the format are kept -/

theorem SameVar.wf {v v' : Variable} (h : SameVar v v') (hw : v.WF utf8) : v'.WF utf8 := by
  obtain ⟨c, hc, rfl⟩ := h
  exact ⟨hw.name, hw.utf8, hw.round, hw.spanSize, hw.chunkSize, hw.levels, hw.level, hc⟩

theorem replaceVariable_length (v : Variable) (vs : List Variable) :
    (replaceVariable v vs).length = vs.length := by
  induction vs with
  | nil => rfl
  | cons w ws ih =>
    unfold replaceVariable
    split
    · rfl
    · simp [ih]

theorem mem_replaceVariable {v w : Variable} {vs : List Variable} (h : w ∈ replaceVariable v vs) :
    w = v ∨ w ∈ vs := by
  induction vs with
  | nil => cases h
  | cons x xs ih =>
    unfold replaceVariable at h
    split at h
    · rcases List.mem_cons.1 h with rfl | h
      · exact .inl rfl
      · exact .inr (List.mem_cons_of_mem _ h)
    · rcases List.mem_cons.1 h with rfl | h
      · exact .inr (List.mem_cons_self ..)
      · rcases ih h with h | h
        · exact .inl h
        · exact .inr (List.mem_cons_of_mem _ h)

theorem Dataset.findVariable_mem {d : Dataset} {name : List Byte} {v : Variable}
    (h : d.findVariable name = some v) : v ∈ d.variables ∧ v.name = name := by
  refine ⟨List.mem_of_find?_eq_some h, ?_⟩
  have := List.find?_some h
  simpa using this

theorem Dataset.Fits.nextPrev {d : Dataset} (h : d.Fits utf8) : ∀ c, d.nextPrev = some c → c.Valid := by
  intro c hc
  unfold Dataset.nextPrev at hc
  cases hd : d.cid with
  | none => rw [hd] at hc; exact h.wf.prev c hc
  | some c' => rw [hd] at hc; exact h.cid c (by rw [hd]; exact hc)

theorem Dataset.append_post (fill : Fill) (d : Dataset) (name : List Byte) (data : NdArray)
    (n rows cols : Nat) : Post (Dataset.append H utf8 clog lg fuel fill d name data n rows cols) fun d' =>
      ∃ v v', d.findVariable name = some v ∧ SameVar v v' ∧ d' = { d with
        «variables» := replaceVariable v' d.variables, prev := d.nextPrev, cid := none } := by
  unfold Dataset.append
  cases h : d.findVariable name with
  | none => exact Post.fail
  | some v => exact (Variable.appendArray_post fill v data n rows cols).bind fun v' hv' =>
      Post.pure ⟨v, v', rfl, hv', rfl⟩

theorem Dataset.addVariable_post (d : Dataset) (name : List Byte) (round : Option Nat)
    (spanSize chunkSize : Nat) (k2Levels : List Nat) (encoding : MMEncoding) :
    Post (d.addVariable H name round spanSize chunkSize k2Levels encoding) fun d' =>
      ∃ cid : Cid, cid.Valid ∧ d' = { d with
        «variables» := d.variables ++ [⟨name, round, spanSize, chunkSize, k2Levels, encoding, cid⟩]
        prev := d.nextPrev
        cid := none } :=
  (Post.save _).bind fun cid h => Post.pure ⟨cid, h, rfl⟩

theorem Dataset.reload_eq {d : Dataset} {log : Saved} (hd : d.WF utf8)
    (hnc : Saved.NoCollision H ((Item.dataset d).bytes :: log)) :
    (Op.reload.prog H utf8 clog lg fuel d log) =
      (.ok { d with cid := some (H.cidOf (Item.dataset d).bytes) }, (Item.dataset d).bytes :: log) := by
  change (Saved.load H ((Item.dataset d).bytes :: log) |>.getDataset utf8 (H.cidOf (Item.dataset d).bytes),
    (Item.dataset d).bytes :: log) = _
  rw [Store.getDataset_of (Saved.load_mem hnc (List.mem_cons_self ..)) hd]

/-- One step keeps the limits, if the number of variables does not grow too much. -/
theorem Op.step_fits (op : Op) (d : Dataset) (log : Saved) (hd : d.Fits utf8) (ho : op.Fits utf8)
    (hn : d.variables.length + adds [op] < 256)
    (hnc : (op.step H utf8 clog lg fuel (d, log)).2.NoCollision H) :
    (op.step H utf8 clog lg fuel (d, log)).1.Fits utf8 ∧
      (op.step H utf8 clog lg fuel (d, log)).1.variables.length ≤ d.variables.length + adds [op] ∧
      (op.step H utf8 clog lg fuel (d, log)).1.rows = d.rows ∧
      (op.step H utf8 clog lg fuel (d, log)).1.cols = d.cols := by
  cases op with
  | append fill name data n rows cols =>
    unfold Op.step
    rcases h : Op.prog H utf8 clog lg fuel (.append fill name data n rows cols) d log with ⟨_ | d', log'⟩
    · exact ⟨hd, by simp, rfl, rfl⟩
    · obtain ⟨v, v', h1, h2, rfl⟩ := Dataset.append_post fill d name data n rows cols _ _ _ h
      refine ⟨⟨⟨hd.wf.coord0, hd.wf.coord1, hd.wf.coord2, ?_, ?_, hd.wf.rows, hd.wf.cols, hd.nextPrev⟩,
        fun c hc => by cases hc⟩, ?_, rfl, rfl⟩
      · change (replaceVariable v' d.variables).length < _
        rw [replaceVariable_length]
        exact hd.wf.len
      · intro w hw
        rcases mem_replaceVariable hw with rfl | hw
        · exact h2.wf (hd.wf.vars _ (Dataset.findVariable_mem h1).1)
        · exact hd.wf.vars _ hw
      · change (replaceVariable v' d.variables).length ≤ _
        rw [replaceVariable_length]
        simp
  | addVariable name round spanSize chunkSize k2Levels encoding =>
    unfold Op.step
    rcases h : Op.prog H utf8 clog lg fuel (.addVariable name round spanSize chunkSize k2Levels encoding) d
      log with ⟨_ | d', log'⟩
    · exact ⟨hd, by simp [adds], rfl, rfl⟩
    · obtain ⟨cid, h1, rfl⟩ := Dataset.addVariable_post d name round spanSize chunkSize k2Levels encoding _ _ _ h
      obtain ⟨o1, o2, o3, o4, o5, o6, o7⟩ := ho
      refine ⟨⟨⟨hd.wf.coord0, hd.wf.coord1, hd.wf.coord2, ?_, ?_, hd.wf.rows, hd.wf.cols, hd.nextPrev⟩,
        fun c hc => by cases hc⟩, ?_, rfl, rfl⟩
      · simpa [adds] using hn
      · intro w hw
        rcases List.mem_append.1 hw with hw | hw
        · exact hd.wf.vars _ hw
        · rw [List.mem_singleton] at hw
          subst hw
          exact ⟨o1, o2, o3, o4, o5, o6, o7, h1⟩
      · simp [adds]
  | commit => exact ⟨hd, Nat.le_refl _, rfl, rfl⟩
  | reload =>
    unfold Op.step at hnc ⊢
    have hlog : (Op.reload.prog H utf8 clog lg fuel d log).2 = (Item.dataset d).bytes :: log := rfl
    have hnc : Saved.NoCollision H ((Item.dataset d).bytes :: log) := by
      rw [← hlog]
      revert hnc
      rcases Op.reload.prog H utf8 clog lg fuel d log with ⟨_ | d', log'⟩ <;> exact id
    rw [Dataset.reload_eq hd.wf hnc]
    refine ⟨⟨⟨hd.wf.coord0, hd.wf.coord1, hd.wf.coord2, hd.wf.len, hd.wf.vars, hd.wf.rows, hd.wf.cols,
      hd.wf.prev⟩, fun c hc => ?_⟩, by simp [adds], rfl, rfl⟩
    have : H.cidOf (Item.dataset d).bytes = c := Option.some.inj hc
    exact this ▸ H.valid _

/-! ### The variables of a name -/

theorem Dataset.findVariable_replace {vs : List Variable} {v v' : Variable} {name : List Byte}
    (h : vs.find? (fun v => v.name = name) = some v) (hn : v'.name = name) :
    (replaceVariable v' vs).find? (fun v => v.name = name) = some v' := by
  induction vs with
  | nil => cases h
  | cons w ws ih =>
    unfold replaceVariable
    by_cases hw : w.name = v'.name
    · rw [if_pos hw, List.find?_cons_of_pos (by simpa using hn)]
    · rw [if_neg hw, List.find?_cons_of_neg (by simpa [hn] using hw)]
      rw [List.find?_cons_of_neg (by simpa [hn] using hw)] at h
      exact ih h

theorem Dataset.findVariable_replace_ne {vs : List Variable} {v' : Variable} {name : List Byte}
    (hn : v'.name ≠ name) :
    (replaceVariable v' vs).find? (fun v => v.name = name) = vs.find? (fun v => v.name = name) := by
  induction vs with
  | nil => rfl
  | cons w ws ih =>
    unfold replaceVariable
    by_cases hw : w.name = v'.name
    · rw [if_pos hw, List.find?_cons_of_neg (by simpa using hn),
        List.find?_cons_of_neg (by simpa [hw] using hn)]
    · rw [if_neg hw, List.find?_cons, List.find?_cons, ih]

/-! ### The history of a variable -/

theorem total_cons (x : NdArray × Nat) (as : List (NdArray × Nat)) : total (x :: as) = x.2 + total as := by
  simp [total]

/-- The assumptions on one operation: appends to the variable have the shape of the data set. -/
def Op.On (utf8 : List Byte → Bool) (readFuel : Nat) (name : List Byte) (rows cols : Nat) : Op → Prop
  | .append fill nm _ _ rows' cols' => nm = name → fill.Valid utf8 readFuel ∧ rows' = rows ∧ cols' = cols
  | _ => True

variable {w : Prop} {T : VarTheory} {levels : List Nat} {round : Option Nat}

/-- The state of a history in which `M` instants were appended to the variable. -/
structure HistInv (H : Hash) (utf8 : List Byte → Bool) (T : VarTheory) (levels : List Nat)
    (round : Option Nat) (name : List Byte) (s : Dataset × Saved) (M : Nat) : Prop where
  fits : s.1.Fits utf8
  rows : s.1.rows = T.rows
  cols : s.1.cols = T.cols
  var : ∃ v tl, s.1.findVariable name = some v ∧ v.k2Levels = levels ∧ v.round = round ∧
    VarInv H T s.2 v M tl

/-- Arrays that are `Next` can be appended to a variable with `M` instants, or, if `w`, perhaps not. -/
def Appends (w : Prop) (H : Hash) (utf8 : List Byte → Bool) (clog : Nat → Nat) (lg : Rat → Int)
    (fuel readFuel : Nat) (T : VarTheory) (levels : List Nat) (round : Option Nat)
    (Next : Nat → NdArray → Nat → Prop) : Prop :=
  ∀ (log : Saved) (v : Variable) (fill : Fill) (data : NdArray) (M tl n : Nat), fill.Valid utf8 readFuel →
    VarInv H T log v M tl → v.k2Levels = levels → v.round = round → Next M data n →
    Sat w H (v.appendArray H utf8 clog lg fuel fill data n T.rows T.cols) log (fun v' log' =>
      (∃ tl', VarInv H T log' v' (M + n) tl') ∧ ∃ cid, v' = { v with cid := cid })

variable {Next : Nat → NdArray → Nat → Prop} {readFuel : Nat}

theorem HistInv.append (ha : Appends w H utf8 clog lg fuel readFuel T levels round Next)
    {name : List Byte} {d : Dataset} {log : Saved} {M : Nat} {fill : Fill} {data : NdArray} {n : Nat}
    (hi : HistInv H utf8 T levels round name (d, log) M) (hfill : fill.Valid utf8 readFuel)
    (hd : Next M data n) :
    Sat w H (Dataset.append H utf8 clog lg fuel fill d name data n T.rows T.cols) log (fun d' log' =>
      ∃ v tl, d'.findVariable name = some v ∧ v.k2Levels = levels ∧ v.round = round ∧
        VarInv H T log' v (M + n) tl) := by
  obtain ⟨-, -, -, v, tl, h1, h2, h0, h3⟩ := hi
  unfold Dataset.append
  change d.findVariable name = some v at h1
  rw [h1]
  refine Sat.bind (Variable.appendArray_mono H utf8 clog lg fuel fill v data n T.rows T.cols)
    (fun _ => Mono.pure _) (ha log v fill data M tl n hfill h3 h2 h0 hd) ?_
  rintro _ log' - ⟨⟨tl', h4⟩, cid, rfl⟩
  exact Sat.pure ⟨{ v with cid := cid }, tl',
    Dataset.findVariable_replace h1 (Dataset.findVariable_mem h1).2, h2, h0, h4⟩

theorem HistInv.step_other {name : List Byte} {op : Op} {s : Dataset × Saved} {M : Nat}
    (hi : HistInv H utf8 T levels round name s M) (ho : op.Fits utf8)
    (hn : s.1.variables.length + adds [op] < 256) (hno : arrays name [op] = [])
    (hnc : (op.step H utf8 clog lg fuel s).2.NoCollision H) :
    HistInv H utf8 T levels round name (op.step H utf8 clog lg fuel s) M := by
  obtain ⟨f1, f2, f3, f4⟩ := op.step_fits s.1 s.2 hi.fits ho hn hnc
  refine ⟨f1, f3.trans hi.rows, f4.trans hi.cols, ?_⟩
  have hmono := op.step_mono (H := H) (utf8 := utf8) (clog := clog) (lg := lg) (fuel := fuel) s
  obtain ⟨v, tl, h1, h2, h0, h3⟩ := hi.var
  have h4 := h3.mono hmono
  cases op with
  | append fill nm data n rows' cols' =>
    have hnm : nm ≠ name := by
      rintro rfl
      simp [arrays] at hno
    refine ⟨v, tl, ?_, h2, h0, h4⟩
    rw [← h1]
    unfold Op.step
    rcases e : Op.prog H utf8 clog lg fuel (.append fill nm data n rows' cols') s.1 s.2 with ⟨_ | d', log'⟩
    · rfl
    · obtain ⟨w, w', e1, ⟨c, -, rfl⟩, rfl⟩ := Dataset.append_post fill s.1 nm data n rows' cols' _ _ _ e
      refine Dataset.findVariable_replace_ne ?_
      rw [show ({ w with cid := c } : Variable).name = w.name from rfl, (Dataset.findVariable_mem e1).2]
      exact hnm
  | addVariable nm round spanSize chunkSize k2Levels encoding =>
    refine ⟨v, tl, ?_, h2, h0, h4⟩
    rw [← h1]
    unfold Op.step
    rcases e : Op.prog H utf8 clog lg fuel (.addVariable nm round spanSize chunkSize k2Levels encoding) s.1
      s.2 with ⟨_ | d', log'⟩
    · rfl
    · obtain ⟨cid, e1, rfl⟩ := Dataset.addVariable_post s.1 nm round spanSize chunkSize k2Levels encoding _ _ _ e
      change (s.1.variables ++ _).find? _ = _
      rw [List.find?_append]
      change ((s.1.findVariable name).or _) = s.1.findVariable name
      rw [h1]
      rfl
  | commit => exact ⟨v, tl, h1, h2, h0, h4⟩
  | reload =>
    refine ⟨v, tl, ?_, h2, h0, h4⟩
    rw [← h1]
    have hlog : (Op.step H utf8 clog lg fuel .reload s).2 = (Item.dataset s.1).bytes :: s.2 := by
      have : (Op.reload.prog H utf8 clog lg fuel s.1 s.2).2 = (Item.dataset s.1).bytes :: s.2 := rfl
      rw [← this]
      unfold Op.step
      rcases Op.reload.prog H utf8 clog lg fuel s.1 s.2 with ⟨_ | d', log'⟩ <;> rfl
    rw [hlog] at hnc
    unfold Op.step
    rw [Dataset.reload_eq hi.fits.wf hnc]
    rfl

theorem HistInv.step (ha : Appends False H utf8 clog lg fuel readFuel T levels round Next) {name : List Byte}
    {op : Op} {s : Dataset × Saved} {M : Nat} (hi : HistInv H utf8 T levels round name s M)
    (ho : op.Fits utf8) (hon : op.On utf8 readFuel name T.rows T.cols)
    (hn : s.1.variables.length + adds [op] < 256)
    (hd : ∀ x ∈ arrays name [op], Next M x.1 x.2)
    (hnc : (op.step H utf8 clog lg fuel s).2.NoCollision H) :
    HistInv H utf8 T levels round name (op.step H utf8 clog lg fuel s)
      (M + total (arrays name [op])) := by
  by_cases hno : arrays name [op] = []
  · rw [hno]
    exact hi.step_other ho hn hno hnc
  obtain ⟨f1, f2, f3, f4⟩ := op.step_fits s.1 s.2 hi.fits ho hn hnc
  refine ⟨f1, f3.trans hi.rows, f4.trans hi.cols, ?_⟩
  cases op with
  | append fill nm data n rows' cols' =>
    have hnm : nm = name := by
      by_contra hnm
      exact hno (by simp [arrays, hnm])
    subst hnm
    obtain ⟨o1, o2, o3⟩ := hon rfl
    subst o2 o3
    have harr : arrays nm [.append fill nm data n T.rows T.cols] = [(data, n)] := by simp [arrays]
    rw [harr] at hd ⊢
    have htot : total [(data, n)] = n := by simp [total]
    rw [htot]
    have := hi.append ha o1 (hd (data, n) (List.mem_singleton.2 rfl))
    unfold Op.step at hnc ⊢
    have hnc' : (Dataset.append H utf8 clog lg fuel fill s.1 nm data n T.rows T.cols s.2).2.NoCollision H := by
      revert hnc
      change Saved.NoCollision H (match Dataset.append H utf8 clog lg fuel fill s.1 nm data n T.rows T.cols s.2 with
        | (.ok d, log) => (d, log)
        | (.error _, log) => (s.1, log)).2 → _
      rcases Dataset.append H utf8 clog lg fuel fill s.1 nm data n T.rows T.cols s.2 with ⟨_ | d', log'⟩ <;>
        exact id
    obtain ⟨d', log', e, h5⟩ := this.ok hnc'
    change ∃ v tl, (match Dataset.append H utf8 clog lg fuel fill s.1 nm data n T.rows T.cols s.2 with
        | (.ok d, log) => (d, log)
        | (.error _, log) => (s.1, log)).1.findVariable nm = some v ∧ v.k2Levels = levels ∧
      v.round = round ∧ VarInv H T (match Dataset.append H utf8 clog lg fuel fill s.1 nm data n T.rows T.cols s.2 with
        | (.ok d, log) => (d, log)
        | (.error _, log) => (s.1, log)).2 v (M + n) tl
    rw [e]
    exact h5
  | addVariable => exact absurd rfl hno
  | commit => exact absurd rfl hno
  | reload => exact absurd rfl hno

theorem arrays_cons (name : List Byte) (op : Op) (ops : List Op) :
    arrays name (op :: ops) = arrays name [op] ++ arrays name ops := by
  cases op with
  | append fill nm data n rows cols =>
    by_cases h : nm = name <;> simp [arrays, h]
  | _ => rfl

theorem adds_cons (op : Op) (ops : List Op) : adds (op :: ops) = adds [op] + adds ops := by
  cases op <;> simp [adds, Nat.add_comm]

theorem arrays_one (name : List Byte) (op : Op) : arrays name [op] = [] ∨ ∃ x, arrays name [op] = [x] := by
  cases op with
  | append fill nm data n rows cols =>
    by_cases h : nm = name
    · exact .inr ⟨(data, n), by simp [arrays, h]⟩
    · exact .inl (by simp [arrays, h])
  | _ => exact .inl rfl

/-- The arrays can be appended one after the other to a variable with `M` instants. -/
def Follows (Next : Nat → NdArray → Nat → Prop) : Nat → List (NdArray × Nat) → Prop
  | _, [] => True
  | M, x :: as => Next M x.1 x.2 ∧ Follows Next (M + x.2) as

theorem HistInv.runs (ha : Appends False H utf8 clog lg fuel readFuel T levels round Next)
    {name : List Byte} : ∀ (ops : List Op) (s : Dataset × Saved) (M : Nat),
    HistInv H utf8 T levels round name s M →
    (∀ op ∈ ops, op.Fits utf8 ∧ op.On utf8 readFuel name T.rows T.cols) →
    s.1.variables.length + adds ops < 256 → Follows Next M (arrays name ops) →
    (Verif.runs H utf8 clog lg fuel ops s).2.NoCollision H →
    HistInv H utf8 T levels round name (Verif.runs H utf8 clog lg fuel ops s)
      (M + total (arrays name ops)) := by
  intro ops
  induction ops with
  | nil => intro s M hi _ _ _ _; exact hi
  | cons op ops ih =>
    intro s M hi ho hn hfo hnc
    rw [arrays_cons] at hfo ⊢
    rw [adds_cons] at hn
    have hnc1 : (op.step H utf8 clog lg fuel s).2.NoCollision H :=
      NoCollision.mono (runs_mono ops _) hnc
    have hlen : (op.step H utf8 clog lg fuel s).1.variables.length ≤ s.1.variables.length + adds [op] :=
      (op.step_fits s.1 s.2 hi.fits (ho op (List.mem_cons_self ..)).1 (by omega) hnc1).2.1
    have htot : total (arrays name [op] ++ arrays name ops) = total (arrays name [op]) + total (arrays name ops) := by
      simp [total]
    rw [htot]
    have hnext : (∀ x ∈ arrays name [op], Next M x.1 x.2) ∧
        Follows Next (M + total (arrays name [op])) (arrays name ops) := by
      rcases arrays_one name op with e | ⟨x, e⟩
      · rw [e] at hfo ⊢
        exact ⟨fun x hx => by (cases hx), by simpa [total] using hfo⟩
      · rw [e] at hfo ⊢
        obtain ⟨g1, g2⟩ := hfo
        refine ⟨fun y hy => ?_, by simpa [total] using g2⟩
        rw [List.mem_singleton] at hy
        subst hy
        exact g1
    have := hi.step ha (ho op (List.mem_cons_self ..)).1 (ho op (List.mem_cons_self ..)).2 (by omega)
      hnext.1 hnc1
    have h2 := ih _ _ this (fun o h => ho o (List.mem_cons_of_mem _ h)) (by
      change (op.step H utf8 clog lg fuel s).1.variables.length + adds ops < 256
      omega) hnext.2 hnc
    rw [Nat.add_assoc] at h2
    exact h2

theorem HistInv.start (T : VarTheory) {name : List Byte} {d : Dataset}
    {log : Saved} (hd : d.Fits utf8) (hr : d.rows = T.rows)
    (hc : d.cols = T.cols) (hnew : d.findVariable name = none)
    (ho : (Op.addVariable name round T.ss T.cs levels T.enc).Fits utf8) (hn : d.variables.length + 1 < 256)
    (hnc : ((Op.addVariable name round T.ss T.cs levels T.enc).step H utf8 clog lg fuel
      (d, log)).2.NoCollision H) :
    HistInv H utf8 T levels round name
      ((Op.addVariable name round T.ss T.cs levels T.enc).step H utf8 clog lg fuel (d, log)) 0 := by
  obtain ⟨f1, f2, f3, f4⟩ := Op.step_fits _ d log hd ho hn hnc
  refine ⟨f1, f3.trans hr, f4.trans hc, ?_⟩
  have hw : (MMStruct3.span (Span.new T.rows T.cols T.cs T.enc)).WF :=
    Tree.wf (H := H) (T := T) (log := log) (i := 0) (a := 0) (n := 0) (tl := 0)
      (Tree.empty log 0 T.enc rfl) (by rw [VarTheory.stride_zero]; exact T.cs_le) (Nat.zero_le _)
  rw [← hr, ← hc] at hw
  refine ⟨⟨name, round, T.ss, T.cs, levels, T.enc,
    H.cidOf (Item.struct (.span (Span.new d.rows d.cols T.cs T.enc))).bytes⟩,
    0, ?_, rfl, rfl, rfl, rfl, rfl, 0, Span.new d.rows d.cols T.cs T.enc,
    ⟨rfl, List.mem_cons_self .., hw⟩, ?_, ?_, ⟨0, rfl, .inl rfl⟩, fun h => h⟩
  · change (d.variables ++ _).find? _ = _
    rw [List.find?_append]
    change (d.findVariable name).or _ = _
    rw [hnew, Option.none_or, List.find?_cons_of_pos (by simp)]
    rfl
  · rw [hr, hc]
    exact Tree.empty (T := T) _ 0 T.enc rfl
  · rw [VarTheory.stride_zero]
    exact T.cs_le

/-! ### Variables of integers -/

variable {D : Nat → Nat → Nat → Int64} {N rows cols cs ss : Nat} {enc : MMEncoding}

/-- The next array of a variable of integers. -/
def NextInt (D : Nat → Nat → Nat → Int64) (N rows cols M : Nat) (data : NdArray) (n : Nat) : Prop :=
  M + n ≤ N ∧
  (∀ t r c, t < n → r < rows → c < cols → data.int t r c = D (M + t) r c) ∧
  ((∃ a, data = .i64 a) ∨
    (∃ a, data = .i32 a) ∧ ∀ t r c, t < M → r < rows → c < cols → ∃ x : Int32, D t r c = x.toInt64)

theorem IntBase.appends (h : IntBase clog levels D N rows cols cs ss) (hf : 32 ≤ fuel)
    (hrf : levels.length < readFuel)
    (hacc : w ∨ ∀ a n, 1 ≤ n → n ≤ cs → a + n ≤ N →
      BuildOk clog 2 n levels (fun t => D (a + t)) rows cols) :
    Appends w H utf8 clog lg fuel readFuel (h.theory H enc) levels round (NextInt D N rows cols) := by
  intro log v fill data M tl n hfill hv hl _ hd
  exact h.appendArray_sat hfill hrf hf hacc hv hl hd.1 hd.2.1 hd.2.2

theorem IntVar.appends (h : IntVar clog levels D N rows cols cs ss) (hf : 32 ≤ fuel)
    (hrf : levels.length < readFuel) :
    Appends False H utf8 clog lg fuel readFuel (h.theory H enc) levels round (NextInt D N rows cols) :=
  h.toIntBase.appends hf hrf (.inr h.accepts)

/-- The arrays of a variable are all of 32 bits or all of 64 bits. -/
def OneType (as : List (NdArray × Nat)) : Prop :=
  (∀ x ∈ as, ∃ a, x.1 = .i64 a) ∨ ∀ x ∈ as, ∃ a, x.1 = .i32 a

/-- The arrays are the series from `M`. -/
theorem follows_int : ∀ (as : List (NdArray × Nat)) (M : Nat), M + total as ≤ N →
    (∀ t r c, t < total as → r < rows → c < cols → concatInt as t r c = D (M + t) r c) →
    ((∀ x ∈ as, ∃ a, x.1 = .i64 a) ∨
      (∀ x ∈ as, ∃ a, x.1 = .i32 a) ∧
        ∀ t r c, t < M → r < rows → c < cols → ∃ x : Int32, D t r c = x.toInt64) →
    Follows (NextInt D N rows cols) M as := by
  intro as
  induction as with
  | nil => intro _ _ _ _; trivial
  | cons x as ih =>
    intro M hN h1 h2
    rw [total_cons] at h1 hN
    have e1 : ∀ t r c, t < x.2 → r < rows → c < cols → x.1.int t r c = D (M + t) r c := by
      intro t r c ht hr hc
      have := h1 t r c (by omega) hr hc
      rw [← this]
      simp [concatInt, ht]
    refine ⟨⟨by omega, e1, ?_⟩, ih _ (by omega) ?_ ?_⟩
    · rcases h2 with h2 | ⟨h2, h3⟩
      · exact .inl (h2 x (List.mem_cons_self ..))
      · exact .inr ⟨h2 x (List.mem_cons_self ..), h3⟩
    · intro t r c ht hr hc
      have := h1 (x.2 + t) r c (by omega) hr hc
      rw [Nat.add_assoc, ← this]
      simp [concatInt]
    · rcases h2 with h2 | ⟨h2, h3⟩
      · exact .inl fun y hy => h2 y (List.mem_cons_of_mem _ hy)
      · refine .inr ⟨fun y hy => h2 y (List.mem_cons_of_mem _ hy), fun t r c ht hr hc => ?_⟩
        rcases Nat.lt_or_ge t M with h | h
        · exact h3 t r c h hr hc
        · have := e1 (t - M) r c (by omega) hr hc
          rw [show M + (t - M) = t by omega] at this
          rw [← this]
          obtain ⟨a, ha⟩ := h2 x (List.mem_cons_self ..)
          rw [ha]
          exact ⟨a (t - M) r c, rfl⟩

/-! ### Variables of floats -/

/-- The arrays one after the other, if they are of floats. -/
def concatFlt : List (NdArray × Nat) → Nat → Nat → Nat → Flt
  | [], _, _, _ => .nan
  | (a, n) :: as, t, r, c => if t < n then a.floats t r c else concatFlt as (t - n) r c

section
variable {p : Prec} {B : Nat} {D : Nat → Nat → Nat → Flt}

/-- The next array of a variable of floats. -/
def NextFlt (p : Prec) (D : Nat → Nat → Nat → Flt) (N rows cols M : Nat) (data : NdArray) (n : Nat) :
    Prop :=
  M + n ≤ N ∧ ∃ x, data = .flt p x ∧ ∀ t r c, t < n → r < rows → c < cols → x t r c = D (M + t) r c

theorem FltBase.appends (h : FltBase clog lg levels p B round D N rows cols cs ss) (hf : 32 ≤ fuel)
    (hrf : levels.length < readFuel)
    (hacc : w ∨ ∀ a n, 1 ≤ n → n ≤ cs → a + n ≤ N →
      BuildOk clog 2 n levels (fun t r c => (D (a + t) r c).rounded B) rows cols) :
    Appends w H utf8 clog lg fuel readFuel (h.theory H enc) levels round (NextFlt p D N rows cols) := by
  rintro log v fill data M tl n hfill hv hl hr ⟨h1, x, rfl, h2⟩
  exact h.appendArray_sat hfill hrf hf hacc hv hl hr h1 h2

theorem FltVar.appends (h : FltVar clog lg levels p B round D N rows cols cs ss) (hf : 32 ≤ fuel)
    (hrf : levels.length < readFuel) :
    Appends False H utf8 clog lg fuel readFuel (h.theory H enc) levels round (NextFlt p D N rows cols) :=
  h.toFltBase.appends hf hrf (.inr h.accepts)

theorem follows_flt : ∀ (as : List (NdArray × Nat)) (M : Nat), M + total as ≤ N →
    (∀ t r c, t < total as → r < rows → c < cols → concatFlt as t r c = D (M + t) r c) →
    (∀ x ∈ as, ∃ a, x.1 = .flt p a) → Follows (NextFlt p D N rows cols) M as := by
  intro as
  induction as with
  | nil => intro _ _ _ _; trivial
  | cons x as ih =>
    intro M hN h1 h2
    rw [total_cons] at h1 hN
    refine ⟨⟨by omega, ?_⟩, ih _ (by omega) ?_ fun y hy => h2 y (List.mem_cons_of_mem _ hy)⟩
    · obtain ⟨a, ha⟩ := h2 x (List.mem_cons_self ..)
      refine ⟨a, ha, fun t r c ht hr hc => ?_⟩
      rw [← h1 t r c (by omega) hr hc]
      simp [concatFlt, ht, ha, NdArray.floats]
    · intro t r c ht hr hc
      have := h1 (x.2 + t) r c (by omega) hr hc
      rw [Nat.add_assoc, ← this]
      simp [concatFlt]

end

end

end Verif
