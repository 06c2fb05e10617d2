import Verif.Lemmas.Formed
import Verif.Props.Types

/-!
Property C56: a variable has the shape of its data set.
-/
namespace Verif

open Prog hiding pure bind

section
variable {H : Hash} {utf8 : List Byte → Bool} {clog : Nat → Nat} {lg : Rat → Int} {fuel : Nat}

/-- Reading the structure of a variable. -/
theorem FormedCid.shape {log : Saved} {r c : Nat} (hr : r < 2 ^ 32) (hc : c < 2 ^ 32) {e : MMEncoding} {cid : Cid}
    (h : FormedCid H log r c cid) (h' : Rooted H log cid e) (hnc : log.NoCollision H) :
    ∃ m n, (log.load H).getStruct utf8 cid = .ok m ∧ m.shape = some (n, r, c) ∧ m.encoding = e := by
  obtain ⟨s, h3, h4⟩ := h'.struct (utf8 := utf8) hnc
  obtain ⟨m, h1, h2, hf⟩ := h
  have hg : Prog.getSpan H utf8 cid log = (.ok s, log) := by
    change Prog.bind (Prog.getStruct H utf8 cid) _ log = _
    unfold Prog.bind Prog.getStruct
    rw [h3]
    rfl
  obtain ⟨h5, h6⟩ := ((Formed.getSpan hr hc h1 h2 hf) s log hg hnc).2.rows
  exact ⟨.span s, s.instants, h3, by rw [← h5, ← h6]; rfl, h4.1⟩

/-- C56: after any history (of additions, appends of arrays of any type and shape, commits and reloads,
some of which may fail) the data of all variables has as many rows and columns as the data set. -/
theorem C56_shape (coord0 coord1 coord2 : Coordinate) (rows cols : Nat) (ops : List Op) (log : Saved)
    (hd : (Dataset.new coord0 coord1 coord2 rows cols).WF utf8) (hops : ∀ op ∈ ops, op.Fits utf8)
    (hadds : adds ops < 256) (s : Dataset × Saved)
    (hs : s = runs H utf8 clog lg fuel ops (Dataset.new coord0 coord1 coord2 rows cols, log))
    (hnc : s.2.NoCollision H) : s.1.rows = rows ∧ s.1.cols = cols ∧ ∀ v ∈ s.1.variables, ∃ m n,
      (s.2.load H).getStruct utf8 v.cid = .ok m ∧ m.shape = some (n, rows, cols) := by
  subst hs
  have hshape := runs_shape (H := H) (clog := clog) (lg := lg) (fuel := fuel) ops
    (Dataset.new coord0 coord1 coord2 rows cols, log)
    ⟨hd, fun c hc => nomatch hc⟩ hops (by change 0 + adds ops < 256; omega) hnc
  refine ⟨hshape.1, hshape.2, ?_⟩
  intro v hv
  have h1 := (runs_formed (clog := clog) (lg := lg) (fuel := fuel) ops
    (Dataset.new coord0 coord1 coord2 rows cols, log)
    ⟨hd, fun c hc => nomatch hc⟩ hops (by change 0 + adds ops < 256; omega) (fun v hv => nomatch hv) hnc).1 v hv
  have h2 := runs_rooted (clog := clog) (lg := lg) (fuel := fuel) ops
    (Dataset.new coord0 coord1 coord2 rows cols, log)
    ⟨hd, fun c hc => nomatch hc⟩ hops (by change 0 + adds ops < 256; omega) (fun v hv => nomatch hv) hnc v hv
  rw [hshape.1, hshape.2] at h1
  obtain ⟨m, n, h3, h4, -⟩ := h1.shape (utf8 := utf8) hd.rows hd.cols h2 hnc
  exact ⟨m, n, h3, h4⟩

/-- C56: after any history an append of some instants of any other shape is not accepted; the data set stays
as it is, and what is stored can still be read. -/
theorem C56_refused (coord0 coord1 coord2 : Coordinate) (rows cols : Nat) (ops : List Op) (log : Saved)
    (hd : (Dataset.new coord0 coord1 coord2 rows cols).WF utf8) (hops : ∀ op ∈ ops, op.Fits utf8)
    (hadds : adds ops < 256) (s : Dataset × Saved)
    (hs : s = runs H utf8 clog lg fuel ops (Dataset.new coord0 coord1 coord2 rows cols, log))
    (fill : Fill) (name : List Byte) (data : NdArray) (n rows' cols' : Nat) (hn : 0 < n)
    (hne : ¬(rows' = rows ∧ cols' = cols))
    (hnc : (Op.step H utf8 clog lg fuel (.append fill name data n rows' cols') s).2.NoCollision H) :
    (∃ f, (Dataset.append H utf8 clog lg fuel fill s.1 name data n rows' cols' s.2).1 = .error f) ∧
    (Op.step H utf8 clog lg fuel (.append fill name data n rows' cols') s).1 = s.1 ∧
    ∀ cid b, (s.2.load H) cid = some b →
      ((Op.step H utf8 clog lg fuel (.append fill name data n rows' cols') s).2.load H) cid = some b := by
  have hm := Op.step_mono (H := H) (utf8 := utf8) (clog := clog) (lg := lg) (fuel := fuel)
    (.append fill name data n rows' cols') s
  have hnc0 : s.2.NoCollision H := NoCollision.mono hm hnc
  have hres : ∃ f, (Dataset.append H utf8 clog lg fuel fill s.1 name data n rows' cols' s.2).1 = .error f := by
    rcases e : Dataset.append H utf8 clog lg fuel fill s.1 name data n rows' cols' s.2 with ⟨f | d', log'⟩
    · exact ⟨f, rfl⟩
    exfalso
    have hnc1 : log'.NoCollision H := by
      have : Op.step H utf8 clog lg fuel (.append fill name data n rows' cols') s = (d', log') := by
        unfold Op.step Op.prog
        simp only
        rw [e]
      rw [this] at hnc
      exact hnc
    subst hs
    have hshape := runs_shape (H := H) (clog := clog) (lg := lg) (fuel := fuel) ops
      (Dataset.new coord0 coord1 coord2 rows cols, log)
      ⟨hd, fun c hc => nomatch hc⟩ hops (by change 0 + adds ops < 256; omega) hnc0
    obtain ⟨h1, h2⟩ := runs_formed (clog := clog) (lg := lg) (fuel := fuel) ops
      (Dataset.new coord0 coord1 coord2 rows cols, log)
      ⟨hd, fun c hc => nomatch hc⟩ hops (by change 0 + adds ops < 256; omega) (fun v hv => nomatch hv) hnc0
    rcases (Dataset.append_formed fill _ h2 h1 name data n rows' cols' d' log' e hnc1).2 with h3 | h3
    · omega
    · rw [hshape.1, hshape.2] at h3
      exact hne h3
  refine ⟨hres, ?_, fun cid b hb => Saved.load_mono hnc (fun b hb => hm hb) cid b hb⟩
  obtain ⟨f, hf⟩ := hres
  unfold Op.step Op.prog
  simp only
  rcases e : Dataset.append H utf8 clog lg fuel fill s.1 name data n rows' cols' s.2 with ⟨f' | d', log'⟩
  · rfl
  · rw [e] at hf
    cases hf

/-- C56: if the last chunk is not complete, an append of another shape is refused at once, even of no
instants: nothing is saved. -/
theorem C56_open (d : Dataset) (log log' : Saved) (name : List Byte) (v : Variable)
    (hv : d.getVariable name = some v) (tail : MMStruct3) (m r c : Nat)
    (ht : Variable.tailData H utf8 fuel v log = (.ok (some tail), log')) (hs : tail.shape = some (m, r, c))
    (fill : Fill) (hf : (fill tail (log'.load H)).2 = none) (data : NdArray) (n rows cols : Nat)
    (hne : ¬(rows = r ∧ cols = c)) :
    Dataset.append H utf8 clog lg fuel fill d name data n rows cols log = (.error .panic, log') := by
  have hv : d.findVariable name = some v := hv
  have h1 : Variable.appendArray H utf8 clog lg fuel fill v data n rows cols log = (.error .panic, log') := by
    unfold Variable.appendArray
    change Prog.bind (Variable.tailData H utf8 fuel v) _ log = _
    unfold Prog.bind
    rw [ht]
    simp only
    rw [hs]
    change (match (fill tail (log'.load H)).2 with
      | some f => Prog.fail f
      | none =>
        if r ≠ rows ∨ c ≠ cols then Prog.fail .panic
        else Variable.append H utf8 clog lg fuel v
          ((data.prepend m (fill tail (log'.load H)).1).buffer v.round) (m + n) rows cols true : Prog Variable) log' = _
    rw [hf]
    simp only
    rw [if_pos]
    · rfl
    · by_contra h
      rw [not_or, not_not, not_not] at h
      exact hne ⟨h.1.symm, h.2.symm⟩
  unfold Dataset.append
  rw [hv]
  change Prog.bind _ _ log = _
  unfold Prog.bind
  rw [h1]

end

/-! ### Example -/

/-- An append of the wrong shape among others. -/
def shapesOps : List Op :=
  [.addVariable [7] none 2 2 [1, 1] .i64, .append exampleFill [7] (.i64 exampleGrid) 3 4 4,
    .append exampleFill [7] (.i64 exampleGrid) 3 5 4, .reload, .append exampleFill [7] (.i64 exampleGrid) 0 5 4]

example : (Dataset.new exampleDataset.coord0 exampleDataset.coord1 exampleDataset.coord2 4 4).WF (fun _ => true) ∧
    (∀ op ∈ shapesOps, op.Fits fun _ => true) ∧ adds shapesOps < 256 ∧ 0 < 2 ∧ ¬(4 = 4 ∧ 5 = 4) := by
  refine ⟨exampleWF, ?_, by simp [shapesOps, adds], by decide, by decide⟩
  intro op ho
  simp only [shapesOps, List.mem_cons, List.not_mem_nil, or_false] at ho
  rcases ho with rfl | rfl | rfl | rfl | rfl
  · exact ⟨by decide, rfl, fun b hb => (nomatch hb), by decide, by decide, by decide, by decide⟩
  all_goals trivial

end Verif
