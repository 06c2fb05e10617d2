import Verif.Lemmas.Capacity
import Verif.Props.Shapes

/-!
Property C57: a variable that was added can be appended to.
-/
namespace Verif

open Prog hiding pure bind

section
variable {H : Hash} {utf8 : List Byte → Bool} {clog : Nat → Nat} {lg : Rat → Int} {fuel readFuel : Nat}

theorem Post.never {α : Type} {m : Prog α} (h : Post m fun _ => False) (log : Saved) :
    ∃ f, (m log).1 = .error f := by
  rcases e : m log with ⟨f | a, log'⟩
  · exact ⟨f, rfl⟩
  · exact (h log a log' e).elim

theorem Variable.appendArray_never (fill : Fill) (v : Variable) (data : NdArray) (n rows cols : Nat)
    (h : ∀ (b : MMBuffer3) (m : Nat) (u : Bool), n ≤ m → Post (v.append H utf8 clog lg fuel b m rows cols u) fun _ => False) :
    Post (v.appendArray H utf8 clog lg fuel fill data n rows cols) fun _ => False := by
  unfold Variable.appendArray
  refine (Post.any _).bind fun tail _ => ?_
  cases tail with
  | none => exact h _ _ _ (Nat.le_refl _)
  | some tail =>
    refine (Post.any _).bind fun s _ => (Post.any _).bind fun st _ => ?_
    cases (fill tail st).2 with
    | some f => exact Post.fail
    | none =>
      simp only
      split
      · exact Post.fail
      · exact h _ _ _ (by omega)

theorem Dataset.append_never (fill : Fill) (d : Dataset) (name : List Byte) (v : Variable)
    (hv : d.getVariable name = some v) (data : NdArray) (n rows cols : Nat)
    (h : Post (v.appendArray H utf8 clog lg fuel fill data n rows cols) fun _ => False) :
    Post (Dataset.append H utf8 clog lg fuel fill d name data n rows cols) fun _ => False := by
  unfold Dataset.append
  have hv : d.findVariable name = some v := hv
  rw [hv]
  exact h.bind fun _ h => h.elim

/-- C57 is false of the code: `add_variable` accepts a chunk size of 0, and no append to such a variable
ever succeeds, in any state of the data set and the store. -/
theorem C57_chunk_size_wrong (d : Dataset) (log : Saved) (name : List Byte) (v : Variable)
    (hv : d.getVariable name = some v) (hcs : v.chunkSize = 0) (fill : Fill) (data : NdArray)
    (n rows cols : Nat) :
    ∃ f, (Dataset.append H utf8 clog lg fuel fill d name data n rows cols log).1 = .error f := by
  refine Post.never (Dataset.append_never fill d name v hv data n rows cols
    (Variable.appendArray_never fill v data n rows cols ?_)) log
  intro b m u _
  unfold Variable.append
  refine (Post.any _).bind fun spans _ => ?_
  rw [if_pos hcs]
  exact Post.fail

/-- C57 is false of the code: `add_variable` accepts levels that do not fit the shape of the data set, and no
append of any data to such a variable ever succeeds, in any state of the data set and the store. -/
theorem C57_levels_wrong (d : Dataset) (log : Saved) (name : List Byte) (v : Variable)
    (hv : d.getVariable name = some v) (fill : Fill) (data : NdArray) (n rows cols : Nat) (hn : 0 < n)
    (hl : v.k2Levels = [] ∨ v.k2Levels.sum ≠ clog (max rows cols)) :
    ∃ f, (Dataset.append H utf8 clog lg fuel fill d name data n rows cols log).1 = .error f := by
  refine Post.never (Dataset.append_never fill d name v hv data n rows cols
    (Variable.appendArray_never fill v data n rows cols ?_)) log
  intro b m u hm
  unfold Variable.append
  refine (Post.any _).bind fun spans _ => ?_
  split
  · exact Post.fail
  rename_i hcs
  refine Post.bind (Q := fun _ => False) ?_ fun _ h => h.elim
  have h1 : v.chunkSize ≤ m + v.chunkSize - 1 := by omega
  have h2 := Nat.div_pos h1 (by omega)
  obtain ⟨k, hk⟩ : ∃ k, (m + v.chunkSize - 1) / v.chunkSize = k + 1 := ⟨_, (Nat.succ_pred_eq_of_pos h2).symm⟩
  rw [hk, List.range_succ_eq_map, List.map_cons]
  unfold Variable.appendLoop
  refine Post.bind (Q := fun _ => False) ?_ fun _ h => h.elim
  intro log a log' e
  have h3 := buildChunk_super _ _ _ _ _ log a log' e
  rcases hl with hl | hl
  · exact h3.2.1 hl
  · exact hl h3.2.2

/-- C57 is false of the code: `add_variable` accepts span sizes below 2; after any history such a variable
holds at most one chunk (none at all for a span size of 0). -/
theorem C57_span_size_wrong (coord0 coord1 coord2 : Coordinate) (rows cols : Nat) (ops : List Op) (log : Saved)
    (hd : (Dataset.new coord0 coord1 coord2 rows cols).WF utf8) (hops : ∀ op ∈ ops, op.Fits utf8)
    (hadds : adds ops < 256) (s : Dataset × Saved)
    (hs : s = runs H utf8 clog lg fuel ops (Dataset.new coord0 coord1 coord2 rows cols, log))
    (hnc : s.2.NoCollision H) (v : Variable) (hv : v ∈ s.1.variables) (hss : v.spanSize ≤ 1) : ∃ m n,
      (s.2.load H).getStruct utf8 v.cid = .ok m ∧ m.shape = some (n, rows, cols) ∧
      n ≤ v.spanSize * v.chunkSize := by
  have hfits : s.1.Fits utf8 := hs ▸ (runs_formed (clog := clog) (lg := lg) (fuel := fuel) ops
    (Dataset.new coord0 coord1 coord2 rows cols, log)
    ⟨hd, fun c hc => nomatch hc⟩ hops (by change 0 + adds ops < 256; omega) (fun v hv => nomatch hv)
      (hs ▸ hnc)).2
  have h1 : SmallCid H s.2 v.spanSize v.chunkSize v.cid := by
    subst hs
    exact runs_small (clog := clog) (lg := lg) (fuel := fuel) ops
      (Dataset.new coord0 coord1 coord2 rows cols, log)
      ⟨hd, fun c hc => nomatch hc⟩ hops (by change 0 + adds ops < 256; omega) (fun v hv => nomatch hv) hnc v hv hss
  obtain ⟨-, -, hshape⟩ := C56_shape coord0 coord1 coord2 rows cols ops log hd hops hadds s hs hnc
  obtain ⟨m, n, h2, h3⟩ := hshape v hv
  refine ⟨m, n, h2, h3, ?_⟩
  obtain ⟨sp, h4, h5, h6⟩ := h1
  have hst : (s.2.load H) v.cid = some (Item.struct (.span sp)).bytes := by
    rw [← h5]
    exact Saved.load_mem hnc h4
  rw [Store.getStruct_span' hst h6.valid] at h2
  obtain rfl := Except.ok.inj h2
  have h7 := (h6.read hss (hfits.wf.vars v hv).chunkSize _ rfl).1.le
  have h3 : some ((asU32 sp.instants).toNat, (asU32 sp.rows).toNat, (asU32 sp.cols).toNat) = some (n, rows, cols) := h3
  simp only [Option.some.injEq, Prod.mk.injEq] at h3
  rw [← h3.1]
  exact h7

/-! ### Examples -/

example : (⟨[7], none, 4, 0, [1, 1], .i64, .v0 []⟩ : Variable).chunkSize = 0 ∧
    (⟨[7], none, 4, 2, [1, 1], .i64, .v0 []⟩ : Variable).k2Levels.sum ≠ exampleClog (max 9 9) := by
  decide

/-- A variable with a span size of 1. -/
def settingsOps : List Op :=
  [.addVariable [7] none 1 2 [1, 1] .i64, .append exampleFill [7] (.i64 exampleGrid) 2 4 4,
    .append exampleFill [7] (.i64 exampleGrid) 1 4 4]

example : (Dataset.new exampleDataset.coord0 exampleDataset.coord1 exampleDataset.coord2 4 4).WF (fun _ => true) ∧
    (∀ op ∈ settingsOps, op.Fits fun _ => true) ∧ adds settingsOps < 256 ∧
    (Spec.declarations settingsOps).map (fun p => p.2.2.1) = [1] := by
  refine ⟨exampleWF, ?_, by simp [settingsOps, adds], rfl⟩
  intro op ho
  simp only [settingsOps, List.mem_cons, List.not_mem_nil, or_false] at ho
  rcases ho with rfl | rfl | rfl
  · exact ⟨by decide, rfl, fun b hb => (nomatch hb), by decide, by decide, by decide, by decide⟩
  all_goals trivial

end

end Verif
