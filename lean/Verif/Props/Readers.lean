import Verif.Props.AnyReach
import Verif.Props.AnyConcurrent

/-!
Property C78: reads that run at the same time as other operations. Each object that a read needs is loaded at a
moment of its own (`Saved.Meanwhile`).
-/
namespace Verif

open Prog hiding pure bind

section
variable {H : Hash} {utf8 : List Byte → Bool} {clog : Nat → Nat} {lg : Rat → Int} {fuel readFuel : Nat}
  {faults : Bool} {ss cs : Nat} {levels : List Nat}

/-- What was saved when a read begins is found by it. -/
theorem Saved.Meanwhile.mem {since log : Saved} {st : Store} {b : List Byte} (h : since.Meanwhile H log st)
    (hs : since ⊆ log) (hnc : log.NoCollision H) (hb : b ∈ since) : st (H.cidOf b) = some b := by
  obtain ⟨l, h1, h2, h3⟩ := h (H.cidOf b)
  rw [h3, Saved.load_mem (Prog.NoCollision.mono h1 hnc) (h2 b hb (hs hb))]

/-- C78: reads of the variables of a data set, whatever was appended to them and whatever failed. While any
other operations run on the same store in any order, also ones that fail, all reads and searches have exactly
the outcomes they have when nothing else runs. -/
theorem C78_any (d : Dataset) (ops : List Op) (log : Saved)
    (h : Limited H utf8 clog lg fuel readFuel d ops log 0) (hf : 32 ≤ fuel) (s : Dataset × Saved)
    (hs : s = runs H utf8 clog lg fuel ops (d, log)) (ts ts' : List (Task Dataset)) (L₀ L : Saved)
    (hsub : s.2 ⊆ L₀) (hsteps : Tasks.Steps H utf8 readFuel faults (ts, L₀) (ts', L)) (hnc : L.NoCollision H)
    (st : Store) (hst : L₀.Meanwhile H L st) :
    ∀ v ∈ s.1.variables, ∃ m, (s.2.load H).getStruct utf8 v.cid = .ok m ∧ st.getStruct utf8 v.cid = .ok m ∧
      SameReads utf8 (s.2.load H) st m := by
  intro v hv
  have hL : L₀ ⊆ L := hsteps.mono
  have hnc₀ := NoCollision.mono hL hnc
  have hnc' := NoCollision.mono hsub hnc₀
  obtain ⟨dep, root, h2, h3⟩ := (h.linked hf hs hnc').vars v hv
  obtain ⟨a1, -, a3⟩ := Ground.complete hnc' h2 h3
  obtain ⟨b1, b2⟩ := a3 st fun c hc => by
    obtain ⟨y, d', c1, rfl, -⟩ := Ground.reach hnc' h2.mem h3 (c := c) (by rw [h2.cid]; exact hc)
    rw [Saved.load_mem hnc' c1, hst.mem hL hnc (hsub c1)]
  exact ⟨_, a1, b1, b2⟩

/-- C78 for a version that was committed: also the data set itself is found, by its identifier. -/
theorem C78_commit (d : Dataset) (ops : List Op) (log : Saved)
    (h : Limited H utf8 clog lg fuel readFuel d ops log 0) (hf : 32 ≤ fuel) (s : Dataset × Saved)
    (hs : s = runs H utf8 clog lg fuel ops (d, log)) (root : Cid) (committed : Saved)
    (hc : s.1.commit H s.2 = (.ok root, committed)) (ts ts' : List (Task Dataset)) (L₀ L : Saved)
    (hsub : committed ⊆ L₀) (hsteps : Tasks.Steps H utf8 readFuel faults (ts, L₀) (ts', L))
    (hnc : L.NoCollision H) (st : Store) (hst : L₀.Meanwhile H L st) :
    st.getDataset utf8 root = .ok { s.1 with cid := some root } ∧
    ∀ v ∈ s.1.variables, ∃ m, (committed.load H).getStruct utf8 v.cid = .ok m ∧ st.getStruct utf8 v.cid = .ok m ∧
      SameReads utf8 (committed.load H) st m := by
  have hL : L₀ ⊆ L := hsteps.mono
  have hnc' := NoCollision.mono hsub (NoCollision.mono hL hnc)
  obtain ⟨h1, h2⟩ := C45_dataset d ops log h hf s hs root committed hc hnc'
  refine h2 st fun c hr => ?_
  obtain ⟨x, -, h3, -⟩ := h1 c hr
  unfold Store.retrieve at h3
  cases e : committed.load H c with
  | none => rw [e] at h3; cases h3
  | some b =>
    obtain ⟨h4, rfl⟩ := Saved.load_some e
    exact hst.mem hL hnc (hsub h4)

/-- C78 for integers: what is read meanwhile are the arrays that were appended.

Partial: `History`. -/
theorem C78_int_partial (d : Dataset) (name : List Byte) (round : Option Nat) (enc : MMEncoding)
    (ops : List Op) (log : Saved) (h : History utf8 clog readFuel d name round ss cs levels enc ops)
    (hf : 32 ≤ fuel) (hrf : levels.length + 34 ≤ readFuel) (s : Dataset × Saved)
    (hs : s = runs H utf8 clog lg fuel (.addVariable name round ss cs levels enc :: ops) (d, log))
    (ts ts' : List (Task Dataset)) (L₀ L : Saved) (hsub : s.2 ⊆ L₀)
    (hsteps : Tasks.Steps H utf8 readFuel faults (ts, L₀) (ts', L)) (hnc : L.NoCollision H) (st : Store)
    (hst : L₀.Meanwhile H L st) :
    ∃ v m, s.1.findVariable name = some v ∧ st.getStruct utf8 v.cid = .ok m ∧ m.encoding = enc ∧
      Reads (fun _ v => v) utf8 st readFuel m (total (arrays name ops)) d.rows d.cols
        (concatInt (arrays name ops)) := by
  subst hs
  obtain ⟨l, h1, h2, rfl⟩ := hst.load hsteps.mono hnc
  have hncl := NoCollision.mono h2 hnc
  have hsl := List.Subset.trans hsub h1
  obtain ⟨v, m, g1, g2, g3, g4, -⟩ := (h.inv (H := H) (lg := lg) hf (by omega) log (NoCollision.mono hsl hncl)).arrays
    h.int.toIntBase l hsl hncl hrf
  exact ⟨v, m, g1, g2, g3, g4⟩

/-- C78 for floats.

Partial: `FltHistory`. -/
theorem C78_float_partial (d : Dataset) (name : List Byte) (round : Option Nat) (p : Prec) (B : Nat)
    (ops : List Op) (log : Saved) (h : FltHistory utf8 clog lg readFuel d name round ss cs levels p B ops)
    (hf : 32 ≤ fuel) (hrf : levels.length + 34 ≤ readFuel) (s : Dataset × Saved)
    (hs : s = runs H utf8 clog lg fuel (.addVariable name round ss cs levels p.kind.encoding :: ops) (d, log))
    (ts ts' : List (Task Dataset)) (L₀ L : Saved) (hsub : s.2 ⊆ L₀)
    (hsteps : Tasks.Steps H utf8 readFuel faults (ts, L₀) (ts', L)) (hnc : L.NoCollision H) (st : Store)
    (hst : L₀.Meanwhile H L st) :
    ∃ v m, s.1.findVariable name = some v ∧ v.data p.kind utf8 st = .ok m ∧
      ArrayReads p.kind utf8 st readFuel m (total (arrays name ops)) d.rows d.cols
        (fun t r c => (concatFlt (arrays name ops) t r c).rounded B) := by
  subst hs
  obtain ⟨l, h1, h2, rfl⟩ := hst.load hsteps.mono hnc
  have hncl := NoCollision.mono h2 hnc
  have hsl := List.Subset.trans hsub h1
  obtain ⟨v, m, g1, g2, g3, g4⟩ := (h.inv (H := H) hf (by omega) log (NoCollision.mono hsl hncl)).floats
    h.flt.toFltBase l hsl hncl hrf
  refine ⟨v, m, g1, Variable.data_ok g2 g3, Reads.array ?_⟩
  cases p <;> exact g4

end

/-! ### Examples -/

/-- An object that is loaded before others have saved something, and one that is loaded after. -/
def exampleMeanwhile (since log : Saved) (late : Cid → Bool) : Store :=
  fun cid => if late cid then log.load exampleHash cid else since.load exampleHash cid

theorem exampleMeanwhile_ok {since log : Saved} (h : since ⊆ log) (late : Cid → Bool) :
    since.Meanwhile exampleHash log (exampleMeanwhile since log late) := by
  intro cid
  unfold exampleMeanwhile
  by_cases e : late cid = true
  · exact ⟨log, List.Subset.refl _, fun _ _ h => h, if_pos e⟩
  · exact ⟨since, h, fun _ h _ => h, if_neg e⟩

theorem exampleTwoTurns_steps : Tasks.Steps exampleHash (fun _ => true) 40 false (exampleTwoTasks, exampleTwoBase.2)
    (exampleTwoTurns.1, exampleTwoTurns.2) := by
  rw [Prod.mk.eta]
  exact Tasks.play_steps false _ _

/-- The assumptions of `C78_any`: reads while two appends to the same data set run. -/
example (late : Cid → Bool) : ∀ v ∈ exampleTwoBase.1.variables, ∃ m,
    (exampleTwoBase.2.load exampleHash).getStruct (fun _ => true) v.cid = .ok m ∧
    SameReads (fun _ => true) (exampleTwoBase.2.load exampleHash)
      (exampleMeanwhile exampleTwoBase.2 exampleTwoTurns.2 late) m := by
  intro v hv
  have hsub := exampleTwoTurns_steps.mono
  simp only at hsub
  have hst := exampleMeanwhile_ok hsub late
  obtain ⟨m, h1, -, h2⟩ := C78_any (lg := exampleLg) exampleDataset exampleTwo [] (exampleTwo_limited (by decide))
    (by decide) exampleTwoBase rfl exampleTwoTasks exampleTwoTurns.1 exampleTwoBase.2 exampleTwoTurns.2
    (List.Subset.refl _) exampleTwoTurns_steps exampleTwoTurns_noCollision _ hst v hv
  exact ⟨m, h1, h2⟩

/-- There are variables, and the appends do save. -/
example : exampleTwoBase.1.variables ≠ [] ∧ exampleTwoBase.2.length < exampleTwoTurns.2.length := by decide +kernel

/-- The version after `exampleOps`. -/
def exampleRead : Dataset × Saved :=
  runs exampleHash (fun _ => true) exampleClog (fun _ => 0) 32
    (.addVariable [7] none 2 2 [1, 1] .i64 :: exampleOps) (exampleDataset, [])

/-- Two appends, to a version before, while it is read. -/
def exampleReadTurns : List (Task Dataset) × Saved :=
  Tasks.play exampleHash (fun _ => true) 40 ((List.replicate 60 [0, 1]).flatten) (exampleTasks, exampleRead.2)

theorem exampleReadTurns_steps : Tasks.Steps exampleHash (fun _ => true) 40 false (exampleTasks, exampleRead.2)
    (exampleReadTurns.1, exampleReadTurns.2) := by
  rw [Prod.mk.eta]
  exact Tasks.play_steps false _ _

theorem exampleReadTurns_noCollision : exampleReadTurns.2.NoCollision exampleHash := by
  unfold Saved.NoCollision
  decide +kernel

/-- The assumptions of `C78_int_partial`. -/
example (late : Cid → Bool) : ∃ v m, exampleRead.1.findVariable [7] = some v ∧
    (exampleMeanwhile exampleRead.2 exampleReadTurns.2 late).getStruct (fun _ => true) v.cid = .ok m ∧
    Reads (fun _ v => v) (fun _ => true) (exampleMeanwhile exampleRead.2 exampleReadTurns.2 late) 40 m
      (total (arrays [7] exampleOps)) 4 4 (concatInt (arrays [7] exampleOps)) := by
  have hsub := exampleReadTurns_steps.mono
  simp only at hsub
  have hst := exampleMeanwhile_ok hsub late
  obtain ⟨v, m, h1, h2, -, h3⟩ := C78_int_partial (lg := fun _ => 0) exampleDataset [7] none .i64 exampleOps []
    exampleHistory (by decide) (by decide) exampleRead rfl exampleTasks exampleReadTurns.1 exampleRead.2
    exampleReadTurns.2 (List.Subset.refl _) exampleReadTurns_steps exampleReadTurns_noCollision _ hst
  exact ⟨v, m, h1, h2, h3⟩

example : exampleRead.2.length < exampleReadTurns.2.length := by decide +kernel

/-- Rounded floats, and an append to them. -/
def exampleRoundedRead : Dataset × Saved :=
  runs exampleHash (fun _ => true) exampleClog exampleLg 32
    (.addVariable [7] (some 3) 2 2 [1, 1] .f32 :: exampleFloatOps (fun z => (3 * z + 1 : Int) / 16) 4)
    (exampleDataset, [])

def exampleRoundedTasks : List (Task Dataset) :=
  [exampleRoundedRead.1.appendT exampleHash exampleClog exampleLg 32 [7]
    (.flt .single fun t r c => .fin ((t + r + c : Nat) / 8)) 3 4 4]

def exampleRoundedTurns : List (Task Dataset) × Saved :=
  Tasks.play exampleHash (fun _ => true) 40 (List.replicate 40 0) (exampleRoundedTasks, exampleRoundedRead.2)

theorem exampleRoundedTurns_steps : Tasks.Steps exampleHash (fun _ => true) 40 false
    (exampleRoundedTasks, exampleRoundedRead.2) (exampleRoundedTurns.1, exampleRoundedTurns.2) := by
  rw [Prod.mk.eta]
  exact Tasks.play_steps false _ _

theorem exampleRoundedTurns_noCollision : exampleRoundedTurns.2.NoCollision exampleHash := by
  unfold Saved.NoCollision
  decide +kernel

/-- The assumptions of `C78_float_partial`. -/
example (late : Cid → Bool) : ∃ v m, exampleRoundedRead.1.findVariable [7] = some v ∧
    v.data Prec.single.kind (fun _ => true) (exampleMeanwhile exampleRoundedRead.2 exampleRoundedTurns.2 late) =
      .ok m := by
  have hsub := exampleRoundedTurns_steps.mono
  simp only at hsub
  have hst := exampleMeanwhile_ok hsub late
  obtain ⟨v, m, h1, h2, -⟩ := C78_float_partial exampleDataset [7] (some 3) .single 3 _ []
    (exampleRounded (n := 4) (by decide)) (by decide) (by decide) exampleRoundedRead rfl exampleRoundedTasks
    exampleRoundedTurns.1 exampleRoundedRead.2 exampleRoundedTurns.2 (List.Subset.refl _) exampleRoundedTurns_steps
    exampleRoundedTurns_noCollision _ hst
  exact ⟨v, m, h1, h2⟩

example : exampleRoundedRead.2.length < exampleRoundedTurns.2.length := by decide +kernel

/-- A version that is committed before two appends to it run. -/
def exampleCommitted : Except Fail Cid × Saved := exampleTwoBase.1.commit exampleHash exampleTwoBase.2

def exampleCommittedTurns : List (Task Dataset) × Saved :=
  Tasks.play exampleHash (fun _ => true) 40 ((List.replicate 60 [0, 1]).flatten) (exampleTwoTasks, exampleCommitted.2)

theorem exampleCommittedTurns_steps : Tasks.Steps exampleHash (fun _ => true) 40 false
    (exampleTwoTasks, exampleCommitted.2) (exampleCommittedTurns.1, exampleCommittedTurns.2) := by
  rw [Prod.mk.eta]
  exact Tasks.play_steps false _ _

theorem exampleCommittedTurns_noCollision : exampleCommittedTurns.2.NoCollision exampleHash := by
  unfold Saved.NoCollision
  decide +kernel

/-- The assumptions of `C78_commit`. -/
example (late : Cid → Bool) : ∃ root, exampleCommitted.1 = .ok root ∧
    (exampleMeanwhile exampleCommitted.2 exampleCommittedTurns.2 late).getDataset (fun _ => true) root =
      .ok { exampleTwoBase.1 with cid := some root } := by
  have hsub := exampleCommittedTurns_steps.mono
  simp only at hsub
  have hst := exampleMeanwhile_ok hsub late
  have h := fun root hc => C78_commit (lg := exampleLg) exampleDataset exampleTwo [] (exampleTwo_limited (by decide))
    (by decide) exampleTwoBase rfl root exampleCommitted.2 hc exampleTwoTasks exampleCommittedTurns.1
    exampleCommitted.2 exampleCommittedTurns.2 (List.Subset.refl _) exampleCommittedTurns_steps
    exampleCommittedTurns_noCollision _ hst
  exact ⟨exampleHash.cidOf (Item.dataset exampleTwoBase.1).bytes, rfl, (h _ rfl).1⟩

end Verif
