import Verif.Props.Session
import Verif.Props.AnyData
import Verif.Props.Readers

/-!
Property C101, elsewhere and later: what is seen with the string is also seen in every store that has what listings lead
to from it, and stays seen whatever is saved afterwards.
-/
namespace Verif

open Prog hiding pure bind

section
variable {H : Hash} {utf8 : List Byte → Bool} {clog : Nat → Nat} {lg : Rat → Int} {fuel readFuel : Nat}
  {coord0 coord1 coord2 : Coordinate} {rows cols : Nat} {log : Saved} {before : List PyOp} {name : List Byte}
  {ss cs : Nat} {levels : List Nat} {round : Bool} {bits : Nat} {dtype : Dtype} {ops : List PyOp} {text : List Byte}
  {log' : Saved}

theorem SameReads.getitem {α : Type} {kind : Kind α} {st st' : Store} {m : MMStruct3} (h : SameReads utf8 st st' m)
    (indices : List PyIndex) (res : Except Fail (Nd α)) :
    kind.getitem utf8 st' readFuel m indices res ↔ kind.getitem utf8 st readFuel m indices res := by
  have h1 : ∀ t r c, kind.get utf8 st' readFuel m t r c = kind.get utf8 st readFuel m t r c := by
    intro t r c
    unfold Kind.get
    rw [h.get]
  have h2 : ∀ start fin r c x, kind.cell utf8 st' readFuel m start fin r c x =
      kind.cell utf8 st readFuel m start fin r c x := by
    intro start fin r c x
    unfold Kind.cell
    simp only [h.cell]
  have h3 : ∀ bounds x, kind.window utf8 st' readFuel m bounds x = kind.window utf8 st readFuel m bounds x := by
    intro bounds x
    unfold Kind.window
    simp only [h.window]
  unfold Kind.getitem
  simp only [h1, h2, h3]

theorem Store.pyData_congr {st st' : Store} {v : Variable} (h : st'.getStruct utf8 v.cid = st.getStruct utf8 v.cid) :
    Py.data utf8 st' v = Py.data utf8 st v := by
  unfold Py.data Variable.data
  rw [h]

theorem PySession.copy (h : PySession utf8 H clog lg fuel coord0 coord1 coord2 rows cols log before name ss cs levels
      round bits dtype ops text log') (s0 : Dataset × Saved)
    (hs0 : s0 = pyRuns H utf8 clog lg fuel before (Dataset.new coord0 coord1 coord2 rows cols, log))
    (enc : MMEncoding) (henc : Spec.ofDtype dtype = some enc) (as : List (NdArray × Nat))
    (has : as = acceptedAfter H utf8 clog lg fuel s0.1 s0.2 name
      (.addVariable name (if round then some bits else none) ss cs levels enc) (ops.filterMap PyOp.op))
    (hh : AnyHistory utf8 readFuel s0.1 name (if round then some bits else none) ss cs levels enc
      (ops.filterMap PyOp.op)) (hset : Settings clog levels (total as) rows cols cs ss) (hf : 32 ≤ fuel)
    {α : Type} (coords : Coordinate × Coordinate × Coordinate) (kind : Kind α) (wrap : MMStruct3 → Py.Data)
    (hwrap : wrap = .i32 ∨ wrap = .i64 ∨ wrap = .f32 ∨ wrap = .f64) (n r c : Nat) (data : Nat → Nat → Nat → α)
    (hseen : Spec.Seen utf8 readFuel (log'.load H) text coords name dtype kind wrap n r c data) :
    ∃ root v : Cid, (∀ other, Cid.ofText other text = some root) ∧ Reach utf8 (log'.load H) root v ∧
      log'.load H root ≠ none ∧ (∀ c, Reach utf8 (log'.load H) v c → log'.load H c ≠ none) ∧
      ∀ st : Store, st root = log'.load H root → (∀ c, Reach utf8 (log'.load H) v c → st c = log'.load H c) →
        Spec.Seen utf8 readFuel st text coords name dtype kind wrap n r c data := by
  have hdt : dtype ≠ .other := by rintro rfl; cases henc
  obtain ⟨e1, e2⟩ := h.shape s0 hs0
  obtain ⟨d, v, m, g1, -, -, g4, g5, -⟩ := h.load hdt fun _ => none
  rw [← hs0, pyRuns_eq, List.filterMap_cons, filterMap_reload] at g4
  simp only [PyOp.op, henc, Option.map_some] at g4
  obtain ⟨v', m, f1, f2, f3, f4⟩ := C45_history (lg := lg) s0.1 name _ enc _ s0.2 as (acceptedAfter_reload has)
    hh.reload (by rw [e1, e2]; exact hset) hf (d, log') g4 h.noCollision
  obtain rfl : v' = v := Option.some.inj (f1.symm.trans g5)
  have hroot : ∃ root : Cid, (∀ other, Cid.ofText other text = some root) := by
    generalize hs : pyRuns H utf8 clog lg fuel (before ++ .addVariable name ss cs levels round bits dtype :: ops)
      (Dataset.new coord0 coord1 coord2 rows cols, log) = s
    have ht : (H.cidOf (Item.dataset s.1).bytes).text = text := Except.ok.inj (congrArg Prod.fst (h.commit s hs.symm))
    exact ⟨_, fun other => by rw [← ht, C99_round_trip other _ (H.valid _)]⟩
  obtain ⟨root, r1⟩ := hroot
  have r3 : ∀ (other : List Byte → Option (List Byte)) (st : Store),
      Py.getDataset other utf8 st text = st.getDataset utf8 root := fun other st => by
    unfold Py.getDataset Py.parseCid
    rw [r1 other]
  have r2 : (log'.load H).getDataset utf8 root = .ok d := (r3 _ _).symm.trans g1
  have hv : v' ∈ d.variables := List.mem_of_find?_eq_some g5
  have hstored : ∀ c x, (log'.load H).retrieve utf8 c = .ok x → log'.load H c ≠ none := by
    intro c x hx hn
    unfold Store.retrieve at hx
    rw [hn] at hx
    cases hx
  refine ⟨root, v'.cid, r1, ?_, hstored _ _ (Store.retrieve_of_getDataset r2), ?_, fun st hst1 hst2 other => ?_⟩
  · exact Reach.step (e := (v'.name, v'.cid)) .root (Store.retrieve_of_getDataset r2)
      (List.mem_append_left _ (List.mem_map.2 ⟨v', hv, rfl⟩))
  · intro c hc
    obtain ⟨x, -, h3, -⟩ := f3 c hc
    exact hstored c x h3
  · obtain ⟨d', v, m', k1, k2, k3, k4, k5, k6, k7, k8⟩ := hseen other
    obtain rfl : d = d' := Except.ok.inj (r2.symm.trans ((r3 other _).symm.trans k1))
    obtain ⟨d', v'', -, g1', -, -, -, g5', g6', -⟩ := h.load hdt other
    obtain rfl : d = d' := Except.ok.inj (r2.symm.trans ((r3 other _).symm.trans g1'))
    obtain rfl : v' = v'' := Option.some.inj (g5.symm.trans g5')
    obtain rfl : v = v' := by
      have := Except.ok.inj (k4.symm.trans g6')
      cases this
      rfl
    obtain ⟨q1, q2⟩ := f4 st hst2
    have hm : m = m' := by
      have e : Py.data utf8 (log'.load H) v = .ok (wrap m') := k6
      unfold Py.data at e
      rw [Variable.data_of f2, Variable.data_of f2, Variable.data_of f2, Variable.data_of f2] at e
      rcases hwrap with rfl | rfl | rfl | rfl <;> simp only [] at e <;> (repeat' split at e) <;> cases e <;> rfl
    subst hm
    refine ⟨d, v, m, ?_, k2, k3, k4, k5, ?_, k7, fun indices hp res =>
      (q2.getitem indices res).trans (k8 indices hp res)⟩
    · rw [r3 other st, Store.getDataset_congr hst1, r2]
    · rw [Store.pyData_congr (st := log'.load H) (q1.trans f2.symm), k6]

/-- C101: what is seen with the string is seen in every store that has what listings lead to from it, whatever else that
store has or has not. -/
theorem C101_copy (h : PySession utf8 H clog lg fuel coord0 coord1 coord2 rows cols log before name ss cs levels
      round bits dtype ops text log') (s0 : Dataset × Saved)
    (hs0 : s0 = pyRuns H utf8 clog lg fuel before (Dataset.new coord0 coord1 coord2 rows cols, log))
    (enc : MMEncoding) (henc : Spec.ofDtype dtype = some enc) (as : List (NdArray × Nat))
    (has : as = acceptedAfter H utf8 clog lg fuel s0.1 s0.2 name
      (.addVariable name (if round then some bits else none) ss cs levels enc) (ops.filterMap PyOp.op))
    (hh : AnyHistory utf8 readFuel s0.1 name (if round then some bits else none) ss cs levels enc
      (ops.filterMap PyOp.op)) (hset : Settings clog levels (total as) rows cols cs ss) (hf : 32 ≤ fuel)
    (other : List Byte → Option (List Byte)) (root : Cid) (hroot : Cid.ofText other text = some root) (st : Store)
    (hst : ∀ c, Reach utf8 (log'.load H) root c → st c = log'.load H c)
    {α : Type} (coords : Coordinate × Coordinate × Coordinate) (kind : Kind α) (wrap : MMStruct3 → Py.Data)
    (hwrap : wrap = .i32 ∨ wrap = .i64 ∨ wrap = .f32 ∨ wrap = .f64) (n r c : Nat) (data : Nat → Nat → Nat → α)
    (hseen : Spec.Seen utf8 readFuel (log'.load H) text coords name dtype kind wrap n r c data) :
    Spec.Seen utf8 readFuel st text coords name dtype kind wrap n r c data := by
  obtain ⟨root', v, h1, h2, -, -, h3⟩ := h.copy s0 hs0 enc henc as has hh hset hf coords kind wrap hwrap n r c data hseen
  obtain rfl : root' = root := Option.some.inj ((h1 other).symm.trans hroot)
  exact h3 st (hst _ .root) fun c hc => hst c (h2.trans hc)

/-- C101: what is seen with the string stays seen whatever is done afterwards, with any data set, to the same store. -/
theorem C101_stays (h : PySession utf8 H clog lg fuel coord0 coord1 coord2 rows cols log before name ss cs levels
      round bits dtype ops text log') (s0 : Dataset × Saved)
    (hs0 : s0 = pyRuns H utf8 clog lg fuel before (Dataset.new coord0 coord1 coord2 rows cols, log))
    (enc : MMEncoding) (henc : Spec.ofDtype dtype = some enc) (as : List (NdArray × Nat))
    (has : as = acceptedAfter H utf8 clog lg fuel s0.1 s0.2 name
      (.addVariable name (if round then some bits else none) ss cs levels enc) (ops.filterMap PyOp.op))
    (hh : AnyHistory utf8 readFuel s0.1 name (if round then some bits else none) ss cs levels enc
      (ops.filterMap PyOp.op)) (hset : Settings clog levels (total as) rows cols cs ss) (hf : 32 ≤ fuel)
    (later : List PyOp) (d : Dataset) (s : Dataset × Saved) (hs : s = pyRuns H utf8 clog lg fuel later (d, log'))
    (hnc : s.2.NoCollision H)
    {α : Type} (coords : Coordinate × Coordinate × Coordinate) (kind : Kind α) (wrap : MMStruct3 → Py.Data)
    (hwrap : wrap = .i32 ∨ wrap = .i64 ∨ wrap = .f32 ∨ wrap = .f64) (n r c : Nat) (data : Nat → Nat → Nat → α)
    (hseen : Spec.Seen utf8 readFuel (log'.load H) text coords name dtype kind wrap n r c data) :
    Spec.Seen utf8 readFuel (s.2.load H) text coords name dtype kind wrap n r c data := by
  have hsub : log' ⊆ s.2 := by
    rw [hs, pyRuns_eq]
    exact runs_mono (later.filterMap PyOp.op) (d, log')
  obtain ⟨root, v, -, -, h2, h3, h4⟩ := h.copy s0 hs0 enc henc as has hh hset hf coords kind wrap hwrap n r c data hseen
  have hone : ∀ c, log'.load H c ≠ none → s.2.load H c = log'.load H c := by
    intro c hc
    cases e : log'.load H c with
    | none => exact absurd e hc
    | some b => exact Saved.load_mono hnc (fun b hb => hsub hb) c b e
  exact h4 _ (hone _ h2) fun c hc => hone c (h3 c hc)

/-- C101: what is seen with the string is seen while any other operations run on the same store in any order, also ones that
fail: each object is loaded at a moment of its own. -/
theorem C101_meanwhile (h : PySession utf8 H clog lg fuel coord0 coord1 coord2 rows cols log before name ss cs levels
      round bits dtype ops text log') (s0 : Dataset × Saved)
    (hs0 : s0 = pyRuns H utf8 clog lg fuel before (Dataset.new coord0 coord1 coord2 rows cols, log))
    (enc : MMEncoding) (henc : Spec.ofDtype dtype = some enc) (as : List (NdArray × Nat))
    (has : as = acceptedAfter H utf8 clog lg fuel s0.1 s0.2 name
      (.addVariable name (if round then some bits else none) ss cs levels enc) (ops.filterMap PyOp.op))
    (hh : AnyHistory utf8 readFuel s0.1 name (if round then some bits else none) ss cs levels enc
      (ops.filterMap PyOp.op)) (hset : Settings clog levels (total as) rows cols cs ss) (hf : 32 ≤ fuel)
    (faults : Bool) (ts ts' : List (Task Dataset)) (L₀ L : Saved) (hsub : log' ⊆ L₀)
    (hsteps : Tasks.Steps H utf8 readFuel faults (ts, L₀) (ts', L)) (hnc : L.NoCollision H) (st : Store)
    (hst : L₀.Meanwhile H L st)
    {α : Type} (coords : Coordinate × Coordinate × Coordinate) (kind : Kind α) (wrap : MMStruct3 → Py.Data)
    (hwrap : wrap = .i32 ∨ wrap = .i64 ∨ wrap = .f32 ∨ wrap = .f64) (n r c : Nat) (data : Nat → Nat → Nat → α)
    (hseen : Spec.Seen utf8 readFuel (log'.load H) text coords name dtype kind wrap n r c data) :
    Spec.Seen utf8 readFuel st text coords name dtype kind wrap n r c data := by
  obtain ⟨root, v, -, -, h2, h3, h4⟩ := h.copy s0 hs0 enc henc as has hh hset hf coords kind wrap hwrap n r c data hseen
  have hone : ∀ c, log'.load H c ≠ none → st c = log'.load H c := by
    intro c hc
    cases e : log'.load H c with
    | none => exact absurd e hc
    | some b =>
      have e1 : H.cidOf b = c := by
        unfold Saved.load at e
        simpa using List.find?_some e
      have e2 : b ∈ log' := List.mem_of_find?_eq_some e
      rw [← e1]
      exact hst.mem hsteps.mono hnc (hsub e2)
  exact h4 _ (hone _ h2) fun c hc => hone c (h3 c hc)

end

/-! ### Examples -/

/-- The least and the greatest number next to one another, in every store with what the string leads to. -/
example (st : Store) (hst : ∀ c, Reach (fun _ => true)
      (Saved.load exampleHash ((Item.dataset sessionEnd.1).bytes :: sessionEnd.2))
      (exampleHash.cidOf (Item.dataset sessionEnd.1).bytes) c →
        st c = Saved.load exampleHash ((Item.dataset sessionEnd.1).bytes :: sessionEnd.2) c) :
    Spec.Seen (fun _ => true) 40 st sessionText
      (exampleDataset.coord0, exampleDataset.coord1, exampleDataset.coord2) [7] .int32 .i32 .i32 4 4 4
      (concat32 [(.i32 exampleGrid32, 1), (.i32 fun t => exampleGrid32 (1 + t), 3)]) :=
  C101_copy session_example _ session_before.symm .i32 rfl _ session_accepted.symm session_any session_settings (by decide)
    (fun _ => none) _ (C99_round_trip _ _ (exampleHash.valid _)) st hst _ _ _ (.inl rfl) _ _ _ _ session_seen

/-- What is done later: another data set is made, has a variable of the same name, and is committed. -/
def sessionLater : List PyOp := [.addVariable [7] 2 2 [1, 1] true 3 .float32, .commit]

example (s : Dataset × Saved) (hs : s = pyRuns exampleHash (fun _ => true) exampleClog (fun _ => 0) 32 sessionLater
      (exampleDataset, (Item.dataset sessionEnd.1).bytes :: sessionEnd.2)) :
    Spec.Seen (fun _ => true) 40 (s.2.load exampleHash) sessionText
      (exampleDataset.coord0, exampleDataset.coord1, exampleDataset.coord2) [7] .int32 .i32 .i32 4 4 4
      (concat32 [(.i32 exampleGrid32, 1), (.i32 fun t => exampleGrid32 (1 + t), 3)]) := by
  refine C101_stays session_example _ session_before.symm .i32 rfl _ session_accepted.symm session_any session_settings
    (by decide) sessionLater exampleDataset s hs ?_ _ _ _ (.inl rfl) _ _ _ _ session_seen
  rw [hs]
  unfold Saved.NoCollision
  decide +kernel

/-- While the data set is read, somebody appends to what was committed. -/
def sessionTasks : List (Task Dataset) :=
  [sessionEnd.1.appendT exampleHash exampleClog (fun _ => 0) 32 [7] (.i32 fun t r c => .ofNat (t + r + c)) 3 4 4]

def sessionTurns : List (Task Dataset) × Saved :=
  Tasks.play exampleHash (fun _ => true) 40 (List.replicate 40 0)
    (sessionTasks, (Item.dataset sessionEnd.1).bytes :: sessionEnd.2)

theorem sessionTurns_steps : Tasks.Steps exampleHash (fun _ => true) 40 false
    (sessionTasks, (Item.dataset sessionEnd.1).bytes :: sessionEnd.2) (sessionTurns.1, sessionTurns.2) := by
  rw [Prod.mk.eta]
  exact Tasks.play_steps false _ _

example (late : Cid → Bool) :
    Spec.Seen (fun _ => true) 40
      (exampleMeanwhile ((Item.dataset sessionEnd.1).bytes :: sessionEnd.2) sessionTurns.2 late) sessionText
      (exampleDataset.coord0, exampleDataset.coord1, exampleDataset.coord2) [7] .int32 .i32 .i32 4 4 4
      (concat32 [(.i32 exampleGrid32, 1), (.i32 fun t => exampleGrid32 (1 + t), 3)]) := by
  have hsub := sessionTurns_steps.mono
  simp only at hsub
  refine C101_meanwhile session_example _ session_before.symm .i32 rfl _ session_accepted.symm session_any session_settings
    (by decide) false sessionTasks sessionTurns.1 _ sessionTurns.2 (List.Subset.refl _) sessionTurns_steps ?_ _
    (exampleMeanwhile_ok hsub late) _ _ _ (.inl rfl) _ _ _ _ session_seen
  unfold Saved.NoCollision
  decide +kernel

/-- The append does save. -/
example : sessionEnd.2.length + 1 < sessionTurns.2.length := by decide +kernel

end Verif
