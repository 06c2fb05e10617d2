import Verif.Lemmas.AnyTask
import Verif.Props.AnySchedule
import Verif.Props.Concurrent
import Verif.Props.Resolver

/-!
Properties C62 and C63 for arrays of any type with any values, from data sets with any history.
-/
namespace Verif

open Prog hiding pure bind

section
variable {H : Hash} {utf8 : List Byte → Bool} {clog : Nat → Nat} {lg : Rat → Int} {fuel readFuel : Nat}

/-- The variables of a data set can be read in every store that has at least what was saved, and read the same. -/
theorem Every.intact {B rows cols : Nat} {ops : List Op} {s : Dataset × Saved}
    (h : Every H utf8 clog lg fuel readFuel B rows cols ops s) {L : Saved} (hs : s.2 ⊆ L) (hnc : L.NoCollision H)
    {name : List Byte} {v : Variable} (hv : s.1.findVariable name = some v) :
    ∃ m, (s.2.load H).getStruct utf8 v.cid = .ok m ∧ (L.load H).getStruct utf8 v.cid = .ok m ∧
      SameReads utf8 (s.2.load H) (L.load H) m := by
  obtain ⟨levels, cs, ss, enc, round, hset, M, hi, -, -⟩ := h.vars name (by rw [hv]; simp)
  have hnc' := NoCollision.mono hs hnc
  obtain ⟨v', root, dep, h1, h2, h3⟩ := hi.ground (d := 2 * levels.length + 1)
    fun m a n hK => AnyChunk.ground hK utf8 _ (List.Subset.refl _)
  rw [hv] at h1
  cases h1
  obtain ⟨a1, -, a3⟩ := Ground.complete hnc' h2 h3
  obtain ⟨b1, b2⟩ := a3 (L.load H) fun c hc => by
    obtain ⟨y, d', c1, rfl, -⟩ := Ground.reach hnc' h2.mem h3 (c := c) (by rw [h2.cid]; exact hc)
    rw [Saved.load_mem hnc' c1, Saved.load_mem hnc (hs c1)]
  exact ⟨_, a1, b1, b2⟩

/-- An append to a data set with any history, alone and at the same time as others. -/
theorem Every.concurrent {B rows cols : Nat} {ops : List Op} {s : Dataset × Saved} {name : List Byte} {fill : Fill}
    {data : NdArray} {n : Nat} (h : Every H utf8 clog lg fuel readFuel B rows cols ops s) (hB : B + n ≤ 2 ^ 32)
    (hf : 32 ≤ fuel) (hfill : fill.Valid utf8 readFuel) :
    (s.1.appendT H clog lg fuel name data n rows cols).Keeps H utf8 readFuel
      (Alone (s.1.append H utf8 clog lg fuel fill name data n rows cols) s.2) s.2 ∧
    ∀ d' own, s.1.append H utf8 clog lg fuel fill name data n rows cols s.2 = (.ok d', own) →
      (s.1.appendT H clog lg fuel name data n rows cols).Ends H utf8 readFuel
        (Alone (s.1.append H utf8 clog lg fuel fill name data n rows cols) s.2) s.2 := by
  cases e : s.1.findVariable name with
  | none =>
    constructor
    · unfold Dataset.appendT
      rw [e]
      exact fun _ _ h => (nomatch h)
    · intro d' own ha
      unfold Dataset.append at ha
      rw [e] at ha
      cases congrArg Prod.fst ha
  | some v =>
    obtain ⟨levels, cs, ss, enc, round, hset, M, hi, hrf, hM⟩ := h.vars name (by rw [e]; simp)
    exact ⟨Dataset.appendT_keeps hset hf hrf hfill hi (by omega),
      fun d' own ha => Dataset.appendT_ends_any hset hf hrf hfill hi ha⟩

/-- After an append that works. -/
theorem Every.appended {B rows cols : Nat} {s : Dataset × Saved} {d' : Dataset} {own : Saved} {name : List Byte}
    {fill : Fill} {data : NdArray} {n : Nat} (h : Every H utf8 clog lg fuel readFuel B rows cols [] s)
    (hB : B + n ≤ 2 ^ 32) (hf : 32 ≤ fuel) (hfill : fill.Valid utf8 readFuel)
    (ha : s.1.append H utf8 clog lg fuel fill name data n rows cols s.2 = (.ok d', own)) (hnc : own.NoCollision H) :
    Every H utf8 clog lg fuel readFuel (2 ^ 32) rows cols [] (d', own) := by
  have hstep : Op.step H utf8 clog lg fuel (.append fill name data n rows cols) s = (d', own) := by
    unfold Op.step Op.prog
    simp only
    rw [ha]
  rw [← hstep]
  refine Every.step (h.more (ops := [.append fill name data n rows cols]) hB) (Nat.le_refl _) hf trivial hfill
    h.fits.1.len (fun nm => by simp [accepted, total]) (by rw [hstep]; exact hnc)

/-- C62: appends of anything at the same time as any other operations. The operation number `i` appends an
array to a variable of a data set with any history. When it has ended, then with the result that it has when it
runs alone: it works exactly if it works alone, and then gives the same version. Its variables can be read in the
common store and read there as they do after the append alone. -/
theorem C62_any (d : Dataset) (ops : List Op) (log : Saved) (name : List Byte) (fill : Fill) (data : NdArray)
    (n : Nat) (h : Limited H utf8 clog lg fuel readFuel d ops log n) (hfill : fill.Valid utf8 readFuel)
    (hf : 32 ≤ fuel) (s : Dataset × Saved) (hs : s = runs H utf8 clog lg fuel ops (d, log))
    (ts ts' : List (Task Dataset)) (L₀ L : Saved) (hsub : s.2 ⊆ L₀) (i : Nat)
    (hi : ts[i]? = some (s.1.appendT H clog lg fuel name data n d.rows d.cols))
    (hsteps : Tasks.Steps H utf8 readFuel false (ts, L₀) (ts', L)) (hnc : L.NoCollision H)
    (r : Except Fail Dataset) (hr : ts'[i]? = some (.done r)) :
    (∀ d', r = .ok d' ↔ (s.1.append H utf8 clog lg fuel fill name data n d.rows d.cols s.2).1 = .ok d') ∧
    ∀ d' own, s.1.append H utf8 clog lg fuel fill name data n d.rows d.cols s.2 = (.ok d', own) →
      ∀ nm v, d'.findVariable nm = some v → ∃ m, (own.load H).getStruct utf8 v.cid = .ok m ∧
        (L.load H).getStruct utf8 v.cid = .ok m ∧ SameReads utf8 (own.load H) (L.load H) m := by
  have hL : s.2 ⊆ L := List.Subset.trans hsub hsteps.mono
  have hn : n < 2 ^ 32 := Nat.lt_of_le_of_lt (Nat.le_add_left ..) (h.instants [])
  have hev := h.runs hf hs (NoCollision.mono hL hnc)
  obtain ⟨hk, he⟩ := hev.concurrent (name := name) (data := data) (lg := lg) (n := n) (by omega) hf hfill
  have hlast := Alone.lasting (s.1.append H utf8 clog lg fuel fill name data n d.rows d.cols) s.2
  have hother : ∀ d' own, s.1.append H utf8 clog lg fuel fill name data n d.rows d.cols s.2 = (.ok d', own) →
      r = .ok d' ∧ own ⊆ L := by
    intro d' own ha
    rcases (he d' own ha).ended hsub hi hsteps hnc hr with ⟨d'', own', h1, h2, h3⟩ | ⟨h1, -⟩
    · rw [ha] at h1
      cases h1
      exact ⟨h3, h2⟩
    · cases h1
  refine ⟨fun d' => ⟨fun e => ?_, fun e => ?_⟩, fun d' own ha nm v hv => ?_⟩
  · subst e
    obtain ⟨t', h1, h2⟩ := hsteps.keeps hlast hi (hk.mono hlast hsub) hnc
    change ts'[i]? = some t' at h1
    rw [hr] at h1
    cases h1
    obtain ⟨own, h3, -⟩ := h2 hnc d' rfl
    rw [h3]
  · rcases ha : s.1.append H utf8 clog lg fuel fill name data n d.rows d.cols s.2 with ⟨_ | d'', own⟩
    · rw [ha] at e
      cases e
    · rw [ha] at e
      cases e
      exact (hother _ _ ha).1
  · have hown := (hother d' own ha).2
    exact (hev.appended (by omega) hf hfill ha (NoCollision.mono hown hnc)).intact hown hnc hv

/-- C63: the same when any loads and saves of any of the operations may fail. The version from which the append
started reads as before at every moment. An append that has ended has failed, or it has given the version that
it gives alone. Starting it again at that moment, without failures, works exactly if the append works alone, and
then gives that version, whose variables read as they do after the append alone.

Failing loads while the tail of the variable is read back are left out, see `C61_append_wrong`. -/
theorem C63_any (d : Dataset) (ops : List Op) (log : Saved) (name : List Byte) (fill : Fill) (data : NdArray)
    (n : Nat) (h : Limited H utf8 clog lg fuel readFuel d ops log n) (hfill : fill.Valid utf8 readFuel)
    (hf : 32 ≤ fuel) (s : Dataset × Saved) (hs : s = runs H utf8 clog lg fuel ops (d, log))
    (ts ts' : List (Task Dataset)) (L₀ L : Saved) (hsub : s.2 ⊆ L₀) (i : Nat)
    (hi : ts[i]? = some (s.1.appendT H clog lg fuel name data n d.rows d.cols))
    (hsteps : Tasks.Steps H utf8 readFuel true (ts, L₀) (ts', L)) (again : Fill)
    (hagain : again.Valid utf8 readFuel)
    (hnc : (s.1.append H utf8 clog lg fuel again name data n d.rows d.cols L).2.NoCollision H) :
    (∀ nm v, s.1.findVariable nm = some v → ∃ m, (s.2.load H).getStruct utf8 v.cid = .ok m ∧
      (L.load H).getStruct utf8 v.cid = .ok m ∧ SameReads utf8 (s.2.load H) (L.load H) m) ∧
    (∀ d', ts'[i]? = some (.done (.ok d')) →
      (s.1.append H utf8 clog lg fuel fill name data n d.rows d.cols s.2).1 = .ok d') ∧
    (∀ d', (s.1.append H utf8 clog lg fuel again name data n d.rows d.cols L).1 = .ok d' ↔
      (s.1.append H utf8 clog lg fuel fill name data n d.rows d.cols s.2).1 = .ok d') ∧
    ∀ d' own L', s.1.append H utf8 clog lg fuel fill name data n d.rows d.cols s.2 = (.ok d', own) →
      s.1.append H utf8 clog lg fuel again name data n d.rows d.cols L = (.ok d', L') →
      ∀ nm v, d'.findVariable nm = some v → ∃ m, (own.load H).getStruct utf8 v.cid = .ok m ∧
        (L'.load H).getStruct utf8 v.cid = .ok m ∧ SameReads utf8 (own.load H) (L'.load H) m := by
  have hL : s.2 ⊆ L := List.Subset.trans hsub hsteps.mono
  have hncL : L.NoCollision H := NoCollision.mono (Dataset.append_mono again _ name data n d.rows d.cols _) hnc
  have hn : n < 2 ^ 32 := Nat.lt_of_le_of_lt (Nat.le_add_left ..) (h.instants [])
  have hev := h.runs hf hs (NoCollision.mono hL hncL)
  obtain ⟨hk, he⟩ := hev.concurrent (name := name) (data := data) (lg := lg) (n := n) (by omega) hf hfill
  have hlast := Alone.lasting (s.1.append H utf8 clog lg fuel fill name data n d.rows d.cols) s.2
  have hrun : (s.1.appendT H clog lg fuel name data n d.rows d.cols).run H utf8 again L =
      s.1.append H utf8 clog lg fuel again name data n d.rows d.cols L := by rw [Dataset.append_run]
  have hkeep : ∀ d' L', s.1.append H utf8 clog lg fuel again name data n d.rows d.cols L = (.ok d', L') →
      Alone (s.1.append H utf8 clog lg fuel fill name data n d.rows d.cols) s.2 d' L' := by
    intro d' L' e
    rw [← hrun] at e hnc
    exact (hk.mono hlast hL).run hagain (fun m st n rows cols => ⟨_, _, m.has_fillWindow false ..⟩) hnc d' L' e
  refine ⟨fun nm v hv => hev.intact hL hncL hv, fun d' e => ?_, fun d' => ⟨fun e => ?_, fun e => ?_⟩, ?_⟩
  · obtain ⟨t', h1, h2⟩ := hsteps.keeps hlast hi (hk.mono hlast hsub) hncL
    change ts'[i]? = some t' at h1
    rw [e] at h1
    cases h1
    obtain ⟨own, h3, -⟩ := h2 hncL d' rfl
    rw [h3]
  · rcases e' : s.1.append H utf8 clog lg fuel again name data n d.rows d.cols L with ⟨_ | d'', L'⟩
    · rw [e'] at e
      cases e
    · rw [e'] at e
      cases e
      obtain ⟨own, h3, -⟩ := hkeep _ _ e'
      rw [h3]
  · rcases ha : s.1.append H utf8 clog lg fuel fill name data n d.rows d.cols s.2 with ⟨_ | d'', own⟩
    · rw [ha] at e
      cases e
    · rw [ha] at e
      cases e
      obtain ⟨a, L', e1, own', e2, -⟩ := Task.Ends.run hagain (fun m st n rows cols => ⟨_, _, m.has_fillWindow false ..⟩)
        ((he _ _ ha).mono hlast hL) (by rw [hrun]; exact hnc)
      rw [ha] at e2
      cases e2
      rw [hrun] at e1
      rw [e1]
  · intro d' own L' ha e nm v hv
    obtain ⟨own', h1, h2⟩ := hkeep d' L' e
    rw [ha] at h1
    cases h1
    rw [e] at hnc
    exact (hev.appended (by omega) hf hfill ha (NoCollision.mono h2 hnc)).intact h2 hnc hv

end

/-! ### Examples -/

/-- After the history of two variables. -/
def exampleTwoBase : Dataset × Saved :=
  runs exampleHash (fun _ => true) exampleClog exampleLg 32 exampleTwo (exampleDataset, [])

/-- Appends to both variables: of numbers whose differences overflow, and of numbers that cannot be stored. -/
def exampleTwoTasks : List (Task Dataset) :=
  [exampleTwoBase.1.appendT exampleHash exampleClog exampleLg 32 [8]
      (.i64 fun t r c => if (t + r + c) % 2 = 0 then Int64.minValue else Int64.maxValue) 2 4 4,
    exampleTwoBase.1.appendT exampleHash exampleClog exampleLg 32 [7]
      (.flt .single fun _ r c => .fin ((r + c : Nat) / 2 ^ 62)) 2 4 4]

/-- They take turns. -/
def exampleTwoTurns : List (Task Dataset) × Saved :=
  Tasks.play exampleHash (fun _ => true) 40 ((List.replicate 60 [0, 1]).flatten) (exampleTwoTasks, exampleTwoBase.2)

theorem exampleTwoTurns_noCollision : exampleTwoTurns.2.NoCollision exampleHash := by
  unfold Saved.NoCollision
  decide +kernel

/-- The first has worked, the other has failed. -/
theorem exampleTwoTurns_done : (∃ d', exampleTwoTurns.1[0]? = some (.done (.ok d'))) ∧
    ∃ f, exampleTwoTurns.1[1]? = some (.done (.error f)) := by
  constructor
  · have : (match exampleTwoTurns.1[0]? with | some (.done (.ok _)) => true | _ => false) = true := by decide +kernel
    split at this
    · exact ⟨_, by assumption⟩
    · cases this
  · have : (match exampleTwoTurns.1[1]? with | some (.done (.error _)) => true | _ => false) = true := by decide +kernel
    split at this
    · exact ⟨_, by assumption⟩
    · cases this

/-- The assumptions of `C62_any`. -/
example : (∃ d', exampleTwoTurns.1[0]? = some (.done (.ok d')) ∧
      (exampleTwoBase.1.append exampleHash (fun _ => true) exampleClog exampleLg 32 exampleFill [8]
        (.i64 fun t r c => if (t + r + c) % 2 = 0 then Int64.minValue else Int64.maxValue) 2 4 4
        exampleTwoBase.2).1 = .ok d') ∧
    ∀ d', (exampleTwoBase.1.append exampleHash (fun _ => true) exampleClog exampleLg 32 exampleFill [7]
      (.flt .single fun _ r c => .fin ((r + c : Nat) / 2 ^ 62)) 2 4 4 exampleTwoBase.2).1 ≠ .ok d' := by
  obtain ⟨⟨d', h1⟩, f, h2⟩ := exampleTwoTurns_done
  refine ⟨⟨d', h1, ?_⟩, fun d' e => ?_⟩
  · exact ((C62_any (lg := exampleLg) exampleDataset exampleTwo [] [8] exampleFill _ 2 (exampleTwo_limited (by decide))
      exampleFill_valid (by decide) exampleTwoBase rfl exampleTwoTasks _ exampleTwoBase.2 _ (List.Subset.refl _) 0 rfl
      (Tasks.play_steps false _ _) exampleTwoTurns_noCollision _ h1).1 d').1 rfl
  · have := ((C62_any (lg := exampleLg) exampleDataset exampleTwo [] [7] exampleFill _ 2
      (exampleTwo_limited (by decide)) exampleFill_valid (by decide) exampleTwoBase rfl exampleTwoTasks _
      exampleTwoBase.2 _ (List.Subset.refl _) 1 rfl
      (Tasks.play_steps false _ _) exampleTwoTurns_noCollision _ h2).1 d').2 e
    cases this

/-- The assumptions of `C63_any`. -/
example : ∃ ts L, Tasks.Steps exampleHash (fun _ => true) 40 true (exampleTwoTasks, exampleTwoBase.2) (ts, L) ∧
    ts[0]? = some (.done (.error (.err .io))) ∧ exampleTwoBase.2.length < L.length ∧
    (exampleTwoBase.1.append exampleHash (fun _ => true) exampleClog exampleLg 32 exampleFill [8]
      (.i64 fun t r c => if (t + r + c) % 2 = 0 then Int64.minValue else Int64.maxValue) 2 4 4
      L).2.NoCollision exampleHash := by
  have h0 := Tasks.play_steps (H := exampleHash) (utf8 := fun _ => true) (readFuel := 40) true
    ((List.replicate 6 [0, 1]).flatten) (exampleTwoTasks, exampleTwoBase.2)
  generalize hs : Tasks.play exampleHash (fun _ => true) 40 ((List.replicate 6 [0, 1]).flatten)
    (exampleTwoTasks, exampleTwoBase.2) = s at h0
  have hnc : (exampleTwoBase.1.append exampleHash (fun _ => true) exampleClog exampleLg 32 exampleFill [8]
      (.i64 fun t r c => if (t + r + c) % 2 = 0 then Int64.minValue else Int64.maxValue) 2 4 4
      s.2).2.NoCollision exampleHash := by
    rw [← hs]
    unfold Saved.NoCollision
    decide +kernel
  have hlen : exampleTwoBase.2.length < s.2.length := by
    rw [← hs]
    decide +kernel
  have hsave : (match s.1[0]? with | some (.saveAll _ _) => true | _ => false) = true := by
    rw [← hs]
    decide +kernel
  split at hsave
  · rename_i bs t e
    exact ⟨_, _, .tail h0 (.task e (.saveAllFault (.err .io) rfl)), by
      have := (List.getElem?_eq_some_iff.1 e).1
      simp [this], hlen, hnc⟩
  · cases hsave

end Verif
