import Verif.Lemmas.TaskAppend
import Verif.Lemmas.TaskProgress

/-!
Properties C62 and C63: operations on data sets that run at the same time, and ones that are broken off.
-/
namespace Verif

open Prog hiding pure bind

section
variable {H : Hash} {utf8 : List Byte → Bool} {clog : Nat → Nat} {lg : Rat → Int} {fuel readFuel : Nat}
  {levels : List Nat} {cs ss : Nat}

/-- C62: no execution goes on for ever, and as long as an operation has not ended, the execution can go on:
there are no deadlocks. This holds with failures as well. -/
theorem C62_ends {α : Type} (faults : Bool) :
    (¬ ∃ f : Nat → List (Task α) × Saved, ∀ i, Tasks.Step H utf8 readFuel faults (f i) (f (i + 1))) ∧
    ∀ (ts : List (Task α)) (log : Saved), (∀ s, ¬ Tasks.Step H utf8 readFuel faults (ts, log) s) →
      ∀ t ∈ ts, ∃ r, t = .done r := by
  constructor
  · rintro ⟨f, hf⟩
    have key : ∀ ts, Acc (Tasks.Next H utf8 readFuel faults) ts → ∀ i, (f i).1 ≠ ts := by
      intro ts h
      induction h with
      | intro ts _ ih =>
        rintro i rfl
        refine ih _ ?_ (i + 1) rfl
        have := hf i
        generalize f (i + 1) = b at this
        generalize f i = a at this
        cases this with
        | task h1 h2 => exact ⟨_, _, _, h1, ⟨_, _, h2⟩, rfl⟩
    exact key _ (Tasks.acc H utf8 readFuel faults _) 0 rfl
  · intro ts log h t ht
    rcases t.progress (H := H) (utf8 := utf8) (readFuel := readFuel) (faults := faults) log with h1 | h1
    · exact h1
    · obtain ⟨i, hi⟩ := List.mem_iff_getElem?.1 ht
      obtain ⟨log', t', h1⟩ := h1
      exact (h _ (.task hi h1)).elim

theorem HistoryShape.concurrent {T : VarTheory} {Next : Nat → NdArray → Nat → Prop} {d : Dataset}
    {name : List Byte} {round : Option Nat} {ops : List Op} {fill : Fill} {data : NdArray} {n : Nat}
    (h : HistoryShape utf8 readFuel d name round T.ss T.cs levels T.enc
      (ops ++ [.append fill name data n d.rows d.cols]))
    (hr : d.rows = T.rows) (hc : d.cols = T.cols)
    (ha : Appends False H utf8 clog lg fuel readFuel T levels round Next)
    (hs : Settled H utf8 readFuel T round Next) (hf : 32 ≤ fuel)
    (hfo : Follows Next 0 (arrays name (ops ++ [.append fill name data n d.rows d.cols]))) (log : Saved)
    {s : Dataset × Saved}
    (hs : s = runs H utf8 clog lg fuel (.addVariable name round T.ss T.cs levels T.enc :: ops) (d, log))
    (hnc : s.2.NoCollision H) :
    HistInv H utf8 T levels round name s (total (arrays name ops)) ∧
    (s.1.appendT H clog lg fuel name data n d.rows d.cols).Ends H utf8 readFuel
      (Alone (s.1.append H utf8 clog lg fuel fill name data n d.rows d.cols) s.2) s.2 := by
  subst hs
  have hone : arrays name [Op.append fill name data n d.rows d.cols] = [(data, n)] := by simp [arrays]
  rw [arrays_append, hone, Follows.split] at hfo
  have hcount := h.count
  rw [adds_append] at hcount
  have hpre : HistoryShape utf8 readFuel d name round T.ss T.cs levels T.enc ops :=
    ⟨h.dataset, h.new, h.fits, by omega, fun op ho => h.each op (List.mem_append_left _ ho)⟩
  have h2 := hpre.inv hr hc ha hfo.1 log hnc
  have hon := (h.each (.append fill name data n d.rows d.cols) (by simp)).2 rfl
  have := Dataset.appendT_ends ha hs hf (d := (runs H utf8 clog lg fuel
    (.addVariable name round T.ss T.cs levels T.enc :: ops) (d, log)).1) hon.1 h2 (by simpa using hfo.2.1)
  rw [← hr, ← hc] at this
  exact ⟨h2, this⟩

theorem concatFlt_append_left (as bs : List (NdArray × Nat)) (t r c : Nat) (h : t < total as) :
    concatFlt (as ++ bs) t r c = concatFlt as t r c := by
  induction as generalizing t with
  | nil => simp [total] at h
  | cons x as ih =>
    rw [total_cons] at h
    obtain ⟨a, n⟩ := x
    simp only [List.cons_append, concatFlt]
    split
    · rfl
    · exact ih _ (by change t < n + _ at h; omega)

/-- How an append ended that ran at the same time as other operations. -/
theorem Task.Ends.ended {α : Type} {m : Prog α} {log : Saved} {ts ts' : List (Task α)} {L₀ L : Saved}
    {i : Nat} {t : Task α} {faults : Bool} (he : t.Ends H utf8 readFuel (Alone m log) log)
    (hsub : log ⊆ L₀) (hi : ts[i]? = some t)
    (hsteps : Tasks.Steps H utf8 readFuel faults (ts, L₀) (ts', L)) (hnc : L.NoCollision H)
    {r : Except Fail α} (hr : ts'[i]? = some (.done r)) :
    (∃ a own, m log = (.ok a, own) ∧ own ⊆ L ∧ r = .ok a) ∨ faults = true ∧ ∃ f, r = .error f := by
  obtain ⟨t', h1, h2⟩ := hsteps.ends (Alone.lasting m log) hi (he.mono (Alone.lasting m log) hsub) hnc
  change ts'[i]? = some t' at h1
  rw [hr] at h1
  cases h1
  rcases h2 with h2 | ⟨h2, f, e⟩
  · obtain ⟨a, rfl, own, h3, h4⟩ := h2 hnc
    exact .inl ⟨a, own, h3, h4, rfl⟩
  · cases e
    exact .inr ⟨h2, f, rfl⟩

theorem runs_snoc_append {d d' : Dataset} {log own : Saved} {op : Op} {ops : List Op} {fill : Fill}
    {name : List Byte} {data : NdArray} {n rows cols : Nat} {s : Dataset × Saved}
    (hs : s = runs H utf8 clog lg fuel (op :: ops) (d, log))
    (h : s.1.append H utf8 clog lg fuel fill name data n rows cols s.2 = (.ok d', own)) :
    runs H utf8 clog lg fuel (op :: (ops ++ [.append fill name data n rows cols])) (d, log) = (d', own) := by
  rw [← List.cons_append, runs_append, ← hs]
  change Op.step H utf8 clog lg fuel (.append fill name data n rows cols) s = _
  unfold Op.step Op.prog
  simp only
  rw [h]

/-- C62 for integers: an append to a version of a data set, while any other operations run on the same
store in any order, succeeds if it ends, with the version that it gives when it runs alone. In the store as
it is then, that version reads as the arrays of the version it was made from and then the new one, whatever
the others append.

Partial: `History`. -/
theorem C62_int_partial (d : Dataset) (name : List Byte) (round : Option Nat) (enc : MMEncoding)
    (ops : List Op) (log : Saved) (fill : Fill) (data : NdArray) (n : Nat)
    (h : History utf8 clog readFuel d name round ss cs levels enc
      (ops ++ [.append fill name data n d.rows d.cols]))
    (hf : 32 ≤ fuel) (hrf : levels.length + 34 ≤ readFuel) (s : Dataset × Saved)
    (hs : s = runs H utf8 clog lg fuel (.addVariable name round ss cs levels enc :: ops) (d, log))
    (ts ts' : List (Task Dataset)) (L₀ L : Saved) (hsub : s.2 ⊆ L₀) (i : Nat)
    (hi : ts[i]? = some (s.1.appendT H clog lg fuel name data n d.rows d.cols))
    (hsteps : Tasks.Steps H utf8 readFuel false (ts, L₀) (ts', L)) (hnc : L.NoCollision H)
    (r : Except Fail Dataset) (hr : ts'[i]? = some (.done r)) :
    ∃ d', (s.1.append H utf8 clog lg fuel fill name data n d.rows d.cols s.2).1 = .ok d' ∧ r = .ok d' ∧
      ∃ v m, d'.findVariable name = some v ∧ (L.load H).getStruct utf8 v.cid = .ok m ∧ m.encoding = enc ∧
        Reads (fun _ v => v) utf8 (L.load H) readFuel m (total (arrays name ops) + n) d.rows d.cols
          (concatInt (arrays name ops ++ [(data, n)])) := by
  have hL : s.2 ⊆ L := List.Subset.trans hsub hsteps.mono
  obtain ⟨-, he⟩ := HistoryShape.concurrent (T := h.int.theory H enc) h.toHistoryShape rfl rfl
    (h.int.appends hf (by omega)) (h.int.settled (by omega)) hf h.follows log hs (NoCollision.mono hL hnc)
  rcases he.ended hsub hi hsteps hnc hr with ⟨d', own, h1, h2, h3⟩ | ⟨h1, -⟩
  · refine ⟨d', by rw [h1], h3, ?_⟩
    have hrun := runs_snoc_append hs h1
    have hinv := h.inv (H := H) (lg := lg) hf (by omega) log (by rw [hrun]; exact NoCollision.mono h2 hnc)
    rw [hrun] at hinv
    obtain ⟨v, m, g1, g2, g3, g4, -⟩ := hinv.arrays h.int.toIntBase L h2 hnc hrf
    have hone : arrays name [Op.append fill name data n d.rows d.cols] = [(data, n)] := by simp [arrays]
    rw [arrays_append, hone, total_append, show total [(data, n)] = n by simp [total]] at g4
    exact ⟨v, m, g1, g2, g3, g4⟩
  · cases h1

/-- C62 for floats, rounded or not. Partial: `FltHistory`. -/
theorem C62_float_partial {p : Prec} {B : Nat} (d : Dataset) (name : List Byte) (round : Option Nat)
    (ops : List Op) (log : Saved) (fill : Fill) (data : NdArray) (n : Nat)
    (h : FltHistory utf8 clog lg readFuel d name round ss cs levels p B
      (ops ++ [.append fill name data n d.rows d.cols]))
    (hf : 32 ≤ fuel) (hrf : levels.length + 34 ≤ readFuel) (s : Dataset × Saved)
    (hs : s = runs H utf8 clog lg fuel (.addVariable name round ss cs levels p.kind.encoding :: ops) (d, log))
    (ts ts' : List (Task Dataset)) (L₀ L : Saved) (hsub : s.2 ⊆ L₀) (i : Nat)
    (hi : ts[i]? = some (s.1.appendT H clog lg fuel name data n d.rows d.cols))
    (hsteps : Tasks.Steps H utf8 readFuel false (ts, L₀) (ts', L)) (hnc : L.NoCollision H)
    (r : Except Fail Dataset) (hr : ts'[i]? = some (.done r)) :
    ∃ d', (s.1.append H utf8 clog lg fuel fill name data n d.rows d.cols s.2).1 = .ok d' ∧ r = .ok d' ∧
      ∃ v m, d'.findVariable name = some v ∧ v.data p.kind utf8 (L.load H) = .ok m ∧
        ArrayReads p.kind utf8 (L.load H) readFuel m (total (arrays name ops) + n) d.rows d.cols
          (fun t r c => (concatFlt (arrays name ops ++ [(data, n)]) t r c).rounded B) := by
  have hL : s.2 ⊆ L := List.Subset.trans hsub hsteps.mono
  obtain ⟨-, he⟩ := HistoryShape.concurrent (T := h.flt.theory H p.kind.encoding) h.toHistoryShape rfl rfl
    (h.flt.appends hf (by omega)) (h.flt.settled (by omega)) hf h.follows log hs (NoCollision.mono hL hnc)
  rcases he.ended hsub hi hsteps hnc hr with ⟨d', own, h1, h2, h3⟩ | ⟨h1, -⟩
  · refine ⟨d', by rw [h1], h3, ?_⟩
    have hrun := runs_snoc_append hs h1
    have hinv := h.inv (H := H) (lg := lg) hf (by omega) log (by rw [hrun]; exact NoCollision.mono h2 hnc)
    rw [hrun] at hinv
    obtain ⟨v, m, g1, g2, g3, g4⟩ := hinv.floats h.flt.toFltBase L h2 hnc hrf
    have hone : arrays name [Op.append fill name data n d.rows d.cols] = [(data, n)] := by simp [arrays]
    rw [arrays_append, hone, total_append, show total [(data, n)] = n by simp [total]] at g4
    refine ⟨v, m, g1, Variable.data_ok g2 g3, Reads.array ?_⟩
    cases p <;> exact g4
  · cases h1

/-- C63 for integers: when any loads and saves of any of the operations may fail, an append that ends has
either failed or given the version that it gives when it runs alone. At every moment, the version it
started from reads as before. And starting the append again, at that moment and without failures, gives
that same version, which can be read then.

Partial: `History`; failing loads while the tail of the variable is read back are left out, see
`C61_append_wrong`. -/
theorem C63_int_partial (d : Dataset) (name : List Byte) (round : Option Nat) (enc : MMEncoding)
    (ops : List Op) (log : Saved) (fill : Fill) (data : NdArray) (n : Nat)
    (h : History utf8 clog readFuel d name round ss cs levels enc
      (ops ++ [.append fill name data n d.rows d.cols]))
    (hf : 32 ≤ fuel) (hrf : levels.length + 34 ≤ readFuel) (s : Dataset × Saved)
    (hs : s = runs H utf8 clog lg fuel (.addVariable name round ss cs levels enc :: ops) (d, log))
    (ts ts' : List (Task Dataset)) (L₀ L : Saved) (hsub : s.2 ⊆ L₀) (i : Nat)
    (hi : ts[i]? = some (s.1.appendT H clog lg fuel name data n d.rows d.cols))
    (hsteps : Tasks.Steps H utf8 readFuel true (ts, L₀) (ts', L)) (again : Fill)
    (hagain : again.Valid utf8 readFuel)
    (hnc : (s.1.append H utf8 clog lg fuel again name data n d.rows d.cols L).2.NoCollision H) :
    (∃ v m, s.1.findVariable name = some v ∧ (L.load H).getStruct utf8 v.cid = .ok m ∧ m.encoding = enc ∧
        Reads (fun _ v => v) utf8 (L.load H) readFuel m (total (arrays name ops)) d.rows d.cols
          (concatInt (arrays name ops))) ∧
    ∃ d', (∀ r, ts'[i]? = some (.done r) → r = .ok d' ∨ ∃ f, r = .error f) ∧
      ∃ L', s.1.append H utf8 clog lg fuel again name data n d.rows d.cols L = (.ok d', L') ∧
      ∃ v m, d'.findVariable name = some v ∧ (L'.load H).getStruct utf8 v.cid = .ok m ∧ m.encoding = enc ∧
        Reads (fun _ v => v) utf8 (L'.load H) readFuel m (total (arrays name ops) + n) d.rows d.cols
          (concatInt (arrays name ops ++ [(data, n)])) := by
  have hL : s.2 ⊆ L := List.Subset.trans hsub hsteps.mono
  have hncL : L.NoCollision H := NoCollision.mono (Dataset.append_mono again _ name data n d.rows d.cols _) hnc
  have hone : arrays name [Op.append fill name data n d.rows d.cols] = [(data, n)] := by simp [arrays]
  obtain ⟨hinv0, he⟩ := HistoryShape.concurrent (T := h.int.theory H enc) h.toHistoryShape rfl rfl
    (h.int.appends hf (by omega)) (h.int.settled (by omega)) hf h.follows log hs (NoCollision.mono hL hncL)
  constructor
  · obtain ⟨v, m, g1, g2, g3, g4, -⟩ := hinv0.arrays h.int.toIntBase L hL hncL hrf
    refine ⟨v, m, g1, g2, g3, g4.congr fun t r c ht _ _ => ?_⟩
    rw [arrays_append, concatInt_append_left _ _ _ _ _ ht]
  · have hlast := Alone.lasting (s.1.append H utf8 clog lg fuel fill name data n d.rows d.cols) s.2
    have hrun := Task.Ends.run hagain (fun m st n rows cols => ⟨_, _, m.has_fillWindow false ..⟩)
      (he.mono hlast hL) (by rw [Dataset.append_run]; exact hnc)
    rw [Dataset.append_run] at hrun
    obtain ⟨d', L', e, own, h1, h2⟩ := hrun
    rw [e] at hnc
    refine ⟨d', fun r hr => ?_, L', e, ?_⟩
    · rcases he.ended hsub hi hsteps hncL hr with ⟨d'', own', h3, -, rfl⟩ | ⟨-, h3⟩
      · rw [h1] at h3
        cases h3
        exact .inl rfl
      · exact .inr h3
    · have hrun := runs_snoc_append hs h1
      have hinv := h.inv (H := H) (lg := lg) hf (by omega) log (by rw [hrun]; exact NoCollision.mono h2 hnc)
      rw [hrun] at hinv
      obtain ⟨v, m, g1, g2, g3, g4, -⟩ := hinv.arrays h.int.toIntBase L' h2 hnc hrf
      rw [arrays_append, hone, total_append, show total [(data, n)] = n by simp [total]] at g4
      exact ⟨v, m, g1, g2, g3, g4⟩

/-- C63 for floats, rounded or not. Partial: `FltHistory`, and as for integers. -/
theorem C63_float_partial {p : Prec} {B : Nat} (d : Dataset) (name : List Byte) (round : Option Nat)
    (ops : List Op) (log : Saved) (fill : Fill) (data : NdArray) (n : Nat)
    (h : FltHistory utf8 clog lg readFuel d name round ss cs levels p B
      (ops ++ [.append fill name data n d.rows d.cols]))
    (hf : 32 ≤ fuel) (hrf : levels.length + 34 ≤ readFuel) (s : Dataset × Saved)
    (hs : s = runs H utf8 clog lg fuel (.addVariable name round ss cs levels p.kind.encoding :: ops) (d, log))
    (ts ts' : List (Task Dataset)) (L₀ L : Saved) (hsub : s.2 ⊆ L₀) (i : Nat)
    (hi : ts[i]? = some (s.1.appendT H clog lg fuel name data n d.rows d.cols))
    (hsteps : Tasks.Steps H utf8 readFuel true (ts, L₀) (ts', L)) (again : Fill)
    (hagain : again.Valid utf8 readFuel)
    (hnc : (s.1.append H utf8 clog lg fuel again name data n d.rows d.cols L).2.NoCollision H) :
    (∃ v m, s.1.findVariable name = some v ∧ v.data p.kind utf8 (L.load H) = .ok m ∧
        ArrayReads p.kind utf8 (L.load H) readFuel m (total (arrays name ops)) d.rows d.cols
          (fun t r c => (concatFlt (arrays name ops) t r c).rounded B)) ∧
    ∃ d', (∀ r, ts'[i]? = some (.done r) → r = .ok d' ∨ ∃ f, r = .error f) ∧
      ∃ L', s.1.append H utf8 clog lg fuel again name data n d.rows d.cols L = (.ok d', L') ∧
      ∃ v m, d'.findVariable name = some v ∧ v.data p.kind utf8 (L'.load H) = .ok m ∧
        ArrayReads p.kind utf8 (L'.load H) readFuel m (total (arrays name ops) + n) d.rows d.cols
          (fun t r c => (concatFlt (arrays name ops ++ [(data, n)]) t r c).rounded B) := by
  have hL : s.2 ⊆ L := List.Subset.trans hsub hsteps.mono
  have hncL : L.NoCollision H := NoCollision.mono (Dataset.append_mono again _ name data n d.rows d.cols _) hnc
  have hone : arrays name [Op.append fill name data n d.rows d.cols] = [(data, n)] := by simp [arrays]
  obtain ⟨hinv0, he⟩ := HistoryShape.concurrent (T := h.flt.theory H p.kind.encoding) h.toHistoryShape rfl rfl
    (h.flt.appends hf (by omega)) (h.flt.settled (by omega)) hf h.follows log hs (NoCollision.mono hL hncL)
  constructor
  · obtain ⟨v, m, g1, g2, g3, g4⟩ := hinv0.floats h.flt.toFltBase L hL hncL hrf
    have g5 := g4.congr (data' := fun t r c => (concatFlt (arrays name ops) t r c).rounded B)
      fun t r c ht _ _ => by rw [arrays_append, concatFlt_append_left _ _ _ _ _ ht]
    refine ⟨v, m, g1, Variable.data_ok g2 g3, Reads.array ?_⟩
    cases p <;> exact g5
  · have hlast := Alone.lasting (s.1.append H utf8 clog lg fuel fill name data n d.rows d.cols) s.2
    have hrun := Task.Ends.run hagain (fun m st n rows cols => ⟨_, _, m.has_fillWindow false ..⟩)
      (he.mono hlast hL) (by rw [Dataset.append_run]; exact hnc)
    rw [Dataset.append_run] at hrun
    obtain ⟨d', L', e, own, h1, h2⟩ := hrun
    rw [e] at hnc
    refine ⟨d', fun r hr => ?_, L', e, ?_⟩
    · rcases he.ended hsub hi hsteps hncL hr with ⟨d'', own', h3, -, rfl⟩ | ⟨-, h3⟩
      · rw [h1] at h3
        cases h3
        exact .inl rfl
      · exact .inr h3
    · have hrun := runs_snoc_append hs h1
      have hinv := h.inv (H := H) (lg := lg) hf (by omega) log (by rw [hrun]; exact NoCollision.mono h2 hnc)
      rw [hrun] at hinv
      obtain ⟨v, m, g1, g2, g3, g4⟩ := hinv.floats h.flt.toFltBase L' h2 hnc hrf
      rw [arrays_append, hone, total_append, show total [(data, n)] = n by simp [total]] at g4
      refine ⟨v, m, g1, Variable.data_ok g2 g3, Reads.array ?_⟩
      cases p <;> exact g4

end

/-! ### Examples -/

section
variable (H : Hash) (utf8 : List Byte → Bool) (readFuel : Nat)

/-- One way to take a step. -/
def Task.advance {α : Type} (log : Saved) : Task α → Task α × Saved
  | .done r => (.done r, log)
  | .load cid k =>
    match (log.load H).retrieve utf8 cid with
    | .ok x => (k x, log)
    | .error f => (.done (.error f), log)
  | .save b k => (k (H.cidOf b), b :: log)
  | .saveAll [] t => (t, log)
  | .saveAll (b :: bs) t => (.saveAll bs t, b :: log)
  | .fill m k => (.filling log m k, log)
  | .filling _ m k =>
    match m.shape with
    | none => (.done (.error .panic), log)
    | some (n, rows, cols) =>
      match m.fillWindowSeq utf8 (log.load H) false readFuel m.fractionalBits (Cube.new 0 n 0 rows 0 cols) with
      | (calls, none) => (k calls, log)
      | (_, some f) => (.done (.error f), log)

/-- The operations take steps in the order given, as long as they can. -/
def Tasks.play {α : Type} : List Nat → List (Task α) × Saved → List (Task α) × Saved
  | [], s => s
  | i :: is, s =>
    match s.1[i]? with
    | none => Tasks.play is s
    | some t =>
      let x := t.advance H utf8 readFuel s.2
      Tasks.play is (s.1.set i x.1, x.2)

end

section
variable {H : Hash} {utf8 : List Byte → Bool} {readFuel : Nat} {α : Type}

theorem Task.advance_step (faults : Bool) (log : Saved) (t : Task α) :
    (∃ r, t = .done r) ∨ Task.Step H utf8 readFuel faults log t (t.advance H utf8 readFuel log).2
      (t.advance H utf8 readFuel log).1 := by
  cases t with
  | done r => exact .inl ⟨r, rfl⟩
  | load cid k =>
    refine .inr ?_
    unfold Task.advance
    simp only
    cases e : (log.load H).retrieve utf8 cid with
    | ok x =>
      simp only
      exact .load e
    | error f =>
      simp only
      exact .loadFails e
  | save b k => exact .inr .save
  | saveAll bs t =>
    cases bs with
    | nil => exact .inr .saved
    | cons b bs => exact .inr (.saveOne (bs := []))
  | fill m k => exact .inr .fillBegins
  | filling since m k =>
    refine .inr ?_
    unfold Task.advance
    simp only
    cases e : m.shape with
    | none =>
      simp only
      exact .fillPanics e
    | some x =>
      obtain ⟨n, rows, cols⟩ := x
      have hw := m.has_fillWindow (utf8 := utf8) (st := log.load H) false readFuel m.fractionalBits
        (Cube.new 0 n 0 rows 0 cols)
      unfold Out.Has at hw
      simp only
      rcases h : m.fillWindowSeq utf8 (log.load H) false readFuel m.fractionalBits
        (Cube.new 0 n 0 rows 0 cols) with ⟨calls, _ | f⟩
      · rw [h] at hw
        simp only
        exact .fill e (.now since log) hw
      · rw [h] at hw
        simp only
        exact .fillFails e (.now since log) hw

theorem Tasks.Steps.trans {faults : Bool} {s s' s'' : List (Task α) × Saved}
    (h : Tasks.Steps H utf8 readFuel faults s s') (h' : Tasks.Steps H utf8 readFuel faults s' s'') :
    Tasks.Steps H utf8 readFuel faults s s'' := by
  induction h' with
  | refl => exact h
  | tail _ h2 ih => exact .tail ih h2

theorem Tasks.play_steps (faults : Bool) : ∀ (is : List Nat) (s : List (Task α) × Saved),
    Tasks.Steps H utf8 readFuel faults s (Tasks.play H utf8 readFuel is s)
  | [], s => .refl s
  | i :: is, s => by
    unfold Tasks.play
    cases e : s.1[i]? with
    | none => exact Tasks.play_steps faults is s
    | some t =>
      refine .trans ?_ (Tasks.play_steps faults is _)
      rcases t.advance_step (H := H) (utf8 := utf8) (readFuel := readFuel) faults s.2 with ⟨r, rfl⟩ | h
      · have : s.1.set i (.done r) = s.1 := by
          obtain ⟨hlt, he⟩ := List.getElem?_eq_some_iff.1 e
          rw [← he, List.set_getElem_self]
        change Tasks.Steps H utf8 readFuel faults s (s.1.set i (.done r), s.2)
        rw [this]
        exact .refl s
      · exact .tail (.refl _) (.task e h)

end

/-- The version before the last append of `exampleOps`. -/
def exampleBase : Dataset × Saved :=
  runs exampleHash (fun _ => true) exampleClog (fun _ => 0) 32
    (.addVariable [7] none 2 2 [1, 1] .i64 :: exampleOps.take 4) (exampleDataset, [])

/-- Two appends to it. -/
def exampleTasks : List (Task Dataset) :=
  [exampleBase.1.appendT exampleHash exampleClog (fun _ => 0) 32 [7] (.i64 fun t => exampleGrid (2 + t)) 4 4 4,
    exampleBase.1.appendT exampleHash exampleClog (fun _ => 0) 32 [7] (.i64 exampleGrid) 3 4 4]

/-- They take turns. -/
def exampleTurns : List (Task Dataset) × Saved :=
  Tasks.play exampleHash (fun _ => true) 40 ((List.replicate 60 [0, 1]).flatten) (exampleTasks, exampleBase.2)

/-- The identifier of the variable after an operation. -/
def Task.variableCid (name : List Byte) : Task Dataset → Option Cid
  | .done (.ok d) => (d.findVariable name).map (·.cid)
  | _ => none

/-- C62 in numbers: both have ended, with the versions they give one by one. -/
example : exampleTurns.1.map (Task.variableCid [7]) =
    [.append exampleFill [7] (.i64 fun t => exampleGrid (2 + t)) 4 4 4,
      .append exampleFill [7] (.i64 exampleGrid) 3 4 4].map fun op =>
        (((op : Op).step exampleHash (fun _ => true) exampleClog (fun _ => 0) 32 exampleBase).1.findVariable
          [7]).map (·.cid) := by
  decide +kernel

/-- The two versions are different. -/
example : (exampleTurns.1.map (Task.variableCid [7])).Nodup ∧
    ∀ c ∈ exampleTurns.1.map (Task.variableCid [7]), c ≠ none := by
  decide +kernel

theorem exampleTurns_noCollision : exampleTurns.2.NoCollision exampleHash := by
  unfold Saved.NoCollision
  decide +kernel

theorem exampleTask_done : ∃ r, exampleTurns.1[0]? = some (.done r) := by
  have : (match exampleTurns.1[0]? with | some (.done _) => true | _ => false) = true := by decide +kernel
  split at this
  · exact ⟨_, by assumption⟩
  · cases this

/-- The assumptions of `C62_int_partial`. -/
example : ∃ d', exampleTurns.1[0]? = some (.done (.ok d')) ∧ ∃ v m, d'.findVariable [7] = some v ∧
    (exampleTurns.2.load exampleHash).getStruct (fun _ => true) v.cid = .ok m ∧
    Reads (fun _ v => v) (fun _ => true) (exampleTurns.2.load exampleHash) 40 m 6 4 4
      (concatInt [(.i64 exampleGrid, 2), (.i64 fun t => exampleGrid (2 + t), 4)]) := by
  obtain ⟨r, hr⟩ := exampleTask_done
  obtain ⟨d', -, rfl, v, m, h1, h2, -, h3⟩ := C62_int_partial (lg := fun _ => 0) exampleDataset [7] none .i64
    (exampleOps.take 4) [] exampleFill (.i64 fun t => exampleGrid (2 + t)) 4 exampleHistory (by decide)
    (by decide) exampleBase rfl exampleTasks _ exampleBase.2 _ (List.Subset.refl _) 0 rfl
    (Tasks.play_steps false _ _) exampleTurns_noCollision r hr
  exact ⟨d', hr, v, m, h1, h2, h3⟩

/-- A version whose last chunk is not full, so that appending reads it back. -/
def exampleTail : Dataset × Saved :=
  runs exampleHash (fun _ => true) exampleClog (fun _ => 0) 32
    (.addVariable [8] (some 3) 2 2 [1, 1] .i64 :: exampleOther.take 2) (exampleDataset, [])

/-- C62 in numbers when both read back the same tail. -/
example : (Tasks.play exampleHash (fun _ => true) 40 ((List.replicate 80 [0, 1]).flatten)
      ([exampleTail.1.appendT exampleHash exampleClog (fun _ => 0) 32 [8] (.i64 fun t => exampleGrid (1 + t)) 5
          4 4,
        exampleTail.1.appendT exampleHash exampleClog (fun _ => 0) 32 [8] (.i64 exampleGrid) 2 4 4],
        exampleTail.2)).1.map (Task.variableCid [8]) =
    [.append exampleFill [8] (.i64 fun t => exampleGrid (1 + t)) 5 4 4,
      .append exampleFill [8] (.i64 exampleGrid) 2 4 4].map fun op =>
        (((op : Op).step exampleHash (fun _ => true) exampleClog (fun _ => 0) 32 exampleTail).1.findVariable
          [8]).map (·.cid) := by
  decide +kernel

/-- The first append is broken off after its first save, the other goes on. -/
example : ∃ ts L, Tasks.Steps exampleHash (fun _ => true) 40 true (exampleTasks, exampleBase.2) (ts, L) ∧
    ts[0]? = some (.done (.error (.err .io))) ∧ L.NoCollision exampleHash ∧ exampleBase.2.length < L.length := by
  have h0 := Tasks.play_steps (H := exampleHash) (utf8 := fun _ => true) (readFuel := 40) true
    ((List.replicate 4 [0, 1]).flatten) (exampleTasks, exampleBase.2)
  generalize hs : Tasks.play exampleHash (fun _ => true) 40 ((List.replicate 4 [0, 1]).flatten)
    (exampleTasks, exampleBase.2) = s at h0
  have hnc : s.2.NoCollision exampleHash := by
    rw [← hs]
    unfold Saved.NoCollision
    decide +kernel
  have hlen : exampleBase.2.length < s.2.length := by
    rw [← hs]
    decide +kernel
  have hsave : (match s.1[0]? with | some (.saveAll _ _) => true | _ => false) = true := by
    rw [← hs]
    decide +kernel
  split at hsave
  · rename_i bs t e
    exact ⟨_, _, .tail h0 (.task e (.saveAllFault (.err .io) rfl)), by
      have := (List.getElem?_eq_some_iff.1 e).1
      simp [this], hnc, hlen⟩
  · cases hsave

end Verif
