import Verif.Props.CidText
import Verif.Props.Types
import Verif.Props.Py
import Verif.Props.Lossless
import Verif.Props.DatasetFloat
import Verif.Props.Axes
import Verif.Props.Frozen

/-!
Property C101: what was written through Python is read through Python by whoever has the string that `commit` gave.
-/
namespace Verif

open Prog hiding pure bind

/-- What someone sees who has only the string `text` and the store: a data set that says this string and has the
coordinates, and under `name` a variable of the type `dtype`, whose items are those of the array `data` of NumPy. -/
def Spec.Seen {α : Type} (utf8 : List Byte → Bool) (readFuel : Nat) (st : Store) (text : List Byte)
    (coords : Coordinate × Coordinate × Coordinate) (name : List Byte) (dtype : Dtype) (kind : Kind α)
    (wrap : MMStruct3 → Py.Data) (n rows cols : Nat) (data : Nat → Nat → Nat → α) : Prop :=
  ∀ other : List Byte → Option (List Byte), ∃ d v m, Py.getDataset other utf8 st text = .ok d ∧ Py.cid d = some text ∧
    (d.coord0, d.coord1, d.coord2) = coords ∧ Py.getattr d name = .ok (.variable v) ∧ Py.dtype v = some dtype ∧
    Py.data utf8 st v = .ok (wrap m) ∧ m.shape = some (n, rows, cols) ∧
    ∀ indices, PlainIndices n rows cols indices → ∀ res, kind.getitem utf8 st readFuel m indices res ↔
      ∃ x, Spec.numpy n rows cols data indices = some x ∧ res = .ok x

section
variable {H : Hash} {utf8 : List Byte → Bool} {clog : Nat → Nat} {lg : Rat → Int} {fuel readFuel : Nat}

theorem pyDeclarations_append : ∀ (ops ops' : List PyOp),
    Spec.pyDeclarations (ops ++ ops') = Spec.pyDeclarations ops ++ Spec.pyDeclarations ops' := by
  intro ops ops'
  induction ops with
  | nil => rfl
  | cons op ops ih =>
    cases op with
    | addVariable name spanSize chunkSize k2Levels round bits dtype =>
      simp only [List.cons_append, Spec.pyDeclarations]
      split
      · exact ih
      · rw [ih, List.cons_append]
    | append fill name data n rows cols => exact ih
    | commit => exact ih
    | reload => exact ih

variable (utf8) in
/-- A session in Python: a data set is made, things are done with it, a variable of a name that is new is added, more is
done, and `commit` gives a string. -/
structure PySession (H : Hash) (clog : Nat → Nat) (lg : Rat → Int) (fuel : Nat) (coord0 coord1 coord2 : Coordinate)
    (rows cols : Nat) (log : Saved) (before : List PyOp) (name : List Byte) (ss cs : Nat) (levels : List Nat)
    (round : Bool) (bits : Nat) (dtype : Dtype) (ops : List PyOp) (text : List Byte) (log' : Saved) : Prop where
  dataset : (Dataset.new coord0 coord1 coord2 rows cols).WF utf8
  fits : ∀ p ∈ Spec.pyDeclarations (before ++ .addVariable name ss cs levels round bits dtype :: ops), Spec.pyFits utf8 p
  count : (Spec.pyDeclarations (before ++ .addVariable name ss cs levels round bits dtype :: ops)).length < 256
  new : (Spec.pyDeclarations before).find? (fun p => p.name = name) = none
  free : name ∉ Spec.classNames.map Py.ascii
  coordinate : (Dataset.new coord0 coord1 coord2 rows cols).getCoordinate name = none
  commit : ∀ s, s = pyRuns H utf8 clog lg fuel (before ++ .addVariable name ss cs levels round bits dtype :: ops)
    (Dataset.new coord0 coord1 coord2 rows cols, log) → Py.commit H s.1 s.2 = (.ok text, log')
  noCollision : log'.NoCollision H

variable {coord0 coord1 coord2 : Coordinate} {rows cols : Nat} {log : Saved} {before : List PyOp} {name : List Byte}
  {ss cs : Nat} {levels : List Nat} {round : Bool} {bits : Nat} {dtype : Dtype} {ops : List PyOp} {text : List Byte}
  {log' : Saved}

theorem pyRuns_append (ops ops' : List PyOp) (s : Dataset × Saved) :
    pyRuns H utf8 clog lg fuel (ops ++ ops') s = pyRuns H utf8 clog lg fuel ops' (pyRuns H utf8 clog lg fuel ops s) := by
  induction ops generalizing s with
  | nil => rfl
  | cons op ops ih => exact ih _

/-- Whoever loads the string has the state after the session and one `reload` more. -/
theorem PySession.load (h : PySession utf8 H clog lg fuel coord0 coord1 coord2 rows cols log before name ss cs levels
      round bits dtype ops text log') (hdt : dtype ≠ .other) (other : List Byte → Option (List Byte)) :
    ∃ d v m, Py.getDataset other utf8 (log'.load H) text = .ok d ∧ Py.cid d = some text ∧
      (d.coord0, d.coord1, d.coord2) = (coord0, coord1, coord2) ∧
      (d, log') = pyRuns H utf8 clog lg fuel (.addVariable name ss cs levels round bits dtype :: (ops ++ [.reload]))
        (pyRuns H utf8 clog lg fuel before (Dataset.new coord0 coord1 coord2 rows cols, log)) ∧
      d.findVariable name = some v ∧ Py.getattr d name = .ok (.variable v) ∧ Py.dtype v = some dtype ∧
      (log'.load H).getStruct utf8 v.cid = .ok m ∧
      (dtype = .int32 → Py.data utf8 (log'.load H) v = .ok (.i32 m)) ∧
      (dtype = .int64 → Py.data utf8 (log'.load H) v = .ok (.i64 m)) ∧
      (dtype = .float32 → Py.data utf8 (log'.load H) v = .ok (.f32 m)) ∧
      (dtype = .float64 → Py.data utf8 (log'.load H) v = .ok (.f64 m)) := by
  obtain ⟨hd, hfits, hlen, hnew, hattr, hcoord, hcommit, hnc⟩ := h
  generalize hs : pyRuns H utf8 clog lg fuel (before ++ .addVariable name ss cs levels round bits dtype :: ops)
    (Dataset.new coord0 coord1 coord2 rows cols, log) = s at hcommit
  have hc := hcommit s rfl
  have hlog : log' = (Item.dataset s.1).bytes :: s.2 := by
    have : (Py.commit H s.1 s.2).2 = (Item.dataset s.1).bytes :: s.2 := rfl
    rw [← this, hc]
  have hnc0 : s.2.NoCollision H := NoCollision.mono (by rw [hlog]; exact List.subset_cons_self ..) hnc
  have hs' := hs
  rw [pyRuns_eq] at hs'
  have hfo := pyFits_op _ hfits
  have hadds : adds ((before ++ .addVariable name ss cs levels round bits dtype :: ops).filterMap PyOp.op) < 256 := by
    rw [adds_eq]; exact hlen
  have hwf : s.1.WF utf8 := by
    have := (runs_formed (H := H) (clog := clog) (lg := lg) (fuel := fuel) _
      (Dataset.new coord0 coord1 coord2 rows cols, log) ⟨hd, fun c hc => nomatch hc⟩ hfo
      (by change 0 + adds _ < 256; omega) (fun v hv => nomatch hv) (by rw [hs']; exact hnc0)).2
    rw [hs'] at this
    exact this.wf
  obtain ⟨d, h1, h2, -, h3⟩ := C99_commit other s.1 hwf s.2 log' text hc hnc
  have hreload : PyOp.reload.step H utf8 clog lg fuel s = Op.reload.step H utf8 clog lg fuel s := rfl
  have hl : (Op.reload.step H utf8 clog lg fuel s).2 = (Item.dataset s.1).bytes :: s.2 := by
    have : (Op.reload.prog H utf8 clog lg fuel s.1 s.2).2 = (Item.dataset s.1).bytes :: s.2 := rfl
    rw [← this]
    unfold Op.step
    rcases Op.reload.prog H utf8 clog lg fuel s.1 s.2 with ⟨_ | d', log'⟩ <;> rfl
  have hstep := Op.reload_step (clog := clog) (lg := lg) (fuel := fuel) hwf (by rw [hl, ← hlog]; exact hnc)
  have hcid : d.cid = some (H.cidOf (Item.dataset s.1).bytes) := by
    have h4 : Py.getDataset other utf8 (log'.load H) text =
        .ok { s.1 with cid := some (H.cidOf (Item.dataset s.1).bytes) } := by
      have ht : text = (H.cidOf (Item.dataset s.1).bytes).text := by
        have : (Py.commit H s.1 s.2).1 = .ok (H.cidOf (Item.dataset s.1).bytes).text := rfl
        rw [hc] at this
        exact Except.ok.inj this
      unfold Py.getDataset Py.parseCid
      rw [ht, C99_round_trip other _ (H.valid _)]
      exact C34_round_trip s.1 hwf s.2 _ _ (by rw [hlog]; rfl) hnc
    rw [h1] at h4
    exact congrArg Dataset.cid (Except.ok.inj h4)
  have hstate : (d, log') = Op.reload.step H utf8 clog lg fuel s := by
    rw [hstep, hlog, h3, hcid]
  have hwhole : (d, log') = pyRuns H utf8 clog lg fuel
      ((before ++ .addVariable name ss cs levels round bits dtype :: ops) ++ [.reload])
      (Dataset.new coord0 coord1 coord2 rows cols, log) := by
    rw [pyRuns_append, hs, hstate]
    rfl
  have hdecl : Spec.pyDeclarations ((before ++ .addVariable name ss cs levels round bits dtype :: ops) ++ [.reload]) =
      Spec.pyDeclarations (before ++ .addVariable name ss cs levels round bits dtype :: ops) := by
    rw [pyDeclarations_append]
    exact List.append_nil _
  have hp : (Spec.pyDeclarations ((before ++ .addVariable name ss cs levels round bits dtype :: ops) ++
      [.reload])).find? (fun p => p.name = name) = some ⟨name, ss, cs, levels, round, bits, dtype⟩ := by
    rw [hdecl, pyDeclarations_append, List.find?_append, hnew]
    simp only [Spec.pyDeclarations]
    rw [if_neg hdt]
    simp
  obtain ⟨v, g1, -, -, -, -, -, -, g2, m, g3, g4, g5, g6, g7, -⟩ := C54_python coord0 coord1 coord2 rows cols _ log hd
    (by rw [hdecl]; exact hfits) (by rw [hdecl]; exact hlen) (d, log') hwhole hnc name _ hp
  have hco : d.coord0 = coord0 ∧ d.coord1 = coord1 ∧ d.coord2 = coord2 := by
    have := C100_same coord0 coord1 coord2 rows cols _ log hd hfo hadds s hs'.symm hnc0
    rw [h3]
    exact this
  have hgc : d.getCoordinate name = none := by
    rw [← hcoord]
    unfold Dataset.getCoordinate
    rw [hco.1, hco.2.1, hco.2.2]
    rfl
  refine ⟨d, v, m, h1, h2, by rw [hco.1, hco.2.1, hco.2.2], ?_, g1, (C55_partial d name hattr).2.1 v hgc g1, g2, g3, g4,
    g5, g6, g7⟩
  rw [hwhole, List.append_assoc, pyRuns_append]
  rfl

theorem PySession.shape (h : PySession utf8 H clog lg fuel coord0 coord1 coord2 rows cols log before name ss cs levels
      round bits dtype ops text log') (s0 : Dataset × Saved)
    (hs0 : s0 = pyRuns H utf8 clog lg fuel before (Dataset.new coord0 coord1 coord2 rows cols, log)) :
    s0.1.rows = rows ∧ s0.1.cols = cols := by
  obtain ⟨hd, hfits, hlen, -, -, -, hcommit, hnc⟩ := h
  generalize hs : pyRuns H utf8 clog lg fuel (before ++ .addVariable name ss cs levels round bits dtype :: ops)
    (Dataset.new coord0 coord1 coord2 rows cols, log) = s at hcommit
  have hlog : log' = (Item.dataset s.1).bytes :: s.2 := by
    have : (Py.commit H s.1 s.2).2 = (Item.dataset s.1).bytes :: s.2 := rfl
    rw [← this, hcommit s rfl]
  have hnc0 : s.2.NoCollision H := NoCollision.mono (by rw [hlog]; exact List.subset_cons_self ..) hnc
  have hnc1 : s0.2.NoCollision H := by
    rw [pyRuns_append, ← hs0, pyRuns_eq] at hs
    rw [← hs] at hnc0
    exact NoCollision.mono (runs_mono _ _) hnc0
  rw [pyRuns_eq] at hs0
  rw [pyDeclarations_append] at hfits hlen
  have hlen1 : (Spec.pyDeclarations before).length < 256 := by rw [List.length_append] at hlen; omega
  rw [hs0] at hnc1 ⊢
  exact runs_shape _ _ ⟨hd, fun c hc => nomatch hc⟩
    (pyFits_op before fun p hp => hfits p (List.mem_append_left _ hp))
    (by change 0 + adds _ < 256; rw [adds_eq]; omega) hnc1

theorem AnyHistory.reload {d : Dataset} {round : Option Nat} {enc : MMEncoding} {ops : List Op}
    (h : AnyHistory utf8 readFuel d name round ss cs levels enc ops) :
    AnyHistory utf8 readFuel d name round ss cs levels enc (ops ++ [.reload]) where
  dataset := h.dataset
  new := h.new
  fits := h.fits
  count := by rw [adds_append]; exact h.count
  each := by
    intro op ho
    rcases List.mem_append.1 ho with ho | ho
    · exact h.each op ho
    · obtain rfl := List.mem_singleton.1 ho
      exact ⟨trivial, trivial⟩

theorem accepted_reload (name : List Byte) (s : Dataset × Saved) :
    accepted H utf8 clog lg fuel name [.reload] s = [] := by
  unfold accepted accepted Op.taken
  cases (Op.reload.prog H utf8 clog lg fuel s.1 s.2).1 <;> rfl

theorem acceptedAfter_reload {d : Dataset} {log : Saved} {add : Op} {ops : List Op} {as : List (NdArray × Nat)}
    (has : as = acceptedAfter H utf8 clog lg fuel d log name add ops) :
    as = acceptedAfter H utf8 clog lg fuel d log name add (ops ++ [.reload]) := by
  rw [has]
  unfold acceptedAfter
  rw [accepted_append, accepted_reload, List.append_nil]

/-- C64 through arrays of 64-bit integers. -/
theorem array_i64 (d : Dataset) (name : List Byte) (round : Option Nat) (ops : List Op) (log : Saved)
    (as : List (NdArray × Nat))
    (has : as = acceptedAfter H utf8 clog lg fuel d log name (.addVariable name round ss cs levels .i64) ops)
    (h : AnyHistory utf8 readFuel d name round ss cs levels .i64 ops) (h64 : ∀ x ∈ as, ∃ a, x.1 = .i64 a)
    (hint : IntBase clog levels (concatInt as) (total as) d.rows d.cols cs ss) (hf : 32 ≤ fuel)
    (hrf : levels.length + 34 ≤ readFuel) (s : Dataset × Saved)
    (hs : s = runs H utf8 clog lg fuel (.addVariable name round ss cs levels .i64 :: ops) (d, log))
    (hnc : s.2.NoCollision H) :
    ∃ v m, s.1.findVariable name = some v ∧ v.data .i64 utf8 (s.2.load H) = .ok m ∧
      ArrayReads .i64 utf8 (s.2.load H) readFuel m (total as) d.rows d.cols (concat64 as) := by
  have hfo : Follows (NextInt (concatInt as) (total as) d.rows d.cols) 0 as :=
    follows_int _ _ (by omega) (fun t r c _ _ _ => by rw [Nat.zero_add]) (.inl h64)
  have hinv := AnyHistory.inv (H := H) (T := hint.theory H .i64) (lg := lg) (fuel := fuel)
    (Next := NextInt (concatInt as) (total as) d.rows d.cols) h rfl rfl
    (hint.appends hf (by omega) (.inl trivial)) (fun M data n hn => Nat.le_trans hn.1 (Nat.le_max_right ..)) hf log
    (Eq.subst (motive := Follows _ 0) has hfo) (hs ▸ hnc)
  subst hs
  have ht : total (acceptedAfter H utf8 clog lg fuel d log name (.addVariable name round ss cs levels .i64) ops) =
    total as := by rw [has]
  obtain ⟨v, m, h1, h2, h3, h4, -⟩ := (ht ▸ hinv).arrays hint _ (List.Subset.refl _) hnc hrf
  exact ⟨v, m, h1, Variable.data_ok h2 h3,
    Reads.array (kind := .i64) (h4.congr fun t r c _ _ _ => concatInt_eq64 _ h64 t r c)⟩

theorem filterMap_reload (ops : List PyOp) :
    (ops ++ [PyOp.reload]).filterMap PyOp.op = ops.filterMap PyOp.op ++ [Op.reload] := by
  rw [List.filterMap_append]
  rfl

/-- C101 (partial: the differences between neighbours must be representable; indices are plain): a variable of 64-bit
integers; the appends that succeeded are read, whatever else was tried. -/
theorem C101_i64_partial (h : PySession utf8 H clog lg fuel coord0 coord1 coord2 rows cols log before name ss cs levels
      round bits .int64 ops text log') (s0 : Dataset × Saved)
    (hs0 : s0 = pyRuns H utf8 clog lg fuel before (Dataset.new coord0 coord1 coord2 rows cols, log))
    (as : List (NdArray × Nat))
    (has : as = acceptedAfter H utf8 clog lg fuel s0.1 s0.2 name
      (.addVariable name (if round then some bits else none) ss cs levels .i64) (ops.filterMap PyOp.op))
    (hh : AnyHistory utf8 readFuel s0.1 name (if round then some bits else none) ss cs levels .i64
      (ops.filterMap PyOp.op)) (h64 : ∀ x ∈ as, ∃ a, x.1 = .i64 a)
    (hint : IntBase clog levels (concatInt as) (total as) rows cols cs ss) (hf : 32 ≤ fuel)
    (hrf : levels.length + 34 ≤ readFuel) (hn : 0 < total as) :
    Spec.Seen utf8 readFuel (log'.load H) text (coord0, coord1, coord2) name .int64 .i64 .i64 (total as) rows cols
      (concat64 as) := by
  intro other
  obtain ⟨e1, e2⟩ := h.shape s0 hs0
  obtain ⟨d, v, m, g1, g2, g3, g4, g5, g6, g7, g8, -, g9, -⟩ := h.load (by decide) other
  rw [← hs0, pyRuns_eq, List.filterMap_cons, filterMap_reload] at g4
  obtain ⟨v', m', f1, f2, f3⟩ := array_i64 (lg := lg) s0.1 name _ _ s0.2 as (acceptedAfter_reload has) hh.reload h64
    (by rw [e1, e2]; exact hint) hf hrf (d, log') g4 h.noCollision
  rw [e1, e2] at f3
  obtain rfl : v = v' := Option.some.inj (g5.symm.trans f1)
  obtain rfl : m' = m := by
    rw [Variable.data_of g8] at f2
    split at f2
    · exact (Except.ok.inj f2).symm
    · cases f2
  refine ⟨d, v, m', g1, g2, g3, g6, g7, g9 rfl, f3.shape, fun indices hp res => ?_⟩
  exact C49_variable_partial f3 hn hint.rows_pos hint.cols_pos indices hp res

/-- C101 for 32-bit integers, whatever their values: the appends that succeeded are read, whatever else was tried (indices
are plain). -/
theorem C101_i32_partial (h : PySession utf8 H clog lg fuel coord0 coord1 coord2 rows cols log before name ss cs levels
      round bits .int32 ops text log') (s0 : Dataset × Saved)
    (hs0 : s0 = pyRuns H utf8 clog lg fuel before (Dataset.new coord0 coord1 coord2 rows cols, log))
    (as : List (NdArray × Nat))
    (has : as = acceptedAfter H utf8 clog lg fuel s0.1 s0.2 name
      (.addVariable name (if round then some bits else none) ss cs levels .i32) (ops.filterMap PyOp.op))
    (hh : AnyHistory utf8 readFuel s0.1 name (if round then some bits else none) ss cs levels .i32
      (ops.filterMap PyOp.op)) (h32 : ∀ x ∈ as, ∃ a, x.1 = .i32 a)
    (hset : Settings clog levels (total as) rows cols cs ss) (hf : 32 ≤ fuel)
    (hrf : levels.length + 34 ≤ readFuel) (hn : 0 < total as) :
    Spec.Seen utf8 readFuel (log'.load H) text (coord0, coord1, coord2) name .int32 .i32 .i32 (total as) rows cols
      (concat32 as) := by
  intro other
  obtain ⟨e1, e2⟩ := h.shape s0 hs0
  obtain ⟨d, v, m, g1, g2, g3, g4, g5, g6, g7, g8, g9, -⟩ := h.load (by decide) other
  rw [← hs0, pyRuns_eq, List.filterMap_cons, filterMap_reload] at g4
  obtain ⟨v', m', f1, f2, f3⟩ := C46_i32 (lg := lg) s0.1 name _ _ s0.2 as (acceptedAfter_reload has) hh.reload h32
    (by rw [e1, e2]; exact hset) hf hrf (d, log') g4 h.noCollision
  rw [e1, e2] at f3
  obtain rfl : v = v' := Option.some.inj (g5.symm.trans f1)
  obtain rfl : m' = m := by
    rw [Variable.data_of g8] at f2
    split at f2
    · exact (Except.ok.inj f2).symm
    · cases f2
  refine ⟨d, v, m', g1, g2, g3, g6, g7, g9 rfl, f3.shape, fun indices hp res => ?_⟩
  exact C49_variable_partial f3 hn hset.rows_pos hset.cols_pos indices hp res

/-- The type of NumPy of floats. -/
def Spec.dtypeOf : Prec → Dtype
  | .single => .float32
  | .double => .float64

/-- C101 (partial: the numbers fit the fixed point format): a variable of floats; what is seen is what was appended, rounded
to the bits of the variable. -/
theorem C101_float_partial {p : Prec} {B : Nat} (h : PySession utf8 H clog lg fuel coord0 coord1 coord2 rows cols log before
      name ss cs levels round bits (Spec.dtypeOf p) ops text log') (s0 : Dataset × Saved)
    (hs0 : s0 = pyRuns H utf8 clog lg fuel before (Dataset.new coord0 coord1 coord2 rows cols, log))
    (as : List (NdArray × Nat))
    (has : as = acceptedAfter H utf8 clog lg fuel s0.1 s0.2 name
      (.addVariable name (if round then some bits else none) ss cs levels p.kind.encoding) (ops.filterMap PyOp.op))
    (hh : AnyHistory utf8 readFuel s0.1 name (if round then some bits else none) ss cs levels p.kind.encoding
      (ops.filterMap PyOp.op)) (hflt : ∀ x ∈ as, ∃ a, x.1 = .flt p a)
    (hbase : FltBase clog lg levels p B (if round then some bits else none) (concatFlt as) (total as) rows cols cs ss)
    (hf : 32 ≤ fuel) (hrf : levels.length + 34 ≤ readFuel) (hn : 0 < total as) :
    Spec.Seen utf8 readFuel (log'.load H) text (coord0, coord1, coord2) name (Spec.dtypeOf p) p.kind
      (match p with | .single => .f32 | .double => .f64) (total as) rows cols
      (fun t r c => (concatFlt as t r c).rounded B) := by
  intro other
  obtain ⟨e1, e2⟩ := h.shape s0 hs0
  obtain ⟨d, v, m, g1, g2, g3, g4, g5, g6, g7, g8, -, -, g9, g10⟩ := h.load (by cases p <;> decide) other
  have g4' : (d, log') = runs H utf8 clog lg fuel (.addVariable name (if round then some bits else none) ss cs levels
      p.kind.encoding :: (ops.filterMap PyOp.op ++ [.reload])) s0 := by
    rw [g4, ← hs0, pyRuns_eq, List.filterMap_cons, filterMap_reload]
    cases p <;> rfl
  obtain ⟨v', m', f1, f2, f3⟩ := C64_float_partial s0.1 name _ _ s0.2 as (acceptedAfter_reload has) hh.reload hflt
    (by rw [e1, e2]; exact hbase) hf hrf (d, log') g4' h.noCollision
  rw [e1, e2] at f3
  obtain rfl : v = v' := Option.some.inj (g5.symm.trans f1)
  obtain rfl : m' = m := by
    rw [Variable.data_of g8] at f2
    split at f2
    · exact (Except.ok.inj f2).symm
    · cases f2
  refine ⟨d, v, m', g1, g2, g3, g6, g7, ?_, f3.shape, fun indices hp res => ?_⟩
  · cases p
    · exact g9 rfl
    · exact g10 rfl
  · exact C49_variable_partial f3 hn hbase.rows_pos hbase.cols_pos indices hp res

end

/-! ### Examples -/

/-- A data set that is committed before it has variables; a variable of a type there is not is refused. -/
def sessionBefore : List PyOp := [.commit, .addVariable [9] 4 2 [1, 1] false 0 .other]

/-- Of the appends to the variable of 32-bit integers the second one has the wrong shape, and the third one a type there is
not; the data set is loaded again in between. -/
def sessionOps : List PyOp :=
  [.append exampleFill [7] (some (.i32 exampleGrid32)) 1 4 4, .append exampleFill [7] (some (.i32 exampleGrid32)) 3 5 4,
    .append exampleFill [7] none 3 4 4, .reload,
    .append exampleFill [7] (some (.i32 fun t => exampleGrid32 (1 + t))) 3 4 4]

/-- The state in which it is committed. -/
def sessionEnd : Dataset × Saved :=
  pyRuns exampleHash (fun _ => true) exampleClog (fun _ => 0) 32
    (sessionBefore ++ .addVariable [7] 2 2 [1, 1] false 0 .int32 :: sessionOps) (exampleDataset, [])

/-- The string that is given. -/
def sessionText : List Byte := (exampleHash.cidOf (Item.dataset sessionEnd.1).bytes).text

theorem session_example : PySession (fun _ => true) exampleHash exampleClog (fun _ => 0) 32 exampleDataset.coord0
    exampleDataset.coord1 exampleDataset.coord2 4 4 [] sessionBefore [7] 2 2 [1, 1] false 0 .int32 sessionOps sessionText
    ((Item.dataset sessionEnd.1).bytes :: sessionEnd.2) where
  dataset := exampleWF
  fits := by
    intro p hp
    have : Spec.pyDeclarations (sessionBefore ++ .addVariable [7] 2 2 [1, 1] false 0 .int32 :: sessionOps) =
      [⟨[7], 2, 2, [1, 1], false, 0, .int32⟩] := rfl
    rw [this] at hp
    obtain rfl := List.mem_singleton.1 hp
    exact ⟨by decide, rfl, by decide, by decide, by decide, by decide, by decide⟩
  count := by simp [sessionBefore, sessionOps, Spec.pyDeclarations]
  new := rfl
  free := by decide +kernel
  coordinate := by decide +kernel
  commit := by
    intro s hs
    have : s = sessionEnd := hs
    rw [this]
    rfl
  noCollision := by
    unfold Saved.NoCollision
    decide +kernel

/-- The state in which the variable is added. -/
theorem session_before : pyRuns exampleHash (fun _ => true) exampleClog (fun _ => 0) 32 sessionBefore (exampleDataset, []) =
    (exampleDataset, [(Item.dataset exampleDataset).bytes]) := rfl

theorem session_accepted : acceptedAfter exampleHash (fun _ => true) exampleClog (fun _ => 0) 32 exampleDataset
    [(Item.dataset exampleDataset).bytes] [7] (.addVariable [7] none 2 2 [1, 1] .i32) (sessionOps.filterMap PyOp.op) =
      [(.i32 exampleGrid32, 1), (.i32 fun t => exampleGrid32 (1 + t), 3)] := by
  have : sessionOps.filterMap PyOp.op = [.append exampleFill [7] (.i32 exampleGrid32) 1 4 4,
    .append exampleFill [7] (.i32 exampleGrid32) 3 5 4, .reload,
    .append exampleFill [7] (.i32 fun t => exampleGrid32 (1 + t)) 3 4 4] := rfl
  rw [this]
  unfold acceptedAfter accepted
  rw [Op.taken_eq true (by decide +kernel)]
  unfold accepted
  rw [Op.taken_eq false (by decide +kernel)]
  unfold accepted
  rw [Op.taken_eq true (by decide +kernel)]
  unfold accepted
  rw [Op.taken_eq true (by decide +kernel)]
  rfl

theorem session_any : AnyHistory (fun _ => true) 40 exampleDataset [7] none 2 2 [1, 1] .i32
    (sessionOps.filterMap PyOp.op) := by
  refine ⟨exampleHistory.dataset, rfl, exampleHistory32.fits, by decide +kernel, ?_⟩
  have hf := exampleFill_valid
  have : sessionOps.filterMap PyOp.op = [.append exampleFill [7] (.i32 exampleGrid32) 1 4 4,
    .append exampleFill [7] (.i32 exampleGrid32) 3 5 4, .reload,
    .append exampleFill [7] (.i32 fun t => exampleGrid32 (1 + t)) 3 4 4] := rfl
  rw [this]
  intro op ho
  simp only [List.mem_cons, List.not_mem_nil, or_false] at ho
  rcases ho with rfl | rfl | rfl | rfl
  · exact ⟨trivial, fun _ => hf⟩
  · exact ⟨trivial, fun _ => hf⟩
  · exact ⟨trivial, trivial⟩
  · exact ⟨trivial, fun _ => hf⟩

theorem session_settings : Settings exampleClog [1, 1] 4 4 4 2 2 :=
  ⟨exampleClogOk.mono (by decide), by decide, by decide, by decide, by decide, by decide, by decide, by decide, by decide,
    by decide, ⟨by decide, by decide, by decide⟩⟩

/-- Whoever has the string sees the least and the greatest number next to one another. -/
theorem session_seen : Spec.Seen (fun _ => true) 40
    (Saved.load exampleHash ((Item.dataset sessionEnd.1).bytes :: sessionEnd.2))
    sessionText (exampleDataset.coord0, exampleDataset.coord1, exampleDataset.coord2) [7] .int32 .i32 .i32 4 4 4
    (concat32 [(.i32 exampleGrid32, 1), (.i32 fun t => exampleGrid32 (1 + t), 3)]) := by
  refine C101_i32_partial session_example _ session_before.symm _ session_accepted.symm session_any ?_ session_settings
    (by decide) (by decide) (by decide)
  intro x hx
  simp only [List.mem_cons, List.not_mem_nil, or_false] at hx
  rcases hx with rfl | rfl <;> exact ⟨_, rfl⟩

/-- What is refused before the variable is added. -/
def refusedBefore : List PyOp := [.addVariable [9] 4 2 [1, 1] false 0 .other]

theorem session_make {lg : Rat → Int} (dtype : Dtype) (hdt : dtype ≠ .other) (ops : List PyOp)
    (hnone : Spec.pyDeclarations ops = []) (s : Dataset × Saved)
    (hs : s = pyRuns exampleHash (fun _ => true) exampleClog lg 32
      (refusedBefore ++ .addVariable [7] 2 2 [1, 1] false 0 dtype :: ops) (exampleDataset, []))
    (hnc : Saved.NoCollision exampleHash ((Item.dataset s.1).bytes :: s.2)) :
    PySession (fun _ => true) exampleHash exampleClog lg 32 exampleDataset.coord0
      exampleDataset.coord1 exampleDataset.coord2 4 4 [] refusedBefore [7] 2 2 [1, 1] false 0 dtype ops
      (exampleHash.cidOf (Item.dataset s.1).bytes).text ((Item.dataset s.1).bytes :: s.2) := by
  have e : Spec.pyDeclarations (refusedBefore ++ .addVariable [7] 2 2 [1, 1] false 0 dtype :: ops) =
      [⟨[7], 2, 2, [1, 1], false, 0, dtype⟩] := by
    change Spec.pyDeclarations (.addVariable [7] 2 2 [1, 1] false 0 dtype :: ops) = _
    simp only [Spec.pyDeclarations]
    rw [if_neg hdt, hnone]
  refine ⟨exampleWF, ?_, by rw [e]; simp, rfl, by decide +kernel, by decide +kernel, fun s' hs' => ?_, hnc⟩
  · rw [e]
    intro p hp
    obtain rfl := List.mem_singleton.1 hp
    exact ⟨by simp, rfl, fun h => (nomatch h), by simp, by simp, by simp, by simp⟩
  · have : s' = s := hs'.trans hs.symm
    rw [this]
    rfl

/-- What `exampleFails` is in Python. -/
def sessionFails : List PyOp :=
  [.append exampleFill [7] (some (.i64 exampleGrid)) 2 4 4, .reload,
    .append exampleFill [7] (some (.i64 exampleGrid)) 2 3 4, .append exampleFill [9] (some (.i64 exampleGrid)) 2 4 4,
    .append exampleFill [7] (some (.i64 fun t => exampleGrid (2 + t))) 4 4 4]

/-- Of 64-bit integers. -/
example (s : Dataset × Saved) (hs : s = pyRuns exampleHash (fun _ => true) exampleClog (fun _ => 0) 32
      (refusedBefore ++ .addVariable [7] 2 2 [1, 1] false 0 .int64 :: sessionFails) (exampleDataset, [])) :
    Spec.Seen (fun _ => true) 40 (Saved.load exampleHash ((Item.dataset s.1).bytes :: s.2))
      (exampleHash.cidOf (Item.dataset s.1).bytes).text
      (exampleDataset.coord0, exampleDataset.coord1, exampleDataset.coord2) [7] .int64 .i64 .i64 6 4 4
      (concat64 [(.i64 exampleGrid, 2), (.i64 fun t => exampleGrid (2 + t), 4)]) := by
  have hint := exampleHistory.int.toIntBase
  rw [exampleArrays] at hint
  have hnc : Saved.NoCollision exampleHash ((Item.dataset s.1).bytes :: s.2) := by
    rw [hs]
    unfold Saved.NoCollision
    decide +kernel
  refine C101_i64_partial (session_make .int64 (by decide) sessionFails rfl s hs hnc) (exampleDataset, []) rfl _
    exampleFails_accepted.symm exampleFails_any ?_ hint (by decide) (by decide) (by decide)
  intro x hx
  simp only [List.mem_cons, List.not_mem_nil, or_false] at hx
  rcases hx with rfl | rfl <;> exact ⟨_, rfl⟩

/-- What `exampleFloatFails` is in Python. -/
def sessionFloatFails : List PyOp :=
  [.append exampleFill [7] (some (.flt .single (exampleFltSeries fun z => z / 4))) 2 4 4,
    .append exampleFill [7] (some (.flt .single (exampleFltSeries fun z => z / 4))) 2 3 4, .reload,
    .append exampleFill [7] (some (.flt .single fun _ r c => .fin ((r + c : Nat) / 2 ^ 62))) 1 4 4,
    .append exampleFill [7] (some (.flt .single fun t => exampleFltSeries (fun z => z / 4) (2 + t))) 4 4 4]

/-- Of floats. -/
example (s : Dataset × Saved) (hs : s = pyRuns exampleHash (fun _ => true) exampleClog exampleLg 32
      (refusedBefore ++ .addVariable [7] 2 2 [1, 1] false 0 .float32 :: sessionFloatFails) (exampleDataset, [])) :
    Spec.Seen (fun _ => true) 40 (Saved.load exampleHash ((Item.dataset s.1).bytes :: s.2))
      (exampleHash.cidOf (Item.dataset s.1).bytes).text
      (exampleDataset.coord0, exampleDataset.coord1, exampleDataset.coord2) [7] .float32 Prec.single.kind .f32 6 4 4
      (fun t r c => (exampleFltSeries (fun z => z / 4) t r c).rounded 2) := by
  rw [← exampleFloatFails_concat]
  have e : sessionFloatFails.filterMap PyOp.op = exampleFloatFails := rfl
  refine C101_float_partial (p := .single) (B := 2) (session_make (lg := exampleLg) .float32 (by decide) sessionFloatFails
    rfl s hs ?_) (exampleDataset, []) rfl _ (by rw [e]; exact exampleFloatFails_accepted.symm)
    (by rw [e]; exact exampleFloatFails_any) ?_ exampleFloatFails_base (by decide) (by decide) (by decide)
  · subst hs
    unfold Saved.NoCollision
    decide +kernel
  · intro x hx
    simp only [List.mem_cons, List.not_mem_nil, or_false] at hx
    rcases hx with rfl | rfl <;> exact ⟨_, rfl⟩

end Verif
