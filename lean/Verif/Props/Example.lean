import Verif.Lemmas.Example
import Verif.Props.Lossless

/-!
Property C70: the example program, however often it is broken off, keeps a data set that holds a beginning
of the source, and a copy that comes to its end has copied all.
-/
namespace Verif

namespace Example

open Prog (NoCollision.mono)

/-- `part` is the `n` instants of `whole` from `start` on. -/
def Spec.Part (whole part : NdArray) (start n rows cols : Nat) : Prop :=
  match whole, part with
  | .i32 a, .i32 b => ∀ t r c, t < n → r < rows → c < cols → b t r c = a (start + t) r c
  | .i64 a, .i64 b => ∀ t r c, t < n → r < rows → c < cols → b t r c = a (start + t) r c
  | .flt p a, .flt q b => p = q ∧ ∀ t r c, t < n → r < rows → c < cols → b t r c = a (start + t) r c
  | _, _ => False

/-- What a run gets is part of the series `whole` of `N` instants: `copy` finds a beginning of it, and a
file for `add` has the instants from its start on. -/
def Spec.From (whole : NdArray) (N : Nat) (f : Factory) : Cmd → Prop
  | .init f' => f' = f
  | .copy src _ _ => src.rows = f.rows ∧ src.cols = f.cols ∧ src.total ≤ N ∧
    Spec.Part whole src.data 0 src.total f.rows f.cols
  | .add start data n rows cols => rows = f.rows ∧ cols = f.cols ∧
    ∀ M : Nat, start = M → M + n ≤ N ∧ Spec.Part whole data M n f.rows f.cols

/-- The head leads to a data set with our coordinates whose only variable has the name of ours and is an
array of `M` instants that reads as `data`. -/
def Spec.Serves {α : Type} (H : Hash) (utf8 : List Byte → Bool) (readFuel : Nat) (f : Factory) (kind : Kind α)
    (data : Nat → Nat → Nat → α) (world : World) (M : Nat) : Prop :=
  ∃ cid d v m, world.head = .at cid ∧ (world.log.load H).getDataset utf8 cid = .ok d ∧
    (d.coord0, d.coord1, d.coord2) = (f.coord0, f.coord1, f.coord2) ∧
    d.variables = [v] ∧ v.name = f.name ∧ v.data kind utf8 (world.log.load H) = .ok m ∧
    ArrayReads kind utf8 (world.log.load H) readFuel m M f.rows f.cols data

section
variable {H : Hash} {utf8 : List Byte → Bool} {clog : Nat → Nat} {lg : Rat → Int} {fuel readFuel : Nat}
  {T : VarTheory} {f : Factory} {Next : Nat → NdArray → Nat → Prop} {N : Nat} {α : Type} {kind : Kind α}
  {data : Nat → Nat → Nat → α}

/-- The variable reads as `data`. -/
def Serving (H : Hash) (utf8 : List Byte → Bool) (readFuel : Nat) (T : VarTheory) (f : Factory) (kind : Kind α)
    (data : Nat → Nat → Nat → α) : Prop :=
  ∀ (d : Dataset) (log : Saved) (M : Nat),
    HistInv H utf8 T f.k2Levels (if f.round then some f.bits else none) f.name (d, log) M → log.NoCollision H →
    ∃ v m, d.findVariable f.name = some v ∧ v.data kind utf8 (log.load H) = .ok m ∧
      Reads kind.dec utf8 (log.load H) readFuel m M f.rows f.cols data

theorem HeadAt.serves {world : World} {M : Nat} (hs : Serving H utf8 readFuel T f kind data)
    (h : HeadAt H utf8 T f.k2Levels (if f.round then some f.bits else none) f.name f.coords world M)
    (hnc : world.log.NoCollision H) : Spec.Serves H utf8 readFuel f kind data world M := by
  obtain ⟨d, h1, h2, h3⟩ := h
  obtain ⟨v, m, e1, e2, e3⟩ := hs _ _ _ h3.inv hnc
  obtain ⟨v', g1, g2⟩ := h3.first
  have hwf := h3.inv.fits.wf
  refine ⟨_, _, v, m, h1, Store.getDataset_of (Saved.load_mem hnc h2) (d := d)
      ⟨hwf.coord0, hwf.coord1, hwf.coord2, hwf.len, hwf.vars, hwf.rows, hwf.cols, hwf.prev⟩, h3.coords, ?_, ?_, e2, e3.array⟩
  · change d.variables = _ at g1
    change d.variables = _
    change d.variables.find? _ = _ at e1
    rw [g1, List.find?_cons_of_pos (by simpa using g2)] at e1
    cases e1
    exact g1
  · exact (Dataset.findVariable_mem e1).2

theorem safe (hx : Fixed H utf8 clog lg fuel readFuel T f Next N) (hs : Serving H utf8 readFuel T f kind data)
    (cmds more : List (Cmd × (Nat → Event))) (world : World) (hw : world.head = .missing)
    (hc : ∀ c ∈ cmds ++ more, c.1.Of Next T f ∧ ∀ i, (c.2 i).Ok True utf8 readFuel)
    (hnc : (runs H utf8 clog lg fuel (cmds ++ more) world).log.NoCollision H) :
    ∃ M M', M ≤ M' ∧ M' ≤ N ∧
      ((runs H utf8 clog lg fuel cmds world).head = .missing ∧ M = 0 ∨
        Spec.Serves H utf8 readFuel f kind data (runs H utf8 clog lg fuel cmds world) M) ∧
      ((runs H utf8 clog lg fuel (cmds ++ more) world).head = .missing ∧ M' = 0 ∨
        Spec.Serves H utf8 readFuel f kind data (runs H utf8 clog lg fuel (cmds ++ more) world) M') := by
  rw [runs_append] at hnc ⊢
  have hnc1 := NoCollision.mono (runs_mono more _) hnc
  obtain ⟨M, -, h1, h2⟩ := runs_state hx cmds world 0 (.inl ⟨hw, rfl⟩) (Nat.zero_le _)
    (fun c h => hc c (List.mem_append_left _ h)) hnc1
  obtain ⟨M', h3, h4, h5⟩ := runs_state hx more _ M h2 h1 (fun c h => hc c (List.mem_append_right _ h)) hnc
  exact ⟨M, M', h3, h4, h2.imp id fun h => h.serves hs hnc1, h5.imp id fun h => h.serves hs hnc⟩

/-- The number of instants after a copy of a source of `total` instants to a variable of `M`. -/
def Spec.copied (M total cs : Nat) : Option Int → Nat
  | none => total
  | some n => min (M + (n.toNat + cs - 1) / cs * cs) total

theorem copied_eq (M total cs : Nat) (hcs : 1 ≤ cs) (h : M < total) (limit : Option Int) :
    min (M + chunks (toCopy limit (total - M)).toNat cs * cs) total = Spec.copied M total cs limit := by
  have hge : total - M ≤ chunks (total - M) cs * cs := chunks_ge hcs
  cases limit with
  | none =>
    change min (M + chunks ((total - M : Int)).toNat cs * cs) total = total
    rw [show ((total - M : Int)).toNat = total - M by omega]
    generalize chunks (total - M) cs * cs = x at *
    omega
  | some n =>
    change min (M + chunks (min n (total - M : Int)).toNat cs * cs) total =
      min (M + chunks n.toNat cs * cs) total
    rcases Int.le_total n (total - M) with hn | hn
    · rw [Int.min_eq_left hn]
    · rw [Int.min_eq_right hn, show ((total - M : Int)).toNat = total - M by omega]
      have : chunks (total - M) cs ≤ chunks n.toNat cs := Nat.div_le_div_right (by omega)
      have := Nat.mul_le_mul_right cs this
      generalize chunks (total - M) cs * cs = x at *
      generalize chunks n.toNat cs * cs = y at *
      omega

theorem live (hx : Fixed H utf8 clog lg fuel readFuel T f Next N)
    (ha : Appends False H utf8 clog lg fuel readFuel T f.k2Levels (if f.round then some f.bits else none) Next)
    (hs : Serving H utf8 readFuel T f kind data)
    (cmds : List (Cmd × (Nat → Event))) (world : World) (hw : world.head = .missing)
    (hc : ∀ c ∈ cmds, c.1.Of Next T f ∧ ∀ i, (c.2 i).Ok True utf8 readFuel)
    (hm : (runs H utf8 clog lg fuel cmds world).head ≠ .missing)
    (src : Source) (limit : Option Int) (commitEvery : Nat) (hsrc : src.Of Next T)
    (env : Nat → Event) (henv : ∀ i, (env i).Ok False utf8 readFuel)
    (hnc : ((Cmd.copy src limit commitEvery).run H utf8 clog lg fuel env
      (runs H utf8 clog lg fuel cmds world)).1.log.NoCollision H) :
    ∃ M, M ≤ N ∧ Spec.Serves H utf8 readFuel f kind data (runs H utf8 clog lg fuel cmds world) M ∧
      if M < src.total then
        ((Cmd.copy src limit commitEvery).run H utf8 clog lg fuel env (runs H utf8 clog lg fuel cmds world)).2 =
            true ∧
          Spec.Serves H utf8 readFuel f kind data ((Cmd.copy src limit commitEvery).run H utf8 clog lg fuel env
            (runs H utf8 clog lg fuel cmds world)).1 (Spec.copied M src.total f.chunkSize limit)
      else
        ((Cmd.copy src limit commitEvery).run H utf8 clog lg fuel env (runs H utf8 clog lg fuel cmds world)).2 =
            false ∧
          Spec.Serves H utf8 readFuel f kind data ((Cmd.copy src limit commitEvery).run H utf8 clog lg fuel env
            (runs H utf8 clog lg fuel cmds world)).1 M := by
  have hnc1 := NoCollision.mono (Cmd.script_mono (H := H) (utf8 := utf8) (clog := clog) (lg := lg) (fuel := fuel)
    (.copy src limit commitEvery) env (runs H utf8 clog lg fuel cmds world, 0)) hnc
  obtain ⟨M, -, h1, h2⟩ := runs_state hx cmds world 0 (.inl ⟨hw, rfl⟩) (Nat.zero_le _) hc hnc1
  have h2 := h2.resolve_left fun h => hm h.1
  refine ⟨M, h1, h2.serves hs hnc1, ?_⟩
  have hrun := copy_runs ha hx.sound hsrc limit commitEvery h2 env 0 henv hnc
  unfold Cmd.run at hnc ⊢
  change Saved.NoCollision H (copy H utf8 clog lg fuel src limit commitEvery env _).2.1.log at hnc
  rcases hrun with ⟨a, s, e, g1, g2⟩ | ⟨g, s, e, g1, M', g2, g3, g4⟩
  · rw [if_pos g1]
    rw [e] at hnc
    unfold Cmd.script
    simp only
    rw [e]
    refine ⟨rfl, ?_⟩
    have := g2.serves hs hnc
    rw [copied_eq M src.total T.cs T.cs_pos g1] at this
    rw [hx.cs]
    exact this
  · have g1 : src.total ≤ M := g1.resolve_left id
    rw [if_neg (by omega)]
    obtain rfl : M' = M := by omega
    rw [e] at hnc
    unfold Cmd.script
    simp only
    rw [e]
    exact ⟨rfl, g4.serves hs hnc⟩

/-! ### Integers -/

theorem base32 {levels : List Nat} {rows cols cs ss : Nat} (h : Settings clog levels N rows cols cs ss)
    (a : Nat → Nat → Nat → Int32) :
    IntBase clog levels (fun t r c => (a t r c).toInt64) N rows cols cs ss where
  clogOk := h.clogOk
  rows_pos := h.rows_pos
  cols_pos := h.cols_pos
  rows_lt := h.rows_lt
  cols_lt := h.cols_lt
  cs_pos := h.cs_pos
  cs_lt := h.cs_lt
  ss_two := h.ss_two
  ss_lt := h.ss_lt
  instants := h.instants
  levelsOk := h.levelsOk
  diffs := fun _ _ _ _ _ => NoOverflow.noSplit fun _ _ _ _ => int32_sub _ _

theorem from32 {a : Nat → Nat → Nat → Int32} (hT : f.rows = T.rows ∧ f.cols = T.cols) {cmd : Cmd}
    (h : Spec.From (.i32 a) N f cmd) :
    cmd.Of (NextInt (fun t r c => (a t r c).toInt64) N f.rows f.cols) T f := by
  cases cmd with
  | init f' => exact h
  | copy src limit commitEvery =>
    obtain ⟨h1, h2, h3, h4⟩ := h
    refine ⟨h1.trans hT.1, h2.trans hT.2, fun i n hn => ?_⟩
    cases hd : src.data with
    | i64 b => rw [hd] at h4; exact h4.elim
    | flt p b => rw [hd] at h4; exact h4.elim
    | i32 b =>
      rw [hd] at h4
      refine ⟨by omega, fun t r c ht hr hc => ?_, .inr ⟨⟨_, rfl⟩, fun t r c _ _ _ => ⟨_, rfl⟩⟩⟩
      change (b (i + t) r c).toInt64 = _
      rw [h4 (i + t) r c (by omega) hr hc, Nat.zero_add]
  | add start data n rows cols =>
    obtain ⟨h1, h2, h3⟩ := h
    refine ⟨h1.trans hT.1, h2.trans hT.2, fun M hM => ?_⟩
    obtain ⟨h4, h5⟩ := h3 M hM
    cases data with
    | i64 b => exact h5.elim
    | flt p b => exact h5.elim
    | i32 b =>
      refine ⟨h4, fun t r c ht hr hc => ?_, .inr ⟨⟨_, rfl⟩, fun t r c _ _ _ => ⟨_, rfl⟩⟩⟩
      change (b t r c).toInt64 = _
      rw [h5 t r c ht hr hc]

theorem from64 {a : Nat → Nat → Nat → Int64} (hT : f.rows = T.rows ∧ f.cols = T.cols) {cmd : Cmd}
    (h : Spec.From (.i64 a) N f cmd) : cmd.Of (NextInt a N f.rows f.cols) T f := by
  cases cmd with
  | init f' => exact h
  | copy src limit commitEvery =>
    obtain ⟨h1, h2, h3, h4⟩ := h
    refine ⟨h1.trans hT.1, h2.trans hT.2, fun i n hn => ?_⟩
    cases hd : src.data with
    | i32 b => rw [hd] at h4; exact h4.elim
    | flt p b => rw [hd] at h4; exact h4.elim
    | i64 b =>
      rw [hd] at h4
      refine ⟨by omega, fun t r c ht hr hc => ?_, .inl ⟨_, rfl⟩⟩
      change b (i + t) r c = _
      rw [h4 (i + t) r c (by omega) hr hc, Nat.zero_add]
  | add start data n rows cols =>
    obtain ⟨h1, h2, h3⟩ := h
    refine ⟨h1.trans hT.1, h2.trans hT.2, fun M hM => ?_⟩
    obtain ⟨h4, h5⟩ := h3 M hM
    cases data with
    | i32 b => exact h5.elim
    | flt p b => exact h5.elim
    | i64 b => exact ⟨h4, fun t r c ht hr hc => h5 t r c ht hr hc, .inl ⟨_, rfl⟩⟩

theorem fromFlt {p : Prec} {a : Nat → Nat → Nat → Flt} (hT : f.rows = T.rows ∧ f.cols = T.cols) {cmd : Cmd}
    (h : Spec.From (.flt p a) N f cmd) : cmd.Of (NextFlt p a N f.rows f.cols) T f := by
  cases cmd with
  | init f' => exact h
  | copy src limit commitEvery =>
    obtain ⟨h1, h2, h3, h4⟩ := h
    refine ⟨h1.trans hT.1, h2.trans hT.2, fun i n hn => ?_⟩
    cases hd : src.data with
    | i32 b => rw [hd] at h4; exact h4.elim
    | i64 b => rw [hd] at h4; exact h4.elim
    | flt q b =>
      rw [hd] at h4
      obtain ⟨rfl, h4⟩ := h4
      refine ⟨by omega, _, rfl, fun t r c ht hr hc => ?_⟩
      rw [h4 (i + t) r c (by omega) hr hc, Nat.zero_add]
  | add start data n rows cols =>
    obtain ⟨h1, h2, h3⟩ := h
    refine ⟨h1.trans hT.1, h2.trans hT.2, fun M hM => ?_⟩
    obtain ⟨h4, h5⟩ := h3 M hM
    cases data with
    | i32 b => exact h5.elim
    | i64 b => exact h5.elim
    | flt q b =>
      obtain ⟨rfl, h5⟩ := h5
      exact ⟨h4, _, rfl, fun t r c ht hr hc => h5 t r c ht hr hc⟩

theorem fixedInt {D : Nat → Nat → Nat → Int64} {enc : MMEncoding} (hf : f.Fits utf8 enc) (henc : enc ≠ .time)
    (hint : IntBase clog f.k2Levels D N f.rows f.cols f.chunkSize f.spanSize) (hfuel : 32 ≤ fuel)
    (hrf : f.k2Levels.length + 34 ≤ readFuel) :
    Fixed H utf8 clog lg fuel readFuel (hint.theory H enc) f (NextInt D N f.rows f.cols) N :=
  ⟨hf, rfl, rfl, rfl, rfl, ⟨henc, _, fun log m a n hK => IntChunk.ground hK utf8 log (List.Subset.refl _)⟩,
    fun _ _ _ h => h.1, hint.appends hfuel (by omega) (.inl trivial)⟩

theorem serving64 {D : Nat → Nat → Nat → Int64}
    (hint : IntBase clog f.k2Levels D N f.rows f.cols f.chunkSize f.spanSize)
    (hrf : f.k2Levels.length + 34 ≤ readFuel) :
    Serving H utf8 readFuel (hint.theory H .i64) f .i64 D := by
  intro d log M hi hnc
  obtain ⟨v, m, h1, h2, h3, h4, -⟩ := hi.arrays hint _ (List.Subset.refl _) hnc hrf
  exact ⟨v, m, h1, Variable.data_ok h2 h3, h4⟩

theorem serving32 {a : Nat → Nat → Nat → Int32}
    (hint : IntBase clog f.k2Levels (fun t r c => (a t r c).toInt64) N f.rows f.cols f.chunkSize f.spanSize)
    (hrf : f.k2Levels.length + 34 ≤ readFuel) :
    Serving H utf8 readFuel (hint.theory H .i32) f .i32 a := by
  intro d log M hi hnc
  obtain ⟨v, m, h1, h2, h3, h4, -⟩ := hi.arrays hint _ (List.Subset.refl _) hnc hrf
  refine ⟨v, m, h1, Variable.data_ok h2 h3, ?_⟩
  exact (h4.map fun v => v.toInt32).congr (data' := a) fun t r c _ _ _ => by simp

theorem servingFlt {p : Prec} {B : Nat} {D : Nat → Nat → Nat → Flt}
    (h : FltBase clog lg f.k2Levels p B (if f.round then some f.bits else none) D N f.rows f.cols f.chunkSize
      f.spanSize) (hrf : f.k2Levels.length + 34 ≤ readFuel) :
    Serving H utf8 readFuel (h.theory H p.kind.encoding) f p.kind (fun t r c => (D t r c).rounded B) := by
  intro d log M hi hnc
  obtain ⟨v, m, h1, h2, h3, h4⟩ := hi.floats h _ (List.Subset.refl _) hnc hrf
  refine ⟨v, m, h1, Variable.data_ok h2 h3, ?_⟩
  cases p <;> exact h4

/-- C70: however many runs there are, in whatever order, and wherever they are broken off, but while the
file with the head is written: once the data set has been made, the head leads to a data set that holds
exactly the first `M` instants of the source, and later runs only make `M` greater. Here for a variable of
32-bit integers. -/
theorem C70_i32 (a : Nat → Nat → Nat → Int32) (hf : f.Fits utf8 .i32)
    (hset : Settings clog f.k2Levels N f.rows f.cols f.chunkSize f.spanSize)
    (hfuel : 32 ≤ fuel) (hrf : f.k2Levels.length + 34 ≤ readFuel)
    (cmds more : List (Cmd × (Nat → Event))) (world : World) (hw : world.head = .missing)
    (hc : ∀ c ∈ cmds ++ more, Spec.From (.i32 a) N f c.1 ∧ ∀ i, (c.2 i).Ok True utf8 readFuel)
    (hnc : (runs H utf8 clog lg fuel (cmds ++ more) world).log.NoCollision H) :
    ∃ M M', M ≤ M' ∧ M' ≤ N ∧
      ((runs H utf8 clog lg fuel cmds world).head = .missing ∧ M = 0 ∨
        Spec.Serves H utf8 readFuel f .i32 a (runs H utf8 clog lg fuel cmds world) M) ∧
      ((runs H utf8 clog lg fuel (cmds ++ more) world).head = .missing ∧ M' = 0 ∨
        Spec.Serves H utf8 readFuel f .i32 a (runs H utf8 clog lg fuel (cmds ++ more) world) M') :=
  safe (fixedInt hf (by decide) (base32 hset a) hfuel hrf) (serving32 (base32 hset a) hrf) cmds more world hw
    (fun c h => ⟨from32 ⟨rfl, rfl⟩ (hc c h).1, (hc c h).2⟩) hnc

/-- C70 for 64-bit integers.

Partial: no square of a chunk is split by overflow (`IntBase`, see `C07_exact`). -/
theorem C70_i64_partial (a : Nat → Nat → Nat → Int64) (hf : f.Fits utf8 .i64)
    (hint : IntBase clog f.k2Levels a N f.rows f.cols f.chunkSize f.spanSize)
    (hfuel : 32 ≤ fuel) (hrf : f.k2Levels.length + 34 ≤ readFuel)
    (cmds more : List (Cmd × (Nat → Event))) (world : World) (hw : world.head = .missing)
    (hc : ∀ c ∈ cmds ++ more, Spec.From (.i64 a) N f c.1 ∧ ∀ i, (c.2 i).Ok True utf8 readFuel)
    (hnc : (runs H utf8 clog lg fuel (cmds ++ more) world).log.NoCollision H) :
    ∃ M M', M ≤ M' ∧ M' ≤ N ∧
      ((runs H utf8 clog lg fuel cmds world).head = .missing ∧ M = 0 ∨
        Spec.Serves H utf8 readFuel f .i64 a (runs H utf8 clog lg fuel cmds world) M) ∧
      ((runs H utf8 clog lg fuel (cmds ++ more) world).head = .missing ∧ M' = 0 ∨
        Spec.Serves H utf8 readFuel f .i64 a (runs H utf8 clog lg fuel (cmds ++ more) world) M') :=
  safe (fixedInt hf (by decide) hint hfuel hrf) (serving64 hint hrf) cmds more world hw
    (fun c h => ⟨from64 ⟨rfl, rfl⟩ (hc c h).1, (hc c h).2⟩) hnc

theorem fixedFlt {p : Prec} {B : Nat} {D : Nat → Nat → Nat → Flt} (hf : f.Fits utf8 p.kind.encoding)
    (h : FltBase clog lg f.k2Levels p B (if f.round then some f.bits else none) D N f.rows f.cols f.chunkSize
      f.spanSize) (hfuel : 32 ≤ fuel) (hrf : f.k2Levels.length + 34 ≤ readFuel) :
    Fixed H utf8 clog lg fuel readFuel (h.theory H p.kind.encoding) f (NextFlt p D N f.rows f.cols) N :=
  ⟨hf, rfl, rfl, rfl, rfl, ⟨by cases p <;> exact fun h => (nomatch h),
      _, fun log m a n hK => FltChunk.ground hK utf8 log (List.Subset.refl _)⟩, fun _ _ _ h => h.1,
    h.appends hfuel (by omega) (.inl trivial)⟩

/-- C70 for floats, as in the data sets of the example: what is read is the source, rounded.

Partial as C31 for floats, but the superchunk builder may refuse rasters (`FltBase`). -/
theorem C70_float_partial {p : Prec} {B : Nat} (a : Nat → Nat → Nat → Flt) (hf : f.Fits utf8 p.kind.encoding)
    (hflt : FltBase clog lg f.k2Levels p B (if f.round then some f.bits else none) a N f.rows f.cols f.chunkSize
      f.spanSize)
    (hfuel : 32 ≤ fuel) (hrf : f.k2Levels.length + 34 ≤ readFuel)
    (cmds more : List (Cmd × (Nat → Event))) (world : World) (hw : world.head = .missing)
    (hc : ∀ c ∈ cmds ++ more, Spec.From (.flt p a) N f c.1 ∧ ∀ i, (c.2 i).Ok True utf8 readFuel)
    (hnc : (runs H utf8 clog lg fuel (cmds ++ more) world).log.NoCollision H) :
    ∃ M M', M ≤ M' ∧ M' ≤ N ∧
      ((runs H utf8 clog lg fuel cmds world).head = .missing ∧ M = 0 ∨
        Spec.Serves H utf8 readFuel f p.kind (fun t r c => (a t r c).rounded B)
          (runs H utf8 clog lg fuel cmds world) M) ∧
      ((runs H utf8 clog lg fuel (cmds ++ more) world).head = .missing ∧ M' = 0 ∨
        Spec.Serves H utf8 readFuel f p.kind (fun t r c => (a t r c).rounded B)
          (runs H utf8 clog lg fuel (cmds ++ more) world) M') :=
  safe (fixedFlt hf hflt hfuel hrf) (servingFlt hflt hrf) cmds more world hw
    (fun c h => ⟨fromFlt ⟨rfl, rfl⟩ (hc c h).1, (hc c h).2⟩) hnc

/-- C70: after any runs, a `copy` that is not broken off copies all that is left of the source, or, with a
limit, all chunks that the limit begins; if there is nothing left, it fails and changes nothing.

Partial: the superchunk builder accepts the rasters (`IntVar`, see C26), and no square is split
by overflow (`C07_exact`). -/
theorem C70_copy_i64_partial (a : Nat → Nat → Nat → Int64) (hf : f.Fits utf8 .i64)
    (hint : IntVar clog f.k2Levels a N f.rows f.cols f.chunkSize f.spanSize)
    (hfuel : 32 ≤ fuel) (hrf : f.k2Levels.length + 34 ≤ readFuel)
    (cmds : List (Cmd × (Nat → Event))) (world : World) (hw : world.head = .missing)
    (hc : ∀ c ∈ cmds, Spec.From (.i64 a) N f c.1 ∧ ∀ i, (c.2 i).Ok True utf8 readFuel)
    (before : World) (hb : before = runs H utf8 clog lg fuel cmds world) (hm : before.head ≠ .missing)
    (src : Source) (limit : Option Int) (commitEvery : Nat) (hsrc : Spec.From (.i64 a) N f (.copy src limit commitEvery))
    (env : Nat → Event) (henv : ∀ i, (env i).Ok False utf8 readFuel) (after : World) (done : Bool)
    (hrun : (Cmd.copy src limit commitEvery).run H utf8 clog lg fuel env before = (after, done))
    (hnc : after.log.NoCollision H) :
    ∃ M, M ≤ N ∧ Spec.Serves H utf8 readFuel f .i64 a before M ∧
      if M < src.total then
        done = true ∧ Spec.Serves H utf8 readFuel f .i64 a after (Spec.copied M src.total f.chunkSize limit)
      else done = false ∧ Spec.Serves H utf8 readFuel f .i64 a after M := by
  subst hb
  have := live (lg := lg) (fixedInt hf (by decide) hint.toIntBase hfuel hrf) (hint.appends hfuel (by omega))
    (serving64 hint.toIntBase hrf) cmds world hw (fun c h => ⟨from64 ⟨rfl, rfl⟩ (hc c h).1, (hc c h).2⟩) hm src limit
    commitEvery (from64 (T := hint.toIntBase.theory H .i64) ⟨rfl, rfl⟩ hsrc) env henv (by rw [hrun]; exact hnc)
  rw [hrun] at this
  exact this

/-- C70 for floats. Partial as C31 for floats (`FltVar`). -/
theorem C70_copy_float_partial {p : Prec} {B : Nat} (a : Nat → Nat → Nat → Flt)
    (hf : f.Fits utf8 p.kind.encoding)
    (hflt : FltVar clog lg f.k2Levels p B (if f.round then some f.bits else none) a N f.rows f.cols f.chunkSize
      f.spanSize)
    (hfuel : 32 ≤ fuel) (hrf : f.k2Levels.length + 34 ≤ readFuel)
    (cmds : List (Cmd × (Nat → Event))) (world : World) (hw : world.head = .missing)
    (hc : ∀ c ∈ cmds, Spec.From (.flt p a) N f c.1 ∧ ∀ i, (c.2 i).Ok True utf8 readFuel)
    (before : World) (hb : before = runs H utf8 clog lg fuel cmds world) (hm : before.head ≠ .missing)
    (src : Source) (limit : Option Int) (commitEvery : Nat)
    (hsrc : Spec.From (.flt p a) N f (.copy src limit commitEvery))
    (env : Nat → Event) (henv : ∀ i, (env i).Ok False utf8 readFuel) (after : World) (done : Bool)
    (hrun : (Cmd.copy src limit commitEvery).run H utf8 clog lg fuel env before = (after, done))
    (hnc : after.log.NoCollision H) :
    ∃ M, M ≤ N ∧ Spec.Serves H utf8 readFuel f p.kind (fun t r c => (a t r c).rounded B) before M ∧
      if M < src.total then
        done = true ∧ Spec.Serves H utf8 readFuel f p.kind (fun t r c => (a t r c).rounded B) after
          (Spec.copied M src.total f.chunkSize limit)
      else done = false ∧ Spec.Serves H utf8 readFuel f p.kind (fun t r c => (a t r c).rounded B) after M := by
  subst hb
  have := live (fixedFlt hf hflt.toFltBase hfuel hrf) (hflt.appends hfuel (by omega))
    (servingFlt hflt.toFltBase hrf) cmds world hw (fun c h => ⟨fromFlt ⟨rfl, rfl⟩ (hc c h).1, (hc c h).2⟩) hm src limit
    commitEvery (fromFlt (T := hflt.toFltBase.theory H p.kind.encoding) ⟨rfl, rfl⟩ hsrc) env henv
    (by rw [hrun]; exact hnc)
  rw [hrun] at this
  exact this

theorem alive (hx : Fixed H utf8 clog lg fuel readFuel T f Next N)
    (ha : Appends False H utf8 clog lg fuel readFuel T f.k2Levels (if f.round then some f.bits else none) Next)
    (hs : Serving H utf8 readFuel T f kind data)
    (cmds : List (Cmd × (Nat → Event))) (world : World) (hw : world.head = .missing)
    (hc : ∀ c ∈ cmds, c.1.Of Next T f ∧ ∀ i, (c.2 i).Ok True utf8 readFuel)
    (before : World) (hb : before = runs H utf8 clog lg fuel cmds world) (hm : before.head ≠ .missing)
    (start : Int) (part : NdArray) (n rows cols : Nat) (hadd : (Cmd.add start part n rows cols).Of Next T f)
    (env : Nat → Event) (henv : ∀ i, (env i).Ok False utf8 readFuel) (after : World) (done : Bool)
    (hrun : (Cmd.add start part n rows cols).run H utf8 clog lg fuel env before = (after, done))
    (hnc : after.log.NoCollision H) :
    ∃ M, M ≤ N ∧ Spec.Serves H utf8 readFuel f kind data before M ∧ done = true ∧
      Spec.Serves H utf8 readFuel f kind data after (if start = M then M + n else M) := by
  have hmono := Cmd.script_mono (H := H) (utf8 := utf8) (clog := clog) (lg := lg) (fuel := fuel)
    (.add start part n rows cols) env (before, 0)
  unfold Cmd.run at hrun
  have hl : ((Cmd.add start part n rows cols).script H utf8 clog lg fuel env (before, 0)).2.1 = after :=
    congrArg Prod.fst hrun
  rw [hl] at hmono
  have hnc1 := NoCollision.mono hmono hnc
  subst hb
  obtain ⟨M, -, h1, h2⟩ := runs_state hx cmds world 0 (.inl ⟨hw, rfl⟩) (Nat.zero_le _) hc hnc1
  have h2 := h2.resolve_left fun h => hm h.1
  refine ⟨M, h1, h2.serves hs hnc1, ?_⟩
  obtain ⟨rfl, rfl, hd⟩ := hadd
  rcases add_runs ha hx.sound h2 start part n (hd M) env 0 henv (by
    change Saved.NoCollision H ((Cmd.add start part n T.rows T.cols).script H utf8 clog lg fuel env _).2.1.log
    rw [hl]
    exact hnc) with ⟨a, s, e, g1⟩ | ⟨g, s, e, g1, -⟩
  · unfold Cmd.script at hrun
    simp only at hrun
    rw [e] at hrun
    cases hrun
    exact ⟨rfl, g1.serves hs hnc⟩
  · exact g1.elim

/-- C70: after any runs, an `add` that is not broken off appends the instants of its file if they begin
where the variable ends; if they do not, it changes nothing (and the run ends as if it had succeeded).

Partial: as `C70_copy_i64_partial`. -/
theorem C70_add_i64_partial (a : Nat → Nat → Nat → Int64) (hf : f.Fits utf8 .i64)
    (hint : IntVar clog f.k2Levels a N f.rows f.cols f.chunkSize f.spanSize)
    (hfuel : 32 ≤ fuel) (hrf : f.k2Levels.length + 34 ≤ readFuel)
    (cmds : List (Cmd × (Nat → Event))) (world : World) (hw : world.head = .missing)
    (hc : ∀ c ∈ cmds, Spec.From (.i64 a) N f c.1 ∧ ∀ i, (c.2 i).Ok True utf8 readFuel)
    (before : World) (hb : before = runs H utf8 clog lg fuel cmds world) (hm : before.head ≠ .missing)
    (start : Int) (part : NdArray) (n rows cols : Nat)
    (hadd : Spec.From (.i64 a) N f (.add start part n rows cols))
    (env : Nat → Event) (henv : ∀ i, (env i).Ok False utf8 readFuel) (after : World) (done : Bool)
    (hrun : (Cmd.add start part n rows cols).run H utf8 clog lg fuel env before = (after, done))
    (hnc : after.log.NoCollision H) :
    ∃ M, M ≤ N ∧ Spec.Serves H utf8 readFuel f .i64 a before M ∧ done = true ∧
      Spec.Serves H utf8 readFuel f .i64 a after (if start = M then M + n else M) :=
  alive (lg := lg) (fixedInt hf (by decide) hint.toIntBase hfuel hrf) (hint.appends hfuel (by omega))
    (serving64 hint.toIntBase hrf) cmds world hw (fun c h => ⟨from64 ⟨rfl, rfl⟩ (hc c h).1, (hc c h).2⟩) before hb hm
    start part n rows cols (from64 (T := hint.toIntBase.theory H .i64) ⟨rfl, rfl⟩ hadd) env henv after done hrun hnc

/-- C70 for floats. Partial as C31 for floats (`FltVar`). -/
theorem C70_add_float_partial {p : Prec} {B : Nat} (a : Nat → Nat → Nat → Flt)
    (hf : f.Fits utf8 p.kind.encoding)
    (hflt : FltVar clog lg f.k2Levels p B (if f.round then some f.bits else none) a N f.rows f.cols f.chunkSize
      f.spanSize)
    (hfuel : 32 ≤ fuel) (hrf : f.k2Levels.length + 34 ≤ readFuel)
    (cmds : List (Cmd × (Nat → Event))) (world : World) (hw : world.head = .missing)
    (hc : ∀ c ∈ cmds, Spec.From (.flt p a) N f c.1 ∧ ∀ i, (c.2 i).Ok True utf8 readFuel)
    (before : World) (hb : before = runs H utf8 clog lg fuel cmds world) (hm : before.head ≠ .missing)
    (start : Int) (part : NdArray) (n rows cols : Nat)
    (hadd : Spec.From (.flt p a) N f (.add start part n rows cols))
    (env : Nat → Event) (henv : ∀ i, (env i).Ok False utf8 readFuel) (after : World) (done : Bool)
    (hrun : (Cmd.add start part n rows cols).run H utf8 clog lg fuel env before = (after, done))
    (hnc : after.log.NoCollision H) :
    ∃ M, M ≤ N ∧ Spec.Serves H utf8 readFuel f p.kind (fun t r c => (a t r c).rounded B) before M ∧ done = true ∧
      Spec.Serves H utf8 readFuel f p.kind (fun t r c => (a t r c).rounded B) after
        (if start = M then M + n else M) :=
  alive (fixedFlt hf hflt.toFltBase hfuel hrf) (hflt.appends hfuel (by omega))
    (servingFlt hflt.toFltBase hrf) cmds world hw (fun c h => ⟨fromFlt ⟨rfl, rfl⟩ (hc c h).1, (hc c h).2⟩) before hb hm
    start part n rows cols (fromFlt (T := hflt.toFltBase.theory H p.kind.encoding) ⟨rfl, rfl⟩ hadd) env henv after done
    hrun hnc

/-- C70 is false if writing the head is broken off: then no run does anything any more, `init` included. -/
theorem C70_lost (world : World) (hl : world.head = .lost) (cmd : Cmd) (env : Nat → Event) :
    cmd.run H utf8 clog lg fuel env world = (world, false) := by
  have key : Stuck (cmd.script H utf8 clog lg fuel) world → cmd.run H utf8 clog lg fuel env world = (world, false) := by
    intro h
    obtain ⟨g, n, e⟩ := h env 0
    unfold Cmd.run
    rw [e]
    rfl
  refine key ?_
  cases cmd with
  | init f => exact init_stuck (by simp [hl]) f
  | copy src limit commitEvery => exact (current_stuck (by simp [hl])).bind _
  | add start data n rows cols => exact (current_stuck (by simp [hl])).bind _

end

/-- The number of instants of the first variable of the data set at the head, for 64-bit integers. -/
def count (H : Hash) (utf8 : List Byte → Bool) (world : World) : Option Nat :=
  match world.head with
  | .at cid =>
    match (world.log.load H).getDataset utf8 cid with
    | .ok d =>
      match d.variables with
      | v :: _ =>
        match v.data .i64 utf8 (world.log.load H) with
        | .ok m => m.shape.map fun s => s.1
        | .error _ => none
      | [] => none
    | .error _ => none
  | _ => none

theorem Spec.Serves.count {H : Hash} {utf8 : List Byte → Bool} {readFuel : Nat} {f : Factory}
    {data : Nat → Nat → Nat → Int64} {world : World} {M : Nat}
    (h : Spec.Serves H utf8 readFuel f .i64 data world M) : count H utf8 world = some M := by
  obtain ⟨cid, d, v, m, h1, h2, -, h3, -, h4, h5⟩ := h
  unfold Example.count
  rw [h1]
  simp only
  rw [h2]
  simp only
  rw [h3]
  simp only
  rw [h4]
  simp only
  rw [h5.shape]
  rfl

/-! ### The data sets of the program -/

/-- C70: the levels of `cpc_precip` are accepted whatever the data, and what it sets up fits the format. -/
theorem C70_cpc {utf8 : List Byte → Bool} {clog : Nat → Nat} {lg : Rat → Int} (hclog : ClogOk clog 2 720)
    (hu : ∀ s ∈ ["time", "latitude", "longitude", "precip"], utf8 (ascii s) = true) :
    cpcPrecip.Fits utf8 Prec.single.kind.encoding ∧ LevelsOk 2 cpcPrecip.chunkSize cpcPrecip.k2Levels ∧
    (∀ (n : Nat) (α : Type) (get : Nat → Nat → Nat → α),
      BuildOk clog 2 n cpcPrecip.k2Levels get cpcPrecip.rows cpcPrecip.cols) ∧
    ∀ (B N : Nat) (a : Nat → Nat → Nat → Flt), FltBase clog lg cpcPrecip.k2Levels .single B none a N cpcPrecip.rows
        cpcPrecip.cols cpcPrecip.chunkSize cpcPrecip.spanSize →
      FltVar clog lg cpcPrecip.k2Levels .single B none a N cpcPrecip.rows cpcPrecip.cols cpcPrecip.chunkSize
        cpcPrecip.spanSize := by
  have hb : ∀ (n : Nat) (α : Type) (get : Nat → Nat → Nat → α),
      BuildOk clog 2 n cpcPrecip.k2Levels get cpcPrecip.rows cpcPrecip.cols := by
    intro n α get
    refine ⟨?_, trivial⟩
    change 10 = clog 720
    have h1 := (hclog 720 10 (by decide) (by decide)).2 (by decide)
    have h2 := mt (hclog 720 9 (by decide) (by decide)).1 (by decide)
    omega
  refine ⟨⟨⟨⟨⟨by decide, hu _ (by decide), trivial⟩, ⟨by decide, hu _ (by decide), ?_⟩,
    ⟨by decide, hu _ (by decide), ?_⟩, by decide, fun v hv => (nomatch hv), by decide, by decide,
    fun c hc => (nomatch hc)⟩, fun c hc => (nomatch hc)⟩, ⟨by decide, hu _ (by decide), fun b hb => (nomatch hb),
      by decide, by decide, by decide, by decide⟩, rfl⟩, ⟨by decide, by decide, by decide⟩, hb,
    fun B N a h => ⟨h, fun _ _ _ _ _ => hb _ _ _⟩⟩
  · change 360 < 2 ^ 32
    decide
  · change 720 < 2 ^ 32
    decide

/-- C70: the same of `era5_land_precip`. -/
theorem C70_era5 {utf8 : List Byte → Bool} {clog : Nat → Nat} {lg : Rat → Int} (hclog : ClogOk clog 2 3600)
    (hu : ∀ s ∈ ["time", "latitude", "longitude", "tp"], utf8 (ascii s) = true) :
    era5LandPrecip.Fits utf8 Prec.single.kind.encoding ∧
    LevelsOk 2 era5LandPrecip.chunkSize era5LandPrecip.k2Levels ∧
    (∀ (n : Nat) (α : Type) (get : Nat → Nat → Nat → α),
      BuildOk clog 2 n era5LandPrecip.k2Levels get era5LandPrecip.rows era5LandPrecip.cols) ∧
    ∀ (B N : Nat) (a : Nat → Nat → Nat → Flt), FltBase clog lg era5LandPrecip.k2Levels .single B none a N
        era5LandPrecip.rows era5LandPrecip.cols era5LandPrecip.chunkSize era5LandPrecip.spanSize →
      FltVar clog lg era5LandPrecip.k2Levels .single B none a N era5LandPrecip.rows era5LandPrecip.cols
        era5LandPrecip.chunkSize era5LandPrecip.spanSize := by
  have hten : ∀ m, 512 < m → m ≤ 1024 → clog m = 10 := by
    intro m h1 h2
    have h3 := (hclog m 10 (by omega) (by omega)).2 h2
    have h4 := mt (hclog m 9 (by omega) (by omega)).1 (by omega)
    omega
  have hb : ∀ (n : Nat) (α : Type) (get : Nat → Nat → Nat → α),
      BuildOk clog 2 n era5LandPrecip.k2Levels get era5LandPrecip.rows era5LandPrecip.cols := by
    intro n α get
    constructor
    · change 12 = clog 3600
      have h1 := (hclog 3600 12 (by decide) (by decide)).2 (by decide)
      have h2 := mt (hclog 3600 11 (by decide) (by decide)).1 (by decide)
      omega
    · intro i j hi hj
      change i * 1024 < 1801 at hi
      change j * 1024 < 3600 at hj
      refine .inr (.inr ⟨?_, trivial⟩)
      change 10 = clog (max (min 1024 (1801 - i * 1024)) (min 1024 (3600 - j * 1024)))
      exact (hten _ (by omega) (by omega)).symm
  refine ⟨⟨⟨⟨⟨by decide, hu _ (by decide), trivial⟩, ⟨by decide, hu _ (by decide), ?_⟩,
    ⟨by decide, hu _ (by decide), ?_⟩, by decide, fun v hv => (nomatch hv), by decide, by decide,
    fun c hc => (nomatch hc)⟩, fun c hc => (nomatch hc)⟩, ⟨by decide, hu _ (by decide), fun b hb => (nomatch hb),
      by decide, by decide, by decide, by decide⟩, rfl⟩, ⟨by decide, by decide, by decide⟩, hb,
    fun B N a h => ⟨h, fun _ _ _ _ _ => hb _ _ _⟩⟩
  · change 1801 < 2 ^ 32
    decide
  · change 3600 < 2 ^ 32
    decide

/-! ### Examples -/

def exampleFactory : Factory :=
  ⟨exampleCoord 1, exampleCoord 2, exampleCoord 3, 4, 4, [7], 2, 2, [1, 1], false, 0, .int64⟩

def exampleSource : Source := ⟨.i64 exampleGrid, 5, 4, 4⟩

/-- Nothing is broken off. -/
def smooth : Nat → Event := fun _ => .goes exampleFill

/-- A step is broken off, after an object was saved. -/
def brokenAt (k : Nat) : Nat → Event := fun i => if i = k then .breaks [[1, 2, 3]] false else .goes exampleFill

/-- A step is broken off, while the head is written. -/
def tornAt (k : Nat) : Nat → Event := fun i => if i = k then .breaks [] true else .goes exampleFill

theorem exampleFactory_fits : exampleFactory.Fits (fun _ => true) .i64 where
  dataset := exampleHistory.dataset
  «variable» := exampleHistory.fits
  type := rfl

theorem exampleGrid_var : IntVar exampleClog [1, 1] exampleGrid 6 4 4 2 2 := by
  refine ⟨⟨exampleClogOk.mono (by decide), by decide, by decide, by decide, by decide, by decide, by decide,
    by decide, by decide, by decide, ⟨by decide, by decide, by decide⟩, ?_⟩, fun a n _ _ _ => ⟨rfl, trivial⟩⟩
  intro t0 t h1 _ h3
  refine NoOverflow.noSplit fun r c hr hc => ?_
  have key : ∀ t0, t0 < 6 → ∀ t, t < 6 → ∀ r, r < 4 → ∀ c, c < 4 →
      (exampleGrid t r c - exampleGrid t0 r c).toInt =
        (exampleGrid t r c).toInt - (exampleGrid t0 r c).toInt := by decide +kernel
  exact key t0 (by omega) t h3 r hr c hc

theorem smooth_ok (w : Prop) (i : Nat) : (smooth i).Ok w (fun _ => true) 40 := exampleFill_valid

theorem brokenAt_ok (k i : Nat) : (brokenAt k i).Ok True (fun _ => true) 40 := by
  unfold brokenAt
  split
  · exact ⟨trivial, rfl⟩
  · exact exampleFill_valid

theorem exampleCopy_from (limit : Option Int) (commitEvery : Nat) :
    Spec.From (.i64 exampleGrid) 6 exampleFactory (.copy exampleSource limit commitEvery) :=
  ⟨rfl, rfl, by decide, fun t r c _ _ _ => by rw [Nat.zero_add]⟩

/-- The data set is made, a copy is broken off after the second of three chunks and the commit of the
first, another one copies the rest, and a file is added. -/
def exampleRuns : List (Cmd × (Nat → Event)) :=
  [(.init exampleFactory, smooth), (.copy exampleSource none 1, brokenAt 8), (.copy exampleSource none 10, smooth),
    (.add 5 (.i64 fun t => exampleGrid (5 + t)) 1 4 4, smooth)]

theorem exampleRuns_ok : ∀ c ∈ exampleRuns, Spec.From (.i64 exampleGrid) 6 exampleFactory c.1 ∧
    ∀ i, (c.2 i).Ok True (fun _ => true) 40 := by
  intro c hc
  simp only [exampleRuns, List.mem_cons, List.not_mem_nil, or_false] at hc
  rcases hc with rfl | rfl | rfl | rfl
  · exact ⟨rfl, smooth_ok True⟩
  · exact ⟨exampleCopy_from _ _, brokenAt_ok 8⟩
  · exact ⟨exampleCopy_from _ _, smooth_ok True⟩
  · refine ⟨⟨rfl, rfl, fun M hM => ?_⟩, smooth_ok True⟩
    obtain rfl : M = 5 := by omega
    exact ⟨by decide, fun t r c _ _ _ => rfl⟩

/-- How many instants there are after each of the runs. -/
example : (List.range 5).map (fun k => count exampleHash (fun _ => true) (runs exampleHash (fun _ => true)
    exampleClog (fun _ => 0) 32 (exampleRuns.take k) ⟨[], .missing⟩)) =
      [none, some 0, some 2, some 5, some 6] := by
  decide +kernel

theorem exampleRuns_noCollision : (runs exampleHash (fun _ => true) exampleClog (fun _ => 0) 32 exampleRuns
    ⟨[], .missing⟩).log.NoCollision exampleHash := by
  unfold Saved.NoCollision
  decide +kernel

/-- The assumptions of `C70_i64_partial`. -/
example : ∃ M M', M ≤ M' ∧ M' ≤ 6 ∧
    ((runs exampleHash (fun _ => true) exampleClog (fun _ => 0) 32 (exampleRuns.take 2) ⟨[], .missing⟩).head =
        .missing ∧ M = 0 ∨
      Spec.Serves exampleHash (fun _ => true) 40 exampleFactory .i64 exampleGrid
        (runs exampleHash (fun _ => true) exampleClog (fun _ => 0) 32 (exampleRuns.take 2) ⟨[], .missing⟩) M) ∧
    ((runs exampleHash (fun _ => true) exampleClog (fun _ => 0) 32 (exampleRuns.take 2 ++ exampleRuns.drop 2)
        ⟨[], .missing⟩).head = .missing ∧ M' = 0 ∨
      Spec.Serves exampleHash (fun _ => true) 40 exampleFactory .i64 exampleGrid
        (runs exampleHash (fun _ => true) exampleClog (fun _ => 0) 32 (exampleRuns.take 2 ++ exampleRuns.drop 2)
          ⟨[], .missing⟩) M') :=
  C70_i64_partial exampleGrid exampleFactory_fits exampleGrid_var.toIntBase (by decide) (by decide)
    (exampleRuns.take 2) (exampleRuns.drop 2) ⟨[], .missing⟩ rfl
    (by rw [List.take_append_drop]; exact exampleRuns_ok)
    (by rw [List.take_append_drop]; exact exampleRuns_noCollision)

/-- C70 is false of limits: a copy of one instant copies a chunk of two. -/
theorem C70_limit_wrong : ∃ after, (Cmd.copy exampleSource (some 1) 10).run exampleHash (fun _ => true) exampleClog
      (fun _ => 0) 32 smooth (runs exampleHash (fun _ => true) exampleClog (fun _ => 0) 32
        [(.init exampleFactory, smooth)] ⟨[], .missing⟩) = (after, true) ∧
    count exampleHash (fun _ => true) (runs exampleHash (fun _ => true) exampleClog (fun _ => 0) 32
        [(.init exampleFactory, smooth)] ⟨[], .missing⟩) = some 0 ∧
    Spec.Serves exampleHash (fun _ => true) 40 exampleFactory .i64 exampleGrid after 2 := by
  have hcount : count exampleHash (fun _ => true) (runs exampleHash (fun _ => true) exampleClog (fun _ => 0) 32
        [(.init exampleFactory, smooth)] ⟨[], .missing⟩) = some 0 := by decide +kernel
  rcases hrun : (Cmd.copy exampleSource (some 1) 10).run exampleHash (fun _ => true) exampleClog
      (fun _ => 0) 32 smooth (runs exampleHash (fun _ => true) exampleClog (fun _ => 0) 32
        [(.init exampleFactory, smooth)] ⟨[], .missing⟩) with ⟨after, done⟩
  have hnc : ((Cmd.copy exampleSource (some 1) 10).run exampleHash (fun _ => true) exampleClog
      (fun _ => 0) 32 smooth (runs exampleHash (fun _ => true) exampleClog (fun _ => 0) 32
        [(.init exampleFactory, smooth)] ⟨[], .missing⟩)).1.log.NoCollision exampleHash := by
    unfold Saved.NoCollision
    decide +kernel
  rw [hrun] at hnc
  obtain ⟨M, -, h1, h2⟩ := C70_copy_i64_partial (H := exampleHash) (utf8 := fun _ => true) (clog := exampleClog)
    (lg := fun _ => 0) (fuel := 32) (readFuel := 40) exampleGrid exampleFactory_fits exampleGrid_var (by decide)
    (by decide) [(.init exampleFactory, smooth)] ⟨[], .missing⟩ rfl (by
      intro c hc
      rw [List.mem_singleton] at hc
      subst hc
      exact ⟨rfl, smooth_ok True⟩) _ rfl (by decide +kernel) exampleSource (some 1) 10 (exampleCopy_from _ _)
    smooth (smooth_ok False) _ _ hrun hnc
  have := h1.count
  rw [hcount] at this
  cases this
  rw [if_pos (by decide)] at h2
  obtain ⟨rfl, h2⟩ := h2
  exact ⟨_, rfl, hcount, h2⟩

/-- C70 is false if the head is being written: the head is lost, though all 5 instants are in the store, and
no run helps any more (`C70_lost`). -/
theorem C70_head_wrong : (runs exampleHash (fun _ => true) exampleClog (fun _ => 0) 32
      [(.init exampleFactory, smooth), (.copy exampleSource none 10, tornAt 9)] ⟨[], .missing⟩).head = .lost ∧
    ∀ cmds, (runs exampleHash (fun _ => true) exampleClog (fun _ => 0) 32
      ([(.init exampleFactory, smooth), (.copy exampleSource none 10, tornAt 9)] ++ cmds) ⟨[], .missing⟩).head =
        .lost := by
  have h : (runs exampleHash (fun _ => true) exampleClog (fun _ => 0) 32
      [(.init exampleFactory, smooth), (.copy exampleSource none 10, tornAt 9)] ⟨[], .missing⟩).head = .lost := by
    decide +kernel
  refine ⟨h, fun cmds => ?_⟩
  rw [runs_append]
  generalize runs exampleHash (fun _ => true) exampleClog (fun _ => 0) 32
    [(.init exampleFactory, smooth), (.copy exampleSource none 10, tornAt 9)] ⟨[], .missing⟩ = w at h ⊢
  induction cmds with
  | nil => exact h
  | cons c cs ih =>
    unfold runs
    rw [C70_lost w h]
    exact ih

end Example

end Verif
