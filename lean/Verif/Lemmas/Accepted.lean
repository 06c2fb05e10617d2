import Verif.Lemmas.Capacity

/-! Histories in which appends may fail: arrays of another shape than the variable are refused; a
variable holds the arrays whose appends succeeded. -/
namespace Verif

open Prog hiding pure bind

section
variable {H : Hash} {utf8 : List Byte → Bool} {clog : Nat → Nat} {lg : Rat → Int} {fuel : Nat}

theorem Prog.Sat.any {α : Type} (m : Prog α) (log : Saved) : Sat True H m log fun _ _ => True := by
  intro _
  rcases h : m log with ⟨_ | a, log'⟩
  · exact .inr ⟨trivial, _, _, rfl⟩
  · exact .inl ⟨_, _, rfl, trivial⟩

theorem Prog.Sat.fail {α : Type} {f : Fail} {log : Saved} {Q : α → Saved → Prop} :
    Sat True H (Prog.fail f : Prog α) log Q := fun _ => .inr ⟨trivial, f, log, rfl⟩

theorem Prog.Sat.post {α : Type} {m : Prog α} {Q : α → Prop} (h : Post m Q) (log : Saved) :
    Sat True H m log fun a _ => Q a := by
  intro _
  rcases e : m log with ⟨_ | a, log'⟩
  · exact .inr ⟨trivial, _, _, rfl⟩
  · exact .inl ⟨_, _, rfl, h _ _ _ e⟩

/-! ### Shapes that do not fit -/

/-- Structures of another shape are not added to a span. -/
theorem Span.append_other {sp : Span} {m : MMStruct3} {n r c : Nat} (hs : m.shape = some (n, r, c))
    (hne : r ≠ sp.rows ∨ c ≠ sp.cols) : Post (Span.append H utf8 sp m) fun _ => False := by
  unfold Span.append
  refine Post.bind (Post.any _) fun _ _ => ?_
  rw [hs]
  refine Post.bind (Q := fun x => x = (n, r, c)) (Post.pure rfl) ?_
  rintro _ rfl
  simp only
  rw [if_pos hne]
  exact Post.fail

theorem Span.update_other {sp : Span} {m : MMStruct3} {n r c : Nat} (hs : m.shape = some (n, r, c))
    (hne : r ≠ sp.rows ∨ c ≠ sp.cols) : Post (Span.update H utf8 sp m) fun _ => False :=
  Span.append_other (sp := { sp with
    instants := sp.spans.dropLast.length * sp.stride, spans := sp.spans.dropLast }) hs hne

theorem Span.append_keeps (sp : Span) (m : MMStruct3) :
    Post (Span.append H utf8 sp m) fun sp' => sp'.rows = sp.rows ∧ sp'.cols = sp.cols := by
  unfold Span.append
  refine Post.bind (Post.any _) fun _ _ => Post.bind (Post.any _) fun x _ => ?_
  split
  · exact Post.fail
  · rename_i h
    split
    · exact Post.fail
    · refine Post.bind (Post.any _) fun _ _ => Post.pure ?_
      simp only [not_or, not_not] at h
      exact h

/-- There is no place for a new span of another shape. -/
theorem openSpanLoop_other {v : Variable} {rows cols R C : Nat} (hne : rows ≠ R ∨ cols ≠ C) :
    ∀ (above : List Span) (l sp : Span), l.rows = R → l.cols = C → sp.rows = rows → sp.cols = cols →
    (∀ p ∈ above, p.rows = R ∧ p.cols = C) →
    Post (openSpanLoop H utf8 v rows cols l sp above) fun _ => False := by
  intro above
  induction above with
  | nil =>
    intro l sp h1 h2 h3 h4 _
    unfold openSpanLoop
    refine Post.bind (Span.append_other (n := l.instants) (r := R) (c := C) ?_ ?_) fun _ h => h.elim
    · change some (l.instants, l.rows, l.cols) = _
      rw [h1, h2]
    · change R ≠ rows ∨ C ≠ cols
      exact hne.imp Ne.symm Ne.symm
  | cons p rest ih =>
    intro l sp h1 h2 h3 h4 h5
    unfold openSpanLoop
    split
    · refine Post.bind (Span.append_keeps _ _) fun sp' h => ?_
      exact ih p sp' (h5 p (List.mem_cons_self ..)).1 (h5 p (List.mem_cons_self ..)).2 h.1 h.2
        fun q hq => h5 q (List.mem_cons_of_mem _ hq)
    · refine Post.bind (Span.append_other (n := sp.instants) (r := rows) (c := cols) ?_ ?_) fun _ h => h.elim
      · change some (sp.instants, sp.rows, sp.cols) = _
        rw [h3, h4]
      · rw [(h5 p (List.mem_cons_self ..)).1, (h5 p (List.mem_cons_self ..)).2]
        exact hne

variable {T : VarTheory}

theorem ChainF.shapes {log : Saved} : ∀ (rest : List Span) (i : Nat) (c : Span) (a n : Nat),
    ChainF H T log i c rest a n → ∀ p ∈ rest, p.rows = T.rows ∧ p.cols = T.cols := by
  intro rest
  induction rest with
  | nil => intro _ _ _ _ _ p hp; cases hp
  | cons q rest ih =>
    intro i c a n h p hp
    obtain ⟨h1, m, a', -, -, -, -, -, -, h2⟩ := h
    rcases List.mem_cons.1 hp with rfl | hp
    · exact ⟨h1.rows, h1.cols⟩
    · exact ih _ _ _ _ h2 p hp

theorem Variable.createOpenSpan_other {log : Saved} {v : Variable} {N tl rows cols : Nat} (hf : 32 ≤ fuel)
    (h : VarOpen H T log v N tl) (hne : rows ≠ T.rows ∨ cols ≠ T.cols) :
    Sat True H (v.createOpenSpan H utf8 fuel rows cols) log (fun _ _ => False) := by
  unfold Variable.createOpenSpan
  have hup : ∀ (sp : Span) (l : List Span), Mono (do
      let sp ← openSpanUp H utf8 sp l
      let cid ← Prog.save H (.struct (.span sp))
      pure { v with cid := cid } : Prog Variable) := by
    intro sp l
    rw [openSpanUp_eq]
    exact (saveSpansLoop_mono H utf8 _ _).bind fun s => (Mono.save H _).bind fun _ => Mono.pure _
  refine Sat.bind (Variable.tailSpans_mono H utf8 fuel v) ?_ (Variable.tailSpans_sat hf h) ?_
  · intro spans
    cases spans with
    | nil => exact Mono.fail _
    | cons l spans => exact (openSpanLoop_mono H utf8 v rows cols spans l _).bind fun x => hup _ _
  rintro _ _ - ⟨rfl, leaf, rest, a, rfl, h1, h2, -⟩
  simp only
  refine Sat.bind (openSpanLoop_mono H utf8 v rows cols rest leaf _) (fun x => hup _ _)
    (Sat.post (openSpanLoop_other hne rest leaf _ h1.shaped.rows h1.shaped.cols rfl rfl
      (ChainF.shapes rest _ _ _ _ h2)) log) fun _ _ _ h => h.elim

/-- The shape of what was built. -/
theorem buildChunk_shape (levels : List Nat) (b : MMBuffer3) (n rows cols : Nat) :
    Post (Prog.buildChunk H clog lg levels b n rows cols) fun m => m.shape = some (n, rows, cols) := by
  intro log m log' e
  unfold Prog.buildChunk at e
  cases hb : b.computeBits lg n rows cols with
  | none => rw [hb] at e; cases congrArg Prod.fst e
  | some b =>
    rw [hb] at e
    simp only at e
    cases hs : Superchunk.build H clog lg 2 levels log b n rows cols with
    | none => rw [hs] at e; cases congrArg Prod.fst e
    | some x =>
      rw [hs] at e
      obtain rfl : x.1.data = m := Except.ok.inj (congrArg Prod.fst e)
      cases levels with
      | nil => cases hs
      | cons level sub =>
        unfold Superchunk.build Superchunk.buildLevel at hs
        simp only at hs
        split at hs
        · cases hs
        split at hs
        · cases hs
        split at hs
        · cases hs
        split at hs
        · split at hs
          · cases hs
            rfl
          · cases hs
        · cases hs

theorem Variable.openIfFull_other {log : Saved} {v : Variable} {sp : Span} {rest : List Span}
    {a n rows cols : Nat} (hf : 32 ≤ fuel) (h1 : v.chunkSize = T.cs) (h2 : v.spanSize = T.ss)
    (h3 : v.encoding = T.enc) (ht : Tree H T log 0 sp a n n) (hc : Chain H T log 0 rest a)
    (hs : T.stride rest.length ≤ T.B) (hta : T.Tall rest.length a) (hn : a + n ≤ T.B)
    (hne : rows ≠ T.rows ∨ cols ≠ T.cols) :
    Sat True H (v.openIfFull H utf8 fuel rows cols sp rest) log (fun x _ =>
      x.2.1.rows = T.rows ∧ x.2.1.cols = T.cols) := by
  unfold Variable.openIfFull
  split
  · have hm : ∀ v : Variable, Mono (do
        let spans ← Variable.tailSpans H utf8 fuel v
        match spans with
        | [] => Prog.fail .panic
        | sp :: rest => if sp.spans.length = 0 then pure (v, sp, rest) else Prog.fail .panic :
          Prog (Variable × Span × List Span)) := by
      intro v
      refine (Variable.tailSpans_mono H utf8 fuel v).bind fun spans => ?_
      cases spans with
      | nil => exact Mono.fail _
      | cons l spans =>
        simp only
        split
        · exact Mono.pure _
        · exact Mono.fail _
    refine Sat.bind (Variable.saveSpans_mono H utf8 v _)
      (fun v => (Variable.createOpenSpan_mono H utf8 fuel v rows cols).bind hm)
      (Variable.saveSpans_sat h1 h2 h3 ht hc hs hta hn) ?_
    rintro _ log1 - ⟨hv1, cid1, rfl⟩
    exact Sat.bind (Variable.createOpenSpan_mono H utf8 fuel _ rows cols) hm
      (Variable.createOpenSpan_other hf hv1 hne) fun _ _ _ h => h.elim
  · exact Sat.pure ⟨ht.shaped.rows, ht.shaped.cols⟩

/-- An array of another shape that has instants is not appended. -/
theorem Variable.append_other {log : Saved} {v : Variable} {b : MMBuffer3} {N tl n rows cols : Nat}
    (hf : 32 ≤ fuel) (hv : VarInv H T log v N tl) (hN : N ≤ T.B)
    (hne : rows ≠ T.rows ∨ cols ≠ T.cols) (hn : 1 ≤ n) (update : Bool) :
    Sat True H (v.append H utf8 clog lg fuel b n rows cols update) log (fun _ _ => False) := by
  have hcs := T.cs_pos
  unfold Variable.append
  refine Sat.bind (Variable.tailSpans_mono H utf8 fuel v) ?_ (Variable.tailSpans_sat hf hv.toOpen) ?_
  · intro spans
    split
    · exact Mono.fail _
    · exact (Variable.appendLoop_mono H utf8 clog lg fuel _ _ _ _ _ v spans update).bind
        fun x => Variable.saveSpans_mono H utf8 _ _
  rintro _ _ - ⟨rfl, leaf, rest, a, rfl, c1, c2, c3, c4, c5⟩
  rw [hv.chunkSize, if_neg (by omega)]
  refine Sat.bind (Q := fun _ _ => False) (Variable.appendLoop_mono H utf8 clog lg fuel _ _ _ _ _ v _ update)
    (fun x => Variable.saveSpans_mono H utf8 _ _) ?_ fun _ _ _ h => h.elim
  have hpos : 0 < (n + T.cs - 1) / T.cs := (count_lt hcs n 0).2 (by omega)
  obtain ⟨k, hk⟩ : ∃ k, (n + T.cs - 1) / T.cs = k + 1 := ⟨_, (Nat.succ_pred_eq_of_pos hpos).symm⟩
  rw [hk, List.range_succ_eq_map, List.map_cons]
  unfold Variable.appendLoop
  refine Sat.bind (Mono.buildChunk H clog lg _ _ _ _ _) ?_ (Sat.post (buildChunk_shape _ _ _ _ _) log) ?_
  · intro chunk
    exact (Variable.openIfFull_mono H utf8 fuel v _ _ leaf rest).bind fun x =>
      (Span.addChunk_mono _ _ _).bind fun sp => Variable.appendLoop_mono H utf8 clog lg _ _ _ _ _ _ _ _ _
  intro chunk log1 hs1 hshape
  refine Sat.bind (Variable.openIfFull_mono H utf8 fuel v _ _ leaf rest)
    (fun x => (Span.addChunk_mono _ _ _).bind fun sp =>
      Variable.appendLoop_mono H utf8 clog lg _ _ _ _ _ _ _ _ _)
    (Variable.openIfFull_other hf hv.chunkSize hv.spanSize hv.encoding (c1.mono hs1) (c2.chain.mono hs1) c4 c5
      (by omega) hne) ?_
  rintro x log2 - ⟨x1, x2⟩
  refine Sat.bind (Q := fun _ _ => False) (Span.addChunk_mono _ _ _)
    (fun sp => Variable.appendLoop_mono H utf8 clog lg _ _ _ _ _ _ _ _ _) (Sat.post ?_ log2)
    fun _ _ _ h => h.elim
  unfold Span.addChunk
  split
  · exact Span.update_other hshape (by rw [x1, x2]; exact hne)
  · exact Span.append_other hshape (by rw [x1, x2]; exact hne)

/-- Of an array without instants the shape does not matter. -/
theorem Variable.append_none (v : Variable) (b : MMBuffer3) (rows cols rows' cols' : Nat) (update : Bool) :
    v.append H utf8 clog lg fuel b 0 rows cols update = v.append H utf8 clog lg fuel b 0 rows' cols' update := by
  unfold Variable.append
  congr 1
  funext spans
  split
  · rfl
  · rename_i h
    have : (0 + v.chunkSize - 1) / v.chunkSize = 0 := Nat.div_eq_of_lt (by omega)
    rw [this]
    rfl

/-- An append of an array of another shape fails, unless there is nothing to append. -/
theorem Variable.appendArray_other {log : Saved} {v : Variable} {data : NdArray}
    {N tl n rows cols : Nat} {fill : Fill} (hf : 32 ≤ fuel)
    (hv : VarInv H T log v N tl) (hN : N ≤ T.B) (hne : rows ≠ T.rows ∨ cols ≠ T.cols) :
    Sat True H (v.appendArray H utf8 clog lg fuel fill data n rows cols) log (fun _ _ => n = 0 ∧
      v.appendArray H utf8 clog lg fuel fill data n rows cols log =
        v.appendArray H utf8 clog lg fuel fill data n T.rows T.cols log) := by
  have hm : ∀ tail : MMStruct3, Mono (do
      let shape ← Prog.ofOption tail.shape
      let st ← Prog.store H
      match (fill tail st).2 with
      | some f => Prog.fail f
      | none =>
        if shape.2.1 ≠ rows ∨ shape.2.2 ≠ cols then Prog.fail .panic
        else
          Variable.append H utf8 clog lg fuel v
            ((data.prepend shape.1 (fill tail st).1).buffer v.round) (shape.1 + n) rows cols
            true : Prog Variable) := by
    intro tail
    refine (Mono.ofOption _).bind fun s => Mono.bind (fun _ => List.Subset.refl _) fun st => ?_
    cases (fill tail st).2 with
    | some f => exact Mono.fail _
    | none =>
      simp only
      split
      · exact Mono.fail _
      · exact Variable.append_mono H utf8 clog lg fuel v _ _ _ _ true
  have htail : ∀ o log', v.tailData H utf8 fuel log = (.ok o, log') → o = none → log = log' → n = 0 →
      v.appendArray H utf8 clog lg fuel fill data n rows cols log =
        v.appendArray H utf8 clog lg fuel fill data n T.rows T.cols log := by
    rintro _ _ e rfl rfl rfl
    unfold Variable.appendArray
    change Prog.bind _ _ log = Prog.bind _ _ log
    unfold Prog.bind
    rw [e]
    simp only
    rw [Variable.append_none]
  intro hnc
  have hnc0 : (v.tailData H utf8 fuel log).2.NoCollision H := by
    refine Prog.NoCollision.mono ?_ hnc
    unfold Variable.appendArray
    change _ ⊆ (Prog.bind _ _ log).2
    unfold Prog.bind
    rcases v.tailData H utf8 fuel log with ⟨_ | o, log'⟩
    · exact List.Subset.refl _
    · cases o with
      | none => exact Variable.append_mono H utf8 clog lg fuel v _ n _ _ false log'
      | some m => exact hm m log'
  obtain ⟨o, log', e, rfl, ho⟩ := Sat.ok (Variable.tailData_sat (utf8 := utf8) hf hv) hnc0
  split at ho
  · subst ho
    have he : v.appendArray H utf8 clog lg fuel fill data n rows cols log =
        v.append H utf8 clog lg fuel (data.buffer v.round) n rows cols false log := by
      unfold Variable.appendArray
      change Prog.bind _ _ log = _
      unfold Prog.bind
      rw [e]
    rcases Nat.eq_zero_or_pos n with rfl | hn
    · rcases h : v.appendArray H utf8 clog lg fuel fill data 0 rows cols log with ⟨f | a, l⟩
      · exact .inr ⟨trivial, _, _, rfl⟩
      · refine .inl ⟨a, l, rfl, rfl, ?_⟩
        rw [← h]
        exact htail none log e rfl rfl rfl
    · rw [he] at hnc ⊢
      rcases Variable.append_other (utf8 := utf8) (clog := clog) (lg := lg) (b := data.buffer v.round) hf hv hN hne
        hn false hnc with ⟨_, _, _, h⟩ | h
      · exact h.elim
      · exact .inr h
  · obtain ⟨m, cid, rfl, -, hK, -⟩ := ho
    refine .inr ⟨trivial, ?_⟩
    unfold Variable.appendArray
    change ∃ f log', Prog.bind _ _ log = _
    unfold Prog.bind
    rw [e]
    simp only
    rw [T.shape hK]
    change ∃ f log', Prog.bind _ _ log = _
    unfold Prog.bind
    change ∃ f log', Prog.bind _ _ log = _
    unfold Prog.bind
    have hst : Prog.store H log = (.ok (log.load H), log) := rfl
    rw [hst]
    simp only
    cases (fill m (log.load H)).2 with
    | some f => exact ⟨_, _, rfl⟩
    | none =>
      simp only
      rw [if_pos (hne.imp Ne.symm Ne.symm)]
      exact ⟨_, _, rfl⟩

/-! ### What was appended -/

variable (H utf8 clog lg fuel) in
/-- The arrays that an operation appended to a variable: none, if it failed. -/
def Op.taken (name : List Byte) (op : Op) (s : Dataset × Saved) : List (NdArray × Nat) :=
  match (op.prog H utf8 clog lg fuel s.1 s.2).1 with
  | .ok _ => arrays name [op]
  | .error _ => []

variable (H utf8 clog lg fuel) in
/-- The arrays whose appends to a variable succeeded in a history, with their numbers of instants. -/
def accepted (name : List Byte) : List Op → Dataset × Saved → List (NdArray × Nat)
  | [], _ => []
  | op :: ops, s => op.taken H utf8 clog lg fuel name s ++ accepted name ops (op.step H utf8 clog lg fuel s)

/-- The assumption on one operation: what `append` reads back of the variable is possible. -/
def Op.Reads (utf8 : List Byte → Bool) (readFuel : Nat) (name : List Byte) : Op → Prop
  | .append fill nm _ _ _ _ => nm = name → fill.Valid utf8 readFuel
  | _ => True

variable {levels : List Nat} {round : Option Nat} {Next : Nat → NdArray → Nat → Prop} {readFuel : Nat}

/-- An append to the variable, of any shape. -/
theorem HistInv.append_any (ha : Appends True H utf8 clog lg fuel readFuel T levels round Next)
    (hB : ∀ M data n, Next M data n → M + n ≤ T.B) (hf : 32 ≤ fuel)
    {name : List Byte} {d : Dataset} {log : Saved} {M : Nat} {fill : Fill} {data : NdArray} {n : Nat}
    (hi : HistInv H utf8 T levels round name (d, log) M) (hfill : fill.Valid utf8 readFuel)
    (hd : Next M data n) (rows cols : Nat) :
    Sat True H (Dataset.append H utf8 clog lg fuel fill d name data n rows cols) log (fun d' log' =>
      ∃ v tl, d'.findVariable name = some v ∧ v.k2Levels = levels ∧ v.round = round ∧
        VarInv H T log' v (M + n) tl) := by
  by_cases hs : rows = T.rows ∧ cols = T.cols
  · rw [hs.1, hs.2]
    exact hi.append ha hfill hd
  have hne : rows ≠ T.rows ∨ cols ≠ T.cols := by
    by_contra h
    simp only [not_or, not_not] at h
    exact hs h
  obtain ⟨-, -, -, v, tl, h1, h2, h0, h3⟩ := hi
  have hBM := hB _ _ _ hd
  unfold Dataset.append
  change d.findVariable name = some v at h1
  rw [h1]
  refine Sat.bind (Q := fun v' log' => (∃ tl', VarInv H T log' v' (M + n) tl') ∧ ∃ cid, v' = { v with cid := cid })
    (Variable.appendArray_mono H utf8 clog lg fuel fill v data n rows cols) (fun _ => Mono.pure _) ?_ ?_
  · intro hnc
    rcases Variable.appendArray_other (utf8 := utf8) (clog := clog) (lg := lg) (data := data) (n := n)
      (fill := fill) hf h3 (by omega) hne hnc with ⟨a, log', e, rfl, heq⟩ | h
    · rw [heq] at hnc ⊢
      exact ha log v fill data M tl 0 hfill h3 h2 h0 hd hnc
    · exact .inr h
  · rintro _ log' - ⟨⟨tl', h4⟩, cid, rfl⟩
    exact Sat.pure ⟨{ v with cid := cid }, tl',
      Dataset.findVariable_replace h1 (Dataset.findVariable_mem h1).2, h2, h0, h4⟩

theorem HistInv.step_taken (ha : Appends True H utf8 clog lg fuel readFuel T levels round Next)
    (hB : ∀ M data n, Next M data n → M + n ≤ T.B) (hf : 32 ≤ fuel) {name : List Byte}
    {op : Op} {s : Dataset × Saved} {M : Nat} (hi : HistInv H utf8 T levels round name s M)
    (ho : op.Fits utf8) (hon : op.Reads utf8 readFuel name)
    (hn : s.1.variables.length + adds [op] < 256)
    (hd : ∀ x ∈ op.taken H utf8 clog lg fuel name s, Next M x.1 x.2)
    (hnc : (op.step H utf8 clog lg fuel s).2.NoCollision H) :
    HistInv H utf8 T levels round name (op.step H utf8 clog lg fuel s)
      (M + total (op.taken H utf8 clog lg fuel name s)) := by
  by_cases hno : arrays name [op] = []
  · have : op.taken H utf8 clog lg fuel name s = [] := by
      unfold Op.taken
      split
      · exact hno
      · rfl
    rw [this]
    exact hi.step_other ho hn hno hnc
  obtain ⟨f1, f2, f3, f4⟩ := op.step_fits s.1 s.2 hi.fits ho hn hnc
  refine ⟨f1, f3.trans hi.rows, f4.trans hi.cols, ?_⟩
  have hmono := op.step_mono (H := H) (utf8 := utf8) (clog := clog) (lg := lg) (fuel := fuel) s
  obtain ⟨v, tl, h1, h2, h0, h3⟩ := hi.var
  have h4 := h3.mono hmono
  unfold Op.taken at hd ⊢
  rcases e : op.prog H utf8 clog lg fuel s.1 s.2 with ⟨f | d', log'⟩
  · have hstep : op.step H utf8 clog lg fuel s = (s.1, log') := by
      unfold Op.step
      rw [e]
    rw [hstep] at h4 ⊢
    exact ⟨v, tl, h1, h2, h0, h4⟩
  · have hstep : op.step H utf8 clog lg fuel s = (d', log') := by
      unfold Op.step
      rw [e]
    rw [e] at hd
    rw [hstep] at hnc ⊢
    simp only at hd ⊢
    cases op with
    | append fill nm data n rows' cols' =>
      have hnm : nm = name := by
        by_contra hnm
        exact hno (by simp [arrays, hnm])
      subst hnm
      have harr : arrays nm [.append fill nm data n rows' cols'] = [(data, n)] := by simp [arrays]
      rw [harr] at hd ⊢
      have htot : total [(data, n)] = n := by simp [total]
      rw [htot]
      have e : Dataset.append H utf8 clog lg fuel fill s.1 nm data n rows' cols' s.2 = (.ok d', log') := e
      have hsat := HistInv.append_any ha hB hf hi (hon rfl) (hd (data, n) (List.mem_singleton.2 rfl)) rows' cols'
      unfold Sat at hsat
      rw [e] at hsat
      rcases hsat hnc with ⟨a, l, h5, h6⟩ | ⟨-, f, l, h5⟩
      · cases h5
        exact h6
      · cases congrArg Prod.fst h5
    | addVariable => exact absurd rfl hno
    | commit => exact absurd rfl hno
    | reload => exact absurd rfl hno

theorem Op.taken_one (name : List Byte) (op : Op) (s : Dataset × Saved) :
    op.taken H utf8 clog lg fuel name s = [] ∨ ∃ x, op.taken H utf8 clog lg fuel name s = [x] := by
  unfold Op.taken
  split
  · exact arrays_one name op
  · exact .inl rfl

theorem HistInv.runs_accepted (ha : Appends True H utf8 clog lg fuel readFuel T levels round Next)
    (hB : ∀ M data n, Next M data n → M + n ≤ T.B) (hf : 32 ≤ fuel)
    {name : List Byte} : ∀ (ops : List Op) (s : Dataset × Saved) (M : Nat),
    HistInv H utf8 T levels round name s M →
    (∀ op ∈ ops, op.Fits utf8 ∧ op.Reads utf8 readFuel name) →
    s.1.variables.length + adds ops < 256 → Follows Next M (accepted H utf8 clog lg fuel name ops s) →
    (Verif.runs H utf8 clog lg fuel ops s).2.NoCollision H →
    HistInv H utf8 T levels round name (Verif.runs H utf8 clog lg fuel ops s)
      (M + total (accepted H utf8 clog lg fuel name ops s)) := by
  intro ops
  induction ops with
  | nil => intro s M hi _ _ _ _; exact hi
  | cons op ops ih =>
    intro s M hi ho hn hfo hnc
    rw [adds_cons] at hn
    unfold accepted at hfo ⊢
    have hnc1 : (op.step H utf8 clog lg fuel s).2.NoCollision H :=
      NoCollision.mono (runs_mono ops _) hnc
    have hlen : (op.step H utf8 clog lg fuel s).1.variables.length ≤ s.1.variables.length + adds [op] :=
      (op.step_fits s.1 s.2 hi.fits (ho op (List.mem_cons_self ..)).1 (by omega) hnc1).2.1
    have htot : ∀ as bs : List (NdArray × Nat), total (as ++ bs) = total as + total bs := by simp [total]
    rw [htot]
    have hnext : (∀ x ∈ op.taken H utf8 clog lg fuel name s, Next M x.1 x.2) ∧
        Follows Next (M + total (op.taken H utf8 clog lg fuel name s))
          (accepted H utf8 clog lg fuel name ops (op.step H utf8 clog lg fuel s)) := by
      rcases op.taken_one (H := H) (utf8 := utf8) (clog := clog) (lg := lg) (fuel := fuel) name s with e | ⟨x, e⟩
      · rw [e] at hfo ⊢
        exact ⟨fun x hx => by (cases hx), by simpa [total] using hfo⟩
      · rw [e] at hfo ⊢
        obtain ⟨g1, g2⟩ := hfo
        refine ⟨fun y hy => ?_, by simpa [total] using g2⟩
        rw [List.mem_singleton] at hy
        subst hy
        exact g1
    have := hi.step_taken ha hB hf (ho op (List.mem_cons_self ..)).1 (ho op (List.mem_cons_self ..)).2 (by omega)
      hnext.1 hnc1
    have h2 := ih _ _ this (fun o h => ho o (List.mem_cons_of_mem _ h)) (by omega) hnext.2 hnc
    rw [Nat.add_assoc] at h2
    exact h2

end

end Verif
