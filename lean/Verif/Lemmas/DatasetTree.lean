import Verif.Lemmas.Prog

/-! The tree of spans of a variable and the programs that work on it. -/
namespace Verif

open Prog hiding pure bind

section mono
variable (H : Hash) (utf8 : List Byte → Bool)

theorem Span.checkLast_mono (sp : Span) : Mono (Span.checkLast H utf8 sp) := by
  unfold Span.checkLast
  cases sp.spans.getLast? with
  | none => exact Mono.pure _
  | some cid =>
    refine (Mono.getStruct H utf8 cid).bind fun m => (Mono.ofOption _).bind fun s => ?_
    split
    · exact Mono.fail _
    · exact Mono.pure _

theorem Span.append_mono (sp : Span) (m : MMStruct3) : Mono (Span.append H utf8 sp m) := by
  unfold Span.append
  refine (Span.checkLast_mono H utf8 sp).bind fun _ => (Mono.ofOption _).bind fun s => ?_
  split
  · exact Mono.fail _
  split
  · exact Mono.fail _
  exact (Mono.save H _).bind fun _ => Mono.pure _

theorem Span.update_mono (sp : Span) (m : MMStruct3) : Mono (Span.update H utf8 sp m) :=
  Span.append_mono H utf8 _ m

theorem tailSpansLoop_mono (cs : Nat) : ∀ (fuel : Nat) (above : List Span) (sp : Span),
    Mono (tailSpansLoop H utf8 cs fuel above sp) := by
  intro fuel
  induction fuel with
  | zero => intro above sp; exact Mono.fail _
  | succ fuel ih =>
    intro above sp
    unfold tailSpansLoop
    split
    · exact (Mono.ofOption _).bind fun cid => (Mono.getSpan H utf8 cid).bind fun c => ih _ _
    · exact Mono.pure _

theorem Variable.tailSpans_mono (fuel : Nat) (v : Variable) : Mono (v.tailSpans H utf8 fuel) :=
  (Mono.getSpan H utf8 v.cid).bind fun _ => tailSpansLoop_mono H utf8 _ _ _ _

theorem saveSpansLoop_mono : ∀ (above : List Span) (sp : Span), Mono (saveSpansLoop H utf8 sp above) := by
  intro above
  induction above with
  | nil => intro sp; exact Mono.pure _
  | cons p rest ih => intro sp; exact (Span.update_mono H utf8 p _).bind fun s => ih s

theorem openSpanUp_eq : ∀ (above : List Span) (sp : Span),
    openSpanUp H utf8 sp above = saveSpansLoop H utf8 sp above := by
  intro above
  induction above with
  | nil => intro sp; rfl
  | cons p rest ih =>
    intro sp
    rw [openSpanUp, saveSpansLoop]
    congr
    funext s
    exact ih s

theorem Variable.saveSpans_mono (v : Variable) (spans : List Span) :
    Mono (v.saveSpans H utf8 spans) := by
  cases spans with
  | nil => exact Mono.fail _
  | cons sp rest =>
    exact (saveSpansLoop_mono H utf8 rest sp).bind fun s => (Mono.save H _).bind fun _ => Mono.pure _

theorem openSpanLoop_mono (v : Variable) (rows cols : Nat) : ∀ (above : List Span) (l sp : Span),
    Mono (openSpanLoop H utf8 v rows cols l sp above) := by
  intro above
  induction above with
  | nil =>
    intro l sp
    exact (Span.append_mono H utf8 _ _).bind fun r => (Span.append_mono H utf8 _ _).bind fun _ =>
      Mono.pure _
  | cons p rest ih =>
    intro l sp
    unfold openSpanLoop
    split
    · exact (Span.append_mono H utf8 _ _).bind fun r => ih _ _
    · exact (Span.append_mono H utf8 _ _).bind fun r => Mono.pure _

theorem Variable.createOpenSpan_mono (fuel : Nat) (v : Variable) (rows cols : Nat) :
    Mono (v.createOpenSpan H utf8 fuel rows cols) := by
  refine (Variable.tailSpans_mono H utf8 fuel v).bind fun spans => ?_
  cases spans with
  | nil => exact Mono.fail _
  | cons l spans =>
    refine (openSpanLoop_mono H utf8 v rows cols spans l _).bind fun x => ?_
    rw [openSpanUp_eq]
    exact (saveSpansLoop_mono H utf8 _ _).bind fun s => (Mono.save H _).bind fun _ => Mono.pure _

theorem Variable.tailData_mono (fuel : Nat) (v : Variable) : Mono (v.tailData H utf8 fuel) := by
  refine (Variable.tailSpans_mono H utf8 fuel v).bind fun spans => ?_
  cases spans with
  | nil => exact Mono.fail _
  | cons l spans =>
    simp only
    cases l.spans.getLast? with
    | none => exact Mono.pure _
    | some cid =>
      refine (Mono.getStruct H utf8 cid).bind fun m => (Mono.ofOption _).bind fun s => ?_
      split
      · exact Mono.pure _
      · exact Mono.pure _

theorem Variable.openIfFull_mono (fuel : Nat) (v : Variable) (rows cols : Nat) (sp : Span)
    (rest : List Span) : Mono (v.openIfFull H utf8 fuel rows cols sp rest) := by
  unfold Variable.openIfFull
  split
  · refine (Variable.saveSpans_mono H utf8 v _).bind fun v =>
      (Variable.createOpenSpan_mono H utf8 fuel v rows cols).bind fun v =>
      (Variable.tailSpans_mono H utf8 fuel v).bind fun spans => ?_
    cases spans with
    | nil => exact Mono.fail _
    | cons l spans =>
      simp only
      split
      · exact Mono.pure _
      · exact Mono.fail _
  · exact Mono.pure _

variable (clog : Nat → Nat) (lg : Rat → Int)

theorem Mono.buildChunk (levels : List Nat) (b : MMBuffer3) (n rows cols : Nat) :
    Mono (Prog.buildChunk H clog lg levels b n rows cols) := by
  intro log
  unfold Prog.buildChunk
  cases b.computeBits lg n rows cols with
  | none => exact List.Subset.refl _
  | some b =>
    simp only
    cases h : Superchunk.build H clog lg 2 levels log b n rows cols with
    | none => exact List.Subset.refl _
    | some r => exact Superchunk.build_log _ _ _ _ _ _ _ _ h

theorem Variable.appendLoop_mono (fuel : Nat) (data : MMBuffer3) (n rows cols : Nat) :
    ∀ (starts : List Nat) (v : Variable) (spans : List Span) (update : Bool),
    Mono (Variable.appendLoop H utf8 clog lg fuel data n rows cols starts v spans update) := by
  intro starts
  induction starts with
  | nil => intro v spans u; exact Mono.pure _
  | cons s starts ih =>
    intro v spans u
    refine (Mono.buildChunk H clog lg _ _ _ _ _).bind fun chunk => ?_
    cases spans with
    | nil => exact Mono.fail _
    | cons sp rest =>
      refine (Variable.openIfFull_mono H utf8 fuel v rows cols sp rest).bind fun x => ?_
      refine Mono.bind ?_ fun sp => ih _ _ _
      unfold Span.addChunk
      split
      · exact Span.update_mono H utf8 _ _
      · exact Span.append_mono H utf8 _ _

theorem Variable.append_mono (fuel : Nat) (v : Variable) (data : MMBuffer3) (n rows cols : Nat)
    (update : Bool) : Mono (v.append H utf8 clog lg fuel data n rows cols update) := by
  refine (Variable.tailSpans_mono H utf8 fuel v).bind fun spans => ?_
  split
  · exact Mono.fail _
  · exact (Variable.appendLoop_mono H utf8 clog lg fuel data n rows cols _ v spans update).bind
      fun x => Variable.saveSpans_mono H utf8 _ _

theorem Variable.appendArray_mono (fuel : Nat) (fill : Fill) (v : Variable) (data : NdArray)
    (n rows cols : Nat) : Mono (v.appendArray H utf8 clog lg fuel fill data n rows cols) := by
  refine (Variable.tailData_mono H utf8 fuel v).bind fun tail => ?_
  cases tail with
  | none => exact Variable.append_mono H utf8 clog lg fuel v _ n rows cols false
  | some tail =>
    refine (Mono.ofOption _).bind fun s => Mono.bind (fun _ => List.Subset.refl _) fun st => ?_
    cases (fill tail st).2 with
    | some f => exact Mono.fail _
    | none =>
      simp only
      split
      · exact Mono.fail _
      · exact Variable.append_mono H utf8 clog lg fuel v _ _ rows cols true

end mono

/-! ### Spans -/

section
variable {w : Prop} {H : Hash} {utf8 : List Byte → Bool}

/-- Appending to a span whose last child is full. -/
theorem Span.append_sat {log : Saved} {sp : Span} {m : MMStruct3} {n : Nat}
    {Q : Span → Saved → Prop} (hs : m.shape = some (n, sp.rows, sp.cols)) (hn : n ≤ sp.stride)
    (hw : m.WF)
    (hlast : ∀ cid, sp.spans.getLast? = some cid → ∃ c r k, Kept H log cid c ∧
      c.shape = some (sp.stride, r, k))
    (hq : ∀ cid log', log ⊆ log' → Kept H log' cid m →
      Q { sp with instants := sp.instants + n, spans := sp.spans ++ [cid] } log') :
    Sat w H (Span.append H utf8 sp m) log Q := by
  unfold Span.append
  have hm : ∀ shape : Nat × Nat × Nat, Mono (if shape.2.1 ≠ sp.rows ∨ shape.2.2 ≠ sp.cols then Prog.fail .panic
      else if shape.1 > sp.stride then Prog.fail .panic
      else do
        let cid ← Prog.save H (.struct m)
        pure { sp with
          instants := sp.instants + shape.1
          rows := shape.2.1
          cols := shape.2.2
          spans := sp.spans ++ [cid] } : Prog Span) := by
    intro shape
    split
    · exact Mono.fail _
    split
    · exact Mono.fail _
    exact (Mono.save H _).bind fun _ => Mono.pure _
  refine Sat.bind (Q := fun _ log' => log = log') (Span.checkLast_mono H utf8 sp)
    (fun _ => (Mono.ofOption _).bind hm) ?_ ?_
  · unfold Span.checkLast
    cases h : sp.spans.getLast? with
    | none => exact Sat.pure rfl
    | some cid =>
      obtain ⟨c, r, k, h1, h2⟩ := hlast cid h
      refine Sat.bind (Q := fun a log' => a = c ∧ log = log') (Mono.getStruct H utf8 cid) ?_
        (Sat.getStruct h1 ⟨rfl, rfl⟩) ?_
      · intro m
        refine (Mono.ofOption _).bind fun s => ?_
        split
        · exact Mono.fail _
        · exact Mono.pure _
      · rintro _ _ - ⟨rfl, rfl⟩
        refine Sat.bind (Q := fun a log' => a = (sp.stride, r, k) ∧ log = log') (Mono.ofOption _) ?_
          (Sat.ofOption h2 ⟨rfl, rfl⟩) ?_
        · intro s
          split
          · exact Mono.fail _
          · exact Mono.pure _
        · rintro _ _ - ⟨rfl, rfl⟩
          rw [if_neg (by simp)]
          exact Sat.pure rfl
  · rintro _ _ - rfl
    refine Sat.bind (Q := fun a log' => a = (n, sp.rows, sp.cols) ∧ log = log') (Mono.ofOption _) hm
      (Sat.ofOption hs ⟨rfl, rfl⟩) ?_
    rintro _ _ - ⟨rfl, rfl⟩
    rw [if_neg (by simp), if_neg (by simp only; omega)]
    refine Sat.bind (Q := fun cid log' => log ⊆ log' ∧ Kept H log' cid m) (Mono.save H _)
      (fun _ => Mono.pure _) (Sat.save hw fun cid log' h1 h2 => ⟨h1, h2⟩) ?_
    · rintro cid log' - ⟨h1, h2⟩
      exact Sat.pure (hq cid log' h1 h2)

/-! ### Trees -/

/-- What is fixed about a variable: `B` bounds the number of instants. `K log m a n` says that the
chunk `m` holds the instants from `a` to `a + n`. -/
structure VarTheory where
  rows : Nat
  cols : Nat
  cs : Nat
  ss : Nat
  enc : MMEncoding
  B : Nat
  K : Saved → MMStruct3 → Nat → Nat → Prop
  rows_lt : rows < 2 ^ 32
  cols_lt : cols < 2 ^ 32
  cs_pos : 1 ≤ cs
  ss_two : 2 ≤ ss
  ss_lt : ss < 2 ^ 32
  cs_le : cs ≤ B
  B_lt : B < 2 ^ 32
  mono : ∀ {log log' : Saved}, log ⊆ log' → ∀ {m a n}, K log m a n → K log' m a n
  shape : ∀ {log m a n}, K log m a n → m.shape = some (n, rows, cols)
  wf : ∀ {log m a n}, K log m a n → m.WF

/-- The stride of spans of height `i`. -/
def VarTheory.stride (T : VarTheory) (i : Nat) : Nat := T.cs * T.ss ^ i

theorem VarTheory.stride_succ (T : VarTheory) (i : Nat) : T.stride (i + 1) = T.ss * T.stride i := by
  unfold VarTheory.stride
  rw [Nat.pow_succ, Nat.mul_comm (T.ss ^ i), Nat.mul_left_comm]

theorem VarTheory.stride_zero (T : VarTheory) : T.stride 0 = T.cs := by
  simp [VarTheory.stride]

theorem VarTheory.stride_pos (T : VarTheory) (i : Nat) : 0 < T.stride i :=
  Nat.mul_pos T.cs_pos (Nat.pow_pos (by have := T.ss_two; omega))

theorem VarTheory.stride_mono (T : VarTheory) {i j : Nat} (h : i ≤ j) : T.stride i ≤ T.stride j :=
  Nat.mul_le_mul_left _ (Nat.pow_le_pow_right (by have := T.ss_two; omega) h)

theorem VarTheory.stride_gt (T : VarTheory) (i : Nat) : T.cs < T.stride (i + 1) := by
  have h1 := T.stride_mono (show 1 ≤ i + 1 by omega)
  have h2 : T.stride 1 = T.ss * T.stride 0 := T.stride_succ 0
  rw [T.stride_zero] at h2
  have h3 := T.ss_two
  have h4 : 2 * T.cs ≤ T.ss * T.cs := Nat.mul_le_mul_right _ h3
  have h5 := T.cs_pos
  omega

/-- The fields of a span of height `i`. -/
structure Shaped (T : VarTheory) (i : Nat) (sp : Span) : Prop where
  stride : sp.stride = T.stride i
  rows : sp.rows = T.rows
  cols : sp.cols = T.cols
  encoding : sp.encoding = T.enc

/-- The first children are full trees. -/
def FullTo (H : Hash) (T : VarTheory) (R : Span → Nat → Nat → Nat → Prop) (log : Saved) (i : Nat)
    (sp : Span) (a m : Nat) : Prop :=
  ∀ j, j < m → ∃ cid c tl, sp.spans[j]? = some cid ∧ Kept H log cid (.span c) ∧
    R c (a + j * T.stride (i + 1)) (T.stride (i + 1)) tl

/-- A span of height `i` that holds the instants from `a` to `a + n`; the last span at the bottom
has `tl` of them. -/
def Tree (H : Hash) (T : VarTheory) (log : Saved) : (i : Nat) → Span → (a n tl : Nat) → Prop
  | 0, sp, a, n, tl => Shaped T 0 sp ∧ sp.instants = n ∧ tl = n ∧ n ≤ T.stride 1 ∧
      (∀ j, j < sp.spans.length ↔ j * T.cs < n) ∧
      ∀ j, j * T.cs < n → ∃ cid m, sp.spans[j]? = some cid ∧ Kept H log cid m ∧
        T.K log m (a + j * T.cs) (min T.cs (n - j * T.cs))
  | i + 1, sp, a, n, tl => Shaped T (i + 1) sp ∧ sp.instants = n ∧
      ∃ m n', sp.spans.length = m + 1 ∧ m < T.ss ∧ n = m * T.stride (i + 1) + n' ∧
        FullTo H T (Tree H T log i) log i sp a m ∧
        ∃ cid c, sp.spans[m]? = some cid ∧ Kept H log cid (.span c) ∧
          Tree H T log i c (a + m * T.stride (i + 1)) n' tl

/-- What is above a span of height `i` that begins at `a`, whatever that span has become since. -/
def Chain (H : Hash) (T : VarTheory) (log : Saved) : (i : Nat) → List Span → (a : Nat) → Prop
  | _, [], a => a = 0
  | i, p :: rest, a => Shaped T (i + 1) p ∧ ∃ m a', a = a' + m * T.stride (i + 1) ∧
      p.spans.length = m + 1 ∧ m < T.ss ∧ FullTo H T (Tree H T log i) log i p a' m ∧
      Chain H T log (i + 1) rest a'

/-- What is above a span `c` of height `i` that begins at `a` and has `n` instants. -/
def ChainF (H : Hash) (T : VarTheory) (log : Saved) : (i : Nat) → Span → List Span → (a n : Nat) →
    Prop
  | _, _, [], a, _ => a = 0
  | i, c, p :: rest, a, n => Shaped T (i + 1) p ∧ ∃ m a', a = a' + m * T.stride (i + 1) ∧
      p.spans.length = m + 1 ∧ m < T.ss ∧ p.instants = m * T.stride (i + 1) + n ∧
      FullTo H T (Tree H T log i) log i p a' m ∧
      (∃ cid, p.spans[m]? = some cid ∧ Kept H log cid (.span c)) ∧
      ChainF H T log (i + 1) p rest a' (m * T.stride (i + 1) + n)

variable {T : VarTheory}

theorem Tree.shaped {log i sp a n tl} (h : Tree H T log i sp a n tl) : Shaped T i sp := by
  cases i with
  | zero => exact h.1
  | succ i => exact h.1

theorem Tree.instants {log i sp a n tl} (h : Tree H T log i sp a n tl) : sp.instants = n := by
  cases i with
  | zero => exact h.2.1
  | succ i => exact h.2.1

theorem Tree.le {log i sp a n tl} (h : Tree H T log i sp a n tl) : n ≤ T.stride (i + 1) := by
  induction i generalizing sp a n tl with
  | zero => exact h.2.2.2.1
  | succ i ih =>
    obtain ⟨-, -, m, n', -, hm, rfl, -, cid, c, -, -, h⟩ := h
    have h1 := ih h
    rw [T.stride_succ (i + 1)]
    have h2 : (m + 1) * T.stride (i + 1) ≤ T.ss * T.stride (i + 1) := Nat.mul_le_mul_right _ hm
    rw [Nat.succ_mul] at h2
    omega

theorem Tree.tail_le {log i sp a n tl} (h : Tree H T log i sp a n tl) : tl ≤ n := by
  induction i generalizing sp a n tl with
  | zero => exact Nat.le_of_eq h.2.2.1
  | succ i ih =>
    obtain ⟨-, -, m, n', -, hm, rfl, -, cid, c, -, -, h⟩ := h
    have h1 := ih h
    omega

theorem FullTo.mono {R R' : Span → Nat → Nat → Nat → Prop} {log log' i sp a m} (hs : log ⊆ log')
    (hr : ∀ c a n tl, R c a n tl → R' c a n tl)
    (h : FullTo H T R log i sp a m) : FullTo H T R' log' i sp a m := by
  intro j hj
  obtain ⟨cid, c, tl, h1, h2, h3⟩ := h j hj
  exact ⟨cid, c, tl, h1, h2.mono hs, hr _ _ _ _ h3⟩

theorem Tree.mono {log log'} (hs : log ⊆ log') {i sp a n tl} (h : Tree H T log i sp a n tl) :
    Tree H T log' i sp a n tl := by
  induction i generalizing sp a n tl with
  | zero =>
    obtain ⟨h1, h2, h3, h4, h5, h6⟩ := h
    refine ⟨h1, h2, h3, h4, h5, fun j hj => ?_⟩
    obtain ⟨cid, m, a1, a2, a3⟩ := h6 j hj
    exact ⟨cid, m, a1, a2.mono hs, T.mono hs a3⟩
  | succ i ih =>
    obtain ⟨h1, h2, m, n', h3, hm, h4, h5, cid, c, h6, h7, h8⟩ := h
    exact ⟨h1, h2, m, n', h3, hm, h4, h5.mono hs (fun _ _ _ _ => ih), cid, c, h6, h7.mono hs, ih h8⟩

theorem Chain.mono {log log'} (hs : log ⊆ log') {i above a} (h : Chain H T log i above a) :
    Chain H T log' i above a := by
  induction above generalizing i a with
  | nil => exact h
  | cons p rest ih =>
    obtain ⟨h1, m, a', h2, h3, h4, h5, h6⟩ := h
    exact ⟨h1, m, a', h2, h3, h4, h5.mono hs (fun _ _ _ _ => Tree.mono hs), ih h6⟩

theorem ChainF.chain {log i c above a n} (h : ChainF H T log i c above a n) :
    Chain H T log i above a := by
  induction above generalizing i a n c with
  | nil => exact h
  | cons p rest ih =>
    obtain ⟨h1, m, a', h2, h3, h4, -, h5, -, h6⟩ := h
    exact ⟨h1, m, a', h2, h3, h4, h5, ih h6⟩

theorem ChainF.mono {log log'} (hs : log ⊆ log') {i c above a n} (h : ChainF H T log i c above a n) :
    ChainF H T log' i c above a n := by
  induction above generalizing i a n c with
  | nil => exact h
  | cons p rest ih =>
    obtain ⟨h1, m, a', h2, h3, h4, h4', h5, ⟨cid, h5', h5''⟩, h6⟩ := h
    exact ⟨h1, m, a', h2, h3, h4, h4', h5.mono hs (fun _ _ _ _ => Tree.mono hs),
      ⟨cid, h5', h5''.mono hs⟩, ih h6⟩

theorem Tree.wf {log i sp a n tl} (h : Tree H T log i sp a n tl) (hi : T.stride i ≤ T.B)
    (hn : n ≤ T.B) : sp.WF := by
  have hB := T.B_lt
  have hsh := h.shaped
  refine ⟨by rw [h.instants]; omega, by rw [hsh.rows]; exact T.rows_lt, by rw [hsh.cols]; exact T.cols_lt,
    by rw [hsh.stride]; omega, ?_, ?_⟩
  · cases i with
    | zero =>
      obtain ⟨-, -, -, h4, h5, -⟩ := h
      by_contra hc
      have h7 : T.ss * T.cs < n := (h5 T.ss).1 (by have := T.ss_lt; omega)
      have h8 : T.stride 1 = T.ss * T.stride 0 := T.stride_succ 0
      rw [T.stride_zero] at h8
      omega
    | succ i =>
      obtain ⟨-, -, m, n', h3, hm, -⟩ := h
      have := T.ss_lt
      omega
  · intro cid hcid
    obtain ⟨j, hj⟩ := List.mem_iff_getElem?.1 hcid
    have hlt := (List.getElem?_eq_some_iff.1 hj).1
    cases i with
    | zero =>
      obtain ⟨-, -, -, -, h5, h6⟩ := h
      obtain ⟨cid', m, a1, a2, -⟩ := h6 j ((h5 j).1 hlt)
      rw [hj] at a1
      cases a1
      exact a2.valid
    | succ i =>
      obtain ⟨-, -, m, n', h3, hm, -, h5, cid', c, h6, h7, -⟩ := h
      rcases Nat.lt_or_ge j m with hjm | hjm
      · obtain ⟨cid'', c, tl, b1, b2, -⟩ := h5 j hjm
        rw [hj] at b1
        cases b1
        exact b2.valid
      · have : j = m := by omega
        subst this
        rw [hj] at h6
        cases h6
        exact h7.valid

theorem Tree.shape {log i sp a n tl} (h : Tree H T log i sp a n tl) :
    (MMStruct3.span sp).shape = some (n, T.rows, T.cols) := by
  have hsh := h.shaped
  change some (sp.instants, sp.rows, sp.cols) = _
  rw [h.instants, hsh.rows, hsh.cols]

theorem FullTo.congr {R : Span → Nat → Nat → Nat → Prop} {log i sp sp' a m}
    (h : FullTo H T R log i sp a m)
    (he : ∀ j, j < m → sp'.spans[j]? = sp.spans[j]?) : FullTo H T R log i sp' a m := by
  intro j hj
  rw [he j hj]
  exact h j hj

/-- Appending a tree to a span with full children. -/
theorem Span.append_tree {log : Saved} {i : Nat} {p c : Span} {a m n tl : Nat}
    {Q : Span → Saved → Prop} (hp : Shaped T (i + 1) p) (hlen : p.spans.length = m) (hm : m < T.ss)
    (hin : p.instants = m * T.stride (i + 1)) (hf : FullTo H T (Tree H T log i) log i p a m)
    (hc : Tree H T log i c (a + m * T.stride (i + 1)) n tl) (hi : T.stride i ≤ T.B) (hn : n ≤ T.B)
    (hq : ∀ p' log', log ⊆ log' → Tree H T log' (i + 1) p' a (m * T.stride (i + 1) + n) tl →
      (∃ cid, p'.spans[m]? = some cid ∧ Kept H log' cid (.span c)) → p'.spans.length = m + 1 →
      FullTo H T (Tree H T log' i) log' i p' a m → Q p' log') :
    Sat w H (Span.append H utf8 p (.span c)) log Q := by
  refine Span.append_sat (n := n) ?_ ?_ (hc.wf hi hn) ?_ ?_
  · rw [hc.shape, hp.rows, hp.cols]
  · rw [hp.stride]; exact hc.le
  · intro cid hl
    rw [List.getLast?_eq_getElem?, hlen] at hl
    have hm0 : 0 < m := by
      by_contra h0
      have : p.spans.length = 0 := by omega
      rw [List.length_eq_zero_iff] at this
      rw [this] at hl
      cases hl
    obtain ⟨cid', d, tl', h1, h2, h3⟩ := hf (m - 1) (by omega)
    rw [h1] at hl
    cases hl
    exact ⟨_, _, _, h2, by rw [h3.shape, hp.stride]⟩
  · intro cid log' hs hk
    have hget : ∀ j, j < m → (p.spans ++ [cid])[j]? = p.spans[j]? := by
      intro j hj
      rw [List.getElem?_append_left (by omega)]
    have hgetm : (p.spans ++ [cid])[m]? = some cid := by
      rw [List.getElem?_append_right (by omega), hlen]
      simp
    have hf' : FullTo H T (Tree H T log' i) log' i
        { p with instants := p.instants + n, spans := p.spans ++ [cid] } a m :=
      (hf.mono hs (fun _ _ _ _ => Tree.mono hs)).congr hget
    refine hq _ log' hs ?_ ⟨cid, hgetm, hk⟩ (by simp [hlen]) hf'
    refine ⟨⟨hp.stride, hp.rows, hp.cols, hp.encoding⟩, by simp only; rw [hin], m, n, by simp [hlen], hm, rfl, hf', cid, c,
      hgetm, hk, hc.mono hs⟩

/-- Updating the last child of a span. -/
theorem Span.update_tree {log : Saved} {i : Nat} {p c : Span} {a m n tl : Nat}
    {Q : Span → Saved → Prop} (hp : Shaped T (i + 1) p) (hlen : p.spans.length = m + 1)
    (hm : m < T.ss) (hf : FullTo H T (Tree H T log i) log i p a m)
    (hc : Tree H T log i c (a + m * T.stride (i + 1)) n tl) (hi : T.stride i ≤ T.B) (hn : n ≤ T.B)
    (hq : ∀ p' log', log ⊆ log' → Tree H T log' (i + 1) p' a (m * T.stride (i + 1) + n) tl →
      Q p' log') :
    Sat w H (Span.update H utf8 p (.span c)) log Q := by
  have hl : p.spans.dropLast.length = m := by rw [List.length_dropLast]; omega
  refine Span.append_tree (p := { p with instants := p.spans.dropLast.length * p.stride, spans := p.spans.dropLast })
    (m := m) (a := a) (i := i) (n := n) (tl := tl) ⟨hp.stride, hp.rows, hp.cols, hp.encoding⟩ ?_ hm ?_ ?_ hc hi hn ?_
  · exact hl
  · simp only [hl, hp.stride]
  · refine hf.congr fun j hj => ?_
    simp only
    rw [List.getElem?_dropLast, if_pos (by omega)]
  · intro p' log' h1 h2 _ _ _
    exact hq p' log' h1 h2

/-! ### Down to the tail -/

theorem tailSpansLoop_sat {log : Saved} : ∀ (i fuel : Nat) (above : List Span) (sp : Span)
    (a n tl : Nat), i < fuel → Tree H T log i sp a n tl → ChainF H T log i sp above a n →
    Sat w H (tailSpansLoop H utf8 T.cs fuel above sp) log (fun l log' => log = log' ∧
      ∃ leaf rest a', l = leaf :: rest ∧ Tree H T log 0 leaf a' tl tl ∧
        ChainF H T log 0 leaf rest a' tl ∧ a' + tl = a + n ∧ rest.length = i + above.length) := by
  intro i
  induction i with
  | zero =>
    intro fuel above sp a n tl hf ht hc
    obtain ⟨fuel, rfl⟩ : ∃ e, fuel = e + 1 := ⟨fuel - 1, by omega⟩
    have htl : tl = n := ht.2.2.1
    subst htl
    unfold tailSpansLoop
    rw [if_neg (by rw [ht.shaped.stride, T.stride_zero]; omega)]
    exact Sat.pure ⟨rfl, sp, above, a, rfl, ht, hc, rfl, by simp⟩
  | succ i ih =>
    intro fuel above sp a n tl hf ht hc
    obtain ⟨fuel, rfl⟩ : ∃ e, fuel = e + 1 := ⟨fuel - 1, by omega⟩
    unfold tailSpansLoop
    rw [if_pos (by rw [ht.shaped.stride]; exact T.stride_gt i)]
    have hin := ht.instants
    obtain ⟨h1, -, m, n', h3, hm, rfl, h5, cid, c, h6, h7, h8⟩ := ht
    refine Sat.bind (Q := fun x log' => cid = x ∧ log = log') (Mono.ofOption _)
      (fun _ => (Mono.getSpan H utf8 _).bind fun _ => tailSpansLoop_mono H utf8 _ _ _ _)
      (Sat.ofOption (by rw [List.getLast?_eq_getElem?, h3]; exact h6) ⟨rfl, rfl⟩) ?_
    rintro _ _ - ⟨rfl, rfl⟩
    refine Sat.bind (Q := fun x log' => c = x ∧ log = log') (Mono.getSpan H utf8 _)
      (fun _ => tailSpansLoop_mono H utf8 _ _ _ _) (Sat.getSpan h7 ⟨rfl, rfl⟩) ?_
    rintro _ _ - ⟨rfl, rfl⟩
    refine (ih fuel (sp :: above) c _ n' tl (by omega) h8 ?_).mono ?_
    · exact ⟨h1, m, a, rfl, h3, hm, hin, h5, ⟨cid, h6, h7⟩, hc⟩
    · rintro l log' ⟨rfl, leaf, rest, a', e1, e2, e3, e4, e5⟩
      exact ⟨rfl, leaf, rest, a', e1, e2, e3, by omega, by simp only [List.length_cons] at e5; omega⟩

/-- A tree of height `h` whose last span at the bottom begins at `a` is not too high: its root has at
least two children. -/
def VarTheory.Tall (T : VarTheory) (h a : Nat) : Prop := h = 0 ∨ T.stride h ≤ a

/-- A variable that has `N` instants, while it is changed: its last span may be empty. -/
structure VarOpen (H : Hash) (T : VarTheory) (log : Saved) (v : Variable) (N tl : Nat) : Prop where
  chunkSize : v.chunkSize = T.cs
  spanSize : v.spanSize = T.ss
  encoding : v.encoding = T.enc
  tree : ∃ h root, Kept H log v.cid (.span root) ∧ Tree H T log h root 0 N tl ∧ T.stride h ≤ T.B ∧
    ∃ a, a + tl = N ∧ T.Tall h a

/-- A variable that has `N` instants. -/
structure VarInv (H : Hash) (T : VarTheory) (log : Saved) (v : Variable) (N tl : Nat) : Prop where
  chunkSize : v.chunkSize = T.cs
  spanSize : v.spanSize = T.ss
  encoding : v.encoding = T.enc
  tree : ∃ h root, Kept H log v.cid (.span root) ∧ Tree H T log h root 0 N tl ∧ T.stride h ≤ T.B ∧
    (∃ a, a + tl = N ∧ T.Tall h a) ∧ (1 ≤ N → 1 ≤ tl)

theorem VarInv.mono {log log' v N tl} (hs : log ⊆ log') (h : VarInv H T log v N tl) :
    VarInv H T log' v N tl := by
  obtain ⟨h1, h2, h2', i, root, h3, h4, h5⟩ := h
  exact ⟨h1, h2, h2', i, root, h3.mono hs, h4.mono hs, h5⟩

theorem VarInv.toOpen {log v N tl} (h : VarInv H T log v N tl) : VarOpen H T log v N tl := by
  obtain ⟨h1, h2, h2', i, root, h3, h4, h5, h6, -⟩ := h
  exact ⟨h1, h2, h2', i, root, h3, h4, h5, h6⟩

theorem VarOpen.close {log v N tl} (h : VarOpen H T log v N tl) (ht : 1 ≤ N → 1 ≤ tl) :
    VarInv H T log v N tl := by
  obtain ⟨h1, h2, h2', i, root, h3, h4, h5, h6⟩ := h
  exact ⟨h1, h2, h2', i, root, h3, h4, h5, h6, ht⟩

theorem VarInv.tail {log v N tl} (h : VarInv H T log v N tl) : 1 ≤ N → 1 ≤ tl := by
  obtain ⟨-, -, -, i, root, -, -, -, -, h⟩ := h
  exact h

/-- A height is below 32. -/
theorem VarTheory.height_lt (T : VarTheory) {i : Nat} (h : T.stride i ≤ T.B) : i < 32 := by
  have h1 := T.B_lt
  have h2 : (2 : Nat) ^ i ≤ T.ss ^ i := Nat.pow_le_pow_left T.ss_two i
  have h3 : 1 * T.ss ^ i ≤ T.cs * T.ss ^ i := Nat.mul_le_mul_right _ T.cs_pos
  unfold VarTheory.stride at h
  by_contra hc
  have : (2 : Nat) ^ 32 ≤ 2 ^ i := Nat.pow_le_pow_right (by omega) (by omega)
  omega

theorem Variable.tailSpans_sat {log : Saved} {v : Variable} {N tl fuel : Nat} (hf : 32 ≤ fuel)
    (h : VarOpen H T log v N tl) :
    Sat w H (v.tailSpans H utf8 fuel) log (fun l log' => log = log' ∧
      ∃ leaf rest a, l = leaf :: rest ∧ Tree H T log 0 leaf a tl tl ∧ ChainF H T log 0 leaf rest a tl ∧
        a + tl = N ∧ T.stride rest.length ≤ T.B ∧ T.Tall rest.length a) := by
  obtain ⟨h1, h2, -, i, root, h3, h4, h5, a0, h6, h7⟩ := h
  unfold Variable.tailSpans
  refine Sat.bind (Q := fun x log' => root = x ∧ log = log') (Mono.getSpan H utf8 _)
    (fun _ => tailSpansLoop_mono H utf8 _ _ _ _) (Sat.getSpan h3 ⟨rfl, rfl⟩) ?_
  rintro _ _ - ⟨rfl, rfl⟩
  rw [h1]
  have hlt := T.height_lt h5
  refine (tailSpansLoop_sat i fuel [] root 0 N tl (by omega) h4 rfl).mono ?_
  rintro l log' ⟨rfl, leaf, rest, a', e1, e2, e3, e4, e5⟩
  have ha : a' = a0 := by omega
  subst ha
  rw [List.length_nil, Nat.add_zero] at e5
  exact ⟨rfl, leaf, rest, a', e1, e2, e3, by omega, by rw [e5]; exact h5, by rw [e5]; exact h7⟩

/-! ### Up to the root -/

theorem saveSpansLoop_sat : ∀ (above : List Span) (log : Saved) (i : Nat) (sp : Span) (a n tl : Nat),
    Tree H T log i sp a n tl → Chain H T log i above a → T.stride (i + above.length) ≤ T.B →
    a + n ≤ T.B →
    Sat w H (saveSpansLoop H utf8 sp above) log (fun root log' =>
      Tree H T log' (i + above.length) root 0 (a + n) tl) := by
  intro above
  induction above with
  | nil =>
    intro log i sp a n tl ht hc hs hn
    cases hc
    rw [Nat.zero_add]
    exact Sat.pure ht
  | cons p rest ih =>
    intro log i sp a n tl ht hc hs hn
    obtain ⟨h1, m, a', rfl, h3, h4, h5, h6⟩ := hc
    unfold saveSpansLoop
    refine Sat.bind (Q := fun p' log' => log ⊆ log' ∧
        Tree H T log' (i + 1) p' a' (m * T.stride (i + 1) + n) tl)
      (Span.update_mono H utf8 _ _) (fun _ => saveSpansLoop_mono H utf8 _ _)
      (Span.update_tree h1 h3 h4 h5 ht (Nat.le_trans (T.stride_mono (by omega)) hs) (by omega)
        fun p' log' a1 a2 => ⟨a1, a2⟩) ?_
    rintro p' log' - ⟨hsub, h7⟩
    refine (ih log' (i + 1) p' a' _ tl h7 (h6.mono hsub) ?_ (by omega)).mono ?_
    · rwa [show i + 1 + rest.length = i + (p :: rest).length by simp only [List.length_cons]; omega]
    · intro root log'' h
      rw [show i + 1 + rest.length = i + (p :: rest).length by simp only [List.length_cons]; omega,
        ← Nat.add_assoc] at h
      exact h

theorem Variable.saveSpans_sat {log : Saved} {v : Variable} {sp : Span} {rest : List Span}
    {a n tl : Nat} (h1 : v.chunkSize = T.cs) (h2 : v.spanSize = T.ss)
    (h3 : v.encoding = T.enc) (ht : Tree H T log 0 sp a n tl) (hc : Chain H T log 0 rest a)
    (hs : T.stride rest.length ≤ T.B) (hta : T.Tall rest.length a) (hn : a + n ≤ T.B) :
    Sat w H (v.saveSpans H utf8 (sp :: rest)) log (fun v' log' =>
      VarOpen H T log' v' (a + n) tl ∧ ∃ cid, v' = { v with cid := cid }) := by
  have htl : tl = n := ht.2.2.1
  subst htl
  unfold Variable.saveSpans
  refine Sat.bind (saveSpansLoop_mono H utf8 _ _) (fun _ => (Mono.save H _).bind fun _ => Mono.pure _)
    (saveSpansLoop_sat rest log 0 sp a tl tl ht hc (by rwa [Nat.zero_add]) hn) ?_
  intro root log' _ hroot
  rw [Nat.zero_add] at hroot
  refine Sat.bind (Mono.save H _) (fun _ => Mono.pure _) (Sat.save (hroot.wf hs hn)
    (Q := fun cid log'' => log' ⊆ log'' ∧ Kept H log'' cid (.span root)) fun cid log'' a1 a2 => ⟨a1, a2⟩) ?_
  rintro cid log'' - ⟨hsub, hk⟩
  exact Sat.pure ⟨⟨h1, h2, h3, _, root, hk, hroot.mono hsub, hs, a, rfl, hta⟩, cid, rfl⟩

/-! ### A new span -/

theorem Shaped.new {i : Nat} {enc : MMEncoding} {s : Nat} (h : s = T.stride i) (he : enc = T.enc) :
    Shaped T i (Span.new T.rows T.cols s enc) := ⟨h, rfl, rfl, he⟩

theorem openSpanLoop_sat {v : Variable} (hv : v.spanSize = T.ss) (he : v.encoding = T.enc) : ∀ (above : List Span)
    (log : Saved) (i : Nat) (l sp : Span) (a tl : Nat),
    Tree H T log i l a (T.stride (i + 1)) tl → ChainF H T log i l above a (T.stride (i + 1)) →
    Tree H T log i sp (a + T.stride (i + 1)) 0 0 → T.stride (i + above.length) ≤ T.B →
    a + T.stride (i + 1) ≤ T.B → T.Tall (i + above.length) (a + T.stride (i + 1)) →
    Sat w H (openSpanLoop H utf8 v T.rows T.cols l sp above) log (fun x log' =>
      ∃ j a' n', Tree H T log' j x.1 a' n' 0 ∧ Chain H T log' j x.2 a' ∧
        a' + n' = a + T.stride (i + 1) ∧ T.stride (j + x.2.length) ≤ T.B ∧
        T.stride (j + x.2.length) ≤ a + T.stride (i + 1)) := by
  intro above
  induction above with
  | nil =>
    intro log i l sp a tl hl hc hsp hs hn hta
    cases hc
    rw [Nat.zero_add] at *
    have hst : v.spanSize * sp.stride = T.stride (i + 1) := by
      rw [hv, hsp.shaped.stride, ← T.stride_succ]
    unfold openSpanLoop
    refine Sat.bind (Q := fun r log' => log ⊆ log' ∧ Shaped T (i + 1) r ∧ r.spans.length = 1 ∧
        r.instants = 1 * T.stride (i + 1) ∧ FullTo H T (Tree H T log' i) log' i r 0 1)
      (Span.append_mono H utf8 _ _) (fun _ => (Span.append_mono H utf8 _ _).bind fun _ => Mono.pure _)
      (Span.append_tree (m := 0) (a := 0) (i := i) (n := T.stride (i + 1)) (tl := tl) (Shaped.new hst he)
        rfl (by have := T.ss_two; omega) (by simp [Span.new]) (fun j hj => by omega)
        (by simpa using hl) hs hn ?_) ?_
    · intro p' log' hsub ht ⟨cid, e1, e2⟩ hlen _
      refine ⟨hsub, ht.shaped, hlen, by rw [ht.instants]; omega, fun j hj => ?_⟩
      have : j = 0 := by omega
      subst this
      exact ⟨cid, l, tl, e1, e2, by simpa using hl.mono hsub⟩
    · rintro r log' - ⟨hsub, h1, h2, h3, h4⟩
      refine Sat.bind (Q := fun p' log'' => Tree H T log'' (i + 1) p' 0 (1 * T.stride (i + 1) + 0) 0)
        (Span.append_mono H utf8 _ _) (fun _ => Mono.pure _)
        (Span.append_tree (m := 1) (a := 0) (i := i) (n := 0) (tl := 0) h1 h2
          (by have := T.ss_two; omega) h3 h4 (by simpa using hsp.mono hsub) hs (by omega)
          fun p' log'' _ b2 _ _ _ => b2) ?_
      intro p' log'' _ ht
      refine Sat.pure ⟨i + 1, 0, _, ht, rfl, by omega, ?_, ?_⟩
      · simpa using hn
      · simp
  | cons p rest ih =>
    intro log i l sp a tl hl hc hsp hs hn hta
    obtain ⟨h1, m, a', rfl, h3, h4, h5, h6, ⟨cid, h7, h8⟩, h9⟩ := hc
    have hst : v.spanSize * sp.stride = T.stride (i + 1) := by
      rw [hv, hsp.shaped.stride, ← T.stride_succ]
    have hsi : T.stride i ≤ T.B := Nat.le_trans (T.stride_mono (by omega)) hs
    have hs' : T.stride (i + 1 + rest.length) ≤ T.B := by
      rwa [show i + 1 + rest.length = i + (p :: rest).length by simp only [List.length_cons]; omega]
    have hta' : T.stride (i + 1 + rest.length) ≤ a' + m * T.stride (i + 1) + T.stride (i + 1) := by
      rcases hta with h | h
      · simp at h
      · rwa [show i + (p :: rest).length = i + 1 + rest.length by simp only [List.length_cons]; omega] at h
    have hmul : m * T.stride (i + 1) + T.stride (i + 1) = (m + 1) * T.stride (i + 1) := by
      rw [Nat.succ_mul]
    have hpt : Tree H T log (i + 1) p a' (m * T.stride (i + 1) + T.stride (i + 1)) tl :=
      ⟨h1, h5, m, _, h3, h4, rfl, h6, cid, l, h7, h8, hl⟩
    have hfull : FullTo H T (Tree H T log i) log i p a' (m + 1) := by
      intro j hj
      rcases Nat.lt_or_ge j m with h | h
      · exact h6 j h
      · have : j = m := by omega
        subst this
        exact ⟨cid, l, tl, h7, h8, hl⟩
    unfold openSpanLoop
    split
    · rename_i hfullp
      rw [hv, h3] at hfullp
      have hcap : m * T.stride (i + 1) + T.stride (i + 1) = T.stride (i + 1 + 1) := by
        rw [hmul, hfullp, ← T.stride_succ]
      refine Sat.bind (Q := fun r log' => log ⊆ log' ∧
          Tree H T log' (i + 1) r (a' + T.stride (i + 1 + 1)) (0 * T.stride (i + 1) + 0) 0)
        (Span.append_mono H utf8 _ _) (fun _ => openSpanLoop_mono H utf8 _ _ _ _ _ _)
        (Span.append_tree (m := 0) (i := i) (n := 0) (tl := 0) (Shaped.new hst he)
          rfl (by have := T.ss_two; omega) (by simp [Span.new]) (fun j hj => by omega)
          (by rw [Nat.zero_mul, Nat.add_zero, ← hcap, ← Nat.add_assoc]; exact hsp) hsi (by omega)
          fun p' log' a1 a2 _ _ _ => ⟨a1, a2⟩) ?_
      rintro r log' - ⟨hsub, hr⟩
      rw [hcap] at hpt h9
      refine (ih log' (i + 1) p r a' tl (hpt.mono hsub) (h9.mono hsub) (by simpa using hr) hs'
        (by omega) (.inr (by omega))).mono ?_
      rintro x log'' ⟨j, a'', n', b1, b2, b3, b4, b5⟩
      exact ⟨j, a'', n', b1, b2, by omega, b4, by omega⟩
    · rename_i hnot
      rw [hv, h3] at hnot
      refine Sat.bind (Q := fun r log' => log ⊆ log' ∧
          Tree H T log' (i + 1) r a' ((m + 1) * T.stride (i + 1) + 0) 0)
        (Span.append_mono H utf8 _ _) (fun _ => Mono.pure _)
        (Span.append_tree (m := m + 1) (i := i) (n := 0) (tl := 0) h1 h3 (by omega)
          (by rw [h5, hmul]) hfull (by rw [← hmul, ← Nat.add_assoc]; exact hsp) hsi (by omega)
          fun p' log' a1 a2 _ _ _ => ⟨a1, a2⟩) ?_
      rintro r log' - ⟨hsub, hr⟩
      exact Sat.pure ⟨i + 1, a', _, hr, h9.chain.mono hsub, by omega, hs', hta'⟩

theorem Tree.empty (log : Saved) (a : Nat) (enc : MMEncoding) (he : enc = T.enc) :
    Tree H T log 0 (Span.new T.rows T.cols T.cs enc) a 0 0 :=
  ⟨Shaped.new T.stride_zero.symm he, rfl, rfl, Nat.zero_le _, fun j => by simp [Span.new],
    fun j hj => by omega⟩

theorem Variable.createOpenSpan_sat {log : Saved} {v : Variable} {N fuel : Nat} (hf : 32 ≤ fuel)
    (h : VarOpen H T log v N (T.stride 1)) (hN : N ≤ T.B) :
    Sat w H (v.createOpenSpan H utf8 fuel T.rows T.cols) log (fun v' log' =>
      VarOpen H T log' v' N 0 ∧ ∃ cid, v' = { v with cid := cid }) := by
  unfold Variable.createOpenSpan
  refine Sat.bind (Variable.tailSpans_mono H utf8 fuel v) ?_ (Variable.tailSpans_sat hf h) ?_
  · intro spans
    cases spans with
    | nil => exact Mono.fail _
    | cons l spans =>
      refine (openSpanLoop_mono H utf8 v T.rows T.cols spans l _).bind fun x => ?_
      rw [openSpanUp_eq]
      exact (saveSpansLoop_mono H utf8 _ _).bind fun s => (Mono.save H _).bind fun _ => Mono.pure _
  rintro _ _ - ⟨rfl, leaf, rest, a, rfl, h1, h2, h3, h4, h5⟩
  simp only
  refine Sat.bind (openSpanLoop_mono H utf8 v T.rows T.cols rest leaf _) ?_
    (openSpanLoop_sat h.spanSize h.encoding rest log 0 leaf _ a (T.stride 1) h1 h2
      (by rw [h.chunkSize]; exact Tree.empty _ _ _ h.encoding) (by rwa [Nat.zero_add])
      (by rw [Nat.zero_add]; omega) (by
        rw [Nat.zero_add, Nat.zero_add]
        exact h5.imp id fun h => by omega)) ?_
  · intro x
    rw [openSpanUp_eq]
    exact (saveSpansLoop_mono H utf8 _ _).bind fun s => (Mono.save H _).bind fun _ => Mono.pure _
  rintro x log' - ⟨j, a', n', b1, b2, b3, b4, b5⟩
  rw [Nat.zero_add] at b3 b5
  rw [openSpanUp_eq]
  refine Sat.bind (saveSpansLoop_mono H utf8 _ _) (fun _ => (Mono.save H _).bind fun _ => Mono.pure _)
    (saveSpansLoop_sat x.2 log' j x.1 a' n' 0 b1 b2 b4 (by omega)) ?_
  intro root log'' _ hroot
  refine Sat.bind (Mono.save H _) (fun _ => Mono.pure _) (Sat.save (hroot.wf b4 (by omega))
    (Q := fun cid log''' => log'' ⊆ log''' ∧ Kept H log''' cid (.span root))
      fun cid log'' a1 a2 => ⟨a1, a2⟩) ?_
  rintro cid log''' - ⟨hsub, hk⟩
  refine Sat.pure ⟨⟨h.chunkSize, h.spanSize, h.encoding, _, root, hk, ?_, b4, N, rfl, .inr (by omega)⟩,
    cid, rfl⟩
  have : a' + n' = N := by omega
  rw [← this]
  exact hroot.mono hsub

theorem Variable.openIfFull_sat {log : Saved} {v : Variable} {sp : Span} {rest : List Span}
    {a n fuel : Nat} (hf : 32 ≤ fuel) (h1 : v.chunkSize = T.cs) (h2 : v.spanSize = T.ss)
    (h3 : v.encoding = T.enc) (ht : Tree H T log 0 sp a n n) (hc : Chain H T log 0 rest a)
    (hs : T.stride rest.length ≤ T.B) (hta : T.Tall rest.length a) (hn : a + n ≤ T.B) :
    Sat w H (v.openIfFull H utf8 fuel T.rows T.cols sp rest) log (fun x log' =>
      ∃ a' n', (∃ cid, x.1 = { v with cid := cid }) ∧ Tree H T log' 0 x.2.1 a' n' n' ∧
        Chain H T log' 0 x.2.2 a' ∧ T.stride x.2.2.length ≤ T.B ∧ a' + n' = a + n ∧
        n' < T.stride 1 ∧ (n < T.stride 1 → n' = n) ∧ (n = T.stride 1 → n' = 0) ∧
        T.Tall x.2.2.length a') := by
  unfold Variable.openIfFull
  have hst : v.spanSize * sp.stride = T.stride 1 := by
    rw [h2, ht.shaped.stride, ← T.stride_succ]
  rw [hst, ht.instants]
  have hpos := T.stride_pos 1
  split
  · rename_i hfull
    subst hfull
    have hm : ∀ v : Variable, Mono (do
        let spans ← Variable.tailSpans H utf8 fuel v
        match spans with
        | [] => Prog.fail .panic
        | sp :: rest => if sp.spans.length = 0 then pure (v, sp, rest) else Prog.fail .panic :
          Prog (Variable × Span × List Span)) := by
      intro v
      refine (Variable.tailSpans_mono H utf8 fuel v).bind fun spans => ?_
      cases spans with
      | nil => exact Mono.fail _
      | cons l spans =>
        simp only
        split
        · exact Mono.pure _
        · exact Mono.fail _
    refine Sat.bind (Variable.saveSpans_mono H utf8 v _)
      (fun v => (Variable.createOpenSpan_mono H utf8 fuel v T.rows T.cols).bind hm)
      (Variable.saveSpans_sat h1 h2 h3 ht hc hs hta hn) ?_
    rintro _ log1 - ⟨hv1, cid1, rfl⟩
    refine Sat.bind (Variable.createOpenSpan_mono H utf8 fuel _ T.rows T.cols) hm
      (Variable.createOpenSpan_sat hf hv1 hn) ?_
    rintro _ log2 - ⟨hv2, cid2, rfl⟩
    refine Sat.bind (Variable.tailSpans_mono H utf8 fuel _) ?_ (Variable.tailSpans_sat hf hv2) ?_
    · intro spans
      cases spans with
      | nil => exact Mono.fail _
      | cons l spans =>
        simp only
        split
        · exact Mono.pure _
        · exact Mono.fail _
    rintro _ _ - ⟨rfl, leaf, rest', a', rfl, c1, c2, c3, c4, c5⟩
    have hlen : leaf.spans.length = 0 := by
      by_contra hne
      have := (c1.2.2.2.2.1 0).1 (by omega)
      omega
    simp only
    rw [if_pos hlen]
    refine Sat.pure ⟨a', 0, ⟨cid2, rfl⟩, c1, c2.chain, c4, c3, hpos, fun h => by omega, fun _ => rfl, c5⟩
  · rename_i hnot
    have := ht.le
    rw [Nat.zero_add] at this
    exact Sat.pure ⟨a, n, ⟨v.cid, rfl⟩, ht, hc, hs, rfl, by omega, fun _ => rfl, fun h => absurd h hnot,
      hta⟩

/-! ### Adding chunks -/

/-- Adding a chunk to a span at the bottom. -/
theorem Span.append_chunk {log : Saved} {sp : Span} {m : MMStruct3} {a q n : Nat}
    {Q : Span → Saved → Prop} (ht : Tree H T log 0 sp a (q * T.cs) (q * T.cs)) (hq : q < T.ss)
    (hK : T.K log m (a + q * T.cs) n) (h1 : 1 ≤ n) (hn : n ≤ T.cs)
    (hQ : ∀ sp' log', log ⊆ log' → Tree H T log' 0 sp' a (q * T.cs + n) (q * T.cs + n) → Q sp' log') :
    Sat w H (Span.append H utf8 sp m) log Q := by
  have hcs := T.cs_pos
  obtain ⟨hsh, hin, -, -, hlen, hch⟩ := ht
  have hl : sp.spans.length = q := by
    have a1 := hlen q
    have a2 := hlen (q - 1)
    rcases Nat.eq_zero_or_pos q with rfl | hq0
    · have := (hlen 0); omega
    · have : (q - 1) * T.cs < q * T.cs := Nat.mul_lt_mul_of_pos_right (by omega) (by omega)
      have := a2.2 this
      have : ¬ q < sp.spans.length := fun h => by have := a1.1 h; omega
      omega
  have hstr : sp.stride = T.cs := by rw [hsh.stride, T.stride_zero]
  refine Span.append_sat (n := n) ?_ (by omega) (T.wf hK) ?_ ?_
  · rw [T.shape hK, hsh.rows, hsh.cols]
  · intro cid hlast
    rw [List.getLast?_eq_getElem?, hl] at hlast
    have hq0 : 0 < q := by
      by_contra h0
      have : sp.spans.length = 0 := by omega
      rw [List.length_eq_zero_iff] at this
      rw [this] at hlast
      cases hlast
    have hlt : (q - 1) * T.cs < q * T.cs := Nat.mul_lt_mul_of_pos_right (by omega) (by omega)
    obtain ⟨cid', m', b1, b2, b3⟩ := hch (q - 1) hlt
    rw [b1] at hlast
    cases hlast
    have he : q * T.cs - (q - 1) * T.cs = T.cs := by
      rw [← Nat.sub_mul, show q - (q - 1) = 1 by omega, Nat.one_mul]
    refine ⟨_, T.rows, T.cols, b2, ?_⟩
    rw [T.shape b3, he, hstr, Nat.min_self]
  · intro cid log' hs hk
    refine hQ _ log' hs ⟨⟨hsh.stride, hsh.rows, hsh.cols, hsh.encoding⟩, by simp only; rw [hin], rfl, ?_, ?_, ?_⟩
    · rw [T.stride_succ, T.stride_zero]
      have : (q + 1) * T.cs ≤ T.ss * T.cs := Nat.mul_le_mul_right _ hq
      rw [Nat.succ_mul] at this
      omega
    · intro j
      simp only [List.length_append, List.length_singleton, hl]
      constructor
      · intro hj
        rcases Nat.lt_or_ge j q with h | h
        · have : j * T.cs < q * T.cs := Nat.mul_lt_mul_of_pos_right h (by omega)
          omega
        · have : j = q := by omega
          subst this
          omega
      · intro hj
        by_contra hc
        have : (q + 1) * T.cs ≤ j * T.cs := Nat.mul_le_mul_right _ (by omega)
        rw [Nat.succ_mul] at this
        omega
    · intro j hj
      have hjq : j ≤ q := by
        by_contra hc
        have : (q + 1) * T.cs ≤ j * T.cs := Nat.mul_le_mul_right _ (by omega)
        rw [Nat.succ_mul] at this
        omega
      rcases Nat.lt_or_ge j q with h | h
      · have hlt : j * T.cs < q * T.cs := Nat.mul_lt_mul_of_pos_right h (by omega)
        obtain ⟨cid', m', b1, b2, b3⟩ := hch j hlt
        have h3 : (j + 1) * T.cs ≤ q * T.cs := Nat.mul_le_mul_right _ h
        rw [Nat.succ_mul] at h3
        refine ⟨cid', m', ?_, b2.mono hs, ?_⟩
        · simp only
          rw [List.getElem?_append_left (by omega)]
          exact b1
        · have := T.mono hs b3
          rwa [show min T.cs (q * T.cs - j * T.cs) = min T.cs (q * T.cs + n - j * T.cs) by omega] at this
      · have : j = q := by omega
        subst this
        refine ⟨cid, m, ?_, hk, ?_⟩
        · simp only
          rw [List.getElem?_append_right (by omega), hl]
          simp
        · rw [show min T.cs (j * T.cs + n - j * T.cs) = n by omega]
          exact T.mono hs hK

/-- Replacing the last chunk, which is not full. -/
theorem Span.update_chunk {log : Saved} {sp : Span} {m : MMStruct3} {a q p n : Nat}
    {Q : Span → Saved → Prop} (ht : Tree H T log 0 sp a (q * T.cs + p) (q * T.cs + p))
    (hp : 1 ≤ p) (hp' : p < T.cs)
    (hK : T.K log m (a + q * T.cs) n) (h1 : 1 ≤ n) (hn : n ≤ T.cs)
    (hQ : ∀ sp' log', log ⊆ log' → Tree H T log' 0 sp' a (q * T.cs + n) (q * T.cs + n) → Q sp' log') :
    Sat w H (Span.update H utf8 sp m) log Q := by
  have hcs := T.cs_pos
  obtain ⟨hsh, hin, -, hle, hlen, hch⟩ := ht
  have hl : sp.spans.length = q + 1 := by
    have a1 := hlen q
    have a2 := hlen (q + 1)
    have : (q + 1) * T.cs = q * T.cs + T.cs := Nat.succ_mul q T.cs
    have h3 := a1.2 (by omega)
    have : ¬ q + 1 < sp.spans.length := fun h => by have := a2.1 h; omega
    omega
  have hqs : q < T.ss := by
    by_contra hc
    have : T.ss * T.cs ≤ q * T.cs := Nat.mul_le_mul_right _ (by omega)
    rw [T.stride_succ, T.stride_zero] at hle
    omega
  have hd : sp.spans.dropLast.length = q := by rw [List.length_dropLast]; omega
  refine Span.append_chunk (a := a) (q := q) (n := n) ?_ hqs hK h1 hn hQ
  refine ⟨⟨hsh.stride, hsh.rows, hsh.cols, hsh.encoding⟩, ?_, rfl, ?_, ?_, ?_⟩
  · simp only [hd, hsh.stride, T.stride_zero]
  · omega
  · intro j
    simp only [hd]
    constructor
    · intro h; exact Nat.mul_lt_mul_of_pos_right h (by omega)
    · intro h; exact Nat.lt_of_mul_lt_mul_right h
  · intro j hj
    have hjq : j < q := Nat.lt_of_mul_lt_mul_right hj
    obtain ⟨cid', m', b1, b2, b3⟩ := hch j (by omega)
    have h3 : (j + 1) * T.cs ≤ q * T.cs := Nat.mul_le_mul_right _ hjq
    rw [Nat.succ_mul] at h3
    refine ⟨cid', m', ?_, b2, ?_⟩
    · simp only
      rw [List.getElem?_dropLast, if_pos (by omega)]
      exact b1
    · rwa [show min T.cs (q * T.cs + p - j * T.cs) = min T.cs (q * T.cs - j * T.cs) by omega] at b3

end

end Verif
