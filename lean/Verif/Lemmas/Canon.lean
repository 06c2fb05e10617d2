import Verif.Lemmas.BuildCongr
import Verif.Lemmas.DatasetHistory

/-! The tree of a variable is determined by its chunks, and the chunks by the data. -/
namespace Verif

open Prog hiding pure bind

section
variable {H : Hash} {T : VarTheory}

/-! ### Trees with the same chunks are the same -/

theorem Tree.full_tail {log i sp a tl} (h : Tree H T log i sp a (T.stride (i + 1)) tl) : 1 ≤ tl := by
  induction i generalizing sp a tl with
  | zero =>
    have h1 : tl = T.stride (0 + 1) := h.2.2.1
    have h2 := T.stride_pos (0 + 1)
    omega
  | succ i ih =>
    obtain ⟨-, -, m, n', -, hm, hn, -, cid, c, -, -, hc⟩ := h
    have hle := hc.le
    rw [T.stride_succ (i + 1)] at hn
    have : n' = T.stride (i + 1) := by
      have h1 : (m + 1) * T.stride (i + 1) ≤ T.ss * T.stride (i + 1) := Nat.mul_le_mul_right _ hm
      rw [Nat.succ_mul] at h1
      omega
    subst this
    exact ih hc

/-- Two ways to write a number as a multiple of `S` and a rest that is not zero. -/
theorem divide_unique {S m m' n n' : Nat} (h : m * S + n = m' * S + n') (h1 : 1 ≤ n) (h2 : n ≤ S)
    (h3 : 1 ≤ n') (h4 : n' ≤ S) : m = m' ∧ n = n' := by
  rcases Nat.lt_trichotomy m m' with hm | hm | hm
  · have : (m + 1) * S ≤ m' * S := Nat.mul_le_mul_right _ hm
    rw [Nat.succ_mul] at this
    omega
  · subst hm
    exact ⟨rfl, by omega⟩
  · have : (m' + 1) * S ≤ m * S := Nat.mul_le_mul_right _ hm
    rw [Nat.succ_mul] at this
    omega

theorem Tree.unique {log log' : Saved}
    (hK : ∀ m m' a n, T.K log m a n → T.K log' m' a n → m = m') :
    ∀ (i : Nat) (sp sp' : Span) (a n tl tl' : Nat), Tree H T log i sp a n tl → Tree H T log' i sp' a n tl' →
    (i ≠ 0 → 1 ≤ tl ∧ 1 ≤ tl') → sp = sp' := by
  intro i
  induction i with
  | zero =>
    intro sp sp' a n tl tl' h h' _
    obtain ⟨⟨s1, s2, s3, s4⟩, h1, -, -, h2, h3⟩ := h
    obtain ⟨⟨s1', s2', s3', s4'⟩, h1', -, -, h2', h3'⟩ := h'
    have hspans : sp.spans = sp'.spans := by
      refine List.ext_getElem? fun j => ?_
      by_cases hj : j * T.cs < n
      · obtain ⟨cid, m, e1, e2, e3⟩ := h3 j hj
        obtain ⟨cid', m', e1', e2', e3'⟩ := h3' j hj
        have := hK m m' _ _ e3 e3'
        subst this
        rw [e1, e1', ← e2.cid, ← e2'.cid]
      · rw [List.getElem?_eq_none (by have := h2 j; omega), List.getElem?_eq_none (by have := h2' j; omega)]
    obtain ⟨f1, f2, f3, f4, f5, f6⟩ := sp
    obtain ⟨g1, g2, g3, g4, g5, g6⟩ := sp'
    simp only at *
    subst s1 s2 s3 s4 h1 hspans
    rw [s1', s2', s3', s4', h1']
  | succ i ih =>
    intro sp sp' a n tl tl' h h' ht
    obtain ⟨ht1, ht2⟩ := ht (Nat.succ_ne_zero i)
    obtain ⟨⟨s1, s2, s3, s4⟩, h1, m, r, l1, -, l3, l4, cid, c, l5, l6, l7⟩ := h
    obtain ⟨⟨s1', s2', s3', s4'⟩, h1', m', r', l1', -, l3', l4', cid', c', l5', l6', l7'⟩ := h'
    have hr1 := l7.tail_le
    have hr2 := l7'.tail_le
    obtain ⟨rfl, rfl⟩ := divide_unique (l3.symm.trans l3') (by omega) l7.le (by omega) l7'.le
    have hc : c = c' := ih c c' _ _ _ _ l7 l7' fun _ => ⟨ht1, ht2⟩
    subst hc
    have hspans : sp.spans = sp'.spans := by
      refine List.ext_getElem? fun j => ?_
      rcases Nat.lt_trichotomy j m with hj | hj | hj
      · obtain ⟨cid, c, t, e1, e2, e3⟩ := l4 j hj
        obtain ⟨cid', c', t', e1', e2', e3'⟩ := l4' j hj
        have := ih c c' _ _ _ _ e3 e3' fun _ => ⟨e3.full_tail, e3'.full_tail⟩
        subst this
        rw [e1, e1', ← e2.cid, ← e2'.cid]
      · subst hj
        rw [l5, l5', ← l6.cid, ← l6'.cid]
      · rw [List.getElem?_eq_none (by omega), List.getElem?_eq_none (by omega)]
    obtain ⟨f1, f2, f3, f4, f5, f6⟩ := sp
    obtain ⟨g1, g2, g3, g4, g5, g6⟩ := sp'
    simp only at *
    subst s1 s2 s3 s4 hspans
    rw [s1', s2', s3', s4', h1, h1']

theorem VarInv.height {log v N tl} (h : VarInv H T log v N tl) :
    ∃ i root, Kept H log v.cid (.span root) ∧ Tree H T log i root 0 N tl ∧ (i ≠ 0 → 1 ≤ tl) ∧
      (i ≠ 0 → T.stride i < N) := by
  obtain ⟨-, -, -, i, root, h1, h2, -, ⟨a, h3, h4⟩, h5⟩ := h
  have hpos := T.stride_pos i
  refine ⟨i, root, h1, h2, fun hi => ?_, fun hi => ?_⟩
  · rcases h4 with h4 | h4
    · exact absurd h4 hi
    · exact h5 (by omega)
  · rcases h4 with h4 | h4
    · exact absurd h4 hi
    · have := h5 (by omega)
      omega

/-- Variables with the same chunks have the same identifier. -/
theorem VarInv.cid_unique {log log' : Saved} {v v' : Variable} {N tl tl' : Nat}
    (hK : ∀ m m' a n, T.K log m a n → T.K log' m' a n → m = m')
    (h : VarInv H T log v N tl) (h' : VarInv H T log' v' N tl') : v.cid = v'.cid := by
  obtain ⟨i, root, h1, h2, h3, h4⟩ := h.height
  obtain ⟨i', root', h1', h2', h3', h4'⟩ := h'.height
  have hi : i = i' := by
    have hle := h2.le
    have hle' := h2'.le
    rcases Nat.lt_trichotomy i i' with hi | hi | hi
    · have := T.stride_mono (show i + 1 ≤ i' from hi)
      have := h4' (by omega)
      omega
    · exact hi
    · have := T.stride_mono (show i' + 1 ≤ i from hi)
      have := h4 (by omega)
      omega
  subst hi
  have := Tree.unique hK i root root' _ _ _ _ h2 h2' fun hi => ⟨h3 hi, h3' hi⟩
  subst this
  rw [← h1.cid, ← h1'.cid]

/-! ### Chunks made from the data -/

/-- The theory with one more condition on chunks. -/
def VarTheory.and (T : VarTheory) (P : MMStruct3 → Nat → Nat → Prop) : VarTheory :=
  { T with
    K := fun log m a n => T.K log m a n ∧ P m a n
    mono := fun hs _ _ _ h => ⟨T.mono hs h.1, h.2⟩
    shape := fun h => T.shape h.1
    wf := fun h => T.wf h.1 }

variable {clog : Nat → Nat} {lg : Rat → Int} {levels : List Nat}

/-- `m` is what gets built of the instants from `a` to `a + n` of `buf`. -/
def Made (H : Hash) (clog : Nat → Nat) (lg : Rat → Int) (levels : List Nat) (rows cols : Nat)
    (buf : MMBuffer3) (m : MMStruct3) (a n : Nat) : Prop :=
  1 ≤ n ∧ ∃ log, (Prog.buildChunk H clog lg levels (buf.slice a 0 0) n rows cols log).1 = .ok m

theorem MMBuffer3.Agree.refl (n rows cols : Nat) (b : MMBuffer3) : b.Agree n rows cols b := by
  cases b with
  | i32 => exact .i32 fun _ _ _ _ _ _ => rfl
  | i64 => exact .i64 fun _ _ _ _ _ _ => rfl
  | flt => exact .flt fun _ _ _ _ _ _ => rfl

theorem Made.unique {rows cols : Nat} {buf : MMBuffer3} {m m' : MMStruct3} {a n : Nat}
    (h : Made H clog lg levels rows cols buf m a n) (h' : Made H clog lg levels rows cols buf m' a n) :
    m = m' := by
  obtain ⟨hn, log, h⟩ := h
  obtain ⟨-, log', h'⟩ := h'
  rw [Prog.buildChunk_congr hn (MMBuffer3.Agree.refl ..) levels log log', h'] at h
  cases h
  rfl

theorem MMBuffer3.Agree.sliceOf {b buf : MMBuffer3} {A n rows cols : Nat}
    (h : b.Agree n rows cols (buf.slice A 0 0)) {s n' : Nat} (hs : s + n' ≤ n) :
    (b.slice s 0 0).Agree n' rows cols (buf.slice (A + s) 0 0) := by
  cases buf with
  | i32 x =>
    cases h with
    | i32 h =>
      refine .i32 fun t r c ht hr hc => ?_
      have := h (s + t) r c (by omega) hr hc
      simp only [Nat.zero_add] at this ⊢
      rw [this, Nat.add_assoc]
  | i64 x =>
    cases h with
    | i64 h =>
      refine .i64 fun t r c ht hr hc => ?_
      have := h (s + t) r c (by omega) hr hc
      simp only [Nat.zero_add] at this ⊢
      rw [this, Nat.add_assoc]
  | flt p x bits round =>
    cases h with
    | flt h =>
      refine .flt fun t r c ht hr hc => ?_
      have := h (s + t) r c (by omega) hr hc
      simp only [Nat.zero_add] at this ⊢
      rw [this, Nat.add_assoc]

/-- Chunks of a buffer that agrees with `buf` are what gets built of `buf`. -/
theorem ChunksOk.made {b buf : MMBuffer3} {A n : Nat} (h : ChunksOk False H clog lg T levels b A n)
    (hb : b.Agree n T.rows T.cols (buf.slice A 0 0)) :
    ChunksOk False H clog lg (T.and (Made H clog lg levels T.rows T.cols buf)) levels b A n := by
  intro s log hs hnc
  change s * T.cs < n at hs
  have hcs := T.cs_pos
  obtain ⟨m, log', h1, h2⟩ := (h s log hs).ok hnc
  refine .inl ⟨m, log', h1, h2, ?_, log, ?_⟩
  · change 1 ≤ min T.cs (n - s * T.cs)
    omega
  · change (Prog.buildChunk H clog lg levels (buf.slice (A + s * T.cs) 0 0) (min T.cs (n - s * T.cs))
      T.rows T.cols log).1 = .ok m
    have hmin : min T.cs (n - s * T.cs) = min (s * T.cs + T.cs) n - s * T.cs := by omega
    rw [hmin]
    have := Prog.buildChunk_congr (H := H) (clog := clog) (lg := lg) (by omega)
      (hb.sliceOf (s := s * T.cs) (n' := min (s * T.cs + T.cs) n - s * T.cs) (by omega)) levels log log
    rw [← this]
    exact congrArg Prod.fst h1

variable {utf8 : List Byte → Bool} {fuel readFuel : Nat} {round : Option Nat}
  {Next : Nat → NdArray → Nat → Prop} {buf : MMBuffer3}

/-- Arrays that are `Next` are built, alone and after the tail that was read back, and agree with
`buf`. -/
def Feeds (H : Hash) (utf8 : List Byte → Bool) (clog : Nat → Nat) (lg : Rat → Int) (readFuel : Nat)
    (T : VarTheory) (levels : List Nat) (round : Option Nat) (buf : MMBuffer3)
    (Next : Nat → NdArray → Nat → Prop) : Prop :=
  ∀ (log : Saved) (fill : Fill) (data : NdArray) (M n : Nat), fill.Valid utf8 readFuel → Next M data n →
    M + n ≤ T.B ∧
    (ChunksOk False H clog lg T levels (data.buffer round) M n ∧
      (data.buffer round).Agree n T.rows T.cols (buf.slice M 0 0)) ∧
    ∀ m a p, log.NoCollision H → T.K log m a p → a + p = M → 1 ≤ p →
      (fill m (log.load H)).2 = none ∧
      ChunksOk False H clog lg T levels ((data.prepend p (fill m (log.load H)).1).buffer round) a (p + n) ∧
      ((data.prepend p (fill m (log.load H)).1).buffer round).Agree (p + n) T.rows T.cols (buf.slice a 0 0)

theorem Feeds.appends (h : Feeds H utf8 clog lg readFuel T levels round buf Next) (hf : 32 ≤ fuel) :
    Appends False H utf8 clog lg fuel readFuel (T.and (Made H clog lg levels T.rows T.cols buf)) levels round
      Next := by
  intro log v fill data M tl n hfill hv hl hr hd
  obtain ⟨h1, ⟨h2, h3⟩, h4⟩ := h log fill data M n hfill hd
  refine Variable.appendArray_sat (T := T.and _) hf hv hl h1 ?_ ?_
  · rw [hr]
    exact h2.made h3
  · intro m a p hnc hK hap hp _
    obtain ⟨e1, e2, e3⟩ := h4 m a p hnc hK.1 hap hp
    rw [hr]
    exact ⟨.inl e1, e2.made e3⟩

end

/-! ### Integers -/

section
variable {H : Hash} {utf8 : List Byte → Bool} {clog : Nat → Nat} {lg : Rat → Int} {fuel readFuel : Nat}
  {levels : List Nat} {round : Option Nat} {N rows cols cs ss : Nat} {enc : MMEncoding}

section
variable {D : Nat → Nat → Nat → Int64}

/-- The series as a buffer of 64 or 32 bits. -/
def seriesBuf (wide : Bool) (D : Nat → Nat → Nat → Int64) : MMBuffer3 :=
  if wide then .i64 D else .i32 fun t r c => (D t r c).toInt32

/-- The array has this width. -/
def NdArray.Wide (wide : Bool) (data : NdArray) : Prop :=
  if wide then ∃ a, data = .i64 a else ∃ a, data = .i32 a

theorem IntBuf.agree {wide : Bool} {data : NdArray} {A n : Nat} (hw : data.Wide wide)
    (h : IntBuf D rows cols (data.buffer round) A n) :
    (data.buffer round).Agree n rows cols ((seriesBuf wide D).slice A 0 0) := by
  cases wide with
  | true =>
    obtain ⟨x, rfl⟩ := hw
    refine .i64 fun t r c ht hr hc => ?_
    simp only [Nat.zero_add]
    exact h.int t r c ht hr hc
  | false =>
    obtain ⟨x, rfl⟩ := hw
    refine .i32 fun t r c ht hr hc => ?_
    simp only [Nat.zero_add]
    have : (x t r c).toInt64 = D (A + t) r c := h.int t r c ht hr hc
    rw [← this]
    simp

theorem NdArray.Wide.prepend {wide : Bool} {data : NdArray} (hw : data.Wide wide) (p : Nat) (calls : Calls) :
    (data.prepend p calls).Wide wide := by
  cases wide with
  | true => obtain ⟨x, rfl⟩ := hw; exact ⟨_, rfl⟩
  | false => obtain ⟨x, rfl⟩ := hw; exact ⟨_, rfl⟩

theorem IntVar.feeds (h : IntVar clog levels D N rows cols cs ss) (hrf : levels.length < readFuel)
    (wide : Bool) :
    Feeds H utf8 clog lg readFuel (h.theory H enc) levels round (seriesBuf wide D)
      (fun M data n => NextInt D N rows cols M data n ∧ data.Wide wide) := by
  rintro log fill data M n hfill ⟨⟨h1, h2, h3⟩, hw⟩
  have hb := IntBuf.ofData (round := round) h2 (h3.imp id (·.1))
  refine ⟨Nat.le_trans h1 (Nat.le_max_right cs N), ⟨h.chunksOk hb h1, hb.agree hw⟩, ?_⟩
  intro m a p hnc hK hap hp
  obtain ⟨e1, e2⟩ := h.prepend (round := round) hfill hrf hnc hK hap h2 h3
  exact ⟨e1, h.chunksOk e2 (by omega), e2.agree (hw.prepend _ _)⟩

end

/-! ### Floats -/

section
variable {p : Prec} {B : Nat} {D : Nat → Nat → Nat → Flt}

theorem FltVar.feeds (h : FltVar clog lg levels p B round D N rows cols cs ss)
    (hrf : levels.length < readFuel)
    (hex : ∀ t r c, t < N → r < rows → c < cols → (D t r c).rounded B = D t r c) :
    Feeds H utf8 clog lg readFuel (h.theory H enc) levels round (.flt p D (round.getD 0) round.isSome)
      (NextFlt p D N rows cols) := by
  rintro log fill data M n hfill ⟨h1, x, rfl, h2⟩
  refine ⟨Nat.le_trans h1 (Nat.le_max_right cs N), ⟨h.chunksOk ⟨x, rfl, fun t r c ht hr hc =>
    .inl (h2 t r c ht hr hc)⟩ h1, .flt fun t r c ht hr hc => ?_⟩, ?_⟩
  · simp only [Nat.zero_add]
    exact h2 t r c ht hr hc
  · intro m a q hnc hK hap hp
    obtain ⟨e1, y, e2, e3⟩ := h.prepend hfill hrf hnc hK hap h2
    have e4 : ∀ t r c, t < q + n → r < rows → c < cols → y t r c = D (a + t) r c := by
      intro t r c ht hr hc
      rw [e3 t r c ht hr hc]
      split
      · exact hex _ _ _ (by omega) hr hc
      · rfl
    rw [e2]
    refine ⟨e1, h.chunksOk ⟨y, rfl, fun t r c ht hr hc => .inl (e4 t r c ht hr hc)⟩ (by omega),
      .flt fun t r c ht hr hc => ?_⟩
    simp only [Nat.zero_add]
    exact e4 t r c ht hr hc

end

end

end Verif
