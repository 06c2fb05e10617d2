import Verif.Lemmas.AnyData
import Verif.Lemmas.DatasetFloat

/-!
A chunk of a variable holds what was appended to it, whatever is in the others.
-/
namespace Verif

open Prog hiding pure bind

section
variable {H : Hash} {utf8 : List Byte → Bool} {clog : Nat → Nat} {lg : Rat → Int} {fuel readFuel : Nat}
  {levels : List Nat} {N rows cols cs ss : Nat} {enc : MMEncoding} {round : Option Nat}

/-- Anything, but the chunk that begins at `a0` is as in another theory, in which it comes first. -/
def Settings.focus (H : Hash) (enc : MMEncoding) (h : Settings clog levels N rows cols cs ss) (T : VarTheory)
    (a0 : Nat) : VarTheory :=
  { h.theory H enc with
    K := fun log m a n => AnyChunk H levels rows cols log m n ∧ (a = a0 → T.K log m 0 n)
    mono := fun hs _ _ _ hk => ⟨(h.theory H enc).mono hs (a := 0) hk.1, fun e => T.mono hs (hk.2 e)⟩
    shape := fun hk => hk.1.shape
    wf := fun hk => hk.1.wf }

theorem MMBuffer3.slice_zero (b : MMBuffer3) : b.slice 0 0 0 = b := by
  cases b <;> simp [MMBuffer3.slice]

theorem Settings.focusOk (h : Settings clog levels N rows cols cs ss) {T : VarTheory} {a0 : Nat}
    (hcs : T.cs = cs) (hr : T.rows = rows) (hc : T.cols = cols) {b : MMBuffer3} {A n : Nat}
    (hT : ∀ s, A + s * cs = a0 → s * cs < n →
      ChunksOk True H clog lg T levels (b.slice (s * cs) 0 0) 0 (min cs (n - s * cs))) :
    ChunksOk True H clog lg (h.focus H enc T a0) levels b A n := by
  intro s log hs hnc
  change s * cs < n at hs
  have hmin : min (s * cs + cs) n - s * cs = min cs (n - s * cs) := by omega
  have hpos := h.cs_pos
  rcases h.chunksOk (enc := enc) (lg := lg) (H := H) b A n s log hs hnc with ⟨m, log', h1, h2⟩ | h'
  · refine .inl ⟨m, log', h1, h2, fun e => ?_⟩
    have e : A + s * cs = a0 := e
    have h3 := hT s e hs 0 log (by rw [hcs]; omega)
    subst hcs hr hc
    rw [Nat.zero_mul, MMBuffer3.slice_zero, Nat.zero_add, Nat.sub_zero, Nat.sub_zero, Nat.zero_add] at h3
    rw [Nat.min_eq_right (by omega)] at h3
    change buildChunk H clog lg levels (b.slice (s * T.cs) 0 0) (min (s * T.cs + T.cs) n - s * T.cs) T.rows
      T.cols log = _ at h1
    rw [hmin] at h1
    rcases h3 (by rw [h1]; change Saved.NoCollision H (buildChunk H clog lg levels (b.slice (s * T.cs) 0 0)
      (min (s * T.cs + T.cs) n - s * T.cs) T.rows T.cols log).2 at hnc; rw [hmin, h1] at hnc; exact hnc)
      with ⟨m', log'', h4, h5⟩ | ⟨-, f, log'', h4⟩
    · rw [h1] at h4
      cases h4
      exact h5
    · rw [h1] at h4
      cases h4
  · exact .inr h'

/-- Arrays that are `Next` give the chunk that begins at `a0` what it should have, alone and after the tail
that was read back. -/
def Hits (H : Hash) (utf8 : List Byte → Bool) (clog : Nat → Nat) (lg : Rat → Int) (readFuel : Nat)
    (T : VarTheory) (levels : List Nat) (round : Option Nat) (N a0 : Nat) (Next : Nat → NdArray → Nat → Prop) :
    Prop :=
  ∀ (log : Saved) (fill : Fill) (data : NdArray) (M n : Nat), fill.Valid utf8 readFuel → Next M data n →
    M + n ≤ N ∧
    (∀ s, M + s * T.cs = a0 → s * T.cs < n →
      ChunksOk True H clog lg T levels ((data.buffer round).slice (s * T.cs) 0 0) 0
        (min T.cs (n - s * T.cs))) ∧
    ∀ m a p, log.NoCollision H → (a = a0 → T.K log m 0 p) → a + p = M → 1 ≤ p → p < T.cs →
      ∀ s, a + s * T.cs = a0 → s * T.cs < p + n →
        ChunksOk True H clog lg T levels
          (((data.prepend p (fill m (log.load H)).1).buffer round).slice (s * T.cs) 0 0) 0
          (min T.cs (p + n - s * T.cs))

theorem Hits.appends {T : VarTheory} {a0 : Nat} {Next : Nat → NdArray → Nat → Prop}
    (hh : Hits H utf8 clog lg readFuel T levels round N a0 Next)
    (h : Settings clog levels N rows cols cs ss) (hcs : T.cs = cs) (hr : T.rows = rows) (hc : T.cols = cols)
    (hf : 32 ≤ fuel) :
    Appends True H utf8 clog lg fuel readFuel (h.focus H enc T a0) levels round Next := by
  intro log v fill data M tl n hfill hv hl hro hd
  obtain ⟨h1, h2, h3⟩ := hh log fill data M n hfill hd
  subst hcs
  refine Variable.appendArray_sat (T := h.focus H enc T a0) hf hv hl (Nat.le_trans h1 (Nat.le_max_right _ N)) ?_ ?_
  · rw [hro]
    exact h.focusOk rfl hr hc h2
  · intro m a p hnc hK hap hp hp'
    rw [hro]
    exact ⟨.inr trivial, h.focusOk rfl hr hc (h3 m a p hnc hK.2 hap hp hp')⟩

/-! ### What the whole reads as is what the chunk reads as -/

theorem Represents.unique {st : Store} {α : Type} {dec : Nat → Int64 → α} {Ext Ext' : SuperHead → Nat → Nat → α → Prop}
    {d d' : Nat} {m : MMStruct3} {n rows cols : Nat} {data data' : Nat → Nat → Nat → α}
    (h : Represents utf8 st dec (LeafReads dec) Ext d m n rows cols data)
    (h' : Represents utf8 st dec (LeafReads dec) Ext' d' m n rows cols data') {t r c : Nat} (ht : t < n)
    (hr : r < rows) (hc : c < cols) : data t r c = data' t r c := by
  obtain ⟨b, v, e1, e2⟩ := repr_get (fun _ _ _ _ _ h => h) _ (max d d') _ _ _ _ _ h (Nat.le_max_left ..) t r c ht hr hc
  obtain ⟨b', v', e1', e2'⟩ := repr_get (fun _ _ _ _ _ h => h) _ (max d d') _ _ _ _ _ h' (Nat.le_max_right ..) t r c
    ht hr hc
  rw [e1] at e1'
  cases e1'
  rw [← e2, ← e2']

/-- The chunk of an instant, and what it represents. -/
theorem Tree.chunk {T : VarTheory} {log : Saved} {α : Type} {dec : Nat → Int64 → α} {Leaf Ext}
    (hnc : log.NoCollision H) : ∀ (i : Nat) (sp : Span) (a n tl d : Nat) (E : Nat → Nat → Nat → α),
    Tree H T log i sp a n tl → Represents utf8 (log.load H) dec Leaf Ext d (.span sp) n T.rows T.cols E →
    ∀ s, s * T.cs < n → ∃ m d', T.K log m (a + s * T.cs) (min T.cs (n - s * T.cs)) ∧
      Represents utf8 (log.load H) dec Leaf Ext d' m (min T.cs (n - s * T.cs)) T.rows T.cols
        (fun t => E (s * T.cs + t)) := by
  intro i
  induction i with
  | zero =>
    intro sp a n tl d E ht hE s hs
    have hst : sp.stride = T.cs := by rw [ht.shaped.stride, T.stride_zero]
    obtain ⟨-, -, -, -, -, h6⟩ := ht
    obtain ⟨cid, m, a1, a2, a3⟩ := h6 s hs
    cases d with
    | zero => exact hE.elim
    | succ d =>
      have hE : SpanRepr utf8 (log.load H) (Represents utf8 (log.load H) dec Leaf Ext d) sp n T.rows T.cols E := hE
      obtain ⟨cid', m', b1, b2, b3⟩ := hE.sub s (by rw [hst]; exact hs)
      rw [a1] at b1
      cases b1
      rw [a2.get utf8 hnc] at b2
      cases b2
      rw [hst] at b3
      exact ⟨m, d, a3, b3⟩
  | succ i ih =>
    intro sp a n tl d E ht hE s hs
    have hst := ht.shaped.stride
    have hpos := T.stride_pos (i + 1)
    have hcs := T.cs_pos
    obtain ⟨-, -, m, n', h3, hm, rfl, h5, cid, c, h6, h7, h8⟩ := ht
    have hle := h8.le
    cases d with
    | zero => exact hE.elim
    | succ d =>
    have hE : SpanRepr utf8 (log.load H) (Represents utf8 (log.load H) dec Leaf Ext d) sp
      (m * T.stride (i + 1) + n') T.rows T.cols E := hE
    obtain ⟨q, hq⟩ : ∃ q, T.stride (i + 1) = q * T.cs := ⟨_, Nat.mul_comm ..⟩
    have hq0 : 0 < q := Nat.pos_of_mul_pos_right (hq ▸ hpos)
    obtain ⟨j, s', rfl, hs'⟩ : ∃ j s', s = j * q + s' ∧ s' < q :=
      ⟨s / q, s % q, by rw [Nat.mul_comm]; exact (Nat.div_add_mod s q).symm, Nat.mod_lt _ hq0⟩
    have e1 : (j * q + s') * T.cs = j * T.stride (i + 1) + s' * T.cs := by
      rw [hq, Nat.add_mul, Nat.mul_assoc]
    have e2 : s' * T.cs + T.cs ≤ T.stride (i + 1) := by
      rw [hq, ← Nat.succ_mul]
      exact Nat.mul_le_mul_right _ hs'
    rw [e1] at hs ⊢
    have hj : j * sp.stride < m * T.stride (i + 1) + n' := by rw [hst]; omega
    obtain ⟨cid', m', b1, b2, b3⟩ := hE.sub j hj
    rw [hst] at b3
    have hfin : ∀ nj, nj = min (T.stride (i + 1)) (m * T.stride (i + 1) + n' - j * T.stride (i + 1)) →
        ∀ c' tl', m' = .span c' → Tree H T log i c' (a + j * T.stride (i + 1)) nj tl' →
        ∃ m'' d', T.K log m'' (a + (j * T.stride (i + 1) + s' * T.cs))
          (min T.cs (m * T.stride (i + 1) + n' - (j * T.stride (i + 1) + s' * T.cs))) ∧
        Represents utf8 (log.load H) dec Leaf Ext d' m''
          (min T.cs (m * T.stride (i + 1) + n' - (j * T.stride (i + 1) + s' * T.cs))) T.rows T.cols
          (fun t => E (j * T.stride (i + 1) + s' * T.cs + t)) := by
      intro nj hnj c' tl' hm' ht'
      subst hm'
      rw [← hnj] at b3
      obtain ⟨m'', d', g1, g2⟩ := ih _ _ _ _ _ _ ht' b3 s' (by omega)
      have : min T.cs (nj - s' * T.cs) =
        min T.cs (m * T.stride (i + 1) + n' - (j * T.stride (i + 1) + s' * T.cs)) := by omega
      rw [this] at g1 g2
      rw [Nat.add_assoc] at g1
      refine ⟨m'', d', g1, ?_⟩
      simpa only [Nat.add_assoc] using g2
    rcases Nat.lt_or_ge j m with hjm | hjm
    · obtain ⟨cid'', c', tl', g1, g2, g3⟩ := h5 j hjm
      rw [b1] at g1
      cases g1
      rw [g2.get utf8 hnc] at b2
      cases b2
      refine hfin _ ?_ _ _ rfl g3
      have h9 : (j + 1) * T.stride (i + 1) ≤ m * T.stride (i + 1) := Nat.mul_le_mul_right _ hjm
      rw [Nat.succ_mul] at h9
      omega
    · have hjm : j = m := by
        by_contra hne
        have h9 : (m + 1) * T.stride (i + 1) ≤ j * T.stride (i + 1) := Nat.mul_le_mul_right _ (by omega)
        rw [Nat.succ_mul] at h9
        omega
      subst hjm
      rw [b1] at h6
      cases h6
      rw [h7.get utf8 hnc] at b2
      cases b2
      exact hfin _ (by omega) _ _ rfl h8

/-! ### Integers -/

/-- What is next in a variable in which the instants from `a0` to `a0 + cs` are integers. -/
def NextInts (D : Nat → Nat → Nat → Int64) (N rows cols cs a0 M : Nat) (data : NdArray) (n : Nat) : Prop :=
  M + n ≤ N ∧ (M < a0 + cs → a0 < M + n →
    (∀ t r c, t < n → a0 ≤ M + t → M + t < a0 + cs → r < rows → c < cols → data.int t r c = D (M + t) r c) ∧
    ((∃ a, data = .i64 a) ∨ (∃ a, data = .i32 a) ∧
      ∀ t r c, a0 ≤ t → t < M → r < rows → c < cols → ∃ x : Int32, D t r c = x.toInt64))

theorem IntBase.hits {D : Nat → Nat → Nat → Int64} {a0 : Nat}
    (h : IntBase clog levels (fun t => D (a0 + t)) (min cs (N - a0)) rows cols cs ss)
    (hrf : levels.length < readFuel) :
    Hits H utf8 clog lg readFuel (h.theory H enc) levels round N a0 (NextInts D N rows cols cs a0) := by
  intro log fill data M n hfill ⟨hN, hd⟩
  refine ⟨hN, ?_, ?_⟩
  · intro s hs hn
    change M + s * cs = a0 at hs
    change s * cs < n at hn
    have hcs := h.cs_pos
    obtain ⟨h1, h2⟩ := hd (by omega) (by omega)
    change ChunksOk True H clog lg (h.theory H enc) levels ((data.buffer round).slice (s * cs) 0 0) 0
      (min cs (n - s * cs))
    refine h.chunksOk (.inl trivial) ⟨?_, fun t r c ht hr hc => ?_⟩ (by omega)
    · refine MMBuffer3.isInt.slice ?_ _ _ _
      rcases h2 with ⟨x, rfl⟩ | ⟨⟨x, rfl⟩, -⟩ <;> trivial
    · rw [MMBuffer3.int_slice0, show (data.buffer round).int (s * cs + t) r c = data.int (s * cs + t) r c by
        rcases h2 with ⟨x, rfl⟩ | ⟨⟨x, rfl⟩, -⟩ <;> rfl, h1 _ _ _ (by omega) (by omega) (by omega) hr hc]
      change D _ r c = D _ r c
      rw [Nat.zero_add, ← hs, Nat.add_assoc]
  · intro m a p hnc hK hap hp hp' s hs hn
    change a + s * cs = a0 at hs
    change s * cs < p + n at hn
    change p < cs at hp'
    change ChunksOk True H clog lg (h.theory H enc) levels
      (((data.prepend p (fill m (log.load H)).1).buffer round).slice (s * cs) 0 0) 0 (min cs (p + n - s * cs))
    obtain ⟨h1, h2⟩ := hd (by omega) (by omega)
    refine h.chunksOk (.inl trivial) ?_ (by omega)
    cases s with
    | zero =>
      rw [Nat.zero_mul] at hs ⊢
      rw [MMBuffer3.slice_zero, Nat.sub_zero]
      obtain ⟨-, h3⟩ := h.prepend (n := min n (cs - p)) (M := p) (data := data) (round := round) hfill hrf hnc
        (hK hs) (by omega)
        (fun t r c ht hr hc => by
          rw [h1 t r c (by omega) (by omega) (by omega) hr hc]
          change D _ r c = D _ r c
          rw [← hap, ← hs, Nat.add_zero, Nat.add_assoc])
        (h2.imp id fun h => ⟨h.1, fun t r c ht hr hc => h.2 _ r c (by omega) (by omega) hr hc⟩)
      rw [show p + min n (cs - p) = min cs (p + n) by omega] at h3
      exact h3
    | succ s =>
      rw [Nat.succ_mul] at hs hn ⊢
      refine ⟨?_, fun t r c ht hr hc => ?_⟩
      · refine MMBuffer3.isInt.slice ?_ _ _ _
        rcases h2 with ⟨x, rfl⟩ | ⟨⟨x, rfl⟩, -⟩ <;> trivial
      · rw [MMBuffer3.int_slice0]
        have h3 := h1 (s * cs + cs + t - p) r c (by omega) (by omega) (by omega) hr hc
        change _ = D _ r c
        rw [show 0 + t = t by omega, ← hs, show a + (s * cs + cs) + t = M + (s * cs + cs + t - p) by omega, ← h3]
        rcases h2 with ⟨x, rfl⟩ | ⟨⟨x, rfl⟩, -⟩
        · change appendArray _ _ _ _ _ _ = _
          unfold appendArray
          rw [if_neg (by omega)]
          rfl
        · change Int32.toInt64 (appendArray _ _ _ _ _ _) = _
          unfold appendArray
          rw [if_neg (by omega)]
          rfl

/-! ### Floats -/

/-- What is next in a variable in which the instants from `a0` to `a0 + cs` are floats. -/
def NextFlts (p : Prec) (D : Nat → Nat → Nat → Flt) (N rows cols cs a0 M : Nat) (data : NdArray) (n : Nat) : Prop :=
  M + n ≤ N ∧ (M < a0 + cs → a0 < M + n → ∃ x, data = .flt p x ∧
    ∀ t r c, t < n → a0 ≤ M + t → M + t < a0 + cs → r < rows → c < cols → x t r c = D (M + t) r c)

theorem FltBase.hits {p : Prec} {B : Nat} {D : Nat → Nat → Nat → Flt} {a0 : Nat}
    (h : FltBase clog lg levels p B round (fun t => D (a0 + t)) (min cs (N - a0)) rows cols cs ss)
    (hrf : levels.length < readFuel) :
    Hits H utf8 clog lg readFuel (h.theory H enc) levels round N a0 (NextFlts p D N rows cols cs a0) := by
  intro log fill data M n hfill ⟨hN, hd⟩
  refine ⟨hN, ?_, ?_⟩
  · intro s hs hn
    change M + s * cs = a0 at hs
    change s * cs < n at hn
    have hcs := h.cs_pos
    obtain ⟨x, rfl, h1⟩ := hd (by omega) (by omega)
    change ChunksOk True H clog lg (h.theory H enc) levels
      ((MMBuffer3.flt p x (round.getD 0) round.isSome).slice (s * cs) 0 0) 0 (min cs (n - s * cs))
    refine h.chunksOk (.inl trivial) ⟨_, rfl, fun t r c ht hr hc => .inl ?_⟩ (by omega)
    rw [Nat.zero_add, Nat.zero_add, h1 _ _ _ (by omega) (by omega) (by omega) hr hc]
    beta_reduce
    rw [Nat.zero_add, ← hs, Nat.add_assoc]
  · intro m a q hnc hK hap hp hp' s hs hn
    change a + s * cs = a0 at hs
    change s * cs < q + n at hn
    change q < cs at hp'
    change ChunksOk True H clog lg (h.theory H enc) levels
      (((data.prepend q (fill m (log.load H)).1).buffer round).slice (s * cs) 0 0) 0 (min cs (q + n - s * cs))
    obtain ⟨x, rfl, h1⟩ := hd (by omega) (by omega)
    refine h.chunksOk (.inl trivial) ?_ (by omega)
    cases s with
    | zero =>
      rw [Nat.zero_mul] at hs ⊢
      rw [MMBuffer3.slice_zero, Nat.sub_zero]
      obtain ⟨-, y, h2, h3⟩ := h.prepend (n := min n (cs - q)) (M := q) (x := x) hfill hrf hnc (hK hs) (by omega)
        (fun t r c ht hr hc => by
          rw [h1 t r c (by omega) (by omega) (by omega) hr hc]
          rw [← hap, ← hs, Nat.add_zero, Nat.add_assoc])
      rw [h2]
      refine ⟨y, rfl, fun t r c ht hr hc => ?_⟩
      rw [h3 t r c (by omega) hr hc]
      split
      · exact .inr rfl
      · exact .inl rfl
    | succ s =>
      rw [Nat.succ_mul] at hs hn ⊢
      refine ⟨_, rfl, fun t r c ht hr hc => .inl ?_⟩
      have h3 := h1 (s * cs + cs + t - q) r c (by omega) (by omega) (by omega) hr hc
      rw [Nat.zero_add, Nat.zero_add]
      unfold appendArray
      rw [if_neg (by omega), h3, Nat.zero_add, ← hs]
      beta_reduce
      rw [show a + (s * cs + cs) + t = M + (s * cs + cs + t - q) by omega]

/-- A chunk of a variable for which the assumptions hold. -/
theorem FltBase.chunk {p : Prec} {B : Nat} {D : Nat → Nat → Nat → Flt}
    (h : FltBase clog lg levels p B round D N rows cols cs ss) (a : Nat) :
    FltBase clog lg levels p B round (fun t => D (a + t)) (min cs (N - a)) rows cols cs ss :=
  { h with
    instants := by have := h.instants; omega
    fits := fun t r c ht => h.fits _ r c (by omega)
    grid := fun b n h1 h2 h3 => by
      simpa only [Nat.add_assoc] using h.grid (a + b) n h1 h2 (by omega)
    balanced := fun b n h1 h2 h3 => by
      simpa only [Nat.add_assoc] using h.balanced (a + b) n h1 h2 (by omega) }

/-! ### The arrays appended -/

theorem follows_iff {Next : Nat → NdArray → Nat → Prop} (as : List (NdArray × Nat)) (M : Nat) :
    Follows Next M as ↔ ∀ i x, as[i]? = some x → Next (M + total (as.take i)) x.1 x.2 := by
  induction as generalizing M with
  | nil => simp [Follows]
  | cons y as ih =>
    unfold Follows
    rw [ih]
    constructor
    · rintro ⟨h1, h2⟩ i x hx
      cases i with
      | zero =>
        cases hx
        exact h1
      | succ i =>
        have := h2 i x hx
        rwa [List.take_succ_cons, total_cons, ← Nat.add_assoc]
    · intro h
      refine ⟨h 0 y rfl, fun i x hx => ?_⟩
      have := h (i + 1) x hx
      rwa [List.take_succ_cons, total_cons, ← Nat.add_assoc] at this

theorem concatInt_at : ∀ (as : List (NdArray × Nat)) (i : Nat) (x : NdArray × Nat) (t r c : Nat), as[i]? = some x →
    t < x.2 → concatInt as (total (as.take i) + t) r c = x.1.int t r c := by
  intro as
  induction as with
  | nil => intro i x t r c h; cases h
  | cons y as ih =>
    intro i x t r c h ht
    cases i with
    | zero =>
      cases h
      change concatInt (y :: as) (0 + t) r c = _
      simp [concatInt, ht]
    | succ i =>
      rw [List.take_succ_cons, total_cons, ← ih i x t r c h ht, Nat.add_assoc]
      simp [concatInt]

theorem concatFlt_at : ∀ (as : List (NdArray × Nat)) (i : Nat) (x : NdArray × Nat) (t r c : Nat), as[i]? = some x →
    t < x.2 → concatFlt as (total (as.take i) + t) r c = x.1.floats t r c := by
  intro as
  induction as with
  | nil => intro i x t r c h; cases h
  | cons y as ih =>
    intro i x t r c h ht
    cases i with
    | zero =>
      cases h
      change concatFlt (y :: as) (0 + t) r c = _
      simp [concatFlt, ht]
    | succ i =>
      rw [List.take_succ_cons, total_cons, ← ih i x t r c h ht, Nat.add_assoc]
      simp [concatFlt]

/-- The array that an instant is in. -/
theorem total_at : ∀ (as : List (NdArray × Nat)) (t : Nat), t < total as →
    ∃ i x, as[i]? = some x ∧ total (as.take i) ≤ t ∧ t < total (as.take i) + x.2 := by
  intro as
  induction as with
  | nil => intro t h; exact absurd h (Nat.not_lt_zero _)
  | cons y as ih =>
    intro t h
    rw [total_cons] at h
    rcases Nat.lt_or_ge t y.2 with h1 | h1
    · exact ⟨0, y, rfl, Nat.zero_le _, by change t < 0 + y.2; omega⟩
    · obtain ⟨i, x, e1, e2, e3⟩ := ih (t - y.2) (by omega)
      refine ⟨i + 1, x, e1, ?_⟩
      rw [List.take_succ_cons, total_cons]
      omega

theorem total_take_le : ∀ (as : List (NdArray × Nat)) (i : Nat) (x : NdArray × Nat), as[i]? = some x →
    total (as.take i) + x.2 ≤ total as := by
  intro as
  induction as with
  | nil => intro i x h; cases h
  | cons y as ih =>
    intro i x h
    cases i with
    | zero =>
      cases h
      rw [total_cons]
      change 0 + y.2 ≤ _
      omega
    | succ i =>
      have := ih i x h
      rw [List.take_succ_cons, total_cons, total_cons]
      omega

/-- All arrays that were appended within the chunk from `a` to `a + cs` are such: those that have instants in it,
and those without instants that were appended when it had some of its own. -/
def Within (as : List (NdArray × Nat)) (cs a : Nat) (P : NdArray → Prop) : Prop :=
  ∀ i x, as[i]? = some x → total (as.take i) < a + cs → a < total (as.take i) + x.2 → P x.1

theorem Within.small {as : List (NdArray × Nat)} {cs a : Nat} (h : Within as cs a fun x => ∃ y, x = .i32 y)
    {t r c : Nat} (h1 : a ≤ t) (h2 : t < a + cs) (h3 : t < total as) :
    ∃ x : Int32, concatInt as t r c = x.toInt64 := by
  obtain ⟨i, x, e1, e2, e3⟩ := total_at as t h3
  obtain ⟨y, hy⟩ := h i x e1 (by omega) (by omega)
  have := concatInt_at as i x (t - total (as.take i)) r c e1 (by omega)
  rw [Nat.add_sub_cancel' e2, hy] at this
  exact ⟨_, this⟩

theorem Within.ints {as : List (NdArray × Nat)} {cs a rows cols : Nat}
    (h : (Within as cs a fun x => ∃ y, x = .i64 y) ∨ Within as cs a fun x => ∃ y, x = .i32 y) :
    Follows (NextInts (concatInt as) (total as) rows cols cs a) 0 as := by
  rw [follows_iff]
  intro i x hx
  have hle := total_take_le as i x hx
  rw [Nat.zero_add]
  refine ⟨hle, fun h1 h2 => ⟨fun t r c ht _ _ _ _ => (concatInt_at as i x t r c hx ht).symm, ?_⟩⟩
  rcases h with h | h
  · exact .inl (h i x hx h1 h2)
  · exact .inr ⟨h i x hx h1 h2, fun t r c a1 a2 _ _ => h.small a1 (by omega) (by omega)⟩

theorem Within.flts {p : Prec} {as : List (NdArray × Nat)} {cs a rows cols : Nat}
    (h : Within as cs a fun x => ∃ y, x = .flt p y) :
    Follows (NextFlts p (concatFlt as) (total as) rows cols cs a) 0 as := by
  rw [follows_iff]
  intro i x hx
  have hle := total_take_le as i x hx
  rw [Nat.zero_add]
  refine ⟨hle, fun h1 h2 => ?_⟩
  obtain ⟨y, hy⟩ := h i x hx h1 h2
  refine ⟨y, hy, fun t r c ht _ _ _ _ => ?_⟩
  rw [concatFlt_at as i x t r c hx ht, hy]
  rfl

end

end Verif
