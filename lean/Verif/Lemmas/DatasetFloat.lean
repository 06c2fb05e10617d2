import Verif.Lemmas.DatasetInt
import Verif.Lemmas.FloatSame

/-! Variables of floats. -/
namespace Verif

open Prog hiding pure bind

/-- The assumptions on a variable of floats for which the builder may refuse to build chunks: sizes that fit the format, values that fit (see
`Flt.Fits`), squares of the grids that are neither mixed nor unbalanced (see `SquareOk`), chunks that
are balanced. `B` is the number of bits asked for when rounding, and
any number of bits that is enough for all values when not. -/
structure FltBase (clog : Nat → Nat) (lg : Rat → Int) (levels : List Nat) (p : Prec) (B : Nat)
    (round : Option Nat) (D : Nat → Nat → Nat → Flt) (N rows cols cs ss : Nat) : Prop where
  clogOk : ClogOk clog 2 (max rows cols)
  lgOk : LogClose lg
  rows_pos : 0 < rows
  cols_pos : 0 < cols
  rows_lt : rows < 2 ^ 32
  cols_lt : cols < 2 ^ 32
  cs_pos : 1 ≤ cs
  cs_lt : cs < 2 ^ 32
  ss_two : 2 ≤ ss
  ss_lt : ss < 2 ^ 32
  instants : N < 2 ^ 32
  levelsOk : LevelsOk 2 cs levels
  max_bits : B ≤ 60
  roundOk : ∀ b, round = some b → b = B
  fits : ∀ t r c, t < N → r < rows → c < cols → (D t r c).Fits p B round.isSome
  grid : ∀ a n, 1 ≤ n → n ≤ cs → a + n ≤ N →
    GridOk B 2 (fun e => ∃ s, s <:+ levels.tail ∧ e = s.sum) (fun t => D (a + t)) n rows cols
  balanced : ∀ a n, 1 ≤ n → n ≤ cs → a + n ≤ N →
    Balanced ((List.range n).flatMap (squareValues (fun t => D (a + t)) 0 rows 0 cols))

/-- The assumptions on a variable of floats: those of `FltBase` and levels that the builder accepts. -/
structure FltVar (clog : Nat → Nat) (lg : Rat → Int) (levels : List Nat) (p : Prec) (B : Nat)
    (round : Option Nat) (D : Nat → Nat → Nat → Flt) (N rows cols cs ss : Nat) : Prop extends
    FltBase clog lg levels p B round D N rows cols cs ss where
  accepts : ∀ a n, 1 ≤ n → n ≤ cs → a + n ≤ N →
    BuildOk clog 2 n levels (fun t r c => (D (a + t) r c).rounded B) rows cols

/-- What a chunk of floats that holds the instants from `a` to `a + n` is. -/
structure FltChunk (H : Hash) (levels : List Nat) (p : Prec) (B : Nat) (D : Nat → Nat → Nat → Flt)
    (rows cols : Nat) (log : Saved) (m : MMStruct3) (a n : Nat) : Prop where
  wf : m.WF
  shape : m.shape = some (n, rows, cols)
  reads : ∀ utf8 log', log ⊆ log' → log'.NoCollision H →
    Represents utf8 (log'.load H) (fun bits v => fromFixed p v bits)
      (LeafReads fun bits v => fromFixed p v bits) (ExtOf fun _ _ => True) (levels.length + 1) m n rows
      cols (fun t r c => (D (a + t) r c).rounded B)
  ground : ∀ utf8 log', log ⊆ log' → Ground utf8 H log' (2 * levels.length + 1) (.struct m)
  sides : ∀ utf8 log', log ⊆ log' → log'.NoCollision H → Sides utf8 (log'.load H) 2 levels m

section
variable {w : Prop} {H : Hash} {clog : Nat → Nat} {lg : Rat → Int} {levels : List Nat} {p : Prec} {B : Nat}
  {round : Option Nat} {D : Nat → Nat → Nat → Flt} {N rows cols cs ss : Nat} {enc : MMEncoding}

def FltBase.theory (H : Hash) (enc : MMEncoding)
    (h : FltBase clog lg levels p B round D N rows cols cs ss) : VarTheory where
  rows := rows
  cols := cols
  cs := cs
  ss := ss
  enc := enc
  B := max cs N
  K := FltChunk H levels p B D rows cols
  rows_lt := h.rows_lt
  cols_lt := h.cols_lt
  cs_pos := h.cs_pos
  ss_two := h.ss_two
  ss_lt := h.ss_lt
  cs_le := Nat.le_max_left ..
  B_lt := by have := h.cs_lt; have := h.instants; omega
  mono := fun hs _ _ _ h => ⟨h.wf, h.shape, fun u l hl => h.reads u l (List.Subset.trans hs hl),
    fun u l hl => h.ground u l (List.Subset.trans hs hl),
    fun u l hl => h.sides u l (List.Subset.trans hs hl)⟩
  shape := fun h => h.shape
  wf := fun h => h.wf

/-- The buffer holds the instants from `A` to `A + n`, some perhaps as they were read back. -/
def FltBuf (p : Prec) (B : Nat) (round : Option Nat) (D : Nat → Nat → Nat → Flt) (rows cols : Nat)
    (b : MMBuffer3) (A n : Nat) : Prop :=
  ∃ a, b = .flt p a (round.getD 0) round.isSome ∧
    ∀ t r c, t < n → r < rows → c < cols → (D (A + t) r c).Same B (a t r c)

theorem FltBase.chunksOk (h : FltBase clog lg levels p B round D N rows cols cs ss) {b : MMBuffer3}
    {A n : Nat} (hacc : w ∨ ∀ a n, 1 ≤ n → n ≤ cs → a + n ≤ N →
      BuildOk clog 2 n levels (fun t r c => (D (a + t) r c).rounded B) rows cols) (hb : FltBuf p B round D rows cols b A n) (hB : A + n ≤ N) :
    ChunksOk w H clog lg (h.theory H enc) levels b A n := by
  obtain ⟨a, rfl, hb⟩ := hb
  intro s log hs hnc
  change s * cs < n at hs
  have hmin : min (s * cs + cs) n - s * cs = min cs (n - s * cs) := by omega
  have hcs := h.cs_pos
  have hslice : (MMBuffer3.flt p a (round.getD 0) round.isSome).slice (s * cs) 0 0 =
      .flt p (fun t r c => a (s * cs + t) r c) (round.getD 0) round.isSome := by
    simp only [MMBuffer3.slice, Nat.zero_add]
  change Saved.NoCollision H (Prog.buildChunk H clog lg levels
    ((MMBuffer3.flt p a (round.getD 0) round.isSome).slice (s * cs) 0 0)
    (min (s * cs + cs) n - s * cs) rows cols log).2 at hnc
  change (∃ m log', Prog.buildChunk H clog lg levels
    ((MMBuffer3.flt p a (round.getD 0) round.isSome).slice (s * cs) 0 0)
    (min (s * cs + cs) n - s * cs) rows cols log = (.ok m, log') ∧
    FltChunk H levels p B D rows cols log' m (A + s * cs) (min cs (n - s * cs))) ∨
    w ∧ ∃ f log', Prog.buildChunk H clog lg levels
      ((MMBuffer3.flt p a (round.getD 0) round.isSome).slice (s * cs) 0 0)
      (min (s * cs + cs) n - s * cs) rows cols log = (.error f, log')
  rw [hmin, hslice] at hnc ⊢
  generalize hcn : min cs (n - s * cs) = cn at *
  have hcn1 : 1 ≤ cn := by omega
  have hcn2 : cn ≤ cs := by omega
  have hsame : ∀ t r c, t < cn → r < rows → c < cols →
      (D (A + s * cs + t) r c).Same B (a (s * cs + t) r c) := by
    intro t r c h1 h2 h3
    rw [Nat.add_assoc]
    exact hb _ _ _ (by omega) h2 h3
  generalize hbs : (fun t r c => a (s * cs + t) r c) = as at *
  have hsame : ∀ t r c, t < cn → r < rows → c < cols →
      (D (A + s * cs + t) r c).Same B (as t r c) := by
    intro t r c h1 h2 h3
    rw [← hbs]
    exact hsame t r c h1 h2 h3
  have hgrid := (h.grid (A + s * cs) cn hcn1 hcn2 (by omega)).same hsame
  have hbal : Balanced ((List.range cn).flatMap (MMBuffer3.values as rows cols)) := by
    refine Balanced.same_flat (B := B) (fun t ht => ?_) (h.balanced (A + s * cs) cn hcn1 hcn2 (by omega))
    have e := squareValues_eq (fun t => D (A + s * cs + t)) 0 0 rows cols t
    simp only [Nat.zero_add] at e
    rw [e]
    exact values_same fun r c hr hc => hsame t r c ht hr hc
  obtain ⟨bits', e1, hok⟩ := FltOk.computeBits (p := p) (a := as) (bits := round.getD 0) (lg := lg)
    h.lgOk h.max_bits
    (fun t r c h1 h2 h3 => (hsame t r c h1 h2 h3).fits (h.fits _ r c (by omega) h2 h3))
    (fun hr => by
      obtain ⟨b, rfl⟩ := Option.isSome_iff_exists.1 hr
      have := h.roundOk b rfl
      subst this
      exact ⟨Nat.le_refl _, fun _ _ _ _ _ _ => .inl rfl⟩)
    hcn1 h.rows_pos h.cols_pos hbal hgrid
  have heq : ∀ t r c, t < cn → r < rows → c < cols →
      (as t r c).rounded B = (D (A + s * cs + t) r c).rounded B := fun t r c h1 h2 h3 =>
    (hsame t r c h1 h2 h3).rounded
  rcases hr : Superchunk.build H clog lg 2 levels log (.flt p as bits' round.isSome) cn rows cols with
    _ | ⟨r, log'⟩
  · rcases hacc with hw | hacc
    · refine .inr ⟨hw, .panic, log, ?_⟩
      unfold Prog.buildChunk
      rw [e1]
      simp only
      rw [hr]
    · have hsome := (Superchunk.build_total_iff (H := H) (fltAccepts clog h.lgOk (by omega) p h.max_bits
        round.isSome (fun e => ∃ s, s <:+ levels.tail ∧ e = s.sum) hcn1)
        (by omega) levels log (.flt p as bits' round.isSome) rows cols (fun s hs => ⟨s, hs, rfl⟩)
        ⟨as, bits', rfl, hok⟩ h.rows_pos h.cols_pos h.clogOk).2
        (BuildOk.congr (fun t r c h1 h2 h3 => (heq t r c h1 h2 h3).symm)
          (hacc (A + s * cs) cn hcn1 hcn2 (by omega)))
      rw [hr] at hsome
      cases hsome
  have hrun : Prog.buildChunk H clog lg levels (.flt p as (round.getD 0) round.isSome) cn rows cols log =
      (.ok r.data, log') := by
    unfold Prog.buildChunk
    rw [e1]
    simp only
    rw [hr]
  have hlev : LevelsOk 2 cn levels :=
    ⟨h.levelsOk.side, h.levelsOk.tree, fun l hl =>
      Nat.lt_of_le_of_lt (Nat.mul_le_mul_right _ hcn2) (h.levelsOk.slots l hl)⟩
  have hn32 : cn < 2 ^ 32 := by have := h.cs_lt; omega
  have hrep := fun utf8 => superchunk_repr (fltReads clog h.lgOk (by omega) (by omega) p h.max_bits
      round.isSome (fun e => ∃ s, s <:+ levels.tail ∧ e = s.sum)) H utf8 (by omega) (by omega) _ cn
    h.clogOk hn32 levels hlev (fun s hs => ⟨s, hs, rfl⟩) log (.flt p as bits' round.isSome) rows cols r
    log' ⟨as, bits', rfl, hok⟩ h.rows_pos h.cols_pos (Nat.le_max_left ..) (Nat.le_max_right ..) hr
  refine .inl ⟨r.data, log', hrun, (hrep fun _ => true).2.1, ?_, ?_, fun u => (hrep u).2.2.1,
    fun u l hl hn => ((hrep u).2.2.2 l hl hn).2⟩
  · obtain ⟨⟨head, e, e1, e2, e3, -⟩, -⟩ := hrep fun _ => true
    rw [e]
    change some (head.instants, head.rows, head.cols) = _
    rw [e1, e2, e3]
  · intro utf8 log'' hsub hnc''
    have := ((hrep utf8).2.2.2 log'' hsub hnc'').1
    change Represents utf8 (log''.load H) (fun bits v => fromFixed p v bits)
      (LeafReads fun bits v => fromFixed p v bits) (ExtOf fun _ _ => True) (levels.length + 1) r.data cn
      rows cols (fun t r c => (as t r c).rounded B) at this
    exact Represents.congr (Leaf := LeafReads fun bits v => fromFixed p v bits)
      (fun _ _ _ _ _ _ h hl => LeafReads.congr h hl) heq this

theorem FltVar.chunksOk (h : FltVar clog lg levels p B round D N rows cols cs ss) {b : MMBuffer3}
    {A n : Nat} (hb : FltBuf p B round D rows cols b A n) (hB : A + n ≤ N) :
    ChunksOk False H clog lg (h.theory H enc) levels b A n :=
  h.toFltBase.chunksOk (.inr h.accepts) hb hB

/-- An array of floats as it is passed to `append_f32` or `append_f64`. -/
def NdArray.floats : NdArray → Nat → Nat → Nat → Flt
  | .flt _ a, t, r, c => a t r c
  | _, _, _, _ => .nan

/-- The array with the tail of the variable before it, as `append` reads it back: rounded. -/
theorem FltBase.prepend (h : FltBase clog lg levels p B round D N rows cols cs ss)
    {utf8 : List Byte → Bool} {readFuel : Nat} {fill : Fill} (hfill : fill.Valid utf8 readFuel)
    (hrf : levels.length < readFuel) {log : Saved} {x : Nat → Nat → Nat → Flt} {M n a q : Nat}
    {m : MMStruct3} (hnc : log.NoCollision H) (hK : FltChunk H levels p B D rows cols log m a q)
    (hap : a + q = M) (hdata : ∀ t r c, t < n → r < rows → c < cols → x t r c = D (M + t) r c) :
    (fill m (log.load H)).2 = none ∧ ∃ y, ((NdArray.flt p x).prepend q (fill m (log.load H)).1) = .flt p y ∧
      ∀ t r c, t < q + n → r < rows → c < cols →
        y t r c = if t < q then (D (a + t) r c).rounded B else D (a + t) r c := by
  obtain ⟨hw, hsh, hreads, -⟩ := hK
  have hrep := hreads utf8 log (List.Subset.refl _) hnc
  have hwin := repr_fillWindow (fun _ _ _ _ _ h => h) _ readFuel _ _ _ _ _ hrep hrf 0 q 0 rows 0 cols
    (Nat.zero_le _) (Nat.le_refl _) h.rows_pos h.cols_pos (Nat.le_refl _) (Nat.le_refl _)
  obtain ⟨⟨t, s, u, h1, -⟩, h2⟩ := hwin
  have hv := hfill m (log.load H) q rows cols hsh (by
    rw [Cube.new_eq (Nat.zero_le _) (Nat.zero_le _) (Nat.zero_le _)]
    exact ⟨_, _, h1⟩)
  rw [Cube.new_eq (Nat.zero_le _) (Nat.zero_le _) (Nat.zero_le _)] at hv
  obtain ⟨g1, g2⟩ := h2 _ _ ⟨_, hv, rfl⟩
  refine ⟨g1, _, rfl, fun t r c ht hr hc => ?_⟩
  unfold appendArray
  split
  · rename_i htq
    exact written_eq (zero := .fin 0) (dec := fun bits v => fromFixed p v bits) g2 htq hr hc
  · rw [hdata (t - q) r c (by omega) hr hc, show M + (t - q) = a + t by omega]

theorem FltBase.appendArray_sat (h : FltBase clog lg levels p B round D N rows cols cs ss)
    {utf8 : List Byte → Bool} {readFuel : Nat} {fill : Fill} (hfill : fill.Valid utf8 readFuel)
    (hrf : levels.length < readFuel) {log : Saved} {v : Variable} {x : Nat → Nat → Nat → Flt}
    {M tl n fuel : Nat} (hf : 32 ≤ fuel)
    (hacc : w ∨ ∀ a n, 1 ≤ n → n ≤ cs → a + n ≤ N →
      BuildOk clog 2 n levels (fun t r c => (D (a + t) r c).rounded B) rows cols)
    (hv : VarInv H (h.theory H enc) log v M tl) (hl : v.k2Levels = levels) (hro : v.round = round)
    (hB : M + n ≤ N) (hdata : ∀ t r c, t < n → r < rows → c < cols → x t r c = D (M + t) r c) :
    Sat w H (v.appendArray H utf8 clog lg fuel fill (.flt p x) n rows cols) log (fun v' log' =>
      (∃ tl', VarInv H (h.theory H enc) log' v' (M + n) tl') ∧ ∃ cid, v' = { v with cid := cid }) := by
  refine Variable.appendArray_sat (T := h.theory H enc) hf hv hl
    (Nat.le_trans hB (Nat.le_max_right cs N)) ?_ ?_
  · rw [hro]
    exact h.chunksOk hacc ⟨x, rfl, fun t r c ht hr hc => .inl (hdata t r c ht hr hc)⟩ hB
  · intro m a q hnc hK hap hp _
    obtain ⟨e1, y, e2, e3⟩ := h.prepend hfill hrf hnc hK hap hdata
    refine ⟨.inl e1, h.chunksOk hacc ?_ (by omega)⟩
    rw [hro, e2]
    refine ⟨y, rfl, fun t r c ht hr hc => ?_⟩
    rw [e3 t r c ht hr hc]
    split
    · exact .inr rfl
    · exact .inl rfl

end

end Verif
