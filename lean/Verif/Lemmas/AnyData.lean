import Verif.Lemmas.ChunkAny
import Verif.Lemmas.DatasetInt
import Verif.Lemmas.DatasetHistory

/-!
What holds of variables whatever the arrays are that were appended: what is stored fits the format,
leads only to what is stored, and has the shape that it should.
-/
namespace Verif

open Prog hiding pure bind

/-- The settings of a variable, its shape and the number of its instants are within the limits of the format. -/
structure Settings (clog : Nat → Nat) (levels : List Nat) (N rows cols cs ss : Nat) : Prop where
  clogOk : ClogOk clog 2 (max rows cols)
  rows_pos : 0 < rows
  cols_pos : 0 < cols
  rows_lt : rows < 2 ^ 32
  cols_lt : cols < 2 ^ 32
  cs_pos : 1 ≤ cs
  cs_lt : cs < 2 ^ 32
  ss_two : 2 ≤ ss
  ss_lt : ss < 2 ^ 32
  instants : N < 2 ^ 32
  levelsOk : LevelsOk 2 cs levels

theorem computeBits_lt {lg : Rat → Int} {data : List Flt} {bits b : Nat} {round : Bool}
    (h : Verif.computeBits lg data bits round = some b) : b ≤ 62 := by
  have hs : ∀ f, suggestFraction lg data = some f → ∀ b, f = .precise b ∨ f = .round b → b ≤ 62 := by
    intro f hf b hb
    unfold suggestFraction at hf
    split at hf
    · cases hf
    split at hf
    · cases hf
      rcases hb with h | h <;> cases h
      omega
    · simp only at hf
      split at hf
      · have e := Option.some.inj hf
        rcases hb with h | h
        · have := fractionLoop_le (Nat.zero_le _) (e.trans h)
          omega
        · rw [h] at e
          have : ∀ (m acc : Nat) (ns : List Flt), fractionLoop m acc ns = .round b → b = m := by
            intro m acc ns
            induction ns generalizing acc with
            | nil => intro h; cases h
            | cons n ns ih =>
              intro h
              unfold fractionLoop at h
              split at h
              · cases h; rfl
              · exact ih _ h
          have := this _ _ _ e
          omega
      · cases hf
  unfold Verif.computeBits at h
  split at h
  · cases h
  · rename_i b' e
    have := hs _ e b' (.inl rfl)
    split at h <;> cases h <;> omega
  · rename_i b' e
    have := hs _ e b' (.inr rfl)
    split at h
    · cases h; omega
    · cases h

theorem MMBuffer3.computeBits_lt {lg : Rat → Int} {b b' : MMBuffer3} {n rows cols : Nat}
    (h : b.computeBits lg n rows cols = some b') : b'.fractionalBits < 256 := by
  cases b with
  | i32 a => cases h; exact (by decide : (0 : Nat) < 256)
  | i64 a => cases h; exact (by decide : (0 : Nat) < 256)
  | flt p a bits round =>
    unfold MMBuffer3.computeBits at h
    simp only [Option.map_eq_some_iff] at h
    obtain ⟨x, hx, rfl⟩ := h
    have := Verif.computeBits_lt hx
    change x < 256
    omega

/-- A chunk that was built from any buffer fits the format and, for even arities, can be read. -/
theorem any_leaf {clog : Nat → Nat} {k : Nat} {b : MMBuffer3} {n rows cols : Nat} {r : MMStruct3Build}
    (hfb : b.fractionalBits < 256) (hn : 1 ≤ n) (hn' : n < 2 ^ 32)
    (hs : ShapeOk rows cols k (clog (max rows cols))) (hf : FormatOk rows cols k (clog (max rows cols)))
    (h : Chunk.buildBuffer clog b n rows cols k = some r) :
    ∃ c, r.data = .subchunk c ∧ c.WF ∧ (k % 2 = 0 → AnyLeaf c n rows cols) := by
  unfold Chunk.buildBuffer at h
  split at h
  · rw [Option.map_eq_some_iff] at h
    obtain ⟨q, hq, rfl⟩ := h
    refine ⟨q.data, rfl, ?_, fun heven => chunk_any _ _ hs hn heven hq⟩
    obtain ⟨bs, h1, -, -, h3, h4⟩ := chunk_build (fun t r c => (b.get t r c).getD 0) n rows cols k
      (clog (max rows cols)) (by have := hs.arity; omega) hn b.encoding b.fractionalBits
    rw [hq] at h3
    cases h3
    exact h1.wf hf (by omega) _ _ hfb
  · cases h

/-- Nothing is said about the values. -/
def anyReads (clog : Nat → Nat) (lg : Rat → Int) (k : Nat) :
    BuildTheory clog lg k (fun _ _ => ()) (fun c n rows cols _ => k % 2 = 0 → AnyLeaf c n rows cols)
      (fun _ _ => True) where
  J := fun _ => True
  OK := fun b _ _ _ => b.fractionalBits < 256
  val := fun _ _ _ _ => ()
  slice := fun b _ _ _ _ _ _ _ h _ _ => by rw [MMBuffer3.slice_fractionalBits]; exact h
  slice_val := fun _ _ _ _ _ _ => rfl
  bits := fun _ _ _ _ _ _ _ _ _ _ _ _ _ _ _ _ _ _ _ h => ⟨MMBuffer3.computeBits_lt h, fun _ _ _ _ _ _ => rfl⟩
  leaf := fun _ _ _ _ _ _ _ _ _ _ _ _ _ _ _ _ _ _ _ _ hb hn hn' hs hf h =>
    any_leaf (MMBuffer3.computeBits_lt hb) hn hn' hs hf h
  leaf_congr := fun _ _ _ _ _ _ _ h => h
  elide := fun _ _ _ _ _ _ _ _ _ _ _ _ _ _ _ _ _ _ _ _ _ _ _ _ _ _ => rfl
  ext := fun _ _ _ _ _ _ _ _ _ _ _ _ _ _ _ => trivial
  bits_lt := fun _ _ _ _ h => h

theorem Represents.leaf {utf8 : List Byte → Bool} {st : Store} {α : Type} {dec : Nat → Int64 → α}
    {Leaf Leaf' : Chunk → Nat → Nat → Nat → (Nat → Nat → Nat → α) → Prop} {Ext}
    (hleaf : ∀ c n rows cols data, Leaf c n rows cols data → Leaf' c n rows cols data) :
    ∀ {d : Nat} {m n rows cols data}, Represents utf8 st dec Leaf Ext d m n rows cols data →
    Represents utf8 st dec Leaf' Ext d m n rows cols data := by
  intro d
  induction d with
  | zero => intro m n rows cols data h; exact h.elim
  | succ d ih =>
    intro m n rows cols data h
    cases m with
    | subchunk c => exact hleaf _ _ _ _ _ h
    | superchunk hd loc =>
      refine ⟨h.side, h.grid, h.ext, fun i j hi hj => ?_⟩
      rcases h.sub i j hi hj with h | ⟨ref, m, h1, h2, h3, h4⟩
      · exact .inl h
      · exact .inr ⟨ref, m, h1, h2, h3, ih h4⟩
    | span s =>
      refine ⟨h.stride, fun i hi => ?_⟩
      obtain ⟨cid, m, h1, h2, h3⟩ := h.sub i hi
      exact ⟨cid, m, h1, h2, ih h3⟩

/-- What a chunk of anything is. -/
structure AnyChunk (H : Hash) (levels : List Nat) (rows cols : Nat) (log : Saved) (m : MMStruct3) (n : Nat) :
    Prop where
  wf : m.WF
  shape : m.shape = some (n, rows, cols)
  ground : ∀ utf8 log', log ⊆ log' → Ground utf8 H log' (2 * levels.length + 1) (.struct m)
  sides : ∀ utf8 log', log ⊆ log' → log'.NoCollision H → Sides utf8 (log'.load H) 2 levels m
  sound : ∀ utf8 log', log ⊆ log' → log'.NoCollision H →
    Sound utf8 (log'.load H) (levels.length + 1) m n rows cols

section
variable {H : Hash} {clog : Nat → Nat} {lg : Rat → Int} {levels : List Nat} {N rows cols cs ss : Nat}
  {enc : MMEncoding}

def Settings.theory (H : Hash) (enc : MMEncoding) (h : Settings clog levels N rows cols cs ss) : VarTheory where
  rows := rows
  cols := cols
  cs := cs
  ss := ss
  enc := enc
  B := max cs N
  K := fun log m _ n => AnyChunk H levels rows cols log m n
  rows_lt := h.rows_lt
  cols_lt := h.cols_lt
  cs_pos := h.cs_pos
  ss_two := h.ss_two
  ss_lt := h.ss_lt
  cs_le := Nat.le_max_left ..
  B_lt := by have := h.cs_lt; have := h.instants; omega
  mono := fun hs _ _ _ h => ⟨h.wf, h.shape, fun u l hl => h.ground u l (List.Subset.trans hs hl),
    fun u l hl => h.sides u l (List.Subset.trans hs hl), fun u l hl => h.sound u l (List.Subset.trans hs hl)⟩
  shape := fun h => h.shape
  wf := fun h => h.wf

theorem Settings.chunksOk (h : Settings clog levels N rows cols cs ss) (b : MMBuffer3) (A n : Nat) :
    ChunksOk True H clog lg (h.theory H enc) levels b A n := by
  intro s log hs hnc
  change s * cs < n at hs
  have hmin : min (s * cs + cs) n - s * cs = min cs (n - s * cs) := by omega
  have hcs := h.cs_pos
  change (∃ a log', Prog.buildChunk H clog lg levels (b.slice (s * cs) 0 0)
    (min (s * cs + cs) n - s * cs) rows cols log = (.ok a, log') ∧
    AnyChunk H levels rows cols log' a (min cs (n - s * cs))) ∨
    True ∧ ∃ f log', Prog.buildChunk H clog lg levels (b.slice (s * cs) 0 0)
      (min (s * cs + cs) n - s * cs) rows cols log = (.error f, log')
  rw [hmin]
  generalize hcn : min cs (n - s * cs) = cn at *
  have hcn1 : 1 ≤ cn := by omega
  have hcn2 : cn ≤ cs := by omega
  generalize hbs : b.slice (s * cs) 0 0 = bs at *
  unfold Prog.buildChunk
  cases hbits : bs.computeBits lg cn rows cols with
  | none => exact .inr ⟨trivial, _, _, rfl⟩
  | some b' =>
    simp only
    rcases hr : Superchunk.build H clog lg 2 levels log b' cn rows cols with _ | ⟨r, log'⟩
    · exact .inr ⟨trivial, _, _, rfl⟩
    have hlev : LevelsOk 2 cn levels :=
      ⟨h.levelsOk.side, h.levelsOk.tree, fun l hl =>
        Nat.lt_of_le_of_lt (Nat.mul_le_mul_right _ hcn2) (h.levelsOk.slots l hl)⟩
    have hn32 : cn < 2 ^ 32 := by have := h.cs_lt; omega
    have hrep := fun utf8 => superchunk_repr (anyReads clog lg 2) H utf8 (by omega) (by omega) _ cn
      h.clogOk hn32 levels hlev (fun _ _ => trivial) log b' rows cols r log' (MMBuffer3.computeBits_lt hbits)
      h.rows_pos h.cols_pos (Nat.le_max_left ..) (Nat.le_max_right ..) hr
    refine .inl ⟨r.data, log', rfl, (hrep fun _ => true).2.1, ?_, fun u => (hrep u).2.2.1,
      fun u l hl hn => ((hrep u).2.2.2 l hl hn).2,
      fun u l hl hn => ((hrep u).2.2.2 l hl hn).1.leaf fun _ _ _ _ _ h => h rfl⟩
    obtain ⟨⟨head, e, e1, e2, e3, -⟩, -⟩ := hrep fun _ => true
    rw [e]
    change some (head.instants, head.rows, head.cols) = _
    rw [e1, e2, e3]

/-- Any array may be next, as long as there is room. -/
def NextAny (N M : Nat) (_ : NdArray) (n : Nat) : Prop := M + n ≤ N

theorem Settings.appends (h : Settings clog levels N rows cols cs ss) {utf8 : List Byte → Bool}
    {fuel readFuel : Nat} {round : Option Nat} (hf : 32 ≤ fuel) :
    Appends True H utf8 clog lg fuel readFuel (h.theory H enc) levels round (NextAny N) := by
  intro log v fill data M tl n _ hv hl _ hd
  refine Variable.appendArray_sat (T := h.theory H enc) hf hv hl (Nat.le_trans hd (Nat.le_max_right cs N))
    (h.chunksOk _ _ _) ?_
  intro m a p _ _ _ _ _
  exact ⟨.inr trivial, h.chunksOk _ _ _⟩

/-- The builder accepts all integers with these levels. -/
def Fitting (clog : Nat → Nat) (levels : List Nat) (rows cols : Nat) : Prop :=
  ∀ n (get : Nat → Nat → Nat → Int64), BuildOk clog 2 n levels get rows cols

theorem Settings.chunksOk_int (h : Settings clog levels N rows cols cs ss) (hl : Fitting clog levels rows cols)
    {b : MMBuffer3} (hb : b.isInt) (A n : Nat) : ChunksOk False H clog lg (h.theory H enc) levels b A n := by
  intro s log hs hnc
  rcases h.chunksOk (enc := enc) (lg := lg) (H := H) b A n s log hs hnc with h1 | ⟨-, f, log', h1⟩
  · exact .inl h1
  exfalso
  change s * cs < n at hs
  have hcs := h.cs_pos
  have hi := hb.slice (s * cs) 0 0
  change Prog.buildChunk H clog lg levels (b.slice (s * cs) 0 0) (min (s * cs + cs) n - s * cs) rows cols log = _ at h1
  generalize b.slice (s * cs) 0 0 = bs at hi h1
  have hbits : bs.computeBits lg (min (s * cs + cs) n - s * cs) rows cols = some bs := by
    cases bs with
    | i32 a => rfl
    | i64 a => rfl
    | flt => exact hi.elim
  have hsome := (Superchunk.build_isSome_iff (H := H) (lg := lg) (by omega)
    (show 1 ≤ min (s * cs + cs) n - s * cs by omega) levels log bs rows cols hi h.rows_pos h.cols_pos h.clogOk).2
    (hl _ _)
  unfold Prog.buildChunk at h1
  rw [hbits] at h1
  rcases hr : Superchunk.build H clog lg 2 levels log bs (min (s * cs + cs) n - s * cs) rows cols with _ | ⟨r, log''⟩
  · rw [hr] at hsome
    cases hsome
  · simp only [hr] at h1
    cases h1

/-- An array of integers is next. -/
def NextAnyInt (N M : Nat) (data : NdArray) (n : Nat) : Prop :=
  M + n ≤ N ∧ ((∃ a, data = .i32 a) ∨ ∃ a, data = .i64 a)

/-- To append integers succeeds whatever is in the variable. -/
theorem Settings.appends_int (h : Settings clog levels N rows cols cs ss) (hl : Fitting clog levels rows cols)
    {utf8 : List Byte → Bool} {fuel readFuel : Nat} {round : Option Nat} (hf : 32 ≤ fuel)
    (hrf : levels.length < readFuel) :
    Appends False H utf8 clog lg fuel readFuel (h.theory H enc) levels round (NextAnyInt N) := by
  intro log v fill data M tl n hfill hv hlv _ hd
  refine Variable.appendArray_sat (T := h.theory H enc) hf hv hlv (Nat.le_trans hd.1 (Nat.le_max_right cs N))
    (h.chunksOk_int hl ?_ _ _) ?_
  · rcases hd.2 with ⟨a, rfl⟩ | ⟨a, rfl⟩ <;> trivial
  intro m a p hnc hK _ _ _
  refine ⟨.inl ?_, h.chunksOk_int hl ?_ _ _⟩
  · have hK : AnyChunk H levels rows cols log m p := hK
    obtain ⟨E, hE⟩ := (hK.sound utf8 log (List.Subset.refl _) hnc).represents fun _ v => v
    obtain ⟨⟨t, s, u, h1, -⟩, h2⟩ := repr_fillWindow (fun _ _ _ _ _ h => h) _ readFuel _ _ _ _ _ hE hrf 0 p 0 rows
      0 cols (Nat.zero_le _) (Nat.le_refl _) h.rows_pos h.cols_pos (Nat.le_refl _) (Nat.le_refl _)
    have hv := hfill m (log.load H) p rows cols hK.shape (by
      rw [Cube.new_eq (Nat.zero_le _) (Nat.zero_le _) (Nat.zero_le _)]
      exact ⟨_, _, h1⟩)
    rw [Cube.new_eq (Nat.zero_le _) (Nat.zero_le _) (Nat.zero_le _)] at hv
    exact (h2 _ _ ⟨_, hv, rfl⟩).1
  · rcases hd.2 with ⟨a, rfl⟩ | ⟨a, rfl⟩ <;> trivial

theorem follows_any : ∀ (as : List (NdArray × Nat)) (M : Nat), M + total as ≤ N → Follows (NextAny N) M as := by
  intro as
  induction as with
  | nil => intro _ _; trivial
  | cons x as ih =>
    intro M h
    rw [total_cons] at h
    exact ⟨by unfold NextAny; omega, ih _ (by omega)⟩

end

end Verif
