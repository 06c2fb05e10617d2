import Verif.Lemmas.Intact
import Verif.Props.AnyData
import Verif.Props.Lossless

/-!
Property C75: damage stays within a chunk. Whatever is appended to the other chunks of a variable, a chunk to
which arrays of one type were appended that do not overflow within it gives back what was appended.
-/
namespace Verif

open Prog hiding pure bind

section
variable {H : Hash} {utf8 : List Byte → Bool} {clog : Nat → Nat} {lg : Rat → Int} {fuel readFuel : Nat}
  {levels : List Nat} {cs ss : Nat}

theorem AnyHistory.focus {d : Dataset} {name : List Byte} {round : Option Nat} {enc : MMEncoding} {ops : List Op}
    {log : Saved} {as : List (NdArray × Nat)} {T : VarTheory} {a0 : Nat} {Next : Nat → NdArray → Nat → Prop}
    (has : as = acceptedAfter H utf8 clog lg fuel d log name (.addVariable name round ss cs levels enc) ops)
    (h : AnyHistory utf8 readFuel d name round ss cs levels enc ops)
    (hset : Settings clog levels (total as) d.rows d.cols cs ss) (hf : 32 ≤ fuel) {s : Dataset × Saved}
    (hs : s = runs H utf8 clog lg fuel (.addVariable name round ss cs levels enc :: ops) (d, log))
    (hnc : s.2.NoCollision H)
    (hh : Hits H utf8 clog lg readFuel T levels round (total as) a0 Next)
    (hcs : T.cs = cs) (hr : T.rows = d.rows) (hc : T.cols = d.cols) (hfo : Follows Next 0 as)
    (hN : ∀ M data n, Next M data n → M + n ≤ total as) :
    HistInv H utf8 (hset.focus H enc T a0) levels round name s (total as) := by
  have hinv := AnyHistory.inv (H := H) (T := hset.focus H enc T a0) (lg := lg) (fuel := fuel)
    (Next := Next) h rfl rfl (hh.appends hset hcs hr hc hf)
    (fun M data n hn => Nat.le_trans (hN _ _ _ hn) (Nat.le_max_right ..)) hf log
    (Eq.subst (motive := Follows _ 0) has hfo) (hs ▸ hnc)
  subst hs
  have ht : total (acceptedAfter H utf8 clog lg fuel d log name (.addVariable name round ss cs levels enc) ops) =
    total as := by rw [has]
  exact (congrArg (HistInv H utf8 (hset.focus H enc T a0) levels round name _) ht).mp hinv

/-- What a variable reads as is, in the chunk that the theory is about, what the chunk reads as. -/
theorem HistInv.focus {levels' : List Nat} {N rows cols : Nat} {enc : MMEncoding} {round : Option Nat}
    {name : List Byte} {s : Dataset × Saved} {T : VarTheory} {a0 : Nat}
    {hset : Settings clog levels' N rows cols cs ss}
    (h : HistInv H utf8 (hset.focus H enc T a0) levels round name s N) (hnc : s.2.NoCollision H)
    {α : Type} {dec : Nat → Int64 → α} {V : Nat → Nat → Nat → α} {Ext Ext' : SuperHead → Nat → Nat → α → Prop}
    {d dep : Nat} (hK : ∀ m n, T.K s.2 m 0 n →
      Represents utf8 (s.2.load H) dec (LeafReads dec) Ext d m n rows cols V)
    {v : Variable} {m : MMStruct3} (hv : s.1.findVariable name = some v)
    (hm : (s.2.load H).getStruct utf8 v.cid = .ok m) {E : Nat → Nat → Nat → α}
    (hE : Represents utf8 (s.2.load H) dec (LeafReads dec) Ext' dep m N rows cols E) (ha : a0 % cs = 0)
    {t r c : Nat} (h1 : a0 ≤ t) (h2 : t < a0 + cs) (h3 : t < N) (hr : r < rows) (hc : c < cols) :
    E t r c = V (t - a0) r c := by
  obtain ⟨v', tl, e1, -, -, -, -, -, i, root, e2, e3, -, -⟩ := h.var
  rw [hv] at e1
  cases e1
  rw [e2.get utf8 hnc] at hm
  cases hm
  have ea : a0 / cs * cs = a0 := Nat.div_mul_cancel (Nat.dvd_of_mod_eq_zero ha)
  obtain ⟨m', d', g1, g2⟩ := Tree.chunk (T := hset.focus H enc T a0) hnc _ _ _ _ _ _ E e3 hE (a0 / cs) (by
    change a0 / cs * cs < N
    omega)
  change AnyChunk H levels' rows cols s.2 m' (min cs (N - a0 / cs * cs)) ∧ (0 + a0 / cs * cs = a0 →
    T.K s.2 m' 0 (min cs (N - a0 / cs * cs))) at g1
  change Represents utf8 (s.2.load H) dec (LeafReads dec) Ext' d' m' (min cs (N - a0 / cs * cs)) rows cols
    (fun t => E (a0 / cs * cs + t)) at g2
  rw [ea] at g1 g2
  have := Represents.unique g2 (hK _ _ (g1.2 (by omega))) (t := t - a0) (by omega) hr hc
  rw [show a0 + (t - a0) = t by omega] at this
  exact this

/-- The arrays within the chunk that begins at `a` are all of 32 bits, or all of 64 bits and no square of the
chunk is split by overflow (`C07_exact`). -/
def Intact (as : List (NdArray × Nat)) (rows cols cs a : Nat) : Prop :=
  (Within as cs a fun x => ∃ y, x = .i32 y) ∨ (Within as cs a fun x => ∃ y, x = .i64 y) ∧
    ∀ t0 t, a ≤ t0 → t0 < t → t < a + cs → t < total as → NoSplit (concatInt as t0) (concatInt as t) rows cols 2

theorem Intact.base {as : List (NdArray × Nat)} {rows cols a : Nat} (h : Intact as rows cols cs a)
    (hset : Settings clog levels (total as) rows cols cs ss) :
    IntBase clog levels (fun t => concatInt as (a + t)) (min cs (total as - a)) rows cols cs ss where
  clogOk := hset.clogOk
  rows_pos := hset.rows_pos
  cols_pos := hset.cols_pos
  rows_lt := hset.rows_lt
  cols_lt := hset.cols_lt
  cs_pos := hset.cs_pos
  cs_lt := hset.cs_lt
  ss_two := hset.ss_two
  ss_lt := hset.ss_lt
  instants := by have := hset.instants; omega
  levelsOk := hset.levelsOk
  diffs := fun t0 t h0 _ h2 => by
    rcases h with h | ⟨-, h⟩
    · refine NoOverflow.noSplit fun r c _ _ => ?_
      obtain ⟨x, hx⟩ := h.small (t := a + t0) (r := r) (c := c) (by omega) (by omega) (by omega)
      obtain ⟨y, hy⟩ := h.small (t := a + t) (r := r) (c := c) (by omega) (by omega) (by omega)
      rw [hx, hy]
      exact int32_sub _ _
    · exact h _ _ (by omega) (by omega) (by omega) (by omega)

/-- C75: whatever is appended to a variable of integers and whatever fails, the variable is one array, and within
each chunk that is intact the array holds the numbers that were appended. -/
theorem C75_int (d : Dataset) (name : List Byte) (round : Option Nat) (enc : MMEncoding) (ops : List Op)
    (log : Saved) (as : List (NdArray × Nat))
    (has : as = acceptedAfter H utf8 clog lg fuel d log name (.addVariable name round ss cs levels enc) ops)
    (h : AnyHistory utf8 readFuel d name round ss cs levels enc ops)
    (hset : Settings clog levels (total as) d.rows d.cols cs ss) (hf : 32 ≤ fuel)
    (hrf : levels.length + 34 ≤ readFuel) (s : Dataset × Saved)
    (hs : s = runs H utf8 clog lg fuel (.addVariable name round ss cs levels enc :: ops) (d, log))
    (hnc : s.2.NoCollision H) :
    ∃ v m E, s.1.findVariable name = some v ∧
      (enc = .i64 → v.data .i64 utf8 (s.2.load H) = .ok m ∧
        ArrayReads .i64 utf8 (s.2.load H) readFuel m (total as) d.rows d.cols E) ∧
      (enc = .i32 → v.data .i32 utf8 (s.2.load H) = .ok m ∧
        ArrayReads .i32 utf8 (s.2.load H) readFuel m (total as) d.rows d.cols fun t r c => (E t r c).toInt32) ∧
      ∀ a, a % cs = 0 → Intact as d.rows d.cols cs a → ∀ t r c, a ≤ t → t < a + cs → t < total as →
        r < d.rows → c < d.cols → E t r c = concatInt as t r c := by
  obtain ⟨v, tl, h1, -, -, -, -, -, i, root, h2, h3, h7, -⟩ := (h.any has hset hf hs hnc).var
  have hh := VarTheory.height_lt _ h7
  have hsnd : Sound utf8 (s.2.load H) (levels.length + 1 + i + 1) (.span root) (total as) d.rows d.cols :=
    Tree.represents (T := hset.theory H enc) (D := fun _ _ _ => ()) (d := levels.length + 1) hnc
      (fun m a n hK => AnyChunk.sound hK utf8 _ (List.Subset.refl _) hnc) _ _ _ _ _ h3
  have hshape : (MMStruct3.span root).shape = some (total as, d.rows, d.cols) := h3.shape
  obtain ⟨E, hE⟩ := hsnd.represents fun _ v => v
  have hreads := Reads.of_repr (fuel := readFuel) (fun _ _ _ _ _ h => h) hshape hE (by omega)
  refine ⟨v, .span root, E, h1, ?_, ?_, ?_⟩
  · rintro rfl
    exact ⟨Variable.data_ok (h2.get utf8 hnc) h3.shaped.encoding, Reads.array (kind := .i64) hreads⟩
  · rintro rfl
    exact ⟨Variable.data_ok (h2.get utf8 hnc) h3.shaped.encoding,
      Reads.array (kind := .i32) (hreads.map fun v => v.toInt32)⟩
  · intro a ha hint t r c a1 a2 a3 a4 a5
    have hbase := hint.base hset
    have hinv := h.focus has hset hf hs hnc (hbase.hits (enc := enc) (readFuel := readFuel) (by omega)) rfl rfl rfl
      (Within.ints (hint.symm.imp (·.1) id)) fun M data n hn => hn.1
    have := hinv.focus hnc (fun m n hK => IntChunk.reads hK utf8 s.2 (List.Subset.refl _) hnc) h1 (h2.get utf8 hnc)
      hE ha a1 a2 a3 a4 a5
    rw [this]
    change concatInt as _ r c = _
    simp only [Nat.zero_add]
    rw [show a + (t - a) = t by omega]

/-- C75 for floats: whatever is appended to a variable of floats and whatever fails, the variable is one array,
and within each chunk to which only floats of its type were appended, which can be rounded to `B` bits
(`FltBase`, for this chunk alone), the array holds the numbers that were appended, rounded. -/
theorem C75_float (p : Prec) (d : Dataset) (name : List Byte) (round : Option Nat) (ops : List Op)
    (log : Saved) (as : List (NdArray × Nat))
    (has : as = acceptedAfter H utf8 clog lg fuel d log name
      (.addVariable name round ss cs levels p.kind.encoding) ops)
    (h : AnyHistory utf8 readFuel d name round ss cs levels p.kind.encoding ops)
    (hset : Settings clog levels (total as) d.rows d.cols cs ss) (hf : 32 ≤ fuel)
    (hrf : levels.length + 34 ≤ readFuel) (s : Dataset × Saved)
    (hs : s = runs H utf8 clog lg fuel (.addVariable name round ss cs levels p.kind.encoding :: ops) (d, log))
    (hnc : s.2.NoCollision H) :
    ∃ v m E, s.1.findVariable name = some v ∧ v.data p.kind utf8 (s.2.load H) = .ok m ∧
      ArrayReads p.kind utf8 (s.2.load H) readFuel m (total as) d.rows d.cols E ∧
      ∀ a B, a % cs = 0 → (Within as cs a fun x => ∃ y, x = .flt p y) →
        FltBase clog lg levels p B round (fun t => concatFlt as (a + t)) (min cs (total as - a)) d.rows d.cols cs ss →
        ∀ t r c, a ≤ t → t < a + cs → t < total as → r < d.rows → c < d.cols →
          E t r c = (concatFlt as t r c).rounded B := by
  obtain ⟨v, tl, h1, -, -, -, -, -, i, root, h2, h3, h7, -⟩ := (h.any has hset hf hs hnc).var
  have hh := VarTheory.height_lt _ h7
  have hsnd : Sound utf8 (s.2.load H) (levels.length + 1 + i + 1) (.span root) (total as) d.rows d.cols :=
    Tree.represents (T := hset.theory H p.kind.encoding) (D := fun _ _ _ => ()) (d := levels.length + 1) hnc
      (fun m a n hK => AnyChunk.sound hK utf8 _ (List.Subset.refl _) hnc) _ _ _ _ _ h3
  have hshape : (MMStruct3.span root).shape = some (total as, d.rows, d.cols) := h3.shape
  obtain ⟨E, hE⟩ := hsnd.represents fun bits v => fromFixed p v bits
  have hreads := Reads.of_repr (fuel := readFuel) (fun _ _ _ _ _ h => h) hshape hE (by omega)
  refine ⟨v, .span root, E, h1, Variable.data_ok (h2.get utf8 hnc) h3.shaped.encoding, Reads.array ?_, ?_⟩
  · cases p <;> exact hreads
  · intro a B ha hw hflt t r c a1 a2 a3 a4 a5
    have hinv := h.focus has hset hf hs hnc (hflt.hits (enc := p.kind.encoding) (readFuel := readFuel) (by omega)) rfl
      rfl rfl (Within.flts hw) fun M data n hn => hn.1
    have := hinv.focus hnc (fun m n hK => FltChunk.reads hK utf8 s.2 (List.Subset.refl _) hnc) h1 (h2.get utf8 hnc)
      hE ha a1 a2 a3 a4 a5
    rw [this]
    simp only [Nat.zero_add]
    rw [show a + (t - a) = t by omega]

end

/-! ### An array without instants -/

def emptyRun : Dataset × Saved :=
  runs exampleHash (fun _ => true) exampleClog exampleLg 32 [.addVariable [7] none 2 2 [1, 1] .i64,
    .append exampleFill [7] (.i64 exampleGrid) 1 4 4,
    .append exampleFill [7] (.flt .single fun _ _ _ => .nan) 0 4 4] (exampleDataset, [])

theorem emptyRun_reads : (match emptyRun.1.findVariable [7] with
    | none => false
    | some v => match v.data .i64 (fun _ => true) (emptyRun.2.load exampleHash) with
      | .error _ => false
      | .ok m => m.shape == some (1, 4, 4) &&
        match Kind.i64.get (fun _ => true) (emptyRun.2.load exampleHash) 40 m 0 3 3 with
        | .error _ => false
        | .ok x => x == 725) = true := by
  decide +kernel

/-- Damage within a chunk: to append an array that has no instants at all rewrites the tail of the variable, in
the form of the array. If the array is of floats, the integers that are there already are read back as others. -/
theorem C75_empty_wrong : ∃ s, s = runs exampleHash (fun _ => true) exampleClog exampleLg 32
      [.addVariable [7] none 2 2 [1, 1] .i64, .append exampleFill [7] (.i64 exampleGrid) 1 4 4,
        .append exampleFill [7] (.flt .single fun _ _ _ => .nan) 0 4 4] (exampleDataset, []) ∧
    s.2.NoCollision exampleHash ∧ exampleGrid 0 3 3 = 363 ∧
    ∃ v m, s.1.findVariable [7] = some v ∧ v.data .i64 (fun _ => true) (s.2.load exampleHash) = .ok m ∧
      m.shape = some (1, 4, 4) ∧
      Kind.i64.get (fun _ => true) (s.2.load exampleHash) 40 m 0 3 3 = .ok 725 := by
  refine ⟨emptyRun, rfl, by unfold Saved.NoCollision; decide +kernel, by decide +kernel, ?_⟩
  have key := emptyRun_reads
  generalize emptyRun = s at key
  cases h1 : s.1.findVariable [7] with
  | none => rw [h1] at key; cases key
  | some v =>
    rw [h1] at key
    simp only at key
    cases h2 : v.data .i64 (fun _ => true) (s.2.load exampleHash) with
    | error e => rw [h2] at key; cases key
    | ok m =>
      rw [h2] at key
      simp only [Bool.and_eq_true, beq_iff_eq] at key
      cases h3 : Kind.i64.get (fun _ => true) (s.2.load exampleHash) 40 m 0 3 3 with
      | error e => rw [h3] at key; cases key.2
      | ok x =>
        rw [h3] at key
        have e : x = 725 := by simpa using key.2
        exact ⟨v, m, rfl, h2, key.1, by rw [h3, e]⟩

/-! ### Examples -/

/-- A chunk that is damaged by overflow, one that is not, and one of another type. -/
def exampleDamaged : List Op :=
  [.append exampleFill [7] (.i64 wrapSeries) 2 4 4, .append exampleFill [7] (.i64 exampleGrid) 1 4 4, .reload,
    .append exampleFill [7] (.i64 fun t => exampleGrid (1 + t)) 1 4 4,
    .append exampleFill [7] (.flt .single (exampleFltSeries fun z => z / 4)) 2 4 4]

theorem exampleDamaged_accepted : acceptedAfter exampleHash (fun _ => true) exampleClog exampleLg 32
    exampleDataset [] [7] (.addVariable [7] none 2 2 [1, 1] .i64) exampleDamaged =
      [(.i64 wrapSeries, 2), (.i64 exampleGrid, 1), (.i64 fun t => exampleGrid (1 + t), 1),
        (.flt .single (exampleFltSeries fun z => z / 4), 2)] := by
  unfold acceptedAfter exampleDamaged accepted
  rw [Op.taken_eq true (by decide +kernel)]
  unfold accepted
  rw [Op.taken_eq true (by decide +kernel)]
  unfold accepted
  rw [Op.taken_eq true (by decide +kernel)]
  unfold accepted
  rw [Op.taken_eq true (by decide +kernel)]
  unfold accepted
  rw [Op.taken_eq true (by decide +kernel)]
  rfl

theorem exampleDamaged_any :
    AnyHistory (fun _ => true) 40 exampleDataset [7] none 2 2 [1, 1] .i64 exampleDamaged where
  dataset := exampleHistory.dataset
  new := rfl
  fits := exampleHistory.fits
  count := by decide +kernel
  each := by
    have hf := exampleFill_valid
    intro op ho
    simp only [exampleDamaged, List.mem_cons, List.not_mem_nil, or_false] at ho
    rcases ho with rfl | rfl | rfl | rfl | rfl
    · exact ⟨trivial, fun _ => hf⟩
    · exact ⟨trivial, fun _ => hf⟩
    · exact ⟨trivial, trivial⟩
    · exact ⟨trivial, fun _ => hf⟩
    · exact ⟨trivial, fun _ => hf⟩

theorem exampleDamaged_intact : Intact [(.i64 wrapSeries, 2), (.i64 exampleGrid, 1),
    (.i64 fun t => exampleGrid (1 + t), 1), (.flt .single (exampleFltSeries fun z => z / 4), 2)] 4 4 2 2 := by
  refine .inr ⟨?_, fun t0 t h0 h1 h2 _ => ?_⟩
  · intro i x hx h1 h2
    match i, hx with
    | 0, hx => cases hx; exact ⟨_, rfl⟩
    | 1, hx => cases hx; exact ⟨_, rfl⟩
    | 2, hx => cases hx; exact ⟨_, rfl⟩
    | 3, hx => cases hx; exact absurd h1 (by decide)
  · have e0 : t0 = 2 := by omega
    have e1 : t = 3 := by omega
    subst e0 e1
    refine NoOverflow.noSplit fun r c hr hc => ?_
    have : ∀ r < 4, ∀ c < 4, (exampleGrid 1 r c - exampleGrid 0 r c).toInt =
      (exampleGrid 1 r c).toInt - (exampleGrid 0 r c).toInt := by decide +kernel
    exact this r hr c hc

/-- The second chunk reads back right. -/
example : ∃ v m E,
    (runs exampleHash (fun _ => true) exampleClog exampleLg 32
      (.addVariable [7] none 2 2 [1, 1] .i64 :: exampleDamaged) (exampleDataset, [])).1.findVariable [7] = some v ∧
    ArrayReads Kind.i64 (fun _ => true) ((runs exampleHash (fun _ => true) exampleClog exampleLg 32
      (.addVariable [7] none 2 2 [1, 1] .i64 :: exampleDamaged) (exampleDataset, [])).2.load exampleHash) 40 m 6 4 4 E ∧
    E 3 2 2 = exampleGrid 1 2 2 := by
  obtain ⟨v, m, E, h1, h2, -, h3⟩ := C75_int (H := exampleHash) (fuel := 32) (readFuel := 40) exampleDataset [7]
    none .i64 exampleDamaged [] _ exampleDamaged_accepted.symm exampleDamaged_any (exampleSettings (by decide))
    (by decide) (by decide) _ rfl (by unfold Saved.NoCollision; decide +kernel)
  exact ⟨v, m, E, h1, (h2 rfl).2, h3 2 rfl exampleDamaged_intact 3 2 2 (by decide) (by decide) (by decide) (by decide)
    (by decide)⟩

/-- A chunk of integers in a variable of floats, then two chunks of floats. -/
def exampleDamagedFloats : List Op :=
  [.append exampleFill [7] (.i64 wrapSeries) 2 4 4,
    .append exampleFill [7] (.flt .single fun t => exampleFltSeries (fun z => z / 4) (2 + t)) 4 4 4]

theorem exampleDamagedFloats_accepted : acceptedAfter exampleHash (fun _ => true) exampleClog exampleLg 32
    exampleDataset [] [7] (.addVariable [7] none 2 2 [1, 1] .f32) exampleDamagedFloats =
      [(.i64 wrapSeries, 2), (.flt .single fun t => exampleFltSeries (fun z => z / 4) (2 + t), 4)] := by
  unfold acceptedAfter exampleDamagedFloats accepted
  rw [Op.taken_eq true (by decide +kernel)]
  unfold accepted
  rw [Op.taken_eq true (by decide +kernel)]
  rfl

theorem exampleDamagedFloats_any : AnyHistory (fun _ => true) 40 exampleDataset [7] none 2 2 [1, 1]
    Prec.single.kind.encoding exampleDamagedFloats where
  dataset := exampleHistory.dataset
  new := rfl
  fits := (exampleExact (n := 2) (by decide)).fits
  count := by decide +kernel
  each := by
    have hf := exampleFill_valid
    intro op ho
    simp only [exampleDamagedFloats, List.mem_cons, List.not_mem_nil, or_false] at ho
    rcases ho with rfl | rfl <;> exact ⟨trivial, fun _ => hf⟩

/-- The chunks of floats read back right. -/
example : ∃ v m E,
    (runs exampleHash (fun _ => true) exampleClog exampleLg 32
      (.addVariable [7] none 2 2 [1, 1] .f32 :: exampleDamagedFloats) (exampleDataset, [])).1.findVariable [7] =
        some v ∧
    ArrayReads Kind.f32 (fun _ => true) ((runs exampleHash (fun _ => true) exampleClog exampleLg 32
      (.addVariable [7] none 2 2 [1, 1] .f32 :: exampleDamagedFloats) (exampleDataset, [])).2.load exampleHash) 40 m 6
        4 4 E ∧
    E 3 2 2 = (exampleFltSeries (fun z => z / 4) 3 2 2).rounded 2 := by
  obtain ⟨v, m, E, h1, -, h2, h3⟩ := C75_float (H := exampleHash) (lg := exampleLg) (fuel := 32) (readFuel := 40)
    .single exampleDataset [7] none exampleDamagedFloats [] _ exampleDamagedFloats_accepted.symm
    exampleDamagedFloats_any (exampleSettings (by decide)) (by decide) (by decide) _ rfl
    (by unfold Saved.NoCollision; decide +kernel)
  refine ⟨v, m, E, h1, h2, h3 2 2 rfl ?_ ?_ 3 2 2 (by decide) (by decide) (by decide) (by decide) (by decide)⟩
  · intro i x hx h1 h2
    match i, hx with
    | 0, hx => cases hx; exact absurd h2 (by decide)
    | 1, hx => cases hx; exact ⟨_, rfl⟩
  · have h := (exampleExact (n := 2) (by decide)).flt.toFltBase.chunk 2
    rw [exampleFloatConcat _ (by decide)] at h
    have e : (fun t => concatFlt [(.i64 wrapSeries, 2),
        (.flt .single fun t => exampleFltSeries (fun z => z / 4) (2 + t), 4)] (2 + t)) =
        fun t => exampleFltSeries (fun z => z / 4) (2 + t) := by
      funext t r c
      simp only [concatFlt, NdArray.floats]
      rw [if_neg (by omega)]
      split
      · rw [show 2 + (2 + t - 2) = 2 + t by omega]
      · unfold exampleFltSeries
        rw [if_pos (.inl (by omega))]
    rw [e]
    exact h

end Verif
