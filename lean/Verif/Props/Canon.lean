import Verif.Props.DatasetFloat
import Verif.Lemmas.Canon

/-!
Property C59: the identifier of a variable depends on its settings and its data only.
-/
namespace Verif

open Prog hiding pure bind

section
variable {H : Hash} {utf8 : List Byte → Bool} {clog : Nat → Nat} {lg : Rat → Int} {fuel readFuel : Nat}
  {levels : List Nat} {cs ss : Nat}

theorem Follows.and {Next : Nat → NdArray → Nat → Prop} {Q : NdArray → Prop} :
    ∀ {as : List (NdArray × Nat)} {M : Nat}, Follows Next M as → (∀ x ∈ as, Q x.1) →
      Follows (fun M data n => Next M data n ∧ Q data) M as
  | [], _, _, _ => trivial
  | _ :: _, _, h, hq => ⟨⟨h.1, hq _ (List.mem_cons_self ..)⟩,
      Follows.and h.2 fun y hy => hq y (List.mem_cons_of_mem _ hy)⟩

theorem NdArray.Wide.oneType {wide : Bool} {as : List (NdArray × Nat)} (h : ∀ x ∈ as, x.1.Wide wide) :
    OneType as := by
  cases wide with
  | true => exact .inl h
  | false => exact .inr h

/-- The chunks of the variable are the ones that get built of the series `D`. -/
theorem IntVar.made_inv {D : Nat → Nat → Nat → Int64} {N : Nat} {d : Dataset} {name : List Byte}
    {round : Option Nat} {enc : MMEncoding} {ops : List Op} {rows cols : Nat}
    (hD : IntVar clog levels D N rows cols cs ss)
    (h : HistoryShape utf8 readFuel d name round ss cs levels enc ops) (hr : d.rows = rows)
    (hc : d.cols = cols) (hN : total (arrays name ops) = N)
    (hsame : ∀ t r c, t < N → r < rows → c < cols → concatInt (arrays name ops) t r c = D t r c)
    {wide : Bool} (hw : ∀ x ∈ arrays name ops, x.1.Wide wide)
    (hf : 32 ≤ fuel) (hrf : levels.length < readFuel) (log : Saved)
    (hnc : (runs H utf8 clog lg fuel (.addVariable name round ss cs levels enc :: ops)
      (d, log)).2.NoCollision H) :
    HistInv H utf8 ((hD.theory H enc).and (Made H clog lg levels rows cols (seriesBuf wide D))) levels
      round name (runs H utf8 clog lg fuel (.addVariable name round ss cs levels enc :: ops) (d, log))
      (total (arrays name ops)) := by
  refine HistoryShape.inv (T := (hD.theory H enc).and (Made H clog lg levels rows cols (seriesBuf wide D)))
    h hr hc ((hD.feeds hrf wide).appends hf) ?_ log hnc
  refine Follows.and (follows_int _ _ (by omega) (fun t r c ht => ?_) ?_) hw
  · rw [Nat.zero_add]
    exact hsame t r c (by omega)
  · rcases NdArray.Wide.oneType hw with h | h
    · exact .inl h
    · exact .inr ⟨h, fun t r c ht => by omega⟩

/-- C59 for integers: two variables of the same type and shape, with the same settings for chunks, spans
and levels, to which the same numbers were appended, have the same identifier in the end. They may have
been made in different data sets, with other variables beside them, under different names, after
anything else was saved; the numbers may have been appended in different portions, with commits in
between; and the tasks that read the tail of the variable back may have run in any order.

Partial: `History`, and the arrays have to be of one width, which is the same for both variables. -/
theorem C59_int_partial (d d' : Dataset) (name name' : List Byte) (round round' : Option Nat)
    (enc : MMEncoding) (ops ops' : List Op) (log log' : Saved)
    (h : History utf8 clog readFuel d name round ss cs levels enc ops)
    (h' : HistoryShape utf8 readFuel d' name' round' ss cs levels enc ops')
    (hrows : d'.rows = d.rows) (hcols : d'.cols = d.cols) (wide : Bool)
    (hw : ∀ x ∈ arrays name ops, x.1.Wide wide) (hw' : ∀ x ∈ arrays name' ops', x.1.Wide wide)
    (htotal : total (arrays name' ops') = total (arrays name ops))
    (hsame : ∀ t r c, t < total (arrays name ops) → r < d.rows → c < d.cols →
      concatInt (arrays name' ops') t r c = concatInt (arrays name ops) t r c)
    (hf : 32 ≤ fuel) (hrf : levels.length < readFuel) (s s' : Dataset × Saved)
    (hs : s = runs H utf8 clog lg fuel (.addVariable name round ss cs levels enc :: ops) (d, log))
    (hs' : s' = runs H utf8 clog lg fuel (.addVariable name' round' ss cs levels enc :: ops') (d', log'))
    (hnc : s.2.NoCollision H) (hnc' : s'.2.NoCollision H) :
    ∃ v v', s.1.findVariable name = some v ∧ s'.1.findVariable name' = some v' ∧ v.cid = v'.cid := by
  subst hs hs'
  obtain ⟨v, tl, h1, -, -, h2⟩ := (h.int.made_inv h.toHistoryShape rfl rfl rfl
    (fun _ _ _ _ _ _ => rfl) hw hf hrf log hnc).var
  obtain ⟨v', tl', h1', -, -, h2'⟩ := (h.int.made_inv h' hrows hcols htotal hsame hw' hf hrf log' hnc').var
  rw [htotal] at h2'
  refine ⟨v, v', h1, h1', VarInv.cid_unique ?_ h2 h2'⟩
  exact fun _ _ _ _ k k' => Made.unique k.2 k'.2

theorem FltVar.made_inv {p : Prec} {B : Nat} {D : Nat → Nat → Nat → Flt} {N : Nat} {d : Dataset}
    {name : List Byte} {round : Option Nat} {enc : MMEncoding} {ops : List Op} {rows cols : Nat}
    (hD : FltVar clog lg levels p B round D N rows cols cs ss)
    (h : HistoryShape utf8 readFuel d name round ss cs levels enc ops) (hr : d.rows = rows)
    (hc : d.cols = cols) (hN : total (arrays name ops) = N)
    (hsame : ∀ t r c, t < N → r < rows → c < cols → concatFlt (arrays name ops) t r c = D t r c)
    (ht : ∀ x ∈ arrays name ops, ∃ a, x.1 = .flt p a)
    (hex : ∀ t r c, t < N → r < rows → c < cols → (D t r c).rounded B = D t r c)
    (hf : 32 ≤ fuel) (hrf : levels.length < readFuel) (log : Saved)
    (hnc : (runs H utf8 clog lg fuel (.addVariable name round ss cs levels enc :: ops)
      (d, log)).2.NoCollision H) :
    HistInv H utf8 ((hD.theory H enc).and (Made H clog lg levels rows cols
        (.flt p D (round.getD 0) round.isSome))) levels
      round name (runs H utf8 clog lg fuel (.addVariable name round ss cs levels enc :: ops) (d, log))
      (total (arrays name ops)) := by
  refine HistoryShape.inv (T := (hD.theory H enc).and (Made H clog lg levels rows cols
    (.flt p D (round.getD 0) round.isSome))) h hr hc ((hD.feeds hrf hex).appends hf) ?_ log hnc
  refine follows_flt _ _ (by omega) (fun t r c ht => ?_) ht
  rw [Nat.zero_add]
  exact hsame t r c (by omega)

/-- C59 for floats that are stored as they are, because the variable does not round or because they do
not have more bits than it rounds to.

Partial: `FltHistory`; for floats that are rounded it is false, see `C59_rounded_wrong`. -/
theorem C59_float_partial {p : Prec} {B : Nat} (d d' : Dataset) (name name' : List Byte)
    (round : Option Nat) (ops ops' : List Op) (log log' : Saved)
    (h : FltHistory utf8 clog lg readFuel d name round ss cs levels p B ops)
    (h' : HistoryShape utf8 readFuel d' name' round ss cs levels p.kind.encoding ops')
    (hrows : d'.rows = d.rows) (hcols : d'.cols = d.cols)
    (htype : ∀ x ∈ arrays name' ops', ∃ a, x.1 = .flt p a)
    (htotal : total (arrays name' ops') = total (arrays name ops))
    (hsame : ∀ t r c, t < total (arrays name ops) → r < d.rows → c < d.cols →
      concatFlt (arrays name' ops') t r c = concatFlt (arrays name ops) t r c)
    (hexact : round = none ∨ ∀ t r c, t < total (arrays name ops) → r < d.rows → c < d.cols →
      ∀ q, concatFlt (arrays name ops) t r c = .fin q → ∃ z : Int, q * 2 ^ B = z)
    (hf : 32 ≤ fuel) (hrf : levels.length < readFuel) (s s' : Dataset × Saved)
    (hs : s = runs H utf8 clog lg fuel (.addVariable name round ss cs levels p.kind.encoding :: ops)
      (d, log))
    (hs' : s' = runs H utf8 clog lg fuel (.addVariable name' round ss cs levels p.kind.encoding :: ops')
      (d', log'))
    (hnc : s.2.NoCollision H) (hnc' : s'.2.NoCollision H) :
    ∃ v v', s.1.findVariable name = some v ∧ s'.1.findVariable name' = some v' ∧ v.cid = v'.cid := by
  subst hs hs'
  have hex : ∀ t r c, t < total (arrays name ops) → r < d.rows → c < d.cols →
      (concatFlt (arrays name ops) t r c).rounded B = concatFlt (arrays name ops) t r c := by
    intro t r c ht hr hc
    rcases hexact with rfl | he
    · exact (h.flt.fits t r c ht hr hc).rounded_exact
    · cases e : concatFlt (arrays name ops) t r c with
      | nan => rfl
      | inf s => rfl
      | fin q => exact congrArg Flt.fin (roundTo_exact (he t r c ht hr hc q e))
  obtain ⟨v, tl, h1, -, -, h2⟩ := (h.flt.made_inv h.toHistoryShape rfl rfl rfl
    (fun _ _ _ _ _ _ => rfl) h.type hex hf hrf log hnc).var
  obtain ⟨v', tl', h1', -, -, h2'⟩ := (h.flt.made_inv h' hrows hcols htotal hsame htype hex hf hrf log'
    hnc').var
  rw [htotal] at h2'
  refine ⟨v, v', h1, h1', VarInv.cid_unique ?_ h2 h2'⟩
  exact fun _ _ _ _ k k' => Made.unique k.2 k'.2

end

/-! ### Examples -/

/-- The numbers of `exampleOps` under another name, appended one instant first, then five. -/
def exampleOther : List Op :=
  [.append exampleFill [8] (.i64 exampleGrid) 1 4 4, .append exampleFill [7] (.i64 exampleGrid) 2 4 4,
    .append exampleFill [8] (.i64 fun t => exampleGrid (1 + t)) 5 4 4]

theorem exampleOther_shape : HistoryShape (fun _ => true) 40 exampleDataset [8] (some 3) 2 2 [1, 1] .i64
    exampleOther where
  dataset := exampleHistory.dataset
  new := rfl
  fits := by
    refine ⟨by decide, rfl, fun b hb => ?_, by decide, by decide, by decide, by decide⟩
    cases hb
    decide
  count := by decide +kernel
  each := by
    have hf := exampleFill_valid
    intro op ho
    simp only [exampleOther, List.mem_cons, List.not_mem_nil, or_false] at ho
    rcases ho with rfl | rfl | rfl
    · exact ⟨trivial, fun _ => ⟨hf, rfl, rfl⟩⟩
    · exact ⟨trivial, fun h => absurd h (by decide)⟩
    · exact ⟨trivial, fun _ => ⟨hf, rfl, rfl⟩⟩

/-- The two histories meet the conditions of `C59_int_partial`. -/
example : (∀ x ∈ arrays [7] exampleOps, x.1.Wide true) ∧ (∀ x ∈ arrays [8] exampleOther, x.1.Wide true) ∧
    total (arrays [8] exampleOther) = total (arrays [7] exampleOps) ∧
    ∀ t r c, t < total (arrays [7] exampleOps) → r < exampleDataset.rows → c < exampleDataset.cols →
      concatInt (arrays [8] exampleOther) t r c = concatInt (arrays [7] exampleOps) t r c := by
  have e : arrays [8] exampleOther =
      [(.i64 exampleGrid, 1), (.i64 fun t => exampleGrid (1 + t), 5)] := rfl
  rw [exampleArrays, e]
  refine ⟨?_, ?_, rfl, ?_⟩
  · intro x hx
    simp only [List.mem_cons, List.not_mem_nil, or_false] at hx
    rcases hx with rfl | rfl <;> exact ⟨_, rfl⟩
  · intro x hx
    simp only [List.mem_cons, List.not_mem_nil, or_false] at hx
    rcases hx with rfl | rfl <;> exact ⟨_, rfl⟩
  · intro t r c ht _ _
    change t < 6 at ht
    have key : ∀ t, t < 6 → concatInt [(.i64 exampleGrid, 1), (.i64 fun t => exampleGrid (1 + t), 5)] t r c =
        exampleGrid t r c ∧ concatInt [(.i64 exampleGrid, 2), (.i64 fun t => exampleGrid (2 + t), 4)] t r c =
        exampleGrid t r c := by
      intro t ht
      constructor
      · simp only [concatInt, NdArray.int]
        split
        · rfl
        · rw [if_pos (by omega), show 1 + (t - 1) = t by omega]
      · simp only [concatInt, NdArray.int]
        split
        · rfl
        · rw [if_pos (by omega), show 2 + (t - 2) = t by omega]
    rw [(key t ht).1, (key t ht).2]

/-- C59 in numbers: the two identifiers. -/
example : ((runs exampleHash (fun _ => true) exampleClog (fun _ => 0) 32
      (.addVariable [7] none 2 2 [1, 1] .i64 :: exampleOps) (exampleDataset, [])).1.findVariable [7]).map
        (·.cid) =
    ((runs exampleHash (fun _ => true) exampleClog (fun _ => 0) 32
      (.addVariable [8] (some 3) 2 2 [1, 1] .i64 :: exampleOther) (exampleDataset, [])).1.findVariable
        [8]).map (·.cid) := by
  decide +kernel

/-- Floats that are not rounded: one instant, then three, or two and two. -/
example (n : Nat) (hn : n ≤ 4) :
    total (arrays [7] (exampleFloatOps (fun z => z / 4) n)) = 6 ∧
    concatFlt (arrays [7] (exampleFloatOps (fun z => z / 4) n)) = exampleFltSeries (fun z => z / 4) := by
  have e : total (arrays [7] (exampleFloatOps (fun z => z / 4) n)) = n + (4 - n + 2) := rfl
  exact ⟨by omega, exampleFloatConcat _ hn⟩

/-! ### Rounding -/

/-- Quarters, but for one number with five bits. -/
def unevenQuarters (z : Int) : Rat := if z = 10 then 81 / 32 else z / 4

def unevenRun (n : Nat) : Dataset × Saved :=
  runs exampleHash (fun _ => true) exampleClog exampleLg 32
    (.addVariable [7] (some 3) 2 2 [1, 1] .f32 :: exampleFloatOps unevenQuarters n) (exampleDataset, [])

theorem unevenRun_noCollision : (unevenRun 1).2.NoCollision exampleHash ∧
    (unevenRun 2).2.NoCollision exampleHash := by
  unfold Saved.NoCollision
  decide +kernel

theorem unevenRun_cid : (match (unevenRun 1).1.findVariable [7], (unevenRun 2).1.findVariable [7] with
    | some v, some v' => v.cid != v'.cid
    | _, _ => false) = true := by
  decide +kernel


theorem unevenQuarters_history {n : Nat} (hn : n ≤ 4) : FltHistory (fun _ => true) exampleClog exampleLg 40
    exampleDataset [7] (some 3) 2 2 [1, 1] .single 3 (exampleFloatOps unevenQuarters n) := by
  have hq : ∀ z : Int, -15 ≤ z → z ≤ 15 → ∃ w : Int, unevenQuarters z = w / 32 ∧ -120 ≤ w ∧ w ≤ 120 ∧
      (w ≠ -1 ∧ w ≠ -2 ∧ w ≠ -3) := by
    intro z h1 h2
    unfold unevenQuarters
    split
    · exact ⟨81, by norm_num, by omega, by omega, by omega⟩
    · refine ⟨8 * z, ?_, by omega, by omega, by omega⟩
      push_cast
      ring
  refine exampleFloatHistory _ hn 3 (some 3) (by decide) (fun b hb => (Option.some.inj hb).symm)
    (fun z h1 h2 => ?_) (fun z h1 => ?_)
  · obtain ⟨w, e, h3, h4, h5⟩ := hq z h1 h2
    rw [e]
    refine ⟨⟨w, -5, ?_, ?_⟩, ?_, fun h => (nomatch h), ?_⟩
    · show w.natAbs < 2 ^ 24
      omega
    · rw [zpow_neg]; norm_num; ring
    · rw [abs_div, show |(32 : Rat)| = 32 by norm_num]
      have : |(w : Rat)| ≤ 120 := by
        rw [abs_le]
        constructor <;> [exact_mod_cast h3; exact_mod_cast h4]
      linarith
    · rintro ⟨a1, a2⟩
      have b1 : ((-4 : Int) : Rat) < (w : Rat) := by push_cast; linarith
      have b2 : (w : Rat) ≤ ((-1 : Int) : Rat) := by push_cast; linarith
      have b1 : -4 < w := by exact_mod_cast b1
      have b2 : w ≤ -1 := by exact_mod_cast b2
      omega
  · unfold unevenQuarters
    split
    · norm_num
    · have : ((-15 : Int) : Rat) ≤ (z : Rat) := by exact_mod_cast h1
      push_cast at this
      linarith

/-- C59 does not hold for floats that are rounded. The same six instants, appended as one, three and two
or as two, two and two, give variables with different identifiers: the first instant is read back,
rounded, before the number of bits of its chunk is chosen, so that the chunk gets fewer bits. Reads of
the two variables give the same (`C31_float_history_partial`). -/
theorem C59_rounded_wrong : ∃ ops ops' : List Op,
    FltHistory (fun _ => true) exampleClog exampleLg 40 exampleDataset [7] (some 3) 2 2 [1, 1] .single 3 ops ∧
    FltHistory (fun _ => true) exampleClog exampleLg 40 exampleDataset [7] (some 3) 2 2 [1, 1] .single 3 ops' ∧
    total (arrays [7] ops) = 6 ∧ total (arrays [7] ops') = 6 ∧
    concatFlt (arrays [7] ops) = concatFlt (arrays [7] ops') ∧
    ∃ s s', s = runs exampleHash (fun _ => true) exampleClog exampleLg 32
        (.addVariable [7] (some 3) 2 2 [1, 1] .f32 :: ops) (exampleDataset, []) ∧
      s' = runs exampleHash (fun _ => true) exampleClog exampleLg 32
        (.addVariable [7] (some 3) 2 2 [1, 1] .f32 :: ops') (exampleDataset, []) ∧
      s.2.NoCollision exampleHash ∧ s'.2.NoCollision exampleHash ∧
      ∃ v v', s.1.findVariable [7] = some v ∧ s'.1.findVariable [7] = some v' ∧ v.cid ≠ v'.cid := by
  refine ⟨exampleFloatOps unevenQuarters 1, exampleFloatOps unevenQuarters 2, unevenQuarters_history (by decide),
    unevenQuarters_history (by decide), rfl, rfl, ?_, unevenRun 1, unevenRun 2, rfl, rfl,
    unevenRun_noCollision.1, unevenRun_noCollision.2, ?_⟩
  · rw [exampleFloatConcat _ (by decide), exampleFloatConcat _ (by decide)]
  · have key := unevenRun_cid
    generalize unevenRun 1 = s at key
    generalize unevenRun 2 = s' at key
    cases h1 : s.1.findVariable [7] with
    | none => rw [h1] at key; cases key
    | some v =>
      cases h2 : s'.1.findVariable [7] with
      | none => rw [h1, h2] at key; cases key
      | some v' =>
        rw [h1, h2] at key
        exact ⟨v, v', rfl, rfl, by simpa using key⟩

end Verif
