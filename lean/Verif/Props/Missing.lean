import Verif.Lemmas.Missing
import Verif.Props.Schedule

/-!
Property C61: objects that cannot be loaded never make data wrong. True of reads and searches, but
for cells of windows that are left zero; false of appends.
-/
namespace Verif

section
variable {utf8 : List Byte → Bool} {st st' : Store} {fuel : Nat}

/-- C61: a cell that can be read although some objects are missing has the value that it has when
they are there. -/
theorem C61_get {α : Type} (kind : Kind α) (m : MMStruct3) (t row col : Nat) (x : α)
    (hst : st'.Part st) (h : kind.get utf8 st' fuel m t row col = .ok x) :
    kind.get utf8 st fuel m t row col = .ok x := by
  revert h
  unfold Kind.get
  cases m.checkBounds t row col with
  | none => exact id
  | some u =>
    simp only
    rcases m.get_short (utf8 := utf8) hst fuel m.fractionalBits t row col with e | ⟨c, hc, e⟩
    · rw [e]
      exact id
    · rw [e]
      exact fun h => (nomatch h)

/-- C61: a range of a cell that can be read although some objects are missing can be read so when
they are there. -/
theorem C61_cell {α : Type} (kind : Kind α) (m : MMStruct3) (start fin row col : Nat) (l : List α)
    (hst : st'.Part st) (h : kind.cell utf8 st' fuel m start fin row col (.ok l)) :
    kind.cell utf8 st fuel m start fin row col (.ok l) := by
  revert h
  unfold Kind.cell
  cases csub fin 1 with
  | none => exact id
  | some last =>
    simp only
    cases m.checkBounds last row col with
    | none => exact id
    | some u =>
      simp only
      cases csub fin start with
      | none => exact id
      | some n =>
        rintro ⟨t, s, h1, h2⟩
        have hs : s = none := by
          unfold Kind.finish at h2
          split at h2
          · cases s with
            | none => rfl
            | some f => cases h2
          · cases h2
        subst hs
        exact ⟨t, none, (m.fillCell_within hst ..).2 _ h1 fun _ _ => rfl, h2⟩

/-- C61: a search that ends without an error among its items although some objects are missing is one
that is possible when they are there. In any case it finds nothing else. -/
theorem C61_search {α : Type} (kind : Kind α) (m : MMStruct3) (bounds : Cube) (lower upper : α)
    (t : List (Option (Nat × Nat × Nat))) (s : Option Fail) (hst : st'.Part st)
    (h : kind.search utf8 st' fuel m bounds lower upper t s) :
    (s = none → none ∉ t → kind.search utf8 st fuel m bounds lower upper t none) ∧
    ∃ t₁ s₁, kind.search utf8 st fuel m bounds lower upper t₁ s₁ ∧ (t.filter Option.isSome).Subperm t₁ := by
  revert h
  unfold Kind.search
  cases kind.bound lower with
  | none => exact fun h => ⟨fun hs _ => hs ▸ h, t, s, h, List.filter_sublist.subperm⟩
  | some lower =>
    cases kind.bound upper with
    | none => exact fun h => ⟨fun hs _ => hs ▸ h, t, s, h, List.filter_sublist.subperm⟩
    | some upper =>
      simp only
      cases m.checkCube bounds with
      | none => exact fun h => ⟨fun hs _ => hs ▸ h, t, s, h, List.filter_sublist.subperm⟩
      | some u =>
        obtain ⟨h1, h2⟩ := m.search_within (utf8 := utf8) hst fuel bounds lower upper
        refine fun h => ⟨fun hs hn => ?_, h1 _ _ h⟩
        subst hs
        refine h2 _ h fun x hx => ?_
        cases x with
        | none => exact absurd hx hn
        | some q => rfl

/-- C61: what a window read writes although some objects are missing is written as well by a read when
they are there. -/
theorem C61_window (m : MMStruct3) (bits : Nat) (window : Cube) (t : Calls) (s : Option Fail)
    (hst : st'.Part st) (h : m.fillWindow utf8 st' fuel bits window t s) :
    ∃ t₁ s₁, m.fillWindow utf8 st fuel bits window t₁ s₁ ∧ t.Subperm t₁ := by
  obtain ⟨t₁, s₁, h1, h2⟩ := m.fillWindow_within hst fuel bits window t s h
  rw [List.filter_eq_self.2 fun _ _ => rfl] at h2
  exact ⟨t₁, s₁, h1, h2⟩

/-- Reads through an array give a series of `n` rasters or fail, but cells of windows may be zero. -/
structure PartlyReads {α : Type} (kind : Kind α) (utf8 : List Byte → Bool) (st : Store) (fuel : Nat)
    (m : MMStruct3) (n rows cols : Nat) (data : Nat → Nat → Nat → α) : Prop where
  get : ∀ t row col x, t < n → row < rows → col < cols →
    kind.get utf8 st fuel m t row col = .ok x → x = data t row col
  cell : ∀ start fin row col l, start ≤ fin → 0 < fin → fin ≤ n → row < rows → col < cols →
    kind.cell utf8 st fuel m start fin row col (.ok l) →
      l = (List.range (fin - start)).map fun i => data (start + i) row col
  window : ∀ start fin top bottom left right a, start ≤ fin → 0 < fin → fin ≤ n → top < bottom →
    left < right → bottom ≤ rows → right ≤ cols →
    kind.window utf8 st fuel m ⟨start, fin, top, bottom, left, right⟩ (.ok a) →
      ∃ kept : Nat → Nat → Nat → Bool,
        a = (List.range (fin - start)).map fun t => (List.range (bottom - top)).map fun r =>
          (List.range (right - left)).map fun c =>
            if kept t r c then data (start + t) (top + r) (left + c) else kind.zero

theorem Reads.missing {α : Type} {kind : Kind α} {m : MMStruct3} {n rows cols : Nat}
    {data : Nat → Nat → Nat → α} (h : Reads kind.dec utf8 st fuel m n rows cols data)
    (hst : st'.Part st) : PartlyReads kind utf8 st' fuel m n rows cols data where
  get t row col x h1 h2 h3 e := by
    have := C61_get kind m t row col x hst e
    rw [h.kind_get h1 h2 h3] at this
    exact (Except.ok.inj this).symm
  cell start fin row col l h1 h2 h3 h4 h5 e := by
    exact Except.ok.inj ((h.kind_cell h1 h2 h3 h4 h5 _).1 (C61_cell kind m start fin row col l hst e))
  window start fin top bottom left right a h1 h0 h2 h3 h4 h5 h6 e := by
    unfold Kind.window at e
    rw [checkCube_some h.shape (by exact h0) (by exact h2) (by change 0 < bottom; omega) (by exact h5)
      (by change 0 < right; omega) (by exact h6)] at e
    unfold csub at e
    simp only at e
    rw [if_pos h1, if_pos (by omega), if_pos (by omega)] at e
    simp only at e
    obtain ⟨t, s, e1, e2⟩ := e
    obtain ⟨t₁, s₁, f1, f2⟩ := C61_window m _ _ t s hst e1
    have hp := ((h.window start fin top bottom left right h1 h2 h3 h4 h5 h6).2 _ _ ⟨t₁, f1, rfl⟩).2
    have hval : ∀ q ∈ t, kind.dec q.2.2.2.1 q.2.2.2.2 = data (start + q.1) (top + q.2.1) (left + q.2.2.1) := by
      intro q hq
      have := hp.mem_iff.1 (List.mem_map.2 ⟨q, f2.subset hq, rfl⟩)
      rw [Spec.window3_range] at this
      simp only [List.mem_flatMap, List.mem_map, Prod.mk.injEq] at this
      obtain ⟨i, -, j, -, k, -, rfl, rfl, rfl, e⟩ := this
      exact e.symm
    unfold Kind.finish at e2
    split at e2
    · cases s with
      | some f => cases e2
      | none =>
        refine ⟨fun i r c => (t.reverse.find? fun q => q.1 = i ∧ q.2.1 = r ∧ q.2.2.1 = c).isSome, ?_⟩
        rw [Except.ok.inj e2]
        refine List.map_congr_left fun i _ => List.map_congr_left fun r _ =>
          List.map_congr_left fun c _ => ?_
        unfold written
        cases hf : t.reverse.find? fun q => q.1 = i ∧ q.2.1 = r ∧ q.2.2.1 = c with
        | none =>
          simp only [hf]
          rfl
        | some q =>
          simp only [hf]
          have a1 := List.mem_reverse.1 (List.mem_of_find?_eq_some hf)
          have a2 := List.find?_some hf
          obtain ⟨rfl, rfl, rfl⟩ := of_decide_eq_true a2
          exact hval q a1
    · cases e2

theorem Variable.data_part {α : Type} {kind : Kind α} {v : Variable} {m m' : MMStruct3} (hst : st'.Part st)
    (h : v.data kind utf8 st = .ok m) (h' : v.data kind utf8 st' = .ok m') : m' = m := by
  unfold Variable.data at h h'
  rcases hst.getStruct (utf8 := utf8) v.cid with e | ⟨c, hc, e⟩
  · rw [e] at h'
    rw [h] at h'
    exact (Except.ok.inj h').symm
  · rw [e] at h'
    cases h'

end

section
variable {H : Hash} {utf8 : List Byte → Bool} {clog : Nat → Nat} {lg : Rat → Int} {fuel readFuel : Nat}
  {levels : List Nat} {cs ss : Nat}

/-- C61 for variables of integers of 64 bits: after any history, whatever objects are missing, opening
the variable fails, or it reads as what was appended, but for cells of windows that may be zero.

Partial as C31. -/
theorem C61_i64_partial (d : Dataset) (name : List Byte) (round : Option Nat) (ops : List Op) (log : Saved)
    (h : History utf8 clog readFuel d name round ss cs levels .i64 ops)
    (h64 : ∀ x ∈ arrays name ops, ∃ a, x.1 = .i64 a)
    (hf : 32 ≤ fuel) (hrf : levels.length + 34 ≤ readFuel) (s : Dataset × Saved)
    (hs : s = runs H utf8 clog lg fuel (.addVariable name round ss cs levels .i64 :: ops) (d, log))
    (hnc : s.2.NoCollision H) (st : Store) (hst : st.Part (s.2.load H)) :
    ∃ v, s.1.findVariable name = some v ∧ ∀ m, v.data .i64 utf8 st = .ok m →
      PartlyReads .i64 utf8 st readFuel m (total (arrays name ops)) d.rows d.cols
        (concat64 (arrays name ops)) := by
  subst hs
  obtain ⟨v, m, h1, h2, h3, h4, -⟩ := (h.inv hf (by omega) log hnc).arrays h.int.toIntBase _
    (List.Subset.refl _) hnc hrf
  refine ⟨v, h1, fun m' hm => ?_⟩
  obtain rfl := Variable.data_part hst (Variable.data_ok (kind := .i64) h2 h3) hm
  exact Reads.missing (kind := .i64) (h4.congr fun t r c _ _ _ => concatInt_eq64 _ h64 t r c) hst

/-- C61 for variables of integers of 32 bits. Partial as C31. -/
theorem C61_i32_partial (d : Dataset) (name : List Byte) (round : Option Nat) (ops : List Op) (log : Saved)
    (h : History utf8 clog readFuel d name round ss cs levels .i32 ops)
    (h32 : ∀ x ∈ arrays name ops, ∃ a, x.1 = .i32 a)
    (hf : 32 ≤ fuel) (hrf : levels.length + 34 ≤ readFuel) (s : Dataset × Saved)
    (hs : s = runs H utf8 clog lg fuel (.addVariable name round ss cs levels .i32 :: ops) (d, log))
    (hnc : s.2.NoCollision H) (st : Store) (hst : st.Part (s.2.load H)) :
    ∃ v, s.1.findVariable name = some v ∧ ∀ m, v.data .i32 utf8 st = .ok m →
      PartlyReads .i32 utf8 st readFuel m (total (arrays name ops)) d.rows d.cols
        (concat32 (arrays name ops)) := by
  subst hs
  obtain ⟨v, m, h1, h2, h3, h4, -⟩ := (h.inv hf (by omega) log hnc).arrays h.int.toIntBase _
    (List.Subset.refl _) hnc hrf
  refine ⟨v, h1, fun m' hm => ?_⟩
  obtain rfl := Variable.data_part hst (Variable.data_ok (kind := .i32) h2 h3) hm
  have := (h4.map fun v => v.toInt32).congr (data' := concat32 (arrays name ops)) fun t r c _ _ _ => by
    rw [concatInt_eq32 _ h32]
    simp
  exact Reads.missing (kind := .i32) this hst

/-- C61 for variables of floats, rounded or not. Partial as C31. -/
theorem C61_float_partial {p : Prec} {B : Nat} (d : Dataset) (name : List Byte) (round : Option Nat)
    (ops : List Op) (log : Saved)
    (h : FltHistory utf8 clog lg readFuel d name round ss cs levels p B ops)
    (hf : 32 ≤ fuel) (hrf : levels.length + 34 ≤ readFuel) (s : Dataset × Saved)
    (hs : s = runs H utf8 clog lg fuel (.addVariable name round ss cs levels p.kind.encoding :: ops)
      (d, log))
    (hnc : s.2.NoCollision H) (st : Store) (hst : st.Part (s.2.load H)) :
    ∃ v, s.1.findVariable name = some v ∧ ∀ m, v.data p.kind utf8 st = .ok m →
      PartlyReads p.kind utf8 st readFuel m (total (arrays name ops)) d.rows d.cols
        (fun t r c => (concatFlt (arrays name ops) t r c).rounded B) := by
  subst hs
  obtain ⟨v, m, h1, h2, h3, h4⟩ := (h.inv hf (by omega) log hnc).floats h.flt.toFltBase _ (List.Subset.refl _) hnc hrf
  refine ⟨v, h1, fun m' hm => ?_⟩
  obtain rfl := Variable.data_part hst (Variable.data_ok h2 h3) hm
  refine Reads.missing ?_ hst
  cases p <;> exact h4

end

/-! ### Appends -/

/-- The store without one object. -/
def Store.without (st : Store) (cid : Cid) : Store := fun c => if c = cid then none else st c

theorem Store.without_part (st : Store) (cid : Cid) : (st.without cid).Part st := by
  intro c
  unfold Store.without
  split
  · exact .inl rfl
  · exact .inr rfl

/-- `fill` chooses a way that is possible if some objects cannot be loaded. -/
def Fill.Outage (utf8 : List Byte → Bool) (readFuel : Nat) (fill : Fill) : Prop :=
  ∀ (m : MMStruct3) (st : Store) (instants rows cols : Nat), m.shape = some (instants, rows, cols) →
    ∃ st', st'.Part st ∧
      m.fillWindow utf8 st' readFuel m.fractionalBits (Cube.new 0 instants 0 rows 0 cols)
        (fill m st).1 (fill m st).2

def exampleOutage (cid : Cid) : Fill := fun m st => exampleFill m (st.without cid)

theorem exampleOutage_possible (cid : Cid) : (exampleOutage cid).Outage (fun _ => true) 40 := by
  intro m st instants rows cols hs
  refine ⟨st.without cid, st.without_part cid, ?_⟩
  unfold exampleOutage exampleFill Fill.sequential
  rw [hs]
  exact m.has_fillWindow ..

/-- One instant appended, then five, the tail being read by `fill`. -/
def outageRun (fill : Fill) : Dataset × Saved :=
  runs exampleHash (fun _ => true) exampleClog (fun _ => 0) 32
    [.addVariable [8] none 2 2 [1, 1] .i64, .append exampleFill [8] (.i64 exampleGrid) 1 4 4,
      .append fill [8] (.i64 fun t => exampleGrid (1 + t)) 5 4 4] (exampleDataset, [])

/-- The number of instants of the variable after `outageRun`, and a cell of it. -/
def outageCell (fill : Fill) (t row col : Nat) : Option (Option Nat × Int64) :=
  let s := outageRun fill
  match s.1.findVariable [8] with
  | none => none
  | some v =>
    match v.data .i64 (fun _ => true) (s.2.load exampleHash) with
    | .error _ => none
    | .ok m =>
      match Kind.i64.get (fun _ => true) (s.2.load exampleHash) 40 m t row col with
      | .error _ => none
      | .ok x => some (m.shape.map (·.1), x)

theorem outageRun_noCollision (cid : Cid) (h : cid = .v1 99 926920 []) :
    (outageRun (exampleOutage cid)).2.NoCollision exampleHash := by
  subst h
  unfold Saved.NoCollision
  decide +kernel

/-- C61 does not hold for appends. While five instants are appended to one, an object with a part of
the first cannot be loaded for a moment. Both appends succeed, and then the variable has six instants.
But the part is zero now, although nothing is missing in the store. -/
theorem C61_append_wrong : ∃ fill : Fill, fill.Outage (fun _ => true) 40 ∧
    ∃ s, s = runs exampleHash (fun _ => true) exampleClog (fun _ => 0) 32
        [.addVariable [8] none 2 2 [1, 1] .i64, .append exampleFill [8] (.i64 exampleGrid) 1 4 4,
          .append fill [8] (.i64 fun t => exampleGrid (1 + t)) 5 4 4] (exampleDataset, []) ∧
      s.2.NoCollision exampleHash ∧
      ∃ v m, s.1.findVariable [8] = some v ∧ v.data .i64 (fun _ => true) (s.2.load exampleHash) = .ok m ∧
        m.shape.map (·.1) = some 6 ∧
        Kind.i64.get (fun _ => true) (s.2.load exampleHash) 40 m 0 2 2 = .ok 0 ∧ exampleGrid 0 2 2 = 228 := by
  refine ⟨exampleOutage (.v1 99 926920 []), exampleOutage_possible _, outageRun _, rfl,
    outageRun_noCollision _ rfl, ?_⟩
  have key : outageCell (exampleOutage (.v1 99 926920 [])) 0 2 2 = some (some 6, 0) := by decide +kernel
  have key2 : exampleGrid 0 2 2 = 228 := by decide +kernel
  unfold outageCell at key
  simp only at key
  generalize outageRun (exampleOutage (.v1 99 926920 [])) = s at key
  cases h1 : s.1.findVariable [8] with
  | none => rw [h1] at key; cases key
  | some v =>
    rw [h1] at key
    simp only at key
    cases h2 : v.data .i64 (fun _ => true) (s.2.load exampleHash) with
    | error f => rw [h2] at key; cases key
    | ok m =>
      rw [h2] at key
      simp only at key
      refine ⟨v, m, rfl, h2, ?_⟩
      cases h3 : Kind.i64.get (fun _ => true) (s.2.load exampleHash) 40 m 0 2 2 with
      | error f => rw [h3] at key; cases key
      | ok x =>
        rw [h3] at key
        simp only [Option.some.injEq, Prod.mk.injEq] at key
        exact ⟨key.1, by rw [key.2], key2⟩

/-- The same without the outage. -/
example : outageCell exampleFill 0 2 2 = some (some 6, 228) := by decide +kernel

/-- Two cells of the variable after `outageRun exampleFill`, when an object is missing. -/
def outageGet (cid : Cid) : Option (Except Fail Int64 × Except Fail Int64) :=
  let s := outageRun exampleFill
  match s.1.findVariable [8] with
  | none => none
  | some v =>
    match v.data .i64 (fun _ => true) ((s.2.load exampleHash).without cid) with
    | .error _ => none
    | .ok m => some (
      Kind.i64.get (fun _ => true) ((s.2.load exampleHash).without cid) 40 m 3 2 2,
      Kind.i64.get (fun _ => true) ((s.2.load exampleHash).without cid) 40 m 0 2 2)

/-- A store without one object: a cell that does not need it is read, another is not. -/
example : (match outageGet (.v1 164 303749 []) with
    | some (.ok x, .error (.err (.notFound c))) => x == 279 && c == .v1 164 303749 []
    | _ => false) = true := by decide +kernel

end Verif
