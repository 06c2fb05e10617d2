import Verif.Model.Verify
import Verif.Props.Example
import Verif.Props.Missing
import Verif.Props.Py
import Verif.Props.PyTime

/-!
Property C76: what a run of `verify` of the example program vouches for.
-/
namespace Verif

namespace Example

section
variable {α : Type}

/-- The source has the instant, at the time that a range from `start` with steps of `step` seconds has it. -/
def Spec.Dated (src : Original α) (start step : Int64) (t : Nat) : Prop :=
  t < src.total ∧ src.time t = (start.toInt + t * step.toInt) * 1000000000

/-- The source has the same raster. -/
def Spec.Same (src : Original α) (rows cols : Nat) (data : Nat → Nat → Nat → α) (t : Nat) : Prop :=
  src.rows = rows ∧ src.cols = cols ∧ ∀ r c, r < rows → c < cols → src.data t r c = data t r c

/-- The instants fit 64 bits. -/
def Spec.Lasts (start step : Int64) (n : Nat) : Prop :=
  ∀ t : Nat, t < n → Fits 64 t ∧ Fits 64 (t * step.toInt) ∧ Fits 64 (start.toInt + t * step.toInt)

/-- Nothing is found if all instants are the same, else the first that is not decides. -/
def Spec.Verdict (src : Original α) (start step : Int64) (n rows cols : Nat) (data : Nat → Nat → Nat → α)
    (verdict : Verdict) : Prop :=
  (verdict = .clean ∧ ∀ t < n, Spec.Dated src start step t ∧ Spec.Same src rows cols data t) ∨
  ∃ t < n, (∀ t' < t, Spec.Dated src start step t' ∧ Spec.Same src rows cols data t') ∧
    (¬Spec.Dated src start step t ∧ verdict = .failed (.err (.py (if src.total ≤ t then .index else .assertion))) ∨
      Spec.Dated src start step t ∧ ¬Spec.Same src rows cols data t ∧ verdict = .mismatch t)

theorem map_range_eq {β : Type} {n n' : Nat} {f g : Nat → β} :
    (List.range n).map f = (List.range n').map g ↔ n = n' ∧ ∀ i < n, f i = g i := by
  constructor
  · intro h
    have hl := congrArg List.length h
    simp only [List.length_map, List.length_range] at hl
    subst hl
    refine ⟨rfl, fun i hi => ?_⟩
    have := congrArg (·[i]?) h
    simpa [List.getElem?_map, List.getElem?_range hi] using this
  · rintro ⟨rfl, h⟩
    exact List.map_congr_left fun i hi => h i (List.mem_range.1 hi)

theorem Original.at_eq {src : Original α} {rows cols : Nat} {data : Nat → Nat → Nat → α} {t : Nat} (hr : 0 < rows) :
    Nd.d2 ((List.range rows).map fun r => (List.range cols).map fun c => data t r c) = src.at t ↔
      Spec.Same src rows cols data t := by
  unfold Original.at Spec.Same
  rw [Nd.d2.injEq, map_range_eq]
  constructor
  · rintro ⟨rfl, h⟩
    have h0 := h 0 hr
    rw [map_range_eq] at h0
    refine ⟨rfl, h0.1.symm, fun r c hr hc => ?_⟩
    have := h r hr
    rw [map_range_eq] at this
    exact (this.2 c hc).symm
  · rintro ⟨rfl, rfl, h⟩
    refine ⟨rfl, fun r hr => ?_⟩
    rw [map_range_eq]
    exact ⟨rfl, fun c hc => (h r c hr hc).symm⟩

theorem not_own : Py.ascii "time" ∉ Py.ownNames := by decide +kernel

theorem getattr_time {d : Dataset} {kind : CoordinateKind} (hd : d.coord0 = ⟨Py.ascii "time", kind⟩) :
    Py.getattr d (Py.ascii "time") = .ok (.coordinate d.coord0) := by
  unfold Py.getattr
  generalize hn : Py.ascii "time" = name at *
  rw [if_neg (hn ▸ not_own), List.find?_cons_of_pos (by rw [hd]; simp)]

theorem dataTime_eq {checked : Bool} {d : Dataset} {start step : Int64} {t : Nat}
    (hd : d.coord0 = ⟨Py.ascii "time", .time start step⟩) (h1 : Fits 64 t) (h2 : Fits 64 (t * step.toInt))
    (h3 : Fits 64 (start.toInt + t * step.toInt)) :
    dataTime checked d t = .ok ⟨start.toInt + t * step.toInt, .second⟩ := by
  unfold dataTime
  rw [getattr_time hd]
  simp only
  rw [hd]
  exact pyGet_eq checked ⟨start.toInt, step.toInt⟩ t h1 h2 h3

section
variable [DecidableEq α] {checked : Bool} {kind : Kind α} {utf8 : List Byte → Bool} {st : Store} {fuel : Nat}
  {src : Original α} {d : Dataset} {m : MMStruct3} {start step : Int64} {n rows cols : Nat}
  {data : Nat → Nat → Nat → α}

omit [DecidableEq α] in
theorem getitem_instant (h : ArrayReads kind utf8 st fuel m n rows cols data) (hr : 0 < rows) (hc : 0 < cols) {t : Nat}
    (ht : t < n) (res : Except Fail (Nd α)) : kind.getitem utf8 st fuel m [.int t] res ↔
      res = .ok (.d2 ((List.range rows).map fun r => (List.range cols).map fun c => data t r c)) := by
  have hp : PlainIndices n rows cols [.int t] := by
    refine ⟨by simp, fun x hx => ?_, by simp, by simp⟩
    cases hx
    exact ⟨by simp, by exact_mod_cast ht⟩
  rw [C49_variable_partial h (by omega) hr hc _ hp]
  have : Spec.numpy n rows cols data [.int t] =
      some (.d2 ((List.range rows).map fun r => (List.range cols).map fun c => data t r c)) := by
    have h0 : ¬(t : Int) < 0 := by omega
    simp [Verif.Spec.numpy, Verif.Spec.sel, Verif.Spec.fromEnd, h0, ht, Verif.Spec.take, Verif.Spec.everything]
  rw [this]
  simp

theorem checkInstant_iff (h : ArrayReads kind utf8 st fuel m n rows cols data) (hr : 0 < rows) (hc : 0 < cols)
    (hd : d.coord0 = ⟨Py.ascii "time", .time start step⟩) (hl : Spec.Lasts start step n) {t : Nat} (ht : t < n)
    (res : Except Fail Bool) : checkInstant checked kind utf8 st fuel src d m t res ↔
      (¬Spec.Dated src start step t ∧ res = .error (.err (.py (if src.total ≤ t then .index else .assertion))) ∨
        Spec.Dated src start step t ∧ ¬Spec.Same src rows cols data t ∧ res = .ok false ∨
        Spec.Dated src start step t ∧ Spec.Same src rows cols data t ∧ res = .ok true) := by
  unfold checkInstant
  obtain ⟨l1, l2, l3⟩ := hl t ht
  rw [dataTime_eq hd l1 l2 l3]
  simp only
  by_cases h1 : src.total ≤ t
  · rw [if_pos h1]
    have : ¬Spec.Dated src start step t := fun h => by have := h.1; omega
    simp [this, h1]
  rw [if_neg h1]
  by_cases h2 : src.time t = (start.toInt + t * step.toInt) * 1000000000
  · rw [if_neg (by simpa using h2)]
    have hdt : Spec.Dated src start step t := ⟨by omega, h2⟩
    simp only [getitem_instant h hr hc ht, hdt, not_true_eq_false, false_and, false_or, true_and, exists_eq_left]
    change res = .ok (decide _) ↔ _
    by_cases h3 : Spec.Same src rows cols data t
    · rw [decide_eq_true ((Original.at_eq hr).2 h3)]
      simp [h3]
    · rw [decide_eq_false (fun e => h3 ((Original.at_eq hr).1 e))]
      simp [h3]
  · rw [if_pos h2]
    have : ¬Spec.Dated src start step t := fun h => h2 h.2
    simp [this, h1]

theorem verifyFrom_iff (h : ArrayReads kind utf8 st fuel m n rows cols data) (hr : 0 < rows) (hc : 0 < cols)
    (hd : d.coord0 = ⟨Py.ascii "time", .time start step⟩) (hl : Spec.Lasts start step n) (verdict : Verdict) :
    ∀ (k i : Nat), i + k = n → (∀ t < i, Spec.Dated src start step t ∧ Spec.Same src rows cols data t) →
      (verifyFrom checked kind utf8 st fuel src d m (List.range' i k) verdict ↔
        Spec.Verdict src start step n rows cols data verdict) := by
  intro k
  induction k with
  | zero =>
    intro i hi hp
    obtain rfl : i = n := by omega
    unfold verifyFrom Spec.Verdict
    simp only [List.range'_zero]
    constructor
    · exact fun e => .inl ⟨e, hp⟩
    · rintro (⟨e, -⟩ | ⟨t, ht, -, hx⟩)
      · exact e
      · rcases hx with hx | hx
        · exact absurd (hp t ht).1 hx.1
        · exact absurd (hp t ht).2 hx.2.1
  | succ k ih =>
    intro i hi hp
    rw [List.range'_succ]
    unfold verifyFrom
    simp only [checkInstant_iff h hr hc hd hl (show i < n by omega)]
    have hsplit : Spec.Verdict src start step n rows cols data verdict →
        ((∀ t < n, Spec.Dated src start step t ∧ Spec.Same src rows cols data t) ∧ verdict = .clean) ∨
        ∃ t < n, i ≤ t ∧ (∀ t' < t, Spec.Dated src start step t' ∧ Spec.Same src rows cols data t') ∧
          (¬Spec.Dated src start step t ∧ verdict = .failed (.err (.py (if src.total ≤ t then .index else .assertion))) ∨
            Spec.Dated src start step t ∧ ¬Spec.Same src rows cols data t ∧ verdict = .mismatch t) := by
      rintro (⟨e, g⟩ | ⟨t, ht, g1, g2⟩)
      · exact .inl ⟨g, e⟩
      · refine .inr ⟨t, ht, ?_, g1, g2⟩
        by_contra hlt
        have := hp t (by omega)
        rcases g2 with g2 | g2
        · exact g2.1 this.1
        · exact g2.2.1 this.2
    constructor
    · rintro ⟨res, ⟨g, rfl⟩ | ⟨g1, g2, rfl⟩ | ⟨g1, g2, rfl⟩, hv⟩
      · exact .inr ⟨i, by omega, hp, .inl ⟨g, hv⟩⟩
      · exact .inr ⟨i, by omega, hp, .inr ⟨g1, g2, hv⟩⟩
      · refine (ih (i + 1) (by omega) fun t ht => ?_).1 hv
        rcases Nat.lt_succ_iff_lt_or_eq.1 ht with ht | rfl
        · exact hp t ht
        · exact ⟨g1, g2⟩
    · intro hv
      by_cases g1 : Spec.Dated src start step i
      · by_cases g2 : Spec.Same src rows cols data i
        · refine ⟨_, .inr (.inr ⟨g1, g2, rfl⟩), (ih (i + 1) (by omega) fun t ht => ?_).2 hv⟩
          rcases Nat.lt_succ_iff_lt_or_eq.1 ht with ht | rfl
          · exact hp t ht
          · exact ⟨g1, g2⟩
        · refine ⟨_, .inr (.inl ⟨g1, g2, rfl⟩), ?_⟩
          simp only
          rcases hsplit hv with ⟨g, -⟩ | ⟨t, ht, hit, h1, h2⟩
          · exact absurd (g i (by omega)).2 g2
          · obtain rfl : t = i := by
              by_contra hne
              exact g2 (h1 i (by omega)).2
            rcases h2 with h2 | h2
            · exact absurd g1 h2.1
            · exact h2.2.2
      · refine ⟨_, .inl ⟨g1, rfl⟩, ?_⟩
        simp only
        rcases hsplit hv with ⟨g, -⟩ | ⟨t, ht, hit, h1, h2⟩
        · exact absurd (g i (by omega)).1 g1
        · obtain rfl : t = i := by
            by_contra hne
            exact g1 (h1 i (by omega)).1
          rcases h2 with h2 | h2
          · exact h2.2
          · exact absurd h2.1 g1

/-- C76: for a data set that can be read, `verify` finds nothing exactly if every instant of it is in the
source at the same time and with the same values; else it stops at the first that is not. -/
theorem C76_exact (cid : Cid) (v : Variable) (rest : List Variable) (hds : st.getDataset utf8 cid = .ok d)
    (hv : d.variables = v :: rest) (hm : v.data kind utf8 st = .ok m)
    (h : ArrayReads kind utf8 st fuel m n rows cols data) (hr : 0 < rows) (hc : 0 < cols)
    (hd : d.coord0 = ⟨Py.ascii "time", .time start step⟩) (hl : Spec.Lasts start step n) (verdict : Verdict) :
    verify checked kind utf8 st fuel src (.at cid) verdict ↔
      Spec.Verdict src start step n rows cols data verdict := by
  unfold verify
  simp only
  rw [hds]
  simp only
  rw [hv]
  simp only
  rw [hm]
  simp only
  rw [h.shape]
  simp only
  rw [List.range_eq_range']
  exact verifyFrom_iff h hr hc hd hl verdict n 0 (by omega) fun t ht => absurd ht (by omega)

/-! ### Objects are missing -/

omit [DecidableEq α] in
theorem getitem_window (h : m.shape = some (n, rows, cols)) (t : Nat) (res : Except Fail (Nd α)) :
    kind.getitem utf8 st fuel m [.int t] res ↔
      ∃ x, kind.window utf8 st fuel m ⟨t, t + 1, 0, rows, 0, cols⟩ x ∧ res = x.bind (Nd.mask [true]) := by
  have e : toUsize (t : Int) = some t := by simp [toUsize]
  have e' : toUsize ((t : Int) + 1) = some (t + 1) := by simp [toUsize]; omega
  have e0 : toUsize (0 : Int) = some 0 := rfl
  have er : toUsize (rows : Int) = some rows := by simp [toUsize]
  have ec : toUsize (cols : Int) = some cols := by simp [toUsize]
  have hcube : Cube.new t (t + 1) 0 rows 0 cols = ⟨t, t + 1, 0, rows, 0, cols⟩ :=
    Cube.new_of_le (by omega) (by omega) (by omega)
  simp [Kind.getitem, h, PyIndex.fix, PyIndex.isInt, PyIndex.asSlice, List.replicate, e, e', e0, er, ec, hcube]

theorem checkInstant_partly (hsh : m.shape = some (n, rows, cols))
    (h : PartlyReads kind utf8 st fuel m n rows cols data) (hr : 0 < rows) (hc : 0 < cols)
    (hd : d.coord0 = ⟨Py.ascii "time", .time start step⟩) (hl : Spec.Lasts start step n) {t : Nat} (ht : t < n)
    (hch : checkInstant checked kind utf8 st fuel src d m t (.ok true)) :
    Spec.Dated src start step t ∧ src.rows = rows ∧ src.cols = cols ∧
      ∀ r c, r < rows → c < cols → src.data t r c = data t r c ∨ src.data t r c = kind.zero := by
  unfold checkInstant at hch
  obtain ⟨l1, l2, l3⟩ := hl t ht
  rw [dataTime_eq hd l1 l2 l3] at hch
  simp only at hch
  split at hch
  · cases hch
  split at hch
  · cases hch
  rename_i g1 g2
  refine ⟨⟨by omega, not_not.1 g2⟩, ?_⟩
  obtain ⟨got, hg, he⟩ := hch
  rw [getitem_window hsh] at hg
  obtain ⟨x, hw, rfl⟩ := hg
  cases x with
  | error f => cases he
  | ok a =>
    obtain ⟨kept, rfl⟩ := h.window t (t + 1) 0 rows 0 cols a (by omega) (by omega) (by omega) hr hc (Nat.le_refl _)
      (Nat.le_refl _) hw
    rw [show t + 1 - t = 1 by omega] at he
    have he := Except.ok.inj he
    have he := of_decide_eq_true he.symm
    simp only [Nat.zero_add, Nat.sub_zero] at he
    have he : Nd.d2 ((List.range rows).map fun r => (List.range cols).map fun c =>
        (fun t' r c => if kept 0 r c then data t' r c else kind.zero) t r c) = src.at t := he
    obtain ⟨h1, h2, h3⟩ := (Original.at_eq (data := fun t' r c => if kept 0 r c then data t' r c else kind.zero)
      (t := t) hr).1 he
    refine ⟨h1, h2, fun r c hr hc => ?_⟩
    have := h3 r c hr hc
    simp only at this
    split at this
    · exact .inl this
    · exact .inr this

theorem verifyFrom_clean {ts : List Nat} (h : verifyFrom checked kind utf8 st fuel src d m ts .clean) :
    ∀ t ∈ ts, checkInstant checked kind utf8 st fuel src d m t (.ok true) := by
  induction ts with
  | nil => exact fun t ht => (nomatch ht)
  | cons t0 ts ih =>
    unfold verifyFrom at h
    obtain ⟨res, h1, h2⟩ := h
    cases res with
    | error f => cases h2
    | ok b =>
      cases b with
      | false => cases h2
      | true =>
        intro t ht
        rcases List.mem_cons.1 ht with rfl | ht
        · exact h1
        · exact ih h2 t ht

theorem verifyFrom_of {ts : List Nat}
    (h : ∀ t ∈ ts, checkInstant checked kind utf8 st fuel src d m t (.ok true)) :
    verifyFrom checked kind utf8 st fuel src d m ts .clean := by
  induction ts with
  | nil => exact rfl
  | cons t0 ts ih =>
    unfold verifyFrom
    exact ⟨.ok true, h t0 (List.mem_cons_self ..), ih fun t ht => h t (List.mem_cons_of_mem _ ht)⟩

end
end

/-! ### After runs of the program -/

theorem _root_.Verif.Store.Part.getDataset {utf8 : List Byte → Bool} {st st' : Store} (h : st'.Part st) (cid : Cid) :
    Short st' (st'.getDataset utf8 cid) (st.getDataset utf8 cid) := by
  unfold Store.getDataset
  rcases h.retrieve (utf8 := utf8) cid with h | ⟨c, hc, h⟩
  · rw [h]
    exact .inl rfl
  · rw [h]
    exact .inr ⟨c, hc, rfl⟩

section
variable {H : Hash} {utf8 : List Byte → Bool} {clog : Nat → Nat} {lg : Rat → Int} {fuel readFuel : Nat}
  {T : VarTheory} {f : Factory} {Next : Nat → NdArray → Nat → Prop} {N : Nat} {α : Type} [DecidableEq α]
  {kind : Kind α} {data : Nat → Nat → Nat → α} {checked : Bool} {start step : Int64}

/-- What `verify` vouches for if it finds nothing: all instants are in the source at the same time and with
the same values, but for cells that are zero in the source. -/
def Spec.Vouched (src : Original α) (start step : Int64) (n rows cols : Nat) (data : Nat → Nat → Nat → α) (zero : α) :
    Prop :=
  ∀ t < n, Spec.Dated src start step t ∧ src.rows = rows ∧ src.cols = cols ∧
    ∀ r c, r < rows → c < cols → src.data t r c = data t r c ∨ src.data t r c = zero

theorem Spec.Serves.verify {world : World} {M : Nat} (h : Spec.Serves H utf8 readFuel f kind data world M)
    (hr : 0 < f.rows) (hc : 0 < f.cols) (hd : f.coord0 = ⟨Py.ascii "time", .time start step⟩)
    (hl : Spec.Lasts start step M) (src : Original α) (verdict : Example.Verdict) :
    Example.verify checked kind utf8 (world.log.load H) readFuel src world.head verdict ↔
      Spec.Verdict src start step M f.rows f.cols data verdict := by
  obtain ⟨cid, d, v, m, h1, h2, h3, h4, -, h5, h6⟩ := h
  rw [h1]
  exact C76_exact cid v [] h2 h4 h5 h6 hr hc ((congrArg (·.1) h3).trans hd) hl verdict

theorem HeadAt.vouched {world : World} {M : Nat} (hs : Serving H utf8 readFuel T f kind data)
    (h : HeadAt H utf8 T f.k2Levels (if f.round then some f.bits else none) f.name f.coords world M)
    (hnc : world.log.NoCollision H) (hr : 0 < f.rows) (hc : 0 < f.cols)
    (hd : f.coord0 = ⟨Py.ascii "time", .time start step⟩) (hl : Spec.Lasts start step M) (st : Store)
    (hst : st.Part (world.log.load H)) (src : Original α)
    (hv : Example.verify checked kind utf8 st readFuel src world.head .clean) :
    Spec.Vouched src start step M f.rows f.cols data kind.zero := by
  obtain ⟨d, h1, h2, h3⟩ := h
  obtain ⟨v, m, e1, e2, e3⟩ := hs _ _ _ h3.inv hnc
  obtain ⟨v', g1, g2⟩ := h3.first
  have hwf := h3.inv.fits.wf
  have hds : (world.log.load H).getDataset utf8 (H.cidOf (Item.dataset d).bytes) = _ :=
    Store.getDataset_of (Saved.load_mem hnc h2) (d := d)
      ⟨hwf.coord0, hwf.coord1, hwf.coord2, hwf.len, hwf.vars, hwf.rows, hwf.cols, hwf.prev⟩
  change d.variables = _ at g1
  change d.variables.find? _ = _ at e1
  rw [g1, List.find?_cons_of_pos (by simpa using g2)] at e1
  cases e1
  have hcoord : d.coord0 = ⟨Py.ascii "time", .time start step⟩ := (congrArg (·.1) h3.coords).trans hd
  rw [h1] at hv
  unfold Example.verify at hv
  simp only at hv
  rcases hst.getDataset (utf8 := utf8) (H.cidOf (Item.dataset d).bytes) with hp | ⟨_, _, hp⟩
  · rw [hp, hds] at hv
    simp only at hv
    change (match d.variables with | [] => _ | v :: _ => _) at hv
    rw [g1] at hv
    simp only at hv
    cases hm : v.data kind utf8 st with
    | error g => rw [hm] at hv; cases hv
    | ok m' =>
      obtain rfl := Variable.data_part hst e2 hm
      rw [hm] at hv
      simp only at hv
      rw [e3.shape] at hv
      simp only at hv
      intro t ht
      have := verifyFrom_clean hv t (List.mem_range.2 ht)
      exact checkInstant_partly e3.shape (Reads.missing e3 hst) hr hc (hd := by exact hcoord) hl ht (hch := this)
  · rw [hp] at hv
    cases hv

theorem vouched (hx : Fixed H utf8 clog lg fuel readFuel T f Next N) (hs : Serving H utf8 readFuel T f kind data)
    (hr : 0 < f.rows) (hc : 0 < f.cols) (hd : f.coord0 = ⟨Py.ascii "time", .time start step⟩)
    (hl : Spec.Lasts start step N)
    (cmds : List (Cmd × (Nat → Event))) (world : World) (hw : world.head = .missing)
    (hcmds : ∀ c ∈ cmds, c.1.Of Next T f ∧ ∀ i, (c.2 i).Ok True utf8 readFuel)
    (hm : (runs H utf8 clog lg fuel cmds world).head ≠ .missing)
    (hnc : (runs H utf8 clog lg fuel cmds world).log.NoCollision H) :
    ∃ M, M ≤ N ∧ Spec.Serves H utf8 readFuel f kind data (runs H utf8 clog lg fuel cmds world) M ∧
      ∀ (src : Original α),
      (∀ verdict, Example.verify checked kind utf8 ((runs H utf8 clog lg fuel cmds world).log.load H) readFuel src
          (runs H utf8 clog lg fuel cmds world).head verdict ↔
        Spec.Verdict src start step M f.rows f.cols data verdict) ∧
      ∀ st : Store, st.Part ((runs H utf8 clog lg fuel cmds world).log.load H) →
        Example.verify checked kind utf8 st readFuel src (runs H utf8 clog lg fuel cmds world).head .clean →
        Spec.Vouched src start step M f.rows f.cols data kind.zero := by
  obtain ⟨M, -, h1, h2⟩ := runs_state hx cmds world 0 (.inl ⟨hw, rfl⟩) (Nat.zero_le _) hcmds hnc
  have h2 := h2.resolve_left fun h => hm h.1
  have h3 := h2.serves hs hnc
  have hl' : Spec.Lasts start step M := fun t ht => hl t (by omega)
  exact ⟨M, h1, h3, fun src => ⟨h3.verify hr hc hd hl' src, fun st hst hv => h2.vouched hs hnc hr hc hd hl' st hst src hv⟩⟩

/-- C76 after runs of the program, for 32-bit integers: if all objects can be loaded, `verify` finds nothing exactly
if the data set is a beginning of the source. If some cannot, it can only be wrong about cells that are zero in
the source. -/
theorem C76_i32 (a : Nat → Nat → Nat → Int32) (hf : f.Fits utf8 .i32)
    (hset : Settings clog f.k2Levels N f.rows f.cols f.chunkSize f.spanSize)
    (hfuel : 32 ≤ fuel) (hrf : f.k2Levels.length + 34 ≤ readFuel)
    (hd : f.coord0 = ⟨Py.ascii "time", .time start step⟩) (hl : Spec.Lasts start step N)
    (cmds : List (Cmd × (Nat → Event))) (world : World) (hw : world.head = .missing)
    (hcmds : ∀ c ∈ cmds, Spec.From (.i32 a) N f c.1 ∧ ∀ i, (c.2 i).Ok True utf8 readFuel)
    (after : World) (ha : after = runs H utf8 clog lg fuel cmds world) (hm : after.head ≠ .missing)
    (hnc : after.log.NoCollision H) :
    ∃ M, M ≤ N ∧ Spec.Serves H utf8 readFuel f .i32 a after M ∧ ∀ (src : Original Int32),
      (∀ verdict, Example.verify checked .i32 utf8 (after.log.load H) readFuel src after.head verdict ↔
        Spec.Verdict src start step M f.rows f.cols a verdict) ∧
      ∀ st : Store, st.Part (after.log.load H) →
        Example.verify checked .i32 utf8 st readFuel src after.head .clean →
        Spec.Vouched src start step M f.rows f.cols a 0 := by
  subst ha
  exact vouched (fixedInt hf (by decide) (base32 hset a) hfuel hrf) (serving32 (base32 hset a) hrf)
    hset.rows_pos hset.cols_pos hd hl cmds world hw
    (fun c h => ⟨from32 ⟨rfl, rfl⟩ (hcmds c h).1, (hcmds c h).2⟩) hm hnc

/-- C76 for 64-bit integers. Partial as `C70_i64_partial`. -/
theorem C76_i64_partial (a : Nat → Nat → Nat → Int64) (hf : f.Fits utf8 .i64)
    (hint : IntBase clog f.k2Levels a N f.rows f.cols f.chunkSize f.spanSize)
    (hfuel : 32 ≤ fuel) (hrf : f.k2Levels.length + 34 ≤ readFuel)
    (hd : f.coord0 = ⟨Py.ascii "time", .time start step⟩) (hl : Spec.Lasts start step N)
    (cmds : List (Cmd × (Nat → Event))) (world : World) (hw : world.head = .missing)
    (hcmds : ∀ c ∈ cmds, Spec.From (.i64 a) N f c.1 ∧ ∀ i, (c.2 i).Ok True utf8 readFuel)
    (after : World) (ha : after = runs H utf8 clog lg fuel cmds world) (hm : after.head ≠ .missing)
    (hnc : after.log.NoCollision H) :
    ∃ M, M ≤ N ∧ Spec.Serves H utf8 readFuel f .i64 a after M ∧ ∀ (src : Original Int64),
      (∀ verdict, Example.verify checked .i64 utf8 (after.log.load H) readFuel src after.head verdict ↔
        Spec.Verdict src start step M f.rows f.cols a verdict) ∧
      ∀ st : Store, st.Part (after.log.load H) →
        Example.verify checked .i64 utf8 st readFuel src after.head .clean →
        Spec.Vouched src start step M f.rows f.cols a 0 := by
  subst ha
  exact vouched (fixedInt hf (by decide) hint hfuel hrf) (serving64 hint hrf)
    hint.rows_pos hint.cols_pos hd hl cmds world hw
    (fun c h => ⟨from64 ⟨rfl, rfl⟩ (hcmds c h).1, (hcmds c h).2⟩) hm hnc

/-- C76 for floats, rounded or not. Partial as `C70_float_partial`. -/
theorem C76_float_partial {p : Prec} {B : Nat} (a : Nat → Nat → Nat → Flt)
    (hf : f.Fits utf8 p.kind.encoding)
    (hflt : FltBase clog lg f.k2Levels p B (if f.round then some f.bits else none) a N f.rows f.cols f.chunkSize
      f.spanSize)
    (hfuel : 32 ≤ fuel) (hrf : f.k2Levels.length + 34 ≤ readFuel)
    (hd : f.coord0 = ⟨Py.ascii "time", .time start step⟩) (hl : Spec.Lasts start step N)
    (cmds : List (Cmd × (Nat → Event))) (world : World) (hw : world.head = .missing)
    (hcmds : ∀ c ∈ cmds, Spec.From (.flt p a) N f c.1 ∧ ∀ i, (c.2 i).Ok True utf8 readFuel)
    (after : World) (ha : after = runs H utf8 clog lg fuel cmds world) (hm : after.head ≠ .missing)
    (hnc : after.log.NoCollision H) :
    ∃ M, M ≤ N ∧ Spec.Serves H utf8 readFuel f p.kind (fun t r c => (a t r c).rounded B) after M ∧ ∀ (src : Original Flt),
      (∀ verdict, Example.verify checked p.kind utf8 (after.log.load H) readFuel src after.head verdict ↔
        Spec.Verdict src start step M f.rows f.cols (fun t r c => (a t r c).rounded B) verdict) ∧
      ∀ st : Store, st.Part (after.log.load H) →
        Example.verify checked p.kind utf8 st readFuel src after.head .clean →
        Spec.Vouched src start step M f.rows f.cols (fun t r c => (a t r c).rounded B) (.fin 0) := by
  have hz : p.kind.zero = .fin 0 := by cases p <;> rfl
  rw [← hz]
  subst ha
  exact vouched (fixedFlt hf hflt hfuel hrf) (servingFlt hflt hrf)
    hflt.rows_pos hflt.cols_pos hd hl cmds world hw
    (fun c h => ⟨fromFlt ⟨rfl, rfl⟩ (hcmds c h).1, (hcmds c h).2⟩) hm hnc

end

/-! ### Examples -/

/-- The result of a window that is read one part after the other. -/
def windowSeq {α : Type} (kind : Kind α) (utf8 : List Byte → Bool) (st : Store) (fuel : Nat) (m : MMStruct3)
    (bounds : Cube) : Except Fail (List (List (List α))) :=
  match m.checkCube bounds with
  | none => .error .panic
  | some () =>
    match csub bounds.fin bounds.start, csub bounds.bottom bounds.top, csub bounds.right bounds.left with
    | some n, some rows, some cols =>
      let r := m.fillWindowSeq utf8 st false fuel m.fractionalBits bounds
      Kind.finish r.1 (fun q => q.1 < n ∧ q.2.1 < rows ∧ q.2.2.1 < cols) r.2
        ((List.range n).map fun t' => (List.range rows).map fun r' =>
          (List.range cols).map fun c => written kind.zero kind.dec r.1 t' r' c)
    | _, _, _ => .error .panic

theorem windowSeq_possible {α : Type} (kind : Kind α) (utf8 : List Byte → Bool) (st : Store) (fuel : Nat)
    (m : MMStruct3) (bounds : Cube) :
    kind.window utf8 st fuel m bounds (windowSeq kind utf8 st fuel m bounds) := by
  unfold Kind.window windowSeq
  cases m.checkCube bounds with
  | none => exact rfl
  | some u =>
    simp only
    cases csub bounds.fin bounds.start with
    | none => exact rfl
    | some n =>
      cases csub bounds.bottom bounds.top with
      | none => exact rfl
      | some rows =>
        cases csub bounds.right bounds.left with
        | none => exact rfl
        | some cols => exact ⟨_, _, m.has_fillWindow false .., rfl⟩

/-- Whether `verify` finds nothing if windows are read one part after the other. -/
def verifySeq {α : Type} [DecidableEq α] (kind : Kind α) (utf8 : List Byte → Bool) (st : Store) (fuel : Nat)
    (src : Original α) (cid : Cid) : Bool :=
  match st.getDataset utf8 cid with
  | .error _ => false
  | .ok d =>
    match d.variables with
    | [] => false
    | v :: _ =>
      match v.data kind utf8 st with
      | .error _ => false
      | .ok m =>
        match m.shape with
        | none => false
        | some (n, rows, cols) => (List.range n).all fun t =>
          decide (t < src.total) &&
          (match dataTime true d t with
            | .error _ => false
            | .ok x => decide (src.time t = x.count * 1000000000)) &&
          match (windowSeq kind utf8 st fuel m ⟨t, t + 1, 0, rows, 0, cols⟩).bind (Nd.mask [true]) with
          | .error _ => false
          | .ok a => decide (a = src.at t)

theorem verifySeq_clean {α : Type} [DecidableEq α] {kind : Kind α} {utf8 : List Byte → Bool} {st : Store} {fuel : Nat}
    {src : Original α} {cid : Cid} (h : verifySeq kind utf8 st fuel src cid = true) :
    verify true kind utf8 st fuel src (.at cid) .clean := by
  unfold verifySeq at h
  unfold verify
  simp only
  cases hd : st.getDataset utf8 cid with
  | error f => rw [hd] at h; cases h
  | ok d =>
    rw [hd] at h
    simp only at h ⊢
    cases hv : d.variables with
    | nil => rw [hv] at h; cases h
    | cons v rest =>
      rw [hv] at h
      simp only at h ⊢
      cases hm : v.data kind utf8 st with
      | error f => rw [hm] at h; cases h
      | ok m =>
        rw [hm] at h
        simp only at h ⊢
        cases hs : m.shape with
        | none => rw [hs] at h; cases h
        | some s =>
          obtain ⟨n, rows, cols⟩ := s
          rw [hs] at h
          simp only at h ⊢
          refine verifyFrom_of fun t ht => ?_
          have h := List.all_eq_true.1 h t ht
          rw [Bool.and_eq_true, Bool.and_eq_true] at h
          obtain ⟨⟨h1, h2⟩, h3⟩ := h
          unfold checkInstant
          rw [if_neg (by have := of_decide_eq_true h1; omega)]
          cases hdt : dataTime true d t with
          | error f => rw [hdt] at h2; cases h2
          | ok x =>
            rw [hdt] at h2
            simp only at h2 ⊢
            rw [if_neg (not_not.2 (of_decide_eq_true h2))]
            refine ⟨_, (getitem_window hs t _).2 ⟨_, windowSeq_possible .., rfl⟩, ?_⟩
            cases hg : (windowSeq kind utf8 st fuel m ⟨t, t + 1, 0, rows, 0, cols⟩).bind (Nd.mask [true]) with
            | error f => rw [hg] at h3; cases h3
            | ok a =>
              rw [hg] at h3
              exact congrArg Except.ok h3.symm

def timedFactory : Factory := { exampleFactory with coord0 := ⟨Py.ascii "time", .time 1000 60⟩ }

def timedRuns : List (Cmd × (Nat → Event)) := [(.init timedFactory, smooth), (.copy exampleSource none 10, smooth)]

/-- Five instants are copied. -/
def timedWorld : World := runs exampleHash (fun _ => true) exampleClog (fun _ => 0) 32 timedRuns ⟨[], .missing⟩

/-- The source, with the time in nanoseconds. -/
def timedSource : Original Int64 := ⟨exampleGrid, fun t => (1000 + 60 * t) * 1000000000, 7, 4, 4⟩

/-- Another source, in which a quarter of two rasters is zero. -/
def otherSource : Original Int64 :=
  { timedSource with data := fun t r c => if (t = 2 ∨ t = 3) ∧ 2 ≤ r ∧ 2 ≤ c then 0 else exampleGrid t r c }

theorem timedFactory_fits : timedFactory.Fits (fun _ => true) .i64 where
  dataset :=
    { exampleHistory.dataset with
      wf := { exampleHistory.dataset.wf with
        coord0 := ⟨by decide +kernel, rfl, trivial⟩ } }
  «variable» := exampleHistory.fits
  type := rfl

theorem timedRuns_ok : ∀ c ∈ timedRuns, Spec.From (.i64 exampleGrid) 6 timedFactory c.1 ∧
    ∀ i, (c.2 i).Ok True (fun _ => true) 40 := by
  intro c hc
  simp only [timedRuns, List.mem_cons, List.not_mem_nil, or_false] at hc
  rcases hc with rfl | rfl
  · exact ⟨rfl, smooth_ok True⟩
  · exact ⟨exampleCopy_from none 10, smooth_ok True⟩

theorem timedWorld_noCollision : timedWorld.log.NoCollision exampleHash := by
  unfold Saved.NoCollision
  decide +kernel

theorem timed_lasts : Spec.Lasts 1000 60 6 := by
  have : ∀ t : Nat, t < 6 → Fits 64 (t : Int) ∧ Fits 64 ((t : Int) * (60 : Int64).toInt) ∧
      Fits 64 ((1000 : Int64).toInt + (t : Int) * (60 : Int64).toInt) := by
    unfold Fits
    decide +kernel
  exact fun t ht => this t ht

/-- What `C76_i64_partial` says of the example. -/
theorem timed_vouched : ∃ M, M ≤ 6 ∧ Spec.Serves exampleHash (fun _ => true) 40 timedFactory .i64 exampleGrid
      timedWorld M ∧ ∀ (src : Original Int64),
    (∀ verdict, verify true .i64 (fun _ => true) (timedWorld.log.load exampleHash) 40 src timedWorld.head verdict ↔
      Spec.Verdict src 1000 60 M 4 4 exampleGrid verdict) ∧
    ∀ st : Store, st.Part (timedWorld.log.load exampleHash) →
      verify true .i64 (fun _ => true) st 40 src timedWorld.head .clean →
      Spec.Vouched src 1000 60 M 4 4 exampleGrid 0 :=
  C76_i64_partial (f := timedFactory) exampleGrid timedFactory_fits exampleGrid_var.toIntBase (by decide) (by decide)
    rfl timed_lasts timedRuns ⟨[], .missing⟩ rfl timedRuns_ok timedWorld rfl (by decide +kernel)
    timedWorld_noCollision

/-- Nothing is found in what was copied from the source. -/
example : ∀ verdict, verify true .i64 (fun _ => true) (timedWorld.log.load exampleHash) 40 timedSource
    timedWorld.head verdict ↔ verdict = .clean := by
  obtain ⟨M, hM, h1, h2⟩ := timed_vouched
  intro verdict
  have hsame : ∀ t < M, Spec.Dated timedSource 1000 60 t ∧ Spec.Same timedSource 4 4 exampleGrid t := by
    intro t ht
    refine ⟨⟨by change t < 7; omega, ?_⟩, rfl, rfl, fun r c _ _ => rfl⟩
    change (1000 + 60 * (t : Int)) * 1000000000 = ((1000 : Int64).toInt + t * (60 : Int64).toInt) * 1000000000
    rw [show (1000 : Int64).toInt = 1000 by decide, show (60 : Int64).toInt = 60 by decide]
    omega
  rw [(h2 timedSource).1]
  constructor
  · rintro (⟨e, -⟩ | ⟨t, ht, -, g | g⟩)
    · exact e
    · exact absurd (hsame t ht).1 g.1
    · exact absurd (hsame t ht).2 g.2.1
  · exact fun e => .inl ⟨e, hsame⟩

/-- The same with 32-bit integers. -/
def timedFactory32 : Factory := { timedFactory with dtype := .int32 }

def timedSource32 : Source := ⟨.i32 fun t r c => (exampleGrid t r c).toInt32, 5, 4, 4⟩

def timedRuns32 : List (Cmd × (Nat → Event)) :=
  [(.init timedFactory32, smooth), (.copy timedSource32 none 10, smooth)]

def timedWorld32 : World := runs exampleHash (fun _ => true) exampleClog (fun _ => 0) 32 timedRuns32 ⟨[], .missing⟩

theorem timedWorld32_noCollision : timedWorld32.log.NoCollision exampleHash := by
  unfold Saved.NoCollision
  decide +kernel

theorem timedRuns32_ok : ∀ c ∈ timedRuns32, Spec.From (.i32 fun t r c => (exampleGrid t r c).toInt32) 6
    timedFactory32 c.1 ∧ ∀ i, (c.2 i).Ok True (fun _ => true) 40 := by
  intro c hc
  simp only [timedRuns32, List.mem_cons, List.not_mem_nil, or_false] at hc
  rcases hc with rfl | rfl
  · exact ⟨rfl, smooth_ok True⟩
  · exact ⟨⟨rfl, rfl, by decide, fun t r c _ _ _ => by rw [Nat.zero_add]⟩, smooth_ok True⟩

/-- The assumptions of `C76_i32`. -/
example : ∃ M, M ≤ 6 ∧ Spec.Serves exampleHash (fun _ => true) 40 timedFactory32 .i32
        (fun t r c => (exampleGrid t r c).toInt32) timedWorld32 M ∧ ∀ (src : Original Int32),
      (∀ verdict, verify true .i32 (fun _ => true) (timedWorld32.log.load exampleHash) 40 src timedWorld32.head verdict ↔
        Spec.Verdict src 1000 60 M 4 4 (fun t r c => (exampleGrid t r c).toInt32) verdict) ∧
      ∀ st : Store, st.Part (timedWorld32.log.load exampleHash) →
        verify true .i32 (fun _ => true) st 40 src timedWorld32.head .clean →
        Spec.Vouched src 1000 60 M 4 4 (fun t r c => (exampleGrid t r c).toInt32) 0 := by
  exact C76_i32 (f := timedFactory32) _
    ⟨timedFactory_fits.dataset, ⟨by decide, rfl, fun b hb => (nomatch hb), by decide, by decide, by decide, by decide⟩,
      rfl⟩
    ⟨exampleClogOk.mono (by decide), by decide, by decide, by decide, by decide, by decide, by decide, by decide,
      by decide, by decide, ⟨by decide, by decide, by decide⟩⟩ (by decide) (by decide) rfl timed_lasts timedRuns32
    ⟨[], .missing⟩ rfl timedRuns32_ok timedWorld32 rfl (by decide +kernel) timedWorld32_noCollision

/-- C76 is false if an object cannot be loaded: `verify` finds nothing, although the source is another than
the data set was copied from. With all objects it finds that. -/
theorem C76_missing_wrong : ∃ (cid missing : Cid), timedWorld.head = .at cid ∧
    verify true .i64 (fun _ => true) ((timedWorld.log.load exampleHash).without missing) 40 otherSource (.at cid)
      .clean ∧
    (∀ verdict, verify true .i64 (fun _ => true) (timedWorld.log.load exampleHash) 40 otherSource (.at cid) verdict ↔
      verdict = .mismatch 2) := by
  have hex : ∃ cid missing : Cid, timedWorld.head = .at cid ∧ verifySeq .i64 (fun _ => true)
      ((timedWorld.log.load exampleHash).without missing) 40 otherSource cid = true :=
    ⟨.v1 118 870574 [], .v1 164 971696 [], by decide +kernel, by decide +kernel⟩
  obtain ⟨cid, missing, hh, hseq⟩ := hex
  refine ⟨cid, missing, hh, verifySeq_clean hseq, fun verdict => ?_⟩
  obtain ⟨M, hM, h1, h2⟩ := timed_vouched
  have hc := h1.count
  have hM : M = 5 := by
    have : count exampleHash (fun _ => true) timedWorld = some 5 := by decide +kernel
    rw [this] at hc
    exact (Option.some.inj hc).symm
  subst hM
  rw [← hh, (h2 otherSource).1]
  have hdated : ∀ t < 5, Spec.Dated otherSource 1000 60 t := by
    intro t ht
    refine ⟨by change t < 7; omega, ?_⟩
    change (1000 + 60 * (t : Int)) * 1000000000 = ((1000 : Int64).toInt + t * (60 : Int64).toInt) * 1000000000
    rw [show (1000 : Int64).toInt = 1000 by decide, show (60 : Int64).toInt = 60 by decide]
    omega
  have hsame : ∀ t < 2, Spec.Same otherSource 4 4 exampleGrid t := by
    intro t ht
    refine ⟨rfl, rfl, fun r c _ _ => ?_⟩
    change (if (t = 2 ∨ t = 3) ∧ _ then _ else _) = _
    rw [if_neg (by omega)]
  have hother : ¬Spec.Same otherSource 4 4 exampleGrid 2 := by
    intro h
    have := h.2.2 2 2 (by decide) (by decide)
    revert this
    decide +kernel
  constructor
  · rintro (⟨-, h⟩ | ⟨t, ht, g1, g2⟩)
    · exact absurd (h 2 (by decide)).2 hother
    · rcases g2 with g2 | ⟨-, g2, g3⟩
      · exact absurd (hdated t ht) g2.1
      · obtain rfl : t = 2 := by
          rcases Nat.lt_trichotomy t 2 with h | h | h
          · exact absurd (hsame t h) g2
          · exact h
          · exact absurd (g1 2 h).2 hother
        exact g3
  · exact fun e => .inr ⟨2, by decide, fun t ht => ⟨hdated t (by omega), hsame t ht⟩,
      .inr ⟨hdated 2 (by decide), hother, e⟩⟩

end Example
end Verif
