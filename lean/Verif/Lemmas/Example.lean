import Verif.Lemmas.DatasetHistory
import Verif.Model.Example
import Verif.Lemmas.Ls

/-! Reasoning about the runs of the example program. -/
namespace Verif

namespace Example

open Prog (NoCollision.mono Sat)

/-! ### Scripts -/

/-- A script that forgets nothing. -/
def Mono {α : Type} (m : Script α) : Prop := ∀ env s, s.1.log ⊆ (m env s).2.1.log

theorem Mono.pure {α : Type} (a : α) : Mono (Pure.pure a : Script α) := fun _ _ => List.Subset.refl _

theorem Mono.fail {α : Type} (f : Fail) : Mono (Script.fail f : Script α) := fun _ _ => List.Subset.refl _

theorem Mono.bind {α β : Type} {m : Script α} {f : α → Script β} (hm : Mono m) (hf : ∀ a, Mono (f a)) :
    Mono (m >>= f) := by
  intro env s
  change _ ⊆ (Script.bind m f env s).2.1.log
  unfold Script.bind
  have h1 := hm env s
  rcases h : m env s with ⟨_ | a, s'⟩
  · rw [h] at h1; exact h1
  · rw [h] at h1; exact List.Subset.trans h1 (hf a env s')

theorem Mono.head : Mono Script.head := fun _ _ => List.Subset.refl _

theorem Mono.call {α : Type} {p : Fill → Prog α} (h : ∀ fill, Prog.Mono (p fill)) : Mono (Script.call p) := by
  intro env s
  unfold Script.call
  cases env s.2 with
  | breaks extra torn => exact List.subset_append_right _ _
  | goes fill => exact h fill s.1.log

theorem Mono.saveHead (cid : Cid) : Mono (Script.saveHead cid) := by
  intro env s
  unfold Script.saveHead
  cases env s.2 <;> exact List.Subset.refl _

/-- What may happen: reads of the tail are possible, and, if `w`, steps may be broken off, but not while
the head is written. -/
def Event.Ok (w : Prop) (utf8 : List Byte → Bool) (readFuel : Nat) : Event → Prop
  | .goes fill => fill.Valid utf8 readFuel
  | .breaks _ torn => w ∧ torn = false

section
variable {w : Prop} {H : Hash} {utf8 : List Byte → Bool} {readFuel : Nat}

/-- If no two objects collide in the end, the script ends well with `Q` or badly with `E`. -/
def Runs (w : Prop) (H : Hash) (utf8 : List Byte → Bool) (readFuel : Nat) {α : Type} (m : Script α) (world : World)
    (Q : α → World → Prop) (E : World → Prop) : Prop :=
  ∀ env n, (∀ i, (env i).Ok w utf8 readFuel) → (m env (world, n)).2.1.log.NoCollision H →
    (∃ a s, m env (world, n) = (.ok a, s) ∧ Q a s.1) ∨ ∃ f s, m env (world, n) = (.error f, s) ∧ E s.1

theorem Runs.pure {α : Type} {a : α} {world : World} {Q : α → World → Prop} {E : World → Prop}
    (h : Q a world) : Runs w H utf8 readFuel (Pure.pure a : Script α) world Q E :=
  fun _ _ _ _ => .inl ⟨a, _, rfl, h⟩

theorem Runs.fail {α : Type} {f : Fail} {world : World} {Q : α → World → Prop} {E : World → Prop}
    (h : E world) : Runs w H utf8 readFuel (Script.fail f : Script α) world Q E :=
  fun _ _ _ _ => .inr ⟨f, _, rfl, h⟩

theorem Runs.bind {α β : Type} {m : Script α} {f : α → Script β} {world : World} {Q : α → World → Prop}
    {R : β → World → Prop} {E : World → Prop} (hm : Mono m) (hf : ∀ a, Mono (f a))
    (h1 : Runs w H utf8 readFuel m world Q E)
    (h2 : ∀ a world', world.log ⊆ world'.log → Q a world' → Runs w H utf8 readFuel (f a) world' R E) :
    Runs w H utf8 readFuel (m >>= f) world R E := by
  intro env n hev hnc
  have hl := hm env (world, n)
  change Saved.NoCollision H (Script.bind m f env (world, n)).2.1.log at hnc
  change (∃ a s, Script.bind m f env (world, n) = _ ∧ _) ∨ ∃ e s, Script.bind m f env (world, n) = _ ∧ _
  have hsub : (m env (world, n)).2.1.log ⊆ (Script.bind m f env (world, n)).2.1.log := by
    unfold Script.bind
    rcases m env (world, n) with ⟨_ | a, s'⟩
    · exact List.Subset.refl _
    · exact hf a env s'
  rcases h1 env n hev (NoCollision.mono hsub hnc) with ⟨a, s, e, hq⟩ | ⟨e, s, he, hE⟩
  · unfold Script.bind at hnc ⊢
    rw [e] at hnc hl ⊢
    exact h2 a s.1 hl hq env s.2 hev hnc
  · refine .inr ⟨e, s, ?_, hE⟩
    unfold Script.bind
    rw [he]

theorem Runs.imp {α : Type} {m : Script α} {world : World} {Q Q' : α → World → Prop} {E E' : World → Prop}
    (h : Runs w H utf8 readFuel m world Q E) (hQ : ∀ a world, Q a world → Q' a world)
    (hE : ∀ world, E world → E' world) : Runs w H utf8 readFuel m world Q' E' := by
  intro env n hev hnc
  rcases h env n hev hnc with ⟨a, s, e, h⟩ | ⟨f, s, e, h⟩
  · exact .inl ⟨a, s, e, hQ _ _ h⟩
  · exact .inr ⟨f, s, e, hE _ h⟩

theorem Runs.head {world : World} {Q : Head → World → Prop} {E : World → Prop} (h : Q world.head world) :
    Runs w H utf8 readFuel Script.head world Q E := fun _ _ _ _ => .inl ⟨_, _, rfl, h⟩

theorem Runs.call {α : Type} {p : Fill → Prog α} {world : World} {Q : α → World → Prop} {E : World → Prop}
    (hp : ∀ fill, Prog.Mono (p fill))
    (h : ∀ fill : Fill, fill.Valid utf8 readFuel → Sat w H (p fill) world.log fun a log => Q a ⟨log, world.head⟩)
    (hE : w → ∀ log, world.log ⊆ log → E ⟨log, world.head⟩) :
    Runs w H utf8 readFuel (Script.call p) world Q E := by
  intro env n hev hnc
  have hi := hev n
  unfold Script.call at hnc ⊢
  simp only at hnc ⊢
  cases he : env n with
  | breaks extra torn =>
    rw [he] at hi
    exact .inr ⟨_, _, rfl, hE hi.1 _ (List.subset_append_right _ _)⟩
  | goes fill =>
    rw [he] at hi hnc
    rcases h fill hi hnc with ⟨a, log, e, hq⟩ | ⟨hw, f, log, e⟩
    · simp only
      rw [e]
      exact .inl ⟨_, _, rfl, hq⟩
    · simp only
      have := hp fill world.log
      rw [e] at this ⊢
      exact .inr ⟨_, _, rfl, hE hw _ this⟩

theorem Runs.saveHead {cid : Cid} {world : World} {Q : Unit → World → Prop} {E : World → Prop}
    (h : Q () ⟨world.log, .at cid⟩) (hE : w → E world) :
    Runs w H utf8 readFuel (Script.saveHead cid) world Q E := by
  intro env n hev _
  have hi := hev n
  unfold Script.saveHead
  simp only
  cases he : env n with
  | breaks extra torn =>
    rw [he] at hi
    obtain ⟨hw, rfl⟩ := hi
    exact .inr ⟨_, _, rfl, hE hw⟩
  | goes fill => exact .inl ⟨_, _, rfl, h⟩

/-! ### What the head leads to -/

variable {clog : Nat → Nat} {lg : Rat → Int} {fuel : Nat} {T : VarTheory} {levels : List Nat}
  {round : Option Nat} {name : List Byte} {axes : Coordinate × Coordinate × Coordinate}

/-- The chunks of a variable are stored with all their parts, and it can be read. -/
structure Sound (H : Hash) (utf8 : List Byte → Bool) (T : VarTheory) : Prop where
  type : T.enc ≠ .time
  ground : ∃ dep, ∀ log m a n, T.K log m a n → Ground utf8 H log dep (.struct m)

/-- An object that was saved with all its parts. -/
def Safe (H : Hash) (utf8 : List Byte → Bool) (log : Saved) (c : Cid) : Prop :=
  ∃ (dep : Nat) (y : Item), y.bytes ∈ log ∧ c = H.cidOf y.bytes ∧ Ground utf8 H log dep y

theorem Safe.mono {log log' : Saved} {c : Cid} (h : Safe H utf8 log c) (hs : log ⊆ log') : Safe H utf8 log' c := by
  obtain ⟨dep, y, h1, h2, h3⟩ := h
  exact ⟨dep, y, hs h1, h2, h3.mono hs⟩

/-- The coordinates of a data set. -/
def _root_.Verif.Dataset.coords (d : Dataset) : Coordinate × Coordinate × Coordinate :=
  (d.coord0, d.coord1, d.coord2)

/-- The coordinates of the data sets that are made. -/
def Factory.coords (f : Factory) : Coordinate × Coordinate × Coordinate := (f.coord0, f.coord1, f.coord2)

/-- A data set with one variable, which has `M` instants; its earlier versions are stored. -/
structure Held (H : Hash) (utf8 : List Byte → Bool) (T : VarTheory) (levels : List Nat)
    (round : Option Nat) (name : List Byte) (axes : Coordinate × Coordinate × Coordinate) (s : Dataset × Saved) (M : Nat) : Prop where
  inv : HistInv H utf8 T levels round name s M
  first : ∃ v, s.1.variables = [v] ∧ v.name = name
  coords : s.1.coords = axes
  earlier : ∀ c, s.1.prev = some c ∨ s.1.cid = some c → Safe H utf8 s.2 c

/-- The head leads to such a data set. -/
def HeadAt (H : Hash) (utf8 : List Byte → Bool) (T : VarTheory) (levels : List Nat)
    (round : Option Nat) (name : List Byte) (axes : Coordinate × Coordinate × Coordinate) (world : World) (M : Nat) :
    Prop :=
  ∃ d, world.head = .at (H.cidOf (Item.dataset d).bytes) ∧ (Item.dataset d).bytes ∈ world.log ∧
    Held H utf8 T levels round name axes ({ d with cid := some (H.cidOf (Item.dataset d).bytes) }, world.log) M

theorem Held.mono {d : Dataset} {log log' : Saved} {M : Nat} (h : Held H utf8 T levels round name axes (d, log) M)
    (hs : log ⊆ log') : Held H utf8 T levels round name axes (d, log') M := by
  obtain ⟨⟨h1, h2, h3, v, tl, h4, h5, h6, h7⟩, h8, h10, h9⟩ := h
  exact ⟨⟨h1, h2, h3, v, tl, h4, h5, h6, h7.mono hs⟩, h8, h10, fun c hc => (h9 c hc).mono hs⟩

theorem HeadAt.mono {log log' : Saved} {head : Head} {M : Nat}
    (h : HeadAt H utf8 T levels round name axes ⟨log, head⟩ M) (hs : log ⊆ log') :
    HeadAt H utf8 T levels round name axes ⟨log', head⟩ M := by
  obtain ⟨d, h1, h2, h3⟩ := h
  exact ⟨d, h1, hs h2, h3.mono hs⟩

/-- The first variable. -/
theorem Held.var {d : Dataset} {log : Saved} {M : Nat} (h : Held H utf8 T levels round name axes (d, log) M) :
    ∃ v tl, d.variables = [v] ∧ v.name = name ∧ VarInv H T log v M tl := by
  obtain ⟨h1, ⟨v, h2, h3⟩, -, -⟩ := h
  obtain ⟨v', tl, h4, -, -, h5⟩ := h1.var
  change d.variables = _ at h2
  refine ⟨v, tl, h2, h3, ?_⟩
  change d.variables.find? _ = _ at h4
  rw [h2, List.find?_cons_of_pos (by simpa using h3)] at h4
  cases h4
  exact h5

theorem _root_.Verif.VarInv.shape {log : Saved} {v : Variable} {M tl : Nat} (h : VarInv H T log v M tl)
    (henc : T.enc ≠ .time) (hnc : log.NoCollision H) :
    Py.shape utf8 (log.load H) v = .ok (M, T.rows, T.cols) := by
  obtain ⟨-, -, h1, i, root, h2, h3, -⟩ := h
  have h4 := h2.get utf8 hnc
  have h5 := h3.shaped.encoding
  have h6 := h3.shape
  have hd : ∀ {α : Type} (kind : Kind α), kind.encoding = T.enc →
      v.data kind utf8 (log.load H) = .ok (.span root) := by
    intro α kind hk
    unfold Variable.data
    rw [h4]
    simp only
    unfold Kind.new
    have : (MMStruct3.span root).encoding = kind.encoding := h5.trans hk.symm
    rw [this, if_neg (by exact fun h => h rfl)]
  unfold Py.shape Py.data
  rw [h1]
  cases he : T.enc with
  | time => exact absurd he henc
  | i32 =>
    rw [hd .i32 he.symm]
    change Py.unwrap (MMStruct3.span root).shape = _
    rw [h6]; rfl
  | i64 =>
    rw [hd .i64 he.symm]
    change Py.unwrap (MMStruct3.span root).shape = _
    rw [h6]; rfl
  | f32 =>
    rw [hd .f32 he.symm]
    change Py.unwrap (MMStruct3.span root).shape = _
    rw [h6]; rfl
  | f64 =>
    rw [hd .f64 he.symm]
    change Py.unwrap (MMStruct3.span root).shape = _
    rw [h6]; rfl

/-! ### The steps -/

variable {E : World → Prop}

theorem current_mono : Mono (current H utf8) :=
  Mono.head.bind fun h => by
    cases h with
    | missing => exact Mono.fail _
    | lost => exact Mono.fail _
    | «at» cid => exact Mono.call fun _ log => List.Subset.refl log

theorem first_mono (d : Dataset) : Mono (first d) := by
  unfold first
  cases d.variables with
  | nil => exact Mono.fail _
  | cons v vs => exact Mono.pure _

theorem instants_mono (v : Variable) : Mono (instants H utf8 v) := Mono.call fun _ log => List.Subset.refl log

theorem commit_mono (d : Dataset) : Mono (Script.call fun _ => d.commit H) := Mono.call fun _ => Prog.Mono.save H _

theorem publish_mono (d : Dataset) : Mono (publish H d) := (commit_mono d).bind fun cid => Mono.saveHead cid

theorem progress_mono (d : Dataset) (commitEvery commitCount : Nat) :
    Mono (progress H d commitEvery commitCount) := by
  unfold progress
  split
  · exact (publish_mono d).bind fun _ => Mono.pure _
  · exact Mono.pure _

theorem append_mono (d : Dataset) (name : List Byte) (data : NdArray) (n rows cols : Nat) :
    Mono (Script.call fun fill => Py.append H utf8 clog lg fuel fill d name (some data) n rows cols) :=
  Mono.call fun fill => Dataset.append_mono fill d name data n rows cols

theorem current_runs {world : World} {M : Nat} (h : HeadAt H utf8 T levels round name axes world M)
    (hE : w → ∀ log, world.log ⊆ log → E ⟨log, world.head⟩) :
    Runs w H utf8 readFuel (current H utf8) world
      (fun d world' => world' = world ∧ Held H utf8 T levels round name axes (d, world.log) M) E := by
  obtain ⟨d, h1, h2, h3⟩ := h
  refine Runs.bind (Q := fun hd world' => hd = world.head ∧ world' = world) Mono.head (fun h => ?_)
    (Runs.head ⟨rfl, rfl⟩) ?_
  · cases h with
    | missing => exact Mono.fail _
    | lost => exact Mono.fail _
    | «at» cid => exact Mono.call fun _ log => List.Subset.refl log
  · rintro _ world - ⟨rfl, rfl⟩
    rw [h1]
    refine Runs.call (fun _ log => List.Subset.refl log) (fun fill _ hnc => .inl ?_) (h1 ▸ hE)
    change Saved.NoCollision H world.log at hnc
    refine ⟨{ d with cid := some (H.cidOf (Item.dataset d).bytes) }, world.log, ?_, rfl, h3⟩
    change ((world.log.load H).getDataset utf8 _, _) = _
    have hwf : ({ d with cid := some (H.cidOf (Item.dataset d).bytes) } : Dataset).WF utf8 := h3.inv.fits.wf
    rw [Store.getDataset_of (Saved.load_mem hnc h2) (d := d)
      ⟨hwf.coord0, hwf.coord1, hwf.coord2, hwf.len, hwf.vars, hwf.rows, hwf.cols, hwf.prev⟩]

theorem first_runs {world : World} {d : Dataset} {M : Nat}
    (h : Held H utf8 T levels round name axes (d, world.log) M) :
    Runs w H utf8 readFuel (first d) world (fun v world' => world' = world ∧ v.name = name ∧
      ∃ tl, VarInv H T world.log v M tl) E := by
  obtain ⟨v, tl, h1, h2, h3⟩ := h.var
  unfold first
  rw [h1]
  exact Runs.pure ⟨rfl, h2, tl, h3⟩

theorem instants_runs {world : World} {v : Variable} {M tl : Nat} (h : VarInv H T world.log v M tl)
    (henc : T.enc ≠ .time) (hE : w → ∀ log, world.log ⊆ log → E ⟨log, world.head⟩) :
    Runs w H utf8 readFuel (instants H utf8 v) world (fun n world' => world' = world ∧ n = M) E := by
  refine Runs.call (fun _ log => List.Subset.refl log) (fun fill _ hnc => .inl ?_) hE
  change Saved.NoCollision H world.log at hnc
  refine ⟨M, world.log, ?_, rfl, rfl⟩
  rw [h.shape henc hnc]
  rfl

variable {Next : Nat → NdArray → Nat → Prop}

theorem append_runs (ha : Appends w H utf8 clog lg fuel readFuel T levels round Next) {world : World}
    {d : Dataset} {M : Nat} (h : Held H utf8 T levels round name axes (d, world.log) M) {data : NdArray} {n : Nat}
    (hd : Next M data n) (hE : w → ∀ log, world.log ⊆ log → E ⟨log, world.head⟩) :
    Runs w H utf8 readFuel (Script.call fun fill =>
      Py.append H utf8 clog lg fuel fill d name (some data) n T.rows T.cols) world
      (fun d' world' => world'.head = world.head ∧ world.log ⊆ world'.log ∧
        Held H utf8 T levels round name axes (d', world'.log) (M + n)) E := by
  refine Runs.call (fun fill => Dataset.append_mono fill d name data n T.rows T.cols) (fun fill hf hnc => ?_) hE
  have hs := h.inv.append ha hf hd hnc
  have hm := Dataset.append_mono (H := H) (utf8 := utf8) (clog := clog) (lg := lg) (fuel := fuel) fill d name data n
    T.rows T.cols world.log
  have hfit := Op.step_fits (H := H) (clog := clog) (lg := lg) (fuel := fuel)
    (.append fill name data n T.rows T.cols) d world.log h.inv.fits trivial h.inv.fits.wf.len
  rcases hs with ⟨d', log', e, hv⟩ | hf
  · refine .inl ⟨d', log', e, rfl, ?_, ⟨?_, ?_, ?_, hv⟩, ?_, ?_, ?_⟩
    all_goals
      change Dataset.append H utf8 clog lg fuel fill d name data n T.rows T.cols world.log = _ at e
    · rw [e] at hm; exact hm
    · have hstep : (Op.append fill name data n T.rows T.cols).step H utf8 clog lg fuel (d, world.log) =
          (d', log') := by
        unfold Op.step Op.prog
        simp only
        rw [e]
      rw [hstep] at hfit
      change Saved.NoCollision H (Dataset.append H utf8 clog lg fuel fill d name data n T.rows T.cols world.log).2 at hnc
      rw [e] at hnc
      exact (hfit hnc).1
    · obtain ⟨v, v', -, -, rfl⟩ := Dataset.append_post fill d name data n T.rows T.cols _ _ _ e
      exact h.inv.rows
    · obtain ⟨v, v', -, -, rfl⟩ := Dataset.append_post fill d name data n T.rows T.cols _ _ _ e
      exact h.inv.cols
    · obtain ⟨v, v', e1, ⟨c, -, rfl⟩, rfl⟩ := Dataset.append_post fill d name data n T.rows T.cols _ _ _ e
      obtain ⟨v0, e2, e3⟩ := h.first
      change d.variables = _ at e2
      have hn := (Dataset.findVariable_mem e1).2
      refine ⟨{ v with cid := c }, ?_, hn⟩
      change replaceVariable _ d.variables = _
      rw [e2]
      unfold replaceVariable
      rw [if_pos (e3.trans hn.symm)]
    · obtain ⟨v, v', -, -, rfl⟩ := Dataset.append_post fill d name data n T.rows T.cols _ _ _ e
      exact h.coords
    · obtain ⟨v, v', -, -, rfl⟩ := Dataset.append_post fill d name data n T.rows T.cols _ _ _ e
      rw [e] at hm
      rintro c (hc | hc)
      · change d.nextPrev = some c at hc
        unfold Dataset.nextPrev at hc
        refine (h.earlier c ?_).mono hm
        change d.prev = some c ∨ d.cid = some c
        cases hd : d.cid with
        | none => rw [hd] at hc; exact .inl hc
        | some c' => rw [hd] at hc; exact .inr hc
      · cases hc
  · exact .inr hf

/-- What is committed is stored with all its parts. -/
theorem Held.safe (hT : Sound H utf8 T) {d : Dataset} {log : Saved} {M : Nat}
    (h : Held H utf8 T levels round name axes (d, log) M) (hm : (Item.dataset d).bytes ∈ log) :
    Safe H utf8 log (H.cidOf (Item.dataset d).bytes) := by
  obtain ⟨dep, hK⟩ := hT.ground
  obtain ⟨v, tl, h1, -, h2⟩ := h.var
  obtain ⟨-, -, -, i, root, h3, h4, -⟩ := h2
  have hv := Tree.ground (T := T) (hK log) _ _ _ _ _ h4 h3.wf
  have hp : ∃ dep', ∀ c, d.prev = some c → ∃ y : Item, y.bytes ∈ log ∧ c = H.cidOf y.bytes ∧ Ground utf8 H log dep' y := by
    cases hd : d.prev with
    | none => exact ⟨0, fun c hc => by cases hc⟩
    | some c =>
      obtain ⟨dep', y, g1, g2, g3⟩ := h.earlier c (.inl hd)
      exact ⟨dep', fun c' hc => by cases hc; exact ⟨y, g1, g2, g3⟩⟩
  obtain ⟨dep', hp⟩ := hp
  refine ⟨max (dep + i + 1) dep' + 1, .dataset d, hm, rfl, h.inv.fits.wf, trivial, fun e he => ?_⟩
  change e ∈ d.variables.map _ ++ _ at he
  rw [h1, List.map_singleton, List.mem_append, List.mem_singleton] at he
  rcases he with rfl | he
  · exact ⟨_, h3.mem, h3.cid.symm, hv.deeper (Nat.le_max_left ..)⟩
  · cases hd : d.prev with
    | none => rw [hd] at he; cases he
    | some c =>
      rw [hd] at he
      rw [List.mem_singleton] at he
      subst he
      obtain ⟨y, g1, g2, g3⟩ := hp c hd
      exact ⟨y, g1, g2, g3.deeper (Nat.le_max_right ..)⟩

theorem publish_runs (hT : Sound H utf8 T) {world : World} {d : Dataset} {M : Nat}
    (h : Held H utf8 T levels round name axes (d, world.log) M)
    (hE : w → ∀ log, world.log ⊆ log → E ⟨log, world.head⟩) :
    Runs w H utf8 readFuel (publish H d) world
      (fun _ world' => world.log ⊆ world'.log ∧ HeadAt H utf8 T levels round name axes world' M) E := by
  refine Runs.bind (Q := fun cid world' => cid = H.cidOf (Item.dataset d).bytes ∧
      world' = ⟨(Item.dataset d).bytes :: world.log, world.head⟩) (commit_mono d) (fun _ => Mono.saveHead _)
    (Runs.call (fun _ => Prog.Mono.save H _) (fun fill _ _ => .inl ⟨_, _, rfl, rfl, rfl⟩) hE) ?_
  rintro _ _ hs ⟨rfl, rfl⟩
  refine Runs.saveHead ⟨hs, d, rfl, List.mem_cons_self .., ?_⟩ fun hw => hE hw _ hs
  have hsafe := (h.mono hs).safe hT (List.mem_cons_self ..)
  obtain ⟨⟨h1, h2, h3, h4⟩, h5, h7, h6⟩ := h.mono hs
  refine ⟨⟨⟨⟨h1.wf.coord0, h1.wf.coord1, h1.wf.coord2, h1.wf.len, h1.wf.vars, h1.wf.rows, h1.wf.cols,
    h1.wf.prev⟩, fun c hc => ?_⟩, h2, h3, h4⟩, h5, h7, fun c hc => ?_⟩
  rotate_left
  · rcases hc with hc | hc
    · exact h6 c (.inl hc)
    · cases hc
      exact hsafe
  have : H.cidOf (Item.dataset d).bytes = c := Option.some.inj hc
  exact this ▸ H.valid _

/-! ### Copying -/

/-- The source is a beginning of what can be appended. -/
structure Source.Of (Next : Nat → NdArray → Nat → Prop) (T : VarTheory) (src : Source) : Prop where
  rows : src.rows = T.rows
  cols : src.cols = T.cols
  next : ∀ i n, i + n ≤ src.total → Next i (src.data.from i) n

/-- How a run that started with `M` instants and has `hi` in the end may break off. -/
def Broken (w : Prop) (H : Hash) (utf8 : List Byte → Bool) (T : VarTheory) (levels : List Nat)
    (round : Option Nat) (name : List Byte) (axes : Coordinate × Coordinate × Coordinate) (M hi : Nat) (world : World) : Prop :=
  w ∧ ∃ M', M ≤ M' ∧ M' ≤ hi ∧ HeadAt H utf8 T levels round name axes world M'

theorem Broken.of {M M' hi : Nat} {world : World} (h : HeadAt H utf8 T levels round name axes world M') (hM : M ≤ M')
    (hhi : M' ≤ hi) (hw : w) (log : Saved) (hs : world.log ⊆ log) :
    Broken w H utf8 T levels round name axes M hi ⟨log, world.head⟩ :=
  ⟨hw, M', hM, hhi, HeadAt.mono (log := world.log) h hs⟩

/-- The state of the loop: `M` instants are in the data set. -/
structure LoopInv (H : Hash) (utf8 : List Byte → Bool) (T : VarTheory) (levels : List Nat)
    (round : Option Nat) (name : List Byte) (axes : Coordinate × Coordinate × Coordinate) (M0 M : Nat)
    (remaining : Int) (s : CopyState) (world : World) : Prop where
  held : Held H utf8 T levels round name axes (s.dataset, world.log) M
  dst : s.dst.name = name
  var : ∃ tl, VarInv H T world.log s.dst M tl
  remaining : s.remaining = remaining
  le : M0 ≤ M
  head : ∃ M', M0 ≤ M' ∧ M' ≤ M ∧ HeadAt H utf8 T levels round name axes world M'

theorem copyStep_mono (src : Source) (commitEvery : Nat) (s : CopyState) (index : Nat) :
    Mono (copyStep H utf8 clog lg fuel src commitEvery s index) :=
  Mono.bind (append_mono _ _ _ _ _ _) fun d => (progress_mono d _ _).bind fun _ =>
    (first_mono d).bind fun v => (instants_mono v).bind fun _ => Mono.pure _

theorem loop_mono {σ : Type} {f : σ → Nat → Script σ} (hf : ∀ s i, Mono (f s i)) : ∀ (is : List Nat) (s : σ),
    Mono (loop f s is) := by
  intro is
  induction is with
  | nil => exact fun s => Mono.pure _
  | cons i is ih => exact fun s => (hf s i).bind fun s => ih s

theorem copyStep_runs (ha : Appends w H utf8 clog lg fuel readFuel T levels round Next) (hT : Sound H utf8 T)
    {src : Source} (hsrc : src.Of Next T) (commitEvery : Nat) {M0 M : Nat} {rem : Int} {s : CopyState}
    {world : World} (h : LoopInv H utf8 T levels round name axes M0 M rem s world) (hM : M ≤ src.total) :
    Runs w H utf8 readFuel (copyStep H utf8 clog lg fuel src commitEvery s M) world
      (LoopInv H utf8 T levels round name axes M0 (min (M + T.cs) src.total) (rem - T.cs))
      (Broken w H utf8 T levels round name axes M0 src.total) := by
  obtain ⟨h1, h2, ⟨tl, h3⟩, h4, h0, M1, h5, h5', h6⟩ := h
  unfold copyStep
  rw [h3.chunkSize, h2, hsrc.rows, hsrc.cols, h4]
  refine Runs.bind (append_mono _ _ _ _ _ _) (fun d => (progress_mono d _ _).bind fun _ =>
      (first_mono d).bind fun v => (instants_mono v).bind fun _ => Mono.pure _)
    (append_runs ha h1 (hsrc.next M _ (by omega)) (Broken.of h6 h5 (by omega))) ?_
  rintro d world1 - ⟨e1, e2, e3⟩
  rw [show M + (min (M + T.cs) src.total - M) = min (M + T.cs) src.total by omega] at e3
  have h6' : HeadAt H utf8 T levels round name axes world1 M1 := by
    have := HeadAt.mono (log := world.log) (log' := world1.log) h6 e2
    rw [← e1] at this
    exact this
  refine Runs.bind (Q := fun _ world' => Held H utf8 T levels round name axes (d, world'.log) (min (M + T.cs) src.total) ∧
      ∃ M', M0 ≤ M' ∧ M' ≤ min (M + T.cs) src.total ∧ HeadAt H utf8 T levels round name axes world' M') (progress_mono d _ _) (fun _ =>
        (first_mono d).bind fun v => (instants_mono v).bind fun _ => Mono.pure _) ?_ ?_
  · unfold progress
    split
    · refine Runs.bind (publish_mono d) (fun _ => Mono.pure _) (publish_runs hT e3 (Broken.of h6' h5 (by omega))) ?_
      rintro _ world2 - ⟨f1, f2⟩
      exact Runs.pure ⟨e3.mono f1, _, Nat.le_min.2 ⟨by omega, by omega⟩, Nat.le_refl _, f2⟩
    · exact Runs.pure ⟨e3, M1, h5, by omega, h6'⟩
  · rintro cc world2 - ⟨f1, M2, f2, f2', f3⟩
    refine Runs.bind (first_mono d) (fun v => (instants_mono v).bind fun _ => Mono.pure _) (first_runs f1) ?_
    rintro v world2 - ⟨rfl, g1, tl', g2⟩
    refine Runs.bind (instants_mono v) (fun _ => Mono.pure _) (instants_runs g2 hT.type (Broken.of f3 f2 (by omega))) ?_
    rintro _ world2 - ⟨rfl, rfl⟩
    exact Runs.pure ⟨f1, g1, ⟨tl', g2⟩, rfl, by omega, M2, f2, f2', f3⟩

theorem loop_runs (ha : Appends w H utf8 clog lg fuel readFuel T levels round Next) (hT : Sound H utf8 T)
    {src : Source} (hsrc : src.Of Next T) (commitEvery : Nat) {M0 : Nat} : ∀ (k M : Nat) (rem : Int)
    (s : CopyState) (world : World), LoopInv H utf8 T levels round name axes M0 M rem s world → M ≤ src.total →
    M + (k - 1) * T.cs ≤ src.total →
    Runs w H utf8 readFuel (loop (copyStep H utf8 clog lg fuel src commitEvery) s
      ((List.range k).map fun i => M + i * T.cs)) world
      (LoopInv H utf8 T levels round name axes M0 (min (M + k * T.cs) src.total) (rem - (k * T.cs : Nat)))
      (Broken w H utf8 T levels round name axes M0 src.total) := by
  intro k
  induction k with
  | zero =>
    intro M rem s world h hM _
    rw [Nat.zero_mul, Nat.add_zero, Nat.min_eq_left hM]
    exact Runs.pure (by simpa using h)
  | succ k ih =>
    intro M rem s world h hM hk
    rw [List.range_succ_eq_map, List.map_cons, List.map_map, Nat.zero_mul, Nat.add_zero]
    refine Runs.bind (copyStep_mono _ _ _ _) (fun s => loop_mono (fun s i => copyStep_mono _ _ _ _) _ s)
      (copyStep_runs ha hT hsrc commitEvery h hM) ?_
    intro s' world' _ h'
    rw [Nat.add_sub_cancel] at hk
    have := ih _ _ s' world' h' (Nat.min_le_right ..) (by
      cases k with
      | zero => rw [Nat.zero_sub, Nat.zero_mul, Nat.add_zero]; exact Nat.min_le_right ..
      | succ k =>
        rw [Nat.add_sub_cancel]
        rw [Nat.succ_mul] at hk
        generalize k * T.cs = x at hk ⊢
        omega)
    have hlist : (List.range k).map ((fun i => M + i * T.cs) ∘ Nat.succ) =
        (List.range k).map fun i => min (M + T.cs) src.total + i * T.cs := by
      cases k with
      | zero => rfl
      | succ k =>
        rw [Nat.succ_mul] at hk
        have : min (M + T.cs) src.total = M + T.cs := by
          generalize k * T.cs = x at hk
          omega
        rw [this]
        refine List.map_congr_left fun i _ => ?_
        simp only [Function.comp, Nat.succ_mul]
        omega
    rw [hlist]
    have e1 : min (min (M + T.cs) src.total + k * T.cs) src.total = min (M + (k + 1) * T.cs) src.total := by
      rw [Nat.succ_mul]
      generalize k * T.cs = x
      omega
    have e2 : rem - T.cs - (k * T.cs : Nat) = rem - ((k + 1) * T.cs : Nat) := by
      rw [Nat.succ_mul]
      generalize k * T.cs = x
      omega
    rw [e1, e2] at this
    exact this

theorem toCopy_le (limit : Option Int) (remaining : Int) : toCopy limit remaining ≤ remaining := by
  cases limit with
  | none => exact Int.le_refl _
  | some n => exact Int.min_le_right ..

/-- The least number of chunks with `n` instants. -/
def chunks (n cs : Nat) : Nat := (n + cs - 1) / cs

theorem chunks_ge {n cs : Nat} (h : 1 ≤ cs) : n ≤ chunks n cs * cs := by
  unfold chunks
  have h1 := Nat.div_add_mod (n + cs - 1) cs
  have h2 := Nat.mod_lt (n + cs - 1) h
  rw [Nat.mul_comm] at h1
  generalize (n + cs - 1) / cs * cs = x at h1 ⊢
  omega

theorem chunks_lt {n cs : Nat} (h : 1 ≤ cs) : (chunks n cs - 1) * cs ≤ n := by
  unfold chunks
  rcases Nat.eq_zero_or_pos ((n + cs - 1) / cs) with e | e
  · rw [e, Nat.zero_sub, Nat.zero_mul]
    exact Nat.zero_le _
  · have h1 := Nat.div_mul_le_self (n + cs - 1) cs
    rw [Nat.sub_mul, Nat.one_mul]
    generalize (n + cs - 1) / cs * cs = x at h1 ⊢
    omega

theorem nubbin_mono (src : Source) (s : CopyState) : Mono (nubbin H utf8 clog lg fuel src s) := by
  unfold nubbin
  split
  · exact Mono.bind (instants_mono _) fun _ => append_mono _ _ _ _ _ _
  · exact Mono.pure _

theorem copyFrom_mono (src : Source) (limit : Option Int) (commitEvery : Nat) (d : Dataset) (v : Variable)
    (n : Nat) : Mono (copyFrom H utf8 clog lg fuel src limit commitEvery d v n) := by
  unfold copyFrom
  simp only
  split
  · exact Mono.fail _
  · split
    · exact Mono.fail _
    · exact Mono.bind (loop_mono (fun s i => copyStep_mono _ _ _ _) _ _) fun s => (nubbin_mono src s).bind fun d =>
        publish_mono d

theorem addAt_mono (start : Int) (data : NdArray) (n rows cols : Nat) (d : Dataset) (v : Variable) (m : Nat) :
    Mono (addAt H utf8 clog lg fuel start data n rows cols d v m) := by
  unfold addAt
  split
  · exact Mono.pure _
  · exact Mono.bind (append_mono _ _ _ _ _ _) fun d => publish_mono d

theorem copy_mono (src : Source) (limit : Option Int) (commitEvery : Nat) :
    Mono (copy H utf8 clog lg fuel src limit commitEvery) :=
  Mono.bind current_mono fun d => (first_mono d).bind fun v => (instants_mono v).bind fun n =>
    copyFrom_mono _ _ _ _ _ _

theorem add_mono (start : Int) (data : NdArray) (n rows cols : Nat) :
    Mono (add H utf8 clog lg fuel start data n rows cols) :=
  Mono.bind current_mono fun d => (first_mono d).bind fun v => (instants_mono v).bind fun n =>
    addAt_mono _ _ _ _ _ _ _ _

theorem copy_runs (ha : Appends w H utf8 clog lg fuel readFuel T levels round Next) (hT : Sound H utf8 T)
    {src : Source} (hsrc : src.Of Next T) (limit : Option Int) (commitEvery : Nat) {M : Nat} {world : World}
    (h : HeadAt H utf8 T levels round name axes world M) :
    Runs w H utf8 readFuel (copy H utf8 clog lg fuel src limit commitEvery) world
      (fun _ world' => M < src.total ∧ HeadAt H utf8 T levels round name axes world'
        (min (M + chunks (toCopy limit (src.total - M)).toNat T.cs * T.cs) src.total))
      (fun world' => (w ∨ src.total ≤ M) ∧ ∃ M', M ≤ M' ∧ M' ≤ max M src.total ∧
        HeadAt H utf8 T levels round name axes world' M') := by
  have hE : w → ∀ log, world.log ⊆ log →
      (fun world' => (w ∨ src.total ≤ M) ∧ ∃ M', M ≤ M' ∧ M' ≤ max M src.total ∧
        HeadAt H utf8 T levels round name axes world' M')
        ⟨log, world.head⟩ := fun hw log hs => ⟨.inl hw, M, Nat.le_refl _, Nat.le_max_left .., HeadAt.mono (log := world.log) h hs⟩
  refine Runs.bind current_mono (fun d => (first_mono d).bind fun v => (instants_mono v).bind fun n =>
    copyFrom_mono _ _ _ _ _ _) (current_runs h hE) ?_
  rintro d world - ⟨rfl, h1⟩
  refine Runs.bind (first_mono d) (fun v => (instants_mono v).bind fun n => copyFrom_mono _ _ _ _ _ _)
    (first_runs h1) ?_
  rintro v world - ⟨rfl, h2, tl, h3⟩
  refine Runs.bind (instants_mono v) (fun n => copyFrom_mono _ _ _ _ _ _) (instants_runs h3 hT.type hE) ?_
  rintro M world - ⟨rfl, rfl⟩
  unfold copyFrom
  simp only
  have hcs := T.cs_pos
  by_cases hM : src.total ≤ M
  · rw [if_pos (by omega)]
    exact Runs.fail ⟨.inr hM, M, Nat.le_refl _, Nat.le_max_left .., h⟩
  · rw [if_neg (by omega), h3.chunkSize, if_neg (by omega)]
    have hle := toCopy_le limit (src.total - M)
    have hloop := loop_runs ha hT hsrc commitEvery (chunks (toCopy limit (src.total - M)).toNat T.cs) M
      (toCopy limit (src.total - M)) ⟨d, v, toCopy limit (src.total - M), commitEvery⟩ world
      ⟨h1, h2, ⟨tl, h3⟩, rfl, Nat.le_refl _, M, Nat.le_refl _, Nat.le_refl _, h⟩ (by omega) (by
        have := chunks_lt (n := (toCopy limit (src.total - M)).toNat) hcs
        generalize (chunks (toCopy limit (src.total - M)).toNat T.cs - 1) * T.cs = x at this ⊢
        omega)
    have hge := chunks_ge (n := (toCopy limit (src.total - M)).toNat) hcs
    refine Runs.bind (loop_mono (fun s i => copyStep_mono _ _ _ _) _ _) (fun s => (nubbin_mono src s).bind fun d =>
      publish_mono d) (Runs.imp hloop (fun _ _ h => h) fun world' hb => by
        obtain ⟨hw, M', b1, b2, b3⟩ := hb
        exact ⟨.inl hw, M', b1, by omega, b3⟩) ?_
    rintro s world' - ⟨f1, f2, f3, f4, f5, M1, f6, f6', f7⟩
    unfold nubbin
    rw [if_neg (by omega)]
    refine Runs.bind (Q := fun d world'' => d = s.dataset ∧ world'' = world') (Mono.pure _)
      (fun d => publish_mono d) (Runs.pure ⟨rfl, rfl⟩) ?_
    rintro _ world' - ⟨rfl, rfl⟩
    refine Runs.imp (publish_runs hT f1 (E := fun world' => w ∧ ∃ M', M ≤ M' ∧ M' ≤ max M src.total ∧
      HeadAt H utf8 T levels round name axes world' M')
      (fun hw log hs => ⟨hw, M1, f6, by omega, HeadAt.mono (log := world'.log) f7 hs⟩))
      (fun _ world'' hq => ⟨by omega, hq.2⟩) fun world'' hb => ⟨.inl hb.1, hb.2⟩

theorem add_runs (ha : Appends w H utf8 clog lg fuel readFuel T levels round Next) (hT : Sound H utf8 T)
    {M : Nat} {world : World} (h : HeadAt H utf8 T levels round name axes world M) (start : Int)
    (data : NdArray) (n : Nat) (hd : start = M → Next M data n) :
    Runs w H utf8 readFuel (add H utf8 clog lg fuel start data n T.rows T.cols) world
      (fun _ world' => HeadAt H utf8 T levels round name axes world' (if start = M then M + n else M))
      (fun world' => w ∧ HeadAt H utf8 T levels round name axes world' M) := by
  have hE : w → ∀ log, world.log ⊆ log → (fun world' => w ∧ HeadAt H utf8 T levels round name axes world' M)
        ⟨log, world.head⟩ := fun hw log hs => ⟨hw, HeadAt.mono (log := world.log) h hs⟩
  refine Runs.bind current_mono (fun d => (first_mono d).bind fun v => (instants_mono v).bind fun n =>
    addAt_mono _ _ _ _ _ _ _ _) (current_runs h hE) ?_
  rintro d world - ⟨rfl, h1⟩
  refine Runs.bind (first_mono d) (fun v => (instants_mono v).bind fun n => addAt_mono _ _ _ _ _ _ _ _)
    (first_runs h1) ?_
  rintro v world - ⟨rfl, h2, tl, h3⟩
  refine Runs.bind (instants_mono v) (fun n => addAt_mono _ _ _ _ _ _ _ _) (instants_runs h3 hT.type hE) ?_
  rintro M world - ⟨rfl, rfl⟩
  unfold addAt
  by_cases hs : start = M
  · rw [if_neg (by simpa using hs), if_pos hs, h2]
    refine Runs.bind (append_mono _ _ _ _ _ _) (fun d => publish_mono d) (append_runs ha h1 (hd hs) hE) ?_
    rintro d' world' hsub ⟨e1, e2, e3⟩
    refine Runs.imp (publish_runs hT (E := fun world' => w ∧ HeadAt H utf8 T levels round name axes world' M) e3
      (fun hw log hl => ?_)) (fun _ _ hq => hq.2) fun _ h => h
    rw [e1]
    exact hE hw log (List.Subset.trans e2 hl)
  · rw [if_pos hs, if_neg hs]
    exact Runs.pure h

/-! ### Runs -/

/-- The limits of the format for what `init` makes, and the type of the variable. -/
structure Factory.Fits (utf8 : List Byte → Bool) (f : Factory) (enc : MMEncoding) : Prop where
  dataset : (Dataset.new f.coord0 f.coord1 f.coord2 f.rows f.cols).Fits utf8
  «variable» : (Op.addVariable f.name (if f.round then some f.bits else none) f.spanSize f.chunkSize f.k2Levels
    enc).Fits utf8
  type : f.dtype.code = some enc.toByte

theorem ofByte_toByte (enc : MMEncoding) : MMEncoding.ofByte enc.toByte = some enc := by cases enc <;> rfl

theorem Py_addVariable_eq {f : Factory} {enc : MMEncoding} (hf : f.Fits utf8 enc) (d : Dataset) :
    Py.addVariable H d f.name f.spanSize f.chunkSize f.k2Levels f.round f.bits f.dtype =
      d.addVariable H f.name (if f.round then some f.bits else none) f.spanSize f.chunkSize f.k2Levels enc := by
  unfold Py.addVariable
  rw [hf.type]
  simp only
  rw [ofByte_toByte]

theorem init_mono (f : Factory) : Mono (init H f) := by
  refine Mono.bind Mono.head fun h => ?_
  split
  · exact Mono.fail _
  · refine Mono.bind (Mono.call fun _ => ?_) fun d => publish_mono d
    unfold Py.addVariable
    split
    · exact Prog.Mono.fail _
    · split
      · exact Prog.Mono.fail _
      · exact (Prog.Mono.save H _).bind fun _ => Prog.Mono.pure _

theorem init_runs (hT : Sound H utf8 T) {f : Factory} (hf : f.Fits utf8 T.enc) (hr : f.rows = T.rows) (hc : f.cols = T.cols)
    (hss : f.spanSize = T.ss) (hcs : f.chunkSize = T.cs) {world : World} (h : world.head = .missing) :
    Runs w H utf8 readFuel (init H f) world
      (fun _ world' => HeadAt H utf8 T f.k2Levels (if f.round then some f.bits else none) f.name f.coords world' 0)
      (fun world' => w ∧ world'.head = .missing) := by
  refine Runs.bind (Q := fun hd world' => hd = .missing ∧ world' = world) Mono.head (fun h => ?_)
    (Runs.head ⟨h, rfl⟩) ?_
  · split
    · exact Mono.fail _
    · refine Mono.bind (Mono.call fun _ => ?_) fun d => publish_mono d
      unfold Py.addVariable
      split
      · exact Prog.Mono.fail _
      · split
        · exact Prog.Mono.fail _
        · exact (Prog.Mono.save H _).bind fun _ => Prog.Mono.pure _
  rintro _ world - ⟨rfl, rfl⟩
  rw [if_neg (by simp)]
  rw [Py_addVariable_eq hf]
  have hm : Prog.Mono ((Dataset.new f.coord0 f.coord1 f.coord2 f.rows f.cols).addVariable H f.name
      (if f.round then some f.bits else none) f.spanSize f.chunkSize f.k2Levels T.enc) :=
    (Prog.Mono.save H _).bind fun _ => Prog.Mono.pure _
  refine Runs.bind (Q := fun d world' => world'.head = .missing ∧
      Held H utf8 T f.k2Levels (if f.round then some f.bits else none) f.name f.coords (d, world'.log) 0)
    (Mono.call fun _ => hm) (fun d => publish_mono d)
    (Runs.call (fun _ => hm) (fun fill _ hnc => .inl ?_) fun hw log _ => ⟨hw, h⟩) ?_
  · have hvar := hf.variable
    rw [hss, hcs] at hvar
    have := HistInv.start (H := H) (clog := fun _ => 0) (lg := fun _ => 0) (fuel := 0) (log := world.log)
      (round := if f.round then some f.bits else none) (levels := f.k2Levels) (name := f.name) T hf.dataset hr hc
      rfl hvar (by change 0 + 1 < 256; omega) (by rw [← hss, ← hcs]; exact hnc)
    rw [← hss, ← hcs] at this
    exact ⟨_, _, rfl, h, this, ⟨_, rfl, rfl⟩, rfl, fun c hc => by rcases hc with hc | hc <;> cases hc⟩
  · rintro d world' - ⟨e1, e2⟩
    refine Runs.imp (publish_runs hT (E := fun world' => w ∧ world'.head = .missing) e2 fun hw log hl => ⟨hw, e1⟩)
      (fun _ _ hq => hq.2) fun _ h => h

/-- A run with `init` of the data set `f`, or with arrays that can be appended. -/
def Cmd.Of (Next : Nat → NdArray → Nat → Prop) (T : VarTheory) (f : Factory) : Cmd → Prop
  | .init f' => f' = f
  | .copy src _ _ => src.Of Next T
  | .add start data n rows cols => rows = T.rows ∧ cols = T.cols ∧ ∀ M : Nat, start = M → Next M data n

/-- Before `init`, or `M` instants. -/
def State (H : Hash) (utf8 : List Byte → Bool) (T : VarTheory) (f : Factory) (world : World) (M : Nat) : Prop :=
  world.head = .missing ∧ M = 0 ∨
    HeadAt H utf8 T f.k2Levels (if f.round then some f.bits else none) f.name f.coords world M

theorem Cmd.script_mono (cmd : Cmd) : Mono (cmd.script H utf8 clog lg fuel) := by
  cases cmd with
  | init f => exact init_mono f
  | copy src limit commitEvery => exact copy_mono src limit commitEvery
  | add start data n rows cols => exact add_mono start data n rows cols

theorem runs_mono : ∀ (cmds : List (Cmd × (Nat → Event))) (world : World),
    world.log ⊆ (runs H utf8 clog lg fuel cmds world).log := by
  intro cmds
  induction cmds with
  | nil => exact fun world => List.Subset.refl _
  | cons c cs ih => exact fun world => List.Subset.trans (Cmd.script_mono c.1 c.2 (world, 0)) (ih _)

theorem runs_append (c1 c2 : List (Cmd × (Nat → Event))) (world : World) :
    runs H utf8 clog lg fuel (c1 ++ c2) world = runs H utf8 clog lg fuel c2 (runs H utf8 clog lg fuel c1 world) := by
  induction c1 generalizing world with
  | nil => rfl
  | cons c cs ih => exact ih _

/-- What is fixed about a data set and its source. -/
structure Fixed (H : Hash) (utf8 : List Byte → Bool) (clog : Nat → Nat) (lg : Rat → Int) (fuel readFuel : Nat)
    (T : VarTheory) (f : Factory) (Next : Nat → NdArray → Nat → Prop) (N : Nat) : Prop where
  fits : f.Fits utf8 T.enc
  rows : f.rows = T.rows
  cols : f.cols = T.cols
  ss : f.spanSize = T.ss
  cs : f.chunkSize = T.cs
  sound : Sound H utf8 T
  le : ∀ M data n, Next M data n → M + n ≤ N
  appends : Appends True H utf8 clog lg fuel readFuel T f.k2Levels (if f.round then some f.bits else none) Next

/-- A script that fails at once and changes nothing. -/
def Stuck {α : Type} (m : Script α) (world : World) : Prop :=
  ∀ env n, ∃ f n', m env (world, n) = (.error f, (world, n'))

theorem Stuck.bind {α β : Type} {m : Script α} {world : World} (h : Stuck m world) (f : α → Script β) :
    Stuck (m >>= f) world := by
  intro env n
  obtain ⟨e, n', he⟩ := h env n
  refine ⟨e, n', ?_⟩
  change Script.bind m f env (world, n) = _
  unfold Script.bind
  rw [he]

theorem Stuck.runs {α : Type} {m : Script α} {world : World} (h : Stuck m world) {Q : α → World → Prop} :
    Runs w H utf8 readFuel m world Q fun world' => world' = world := by
  intro env n _ _
  obtain ⟨f, n', e⟩ := h env n
  exact .inr ⟨f, _, e, rfl⟩

theorem current_stuck {world : World} (h : ∀ cid, world.head ≠ .at cid) : Stuck (current H utf8) world := by
  intro env n
  have : current H utf8 env (world, n) = (match world.head with
    | .missing => Script.fail (.err (.py .exit))
    | .lost => Script.fail (.err .cid)
    | .at cid => Script.call fun _ => Prog.getDataset H utf8 cid : Script Dataset) env (world, n) := rfl
  rw [this]
  cases hh : world.head with
  | missing => exact ⟨_, n, rfl⟩
  | lost => exact ⟨_, n, rfl⟩
  | «at» cid => exact absurd hh (h cid)

theorem init_stuck {world : World} (h : world.head ≠ .missing) (f : Factory) : Stuck (init H f) world := by
  intro env n
  refine ⟨.err (.py .exit), n, ?_⟩
  unfold init
  change (if world.head ≠ .missing then Script.fail (.err (.py .exit)) else _ : Script Unit) env (world, n) = _
  rw [if_pos h]
  rfl

theorem Cmd.run_state {f : Factory} {N : Nat} (hx : Fixed H utf8 clog lg fuel readFuel T f Next N) {world : World}
    {M : Nat} (h : State H utf8 T f world M) (hM : M ≤ N) (cmd : Cmd) (hcmd : cmd.Of Next T f) (env : Nat → Event)
    (henv : ∀ i, (env i).Ok True utf8 readFuel)
    (hnc : (cmd.run H utf8 clog lg fuel env world).1.log.NoCollision H) :
    ∃ M', M ≤ M' ∧ M' ≤ N ∧ State H utf8 T f (cmd.run H utf8 clog lg fuel env world).1 M' := by
  have key : ∀ {Q : Unit → World → Prop} {E : World → Prop},
      Runs True H utf8 readFuel (cmd.script H utf8 clog lg fuel) world Q E →
      (∃ s, Q () s ∧ (cmd.run H utf8 clog lg fuel env world).1 = s) ∨
        ∃ s, E s ∧ (cmd.run H utf8 clog lg fuel env world).1 = s := by
    intro Q E hr
    rcases hr env 0 henv hnc with ⟨a, s, e, hq⟩ | ⟨g, s, e, hq⟩
    · exact .inl ⟨s.1, hq, by unfold Cmd.run; rw [e]⟩
    · exact .inr ⟨s.1, hq, by unfold Cmd.run; rw [e]⟩
  rcases h with ⟨h, rfl⟩ | h
  · cases cmd with
    | init f' =>
      obtain rfl : f' = f := hcmd
      rcases key (init_runs hx.sound hx.fits hx.rows hx.cols hx.ss hx.cs h) with ⟨s, h1, h2⟩ | ⟨s, h1, h2⟩
      · exact ⟨0, Nat.le_refl _, hM, .inr (h2 ▸ h1)⟩
      · exact ⟨0, Nat.le_refl _, hM, .inl ⟨h2 ▸ h1.2, rfl⟩⟩
    | copy src limit commitEvery =>
      rcases key (Q := fun _ _ => False) (Stuck.runs ((current_stuck (by simp [h])).bind _)) with
        ⟨s, h1, h2⟩ | ⟨s, h1, h2⟩
      · exact h1.elim
      · exact ⟨0, Nat.le_refl _, hM, .inl ⟨h2 ▸ h1 ▸ h, rfl⟩⟩
    | add start data n rows cols =>
      rcases key (Q := fun _ _ => False) (Stuck.runs ((current_stuck (by simp [h])).bind _)) with
        ⟨s, h1, h2⟩ | ⟨s, h1, h2⟩
      · exact h1.elim
      · exact ⟨0, Nat.le_refl _, hM, .inl ⟨h2 ▸ h1 ▸ h, rfl⟩⟩
  · cases cmd with
    | init f' =>
      rcases key (Q := fun _ _ => False) (Stuck.runs (init_stuck (by
        obtain ⟨d, e, -⟩ := h
        simp [e]) f')) with ⟨s, h1, h2⟩ | ⟨s, h1, h2⟩
      · exact h1.elim
      · exact ⟨M, Nat.le_refl _, hM, .inr (h2 ▸ h1 ▸ h)⟩
    | copy src limit commitEvery =>
      have hsrc : src.Of Next T := hcmd
      have hN : src.total ≤ N := by
        have := hx.le _ _ _ (hsrc.next 0 src.total (by omega))
        omega
      rcases key (copy_runs hx.appends hx.sound hsrc limit commitEvery h) with ⟨s, ⟨h0, h1⟩, h2⟩ | ⟨s, ⟨-, M', g1, g2, h1⟩, h2⟩
      · exact ⟨_, Nat.le_min.2 ⟨by omega, by omega⟩, Nat.le_trans (Nat.min_le_right ..) hN, .inr (h2 ▸ h1)⟩
      · exact ⟨M', g1, by omega, .inr (h2 ▸ h1)⟩
    | add start data n rows cols =>
      obtain ⟨rfl, rfl, hd⟩ := hcmd
      rcases key (add_runs hx.appends hx.sound h start data n (hd M)) with ⟨s, h1, h2⟩ | ⟨s, ⟨-, h1⟩, h2⟩
      · refine ⟨_, ?_, ?_, .inr (h2 ▸ h1)⟩
        · split <;> omega
        · split
          · rename_i hs
            exact hx.le _ _ _ (hd M hs)
          · exact hM
      · exact ⟨M, Nat.le_refl _, hM, .inr (h2 ▸ h1)⟩

theorem runs_state {f : Factory} {N : Nat} (hx : Fixed H utf8 clog lg fuel readFuel T f Next N) :
    ∀ (cmds : List (Cmd × (Nat → Event))) (world : World) (M : Nat), State H utf8 T f world M → M ≤ N →
    (∀ c ∈ cmds, c.1.Of Next T f ∧ ∀ i, (c.2 i).Ok True utf8 readFuel) →
    (runs H utf8 clog lg fuel cmds world).log.NoCollision H →
    ∃ M', M ≤ M' ∧ M' ≤ N ∧ State H utf8 T f (runs H utf8 clog lg fuel cmds world) M' := by
  intro cmds
  induction cmds with
  | nil => intro world M h hM _ _; exact ⟨M, Nat.le_refl _, hM, h⟩
  | cons c cs ih =>
    intro world M h hM hc hnc
    obtain ⟨M1, h1, h2, h3⟩ := Cmd.run_state hx h hM c.1 (hc c (List.mem_cons_self ..)).1 c.2
      (hc c (List.mem_cons_self ..)).2 (NoCollision.mono (runs_mono cs _) hnc)
    obtain ⟨M2, h4, h5, h6⟩ := ih _ M1 h3 h2 (fun c h => hc c (List.mem_cons_of_mem _ h)) hnc
    exact ⟨M2, Nat.le_trans h1 h4, h5, h6⟩

end

end Example

end Verif
