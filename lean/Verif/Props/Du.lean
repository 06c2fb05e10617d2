import Verif.Lemmas.Du
import Verif.Props.AnyData
import Verif.Props.Example
import Verif.Props.FloatRange

/-!
C71: listing and counting what a data set is made of, with the example program (`ls` and `du`).
C72: the cells of a file of `cpc_precip` get to the places that the coordinates say.
-/
namespace Verif

namespace Example

/-- What `ls` and `du` say of the object `c`, which their argument means. -/
structure Spec.Counts (utf8 : List Byte → Bool) (parse : List Byte → Option Cid) (st : Store) (head : Cid)
    (arg : Option (List Byte)) (c : Cid) : Prop where
  /-- `ls` prints a line for each part, with its name and identifier, its type and its size. -/
  lines : ∃ x out, st.retrieve utf8 c = .ok x ∧ ls utf8 parse st (.at head) arg = (out, true) ∧
    out.map (fun l => (l.2.2.2, l.1)) = x.ls ∧
    ∀ l ∈ out, ∃ y : Item, st l.1 = some y.bytes ∧ l.2.1 = y.nodeType ∧ l.2.2.1 = y.bytes.length
  /-- `du` ends, and prints the bytes of all objects below, each as often as there are ways to it. -/
  bytes : ∃ D, (∀ k, Spec.below utf8 st (D + k) c = Spec.below utf8 st D c) ∧
    (∀ r, Reach utf8 st c r ↔ r = c ∨ r ∈ Spec.below utf8 st D c) ∧ (∀ r, Reach utf8 st c r → st r ≠ none) ∧
    ∀ fuel, (Spec.below utf8 st D c).length < fuel →
      du utf8 parse st fuel (.at head) arg = .ok (Spec.bytes st (Spec.below utf8 st D c))

/-- C71, for all stores and arguments: what is listed are the parts of the object that the argument means: the
head if there is none, an identifier, or a path of names; unless the argument is the identifier of an object that
holds a broken identifier, or of one with such a part (then it is taken for a path). -/
theorem C71_list (utf8 : List Byte → Bool) (parse : List Byte → Option Cid) (st : Store) (head : Cid)
    (arg : Option (List Byte)) (es : List LsEntry) (h : list utf8 parse st (some head) arg = .ok es)
    (hv : ∀ s b e, arg = some s → parse s = some b → st.ls utf8 b = .error (.err e) → e.exception ≠ .value) :
    ∃ c, Spec.Means utf8 parse st head arg c ∧ ∃ x, st.retrieve utf8 c = .ok x ∧ es.map LsEntry.cid = x.refs := by
  obtain ⟨c, h1, h2⟩ := (list_sound h).resolve_right fun ⟨s, b, e, h1, h2, h3, h4⟩ => hv s b e h1 h2 h3 h4
  obtain ⟨x, h3, h4, -⟩ := C45_listing _ _ _ _ h2
  exact ⟨c, h1, x, h3, h4⟩

theorem lines_of : ∀ {ls : List (List Byte × Cid)} {es : List LsEntry} {H : Hash} {log : Saved},
    List.Forall₂ (fun (e : List Byte × Cid) (y : LsEntry) => y.name = e.1 ∧ y.cid = e.2 ∧ ∃ z : Item, z.bytes ∈ log ∧
        y.cid = H.cidOf z.bytes ∧ y.nodeType = some z.nodeType ∧ y.size = some z.bytes.length) ls es →
    log.NoCollision H →
    ∃ out, lines es = (out, true) ∧ out.map (fun l => (l.2.2.2, l.1)) = ls ∧
      ∀ l ∈ out, ∃ y : Item, log.load H l.1 = some y.bytes ∧ l.2.1 = y.nodeType ∧ l.2.2.1 = y.bytes.length := by
  intro ls es H log h hnc
  induction h with
  | nil => exact ⟨[], rfl, rfl, fun l h => by cases h⟩
  | @cons _ e _ _ h _ ih =>
    obtain ⟨h1, h2, z, h3, h4, h5, h6⟩ := h
    obtain ⟨out, g1, g2, g3⟩ := ih
    refine ⟨(e.cid, z.nodeType, z.bytes.length, e.name) :: out, ?_, ?_, ?_⟩
    · unfold lines
      rw [h5, h6, g1]
    · rw [List.map_cons, g2, h1, h2]
    · intro l hl
      rcases List.mem_cons.1 hl with rfl | hl
      · exact ⟨z, by rw [h4]; exact Saved.load_mem hnc h3, rfl, rfl⟩
      · exact g3 l hl

/-- C71. The lines are those of the entries before the first one without type or size, and success is
said if there is no such entry. -/
theorem C71_lines (es : List LsEntry) :
    ((lines es).2 = true ↔ ∀ e ∈ es, e.nodeType ≠ none ∧ e.size ≠ none) ∧
    (lines es).1.map (fun l => (l.1, some l.2.1, some l.2.2.1, l.2.2.2)) =
      (es.takeWhile fun e => e.nodeType.isSome && e.size.isSome).map
        fun e => (e.cid, e.nodeType, e.size, e.name) := by
  induction es with
  | nil => exact ⟨⟨(fun _ e h => by cases h), fun _ => rfl⟩, rfl⟩
  | cons e es ih =>
    unfold lines
    cases ht : e.nodeType with
    | none => simp [ht]
    | some ty =>
      cases hn : e.size with
      | none => simp [ht, hn]
      | some n =>
        simp only [List.forall_mem_cons, ht, hn]
        refine ⟨by simp [ih.1], ?_⟩
        simp [ht, hn, ih.2]

section
variable {H : Hash} {utf8 : List Byte → Bool} {clog : Nat → Nat} {lg : Rat → Int} {fuel readFuel : Nat}
  {T : VarTheory} {f : Factory} {Next : Nat → NdArray → Nat → Prop} {N : Nat}

theorem Safe.counts {log : Saved} (hnc : log.NoCollision H) {parse : List Byte → Option Cid} {head : Cid}
    (hs : Safe H utf8 log head) {arg : Option (List Byte)} {c : Cid}
    (hm : Spec.Means utf8 parse (log.load H) head arg c) (hr : Reach utf8 (log.load H) head c) :
    Spec.Counts utf8 parse (log.load H) head arg c := by
  obtain ⟨dep, hs⟩ := hs
  have hc := (reach_below hnc hs hr).2
  obtain ⟨es, h1, h2⟩ := list_complete hnc hs hm hc
  have hc' := hc
  obtain ⟨y, g1, rfl, g3⟩ := hc'
  obtain ⟨es', g4, g5⟩ := g3.ls hnc g1
  rw [h2] at g4
  cases g4
  obtain ⟨x, c1, c2, c3⟩ := C45_listing _ _ _ _ h2
  refine ⟨?_, dep, below_add hnc hc, fun r => ⟨fun h => (reach_below hnc hc h).1, ?_⟩, fun r hr => ?_, fun fuel hf => ?_⟩
  · obtain ⟨out, o1, o2, o3⟩ := lines_of g5 hnc
    refine ⟨_, out, Store.retrieve_of (Saved.load_mem hnc g1) g3.wf, ?_, ?_, o3⟩
    · unfold ls
      simp only [Head.cid]
      rw [h1]
      exact o1
    · rw [o2, Item.loaded_ls]
  · rintro (rfl | h)
    · exact .root
    · exact below_reach _ _ _ h
  · obtain ⟨z, z1, rfl, -⟩ := (reach_below hnc hc hr).2
    rw [Saved.load_mem hnc z1]
    simp
  · have hb : Spec.below utf8 (log.load H) dep (H.cidOf y.bytes) =
        (es.map LsEntry.cid).flatMap (family utf8 (log.load H) dep) := by
      rw [← below_succ hnc hc, Spec.below, c1, c2]
      rfl
    unfold du
    simp only [Head.cid]
    rw [h1]
    simp only
    rw [hb] at hf ⊢
    rw [duLoop_eq hnc dep fuel es 0 (fun e he => ⟨?_, c3 e he⟩) hf, Nat.zero_add]
    refine (reach_below hnc hc (below_reach (dep + 1) _ _ ?_)).2
    rw [below_succ hnc hc, hb, List.mem_flatMap]
    exact ⟨e.cid, List.mem_map_of_mem he, List.mem_cons_self ..⟩

theorem counted (hx : Fixed H utf8 clog lg fuel readFuel T f Next N) (parse : List Byte → Option Cid)
    (cmds : List (Cmd × (Nat → Event))) (world : World) (hw : world.head = .missing)
    (hc : ∀ c ∈ cmds, c.1.Of Next T f ∧ ∀ i, (c.2 i).Ok True utf8 readFuel)
    (after : World) (hafter : after = runs H utf8 clog lg fuel cmds world) (hnc : after.log.NoCollision H)
    (head : Cid) (hh : after.head = .at head) (arg : Option (List Byte)) (c : Cid)
    (hm : Spec.Means utf8 parse (after.log.load H) head arg c) (hr : Reach utf8 (after.log.load H) head c) :
    Spec.Counts utf8 parse (after.log.load H) head arg c := by
  subst hafter
  obtain ⟨M, -, -, h⟩ := runs_state hx cmds world 0 (.inl ⟨hw, rfl⟩) (Nat.zero_le _) hc hnc
  rcases h with ⟨h, -⟩ | ⟨d, h1, -, h2⟩
  · rw [h] at hh; cases hh
  · refine Safe.counts hnc (h2.earlier head (.inr ?_)) hm hr
    rw [h1] at hh
    cases hh
    rfl

/-- What a run gets has the shape of the data set, and no more than `N` instants in all. -/
def Spec.Sized (N : Nat) (f : Factory) : Cmd → Prop
  | .init f' => f' = f
  | .copy src _ _ => src.rows = f.rows ∧ src.cols = f.cols ∧ src.total ≤ N
  | .add start _ n rows cols => rows = f.rows ∧ cols = f.cols ∧ start + n ≤ N

/-- C71: after any runs of the program, whatever numbers they got, and wherever they were broken off, `ls` and `du`
of everything that can be reached from the head work: nothing is missing, and what they print is as `Spec.Counts`
says. -/
theorem C71_runs {enc : MMEncoding} (henc : enc ≠ .time) (hf : f.Fits utf8 enc)
    (hset : Settings clog f.k2Levels N f.rows f.cols f.chunkSize f.spanSize) (hfuel : 32 ≤ fuel)
    (parse : List Byte → Option Cid) (cmds : List (Cmd × (Nat → Event))) (world : World) (hw : world.head = .missing)
    (hc : ∀ c ∈ cmds, Spec.Sized N f c.1 ∧ ∀ i, (c.2 i).Ok True utf8 readFuel)
    (after : World) (hafter : after = runs H utf8 clog lg fuel cmds world) (hnc : after.log.NoCollision H)
    (head : Cid) (hh : after.head = .at head) (arg : Option (List Byte)) (c : Cid)
    (hm : Spec.Means utf8 parse (after.log.load H) head arg c) (hr : Reach utf8 (after.log.load H) head c) :
    Spec.Counts utf8 parse (after.log.load H) head arg c := by
  have hx : Fixed H utf8 clog lg fuel readFuel (hset.theory H enc) f (NextAny N) N :=
    ⟨hf, rfl, rfl, rfl, rfl, ⟨henc, _, fun log m a n hK => AnyChunk.ground hK utf8 log (List.Subset.refl _)⟩,
      fun _ _ _ h => h, hset.appends hfuel⟩
  refine counted hx parse cmds world hw (fun c h => ⟨?_, (hc c h).2⟩) after hafter hnc head hh arg c hm hr
  have hs := (hc c h).1
  cases he : c.1 with
  | init f' => rw [he] at hs; exact hs
  | copy src limit commitEvery =>
    rw [he] at hs
    refine ⟨hs.1, hs.2.1, fun i n hn => ?_⟩
    have := hs.2.2
    change i + n ≤ N
    omega
  | add start data n rows cols =>
    rw [he] at hs
    refine ⟨hs.1, hs.2.1, fun M hM => ?_⟩
    have := hs.2.2
    change M + n ≤ N
    omega

end

/-! ### Examples -/

/-- What is kept after the runs of `Props/Example.lean`. -/
def exampleAfter : World := runs exampleHash (fun _ => true) exampleClog (fun _ => 0) 32 exampleRuns ⟨[], .missing⟩

/-- No string is an identifier. -/
def noCids : List Byte → Option Cid := fun _ => none

/-- The assumptions of `C71_runs`, for the variable `[7]` of the head. -/
example (head v : Cid) (hh : exampleAfter.head = .at head)
    (hm : Spec.Means (fun _ => true) noCids (exampleAfter.log.load exampleHash) head (some [7]) v)
    (hr : Reach (fun _ => true) (exampleAfter.log.load exampleHash) head v) :
    Spec.Counts (fun _ => true) noCids (exampleAfter.log.load exampleHash) head (some [7]) v := by
  refine C71_runs (f := exampleFactory) (N := 6) (readFuel := 40) (by decide) exampleFactory_fits
    (exampleSettings (by decide)) (by decide) noCids
    exampleRuns ⟨[], .missing⟩ rfl (fun c hc => ⟨?_, (exampleRuns_ok c hc).2⟩) exampleAfter rfl
    exampleRuns_noCollision head hh (some [7]) v hm hr
  simp only [exampleRuns, List.mem_cons, List.not_mem_nil, or_false] at hc
  rcases hc with rfl | rfl | rfl | rfl
  · exact rfl
  all_goals exact ⟨rfl, rfl, by decide⟩

/-- The lines that `ls` prints for the head, for the variable, and for its first span. -/
example : ([none, some [7], some (Spec.joined [[7], ascii "0"])].map fun arg =>
      ((ls (fun _ => true) noCids (exampleAfter.log.load exampleHash) exampleAfter.head arg).1.map fun l =>
        (l.2.1, l.2.2.2), (ls (fun _ => true) noCids (exampleAfter.log.load exampleHash) exampleAfter.head arg).2)) =
    [([(.span, [7]), (.dataset, ascii "prev")], true), ([(.span, ascii "0"), (.span, ascii "1")], true),
      ([(.superchunk, ascii "0"), (.superchunk, ascii "1")], true)] := by
  decide +kernel

/-- C71 is false of sizes: what is counted are ways, not objects. After the runs, `du` of the head says more bytes
than there are in the whole store. -/
theorem C71_shared_wrong : ∃ n, du (fun _ => true) noCids (exampleAfter.log.load exampleHash) 1000 exampleAfter.head
    none = .ok n ∧ (exampleAfter.log.map List.length).sum < n :=
  ⟨5008, by decide +kernel, by decide +kernel⟩

/-- C71 is false of sizes: the object itself is not counted. A subchunk takes no bytes. -/
theorem C71_start_wrong : ∃ head c x, exampleAfter.head = .at head ∧
    Spec.Means (fun _ => true) noCids (exampleAfter.log.load exampleHash) head
      (some (Spec.joined [[7], ascii "0", ascii "0", ascii "subchunks", ascii "0"])) c ∧
    exampleAfter.log.load exampleHash c = some x ∧ 0 < x.length ∧
    du (fun _ => true) noCids (exampleAfter.log.load exampleHash) 1000 exampleAfter.head
      (some (Spec.joined [[7], ascii "0", ascii "0", ascii "subchunks", ascii "0"])) = .ok 0 := by
  have h1 : (match exampleAfter.head with
    | .at head => match list (fun _ => true) noCids (exampleAfter.log.load exampleHash) (some head)
        (some (Spec.joined [[7], ascii "0", ascii "0", ascii "subchunks", ascii "0"])) with
      | .ok [] => true
      | _ => false
    | _ => false) = true := by decide +kernel
  have h2 : ∀ x ∈ exampleAfter.log, 0 < x.length := by decide +kernel
  have h3 : du (fun _ => true) noCids (exampleAfter.log.load exampleHash) 1000 exampleAfter.head
      (some (Spec.joined [[7], ascii "0", ascii "0", ascii "subchunks", ascii "0"])) = .ok 0 := by decide +kernel
  generalize exampleAfter = world at h1 h2 h3 ⊢
  split at h1
  · rename_i head hh
    split at h1
    · rename_i hl
      obtain ⟨c, h4, h5⟩ := (list_sound hl).resolve_right fun ⟨_, _, _, _, h, _⟩ => by cases h
      obtain ⟨x, h6, -⟩ := C45_listing _ _ _ _ h5
      cases hx : world.log.load exampleHash c with
      | none => simp [Store.retrieve, hx] at h6
      | some b => exact ⟨head, c, b, hh, h4, hx, h2 _ (List.mem_of_find?_eq_some hx), h3⟩
    · cases h1
  · cases h1

/-- C71 is false of names: a variable with a slash in its name cannot be listed by it. -/
theorem C71_slash_wrong : ∃ (f : Factory) (world : World), f.Fits (fun _ => true) .i64 ∧ f.name = ascii "a/b" ∧
    (Cmd.init f).run exampleHash (fun _ => true) exampleClog (fun _ => 0) 32 smooth ⟨[], .missing⟩ = (world, true) ∧
    (ls (fun _ => true) noCids (world.log.load exampleHash) world.head none).1.map (fun l => l.2.2.2) = [ascii "a/b"] ∧
    ls (fun _ => true) noCids (world.log.load exampleHash) world.head (some (ascii "a/b")) = ([], false) := by
  refine ⟨{ exampleFactory with name := ascii "a/b" }, _, ⟨exampleFactory_fits.dataset, ?_, rfl⟩, rfl, rfl, ?_, ?_⟩
  · exact ⟨by decide, rfl, fun b hb => (nomatch hb), by decide, by decide, by decide, by decide⟩
  · decide +kernel
  · decide +kernel

/-- C71 for a directory without the file with the head, and for paths that lead nowhere: both commands fail, and
nothing is printed. -/
theorem C71_fails (utf8 : List Byte → Bool) (parse : List Byte → Option Cid) (st : Store) (fuel : Nat) (head : Head)
    (arg : Option (List Byte)) (h : head = .missing ∨ ∃ f, list utf8 parse st head.cid arg = .error f) :
    (∃ f, du utf8 parse st fuel head arg = .error f) ∧ ls utf8 parse st head arg = ([], false) := by
  unfold du ls
  cases head with
  | missing => exact ⟨⟨_, rfl⟩, rfl⟩
  | lost =>
    obtain ⟨f, hf⟩ := h.resolve_left nofun
    simp only [hf]
    exact ⟨⟨_, rfl⟩, trivial⟩
  | «at» c =>
    obtain ⟨f, hf⟩ := h.resolve_left nofun
    simp only [hf]
    exact ⟨⟨_, rfl⟩, trivial⟩

/-- What `C71_fails` asks for is met by a name that is not there. -/
example : ∃ f, list (fun _ => true) noCids (exampleAfter.log.load exampleHash) exampleAfter.head.cid
    (some (ascii "nothing")) = .error f := by
  have h : (match list (fun _ => true) noCids (exampleAfter.log.load exampleHash) exampleAfter.head.cid
    (some (ascii "nothing")) with
    | .error _ => true
    | .ok _ => false) = true := by decide +kernel
  cases e : list (fun _ => true) noCids (exampleAfter.log.load exampleHash) exampleAfter.head.cid
    (some (ascii "nothing")) with
  | error f => exact ⟨f, rfl⟩
  | ok _ => rw [e] at h; cases h

/-! ### C72 -/

theorem cpcData_at {α : Type} (a : Nat → Nat → Nat → α) (t r c : Nat) :
    cpcData a t r c = a t (359 - r) ((c + 360) % 720) := by
  have h : c + 720 - 360 % 720 = c + 360 := by omega
  unfold cpcData flipRoll
  rw [h]

/-- C72: the cell of a file of `cpc_precip` that is appended for row `r` and column `c` is the one whose latitude
and longitude are what the coordinates of the data set say for `r` and `c`, if, as in these files, rows go from
89.75 to the south and columns from 0.25 to the east, in steps of half a degree. -/
theorem C72_cells {α : Type} (a : Nat → Nat → Nat → α) (t r c : Nat) (hr : r < 360) (hc : c < 720) :
    ∃ r' c', r' < 360 ∧ c' < 720 ∧ cpcData a t r c = a t r' c' ∧
      (⟨-359 / 4, 1 / 2, 360⟩ : FloatRange).get 24 r = some (359 / 4 - (r' : Rat) / 2) ∧
      ∃ turn : Int, (⟨-719 / 4, 1 / 2, 720⟩ : FloatRange).get 24 c = some (1 / 4 + (c' : Rat) / 2 + 360 * turn) := by
  refine ⟨359 - r, (c + 360) % 720, by omega, Nat.mod_lt _ (by decide), ?_, ?_, ?_⟩
  · exact cpcData_at a t r c
  · rw [C48_get_exact_partial _ r hr ⟨-359, 2, -2, by norm_num, by norm_num, by decide, by
      change 359 + r * 2 < 2 ^ 24
      omega⟩]
    congr 1
    rw [Nat.cast_sub (by omega)]
    push_cast
    ring
  · have hg := C48_get_exact_partial (p := 24) ⟨-719 / 4, 1 / 2, 720⟩ c hc ⟨-719, 2, -2, by norm_num, by norm_num, by decide, by
      change 719 + c * 2 < 2 ^ 24
      omega⟩
    rcases Nat.lt_or_ge c 360 with h | h
    · refine ⟨-1, ?_⟩
      rw [hg, Nat.mod_eq_of_lt (by omega)]
      congr 1
      push_cast
      ring
    · refine ⟨0, ?_⟩
      have : (c + 360) % 720 = c - 360 := by omega
      rw [hg, this, Nat.cast_sub h]
      congr 1
      push_cast
      ring

/-- C72: no cell of the file is lost. -/
theorem C72_all {α : Type} (a : Nat → Nat → Nat → α) (t r' c' : Nat) (hr : r' < 360) (hc : c' < 720) :
    ∃ r c, r < 360 ∧ c < 720 ∧ cpcData a t r c = a t r' c' := by
  refine ⟨359 - r', (c' + 360) % 720, by omega, Nat.mod_lt _ (by decide), ?_⟩
  have h1 : 359 - (359 - r') = r' := by omega
  have h2 : ((c' + 360) % 720 + 360) % 720 = c' := by omega
  rw [cpcData_at, h1, h2]

/-- C72: a file is appended only if its first instant is the one after the last that there is: the instant
`start` of the time coordinate, if that is at midnight. -/
theorem C72_start (time : Int) (h : (time - 283996800) % 86400 = 0) : 283996800 + cpcStart time * 86400 = time := by
  unfold cpcStart
  omega

/-- C72 is false of other instants: they are taken for the midnight before. -/
theorem C72_start_wrong : ∃ time, cpcStart time = 0 ∧ time ≠ 283996800 := ⟨283996800 + 43200, by decide, by decide⟩

end Example

end Verif
