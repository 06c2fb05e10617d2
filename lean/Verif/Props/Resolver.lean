import Verif.Lemmas.Ls
import Verif.Props.Array

/-!
Identifiers and listings of stored objects (C45, C47).

Saving and listing are `save` and `Store.ls`. `NoCollision` says that no two different objects that
were saved have the same identifier.
-/
namespace Verif

/-! ### C47 -/

section
variable (H : Hash) {utf8 : List Byte → Bool}

/-- C47: the identifier depends only on the object, not on what was saved before; the identifier a
data set was loaded from does not count as a part of it. -/
theorem C47_identifier (log log' : Saved) (x y : Item) (c : Cid) (h : x.loaded c = y.loaded c) :
    (save H log x).2 = (save H log' y).2 := by
  have e : x.bytes = y.bytes := by
    cases x with
    | dataset d =>
      cases y with
      | dataset d' =>
        simp only [Item.loaded, Item.dataset.injEq, Dataset.mk.injEq] at h
        obtain ⟨h1, h2, h3, h4, h5, h6, -, h8⟩ := h
        simp only [Item.bytes, Dataset.write, h1, h2, h3, h4, h5, h6, h8]
      | links l => cases h
      | struct m => cases h
    | links l => cases y <;> cases h; rfl
    | struct m => cases y <;> cases h; rfl
  unfold save
  simp only [e]

/-- C47: different objects get different identifiers. -/
theorem C47_distinct (log log' : Saved) (x y : Item) (hx : x.WF utf8) (hy : y.WF utf8)
    (hxl : x.bytes ∈ log') (hyl : y.bytes ∈ log') (hnc : log'.NoCollision H)
    (h : (save H log x).2 = (save H log y).2) : ∀ c, x.loaded c = y.loaded c := by
  intro c
  have e : x.bytes = y.bytes := hnc _ hxl _ hyl h
  have h1 := Item.read_bytes x hx c
  rw [e, Item.read_bytes y hy c] at h1
  exact (Prod.mk.inj (Except.ok.inj h1)).1.symm

/-- C47: saving does not disturb any other object: identifiers other than the new one lead to what
they led to before. -/
theorem C47_others (log : Saved) (x : Item) (c : Cid) (h : c ≠ (save H log x).2) :
    (save H log x).1.load H c = log.load H c := by
  unfold save Saved.load at *
  rw [List.find?_cons_of_neg]
  simp only [decide_eq_true_eq]
  exact fun hc => h hc.symm

/-- C47: the identifier that is returned leads to the object, and what was stored before is found as
before. -/
theorem C47_undisturbed (log : Saved) (x : Item) (hx : x.WF utf8)
    (hnc : (save H log x).1.NoCollision H) :
    ((save H log x).1.load H).retrieve utf8 (save H log x).2 = .ok (x.loaded (save H log x).2) ∧
      ∀ c y, (log.load H).retrieve utf8 c = .ok y →
        ((save H log x).1.load H).retrieve utf8 c = .ok y := by
  refine ⟨?_, fun c y h => Store.retrieve_mono (Saved.load_mono hnc fun b hb => ?_) c y h⟩
  · exact Store.retrieve_of (Saved.load_mem hnc (List.mem_cons_self ..)) hx
  · exact List.mem_cons_of_mem _ hb

/-- C47: saving an object again changes nothing. -/
theorem C47_again (log : Saved) (x : Item) (hx : x.bytes ∈ log) (hnc : log.NoCollision H) :
    (save H log x).1.load H = log.load H := by
  funext c
  by_cases h : c = H.cidOf x.bytes
  · subst h
    rw [Saved.load_mem hnc hx, save]
    refine Saved.load_mem (fun a ha b hb => ?_) (List.mem_cons_self ..)
    have hmem : ∀ a, a ∈ x.bytes :: log → a ∈ log := fun a ha => by
      rcases List.mem_cons.1 ha with rfl | h
      · exact hx
      · exact h
    exact hnc a (hmem a ha) b (hmem b hb)
  · exact C47_others H log x c h

/-- C47: an object that was loaded is saved under the identifier it was loaded from. -/
theorem C47_reload (log : Saved) (x y : Item) (hx : x.WF utf8)
    (hnc : (save H log x).1.NoCollision H)
    (h : ((save H log x).1.load H).retrieve utf8 (save H log x).2 = .ok y) (log' : Saved) :
    (save H log' y).2 = (save H log x).2 := by
  rw [(C47_undisturbed H log x hx hnc).1] at h
  cases h
  refine C47_identifier H log' log _ x (save H log x).2 ?_
  cases x <;> rfl

end

/-- Two data sets that differ only in where they were loaded from. -/
example : (Item.dataset exampleDataset).loaded (.v1 1 2 []) =
    (Item.dataset { exampleDataset with cid := some (.v1 3 4 []) }).loaded (.v1 1 2 []) := rfl

/-- A data set and links have different identifiers; the second saving of links changes nothing. -/
example : (save exampleHash [] (.dataset exampleDataset)).2 ≠
    (save exampleHash [] (.links ⟨[exampleHash.cidOf []]⟩)).2 := by decide +kernel

example : Saved.NoCollision exampleHash
    (save exampleHash (save exampleHash [] (.dataset exampleDataset)).1
      (.links ⟨[exampleHash.cidOf []]⟩)).1 := by
  unfold Saved.NoCollision; decide +kernel

/-! ### C45 -/

/-- The identifiers stored in an object itself. -/
def Item.refs : Item → List Cid
  | .dataset d => d.variables.map Variable.cid ++ d.prev.toList
  | .links l => l.cids
  | .struct (.span s) => s.spans
  | .struct (.subchunk _) => []
  | .struct (.superchunk h _) => [h.externalCid]

theorem lsNumbered_refs (cids : List Cid) : (lsNumbered cids).map Prod.snd = cids := by
  unfold lsNumbered
  rw [List.map_map]
  exact List.zipIdx_map_fst ..

theorem Item.ls_refs (x : Item) : x.ls.map Prod.snd = x.refs := by
  cases x with
  | dataset d =>
    simp only [Item.ls, Dataset.ls, Item.refs, List.map_append, List.map_map]
    cases d.prev <;> rfl
  | links l => exact lsNumbered_refs _
  | struct m =>
    cases m with
    | span s => exact lsNumbered_refs _
    | subchunk c => rfl
    | superchunk h loc => rfl

/-- C45: a listing shows the identifiers stored in the object itself, in their order, each with the
size of the object it leads to, if there is one. -/
theorem C45_listing (utf8 : List Byte → Bool) (st : Store) (c : Cid) (es : List LsEntry)
    (h : st.ls utf8 c = .ok es) :
    ∃ x, st.retrieve utf8 c = .ok x ∧ es.map LsEntry.cid = x.refs ∧
      ∀ e ∈ es, e.size = (st e.cid).map List.length := by
  unfold Store.ls at h
  cases hx : st.retrieve utf8 c with
  | error f => rw [hx] at h; cases h
  | ok x =>
    rw [hx] at h
    refine ⟨x, rfl, ?_⟩
    rw [← Item.ls_refs]
    have := Store.lsLoop_ok h
    clear h hx
    generalize x.ls = l at this ⊢
    induction this with
    | nil => exact ⟨rfl, fun e he => by cases he⟩
    | cons h1 _ ih =>
      obtain ⟨-, a2, -, a4⟩ := h1
      refine ⟨by simp only [List.map_cons, ih.1, a2], fun e he => ?_⟩
      rcases List.mem_cons.1 he with rfl | he
      · rw [a4, a2]
      · exact ih.2 e he

/-- C45: the types shown are those of the objects that were saved. -/
theorem C45_types (utf8 : List Byte → Bool) (st : Store) (c : Cid) (es : List LsEntry)
    (h : st.ls utf8 c = .ok es) (e : LsEntry) (he : e ∈ es) (x : Item) (hx : st e.cid = some x.bytes) :
    e.nodeType = some x.nodeType := by
  unfold Store.ls at h
  cases hy : st.retrieve utf8 c with
  | error f => rw [hy] at h; cases h
  | ok y =>
    rw [hy] at h
    have := Store.lsLoop_ok h
    clear h hy
    generalize y.ls = l at this
    induction this with
    | nil => cases he
    | cons h1 _ ih =>
      rcases List.mem_cons.1 he with rfl | he
      · obtain ⟨-, a2, a3, -⟩ := h1
        rw [← a2, Store.nodeTypeOf_of hx] at a3
        exact (Except.ok.inj a3).symm
      · exact ih he

/-- Reads and searches of a structure have the same outcomes in two stores. -/
structure SameReads (utf8 : List Byte → Bool) (st st' : Store) (m : MMStruct3) : Prop where
  get : ∀ fuel bits t row col,
    m.get utf8 st' fuel bits t row col = m.get utf8 st fuel bits t row col
  cell : ∀ fuel bits start fin row col,
    m.fillCell utf8 st' fuel bits start fin row col = m.fillCell utf8 st fuel bits start fin row col
  window : ∀ fuel bits bounds,
    m.fillWindow utf8 st' fuel bits bounds = m.fillWindow utf8 st fuel bits bounds
  search : ∀ fuel bounds lower upper,
    m.search utf8 st' fuel bounds lower upper = m.search utf8 st fuel bounds lower upper

theorem Reach.sameReads {utf8 : List Byte → Bool} {st st' : Store} {root c : Cid} {m : MMStruct3}
    (hst : ∀ c, Reach utf8 st root c → st' c = st c)
    (hl : ∀ c m, Reach utf8 st root c → st.getStruct utf8 c = .ok m → m.LocalChunks)
    (hc : Reach utf8 st root c) (hm : st.getStruct utf8 c = .ok m) :
    st'.getStruct utf8 c = .ok m ∧ SameReads utf8 st st' m := by
  have hS := Reach.sim hst hl
  have hP : (∀ e ∈ m.ls, Reach utf8 st root e.2) ∧ m.LocalChunks :=
    ⟨fun e he => hc.step (Store.retrieve_of_getStruct hm) he, hl c m hc hm⟩
  exact ⟨by rw [Store.getStruct_congr (hst c hc), hm], fun fuel => hS.get_eq fuel m hP,
    fun fuel => hS.fillCell_eq fuel m hP, fun fuel => hS.fillWindow_eq fuel m hP,
    fun fuel => hS.search_eq fuel m hP⟩

/-- C45: everything needed for reads is reachable through listings. In any store, reads of a data
set and of its variables have the same outcome in every other store that has the same objects where
listings lead from the data set.

Partial: provided that the superchunks reachable keep no spans or superchunks inside themselves, only
chunks. `Superchunk::build` makes none that do; `C45_local_wrong` shows that listings are incomplete
for those. -/
theorem C45_reads_partial (utf8 : List Byte → Bool) (st st' : Store) (root : Cid) (d : Dataset)
    (hst : ∀ c, Reach utf8 st root c → st' c = st c)
    (hl : ∀ c m, Reach utf8 st root c → st.getStruct utf8 c = .ok m → m.LocalChunks)
    (hd : st.getDataset utf8 root = .ok d) :
    st'.getDataset utf8 root = .ok d ∧ ∀ v ∈ d.variables, ∀ m, st.getStruct utf8 v.cid = .ok m →
      st'.getStruct utf8 v.cid = .ok m ∧ SameReads utf8 st st' m := by
  refine ⟨by rw [Store.getDataset_congr (hst _ .root), hd], fun v hv m hm => ?_⟩
  refine Reach.sameReads hst hl ?_ hm
  refine Reach.step (e := (v.name, v.cid)) .root (Store.retrieve_of_getDataset hd) ?_
  exact List.mem_append_left _ (List.mem_map.2 ⟨v, hv, rfl⟩)

/-! A superchunk that keeps a span inside itself. -/

namespace Local

def dac : Dac := match Dac.ofList [7] with
  | some d => d
  | none => ⟨[]⟩

def emptyLinks : Item := .links ⟨[]⟩

/-- One cell of value 7. -/
def inner : MMStruct3 := .superchunk ⟨1, 1, 1, 2, 1, 2, 1, 0, .i64, [.elided],
  exampleHash.cidOf emptyLinks.bytes, dac, dac⟩ []

def span : Span := ⟨1, 1, 1, 1, [exampleHash.cidOf (Item.struct inner).bytes], .i64⟩

def outer : MMStruct3 := .superchunk ⟨1, 1, 1, 2, 1, 2, 1, 0, .i64, [.loc 0],
  exampleHash.cidOf emptyLinks.bytes, dac, dac⟩ [.span span]

def log : Saved := [(Item.struct outer).bytes, emptyLinks.bytes]

def fullLog : Saved := log ++ [(Item.struct inner).bytes]

end Local

open Local in
/-- C45 does not hold of superchunks that keep a span inside themselves: listings lead only to the
links, which list nothing, but to read the cell another object is needed. -/
theorem C45_local_wrong :
    (fullLog.load exampleHash).ls (fun _ => true) (exampleHash.cidOf (Item.struct outer).bytes) =
        .ok [⟨exampleHash.cidOf emptyLinks.bytes, ascii "subchunks", some .links, some 11⟩] ∧
      (fullLog.load exampleHash).ls (fun _ => true) (exampleHash.cidOf emptyLinks.bytes) = .ok [] ∧
      (∀ c ∈ [exampleHash.cidOf (Item.struct outer).bytes, exampleHash.cidOf emptyLinks.bytes],
        log.load exampleHash c = fullLog.load exampleHash c) ∧
      outer.get (fun _ => true) (fullLog.load exampleHash) 9 0 0 0 0 = .ok (0, 7) ∧
      outer.get (fun _ => true) (log.load exampleHash) 9 0 0 0 0 =
        .error (.err (.notFound (exampleHash.cidOf (Item.struct inner).bytes))) := by
  decide +kernel

section
variable {H : Hash} {utf8 : List Byte → Bool} {clog : Nat → Nat} {lg : Rat → Int} {fuel readFuel : Nat}
  {levels : List Nat} {cs ss : Nat}

/-- What can be reached through listings from an object that was saved with all its parts. -/
theorem Ground.complete {log : Saved} {root : Span} {dep : Nat} {cid : Cid} (hnc : log.NoCollision H)
    (h2 : Prog.Kept H log cid (.span root)) (h3 : Ground utf8 H log dep (.struct (.span root))) :
    (log.load H).getStruct utf8 cid = .ok (.span root) ∧
      (∀ c, Reach utf8 (log.load H) cid c → ∃ x es, (log.load H).retrieve utf8 c = .ok x ∧
        (log.load H).ls utf8 c = .ok es ∧ es.map LsEntry.cid = x.refs ∧
        ∀ e ∈ es, e.nodeType ≠ none ∧ e.size ≠ none) ∧
      ∀ st', (∀ c, Reach utf8 (log.load H) cid c → st' c = log.load H c) →
        st'.getStruct utf8 cid = .ok (.span root) ∧ SameReads utf8 (log.load H) st' (.span root) := by
  have hroot := h2.get utf8 hnc
  have hall : ∀ c, Reach utf8 (log.load H) cid c → _ := fun c hc =>
    Ground.reach hnc h2.mem h3 (c := c) (by rw [h2.cid]; exact hc)
  refine ⟨hroot, fun c hc => ?_, fun st' hst => ?_⟩
  · obtain ⟨y, d', a1, rfl, a3⟩ := hall c hc
    obtain ⟨es, b1, b2⟩ := a3.ls hnc a1
    obtain ⟨x, c1, c2, -⟩ := C45_listing _ _ _ _ b1
    refine ⟨x, es, c1, b1, c2, fun e he => ?_⟩
    obtain ⟨q, -, -, -, z, -, -, e1, e2⟩ := Superchunk.forall₂_mem_right b2 e he
    rw [e1, e2]
    exact ⟨by simp, by simp⟩
  · refine Reach.sameReads (root := cid) hst (fun c m hc hm => ?_) .root hroot
    obtain ⟨y, d', a1, rfl, a3⟩ := hall c hc
    cases d' with
    | zero => exact a3.elim
    | succ d' =>
      have := Store.retrieve_of_getStruct hm
      rw [Store.retrieve_of (Saved.load_mem hnc a1) a3.1] at this
      have h9 := (Item.loaded_localChunks y (H.cidOf y.bytes)).2 a3.2.1
      rw [Except.ok.inj this] at h9
      exact h9

end

/-- Listing the root of the variable of the history of `Props/Dataset.lean` shows two spans. -/
example : (match ((runs exampleHash (fun _ => true) exampleClog (fun _ => 0) 32
    (.addVariable [7] none 2 2 [1, 1] .i64 :: exampleOps) (exampleDataset, [])).1.findVariable [7]) with
    | some v => (match ((runs exampleHash (fun _ => true) exampleClog (fun _ => 0) 32
    (.addVariable [7] none 2 2 [1, 1] .i64 :: exampleOps) (exampleDataset, [])).2.load exampleHash).ls
      (fun _ => true) v.cid with
      | .ok es => some es.length
      | .error _ => none)
    | none => none) = some 2 := by decide +kernel

/-- C45: a variable may be called `prev`, so that two entries of a listing have the same name. -/
theorem C45_names_wrong : ∃ d : Dataset, d.WF (fun _ => true) ∧ ∃ a b, a ≠ b ∧
    d.ls = [(ascii "prev", a), (ascii "prev", b)] := by
  refine ⟨⟨exampleCoord 1, exampleCoord 2, exampleCoord 3,
    [⟨ascii "prev", none, 2, 2, [1, 1], .i64, .v1 1 2 []⟩], 4, 4, none, some (.v1 3 4 [])⟩, ?_,
    .v1 1 2 [], .v1 3 4 [], by decide, rfl⟩
  have h := exampleWF
  refine ⟨h.coord0, h.coord1, h.coord2, by decide, ?_, by decide, by decide, ?_⟩
  · intro v hv
    rw [List.mem_singleton] at hv
    subst hv
    exact ⟨by decide, rfl, fun b hb => (nomatch hb), by decide, by decide, by decide, by decide,
      by decide, by decide, by simp⟩
  · intro c hc
    cases hc
    exact ⟨by decide, by decide, by simp⟩

end Verif
