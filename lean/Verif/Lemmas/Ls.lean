import Verif.Lemmas.StructMono

/-! Listings: what they say, and that reads depend only on what is reachable through them. -/
namespace Verif

open Reader Prog

section
variable {utf8 : List Byte → Bool} {st st' : Store}

/-- The objects that can be reached from one through listings. -/
inductive Reach (utf8 : List Byte → Bool) (st : Store) (root : Cid) : Cid → Prop
  | root : Reach utf8 st root root
  | step {c : Cid} {x : Item} {e : List Byte × Cid} : Reach utf8 st root c →
      st.retrieve utf8 c = .ok x → e ∈ x.ls → Reach utf8 st root e.2

theorem Reach.trans {a b c : Cid} (h1 : Reach utf8 st a b) (h2 : Reach utf8 st b c) :
    Reach utf8 st a c := by
  induction h2 with
  | root => exact h1
  | step _ h3 h4 ih => exact .step ih h3 h4

theorem lsNumbered_mem {cids : List Cid} {c : Cid} (h : c ∈ cids) : ∃ e ∈ lsNumbered cids, e.2 = c := by
  obtain ⟨i, hi⟩ := List.mem_iff_getElem?.1 h
  exact ⟨(_, c), List.mem_map.2 ⟨(c, i), List.mem_zipIdx_iff_getElem?.2 hi, rfl⟩, rfl⟩

theorem Store.retrieve_congr {c : Cid} (h : st' c = st c) :
    st'.retrieve utf8 c = st.retrieve utf8 c := by
  unfold Store.retrieve
  rw [h]

theorem Store.getStruct_congr {c : Cid} (h : st' c = st c) :
    st'.getStruct utf8 c = st.getStruct utf8 c := by
  unfold Store.getStruct
  rw [Store.retrieve_congr h]

theorem Store.getLinks_congr {c : Cid} (h : st' c = st c) :
    st'.getLinks utf8 c = st.getLinks utf8 c := by
  unfold Store.getLinks
  rw [Store.retrieve_congr h]

theorem Store.getDataset_congr {c : Cid} (h : st' c = st c) :
    st'.getDataset utf8 c = st.getDataset utf8 c := by
  unfold Store.getDataset
  rw [Store.retrieve_congr h]

theorem Store.retrieve_of_getStruct {c : Cid} {m : MMStruct3} (h : st.getStruct utf8 c = .ok m) :
    st.retrieve utf8 c = .ok (.struct m) := by
  unfold Store.getStruct at h
  split at h <;> first | cases h | skip
  rename_i e
  exact e

theorem Store.retrieve_of_getLinks {c : Cid} {l : Links} (h : st.getLinks utf8 c = .ok l) :
    st.retrieve utf8 c = .ok (.links l) := by
  unfold Store.getLinks at h
  split at h <;> first | cases h | skip
  rename_i e
  exact e

theorem Store.retrieve_of_getDataset {c : Cid} {d : Dataset} (h : st.getDataset utf8 c = .ok d) :
    st.retrieve utf8 c = .ok (.dataset d) := by
  unfold Store.getDataset at h
  split at h <;> first | cases h | skip
  rename_i e
  exact e

/-- Two stores that agree on what is reachable. -/
theorem Reach.sim {root : Cid} (hst : ∀ c, Reach utf8 st root c → st' c = st c)
    (hl : ∀ c m, Reach utf8 st root c → st.getStruct utf8 c = .ok m → m.LocalChunks) :
    Sim utf8 st st' fun m => (∀ e ∈ m.ls, Reach utf8 st root e.2) ∧ m.LocalChunks := by
  have one : ∀ c, Reach utf8 st root c → st'.getStruct utf8 c = st.getStruct utf8 c ∧
      ∀ m, st.getStruct utf8 c = .ok m → (∀ e ∈ m.ls, Reach utf8 st root e.2) ∧ m.LocalChunks := by
    intro c hc
    refine ⟨Store.getStruct_congr (hst c hc), fun m hm => ⟨fun e he => ?_, hl c m hc hm⟩⟩
    exact hc.step (Store.retrieve_of_getStruct hm) he
  constructor
  · rintro h loc ⟨h1, h2⟩ r - hne
    cases r with
    | elided => exact absurd rfl hne
    | loc i =>
      refine ⟨rfl, fun m hm => ?_⟩
      unfold SuperHead.deref at hm
      simp only at hm
      cases hi : loc[i]? with
      | none => rw [hi] at hm; cases hm
      | some m' =>
        rw [hi] at hm
        cases hm
        obtain ⟨c, rfl⟩ := h2 _ (List.mem_of_getElem? hi)
        exact ⟨fun e he => (by cases he), trivial⟩
    | external i =>
      have hr : Reach utf8 st root h.externalCid := h1 (ascii "subchunks", h.externalCid) (List.mem_singleton.2 rfl)
      unfold SuperHead.deref
      simp only
      rw [Store.getLinks_congr (hst _ hr)]
      cases hg : st.getLinks utf8 h.externalCid with
      | error f => exact ⟨rfl, fun m hm => by cases hm⟩
      | ok links =>
        simp only
        cases hi : links.cids[i]? with
        | none => exact ⟨rfl, fun m hm => by cases hm⟩
        | some cid =>
          obtain ⟨e, he, rfl⟩ := lsNumbered_mem (List.mem_of_getElem? hi)
          exact one _ (hr.step (Store.retrieve_of_getLinks hg) he)
  · rintro s ⟨h1, -⟩ cid hc
    obtain ⟨e, he, rfl⟩ := lsNumbered_mem hc
    exact one _ (h1 e he)

/-! ### What a listing says -/

/-- The type of a saved object. -/
def Item.nodeType : Item → NodeType
  | .dataset _ => .dataset
  | .links _ => .links
  | .struct (.subchunk _) => .subchunk
  | .struct (.superchunk _ _) => .superchunk
  | .struct (.span _) => .span

theorem NodeType.read_bytes (x : Item) : ∃ rest, NodeType.read x.bytes = .ok (x.nodeType, rest) := by
  unfold NodeType.read
  change ∃ rest, Reader.bind _ _ _ = _
  unfold Reader.bind
  cases x with
  | dataset d =>
    unfold Item.bytes
    rw [readHeader_rt]
    exact ⟨_, rfl⟩
  | links l =>
    unfold Item.bytes
    rw [readHeader_rt]
    exact ⟨_, rfl⟩
  | struct m =>
    unfold Item.bytes
    rw [readHeader_rt]
    cases m with
    | span s =>
      unfold MMStruct3.write
      simp only [if_true]
      change ∃ rest, Reader.bind readByte _ _ = _
      unfold Reader.bind
      rw [readByte_rt]
      exact ⟨_, rfl⟩
    | subchunk c =>
      unfold MMStruct3.write
      simp only [if_true]
      change ∃ rest, Reader.bind readByte _ _ = _
      unfold Reader.bind
      rw [readByte_rt]
      exact ⟨_, rfl⟩
    | superchunk h loc =>
      unfold MMStruct3.write
      simp only [if_true]
      change ∃ rest, Reader.bind readByte _ _ = _
      unfold Reader.bind
      rw [readByte_rt]
      exact ⟨_, rfl⟩

theorem Store.nodeTypeOf_of {c : Cid} {x : Item} (h : st c = some x.bytes) :
    st.nodeTypeOf c = .ok (some x.nodeType) := by
  unfold Store.nodeTypeOf
  rw [h]
  obtain ⟨rest, e⟩ := NodeType.read_bytes x
  simp only [e]

theorem Store.lsLoop_ok : ∀ {es : List (List Byte × Cid)} {xs : List LsEntry},
    st.lsLoop es = .ok xs → List.Forall₂ (fun e x => x.name = e.1 ∧ x.cid = e.2 ∧
      st.nodeTypeOf e.2 = .ok x.nodeType ∧ x.size = (st e.2).map List.length) es xs := by
  intro es
  induction es with
  | nil => intro xs h; cases h; exact .nil
  | cons e es ih =>
    intro xs h
    unfold Store.lsLoop Store.lsEntry at h
    cases ht : st.nodeTypeOf e.2 with
    | error f => rw [ht] at h; cases h
    | ok t =>
      rw [ht] at h
      simp only at h
      cases hl : st.lsLoop es with
      | error f => rw [hl] at h; cases h
      | ok ys =>
        rw [hl] at h
        cases h
        exact .cons ⟨rfl, rfl, ht, rfl⟩ (ih hl)

theorem Store.lsLoop_total : ∀ {es : List (List Byte × Cid)},
    (∀ e ∈ es, ∃ t, st.nodeTypeOf e.2 = .ok t) → ∃ xs, st.lsLoop es = .ok xs := by
  intro es
  induction es with
  | nil => intro _; exact ⟨[], rfl⟩
  | cons e es ih =>
    intro h
    obtain ⟨t, ht⟩ := h e (by simp)
    obtain ⟨xs, hx⟩ := ih fun e he => h e (by simp [he])
    unfold Store.lsLoop Store.lsEntry
    simp only [ht, hx]
    exact ⟨_, rfl⟩

end

/-! ### Objects saved with all they refer to -/

section
variable {utf8 : List Byte → Bool} {H : Hash} {log : Saved}

theorem Item.loaded_ls (x : Item) (c : Cid) : (x.loaded c).ls = x.ls := by
  cases x <;> rfl

theorem Item.loaded_localChunks (x : Item) (c : Cid) : (x.loaded c).LocalChunks ↔ x.LocalChunks := by
  cases x <;> rfl

theorem Ground.wf {d : Nat} {x : Item} (h : Ground utf8 H log d x) : x.WF utf8 := by
  cases d with
  | zero => exact h.elim
  | succ d => exact h.1

/-- Everything reachable from such an object is like that. -/
theorem Ground.reach (hnc : log.NoCollision H) {d : Nat} {x : Item} (hm : x.bytes ∈ log)
    (h : Ground utf8 H log d x) {c : Cid} (hr : Reach utf8 (log.load H) (H.cidOf x.bytes) c) :
    ∃ y d', y.bytes ∈ log ∧ c = H.cidOf y.bytes ∧ Ground utf8 H log d' y := by
  induction hr with
  | root => exact ⟨x, d, hm, rfl, h⟩
  | step _ h1 h2 ih =>
    obtain ⟨y, d', a1, rfl, a3⟩ := ih
    rw [Store.retrieve_of (Saved.load_mem hnc a1) a3.wf] at h1
    cases h1
    rw [Item.loaded_ls] at h2
    cases d' with
    | zero => exact a3.elim
    | succ d' =>
      obtain ⟨z, b1, b2, b3⟩ := a3.2.2 _ h2
      exact ⟨z, d', b1, b2, b3⟩

/-- Listing such an object names all it refers to, with types and sizes. -/
theorem Ground.ls (hnc : log.NoCollision H) {d : Nat} {x : Item} (hm : x.bytes ∈ log)
    (h : Ground utf8 H log d x) :
    ∃ es, (log.load H).ls utf8 (H.cidOf x.bytes) = .ok es ∧
      List.Forall₂ (fun e y => y.name = e.1 ∧ y.cid = e.2 ∧ ∃ z : Item, z.bytes ∈ log ∧
        y.cid = H.cidOf z.bytes ∧ y.nodeType = some z.nodeType ∧ y.size = some z.bytes.length) x.ls es := by
  cases d with
  | zero => exact h.elim
  | succ d =>
    unfold Store.ls
    rw [Store.retrieve_of (Saved.load_mem hnc hm) h.1]
    simp only [Item.loaded_ls]
    obtain ⟨xs, hxs⟩ := Store.lsLoop_total (st := log.load H) (es := x.ls) fun e he => by
      obtain ⟨z, b1, b2, -⟩ := h.2.2 e he
      rw [b2]
      exact ⟨_, Store.nodeTypeOf_of (Saved.load_mem hnc b1)⟩
    refine ⟨xs, hxs, ?_⟩
    have h2 := Store.lsLoop_ok hxs
    have h3 : ∀ e ∈ x.ls, _ := h.2.2
    clear hxs
    generalize x.ls = l at h2 h3 ⊢
    induction h2 with
    | nil => exact .nil
    | cons h4 _ ih =>
      refine .cons ?_ (ih fun e he => h3 e (by simp [he]))
      obtain ⟨c1, c2, c3, c4⟩ := h4
      obtain ⟨z, b1, b2, -⟩ := h3 _ (List.mem_cons_self ..)
      refine ⟨c1, c2, z, b1, by rw [c2, b2], ?_, ?_⟩
      · rw [b2, Store.nodeTypeOf_of (Saved.load_mem hnc b1)] at c3
        exact (Except.ok.inj c3).symm
      · rw [c4, b2, Saved.load_mem hnc b1]
        rfl

/-- The tree of a variable was saved with all its parts. -/
theorem Tree.ground {T : VarTheory} {d : Nat}
    (hK : ∀ m a n, T.K log m a n → Ground utf8 H log d (.struct m)) :
    ∀ (i : Nat) (sp : Span) (a n tl : Nat), Tree H T log i sp a n tl → sp.WF →
      Ground utf8 H log (d + i + 1) (.struct (.span sp)) := by
  intro i
  induction i with
  | zero =>
    intro sp a n tl ht hw
    obtain ⟨-, -, -, -, h5, h6⟩ := ht
    refine Ground.span hw fun c hc => ?_
    obtain ⟨j, hj⟩ := List.mem_iff_getElem?.1 hc
    obtain ⟨cid, m, a1, a2, a3⟩ := h6 j ((h5 j).1 (List.getElem?_eq_some_iff.1 hj).1)
    rw [hj] at a1
    cases a1
    exact ⟨m, a2.mem, a2.cid.symm, hK _ _ _ a3⟩
  | succ i ih =>
    intro sp a n tl ht hw
    obtain ⟨-, -, m, n', h3, hm, -, h5, cid, c, h6, h7, h8⟩ := ht
    refine Ground.span hw fun c' hc => ?_
    obtain ⟨j, hj⟩ := List.mem_iff_getElem?.1 hc
    have hjl := (List.getElem?_eq_some_iff.1 hj).1
    rcases Nat.lt_or_ge j m with h | h
    · obtain ⟨cid', c', tl', b1, b2, b3⟩ := h5 j h
      rw [hj] at b1
      cases b1
      exact ⟨_, b2.mem, b2.cid.symm, ih _ _ _ _ b3 b2.wf⟩
    · have : j = m := by omega
      subst this
      rw [hj] at h6
      cases h6
      exact ⟨_, h7.mem, h7.cid.symm, ih _ _ _ _ h8 h7.wf⟩

end

/-- The tree of a variable was saved with all its parts, if its chunks were. -/
theorem HistInv.ground {H : Hash} {utf8 : List Byte → Bool} {T : VarTheory} {levels : List Nat}
    {name : List Byte} {round : Option Nat} {s : Dataset × Saved} {M : Nat}
    (hi : HistInv H utf8 T levels round name s M) {d : Nat}
    (hK : ∀ m a n, T.K s.2 m a n → Ground utf8 H s.2 d (.struct m)) :
    ∃ v root d, s.1.findVariable name = some v ∧ Kept H s.2 v.cid (.span root) ∧
      Ground utf8 H s.2 d (.struct (.span root)) := by
  obtain ⟨v, tl, h1, h2, -, h3, h4, he, i, root, h5, h6, h7, -⟩ := hi.var
  exact ⟨v, root, _, h1, h5, Tree.ground (T := T) hK _ _ _ _ _ h6 h5.wf⟩

end Verif
