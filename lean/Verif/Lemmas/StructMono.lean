import Verif.Lemmas.DatasetHistory

/-! Reads and searches of a structure depend only on the objects it refers to; those of a structure
whose parts are all in the store do not depend on what else is in it. -/
namespace Verif

section
variable (utf8 : List Byte → Bool) (st : Store)

/-- Everything the structure refers to is in the store; the nesting is below `depth`. -/
def Closed : (depth : Nat) → MMStruct3 → Prop
  | 0, _ => False
  | _ + 1, .subchunk _ => True
  | depth + 1, .superchunk h loc =>
    ∀ r ∈ h.references, r ≠ .elided → ∃ m, h.deref utf8 st loc r = .ok m ∧ Closed depth m
  | depth + 1, .span s => ∀ cid ∈ s.spans, ∃ m, st.getStruct utf8 cid = .ok m ∧ Closed depth m

end

variable {utf8 : List Byte → Bool} {st st' : Store}

theorem Closed.mono (hst : ∀ c b, st c = some b → st' c = some b) : ∀ {d : Nat} {m : MMStruct3},
    Closed utf8 st d m → Closed utf8 st' d m := by
  intro d
  induction d with
  | zero => intro m h; exact h
  | succ d ih =>
    intro m h
    cases m with
    | subchunk c => trivial
    | superchunk hd loc =>
      intro r hr hne
      obtain ⟨m, h1, h2⟩ := h r hr hne
      exact ⟨m, SuperHead.deref_mono hst hd loc r m h1, ih h2⟩
    | span s =>
      intro cid hc
      obtain ⟨m, h1, h2⟩ := h cid hc
      exact ⟨m, Store.getStruct_mono hst cid m h1, ih h2⟩

/-- The structures with `P` refer to the same objects, which have `P` again, in both stores. -/
structure Sim (utf8 : List Byte → Bool) (st st' : Store) (P : MMStruct3 → Prop) : Prop where
  superchunk : ∀ h loc, P (.superchunk h loc) → ∀ r ∈ h.references, r ≠ .elided →
    h.deref utf8 st' loc r = h.deref utf8 st loc r ∧ ∀ m, h.deref utf8 st loc r = .ok m → P m
  span : ∀ s, P (.span s) → ∀ cid ∈ s.spans,
    st'.getStruct utf8 cid = st.getStruct utf8 cid ∧ ∀ m, st.getStruct utf8 cid = .ok m → P m

variable {P : MMStruct3 → Prop}

theorem Sim.get_eq (hS : Sim utf8 st st' P) : ∀ (fuel : Nat) (m : MMStruct3), P m → ∀ bits t row col,
    MMStruct3.get utf8 st' fuel m bits t row col = MMStruct3.get utf8 st fuel m bits t row col := by
  intro fuel
  induction fuel with
  | zero => intros; rfl
  | succ fuel ih =>
    intro m h bits t row col
    cases m with
    | subchunk c => rfl
    | superchunk hd loc =>
      rw [MMStruct3.get, MMStruct3.get]
      generalize hd.locate row col = q
      rcases q with _ | ⟨index, row', col'⟩
      · rfl
      simp only
      cases hr : hd.references[index]? with
      | none => rfl
      | some r =>
        have hmem := List.mem_of_getElem? hr
        cases r with
        | elided => rfl
        | loc i =>
          obtain ⟨h1, h2⟩ := hS.superchunk hd loc h _ hmem (by simp)
          simp only [h1]
          generalize hg : hd.deref utf8 st loc _ = q at h2 ⊢
          cases q with
          | error e => rfl
          | ok m => exact ih m (h2 m rfl) _ _ _ _
        | external i =>
          obtain ⟨h1, h2⟩ := hS.superchunk hd loc h _ hmem (by simp)
          simp only [h1]
          generalize hg : hd.deref utf8 st loc _ = q at h2 ⊢
          cases q with
          | error e => rfl
          | ok m => exact ih m (h2 m rfl) _ _ _ _
    | span s =>
      rw [MMStruct3.get, MMStruct3.get]
      generalize s.findSpan t = q
      rcases q with _ | ⟨n, t'⟩
      · rfl
      simp only
      cases hr : s.spans[n]? with
      | none => rfl
      | some cid =>
        obtain ⟨h1, h2⟩ := hS.span s h _ (List.mem_of_getElem? hr)
        simp only [h1]
        generalize hg : st.getStruct utf8 cid = q at h2 ⊢
        cases q with
        | error e => rfl
        | ok m => exact ih m (h2 m rfl) _ _ _ _

theorem Sim.fillCell_eq (hS : Sim utf8 st st' P) : ∀ (fuel : Nat) (m : MMStruct3), P m → ∀ bits start fin row col,
    MMStruct3.fillCell utf8 st' fuel m bits start fin row col =
      MMStruct3.fillCell utf8 st fuel m bits start fin row col := by
  intro fuel
  induction fuel with
  | zero => intros; rfl
  | succ fuel ih =>
    intro m h bits start fin row col
    cases m with
    | subchunk c => rfl
    | superchunk hd loc =>
      rw [MMStruct3.fillCell, MMStruct3.fillCell]
      generalize hd.locate row col = q
      rcases q with _ | ⟨index, row', col'⟩
      · rfl
      simp only
      cases hr : hd.references[index]? with
      | none => rfl
      | some r =>
        have hmem := List.mem_of_getElem? hr
        cases r with
        | elided => rfl
        | loc i =>
          obtain ⟨h1, h2⟩ := hS.superchunk hd loc h _ hmem (by simp)
          simp only [h1]
          generalize hg : hd.deref utf8 st loc _ = q at h2 ⊢
          cases q with
          | error e => rfl
          | ok m => simp only [Out.await, ih m (h2 m rfl)]
        | external i =>
          obtain ⟨h1, h2⟩ := hS.superchunk hd loc h _ hmem (by simp)
          simp only [h1]
          generalize hg : hd.deref utf8 st loc _ = q at h2 ⊢
          cases q with
          | error e => rfl
          | ok m => simp only [Out.await, ih m (h2 m rfl)]
    | span s =>
      rw [MMStruct3.fillCell, MMStruct3.fillCell]
      cases csub fin start with
      | none => rfl
      | some n =>
        simp only
        cases s.piecesFor start n with
        | none => rfl
        | some pieces =>
          simp only
          split
          · congr 1
            refine List.map_congr_left fun p _ => ?_
            cases hr : s.spans[p.span]? with
            | none => rfl
            | some cid =>
              obtain ⟨h1, h2⟩ := hS.span s h _ (List.mem_of_getElem? hr)
              simp only [h1]
              generalize hg : st.getStruct utf8 cid = q at h2 ⊢
              cases q with
              | error e => rfl
              | ok m => simp only [Out.await, ih m (h2 m rfl)]
          · rfl

theorem Sim.fillWindow_eq (hS : Sim utf8 st st' P) : ∀ (fuel : Nat) (m : MMStruct3), P m → ∀ bits window,
    MMStruct3.fillWindow utf8 st' fuel m bits window = MMStruct3.fillWindow utf8 st fuel m bits window := by
  intro fuel
  induction fuel with
  | zero => intros; rfl
  | succ fuel ih =>
    intro m h bits window
    cases m with
    | subchunk c => rfl
    | superchunk hd loc =>
      rw [MMStruct3.fillWindow, MMStruct3.fillWindow]
      cases hd.subchunksFor window.rect with
      | none => rfl
      | some subs =>
        simp only
        congr 1
        refine List.map_congr_left fun sub _ => ?_
        cases hr : hd.references[sub.index]? with
        | none => rfl
        | some r =>
          have hmem := List.mem_of_getElem? hr
          cases r with
          | elided => rfl
          | loc i =>
            obtain ⟨h1, h2⟩ := hS.superchunk hd loc h _ hmem (by simp)
            simp only [h1]
            generalize hg : hd.deref utf8 st loc _ = q at h2 ⊢
            cases q with
            | error e => rfl
            | ok m => simp only [Out.await, ih m (h2 m rfl)]
          | external i =>
            obtain ⟨h1, h2⟩ := hS.superchunk hd loc h _ hmem (by simp)
            simp only [h1]
            generalize hg : hd.deref utf8 st loc _ = q at h2 ⊢
            cases q with
            | error e => rfl
            | ok m => simp only [Out.await, ih m (h2 m rfl)]
    | span s =>
      rw [MMStruct3.fillWindow, MMStruct3.fillWindow]
      cases window.instants with
      | none => rfl
      | some n =>
        simp only
        cases s.piecesFor window.start n with
        | none => rfl
        | some pieces =>
          simp only
          split
          · congr 1
            refine List.map_congr_left fun p _ => ?_
            cases hr : s.spans[p.span]? with
            | none => rfl
            | some cid =>
              obtain ⟨h1, h2⟩ := hS.span s h _ (List.mem_of_getElem? hr)
              simp only [h1]
              generalize hg : st.getStruct utf8 cid = q at h2 ⊢
              cases q with
              | error e => rfl
              | ok m => simp only [Out.await, ih m (h2 m rfl)]
          · rfl

theorem Sim.search_eq (hS : Sim utf8 st st' P) : ∀ (fuel : Nat) (m : MMStruct3), P m → ∀ bounds lower upper,
    MMStruct3.search utf8 st' fuel m bounds lower upper =
      MMStruct3.search utf8 st fuel m bounds lower upper := by
  intro fuel
  induction fuel with
  | zero => intros; rfl
  | succ fuel ih =>
    intro m h bounds lower upper
    cases m with
    | subchunk c => rfl
    | superchunk hd loc =>
      rw [MMStruct3.search, MMStruct3.search]
      cases hd.subchunksFor bounds.rect with
      | none => rfl
      | some subs =>
        simp only
        generalize collect subs _ = q
        rcases q with _ | subs
        · rfl
        simp only
        congr 1
        refine List.map_congr_left fun sub _ => ?_
        cases hr : hd.references[sub.index]? with
        | none => rfl
        | some r =>
          have hmem := List.mem_of_getElem? hr
          cases r with
          | elided => rfl
          | loc i =>
            obtain ⟨h1, h2⟩ := hS.superchunk hd loc h _ hmem (by simp)
            simp only [h1]
            generalize hg : hd.deref utf8 st loc _ = q at h2 ⊢
            cases q with
            | error e => cases e <;> rfl
            | ok m => simp only [Out.await, ih m (h2 m rfl)]
          | external i =>
            obtain ⟨h1, h2⟩ := hS.superchunk hd loc h _ hmem (by simp)
            simp only [h1]
            generalize hg : hd.deref utf8 st loc _ = q at h2 ⊢
            cases q with
            | error e => cases e <;> rfl
            | ok m => simp only [Out.await, ih m (h2 m rfl)]
    | span s =>
      rw [MMStruct3.search, MMStruct3.search]
      cases bounds.instants with
      | none => rfl
      | some n =>
        simp only
        cases s.piecesFor bounds.start n with
        | none => rfl
        | some pieces =>
          simp only
          split
          · congr 1
            refine List.map_congr_left fun p _ => ?_
            cases hr : s.spans[p.span]? with
            | none => rfl
            | some cid =>
              obtain ⟨h1, h2⟩ := hS.span s h _ (List.mem_of_getElem? hr)
              simp only [h1]
              generalize hg : st.getStruct utf8 cid = q at h2 ⊢
              cases q with
              | error e => cases e <;> rfl
              | ok m => simp only [Out.await, ih m (h2 m rfl)]
          · rfl

theorem Closed.sim (hst : ∀ c b, st c = some b → st' c = some b) :
    Sim utf8 st st' fun m => ∃ d, Closed utf8 st d m := by
  constructor
  · rintro h loc ⟨d, hd⟩ r hr hne
    cases d with
    | zero => exact hd.elim
    | succ d =>
      obtain ⟨m, h1, h2⟩ := hd r hr hne
      refine ⟨by rw [h1, SuperHead.deref_mono hst h loc r m h1], fun m' h3 => ?_⟩
      rw [h1] at h3
      cases h3
      exact ⟨d, h2⟩
  · rintro s ⟨d, hd⟩ cid hc
    cases d with
    | zero => exact hd.elim
    | succ d =>
      obtain ⟨m, h1, h2⟩ := hd cid hc
      refine ⟨by rw [h1, Store.getStruct_mono hst cid m h1], fun m' h3 => ?_⟩
      rw [h1] at h3
      cases h3
      exact ⟨d, h2⟩

theorem Closed.get_eq (hst : ∀ c b, st c = some b → st' c = some b) {d : Nat} {m : MMStruct3}
    (h : Closed utf8 st d m) (fuel bits t row col : Nat) :
    MMStruct3.get utf8 st' fuel m bits t row col = MMStruct3.get utf8 st fuel m bits t row col :=
  (Closed.sim hst).get_eq fuel m ⟨d, h⟩ _ _ _ _

theorem Closed.fillCell_eq (hst : ∀ c b, st c = some b → st' c = some b) {d : Nat} {m : MMStruct3}
    (h : Closed utf8 st d m) (fuel bits start fin row col : Nat) :
    MMStruct3.fillCell utf8 st' fuel m bits start fin row col =
      MMStruct3.fillCell utf8 st fuel m bits start fin row col :=
  (Closed.sim hst).fillCell_eq fuel m ⟨d, h⟩ _ _ _ _ _

theorem Closed.fillWindow_eq (hst : ∀ c b, st c = some b → st' c = some b) {d : Nat} {m : MMStruct3}
    (h : Closed utf8 st d m) (fuel bits : Nat) (window : Cube) :
    MMStruct3.fillWindow utf8 st' fuel m bits window =
      MMStruct3.fillWindow utf8 st fuel m bits window :=
  (Closed.sim hst).fillWindow_eq fuel m ⟨d, h⟩ _ _

theorem Closed.search_eq (hst : ∀ c b, st c = some b → st' c = some b) {d : Nat} {m : MMStruct3}
    (h : Closed utf8 st d m) (fuel : Nat) (bounds : Cube) (lower upper : Int64) :
    MMStruct3.search utf8 st' fuel m bounds lower upper =
      MMStruct3.search utf8 st fuel m bounds lower upper :=
  (Closed.sim hst).search_eq fuel m ⟨d, h⟩ _ _ _

end Verif
