import Verif.Lemmas.Missing
import Verif.Lemmas.MMArray

/-! Which errors reading gives. -/
namespace Verif

/-! ### Reading bytes -/

/-- The errors that bytes of an object can give. -/
inductive Err.OfBytes : Err → Prop
  | io : OfBytes .io
  | cid : OfBytes .cid
  | varint : OfBytes .varint

/-- A reader whose errors are about the bytes. -/
def Plain {α : Type} (r : Reader α) : Prop := ∀ s e, r s = .error (.err e) → e.OfBytes

theorem Plain.bind {α β : Type} {r : Reader α} {f : α → Reader β} (hr : Plain r) (hf : ∀ a, Plain (f a)) :
    Plain (Reader.bind r f) := by
  intro s e h
  unfold Reader.bind at h
  cases hx : r s with
  | ok x =>
    rw [hx] at h
    exact hf _ _ _ h
  | error f =>
    rw [hx] at h
    cases h
    exact hr _ _ hx

theorem Plain.pure {α : Type} (a : α) : Plain (Reader.pure a) := fun _ _ h => nomatch h

theorem Plain.panic {α : Type} : Plain (Reader.fail .panic : Reader α) := fun _ _ h => by cases h

theorem Plain.fail {α : Type} {e : Err} (he : e.OfBytes) : Plain (Reader.fail (.err e) : Reader α) :=
  fun _ _ h => by cases h; exact he

theorem Plain.withErr {α : Type} (r : Reader α) {e : Err} (he : e.OfBytes) : Plain (r.withErr e) := by
  intro s e' h
  unfold Reader.withErr at h
  cases hx : r s with
  | ok x => rw [hx] at h; cases h
  | error f =>
    rw [hx] at h
    cases f with
    | err x => cases h; exact he
    | panic => cases h

theorem Plain.ofOption {α : Type} : ∀ o : Option α, Plain (Reader.ofOption o)
  | some _ => Plain.pure _
  | none => Plain.panic

theorem Plain.many {α : Type} {r : Reader α} (h : Plain r) : ∀ n, Plain (Reader.many r n)
  | 0 => Plain.pure _
  | n + 1 => Plain.bind h fun _ => Plain.bind (Plain.many h n) fun _ => Plain.pure _

theorem Plain.readExact (n : Nat) : Plain (readExact n) := by
  intro s e h
  unfold Verif.readExact at h
  split at h
  · cases h
  · cases h
    exact .io

theorem Plain.readUpTo (n : Nat) : Plain (readUpTo n) := fun _ _ h => nomatch h

theorem Plain.ite {α : Type} {c : Prop} [Decidable c] {a b : Reader α} (ha : Plain a) (hb : Plain b) :
    Plain (if c then a else b) := by
  split
  · exact ha
  · exact hb

theorem Plain.onBuffer {α : Type} {r : Reader α} (h : Plain r) (bytes : List Byte) :
    Plain (r.onBuffer bytes) := by
  intro s e he
  unfold Reader.onBuffer at he
  cases hx : r bytes with
  | ok x => rw [hx] at he; cases he
  | error f => rw [hx] at he; cases he; exact h _ _ hx

theorem Plain.readByte : Plain readByte := Plain.bind (Plain.readExact _) fun _ => Plain.pure _
theorem Plain.readU16 : Plain readU16 := Plain.bind (Plain.readExact _) fun _ => Plain.pure _
theorem Plain.readU32 : Plain readU32 := Plain.bind (Plain.readExact _) fun _ => Plain.pure _
theorem Plain.readI32 : Plain readI32 := Plain.bind (Plain.readExact _) fun _ => Plain.pure _
theorem Plain.readI64 : Plain readI64 := Plain.bind (Plain.readExact _) fun _ => Plain.pure _
theorem Plain.readF32 : Plain readF32 := Plain.bind (Plain.readExact _) fun _ => Plain.pure _
theorem Plain.readF64 : Plain readF64 := Plain.bind (Plain.readExact _) fun _ => Plain.pure _

theorem Plain.readVarint : Plain readVarint := Plain.withErr _ .varint

theorem Plain.readStr (utf8 : List Byte → Bool) : Plain (readStr utf8) :=
  Plain.bind Plain.readByte fun _ => Plain.bind (Plain.readUpTo _) fun _ =>
    Plain.ite (Plain.pure _) (Plain.fail .io)

theorem Plain.parse : Plain Cid.parse := Plain.withErr _ .cid

theorem Plain.readCid : Plain readCid :=
  Plain.bind Plain.readVarint fun _ => Plain.bind Plain.readVarint fun _ =>
    Plain.ite (Plain.bind (Plain.readUpTo _) fun _ => Plain.onBuffer Plain.parse _)
      (Plain.bind Plain.readVarint fun _ => Plain.bind Plain.readVarint fun _ =>
        Plain.bind (Plain.readUpTo _) fun _ => Plain.onBuffer Plain.parse _)

theorem Plain.bitMap : Plain BitMap.read :=
  Plain.bind Plain.readU32 fun _ => Plain.bind Plain.readU32 fun _ =>
    Plain.ite Plain.panic (Plain.bind (Plain.many Plain.readU32 _) fun _ =>
      Plain.bind (Plain.many Plain.readU32 _) fun _ => Plain.pure _)

theorem Plain.dac : Plain Dac.read :=
  Plain.bind Plain.readByte fun _ =>
    Plain.bind (Plain.many (Plain.bind Plain.bitMap fun _ =>
      Plain.bind (Plain.readUpTo _) fun _ => Plain.pure _) _) fun _ => Plain.pure _

theorem Plain.snapshot : Plain Snapshot.read :=
  Plain.bind Plain.readByte fun _ => Plain.bind Plain.readU32 fun _ => Plain.bind Plain.readU32 fun _ =>
    Plain.bind Plain.readU32 fun _ => Plain.bind Plain.bitMap fun _ => Plain.bind Plain.dac fun _ =>
      Plain.bind Plain.dac fun _ => Plain.pure _

theorem Plain.log : Plain Log.read :=
  Plain.bind Plain.readByte fun _ => Plain.bind Plain.readU32 fun _ => Plain.bind Plain.readU32 fun _ =>
    Plain.bind Plain.readU32 fun _ => Plain.bind Plain.bitMap fun _ => Plain.bind Plain.bitMap fun _ =>
      Plain.bind Plain.dac fun _ => Plain.bind Plain.dac fun _ => Plain.pure _

theorem Plain.block : Plain Block.read :=
  Plain.bind Plain.readByte fun _ => Plain.bind Plain.snapshot fun _ => Plain.bind (Plain.ofOption _) fun _ =>
    Plain.bind (Plain.many Plain.log _) fun _ => Plain.pure _

theorem Plain.chunk : Plain Chunk.read :=
  Plain.bind Plain.readByte fun _ => Plain.bind (Plain.ofOption _) fun _ => Plain.bind Plain.readByte fun _ =>
    Plain.bind Plain.readU32 fun _ => Plain.bind (Plain.many Plain.block _) fun _ => Plain.pure _

theorem Plain.reference : Plain Reference.read :=
  Plain.bind Plain.readByte fun _ => Plain.ite (Plain.pure _)
    (Plain.ite (Plain.bind Plain.readU32 fun _ => Plain.pure _)
      (Plain.ite (Plain.bind Plain.readU32 fun _ => Plain.pure _) Plain.panic))

theorem Plain.span : Plain Span.read :=
  Plain.bind Plain.readByte fun _ => Plain.bind (Plain.ofOption _) fun _ => Plain.bind Plain.readU32 fun _ =>
    Plain.bind Plain.readU32 fun _ => Plain.bind Plain.readU32 fun _ => Plain.bind Plain.readU32 fun _ =>
      Plain.bind Plain.readU32 fun _ => Plain.bind (Plain.many Plain.readCid _) fun _ => Plain.pure _

theorem Plain.links : Plain Links.read := by
  refine Plain.bind Plain.readU32 fun n => Plain.bind (fun s e h => ?_) fun _ => Plain.pure _
  cases hx : Reader.many Cid.parse n.toNat s with
  | ok x => rw [hx] at h; cases h
  | error f => rw [hx] at h; cases h; exact Plain.many Plain.parse _ _ _ hx

theorem Plain.superHead {node : Reader MMStruct3} (h : Plain node) : Plain (SuperHead.readWith node) :=
  Plain.bind Plain.readU32 fun _ => Plain.bind Plain.readU32 fun _ => Plain.bind Plain.readU32 fun _ =>
    Plain.bind Plain.readU32 fun _ => Plain.bind Plain.readByte fun _ => Plain.bind Plain.readU32 fun _ =>
      Plain.bind Plain.readU32 fun _ => Plain.bind Plain.readByte fun _ => Plain.bind Plain.readByte fun _ =>
        Plain.bind (Plain.ofOption _) fun _ => Plain.bind Plain.readU32 fun _ =>
          Plain.bind (Plain.many Plain.reference _) fun _ => Plain.bind Plain.readCid fun _ =>
            Plain.bind Plain.readU32 fun _ => Plain.bind (Plain.many h _) fun _ =>
              Plain.bind Plain.dac fun _ => Plain.bind Plain.dac fun _ => Plain.pure _

theorem Plain.struct : Plain MMStruct3.read := by
  have key : ∀ fuel, Plain (MMStruct3.readFuel fuel) := by
    intro fuel
    induction fuel with
    | zero => exact Plain.panic
    | succ fuel ih =>
      exact Plain.bind Plain.readByte fun _ =>
        Plain.ite (Plain.bind Plain.chunk fun _ => Plain.pure _)
          (Plain.ite (Plain.bind Plain.span fun _ => Plain.pure _)
            (Plain.ite (Plain.superHead ih) Plain.panic))
  exact fun s e h => key _ s e h

theorem Plain.coordinateKind : Plain CoordinateKind.read := by
  refine Plain.bind Plain.readByte fun _ => Plain.bind (Plain.ofOption _) fun x => ?_
  cases x with
  | time => exact Plain.bind Plain.readI64 fun _ => Plain.bind Plain.readI64 fun _ => Plain.pure _
  | i32 => exact Plain.bind Plain.readI32 fun _ => Plain.bind Plain.readI32 fun _ =>
      Plain.bind Plain.readU32 fun _ => Plain.pure _
  | i64 => exact Plain.bind Plain.readI64 fun _ => Plain.bind Plain.readI64 fun _ =>
      Plain.bind Plain.readU32 fun _ => Plain.pure _
  | f32 => exact Plain.bind Plain.readF32 fun _ => Plain.bind Plain.readF32 fun _ =>
      Plain.bind Plain.readU32 fun _ => Plain.pure _
  | f64 => exact Plain.bind Plain.readF64 fun _ => Plain.bind Plain.readF64 fun _ =>
      Plain.bind Plain.readU32 fun _ => Plain.pure _

theorem Plain.coordinate (utf8 : List Byte → Bool) : Plain (Coordinate.read utf8) :=
  Plain.bind (Plain.readStr utf8) fun _ => Plain.bind Plain.coordinateKind fun _ => Plain.pure _

theorem Plain.readRound : Plain Variable.readRound :=
  Plain.bind Plain.readByte fun _ => Plain.ite (Plain.bind Plain.readByte fun _ => Plain.pure _) (Plain.pure _)

theorem Plain.variable' (utf8 : List Byte → Bool) : Plain (Variable.read utf8) :=
  Plain.bind (Plain.readStr utf8) fun _ => Plain.bind Plain.readRound fun _ =>
    Plain.bind Plain.readU32 fun _ => Plain.bind Plain.readU32 fun _ => Plain.bind Plain.readByte fun _ =>
      Plain.bind (Plain.many Plain.readU32 _) fun _ => Plain.bind Plain.readByte fun _ =>
        Plain.bind (Plain.ofOption _) fun _ => Plain.bind Plain.readCid fun _ => Plain.pure _

theorem Plain.readPrev : Plain Dataset.readPrev :=
  Plain.bind Plain.readByte fun _ => Plain.ite (Plain.bind Plain.readCid fun _ => Plain.pure _) (Plain.pure _)

theorem Plain.dataset (utf8 : List Byte → Bool) : Plain (Dataset.read utf8) :=
  Plain.bind (Plain.coordinate utf8) fun _ => Plain.bind (Plain.coordinate utf8) fun _ =>
    Plain.bind (Plain.coordinate utf8) fun _ => Plain.bind Plain.readByte fun _ =>
      Plain.bind (Plain.many (Plain.variable' utf8) _) fun _ => Plain.bind Plain.readU32 fun _ =>
        Plain.bind Plain.readU32 fun _ => Plain.bind Plain.readPrev fun _ => Plain.pure _

theorem Plain.header : Plain readHeader :=
  Plain.bind Plain.readU16 fun _ => Plain.ite Plain.panic
    (Plain.bind Plain.readU32 fun _ => Plain.ite Plain.panic Plain.readByte)

/-- Reading an object fails only because of its bytes. -/
theorem Plain.item (utf8 : List Byte → Bool) (cid : Cid) : Plain (Item.read utf8 cid) :=
  Plain.bind Plain.header fun _ => Plain.ite (Plain.bind (Plain.dataset utf8) fun _ => Plain.pure _)
    (Plain.ite (Plain.bind Plain.links fun _ => Plain.pure _)
      (Plain.ite (Plain.bind Plain.struct fun _ => Plain.pure _) Plain.panic))

/-! ### Errors on the way -/

namespace Out

variable {β γ : Type} {st' : Store}

/-- The failures of `o'` are failures of `o`, or that an object is not found which is not there. -/
def Blames (st' : Store) (o' o : Out β) : Prop := ∀ t' f, o' t' (some f) →
  (∃ t, o t (some f)) ∨ ∃ c, st' c = none ∧ f = .err (.notFound c)

theorem Blames.refl (o : Out β) : Blames st' o o := fun t' _ h => .inl ⟨t', h⟩

theorem Blames.fail (c : Cid) (hc : st' c = none) (o : Out β) : Blames st' (Out.fail (.err (.notFound c))) o := by
  rintro t' f ⟨-, h⟩
  cases h
  exact .inr ⟨c, hc, rfl⟩

theorem Blames.await {α : Type} {x' x : Except Fail α} {k' k : α → Out β} (hx : Short st' x' x)
    (h : ∀ a, x = .ok a → Blames st' (k' a) (k a)) : Blames st' (Out.await x' k') (Out.await x k) := by
  rcases hx with rfl | ⟨c, hc, rfl⟩
  · cases x' with
    | ok a => exact h a rfl
    | error f => exact Blames.refl _
  · exact Blames.fail c hc _

theorem Blames.map {o' o : Out β} (g : β → γ) (h : Blames st' o' o) : Blames st' (o'.map g) (o.map g) := by
  rintro _ f ⟨t', h', rfl⟩
  rcases h _ _ h' with ⟨t, ht⟩ | h
  · exact .inl ⟨_, t, ht, rfl⟩
  · exact .inr h

theorem some_map {o : Out β} (g : β → γ) : (∃ e, o.Has e) → ∃ e, (o.map g).Has e :=
  fun ⟨_, h⟩ => ⟨_, has_map g h⟩

/-- Runs of parts that all can run, one of them given. -/
theorem Blames.runs {α : Type} {o' o : α → Out β} {f : Fail} : ∀ {l : List α} {rs'},
    (∀ x ∈ l, Blames st' (o' x) (o x)) → (∀ x ∈ l, ∃ e, (o x).Has e) → Runs (l.map o') rs' →
    (∃ r ∈ rs', r.2 = some f) →
    (∃ rs, Runs (l.map o) rs ∧ ∃ r ∈ rs, r.2 = some f) ∨ ∃ c, st' c = none ∧ f = .err (.notFound c)
  | [], _, _, _, .nil, ⟨_, hr, _⟩ => by simp at hr
  | x :: l, _, h, he, .cons (b := r') h1 h2, ⟨r, hr, hf⟩ => by
    have all : ∀ l : List α, (∀ x ∈ l, ∃ e, (o x).Has e) → ∃ rs, Runs (l.map o) rs := by
      intro l
      induction l with
      | nil => exact fun _ => ⟨[], .nil⟩
      | cons y l ih =>
        intro he
        obtain ⟨rs, hrs⟩ := ih fun z hz => he z (List.mem_cons_of_mem _ hz)
        obtain ⟨e, hy⟩ := he y (List.mem_cons_self ..)
        exact ⟨e :: rs, .cons hy hrs⟩
    rcases List.mem_cons.1 hr with rfl | hr
    · rw [hf] at h1
      rcases h x (List.mem_cons_self ..) _ _ h1 with ⟨t, ht⟩ | hc
      · obtain ⟨rs, hrs⟩ := all l fun z hz => he z (List.mem_cons_of_mem _ hz)
        exact .inl ⟨(t, some f) :: rs, .cons ht hrs, _, List.mem_cons_self .., rfl⟩
      · exact .inr hc
    · rcases Blames.runs (fun y hy => h y (List.mem_cons_of_mem _ hy))
        (fun y hy => he y (List.mem_cons_of_mem _ hy)) h2 ⟨r, hr, hf⟩ with ⟨rs, hrs, q, hq, e⟩ | hc
      · obtain ⟨e', hx⟩ := he x (List.mem_cons_self ..)
        exact .inl ⟨e' :: rs, .cons hx hrs, q, List.mem_cons_of_mem _ hq, e⟩
      · exact .inr hc

theorem Blames.tryAll {α : Type} {o' o : α → Out β} {l : List α} (h : ∀ x ∈ l, Blames st' (o' x) (o x))
    (he : ∀ x ∈ l, ∃ e, (o x).Has e) : Blames st' (Out.tryAll (l.map o')) (Out.tryAll (l.map o)) := by
  rintro t' f ⟨rs', hr, hf, -⟩
  rcases Blames.runs h he hr hf with ⟨rs, h1, h2⟩ | hc
  · exact .inl ⟨_, rs, h1, h2, _, pre_refl rs, Interleave.seq _⟩
  · exact .inr hc

theorem Blames.joinAll {α : Type} {o' o : α → Out β} {l : List α} (h : ∀ x ∈ l, Blames st' (o' x) (o x))
    (he : ∀ x ∈ l, ∃ e, (o x).Has e) : Blames st' (Out.joinAll (l.map o')) (Out.joinAll (l.map o)) := by
  rintro t' f ⟨rs', hr, rfl, hf, -⟩
  rcases Blames.runs h he hr hf with ⟨rs, h1, h2⟩ | hc
  · exact .inl ⟨_, rs, h1, rfl, h2, _, pre_refl rs, Interleave.seq _⟩
  · exact .inr hc

/-- The errors of `o` are some of `P`. -/
def Errs (P : Err → Prop) (o : Out β) : Prop := ∀ t e, o t (some (.err e)) → P e

theorem Errs.panic {P : Err → Prop} : Errs P (Out.fail .panic : Out β) := by
  rintro t e ⟨-, h⟩
  cases h

theorem Errs.ofOption {P : Err → Prop} (x : Option (List β)) : Errs P (Out.ofOption x) :=
  fun t e h => absurd rfl (NoErr.ofOption x t _ h e)

theorem Errs.await {α : Type} {P : Err → Prop} {x : Except Fail α} {k : α → Out β}
    (hx : ∀ e, x = .error (.err e) → P e) (h : ∀ a, x = .ok a → Errs P (k a)) : Errs P (Out.await x k) := by
  cases x with
  | ok a => exact h a rfl
  | error f =>
    rintro t e ⟨-, he⟩
    cases he
    exact hx e rfl

theorem Errs.map {P : Err → Prop} {o : Out β} (g : β → γ) (h : Errs P o) : Errs P (o.map g) := by
  rintro _ e ⟨t, h', rfl⟩
  exact h _ _ h'

theorem Errs.tryAll {α : Type} {P : Err → Prop} {o : α → Out β} {l : List α} (h : ∀ x ∈ l, Errs P (o x)) :
    Errs P (Out.tryAll (l.map o)) := by
  rintro t e ⟨rs, hr, ⟨r, hm, he⟩, -⟩
  obtain ⟨p, hp, hpr⟩ : ∃ p ∈ l.map o, p r.1 r.2 := by
    clear h
    unfold Runs at hr
    generalize l.map o = ps at hr
    induction hr with
    | nil => simp at hm
    | cons h1 _ ih =>
      rcases List.mem_cons.1 hm with rfl | hm
      · exact ⟨_, List.mem_cons_self .., h1⟩
      · obtain ⟨p, hp, hq⟩ := ih hm
        exact ⟨p, List.mem_cons_of_mem _ hp, hq⟩
  obtain ⟨x, hx, rfl⟩ := List.mem_map.1 hp
  rw [he] at hpr
  exact h x hx _ _ hpr

theorem Errs.joinAll {P : Err → Prop} (ps : List (Out β)) : Errs P (Out.joinAll ps) :=
  fun t e h => absurd rfl (NoErr.joinAll ps t _ h e)

end Out

section
variable {utf8 : List Byte → Bool} {st st' : Store}

open Out

theorem MMStruct3.fillCell_blames (h : st'.Part st) (fuel : Nat) : ∀ (m : MMStruct3)
    (bits start fin row col : Nat), Blames st' (m.fillCell utf8 st' fuel bits start fin row col)
      (m.fillCell utf8 st fuel bits start fin row col) := by
  induction fuel with
  | zero => intro m bits start fin row col; exact Blames.refl _
  | succ fuel ih =>
    intro m bits start fin row col
    cases m with
    | subchunk c => exact Blames.refl _
    | superchunk head loc =>
      unfold MMStruct3.fillCell
      simp only
      cases head.locate row col with
      | none => exact Blames.refl _
      | some x =>
        simp only
        cases head.references[x.1]? with
        | none => exact Blames.refl _
        | some ref =>
          cases ref with
          | elided => exact Blames.refl _
          | loc i => exact Blames.await (h.deref ..) fun m _ => ih m _ _ _ _ _
          | external i => exact Blames.await (h.deref ..) fun m _ => ih m _ _ _ _ _
    | span s =>
      unfold MMStruct3.fillCell
      simp only
      cases csub fin start with
      | none => exact Blames.refl _
      | some instants =>
        simp only
        cases s.piecesFor start instants with
        | none => exact Blames.refl _
        | some pieces =>
          simp only
          split
          · refine Blames.tryAll (fun p _ => ?_) fun p _ => ?_
            · cases s.spans[p.span]? with
              | none => exact Blames.refl _
              | some cid => exact Blames.await (h.getStruct cid) fun m _ => Blames.map _ (ih m _ _ _ _ _)
            · cases s.spans[p.span]? with
              | none => exact ⟨_, has_fail _⟩
              | some cid => exact ⟨_, has_await fun m _ => has_map _ (m.has_fillCell ..)⟩
          · exact Blames.refl _

theorem MMStruct3.fillWindow_blames (h : st'.Part st) (fuel : Nat) : ∀ (m : MMStruct3) (bits : Nat)
    (window : Cube), Blames st' (m.fillWindow utf8 st' fuel bits window)
      (m.fillWindow utf8 st fuel bits window) := by
  induction fuel with
  | zero => intro m bits window; exact Blames.refl _
  | succ fuel ih =>
    intro m bits window
    cases m with
    | subchunk c => exact Blames.refl _
    | superchunk head loc =>
      unfold MMStruct3.fillWindow
      simp only
      cases head.subchunksFor window.rect with
      | none => exact Blames.refl _
      | some subs =>
        refine Blames.joinAll (fun sub _ => Blames.map _ ?_) fun sub _ => some_map _ ?_
        · cases head.references[sub.index]? with
          | none => exact Blames.refl _
          | some ref =>
            cases ref with
            | elided => exact Blames.refl _
            | loc i => exact Blames.await (h.deref ..) fun m _ => ih m _ _
            | external i => exact Blames.await (h.deref ..) fun m _ => ih m _ _
        · cases head.references[sub.index]? with
          | none => exact ⟨_, has_fail _⟩
          | some ref =>
            cases ref with
            | elided => exact ⟨_, has_ofOption _⟩
            | loc i => exact ⟨_, has_await fun m _ => m.has_fillWindow false ..⟩
            | external i => exact ⟨_, has_await fun m _ => m.has_fillWindow false ..⟩
    | span s =>
      unfold MMStruct3.fillWindow
      simp only
      cases window.instants with
      | none => exact Blames.refl _
      | some instants =>
        simp only
        cases s.piecesFor window.start instants with
        | none => exact Blames.refl _
        | some pieces =>
          simp only
          split
          · refine Blames.tryAll (fun p _ => ?_) fun p _ => ?_
            · cases s.spans[p.span]? with
              | none => exact Blames.refl _
              | some cid => exact Blames.await (h.getStruct cid) fun m _ => Blames.map _ (ih m _ _)
            · cases s.spans[p.span]? with
              | none => exact ⟨_, has_fail _⟩
              | some cid => exact ⟨_, has_await fun m _ => has_map _ (m.has_fillWindow false ..)⟩
          · exact Blames.refl _

/-- Some object of the store gives the error. -/
def Store.Gives (utf8 : List Byte → Bool) (st : Store) (e : Err) : Prop :=
  ∃ c, st.retrieve utf8 c = .error (.err e)

theorem Store.Gives.struct {cid : Cid} {e : Err} (h : st.getStruct utf8 cid = .error (.err e)) :
    st.Gives utf8 e := by
  unfold Store.getStruct at h
  refine ⟨cid, ?_⟩
  cases hx : st.retrieve utf8 cid with
  | ok x => rw [hx] at h; cases x <;> cases h
  | error f => rw [hx] at h; cases h; rfl

theorem Store.Gives.links {cid : Cid} {e : Err} (h : st.getLinks utf8 cid = .error (.err e)) :
    st.Gives utf8 e := by
  unfold Store.getLinks at h
  refine ⟨cid, ?_⟩
  cases hx : st.retrieve utf8 cid with
  | ok x => rw [hx] at h; cases x <;> cases h
  | error f => rw [hx] at h; cases h; rfl

theorem Store.Gives.dataset {cid : Cid} {e : Err} (h : st.getDataset utf8 cid = .error (.err e)) :
    st.Gives utf8 e := by
  unfold Store.getDataset at h
  refine ⟨cid, ?_⟩
  cases hx : st.retrieve utf8 cid with
  | ok x => rw [hx] at h; cases x <;> cases h
  | error f => rw [hx] at h; cases h; rfl

theorem Store.Gives.deref {head : SuperHead} {loc : List MMStruct3} {ref : Reference} {e : Err}
    (h : head.deref utf8 st loc ref = .error (.err e)) : st.Gives utf8 e := by
  cases ref with
  | elided => cases h
  | loc i =>
    unfold SuperHead.deref at h
    simp only at h
    cases hl : loc[i]? with
    | none => rw [hl] at h; cases h
    | some m => rw [hl] at h; cases h
  | external i =>
    unfold SuperHead.deref at h
    simp only at h
    cases hl : st.getLinks utf8 head.externalCid with
    | error f => rw [hl] at h; cases h; exact .links hl
    | ok links =>
      rw [hl] at h
      simp only at h
      cases hc : links.cids[i]? with
      | none => rw [hc] at h; cases h
      | some cid => rw [hc] at h; exact .struct h

theorem MMStruct3.get_gives : ∀ (fuel : Nat) (m : MMStruct3) (bits t row col : Nat) (e : Err),
    m.get utf8 st fuel bits t row col = .error (.err e) → st.Gives utf8 e := by
  intro fuel
  induction fuel with
  | zero => intro m bits t row col e h; cases h
  | succ fuel ih =>
    intro m bits t row col e
    have key : ∀ (y : Except Fail MMStruct3) (t row col : Nat),
        (∀ e, y = .error (.err e) → st.Gives utf8 e) → (match y with
          | .error f => (.error f : Except Fail (Nat × Int64))
          | .ok m => m.get utf8 st fuel m.fractionalBits t row col) = .error (.err e) → st.Gives utf8 e := by
      intro y t row col hy h
      cases y with
      | error f => cases h; exact hy _ rfl
      | ok m => exact ih _ _ _ _ _ _ h
    cases m with
    | subchunk c =>
      unfold MMStruct3.get
      simp only
      cases c.get t row col <;> exact fun h => nomatch h
    | superchunk head loc =>
      unfold MMStruct3.get
      simp only
      cases head.locate row col with
      | none => exact fun h => nomatch h
      | some x =>
        simp only
        cases head.references[x.1]? with
        | none => exact fun h => nomatch h
        | some ref =>
          cases ref with
          | elided =>
            simp only
            cases head.max.get (head.slot x.1 t) <;> exact fun h => nomatch h
          | loc i => exact key _ _ _ _ fun e h => .deref h
          | external i => exact key _ _ _ _ fun e h => .deref h
    | span s =>
      unfold MMStruct3.get
      simp only
      cases s.findSpan t with
      | none => exact fun h => nomatch h
      | some x =>
        simp only
        cases s.spans[x.1]? with
        | none => exact fun h => nomatch h
        | some cid => exact key _ _ _ _ fun e h => .struct h

theorem MMStruct3.fillCell_gives (fuel : Nat) : ∀ (m : MMStruct3) (bits start fin row col : Nat),
    Errs (st.Gives utf8) (m.fillCell utf8 st fuel bits start fin row col) := by
  induction fuel with
  | zero => intro m bits start fin row col; exact Errs.panic
  | succ fuel ih =>
    intro m bits start fin row col
    cases m with
    | subchunk c => exact Errs.ofOption _
    | superchunk head loc =>
      unfold MMStruct3.fillCell
      simp only
      cases head.locate row col with
      | none => exact Errs.panic
      | some x =>
        simp only
        cases head.references[x.1]? with
        | none => exact Errs.panic
        | some ref =>
          cases ref with
          | elided => exact Errs.ofOption _
          | loc i => exact Errs.await (fun e h => .deref h) fun m _ => ih m _ _ _ _ _
          | external i => exact Errs.await (fun e h => .deref h) fun m _ => ih m _ _ _ _ _
    | span s =>
      unfold MMStruct3.fillCell
      simp only
      cases csub fin start with
      | none => exact Errs.panic
      | some instants =>
        simp only
        cases s.piecesFor start instants with
        | none => exact Errs.panic
        | some pieces =>
          simp only
          split
          · refine Errs.tryAll fun p _ => ?_
            cases s.spans[p.span]? with
            | none => exact Errs.panic
            | some cid => exact Errs.await (fun e h => .struct h) fun m _ => Errs.map _ (ih m _ _ _ _ _)
          · exact Errs.panic

theorem MMStruct3.fillWindow_gives (fuel : Nat) : ∀ (m : MMStruct3) (bits : Nat) (window : Cube),
    Errs (st.Gives utf8) (m.fillWindow utf8 st fuel bits window) := by
  induction fuel with
  | zero => intro m bits window; exact Errs.panic
  | succ fuel ih =>
    intro m bits window
    cases m with
    | subchunk c => exact Errs.ofOption _
    | superchunk head loc =>
      unfold MMStruct3.fillWindow
      simp only
      cases head.subchunksFor window.rect with
      | none => exact Errs.panic
      | some subs => exact Errs.joinAll _
    | span s =>
      unfold MMStruct3.fillWindow
      simp only
      cases window.instants with
      | none => exact Errs.panic
      | some instants =>
        simp only
        cases s.piecesFor window.start instants with
        | none => exact Errs.panic
        | some pieces =>
          simp only
          split
          · refine Errs.tryAll fun p _ => ?_
            cases s.spans[p.span]? with
            | none => exact Errs.panic
            | some cid => exact Errs.await (fun e h => .struct h) fun m _ => Errs.map _ (ih m _ _)
          · exact Errs.panic

end

/-! ### Appends -/

section
variable (H : Hash) (utf8 : List Byte → Bool)

/-- Errors of the program are given by an object of the store at that moment. -/
def Prog.Gives {α : Type} (p : Prog α) : Prop :=
  ∀ log e log', p log = (.error (.err e), log') → (log'.load H).Gives utf8 e

variable {H utf8}

theorem Prog.Gives.bind {α β : Type} {p : Prog α} {f : α → Prog β} (hp : p.Gives H utf8)
    (hf : ∀ a, (f a).Gives H utf8) : (Prog.bind p f).Gives H utf8 := by
  intro log e log' h
  unfold Prog.bind at h
  cases hx : p log with
  | mk r l =>
    rw [hx] at h
    cases r with
    | ok a => exact hf a _ _ _ h
    | error g =>
      cases h
      exact hp _ _ _ hx

theorem Prog.Gives.pure {α : Type} (a : α) : (Prog.pure a).Gives H utf8 := fun _ _ _ h => nomatch h

theorem Prog.Gives.panic {α : Type} : (Prog.fail .panic : Prog α).Gives H utf8 := fun _ _ _ h => by cases h

theorem Prog.Gives.ofOption {α : Type} : ∀ x : Option α, (Prog.ofOption x).Gives H utf8
  | some _ => Prog.Gives.pure _
  | none => Prog.Gives.panic

theorem Prog.Gives.save (x : Item) : (Prog.save H x).Gives H utf8 := fun _ _ _ h => nomatch h

theorem Prog.Gives.getStruct (cid : Cid) : (Prog.getStruct H utf8 cid).Gives H utf8 := by
  intro log e log' h
  unfold Prog.getStruct at h
  cases hx : (log.load H).getStruct utf8 cid with
  | ok a => rw [hx] at h; cases h
  | error f => rw [hx] at h; cases h; exact .struct hx

theorem Prog.Gives.ite {α : Type} {c : Prop} [Decidable c] {a b : Prog α} (ha : a.Gives H utf8)
    (hb : b.Gives H utf8) : (if c then a else b).Gives H utf8 := by
  split
  · exact ha
  · exact hb

theorem Prog.Gives.getSpan (cid : Cid) : (Prog.getSpan H utf8 cid).Gives H utf8 := by
  refine Prog.Gives.bind (Prog.Gives.getStruct _) fun m => ?_
  cases m with
  | span s => exact Prog.Gives.pure _
  | _ => exact Prog.Gives.panic

theorem Span.append_gives (sp : Span) (m : MMStruct3) : (Span.append H utf8 sp m).Gives H utf8 := by
  refine Prog.Gives.bind ?_ fun _ => Prog.Gives.bind (Prog.Gives.ofOption _) fun shape =>
    Prog.Gives.ite Prog.Gives.panic (Prog.Gives.ite Prog.Gives.panic
      (Prog.Gives.bind (Prog.Gives.save _) fun _ => Prog.Gives.pure _))
  unfold Span.checkLast
  cases sp.spans.getLast? with
  | none => exact Prog.Gives.pure _
  | some last =>
    exact Prog.Gives.bind (Prog.Gives.getStruct _) fun _ => Prog.Gives.bind (Prog.Gives.ofOption _) fun _ =>
      Prog.Gives.ite Prog.Gives.panic (Prog.Gives.pure _)

theorem Span.update_gives (sp : Span) (m : MMStruct3) : (Span.update H utf8 sp m).Gives H utf8 :=
  Span.append_gives _ _

theorem Variable.tailSpans_gives (fuel : Nat) (v : Variable) :
    (Variable.tailSpans H utf8 fuel v).Gives H utf8 := by
  have key : ∀ fuel above sp, (tailSpansLoop H utf8 v.chunkSize fuel above sp).Gives H utf8 := by
    intro fuel
    induction fuel with
    | zero => intro above sp; exact Prog.Gives.panic
    | succ fuel ih =>
      intro above sp
      exact Prog.Gives.ite (Prog.Gives.bind (Prog.Gives.ofOption _) fun _ =>
        Prog.Gives.bind (Prog.Gives.getSpan _) fun _ => ih _ _) (Prog.Gives.pure _)
  exact Prog.Gives.bind (Prog.Gives.getSpan _) fun _ => key _ _ _

theorem Variable.saveSpans_gives (v : Variable) (spans : List Span) :
    (Variable.saveSpans H utf8 v spans).Gives H utf8 := by
  have key : ∀ rest sp, (saveSpansLoop H utf8 sp rest).Gives H utf8 := by
    intro rest
    induction rest with
    | nil => intro sp; exact Prog.Gives.pure _
    | cons last rest ih => intro sp; exact Prog.Gives.bind (Span.update_gives _ _) fun _ => ih _
  cases spans with
  | nil => exact Prog.Gives.panic
  | cons sp rest =>
    exact Prog.Gives.bind (key _ _) fun _ => Prog.Gives.bind (Prog.Gives.save _) fun _ => Prog.Gives.pure _

theorem Variable.createOpenSpan_gives (fuel : Nat) (v : Variable) (rows cols : Nat) :
    (Variable.createOpenSpan H utf8 fuel v rows cols).Gives H utf8 := by
  have up : ∀ rest sp, (openSpanUp H utf8 sp rest).Gives H utf8 := by
    intro rest
    induction rest with
    | nil => intro sp; exact Prog.Gives.pure _
    | cons last rest ih => intro sp; exact Prog.Gives.bind (Span.update_gives _ _) fun _ => ih _
  have loop : ∀ rest left sp, (openSpanLoop H utf8 v rows cols left sp rest).Gives H utf8 := by
    intro rest
    induction rest with
    | nil =>
      intro left sp
      exact Prog.Gives.bind (Span.append_gives _ _) fun _ => Prog.Gives.bind (Span.append_gives _ _) fun _ =>
        Prog.Gives.pure _
    | cons parent rest ih =>
      intro left sp
      exact Prog.Gives.ite (Prog.Gives.bind (Span.append_gives _ _) fun _ => ih _ _)
        (Prog.Gives.bind (Span.append_gives _ _) fun _ => Prog.Gives.pure _)
  refine Prog.Gives.bind (Variable.tailSpans_gives _ _) fun spans => ?_
  cases spans with
  | nil => exact Prog.Gives.panic
  | cons left spans =>
    exact Prog.Gives.bind (loop _ _ _) fun _ => Prog.Gives.bind (up _ _) fun _ =>
      Prog.Gives.bind (Prog.Gives.save _) fun _ => Prog.Gives.pure _

theorem Variable.tailData_gives (fuel : Nat) (v : Variable) :
    (Variable.tailData H utf8 fuel v).Gives H utf8 := by
  refine Prog.Gives.bind (Variable.tailSpans_gives _ _) fun spans => ?_
  cases spans with
  | nil => exact Prog.Gives.panic
  | cons tail spans =>
    simp only
    cases tail.spans.getLast? with
    | none => exact Prog.Gives.pure _
    | some cid =>
      exact Prog.Gives.bind (Prog.Gives.getStruct _) fun _ => Prog.Gives.bind (Prog.Gives.ofOption _) fun _ =>
        Prog.Gives.ite (Prog.Gives.pure _) (Prog.Gives.pure _)

theorem Variable.append_gives (clog : Nat → Nat) (lg : Rat → Int) (fuel : Nat) (v : Variable) (data : MMBuffer3)
    (instants rows cols : Nat) (update : Bool) :
    (Variable.append H utf8 clog lg fuel v data instants rows cols update).Gives H utf8 := by
  have full : ∀ v sp rest, (Variable.openIfFull H utf8 fuel v rows cols sp rest).Gives H utf8 := by
    intro v sp rest
    refine Prog.Gives.ite (Prog.Gives.bind (Variable.saveSpans_gives _ _) fun _ =>
      Prog.Gives.bind (Variable.createOpenSpan_gives _ _ _ _) fun _ =>
        Prog.Gives.bind (Variable.tailSpans_gives _ _) fun spans => ?_) (Prog.Gives.pure _)
    cases spans with
    | nil => exact Prog.Gives.panic
    | cons sp rest => exact Prog.Gives.ite (Prog.Gives.pure _) Prog.Gives.panic
  have chunk : ∀ levels b n, (Prog.buildChunk H clog lg levels b n rows cols).Gives H utf8 := by
    intro levels b n log e log' h
    unfold Prog.buildChunk at h
    cases h1 : b.computeBits lg n rows cols with
    | none => rw [h1] at h; cases h
    | some b =>
      rw [h1] at h
      simp only at h
      cases h2 : Superchunk.build H clog lg 2 levels log b n rows cols with
      | none => rw [h2] at h; cases h
      | some x => rw [h2] at h; cases h
  have loop : ∀ starts v spans update,
      (Variable.appendLoop H utf8 clog lg fuel data instants rows cols starts v spans update).Gives H utf8 := by
    intro starts
    induction starts with
    | nil => intro v spans update; exact Prog.Gives.pure _
    | cons start starts ih =>
      intro v spans update
      refine Prog.Gives.bind (chunk _ _ _) fun _ => ?_
      cases spans with
      | nil => exact Prog.Gives.panic
      | cons sp rest =>
        exact Prog.Gives.bind (full _ _ _) fun _ =>
          Prog.Gives.bind (Prog.Gives.ite (Span.update_gives _ _) (Span.append_gives _ _)) fun _ => ih _ _ _
  exact Prog.Gives.bind (Variable.tailSpans_gives _ _) fun _ => Prog.Gives.ite Prog.Gives.panic
    (Prog.Gives.bind (loop _ _ _ _) fun _ => Variable.saveSpans_gives _ _)

theorem Variable.appendArray_gives (clog : Nat → Nat) (lg : Rat → Int) (fuel : Nat) {readFuel : Nat} {fill : Fill}
    (hfill : fill.Valid utf8 readFuel) (v : Variable) (data : NdArray) (instants rows cols : Nat) :
    (Variable.appendArray H utf8 clog lg fuel fill v data instants rows cols).Gives H utf8 := by
  refine Prog.Gives.bind (Variable.tailData_gives _ _) fun tail => ?_
  cases tail with
  | none => exact Variable.append_gives _ _ _ _ _ _ _ _ _
  | some tail =>
    intro log e log' h
    simp only at h
    change Prog.bind _ _ _ = _ at h
    cases hs : tail.shape with
    | none => rw [hs] at h; cases h
    | some shape =>
      rw [hs] at h
      change (match (fill tail (log.load H)).2 with
        | some f => Prog.fail f
        | none =>
          if shape.2.1 ≠ rows ∨ shape.2.2 ≠ cols then Prog.fail Fail.panic
          else
            Variable.append H utf8 clog lg fuel v
              ((data.prepend shape.1 (fill tail (log.load H)).1).buffer v.round) (shape.1 + instants) rows cols
              true) log = _ at h
      cases hf : (fill tail (log.load H)).2 with
      | some f =>
        rw [hf] at h
        cases h
        obtain ⟨instants, rows, cols⟩ := shape
        have := hfill tail (log.load H) instants rows cols hs ⟨_, _, tail.has_fillWindow false ..⟩
        rw [hf] at this
        exact tail.fillWindow_gives _ _ _ _ _ this
      | none =>
        rw [hf] at h
        exact Prog.Gives.ite Prog.Gives.panic (Variable.append_gives _ _ _ _ _ _ _ _ _) _ _ _ h

end

end Verif
