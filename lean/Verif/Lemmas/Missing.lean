import Verif.Lemmas.Sequential
import Mathlib.Data.List.Perm.Subperm

/-! Reads and searches of a store that does not deliver some of its objects. -/
namespace Verif

/-- `st'` has nothing that `st` has not. -/
def Store.Part (st' st : Store) : Prop := ∀ c, st' c = none ∨ st' c = st c

/-- The same, or instead the error that an object was not found, which is not there. -/
def Short {α : Type} (st' : Store) (x' x : Except Fail α) : Prop :=
  x' = x ∨ ∃ c, st' c = none ∧ x' = .error (.err (.notFound c))

section
variable {utf8 : List Byte → Bool} {st st' : Store}

theorem Store.Part.retrieve (h : st'.Part st) (cid : Cid) :
    Short st' (st'.retrieve utf8 cid) (st.retrieve utf8 cid) := by
  unfold Store.retrieve
  rcases h cid with h | h
  · rw [h]
    exact .inr ⟨cid, h, rfl⟩
  · rw [h]
    exact .inl rfl

theorem Store.Part.getStruct (h : st'.Part st) (cid : Cid) :
    Short st' (st'.getStruct utf8 cid) (st.getStruct utf8 cid) := by
  unfold Store.getStruct
  rcases h.retrieve (utf8 := utf8) cid with h | ⟨c, hc, h⟩
  · rw [h]
    exact .inl rfl
  · rw [h]
    exact .inr ⟨c, hc, rfl⟩

theorem Store.Part.getLinks (h : st'.Part st) (cid : Cid) :
    Short st' (st'.getLinks utf8 cid) (st.getLinks utf8 cid) := by
  unfold Store.getLinks
  rcases h.retrieve (utf8 := utf8) cid with h | ⟨c, hc, h⟩
  · rw [h]
    exact .inl rfl
  · rw [h]
    exact .inr ⟨c, hc, rfl⟩

theorem Store.Part.deref (h : st'.Part st) (head : SuperHead) (loc : List MMStruct3) (ref : Reference) :
    Short st' (head.deref utf8 st' loc ref) (head.deref utf8 st loc ref) := by
  cases ref with
  | elided => exact .inl rfl
  | loc i => exact .inl rfl
  | external i =>
    unfold SuperHead.deref
    simp only
    rcases h.getLinks (utf8 := utf8) head.externalCid with e | ⟨c, hc, e⟩
    · rw [e]
      cases st.getLinks utf8 head.externalCid with
      | error f => exact .inl rfl
      | ok links =>
        simp only
        cases links.cids[i]? with
        | none => exact .inl rfl
        | some cid => exact h.getStruct cid
    · rw [e]
      exact .inr ⟨c, hc, rfl⟩

end

namespace Out

variable {β γ : Type} {st' : Store}

/-- What `o'` emits of the items `P`, `o` can emit as well. -/
def Within (P : β → Bool) (o' o : Out β) : Prop :=
  ∀ t' s', o' t' s' → ∃ t s, o t s ∧ (t'.filter P).Subperm t

/-- If `o'` ends well with items `P` only, then `o` can end so. -/
def Firm (P : β → Bool) (o' o : Out β) : Prop := ∀ t', o' t' none → (∀ x ∈ t', P x) → o t' none

/-- Never ends in an error, but for panics. -/
def NoErr (o : Out β) : Prop := ∀ t s, o t s → ∀ e, s ≠ some (.err e)

theorem Within.refl (P : β → Bool) (o : Out β) : Within P o o :=
  fun t' s' h => ⟨t', s', h, (List.filter_sublist).subperm⟩

theorem Within.fail {P : β → Bool} {o : Out β} (f : Fail) (h : ∃ e, o.Has e) : Within P (Out.fail f) o := by
  rintro t' s' ⟨rfl, rfl⟩
  obtain ⟨e, h⟩ := h
  exact ⟨e.1, e.2, h, List.nil_subperm⟩

theorem Firm.refl (P : β → Bool) (o : Out β) : Firm P o o := fun _ h _ => h

theorem Firm.fail (P : β → Bool) (o : Out β) (f : Fail) : Firm P (Out.fail f) o := fun _ h _ => by
  cases h.2

theorem Within.await {α : Type} {P : β → Bool} {x' x : Except Fail α} {k' k : α → Out β}
    (hx : Short st' x' x) (h : ∀ a, x = .ok a → Within P (k' a) (k a)) (he : ∃ e, (Out.await x k).Has e) :
    Within P (Out.await x' k') (Out.await x k) := by
  rcases hx with rfl | ⟨c, hc, rfl⟩
  · cases x' with
    | ok a => exact h a rfl
    | error f => exact Within.refl P _
  · exact Within.fail _ he

theorem Firm.await {α : Type} {P : β → Bool} {x' x : Except Fail α} {k' k : α → Out β}
    (hx : Short st' x' x) (h : ∀ a, x = .ok a → Firm P (k' a) (k a)) :
    Firm P (Out.await x' k') (Out.await x k) := by
  rcases hx with rfl | ⟨c, hc, rfl⟩
  · cases x' with
    | ok a => exact h a rfl
    | error f => exact Firm.refl P _
  · exact Firm.fail P _ _

theorem Within.map {P : β → Bool} {Q : γ → Bool} {o' o : Out β} (g : β → γ) (hg : ∀ x, Q (g x) = P x)
    (h : Within P o' o) : Within Q (o'.map g) (o.map g) := by
  rintro _ s' ⟨t', h', rfl⟩
  obtain ⟨t, s, h1, h2⟩ := h _ _ h'
  refine ⟨t.map g, s, ⟨t, h1, rfl⟩, ?_⟩
  rw [List.filter_map, show Q ∘ g = P from funext hg]
  obtain ⟨u, hu, hs⟩ := h2
  exact ⟨u.map g, hu.map g, hs.map g⟩

theorem Firm.map {P : β → Bool} {Q : γ → Bool} {o' o : Out β} (g : β → γ) (hg : ∀ x, Q (g x) = P x)
    (h : Firm P o' o) : Firm Q (o'.map g) (o.map g) := by
  rintro _ ⟨t', h', rfl⟩ hp
  refine ⟨t', h _ h' fun x hx => ?_, rfl⟩
  rw [← hg]
  exact hp _ (List.mem_map_of_mem hx)

theorem NoErr.map {o : Out β} (g : β → γ) (h : NoErr o) : NoErr (o.map g) := by
  rintro _ s ⟨t, h', rfl⟩
  exact h _ _ h'

/-- Runs of the parts of `o`, each with all that the part of `o'` has emitted. -/
theorem Within.runs {α : Type} {P : β → Bool} {o' o : α → Out β} : ∀ {l : List α} {rs' pre'},
    (∀ x ∈ l, Within P (o' x) (o x)) → Runs (l.map o') rs' →
    List.Forall₂ (fun r l => l <+: r.1) rs' pre' →
    ∃ rs, Runs (l.map o) rs ∧ (pre'.flatten.filter P).Subperm (rs.map Prod.fst).flatten
  | [], _, _, _, .nil, .nil => ⟨[], .nil, List.Subperm.refl _⟩
  | x :: l, _, _, h, .cons h1 h2, .cons p1 p2 => by
    obtain ⟨rs, i1, i2⟩ := Within.runs (fun y hy => h y (List.mem_cons_of_mem _ hy)) h2 p2
    obtain ⟨t, s, j1, j2⟩ := h x (List.mem_cons_self ..) _ _ h1
    refine ⟨(t, s) :: rs, .cons j1 i1, ?_⟩
    simp only [List.flatten_cons, List.map_cons, List.filter_append]
    exact ((p1.sublist.filter P).subperm.trans j2).append i2

theorem pre_refl : ∀ rs : List (End β), List.Forall₂ (fun r l => l <+: r.1) rs (rs.map Prod.fst)
  | [] => .nil
  | _ :: rs => .cons (List.prefix_refl _) (pre_refl rs)

theorem Within.tryAll {α : Type} {P : β → Bool} {o' o : α → Out β} {l : List α}
    (h : ∀ x ∈ l, Within P (o' x) (o x)) :
    Within P (Out.tryAll (l.map o')) (Out.tryAll (l.map o)) := by
  rintro t' s' ⟨rs', hr, h'⟩
  have hp : ∃ pre', List.Forall₂ (fun r l => l <+: r.1) rs' pre' ∧ Interleave pre' t' := by
    cases s' with
    | none => exact ⟨_, pre_refl rs', h'.2⟩
    | some f => exact h'.2
  obtain ⟨pre', p1, p2⟩ := hp
  obtain ⟨rs, i1, i2⟩ := Within.runs h hr p1
  have i3 := ((p2.perm.filter P).subperm).trans i2
  by_cases hf : ∃ r ∈ rs, r.2 ≠ none
  · obtain ⟨r, hm, hn⟩ := hf
    cases hs : r.2 with
    | none => exact absurd hs hn
    | some f => exact ⟨_, some f, ⟨rs, i1, ⟨r, hm, hs⟩, _, pre_refl rs, Interleave.seq _⟩, i3⟩
  · refine ⟨_, none, ⟨rs, i1, fun r hm => ?_, Interleave.seq _⟩, i3⟩
    by_contra hn
    exact hf ⟨r, hm, hn⟩

theorem Within.joinAll {α : Type} {P : β → Bool} {o' o : α → Out β} {l : List α}
    (h : ∀ x ∈ l, Within P (o' x) (o x)) :
    Within P (Out.joinAll (l.map o')) (Out.joinAll (l.map o)) := by
  rintro t' s' ⟨rs', hr, h'⟩
  have hp : ∃ pre', List.Forall₂ (fun r l => l <+: r.1) rs' pre' ∧ Interleave pre' t' := by
    cases s' with
    | none => exact ⟨_, pre_refl rs', h'.2⟩
    | some f => exact h'.2.2
  obtain ⟨pre', p1, p2⟩ := hp
  obtain ⟨rs, i1, i2⟩ := Within.runs h hr p1
  have i3 := ((p2.perm.filter P).subperm).trans i2
  by_cases hf : ∃ r ∈ rs, r.2 = some .panic
  · exact ⟨_, some .panic, ⟨rs, i1, rfl, hf, _, pre_refl rs, Interleave.seq _⟩, i3⟩
  · exact ⟨_, none, ⟨rs, i1, fun r hm hn => hf ⟨r, hm, hn⟩, Interleave.seq _⟩, i3⟩

/-- Parts that ended well with items `P` only. -/
theorem Firm.runs {α : Type} {P : β → Bool} {o' o : α → Out β} : ∀ {l : List α} {rs},
    (∀ x ∈ l, Firm P (o' x) (o x)) → Runs (l.map o') rs → (∀ r ∈ rs, r.2 = none) →
    (∀ r ∈ rs, ∀ x ∈ r.1, P x) → Runs (l.map o) rs
  | [], _, _, .nil, _, _ => .nil
  | x :: l, _, h, .cons (b := r) h1 h2, hn, hp => by
    refine .cons ?_ (Firm.runs (fun y hy => h y (List.mem_cons_of_mem _ hy)) h2
      (fun r hr => hn r (List.mem_cons_of_mem _ hr)) fun r hr => hp r (List.mem_cons_of_mem _ hr))
    have e := hn r (List.mem_cons_self ..)
    rw [e] at h1 ⊢
    exact h x (List.mem_cons_self ..) _ h1 (hp r (List.mem_cons_self ..))

theorem Firm.tryAll {α : Type} {P : β → Bool} {o' o : α → Out β} {l : List α}
    (h : ∀ x ∈ l, Firm P (o' x) (o x)) : Firm P (Out.tryAll (l.map o')) (Out.tryAll (l.map o)) := by
  rintro t' ⟨rs, hr, h1, h2⟩ hp
  refine ⟨rs, Firm.runs h hr h1 (fun r hr x hx => hp x ?_), h1, h2⟩
  exact h2.perm.mem_iff.2 (List.mem_flatten.2 ⟨_, List.mem_map_of_mem hr, hx⟩)

theorem NoErr.runs {α : Type} {o : α → Out β} : ∀ {l : List α} {rs},
    (∀ x ∈ l, NoErr (o x)) → Runs (l.map o) rs → ∀ r ∈ rs, ∀ e, r.2 ≠ some (.err e)
  | [], _, _, .nil, r, hr => by simp at hr
  | x :: l, _, h, .cons h1 h2, r, hr => by
    rcases List.mem_cons.1 hr with rfl | hr
    · exact h x (List.mem_cons_self ..) _ _ h1
    · exact NoErr.runs (fun y hy => h y (List.mem_cons_of_mem _ hy)) h2 r hr

theorem Firm.joinAll {α : Type} {P : β → Bool} {o' o : α → Out β} {l : List α}
    (h : ∀ x ∈ l, Firm P (o' x) (o x)) (hn : ∀ x ∈ l, NoErr (o' x)) :
    Firm P (Out.joinAll (l.map o')) (Out.joinAll (l.map o)) := by
  rintro t' ⟨rs, hr, h1, h2⟩ hp
  refine ⟨rs, Firm.runs h hr (fun r hm => ?_) (fun r hr x hx => hp x ?_), h1, h2⟩
  · have a := h1 r hm
    have b := NoErr.runs hn hr r hm
    cases e : r.2 with
    | none => rfl
    | some f =>
      cases f with
      | err x => exact absurd e (b x)
      | panic => exact absurd e a
  · exact h2.perm.mem_iff.2 (List.mem_flatten.2 ⟨_, List.mem_map_of_mem hr, hx⟩)

theorem NoErr.joinAll (ps : List (Out β)) : NoErr (Out.joinAll ps) := by
  rintro t s ⟨rs, -, h⟩ e rfl
  cases h.1

theorem NoErr.panic : NoErr (Out.fail .panic : Out β) := by
  rintro t s ⟨-, rfl⟩ e h
  cases h

theorem NoErr.emit (l : List β) : NoErr (Out.emit l) := by
  rintro t s ⟨-, rfl⟩ e h
  cases h

theorem NoErr.ofOption : ∀ x : Option (List β), NoErr (Out.ofOption x)
  | some _ => NoErr.emit _
  | none => NoErr.panic

end Out

section
variable {utf8 : List Byte → Bool} {st st' : Store}

open Out

theorem MMStruct3.get_short (h : st'.Part st) : ∀ (fuel : Nat) (m : MMStruct3) (bits t row col : Nat),
    Short st' (m.get utf8 st' fuel bits t row col) (m.get utf8 st fuel bits t row col) := by
  intro fuel
  induction fuel with
  | zero => intro m bits t row col; exact .inl rfl
  | succ fuel ih =>
    intro m bits t row col
    cases m with
    | subchunk c => exact .inl rfl
    | superchunk head loc =>
      unfold MMStruct3.get
      simp only
      cases head.locate row col with
      | none => exact .inl rfl
      | some x =>
        simp only
        cases head.references[x.1]? with
        | none => exact .inl rfl
        | some ref =>
          have key : ∀ y' y : Except Fail MMStruct3, Short st' y' y →
              Short st' (match y' with
                | .error f => .error f
                | .ok m => m.get utf8 st' fuel m.fractionalBits t x.2.1 x.2.2)
              (match y with
                | .error f => .error f
                | .ok m => m.get utf8 st fuel m.fractionalBits t x.2.1 x.2.2) := by
            rintro y' y (rfl | ⟨c, hc, rfl⟩)
            · cases y' with
              | error f => exact .inl rfl
              | ok m => exact ih m ..
            · exact .inr ⟨c, hc, rfl⟩
          cases ref with
          | elided => exact .inl rfl
          | loc i => exact key _ _ (h.deref head loc (.loc i))
          | external i => exact key _ _ (h.deref head loc (.external i))
    | span s =>
      unfold MMStruct3.get
      simp only
      cases s.findSpan t with
      | none => exact .inl rfl
      | some x =>
        simp only
        cases s.spans[x.1]? with
        | none => exact .inl rfl
        | some cid =>
          simp only
          rcases h.getStruct (utf8 := utf8) cid with e | ⟨c, hc, e⟩
          · rw [e]
            cases st.getStruct utf8 cid with
            | error f => exact .inl rfl
            | ok m => exact ih m ..
          · rw [e]
            exact .inr ⟨c, hc, rfl⟩

theorem MMStruct3.fillCell_within (h : st'.Part st) (fuel : Nat) : ∀ (m : MMStruct3)
    (bits start fin row col : Nat),
    Within (fun _ => true) (m.fillCell utf8 st' fuel bits start fin row col)
      (m.fillCell utf8 st fuel bits start fin row col) ∧
    Firm (fun _ => true) (m.fillCell utf8 st' fuel bits start fin row col)
      (m.fillCell utf8 st fuel bits start fin row col) := by
  induction fuel with
  | zero => intro m bits start fin row col; exact ⟨Within.refl _ _, Firm.refl _ _⟩
  | succ fuel ih =>
    intro m bits start fin row col
    have total := m.has_fillCell (utf8 := utf8) (st := st) (fuel + 1) bits start fin row col
    cases m with
    | subchunk c => exact ⟨Within.refl _ _, Firm.refl _ _⟩
    | superchunk head loc =>
      revert total
      unfold MMStruct3.fillCell
      simp only
      cases head.locate row col with
      | none => exact fun _ => ⟨Within.refl _ _, Firm.refl _ _⟩
      | some x =>
        simp only
        cases head.references[x.1]? with
        | none => exact fun _ => ⟨Within.refl _ _, Firm.refl _ _⟩
        | some ref =>
          cases ref with
          | elided => exact fun _ => ⟨Within.refl _ _, Firm.refl _ _⟩
          | loc i =>
            exact fun total => ⟨Within.await (h.deref ..) (fun m _ => (ih m ..).1) ⟨_, total⟩,
              Firm.await (h.deref ..) fun m _ => (ih m ..).2⟩
          | external i =>
            exact fun total => ⟨Within.await (h.deref ..) (fun m _ => (ih m ..).1) ⟨_, total⟩,
              Firm.await (h.deref ..) fun m _ => (ih m ..).2⟩
    | span s =>
      clear total
      unfold MMStruct3.fillCell
      simp only
      cases csub fin start with
      | none => exact ⟨Within.refl _ _, Firm.refl _ _⟩
      | some instants =>
        simp only
        cases s.piecesFor start instants with
        | none => exact ⟨Within.refl _ _, Firm.refl _ _⟩
        | some pieces =>
          simp only
          split
          · constructor
            · refine Within.tryAll fun p _ => ?_
              cases s.spans[p.span]? with
              | none => exact Within.refl _ _
              | some cid =>
                exact Within.await (h.getStruct cid) (fun m _ => Within.map _ (fun _ => rfl) (ih m ..).1)
                  ⟨_, has_await fun m _ => has_map _ (m.has_fillCell ..)⟩
            · refine Firm.tryAll fun p _ => ?_
              cases s.spans[p.span]? with
              | none => exact Firm.refl _ _
              | some cid =>
                exact Firm.await (h.getStruct cid) fun m _ => Firm.map _ (fun _ => rfl) (ih m ..).2
          · exact ⟨Within.refl _ _, Firm.refl _ _⟩

theorem MMStruct3.fillWindow_within (h : st'.Part st) (fuel : Nat) : ∀ (m : MMStruct3) (bits : Nat)
    (window : Cube), Within (fun _ => true) (m.fillWindow utf8 st' fuel bits window)
      (m.fillWindow utf8 st fuel bits window) := by
  induction fuel with
  | zero => intro m bits window; exact Within.refl _ _
  | succ fuel ih =>
    intro m bits window
    cases m with
    | subchunk c => exact Within.refl _ _
    | superchunk head loc =>
      unfold MMStruct3.fillWindow
      simp only
      cases head.subchunksFor window.rect with
      | none => exact Within.refl _ _
      | some subs =>
        refine Within.joinAll fun sub _ => Within.map _ (fun _ => rfl) ?_
        cases head.references[sub.index]? with
        | none => exact Within.refl _ _
        | some ref =>
          cases ref with
          | elided => exact Within.refl _ _
          | loc i =>
            exact Within.await (h.deref ..) (fun m _ => ih m _ _)
              ⟨_, has_await fun m _ => m.has_fillWindow false ..⟩
          | external i =>
            exact Within.await (h.deref ..) (fun m _ => ih m _ _)
              ⟨_, has_await fun m _ => m.has_fillWindow false ..⟩
    | span s =>
      unfold MMStruct3.fillWindow
      simp only
      cases window.instants with
      | none => exact Within.refl _ _
      | some instants =>
        simp only
        cases s.piecesFor window.start instants with
        | none => exact Within.refl _ _
        | some pieces =>
          simp only
          split
          · refine Within.tryAll fun p _ => ?_
            cases s.spans[p.span]? with
            | none => exact Within.refl _ _
            | some cid =>
              exact Within.await (h.getStruct cid) (fun m _ => Within.map _ (fun _ => rfl) (ih m _ _))
                ⟨_, has_await fun m _ => has_map _ (m.has_fillWindow false ..)⟩
          · exact Within.refl _ _

theorem MMStruct3.search_noErr (fuel : Nat) : ∀ (m : MMStruct3) (bounds : Cube) (lower upper : Int64),
    NoErr (m.search utf8 st fuel bounds lower upper) := by
  cases fuel with
  | zero => intro m bounds lower upper; exact NoErr.panic
  | succ fuel =>
    intro m bounds lower upper
    cases m with
    | subchunk c =>
      unfold MMStruct3.search
      simp only
      cases c.iterSearch bounds lower upper with
      | none => exact NoErr.panic
      | some it =>
        rintro t s (⟨_, _, _, _, rfl⟩ | ⟨_, _, rfl⟩) e h <;> cases h
    | superchunk head loc =>
      unfold MMStruct3.search
      simp only
      cases head.subchunksFor bounds.rect with
      | none => exact NoErr.panic
      | some subs =>
        simp only
        generalize (collect subs fun (sub : WindowSubchunk) => _) = x
        cases x with
        | none => exact NoErr.panic
        | some subs => exact NoErr.joinAll _
    | span s =>
      unfold MMStruct3.search
      simp only
      cases bounds.instants with
      | none => exact NoErr.panic
      | some instants =>
        simp only
        cases s.piecesFor bounds.start instants with
        | none => exact NoErr.panic
        | some pieces =>
          simp only
          split
          · exact NoErr.joinAll _
          · exact NoErr.panic

/-- superchunk.rs:502-506, span.rs:252-255: entering what could be loaded, or one item that is an error. -/
def enterSearch (x : Except Fail MMStruct3) (k : MMStruct3 → Out (Option (Nat × Nat × Nat))) :
    Out (Option (Nat × Nat × Nat)) :=
  match x with
  | .ok m => k m
  | .error (.err _) => Out.emit [none]
  | .error .panic => Out.fail .panic

theorem enterSearch_noErr (x : Except Fail MMStruct3) {k : MMStruct3 → Out (Option (Nat × Nat × Nat))}
    (h : ∀ m, NoErr (k m)) : NoErr (enterSearch x k) := by
  cases x with
  | ok m => exact h m
  | error f => cases f <;> [exact NoErr.emit _; exact NoErr.panic]

theorem enterSearch_within {x' x : Except Fail MMStruct3} (hx : Short st' x' x)
    {k' k : MMStruct3 → Out (Option (Nat × Nat × Nat))}
    (h : ∀ m, Within Option.isSome (k' m) (k m)) (he : ∀ m, ∃ e, (k m).Has e) :
    Within Option.isSome (enterSearch x' k') (enterSearch x k) := by
  rcases hx with rfl | ⟨c, hc, rfl⟩
  · cases x' with
    | ok m => exact h m
    | error f => cases f <;> exact Within.refl _ _
  · rintro t' s' ⟨rfl, rfl⟩
    have : ∃ e, (enterSearch x k).Has e := by
      cases x with
      | ok m => exact he m
      | error f => cases f <;> exact ⟨(_, _), rfl, rfl⟩
    obtain ⟨e, he⟩ := this
    exact ⟨e.1, e.2, he, List.nil_subperm⟩

theorem enterSearch_firm {x' x : Except Fail MMStruct3} (hx : Short st' x' x)
    {k' k : MMStruct3 → Out (Option (Nat × Nat × Nat))}
    (h : ∀ m, Firm Option.isSome (k' m) (k m)) :
    Firm Option.isSome (enterSearch x' k') (enterSearch x k) := by
  rcases hx with rfl | ⟨c, hc, rfl⟩
  · cases x' with
    | ok m => exact h m
    | error f => cases f <;> exact Firm.refl _ _
  · rintro t' ⟨rfl, -⟩ hp
    have := hp none (List.mem_cons_self ..)
    cases this

theorem MMStruct3.search_within (h : st'.Part st) (fuel : Nat) : ∀ (m : MMStruct3) (bounds : Cube)
    (lower upper : Int64),
    Within Option.isSome (m.search utf8 st' fuel bounds lower upper)
      (m.search utf8 st fuel bounds lower upper) ∧
    Firm Option.isSome (m.search utf8 st' fuel bounds lower upper)
      (m.search utf8 st fuel bounds lower upper) := by
  induction fuel with
  | zero => intro m bounds lower upper; exact ⟨Within.refl _ _, Firm.refl _ _⟩
  | succ fuel ih =>
    intro m bounds lower upper
    cases m with
    | subchunk c => exact ⟨Within.refl _ _, Firm.refl _ _⟩
    | superchunk head loc =>
      unfold MMStruct3.search
      simp only
      cases head.subchunksFor bounds.rect with
      | none => exact ⟨Within.refl _ _, Firm.refl _ _⟩
      | some subs =>
        simp only
        generalize (collect subs fun (sub : WindowSubchunk) => _) = x
        cases x with
        | none => exact ⟨Within.refl _ _, Firm.refl _ _⟩
        | some subs =>
          simp only
          refine ⟨Within.joinAll fun sub _ => ?_, Firm.joinAll (fun sub _ => ?_) fun sub _ => ?_⟩
          · cases head.references[sub.index]? with
            | none => exact Within.refl _ _
            | some ref =>
              cases ref with
              | elided => exact Within.refl _ _
              | loc i =>
                exact enterSearch_within (h.deref head loc (.loc i))
                  (fun m => Within.map _ (fun x => by cases x <;> rfl) (ih m ..).1)
                  fun m => (m.search_total ..).elim fun _ he => ⟨_, has_map _ he⟩
              | external i =>
                exact enterSearch_within (h.deref head loc (.external i))
                  (fun m => Within.map _ (fun x => by cases x <;> rfl) (ih m ..).1)
                  fun m => (m.search_total ..).elim fun _ he => ⟨_, has_map _ he⟩
          · cases head.references[sub.index]? with
            | none => exact Firm.refl _ _
            | some ref =>
              cases ref with
              | elided => exact Firm.refl _ _
              | loc i =>
                exact enterSearch_firm (h.deref head loc (.loc i))
                  fun m => Firm.map _ (fun x => by cases x <;> rfl) (ih m ..).2
              | external i =>
                exact enterSearch_firm (h.deref head loc (.external i))
                  fun m => Firm.map _ (fun x => by cases x <;> rfl) (ih m ..).2
          · cases head.references[sub.index]? with
            | none => exact NoErr.panic
            | some ref =>
              cases ref with
              | elided => exact NoErr.ofOption _
              | loc i => exact enterSearch_noErr _ fun m => NoErr.map _ (MMStruct3.search_noErr _ m _ _ _)
              | external i => exact enterSearch_noErr _ fun m => NoErr.map _ (MMStruct3.search_noErr _ m _ _ _)
    | span s =>
      unfold MMStruct3.search
      simp only
      cases bounds.instants with
      | none => exact ⟨Within.refl _ _, Firm.refl _ _⟩
      | some instants =>
        simp only
        cases s.piecesFor bounds.start instants with
        | none => exact ⟨Within.refl _ _, Firm.refl _ _⟩
        | some pieces =>
          simp only
          split
          · refine ⟨Within.joinAll fun p _ => ?_, Firm.joinAll (fun p _ => ?_) fun p _ => ?_⟩
            · cases s.spans[p.span]? with
              | none => exact Within.refl _ _
              | some cid =>
                exact enterSearch_within (h.getStruct cid)
                  (fun m => Within.map _ (fun x => by cases x <;> rfl) (ih m ..).1)
                  fun m => (m.search_total ..).elim fun _ he => ⟨_, has_map _ he⟩
            · cases s.spans[p.span]? with
              | none => exact Firm.refl _ _
              | some cid =>
                exact enterSearch_firm (h.getStruct cid)
                  fun m => Firm.map _ (fun x => by cases x <;> rfl) (ih m ..).2
            · cases s.spans[p.span]? with
              | none => exact NoErr.panic
              | some cid => exact enterSearch_noErr _ fun m => NoErr.map _ (MMStruct3.search_noErr _ m _ _ _)
          · exact ⟨Within.refl _ _, Firm.refl _ _⟩

end

end Verif
