import Verif.Props.Shows
import Verif.Lemmas.Memory
import Verif.Props.Resolver

/-!
Property C96: answers do not depend on the order in which tasks run.
-/
namespace Verif

/-- There is a run; and either all runs end well and emit the same, in some order, or all panic. -/
def Out.Sure {β : Type} (o : Out β) : Prop :=
  (∃ t s, o t s) ∧ ((∃ L, ∀ t s, o t s → s = none ∧ t.Perm L) ∨ ∀ t s, o t s → s = some .panic)

section
variable {β ι : Type}

theorem Out.Sure.fail : (Out.fail .panic : Out β).Sure := ⟨⟨_, _, rfl, rfl⟩, .inr fun _ _ h => h.2⟩

theorem Out.Sure.emit {L : List β} : (Out.emit L).Sure :=
  ⟨⟨_, _, rfl, rfl⟩, .inl ⟨L, fun _ _ h => ⟨h.2, h.1 ▸ List.Perm.refl _⟩⟩⟩

theorem Out.Sure.ofOption {o : Option (List β)} : (Out.ofOption o).Sure := by
  cases o with
  | none => exact Out.Sure.fail
  | some l => exact Out.Sure.emit

theorem Out.Sure.map {γ : Type} {k : β → γ} {o : Out β} (h : o.Sure) : (o.map k).Sure := by
  obtain ⟨⟨t, s, h1⟩, h2⟩ := h
  refine ⟨⟨_, _, t, h1, rfl⟩, ?_⟩
  rcases h2 with ⟨L, h2⟩ | h2
  · refine .inl ⟨L.map k, ?_⟩
    rintro t s ⟨t', h3, rfl⟩
    exact ⟨(h2 _ _ h3).1, (h2 _ _ h3).2.map k⟩
  · refine .inr ?_
    rintro t s ⟨t', h3, rfl⟩
    exact h2 _ _ h3

theorem runs_exist {ps : List (Out β)} (h : ∀ p ∈ ps, ∃ t s, p t s) : ∃ rs, Out.Runs ps rs := by
  induction ps with
  | nil => exact ⟨[], .nil⟩
  | cons p ps ih =>
    obtain ⟨rs, hr⟩ := ih fun q hq => h q (by simp [hq])
    obtain ⟨t, s, hp⟩ := h p (by simp)
    exact ⟨(t, s) :: rs, .cons hp hr⟩

/-- The runs of parts that are sure of themselves. -/
theorem runs_sure {ps : List (Out β)} (h : ∀ p ∈ ps, p.Sure) :
    (∃ L, ∀ rs, Out.Runs ps rs → (∀ r ∈ rs, r.2 = none) ∧ (rs.map Prod.fst).flatten.Perm L) ∨
    ∀ rs, Out.Runs ps rs → (∀ r ∈ rs, r.2 = none ∨ r.2 = some .panic) ∧ ∃ r ∈ rs, r.2 = some .panic := by
  induction ps with
  | nil =>
    refine .inl ⟨[], fun rs hr => ?_⟩
    cases hr
    exact ⟨fun _ h => absurd h List.not_mem_nil, List.Perm.refl _⟩
  | cons p ps ih =>
    have hp := (h p (by simp)).2
    rcases ih fun q hq => h q (by simp [hq]) with ⟨M, hM⟩ | hM
    · rcases hp with ⟨L, hL⟩ | hL
      · refine .inl ⟨L ++ M, fun rs hr => ?_⟩
        cases hr with
        | @cons _ r _ rs h1 h2 =>
          obtain ⟨a1, a2⟩ := hL _ _ h1
          obtain ⟨b1, b2⟩ := hM _ h2
          refine ⟨fun r' hr' => ?_, ?_⟩
          · rcases List.mem_cons.1 hr' with rfl | hr'
            · exact a1
            · exact b1 r' hr'
          · rw [List.map_cons, List.flatten_cons]
            exact a2.append b2
      · refine .inr fun rs hr => ?_
        cases hr with
        | @cons _ r _ rs h1 h2 =>
          obtain ⟨b1, b2⟩ := hM _ h2
          refine ⟨fun r' hr' => ?_, r, by simp, hL _ _ h1⟩
          rcases List.mem_cons.1 hr' with rfl | hr'
          · exact .inr (hL _ _ h1)
          · exact .inl (b1 r' hr')
    · refine .inr fun rs hr => ?_
      cases hr with
      | @cons _ r _ rs h1 h2 =>
        obtain ⟨b1, r', b2, b3⟩ := hM _ h2
        refine ⟨fun r'' hr'' => ?_, r', by simp [b2], b3⟩
        rcases List.mem_cons.1 hr'' with rfl | hr''
        · rcases hp with ⟨L, hL⟩ | hL
          · exact .inl (hL _ _ h1).1
          · exact .inr (hL _ _ h1)
        · exact b1 r'' hr''

theorem prefixes_nil {rs : List (List β × Option Fail)} : Out.Partial rs [] := by
  refine ⟨rs.map fun _ => [], ?_, ?_⟩
  · induction rs with
    | nil => exact .nil
    | cons r rs ih => exact .cons (List.nil_prefix) ih
  · have := Interleave.seq (rs.map fun _ => ([] : List β))
    rwa [show (rs.map fun _ => ([] : List β)).flatten = [] by simp] at this

theorem Out.Sure.joinAll {xs : List ι} {p : ι → Out β} (h : ∀ x ∈ xs, (p x).Sure) :
    (Out.joinAll (xs.map p)).Sure := by
  have h : ∀ q ∈ xs.map p, q.Sure := by
    intro q hq
    obtain ⟨x, hx, rfl⟩ := List.mem_map.1 hq
    exact h x hx
  obtain ⟨rs, hr⟩ := runs_exist fun q hq => (h q hq).1
  rcases runs_sure h with ⟨L, hL⟩ | hL
  · refine ⟨⟨_, none, rs, hr, fun r h => by rw [(hL rs hr).1 r h]; nofun, Interleave.seq _⟩, .inl ⟨L, ?_⟩⟩
    rintro t s ⟨rs, hr, hs⟩
    obtain ⟨a1, a2⟩ := hL rs hr
    cases s with
    | none => exact ⟨rfl, hs.2.perm.trans a2⟩
    | some f =>
      obtain ⟨-, ⟨r, hm, e⟩, -⟩ := hs
      rw [a1 r hm] at e
      cases e
  · refine ⟨⟨[], some .panic, rs, hr, rfl, (hL rs hr).2, prefixes_nil⟩, .inr ?_⟩
    rintro t s ⟨rs, hr, hs⟩
    obtain ⟨-, r, hm, e⟩ := hL rs hr
    cases s with
    | none => exact absurd e (hs.1 r hm)
    | some f => rw [hs.1]

theorem Out.Sure.tryAll {xs : List ι} {p : ι → Out β} (h : ∀ x ∈ xs, (p x).Sure) :
    (Out.tryAll (xs.map p)).Sure := by
  have h : ∀ q ∈ xs.map p, q.Sure := by
    intro q hq
    obtain ⟨x, hx, rfl⟩ := List.mem_map.1 hq
    exact h x hx
  obtain ⟨rs, hr⟩ := runs_exist fun q hq => (h q hq).1
  rcases runs_sure h with ⟨L, hL⟩ | hL
  · refine ⟨⟨_, none, rs, hr, (hL rs hr).1, Interleave.seq _⟩, .inl ⟨L, ?_⟩⟩
    rintro t s ⟨rs, hr, hs⟩
    obtain ⟨a1, a2⟩ := hL rs hr
    cases s with
    | none => exact ⟨rfl, hs.2.perm.trans a2⟩
    | some f =>
      obtain ⟨⟨r, hm, e⟩, -⟩ := hs
      rw [a1 r hm] at e
      cases e
  · refine ⟨⟨[], some .panic, rs, hr, (hL rs hr).2, prefixes_nil⟩, .inr ?_⟩
    rintro t s ⟨rs, hr, hs⟩
    obtain ⟨a, r, hm, e⟩ := hL rs hr
    cases s with
    | none =>
      rw [hs.1 r hm] at e
      cases e
    | some f =>
      obtain ⟨r', hm', e'⟩ := hs.1
      rcases a r' hm' with e'' | e''
      · rw [e''] at e'
        cases e'
      · rw [← e', e'']

end

theorem SearchIter.toList_unique {c : Chunk} : ∀ {n n' : Nat} {it : SearchIter} {l l' : List (Nat × Nat × Nat)},
    it.toList c n = some l → it.toList c n' = some l' → l = l' := by
  intro n
  induction n with
  | zero => intro n' it l l' h; cases h
  | succ n ih =>
    intro n' it l l' h h'
    cases n' with
    | zero => cases h'
    | succ n' =>
      unfold SearchIter.toList at h h'
      cases e : it.next c with
      | none => simp [e] at h
      | some q =>
        obtain ⟨x, it'⟩ := q
        cases x with
        | none =>
          simp only [e, Option.some.injEq] at h h'
          rw [← h, ← h']
        | some x =>
          simp only [e] at h h'
          obtain ⟨a, ha, rfl⟩ := Option.map_eq_some_iff.1 h
          obtain ⟨b, hb, rfl⟩ := Option.map_eq_some_iff.1 h'
          rw [ih ha hb]

section
variable {utf8 : List Byte → Bool} {st : Store}

theorem MMStruct3.search_sure : ∀ (fuel : Nat) (m : MMStruct3) (bounds : Cube) (lower upper : Int64),
    (m.search utf8 st fuel bounds lower upper).Sure := by
  intro fuel
  induction fuel with
  | zero => intros; exact Out.Sure.fail
  | succ fuel ih =>
    intro m bounds lower upper
    have enter : ∀ (x : Except Fail MMStruct3) (k : MMStruct3 → Out (Option (Nat × Nat × Nat))),
        (∀ m, (k m).Sure) →
        (match x with
          | .ok m => k m
          | .error (.err _) => Out.emit [none]
          | .error .panic => Out.fail .panic : Out (Option (Nat × Nat × Nat))).Sure := by
      intro x k h
      cases x with
      | ok m => exact h m
      | error e =>
        cases e with
        | err e => exact Out.Sure.emit
        | panic => exact Out.Sure.fail
    cases m with
    | subchunk c =>
      unfold MMStruct3.search
      simp only
      cases c.iterSearch bounds lower upper with
      | none => exact Out.Sure.fail
      | some it =>
        by_cases h : ∃ n l, it.toList c n = some l
        · obtain ⟨n, l, h⟩ := h
          refine ⟨⟨l.map some, none, .inl ⟨n, l, h, rfl, rfl⟩⟩, .inl ⟨l.map some, ?_⟩⟩
          rintro t s (⟨n', l', h', rfl, rfl⟩ | ⟨h', -, -⟩)
          · refine ⟨rfl, List.Perm.of_eq ?_⟩
            rw [SearchIter.toList_unique h' h]
          · rw [h' n] at h
            cases h
        · have h : ∀ n, it.toList c n = none := by
            intro n
            cases e : it.toList c n with
            | none => rfl
            | some l => exact absurd ⟨n, l, e⟩ h
          refine ⟨⟨[], some .panic, .inr ⟨h, rfl, rfl⟩⟩, .inr ?_⟩
          rintro t s (⟨n', l', h', rfl, rfl⟩ | ⟨-, -, h'⟩)
          · rw [h n'] at h'
            cases h'
          · exact h'
    | superchunk hd loc =>
      unfold MMStruct3.search
      simp only
      cases hd.subchunksFor bounds.rect with
      | none => exact Out.Sure.fail
      | some subs =>
        simp only
        generalize (collect subs fun (sub : WindowSubchunk) => _) = kept
        cases kept with
        | none => exact Out.Sure.fail
        | some kept =>
          refine Out.Sure.joinAll fun sub _ => ?_
          cases hd.references[sub.index]? with
          | none => exact Out.Sure.fail
          | some ref =>
            cases ref with
            | elided => exact Out.Sure.ofOption
            | loc a => exact enter _ _ fun m => (ih m _ _ _).map
            | external a => exact enter _ _ fun m => (ih m _ _ _).map
    | span s =>
      unfold MMStruct3.search
      simp only
      cases bounds.instants with
      | none => exact Out.Sure.fail
      | some n =>
        simp only
        cases s.piecesFor bounds.start n with
        | none => exact Out.Sure.fail
        | some ps =>
          simp only
          by_cases hlen : ∀ p ∈ ps, p.span < s.spans.length
          · rw [if_pos hlen]
            refine Out.Sure.joinAll fun p _ => ?_
            cases s.spans[p.span]? with
            | none => exact Out.Sure.fail
            | some cid => exact enter _ _ fun m => (ih m _ _ _).map
          · rw [if_neg hlen]
            exact Out.Sure.fail

theorem Out.Sure.await {α β : Type} {x : Except Fail α} {k : α → Out β} (hx : ∀ e, x ≠ .error (.err e))
    (h : ∀ a, x = .ok a → (k a).Sure) : (Out.await x k).Sure := by
  cases x with
  | ok a => exact h a rfl
  | error f =>
    cases f with
    | err e => exact absurd rfl (hx e)
    | panic => exact Out.Sure.fail

theorem MMStruct3.fillWindow_sure : ∀ (fuel : Nat) (m : MMStruct3) (bits : Nat) (window : Cube),
    Spec.Whole utf8 st fuel m → (m.fillWindow utf8 st fuel bits window).Sure := by
  intro fuel
  induction fuel with
  | zero => intros; exact Out.Sure.fail
  | succ fuel ih =>
    intro m bits window hw
    cases m with
    | subchunk c =>
      unfold MMStruct3.fillWindow
      exact Out.Sure.ofOption
    | superchunk hd loc =>
      unfold MMStruct3.fillWindow
      simp only
      cases hd.subchunksFor window.rect with
      | none => exact Out.Sure.fail
      | some subs =>
        simp only
        refine Out.Sure.joinAll fun sub _ => Out.Sure.map ?_
        cases href : hd.references[sub.index]? with
        | none => exact Out.Sure.fail
        | some ref =>
          have hmem := List.mem_of_getElem? href
          cases ref with
          | elided => exact Out.Sure.ofOption
          | loc a =>
            obtain ⟨h1, h2⟩ := hw _ hmem nofun
            exact Out.Sure.await h1 fun m hm => ih m _ _ (h2 m hm)
          | external a =>
            obtain ⟨h1, h2⟩ := hw _ hmem nofun
            exact Out.Sure.await h1 fun m hm => ih m _ _ (h2 m hm)
    | span s =>
      unfold MMStruct3.fillWindow
      simp only
      cases window.instants with
      | none => exact Out.Sure.fail
      | some n =>
        simp only
        cases s.piecesFor window.start n with
        | none => exact Out.Sure.fail
        | some ps =>
          simp only
          by_cases hlen : ∀ p ∈ ps, p.span < s.spans.length
          · rw [if_pos hlen]
            refine Out.Sure.tryAll fun p _ => ?_
            cases hcid : s.spans[p.span]? with
            | none => exact Out.Sure.fail
            | some cid =>
              obtain ⟨h1, h2⟩ := hw _ (List.mem_of_getElem? hcid)
              exact Out.Sure.await h1 fun m hm => (ih m _ _ (h2 m hm)).map
          · rw [if_neg hlen]
            exact Out.Sure.fail

end

/-- There is a run; and either all runs end well and emit the same, in some order, or none ends well. -/
def Out.Settled {β : Type} (o : Out β) : Prop :=
  (∃ t s, o t s) ∧ ((∃ L, ∀ t s, o t s → s = none ∧ t.Perm L) ∨ ∀ t s, o t s → s ≠ none)

section
variable {β ι : Type}

theorem Out.Settled.fail {f : Fail} : (Out.fail f : Out β).Settled :=
  ⟨⟨_, _, rfl, rfl⟩, .inr fun _ _ h => by rw [h.2]; nofun⟩

theorem Out.Settled.ofOption {o : Option (List β)} : (Out.ofOption o).Settled := by
  cases o with
  | none => exact Out.Settled.fail
  | some l => exact ⟨⟨_, _, rfl, rfl⟩, .inl ⟨l, fun _ _ h => ⟨h.2, h.1 ▸ List.Perm.refl _⟩⟩⟩

theorem Out.Settled.await {α : Type} {x : Except Fail α} {k : α → Out β} (h : ∀ a, x = .ok a → (k a).Settled) :
    (Out.await x k).Settled := by
  cases x with
  | ok a => exact h a rfl
  | error f => exact Out.Settled.fail

theorem Out.Settled.map {γ : Type} {k : β → γ} {o : Out β} (h : o.Settled) : (o.map k).Settled := by
  obtain ⟨⟨t, s, h1⟩, h2⟩ := h
  refine ⟨⟨_, _, t, h1, rfl⟩, ?_⟩
  rcases h2 with ⟨L, h2⟩ | h2
  · refine .inl ⟨L.map k, ?_⟩
    rintro t s ⟨t', h3, rfl⟩
    exact ⟨(h2 _ _ h3).1, (h2 _ _ h3).2.map k⟩
  · refine .inr ?_
    rintro t s ⟨t', h3, rfl⟩
    exact h2 _ _ h3

theorem runs_settled {ps : List (Out β)} (h : ∀ p ∈ ps, p.Settled) :
    (∃ L, ∀ rs, Out.Runs ps rs → (∀ r ∈ rs, r.2 = none) ∧ (rs.map Prod.fst).flatten.Perm L) ∨
    ∀ rs, Out.Runs ps rs → ∃ r ∈ rs, r.2 ≠ none := by
  induction ps with
  | nil =>
    refine .inl ⟨[], fun rs hr => ?_⟩
    cases hr
    exact ⟨fun _ h => absurd h List.not_mem_nil, List.Perm.refl _⟩
  | cons p ps ih =>
    rcases ih fun q hq => h q (by simp [hq]) with ⟨M, hM⟩ | hM
    · rcases (h p (by simp)).2 with ⟨L, hL⟩ | hL
      · refine .inl ⟨L ++ M, fun rs hr => ?_⟩
        cases hr with
        | @cons _ r _ rs h1 h2 =>
          obtain ⟨a1, a2⟩ := hL _ _ h1
          obtain ⟨b1, b2⟩ := hM _ h2
          refine ⟨fun r' hr' => ?_, ?_⟩
          · rcases List.mem_cons.1 hr' with rfl | hr'
            · exact a1
            · exact b1 r' hr'
          · rw [List.map_cons, List.flatten_cons]
            exact a2.append b2
      · refine .inr fun rs hr => ?_
        cases hr with
        | @cons _ r _ rs h1 h2 => exact ⟨r, by simp, hL _ _ h1⟩
    · refine .inr fun rs hr => ?_
      cases hr with
      | @cons _ r _ rs h1 h2 =>
        obtain ⟨r', b2, b3⟩ := hM _ h2
        exact ⟨r', by simp [b2], b3⟩

theorem Out.Settled.tryAll {xs : List ι} {p : ι → Out β} (h : ∀ x ∈ xs, (p x).Settled) :
    (Out.tryAll (xs.map p)).Settled := by
  have h : ∀ q ∈ xs.map p, q.Settled := by
    intro q hq
    obtain ⟨x, hx, rfl⟩ := List.mem_map.1 hq
    exact h x hx
  obtain ⟨rs, hr⟩ := runs_exist fun q hq => (h q hq).1
  rcases runs_settled h with ⟨L, hL⟩ | hL
  · refine ⟨⟨_, none, rs, hr, (hL rs hr).1, Interleave.seq _⟩, .inl ⟨L, ?_⟩⟩
    rintro t s ⟨rs, hr, hs⟩
    obtain ⟨a1, a2⟩ := hL rs hr
    cases s with
    | none => exact ⟨rfl, hs.2.perm.trans a2⟩
    | some f =>
      obtain ⟨⟨r, hm, e⟩, -⟩ := hs
      rw [a1 r hm] at e
      cases e
  · obtain ⟨r, hm, e⟩ := hL rs hr
    obtain ⟨f, hf⟩ := Option.ne_none_iff_exists'.1 e
    refine ⟨⟨[], some f, rs, hr, ⟨r, hm, hf⟩, prefixes_nil⟩, .inr ?_⟩
    rintro t s ⟨rs, hr, hs⟩ rfl
    obtain ⟨r, hm, e⟩ := hL rs hr
    exact e (hs.1 r hm)

end

theorem MMStruct3.fillCell_settled {utf8 : List Byte → Bool} {st : Store} : ∀ (fuel : Nat) (m : MMStruct3)
    (bits start fin row col : Nat), (m.fillCell utf8 st fuel bits start fin row col).Settled := by
  intro fuel
  induction fuel with
  | zero => intros; exact Out.Settled.fail
  | succ fuel ih =>
    intro m bits start fin row col
    cases m with
    | subchunk c =>
      unfold MMStruct3.fillCell
      exact Out.Settled.ofOption
    | superchunk hd loc =>
      unfold MMStruct3.fillCell
      simp only
      cases hd.locate row col with
      | none => exact Out.Settled.fail
      | some q =>
        obtain ⟨index, row, col⟩ := q
        simp only
        cases hd.references[index]? with
        | none => exact Out.Settled.fail
        | some ref =>
          cases ref with
          | elided => exact Out.Settled.ofOption
          | loc a => exact Out.Settled.await fun m _ => ih m _ _ _ _ _
          | external a => exact Out.Settled.await fun m _ => ih m _ _ _ _ _
    | span s =>
      unfold MMStruct3.fillCell
      simp only
      cases csub fin start with
      | none => exact Out.Settled.fail
      | some n =>
        simp only
        cases s.piecesFor start n with
        | none => exact Out.Settled.fail
        | some ps =>
          simp only
          by_cases hlen : ∀ p ∈ ps, p.span < s.spans.length
          · rw [if_pos hlen]
            refine Out.Settled.tryAll fun p _ => ?_
            cases s.spans[p.span]? with
            | none => exact Out.Settled.fail
            | some cid => exact Out.Settled.await fun m _ => (ih m _ _ _ _ _).map
          · rw [if_neg hlen]
            exact Out.Settled.fail

/-! #### Structures in which superchunks do not lead to spans -/

/-- As `Out.Sure`, but all runs may also fail with the same error. -/
def Out.Fixed {β : Type} (o : Out β) : Prop :=
  (∃ t s, o t s) ∧ ((∃ L, ∀ t s, o t s → s ≠ some .panic ∧ t.Perm L) ∨ ∀ t s, o t s → s = some .panic)

section
variable {β ι : Type}

theorem Out.Sure.fixed {o : Out β} (h : o.Sure) : o.Fixed := by
  refine ⟨h.1, ?_⟩
  rcases h.2 with ⟨L, hL⟩ | hL
  · exact .inl ⟨L, fun t s ht => ⟨by rw [(hL t s ht).1]; nofun, (hL t s ht).2⟩⟩
  · exact .inr hL

theorem Out.Sure.settled {o : Out β} (h : o.Sure) : o.Settled := by
  refine ⟨h.1, ?_⟩
  rcases h.2 with ⟨L, hL⟩ | hL
  · exact .inl ⟨L, hL⟩
  · exact .inr fun t s ht => by rw [hL t s ht]; nofun

theorem Out.Fixed.fail {f : Fail} : (Out.fail f : Out β).Fixed := by
  refine ⟨⟨_, _, rfl, rfl⟩, ?_⟩
  cases f with
  | err e => exact .inl ⟨[], fun _ _ h => ⟨by rw [h.2]; nofun, h.1 ▸ List.Perm.refl _⟩⟩
  | panic => exact .inr fun _ _ h => h.2

theorem Out.Fixed.await {α : Type} {x : Except Fail α} {k : α → Out β} (h : ∀ a, x = .ok a → (k a).Fixed) :
    (Out.await x k).Fixed := by
  cases x with
  | ok a => exact h a rfl
  | error f => exact Out.Fixed.fail

theorem Out.Fixed.map {γ : Type} {k : β → γ} {o : Out β} (h : o.Fixed) : (o.map k).Fixed := by
  obtain ⟨⟨t, s, h1⟩, h2⟩ := h
  refine ⟨⟨_, _, t, h1, rfl⟩, ?_⟩
  rcases h2 with ⟨L, h2⟩ | h2
  · refine .inl ⟨L.map k, ?_⟩
    rintro t s ⟨t', h3, rfl⟩
    exact ⟨(h2 _ _ h3).1, (h2 _ _ h3).2.map k⟩
  · refine .inr ?_
    rintro t s ⟨t', h3, rfl⟩
    exact h2 _ _ h3

theorem runs_fixed {ps : List (Out β)} (h : ∀ p ∈ ps, p.Fixed) :
    (∃ L, ∀ rs, Out.Runs ps rs → (∀ r ∈ rs, r.2 ≠ some .panic) ∧ (rs.map Prod.fst).flatten.Perm L) ∨
    ∀ rs, Out.Runs ps rs → ∃ r ∈ rs, r.2 = some .panic := by
  induction ps with
  | nil =>
    refine .inl ⟨[], fun rs hr => ?_⟩
    cases hr
    exact ⟨fun _ h => absurd h List.not_mem_nil, List.Perm.refl _⟩
  | cons p ps ih =>
    rcases ih fun q hq => h q (by simp [hq]) with ⟨M, hM⟩ | hM
    · rcases (h p (by simp)).2 with ⟨L, hL⟩ | hL
      · refine .inl ⟨L ++ M, fun rs hr => ?_⟩
        cases hr with
        | @cons _ r _ rs h1 h2 =>
          obtain ⟨a1, a2⟩ := hL _ _ h1
          obtain ⟨b1, b2⟩ := hM _ h2
          refine ⟨fun r' hr' => ?_, ?_⟩
          · rcases List.mem_cons.1 hr' with rfl | hr'
            · exact a1
            · exact b1 r' hr'
          · rw [List.map_cons, List.flatten_cons]
            exact a2.append b2
      · refine .inr fun rs hr => ?_
        cases hr with
        | @cons _ r _ rs h1 h2 => exact ⟨r, by simp, hL _ _ h1⟩
    · refine .inr fun rs hr => ?_
      cases hr with
      | @cons _ r _ rs h1 h2 =>
        obtain ⟨r', b2, b3⟩ := hM _ h2
        exact ⟨r', by simp [b2], b3⟩

theorem Out.Fixed.joinAll {xs : List ι} {p : ι → Out β} (h : ∀ x ∈ xs, (p x).Fixed) :
    (Out.joinAll (xs.map p)).Sure := by
  have h : ∀ q ∈ xs.map p, q.Fixed := by
    intro q hq
    obtain ⟨x, hx, rfl⟩ := List.mem_map.1 hq
    exact h x hx
  obtain ⟨rs, hr⟩ := runs_exist fun q hq => (h q hq).1
  rcases runs_fixed h with ⟨L, hL⟩ | hL
  · refine ⟨⟨_, none, rs, hr, (hL rs hr).1, Interleave.seq _⟩, .inl ⟨L, ?_⟩⟩
    rintro t s ⟨rs, hr, hs⟩
    obtain ⟨a1, a2⟩ := hL rs hr
    cases s with
    | none => exact ⟨rfl, hs.2.perm.trans a2⟩
    | some f =>
      obtain ⟨-, ⟨r, hm, e⟩, -⟩ := hs
      exact absurd e (a1 r hm)
  · refine ⟨⟨[], some .panic, rs, hr, rfl, hL rs hr, prefixes_nil⟩, .inr ?_⟩
    rintro t s ⟨rs, hr, hs⟩
    obtain ⟨r, hm, e⟩ := hL rs hr
    cases s with
    | none => exact absurd e (hs.1 r hm)
    | some f => rw [hs.1]

end

/-- Chunks, and superchunks that lead to nothing but such, as far as they can be loaded. -/
def Spec.Flat (utf8 : List Byte → Bool) (st : Store) : Nat → MMStruct3 → Prop
  | 0, _ => True
  | _ + 1, .subchunk _ => True
  | fuel + 1, .superchunk h loc => ∀ ref ∈ h.references, ref ≠ .elided →
      ∀ m, h.deref utf8 st loc ref = .ok m → Spec.Flat utf8 st fuel m
  | _ + 1, .span _ => False

/-- Those, and spans that lead to nothing but such, as far as they can be loaded. -/
def Spec.Plain (utf8 : List Byte → Bool) (st : Store) : Nat → MMStruct3 → Prop
  | 0, _ => True
  | fuel + 1, .subchunk c => Spec.Flat utf8 st (fuel + 1) (.subchunk c)
  | fuel + 1, .superchunk h loc => Spec.Flat utf8 st (fuel + 1) (.superchunk h loc)
  | fuel + 1, .span s => ∀ cid ∈ s.spans, ∀ m, st.getStruct utf8 cid = .ok m → Spec.Plain utf8 st fuel m

section
variable {utf8 : List Byte → Bool} {st : Store}

theorem MMStruct3.fillWindow_flat : ∀ (fuel : Nat) (m : MMStruct3) (bits : Nat) (window : Cube),
    Spec.Flat utf8 st fuel m → (m.fillWindow utf8 st fuel bits window).Sure := by
  intro fuel
  induction fuel with
  | zero => intros; exact Out.Sure.fail
  | succ fuel ih =>
    intro m bits window hw
    cases m with
    | subchunk c =>
      unfold MMStruct3.fillWindow
      exact Out.Sure.ofOption
    | superchunk hd loc =>
      unfold MMStruct3.fillWindow
      simp only
      cases hd.subchunksFor window.rect with
      | none => exact Out.Sure.fail
      | some subs =>
        simp only
        refine Out.Fixed.joinAll fun sub _ => Out.Fixed.map ?_
        cases href : hd.references[sub.index]? with
        | none => exact Out.Fixed.fail
        | some ref =>
          have hmem := List.mem_of_getElem? href
          cases ref with
          | elided => exact Out.Sure.ofOption.fixed
          | loc a => exact Out.Fixed.await fun m hm => (ih m _ _ (hw _ hmem nofun m hm)).fixed
          | external a => exact Out.Fixed.await fun m hm => (ih m _ _ (hw _ hmem nofun m hm)).fixed
    | span s => exact hw.elim

theorem MMStruct3.fillWindow_settled : ∀ (fuel : Nat) (m : MMStruct3) (bits : Nat) (window : Cube),
    Spec.Plain utf8 st fuel m → (m.fillWindow utf8 st fuel bits window).Settled := by
  intro fuel
  induction fuel with
  | zero => intros; exact Out.Settled.fail
  | succ fuel ih =>
    intro m bits window hw
    cases m with
    | subchunk c => exact (MMStruct3.fillWindow_flat _ _ bits window hw).settled
    | superchunk hd loc => exact (MMStruct3.fillWindow_flat _ _ bits window hw).settled
    | span s =>
      unfold MMStruct3.fillWindow
      simp only
      cases window.instants with
      | none => exact Out.Settled.fail
      | some n =>
        simp only
        cases s.piecesFor window.start n with
        | none => exact Out.Settled.fail
        | some ps =>
          simp only
          by_cases hlen : ∀ p ∈ ps, p.span < s.spans.length
          · rw [if_pos hlen]
            refine Out.Settled.tryAll fun p _ => ?_
            cases hcid : s.spans[p.span]? with
            | none => exact Out.Settled.fail
            | some cid =>
              exact Out.Settled.await fun m hm => (ih m _ _ (hw _ (List.mem_of_getElem? hcid) m hm)).map
          · rw [if_neg hlen]
            exact Out.Settled.fail

end

/-! ### The property -/

theorem find_perm {β : Type} {p : β → Bool} {t t' : List β} (h : t.Perm t')
    (hu : ∀ a ∈ t, ∀ b ∈ t, p a = true → p b = true → a = b) : t.find? p = t'.find? p := by
  cases e : t.find? p with
  | none =>
    rw [List.find?_eq_none] at e
    exact (List.find?_eq_none.2 fun x hx => e x (h.mem_iff.2 hx)).symm
  | some a =>
    have a1 := List.mem_of_find?_eq_some e
    have a2 := List.find?_some e
    cases e' : t'.find? p with
    | none =>
      rw [List.find?_eq_none] at e'
      exact absurd a2 (e' a (h.mem_iff.1 a1))
    | some b =>
      rw [hu a a1 b (h.mem_iff.2 (List.mem_of_find?_eq_some e')) a2 (List.find?_some e')]

section
variable {α : Type} (kind : Kind α) (utf8 : List Byte → Bool) (st : Store) (fuel : Nat) (m : MMStruct3)

/-- C96 for searches: whatever is searched, there is an answer, and it is the same in all orders of the tasks but for
the order of what is reported. -/
theorem C96_search (bounds : Cube) (lower upper : α) :
    (∃ t s, kind.search utf8 st fuel m bounds lower upper t s) ∧
    ∀ t s t' s', kind.search utf8 st fuel m bounds lower upper t s →
      kind.search utf8 st fuel m bounds lower upper t' s' → s = s' ∧ (s = none → t.Perm t') := by
  have key : (kind.search utf8 st fuel m bounds lower upper).Sure := by
    unfold Kind.search
    cases kind.bound lower with
    | none => exact Out.Sure.fail
    | some lower =>
      cases kind.bound upper with
      | none => exact Out.Sure.fail
      | some upper =>
        cases m.checkCube bounds with
        | none => exact Out.Sure.fail
        | some u => exact MMStruct3.search_sure fuel m bounds lower upper
  refine ⟨key.1, fun t s t' s' h h' => ?_⟩
  rcases key.2 with ⟨L, hL⟩ | hL
  · obtain ⟨rfl, a⟩ := hL _ _ h
    obtain ⟨rfl, b⟩ := hL _ _ h'
    exact ⟨rfl, fun _ => a.trans b.symm⟩
  · refine ⟨(hL _ _ h).trans (hL _ _ h').symm, fun e => ?_⟩
    rw [hL _ _ h] at e
    cases e

/-- C96 for the series of a cell: whatever is read, there is an answer; either it is the same series in all orders of
the tasks, or it is an error or a panic in all of them. -/
theorem C96_cell (start fin row col : Nat) :
    (∃ res, kind.cell utf8 st fuel m start fin row col res) ∧
    ((∃ a, ∀ res, kind.cell utf8 st fuel m start fin row col res → res = .ok a) ∨
      ∀ res, kind.cell utf8 st fuel m start fin row col res → ∃ f, res = .error f) := by
  unfold Kind.cell
  cases csub fin 1 with
  | none => exact ⟨⟨_, rfl⟩, .inr fun res h => ⟨_, h⟩⟩
  | some last =>
    simp only
    cases m.checkBounds last row col with
    | none => exact ⟨⟨_, rfl⟩, .inr fun res h => ⟨_, h⟩⟩
    | some u =>
      simp only
      cases hn : csub fin start with
      | none => exact ⟨⟨_, rfl⟩, .inr fun res h => ⟨_, h⟩⟩
      | some n =>
        simp only
        obtain ⟨⟨t, s, h1⟩, h2⟩ := MMStruct3.fillCell_settled (utf8 := utf8) (st := st) fuel m m.fractionalBits start fin
          row col
        refine ⟨⟨_, t, s, h1, rfl⟩, ?_⟩
        rcases h2 with ⟨L, hL⟩ | hL
        · obtain ⟨rfl, hp⟩ := hL _ _ h1
          have hnd : ∀ t, m.fillCell utf8 st fuel m.fractionalBits start fin row col t none →
              (t.map Prod.fst).Nodup ∧ ∀ q ∈ t, q.1 < n := by
            intro t ht
            obtain ⟨-, h⟩ := MMStruct3.fillCell_covers fuel m m.fractionalBits start fin row col t none ht
            have h := h rfl
            refine ⟨h.nodup_iff.2 List.nodup_range, fun q hq => ?_⟩
            have := List.mem_range.1 (h.mem_iff.1 (List.mem_map_of_mem hq))
            unfold csub at hn
            split at hn
            · cases hn; exact this
            · cases hn
          refine .inl ⟨(List.range n).map (written1 kind t), ?_⟩
          rintro res ⟨t', s', h3, rfl⟩
          obtain ⟨rfl, hp'⟩ := hL _ _ h3
          unfold Kind.finish
          rw [if_pos (List.all_eq_true.2 fun q hq => decide_eq_true ((hnd t' h3).2 q hq))]
          simp only [Except.ok.injEq]
          refine List.map_congr_left fun i _ => ?_
          unfold written1
          rw [find_perm ((List.reverse_perm t').trans ((hp'.trans hp.symm).trans (List.reverse_perm t).symm))]
          intro a ha b hb e1 e2
          refine List.inj_on_of_nodup_map (hnd t' h3).1 (List.mem_reverse.1 ha) (List.mem_reverse.1 hb) ?_
          rw [of_decide_eq_true e1, of_decide_eq_true e2]
        · refine .inr ?_
          rintro res ⟨t', s', h3, rfl⟩
          obtain ⟨f, hf⟩ := Option.ne_none_iff_exists'.1 (hL _ _ h3)
          subst hf
          unfold Kind.finish
          by_cases h : (t'.all fun q => decide (q.1 < n)) = true
          · exact ⟨f, by rw [if_pos h]⟩
          · exact ⟨.panic, by rw [if_neg h]⟩

/-- C96 for windows: if the objects that the structure refers to can be loaded (or panic), there is exactly one answer.
Without this condition it is false of the code (`C96_window_wrong`). -/
theorem C96_window_partial (bounds : Cube) (hw : Spec.Whole utf8 st fuel m) :
    ∃ res, ∀ res', kind.window utf8 st fuel m bounds res' ↔ res' = res := by
  unfold Kind.window
  cases m.checkCube bounds with
  | none => exact ⟨_, fun _ => Iff.rfl⟩
  | some u =>
    simp only
    cases hn : csub bounds.fin bounds.start with
    | none => exact ⟨_, fun _ => Iff.rfl⟩
    | some n =>
      cases hr : csub bounds.bottom bounds.top with
      | none => exact ⟨_, fun _ => Iff.rfl⟩
      | some rows =>
        cases hc : csub bounds.right bounds.left with
        | none => exact ⟨_, fun _ => Iff.rfl⟩
        | some cols =>
          unfold csub at hn hr hc
          split at hn <;> cases hn
          split at hr <;> cases hr
          split at hc <;> cases hc
          rename_i hn hr hc
          have ho : bounds.Ordered := ⟨hn, hr, hc⟩
          simp only
          obtain ⟨⟨t, s, hrun⟩, hs⟩ := MMStruct3.fillWindow_sure (utf8 := utf8) (st := st) fuel m m.fractionalBits
            bounds hw
          have once := MMStruct3.fillWindow_once (utf8 := utf8) (st := st) fuel m m.fractionalBits bounds ho
          have hin : ∀ t s, m.fillWindow utf8 st fuel m.fractionalBits bounds t s →
              (t.all fun q => decide (q.1 < bounds.fin - bounds.start ∧ q.2.1 < bounds.bottom - bounds.top ∧
                q.2.2.1 < bounds.right - bounds.left)) = true := fun t s h =>
            List.all_eq_true.2 fun q hq => decide_eq_true ((once t s h).2 q hq)
          rcases hs with ⟨L, hL⟩ | hL
          · obtain ⟨rfl, hp⟩ := hL _ _ hrun
            refine ⟨_, fun res' => ⟨?_, fun h => ⟨t, none, hrun, h⟩⟩⟩
            rintro ⟨t', s', h3, rfl⟩
            obtain ⟨rfl, hp'⟩ := hL _ _ h3
            unfold Kind.finish
            rw [if_pos (hin _ _ h3), if_pos (hin _ _ hrun)]
            simp only [Except.ok.injEq]
            refine List.map_congr_left fun i _ => List.map_congr_left fun r _ => List.map_congr_left fun c _ => ?_
            unfold written
            rw [find_perm ((List.reverse_perm t').trans ((hp'.trans hp.symm).trans (List.reverse_perm t).symm))]
            intro a ha b hb e1 e2
            refine List.inj_on_of_nodup_map (once t' none h3).1 (List.mem_reverse.1 ha) (List.mem_reverse.1 hb) ?_
            obtain ⟨x1, x2, x3⟩ := of_decide_eq_true e1
            obtain ⟨y1, y2, y3⟩ := of_decide_eq_true e2
            unfold pos3
            rw [x1, x2, x3, y1, y2, y3]
          · refine ⟨.error .panic, fun res' => ⟨?_, fun h => ⟨t, s, hrun, ?_⟩⟩⟩
            · rintro ⟨t', s', h3, rfl⟩
              rw [hL _ _ h3]
              unfold Kind.finish
              rw [if_pos (hin _ _ h3)]
            · rw [h, hL _ _ hrun]
              unfold Kind.finish
              rw [if_pos (hin _ _ hrun)]

/-- C96 for windows of structures in which no superchunk leads to a span, as all are that are built, also if objects are
missing: there is an answer; either it is the same window in all orders of the tasks, or it is an error or a panic in
all of them. -/
theorem C96_window_plain_partial (bounds : Cube) (hw : Spec.Plain utf8 st fuel m) :
    (∃ res, kind.window utf8 st fuel m bounds res) ∧
    ((∃ a, ∀ res, kind.window utf8 st fuel m bounds res → res = .ok a) ∨
      ∀ res, kind.window utf8 st fuel m bounds res → ∃ f, res = .error f) := by
  unfold Kind.window
  cases m.checkCube bounds with
  | none => exact ⟨⟨_, rfl⟩, .inr fun res h => ⟨_, h⟩⟩
  | some u =>
    simp only
    cases hn : csub bounds.fin bounds.start with
    | none => exact ⟨⟨_, rfl⟩, .inr fun res h => ⟨_, h⟩⟩
    | some n =>
      cases hr : csub bounds.bottom bounds.top with
      | none => exact ⟨⟨_, rfl⟩, .inr fun res h => ⟨_, h⟩⟩
      | some rows =>
        cases hc : csub bounds.right bounds.left with
        | none => exact ⟨⟨_, rfl⟩, .inr fun res h => ⟨_, h⟩⟩
        | some cols =>
          unfold csub at hn hr hc
          split at hn <;> cases hn
          split at hr <;> cases hr
          split at hc <;> cases hc
          rename_i hn hr hc
          have ho : bounds.Ordered := ⟨hn, hr, hc⟩
          simp only
          obtain ⟨⟨t, s, hrun⟩, hs⟩ := MMStruct3.fillWindow_settled (utf8 := utf8) (st := st) fuel m m.fractionalBits
            bounds hw
          have once := MMStruct3.fillWindow_once (utf8 := utf8) (st := st) fuel m m.fractionalBits bounds ho
          have hin : ∀ t s, m.fillWindow utf8 st fuel m.fractionalBits bounds t s →
              (t.all fun q => decide (q.1 < bounds.fin - bounds.start ∧ q.2.1 < bounds.bottom - bounds.top ∧
                q.2.2.1 < bounds.right - bounds.left)) = true := fun t s h =>
            List.all_eq_true.2 fun q hq => decide_eq_true ((once t s h).2 q hq)
          refine ⟨⟨_, t, s, hrun, rfl⟩, ?_⟩
          rcases hs with ⟨L, hL⟩ | hL
          · obtain ⟨rfl, hp⟩ := hL _ _ hrun
            refine .inl ⟨(List.range (bounds.fin - bounds.start)).map fun t' =>
              (List.range (bounds.bottom - bounds.top)).map fun r =>
                (List.range (bounds.right - bounds.left)).map fun c => written kind.zero kind.dec t t' r c, ?_⟩
            rintro res ⟨t', s', h3, rfl⟩
            obtain ⟨rfl, hp'⟩ := hL _ _ h3
            unfold Kind.finish
            rw [if_pos (hin _ _ h3)]
            simp only [Except.ok.injEq]
            refine List.map_congr_left fun i _ => List.map_congr_left fun r _ => List.map_congr_left fun c _ => ?_
            unfold written
            rw [find_perm ((List.reverse_perm t').trans ((hp'.trans hp.symm).trans (List.reverse_perm t).symm))]
            intro a ha b hb e1 e2
            refine List.inj_on_of_nodup_map (once t' none h3).1 (List.mem_reverse.1 ha) (List.mem_reverse.1 hb) ?_
            obtain ⟨x1, x2, x3⟩ := of_decide_eq_true e1
            obtain ⟨y1, y2, y3⟩ := of_decide_eq_true e2
            unfold pos3
            rw [x1, x2, x3, y1, y2, y3]
          · refine .inr ?_
            rintro res ⟨t', s', h3, rfl⟩
            obtain ⟨f, hf⟩ := Option.ne_none_iff_exists'.1 (hL _ _ h3)
            subst hf
            unfold Kind.finish
            rw [if_pos (hin _ _ h3)]
            exact ⟨f, rfl⟩

end

/-! ### Where the order matters

A span of two instants, of which the first can be loaded and the second cannot; and a superchunk that keeps this span
inside itself. -/

namespace Half

def gone : Cid := Cid.v0 (List.replicate 32 0)

def span : Span := ⟨2, 1, 1, 1, [exampleHash.cidOf (Item.struct Local.inner).bytes, gone], .i64⟩

def head : SuperHead := ⟨2, 1, 1, 2, 1, 2, 1, 0, .i64, [.loc 0], gone, Local.dac, Local.dac⟩

def store : Store := Saved.load exampleHash [(Item.struct Local.inner).bytes]

theorem first : store.getStruct (fun _ => true) (exampleHash.cidOf (Item.struct Local.inner).bytes) = .ok Local.inner := by
  have key : (match store.getStruct (fun _ => true) (exampleHash.cidOf (Item.struct Local.inner).bytes), Local.inner with
    | .ok (.superchunk h []), .superchunk h' [] => decide (h = h')
    | _, _ => false) = true := by decide +kernel
  revert key
  generalize store.getStruct (fun _ => true) (exampleHash.cidOf (Item.struct Local.inner).bytes) = x
  intro key
  match x, key with
  | .ok (.superchunk h []), key => exact congrArg (fun h => Except.ok (MMStruct3.superchunk h [])) (of_decide_eq_true key)

theorem second : store.getStruct (fun _ => true) gone = .error (.err (.notFound gone)) := by
  have key : (match store.getStruct (fun _ => true) gone with
    | .error f => decide (f = .err (.notFound gone))
    | _ => false) = true := by decide +kernel
  revert key
  generalize store.getStruct (fun _ => true) gone = x
  intro key
  match x, key with
  | .error f, key => exact congrArg Except.error (of_decide_eq_true key)

theorem inner_window : Local.inner.fillWindow (fun _ => true) store 1 0 (Cube.new 0 1 0 1 0 1) [(0, 0, 0, 0, 7)] none := by
  have e : (⟨1, 1, 1, 2, 1, 2, 1, 0, .i64, [.elided], exampleHash.cidOf Local.emptyLinks.bytes, Local.dac,
      Local.dac⟩ : SuperHead).elidedWindow (Cube.new 0 1 0 1 0 1) 0 = some [(0, 0, 0, 7)] := by decide +kernel
  refine ⟨[([(0, 0, 0, 0, 7)], none)], .cons ⟨[(0, 0, 0, 0, 7)], ?_, rfl⟩ .nil, by simp, .step (i := 0) rfl (.done ?_)⟩
  · show Out.ofOption _ _ _
    erw [e]
    exact ⟨rfl, rfl⟩
  · simp

theorem span_window (t : List (Nat × Nat × Nat × Nat × Int64)) (h : t <+: [(0, 0, 0, 0, 7)]) :
    (MMStruct3.span span).fillWindow (fun _ => true) store 2 0 (Cube.new 0 2 0 1 0 1) t
      (some (.err (.notFound gone))) := by
  refine ⟨[([(0, 0, 0, 0, 7)], none), ([], some (.err (.notFound gone)))], .cons ?_ (.cons ?_ .nil),
    ⟨([], some (.err (.notFound gone))), by simp, rfl⟩, ?_⟩
  · show Out.await (store.getStruct (fun _ => true) (exampleHash.cidOf (Item.struct Local.inner).bytes)) _ _ _
    rw [first]
    exact ⟨_, inner_window, rfl⟩
  · show Out.await (store.getStruct (fun _ => true) gone) _ _ _
    rw [second]
    exact ⟨rfl, rfl⟩
  · refine ⟨[t, []], .cons h (.cons (List.prefix_refl _) .nil), ?_⟩
    obtain ⟨l, h⟩ := h
    cases t with
    | nil => exact .done (by simp)
    | cons a t =>
      cases t with
      | nil => exact .step (i := 0) rfl (.done (by simp))
      | cons b t => simp at h

theorem super_window (t : List (Nat × Nat × Nat × Nat × Int64)) (h : t <+: [(0, 0, 0, 0, 7)]) :
    (MMStruct3.superchunk head [.span span]).fillWindow (fun _ => true) store 3 0 (Cube.new 0 2 0 1 0 1) t none := by
  have e : t.map (fun q => (q.1, 0 + q.2.1, 0 + q.2.2.1, q.2.2.2)) = t := by simp
  refine ⟨[(t, some (.err (.notFound gone)))], .cons ⟨t, span_window t h, e.symm⟩ .nil, by simp, ?_⟩
  obtain ⟨l, h⟩ := h
  cases t with
  | nil => exact .done (by simp)
  | cons a t =>
    cases t with
    | nil => exact .step (i := 0) rfl (.done (by simp))
    | cons b t => simp at h

end Half

open Half in
/-- C96 does not hold of windows in general. The errors of the parts of a superchunk are dropped, and what a part wrote
before its error came up stays: of the same bytes in the same store, one order of the tasks gives 7 and 0, and another
gives 0 and 0. -/
theorem C96_window_wrong :
    Kind.i64.window (fun _ => true) store 3 (.superchunk head [.span span]) (Cube.new 0 2 0 1 0 1) (.ok [[[7]], [[0]]]) ∧
    Kind.i64.window (fun _ => true) store 3 (.superchunk head [.span span]) (Cube.new 0 2 0 1 0 1) (.ok [[[0]], [[0]]]) :=
  ⟨⟨_, _, super_window [(0, 0, 0, 0, 7)] (List.prefix_refl _), rfl⟩, ⟨_, _, super_window [] List.nil_prefix, rfl⟩⟩

/-- Nor is it the same error in all orders, if more than one part has one. -/
theorem C96_error_wrong : ∃ (a b : Cid) (s : Span), a ≠ b ∧
    Kind.i64.cell (fun _ => true) (fun _ => none) 2 (.span s) 0 2 0 0 (.error (.err (.notFound a))) ∧
    Kind.i64.cell (fun _ => true) (fun _ => none) 2 (.span s) 0 2 0 0 (.error (.err (.notFound b))) := by
  refine ⟨Half.gone, Cid.v0 (List.replicate 32 1), ⟨2, 1, 1, 1, [Half.gone, Cid.v0 (List.replicate 32 1)], .i64⟩,
    by decide, ?_⟩
  have h : ∀ f, f = .err (.notFound Half.gone) ∨ f = .err (.notFound (Cid.v0 (List.replicate 32 1))) →
      (MMStruct3.span ⟨2, 1, 1, 1, [Half.gone, Cid.v0 (List.replicate 32 1)], .i64⟩).fillCell (fun _ => true)
        (fun _ => none) 2 0 0 2 0 0 [] (some f) := by
    intro f hf
    refine ⟨[([], some (.err (.notFound Half.gone))), ([], some (.err (.notFound (Cid.v0 (List.replicate 32 1)))))],
      .cons ⟨rfl, rfl⟩ (.cons ⟨rfl, rfl⟩ .nil), ?_, prefixes_nil⟩
    rcases hf with rfl | rfl <;> simp
  exact ⟨⟨_, _, h _ (.inl rfl), rfl⟩, ⟨_, _, h _ (.inr rfl), rfl⟩⟩

/-! ### Examples -/

/-- A span of two parts, both in the store; its window has exactly one answer, and it is 7 and 7. -/
example : ∀ res, Kind.i64.window (fun _ => true) Half.store 2 (.span ⟨2, 1, 1, 1,
    [exampleHash.cidOf (Item.struct Local.inner).bytes, exampleHash.cidOf (Item.struct Local.inner).bytes], .i64⟩)
    (Cube.new 0 2 0 1 0 1) res ↔ res = .ok [[[7]], [[7]]] := by
  have hw : Spec.Whole (fun _ => true) Half.store 2 (.span ⟨2, 1, 1, 1,
      [exampleHash.cidOf (Item.struct Local.inner).bytes, exampleHash.cidOf (Item.struct Local.inner).bytes], .i64⟩) := by
    intro cid hc
    have hc : cid = exampleHash.cidOf (Item.struct Local.inner).bytes := by simpa using hc
    subst hc
    rw [Half.first]
    refine ⟨nofun, ?_⟩
    rintro m ⟨⟩ ref hr hn
    exact absurd (by simpa using hr) hn
  obtain ⟨res, h⟩ := C96_window_partial Kind.i64 (fun _ => true) Half.store 2 _ (Cube.new 0 2 0 1 0 1) hw
  have : res = .ok [[[7]], [[7]]] := by
    refine ((h _).1 ⟨[(1, 0, 0, 0, 7), (0, 0, 0, 0, 7)], none, ?_, rfl⟩).symm
    refine ⟨[([(0, 0, 0, 0, 7)], none), ([(1, 0, 0, 0, 7)], none)], .cons ?_ (.cons ?_ .nil), by simp, ?_⟩
    · show Out.await (Half.store.getStruct (fun _ => true) (exampleHash.cidOf (Item.struct Local.inner).bytes)) _ _ _
      rw [Half.first]
      exact ⟨_, Half.inner_window, rfl⟩
    · show Out.await (Half.store.getStruct (fun _ => true) (exampleHash.cidOf (Item.struct Local.inner).bytes)) _ _ _
      rw [Half.first]
      exact ⟨_, Half.inner_window, rfl⟩
    · exact .step (i := 1) rfl (.step (i := 0) rfl (.done (by simp)))
  rw [← this]
  exact h

/-- The span of which a part is missing: its window is an error in all orders. -/
example : ∀ res, Kind.i64.window (fun _ => true) Half.store 2 (.span Half.span) (Cube.new 0 2 0 1 0 1) res →
    ∃ f, res = .error f := by
  have hw : Spec.Plain (fun _ => true) Half.store 2 (.span Half.span) := by
    intro cid hc m hm
    have hc : cid = exampleHash.cidOf (Item.struct Local.inner).bytes ∨ cid = Half.gone := by
      simpa [Half.span] using hc
    rcases hc with rfl | rfl
    · rw [Half.first] at hm
      cases hm
      intro ref hr hn
      exact absurd (by simpa using hr) hn
    · rw [Half.second] at hm
      cases hm
  rcases (C96_window_plain_partial Kind.i64 (fun _ => true) Half.store 2 _ (Cube.new 0 2 0 1 0 1) hw).2 with ⟨a, h⟩ | h
  · cases h _ ⟨_, _, Half.span_window [] List.nil_prefix, rfl⟩
  · exact h

end Verif
