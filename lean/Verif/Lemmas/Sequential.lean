import Verif.Model.Dataset
import Verif.Lemmas.Out

/-!
Running the futures of a read one after the other is one of the ways it can go. So every read and
search of the model ends in some way, and statements about all ways are about something.
-/
namespace Verif

namespace Out

variable {β γ : Type}

/-- What was emitted, and how it ended. -/
abbrev End (β : Type) := List β × Option Fail

/-- `e` is a way the operation can go. -/
def Has (o : Out β) (e : End β) : Prop := o e.1 e.2

namespace End

def fail (f : Fail) : End β := ([], some f)

def ofOption : Option (List β) → End β
  | some l => (l, none)
  | none => fail .panic

def await {α : Type} (x : Except Fail α) (k : α → End β) : End β :=
  match x with
  | .ok a => k a
  | .error f => fail f

def map (g : β → γ) (e : End β) : End γ := (e.1.map g, e.2)

/-- One after the other, up to the first failure. -/
def tryAll : List (End β) → End β
  | [] => ([], none)
  | e :: es =>
    match e.2 with
    | none => (e.1 ++ (tryAll es).1, (tryAll es).2)
    | some f => (e.1, some f)

/-- One after the other, up to the first panic. -/
def joinAll : List (End β) → End β
  | [] => ([], none)
  | e :: es =>
    match e.2 with
    | some .panic => (e.1, some .panic)
    | _ => (e.1 ++ (joinAll es).1, (joinAll es).2)

end End

theorem has_fail (f : Fail) : (Out.fail f : Out β).Has (.fail f) := ⟨rfl, rfl⟩

theorem has_ofOption : ∀ x : Option (List β), (Out.ofOption x).Has (.ofOption x)
  | some _ => ⟨rfl, rfl⟩
  | none => ⟨rfl, rfl⟩

theorem has_await {α : Type} {x : Except Fail α} {k : α → Out β} {k' : α → End β}
    (h : ∀ a, x = .ok a → (k a).Has (k' a)) : (Out.await x k).Has (.await x k') := by
  cases x with
  | ok a => exact h a rfl
  | error f => exact ⟨rfl, rfl⟩

theorem has_map {o : Out β} {e : End β} (g : β → γ) (h : o.Has e) : (o.map g).Has (e.map g) :=
  ⟨e.1, h, rfl⟩

theorem runs_map {α : Type} {o : α → Out β} {e : α → End β} : ∀ {l : List α},
    (∀ x ∈ l, (o x).Has (e x)) → Runs (l.map o) (l.map e)
  | [], _ => .nil
  | x :: _, h => .cons (h x (List.mem_cons_self ..)) (runs_map fun y hy => h y (List.mem_cons_of_mem _ hy))

theorem partial_none : ∀ rs : List (End β),
    List.Forall₂ (fun r l => l <+: r.1) rs (rs.map fun _ => ([] : List β))
  | [] => .nil
  | _ :: rs => .cons (List.nil_prefix ..) (partial_none rs)

theorem flatten_none {α : Type} : ∀ rs : List α, (rs.map fun _ => ([] : List β)).flatten = []
  | [] => rfl
  | _ :: rs => by simpa using flatten_none rs

theorem has_tryAll {α : Type} {o : α → Out β} {e : α → End β} {l : List α}
    (h : ∀ x ∈ l, (o x).Has (e x)) : (tryAll (l.map o)).Has (.tryAll (l.map e)) := by
  refine ⟨l.map e, runs_map h, ?_⟩
  generalize l.map e = rs
  suffices h : match (End.tryAll rs).2 with
      | none => (∀ r ∈ rs, r.2 = none) ∧ (rs.map Prod.fst).flatten = (End.tryAll rs).1
      | some f => (∃ r ∈ rs, r.2 = some f) ∧ ∃ pre, List.Forall₂ (fun r l => l <+: r.1) rs pre ∧
          pre.flatten = (End.tryAll rs).1 by
    cases hs : (End.tryAll rs).2 with
    | none =>
      rw [hs] at h
      exact ⟨h.1, by rw [← h.2]; exact Interleave.seq _⟩
    | some f =>
      rw [hs] at h
      obtain ⟨h1, pre, h2, h3⟩ := h
      exact ⟨h1, pre, h2, by rw [← h3]; exact Interleave.seq _⟩
  induction rs with
  | nil => exact ⟨fun r hr => by simp at hr, rfl⟩
  | cons r rs ih =>
    unfold End.tryAll
    cases hr : r.2 with
    | some f =>
      refine ⟨⟨r, List.mem_cons_self .., hr⟩, r.1 :: rs.map fun _ => [],
        .cons (List.prefix_refl _) (partial_none rs), ?_⟩
      simp [flatten_none]
    | none =>
      simp only
      cases hs : (End.tryAll rs).2 with
      | none =>
        rw [hs] at ih
        refine ⟨fun x hx => ?_, by simp [← ih.2]⟩
        rcases List.mem_cons.1 hx with rfl | hx
        · exact hr
        · exact ih.1 x hx
      | some f =>
        rw [hs] at ih
        obtain ⟨⟨x, hx, hf⟩, pre, h2, h3⟩ := ih
        exact ⟨⟨x, List.mem_cons_of_mem _ hx, hf⟩, r.1 :: pre, .cons (List.prefix_refl _) h2,
          by simp [← h3]⟩

theorem has_joinAll {α : Type} {o : α → Out β} {e : α → End β} {l : List α}
    (h : ∀ x ∈ l, (o x).Has (e x)) : (joinAll (l.map o)).Has (.joinAll (l.map e)) := by
  refine ⟨l.map e, runs_map h, ?_⟩
  generalize l.map e = rs
  suffices h : match (End.joinAll rs).2 with
      | none => (∀ r ∈ rs, r.2 ≠ some .panic) ∧ (rs.map Prod.fst).flatten = (End.joinAll rs).1
      | some f => f = .panic ∧ (∃ r ∈ rs, r.2 = some .panic) ∧ ∃ pre,
          List.Forall₂ (fun r l => l <+: r.1) rs pre ∧ pre.flatten = (End.joinAll rs).1 by
    cases hs : (End.joinAll rs).2 with
    | none =>
      rw [hs] at h
      exact ⟨h.1, by rw [← h.2]; exact Interleave.seq _⟩
    | some f =>
      rw [hs] at h
      obtain ⟨h0, h1, pre, h2, h3⟩ := h
      exact ⟨h0, h1, pre, h2, by rw [← h3]; exact Interleave.seq _⟩
  induction rs with
  | nil => exact ⟨fun r hr => by simp at hr, rfl⟩
  | cons r rs ih =>
    have key : r.2 ≠ some .panic → End.joinAll (r :: rs) =
        (r.1 ++ (End.joinAll rs).1, (End.joinAll rs).2) := by
      intro hn
      rw [End.joinAll]
      cases hr : r.2 with
      | none => rfl
      | some f =>
        cases f with
        | err => rfl
        | panic => exact absurd hr hn
    by_cases hr : r.2 = some .panic
    · have e : End.joinAll (r :: rs) = (r.1, some .panic) := by rw [End.joinAll, hr]
      rw [e]
      refine ⟨rfl, ⟨r, List.mem_cons_self .., hr⟩, r.1 :: rs.map fun _ => [],
        .cons (List.prefix_refl _) (partial_none rs), ?_⟩
      simp [flatten_none]
    · rw [key hr]
      cases hs : (End.joinAll rs).2 with
      | none =>
        rw [hs] at ih
        refine ⟨fun x hx => ?_, by simp [← ih.2]⟩
        rcases List.mem_cons.1 hx with rfl | hx
        · exact hr
        · exact ih.1 x hx
      | some f =>
        rw [hs] at ih
        obtain ⟨h0, ⟨x, hx, hf⟩, pre, h2, h3⟩ := ih
        exact ⟨h0, ⟨x, List.mem_cons_of_mem _ hx, hf⟩, r.1 :: pre, .cons (List.prefix_refl _) h2,
          by simp [← h3]⟩

/-- `l`, or turned around. -/
def turn (back : Bool) (l : List β) : List β := if back then l.reverse else l

theorem interleave_reverse {ls : List (List β)} {t : List β} (h : Interleave ls t) :
    Interleave ls.reverse t := by
  induction h with
  | done h => exact .done fun l hl => h l (List.mem_reverse.1 hl)
  | @step ls i x xs t hi _ ih =>
    obtain ⟨hlt, -⟩ := List.getElem?_eq_some_iff.1 hi
    refine .step (i := ls.length - 1 - i) (xs := xs) ?_ ?_
    · rw [List.getElem?_reverse (by omega), show ls.length - 1 - (ls.length - 1 - i) = i by omega, hi]
    · have e : ls.reverse.set (ls.length - 1 - i) xs = (ls.set i xs).reverse := by
        apply List.ext_getElem?
        intro j
        by_cases hj : j < ls.length
        · rw [List.getElem?_reverse (by simpa using hj), List.getElem?_set, List.getElem?_set,
            List.getElem?_reverse (by simpa using hj)]
          simp only [List.length_set, List.length_reverse]
          by_cases hij : i = ls.length - 1 - j
          · rw [if_pos (by omega), if_pos hij, if_pos (by omega), if_pos hlt]
          · rw [if_neg (by omega), if_neg hij]
        · rw [List.getElem?_eq_none (by simpa using hj), List.getElem?_eq_none (by simpa using hj)]
      rw [e]
      exact ih

/-- Futures that are joined may run in the other order. -/
theorem joinAll_reverse {ps : List (Out β)} {e : End β} (h : (joinAll ps.reverse).Has e) :
    (joinAll ps).Has e := by
  obtain ⟨t, s⟩ := e
  obtain ⟨rs, hr, h⟩ := h
  have hr' := List.rel_reverse hr
  rw [List.reverse_reverse] at hr'
  refine ⟨rs.reverse, hr', ?_⟩
  cases s with
  | none =>
    refine ⟨fun r hr => h.1 r (List.mem_reverse.1 hr), ?_⟩
    rw [List.map_reverse]
    exact interleave_reverse h.2
  | some f =>
    obtain ⟨h0, ⟨r, hr, hf⟩, pre, h2, h3⟩ := h
    exact ⟨h0, ⟨r, List.mem_reverse.2 hr, hf⟩, pre.reverse, List.rel_reverse h2, interleave_reverse h3⟩

theorem has_joinAll_turn {α : Type} {o : α → Out β} {e : α → End β} {l : List α} (back : Bool)
    (h : ∀ x ∈ l, (o x).Has (e x)) : (joinAll (l.map o)).Has (.joinAll (turn back (l.map e))) := by
  cases back with
  | false => exact has_joinAll h
  | true =>
    refine joinAll_reverse ?_
    unfold turn
    rw [if_pos rfl, ← List.map_reverse, ← List.map_reverse]
    exact has_joinAll fun x hx => h x (List.mem_reverse.1 hx)

end Out

section
variable (utf8 : List Byte → Bool) (st : Store)

/-- `MMStruct3.fillCell`, one future after the other. -/
def MMStruct3.fillCellSeq : (fuel : Nat) → MMStruct3 → (bits start fin row col : Nat) →
    Out.End (Nat × Nat × Int64)
  | 0, _, _, _, _, _, _ => .fail .panic
  | fuel + 1, m, bits, start, fin, row, col =>
    match m with
    | .subchunk c =>
      .ofOption ((c.fillCell start fin row col).map (·.map fun p => (p.1, bits, p.2)))
    | .superchunk h loc =>
      match h.locate row col with
      | none => .fail .panic
      | some (index, row, col) =>
        match h.references[index]? with
        | none => .fail .panic
        | some .elided =>
          .ofOption ((h.elidedCell start fin index).map (·.map fun p => (p.1, bits, p.2)))
        | some ref =>
          .await (h.deref utf8 st loc ref) fun m =>
            MMStruct3.fillCellSeq fuel m m.fractionalBits start fin row col
    | .span s =>
      match csub fin start with
      | none => .fail .panic
      | some instants =>
        match s.piecesFor start instants with
        | none => .fail .panic
        | some pieces =>
          if ∀ p ∈ pieces, p.span < s.spans.length then
            .tryAll (pieces.map fun (p : Piece) =>
              match s.spans[p.span]? with
              | none => .fail .panic
              | some cid =>
                .await (st.getStruct utf8 cid) fun m =>
                  (MMStruct3.fillCellSeq fuel m m.fractionalBits p.instant (p.instant + p.len)
                    row col).map fun q => (p.start + q.1, q.2))
          else .fail .panic

/-- `MMStruct3.fillWindow`, one future after the other; the subchunks of a superchunk in order, or
backwards. -/
def MMStruct3.fillWindowSeq (back : Bool) : (fuel : Nat) → MMStruct3 → (bits : Nat) → Cube →
    Out.End (Nat × Nat × Nat × Nat × Int64)
  | 0, _, _, _ => .fail .panic
  | fuel + 1, m, bits, window =>
    match m with
    | .subchunk c =>
      .ofOption ((c.fillWindow window).map
        (·.map fun p => (p.1, p.2.1, p.2.2.1, bits, p.2.2.2)))
    | .superchunk h loc =>
      match h.subchunksFor window.rect with
      | none => .fail .panic
      | some subs =>
        .joinAll (Out.turn back (subs.map fun (sub : WindowSubchunk) =>
          let bounds := Cube.new window.start window.fin sub.loc.top sub.loc.bottom sub.loc.left
            sub.loc.right
          let part : Out.End (Nat × Nat × Nat × Nat × Int64) :=
            match h.references[sub.index]? with
            | none => .fail .panic
            | some .elided =>
              .ofOption ((h.elidedWindow bounds sub.index).map
                (·.map fun p => (p.1, p.2.1, p.2.2.1, bits, p.2.2.2)))
            | some ref =>
              .await (h.deref utf8 st loc ref) fun m =>
                MMStruct3.fillWindowSeq back fuel m m.fractionalBits bounds
          part.map fun q => (q.1, sub.slice.top + q.2.1, sub.slice.left + q.2.2.1, q.2.2.2)))
    | .span s =>
      match window.instants with
      | none => .fail .panic
      | some instants =>
        match s.piecesFor window.start instants with
        | none => .fail .panic
        | some pieces =>
          if ∀ p ∈ pieces, p.span < s.spans.length then
            .tryAll (pieces.map fun (p : Piece) =>
              match s.spans[p.span]? with
              | none => .fail .panic
              | some cid =>
                .await (st.getStruct utf8 cid) fun m =>
                  (MMStruct3.fillWindowSeq back fuel m m.fractionalBits
                    (Cube.new p.instant (p.instant + p.len) window.top window.bottom window.left
                      window.right)).map fun q => (p.start + q.1, q.2))
          else .fail .panic

variable {utf8 st}

open Out

theorem MMStruct3.has_fillCell : ∀ (fuel : Nat) (m : MMStruct3) (bits start fin row col : Nat),
    Has (m.fillCell utf8 st fuel bits start fin row col)
      (m.fillCellSeq utf8 st fuel bits start fin row col) := by
  intro fuel
  induction fuel with
  | zero => intro m bits start fin row col; exact has_fail _
  | succ fuel ih =>
    intro m bits start fin row col
    cases m with
    | subchunk c => exact has_ofOption _
    | superchunk h loc =>
      unfold MMStruct3.fillCell MMStruct3.fillCellSeq
      simp only
      cases h.locate row col with
      | none => exact has_fail _
      | some x =>
        simp only
        cases h.references[x.1]? with
        | none => exact has_fail _
        | some ref =>
          cases ref with
          | elided => exact has_ofOption _
          | loc i => exact has_await fun m _ => ih m ..
          | external i => exact has_await fun m _ => ih m ..
    | span s =>
      unfold MMStruct3.fillCell MMStruct3.fillCellSeq
      simp only
      cases csub fin start with
      | none => exact has_fail _
      | some instants =>
        simp only
        cases s.piecesFor start instants with
        | none => exact has_fail _
        | some pieces =>
          simp only
          split
          · refine has_tryAll fun p _ => ?_
            cases s.spans[p.span]? with
            | none => exact has_fail _
            | some cid => exact has_await fun m _ => has_map _ (ih m ..)
          · exact has_fail _

theorem MMStruct3.has_fillWindow (back : Bool) : ∀ (fuel : Nat) (m : MMStruct3) (bits : Nat) (window : Cube),
    Has (m.fillWindow utf8 st fuel bits window) (m.fillWindowSeq utf8 st back fuel bits window) := by
  intro fuel
  induction fuel with
  | zero => intro m bits window; exact has_fail _
  | succ fuel ih =>
    intro m bits window
    cases m with
    | subchunk c => exact has_ofOption _
    | superchunk h loc =>
      unfold MMStruct3.fillWindow MMStruct3.fillWindowSeq
      simp only
      cases h.subchunksFor window.rect with
      | none => exact has_fail _
      | some subs =>
        refine has_joinAll_turn back fun sub _ => has_map _ ?_
        cases h.references[sub.index]? with
        | none => exact has_fail _
        | some ref =>
          cases ref with
          | elided => exact has_ofOption _
          | loc i => exact has_await fun m _ => ih m ..
          | external i => exact has_await fun m _ => ih m ..
    | span s =>
      unfold MMStruct3.fillWindow MMStruct3.fillWindowSeq
      simp only
      cases window.instants with
      | none => exact has_fail _
      | some instants =>
        simp only
        cases s.piecesFor window.start instants with
        | none => exact has_fail _
        | some pieces =>
          simp only
          split
          · refine has_tryAll fun p _ => ?_
            cases s.spans[p.span]? with
            | none => exact has_fail _
            | some cid => exact has_await fun m _ => has_map _ (ih m ..)
          · exact has_fail _

/-- Every search ends in some way. -/
theorem MMStruct3.search_total : ∀ (fuel : Nat) (m : MMStruct3) (bounds : Cube) (lower upper : Int64),
    ∃ e, Has (m.search utf8 st fuel bounds lower upper) e := by
  intro fuel
  induction fuel with
  | zero => intro m bounds lower upper; exact ⟨_, has_fail _⟩
  | succ fuel ih =>
    intro m bounds lower upper
    cases m with
    | subchunk c =>
      unfold MMStruct3.search
      simp only
      cases c.iterSearch bounds lower upper with
      | none => exact ⟨_, has_fail _⟩
      | some it =>
        by_cases h : ∃ n l, it.toList c n = some l
        · obtain ⟨n, l, h⟩ := h
          exact ⟨(_, _), .inl ⟨n, l, h, rfl, rfl⟩⟩
        · refine ⟨(_, _), .inr ⟨fun n => ?_, rfl, rfl⟩⟩
          cases e : it.toList c n with
          | none => rfl
          | some l => exact absurd ⟨n, l, e⟩ h
    | superchunk h loc =>
      unfold MMStruct3.search
      simp only
      cases h.subchunksFor bounds.rect with
      | none => exact ⟨_, has_fail _⟩
      | some subs =>
        simp only
        generalize (collect subs fun (sub : WindowSubchunk) => _) = x
        cases x with
        | none => exact ⟨_, has_fail _⟩
        | some subs =>
          simp only
          refine (fun (H : ∀ sub : WindowSubchunk, ∃ e, Has _ e) =>
            ⟨_, has_joinAll (e := fun sub => (H sub).choose) fun sub _ => (H sub).choose_spec⟩) ?_
          intro sub
          cases h.references[sub.index]? with
          | none => exact ⟨_, has_fail _⟩
          | some ref =>
            cases ref with
            | elided => exact ⟨_, has_ofOption _⟩
            | loc i =>
              simp only
              cases h.deref utf8 st loc (.loc i) with
              | ok m => exact (ih m ..).elim fun e he => ⟨_, has_map _ he⟩
              | error f => cases f <;> exact ⟨(_, _), rfl, rfl⟩
            | external i =>
              simp only
              cases h.deref utf8 st loc (.external i) with
              | ok m => exact (ih m ..).elim fun e he => ⟨_, has_map _ he⟩
              | error f => cases f <;> exact ⟨(_, _), rfl, rfl⟩
    | span s =>
      unfold MMStruct3.search
      simp only
      cases bounds.instants with
      | none => exact ⟨_, has_fail _⟩
      | some instants =>
        simp only
        cases s.piecesFor bounds.start instants with
        | none => exact ⟨_, has_fail _⟩
        | some pieces =>
          simp only
          split
          · refine (fun (H : ∀ p : Piece, ∃ e, Has _ e) =>
              ⟨_, has_joinAll (e := fun p => (H p).choose) fun p _ => (H p).choose_spec⟩) ?_
            intro p
            cases s.spans[p.span]? with
            | none => exact ⟨_, has_fail _⟩
            | some cid =>
              simp only
              cases st.getStruct utf8 cid with
              | ok m => exact (ih m ..).elim fun e he => ⟨_, has_map _ he⟩
              | error f => cases f <;> exact ⟨(_, _), rfl, rfl⟩
          · exact ⟨_, has_fail _⟩

end

/-- Reading a chunk back one future after the other, in order or backwards. -/
def Fill.sequential (utf8 : List Byte → Bool) (readFuel : Nat) (back : Bool := false) : Fill := fun m st =>
  match m.shape with
  | none => ([], none)
  | some (instants, rows, cols) =>
    m.fillWindowSeq utf8 st back readFuel m.fractionalBits (Cube.new 0 instants 0 rows 0 cols)

theorem Fill.sequential_valid (utf8 : List Byte → Bool) (readFuel : Nat) (back : Bool := false) :
    (Fill.sequential utf8 readFuel back).Valid utf8 readFuel := by
  intro m st instants rows cols hs _
  unfold Fill.sequential
  rw [hs]
  exact m.has_fillWindow ..

end Verif
