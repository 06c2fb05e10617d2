import Verif.Lemmas.Missing
import Verif.Lemmas.Needs

/-! How many objects reads of superchunks and of trees of spans depend on. -/
namespace Verif

open Spec (blocks tiles nested spans)
open Prog (Kept)

section
variable {st : Store} {utf8 : List Byte → Bool} {k : Nat}

/-! ### Superchunks -/

theorem Sides.get_needs : ∀ (levels : List Nat) (fuel : Nat) (m : MMStruct3) (bits t row col : Nat),
    Sides utf8 st k levels m →
    Needs st [] (2 * (levels.length - 1)) (fun s => m.get utf8 s fuel bits t row col) := by
  intro levels
  induction levels with
  | nil =>
    rintro fuel m bits t row col ⟨c, rfl⟩
    exact Needs.const fun st' => by cases fuel <;> rfl
  | cons l sub ih =>
    rintro fuel m bits t row col (⟨c, rfl⟩ | ⟨head, rfl, hside, hsub⟩)
    · exact Needs.const fun st' => by cases fuel <;> rfl
    · cases fuel with
      | zero => exact Needs.const fun st' => rfl
      | succ fuel =>
        unfold MMStruct3.get
        simp only
        rcases head.locate row col with _ | ⟨index, row, col⟩
        · exact Needs.const fun st' => rfl
        · simp only
          rcases href : head.references[index]? with _ | ref
          · exact Needs.const fun st' => rfl
          · cases ref with
            | elided => exact Needs.const fun st' => rfl
            | loc i => exact Needs.const fun st' => rfl
            | external e =>
              simp only
              obtain ⟨hne, hs⟩ := hsub e (List.mem_of_getElem? href)
              have hlen : 1 ≤ sub.length := List.length_pos_iff.2 hne
              refine Needs.le (Needs.also (c := head.externalCid) (Needs.deref (n := 2 * (sub.length - 1))
                (F := fun s x => match (generalizing := false) x with
                  | .error f => (.error f : Except Fail (Nat × Int64))
                  | .ok m => m.get utf8 s fuel m.fractionalBits t row col) (by simp) ?_ ?_)) ?_
              · intro m' hm'
                exact Needs.weaken (ih fuel m' m'.fractionalBits t row col (hs m' hm'))
              · intro e st'
                rfl
              · rw [List.length_cons]
                omega

theorem Sides.cell_needs : ∀ (levels : List Nat) (fuel : Nat) (m : MMStruct3) (bits start fin row col : Nat),
    Sides utf8 st k levels m →
    Needs st [] (2 * (levels.length - 1)) (fun s => m.fillCell utf8 s fuel bits start fin row col) := by
  intro levels
  induction levels with
  | nil =>
    rintro fuel m bits start fin row col ⟨c, rfl⟩
    exact Needs.const fun st' => by cases fuel <;> rfl
  | cons l sub ih =>
    rintro fuel m bits start fin row col (⟨c, rfl⟩ | ⟨head, rfl, hside, hsub⟩)
    · exact Needs.const fun st' => by cases fuel <;> rfl
    · cases fuel with
      | zero => exact Needs.const fun st' => rfl
      | succ fuel =>
        unfold MMStruct3.fillCell
        simp only
        rcases head.locate row col with _ | ⟨index, row, col⟩
        · exact Needs.const fun st' => rfl
        · simp only
          rcases href : head.references[index]? with _ | ref
          · exact Needs.const fun st' => rfl
          · cases ref with
            | elided => exact Needs.const fun st' => rfl
            | loc i => exact Needs.const fun st' => rfl
            | external e =>
              simp only
              obtain ⟨hne, hs⟩ := hsub e (List.mem_of_getElem? href)
              have hlen : 1 ≤ sub.length := List.length_pos_iff.2 hne
              refine Needs.le (Needs.also (c := head.externalCid) (Needs.deref (n := 2 * (sub.length - 1))
                (F := fun s x => Out.await x fun m => m.fillCell utf8 s fuel m.fractionalBits start fin row col)
                (by simp) ?_ ?_)) ?_
              · intro m' hm'
                exact Needs.weaken (ih fuel m' m'.fractionalBits start fin row col (hs m' hm'))
              · intro e st'
                rfl
              · rw [List.length_cons]
                omega

/-- The parts of one superchunk, given what each of them needs. -/
theorem needs_parts {β γ : Type} (hk : 0 < k) {head : SuperHead} {l : Nat} {sub : List Nat} (hside : head.chunksSidelen = k ^ sub.sum)
    {top bottom left right : Nat} (htb : top < bottom) (hlr : left < right)
    {g : WindowSubchunk → Store → γ} (G : List γ → β) {subs : List WindowSubchunk}
    (hsubs : subs.Sublist (windowParts head.chunksSidelen head.subsidelen top bottom left right))
    (h : ∀ w ∈ subs, (sub = [] → ∀ st', g w st' = g w st) ∧
      Needs st [head.externalCid] (nested k w.loc.top w.loc.bottom w.loc.left w.loc.right sub + 1) (g w)) :
    Needs st [] (nested k top bottom left right (l :: sub)) (fun s => G (subs.map fun w => g w s)) := by
  by_cases hsub : sub = []
  · refine Needs.const fun st' => ?_
    congr 1
    apply List.map_congr_left
    intro w hw
    exact (h w hw).1 hsub st'
  · have hcs : 0 < head.chunksSidelen := by rw [hside]; exact Nat.pow_pos hk
    refine Needs.le (Needs.also (c := head.externalCid) (Needs.list G fun w hw => (h w hw).2)) ?_
    have h1 : (subs.map fun w => nested k w.loc.top w.loc.bottom w.loc.left w.loc.right sub + 1).sum ≤
        ((windowParts head.chunksSidelen head.subsidelen top bottom left right).map fun w =>
          nested k w.loc.top w.loc.bottom w.loc.left w.loc.right sub + 1).sum :=
      sum_sublist (hsubs.map _)
    have h3 : ((windowParts head.chunksSidelen head.subsidelen top bottom left right).map fun w =>
          nested k w.loc.top w.loc.bottom w.loc.left w.loc.right sub + 1).sum =
        nested k top bottom left right sub + tiles (k ^ sub.sum) top bottom left right := by
      rw [List.sum_map_add, windowParts_nested head.subsidelen hk hcs htb hlr sub (by rw [hside])]
      rw [List.map_const', List.sum_replicate_nat, windowParts_length _ hcs htb hlr, hside, Nat.mul_one]
    conv => rhs; unfold Spec.nested
    rw [if_neg hsub]
    have h2 : 1 ≤ tiles (k ^ (l :: sub).sum) top bottom left right :=
      Nat.mul_pos (blocks_pos htb) (blocks_pos hlr)
    omega

theorem Sides.window_needs (hk : 0 < k) : ∀ (levels : List Nat) (fuel : Nat) (m : MMStruct3)
    (bits start fin top bottom left right : Nat), start ≤ fin → top < bottom → left < right →
    Sides utf8 st k levels m →
    Needs st [] (nested k top bottom left right levels)
      (fun s => m.fillWindow utf8 s fuel bits ⟨start, fin, top, bottom, left, right⟩) := by
  intro levels
  induction levels with
  | nil =>
    rintro fuel m bits start fin top bottom left right - - - ⟨c, rfl⟩
    exact Needs.const fun st' => by cases fuel <;> rfl
  | cons l sub ih =>
    rintro fuel m bits start fin top bottom left right hsf htb hlr (⟨c, rfl⟩ | ⟨head, rfl, hside, hsub⟩)
    · exact Needs.const fun st' => by cases fuel <;> rfl
    · cases fuel with
      | zero => exact Needs.const fun st' => rfl
      | succ fuel =>
        have hcs : 0 < head.chunksSidelen := by rw [hside]; exact Nat.pow_pos hk
        unfold MMStruct3.fillWindow
        simp only
        rw [Cube.rect_eq (by omega) (by omega), subchunksFor_eq head hcs htb hlr]
        simp only
        refine needs_parts hk hside htb hlr Out.joinAll (List.Sublist.refl _) fun w hw => ?_
        obtain ⟨b1, b2, -, -⟩ := windowParts_loc hcs htb hlr hw
        rw [Cube.new_eq hsf (by omega) (by omega)]
        rcases href : head.references[w.index]? with _ | ref
        · exact ⟨fun _ _ => rfl, Needs.const fun st' => rfl⟩
        · cases ref with
          | elided => exact ⟨fun _ _ => rfl, Needs.const fun st' => rfl⟩
          | loc i => exact ⟨fun _ _ => rfl, Needs.const fun st' => rfl⟩
          | external e =>
            obtain ⟨hne, hs⟩ := hsub e (List.mem_of_getElem? href)
            refine ⟨fun h => absurd h hne, ?_⟩
            simp only
            refine Needs.comp (f := fun s => Out.await (head.deref utf8 s [] (.external e)) fun m =>
              m.fillWindow utf8 s fuel m.fractionalBits ⟨start, fin, w.loc.top, w.loc.bottom, w.loc.left, w.loc.right⟩)
              (g := Out.map _) (Needs.deref (F := fun s x => Out.await x fun m =>
              m.fillWindow utf8 s fuel m.fractionalBits ⟨start, fin, w.loc.top, w.loc.bottom, w.loc.left, w.loc.right⟩)
              (by simp) ?_ ?_)
            · intro m' hm'
              exact Needs.weaken (ih fuel m' m'.fractionalBits start fin _ _ _ _ hsf b1 b2 (hs m' hm'))
            · intro e st'
              rfl

theorem collect_sublist {α : Type} {f : α → Option Bool} : ∀ {xs ys : List α},
    collect xs (fun x => (f x).map fun b => if b then [x] else []) = some ys → ys.Sublist xs := by
  intro xs
  induction xs with
  | nil => intro ys h; cases h; exact List.Sublist.refl _
  | cons x xs ih =>
    intro ys h
    unfold collect at h
    simp only at h
    cases hf : f x with
    | none => rw [hf] at h; cases h
    | some b =>
      rw [hf] at h
      simp only [Option.map_some] at h
      cases hc : collect xs (fun x => (f x).map fun b => if b then [x] else []) with
      | none => rw [hc] at h; cases h
      | some zs =>
        rw [hc] at h
        cases h
        cases b with
        | true => exact (ih hc).cons_cons x
        | false => exact (ih hc).cons x

theorem Sides.search_needs (hk : 0 < k) : ∀ (levels : List Nat) (fuel : Nat) (m : MMStruct3)
    (start fin top bottom left right : Nat) (lower upper : Int64), start ≤ fin → top < bottom → left < right →
    Sides utf8 st k levels m →
    Needs st [] (nested k top bottom left right levels)
      (fun s => m.search utf8 s fuel ⟨start, fin, top, bottom, left, right⟩ lower upper) := by
  intro levels
  induction levels with
  | nil =>
    rintro fuel m start fin top bottom left right lower upper - - - ⟨c, rfl⟩
    exact Needs.const fun st' => by cases fuel <;> rfl
  | cons l sub ih =>
    rintro fuel m start fin top bottom left right lower upper hsf htb hlr (⟨c, rfl⟩ | ⟨head, rfl, hside, hsub⟩)
    · exact Needs.const fun st' => by cases fuel <;> rfl
    · cases fuel with
      | zero => exact Needs.const fun st' => rfl
      | succ fuel =>
        have hcs : 0 < head.chunksSidelen := by rw [hside]; exact Nat.pow_pos hk
        unfold MMStruct3.search
        simp only
        rw [Cube.rect_eq (by omega) (by omega), subchunksFor_eq head hcs htb hlr]
        simp only
        split
        · exact Needs.const fun st' => rfl
        · rename_i subs hcol
          have hsl := collect_sublist hcol
          refine needs_parts hk hside htb hlr Out.joinAll hsl fun w hw => ?_
          obtain ⟨b1, b2, -, -⟩ := windowParts_loc hcs htb hlr (hsl.subset hw)
          rw [Cube.new_eq hsf (by omega) (by omega)]
          rcases href : head.references[w.index]? with _ | ref
          · exact ⟨fun _ _ => rfl, Needs.const fun st' => rfl⟩
          · cases ref with
            | elided => exact ⟨fun _ _ => rfl, Needs.const fun st' => rfl⟩
            | loc i => exact ⟨fun _ _ => rfl, Needs.const fun st' => rfl⟩
            | external e =>
              obtain ⟨hne, hs⟩ := hsub e (List.mem_of_getElem? href)
              refine ⟨fun h => absurd h hne, ?_⟩
              simp only
              refine Needs.deref (utf8 := utf8) (head := head) (ref := .external e) (F := fun s x => enterSearch x fun m =>
                (m.search utf8 s fuel ⟨start, fin, w.loc.top, w.loc.bottom, w.loc.left, w.loc.right⟩
                    (rearrangeI lower upper).1 (rearrangeI lower upper).2).map fun o => o.map fun q =>
                      (q.1, q.2.1 + w.chunk.top, q.2.2 + w.chunk.left)) (List.mem_singleton_self _) ?_ ?_
              · intro m' hm'
                exact Needs.weaken (Needs.comp (ih fuel m' start fin _ _ _ _ _ _ hsf b1 b2 (hs m' hm')) (Out.map _))
              · intro e st'
                cases e <;> rfl

/-! ### Trees of spans -/

variable {H : Hash} {T : VarTheory} {log : Saved}

/-- A child of a span of height `i`. -/
def TreeChild (H : Hash) (T : VarTheory) (log : Saved) (m : MMStruct3) : Nat → Prop
  | 0 => ∃ a n, T.K log m a n
  | i + 1 => ∃ c a n tl, m = .span c ∧ Tree H T log i c a n tl

theorem Tree.child {i : Nat} {sp : Span} {a n tl j : Nat} {cid : Cid} (h : Tree H T log i sp a n tl)
    (hc : sp.spans[j]? = some cid) : ∃ m, Kept H log cid m ∧ TreeChild H T log m i := by
  have hj : j < sp.spans.length := (List.getElem?_eq_some_iff.1 hc).1
  cases i with
  | zero =>
    obtain ⟨-, -, -, -, h1, h2⟩ := h
    obtain ⟨cid', m, h3, h4, h5⟩ := h2 j ((h1 j).1 hj)
    rw [hc] at h3
    cases h3
    exact ⟨m, h4, _, _, h5⟩
  | succ i =>
    obtain ⟨-, -, m, n', h1, -, -, h2, cid', c, h3, h4, h5⟩ := h
    by_cases hjm : j < m
    · obtain ⟨cid'', c', tl', e1, e2, e3⟩ := h2 j hjm
      rw [hc] at e1
      cases e1
      exact ⟨_, e2, c', _, _, _, rfl, e3⟩
    · have : j = m := by omega
      subst this
      rw [hc] at h3
      cases h3
      exact ⟨_, h4, c, _, _, _, rfl, h5⟩

theorem VarTheory.stride_dvd (T : VarTheory) {i j : Nat} (h : i ≤ j) : T.stride i ∣ T.stride j :=
  Nat.mul_dvd_mul_left _ (Nat.pow_dvd_pow _ h)

theorem spans_succ (cs ss start fin h : Nat) :
    spans cs ss start fin (h + 1) = spans cs ss start fin h + blocks (cs * ss ^ (h + 1)) start fin := by
  unfold Spec.spans
  rw [List.range_succ, List.map_append, List.sum_append]
  simp

theorem spans_zero (cs ss start fin : Nat) : spans cs ss start fin 0 = blocks cs start fin := by
  simp [Spec.spans]

/-- What a child of a span of height `i` needs for one piece of a time range. -/
def pieceNeeds (T : VarTheory) (X start fin : Nat) : Nat → Nat
  | 0 => X
  | i + 1 => spans T.cs T.ss start fin i + blocks T.cs start fin * X

theorem sum_mul_right {α : Type} (f : α → Nat) (b : Nat) : ∀ l : List α,
    (l.map fun x => f x * b).sum = (l.map f).sum * b
  | [] => by simp
  | x :: l => by rw [List.map_cons, List.sum_cons, sum_mul_right f b l, List.map_cons, List.sum_cons, Nat.add_mul]

theorem pieces_spans {s : Span} {i start instants : Nat} {ps : List Piece} (hs : s.stride = T.stride i)
    (h : s.piecesFor start instants = some ps) : ∀ j, j ≤ i →
    (ps.map fun p => spans T.cs T.ss p.instant (p.instant + p.len) j).sum =
      spans T.cs T.ss start (start + instants) j := by
  have hp : 0 < s.stride := hs ▸ T.stride_pos i
  have hb : ∀ j, j ≤ i → (ps.map fun p => blocks (T.cs * T.ss ^ j) p.instant (p.instant + p.len)).sum =
      blocks (T.cs * T.ss ^ j) start (start + instants) := fun j hj =>
    piecesFor_blocks hp (T.stride_pos j) (hs ▸ T.stride_dvd hj) h
  intro j
  induction j with
  | zero =>
    intro hj
    have := hb 0 hj
    rw [Nat.pow_zero, Nat.mul_one] at this
    simp only [spans_zero]
    exact this
  | succ j ih =>
    intro hj
    simp only [spans_succ]
    rw [List.sum_map_add, ih (by omega), hb (j + 1) hj]

theorem tree_pieces {β γ : Type} {i X start instants : Nat} {sp : Span} (hs : sp.stride = T.stride i)
    {ps : List Piece} (hps : sp.piecesFor start instants = some ps) {g : Piece → Store → γ} (G : List γ → β)
    (h : ∀ p ∈ ps, Needs st [] (pieceNeeds T X p.instant (p.instant + p.len) i + 1) (g p)) :
    Needs st [] (spans T.cs T.ss start (start + instants) i + blocks T.cs start (start + instants) * X)
      (fun s => G (ps.map fun p => g p s)) := by
  refine Needs.le (Needs.list G h) ?_
  have hp : 0 < sp.stride := hs ▸ T.stride_pos i
  obtain ⟨ps', e1, e2, -⟩ := piecesFor_spec sp start instants hp
  rw [hps] at e1
  cases e1
  have hone : (ps.map fun _ => 1).sum = blocks (T.stride i) start (start + instants) := by
    rw [← hs, ← piecesFor_blocks hp hp (Nat.dvd_refl _) hps]
    congr 1
    apply List.map_congr_left
    intro p hp'
    obtain ⟨-, h2, h3, -⟩ := e2 p hp'
    exact (blocks_one (by omega) h2).symm
  rw [List.sum_map_add, hone]
  cases i with
  | zero =>
    have e0 : T.stride 0 = T.cs := by unfold VarTheory.stride; rw [Nat.pow_zero, Nat.mul_one]
    rw [e0] at hone ⊢
    rw [spans_zero]
    have : (ps.map fun p => pieceNeeds T X p.instant (p.instant + p.len) 0).sum = (ps.map fun _ => 1).sum * X := by
      rw [← sum_mul_right]
      congr 1
      apply List.map_congr_left
      intro p _
      rw [Nat.one_mul]
      rfl
    rw [this, hone]
    omega
  | succ i =>
    have : (ps.map fun p => pieceNeeds T X p.instant (p.instant + p.len) (i + 1)).sum =
        spans T.cs T.ss start (start + instants) i + blocks T.cs start (start + instants) * X := by
      simp only [pieceNeeds]
      rw [List.sum_map_add, sum_mul_right, pieces_spans hs hps i (by omega)]
      have := pieces_spans hs hps 0 (by omega)
      simp only [spans_zero] at this
      rw [this]
    rw [this, spans_succ]
    unfold VarTheory.stride
    omega

theorem Tree.get_needs {X row col : Nat} (hnc : log.NoCollision H)
    (hX : ∀ m a n, T.K log m a n → ∀ fuel bits t,
      Needs (log.load H) [] X (fun s => m.get utf8 s fuel bits t row col)) :
    ∀ (i : Nat) (sp : Span) (a n tl fuel bits t : Nat), Tree H T log i sp a n tl →
    Needs (log.load H) [] (i + 1 + X) (fun s => (MMStruct3.span sp).get utf8 s fuel bits t row col) := by
  intro i
  induction i with
  | zero =>
    intro sp a n tl fuel bits t h
    cases fuel with
    | zero => exact Needs.const fun st' => rfl
    | succ fuel =>
      unfold MMStruct3.get
      simp only
      rcases sp.findSpan t with _ | ⟨j, t⟩
      · exact Needs.const fun st' => rfl
      · simp only
        rcases hc : sp.spans[j]? with _ | cid
        · exact Needs.const fun st' => rfl
        · simp only
          obtain ⟨m, hm, a', n', hK⟩ := h.child hc
          refine Needs.le (Needs.struct (n := X) (utf8 := utf8) (F := fun s x => match (generalizing := false) x with
            | .error f => (.error f : Except Fail (Nat × Int64))
            | .ok m => m.get utf8 s fuel m.fractionalBits t row col) ?_ fun _ _ => rfl) (by omega)
          intro m' hm'
          rw [hm.get utf8 hnc] at hm'
          cases hm'
          exact hX m _ _ hK _ _ _
  | succ i ih =>
    intro sp a n tl fuel bits t h
    cases fuel with
    | zero => exact Needs.const fun st' => rfl
    | succ fuel =>
      unfold MMStruct3.get
      simp only
      rcases sp.findSpan t with _ | ⟨j, t⟩
      · exact Needs.const fun st' => rfl
      · simp only
        rcases hc : sp.spans[j]? with _ | cid
        · exact Needs.const fun st' => rfl
        · simp only
          obtain ⟨m, hm, c, a', n', tl', rfl, hT⟩ := h.child hc
          refine Needs.le (Needs.struct (n := i + 1 + X) (utf8 := utf8) (F := fun s x => match (generalizing := false) x with
            | .error f => (.error f : Except Fail (Nat × Int64))
            | .ok m => m.get utf8 s fuel m.fractionalBits t row col) ?_ fun _ _ => rfl) (by omega)
          intro m' hm'
          rw [hm.get utf8 hnc] at hm'
          cases hm'
          exact ih _ _ _ _ _ _ _ hT

/-- Operations on time ranges that go through spans alike. -/
structure SpanOp (utf8 : List Byte → Bool) (T : VarTheory) {β : Type} (op : (fuel bits : Nat) → MMStruct3 → (start fin : Nat) → Store → β) : Prop where
  zero : ∀ bits m start fin s s', op 0 bits m start fin s = op 0 bits m start fin s'
  span : ∀ fuel bits (sp : Span) start fin, start ≤ fin → 0 < sp.stride → (∀ s s',
      op (fuel + 1) bits (.span sp) start fin s = op (fuel + 1) bits (.span sp) start fin s') ∨
    ∃ (ps : List Piece) (G : List β → β) (E : Piece → (Except Fail MMStruct3) → (MMStruct3 → β) → β),
      sp.piecesFor start (fin - start) = some ps ∧
      (∀ p e k k', E p (.error e) k = E p (.error e) k') ∧
      (∀ p m k k', k m = k' m → E p (.ok m) k = E p (.ok m) k') ∧
      ∀ s, op (fuel + 1) bits (.span sp) start fin s = G (ps.map fun p =>
        match sp.spans[p.span]? with
        | none => E p (.error .panic) fun m => op fuel m.fractionalBits m p.instant (p.instant + p.len) s
        | some cid => E p (s.getStruct utf8 cid) fun m => op fuel m.fractionalBits m p.instant (p.instant + p.len) s)

theorem SpanOp.needs {β : Type} {op : (fuel bits : Nat) → MMStruct3 → (start fin : Nat) → Store → β}
    (ho : SpanOp utf8 T op) {X : Nat} (hnc : log.NoCollision H)
    (hX : ∀ m a n, T.K log m a n → ∀ fuel bits start fin, start ≤ fin →
      Needs (log.load H) [] X (op fuel bits m start fin)) :
    ∀ (i : Nat) (sp : Span) (a n tl fuel bits start fin : Nat), start ≤ fin → Tree H T log i sp a n tl →
    Needs (log.load H) [] (spans T.cs T.ss start fin i + blocks T.cs start fin * X)
      (op fuel bits (.span sp) start fin) := by
  intro i
  induction i with
  | zero =>
    intro sp a n tl fuel bits start fin hsf h
    cases fuel with
    | zero => exact Needs.const fun st' => ho.zero _ _ _ _ _ _
    | succ fuel =>
      have hs := h.shaped.stride
      rcases ho.span fuel bits sp start fin hsf (hs ▸ T.stride_pos 0) with hc | ⟨ps, G, E, h1, h2, h3, h4⟩
      · exact Needs.const fun st' => hc _ _
      · rw [show op (fuel + 1) bits (.span sp) start fin = _ from funext h4]
        have := tree_pieces (st := log.load H) (T := T) (X := X) (i := 0) hs h1 (G := G) (g := fun p s =>
          match sp.spans[p.span]? with
          | none => E p (.error .panic) fun m => op fuel m.fractionalBits m p.instant (p.instant + p.len) s
          | some cid => E p (s.getStruct utf8 cid) fun m => op fuel m.fractionalBits m p.instant (p.instant + p.len) s) ?_
        · rw [show start + (fin - start) = fin by omega] at this
          exact this
        · intro p _
          rcases hc : sp.spans[p.span]? with _ | cid
          · exact Needs.const fun st' => h2 _ _ _ _
          · simp only
            obtain ⟨m, hm, a', n', hK⟩ := h.child hc
            refine Needs.struct (utf8 := utf8) (F := fun s x => E p x fun m =>
              op fuel m.fractionalBits m p.instant (p.instant + p.len) s) ?_ fun _ _ => h2 _ _ _ _
            intro m' hm'
            rw [hm.get utf8 hnc] at hm'
            cases hm'
            obtain ⟨l, l1, l2⟩ := hX m _ _ hK fuel m.fractionalBits p.instant (p.instant + p.len) (by omega)
            exact ⟨l, l1, fun st' hst => h3 _ _ _ _ (l2 st' hst)⟩
  | succ i ih =>
    intro sp a n tl fuel bits start fin hsf h
    cases fuel with
    | zero => exact Needs.const fun st' => ho.zero _ _ _ _ _ _
    | succ fuel =>
      have hs := h.shaped.stride
      rcases ho.span fuel bits sp start fin hsf (hs ▸ T.stride_pos (i + 1)) with hc | ⟨ps, G, E, h1, h2, h3, h4⟩
      · exact Needs.const fun st' => hc _ _
      · rw [show op (fuel + 1) bits (.span sp) start fin = _ from funext h4]
        have := tree_pieces (st := log.load H) (T := T) (X := X) (i := i + 1) hs h1 (G := G) (g := fun p s =>
          match sp.spans[p.span]? with
          | none => E p (.error .panic) fun m => op fuel m.fractionalBits m p.instant (p.instant + p.len) s
          | some cid => E p (s.getStruct utf8 cid) fun m => op fuel m.fractionalBits m p.instant (p.instant + p.len) s) ?_
        · rw [show start + (fin - start) = fin by omega] at this
          exact this
        · intro p _
          rcases hc : sp.spans[p.span]? with _ | cid
          · exact Needs.const fun st' => h2 _ _ _ _
          · simp only
            obtain ⟨m, hm, c, a', n', tl', rfl, hT⟩ := h.child hc
            refine Needs.struct (utf8 := utf8) (F := fun s x => E p x fun m =>
              op fuel m.fractionalBits m p.instant (p.instant + p.len) s) ?_ fun _ _ => h2 _ _ _ _
            intro m' hm'
            rw [hm.get utf8 hnc] at hm'
            cases hm'
            obtain ⟨l, l1, l2⟩ := ih _ _ _ _ fuel (MMStruct3.span c).fractionalBits p.instant (p.instant + p.len)
              (by omega) hT
            exact ⟨l, l1, fun st' hst => h3 _ _ _ _ (l2 st' hst)⟩

theorem SpanOp.cell (T : VarTheory) (row col : Nat) : SpanOp utf8 T
    (fun fuel bits m start fin s => m.fillCell utf8 s fuel bits start fin row col) := by
  refine ⟨fun _ _ _ _ _ _ => rfl, fun fuel bits sp start fin hsf hst => ?_⟩
  obtain ⟨ps, e1, -⟩ := piecesFor_spec sp start (fin - start) hst
  by_cases hall : ∀ p ∈ ps, p.span < sp.spans.length
  · refine .inr ⟨ps, Out.tryAll, fun p x k => Out.await x fun m => (k m).map fun q => (p.start + q.1, q.2), e1,
      fun _ _ _ _ => rfl, fun p m k k' h => by simp only [Out.await]; rw [h], fun s => ?_⟩
    conv => lhs; unfold MMStruct3.fillCell
    simp only [csub, if_pos hsf, e1, if_pos hall]
    rfl
  · refine .inl fun s s' => ?_
    unfold MMStruct3.fillCell
    simp only [csub, if_pos hsf, e1, if_neg hall]

theorem SpanOp.window (T : VarTheory) {top bottom left right : Nat} (htb : top ≤ bottom) (hlr : left ≤ right) :
    SpanOp utf8 T (fun fuel bits m start fin s =>
      m.fillWindow utf8 s fuel bits ⟨start, fin, top, bottom, left, right⟩) := by
  refine ⟨fun _ _ _ _ _ _ => rfl, fun fuel bits sp start fin hsf hst => ?_⟩
  obtain ⟨ps, e1, -⟩ := piecesFor_spec sp start (fin - start) hst
  by_cases hall : ∀ p ∈ ps, p.span < sp.spans.length
  · refine .inr ⟨ps, Out.tryAll, fun p x k => Out.await x fun m => (k m).map fun q => (p.start + q.1, q.2), e1,
      fun _ _ _ _ => rfl, fun p m k k' h => by simp only [Out.await]; rw [h], fun s => ?_⟩
    conv => lhs; unfold MMStruct3.fillWindow
    have hnew : ∀ p : Piece, Cube.new p.instant (p.instant + p.len) top bottom left right =
        ⟨p.instant, p.instant + p.len, top, bottom, left, right⟩ := fun p =>
      Cube.new_eq (by omega) htb hlr
    simp only [Cube.instants, csub, if_pos hsf, e1, if_pos hall, hnew]
    rfl
  · refine .inl fun s s' => ?_
    unfold MMStruct3.fillWindow
    simp only [Cube.instants, csub, if_pos hsf, e1, if_neg hall]

theorem SpanOp.search (T : VarTheory) {top bottom left right : Nat} (lower upper : Int64) (htb : top ≤ bottom)
    (hlr : left ≤ right) : SpanOp utf8 T (fun fuel _ m start fin s =>
      m.search utf8 s fuel ⟨start, fin, top, bottom, left, right⟩ lower upper) := by
  refine ⟨fun _ _ _ _ _ _ => rfl, fun fuel bits sp start fin hsf hst => ?_⟩
  obtain ⟨ps, e1, -⟩ := piecesFor_spec sp start (fin - start) hst
  by_cases hall : ∀ p ∈ ps, p.span < sp.spans.length
  · refine .inr ⟨ps, Out.joinAll, fun p x k => enterSearch x fun m => (k m).map fun o => o.map fun q =>
        (q.1 + p.span * sp.stride, q.2), e1, fun _ e _ _ => by cases e <;> rfl,
      fun p m k k' h => by simp only [enterSearch]; rw [h], fun s => ?_⟩
    conv => lhs; unfold MMStruct3.search
    have hnew : ∀ p : Piece, Cube.new p.instant (p.instant + p.len) top bottom left right =
        ⟨p.instant, p.instant + p.len, top, bottom, left, right⟩ := fun p =>
      Cube.new_eq (by omega) htb hlr
    simp only [Cube.instants, csub, if_pos hsf, e1, if_pos hall, hnew]
    rfl
  · refine .inl fun s s' => ?_
    unfold MMStruct3.search
    simp only [Cube.instants, csub, if_pos hsf, e1, if_neg hall]

end

end Verif
