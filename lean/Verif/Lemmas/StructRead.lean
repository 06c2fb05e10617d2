import Verif.Lemmas.StructRepr

/-! Reads of structures that represent a series. -/
namespace Verif

section
variable {utf8 : List Byte → Bool} {st : Store} {α : Type} {dec : Nat → Int64 → α}
  {Leaf : Chunk → Nat → Nat → Nat → (Nat → Nat → Nat → α) → Prop}
  {Ext : SuperHead → Nat → Nat → α → Prop}

theorem repr_get (hleaf : ∀ c n rows cols data, Leaf c n rows cols data →
    LeafReads dec c n rows cols data) : ∀ (d fuel : Nat) (m : MMStruct3) (n rows cols : Nat)
    (data : Nat → Nat → Nat → α), Represents utf8 st dec Leaf Ext d m n rows cols data → d ≤ fuel →
    ∀ t row col, t < n → row < rows → col < cols →
    ∃ bits v, m.get utf8 st fuel m.fractionalBits t row col = .ok (bits, v) ∧
      dec bits v = data t row col := by
  intro d
  induction d with
  | zero => intro _ _ _ _ _ _ h; exact h.elim
  | succ d ih =>
    intro fuel m n rows cols data h hf t row col ht hr hc
    obtain ⟨fuel, rfl⟩ : ∃ e, fuel = e + 1 := ⟨fuel - 1, by omega⟩
    cases m with
    | subchunk c =>
      obtain ⟨v, e, hv⟩ := (hleaf _ _ _ _ _ h).get t row col ht hr hc
      refine ⟨_, v, ?_, hv⟩
      unfold MMStruct3.get
      simp only [e]
      rfl
    | superchunk hd loc =>
      have h : SuperRepr utf8 st dec Ext _ hd loc n rows cols data := h
      unfold MMStruct3.get SuperHead.locate
      have hs := h.side
      simp only
      rw [if_neg (by omega)]
      simp only
      have r1 := Nat.div_add_mod' row hd.chunksSidelen
      have c1 := Nat.div_add_mod' col hd.chunksSidelen
      have r2 := Nat.mod_lt row hs
      have c2 := Nat.mod_lt col hs
      generalize row / hd.chunksSidelen = i at *
      generalize col / hd.chunksSidelen = j at *
      generalize row % hd.chunksSidelen = r at *
      generalize col % hd.chunksSidelen = c at *
      rcases h.sub i j (by omega) (by omega) with ⟨e1, h1⟩ | ⟨ref, m, h1, e1, e2, h2⟩
      · obtain ⟨v, e2, h2⟩ := h1 t ht
        refine ⟨hd.fractionalBits, v, ?_, ?_⟩
        · rw [e1]
          simp only [e2]
          rfl
        · rw [← r1, ← c1, h2 r c r2 c2 (by omega) (by omega)]
      · obtain ⟨bits, v, e3, h3⟩ := ih fuel m _ _ _ _ h2 (by omega) t r c ht (by omega) (by omega)
        refine ⟨bits, v, ?_, ?_⟩
        · rw [e1]
          cases ref with
          | elided => exact absurd rfl h1
          | loc a => simp only [e2]; exact e3
          | external a => simp only [e2]; exact e3
        · rw [h3, r1, c1]
    | span s =>
      have h : SpanRepr utf8 st _ s n rows cols data := h
      unfold MMStruct3.get Span.findSpan
      have hs := h.stride
      simp only
      rw [if_neg (by omega)]
      simp only
      have t1 := Nat.div_add_mod' t s.stride
      have t2 := Nat.mod_lt t hs
      generalize t / s.stride = i at *
      generalize t % s.stride = u at *
      obtain ⟨cid, m, e1, e2, h1⟩ := h.sub i (by omega)
      obtain ⟨bits, v, e3, h3⟩ := ih fuel m _ _ _ _ h1 (by omega) u row col (by omega) hr hc
      refine ⟨bits, v, ?_, ?_⟩
      · rw [e1]
        simp only [e2]
        exact e3
      · rw [h3, t1]

theorem elidedCell_eq {h : SuperHead} {start fin index : Nat} (hse : start ≤ fin) {v : Nat → Int64}
    (hv : ∀ t, start ≤ t → t < fin → h.max.get (h.slot index t) = some (v t)) :
    h.elidedCell start fin index = some ((List.range (fin - start)).map fun i => (i, v (start + i))) := by
  unfold SuperHead.elidedCell csub
  rw [if_pos hse]
  simp only
  rw [← List.flatMap_pure_eq_map]
  refine collect_eq _ _ _ fun i hi => ?_
  rw [List.mem_range] at hi
  rw [hv _ (by omega) (by omega)]
  rfl

theorem elidedWindow_eq {h : SuperHead} {start fin top bottom left right index : Nat}
    (hse : start ≤ fin) (htb : top ≤ bottom) (hlr : left ≤ right) {v : Nat → Int64}
    (hv : ∀ t, start ≤ t → t < fin → h.max.get (h.slot index t) = some (v t)) :
    h.elidedWindow ⟨start, fin, top, bottom, left, right⟩ index =
      some ((List.range (fin - start)).flatMap fun i => (List.range (bottom - top)).flatMap fun r =>
        (List.range (right - left)).map fun c => (i, r, c, v (start + i))) := by
  unfold SuperHead.elidedWindow Cube.instants Cube.rows Cube.cols csub
  simp only
  rw [if_pos hse, if_pos htb, if_pos hlr]
  simp only
  refine collect_eq _ _ _ fun i hi => ?_
  rw [List.mem_range] at hi
  rw [hv _ (by omega) (by omega)]

/-- The values of an elided part. -/
theorem elided_values {h : SuperHead} {n : Nat} {P : Nat → Int64 → Prop} {index start fin : Nat}
    (hfin : fin ≤ n)
    (h1 : ∀ t, t < n → ∃ v, h.max.get (h.slot index t) = some v ∧ P t v) :
    ∃ v : Nat → Int64, ∀ t, start ≤ t → t < fin → h.max.get (h.slot index t) = some (v t) ∧ P t (v t) := by
  have : ∀ t, ∃ v, t < n → h.max.get (h.slot index t) = some v ∧ P t v := by
    intro t
    by_cases ht : t < n
    · obtain ⟨v, hv⟩ := h1 t ht
      exact ⟨v, fun _ => hv⟩
    · exact ⟨0, fun h => absurd h ht⟩
  choose v hv using this
  exact ⟨v, fun t _ ht => hv t (by omega)⟩

theorem repr_fillCell (hleaf : ∀ c n rows cols data, Leaf c n rows cols data →
    LeafReads dec c n rows cols data) : ∀ (d fuel : Nat) (m : MMStruct3) (n rows cols : Nat)
    (data : Nat → Nat → Nat → α), Represents utf8 st dec Leaf Ext d m n rows cols data → d ≤ fuel →
    ∀ start fin row col, start ≤ fin → fin ≤ n → row < rows → col < cols →
    ((m.fillCell utf8 st fuel m.fractionalBits start fin row col).map
      fun q => (q.1, dec q.2.1 q.2.2)).Yields
      ((List.range (fin - start)).map fun i => (i, data (start + i) row col)) := by
  intro d
  induction d with
  | zero => intro _ _ _ _ _ _ h; exact h.elim
  | succ d ih =>
    intro fuel m n rows cols data h hf start fin row col hse hfin hr hc
    obtain ⟨fuel, rfl⟩ : ∃ e, fuel = e + 1 := ⟨fuel - 1, by omega⟩
    cases m with
    | subchunk c =>
      obtain ⟨L, e, hL⟩ := (hleaf _ _ _ _ _ h).cell start fin row col hse hfin hr hc
      unfold MMStruct3.fillCell
      simp only [e, Option.map_some, Out.ofOption, Out.map_emit, List.map_map, Function.comp_def]
      exact (Out.yields_emit _).perm hL
    | superchunk hd loc =>
      have h : SuperRepr utf8 st dec Ext _ hd loc n rows cols data := h
      unfold MMStruct3.fillCell SuperHead.locate
      have hs := h.side
      simp only
      rw [if_neg (by omega)]
      simp only
      have r1 := Nat.div_add_mod' row hd.chunksSidelen
      have c1 := Nat.div_add_mod' col hd.chunksSidelen
      have r2 := Nat.mod_lt row hs
      have c2 := Nat.mod_lt col hs
      generalize row / hd.chunksSidelen = i at *
      generalize col / hd.chunksSidelen = j at *
      generalize row % hd.chunksSidelen = r at *
      generalize col % hd.chunksSidelen = c at *
      rcases h.sub i j (by omega) (by omega) with ⟨e1, h1⟩ | ⟨ref, m, h1, e1, e2, h2⟩
      · obtain ⟨v, hv⟩ := elided_values (start := start) hfin h1
        rw [e1]
        simp only
        rw [elidedCell_eq hse fun t a b => (hv t a b).1]
        simp only [Option.map_some, Out.ofOption, Out.map_emit, List.map_map, Function.comp_def]
        refine (Out.yields_emit _).perm (List.Perm.of_eq ?_)
        apply List.map_congr_left
        intro a ha
        rw [List.mem_range] at ha
        rw [← r1, ← c1, (hv _ (by omega) (by omega)).2 r c r2 c2 (by omega) (by omega)]
        rfl
      · have := ih fuel m _ _ _ _ h2 (by omega) start fin r c hse hfin (by omega) (by omega)
        rw [r1, c1] at this
        rw [e1]
        cases ref with
        | elided => exact absurd rfl h1
        | loc a => simp only [e2]; exact this
        | external a => simp only [e2]; exact this
    | span s =>
      have h : SpanRepr utf8 st _ s n rows cols data := h
      unfold MMStruct3.fillCell csub
      have hs := h.stride
      simp only
      rw [if_pos hse]
      simp only
      obtain ⟨ps, e0, hp, hps⟩ := piecesFor_spec s start (fin - start) hs
      rw [e0]
      simp only
      have lookup : ∀ p ∈ ps, p.span * s.stride < n := by
        intro p hm
        have := hp p hm
        omega
      rw [if_pos (by
        intro p hm
        obtain ⟨cid, m, e1, -⟩ := h.sub p.span (lookup p hm)
        exact (List.getElem?_eq_some_iff.1 e1).1)]
      have hspec : ((List.range (fin - start)).map fun i => (i, data (start + i) row col)) =
          ps.flatMap fun p => (List.range p.len).map fun i =>
            (p.start + i, data (start + (p.start + i)) row col) := by
        have := pieces_flatMap hps (fun i => [(i, data (start + i) row col)])
        rw [← List.flatMap_pure_eq_map]
        refine Eq.trans this.symm ?_
        simp only [← List.flatMap_pure_eq_map]
        rfl
      rw [hspec]
      refine Out.yields_tryAll_map fun p hm => ?_
      have hp := hp p hm
      obtain ⟨cid, m, e1, e2, h1⟩ := h.sub p.span (lookup p hm)
      simp only [e1, e2, Out.await]
      have := (ih fuel m _ _ _ _ h1 (by omega) p.instant (p.instant + p.len) row col (by omega)
        (by omega) hr hc).map (fun q => (p.start + q.1, q.2))
      rw [Out.map_map] at this ⊢
      refine this.perm (List.Perm.of_eq ?_)
      rw [List.map_map, Nat.add_sub_cancel_left]
      apply List.map_congr_left
      intro i _
      simp only [Function.comp]
      rw [show p.span * s.stride + (p.instant + i) = start + (p.start + i) by omega]

/-- One part of a window, at its place in the window. -/
theorem part_spec (data : Nat → Nat → Nat → α) (start fin top left T B L R : Nat) (h1 : top ≤ T)
    (h2 : left ≤ L) :
    (Spec.cells3 start fin T B L R).map (fun p =>
      (p.1 - start, p.2.1 - top, p.2.2 - left, data p.1 p.2.1 p.2.2)) =
    (List.range (fin - start)).flatMap fun i => (List.range (B - T)).flatMap fun r =>
      (List.range (R - L)).map fun c =>
        (i, T - top + r, L - left + c, data (start + i) (T + r) (L + c)) := by
  rw [Spec.cells3_range]
  simp only [List.map_flatMap, List.map_map, Function.comp_def, Nat.add_sub_cancel_left]
  refine List.flatMap_congr fun i _ => List.flatMap_congr fun r _ => List.map_congr_left fun c _ => ?_
  rw [show T + r - top = T - top + r by omega, show L + c - left = L - left + c by omega]

theorem repr_fillWindow (hleaf : ∀ c n rows cols data, Leaf c n rows cols data →
    LeafReads dec c n rows cols data) : ∀ (d fuel : Nat) (m : MMStruct3) (n rows cols : Nat)
    (data : Nat → Nat → Nat → α), Represents utf8 st dec Leaf Ext d m n rows cols data → d ≤ fuel →
    ∀ start fin top bottom left right, start ≤ fin → fin ≤ n → top < bottom → left < right →
    bottom ≤ rows → right ≤ cols →
    ((m.fillWindow utf8 st fuel m.fractionalBits ⟨start, fin, top, bottom, left, right⟩).map
      fun q => (q.1, q.2.1, q.2.2.1, dec q.2.2.2.1 q.2.2.2.2)).Yields
      (Spec.window3 data start fin top bottom left right) := by
  intro d
  induction d with
  | zero => intro _ _ _ _ _ _ h; exact h.elim
  | succ d ih =>
    intro fuel m n rows cols data h hf start fin top bottom left right hse hfin htb hlr hb hrt
    obtain ⟨fuel, rfl⟩ : ∃ e, fuel = e + 1 := ⟨fuel - 1, by omega⟩
    cases m with
    | subchunk c =>
      obtain ⟨L, e, hL⟩ := (hleaf _ _ _ _ _ h).window start fin top bottom left right hse hfin htb
        hlr hb hrt
      unfold MMStruct3.fillWindow
      simp only [e, Option.map_some, Out.ofOption, Out.map_emit, List.map_map, Function.comp_def]
      exact (Out.yields_emit _).perm hL
    | superchunk hd loc =>
      have h : SuperRepr utf8 st dec Ext _ hd loc n rows cols data := h
      unfold MMStruct3.fillWindow
      have hs := h.side
      simp only
      rw [Cube.rect_eq (by omega) (by omega), subchunksFor_eq hd hs htb hlr]
      simp only
      refine (Out.yields_joinAll_map (spec := fun sub =>
        (Spec.cells3 start fin (sub.chunk.top + sub.loc.top) (sub.chunk.top + sub.loc.bottom)
          (sub.chunk.left + sub.loc.left) (sub.chunk.left + sub.loc.right)).map
          fun p => (p.1 - start, p.2.1 - top, p.2.2 - left, data p.1 p.2.1 p.2.2)) ?_).perm ?_
      · intro sub hsub
        obtain ⟨i, hi, hsub⟩ := List.mem_flatMap.1 hsub
        obtain ⟨j, hj, rfl⟩ := List.mem_map.1 hsub
        have b1 := side_bounds hs htb hi
        have b2 := side_bounds hs hlr hj
        unfold windowPart
        simp only
        rw [part_spec _ _ _ _ _ _ _ _ _ (by omega) (by omega), Cube.new_eq hse (by omega) (by omega)]
        rw [Out.map_map]
        rcases h.sub i j (by omega) (by omega) with ⟨e1, h1⟩ | ⟨ref, m, h1, e1, e2, h2⟩
        · obtain ⟨v, hv⟩ := elided_values (start := start) hfin h1
          rw [e1]
          simp only
          rw [elidedWindow_eq hse (by omega) (by omega) fun t a b => (hv t a b).1]
          simp only [Option.map_some, Out.ofOption, Out.map_emit, List.map_map, Function.comp_def,
            List.map_flatMap]
          refine (Out.yields_emit _).perm (List.Perm.of_eq ?_)
          rw [Nat.add_sub_add_left, Nat.add_sub_add_left]
          refine List.flatMap_congr fun a ha => List.flatMap_congr fun r hr =>
            List.map_congr_left fun c hc => ?_
          rw [List.mem_range] at ha hr hc
          have := (hv (start + a) (by omega) (by omega)).2
            (max (i * hd.chunksSidelen) top - i * hd.chunksSidelen + r)
            (max (j * hd.chunksSidelen) left - j * hd.chunksSidelen + c)
            (by omega) (by omega) (by omega) (by omega)
          rw [Nat.add_assoc, Nat.add_assoc, this,
            show i * hd.chunksSidelen + (max (i * hd.chunksSidelen) top - i * hd.chunksSidelen) - top =
              max (i * hd.chunksSidelen) top - top by omega,
            show j * hd.chunksSidelen + (max (j * hd.chunksSidelen) left - j * hd.chunksSidelen) - left =
              max (j * hd.chunksSidelen) left - left by omega]
          rfl
        · have := (ih fuel m _ _ _ _ h2 (by omega) start fin
            (max (i * hd.chunksSidelen) top - i * hd.chunksSidelen)
            (min (i * hd.chunksSidelen + hd.chunksSidelen) bottom - i * hd.chunksSidelen)
            (max (j * hd.chunksSidelen) left - j * hd.chunksSidelen)
            (min (j * hd.chunksSidelen + hd.chunksSidelen) right - j * hd.chunksSidelen)
            hse hfin (by omega) (by omega) (by omega) (by omega)).map
            (fun q => (q.1, max (i * hd.chunksSidelen) top - top + q.2.1,
              max (j * hd.chunksSidelen) left - left + q.2.2.1, q.2.2.2))
          rw [Out.map_map, Spec.window3_range] at this
          have goal : ((Out.await (hd.deref utf8 st loc ref) fun m =>
              MMStruct3.fillWindow utf8 st fuel m m.fractionalBits
              ⟨start, fin, max (i * hd.chunksSidelen) top - i * hd.chunksSidelen,
              min (i * hd.chunksSidelen + hd.chunksSidelen) bottom - i * hd.chunksSidelen,
              max (j * hd.chunksSidelen) left - j * hd.chunksSidelen,
              min (j * hd.chunksSidelen + hd.chunksSidelen) right - j * hd.chunksSidelen⟩).map
              (fun q => (q.1, max (i * hd.chunksSidelen) top - top + q.2.1,
                max (j * hd.chunksSidelen) left - left + q.2.2.1,
                  dec q.2.2.2.1 q.2.2.2.2))).Yields
              ((List.range (fin - start)).flatMap fun a =>
                (List.range (i * hd.chunksSidelen + (min (i * hd.chunksSidelen + hd.chunksSidelen)
                    bottom - i * hd.chunksSidelen) - (i * hd.chunksSidelen +
                    (max (i * hd.chunksSidelen) top - i * hd.chunksSidelen)))).flatMap fun r =>
                (List.range (j * hd.chunksSidelen + (min (j * hd.chunksSidelen + hd.chunksSidelen)
                    right - j * hd.chunksSidelen) - (j * hd.chunksSidelen +
                    (max (j * hd.chunksSidelen) left - j * hd.chunksSidelen)))).map fun c =>
                (a, i * hd.chunksSidelen + (max (i * hd.chunksSidelen) top - i * hd.chunksSidelen) -
                    top + r,
                  j * hd.chunksSidelen + (max (j * hd.chunksSidelen) left - j * hd.chunksSidelen) -
                    left + c,
                  data (start + a) (i * hd.chunksSidelen + (max (i * hd.chunksSidelen) top -
                    i * hd.chunksSidelen) + r) (j * hd.chunksSidelen +
                    (max (j * hd.chunksSidelen) left - j * hd.chunksSidelen) + c))) := by
            rw [e2]
            refine this.perm (List.Perm.of_eq ?_)
            simp only [List.map_flatMap, List.map_map, Function.comp_def]
            rw [Nat.add_sub_add_left, Nat.add_sub_add_left]
            refine List.flatMap_congr fun a ha => List.flatMap_congr fun r hr =>
              List.map_congr_left fun c hc => ?_
            rw [Nat.add_assoc, Nat.add_assoc,
              show i * hd.chunksSidelen + (max (i * hd.chunksSidelen) top - i * hd.chunksSidelen) - top =
                max (i * hd.chunksSidelen) top - top by omega,
              show j * hd.chunksSidelen + (max (j * hd.chunksSidelen) left - j * hd.chunksSidelen) - left =
                max (j * hd.chunksSidelen) left - left by omega]
          rw [e1]
          cases ref with
          | elided => exact absurd rfl h1
          | loc a => exact goal
          | external a => exact goal
      · rw [Spec.window3_eq, List.flatMap_assoc]
        refine List.Perm.trans ?_ ((cells3_split hs htb hlr).map _)
        rw [List.map_flatMap]
        refine List.Perm.flatMap_left _ fun i hi => ?_
        rw [List.flatMap_map, List.map_flatMap]
        refine List.Perm.flatMap_left _ fun j hj => List.Perm.of_eq ?_
        have b1 := side_bounds hs htb hi
        have b2 := side_bounds hs hlr hj
        unfold windowPart
        simp only
        rw [show i * hd.chunksSidelen + (max (i * hd.chunksSidelen) top - i * hd.chunksSidelen) =
            max (i * hd.chunksSidelen) top by omega,
          show j * hd.chunksSidelen + (max (j * hd.chunksSidelen) left - j * hd.chunksSidelen) =
            max (j * hd.chunksSidelen) left by omega,
          show i * hd.chunksSidelen + (min (i * hd.chunksSidelen + hd.chunksSidelen) bottom -
            i * hd.chunksSidelen) = min (i * hd.chunksSidelen + hd.chunksSidelen) bottom by omega,
          show j * hd.chunksSidelen + (min (j * hd.chunksSidelen + hd.chunksSidelen) right -
            j * hd.chunksSidelen) = min (j * hd.chunksSidelen + hd.chunksSidelen) right by omega]
    | span s =>
      have h : SpanRepr utf8 st _ s n rows cols data := h
      unfold MMStruct3.fillWindow Cube.instants csub
      have hs := h.stride
      simp only
      rw [if_pos hse]
      simp only
      obtain ⟨ps, e0, hp, hps⟩ := piecesFor_spec s start (fin - start) hs
      rw [e0]
      simp only
      have lookup : ∀ p ∈ ps, p.span * s.stride < n := by
        intro p hm
        have := hp p hm
        omega
      rw [if_pos (by
        intro p hm
        obtain ⟨cid, m, e1, -⟩ := h.sub p.span (lookup p hm)
        exact (List.getElem?_eq_some_iff.1 e1).1)]
      rw [Spec.window3_range, ← pieces_flatMap hps]
      refine Out.yields_tryAll_map fun p hm => ?_
      have hp := hp p hm
      obtain ⟨cid, m, e1, e2, h1⟩ := h.sub p.span (lookup p hm)
      simp only [e1, e2, Out.await]
      have := (ih fuel m _ _ _ _ h1 (by omega) p.instant (p.instant + p.len) top bottom left right
        (by omega) (by omega) htb hlr hb hrt).map (fun q => (p.start + q.1, q.2))
      rw [Cube.new_eq (by omega) (by omega) (by omega)]
      rw [Out.map_map] at this ⊢
      refine this.perm (List.Perm.of_eq ?_)
      rw [Spec.window3_range, Nat.add_sub_cancel_left]
      simp only [List.map_flatMap, List.map_map, Function.comp_def]
      refine List.flatMap_congr fun a ha => List.flatMap_congr fun r hr =>
        List.map_congr_left fun c hc => ?_
      rw [show p.span * s.stride + (p.instant + a) = start + (p.start + a) by omega]

end

end Verif
