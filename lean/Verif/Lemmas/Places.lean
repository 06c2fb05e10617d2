import Verif.Lemmas.Within

/-! The places that reads of any object write to. -/
namespace Verif

theorem ChunkIter.toList_count {c : Chunk} : ∀ (fuel : Nat) (it : ChunkIter) (xs : List (Nat × Nat)),
    it.toList c fuel = some xs → xs.length = it.remaining := by
  intro fuel
  induction fuel with
  | zero => intro it xs h; cases h
  | succ fuel ih =>
    intro it xs h
    unfold ChunkIter.toList ChunkIter.next at h
    by_cases hr : it.remaining = 0
    · simp only [if_pos hr, Option.some.injEq] at h
      subst h
      exact hr.symm
    · simp only [if_neg hr] at h
      cases hb : c.blocks[it.block]? with
      | none => simp [hb] at h
      | some b =>
        simp only [hb] at h
        by_cases hl : it.instant = b.logs.length
        · simp only [if_pos hl] at h
          obtain ⟨ys, h1, rfl⟩ := Option.map_eq_some_iff.1 h
          have := ih _ _ h1
          simp only at this
          rw [List.length_cons]
          omega
        · simp only [if_neg hl] at h
          obtain ⟨ys, h1, rfl⟩ := Option.map_eq_some_iff.1 h
          have := ih _ _ h1
          simp only at this
          rw [List.length_cons]
          omega

/-- The instants of a range of a chunk are counted from zero, whatever the chunk is. -/
theorem Chunk.iterList_places {c : Chunk} {start fin : Nat} {L : List ((Nat × Nat) × Nat)}
    (h : c.iterList start fin = some L) : L.map Prod.snd = List.range (fin - start) := by
  unfold Chunk.iterList at h
  cases hi : c.iter start fin with
  | none => simp [hi] at h
  | some it =>
    simp only [hi] at h
    obtain ⟨xs, h1, rfl⟩ := Option.map_eq_some_iff.1 h
    have hx := ChunkIter.toList_count _ _ _ h1
    have hr : it.remaining = fin - start := by
      unfold Chunk.iter at hi
      cases hb : c.findBlock start with
      | none => simp [hb] at hi
      | some q =>
        obtain ⟨i, off⟩ := q
        unfold csub at hi
        simp only [hb] at hi
        by_cases hle : start ≤ fin
        · simp only [if_pos hle, Option.some.injEq] at hi
          subst hi
          rfl
        · simp [if_neg hle] at hi
    rw [List.zipIdx_map_snd, hx, hr, List.range_eq_range']

theorem collect_places {α β γ : Type} {f : α → Option (List β)} {k : β → γ} {g : α → List γ} :
    ∀ {xs : List α} {L : List β}, (∀ x ∈ xs, ∀ M, f x = some M → (M.map k).Perm (g x)) → collect xs f = some L →
      (L.map k).Perm (xs.flatMap g) := by
  intro xs
  induction xs with
  | nil =>
    intro L _ h
    simp only [collect, Option.some.injEq] at h
    subst h
    exact List.Perm.refl _
  | cons x xs ih =>
    intro L hf h
    rw [collect] at h
    cases h1 : f x with
    | none => simp [h1] at h
    | some M =>
      cases h2 : collect xs f with
      | none => simp [h1, h2] at h
      | some N =>
        simp only [h1, h2, Option.some.injEq] at h
        subst h
        rw [List.map_append, List.flatMap_cons]
        exact (hf x (by simp) M h1).append (ih (fun y hy => hf y (by simp [hy])) h2)

/-- The places of a window in its array. -/
def places (start fin top bottom left right : Nat) : List (Nat × Nat × Nat) :=
  (Spec.cells3 start fin top bottom left right).map fun q => (q.1 - start, q.2.1 - top, q.2.2 - left)

theorem places_eq (start fin top bottom left right : Nat) :
    places start fin top bottom left right = Spec.cells3 0 (fin - start) 0 (bottom - top) 0 (right - left) := by
  unfold places Spec.cells3 Spec.cells
  simp only [Nat.sub_zero, List.range'_eq_map_range, List.flatMap_map, List.map_flatMap, List.map_map,
    Nat.zero_add, Function.comp_def, Nat.add_sub_cancel_left]

theorem Block.fillWindow_places {b : Block} {off top bottom left right : Nat} (h1 : top < bottom)
    (h2 : left < right) {N : List (Nat × Nat × Int64)} (hN : b.fillWindow off ⟨top, bottom, left, right⟩ = some N) :
    (N.map fun q => (q.1, q.2.1)).Perm
      ((Spec.cells top bottom left right).map fun q => (q.1 - top, q.2 - left)) := by
  have key : ∃ D, N.Perm (Spec.window D top bottom left right) := by
    cases off with
    | zero => exact ⟨_, (b.snapshot.fillWindow_heeds h1 h2 N hN).2⟩
    | succ i =>
      simp only [Block.fillWindow] at hN
      cases hl : b.logs[i]? with
      | none => simp [hl] at hN
      | some l =>
        simp only [hl] at hN
        exact ⟨_, (l.fillWindow_heeds b.snapshot h1 h2 N hN).2⟩
  obtain ⟨D, hD⟩ := key
  refine (hD.map _).trans (List.Perm.of_eq ?_)
  unfold Spec.window
  rw [List.map_map]
  rfl

/-- A window of a chunk, whatever is in it, writes to each place of its array once. -/
theorem Chunk.fillWindow_places {ch : Chunk} {start fin top bottom left right : Nat} (h1 : top < bottom)
    (h2 : left < right) {L : List (Nat × Nat × Nat × Int64)}
    (hL : ch.fillWindow ⟨start, fin, top, bottom, left, right⟩ = some L) :
    (L.map fun q => (q.1, q.2.1, q.2.2.1)).Perm (places start fin top bottom left right) := by
  unfold Chunk.fillWindow at hL
  rw [Cube.rect_eq (by omega) (by omega)] at hL
  simp only at hL
  cases hi : ch.iterList start fin with
  | none => simp [hi] at hL
  | some Ps =>
    simp only [hi] at hL
    have := collect_places (k := fun q : Nat × Nat × Nat × Int64 => (q.1, q.2.1, q.2.2.1))
      (g := fun p => ((Spec.cells top bottom left right).map fun q => (p.2, q.1 - top, q.2 - left))) (fun p _ M hM => by
        cases hb : ch.blocks[p.1.1]? with
        | none => simp [hb] at hM
        | some b =>
          simp only [hb] at hM
          obtain ⟨N, hN, rfl⟩ := Option.map_eq_some_iff.1 hM
          have := (Block.fillWindow_places h1 h2 hN).map fun q => (p.2, q)
          rw [List.map_map, List.map_map] at this
          rw [List.map_map]
          exact this) hL
    refine this.trans (List.Perm.of_eq ?_)
    have e : ∀ F : Nat → List (Nat × Nat × Nat), (Ps.flatMap fun p => F p.2) = (Ps.map Prod.snd).flatMap F := by
      intro F
      rw [List.flatMap_map]
    rw [e fun i => (Spec.cells top bottom left right).map fun q => (i, q.1 - top, q.2 - left),
      Chunk.iterList_places hi]
    unfold places Spec.cells3
    rw [List.range'_eq_map_range, List.flatMap_map, List.map_flatMap]
    simp only [List.map_map, Function.comp_def, Nat.add_sub_cancel_left]

/-- The series of a cell of a chunk, whatever is in it, writes to each place of its array once, in order. -/
theorem Chunk.fillCell_places {ch : Chunk} {start fin row col : Nat} {L : List (Nat × Int64)}
    (hL : ch.fillCell start fin row col = some L) : (L.map Prod.fst).Perm (List.range (fin - start)) := by
  unfold Chunk.fillCell at hL
  cases hi : ch.iterList start fin with
  | none => simp [hi] at hL
  | some Ps =>
    simp only [hi] at hL
    have := collect_places (k := Prod.fst) (g := fun p => [p.2]) (fun p _ M hM => by
        cases hb : ch.blocks[p.1.1]? with
        | none => simp [hb] at hM
        | some b =>
          simp only [hb] at hM
          obtain ⟨v, hv, rfl⟩ := Option.map_eq_some_iff.1 hM
          exact List.Perm.refl _) hL
    refine this.trans (List.Perm.of_eq ?_)
    rw [← Chunk.iterList_places hi, ← List.map_eq_flatMap]

theorem elidedWindow_places {h : SuperHead} {start fin top bottom left right index : Nat}
    {L : List (Nat × Nat × Nat × Int64)}
    (hL : h.elidedWindow ⟨start, fin, top, bottom, left, right⟩ index = some L) :
    (L.map fun q => (q.1, q.2.1, q.2.2.1)).Perm (places start fin top bottom left right) := by
  unfold SuperHead.elidedWindow Cube.instants Cube.rows Cube.cols csub at hL
  simp only at hL
  by_cases h1 : start ≤ fin
  · by_cases h2 : top ≤ bottom
    · by_cases h3 : left ≤ right
      · rw [if_pos h1, if_pos h2, if_pos h3] at hL
        simp only at hL
        have := collect_places (k := fun q : Nat × Nat × Nat × Int64 => (q.1, q.2.1, q.2.2.1))
          (g := fun i => (Spec.cells 0 (bottom - top) 0 (right - left)).map fun q => (i, q)) (fun i _ M hM => by
            cases hm : h.max.get (h.slot index (start + i)) with
            | none => simp [hm] at hM
            | some v =>
              simp only [hm, Option.some.injEq] at hM
              subst hM
              refine List.Perm.of_eq ?_
              unfold Spec.cells
              simp only [Nat.sub_zero, ← List.range_eq_range', List.map_flatMap, List.map_map, Function.comp_def]) hL
        refine this.trans (List.Perm.of_eq ?_)
        rw [places_eq]
        unfold Spec.cells3
        rw [Nat.sub_zero, ← List.range_eq_range']
      · simp [if_pos h1, if_pos h2, if_neg h3] at hL
    · simp [if_pos h1, if_neg h2] at hL
  · simp [if_neg h1] at hL

theorem elidedCell_places {h : SuperHead} {start fin index : Nat} {L : List (Nat × Int64)}
    (hL : h.elidedCell start fin index = some L) : (L.map Prod.fst).Perm (List.range (fin - start)) := by
  unfold SuperHead.elidedCell csub at hL
  by_cases h1 : start ≤ fin
  · rw [if_pos h1] at hL
    simp only at hL
    have := collect_places (k := Prod.fst) (g := fun i => [i]) (fun i _ M hM => by
        obtain ⟨v, hv, rfl⟩ := Option.map_eq_some_iff.1 hM
        exact List.Perm.refl _) hL
    refine this.trans (List.Perm.of_eq ?_)
    rw [← List.map_eq_flatMap, List.map_id']
  · simp [if_neg h1] at hL

section
variable {utf8 : List Byte → Bool} {st : Store}

/-- All objects that a structure refers to, as many levels down as are looked at, can be loaded, or loading them
panics. -/
def Spec.Whole (utf8 : List Byte → Bool) (st : Store) : Nat → MMStruct3 → Prop
  | 0, _ => True
  | _ + 1, .subchunk _ => True
  | fuel + 1, .superchunk h loc => ∀ ref ∈ h.references, ref ≠ .elided →
      (∀ e, h.deref utf8 st loc ref ≠ .error (.err e)) ∧
        ∀ m, h.deref utf8 st loc ref = .ok m → Spec.Whole utf8 st fuel m
  | fuel + 1, .span s => ∀ cid ∈ s.spans, (∀ e, st.getStruct utf8 cid ≠ .error (.err e)) ∧
      ∀ m, st.getStruct utf8 cid = .ok m → Spec.Whole utf8 st fuel m

/-- No run ends with an error, and one that ends well writes each of the list once. -/
def Out.Full {β γ : Type} (f : β → γ) (o : Out β) (g : List γ) : Prop :=
  ∀ t s, o t s → (∀ e, s ≠ some (.err e)) ∧ (s = none → (t.map f).Perm g)

theorem Out.Full.fail {β γ : Type} {f : β → γ} {g : List γ} : (Out.fail .panic : Out β).Full f g := by
  rintro t s ⟨rfl, rfl⟩
  exact ⟨nofun, nofun⟩

theorem Out.Full.ofOption {β γ : Type} {f : β → γ} {o : Option (List β)} {g : List γ}
    (h : ∀ L, o = some L → (L.map f).Perm g) : (Out.ofOption o).Full f g := by
  cases o with
  | none => exact Out.Full.fail
  | some L =>
    rintro t s ⟨rfl, rfl⟩
    exact ⟨nofun, fun _ => h _ rfl⟩

theorem Out.Full.mono {β γ : Type} {f : β → γ} {o : Out β} {g g' : List γ} (h : o.Full f g) (hg : g.Perm g') :
    o.Full f g' :=
  fun t s ht => ⟨(h t s ht).1, fun hs => ((h t s ht).2 hs).trans hg⟩

theorem Out.Full.await {α β γ : Type} {f : β → γ} {x : Except Fail α} {k : α → Out β} {g : List γ}
    (hx : ∀ e, x ≠ .error (.err e)) (h : ∀ a, x = .ok a → (k a).Full f g) : (Out.await x k).Full f g := by
  cases x with
  | ok a => exact h a rfl
  | error e =>
    cases e with
    | err e => exact absurd rfl (hx e)
    | panic => exact Out.Full.fail

theorem Out.Full.map {β γ : Type} {f : β → γ} {k : β → β} {k' : γ → γ} {o : Out β} {g : List γ}
    (h : o.Full f g) (hk : ∀ q, f (k q) = k' (f q)) : (o.map k).Full f (g.map k') := by
  rintro t s ⟨t', h1, rfl⟩
  have e : (t'.map k).map f = (t'.map f).map k' := by
    rw [List.map_map, List.map_map]
    exact List.map_congr_left fun q _ => hk q
  rw [e]
  exact ⟨(h _ _ h1).1, fun hs => ((h _ _ h1).2 hs).map _⟩

theorem runs_full {β γ ι : Type} {f : β → γ} {xs : List ι} {p : ι → Out β} {g : ι → List γ}
    {rs : List (List β × Option Fail)} (h : ∀ x ∈ xs, (p x).Full f (g x)) (hr : Out.Runs (xs.map p) rs) :
    (∀ r ∈ rs, ∀ e, r.2 ≠ some (.err e)) ∧
      ((∀ r ∈ rs, r.2 = none) → ((rs.map Prod.fst).flatten.map f).Perm (xs.flatMap g)) := by
  induction xs generalizing rs with
  | nil =>
    cases hr
    exact ⟨nofun, fun _ => List.Perm.refl _⟩
  | cons x xs ih =>
    cases hr with
    | cons h1 h2 =>
      obtain ⟨i1, i2⟩ := ih (fun y hy => h y (by simp [hy])) h2
      obtain ⟨j1, j2⟩ := h x (by simp) _ _ h1
      refine ⟨fun r hr => ?_, fun hn => ?_⟩
      · rcases List.mem_cons.1 hr with rfl | hr
        · exact j1
        · exact i1 r hr
      · rw [List.map_cons, List.flatten_cons, List.map_append, List.flatMap_cons]
        exact (j2 (hn _ (by simp))).append (i2 fun r hr => hn r (by simp [hr]))

theorem Out.Full.joinAll {β γ ι : Type} {f : β → γ} {xs : List ι} {p : ι → Out β} {g : ι → List γ}
    (h : ∀ x ∈ xs, (p x).Full f (g x)) : (Out.joinAll (xs.map p)).Full f (xs.flatMap g) := by
  rintro t s ⟨rs, hr, ht⟩
  obtain ⟨i1, i2⟩ := runs_full h hr
  cases s with
  | some e =>
    simp only at ht
    rw [ht.1]
    exact ⟨nofun, nofun⟩
  | none =>
    refine ⟨nofun, fun _ => (ht.2.perm.map f).trans (i2 fun r hr => ?_)⟩
    cases e : r.2 with
    | none => rfl
    | some x =>
      cases x with
      | err x => exact absurd e (i1 r hr x)
      | panic => exact absurd e (ht.1 r hr)

theorem Out.Full.tryAll {β γ ι : Type} {f : β → γ} {xs : List ι} {p : ι → Out β} {g : ι → List γ}
    (h : ∀ x ∈ xs, (p x).Full f (g x)) : (Out.tryAll (xs.map p)).Full f (xs.flatMap g) := by
  rintro t s ⟨rs, hr, ht⟩
  obtain ⟨i1, i2⟩ := runs_full h hr
  cases s with
  | some e =>
    obtain ⟨⟨r, hr, e1⟩, -⟩ := ht
    refine ⟨fun e2 h2 => i1 r hr e2 ?_, nofun⟩
    rw [e1, h2]
  | none => exact ⟨nofun, fun _ => (ht.2.perm.map f).trans (i2 ht.1)⟩

/-- A window of a structure all of whose objects can be loaded. -/
theorem MMStruct3.fillWindow_full : ∀ (fuel : Nat) (m : MMStruct3) (bits start fin top bottom left right : Nat),
    Spec.Whole utf8 st fuel m → start ≤ fin → top < bottom → left < right →
    (m.fillWindow utf8 st fuel bits ⟨start, fin, top, bottom, left, right⟩).Full
      (fun q => (q.1, q.2.1, q.2.2.1)) (places start fin top bottom left right) := by
  intro fuel
  induction fuel with
  | zero => intros; exact Out.Full.fail
  | succ fuel ih =>
    intro m bits start fin top bottom left right hw hse htb hlr
    have leaf : ∀ {o : Option (List (Nat × Nat × Nat × Int64))} {bits : Nat} {g : List (Nat × Nat × Nat)},
        (∀ L, o = some L → (L.map fun q => (q.1, q.2.1, q.2.2.1)).Perm g) →
        (Out.ofOption (o.map (·.map fun p => (p.1, p.2.1, p.2.2.1, bits, p.2.2.2)))).Full
          (fun q => (q.1, q.2.1, q.2.2.1)) g := by
      intro o bits g h
      refine Out.Full.ofOption fun M hM => ?_
      obtain ⟨L, hL, rfl⟩ := Option.map_eq_some_iff.1 hM
      rw [List.map_map]
      exact h L hL
    cases m with
    | subchunk c =>
      unfold MMStruct3.fillWindow
      exact leaf fun L hL => Chunk.fillWindow_places htb hlr hL
    | superchunk hd loc =>
      unfold MMStruct3.fillWindow
      simp only
      by_cases hs : hd.chunksSidelen = 0
      · rw [show hd.subchunksFor (Cube.mk start fin top bottom left right).rect = none by
          unfold SuperHead.subchunksFor
          rw [if_pos hs]]
        exact Out.Full.fail
      have hs : 0 < hd.chunksSidelen := by omega
      rw [Cube.rect_eq (by omega) (by omega), subchunksFor_eq hd hs htb hlr]
      simp only
      generalize hsubs : ((rangeIncl (top / hd.chunksSidelen) ((bottom - 1) / hd.chunksSidelen)).flatMap
        fun R => (rangeIncl (left / hd.chunksSidelen) ((right - 1) / hd.chunksSidelen)).map fun C =>
          windowPart hd.chunksSidelen hd.subsidelen top bottom left right R C) = subs
      have hmem : ∀ sub ∈ subs, ∃ i j, i ∈ rangeIncl (top / hd.chunksSidelen)
          ((bottom - 1) / hd.chunksSidelen) ∧ j ∈ rangeIncl (left / hd.chunksSidelen)
          ((right - 1) / hd.chunksSidelen) ∧
          sub = windowPart hd.chunksSidelen hd.subsidelen top bottom left right i j := by
        intro sub hsub
        rw [← hsubs] at hsub
        obtain ⟨i, hi, hsub⟩ := List.mem_flatMap.1 hsub
        obtain ⟨j, hj, rfl⟩ := List.mem_map.1 hsub
        exact ⟨i, j, hi, hj, rfl⟩
      let cells : WindowSubchunk → List (Nat × Nat × Nat) := fun sub =>
        (Spec.cells3 start fin (sub.chunk.top + sub.loc.top) (sub.chunk.top + sub.loc.bottom)
          (sub.chunk.left + sub.loc.left) (sub.chunk.left + sub.loc.right)).map
            fun q => (q.1 - start, q.2.1 - top, q.2.2 - left)
      refine Out.Full.mono (Out.Full.joinAll (g := cells) fun sub hsub => ?_) ?_
      · obtain ⟨i, j, hi, hj, rfl⟩ := hmem sub hsub
        have b1 := side_bounds hs htb hi
        have b2 := side_bounds hs hlr hj
        simp only [cells, windowPart]
        rw [Cube.new_eq hse (by omega) (by omega)]
        generalize i * hd.chunksSidelen = I at *
        generalize j * hd.chunksSidelen = J at *
        have hshift := Spec.cells3_shift 0 I J start fin (max I top - I) (min (I + hd.chunksSidelen) bottom - I)
          (max J left - J) (min (J + hd.chunksSidelen) right - J)
        simp only [Nat.zero_add] at hshift
        have hg : (Spec.cells3 start fin (I + (max I top - I)) (I + (min (I + hd.chunksSidelen) bottom - I))
            (J + (max J left - J)) (J + (min (J + hd.chunksSidelen) right - J))).map
              (fun q => (q.1 - start, q.2.1 - top, q.2.2 - left)) =
            (places start fin (max I top - I) (min (I + hd.chunksSidelen) bottom - I) (max J left - J)
              (min (J + hd.chunksSidelen) right - J)).map
              fun q => (q.1, max I top - top + q.2.1, max J left - left + q.2.2) := by
          unfold places
          rw [hshift, List.map_map, List.map_map]
          refine List.map_congr_left fun q hq => ?_
          unfold Spec.cells3 Spec.cells at hq
          simp only [List.mem_flatMap, List.mem_map, List.mem_range'_1] at hq
          obtain ⟨t, ht, p, ⟨r, hr, c, hc, rfl⟩, rfl⟩ := hq
          simp only [Function.comp_apply, Prod.mk.injEq, true_and]
          omega
        rw [hg]
        refine Out.Full.map (f := fun q : Nat × Nat × Nat × Nat × Int64 => (q.1, q.2.1, q.2.2.1))
          (k' := fun q => (q.1, max I top - top + q.2.1, max J left - left + q.2.2)) ?_ fun q => rfl
        cases href : hd.references[i * hd.subsidelen + j]? with
        | none => exact Out.Full.fail
        | some ref =>
          have hmem := List.mem_of_getElem? href
          cases ref with
          | elided => exact leaf fun L hL => elidedWindow_places hL
          | loc a =>
            obtain ⟨h1, h2⟩ := hw _ hmem nofun
            exact Out.Full.await h1 fun m hm => ih m _ _ _ _ _ _ _ (h2 m hm) hse (by omega) (by omega)
          | external a =>
            obtain ⟨h1, h2⟩ := hw _ hmem nofun
            exact Out.Full.await h1 fun m hm => ih m _ _ _ _ _ _ _ (h2 m hm) hse (by omega) (by omega)
      · unfold places
        refine List.Perm.trans (List.Perm.of_eq ?_) ((cells3_split hs htb hlr).map _)
        rw [← hsubs, List.flatMap_assoc, List.map_flatMap]
        refine List.flatMap_congr fun i hi => ?_
        rw [List.flatMap_map, List.map_flatMap]
        refine List.flatMap_congr fun j hj => ?_
        have b1 := side_bounds hs htb hi
        have b2 := side_bounds hs hlr hj
        simp only [cells, windowPart]
        rw [show i * hd.chunksSidelen + (max (i * hd.chunksSidelen) top - i * hd.chunksSidelen) =
            max (i * hd.chunksSidelen) top by omega,
          show j * hd.chunksSidelen + (max (j * hd.chunksSidelen) left - j * hd.chunksSidelen) =
            max (j * hd.chunksSidelen) left by omega,
          show i * hd.chunksSidelen + (min (i * hd.chunksSidelen + hd.chunksSidelen) bottom -
            i * hd.chunksSidelen) = min (i * hd.chunksSidelen + hd.chunksSidelen) bottom by omega,
          show j * hd.chunksSidelen + (min (j * hd.chunksSidelen + hd.chunksSidelen) right -
            j * hd.chunksSidelen) = min (j * hd.chunksSidelen + hd.chunksSidelen) right by omega]
    | span s =>
      unfold MMStruct3.fillWindow Cube.instants csub
      simp only
      rw [if_pos hse]
      simp only
      by_cases hs : s.stride = 0
      · rw [show s.piecesFor start (fin - start) = none by
          unfold Span.piecesFor Span.findSpan
          rw [if_pos hs]]
        exact Out.Full.fail
      obtain ⟨ps, e0, hp, hps⟩ := piecesFor_spec s start (fin - start) (by omega)
      rw [e0]
      simp only
      by_cases hlen : ∀ p ∈ ps, p.span < s.spans.length
      · rw [if_pos hlen]
        have hspec : places start fin top bottom left right = ps.flatMap fun p =>
            (places p.instant (p.instant + p.len) top bottom left right).map fun q => (p.start + q.1, q.2) := by
          have := pieces_flatMap hps (fun i => (Spec.cells 0 (bottom - top) 0 (right - left)).map fun p => (i, p))
          simp only [places_eq]
          unfold Spec.cells3
          simp only [Nat.sub_zero, ← List.range_eq_range', Nat.add_sub_cancel_left]
          refine this.symm.trans ?_
          refine List.flatMap_congr fun p _ => ?_
          rw [List.map_flatMap]
          simp only [List.map_map, Function.comp_def]
        rw [hspec]
        refine Out.Full.tryAll fun p hm => ?_
        have hp := hp p hm
        cases hcid : s.spans[p.span]? with
        | none => exact Out.Full.fail
        | some cid =>
          obtain ⟨h1, h2⟩ := hw _ (List.mem_of_getElem? hcid)
          refine Out.Full.await h1 fun m hm => ?_
          rw [Cube.new_eq (by omega) (by omega) (by omega)]
          exact Out.Full.map (k' := fun q => (p.start + q.1, q.2))
            (ih m _ p.instant (p.instant + p.len) top bottom left right (h2 m hm) (by omega) htb hlr) fun q => rfl
      · rw [if_neg hlen]
        exact Out.Full.fail

/-- A run that ends well writes each of the list once, one that fails some of them, each once at most. -/
def Out.Covers {β γ : Type} (f : β → γ) (o : Out β) (g : List γ) : Prop :=
  ∀ t s, o t s → (t.map f).Subperm g ∧ (s = none → (t.map f).Perm g)

theorem Out.Covers.fail {β γ : Type} {f : β → γ} {e : Fail} {g : List γ} : (Out.fail e : Out β).Covers f g := by
  rintro t s ⟨rfl, rfl⟩
  exact ⟨List.nil_subperm, nofun⟩

theorem Out.Covers.ofOption {β γ : Type} {f : β → γ} {o : Option (List β)} {g : List γ}
    (h : ∀ L, o = some L → (L.map f).Perm g) : (Out.ofOption o).Covers f g := by
  cases o with
  | none => exact Out.Covers.fail
  | some L =>
    rintro t s ⟨rfl, rfl⟩
    exact ⟨(h _ rfl).subperm, fun _ => h _ rfl⟩

theorem Out.Covers.await {α β γ : Type} {f : β → γ} {x : Except Fail α} {k : α → Out β} {g : List γ}
    (h : ∀ a, x = .ok a → (k a).Covers f g) : (Out.await x k).Covers f g := by
  cases x with
  | ok a => exact h a rfl
  | error e => exact Out.Covers.fail

theorem Out.Covers.map {β γ : Type} {f : β → γ} {k : β → β} {k' : γ → γ} {o : Out β} {g : List γ}
    (h : o.Covers f g) (hk : ∀ q, f (k q) = k' (f q)) : (o.map k).Covers f (g.map k') := by
  rintro t s ⟨t', h1, rfl⟩
  have e : (t'.map k).map f = (t'.map f).map k' := by
    rw [List.map_map, List.map_map]
    exact List.map_congr_left fun q _ => hk q
  rw [e]
  exact ⟨subperm_map _ (h _ _ h1).1, fun hs => ((h _ _ h1).2 hs).map _⟩

theorem Out.Covers.tryAll {β γ ι : Type} {f : β → γ} {xs : List ι} {p : ι → Out β} {g : ι → List γ}
    (h : ∀ x ∈ xs, (p x).Covers f (g x)) : (Out.tryAll (xs.map p)).Covers f (xs.flatMap g) := by
  have inside : (Out.tryAll (xs.map p)).Inside (fun q => some (f q)) (xs.flatMap g) :=
    Out.Inside.tryAll fun x hx t s ht => by
      have e : (fun q => some (f q)) = some ∘ f := rfl
      rw [e, List.filterMap_eq_map]
      exact (h x hx t s ht).1
  intro t s ht
  refine ⟨?_, fun hs => ?_⟩
  · have := inside t s ht
    have e : (fun q => some (f q)) = some ∘ f := rfl
    rwa [e, List.filterMap_eq_map] at this
  · subst hs
    obtain ⟨rs, hr, hn, hi⟩ := ht
    refine (hi.perm.map f).trans ?_
    clear hi inside
    induction xs generalizing rs with
    | nil =>
      cases hr
      exact List.Perm.refl _
    | cons x xs ih =>
      cases hr with
      | cons h1 h2 =>
        rw [List.map_cons, List.flatten_cons, List.map_append, List.flatMap_cons]
        exact ((h x (by simp) _ _ h1).2 (hn _ (by simp))).append
          (ih (fun y hy => h y (by simp [hy])) _ h2 fun r hr => hn r (by simp [hr]))

/-- The series of a cell of any structure in any store. -/
theorem MMStruct3.fillCell_covers : ∀ (fuel : Nat) (m : MMStruct3) (bits start fin row col : Nat),
    (m.fillCell utf8 st fuel bits start fin row col).Covers Prod.fst (List.range (fin - start)) := by
  intro fuel
  induction fuel with
  | zero => intros; exact Out.Covers.fail
  | succ fuel ih =>
    intro m bits start fin row col
    have leaf : ∀ {o : Option (List (Nat × Int64))} {bits : Nat} {g : List Nat},
        (∀ L, o = some L → (L.map Prod.fst).Perm g) →
        (Out.ofOption (o.map (·.map fun p => (p.1, bits, p.2)))).Covers Prod.fst g := by
      intro o bits g h
      refine Out.Covers.ofOption fun M hM => ?_
      obtain ⟨L, hL, rfl⟩ := Option.map_eq_some_iff.1 hM
      rw [List.map_map]
      exact h L hL
    cases m with
    | subchunk c =>
      unfold MMStruct3.fillCell
      exact leaf fun L hL => Chunk.fillCell_places hL
    | superchunk hd loc =>
      unfold MMStruct3.fillCell
      simp only
      cases hd.locate row col with
      | none => exact Out.Covers.fail
      | some q =>
        obtain ⟨index, row, col⟩ := q
        simp only
        cases hd.references[index]? with
        | none => exact Out.Covers.fail
        | some ref =>
          cases ref with
          | elided => exact leaf fun L hL => elidedCell_places hL
          | loc a => exact Out.Covers.await fun m _ => ih m _ _ _ _ _
          | external a => exact Out.Covers.await fun m _ => ih m _ _ _ _ _
    | span s =>
      unfold MMStruct3.fillCell csub
      simp only
      by_cases hse : start ≤ fin
      · rw [if_pos hse]
        simp only
        by_cases hs : s.stride = 0
        · rw [show s.piecesFor start (fin - start) = none by
            unfold Span.piecesFor Span.findSpan
            rw [if_pos hs]]
          exact Out.Covers.fail
        obtain ⟨ps, e0, hp, hps⟩ := piecesFor_spec s start (fin - start) (by omega)
        rw [e0]
        simp only
        by_cases hlen : ∀ p ∈ ps, p.span < s.spans.length
        · rw [if_pos hlen, ← hps]
          refine Out.Covers.tryAll fun p hm => ?_
          cases s.spans[p.span]? with
          | none => exact Out.Covers.fail
          | some cid =>
            refine Out.Covers.await fun m _ => ?_
            have := Out.Covers.map (k := fun q : Nat × Nat × Int64 => (p.start + q.1, q.2)) (k' := fun i => p.start + i)
              (ih m m.fractionalBits p.instant (p.instant + p.len) row col) fun q => rfl
            rw [Nat.add_sub_cancel_left, ← List.range'_eq_map_range] at this
            exact this
        · rw [if_neg hlen]
          exact Out.Covers.fail
      · rw [if_neg hse]
        exact Out.Covers.fail

end

end Verif
