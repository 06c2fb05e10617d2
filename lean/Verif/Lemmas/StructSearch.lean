import Verif.Lemmas.StructRead

/-! Searches of structures that represent a series of integers. -/
namespace Verif

theorem rearrangeI_eq (lower upper : Int64) :
    rearrangeI lower upper = (min lower upper, max lower upper) := by
  unfold rearrangeI
  show (if upper < lower then _ else _) = ((if lower ≤ upper then lower else upper),
    (if lower ≤ upper then upper else lower))
  by_cases h : upper < lower
  · rw [if_pos h, if_neg (Int64.not_le.2 h), if_neg (Int64.not_le.2 h)]
  · rw [if_neg h, if_pos (Int64.not_lt.1 h), if_pos (Int64.not_lt.1 h)]

theorem int64_min_le_max (lower upper : Int64) : min lower upper ≤ max lower upper := by
  show (if lower ≤ upper then lower else upper) ≤ (if lower ≤ upper then upper else lower)
  by_cases h : lower ≤ upper
  · rw [if_pos h, if_pos h]; exact h
  · rw [if_neg h, if_neg h]
    rw [Int64.not_le] at h
    exact Int64.le_of_lt h

theorem int64_min_eq {a b : Int64} (h : a ≤ b) : min a b = a := by
  show (if a ≤ b then a else b) = a
  rw [if_pos h]

theorem int64_max_eq {a b : Int64} (h : a ≤ b) : max a b = b := by
  show (if a ≤ b then b else a) = b
  rw [if_pos h]

theorem Out.map_id {β : Type} (o : Out β) : o.map (fun x => x) = o := by
  funext t s
  apply propext
  constructor
  · rintro ⟨u, h, rfl⟩
    rw [List.map_id']
    exact h
  · intro h
    exact ⟨t, h, by rw [List.map_id']⟩

/-- What a search of a chunk that represents a series gives. -/
def LeafSearches (c : Chunk) (n rows cols : Nat) (data : Nat → Nat → Nat → Int64) : Prop :=
  ∀ start fin top bottom left right lower upper, start ≤ fin → fin ≤ n → top < bottom →
    left < right → bottom ≤ rows → right ≤ cols →
    ∃ it L, c.iterSearch ⟨start, fin, top, bottom, left, right⟩ lower upper = some it ∧
      (∀ fuel, L.length < fuel → it.toList c fuel = some L) ∧
      L.Perm (Spec.hits3 data start fin top bottom left right (min lower upper) (max lower upper))

/-- The bounds a superchunk keeps for a part and an instant contain a value. -/
def InBounds (h : SuperHead) (index t : Nat) (v : Int64) : Prop :=
  ∃ mn mx, h.min.get (h.slot index t) = some mn ∧ h.max.get (h.slot index t) = some mx ∧
    mn ≤ v ∧ v ≤ mx

theorem hasCells_spec (h : SuperHead) (lower upper : Int64) (index : Nat) : ∀ (ts : List Nat),
    (∀ t ∈ ts, ∃ mn mx, h.min.get (h.slot index t) = some mn ∧
      h.max.get (h.slot index t) = some mx) →
    ∃ b, h.hasCells lower upper index ts = some b ∧ (b = false → ∀ t ∈ ts, ∀ mn mx,
      h.min.get (h.slot index t) = some mn → h.max.get (h.slot index t) = some mx →
      ¬ (mn ≤ upper ∧ lower ≤ mx)) := by
  intro ts
  induction ts with
  | nil => intro _; exact ⟨false, rfl, by simp⟩
  | cons t ts ih =>
    intro hm
    obtain ⟨mn, mx, e1, e2⟩ := hm t (by simp)
    unfold SuperHead.hasCells
    rw [e1, e2]
    simp only
    by_cases hc : mn ≤ upper ∧ lower ≤ mx
    · rw [if_pos hc]
      exact ⟨true, rfl, by simp⟩
    · rw [if_neg hc]
      obtain ⟨b, e3, hb⟩ := ih fun t ht => hm t (by simp [ht])
      refine ⟨b, e3, fun hf t' ht' mn' mx' f1 f2 => ?_⟩
      rcases List.mem_cons.1 ht' with rfl | ht'
      · rw [e1] at f1
        rw [e2] at f2
        cases f1
        cases f2
        exact hc
      · exact hb hf t' ht' mn' mx' f1 f2

/-- The hits of a part, in coordinates of the whole. -/
theorem hits_part (data : Nat → Nat → Nat → Int64) (start fin top bottom left right a b : Nat)
    (lower upper : Int64) :
    (Spec.hits3 (fun t r c => data t (a + r) (b + c)) start fin top bottom left right lower
      upper).map (fun q => (q.1, q.2.1 + a, q.2.2 + b)) =
    Spec.hits3 data start fin (a + top) (a + bottom) (b + left) (b + right) lower upper := by
  rw [Spec.hits3_eq, Spec.hits3_eq]
  have := Spec.cells3_shift 0 a b start fin top bottom left right
  simp only [Nat.zero_add] at this
  rw [this, List.filter_map]
  simp only [Function.comp_def]
  apply List.map_congr_left
  intro p _
  rw [Nat.add_comm a, Nat.add_comm b]

theorem hits_time (data : Nat → Nat → Nat → Int64) (start fin top bottom left right d : Nat)
    (lower upper : Int64) :
    (Spec.hits3 (fun t => data (d + t)) start fin top bottom left right lower upper).map
      (fun q => (q.1 + d, q.2)) =
    Spec.hits3 data (d + start) (d + fin) top bottom left right lower upper := by
  rw [Spec.hits3_eq, Spec.hits3_eq]
  have := Spec.cells3_shift d 0 0 start fin top bottom left right
  simp only [Nat.zero_add] at this
  rw [this, List.filter_map]
  simp only [Function.comp_def]
  apply List.map_congr_left
  intro p _
  rw [Nat.add_comm d]

theorem elidedSearch_eq {h : SuperHead} {start fin top bottom left right index a b : Nat}
    {lower upper : Int64} (hn : h.subsidelen ≠ 0) (hse : start ≤ fin) {v : Nat → Int64}
    {data : Nat → Nat → Nat → Int64}
    (hv : ∀ t, start ≤ t → t < fin → h.max.get (h.slot index t) = some (v t) ∧
      ∀ r c, top ≤ r → r < bottom → left ≤ c → c < right → data t (a + r) (b + c) = v t) :
    h.elidedSearch ⟨start, fin, top, bottom, left, right⟩ index a b lower upper =
      some (Spec.hits3 data start fin (a + top) (a + bottom) (b + left) (b + right) lower
        upper) := by
  unfold SuperHead.elidedSearch csub
  simp only
  rw [if_neg hn, if_pos hse]
  simp only
  have key := collect_eq (fun i => match h.max.get (h.slot index (start + i)) with
      | none => none
      | some v =>
        if lower ≤ v ∧ v ≤ upper then
          some ((rangeExcl top bottom).flatMap fun row =>
            (rangeExcl left right).map fun col => (i + start, row + a, col + b))
        else some []) (fun i => ((Spec.hits (fun r c => data (start + i) (a + r) (b + c)) top bottom left right
        lower upper).map fun p => (start + i, p)).map fun q => (q.1, q.2.1 + a, q.2.2 + b))
      (List.range (fin - start)) (by
    intro i hi
    rw [List.mem_range] at hi
    obtain ⟨e, hd⟩ := hv (start + i) (by omega) (by omega)
    rw [e]
    simp only
    unfold Spec.hits
    by_cases hc : lower ≤ v (start + i) ∧ v (start + i) ≤ upper
    · rw [if_pos hc, List.filter_eq_self.2 (by
        intro p hp
        have := Spec.mem_cells.1 hp
        beta_reduce
        rw [hd _ _ this.1.1 this.1.2 this.2.1 this.2.2]
        exact decide_eq_true hc)]
      unfold Spec.cells rangeExcl
      simp only [List.map_flatMap, List.map_map, Function.comp_def]
      simp only [Nat.add_comm i]
    · rw [if_neg hc, List.filter_eq_nil_iff.2 (by
        intro p hp
        have := Spec.mem_cells.1 hp
        beta_reduce
        rw [hd _ _ this.1.1 this.1.2 this.2.1 this.2.2]
        simpa using hc)]
      rfl)
  refine key.trans ?_
  rw [← hits_part]
  unfold Spec.hits3
  rw [List.range'_eq_map_range, List.flatMap_map, List.map_flatMap]

section
variable {utf8 : List Byte → Bool} {st : Store}
  {Leaf : Chunk → Nat → Nat → Nat → (Nat → Nat → Nat → Int64) → Prop}

theorem repr_search (hleaf : ∀ c n rows cols data, Leaf c n rows cols data →
    LeafSearches c n rows cols data) : ∀ (d fuel : Nat) (m : MMStruct3) (n rows cols : Nat)
    (data : Nat → Nat → Nat → Int64),
    Represents utf8 st (fun _ v => v) Leaf InBounds d m n rows cols data → d ≤ fuel →
    ∀ start fin top bottom left right lower upper, start ≤ fin → fin ≤ n → top < bottom →
    left < right → bottom ≤ rows → right ≤ cols →
    (m.search utf8 st fuel ⟨start, fin, top, bottom, left, right⟩ lower upper).Yields
      ((Spec.hits3 data start fin top bottom left right (min lower upper) (max lower upper)).map
        some) := by
  intro d
  induction d with
  | zero => intro _ _ _ _ _ _ h; exact h.elim
  | succ d ih =>
    intro fuel m n rows cols data h hf start fin top bottom left right lower upper hse hfin htb hlr
      hb hrt
    obtain ⟨fuel, rfl⟩ : ∃ e, fuel = e + 1 := ⟨fuel - 1, by omega⟩
    cases m with
    | subchunk c =>
      obtain ⟨it, L, e, hL, hp⟩ := hleaf _ _ _ _ _ h start fin top bottom left right lower upper hse
        hfin htb hlr hb hrt
      unfold MMStruct3.search
      simp only [e]
      refine ⟨⟨_, _, .inl ⟨L.length + 1, L, hL _ (by omega), rfl, rfl⟩⟩, ?_⟩
      rintro t s (⟨k, l, h1, rfl, rfl⟩ | ⟨h1, -, -⟩)
      · refine ⟨rfl, List.Perm.map _ ?_⟩
        have : l = L := by
          have h2 := hL (max k (L.length + 1)) (by omega)
          have h3 : ∀ k k' it l, k ≤ k' → SearchIter.toList c k it = some l →
              SearchIter.toList c k' it = some l := by
            intro k
            induction k with
            | zero => intro _ _ _ _ h; cases h
            | succ k ih2 =>
              intro k' it l hk h
              obtain ⟨k', rfl⟩ : ∃ e, k' = e + 1 := ⟨k' - 1, by omega⟩
              unfold SearchIter.toList at h ⊢
              split at h
              · cases h
              · exact h
              · rename_i x it' heq
                cases h4 : SearchIter.toList c k it' with
                | none => rw [h4] at h; cases h
                | some l' =>
                  rw [h4] at h
                  rw [ih2 k' it' l' (by omega) h4]
                  exact h
          have h4 := h3 k (max k (L.length + 1)) it l (Nat.le_max_left _ _) h1
          rw [h2] at h4
          exact (Option.some.inj h4).symm
        rw [this]
        exact hp
      · have := h1 (L.length + 1)
        rw [hL _ (by omega)] at this
        cases this
    | superchunk hd loc =>
      have h : SuperRepr utf8 st (fun _ v => v) InBounds _ hd loc n rows cols data := h
      unfold MMStruct3.search
      have hs := h.side
      simp only
      rw [Cube.rect_eq (by omega) (by omega), subchunksFor_eq hd hs htb hlr, rearrangeI_eq]
      simp only
      generalize hlo : min lower upper = lo
      generalize hup : max lower upper = up
      have hle : lo ≤ up := by rw [← hlo, ← hup]; exact int64_min_le_max _ _
      generalize hsubs : ((rangeIncl (top / hd.chunksSidelen) ((bottom - 1) / hd.chunksSidelen)).flatMap
        fun R => (rangeIncl (left / hd.chunksSidelen) ((right - 1) / hd.chunksSidelen)).map fun C =>
          windowPart hd.chunksSidelen hd.subsidelen top bottom left right R C) = subs
      have hmem : ∀ sub ∈ subs, ∃ i j, i ∈ rangeIncl (top / hd.chunksSidelen)
          ((bottom - 1) / hd.chunksSidelen) ∧ j ∈ rangeIncl (left / hd.chunksSidelen)
          ((right - 1) / hd.chunksSidelen) ∧
          sub = windowPart hd.chunksSidelen hd.subsidelen top bottom left right i j := by
        intro sub hsub
        rw [← hsubs] at hsub
        obtain ⟨i, hi, hsub⟩ := List.mem_flatMap.1 hsub
        obtain ⟨j, hj, rfl⟩ := List.mem_map.1 hsub
        exact ⟨i, j, hi, hj, rfl⟩
      let spec : WindowSubchunk → List (Option (Nat × Nat × Nat)) := fun sub =>
        (Spec.hits3 data start fin (sub.chunk.top + sub.loc.top) (sub.chunk.top + sub.loc.bottom)
          (sub.chunk.left + sub.loc.left) (sub.chunk.left + sub.loc.right) lo up).map some
      -- which parts are searched
      have hcells : ∀ sub, ∃ b, sub ∈ subs →
          hd.hasCells lo up sub.index (rangeExcl start fin) = some b ∧
          (b = false → spec sub = []) := by
        intro sub
        by_cases hsub : sub ∈ subs
        · obtain ⟨i, j, hi, hj, rfl⟩ := hmem sub hsub
          have b1 := side_bounds hs htb hi
          have b2 := side_bounds hs hlr hj
          -- the bounds of the part
          have hin : ∀ t r c, t < n → r < hd.chunksSidelen → c < hd.chunksSidelen →
              i * hd.chunksSidelen + r < rows → j * hd.chunksSidelen + c < cols →
              InBounds hd (i * hd.subsidelen + j) t
                (data t (i * hd.chunksSidelen + r) (j * hd.chunksSidelen + c)) := by
            intro t r c ht hr hc h1 h2
            have := h.ext t _ _ ht h1 h2
            rw [Nat.mul_comm i, Nat.mul_add_div hs, Nat.div_eq_of_lt hr, Nat.mul_comm j,
              Nat.mul_add_div hs, Nat.div_eq_of_lt hc, Nat.add_zero, Nat.add_zero] at this
            rw [Nat.mul_comm i hd.chunksSidelen, Nat.mul_comm j hd.chunksSidelen]
            exact this
          obtain ⟨b, e, hb⟩ := hasCells_spec hd lo up (i * hd.subsidelen + j) (rangeExcl start fin) (by
            intro t ht
            rw [mem_rangeExcl] at ht
            obtain ⟨mn, mx, e1, e2, -⟩ := hin t 0 0 (by omega) (by omega) (by omega) (by omega)
              (by omega)
            exact ⟨mn, mx, e1, e2⟩)
          refine ⟨b, fun _ => ⟨e, fun hf => ?_⟩⟩
          simp only [spec, windowPart]
          rw [Spec.hits3_eq, List.filter_eq_nil_iff.2, List.map_nil]
          rintro ⟨t, r, c⟩ hp
          have hp := Spec.mem_cells3.1 hp
          simp only at hp
          simp only [decide_eq_true_eq]
          rintro ⟨h1, h2⟩
          obtain ⟨mn, mx, e1, e2, h3, h4⟩ := hin t (r - i * hd.chunksSidelen)
            (c - j * hd.chunksSidelen) (by omega) (by omega) (by omega) (by omega) (by omega)
          rw [show i * hd.chunksSidelen + (r - i * hd.chunksSidelen) = r by omega,
            show j * hd.chunksSidelen + (c - j * hd.chunksSidelen) = c by omega] at h3 h4
          exact hb hf t (mem_rangeExcl.2 hp.1) mn mx e1 e2
            ⟨Int64.le_trans h3 h2, Int64.le_trans h1 h4⟩
        · exact ⟨false, fun h => absurd h hsub⟩
      choose b hb using hcells
      rw [collect_eq (fun (sub : WindowSubchunk) =>
          (hd.hasCells lo up sub.index (rangeExcl start fin)).map fun b => if b then [sub] else [])
        (fun sub => if b sub then [sub] else []) subs (by
          intro sub hsub
          rw [(hb sub hsub).1]
          rfl)]
      simp only
      rw [← Out.map_id (Out.joinAll _)]
      refine (Out.yields_joinAll_map (spec := spec) ?_).perm ?_
      · intro sub hsub
        have hsub : sub ∈ subs := by
          obtain ⟨sub', h1, h2⟩ := List.mem_flatMap.1 hsub
          by_cases hbs : b sub' = true
          · rw [if_pos hbs, List.mem_singleton] at h2
            exact h2 ▸ h1
          · rw [if_neg hbs] at h2
            cases h2
        obtain ⟨i, j, hi, hj, rfl⟩ := hmem sub hsub
        have b1 := side_bounds hs htb hi
        have b2 := side_bounds hs hlr hj
        rw [Out.map_id]
        simp only [spec, windowPart]
        rw [Cube.new_eq hse (by omega) (by omega)]
        rcases h.sub i j (by omega) (by omega) with ⟨e1, h1⟩ | ⟨ref, m, h1, e1, e2, h2⟩
        · obtain ⟨v, hv⟩ := elided_values (start := start) hfin h1
          rw [e1]
          simp only
          rw [elidedSearch_eq (v := v) (data := data) (Nat.pos_iff_ne_zero.1 h.grid) hse (by
            intro t ht1 ht2
            refine ⟨(hv t ht1 ht2).1, fun r c hr1 hr2 hc1 hc2 => ?_⟩
            exact (hv t ht1 ht2).2 r c (by omega) (by omega) (by omega) (by omega))]
          exact Out.yields_emit _
        · have := (ih fuel m _ _ _ _ h2 (by omega) start fin
            (max (i * hd.chunksSidelen) top - i * hd.chunksSidelen)
            (min (i * hd.chunksSidelen + hd.chunksSidelen) bottom - i * hd.chunksSidelen)
            (max (j * hd.chunksSidelen) left - j * hd.chunksSidelen)
            (min (j * hd.chunksSidelen + hd.chunksSidelen) right - j * hd.chunksSidelen)
            lo up hse hfin (by omega) (by omega) (by omega) (by omega)).map
            (Option.map fun q => (q.1, q.2.1 + i * hd.chunksSidelen, q.2.2 + j * hd.chunksSidelen))
          rw [int64_min_eq hle, int64_max_eq hle] at this
          have goal := this.perm (b := (Spec.hits3 data start fin
            (i * hd.chunksSidelen + (max (i * hd.chunksSidelen) top - i * hd.chunksSidelen))
            (i * hd.chunksSidelen + (min (i * hd.chunksSidelen + hd.chunksSidelen) bottom -
              i * hd.chunksSidelen))
            (j * hd.chunksSidelen + (max (j * hd.chunksSidelen) left - j * hd.chunksSidelen))
            (j * hd.chunksSidelen + (min (j * hd.chunksSidelen + hd.chunksSidelen) right -
              j * hd.chunksSidelen)) lo up).map some) (List.Perm.of_eq (by
            rw [List.map_map, ← hits_part data, List.map_map]
            rfl))
          rw [e1]
          cases ref with
          | elided => exact absurd rfl h1
          | loc a => simp only [e2]; exact goal
          | external a => simp only [e2]; exact goal
      · have e1 : (subs.flatMap fun sub => if b sub = true then [sub] else []).flatMap spec =
            subs.flatMap spec := by
          rw [List.flatMap_assoc]
          refine List.flatMap_congr fun sub hsub => ?_
          by_cases hbs : b sub = true
          · rw [if_pos hbs]; simp
          · rw [if_neg hbs, (hb sub hsub).2 (by simpa using hbs)]
            rfl
        rw [e1, ← hsubs, List.flatMap_assoc]
        rw [Spec.hits3_eq]
        refine List.Perm.trans ?_ (((cells3_split hs htb hlr).filter _).map some)
        rw [List.filter_flatMap, List.map_flatMap]
        refine List.Perm.flatMap_left _ fun i hi => ?_
        rw [List.flatMap_map, List.filter_flatMap, List.map_flatMap]
        refine List.Perm.flatMap_left _ fun j hj => List.Perm.of_eq ?_
        have b1 := side_bounds hs htb hi
        have b2 := side_bounds hs hlr hj
        simp only [spec, windowPart]
        rw [Spec.hits3_eq,
          show i * hd.chunksSidelen + (max (i * hd.chunksSidelen) top - i * hd.chunksSidelen) =
            max (i * hd.chunksSidelen) top by omega,
          show j * hd.chunksSidelen + (max (j * hd.chunksSidelen) left - j * hd.chunksSidelen) =
            max (j * hd.chunksSidelen) left by omega,
          show i * hd.chunksSidelen + (min (i * hd.chunksSidelen + hd.chunksSidelen) bottom -
            i * hd.chunksSidelen) = min (i * hd.chunksSidelen + hd.chunksSidelen) bottom by omega,
          show j * hd.chunksSidelen + (min (j * hd.chunksSidelen + hd.chunksSidelen) right -
            j * hd.chunksSidelen) = min (j * hd.chunksSidelen + hd.chunksSidelen) right by omega]
    | span s =>
      have h : SpanRepr utf8 st _ s n rows cols data := h
      unfold MMStruct3.search Cube.instants csub
      have hs := h.stride
      simp only
      rw [if_pos hse]
      simp only
      obtain ⟨ps, e0, hp, hps⟩ := piecesFor_spec s start (fin - start) hs
      rw [e0]
      simp only
      have lookup : ∀ p ∈ ps, p.span * s.stride < n := by
        intro p hm
        have := hp p hm
        omega
      rw [if_pos (by
        intro p hm
        obtain ⟨cid, m, e1, -⟩ := h.sub p.span (lookup p hm)
        exact (List.getElem?_eq_some_iff.1 e1).1)]
      have hspec : (Spec.hits3 data start fin top bottom left right (min lower upper)
          (max lower upper)).map some = ps.flatMap fun p => (Spec.hits3 data (start + p.start)
          (start + p.start + p.len) top bottom left right (min lower upper)
          (max lower upper)).map some := by
        have := pieces_flatMap hps (fun i => (Spec.hits (data (start + i)) top bottom left right
          (min lower upper) (max lower upper)).map fun p => some (start + i, p))
        unfold Spec.hits3
        rw [List.range'_eq_map_range, List.flatMap_map, List.map_flatMap]
        simp only [List.map_map, Function.comp_def]
        refine this.symm.trans ?_
        refine List.flatMap_congr fun p _ => ?_
        rw [Nat.add_sub_cancel_left, List.range'_eq_map_range, List.flatMap_map, List.map_flatMap]
        simp only [List.map_map, Function.comp_def, Nat.add_assoc]
      rw [hspec, ← Out.map_id (Out.joinAll _)]
      refine Out.yields_joinAll_map fun p hm => ?_
      have hp := hp p hm
      obtain ⟨cid, m, e1, e2, h1⟩ := h.sub p.span (lookup p hm)
      rw [Out.map_id]
      simp only [e1, e2]
      have := (ih fuel m _ _ _ _ h1 (by omega) p.instant (p.instant + p.len) top bottom left right
        lower upper (by omega) (by omega) htb hlr hb hrt).map
        (Option.map fun q => (q.1 + p.span * s.stride, q.2))
      rw [Cube.new_eq (by omega) (by omega) (by omega)]
      refine this.perm (List.Perm.of_eq ?_)
      rw [List.map_map, show start + p.start = p.span * s.stride + p.instant by omega, Nat.add_assoc,
        ← hits_time data, List.map_map]
      rfl

end

end Verif
