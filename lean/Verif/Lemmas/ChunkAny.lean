import Verif.Lemmas.StructSearch
import Verif.Lemmas.SuperInt

/-!
Chunks of any series: reads of all kinds give one series, which is the one that was stored if nothing
overflows, and searches give cells of the window.
-/
namespace Verif

/-- Searches of a chunk return, and give cells of the window, once each. -/
def LeafFinds (c : Chunk) (n rows cols : Nat) : Prop :=
  ∀ start fin top bottom left right lower upper, start ≤ fin → fin ≤ n → top < bottom →
    left < right → bottom ≤ rows → right ≤ cols →
    ∃ it L, c.iterSearch ⟨start, fin, top, bottom, left, right⟩ lower upper = some it ∧
      (∀ fuel, L.length < fuel → it.toList c fuel = some L) ∧
      L.Subperm (Spec.cells3 start fin top bottom left right)

/-- What a chunk is whatever is in it. -/
structure AnyLeaf (c : Chunk) (n rows cols : Nat) : Prop where
  reads : ∃ D, LeafReads (fun _ v => v) c n rows cols D
  finds : LeafFinds c n rows cols

theorem subperm_flatMap {α β : Type} {f g : α → List β} : ∀ (l : List α), (∀ x ∈ l, (f x).Subperm (g x)) →
    (l.flatMap f).Subperm (l.flatMap g) := by
  intro l
  induction l with
  | nil => intro _; exact List.Subperm.refl _
  | cons x l ih =>
    intro h
    rw [List.flatMap_cons, List.flatMap_cons]
    exact (h x (by simp)).append (ih fun y hy => h y (by simp [hy]))

theorem subperm_map {α β : Type} (f : α → β) {l m : List α} (h : l.Subperm m) :
    (l.map f).Subperm (m.map f) := by
  obtain ⟨l', p, s⟩ := h
  exact ⟨l'.map f, p.map f, s.map f⟩

theorem subperm_nodup {α : Type} {l m : List α} (h : l.Subperm m) (hm : m.Nodup) : l.Nodup := by
  obtain ⟨l', p, s⟩ := h
  exact p.nodup_iff.1 (hm.sublist s)

theorem Spec.cells3_nodup (start fin top bottom left right : Nat) :
    (Spec.cells3 start fin top bottom left right).Nodup := by
  unfold Spec.cells3 Spec.cells
  rw [List.nodup_flatMap]
  refine ⟨fun t _ => ?_, ?_⟩
  · refine List.Nodup.map (fun a b h => (Prod.mk.inj h).2) ?_
    rw [List.nodup_flatMap]
    refine ⟨fun r _ => List.Nodup.map (fun a b h => (Prod.mk.inj h).2) List.nodup_range', ?_⟩
    refine List.Pairwise.imp ?_ (List.nodup_range' (s := top) (n := bottom - top))
    intro a b hab x hx hy
    simp only [List.mem_map] at hx hy
    obtain ⟨_, -, rfl⟩ := hx
    obtain ⟨_, -, e⟩ := hy
    exact hab (Prod.mk.inj e).1.symm
  · refine List.Pairwise.imp ?_ (List.nodup_range' (s := start) (n := fin - start))
    intro a b hab x hx hy
    simp only [List.mem_map] at hx hy
    obtain ⟨_, -, rfl⟩ := hx
    obtain ⟨_, -, e⟩ := hy
    exact hab (Prod.mk.inj e).1.symm

/-- Reads of blocks that give one series each give it through the chunk. -/
theorem blocks_reads {bs : List Block} {rows cols : Nat} {D : Nat → Nat → Nat → Int64} (hne : bs ≠ [])
    (enc : MMEncoding) (fb : Nat)
    (get : ∀ t i off b, Holds bs t i off → bs[i]? = some b → ∀ r c, r < rows → c < cols →
      b.get off r c = some (D t r c))
    (fill : ∀ t i off b, Holds bs t i off → bs[i]? = some b → ∀ w : Rect, InRaster w rows cols →
      ∃ L, b.fillWindow off w = some L ∧ L.Perm (Spec.window (D t) w.top w.bottom w.left w.right)) :
    LeafReads (fun _ v => v) (Chunk.new bs enc fb) (blocksLen bs) rows cols D := by
  refine ⟨fun t row col ht hr hc => ?_, fun start fin row col a1 a2 hr hc => ?_,
    fun start fin top bottom left right a1 a2 a3 a4 a5 a6 => ?_⟩
  · obtain ⟨i, off, h⟩ := exists_holds bs t ht
    refine ⟨_, ?_, rfl⟩
    unfold Chunk.get Chunk.findBlock
    rw [findBlock_spec bs enc fb t i off h _ (by simp [Chunk.new])]
    simp only [Chunk.new, List.getElem?_eq_getElem h.lt]
    exact get t i off _ h (List.getElem?_eq_getElem h.lt) row col hr hc
  · obtain ⟨L, e1, h4⟩ := iterList_spec bs enc fb start fin hne a1 a2
    unfold Chunk.fillCell
    rw [e1]
    simp only
    have key : ∀ (ts : List Nat) (L : List ((Nat × Nat) × Nat)),
        List.Forall₂ (fun t p => Holds bs t p.1.1 p.1.2 ∧ p.2 = t - start ∧ t < fin) ts L →
        collect L (fun p => match (Chunk.new bs enc fb).blocks[p.1.1]? with
          | none => none
          | some b => (b.get p.1.2 row col).map fun v => [(p.2, v)]) =
        some (ts.map fun t => (t - start, D t row col)) := by
      intro ts L h
      induction h with
      | nil => rfl
      | cons h1' h2' ih =>
        obtain ⟨h5, h6, h7⟩ := h1'
        rw [collect]
        simp only [Chunk.new, List.getElem?_eq_getElem h5.lt]
        rw [get _ _ _ _ h5 (List.getElem?_eq_getElem h5.lt) row col hr hc]
        simp only [Option.map_some]
        simp only [Chunk.new] at ih
        rw [ih, h6]
        rfl
    refine ⟨_, key _ _ h4, List.Perm.of_eq ?_⟩
    rw [List.range'_eq_map_range, List.map_map, List.map_map]
    apply List.map_congr_left
    intro i _
    simp only [Function.comp]
    rw [Nat.add_sub_cancel_left]
  · have hr : (Cube.mk start fin top bottom left right).rect = ⟨top, bottom, left, right⟩ :=
      Cube.rect_eq (by omega) (by omega)
    obtain ⟨L, e1, h4⟩ := iterList_spec bs enc fb start fin hne a1 a2
    unfold Chunk.fillWindow
    simp only
    rw [e1]
    simp only [hr]
    obtain ⟨M, e2, p⟩ := collect_forall₂ _ (fun p => match (Chunk.new bs enc fb).blocks[p.1.1]? with
        | none => none
        | some b => (b.fillWindow p.1.2 ⟨top, bottom, left, right⟩).map fun L => L.map fun q => (p.2, q))
      (fun t => (Spec.window (D t) top bottom left right).map fun p => (t - start, p)) (by
        rintro t p ⟨h5, h6, h7⟩
        simp only [Chunk.new, List.getElem?_eq_getElem h5.lt]
        obtain ⟨M, e2, pm⟩ := fill _ _ _ _ h5 (List.getElem?_eq_getElem h5.lt)
          ⟨top, bottom, left, right⟩ ⟨a3, a4, a5, a6⟩
        rw [e2]
        exact ⟨_, rfl, by rw [h6]; exact pm.map _⟩) _ _ h4
    refine ⟨M, e2, ?_⟩
    rw [List.map_id'']
    · exact p
    · intro q; rfl

/-- Whatever the series is, a chunk of even arity is fine. -/
theorem chunk_any {get : Nat → Nat → Nat → Int64} {n rows cols k e : Nat} (enc : MMEncoding) (fb : Nat)
    (hs : ShapeOk rows cols k e) (hn : 1 ≤ n) (heven : k % 2 = 0) {q : Chunk.Build}
    (hq : Chunk.build get n rows cols k e enc fb = some q) : AnyLeaf q.data n rows cols := by
  have hk : 0 < k := by have := hs.arity; omega
  obtain ⟨bs, h1, hne, h2, h3, -⟩ := chunk_build get n rows cols k e hk hn enc fb
  rw [hq] at h3
  cases h3
  have ok := h1.logsOk_of_even hs heven
  constructor
  · have each : ∀ t, ∃ D : Nat → Nat → Int64, ∀ i off b, Holds bs t i off → bs[i]? = some b →
        ∀ r c, r < rows → c < cols → b.get off r c = some (D r c) := by
      intro t
      by_cases ht : t < blocksLen bs
      · obtain ⟨i, off, h⟩ := exists_holds bs t ht
        obtain ⟨b, hb⟩ : ∃ b, bs[i]? = some b := ⟨_, List.getElem?_eq_getElem h.lt⟩
        have : ∃ D : Nat → Nat → Int64, ∀ r c, r < rows → c < cols → b.get off r c = some (D r c) := by
          cases off with
          | zero => exact ⟨_, block_get_zero h1 hs h hb⟩
          | succ off => exact ⟨_, block_get_log h1 hs h hb ok⟩
        obtain ⟨D, hD⟩ := this
        refine ⟨D, fun i' off' b' h' hb' => ?_⟩
        obtain ⟨rfl, rfl⟩ := h.unique h'
        rw [hb] at hb'
        obtain rfl := Option.some.inj hb'
        exact hD
      · refine ⟨fun _ _ => 0, fun i off b h hb => ?_⟩
        obtain ⟨b', g1, g2, g3⟩ := h
        have e := blocksLen_take_succ g1
        have l := (List.getElem?_eq_some_iff.1 g1).1
        have := blocksLen_take_le bs (i := i + 1) (j := bs.length) (by omega) (by omega)
        rw [List.take_length] at this
        omega
    choose D hD using each
    refine ⟨D, h2 ▸ blocks_reads hne enc fb hD fun t i off b h hb w hw => ?_⟩
    exact block_fill_any h1 hs h hb ok (hD t i off b h hb) w hw
  · intro start fin top bottom left right lower upper a1 a2 a3 a4 a5 a6
    obtain ⟨found, hf⟩ := chunk_finds h1 hs hne enc fb lower upper
    obtain ⟨it, L, e1, e2, p⟩ := hf start fin top bottom left right a1 (by omega) a3 a4 a5 a6
    refine ⟨it, L, e1, e2, p.subperm.trans ?_⟩
    unfold Spec.cells3
    exact subperm_flatMap _ fun t _ => (List.Sublist.map _ List.filter_sublist).subperm

section
variable {utf8 : List Byte → Bool} {st : Store}

/-- A structure whose chunks are fine and whose parts are where they should be. -/
abbrev Sound (utf8 : List Byte → Bool) (st : Store) (d : Nat) (m : MMStruct3) (n rows cols : Nat) : Prop :=
  Represents utf8 st (fun _ _ => ()) (fun c n rows cols _ => AnyLeaf c n rows cols) (ExtOf fun _ _ => True) d m
    n rows cols fun _ _ _ => ()

/-- Such a structure represents some series. -/
theorem Sound.represents {α : Type} (dec : Nat → Int64 → α) : ∀ (d : Nat) (m : MMStruct3) (n rows cols : Nat),
    Sound utf8 st d m n rows cols →
    ∃ D, Represents utf8 st dec (LeafReads dec) (ExtOf fun _ _ => True) d m n rows cols D := by
  intro d
  induction d with
  | zero => intro _ _ _ _ h; exact h.elim
  | succ d ih =>
    intro m n rows cols h
    cases m with
    | subchunk c =>
      have h : AnyLeaf c n rows cols := h
      obtain ⟨D, hD⟩ := h.reads
      exact ⟨_, hD.decode⟩
    | superchunk hd loc =>
      have h : SuperRepr utf8 st (fun _ _ => ()) (ExtOf fun _ _ => True) _ hd loc n rows cols fun _ _ _ => () := h
      have hs := h.side
      have parts : ∀ i j, ∃ D : Nat → Nat → Nat → α, i * hd.chunksSidelen < rows → j * hd.chunksSidelen < cols →
          (hd.references[i * hd.subsidelen + j]? = some .elided ∧
            ∀ t, t < n → ∃ v, hd.max.get (hd.slot (i * hd.subsidelen + j) t) = some v ∧
              ∀ r c, D t r c = dec hd.fractionalBits v) ∨
          ∃ ref m, ref ≠ .elided ∧ hd.references[i * hd.subsidelen + j]? = some ref ∧
            hd.deref utf8 st loc ref = .ok m ∧
            Represents utf8 st dec (LeafReads dec) (ExtOf fun _ _ => True) d m n
              (min hd.chunksSidelen (rows - i * hd.chunksSidelen))
              (min hd.chunksSidelen (cols - j * hd.chunksSidelen)) D := by
        intro i j
        by_cases hij : i * hd.chunksSidelen < rows ∧ j * hd.chunksSidelen < cols
        · rcases h.sub i j hij.1 hij.2 with ⟨e1, h1⟩ | ⟨ref, m, h1, e1, e2, h2⟩
          · have : ∀ t, ∃ v, t < n → hd.max.get (hd.slot (i * hd.subsidelen + j) t) = some v := by
              intro t
              by_cases ht : t < n
              · obtain ⟨v, hv, -⟩ := h1 t ht
                exact ⟨v, fun _ => hv⟩
              · exact ⟨0, fun h => absurd h ht⟩
            choose v hv using this
            exact ⟨fun t _ _ => dec hd.fractionalBits (v t), fun _ _ => .inl ⟨e1, fun t ht =>
              ⟨v t, hv t ht, fun _ _ => rfl⟩⟩⟩
          · obtain ⟨D, hD⟩ := ih m _ _ _ h2
            exact ⟨D, fun _ _ => .inr ⟨ref, m, h1, e1, e2, hD⟩⟩
        · exact ⟨fun _ _ _ => dec 0 0, fun x y => absurd ⟨x, y⟩ hij⟩
      choose D hD using parts
      refine ⟨fun t r c => D (r / hd.chunksSidelen) (c / hd.chunksSidelen) t (r % hd.chunksSidelen)
        (c % hd.chunksSidelen), ?_⟩
      change SuperRepr utf8 st dec (ExtOf fun _ _ => True) _ hd loc n rows cols _
      have glue : ∀ i j t r c, r < hd.chunksSidelen → c < hd.chunksSidelen →
          D ((i * hd.chunksSidelen + r) / hd.chunksSidelen) ((j * hd.chunksSidelen + c) / hd.chunksSidelen) t
            ((i * hd.chunksSidelen + r) % hd.chunksSidelen) ((j * hd.chunksSidelen + c) % hd.chunksSidelen) =
          D i j t r c := by
        intro i j t r c hr hc
        rw [Nat.mul_comm i, Nat.mul_comm j, Nat.mul_add_div hs, Nat.mul_add_div hs, Nat.mul_add_mod,
          Nat.mul_add_mod, Nat.div_eq_of_lt hr, Nat.div_eq_of_lt hc, Nat.mod_eq_of_lt hr, Nat.mod_eq_of_lt hc,
          Nat.add_zero, Nat.add_zero]
      refine ⟨hs, h.grid, fun t r c ht hr hc => h.ext t r c ht hr hc, fun i j hi hj => ?_⟩
      rcases hD i j hi hj with ⟨e1, h1⟩ | ⟨ref, m, h1, e1, e2, h2⟩
      · refine .inl ⟨e1, fun t ht => ?_⟩
        obtain ⟨v, hv, h2⟩ := h1 t ht
        refine ⟨v, hv, fun r c hr hc _ _ => ?_⟩
        rw [glue i j t r c hr hc]
        exact h2 r c
      · refine .inr ⟨ref, m, h1, e1, e2, ?_⟩
        refine Represents.congr (Leaf := LeafReads dec) (fun _ _ _ _ _ _ h hl => LeafReads.congr h hl)
          (fun t r c ht hr hc => ?_) h2
        exact (glue i j t r c (by omega) (by omega)).symm
    | span s =>
      have h : SpanRepr utf8 st _ s n rows cols fun _ _ _ => () := h
      have hs := h.stride
      have parts : ∀ i, ∃ D : Nat → Nat → Nat → α, i * s.stride < n → ∃ cid m, s.spans[i]? = some cid ∧
          st.getStruct utf8 cid = .ok m ∧ Represents utf8 st dec (LeafReads dec) (ExtOf fun _ _ => True) d m
            (min s.stride (n - i * s.stride)) rows cols D := by
        intro i
        by_cases hi : i * s.stride < n
        · obtain ⟨cid, m, h1, h2, h3⟩ := h.sub i hi
          obtain ⟨D, hD⟩ := ih m _ _ _ h3
          exact ⟨D, fun _ => ⟨cid, m, h1, h2, hD⟩⟩
        · exact ⟨fun _ _ _ => dec 0 0, fun x => absurd x hi⟩
      choose D hD using parts
      refine ⟨fun t r c => D (t / s.stride) (t % s.stride) r c, ?_⟩
      change SpanRepr utf8 st _ s n rows cols _
      refine ⟨hs, fun i hi => ?_⟩
      obtain ⟨cid, m, h1, h2, h3⟩ := hD i hi
      refine ⟨cid, m, h1, h2, ?_⟩
      refine Represents.congr (Leaf := LeafReads dec) (fun _ _ _ _ _ _ h hl => LeafReads.congr h hl)
        (fun t r c ht hr hc => ?_) h3
      have ht : t < s.stride := by omega
      rw [Nat.mul_comm i, Nat.mul_add_div hs, Nat.mul_add_mod, Nat.div_eq_of_lt ht, Nat.mod_eq_of_lt ht,
        Nat.add_zero]

theorem search_toList_unique {c : Chunk} {it : SearchIter} {L l : List (Nat × Nat × Nat)}
    (hL : ∀ fuel, L.length < fuel → it.toList c fuel = some L) {k : Nat} (h : it.toList c k = some l) : l = L := by
  have mono : ∀ k k' it l, k ≤ k' → SearchIter.toList c k it = some l →
      SearchIter.toList c k' it = some l := by
    intro k
    induction k with
    | zero => intro _ _ _ _ h; cases h
    | succ k ih2 =>
      intro k' it l hk h
      obtain ⟨k', rfl⟩ : ∃ e, k' = e + 1 := ⟨k' - 1, by omega⟩
      unfold SearchIter.toList at h ⊢
      split at h
      · cases h
      · exact h
      · rename_i x it' heq
        cases h4 : SearchIter.toList c k it' with
        | none => rw [h4] at h; cases h
        | some l' =>
          rw [h4] at h
          rw [ih2 k' it' l' (by omega) h4]
          exact h
  have h4 := mono k (max k (L.length + 1)) it l (Nat.le_max_left _ _) h
  rw [hL (max k (L.length + 1)) (by omega)] at h4
  exact (Option.some.inj h4).symm

theorem finds_joinAll {ι β : Type} {xs : List ι} {p : ι → Out (Option β)} {g : ι → List β}
    (h : ∀ x ∈ xs, ∃ L : List β, (p x).Yields (L.map some) ∧ L.Subperm (g x)) :
    ∃ L : List β, (Out.joinAll (xs.map p)).Yields (L.map some) ∧ L.Subperm (xs.flatMap g) := by
  have : ∀ x, ∃ L : List β, x ∈ xs → (p x).Yields (L.map some) ∧ L.Subperm (g x) := by
    intro x
    by_cases hx : x ∈ xs
    · obtain ⟨L, hL⟩ := h x hx
      exact ⟨L, fun _ => hL⟩
    · exact ⟨[], fun h => absurd h hx⟩
  choose L hL using this
  refine ⟨xs.flatMap L, ?_, subperm_flatMap _ fun x hx => (hL x hx).2⟩
  rw [List.map_flatMap, ← Out.map_id (Out.joinAll _)]
  refine Out.yields_joinAll_map fun x hx => ?_
  rw [Out.map_id]
  exact (hL x hx).1

/-- Searches of such a structure return, without errors, and give cells of the window, once each. -/
theorem Sound.finds : ∀ (d fuel : Nat) (m : MMStruct3) (n rows cols : Nat), Sound utf8 st d m n rows cols →
    d ≤ fuel → ∀ start fin top bottom left right lower upper, start ≤ fin → fin ≤ n → top < bottom →
    left < right → bottom ≤ rows → right ≤ cols →
    ∃ L : List (Nat × Nat × Nat),
      (m.search utf8 st fuel ⟨start, fin, top, bottom, left, right⟩ lower upper).Yields (L.map some) ∧
      L.Subperm (Spec.cells3 start fin top bottom left right) := by
  intro d
  induction d with
  | zero => intro _ _ _ _ _ h; exact h.elim
  | succ d ih =>
    intro fuel m n rows cols h hf start fin top bottom left right lower upper hse hfin htb hlr hb hrt
    obtain ⟨fuel, rfl⟩ : ∃ e, fuel = e + 1 := ⟨fuel - 1, by omega⟩
    cases m with
    | subchunk c =>
      have h : AnyLeaf c n rows cols := h
      obtain ⟨it, L, e, hL, hp⟩ := h.finds start fin top bottom left right lower upper hse hfin htb hlr hb hrt
      unfold MMStruct3.search
      simp only [e]
      refine ⟨L, ⟨⟨_, _, .inl ⟨L.length + 1, L, hL _ (by omega), rfl, rfl⟩⟩, ?_⟩, hp⟩
      rintro t s (⟨k, l, h1, rfl, rfl⟩ | ⟨h1, -, -⟩)
      · rw [search_toList_unique hL h1]
        exact ⟨rfl, .refl _⟩
      · have := h1 (L.length + 1)
        rw [hL _ (by omega)] at this
        cases this
    | superchunk hd loc =>
      have h : SuperRepr utf8 st (fun _ _ => ()) (ExtOf fun _ _ => True) _ hd loc n rows cols fun _ _ _ => () := h
      unfold MMStruct3.search
      have hs := h.side
      simp only
      rw [Cube.rect_eq (by omega) (by omega), subchunksFor_eq hd hs htb hlr]
      simp only
      generalize (rearrangeI lower upper).1 = lo
      generalize (rearrangeI lower upper).2 = up
      generalize hsubs : ((rangeIncl (top / hd.chunksSidelen) ((bottom - 1) / hd.chunksSidelen)).flatMap
        fun R => (rangeIncl (left / hd.chunksSidelen) ((right - 1) / hd.chunksSidelen)).map fun C =>
          windowPart hd.chunksSidelen hd.subsidelen top bottom left right R C) = subs
      have hmem : ∀ sub ∈ subs, ∃ i j, i ∈ rangeIncl (top / hd.chunksSidelen)
          ((bottom - 1) / hd.chunksSidelen) ∧ j ∈ rangeIncl (left / hd.chunksSidelen)
          ((right - 1) / hd.chunksSidelen) ∧
          sub = windowPart hd.chunksSidelen hd.subsidelen top bottom left right i j := by
        intro sub hsub
        rw [← hsubs] at hsub
        obtain ⟨i, hi, hsub⟩ := List.mem_flatMap.1 hsub
        obtain ⟨j, hj, rfl⟩ := List.mem_map.1 hsub
        exact ⟨i, j, hi, hj, rfl⟩
      have hcells : ∀ sub, ∃ b, sub ∈ subs →
          hd.hasCells lo up sub.index (rangeExcl start fin) = some b := by
        intro sub
        by_cases hsub : sub ∈ subs
        · obtain ⟨i, j, hi, hj, rfl⟩ := hmem sub hsub
          have b1 := side_bounds hs htb hi
          have b2 := side_bounds hs hlr hj
          obtain ⟨b, e, -⟩ := hasCells_spec hd lo up (i * hd.subsidelen + j) (rangeExcl start fin) (by
            intro t ht
            rw [mem_rangeExcl] at ht
            obtain ⟨mn, mx, e1, e2, -⟩ := h.ext t (i * hd.chunksSidelen) (j * hd.chunksSidelen) (by omega)
              (by omega) (by omega)
            rw [Nat.mul_div_cancel _ hs, Nat.mul_div_cancel _ hs] at e1 e2
            exact ⟨mn, mx, e1, e2⟩)
          exact ⟨b, fun _ => e⟩
        · exact ⟨false, fun h => absurd h hsub⟩
      choose b hb' using hcells
      rw [collect_eq (fun (sub : WindowSubchunk) =>
          (hd.hasCells lo up sub.index (rangeExcl start fin)).map fun b => if b then [sub] else [])
        (fun sub => if b sub then [sub] else []) subs (by
          intro sub hsub
          rw [hb' sub hsub]
          rfl)]
      simp only
      let cells : WindowSubchunk → List (Nat × Nat × Nat) := fun sub =>
        Spec.cells3 start fin (sub.chunk.top + sub.loc.top) (sub.chunk.top + sub.loc.bottom)
          (sub.chunk.left + sub.loc.left) (sub.chunk.left + sub.loc.right)
      refine (finds_joinAll (g := cells) ?_).imp fun L hL => ⟨hL.1, hL.2.trans ?_⟩
      · intro sub hsub
        have hsub : sub ∈ subs := by
          obtain ⟨sub', h1, h2⟩ := List.mem_flatMap.1 hsub
          by_cases hbs : b sub' = true
          · rw [if_pos hbs, List.mem_singleton] at h2
            exact h2 ▸ h1
          · rw [if_neg hbs] at h2
            cases h2
        obtain ⟨i, j, hi, hj, rfl⟩ := hmem sub hsub
        have b1 := side_bounds hs htb hi
        have b2 := side_bounds hs hlr hj
        simp only [cells, windowPart]
        rw [Cube.new_eq hse (by omega) (by omega)]
        rcases h.sub i j (by omega) (by omega) with ⟨e1, h1⟩ | ⟨ref, m, h1, e1, e2, h2⟩
        · obtain ⟨v, hv⟩ := elided_values (start := start) hfin h1
          rw [e1]
          simp only
          rw [elidedSearch_eq (v := v) (data := fun t _ _ => v t) (Nat.pos_iff_ne_zero.1 h.grid) hse
            fun t ht1 ht2 => ⟨(hv t ht1 ht2).1, fun _ _ _ _ _ _ => rfl⟩]
          refine ⟨_, Out.yields_emit _, ?_⟩
          rw [Spec.hits3_eq]
          exact List.filter_sublist.subperm
        · obtain ⟨L, hL, hp⟩ := ih fuel m _ _ _ h2 (by omega) start fin
            (max (i * hd.chunksSidelen) top - i * hd.chunksSidelen)
            (min (i * hd.chunksSidelen + hd.chunksSidelen) bottom - i * hd.chunksSidelen)
            (max (j * hd.chunksSidelen) left - j * hd.chunksSidelen)
            (min (j * hd.chunksSidelen + hd.chunksSidelen) right - j * hd.chunksSidelen)
            lo up hse hfin (by omega) (by omega) (by omega) (by omega)
          have goal := hL.map
            (Option.map fun q => (q.1, q.2.1 + i * hd.chunksSidelen, q.2.2 + j * hd.chunksSidelen))
          rw [List.map_map] at goal
          have hp' := subperm_map (fun q => (q.1, q.2.1 + i * hd.chunksSidelen, q.2.2 + j * hd.chunksSidelen)) hp
          have hshift := Spec.cells3_shift 0 (i * hd.chunksSidelen) (j * hd.chunksSidelen) start fin
            (max (i * hd.chunksSidelen) top - i * hd.chunksSidelen)
            (min (i * hd.chunksSidelen + hd.chunksSidelen) bottom - i * hd.chunksSidelen)
            (max (j * hd.chunksSidelen) left - j * hd.chunksSidelen)
            (min (j * hd.chunksSidelen + hd.chunksSidelen) right - j * hd.chunksSidelen)
          simp only [Nat.zero_add, Nat.add_comm (i * hd.chunksSidelen) (Prod.fst _),
            Nat.add_comm (j * hd.chunksSidelen) (Prod.snd _)] at hshift
          rw [← hshift] at hp'
          refine ⟨L.map fun q => (q.1, q.2.1 + i * hd.chunksSidelen, q.2.2 + j * hd.chunksSidelen), ?_, hp'⟩
          rw [List.map_map]
          rw [e1]
          cases ref with
          | elided => exact absurd rfl h1
          | loc a => simp only [e2]; exact goal
          | external a => simp only [e2]; exact goal
      · rw [List.flatMap_assoc]
        have e1 : (subs.flatMap cells).Perm (Spec.cells3 start fin top bottom left right) := by
          refine List.Perm.trans (List.Perm.of_eq ?_) (cells3_split hs htb hlr)
          rw [← hsubs, List.flatMap_assoc]
          refine List.flatMap_congr fun i hi => ?_
          rw [List.flatMap_map]
          refine List.flatMap_congr fun j hj => ?_
          have b1 := side_bounds hs htb hi
          have b2 := side_bounds hs hlr hj
          simp only [cells, windowPart]
          rw [show i * hd.chunksSidelen + (max (i * hd.chunksSidelen) top - i * hd.chunksSidelen) =
              max (i * hd.chunksSidelen) top by omega,
            show j * hd.chunksSidelen + (max (j * hd.chunksSidelen) left - j * hd.chunksSidelen) =
              max (j * hd.chunksSidelen) left by omega,
            show i * hd.chunksSidelen + (min (i * hd.chunksSidelen + hd.chunksSidelen) bottom -
              i * hd.chunksSidelen) = min (i * hd.chunksSidelen + hd.chunksSidelen) bottom by omega,
            show j * hd.chunksSidelen + (min (j * hd.chunksSidelen + hd.chunksSidelen) right -
              j * hd.chunksSidelen) = min (j * hd.chunksSidelen + hd.chunksSidelen) right by omega]
        refine List.Subperm.trans (subperm_flatMap _ fun sub _ => ?_) e1.subperm
        by_cases hbs : b sub = true
        · rw [if_pos hbs, List.flatMap_singleton]
        · rw [if_neg hbs]; exact List.nil_subperm
    | span s =>
      have h : SpanRepr utf8 st _ s n rows cols fun _ _ _ => () := h
      unfold MMStruct3.search Cube.instants csub
      have hs := h.stride
      simp only
      rw [if_pos hse]
      simp only
      obtain ⟨ps, e0, hp, hps⟩ := piecesFor_spec s start (fin - start) hs
      rw [e0]
      simp only
      have lookup : ∀ p ∈ ps, p.span * s.stride < n := by
        intro p hm
        have := hp p hm
        omega
      rw [if_pos (by
        intro p hm
        obtain ⟨cid, m, e1, -⟩ := h.sub p.span (lookup p hm)
        exact (List.getElem?_eq_some_iff.1 e1).1)]
      have hspec : Spec.cells3 start fin top bottom left right = ps.flatMap fun p =>
          Spec.cells3 (start + p.start) (start + p.start + p.len) top bottom left right := by
        have := pieces_flatMap hps (fun i => (Spec.cells top bottom left right).map fun p => (start + i, p))
        unfold Spec.cells3
        rw [List.range'_eq_map_range, List.flatMap_map]
        refine this.symm.trans ?_
        refine List.flatMap_congr fun p _ => ?_
        rw [Nat.add_sub_cancel_left, List.range'_eq_map_range, List.flatMap_map]
        simp only [Nat.add_assoc]
      rw [hspec]
      refine finds_joinAll fun p hm => ?_
      have hp := hp p hm
      obtain ⟨cid, m, e1, e2, h1⟩ := h.sub p.span (lookup p hm)
      simp only [e1, e2]
      obtain ⟨L, hL, hpL⟩ := ih fuel m _ _ _ h1 (by omega) p.instant (p.instant + p.len) top bottom left right
        lower upper (by omega) (by omega) htb hlr hb hrt
      have goal := hL.map (Option.map fun q => (q.1 + p.span * s.stride, q.2))
      rw [Cube.new_eq (by omega) (by omega) (by omega)]
      refine ⟨L.map fun q => (q.1 + p.span * s.stride, q.2), ?_, ?_⟩
      · rw [List.map_map] at goal ⊢
        exact goal
      · have hp' := subperm_map (fun q => (q.1 + p.span * s.stride, q.2)) hpL
        have hshift := Spec.cells3_shift (p.span * s.stride) 0 0 p.instant (p.instant + p.len) top bottom
          left right
        simp only [Nat.zero_add, Nat.add_comm (p.span * s.stride) (Prod.fst _)] at hshift
        rw [show start + p.start = p.span * s.stride + p.instant by omega, Nat.add_assoc, hshift]
        exact hp'

end

end Verif
