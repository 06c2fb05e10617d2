import Verif.Lemmas.Places
import Verif.Lemmas.Formed
import Verif.Props.Agree
import Verif.Model.MMArray

/-!
Property C95: whatever is written in the course of a read of many cells is what single reads give, in all
structures of all stores, also if the read fails later on.
-/
namespace Verif

open Reader

/-! ### Instants beyond the end of a chunk -/

theorem iter_ends {bs : List Block} {enc : MMEncoding} {fb : Nat} :
    ∀ (n fuel t i off : Nat) (L : List (Nat × Nat)), (Holds bs t i off ∨ t ≤ blocksLen bs ∧ bs.length ≤ i) →
      ChunkIter.toList (Chunk.new bs enc fb) fuel ⟨i, off, n⟩ = some L → t + n ≤ blocksLen bs := by
  intro n
  induction n with
  | zero =>
    intro fuel t i off L h _
    rcases h with h | h
    · obtain ⟨b, h1, h2, h3⟩ := h
      have e := blocksLen_take_succ h1
      have m := blocksLen_take_le bs (i := i + 1) (j := bs.length) (List.getElem?_eq_some_iff.1 h1).1 (Nat.le_refl _)
      rw [List.take_length] at m
      omega
    · exact h.1
  | succ n ih =>
    intro fuel t i off L h hL
    cases fuel with
    | zero => cases hL
    | succ fuel =>
      rcases h with h | h
      · have hb : bs[i]? = some (bs[i]'h.lt) := List.getElem?_eq_getElem h.lt
        have hlt : t + 1 ≤ blocksLen bs := by
          obtain ⟨b, h1, h2, h3⟩ := h
          have e := blocksLen_take_succ h1
          have m := blocksLen_take_le bs (i := i + 1) (j := bs.length) (List.getElem?_eq_some_iff.1 h1).1
            (Nat.le_refl _)
          rw [List.take_length] at m
          omega
        have next : ∀ i' off', (t + 1 < blocksLen bs → Holds bs (t + 1) i' off') →
            (t + 1 = blocksLen bs → n ≠ 0 → bs.length ≤ i') →
            (∃ M, ChunkIter.toList (Chunk.new bs enc fb) fuel ⟨i', off', n⟩ = some M) → t + (n + 1) ≤ blocksLen bs := by
          rintro i' off' a1 a2 ⟨M, hM⟩
          rcases Nat.lt_or_ge (t + 1) (blocksLen bs) with h' | h'
          · have := ih fuel (t + 1) i' off' M (.inl (a1 h')) hM
            omega
          · by_cases hn : n = 0
            · omega
            · have := ih fuel (t + 1) i' off' M (.inr ⟨hlt, a2 (by omega) hn⟩) hM
              omega
        have hn := fun hlt => h.next hb hlt
        simp only [ChunkIter.toList, ChunkIter.next, Chunk.new, Nat.add_one_ne_zero, if_false, hb] at hL
        by_cases hc : off = (bs[i]'h.lt).logs.length
        · simp only [if_pos hc, Nat.add_sub_cancel] at hL hn
          obtain ⟨M, hM, -⟩ := Option.map_eq_some_iff.1 hL
          refine next _ _ hn (fun he _ => ?_) ⟨M, hM⟩
          rcases Nat.lt_or_ge (i + 1) bs.length with h' | h'
          · exfalso
            obtain ⟨b, h1, h2, h3⟩ := h
            have e := blocksLen_take_succ h1
            have m := blocksLen_take_lt bs h' (Nat.le_refl _)
            rw [List.take_length] at m
            omega
          · exact h'
        · simp only [if_neg hc, Nat.add_sub_cancel] at hL hn
          obtain ⟨M, hM, -⟩ := Option.map_eq_some_iff.1 hL
          refine next _ _ hn (fun he _ => ?_) ⟨M, hM⟩
          exfalso
          obtain ⟨b, h1, h2, h3⟩ := h
          have eb := hb.symm.trans h1
          simp only [Option.some.injEq] at eb
          rw [eb] at hc
          have e := blocksLen_take_succ h1
          have m := blocksLen_take_le bs (i := i + 1) (j := bs.length) (List.getElem?_eq_some_iff.1 h1).1
            (Nat.le_refl _)
          rw [List.take_length] at m
          unfold Block.len at *
          omega
      · simp only [ChunkIter.toList, ChunkIter.next, Chunk.new, Nat.add_one_ne_zero, if_false,
          List.getElem?_eq_none h.2] at hL
        cases hL

/-- What an iteration that ends has gone through is in the chunk. -/
theorem iterList_ends {bs : List Block} {enc : MMEncoding} {fb start fin : Nat} {L : List ((Nat × Nat) × Nat)}
    (h : (Chunk.new bs enc fb).iterList start fin = some L) :
    bs ≠ [] ∧ start ≤ fin ∧ fin ≤ blocksLen bs := by
  unfold Chunk.iterList Chunk.iter Chunk.findBlock csub at h
  have hne : bs ≠ [] := by
    rintro rfl
    simp [Chunk.new, Chunk.mkIndex, Chunk.findBlockFuel] at h
  by_cases h1 : start ≤ fin
  · refine ⟨hne, h1, ?_⟩
    rw [if_pos h1] at h
    have hl : (Chunk.new bs enc fb).blocks.length = bs.length := rfl
    rcases Nat.lt_trichotomy start (blocksLen bs) with h2 | h2 | h2
    · obtain ⟨i, off, hh⟩ := exists_holds bs start h2
      rw [findBlock_spec bs enc fb start i off hh _ (by simp [Chunk.new])] at h
      obtain ⟨M, hM, -⟩ := Option.map_eq_some_iff.1 h
      have := iter_ends _ _ start i off M (.inl hh) hM
      omega
    · rw [h2, findBlock_end bs enc fb hne _ (by simp [Chunk.new])] at h
      obtain ⟨M, hM, -⟩ := Option.map_eq_some_iff.1 h
      have := iter_ends _ _ start _ 0 M (.inr ⟨Nat.le_of_eq h2, Nat.le_refl _⟩) hM
      omega
    · rw [findBlock_diverges bs enc fb start hne h2] at h
      cases h
  · rw [if_neg h1] at h
    cases hf : (Chunk.new bs enc fb).findBlockFuel ((Chunk.new bs enc fb).blocks.length + 1) start <;> simp [hf] at h

theorem mapM_shows {α β : Type} {f : α → Option β} : ∀ (xs : List α) {L : List β}, xs.mapM f = some L →
    ∀ q ∈ L, ∃ x ∈ xs, f x = some q := by
  intro xs
  induction xs with
  | nil =>
    intro L hL q hq
    cases hL
    cases hq
  | cons x xs ih =>
    intro L hL q hq
    rw [List.mapM_cons] at hL
    cases h1 : f x with
    | none => simp [h1] at hL
    | some y =>
      cases h2 : xs.mapM f with
      | none => simp [h1, h2] at hL
      | some M =>
        simp only [h1, h2, Option.bind_eq_bind, Option.bind_some, Option.pure_def, Option.some.injEq] at hL
        subst hL
        rcases List.mem_cons.1 hq with rfl | hq
        · exact ⟨x, by simp, h1⟩
        · obtain ⟨z, hz, e⟩ := ih h2 q hq
          exact ⟨z, by simp [hz], e⟩

section
variable {bytes rest : List Byte} {ch : Chunk}

theorem Chunk.fillCell_shows (hc : Chunk.read bytes = .ok (ch, rest)) {start fin row col : Nat}
    {L : List (Nat × Int64)} (hL : ch.fillCell start fin row col = some L) :
    ∀ q ∈ L, q.1 < fin - start ∧ ch.get (start + q.1) row col = some q.2 := by
  have hb : ∃ M, ch.iterList start fin = some M := by
    unfold Chunk.fillCell at hL
    cases h : ch.iterList start fin with
    | none => simp [h] at hL
    | some M => exact ⟨M, rfl⟩
  obtain ⟨M, hM⟩ := hb
  rw [chunk_read_new hc] at hM
  obtain ⟨a1, a2, a3⟩ := iterList_ends hM
  rw [C92_cell hc a1 start fin row col a2 a3] at hL
  intro q hq
  obtain ⟨t, ht, e⟩ := mapM_shows _ hL q hq
  obtain ⟨v, hv, rfl⟩ := Option.map_eq_some_iff.1 e
  rw [List.mem_range'_1] at ht
  refine ⟨by simp only; omega, ?_⟩
  simp only
  rw [show start + (t - start) = t by omega]
  exact hv

theorem Chunk.fillWindow_shows (hc : Chunk.read bytes = .ok (ch, rest)) {start fin top bottom left right : Nat}
    (h3 : top < bottom) (h4 : left < right) {L : List (Nat × Nat × Nat × Int64)}
    (hL : ch.fillWindow ⟨start, fin, top, bottom, left, right⟩ = some L) :
    ∀ q ∈ L, (q.1 < fin - start ∧ q.2.1 < bottom - top ∧ q.2.2.1 < right - left) ∧
      ch.get (start + q.1) (top + q.2.1) (left + q.2.2.1) = some q.2.2.2 := by
  have hb : ∃ M, ch.iterList start fin = some M := by
    unfold Chunk.fillWindow at hL
    cases h : ch.iterList start fin with
    | none => simp [h] at hL
    | some M => exact ⟨M, rfl⟩
  obtain ⟨M, hM⟩ := hb
  rw [chunk_read_new hc] at hM
  obtain ⟨a1, a2, a3⟩ := iterList_ends hM
  rw [← Cube.new_eq a2 (by omega) (by omega)] at hL
  obtain ⟨D, b1, b2⟩ := C92_window_partial hc a1 start fin top bottom left right a2 a3 h3 h4 L hL
  intro q hq
  have hq := b2.mem_iff.1 hq
  simp only [Spec.window3, Spec.window, Spec.cells, List.mem_flatMap, List.mem_map, List.mem_range'_1] at hq
  obtain ⟨t, ht, p, ⟨p', ⟨r, hr, c, hc', rfl⟩, rfl⟩, rfl⟩ := hq
  simp only
  refine ⟨by omega, ?_⟩
  rw [show start + (t - start) = t by omega, show top + (r - top) = r by omega, show left + (c - left) = c by omega]
  exact b1 t r c ht.1 (by omega) hr.1 (by omega) hc'.1 (by omega)

end

/-! ### What is loaded -/

/-- All chunks of a structure, also the ones inside, have been loaded. -/
inductive MMStruct3.Loaded : MMStruct3 → Prop
  | span (s : Span) : Loaded (.span s)
  | subchunk {bytes rest : List Byte} {c : Chunk} (h : Chunk.read bytes = .ok (c, rest)) : Loaded (.subchunk c)
  | superchunk {hd : SuperHead} {loc : List MMStruct3} (h : ∀ m ∈ loc, Loaded m) : Loaded (.superchunk hd loc)

theorem Only.seq {α β : Type} {r : Reader α} {f : α → Reader β} {P : β → Prop} {Q : α → Prop} (hr : Only r Q)
    (h : ∀ a, Q a → Only (f a) P) : Only (Reader.bind r f) P := by
  intro s b s' e
  unfold Reader.bind at e
  cases h1 : r s with
  | error x => rw [h1] at e; cases e
  | ok x => rw [h1] at e; exact h _ (hr _ _ _ h1) _ _ _ e

theorem Only.many {α : Type} {r : Reader α} {P : α → Prop} (h : Only r P) :
    ∀ n, Only (Reader.many r n) fun l => ∀ a ∈ l, P a := by
  intro n
  induction n with
  | zero => exact Only.pure fun a ha => absurd ha List.not_mem_nil
  | succ n ih =>
    refine Only.seq h fun a ha => Only.seq ih fun l hl => Only.pure fun b hb => ?_
    rcases List.mem_cons.1 hb with rfl | hb
    · exact ha
    · exact hl b hb

theorem MMStruct3.readFuel_loaded : ∀ fuel, Only (MMStruct3.readFuel fuel) MMStruct3.Loaded := by
  intro fuel
  induction fuel with
  | zero => intro s a s' h; cases h
  | succ fuel ih =>
    unfold MMStruct3.readFuel
    refine Only.bind fun tag => ?_
    by_cases h4 : tag = 4
    · rw [if_pos h4]
      refine Only.seq (Q := fun c => MMStruct3.Loaded (.subchunk c)) (fun s a s' h => .subchunk h) fun c hc =>
        Only.pure hc
    rw [if_neg h4]
    by_cases h3 : tag = 3
    · rw [if_pos h3]
      exact Only.bind fun s => Only.pure (.span s)
    rw [if_neg h3]
    by_cases h5 : tag = 5
    · rw [if_pos h5]
      unfold SuperHead.readWith
      exact Only.bind fun _ => Only.bind fun _ => Only.bind fun _ => Only.bind fun _ => Only.bind fun _ =>
        Only.bind fun _ => Only.bind fun _ => Only.bind fun _ => Only.bind fun _ => Only.bind fun _ =>
        Only.bind fun _ => Only.bind fun _ => Only.bind fun _ => Only.bind fun _ =>
        Only.seq (Only.many ih _) fun loc hloc =>
        Only.bind fun _ => Only.bind fun _ => Only.pure (.superchunk hloc)
    · rw [if_neg h5]
      intro s a s' h
      cases h

section
variable {utf8 : List Byte → Bool} {st : Store}

theorem Store.getStruct_loaded {cid : Cid} {m : MMStruct3} (h : st.getStruct utf8 cid = .ok m) : m.Loaded := by
  have key : Only (Item.read utf8 cid) fun x => ∀ m, x = .struct m → m.Loaded := by
    unfold Item.read
    refine Only.bind fun tag => ?_
    by_cases h0 : tag = 0
    · rw [if_pos h0]
      exact Only.bind fun d => Only.pure fun m e => nomatch e
    rw [if_neg h0]
    by_cases h1 : tag = 1
    · rw [if_pos h1]
      exact Only.bind fun d => Only.pure fun m e => nomatch e
    rw [if_neg h1]
    by_cases h2 : tag = 2
    · rw [if_pos h2]
      refine Only.seq (Q := MMStruct3.Loaded) (fun s a s' h => MMStruct3.readFuel_loaded _ _ _ _ h) fun x hx =>
        Only.pure fun m e => ?_
      cases e
      exact hx
    · rw [if_neg h2]
      intro s a s' h
      cases h
  unfold Store.getStruct Store.retrieve at h
  cases hb : st cid with
  | none => simp [hb] at h
  | some bytes =>
    simp only [hb] at h
    cases hi : Item.read utf8 cid bytes with
    | error e => simp [hi] at h
    | ok x =>
      obtain ⟨item, rest⟩ := x
      simp only [hi] at h
      cases item with
      | struct m' =>
        simp only [Except.ok.injEq] at h
        exact key _ _ _ hi _ (by rw [h])
      | dataset d => cases h
      | links l => cases h

theorem SuperHead.deref_loaded {hd : SuperHead} {loc : List MMStruct3} {ref : Reference} {m : MMStruct3}
    (hl : ∀ m ∈ loc, m.Loaded) (h : hd.deref utf8 st loc ref = .ok m) : m.Loaded := by
  cases ref with
  | elided => cases h
  | loc i =>
    simp only [SuperHead.deref] at h
    cases hi : loc[i]? with
    | none => simp [hi] at h
    | some m' =>
      simp only [hi, Except.ok.injEq] at h
      subst h
      exact hl _ (List.mem_of_getElem? hi)
  | external i =>
    simp only [SuperHead.deref] at h
    cases hk : st.getLinks utf8 hd.externalCid with
    | error e => simp [hk] at h
    | ok links =>
      simp only [hk] at h
      cases hi : links.cids[i]? with
      | none => simp [hi] at h
      | some cid =>
        simp only [hi] at h
        exact Store.getStruct_loaded h

/-! ### Runs -/

/-- All that is written in any run has some property. -/
def Out.Shows {β : Type} (o : Out β) (P : β → Prop) : Prop := ∀ t s, o t s → ∀ q ∈ t, P q

section
variable {β ι : Type} {P : β → Prop}

theorem Out.Shows.fail {e : Fail} : (Out.fail e : Out β).Shows P := by
  rintro t s ⟨rfl, -⟩ q hq
  cases hq

theorem Out.Shows.ofOption {o : Option (List β)} (h : ∀ L, o = some L → ∀ q ∈ L, P q) :
    (Out.ofOption o).Shows P := by
  cases o with
  | none => exact Out.Shows.fail
  | some l =>
    rintro t s ⟨rfl, -⟩
    exact h _ rfl

theorem Out.Shows.await {α : Type} {x : Except Fail α} {k : α → Out β} (h : ∀ a, x = .ok a → (k a).Shows P) :
    (Out.await x k).Shows P := by
  cases x with
  | ok a => exact h a rfl
  | error e => exact Out.Shows.fail

theorem Out.Shows.map {γ : Type} {Q : γ → Prop} {k : β → γ} {o : Out β} (h : o.Shows P)
    (hk : ∀ q, P q → Q (k q)) : (o.map k).Shows Q := by
  rintro t s ⟨t', h1, rfl⟩ q hq
  obtain ⟨p, hp, rfl⟩ := List.mem_map.1 hq
  exact hk p (h _ _ h1 p hp)

theorem runs_shows {xs : List ι} {p : ι → Out β} {rs : List (List β × Option Fail)}
    (h : ∀ x ∈ xs, (p x).Shows P) (hr : Out.Runs (xs.map p) rs) : ∀ q ∈ (rs.map Prod.fst).flatten, P q := by
  induction xs generalizing rs with
  | nil =>
    cases hr
    intro q hq
    cases hq
  | cons x xs ih =>
    cases hr with
    | cons h1 h2 =>
      intro q hq
      rw [List.map_cons, List.flatten_cons] at hq
      rcases List.mem_append.1 hq with hq | hq
      · exact h x (by simp) _ _ h1 q hq
      · exact ih (fun y hy => h y (by simp [hy])) h2 q hq

theorem Out.Shows.joinAll {xs : List ι} {p : ι → Out β} (h : ∀ x ∈ xs, (p x).Shows P) :
    (Out.joinAll (xs.map p)).Shows P := by
  rintro t s ⟨rs, hr, ht⟩ q hq
  cases s with
  | none => exact runs_shows h hr q (ht.2.perm.subperm.subset hq)
  | some e => exact runs_shows h hr q (ht.2.2.subperm.subset hq)

theorem Out.Shows.tryAll {xs : List ι} {p : ι → Out β} (h : ∀ x ∈ xs, (p x).Shows P) :
    (Out.tryAll (xs.map p)).Shows P := by
  rintro t s ⟨rs, hr, ht⟩ q hq
  cases s with
  | none => exact runs_shows h hr q (ht.2.perm.subperm.subset hq)
  | some e => exact runs_shows h hr q (ht.2.subperm.subset hq)

end

theorem collect_shows {α β : Type} {f : α → Option (List β)} {P : β → Prop} :
    ∀ (xs : List α) (L : List β), (∀ x ∈ xs, ∀ M, f x = some M → ∀ q ∈ M, P q) → collect xs f = some L →
      ∀ q ∈ L, P q := by
  intro xs
  induction xs with
  | nil =>
    intro L _ hL q hq
    simp only [collect, Option.some.injEq] at hL
    subst hL
    cases hq
  | cons x xs ih =>
    intro L h hL q hq
    rw [collect] at hL
    cases h1 : f x with
    | none => simp [h1] at hL
    | some M =>
      cases h2 : collect xs f with
      | none => simp [h1, h2] at hL
      | some M' =>
        simp only [h1, h2, Option.some.injEq] at hL
        subst hL
        rcases List.mem_append.1 hq with hq | hq
        · exact h x (by simp) M h1 q hq
        · exact ih M' (fun y hy => h y (by simp [hy])) h2 q hq

theorem elidedCell_shows {h : SuperHead} {start fin index : Nat} {L : List (Nat × Int64)}
    (hL : h.elidedCell start fin index = some L) :
    ∀ q ∈ L, q.1 < fin - start ∧ h.max.get (h.slot index (start + q.1)) = some q.2 := by
  unfold SuperHead.elidedCell csub at hL
  by_cases h1 : start ≤ fin
  · rw [if_pos h1] at hL
    refine collect_shows _ L (fun i hi M hM q hq => ?_) hL
    obtain ⟨v, hv, rfl⟩ := Option.map_eq_some_iff.1 hM
    rw [List.mem_singleton] at hq
    subst hq
    exact ⟨List.mem_range.1 hi, hv⟩
  · simp [if_neg h1] at hL

theorem elidedWindow_shows {h : SuperHead} {start fin top bottom left right index : Nat}
    {L : List (Nat × Nat × Nat × Int64)}
    (hL : h.elidedWindow ⟨start, fin, top, bottom, left, right⟩ index = some L) :
    ∀ q ∈ L, (q.1 < fin - start ∧ q.2.1 < bottom - top ∧ q.2.2.1 < right - left) ∧
      h.max.get (h.slot index (start + q.1)) = some q.2.2.2 := by
  simp only [SuperHead.elidedWindow, Cube.instants, Cube.rows, Cube.cols] at hL
  cases e1 : csub fin start with
  | none => simp [e1] at hL
  | some n =>
    cases e2 : csub bottom top with
    | none => simp [e1, e2] at hL
    | some rows =>
      cases e3 : csub right left with
      | none => simp [e1, e2, e3] at hL
      | some cols =>
        simp only [e1, e2, e3] at hL
        have f1 : n = fin - start := by unfold csub at e1; split at e1 <;> simp_all
        have f2 : rows = bottom - top := by unfold csub at e2; split at e2 <;> simp_all
        have f3 : cols = right - left := by unfold csub at e3; split at e3 <;> simp_all
        subst f1 f2 f3
        refine collect_shows _ L (fun i hi M hM q hq => ?_) hL
        cases hv : h.max.get (h.slot index (start + i)) with
        | none => simp [hv] at hM
        | some v =>
          simp only [hv, Option.some.injEq] at hM
          subst hM
          obtain ⟨r, hr, hq⟩ := List.mem_flatMap.1 hq
          obtain ⟨c, hc, rfl⟩ := List.mem_map.1 hq
          rw [List.mem_range] at hi hr hc
          exact ⟨⟨hi, hr, hc⟩, hv⟩

/-! ### The theorems -/

theorem MMStruct3.fillCell_shows : ∀ (fuel : Nat) (m : MMStruct3) (bits start fin row col : Nat), m.Loaded →
    (m.fillCell utf8 st fuel bits start fin row col).Shows fun q =>
      q.1 < fin - start ∧ m.get utf8 st fuel bits (start + q.1) row col = .ok q.2 := by
  intro fuel
  induction fuel with
  | zero => intros; exact Out.Shows.fail
  | succ fuel ih =>
    intro m bits start fin row col hl
    cases m with
    | subchunk c =>
      unfold MMStruct3.fillCell
      refine Out.Shows.ofOption fun M hM q hq => ?_
      obtain ⟨L, hL, rfl⟩ := Option.map_eq_some_iff.1 hM
      obtain ⟨p, hp, rfl⟩ := List.mem_map.1 hq
      cases hl with
      | subchunk hc =>
        have := Chunk.fillCell_shows hc hL p hp
        refine ⟨this.1, ?_⟩
        simp only [MMStruct3.get, this.2]
    | superchunk hd loc =>
      have hloc : ∀ m ∈ loc, m.Loaded := by cases hl with | superchunk h => exact h
      unfold MMStruct3.fillCell MMStruct3.get
      simp only
      cases hd.locate row col with
      | none => exact Out.Shows.fail
      | some q =>
        obtain ⟨index, row, col⟩ := q
        simp only
        cases hd.references[index]? with
        | none => exact Out.Shows.fail
        | some ref =>
          cases ref with
          | elided =>
            refine Out.Shows.ofOption fun M hM q hq => ?_
            obtain ⟨L, hL, rfl⟩ := Option.map_eq_some_iff.1 hM
            obtain ⟨p, hp, rfl⟩ := List.mem_map.1 hq
            have := elidedCell_shows hL p hp
            refine ⟨this.1, ?_⟩
            simp only [this.2]
          | loc a =>
            refine Out.Shows.await fun m hm => ?_
            simp only [hm]
            exact ih m _ _ _ _ _ (SuperHead.deref_loaded hloc hm)
          | external a =>
            refine Out.Shows.await fun m hm => ?_
            simp only [hm]
            exact ih m _ _ _ _ _ (SuperHead.deref_loaded hloc hm)
    | span s =>
      unfold MMStruct3.fillCell csub
      simp only
      by_cases hse : start ≤ fin
      · rw [if_pos hse]
        simp only
        by_cases hs : s.stride = 0
        · rw [show s.piecesFor start (fin - start) = none by
            unfold Span.piecesFor Span.findSpan
            rw [if_pos hs]]
          exact Out.Shows.fail
        obtain ⟨ps, e0, hp, -⟩ := piecesFor_spec s start (fin - start) (by omega)
        rw [e0]
        simp only
        by_cases hlen : ∀ p ∈ ps, p.span < s.spans.length
        · rw [if_pos hlen]
          refine Out.Shows.tryAll fun p hm => ?_
          obtain ⟨a1, a2, a3, a4⟩ := hp p hm
          cases hcid : s.spans[p.span]? with
          | none => exact Out.Shows.fail
          | some cid =>
            refine Out.Shows.await fun m hm => ?_
            refine Out.Shows.map (ih m m.fractionalBits p.instant (p.instant + p.len) row col
              (Store.getStruct_loaded hm)) fun q hq => ?_
            obtain ⟨b1, b2⟩ := hq
            refine ⟨by simp only; omega, ?_⟩
            have d : start + (p.start + q.1) = s.stride * p.span + (p.instant + q.1) := by
              rw [Nat.mul_comm]; omega
            simp only [MMStruct3.get, Span.findSpan, if_neg hs]
            rw [d, Nat.mul_add_div (by omega), Nat.div_eq_of_lt (by omega), Nat.mul_add_mod, Nat.mod_eq_of_lt (by omega),
              Nat.add_zero, hcid]
            simp only [hm]
            exact b2
        · rw [if_neg hlen]
          exact Out.Shows.fail
      · rw [if_neg hse]
        exact Out.Shows.fail

theorem MMStruct3.fillWindow_shows : ∀ (fuel : Nat) (m : MMStruct3) (bits start fin top bottom left right : Nat),
    m.Loaded → start ≤ fin → top < bottom → left < right →
    (m.fillWindow utf8 st fuel bits ⟨start, fin, top, bottom, left, right⟩).Shows fun q =>
      (q.1 < fin - start ∧ q.2.1 < bottom - top ∧ q.2.2.1 < right - left) ∧
      m.get utf8 st fuel bits (start + q.1) (top + q.2.1) (left + q.2.2.1) = .ok q.2.2.2 := by
  intro fuel
  induction fuel with
  | zero => intros; exact Out.Shows.fail
  | succ fuel ih =>
    intro m bits start fin top bottom left right hl hse htb hlr
    cases m with
    | subchunk c =>
      unfold MMStruct3.fillWindow
      refine Out.Shows.ofOption fun M hM q hq => ?_
      obtain ⟨L, hL, rfl⟩ := Option.map_eq_some_iff.1 hM
      obtain ⟨p, hp, rfl⟩ := List.mem_map.1 hq
      cases hl with
      | subchunk hc =>
        have := Chunk.fillWindow_shows hc htb hlr hL p hp
        refine ⟨this.1, ?_⟩
        simp only [MMStruct3.get, this.2]
    | superchunk hd loc =>
      have hloc : ∀ m ∈ loc, m.Loaded := by cases hl with | superchunk h => exact h
      unfold MMStruct3.fillWindow
      simp only
      by_cases hs : hd.chunksSidelen = 0
      · rw [show hd.subchunksFor (Cube.mk start fin top bottom left right).rect = none by
          unfold SuperHead.subchunksFor
          rw [if_pos hs]]
        exact Out.Shows.fail
      have hs : 0 < hd.chunksSidelen := by omega
      rw [Cube.rect_eq (by omega) (by omega), subchunksFor_eq hd hs htb hlr]
      simp only
      refine Out.Shows.joinAll fun sub hsub => ?_
      obtain ⟨i, hi, hsub⟩ := List.mem_flatMap.1 hsub
      obtain ⟨j, hj, rfl⟩ := List.mem_map.1 hsub
      have b1 := side_bounds hs htb hi
      have b2 := side_bounds hs hlr hj
      simp only [windowPart]
      rw [Cube.new_eq hse (by omega) (by omega)]
      have locate : ∀ r c, r < min (i * hd.chunksSidelen + hd.chunksSidelen) bottom - i * hd.chunksSidelen -
            (max (i * hd.chunksSidelen) top - i * hd.chunksSidelen) →
          c < min (j * hd.chunksSidelen + hd.chunksSidelen) right - j * hd.chunksSidelen -
            (max (j * hd.chunksSidelen) left - j * hd.chunksSidelen) →
          hd.locate (top + (max (i * hd.chunksSidelen) top - top + r)) (left + (max (j * hd.chunksSidelen) left - left + c)) =
            some (i * hd.subsidelen + j, max (i * hd.chunksSidelen) top - i * hd.chunksSidelen + r,
              max (j * hd.chunksSidelen) left - j * hd.chunksSidelen + c) := by
        intro r c hr hc
        have e1 : top + (max (i * hd.chunksSidelen) top - top + r) =
            hd.chunksSidelen * i + (max (i * hd.chunksSidelen) top - i * hd.chunksSidelen + r) := by
          rw [Nat.mul_comm hd.chunksSidelen]; omega
        have e2 : left + (max (j * hd.chunksSidelen) left - left + c) =
            hd.chunksSidelen * j + (max (j * hd.chunksSidelen) left - j * hd.chunksSidelen + c) := by
          rw [Nat.mul_comm hd.chunksSidelen]; omega
        unfold SuperHead.locate
        rw [if_neg (by omega), e1, e2, Nat.mul_add_div hs, Nat.mul_add_div hs, Nat.div_eq_of_lt (by omega),
          Nat.div_eq_of_lt (by omega), Nat.mul_add_mod, Nat.mul_add_mod, Nat.mod_eq_of_lt (by omega),
          Nat.mod_eq_of_lt (by omega), Nat.add_zero, Nat.add_zero]
      refine Out.Shows.map (P := fun q => (q.1 < fin - start ∧
        q.2.1 < min (i * hd.chunksSidelen + hd.chunksSidelen) bottom - i * hd.chunksSidelen -
            (max (i * hd.chunksSidelen) top - i * hd.chunksSidelen) ∧
        q.2.2.1 < min (j * hd.chunksSidelen + hd.chunksSidelen) right - j * hd.chunksSidelen -
            (max (j * hd.chunksSidelen) left - j * hd.chunksSidelen)) ∧
        (MMStruct3.superchunk hd loc).get utf8 st (fuel + 1) bits (start + q.1)
          (top + (max (i * hd.chunksSidelen) top - top + q.2.1))
          (left + (max (j * hd.chunksSidelen) left - left + q.2.2.1)) = .ok q.2.2.2) ?_ fun q hq => ?_
      · have fin : ∀ m ref, hd.references[i * hd.subsidelen + j]? = some ref → ref ≠ .elided →
            hd.deref utf8 st loc ref = .ok m → _ := fun m ref href hne hm =>
          ih m m.fractionalBits start fin (max (i * hd.chunksSidelen) top - i * hd.chunksSidelen)
            (min (i * hd.chunksSidelen + hd.chunksSidelen) bottom - i * hd.chunksSidelen)
            (max (j * hd.chunksSidelen) left - j * hd.chunksSidelen)
            (min (j * hd.chunksSidelen + hd.chunksSidelen) right - j * hd.chunksSidelen)
            (SuperHead.deref_loaded hloc hm) hse (by omega) (by omega)
        cases href : hd.references[i * hd.subsidelen + j]? with
        | none => exact Out.Shows.fail
        | some ref =>
          cases ref with
          | elided =>
            refine Out.Shows.ofOption fun M hM q hq => ?_
            obtain ⟨L, hL, rfl⟩ := Option.map_eq_some_iff.1 hM
            obtain ⟨p, hp, rfl⟩ := List.mem_map.1 hq
            have := elidedWindow_shows hL p hp
            refine ⟨this.1, ?_⟩
            unfold MMStruct3.get
            simp only [locate _ _ this.1.2.1 this.1.2.2, href, this.2]
          | loc a =>
            refine Out.Shows.await fun m hm t s ht q hq => ?_
            have := fin m _ href nofun hm t s ht q hq
            refine ⟨this.1, ?_⟩
            unfold MMStruct3.get
            simp only [locate _ _ this.1.2.1 this.1.2.2, href, hm]
            exact this.2
          | external a =>
            refine Out.Shows.await fun m hm t s ht q hq => ?_
            have := fin m _ href nofun hm t s ht q hq
            refine ⟨this.1, ?_⟩
            unfold MMStruct3.get
            simp only [locate _ _ this.1.2.1 this.1.2.2, href, hm]
            exact this.2
      · refine ⟨?_, hq.2⟩
        obtain ⟨⟨c1, c2, c3⟩, -⟩ := hq
        generalize i * hd.chunksSidelen = I at *
        generalize j * hd.chunksSidelen = J at *
        simp only
        omega
    | span s =>
      unfold MMStruct3.fillWindow Cube.instants csub
      simp only
      rw [if_pos hse]
      simp only
      by_cases hs : s.stride = 0
      · rw [show s.piecesFor start (fin - start) = none by
          unfold Span.piecesFor Span.findSpan
          rw [if_pos hs]]
        exact Out.Shows.fail
      obtain ⟨ps, e0, hp, -⟩ := piecesFor_spec s start (fin - start) (by omega)
      rw [e0]
      simp only
      by_cases hlen : ∀ p ∈ ps, p.span < s.spans.length
      · rw [if_pos hlen]
        refine Out.Shows.tryAll fun p hm => ?_
        obtain ⟨a1, a2, a3, a4⟩ := hp p hm
        cases hcid : s.spans[p.span]? with
        | none => exact Out.Shows.fail
        | some cid =>
          refine Out.Shows.await fun m hm => ?_
          rw [Cube.new_eq (by omega) (by omega) (by omega)]
          refine Out.Shows.map (ih m m.fractionalBits p.instant (p.instant + p.len) top bottom left right
            (Store.getStruct_loaded hm) (by omega) htb hlr) fun q hq => ?_
          obtain ⟨⟨b1, b3⟩, b2⟩ := hq
          refine ⟨⟨by simp only; omega, b3⟩, ?_⟩
          have d : start + (p.start + q.1) = s.stride * p.span + (p.instant + q.1) := by
            rw [Nat.mul_comm]; omega
          simp only [MMStruct3.get, Span.findSpan, if_neg hs]
          rw [d, Nat.mul_add_div (by omega), Nat.div_eq_of_lt (by omega), Nat.mul_add_mod, Nat.mod_eq_of_lt (by omega),
            Nat.add_zero, hcid]
          simp only [hm]
          exact b2
      · rw [if_neg hlen]
        exact Out.Shows.fail

end

/-! ### When a series can be read -/

/-- There is a run, and every run ends well. -/
def Out.Well {β : Type} (o : Out β) : Prop := (∃ t, o t none) ∧ ∀ t s, o t s → s = none

section
variable {β ι : Type}

theorem Out.Well.ofOption {o : Option (List β)} (h : ∃ L, o = some L) : (Out.ofOption o).Well := by
  obtain ⟨L, rfl⟩ := h
  exact ⟨⟨L, rfl, rfl⟩, fun t s h => h.2⟩

theorem Out.Well.map {γ : Type} {k : β → γ} {o : Out β} (h : o.Well) : (o.map k).Well := by
  obtain ⟨⟨t, ht⟩, h⟩ := h
  refine ⟨⟨_, t, ht, rfl⟩, ?_⟩
  rintro t' s ⟨t'', h1, -⟩
  exact h _ _ h1

theorem Out.Well.tryAll {xs : List ι} {p : ι → Out β} (h : ∀ x ∈ xs, (p x).Well) : (Out.tryAll (xs.map p)).Well := by
  have runs : ∀ rs, Out.Runs (xs.map p) rs → ∀ r ∈ rs, r.2 = none := by
    induction xs with
    | nil =>
      intro rs hr
      cases hr
      exact fun _ h => absurd h List.not_mem_nil
    | cons x xs ih =>
      intro rs hr
      cases hr with
      | cons h1 h2 =>
        intro r hr
        rcases List.mem_cons.1 hr with rfl | hr
        · exact (h x (by simp)).2 _ _ h1
        · exact ih (fun y hy => h y (by simp [hy])) _ h2 r hr
  have ex : ∃ rs, Out.Runs (xs.map p) rs := by
    clear runs
    induction xs with
    | nil => exact ⟨[], .nil⟩
    | cons x xs ih =>
      obtain ⟨rs, hr⟩ := ih fun y hy => h y (by simp [hy])
      obtain ⟨⟨t, ht⟩, -⟩ := h x (by simp)
      exact ⟨(t, none) :: rs, .cons ht hr⟩
  obtain ⟨rs, hr⟩ := ex
  refine ⟨⟨_, rs, hr, runs rs hr, Interleave.seq _⟩, ?_⟩
  rintro t s ⟨rs, hr, hs⟩
  cases s with
  | none => rfl
  | some f =>
    obtain ⟨⟨r, hm, e⟩, -⟩ := hs
    rw [runs rs hr r hm] at e
    cases e

end

theorem chunk_get_lt {bs : List Block} {enc : MMEncoding} {fb t row col : Nat} {v : Int64}
    (h : (Chunk.new bs enc fb).get t row col = some v) : bs ≠ [] ∧ t < blocksLen bs := by
  unfold Chunk.get Chunk.findBlock at h
  have hne : bs ≠ [] := by
    rintro rfl
    simp [Chunk.new, Chunk.mkIndex, Chunk.findBlockFuel] at h
  refine ⟨hne, ?_⟩
  rcases Nat.lt_trichotomy t (blocksLen bs) with h2 | h2 | h2
  · exact h2
  · rw [h2, findBlock_end bs enc fb hne _ (by simp [Chunk.new])] at h
    simp [Chunk.new] at h
  · rw [findBlock_diverges bs enc fb t hne h2] at h
    cases h

theorem mapM_isSome {α β : Type} {f : α → Option β} : ∀ (xs : List α), (∀ x ∈ xs, ∃ y, f x = some y) →
    ∃ L, xs.mapM f = some L := by
  intro xs
  induction xs with
  | nil => exact fun _ => ⟨[], rfl⟩
  | cons x xs ih =>
    intro h
    obtain ⟨y, hy⟩ := h x (by simp)
    obtain ⟨L, hL⟩ := ih fun z hz => h z (by simp [hz])
    exact ⟨y :: L, by simp [List.mapM_cons, hy, hL]⟩

section
variable {utf8 : List Byte → Bool} {st : Store}

theorem MMStruct3.fillCell_well : ∀ (fuel : Nat) (m : MMStruct3) (bits start fin row col : Nat), m.Loaded →
    start < fin → (∀ t, start ≤ t → t < fin → ∃ q, m.get utf8 st fuel bits t row col = .ok q) →
    (m.fillCell utf8 st fuel bits start fin row col).Well := by
  intro fuel
  induction fuel with
  | zero =>
    intro m bits start fin row col _ hse h
    obtain ⟨q, hq⟩ := h start (Nat.le_refl _) hse
    cases hq
  | succ fuel ih =>
    intro m bits start fin row col hl hse h
    cases m with
    | subchunk c =>
      unfold MMStruct3.fillCell
      refine Out.Well.ofOption ?_
      cases hl with
      | subchunk hc =>
        have hg : ∀ t, start ≤ t → t < fin → ∃ v, c.get t row col = some v := by
          intro t h1 h2
          obtain ⟨q, hq⟩ := h t h1 h2
          simp only [MMStruct3.get] at hq
          cases hv : c.get t row col with
          | none => simp [hv] at hq
          | some v => exact ⟨v, rfl⟩
        obtain ⟨v, hv⟩ := hg (fin - 1) (by omega) (by omega)
        rw [chunk_read_new hc] at hv
        obtain ⟨a1, a2⟩ := chunk_get_lt hv
        have e := C92_cell hc a1 start fin row col hse.le (by unfold blocksLen Block.len at a2; omega)
        obtain ⟨L, hL⟩ := mapM_isSome (f := fun t => (c.get t row col).map fun v => (t - start, v))
          (List.range' start (fin - start)) fun t ht => by
            rw [List.mem_range'_1] at ht
            obtain ⟨v, hv⟩ := hg t ht.1 (by omega)
            exact ⟨(t - start, v), by rw [hv]; rfl⟩
        rw [e, hL]
        exact ⟨_, rfl⟩
    | superchunk hd loc =>
      have hloc : ∀ m ∈ loc, m.Loaded := by cases hl with | superchunk h => exact h
      unfold MMStruct3.fillCell
      unfold MMStruct3.get at h
      simp only at h ⊢
      cases hlc : hd.locate row col with
      | none =>
        obtain ⟨q, hq⟩ := h start (Nat.le_refl _) hse
        simp [hlc] at hq
      | some q =>
        obtain ⟨index, row, col⟩ := q
        simp only [hlc] at h ⊢
        have enter : ∀ ref, (∀ t, start ≤ t → t < fin → ∃ q, (match hd.deref utf8 st loc ref with
              | .error f => .error f
              | .ok m => MMStruct3.get utf8 st fuel m m.fractionalBits t row col : Except Fail (Nat × Int64)) = .ok q) →
            (Out.await (hd.deref utf8 st loc ref) fun m =>
              MMStruct3.fillCell utf8 st fuel m m.fractionalBits start fin row col).Well := by
          intro ref h
          cases hm : hd.deref utf8 st loc ref with
          | error f =>
            obtain ⟨q, hq⟩ := h start (Nat.le_refl _) hse
            simp [hm] at hq
          | ok m =>
            simp only [hm] at h
            exact ih m _ _ _ _ _ (SuperHead.deref_loaded hloc hm) hse h
        cases href : hd.references[index]? with
        | none =>
          obtain ⟨q, hq⟩ := h start (Nat.le_refl _) hse
          simp [href] at hq
        | some ref =>
          simp only [href] at h
          cases ref with
          | elided =>
            refine Out.Well.ofOption ?_
            simp only at h
            unfold SuperHead.elidedCell
            rw [csub_of_le hse.le]
            simp only
            have : (collect (List.range (fin - start)) fun i =>
                (hd.max.get (hd.slot index (start + i))).map fun v => [(i, v)]).isSome := by
              refine collect_isSome.2 fun i hi => ?_
              rw [List.mem_range] at hi
              obtain ⟨q, hq⟩ := h (start + i) (by omega) (by omega)
              cases hv : hd.max.get (hd.slot index (start + i)) with
              | none => simp [hv] at hq
              | some v => rfl
            obtain ⟨L, hL⟩ := Option.isSome_iff_exists.1 this
            rw [hL]
            exact ⟨_, rfl⟩
          | loc a => exact enter _ h
          | external a => exact enter _ h
    | span s =>
      have hs : s.stride ≠ 0 := by
        intro hs
        obtain ⟨q, hq⟩ := h start (Nat.le_refl _) hse
        simp [MMStruct3.get, Span.findSpan, hs] at hq
      unfold MMStruct3.fillCell
      simp only [csub_of_le hse.le]
      obtain ⟨ps, e0, hp, -⟩ := piecesFor_spec s start (fin - start) (by omega)
      rw [e0]
      simp only
      have part : ∀ p ∈ ps, ∀ i, i < p.len → ∃ q cid, s.spans[p.span]? = some cid ∧
          (match st.getStruct utf8 cid with
            | .error f => .error f
            | .ok m => MMStruct3.get utf8 st fuel m m.fractionalBits (p.instant + i) row col :
              Except Fail (Nat × Int64)) = .ok q := by
        intro p hm i hi
        obtain ⟨a1, a2, a3, a4⟩ := hp p hm
        have d : start + (p.start + i) = s.stride * p.span + (p.instant + i) := by
          rw [Nat.mul_comm]; omega
        obtain ⟨q, hq⟩ := h (start + (p.start + i)) (by omega) (by omega)
        simp only [MMStruct3.get, Span.findSpan, if_neg hs] at hq
        rw [d, Nat.mul_add_div (by omega), Nat.div_eq_of_lt (by omega), Nat.mul_add_mod, Nat.mod_eq_of_lt (by omega),
          Nat.add_zero] at hq
        cases hcid : s.spans[p.span]? with
        | none => simp [hcid] at hq
        | some cid =>
          simp only [hcid] at hq
          exact ⟨q, cid, rfl, hq⟩
      rw [if_pos fun p hm => by
        obtain ⟨-, -, a3, -⟩ := hp p hm
        obtain ⟨-, cid, hcid, -⟩ := part p hm 0 a3
        exact (List.getElem?_eq_some_iff.1 hcid).1]
      refine Out.Well.tryAll fun p hm => ?_
      obtain ⟨-, -, a3, -⟩ := hp p hm
      obtain ⟨q, cid, hcid, hq⟩ := part p hm 0 a3
      simp only [hcid]
      cases hg : st.getStruct utf8 cid with
      | error f => simp [hg] at hq
      | ok m' =>
        refine Out.Well.map (ih m' _ _ _ _ _ (Store.getStruct_loaded hg) (by omega) fun t h1 h2 => ?_)
        obtain ⟨q', cid', hcid', hq'⟩ := part p hm (t - p.instant) (by omega)
        rw [hcid] at hcid'
        cases hcid'
        simp only [hg] at hq'
        rw [show p.instant + (t - p.instant) = t by omega] at hq'
        exact ⟨q', hq'⟩

end

/-! ### The property -/

section
variable {α : Type} (kind : Kind α) (utf8 : List Byte → Bool) (st : Store) (fuel : Nat) (m : MMStruct3) (cid : Cid)

/-- C95 for the series of a cell of any structure loaded from any store, in any run: what is written is what a
single read gives, with the same number of fractional bits. -/
theorem C95_cell (hm : st.getStruct utf8 cid = .ok m) (bits start fin row col : Nat) (t : List (Nat × Nat × Int64))
    (s : Option Fail) (hrun : m.fillCell utf8 st fuel bits start fin row col t s) (i b : Nat) (v : Int64)
    (hq : (i, b, v) ∈ t) : m.get utf8 st fuel bits (start + i) row col = .ok (b, v) :=
  (MMStruct3.fillCell_shows fuel m bits start fin row col (Store.getStruct_loaded hm) t s hrun _ hq).2

/-- C95 the other way round, for series: if each of its instants can be read alone, every run ends well; and if one
cannot, none does. -/
theorem C95_cell_iff (hm : st.getStruct utf8 cid = .ok m) (bits start fin row col : Nat) (h0 : start < fin) :
    ((∃ t, m.fillCell utf8 st fuel bits start fin row col t none) ↔
      ∀ t, start ≤ t → t < fin → ∃ q, m.get utf8 st fuel bits t row col = .ok q) ∧
    ((∀ t, start ≤ t → t < fin → ∃ q, m.get utf8 st fuel bits t row col = .ok q) →
      ∀ t s, m.fillCell utf8 st fuel bits start fin row col t s → s = none) := by
  have back := MMStruct3.fillCell_well (utf8 := utf8) (st := st) fuel m bits start fin row col
    (Store.getStruct_loaded hm) h0
  refine ⟨⟨?_, fun h => (back h).1⟩, fun h => (back h).2⟩
  rintro ⟨t, hrun⟩ i h1 h2
  obtain ⟨-, hall⟩ := MMStruct3.fillCell_covers fuel m bits start fin row col t none hrun
  obtain ⟨q, hq, e⟩ := List.mem_map.1 ((hall rfl).mem_iff.2 (List.mem_range.2 (by omega : i - start < fin - start)))
  have := C95_cell utf8 st fuel m cid hm bits start fin row col t none hrun q.1 q.2.1 q.2.2 hq
  rw [e, show start + (i - start) = i by omega] at this
  exact ⟨_, this⟩

/-- C95 for the windows of any structure loaded from any store, in any run. -/
theorem C95_window (hm : st.getStruct utf8 cid = .ok m) (bits start fin top bottom left right : Nat)
    (h0 : start ≤ fin) (h1 : top < bottom) (h2 : left < right) (t : List (Nat × Nat × Nat × Nat × Int64))
    (s : Option Fail) (hrun : m.fillWindow utf8 st fuel bits (Cube.new start fin top bottom left right) t s)
    (i r c b : Nat) (v : Int64) (hq : (i, r, c, b, v) ∈ t) :
    m.get utf8 st fuel bits (start + i) (top + r) (left + c) = .ok (b, v) := by
  rw [Cube.new_eq h0 h1.le h2.le] at hrun
  exact (MMStruct3.fillWindow_shows fuel m bits start fin top bottom left right (Store.getStruct_loaded hm) h0 h1 h2
    t s hrun _ hq).2

theorem checkBounds_mono {data : MMStruct3} {i r c i' r' c' : Nat} (h : data.checkBounds i r c = some ())
    (hi : i' ≤ i) (hr : r' ≤ r) (hc : c' ≤ c) : data.checkBounds i' r' c' = some () := by
  unfold MMStruct3.checkBounds at h ⊢
  cases hs : data.shape with
  | none => simp [hs] at h
  | some q =>
    obtain ⟨n, rows, cols⟩ := q
    simp only [hs] at h ⊢
    by_cases hc : i ≥ n ∨ r ≥ rows ∨ c ≥ cols
    · simp [if_pos hc] at h
    · rw [if_neg (by omega)]

/-- C95 for arrays: a series that `cell` gives holds what `get` gives. -/
theorem C95_array_cell (hm : st.getStruct utf8 cid = .ok m) (start fin row col : Nat) (a : List α)
    (h : kind.cell utf8 st fuel m start fin row col (.ok a)) :
    a.length = fin - start ∧ ∀ i x, a[i]? = some x → kind.get utf8 st fuel m (start + i) row col = .ok x := by
  unfold Kind.cell csub at h
  by_cases hf : 1 ≤ fin
  · rw [if_pos hf] at h
    simp only at h
    cases hc : m.checkBounds (fin - 1) row col with
    | none => simp [hc] at h
    | some u =>
      by_cases hs : start ≤ fin
      · simp only [hc, if_pos hs] at h
        obtain ⟨t, s, hrun, hres⟩ := h
        unfold Kind.finish at hres
        by_cases ht : (t.all fun q => q.1 < fin - start) = true
        · rw [if_pos ht] at hres
          cases s with
          | some f => cases hres
          | none =>
            cases hres
            refine ⟨by simp, fun i x hx => ?_⟩
            rw [List.getElem?_map] at hx
            obtain ⟨j, hj, rfl⟩ := Option.map_eq_some_iff.1 hx
            obtain ⟨hi, rfl⟩ := List.getElem?_eq_some_iff.1 hj
            rw [List.length_range] at hi
            rw [List.getElem_range]
            unfold Kind.get written1
            rw [checkBounds_mono hc (by omega : start + i ≤ fin - 1) (Nat.le_refl _) (Nat.le_refl _)]
            simp only
            cases hfind : t.reverse.find? fun q => q.1 = i with
            | none =>
              obtain ⟨-, hall⟩ := MMStruct3.fillCell_covers fuel m m.fractionalBits start fin row col t none hrun
              obtain ⟨q, hq, e⟩ := List.mem_map.1 ((hall rfl).mem_iff.2 (List.mem_range.2 hi))
              have := List.find?_eq_none.1 hfind _ (List.mem_reverse.2 hq)
              simp [e] at this
            | some q =>
              have h1 := List.mem_reverse.1 (List.mem_of_find?_eq_some hfind)
              have h2 := List.find?_some hfind
              simp only [decide_eq_true_eq] at h2
              subst h2
              rw [C95_cell utf8 st fuel m cid hm _ start fin row col t none hrun q.1 q.2.1 q.2.2 h1]
        · rw [if_neg ht] at hres
          cases hres
      · simp [hc, if_neg hs] at h
  · simp [if_neg hf] at h

/-- C95 for arrays: a cell of a window that `window` gives holds what `get` gives, or the zero it was made with; the
former if all objects that the structure refers to can be loaded. -/
theorem C95_array_window (hm : st.getStruct utf8 cid = .ok m) (start fin top bottom left right : Nat)
    (h0 : start ≤ fin) (h1 : top < bottom) (h2 : left < right) (a : List (List (List α)))
    (h : kind.window utf8 st fuel m (Cube.new start fin top bottom left right) (.ok a)) (i r c : Nat)
    (x : α) (hx : (a[i]?.bind fun y => y[r]?.bind fun z => z[c]?) = some x) :
    (kind.get utf8 st fuel m (start + i) (top + r) (left + c) = .ok x ∨ x = kind.zero) ∧
    (Spec.Whole utf8 st fuel m → kind.get utf8 st fuel m (start + i) (top + r) (left + c) = .ok x) := by
  rw [Cube.new_eq h0 h1.le h2.le] at h
  unfold Kind.window at h
  cases hc : m.checkCube ⟨start, fin, top, bottom, left, right⟩ with
  | none => simp [hc] at h
  | some u =>
    simp only [hc, csub_of_le h0, csub_of_le h1.le, csub_of_le h2.le] at h
    obtain ⟨t, s, hrun, hres⟩ := h
    unfold Kind.finish at hres
    by_cases ht : (t.all fun q => q.1 < fin - start ∧ q.2.1 < bottom - top ∧ q.2.2.1 < right - left) = true
    · rw [if_pos ht] at hres
      cases s with
      | some f => cases hres
      | none =>
        cases hres
        obtain ⟨y, hy, hx⟩ := Option.bind_eq_some_iff.1 hx
        obtain ⟨z, hz, hx⟩ := Option.bind_eq_some_iff.1 hx
        rw [List.getElem?_map] at hy
        obtain ⟨i', hi, rfl⟩ := Option.map_eq_some_iff.1 hy
        rw [List.getElem?_map] at hz
        obtain ⟨r', hr, rfl⟩ := Option.map_eq_some_iff.1 hz
        rw [List.getElem?_map] at hx
        obtain ⟨c', hc', rfl⟩ := Option.map_eq_some_iff.1 hx
        obtain ⟨li, rfl⟩ := List.getElem?_eq_some_iff.1 hi
        obtain ⟨lr, rfl⟩ := List.getElem?_eq_some_iff.1 hr
        obtain ⟨lc, rfl⟩ := List.getElem?_eq_some_iff.1 hc'
        rw [List.length_range] at li lr lc
        simp only [List.getElem_range]
        have hb : m.checkBounds (start + i) (top + r) (left + c) = some () := by
          unfold MMStruct3.checkCube at hc
          simp only [csub_of_le (by omega : 1 ≤ bottom), csub_of_le (by omega : 1 ≤ right),
            csub_of_le (by omega : 1 ≤ fin)] at hc
          exact checkBounds_mono hc (by omega) (by omega) (by omega)
        have hit : ∀ q, t.reverse.find? (fun q => q.1 = i ∧ q.2.1 = r ∧ q.2.2.1 = c) = some q →
            kind.get utf8 st fuel m (start + i) (top + r) (left + c) = .ok (kind.dec q.2.2.2.1 q.2.2.2.2) := by
          intro q hf
          have a1 := List.mem_reverse.1 (List.mem_of_find?_eq_some hf)
          have a2 := List.find?_some hf
          obtain ⟨rfl, rfl, rfl⟩ := of_decide_eq_true a2
          have := (MMStruct3.fillWindow_shows fuel m m.fractionalBits start fin top bottom left right
            (Store.getStruct_loaded hm) h0 h1 h2 t none hrun q a1).2
          unfold Kind.get
          simp only [hb, this]
        unfold written
        cases hf : t.reverse.find? fun q => q.1 = i ∧ q.2.1 = r ∧ q.2.2.1 = c with
        | some q => exact ⟨.inl (hit q hf), fun _ => hit q hf⟩
        | none =>
          refine ⟨.inr rfl, fun hw => ?_⟩
          obtain ⟨-, key⟩ := MMStruct3.fillWindow_full fuel m m.fractionalBits start fin top bottom left right hw h0 h1
            h2 t none hrun
          have key := key rfl
          rw [places_eq] at key
          have hmem : (i, r, c) ∈ Spec.cells3 0 (fin - start) 0 (bottom - top) 0 (right - left) := by
            unfold Spec.cells3 Spec.cells
            simp only [List.mem_flatMap, List.mem_map, List.mem_range'_1]
            exact ⟨i, by omega, (r, c), ⟨r, by omega, c, by omega, rfl⟩, rfl⟩
          obtain ⟨q, hq, e⟩ := List.mem_map.1 (key.mem_iff.2 hmem)
          have := List.find?_eq_none.1 hf _ (List.mem_reverse.2 hq)
          simp only [Prod.mk.injEq] at e
          simp [e.1, e.2.1, e.2.2] at this
    · rw [if_neg ht] at hres
      cases hres

end

/-- What C95 asks for is met by a store with an object that the library has not written: it loads, and a window and a
series of it are read. -/
example : ∃ (ch : Chunk) (st : Store) (cid : Cid), Example.apart = some ch ∧
    st.getStruct (fun _ => true) cid = .ok (.subchunk ch) ∧
    (MMStruct3.subchunk ch).fillWindow (fun _ => true) st 1 0 (Cube.new 0 1 1 3 1 2)
      [(0, 0, 0, 0, 3), (0, 1, 0, 0, 7)] none ∧
    (MMStruct3.subchunk ch).fillCell (fun _ => true) st 1 0 1 2 0 0 [(0, 0, 20)] none ∧
    Kind.i64.cell (fun _ => true) st 1 (.subchunk ch) 1 2 0 0 (.ok [20]) ∧
    Kind.i64.window (fun _ => true) st 1 (.subchunk ch) (Cube.new 0 1 1 3 1 2) (.ok [[[3], [7]]]) := by
  have key : (match Example.apart with
    | some ch =>
      (match Store.getStruct (fun _ => true) (fun _ => some (Item.struct (.subchunk ch)).bytes) (Cid.v0 (List.replicate 32 0)) with
        | .ok (.subchunk c) => decide (c = ch)
        | _ => false) &&
      (decide (ch.fillWindow (Cube.new 0 1 1 3 1 2) = some [(0, 0, 0, 3), (0, 1, 0, 7)]) &&
        (decide (ch.fillCell 1 2 0 0 = some [(0, 20)]) &&
        (decide ((MMStruct3.subchunk ch).shape = some (2, 4, 4)) && decide ((MMStruct3.subchunk ch).fractionalBits = 0))))
    | none => false) = true := by decide +kernel
  cases h : Example.apart with
  | none => rw [h] at key; cases key
  | some ch =>
    rw [h] at key
    simp only [Bool.and_eq_true, decide_eq_true_eq] at key
    obtain ⟨k1, k2, k3, k4, k5⟩ := key
    have w : (MMStruct3.subchunk ch).fillWindow (fun _ => true) (fun _ => some (Item.struct (.subchunk ch)).bytes) 1 0
        (Cube.new 0 1 1 3 1 2) [(0, 0, 0, 0, 3), (0, 1, 0, 0, 7)] none := by
      unfold MMStruct3.fillWindow
      simp only [k2]
      exact ⟨rfl, rfl⟩
    have c : (MMStruct3.subchunk ch).fillCell (fun _ => true) (fun _ => some (Item.struct (.subchunk ch)).bytes) 1 0 1 2
        0 0 [(0, 0, 20)] none := by
      unfold MMStruct3.fillCell
      simp only [k3]
      exact ⟨rfl, rfl⟩
    refine ⟨ch, fun _ => some (Item.struct (.subchunk ch)).bytes, (Cid.v0 (List.replicate 32 0)), rfl, ?_, w, c, ?_, ?_⟩
    · cases hg : Store.getStruct (fun _ => true) (fun _ => some (Item.struct (.subchunk ch)).bytes) (Cid.v0 (List.replicate 32 0)) with
      | error e => rw [hg] at k1; cases k1
      | ok m =>
        rw [hg] at k1
        cases m with
        | subchunk c =>
          simp only [decide_eq_true_eq] at k1
          rw [k1]
        | superchunk _ _ => cases k1
        | span _ => cases k1
    · unfold Kind.cell
      rw [k5]
      simp only [csub, MMStruct3.checkBounds, k4]
      exact ⟨_, _, c, rfl⟩
    · rw [Cube.new_eq (by omega) (by omega) (by omega)] at w ⊢
      unfold Kind.window
      rw [k5]
      simp only [csub, MMStruct3.checkCube, MMStruct3.checkBounds, k4]
      exact ⟨_, _, w, rfl⟩

end Verif
