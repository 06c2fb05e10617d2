import Verif.Lemmas.Agree
import Verif.Lemmas.ChunkAny

/-! Searches of snapshots and logs that need not have been built: what they report. -/
namespace Verif

/-- What a search of a box reports is a choice of its cells. -/
def Picks (out : Option (List (Nat × Nat))) (top bottom left right tO lO : Nat) : Prop :=
  ∀ L, out = some L → ∃ P : Nat → Nat → Bool,
    (L : Multiset (Nat × Nat)) = boxSum top bottom left right (fun r c => if P r c then {(tO + r, lO + c)} else 0)

section
variable {sl top bottom left right tO lO : Nat} {f : Nat → Nat → Nat → Nat → Option (List (Nat × Nat))}

theorem Picks.panic : Picks none top bottom left right tO lO := fun _ h => nomatch h

theorem Picks.nil : Picks (some []) top bottom left right tO lO := by
  intro L hL
  cases hL
  refine ⟨fun _ _ => false, ?_⟩
  simp only [Bool.false_eq_true, if_false, boxSum_zero]
  rfl

theorem Picks.push : Picks (some (pushCells top bottom left right tO lO)) top bottom left right tO lO := by
  intro L hL
  cases hL
  refine ⟨fun _ _ => true, ?_⟩
  simp only [if_true]
  exact pushCells_spec ..

theorem Picks.grid (hs : 0 < sl) (h1 : top ≤ bottom) (h2 : left ≤ right)
    (h : ∀ i j, top / sl ≤ i → i ≤ bottom / sl → left / sl ≤ j → j ≤ right / sl →
      Picks (f i j (bottom - i * sl) (right - j * sl)) (top - i * sl) (Nat.min (sl - 1) (bottom - i * sl))
        (left - j * sl) (Nat.min (sl - 1) (right - j * sl)) (tO + i * sl) (lO + j * sl)) :
    Picks (collect (rangeIncl (top / sl) (bottom / sl)) fun i =>
        match csub bottom (i * sl) with
        | none => none
        | some b => collect (rangeIncl (left / sl) (right / sl)) fun j =>
          match csub right (j * sl) with
          | none => none
          | some r => f i j b r) top bottom left right tO lO := by
  intro L hL
  have body : ∀ i j, top / sl ≤ i → i ≤ bottom / sl → left / sl ≤ j → j ≤ right / sl →
      ∃ l, f i j (bottom - i * sl) (right - j * sl) = some l := by
    intro i j a1 a2 a3 a4
    have hi := collect_isSome.1 (Option.isSome_iff_exists.2 ⟨L, hL⟩) i (mem_rangeIncl.2 ⟨a1, a2⟩)
    rw [csub_of_le ((Nat.le_div_iff_mul_le hs).1 a2)] at hi
    have hj := collect_isSome.1 hi j (mem_rangeIncl.2 ⟨a3, a4⟩)
    rw [csub_of_le ((Nat.le_div_iff_mul_le hs).1 a4)] at hj
    exact Option.isSome_iff_exists.1 hj
  have all : ∀ i j, ∃ P : Nat → Nat → Bool, ∀ l, top / sl ≤ i → i ≤ bottom / sl → left / sl ≤ j → j ≤ right / sl →
      f i j (bottom - i * sl) (right - j * sl) = some l →
      (l : Multiset (Nat × Nat)) = boxSum (top - i * sl) (Nat.min (sl - 1) (bottom - i * sl))
        (left - j * sl) (Nat.min (sl - 1) (right - j * sl))
        (fun r c => if P r c then {(tO + i * sl + r, lO + j * sl + c)} else 0) := by
    intro i j
    by_cases hij : top / sl ≤ i ∧ i ≤ bottom / sl ∧ left / sl ≤ j ∧ j ≤ right / sl
    · obtain ⟨a1, a2, a3, a4⟩ := hij
      obtain ⟨l, hl⟩ := body i j a1 a2 a3 a4
      obtain ⟨P, hP⟩ := h i j a1 a2 a3 a4 l hl
      refine ⟨P, fun l' _ _ _ _ hl' => ?_⟩
      rw [hl] at hl'
      cases hl'
      exact hP
    · exact ⟨fun _ _ => false, fun _ a1 a2 a3 a4 => absurd ⟨a1, a2, a3, a4⟩ hij⟩
  choose P hP using all
  refine ⟨fun r c => P (r / sl) (c / sl) (r % sl) (c % sl), ?_⟩
  obtain ⟨L', e, hm⟩ := collect_grid sl top bottom left right hs h1 h2 f
    (fun r c => if P (r / sl) (c / sl) (r % sl) (c % sl) then {(tO + r, lO + c)} else 0) (fun i j a1 a2 a3 a4 => by
      obtain ⟨l, hl⟩ := body i j a1 a2 a3 a4
      refine ⟨l, hl, (hP i j l a1 a2 a3 a4 hl).trans (boxSum_congr fun r c b1 b2 b3 b4 => ?_)⟩
      have l1 := min_lt (a := bottom - i * sl) hs
      have l2 := min_lt (a := right - j * sl) hs
      have d1 := div_child (i := i) (Nat.lt_of_le_of_lt b2 l1)
      have d2 := div_child (i := j) (Nat.lt_of_le_of_lt b4 l2)
      rw [d1.1, d1.2, d2.1, d2.2, Nat.add_assoc, Nat.add_assoc])
  have e := hL.symm.trans e
  cases e
  exact hm

end

theorem Snapshot.searchGo_picks (s : Snapshot) (lower upper : Int64) :
    ∀ fuel side top bottom left right index mn mx tO lO, top ≤ bottom → left ≤ right →
      Picks (s.searchGo lower upper fuel side top bottom left right index mn mx tO lO) top bottom left right tO lO := by
  intro fuel
  induction fuel with
  | zero => intros; exact Picks.panic
  | succ fuel ih =>
    intro side top bottom left right index mn mx tO lO h1 h2
    simp only [Snapshot.searchGo]
    by_cases hk : s.k = 0
    · simp only [if_pos hk]
      exact Picks.panic
    simp only [if_neg hk]
    by_cases hs : side / s.k = 0
    · simp only [if_pos hs]
      exact Picks.panic
    simp only [if_neg hs]
    generalize side / s.k = sl at *
    have hs' : 0 < sl := by omega
    cases s.nodemap.rank index with
    | none => exact Picks.panic
    | some r =>
    simp only
    refine Picks.grid hs' h1 h2 fun i j a1 a2 a3 a4 => ?_
    have m1 := child_mem hs' h1 a1 a2
    have m2 := child_mem hs' h2 a3 a4
    cases s.max.get (1 + r * s.k * s.k + i * s.k + j) with
    | none => exact Picks.panic
    | some d =>
    simp only
    cases isLeafGe s.nodemap (1 + r * s.k * s.k + i * s.k + j) with
    | none => exact Picks.panic
    | some leaf =>
    cases leaf with
    | true =>
      simp only
      by_cases hv : lower ≤ mx - d ∧ mx - d ≤ upper
      · simp only [if_pos hv]
        exact Picks.push
      · simp only [if_neg hv]
        exact Picks.nil
    | false =>
      simp only
      cases s.nodemap.rank (1 + r * s.k * s.k + i * s.k + j) with
      | none => exact Picks.panic
      | some r' =>
      simp only
      cases s.min.get r' with
      | none => exact Picks.panic
      | some dmin =>
      simp only
      by_cases hv : lower ≤ mn ∧ mx - d ≤ upper
      · simp only [if_pos hv]
        exact Picks.push
      · simp only [if_neg hv]
        by_cases hw : upper ≥ mn + dmin ∧ lower ≤ mx - d
        · simp only [if_pos hw]
          exact ih _ _ _ _ _ _ _ _ _ _ m1 m2
        · simp only [if_neg hw]
          exact Picks.nil

theorem Log.searchGo_picks (l : Log) (s : Snapshot) (lower upper : Int64) :
    ∀ fuel side top bottom left right iT iS nT nS mT mS tO lO, top ≤ bottom → left ≤ right →
      Picks (l.searchGo s lower upper fuel side top bottom left right iT iS nT nS mT mS tO lO) top bottom left right
        tO lO := by
  intro fuel
  induction fuel with
  | zero => intros; exact Picks.panic
  | succ fuel ih =>
    intro side top bottom left right iT iS nT nS mT mS tO lO h1 h2
    simp only [Log.searchGo]
    by_cases hv : nS + nT ≥ lower ∧ mS + mT ≤ upper
    · simp only [if_pos hv]
      exact Picks.push
    simp only [if_neg hv]
    by_cases hw : nS + nT > upper ∨ mS + mT < lower
    · simp only [if_pos hw]
      exact Picks.nil
    simp only [if_neg hw]
    by_cases hk : l.k = 0
    · simp only [if_pos hk]
      exact Picks.panic
    simp only [if_neg hk]
    by_cases hs : side / l.k = 0
    · simp only [if_pos hs]
      exact Picks.panic
    simp only [if_neg hs]
    generalize side / l.k = sl at *
    have hs' : 0 < sl := by omega
    cases childBase l.nodemap l.k iT with
    | none => exact Picks.panic
    | some bT =>
    cases childBase s.nodemap l.k iS with
    | none => exact Picks.panic
    | some bS =>
    simp only
    refine Picks.grid hs' h1 h2 fun i j a1 a2 a3 a4 => ?_
    have m1 := child_mem hs' h1 a1 a2
    have m2 := child_mem hs' h2 a3 a4
    generalize bT.map (fun b => b + i * l.k + j) = xT
    generalize bS.map (fun b => b + i * l.k + j) = xS
    cases l.childMaxT mT xT with
    | none => exact Picks.panic
    | some maxT =>
    cases s.childMaxS mS xS with
    | none => exact Picks.panic
    | some maxS =>
    cases optLeaf isLeafGe l.nodemap xT with
    | none => exact Picks.panic
    | some leafT =>
    cases optLeaf isLeafGe s.nodemap xS with
    | none => exact Picks.panic
    | some leafS =>
    simp only
    cases l.childMinT nT leafT xT with
    | none => exact Picks.panic
    | some minT =>
    cases s.childMinS nS leafS xS with
    | none => exact Picks.panic
    | some minS =>
    simp only
    generalize (if leafT = true then l.leafMinT (if leafS = true then maxS else minS) maxS maxT xT else some minT) = q
    cases q with
    | none => exact Picks.panic
    | some _ => exact ih _ _ _ _ _ _ _ _ _ _ _ _ _ m1 m2

/-- What `Picks` says of a window. -/
theorem Picks.window {out : Option (List (Nat × Nat))} {top bottom left right : Nat} (h1 : top < bottom)
    (h2 : left < right) (h : Picks out top (bottom - 1) left (right - 1) 0 0) {L : List (Nat × Nat)}
    (hL : out = some L) : L.Subperm (Spec.cells top bottom left right) := by
  obtain ⟨P, hP⟩ := h L hL
  have e : L.Perm ((Spec.cells top bottom left right).filter fun p => P p.1 p.2) := by
    refine Multiset.coe_eq_coe.1 (hP.trans ?_)
    rw [← map_cells_sum _ _ _ _ _ h1 h2]
    induction Spec.cells top bottom left right with
    | nil => rfl
    | cons p ps ih =>
      rw [List.map_cons, List.sum_cons, ih, List.filter_cons]
      cases P p.1 p.2 <;> simp
  exact e.subperm.trans List.filter_sublist.subperm

theorem Snapshot.searchWindow_within (s : Snapshot) {top bottom left right : Nat} (h1 : top < bottom)
    (h2 : left < right) (lower upper : Int64) {L : List (Nat × Nat)}
    (hL : s.searchWindow ⟨top, bottom, left, right⟩ lower upper = some L) :
    L.Subperm (Spec.cells top bottom left right) := by
  simp only [Snapshot.searchWindow, csub_of_le (Nat.one_le_of_lt h1), csub_of_le (Nat.one_le_of_lt h2)] at hL
  cases hb : s.nodemap.get 0 with
  | none => simp [hb] at hL
  | some bit =>
    cases hm : s.max.get 0 with
    | none => cases bit <;> simp [hb, hm] at hL
    | some m =>
      cases bit with
      | false =>
        simp only [hb, hm] at hL
        rw [Rect.cells_eq _ h1.le h2] at hL
        by_cases hv : lower ≤ m ∧ m ≤ upper
        · rw [if_pos hv] at hL
          cases hL
          exact List.Subperm.refl _
        · rw [if_neg hv] at hL
          cases hL
          exact List.nil_subperm
      | true =>
        cases hn : s.min.get 0 with
        | none => simp [hb, hm, hn] at hL
        | some mn =>
          simp only [hb, hm, hn] at hL
          exact Picks.window h1 h2 (s.searchGo_picks lower upper _ _ _ _ _ _ _ _ _ 0 0 (by omega) (by omega)) hL

theorem Log.searchWindow_within (l : Log) (s : Snapshot) {top bottom left right : Nat} (h1 : top < bottom)
    (h2 : left < right) (lower upper : Int64) {L : List (Nat × Nat)}
    (hL : l.searchWindow s ⟨top, bottom, left, right⟩ lower upper = some L) :
    L.Subperm (Spec.cells top bottom left right) := by
  simp only [Log.searchWindow, csub_of_le (Nat.one_le_of_lt h1), csub_of_le (Nat.one_le_of_lt h2)] at hL
  cases hT : l.nodemap.get 0 with
  | none => simp [hT] at hL
  | some bT =>
  cases hS : s.nodemap.get 0 with
  | none => simp [hT, hS] at hL
  | some bS =>
  cases h3 : l.min.get 0 with
  | none => simp [hT, hS, h3] at hL
  | some nT =>
  cases h4 : s.min.get 0 with
  | none => simp [hT, hS, h3, h4] at hL
  | some nS =>
  cases h5 : l.max.get 0 with
  | none => simp [hT, hS, h3, h4, h5] at hL
  | some mT =>
  cases h6 : s.max.get 0 with
  | none => simp [hT, hS, h3, h4, h5, h6] at hL
  | some mS =>
  simp only [hT, hS, h3, h4, h5, h6] at hL
  exact Picks.window h1 h2 (l.searchGo_picks s lower upper _ _ _ _ _ _ _ _ _ _ _ _ 0 0 (by omega) (by omega)) hL

section
variable {ch : Chunk} {w : Rect} {lower upper : Int64}

theorem Block.searchWindow_within {b : Block} {off : Nat} (h1 : w.top < w.bottom) (h2 : w.left < w.right)
    {L : List (Nat × Nat)} (hL : b.searchWindow off w lower upper = some L) :
    L.Subperm (Spec.cells w.top w.bottom w.left w.right) := by
  cases off with
  | zero => exact b.snapshot.searchWindow_within h1 h2 lower upper hL
  | succ i =>
    simp only [Block.searchWindow] at hL
    cases hl : b.logs[i]? with
    | none => simp [hl] at hL
    | some l =>
      simp only [hl] at hL
      exact l.searchWindow_within b.snapshot h1 h2 lower upper hL

/-- The next results of a search that has `n` instants to go are those of one of them. -/
theorem SearchIter.nextResults_within (h1 : w.top < w.bottom) (h2 : w.left < w.right) {i off n t : Nat}
    {res : Option (List (Nat × Nat))} {it' : SearchIter}
    (h : SearchIter.nextResults ch ⟨⟨i, off, n⟩, w, lower, upper, t, res⟩ = some it') :
    it'.results = none ∨ ∃ n' i' off' xs, n = n' + 1 ∧
      it' = ⟨⟨i', off', n'⟩, w, lower, upper, t + 1, some xs⟩ ∧
      xs.Subperm (Spec.cells w.top w.bottom w.left w.right) := by
  unfold SearchIter.nextResults ChunkIter.next at h
  cases n with
  | zero =>
    simp only [if_true, Option.some.injEq] at h
    subst h
    exact .inl rfl
  | succ n =>
    simp only [Nat.add_one_ne_zero, if_false] at h
    cases hb : ch.blocks[i]? with
    | none => simp [hb] at h
    | some b =>
      simp only [hb] at h
      by_cases ho : off = b.logs.length
      all_goals
        first
          | simp only [if_pos ho, hb] at h
          | simp only [if_neg ho, hb] at h
        cases hs : b.searchWindow off w lower upper with
        | none => simp [hs] at h
        | some xs =>
          simp only [hs, Option.some.injEq] at h
          subst h
          exact .inr ⟨n, _, _, xs, rfl, rfl, Block.searchWindow_within h1 h2 hs⟩

theorem SearchIter.skip_within (h1 : w.top < w.bottom) (h2 : w.left < w.right) : ∀ (fuel i off n t : Nat)
    (res : Option (List (Nat × Nat))) (x : Nat × Nat) (it' : SearchIter),
    SearchIter.skip ch fuel ⟨⟨i, off, n⟩, w, lower, upper, t, res⟩ = some (some x, it') →
    ∃ n' t' i' off' xs, t' + n' = t + n ∧ t < t' ∧
      it' = ⟨⟨i', off', n'⟩, w, lower, upper, t', some xs⟩ ∧
      (x :: xs).Subperm (Spec.cells w.top w.bottom w.left w.right) := by
  intro fuel
  induction fuel with
  | zero => intro i off n t res x it' h; simp [SearchIter.skip] at h
  | succ fuel ih =>
    intro i off n t res x it' h
    simp only [SearchIter.skip] at h
    cases hn : SearchIter.nextResults ch ⟨⟨i, off, n⟩, w, lower, upper, t, res⟩ with
    | none => simp [hn] at h
    | some it =>
      simp only [hn] at h
      rcases SearchIter.nextResults_within h1 h2 hn with e | ⟨n', i', off', xs, rfl, rfl, hp⟩
      · simp [e] at h
      · cases xs with
        | nil =>
          obtain ⟨n2, t2, i2, off2, ys, a1, a2, a3, a4⟩ := ih _ _ _ _ _ _ _ h
          exact ⟨n2, t2, i2, off2, ys, by omega, by omega, a3, a4⟩
        | cons y ys =>
          simp only [Option.some.injEq, Prod.mk.injEq] at h
          obtain ⟨rfl, rfl⟩ := h
          exact ⟨n', t + 1, i', off', ys, by omega, by omega, rfl, hp⟩

/-- What a search still has to report. -/
theorem SearchIter.toList_within (h1 : w.top < w.bottom) (h2 : w.left < w.right) : ∀ (fuel i off n t : Nat)
    (xs : List (Nat × Nat)) (L : List (Nat × Nat × Nat)), 0 < t →
    SearchIter.toList ch fuel ⟨⟨i, off, n⟩, w, lower, upper, t, some xs⟩ = some L →
    L.Subperm (xs.map (fun p => (t - 1, p)) ++ (List.range' t n).flatMap fun t =>
      (Spec.cells w.top w.bottom w.left w.right).map fun p => (t, p)) := by
  intro fuel
  induction fuel with
  | zero => intro i off n t xs L _ h; simp [SearchIter.toList] at h
  | succ fuel ih =>
    intro i off n t xs L ht h
    have step : ∀ (x : Nat × Nat) (n' t' i' off' : Nat) (ys : List (Nat × Nat)), 0 < t' →
        (match (some (some (t' - 1, x.1, x.2), (⟨⟨i', off', n'⟩, w, lower, upper, t', some ys⟩ : SearchIter)) :
            Option (Option (Nat × Nat × Nat) × SearchIter)) with
          | none => none
          | some (none, _) => some []
          | some (some x, it) => (SearchIter.toList ch fuel it).map (x :: ·)) = some L →
        L.Subperm ((x :: ys).map (fun p => (t' - 1, p)) ++ (List.range' t' n').flatMap fun t =>
          (Spec.cells w.top w.bottom w.left w.right).map fun p => (t, p)) := by
      intro x n' t' i' off' ys ht' h
      obtain ⟨M, hM, rfl⟩ := Option.map_eq_some_iff.1 h
      exact (List.subperm_cons _).2 (ih _ _ _ _ _ _ ht' hM)
    rw [SearchIter.toList] at h
    unfold SearchIter.next at h
    simp only at h
    cases xs with
    | cons x xs =>
      simp only [csub_of_le (Nat.one_le_of_lt ht)] at h
      exact step x n t i off xs ht h
    | nil =>
      simp only at h
      cases hk : SearchIter.skip ch (n + 1) ⟨⟨i, off, n⟩, w, lower, upper, t, some []⟩ with
      | none => simp [hk] at h
      | some q =>
        obtain ⟨x, it'⟩ := q
        cases x with
        | none =>
          simp only [hk, Option.some.injEq] at h
          subst h
          exact List.nil_subperm
        | some x =>
          obtain ⟨n', t', i', off', ys, a1, a2, rfl, a4⟩ := SearchIter.skip_within h1 h2 _ _ _ _ _ _ _ _ hk
          simp only [hk, csub_of_le (show 1 ≤ t' by omega)] at h
          refine (step x n' t' i' off' ys (by omega) h).trans ?_
          have e : List.range' t n = List.range' t (t' - 1 - t) ++ (t' - 1) :: List.range' t' n' := by
            have : n = (t' - 1 - t) + (1 + n') := by omega
            rw [this, ← List.range'_append_1, Nat.add_comm 1 n', List.range'_succ]
            congr 2
            · omega
            · congr 1; omega
          rw [List.map_nil, List.nil_append, e, List.flatMap_append, List.flatMap_cons]
          refine List.Subperm.trans ?_ (List.sublist_append_right _ _).subperm
          exact (subperm_map _ a4).append (List.Subperm.refl _)

end


/-- A search of a chunk, whatever is in it. -/
theorem Chunk.search_within {ch : Chunk} {start fin top bottom left right : Nat} (h1 : top < bottom)
    (h2 : left < right) {lower upper : Int64} {it : SearchIter}
    (hi : ch.iterSearch ⟨start, fin, top, bottom, left, right⟩ lower upper = some it) {fuel : Nat}
    {L : List (Nat × Nat × Nat)} (hL : it.toList ch fuel = some L) :
    L.Subperm (Spec.cells3 start fin top bottom left right) := by
  unfold Chunk.iterSearch at hi
  rw [Cube.rect_eq (by omega) (by omega)] at hi
  simp only at hi
  unfold Chunk.iter at hi
  cases hb : ch.findBlock start with
  | none => simp [hb] at hi
  | some q =>
    obtain ⟨i, off⟩ := q
    cases hc : csub fin start with
    | none => simp [hb, hc] at hi
    | some n =>
      have hn : n = fin - start := by
        unfold csub at hc
        split at hc
        · exact (Option.some.inj hc).symm
        · cases hc
      simp only [hb, hc] at hi
      rcases SearchIter.nextResults_within (w := ⟨top, bottom, left, right⟩) h1 h2 hi with
        e | ⟨n', i', off', xs, e1, rfl, hp⟩
      · cases fuel with
        | zero => simp [SearchIter.toList] at hL
        | succ fuel =>
          simp only [SearchIter.toList, SearchIter.next, e, Option.some.injEq] at hL
          subst hL
          exact List.nil_subperm
      · refine (SearchIter.toList_within (w := ⟨top, bottom, left, right⟩) h1 h2 _ _ _ _ _ _ _ (by omega) hL).trans ?_
        unfold Spec.cells3
        rw [← hn, e1, List.range'_succ, List.flatMap_cons, Nat.add_sub_cancel]
        exact (subperm_map _ hp).append (List.Subperm.refl _)

/-! ### Structures in any store -/

/-- In any run, also one that fails, what is emitted is within the list, each as often at most. -/
def Out.Inside {β γ : Type} (f : β → Option γ) (o : Out β) (g : List γ) : Prop :=
  ∀ t s, o t s → (t.filterMap f).Subperm g

section
variable {β γ ι : Type} {f : β → Option γ}

theorem Out.Inside.fail {e : Fail} {g : List γ} : (Out.fail e : Out β).Inside f g := by
  rintro t s ⟨rfl, -⟩
  exact List.nil_subperm

theorem Out.Inside.emit {l : List β} {g : List γ} (h : (l.filterMap f).Subperm g) : (Out.emit l).Inside f g := by
  rintro t s ⟨rfl, -⟩
  exact h

theorem Out.Inside.mono {o : Out β} {g g' : List γ} (h : o.Inside f g) (hg : g.Subperm g') : o.Inside f g' :=
  fun t s ht => (h t s ht).trans hg

theorem Out.Inside.await {α : Type} {x : Except Fail α} {k : α → Out β} {g : List γ}
    (h : ∀ a, x = .ok a → (k a).Inside f g) : (Out.await x k).Inside f g := by
  cases x with
  | ok a => exact h a rfl
  | error e => exact Out.Inside.fail

theorem subperm_filterMap {l m : List β} (h : l.Subperm m) : (l.filterMap f).Subperm (m.filterMap f) := by
  obtain ⟨l', h1, h2⟩ := h
  exact ⟨l'.filterMap f, h1.filterMap f, h2.filterMap f⟩

theorem runs_inside {xs : List ι} {p : ι → Out β} {g : ι → List γ} {rs : List (List β × Option Fail)}
    (h : ∀ x ∈ xs, (p x).Inside f (g x)) (hr : Out.Runs (xs.map p) rs) :
    ((rs.map Prod.fst).flatten.filterMap f).Subperm (xs.flatMap g) := by
  induction xs generalizing rs with
  | nil =>
    cases hr
    exact List.nil_subperm
  | cons x xs ih =>
    cases hr with
    | cons h1 h2 =>
      rw [List.map_cons, List.flatten_cons, List.filterMap_append, List.flatMap_cons]
      exact (h x (by simp) _ _ h1).append (ih (fun y hy => h y (by simp [hy])) h2)

theorem Out.Partial.subperm {rs : List (List β × Option Fail)} {t : List β} (h : Out.Partial rs t) :
    t.Subperm (rs.map Prod.fst).flatten := by
  obtain ⟨pre, h1, h2⟩ := h
  refine h2.perm.subperm.trans (List.Sublist.subperm ?_)
  clear h2
  induction h1 with
  | nil => exact List.Sublist.refl _
  | cons h _ ih =>
    rw [List.map_cons, List.flatten_cons, List.flatten_cons]
    exact h.sublist.append ih

theorem Out.Inside.joinAll {xs : List ι} {p : ι → Out β} {g : ι → List γ} (h : ∀ x ∈ xs, (p x).Inside f (g x)) :
    (Out.joinAll (xs.map p)).Inside f (xs.flatMap g) := by
  rintro t s ⟨rs, hr, ht⟩
  cases s with
  | none => exact (subperm_filterMap ht.2.perm.subperm).trans (runs_inside h hr)
  | some e => exact (subperm_filterMap ht.2.2.subperm).trans (runs_inside h hr)

theorem Out.Inside.tryAll {xs : List ι} {p : ι → Out β} {g : ι → List γ} (h : ∀ x ∈ xs, (p x).Inside f (g x)) :
    (Out.tryAll (xs.map p)).Inside f (xs.flatMap g) := by
  rintro t s ⟨rs, hr, ht⟩
  cases s with
  | none => exact (subperm_filterMap ht.2.perm.subperm).trans (runs_inside h hr)
  | some e => exact (subperm_filterMap ht.2.subperm).trans (runs_inside h hr)

theorem Out.Inside.map {β' : Type} {f' : β' → Option γ} {k : β → β'} {k' : γ → γ} {o : Out β} {g : List γ}
    (h : o.Inside f g) (hk : ∀ q, f' (k q) = (f q).map k') : (o.map k).Inside f' (g.map k') := by
  rintro t s ⟨t', h1, rfl⟩
  rw [List.filterMap_map]
  have e : (f' ∘ k) = fun q => (f q).map k' := funext hk
  rw [e, ← List.map_filterMap]
  exact subperm_map _ (h _ _ h1)

end

section
variable {utf8 : List Byte → Bool} {st : Store}

theorem elidedSearch_within {h : SuperHead} {start fin top bottom left right index a b : Nat}
    {lower upper : Int64} (hse : start ≤ fin) {L : List (Nat × Nat × Nat)}
    (hL : h.elidedSearch ⟨start, fin, top, bottom, left, right⟩ index a b lower upper = some L) :
    L.Subperm (Spec.cells3 start fin (a + top) (a + bottom) (b + left) (b + right)) := by
  by_cases hn : h.subsidelen = 0
  · unfold SuperHead.elidedSearch at hL
    rw [if_pos hn] at hL
    cases hL
  · have hv : ∀ t, ∃ v, start ≤ t → t < fin → h.max.get (h.slot index t) = some v := by
      intro t
      by_cases ht : start ≤ t ∧ t < fin
      · have hL' := hL
        unfold SuperHead.elidedSearch at hL'
        rw [if_neg hn, csub_of_le hse] at hL'
        have := collect_isSome.1 (Option.isSome_iff_exists.2 ⟨L, hL'⟩) (t - start) (List.mem_range.2 (by omega))
        beta_reduce at this
        rw [show start + (t - start) = t by omega] at this
        cases hm : h.max.get (h.slot index t) with
        | none => simp [hm] at this
        | some v => exact ⟨v, fun _ _ => rfl⟩
      · exact ⟨0, fun h1 h2 => absurd ⟨h1, h2⟩ ht⟩
    choose v hv using hv
    rw [elidedSearch_eq (v := v) (data := fun t _ _ => v t) hn hse fun t h1 h2 =>
      ⟨hv t h1 h2, fun _ _ _ _ _ _ => rfl⟩] at hL
    cases hL
    rw [Spec.hits3_eq]
    exact List.filter_sublist.subperm

/-- A search of any structure in any store: in any run, also one that fails, the cells found are in the window and
no cell is found twice. -/
theorem MMStruct3.search_inside : ∀ (fuel : Nat) (m : MMStruct3) (start fin top bottom left right : Nat)
    (lower upper : Int64), start ≤ fin → top < bottom → left < right →
    (m.search utf8 st fuel ⟨start, fin, top, bottom, left, right⟩ lower upper).Inside (fun q => q)
      (Spec.cells3 start fin top bottom left right) := by
  intro fuel
  induction fuel with
  | zero => intros; exact Out.Inside.fail
  | succ fuel ih =>
    intro m start fin top bottom left right lower upper hse htb hlr
    have enter : ∀ (x : Except Fail MMStruct3) (k : MMStruct3 → Out (Option (Nat × Nat × Nat)))
        (g : List (Nat × Nat × Nat)), (∀ m, (k m).Inside (fun q => q) g) →
        (match x with
          | .ok m => k m
          | .error (.err _) => Out.emit [none]
          | .error .panic => Out.fail .panic : Out (Option (Nat × Nat × Nat))).Inside (fun q => q) g := by
      intro x k g h
      cases x with
      | ok m => exact h m
      | error e =>
        cases e with
        | err e => exact Out.Inside.emit List.nil_subperm
        | panic => exact Out.Inside.fail
    cases m with
    | subchunk c =>
      unfold MMStruct3.search
      simp only
      cases e : c.iterSearch ⟨start, fin, top, bottom, left, right⟩ lower upper with
      | none => exact Out.Inside.fail
      | some it =>
        rintro t s (⟨k, l, h1, rfl, rfl⟩ | ⟨h1, rfl, -⟩)
        · rw [List.filterMap_map]
          have : ((fun q : Option (Nat × Nat × Nat) => q) ∘ some) = some := rfl
          rw [this, List.filterMap_some]
          exact Chunk.search_within htb hlr e h1
        · exact List.nil_subperm
    | superchunk hd loc =>
      unfold MMStruct3.search
      simp only
      by_cases hs : hd.chunksSidelen = 0
      · rw [show hd.subchunksFor (Cube.mk start fin top bottom left right).rect = none by
          unfold SuperHead.subchunksFor
          rw [if_pos hs]]
        exact Out.Inside.fail
      have hs : 0 < hd.chunksSidelen := by omega
      rw [Cube.rect_eq (by omega) (by omega), subchunksFor_eq hd hs htb hlr]
      simp only
      generalize (rearrangeI lower upper).1 = lo
      generalize (rearrangeI lower upper).2 = up
      generalize hsubs : ((rangeIncl (top / hd.chunksSidelen) ((bottom - 1) / hd.chunksSidelen)).flatMap
        fun R => (rangeIncl (left / hd.chunksSidelen) ((right - 1) / hd.chunksSidelen)).map fun C =>
          windowPart hd.chunksSidelen hd.subsidelen top bottom left right R C) = subs
      have hmem : ∀ sub ∈ subs, ∃ i j, i ∈ rangeIncl (top / hd.chunksSidelen)
          ((bottom - 1) / hd.chunksSidelen) ∧ j ∈ rangeIncl (left / hd.chunksSidelen)
          ((right - 1) / hd.chunksSidelen) ∧
          sub = windowPart hd.chunksSidelen hd.subsidelen top bottom left right i j := by
        intro sub hsub
        rw [← hsubs] at hsub
        obtain ⟨i, hi, hsub⟩ := List.mem_flatMap.1 hsub
        obtain ⟨j, hj, rfl⟩ := List.mem_map.1 hsub
        exact ⟨i, j, hi, hj, rfl⟩
      cases hcol : collect subs fun (sub : WindowSubchunk) =>
          (hd.hasCells lo up sub.index (rangeExcl start fin)).map fun b => if b then [sub] else [] with
      | none => exact Out.Inside.fail
      | some kept =>
      simp only
      have hkept : kept.Sublist subs := by
        clear hmem hsubs
        induction subs generalizing kept with
        | nil =>
          simp only [collect, Option.some.injEq] at hcol
          subst hcol
          exact List.Sublist.refl _
        | cons sub subs ihs =>
          rw [collect] at hcol
          cases h1 : hd.hasCells lo up sub.index (rangeExcl start fin) with
          | none => simp [h1] at hcol
          | some b =>
            cases h2 : collect subs fun (sub : WindowSubchunk) =>
                (hd.hasCells lo up sub.index (rangeExcl start fin)).map fun b => if b then [sub] else [] with
            | none => simp [h1, h2] at hcol
            | some rest =>
              simp only [h1, h2, Option.map_some, Option.some.injEq] at hcol
              subst hcol
              cases b with
              | true => exact (ihs _ h2).cons_cons sub
              | false => exact (ihs _ h2).cons sub
      let cells : WindowSubchunk → List (Nat × Nat × Nat) := fun sub =>
        Spec.cells3 start fin (sub.chunk.top + sub.loc.top) (sub.chunk.top + sub.loc.bottom)
          (sub.chunk.left + sub.loc.left) (sub.chunk.left + sub.loc.right)
      refine Out.Inside.mono (Out.Inside.joinAll (g := cells) fun sub hsub => ?_) ?_
      · obtain ⟨i, j, hi, hj, rfl⟩ := hmem sub (hkept.subset hsub)
        have b1 := side_bounds hs htb hi
        have b2 := side_bounds hs hlr hj
        simp only [cells, windowPart]
        rw [Cube.new_eq hse (by omega) (by omega)]
        have goal : ∀ m : MMStruct3, ((m.search utf8 st fuel ⟨start, fin,
            max (i * hd.chunksSidelen) top - i * hd.chunksSidelen,
            min (i * hd.chunksSidelen + hd.chunksSidelen) bottom - i * hd.chunksSidelen,
            max (j * hd.chunksSidelen) left - j * hd.chunksSidelen,
            min (j * hd.chunksSidelen + hd.chunksSidelen) right - j * hd.chunksSidelen⟩ lo up).map
              (Option.map fun q => (q.1, q.2.1 + i * hd.chunksSidelen, q.2.2 + j * hd.chunksSidelen))).Inside
            (fun q => q) (Spec.cells3 start fin
              (i * hd.chunksSidelen + (max (i * hd.chunksSidelen) top - i * hd.chunksSidelen))
              (i * hd.chunksSidelen + (min (i * hd.chunksSidelen + hd.chunksSidelen) bottom - i * hd.chunksSidelen))
              (j * hd.chunksSidelen + (max (j * hd.chunksSidelen) left - j * hd.chunksSidelen))
              (j * hd.chunksSidelen + (min (j * hd.chunksSidelen + hd.chunksSidelen) right - j * hd.chunksSidelen))) := by
          intro m
          have hshift := Spec.cells3_shift 0 (i * hd.chunksSidelen) (j * hd.chunksSidelen) start fin
            (max (i * hd.chunksSidelen) top - i * hd.chunksSidelen)
            (min (i * hd.chunksSidelen + hd.chunksSidelen) bottom - i * hd.chunksSidelen)
            (max (j * hd.chunksSidelen) left - j * hd.chunksSidelen)
            (min (j * hd.chunksSidelen + hd.chunksSidelen) right - j * hd.chunksSidelen)
          simp only [Nat.zero_add, Nat.add_comm (i * hd.chunksSidelen) (Prod.fst _),
            Nat.add_comm (j * hd.chunksSidelen) (Prod.snd _)] at hshift
          rw [hshift]
          exact Out.Inside.map (ih m start fin _ _ _ _ lo up hse (by omega) (by omega)) fun q => rfl
        cases hd.references[i * hd.subsidelen + j]? with
        | none => exact Out.Inside.fail
        | some ref =>
          cases ref with
          | elided =>
            simp only
            cases hel : hd.elidedSearch ⟨start, fin,
              max (i * hd.chunksSidelen) top - i * hd.chunksSidelen,
              min (i * hd.chunksSidelen + hd.chunksSidelen) bottom - i * hd.chunksSidelen,
              max (j * hd.chunksSidelen) left - j * hd.chunksSidelen,
              min (j * hd.chunksSidelen + hd.chunksSidelen) right - j * hd.chunksSidelen⟩ (i * hd.subsidelen + j)
              (i * hd.chunksSidelen) (j * hd.chunksSidelen) lo up with
            | none => exact Out.Inside.fail
            | some L =>
              refine Out.Inside.emit ?_
              rw [List.filterMap_map]
              have : ((fun q : Option (Nat × Nat × Nat) => q) ∘ some) = some := rfl
              rw [this, List.filterMap_some]
              exact elidedSearch_within hse hel
          | loc a => exact enter _ _ _ goal
          | external a => exact enter _ _ _ goal
      · have e1 : (subs.flatMap cells).Perm (Spec.cells3 start fin top bottom left right) := by
          refine List.Perm.trans (List.Perm.of_eq ?_) (cells3_split hs htb hlr)
          rw [← hsubs, List.flatMap_assoc]
          refine List.flatMap_congr fun i hi => ?_
          rw [List.flatMap_map]
          refine List.flatMap_congr fun j hj => ?_
          have b1 := side_bounds hs htb hi
          have b2 := side_bounds hs hlr hj
          simp only [cells, windowPart]
          rw [show i * hd.chunksSidelen + (max (i * hd.chunksSidelen) top - i * hd.chunksSidelen) =
              max (i * hd.chunksSidelen) top by omega,
            show j * hd.chunksSidelen + (max (j * hd.chunksSidelen) left - j * hd.chunksSidelen) =
              max (j * hd.chunksSidelen) left by omega,
            show i * hd.chunksSidelen + (min (i * hd.chunksSidelen + hd.chunksSidelen) bottom -
              i * hd.chunksSidelen) = min (i * hd.chunksSidelen + hd.chunksSidelen) bottom by omega,
            show j * hd.chunksSidelen + (min (j * hd.chunksSidelen + hd.chunksSidelen) right -
              j * hd.chunksSidelen) = min (j * hd.chunksSidelen + hd.chunksSidelen) right by omega]
        refine List.Subperm.trans (List.Sublist.subperm ?_) e1.subperm
        exact hkept.flatMap cells
    | span s =>
      unfold MMStruct3.search Cube.instants csub
      simp only
      rw [if_pos hse]
      simp only
      by_cases hs : s.stride = 0
      · rw [show s.piecesFor start (fin - start) = none by
          unfold Span.piecesFor Span.findSpan
          rw [if_pos hs]]
        exact Out.Inside.fail
      obtain ⟨ps, e0, hp, hps⟩ := piecesFor_spec s start (fin - start) (by omega)
      rw [e0]
      simp only
      by_cases hlen : ∀ p ∈ ps, p.span < s.spans.length
      · rw [if_pos hlen]
        have hspec : Spec.cells3 start fin top bottom left right = ps.flatMap fun p =>
            Spec.cells3 (start + p.start) (start + p.start + p.len) top bottom left right := by
          have := pieces_flatMap hps (fun i => (Spec.cells top bottom left right).map fun p => (start + i, p))
          unfold Spec.cells3
          rw [List.range'_eq_map_range, List.flatMap_map]
          refine this.symm.trans ?_
          refine List.flatMap_congr fun p _ => ?_
          rw [Nat.add_sub_cancel_left, List.range'_eq_map_range, List.flatMap_map]
          simp only [Nat.add_assoc]
        rw [hspec]
        refine Out.Inside.joinAll fun p hm => ?_
        have hp := hp p hm
        cases s.spans[p.span]? with
        | none => exact Out.Inside.fail
        | some cid =>
          refine enter _ _ _ fun m => ?_
          rw [Cube.new_eq (by omega) (by omega) (by omega)]
          have hshift := Spec.cells3_shift (p.span * s.stride) 0 0 p.instant (p.instant + p.len) top bottom
            left right
          simp only [Nat.zero_add, Nat.add_comm (p.span * s.stride) (Prod.fst _)] at hshift
          rw [show start + p.start = p.span * s.stride + p.instant by omega, Nat.add_assoc, hshift]
          exact Out.Inside.map (ih m p.instant (p.instant + p.len) top bottom left right lower upper (by omega)
            htb hlr) fun q => rfl
      · rw [if_neg hlen]
        exact Out.Inside.fail

end

end Verif
