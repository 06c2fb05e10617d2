import Verif.Model.Checked

/-! Reads with overflow checks, of any chunk whatever it holds: they give what reads without checks give, or panic. -/
namespace Verif

/-- The second returns what the first returns, if that returns. -/
def Refines {α : Type _} (a b : Option α) : Prop := a = none ∨ a = b

namespace Refines
variable {α β : Type _}

theorem refl (a : Option α) : Refines a a := .inr rfl

theorem none (b : Option α) : Refines Option.none b := .inl rfl

theorem some {a b : Option α} (h : Refines a b) {v : α} (hv : a = Option.some v) : b = Option.some v := by
  rcases h with h | h
  · rw [h] at hv; cases hv
  · rw [← h, hv]

theorem map {a b : Option α} (h : Refines a b) (f : α → β) : Refines (a.map f) (b.map f) := by
  rcases h with h | h <;> subst h
  · exact .none _
  · exact .refl _

theorem ite {c : Prop} [Decidable c] {a b a' b' : Option α} (h1 : Refines a a') (h2 : Refines b b') :
    Refines (if c then a else b) (if c then a' else b') := by
  by_cases hc : c
  · rwa [if_pos hc, if_pos hc]
  · rwa [if_neg hc, if_neg hc]

theorem collect {f g : α → Option (List β)} (h : ∀ x, Refines (f x) (g x)) :
    ∀ l : List α, Refines (Verif.collect l f) (Verif.collect l g) := by
  intro l
  induction l with
  | nil => exact .refl _
  | cons x l ih =>
    simp only [Verif.collect]
    rcases h x with hx | hx
    · rw [hx]; exact .none _
    · rw [hx]
      rcases ih with hl | hl
      · rw [hl]; cases g x <;> exact .none _
      · rw [hl]; exact .refl _

end Refines

theorem ckSub_refines (a b : Int64) : Refines (ckSub a b) (some (a - b)) := by
  unfold ckSub; split
  · exact .refl _
  · exact .none _

theorem ckAdd_refines (a b : Int64) : Refines (ckAdd a b) (some (a + b)) := by
  unfold ckAdd; split
  · exact .refl _
  · exact .none _

theorem Snapshot.getGo_refines (s : Snapshot) : ∀ fuel side row col index m,
    Refines (s.getGoC fuel side row col index m) (s.getGo fuel side row col index m) := by
  intro fuel
  induction fuel with
  | zero => intros; exact .refl _
  | succ fuel ih =>
    intro side row col index m
    simp only [Snapshot.getGoC, Snapshot.getGo]
    refine .ite (.refl _) (.ite (.refl _) ?_)
    cases s.nodemap.rank index with
    | none => exact .refl _
    | some r =>
      simp only
      cases s.max.get (1 + r * s.k * s.k + row / (side / s.k) * s.k + col / (side / s.k)) with
      | none => exact .refl _
      | some d =>
        simp only
        rcases ckSub_refines m d with h | h
        · rw [h]; exact .none _
        rw [h]
        rcases isLeafGe s.nodemap (1 + r * s.k * s.k + row / (side / s.k) * s.k + col / (side / s.k)) with _ | _ | _
        · exact .refl _
        · exact ih _ _ _ _ _
        · exact .refl _

theorem Snapshot.fillGo_refines (s : Snapshot) (wt wl : Nat) : ∀ fuel side top bottom left right index m tO lO,
    Refines (s.fillGoC wt wl fuel side top bottom left right index m tO lO)
      (s.fillGo wt wl fuel side top bottom left right index m tO lO) := by
  intro fuel
  induction fuel with
  | zero => intros; exact .refl _
  | succ fuel ih =>
    intro side top bottom left right index m tO lO
    simp only [Snapshot.fillGoC, Snapshot.fillGo]
    refine .ite (.refl _) (.ite (.refl _) ?_)
    cases s.nodemap.rank index with
    | none => exact .refl _
    | some r =>
      simp only
      refine .collect (fun i => ?_) _
      cases csub bottom (i * (side / s.k)) with
      | none => exact .refl _
      | some b =>
        refine .collect (fun j => ?_) _
        cases csub right (j * (side / s.k)) with
        | none => exact .refl _
        | some b' =>
          simp only
          cases s.max.get (1 + r * s.k * s.k + i * s.k + j) with
          | none => exact .refl _
          | some d =>
            simp only
            rcases ckSub_refines m d with h | h
            · rw [h]; exact .none _
            rw [h]
            rcases isLeafGe s.nodemap (1 + r * s.k * s.k + i * s.k + j) with _ | _ | _
            · exact .refl _
            · exact ih _ _ _ _ _ _ _ _ _
            · exact .refl _

theorem Snapshot.searchGo_refines (s : Snapshot) (lo up : Int64) : ∀ fuel side top bottom left right index mn mx tO lO,
    Refines (s.searchGoC lo up fuel side top bottom left right index mn mx tO lO)
      (s.searchGo lo up fuel side top bottom left right index mn mx tO lO) := by
  intro fuel
  induction fuel with
  | zero => intros; exact .refl _
  | succ fuel ih =>
    intro side top bottom left right index mn mx tO lO
    simp only [Snapshot.searchGoC, Snapshot.searchGo]
    refine .ite (.refl _) (.ite (.refl _) ?_)
    cases s.nodemap.rank index with
    | none => exact .refl _
    | some r =>
      simp only
      refine .collect (fun i => ?_) _
      cases csub bottom (i * (side / s.k)) with
      | none => exact .refl _
      | some b =>
        refine .collect (fun j => ?_) _
        cases csub right (j * (side / s.k)) with
        | none => exact .refl _
        | some b' =>
          simp only
          cases s.max.get (1 + r * s.k * s.k + i * s.k + j) with
          | none => exact .refl _
          | some d =>
            simp only
            rcases ckSub_refines mx d with h | h
            · rw [h]; exact .none _
            rw [h]
            simp only
            cases isLeafGe s.nodemap (1 + r * s.k * s.k + i * s.k + j) with
            | none => exact .refl _
            | some leaf =>
              cases leaf with
              | true => exact .refl _
              | false =>
                simp only
                cases s.nodemap.rank (1 + r * s.k * s.k + i * s.k + j) with
                | none => exact .refl _
                | some r' =>
                  simp only
                  cases s.min.get r' with
                  | none => exact .refl _
                  | some dmin =>
                    simp only
                    rcases ckAdd_refines mn dmin with h | h
                    · rw [h]; exact .none _
                    rw [h]
                    exact .ite (.refl _) (.ite (ih _ _ _ _ _ _ _ _ _ _) (.refl _))

theorem Snapshot.get_refines (s : Snapshot) (row col : Nat) : Refines (s.getC row col) (s.get row col) := by
  unfold Snapshot.getC Snapshot.get
  rcases s.nodemap.get 0 with _ | _ | _
  · exact .refl _
  · exact .refl _
  · rcases s.max.get 0 with _ | m
    · exact .refl _
    · exact s.getGo_refines _ _ _ _ _ _

theorem Snapshot.fillWindow_refines (s : Snapshot) (w : Rect) : Refines (s.fillWindowC w) (s.fillWindow w) := by
  unfold Snapshot.fillWindowC Snapshot.fillWindow
  rcases w.rows with _ | rows
  · exact .refl _
  rcases w.cols with _ | cols
  · exact .refl _
  rcases s.nodemap.get 0 with _ | _ | _
  · exact .refl _
  · exact .refl _
  simp only
  rcases csub w.bottom 1 with _ | bottom
  · exact .refl _
  rcases csub w.right 1 with _ | right
  · exact .refl _
  rcases s.max.get 0 with _ | m
  · exact .refl _
  exact s.fillGo_refines _ _ _ _ _ _ _ _ _ _ _ _

theorem Snapshot.searchWindow_refines (s : Snapshot) (w : Rect) (lo up : Int64) :
    Refines (s.searchWindowC w lo up) (s.searchWindow w lo up) := by
  unfold Snapshot.searchWindowC Snapshot.searchWindow
  rcases s.nodemap.get 0 with _ | _ | _
  · exact .refl _
  · exact .refl _
  simp only
  rcases csub w.bottom 1 with _ | bottom
  · exact .refl _
  rcases csub w.right 1 with _ | right
  · exact .refl _
  rcases s.min.get 0 with _ | m
  · exact .refl _
  rcases s.max.get 0 with _ | m
  · exact .refl _
  exact s.searchGo_refines _ _ _ _ _ _ _ _ _ _ _ _ _

theorem Snapshot.childMaxS_refines (s : Snapshot) (m : Int64) (i : Option Nat) :
    Refines (s.childMaxSC m i) (s.childMaxS m i) := by
  cases i with
  | none => exact .refl _
  | some i =>
    simp only [Snapshot.childMaxSC, Snapshot.childMaxS]
    cases s.max.get i with
    | none => exact .refl _
    | some d => exact ckSub_refines m d

theorem Snapshot.childMinS_refines (s : Snapshot) (m : Int64) (leaf : Bool) (i : Option Nat) :
    Refines (s.childMinSC m leaf i) (s.childMinS m leaf i) := by
  cases i with
  | none => exact .refl _
  | some i =>
    simp only [Snapshot.childMinSC, Snapshot.childMinS]
    refine .ite (.refl _) ?_
    cases s.nodemap.rank i with
    | none => exact .refl _
    | some r =>
      simp only
      cases s.min.get r with
      | none => exact .refl _
      | some d => exact ckAdd_refines m d

theorem Log.leafMinT_refines (l : Log) (minS maxS maxT : Int64) (i : Option Nat) :
    Refines (l.leafMinTC minS maxS maxT i) (l.leafMinT minS maxS maxT i) := by
  cases i with
  | none => exact .refl _
  | some i =>
    simp only [Log.leafMinTC, Log.leafMinT]
    refine .ite ?_ (.refl _)
    cases l.equalAt i with
    | none => exact .refl _
    | some b =>
      cases b with
      | true => exact .refl _
      | false =>
        simp only
        rcases ckAdd_refines maxS maxT with h | h
        · rw [h]; exact .none _
        · rw [h]; exact ckSub_refines _ _

theorem Log.getGo_refines (l : Log) (s : Snapshot) : ∀ fuel side row col iT iS mT mS,
    Refines (l.getGoC s fuel side row col iT iS mT mS) (l.getGo s fuel side row col iT iS mT mS) := by
  intro fuel
  induction fuel with
  | zero => intros; exact .refl _
  | succ fuel ih =>
    intro side row col iT iS mT mS
    simp only [Log.getGoC, Log.getGo]
    refine .ite (.refl _) (.ite (.refl _) ?_)
    rcases childBase s.nodemap l.k iS with _ | bS
    · exact .refl _
    rcases childBase l.nodemap l.k iT with _ | bT
    · exact .refl _
    simp only
    generalize (bS.map fun b => b + row / (side / l.k) * l.k + col / (side / l.k)) = jS
    generalize (bT.map fun b => b + row / (side / l.k) * l.k + col / (side / l.k)) = jT
    rcases s.childMaxS_refines mS jS with h | h <;> rw [h]
    · exact .none _
    rcases s.childMaxS mS jS with _ | mS'
    · exact .refl _
    rcases l.childMaxT mT jT with _ | mT'
    · exact .refl _
    rcases optLeaf isLeafGt l.nodemap jT with _ | leafT
    · exact .refl _
    rcases optLeaf isLeafGt s.nodemap jS with _ | leafS
    · exact .refl _
    refine .ite (ckAdd_refines _ _) (.ite (ih _ _ _ _ _ _ _) (.ite ?_ (ih _ _ _ _ _ _ _)))
    rcases jT with _ | index
    · exact ih _ _ _ _ _ _ _
    refine .ite ?_ (ih _ _ _ _ _ _ _)
    rcases l.equalAt index with _ | _ | _
    · exact .refl _
    · exact ckAdd_refines _ _
    · exact ih _ _ _ _ _ _ _

theorem Log.fillGo_refines (l : Log) (s : Snapshot) (wt wl : Nat) :
    ∀ fuel side top bottom left right iT iS mT mS tO lO,
    Refines (l.fillGoC s wt wl fuel side top bottom left right iT iS mT mS tO lO)
      (l.fillGo s wt wl fuel side top bottom left right iT iS mT mS tO lO) := by
  intro fuel
  induction fuel with
  | zero => intros; exact .refl _
  | succ fuel ih =>
    intro side top bottom left right iT iS mT mS tO lO
    simp only [Log.fillGoC, Log.fillGo]
    refine .ite (.refl _) (.ite (.refl _) ?_)
    rcases childBase l.nodemap l.k iT with _ | bT
    · exact .refl _
    rcases childBase s.nodemap l.k iS with _ | bS
    · exact .refl _
    refine .collect (fun i => ?_) _
    rcases csub bottom (i * (side / l.k)) with _ | b
    · exact .refl _
    refine .collect (fun j => ?_) _
    rcases csub right (j * (side / l.k)) with _ | b'
    · exact .refl _
    simp only
    generalize (bS.map fun b => b + i * l.k + j) = jS
    generalize (bT.map fun b => b + i * l.k + j) = jT
    rcases l.childMaxT mT jT with _ | mT'
    · exact .refl _
    rcases optLeaf isLeafGt l.nodemap jT with _ | leafT
    · exact .refl _
    rcases s.childMaxS_refines mS jS with h | h <;> rw [h]
    · exact .none _
    rcases s.childMaxS mS jS with _ | mS'
    · exact .refl _
    rcases optLeaf isLeafGt s.nodemap jS with _ | leafS
    · exact .refl _
    have leaf : ∀ t b l r tO lO, Refines (match ckAdd mT' mS' with
        | none => none
        | some value => emitLeaf t b l r tO lO wt wl value) (emitLeaf t b l r tO lO wt wl (mT' + mS')) := by
      intros
      rcases ckAdd_refines mT' mS' with h | h <;> rw [h]
      · exact .none _
      · exact .refl _
    refine .ite (leaf _ _ _ _ _ _) (.ite (ih _ _ _ _ _ _ _ _ _ _ _) (.ite ?_ (ih _ _ _ _ _ _ _ _ _ _ _)))
    rcases jT with _ | index
    · exact ih _ _ _ _ _ _ _ _ _ _ _
    simp only
    rcases l.nodemap.get index with _ | _ | _
    · exact .refl _
    · simp only
      rcases l.equalAt index with _ | _ | _
      · exact .refl _
      · exact leaf _ _ _ _ _ _
      · exact ih _ _ _ _ _ _ _ _ _ _ _
    · exact ih _ _ _ _ _ _ _ _ _ _ _

theorem Log.searchGo_refines (l : Log) (s : Snapshot) (lo up : Int64) :
    ∀ fuel side top bottom left right iT iS nT nS mT mS tO lO,
    Refines (l.searchGoC s lo up fuel side top bottom left right iT iS nT nS mT mS tO lO)
      (l.searchGo s lo up fuel side top bottom left right iT iS nT nS mT mS tO lO) := by
  intro fuel
  induction fuel with
  | zero => intros; exact .refl _
  | succ fuel ih =>
    intro side top bottom left right iT iS nT nS mT mS tO lO
    simp only [Log.searchGoC, Log.searchGo]
    rcases ckAdd_refines mS mT with h | h <;> rw [h]
    · exact .none _
    rcases ckAdd_refines nS nT with h | h <;> rw [h]
    · exact .none _
    refine .ite (.refl _) (.ite (.refl _) (.ite (.refl _) (.ite (.refl _) ?_)))
    rcases childBase l.nodemap l.k iT with _ | bT
    · exact .refl _
    rcases childBase s.nodemap l.k iS with _ | bS
    · exact .refl _
    refine .collect (fun i => ?_) _
    rcases csub bottom (i * (side / l.k)) with _ | b
    · exact .refl _
    refine .collect (fun j => ?_) _
    rcases csub right (j * (side / l.k)) with _ | b'
    · exact .refl _
    simp only
    generalize (bS.map fun b => b + i * l.k + j) = jS
    generalize (bT.map fun b => b + i * l.k + j) = jT
    rcases l.childMaxT mT jT with _ | mT'
    · exact .refl _
    rcases s.childMaxS_refines mS jS with h | h <;> rw [h]
    · exact .none _
    rcases s.childMaxS mS jS with _ | mS'
    · exact .refl _
    rcases optLeaf isLeafGe l.nodemap jT with _ | leafT
    · exact .refl _
    rcases optLeaf isLeafGe s.nodemap jS with _ | leafS
    · exact .refl _
    simp only
    rcases l.childMinT nT leafT jT with _ | nT'
    · exact .refl _
    rcases s.childMinS_refines nS leafS jS with h | h <;> rw [h]
    · exact .none _
    rcases s.childMinS nS leafS jS with _ | nS'
    · exact .refl _
    simp only
    have hm : Refines (if leafT = true then l.leafMinTC (if leafS = true then mS' else nS') mS' mT' jT else some nT')
        (if leafT = true then l.leafMinT (if leafS = true then mS' else nS') mS' mT' jT else some nT') :=
      .ite (l.leafMinT_refines _ _ _ _) (.refl _)
    rcases hm with h | h <;> rw [h]
    · exact .none _
    rcases (if leafT = true then l.leafMinT (if leafS = true then mS' else nS') mS' mT' jT else some nT') with _ | v
    · exact .refl _
    exact ih _ _ _ _ _ _ _ _ _ _ _ _ _

theorem Log.get_refines (l : Log) (s : Snapshot) (row col : Nat) : Refines (l.getC s row col) (l.get s row col) := by
  unfold Log.getC Log.get
  rcases l.max.get 0 with _ | mT
  · exact .refl _
  rcases s.max.get 0 with _ | mS
  · exact .refl _
  rcases l.nodemap.get 0 with _ | bT
  · exact .refl _
  rcases s.nodemap.get 0 with _ | bS
  · exact .refl _
  refine .ite (ckAdd_refines _ _) (.ite ?_ (l.getGo_refines s _ _ _ _ _ _ _ _))
  rcases l.equal.get 0 with _ | _ | _
  · exact .refl _
  · exact ckAdd_refines _ _
  · exact l.getGo_refines s _ _ _ _ _ _ _ _

theorem Log.fillWindow_refines (l : Log) (s : Snapshot) (w : Rect) :
    Refines (l.fillWindowC s w) (l.fillWindow s w) := by
  unfold Log.fillWindowC Log.fillWindow
  rcases l.nodemap.get 0 with _ | bT
  · exact .refl _
  rcases s.nodemap.get 0 with _ | bS
  · exact .refl _
  simp only
  rcases (if (!bT) = true then (if (!bS) = true then some true else (l.equal.get 0).map (!·)) else some false)
    with _ | _ | _
  · exact .refl _
  · simp only
    rcases csub w.bottom 1 with _ | bottom
    · exact .refl _
    rcases csub w.right 1 with _ | right
    · exact .refl _
    rcases l.max.get 0 with _ | mT
    · exact .refl _
    rcases s.max.get 0 with _ | mS
    · exact .refl _
    exact l.fillGo_refines s _ _ _ _ _ _ _ _ _ _ _ _ _ _
  · simp only
    rcases l.max.get 0 with _ | mT
    · exact .refl _
    rcases s.max.get 0 with _ | mS
    · exact .refl _
    rcases w.rows with _ | rows
    · exact .refl _
    rcases w.cols with _ | cols
    · exact .refl _
    exact (ckAdd_refines mT mS).map _

theorem Log.searchWindow_refines (l : Log) (s : Snapshot) (w : Rect) (lo up : Int64) :
    Refines (l.searchWindowC s w lo up) (l.searchWindow s w lo up) := by
  unfold Log.searchWindowC Log.searchWindow
  rcases l.nodemap.get 0 with _ | bT
  · exact .refl _
  rcases s.nodemap.get 0 with _ | bS
  · exact .refl _
  rcases csub w.bottom 1 with _ | bottom
  · exact .refl _
  rcases csub w.right 1 with _ | right
  · exact .refl _
  simp only
  rcases l.min.get 0 with _ | nT
  · exact .refl _
  rcases s.min.get 0 with _ | nS
  · exact .refl _
  rcases l.max.get 0 with _ | mT
  · exact .refl _
  rcases s.max.get 0 with _ | mS
  · exact .refl _
  exact l.searchGo_refines s _ _ _ _ _ _ _ _ _ _ _ _ _ _ _ _

theorem Block.get_refines (b : Block) (i row col : Nat) : Refines (b.getC i row col) (b.get i row col) := by
  cases i with
  | zero => exact b.snapshot.get_refines row col
  | succ i =>
    simp only [Block.getC, Block.get]
    rcases b.logs[i]? with _ | l
    · exact .refl _
    · exact l.get_refines _ _ _

theorem Block.fillWindow_refines (b : Block) (i : Nat) (w : Rect) :
    Refines (b.fillWindowC i w) (b.fillWindow i w) := by
  cases i with
  | zero => exact b.snapshot.fillWindow_refines w
  | succ i =>
    simp only [Block.fillWindowC, Block.fillWindow]
    rcases b.logs[i]? with _ | l
    · exact .refl _
    · exact l.fillWindow_refines _ _

theorem Block.searchWindow_refines (b : Block) (i : Nat) (w : Rect) (lo up : Int64) :
    Refines (b.searchWindowC i w lo up) (b.searchWindow i w lo up) := by
  cases i with
  | zero => exact b.snapshot.searchWindow_refines w lo up
  | succ i =>
    simp only [Block.searchWindowC, Block.searchWindow]
    rcases b.logs[i]? with _ | l
    · exact .refl _
    · exact l.searchWindow_refines _ _ _ _

theorem Chunk.get_refines (c : Chunk) (t row col : Nat) : Refines (c.getC t row col) (c.get t row col) := by
  unfold Chunk.getC Chunk.get
  rcases c.findBlock t with _ | ⟨i, t'⟩
  · exact .refl _
  simp only
  rcases c.blocks[i]? with _ | b
  · exact .refl _
  · exact b.get_refines _ _ _

theorem Chunk.fillCell_refines (c : Chunk) (start fin row col : Nat) :
    Refines (c.fillCellC start fin row col) (c.fillCell start fin row col) := by
  unfold Chunk.fillCellC Chunk.fillCell
  rcases c.iterList start fin with _ | L
  · exact .refl _
  refine .collect (fun p => ?_) _
  rcases c.blocks[p.1.1]? with _ | b
  · exact .refl _
  · exact (b.get_refines _ _ _).map _

theorem Chunk.fillWindow_refines (c : Chunk) (w : Cube) : Refines (c.fillWindowC w) (c.fillWindow w) := by
  unfold Chunk.fillWindowC Chunk.fillWindow
  rcases c.iterList w.start w.fin with _ | L
  · exact .refl _
  refine .collect (fun p => ?_) _
  rcases c.blocks[p.1.1]? with _ | b
  · exact .refl _
  · exact (b.fillWindow_refines _ _).map _

theorem SearchIter.nextResults_refines (c : Chunk) (it : SearchIter) :
    Refines (it.nextResultsC c) (it.nextResults c) := by
  unfold SearchIter.nextResultsC SearchIter.nextResults
  rcases it.iter.next c with _ | _ | ⟨⟨i, t⟩, iter⟩
  · exact .refl _
  · exact .refl _
  simp only
  rcases c.blocks[i]? with _ | b
  · exact .refl _
  simp only
  rcases b.searchWindow_refines t it.bounds it.lower it.upper with h | h <;> rw [h]
  · exact .none _
  · exact .refl _

theorem Chunk.iterSearch_refines (c : Chunk) (w : Cube) (lo up : Int64) :
    Refines (c.iterSearchC w lo up) (c.iterSearch w lo up) := by
  unfold Chunk.iterSearchC Chunk.iterSearch
  rcases c.iter w.start w.fin with _ | it
  · exact .refl _
  · exact SearchIter.nextResults_refines c _

theorem SearchIter.skip_refines (c : Chunk) : ∀ fuel (it : SearchIter),
    Refines (it.skipC c fuel) (it.skip c fuel) := by
  intro fuel
  induction fuel with
  | zero => intros; exact .refl _
  | succ fuel ih =>
    intro it
    simp only [SearchIter.skipC, SearchIter.skip]
    rcases it.nextResults_refines c with h | h <;> rw [h]
    · exact .none _
    rcases it.nextResults c with _ | it'
    · exact .refl _
    simp only
    rcases it'.results with _ | _ | ⟨x, xs⟩
    · exact .refl _
    · exact ih _
    · exact .refl _

theorem SearchIter.next_refines (c : Chunk) (it : SearchIter) : Refines (it.nextC c) (it.next c) := by
  unfold SearchIter.nextC SearchIter.next
  rcases it.results with _ | _ | ⟨x, xs⟩
  · exact .refl _
  · simp only
    rcases it.skip_refines c (it.iter.remaining + 1) with h | h <;> rw [h]
    · exact .none _
    · exact .refl _
  · exact .refl _

theorem SearchIter.toList_refines (c : Chunk) : ∀ fuel (it : SearchIter),
    Refines (it.toListC c fuel) (it.toList c fuel) := by
  intro fuel
  induction fuel with
  | zero => intros; exact .refl _
  | succ fuel ih =>
    intro it
    simp only [SearchIter.toListC, SearchIter.toList]
    rcases it.next_refines c with h | h <;> rw [h]
    · exact .none _
    rcases it.next c with _ | ⟨_ | x, it'⟩
    · exact .refl _
    · exact .refl _
    · exact (ih _).map _

end Verif
