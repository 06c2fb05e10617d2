import Verif.Lemmas.LooksSearch
import Verif.Lemmas.BuildCongr

/-! What the reading of a window and of the series of a cell looks at. -/
namespace Verif
open Spec (LooksAt)

theorem boxSum_const (top bottom left right q : Nat) :
    boxSum top bottom left right (fun _ _ => q) = q * ((bottom + 1 - top) * (right + 1 - left)) := by
  unfold boxSum
  simp only [Finset.sum_const, Nat.card_Icc, nsmul_eq_mul, Nat.cast_id]
  rw [← Nat.mul_assoc, Nat.mul_comm]

/-- The double loop over the children that meet a window, where a child costs as much as it has cells of the window. -/
theorem looks_cells {S β : Type} {look : S → Place → Option Nat} {s : S} {k sl top bottom left right : Nat}
    (hs : 0 < sl) (h1 : top ≤ bottom) (h2 : left ≤ right) (hb : bottom < k * sl) (hr : right < k * sl)
    (f : S → Nat → Nat → Nat → Nat → Option (List β)) (q : Nat)
    (h : ∀ i j, ChildSpan k sl top bottom i → ChildSpan k sl left right j →
      LooksAt look (fun x => f x i j (bottom - i * sl) (right - j * sl)) s
        (q * ((Nat.min (sl - 1) (bottom - i * sl) + 1 - (top - i * sl)) *
          (Nat.min (sl - 1) (right - j * sl) + 1 - (left - j * sl))))) :
    LooksAt look (fun x => collect (rangeIncl (top / sl) (bottom / sl)) fun i =>
        match csub bottom (i * sl) with
        | none => none
        | some b => collect (rangeIncl (left / sl) (right / sl)) fun j =>
          match csub right (j * sl) with
          | none => none
          | some r => f x i j b r) s (q * ((bottom + 1 - top) * (right + 1 - left))) := by
  refine (looks_collect _ _ (fun i => ((rangeIncl (left / sl) (right / sl)).map fun j =>
    q * ((Nat.min (sl - 1) (bottom - i * sl) + 1 - (top - i * sl)) *
          (Nat.min (sl - 1) (right - j * sl) + 1 - (left - j * sl)))).sum)
    fun i hi => ?_).mono (Nat.le_of_eq ?_)
  · rw [mem_rangeIncl] at hi
    have si := childSpan (k := k) hs h1 hb hi.1 hi.2
    simp only [csub_of_le si.le]
    refine looks_collect _ _ _ fun j hj => ?_
    rw [mem_rangeIncl] at hj
    have sj := childSpan (k := k) hs h2 hr hj.1 hj.2
    simp only [csub_of_le sj.le]
    exact h i j si sj
  · rw [sum_rangeIncl]
    simp only [sum_rangeIncl]
    rw [← boxSum_const, boxSum_split _ sl top bottom left right hs h1 h2]
    simp only [boxSum_const]

theorem cells_pos {k sl top bottom left right i j : Nat} (si : ChildSpan k sl top bottom i)
    (sj : ChildSpan k sl left right j) :
    1 ≤ (Nat.min (sl - 1) (bottom - i * sl) + 1 - (top - i * sl)) *
      (Nat.min (sl - 1) (right - j * sl) + 1 - (left - j * sl)) := by
  have h1 := si.ne
  have h2 := sj.ne
  exact Nat.mul_pos (by omega) (by omega)

/-! ### Snapshots -/

theorem Snapshot.looks_fillGo {s : Snapshot} (hs : s.Small) (hk : 2 ≤ s.k) (wt wl : Nat) (h : Nat) :
    ∀ fuel top bottom left right index (m : Int64) tO lO, top ≤ bottom → left ≤ right →
      bottom < s.k ^ h → right < s.k ^ h →
      LooksAt Snapshot.look (fun s' => s'.fillGo wt wl fuel (s.k ^ h) top bottom left right index m tO lO) s
        (10 + 109 * h * ((bottom + 1 - top) * (right + 1 - left))) := by
  induction h with
  | zero =>
    intro fuel top bottom left right index m tO lO h1 h2 h3 h4
    cases fuel with
    | zero => exact .const _
    | succ fuel =>
      refine LooksAt.mono (n := 1) (.place [3] fun s' hs' => ?_) (by omega)
      have e1 : s'.k = s.k := by simpa [Snapshot.look] using hs'
      simp only [Snapshot.fillGo, e1]
      have : s.k ^ 0 / s.k = 0 := by rw [Nat.pow_zero]; exact Nat.div_eq_of_lt (by omega)
      rw [if_pos this, if_pos this]
  | succ h ih =>
    intro fuel top bottom left right index m tO lO h1 h2 h3 h4
    cases fuel with
    | zero => exact .const _
    | succ fuel =>
    have hpos : 0 < s.k ^ h := Nat.pow_pos (by omega)
    have hpow : s.k ^ (h + 1) = s.k * s.k ^ h := by rw [Nat.pow_succ, Nat.mul_comm]
    have hdiv : s.k ^ (h + 1) / s.k = s.k ^ h := by rw [hpow, Nat.mul_div_cancel_left _ (by omega)]
    rw [hpow] at h3 h4
    obtain ⟨p1, a1, b1⟩ := Snapshot.looks_rank hs index
    simp only at b1
    cases hr : s.nodemap.rank index with
    | none =>
      refine LooksAt.mono (n := 10) ⟨[3] :: p1, by simp; omega, fun s' hs' => ?_⟩ (by omega)
      have e1 : s'.k = s.k := by simpa [Snapshot.look] using hs' [3] (by simp)
      have e2 := b1 s' fun p hp => hs' p (by simp [hp])
      simp only [Snapshot.fillGo, e1, e2, hr]
    | some r =>
    have loop := looks_cells (look := Snapshot.look) (s := s) (k := s.k) hpos h1 h2 h3 h4
      (fun s' i j b r' =>
          match s'.max.get (1 + r * s.k * s.k + i * s.k + j) with
          | none => none
          | some d =>
            match isLeafGe s'.nodemap (1 + r * s.k * s.k + i * s.k + j) with
            | none => none
            | some true =>
              emitLeaf (top - i * s.k ^ h) (Nat.min (s.k ^ h - 1) b) (left - j * s.k ^ h)
                (Nat.min (s.k ^ h - 1) r') (tO + i * s.k ^ h) (lO + j * s.k ^ h) wt wl (m - d)
            | some false =>
              Snapshot.fillGo s' wt wl fuel (s.k ^ h) (top - i * s.k ^ h) (Nat.min (s.k ^ h - 1) b)
                (left - j * s.k ^ h) (Nat.min (s.k ^ h - 1) r') (1 + r * s.k * s.k + i * s.k + j) (m - d)
                (tO + i * s.k ^ h) (lO + j * s.k ^ h)) (109 * (h + 1)) (fun i j si sj => by
        have hc := cells_pos si sj
        obtain ⟨p2, a2, b2⟩ := Snapshot.looks_max hs (1 + r * s.k * s.k + i * s.k + j)
        obtain ⟨p3, a3, b3⟩ := Snapshot.looks_leafGe (s := s) (1 + r * s.k * s.k + i * s.k + j)
        obtain ⟨p4, a4, b4⟩ := ih fuel (top - i * s.k ^ h) (Nat.min (s.k ^ h - 1) (bottom - i * s.k ^ h))
          (left - j * s.k ^ h) (Nat.min (s.k ^ h - 1) (right - j * s.k ^ h)) (1 + r * s.k * s.k + i * s.k + j)
          (m - (s.max.get (1 + r * s.k * s.k + i * s.k + j)).getD 0) (tO + i * s.k ^ h) (lO + j * s.k ^ h)
          si.ne sj.ne si.bound sj.bound
        simp only at b2 b3 b4
        refine ⟨p2 ++ (p3 ++ p4), ?_, fun s' hs' => ?_⟩
        · simp only [List.length_append]
          rw [Nat.mul_add, Nat.add_mul, Nat.mul_one]
          generalize 109 * h * _ = U at *
          omega
        · have e2 := b2 s' fun p hp => hs' p (by simp [hp])
          have e3 := b3 s' fun p hp => hs' p (by simp [hp])
          have e4 := b4 s' fun p hp => hs' p (by simp [hp])
          beta_reduce
          rw [e2, e3]
          cases hd : s.max.get (1 + r * s.k * s.k + i * s.k + j) with
          | none => rfl
          | some d =>
            rw [hd] at e4
            simp only [Option.getD_some] at e4
            simp only [e4])
    obtain ⟨p5, a5, b5⟩ := loop
    simp only at b5
    refine ⟨[3] :: (p1 ++ p5), by simp only [List.length_cons, List.length_append]; omega, fun s' hs' => ?_⟩
    have e1 : s'.k = s.k := by simpa [Snapshot.look] using hs' [3] (by simp)
    have e2 := b1 s' fun p hp => hs' p (by simp [hp])
    have e5 := b5 s' fun p hp => hs' p (by simp [hp])
    simp only [Snapshot.fillGo, e1, e2, hr, hdiv]
    rw [if_neg (by omega), if_neg (by omega), if_neg (by omega), if_neg (by omega)]
    exact e5

/-- The cells of a window. -/
def Spec.area (w : Rect) : Nat := (w.bottom - w.top) * (w.right - w.left)

theorem Snapshot.looks_fill {s : Snapshot} (hs : s.Small) (hk : 2 ≤ s.k) {e : Nat} (hside : s.sidelen = s.k ^ e)
    (w : Rect) (h1 : w.top < w.bottom) (h2 : w.left < w.right) (h3 : w.bottom ≤ s.k ^ e) (h4 : w.right ≤ s.k ^ e) :
    LooksAt Snapshot.look (fun s => s.fillWindow w) s (109 + 109 * e * Spec.area w) := by
  obtain ⟨p1, a1, b1⟩ : LooksAt Snapshot.look (fun s => s.nodemap.get 0) s 1 :=
    .part [0] (t := Snapshot.nodemap) (fun _ _ => rfl) (BitMap.looks_get 0)
  obtain ⟨p2, a2, b2⟩ := Snapshot.looks_max hs 0
  obtain ⟨p3, a3, b3⟩ := Snapshot.looks_fillGo hs hk w.top w.left e s.sidelen w.top (w.bottom - 1) w.left (w.right - 1)
    0 ((s.max.get 0).getD 0) 0 0 (by omega) (by omega) (by omega) (by omega)
  simp only at b1 b2 b3
  rw [show w.bottom - 1 + 1 = w.bottom by omega, show w.right - 1 + 1 = w.right by omega] at a3
  refine ⟨[6] :: (p1 ++ (p2 ++ p3)), ?_, fun s' hs' => ?_⟩
  · simp only [List.length_cons, List.length_append, Spec.area]; omega
  have e1 : s'.sidelen = s.sidelen := by simpa [Snapshot.look] using hs' [6] (by simp)
  have e2 := b1 s' fun p hp => hs' p (by simp [hp])
  have e3 := b2 s' fun p hp => hs' p (by simp [hp])
  have e4 := b3 s' fun p hp => hs' p (by simp [hp])
  simp only [Snapshot.fillWindow, e1, e2, e3, csub_of_le (show 1 ≤ w.bottom by omega),
    csub_of_le (show 1 ≤ w.right by omega)]
  rw [← hside] at e4
  cases hd : s.max.get 0 with
  | none => rfl
  | some d =>
    rw [hd] at e4
    simp only [Option.getD_some] at e4
    simp only [e4]

/-! ### Logs -/

namespace Log
variable {l : Log} {s : Snapshot}

theorem looks_fillGo (hl : l.Small) (hs : s.Small) (hk : 2 ≤ l.k) (wt wl : Nat) (h : Nat) :
    ∀ fuel top bottom left right (indexT indexS : Option Nat) (maxT maxS : Int64) tO lO, top ≤ bottom → left ≤ right →
      bottom < l.k ^ h → right < l.k ^ h →
      LooksAt lookPair (fun x => x.1.fillGo x.2 wt wl fuel (l.k ^ h) top bottom left right indexT indexS maxT maxS
        tO lO) (l, s) (19 + 228 * h * ((bottom + 1 - top) * (right + 1 - left))) := by
  induction h with
  | zero =>
    intro fuel top bottom left right indexT indexS maxT maxS tO lO h1 h2 h3 h4
    cases fuel with
    | zero => exact .const _
    | succ fuel =>
      obtain ⟨p1, a1, b1⟩ := looks_k (l := l) (s := s)
      simp only at b1
      refine LooksAt.mono (n := 1) ⟨p1, a1, fun x hx => ?_⟩ (by omega)
      have : l.k ^ 0 / l.k = 0 := by rw [Nat.pow_zero]; exact Nat.div_eq_of_lt (by omega)
      simp only [Log.fillGo, b1 x hx]
      rw [if_pos this, if_pos this]
  | succ h ih =>
    intro fuel top bottom left right indexT indexS maxT maxS tO lO h1 h2 h3 h4
    cases fuel with
    | zero => exact .const _
    | succ fuel =>
    have hpos : 0 < l.k ^ h := Nat.pow_pos (by omega)
    have hpow : l.k ^ (h + 1) = l.k * l.k ^ h := by rw [Nat.pow_succ, Nat.mul_comm]
    have hdiv : l.k ^ (h + 1) / l.k = l.k ^ h := by rw [hpow, Nat.mul_div_cancel_left _ (by omega)]
    rw [hpow] at h3 h4
    obtain ⟨p1, a1, b1⟩ := looks_k (l := l) (s := s)
    obtain ⟨p2, a2, b2⟩ := looks_baseS (l := l) hs l.k indexS
    obtain ⟨p3, a3, b3⟩ := looks_baseT (s := s) hl l.k indexT
    simp only at b1 b2 b3
    cases c1 : childBase l.nodemap l.k indexT with
    | none =>
      refine LooksAt.mono (n := 19) ⟨p1 ++ (p2 ++ p3), by simp; omega, fun x hx => ?_⟩ (by omega)
      simp only [List.mem_append, or_imp, forall_and] at hx
      simp only [Log.fillGo, b1 x hx.1, b2 x hx.2.1, b3 x hx.2.2, c1]
    | some baseT =>
    cases c2 : childBase s.nodemap l.k indexS with
    | none =>
      refine LooksAt.mono (n := 19) ⟨p1 ++ (p2 ++ p3), by simp; omega, fun x hx => ?_⟩ (by omega)
      simp only [List.mem_append, or_imp, forall_and] at hx
      simp only [Log.fillGo, b1 x hx.1, b2 x hx.2.1, b3 x hx.2.2, c1, c2]
    | some baseS =>
    have loop := looks_cells (look := lookPair) (s := (l, s)) (k := l.k) hpos h1 h2 h3 h4
      (fun x i j b r' =>
          match x.1.childMaxT maxT (baseT.map fun b => b + i * l.k + j),
              optLeaf isLeafGt x.1.nodemap (baseT.map fun b => b + i * l.k + j),
              x.2.childMaxS maxS (baseS.map fun b => b + i * l.k + j),
              optLeaf isLeafGt x.2.nodemap (baseS.map fun b => b + i * l.k + j) with
          | some maxT', some leafT, some maxS', some leafS =>
            if leafT && leafS then emitLeaf (top - i * l.k ^ h) (Nat.min (l.k ^ h - 1) b) (left - j * l.k ^ h)
                (Nat.min (l.k ^ h - 1) r') (tO + i * l.k ^ h) (lO + j * l.k ^ h) wt wl (maxT' + maxS')
            else if leafS then
              Log.fillGo x.1 x.2 wt wl fuel (l.k ^ h) (top - i * l.k ^ h) (Nat.min (l.k ^ h - 1) b) (left - j * l.k ^ h)
                (Nat.min (l.k ^ h - 1) r') (baseT.map fun b => b + i * l.k + j) none
                maxT' maxS' (tO + i * l.k ^ h) (lO + j * l.k ^ h)
            else if leafT then
              match (baseT.map fun b => b + i * l.k + j) with
              | none => Log.fillGo x.1 x.2 wt wl fuel (l.k ^ h) (top - i * l.k ^ h) (Nat.min (l.k ^ h - 1) b)
                  (left - j * l.k ^ h) (Nat.min (l.k ^ h - 1) r') none (baseS.map fun b => b + i * l.k + j)
                  maxT' maxS' (tO + i * l.k ^ h) (lO + j * l.k ^ h)
              | some index =>
                match x.1.nodemap.get index with
                | none => none
                | some true => Log.fillGo x.1 x.2 wt wl fuel (l.k ^ h) (top - i * l.k ^ h) (Nat.min (l.k ^ h - 1) b)
                  (left - j * l.k ^ h) (Nat.min (l.k ^ h - 1) r') none (baseS.map fun b => b + i * l.k + j)
                  maxT' maxS' (tO + i * l.k ^ h) (lO + j * l.k ^ h)
                | some false =>
                  match x.1.equalAt index with
                  | none => none
                  | some false => emitLeaf (top - i * l.k ^ h) (Nat.min (l.k ^ h - 1) b) (left - j * l.k ^ h)
                      (Nat.min (l.k ^ h - 1) r') (tO + i * l.k ^ h) (lO + j * l.k ^ h) wt wl (maxT' + maxS')
                  | some true => Log.fillGo x.1 x.2 wt wl fuel (l.k ^ h) (top - i * l.k ^ h)
                      (Nat.min (l.k ^ h - 1) b) (left - j * l.k ^ h) (Nat.min (l.k ^ h - 1) r') none
                      (baseS.map fun b => b + i * l.k + j) maxT' maxS' (tO + i * l.k ^ h) (lO + j * l.k ^ h)
            else
              Log.fillGo x.1 x.2 wt wl fuel (l.k ^ h) (top - i * l.k ^ h) (Nat.min (l.k ^ h - 1) b) (left - j * l.k ^ h)
                (Nat.min (l.k ^ h - 1) r') (baseT.map fun b => b + i * l.k + j)
                (baseS.map fun b => b + i * l.k + j) maxT' maxS' (tO + i * l.k ^ h) (lO + j * l.k ^ h)
          | _, _, _, _ => none) (228 * (h + 1)) (fun i j si sj => by
        have hc := cells_pos si sj
        generalize (baseT.map fun b => b + i * l.k + j) = iT
        generalize (baseS.map fun b => b + i * l.k + j) = iS
        obtain ⟨p4, a4, b4⟩ := looks_maxS (l := l) hs maxS iS
        obtain ⟨p5, a5, b5⟩ := looks_maxT (s := s) hl maxT iT
        obtain ⟨p6, a6, b6⟩ := looks_leafT (l := l) (s := s) iT
        obtain ⟨p7, a7, b7⟩ := looks_leafS (l := l) (s := s) iS
        obtain ⟨p8, a8, b8⟩ : LooksAt lookPair (fun x => x.1.nodemap.get (iT.getD 0)) (l, s) 1 :=
          .part [0, 0] (t := fun x : Log × Snapshot => x.1.nodemap) (fun _ _ => rfl) (BitMap.looks_get _)
        obtain ⟨p9, a9, b9⟩ := looks_equalAt (s := s) hl (iT.getD 0)
        obtain ⟨p10, a10, b10⟩ := ih fuel (top - i * l.k ^ h) (Nat.min (l.k ^ h - 1) (bottom - i * l.k ^ h))
          (left - j * l.k ^ h) (Nat.min (l.k ^ h - 1) (right - j * l.k ^ h))
          (if optLeaf isLeafGt l.nodemap iT = some true then none else iT)
          (if optLeaf isLeafGt s.nodemap iS = some true then none else iS)
          ((l.childMaxT maxT iT).getD 0) ((s.childMaxS maxS iS).getD 0) (tO + i * l.k ^ h) (lO + j * l.k ^ h)
          si.ne sj.ne si.bound sj.bound
        simp only at b4 b5 b6 b7 b8 b9 b10
        refine ⟨p4 ++ (p5 ++ (p6 ++ (p7 ++ (p8 ++ (p9 ++ p10))))), ?_, fun x hx => ?_⟩
        · simp only [List.length_append]
          rw [Nat.mul_add, Nat.add_mul, Nat.mul_one]
          generalize 228 * h * _ = U at *
          omega
        simp only [List.mem_append, or_imp, forall_and] at hx
        obtain ⟨h4, h5, h6, h7, h8, h9, h10⟩ := hx
        have e4 := b4 x h4
        have e5 := b5 x h5
        have e6 := b6 x h6
        have e7 := b7 x h7
        have e8 := b8 x h8
        have e9 := b9 x h9
        have e10 := b10 x h10
        beta_reduce
        rw [e4, e5, e6, e7]
        cases c3 : s.childMaxS maxS iS with
        | none => simp
        | some mS =>
        cases c4 : l.childMaxT maxT iT with
        | none => rfl
        | some mT =>
        cases c5 : optLeaf isLeafGt l.nodemap iT with
        | none => rfl
        | some leafT =>
        cases c6 : optLeaf isLeafGt s.nodemap iS with
        | none => rfl
        | some leafS =>
        rw [c3, c4, c5, c6] at e10
        cases leafT <;> cases leafS
        · simpa using e10
        · simpa using e10
        · simp only [Option.getD_some, if_true, Option.some.injEq, Bool.false_eq_true, if_false] at e10
          cases c7 : iT with
          | none => simpa using e10
          | some index =>
            rw [c7] at e8 e9
            simp only [Option.getD_some] at e8 e9
            simp only [e8, e9, Bool.and_false, Bool.false_eq_true, if_false, if_true, e10]
        · simp)
    obtain ⟨p5, a5, b5⟩ := loop
    simp only at b5
    refine ⟨p1 ++ (p2 ++ (p3 ++ p5)), by simp only [List.length_append]; omega, fun x hx => ?_⟩
    simp only [List.mem_append, or_imp, forall_and] at hx
    have e5 := b5 x hx.2.2.2
    simp only [Log.fillGo, b1 x hx.1, b2 x hx.2.1, b3 x hx.2.2.1, c1, c2, hdiv]
    rw [if_neg (by omega), if_neg (by omega), if_neg (by omega), if_neg (by omega)]
    exact e5

theorem looks_fill (hl : l.Small) (hs : s.Small) (hk : 2 ≤ l.k) {e : Nat} (hside : l.sidelen = l.k ^ e)
    (w : Rect) (h1 : w.top < w.bottom) (h2 : w.left < w.right) (h3 : w.bottom ≤ l.k ^ e) (h4 : w.right ≤ l.k ^ e) :
    LooksAt lookPair (fun x => x.1.fillWindow x.2 w) (l, s) (217 + 228 * e * Spec.area w) := by
  obtain ⟨p1, a1, b1⟩ := looks_dacT (s := s) hl 0
  obtain ⟨p2, a2, b2⟩ := looks_dacS (l := l) hs 0
  obtain ⟨p3, a3, b3⟩ : LooksAt lookPair (fun x => x.1.nodemap.get 0) (l, s) 1 :=
    .part [0, 0] (t := fun x : Log × Snapshot => x.1.nodemap) (fun _ _ => rfl) (BitMap.looks_get 0)
  obtain ⟨p4, a4, b4⟩ : LooksAt lookPair (fun x => x.2.nodemap.get 0) (l, s) 1 :=
    .part [1, 0] (t := fun x : Log × Snapshot => x.2.nodemap) (fun _ _ => rfl) (BitMap.looks_get 0)
  obtain ⟨p5, a5, b5⟩ := looks_side (l := l) (s := s)
  obtain ⟨p6, a6, b6⟩ := looks_equal (l := l) (s := s) 0
  obtain ⟨p7, a7, b7⟩ := looks_fillGo hl hs hk w.top w.left e l.sidelen w.top (w.bottom - 1) w.left (w.right - 1)
    (if l.nodemap.get 0 = some false then none else some 0) (if s.nodemap.get 0 = some false then none else some 0)
    ((l.max.get 0).getD 0) ((s.max.get 0).getD 0) 0 0 (by omega) (by omega) (by omega) (by omega)
  simp only at b1 b2 b3 b4 b5 b6 b7
  rw [show w.bottom - 1 + 1 = w.bottom by omega, show w.right - 1 + 1 = w.right by omega] at a7
  refine ⟨p1 ++ (p2 ++ (p3 ++ (p4 ++ (p5 ++ (p6 ++ p7))))), ?_, fun x h => ?_⟩
  · simp only [List.length_append, Spec.area]
    omega
  simp only [List.mem_append, or_imp, forall_and] at h
  obtain ⟨h1', h2', h3', h4', h5', h6', h7'⟩ := h
  have e7 := b7 x h7'
  rw [← hside] at e7
  simp only [Log.fillWindow, b1 x h1', b2 x h2', b3 x h3', b4 x h4', b5 x h5', b6 x h6',
    csub_of_le (show 1 ≤ w.bottom by omega), csub_of_le (show 1 ≤ w.right by omega)]
  cases c3 : l.nodemap.get 0 with
  | none => rfl
  | some bT =>
  cases c4 : s.nodemap.get 0 with
  | none => rfl
  | some bS =>
  cases c1 : l.max.get 0 with
  | none => rfl
  | some mT =>
  cases c2 : s.max.get 0 with
  | none => rfl
  | some mS =>
  rw [c1, c2, c3, c4] at e7
  cases bT <;> cases bS <;> simp_all

end Log

/-! ### Blocks and chunks -/

theorem Block.looks_fill {b : Block} {k e : Nat} (hb : b.Small k e) (t : Nat) (w : Rect) (h1 : w.top < w.bottom)
    (h2 : w.left < w.right) (h3 : w.bottom ≤ k ^ e) (h4 : w.right ≤ k ^ e) :
    LooksAt Block.look (fun b => b.fillWindow t w) b (218 + 228 * e * Spec.area w) := by
  cases t with
  | zero =>
    have h := Snapshot.looks_fill hb.snapshot (by rw [hb.k_eq]; exact hb.arity) (e := e)
      (by rw [hb.side, hb.k_eq]) w h1 h2 (by rw [hb.k_eq]; exact h3) (by rw [hb.k_eq]; exact h4)
    refine (LooksAt.part (f := fun s : Snapshot => s.fillWindow w) [0] (t := Block.snapshot) (fun _ _ => rfl) h).mono ?_
    have : 109 * e * Spec.area w ≤ 228 * e * Spec.area w := Nat.mul_le_mul_right _ (by omega)
    omega
  | succ i =>
    cases hl : b.logs[i]? with
    | none =>
      refine (LooksAt.place (look := Block.look) [1, i] fun b' h => ?_).mono (by omega)
      have : b'.logs[i]? = none := by
        cases hl' : b'.logs[i]? with
        | none => rfl
        | some l' => simp [Block.look, hl, hl'] at h
      simp only [Block.fillWindow, hl, this]
    | some l =>
      obtain ⟨g1, g2, g3⟩ := hb.logs l (List.mem_of_getElem? hl)
      obtain ⟨ps, a1, b1⟩ := Log.looks_fill g1 hb.snapshot (by rw [g2]; exact hb.arity) (e := e)
        (by rw [g3, g2]) w h1 h2 (by rw [g2]; exact h3) (by rw [g2]; exact h4)
      refine ⟨[1, i] :: ps.map (fun p => match p with
        | 0 :: q => 1 :: i :: q
        | 1 :: q => 0 :: q
        | _ => []), by simp; omega, fun b' h => ?_⟩
      have h0 := h [1, i] (by simp)
      cases hl' : b'.logs[i]? with
      | none => simp [Block.look, hl, hl'] at h0
      | some l' =>
      simp only [Block.fillWindow, hl, hl']
      refine b1 (l', b'.snapshot) fun p hp => ?_
      have hq := h _ (List.mem_cons_of_mem _ (List.mem_map.2 ⟨p, hp, rfl⟩))
      rcases p with _ | ⟨_ | _ | n, q⟩
      · rfl
      · simp only [Block.look, hl, hl'] at hq
        simp only [lookPair]
        by_cases hq0 : q = []
        · subst hq0; rfl
        · rw [if_neg hq0, if_neg hq0] at hq
          exact hq
      · exact hq
      · rfl

theorem iter_toList_eq {bs : List Block} {enc : MMEncoding} {fb start fin : Nat} {c' : Chunk}
    (hfin : fin ≤ blocksLen bs)
    (hc : ∀ t i off b, start ≤ t → t < fin → Holds bs t i off → bs[i]? = some b →
      ∃ b', c'.blocks[i]? = some b' ∧ b'.logs.length = b.logs.length) :
    ∀ fuel n t i off, (n = 0 ∨ Holds bs t i off) → start ≤ t → t + n ≤ fin →
      ChunkIter.toList c' fuel ⟨i, off, n⟩ = ChunkIter.toList (Chunk.new bs enc fb) fuel ⟨i, off, n⟩ := by
  intro fuel
  induction fuel with
  | zero => intro n t i off _ _ _; rfl
  | succ fuel ih =>
    intro n t i off h1 h2 h3
    cases n with
    | zero => simp [ChunkIter.toList, ChunkIter.next]
    | succ n =>
      have hh : Holds bs t i off := by rcases h1 with h1 | h1; omega; exact h1
      have hlt := hh.lt
      have hb : bs[i]? = some bs[i] := List.getElem?_eq_getElem hlt
      obtain ⟨b', g1, g2⟩ := hc t i off _ h2 (by omega) hh hb
      have hn := fun hlt => hh.next hb hlt
      have hb' : (Chunk.new bs enc fb).blocks[i]? = some bs[i] := hb
      simp only [ChunkIter.toList, ChunkIter.next, Nat.add_one_ne_zero, if_false, hb', g1, g2, Nat.add_sub_cancel]
      have hor : ∀ i' off', (t + 1 < blocksLen bs → Holds bs (t + 1) i' off') → n = 0 ∨ Holds bs (t + 1) i' off' := by
        intro i' off' h
        rcases Nat.eq_zero_or_pos n with h0 | h0
        · exact .inl h0
        · exact .inr (h (by omega))
      by_cases hco : off = (bs[i]).logs.length
      · simp only [if_pos hco] at hn ⊢
        rw [ih n (t + 1) (i + 1) 0 (hor _ _ hn) (by omega) (by omega)]
      · simp only [if_neg hco] at hn ⊢
        rw [ih n (t + 1) i (off + 1) (hor _ _ hn) (by omega) (by omega)]

/-- A loop over the instants of a range. -/
theorem Chunk.looks_loop {β : Type} {bs : List Block} (enc : MMEncoding) (fb start fin n : Nat) (h1 : start < fin)
    (h2 : fin ≤ blocksLen bs) (f : Block → Nat → Nat → Option (List β))
    (hf : ∀ b ∈ bs, ∀ off x, LooksAt Block.look (fun b => f b off x) b n) :
    LooksAt Chunk.look (fun c : Chunk => match c.iterList start fin with
      | none => none
      | some L => collect L fun p =>
        match c.blocks[p.1.1]? with
        | none => none
        | some b => f b p.1.2 p.2) (Chunk.new bs enc fb)
      (2 * Nat.clog 2 bs.length + 3 + (fin - start) * (n + 2)) := by
  have each : ∀ t, ∃ P : List Place, start ≤ t → t < fin → P.length ≤ n + 2 ∧
      ∀ c' : Chunk, (∀ p ∈ P, c'.look p = (Chunk.new bs enc fb).look p) → ∀ i off b, Holds bs t i off →
        bs[i]? = some b → ∃ b', c'.blocks[i]? = some b' ∧ b'.logs.length = b.logs.length ∧
          f b' off (t - start) = f b off (t - start) := by
    intro t
    by_cases ht : start ≤ t ∧ t < fin
    · obtain ⟨i, off, hh⟩ := exists_holds bs t (by omega)
      have hlt := hh.lt
      have hb : bs[i]? = some bs[i] := List.getElem?_eq_getElem hlt
      obtain ⟨ps, a1, b1⟩ := hf bs[i] (List.getElem_mem _) off (t - start)
      refine ⟨[0, i] :: [0, i, 2] :: ps.map (fun p => 0 :: i :: p), fun _ _ => ⟨by simp; omega, ?_⟩⟩
      intro c' hp i' off' b hh' hb'
      obtain ⟨rfl, rfl⟩ := hh.unique hh'
      rw [hb] at hb'
      obtain rfl := Option.some.inj hb'
      have hbn : (Chunk.new bs enc fb).blocks[i]? = some bs[i] := hb
      have h0 := hp [0, i] (by simp)
      cases hc : c'.blocks[i]? with
      | none => simp [Chunk.look, hc, hbn] at h0
      | some b' =>
        refine ⟨b', rfl, ?_, ?_⟩
        · have := hp [0, i, 2] (by simp)
          simpa [Chunk.look, hc, hbn, Block.look] using this
        · refine b1 b' fun p hpp => ?_
          have hq := hp (0 :: i :: p) (by
            simp only [List.mem_cons, List.mem_map]
            exact Or.inr (Or.inr ⟨p, hpp, rfl⟩))
          simp only [Chunk.look, hc, hbn] at hq
          by_cases hp0 : p = []
          · subst hp0; rfl
          · rw [if_neg hp0, if_neg hp0] at hq
            exact hq
    · exact ⟨[], fun x y => absurd ⟨x, y⟩ ht⟩
  choose P hP using each
  obtain ⟨p1, a1, b1⟩ := Chunk.looks_find bs enc fb start (by omega)
  refine ⟨p1 ++ (List.range' start (fin - start)).flatMap P, ?_, fun c' hc' => ?_⟩
  · rw [List.length_append, List.length_flatMap]
    refine Nat.add_le_add a1 ?_
    calc _ ≤ ((List.range' start (fin - start)).map fun _ => n + 2).sum :=
          List.sum_le_sum fun t ht => by
            rw [List.mem_range'_1] at ht
            exact (hP t (by omega) (by omega)).1
      _ = _ := by simp
  · have e1 : c'.findBlock start = (Chunk.new bs enc fb).findBlock start := b1 c' fun p hp => hc' p (by simp [hp])
    have hc : ∀ t i off b, start ≤ t → t < fin → Holds bs t i off → bs[i]? = some b →
        ∃ b', c'.blocks[i]? = some b' ∧ b'.logs.length = b.logs.length ∧
          f b' off (t - start) = f b off (t - start) := by
      intro t i off b t1 t2 t3 t4
      refine (hP t t1 t2).2 c' (fun p hp => hc' p ?_) i off b t3 t4
      rw [List.mem_append, List.mem_flatMap]
      exact Or.inr ⟨t, List.mem_range'_1.2 ⟨t1, by omega⟩, hp⟩
    obtain ⟨i, off, hh⟩ := exists_holds bs start (by omega)
    have hspec : (Chunk.new bs enc fb).findBlock start = some (i, off) :=
      findBlock_spec bs enc fb start i off hh _ (by simp [Chunk.new])
    have e2 : c'.iterList start fin = (Chunk.new bs enc fb).iterList start fin := by
      simp only [Chunk.iterList, Chunk.iter, e1, hspec, csub_of_le (Nat.le_of_lt h1)]
      rw [iter_toList_eq (enc := enc) (fb := fb) h2 (fun t i off b t1 t2 t3 t4 => by
        obtain ⟨b', g1, g2, -⟩ := hc t i off b t1 t2 t3 t4
        exact ⟨b', g1, g2⟩) _ _ start i off (.inr hh) (Nat.le_refl _) (by omega)]
    obtain ⟨L, g1, g2⟩ := iterList_spec bs enc fb start fin (by rintro rfl; simp [blocksLen] at h2; omega)
      (Nat.le_of_lt h1) h2
    beta_reduce
    rw [e2, g1]
    refine collect_congr fun p hp => ?_
    obtain ⟨t, ht, g3, g4, g5⟩ : ∃ t ∈ List.range' start (fin - start), Holds bs t p.1.1 p.1.2 ∧ p.2 = t - start ∧
        t < fin := by
      obtain ⟨j, hj⟩ := List.getElem?_of_mem hp
      rw [List.forall₂_iff_get] at g2
      have hj1 := (List.getElem?_eq_some_iff.1 hj).1
      have := g2.2 j (by rw [g2.1]; exact hj1) hj1
      have hj2 : L.get ⟨j, hj1⟩ = p := (List.getElem?_eq_some_iff.1 hj).2
      rw [hj2] at this
      exact ⟨_, List.get_mem _ _, this⟩
    rw [List.mem_range'_1] at ht
    have hlt := g3.lt
    have hb : bs[p.1.1]? = some bs[p.1.1] := List.getElem?_eq_getElem hlt
    have hb' : (Chunk.new bs enc fb).blocks[p.1.1]? = some bs[p.1.1] := hb
    obtain ⟨b', g6, -, g7⟩ := hc t p.1.1 p.1.2 _ ht.1 g5 g3 hb
    rw [hb', g6, g4]
    exact g7

theorem Chunk.looks_fillCell {bs : List Block} {k e : Nat} (hb : ∀ b ∈ bs, b.Small k e) (enc : MMEncoding)
    (fb start fin row col : Nat) (h1 : start < fin) (h2 : fin ≤ blocksLen bs) :
    LooksAt Chunk.look (fun c => c.fillCell start fin row col) (Chunk.new bs enc fb)
      (2 * Nat.clog 2 bs.length + 3 + (fin - start) * (228 * e + 430)) :=
  Chunk.looks_loop enc fb start fin (228 * e + 428) h1 h2
    (fun b off x => (b.get off row col).map fun v => [(x, v)])
    fun b hbm off x => (Block.looks_get (hb b hbm) off row col).map fun o => o.map fun v => [(x, v)]

theorem Chunk.looks_fillWindow {bs : List Block} {k e : Nat} (hb : ∀ b ∈ bs, b.Small k e) (enc : MMEncoding)
    (fb : Nat) (q : Cube) (h1 : q.start < q.fin) (h2 : q.fin ≤ blocksLen bs) (g1 : q.rect.top < q.rect.bottom)
    (g2 : q.rect.left < q.rect.right) (g3 : q.rect.bottom ≤ k ^ e) (g4 : q.rect.right ≤ k ^ e) :
    LooksAt Chunk.look (fun c => c.fillWindow q) (Chunk.new bs enc fb)
      (2 * Nat.clog 2 bs.length + 3 + (q.fin - q.start) * (218 + 228 * e * Spec.area q.rect + 2)) := by
  have := Chunk.looks_loop (β := Nat × Nat × Nat × Int64) enc fb q.start q.fin (218 + 228 * e * Spec.area q.rect) h1 h2
    (fun b off x => (b.fillWindow off q.rect).map fun calls : List (Nat × Nat × Int64) => calls.map fun c => (x, c))
    fun b hbm off x => (Block.looks_fill (hb b hbm) off q.rect g1 g2 g3 g4).map fun o =>
      o.map fun calls : List (Nat × Nat × Int64) => calls.map fun c => (x, c)
  exact this

end Verif
