import Verif.Lemmas.DatasetTree
import Verif.Lemmas.Sides

/-! Which objects of the store the result of a read depends on. -/
namespace Verif

namespace Spec

/-- How many of the intervals `[j * d, (j + 1) * d)` meet `[lo, hi)`. -/
def blocks (d lo hi : Nat) : Nat := if lo < hi then (hi - 1) / d + 1 - lo / d else 0

/-- How many of the squares of side `d`, aligned to multiples of `d`, meet a window. -/
def tiles (d top bottom left right : Nat) : Nat := blocks d top bottom * blocks d left right

/-- For every level of superchunks: how many superchunks a window meets (each has a list of links), and
how many of their parts it meets. -/
def nested (k : Nat) (top bottom left right : Nat) : List Nat → Nat
  | [] => 0
  | l :: sub => if sub = [] then 0 else
      tiles (k ^ (l :: sub).sum) top bottom left right + tiles (k ^ sub.sum) top bottom left right +
        nested k top bottom left right sub

/-- How many spans and chunks of a tree of height `h` a time range meets, not counting its root. -/
def spans (cs ss start fin h : Nat) : Nat :=
  ((List.range (h + 1)).map fun i => blocks (cs * ss ^ i) start fin).sum

end Spec

/-! ### Counting -/

open Spec (blocks tiles nested spans)

theorem blocks_pos {d lo hi : Nat} (h : lo < hi) : 1 ≤ blocks d lo hi := by
  unfold Spec.blocks
  rw [if_pos h]
  have : lo / d ≤ (hi - 1) / d := Nat.div_le_div_right (by omega)
  omega

theorem blocks_shift {d : Nat} (hd : 0 < d) (q lo hi : Nat) :
    blocks d (d * q + lo) (d * q + hi) = blocks d lo hi := by
  unfold Spec.blocks
  by_cases h : lo < hi
  · rw [if_pos h, if_pos (by omega), show d * q + hi - 1 = d * q + (hi - 1) by omega,
      Nat.mul_add_div hd, Nat.mul_add_div hd]
    omega
  · rw [if_neg h, if_neg (by omega)]

theorem blocks_shift' {d m : Nat} (hd : 0 < d) (hm : d ∣ m) (lo hi : Nat) :
    blocks d (m + lo) (m + hi) = blocks d lo hi := by
  obtain ⟨q, rfl⟩ := hm
  exact blocks_shift hd q lo hi

theorem blocks_split {d m lo hi : Nat} (hd : 0 < d) (hm : d ∣ m) (h1 : lo < m) (h2 : m ≤ hi) :
    blocks d lo hi = blocks d lo m + blocks d m hi := by
  obtain ⟨q, rfl⟩ := hm
  have hq : 0 < q := by
    rcases Nat.eq_zero_or_pos q with rfl | h
    · omega
    · exact h
  have e : (d * q - 1) / d = q - 1 := by
    obtain ⟨p, rfl⟩ : ∃ p, q = p + 1 := ⟨q - 1, by omega⟩
    rw [Nat.mul_succ, show d * p + d - 1 = d * p + (d - 1) by omega, Nat.mul_add_div hd,
      Nat.div_eq_of_lt (by omega)]
    omega
  have e1 : lo / d ≤ q - 1 := by
    rw [← e]; exact Nat.div_le_div_right (by omega)
  have e2 : d * q / d = q := Nat.mul_div_cancel_left _ hd
  unfold Spec.blocks
  rw [if_pos (by omega), if_pos h1, e]
  by_cases h : d * q < hi
  · rw [if_pos h, e2]
    have : q ≤ (hi - 1) / d := by
      rw [← e2]; exact Nat.div_le_div_right (by omega)
    omega
  · rw [if_neg h, show hi = d * q by omega, e]
    omega

theorem blocks_one {d lo hi : Nat} (h : lo < hi) (hi' : hi ≤ d) : blocks d lo hi = 1 := by
  unfold Spec.blocks
  rw [if_pos h, Nat.div_eq_of_lt (by omega), Nat.div_eq_of_lt (by omega)]

/-- The pieces of a time range meet what the range meets. -/
theorem pieces_blocks {stride instants d : Nat} (hd : 0 < d) (hds : d ∣ stride) :
    ∀ (fuel span instant start : Nat) (ps : List Piece), instant < stride →
    Span.pieces stride instants fuel span instant start = some ps →
    (ps.map fun p => blocks d p.instant (p.instant + p.len)).sum =
      blocks d instant (instant + (instants - start)) := by
  intro fuel
  induction fuel with
  | zero => intro _ _ _ _ _ h; cases h
  | succ fuel ih =>
    intro span instant start ps hi h
    unfold Span.pieces at h
    by_cases hs : start < instants
    · rw [if_pos hs] at h
      unfold csub at h
      rw [if_pos (by omega)] at h
      simp only at h
      rw [Option.map_eq_some_iff] at h
      obtain ⟨ps', h1, rfl⟩ := h
      rw [List.map_cons, List.sum_cons, ih _ _ _ _ (by omega) h1]
      simp only
      by_cases hc : stride - instant ≤ instants - start
      · rw [show min (stride - instant) (instants - start) = stride - instant by omega,
          show instant + (stride - instant) = stride by omega,
          show 0 + (instants - (start + (stride - instant))) = instant + (instants - start) - stride by omega]
        rw [blocks_split hd hds hi (show stride ≤ instant + (instants - start) by omega)]
        congr 1
        have := blocks_shift' hd hds 0 (instant + (instants - start) - stride)
        rw [← this]
        congr 1
        omega
      · rw [show min (stride - instant) (instants - start) = instants - start by omega,
          show instants - (start + (instants - start)) = 0 by omega]
        have : blocks d 0 (0 + 0) = 0 := rfl
        omega
    · rw [if_neg hs] at h
      cases h
      rw [show instants - start = 0 by omega]
      unfold Spec.blocks
      rw [if_neg (by omega)]
      rfl

theorem piecesFor_blocks {s : Span} {start instants d : Nat} {ps : List Piece} (hs : 0 < s.stride)
    (hd : 0 < d) (hds : d ∣ s.stride) (h : s.piecesFor start instants = some ps) :
    (ps.map fun p => blocks d p.instant (p.instant + p.len)).sum = blocks d start (start + instants) := by
  unfold Span.piecesFor Span.findSpan at h
  rw [if_neg (by omega)] at h
  simp only at h
  rw [pieces_blocks hd hds _ _ _ _ _ (Nat.mod_lt _ hs) h]
  have e := Nat.div_add_mod start s.stride
  have := blocks_shift' hd (Nat.dvd_trans hds (Nat.dvd_mul_right s.stride (start / s.stride)))
    (start % s.stride) (start % s.stride + (instants - 0))
  rw [← this]
  congr 1 <;> omega

/-- The parts of one side of a window meet what the side meets. -/
theorem side_blocks {cs d : Nat} (hcs : 0 < cs) (hd : 0 < d) (hdc : d ∣ cs) : ∀ (m lo hi : Nat), lo < hi →
    (hi - 1) / cs - lo / cs = m →
    ((rangeIncl (lo / cs) ((hi - 1) / cs)).map fun n =>
      blocks d (max (n * cs) lo) (min (n * cs + cs) hi)).sum = blocks d lo hi := by
  intro m
  induction m with
  | zero =>
    intro lo hi h hm
    have h1 : lo / cs ≤ (hi - 1) / cs := Nat.div_le_div_right (by omega)
    have h2 : (hi - 1) / cs = lo / cs := by omega
    rw [h2, rangeIncl_self]
    have e1 := Nat.div_mul_le_self lo cs
    have e2 := Nat.lt_div_mul_add (a := hi - 1) hcs
    rw [h2] at e2
    simp only [List.map_cons, List.map_nil, List.sum_cons, List.sum_nil, Nat.add_zero]
    generalize lo / cs * cs = x at *
    rw [show max x lo = lo by omega, show min (x + cs) hi = hi by omega]
  | succ m ih =>
    intro lo hi h hm
    have h1 : lo / cs < (hi - 1) / cs := by omega
    rw [rangeIncl_cons h1, List.map_cons, List.sum_cons]
    have e1 := Nat.div_mul_le_self lo cs
    have e2 := Nat.lt_div_mul_add (a := lo) hcs
    have e3 : (lo / cs + 1) * cs ≤ hi - 1 :=
      Nat.le_trans (Nat.mul_le_mul_right cs h1) (Nat.div_mul_le_self (hi - 1) cs)
    have e4 : (lo / cs + 1) * cs = lo / cs * cs + cs := Nat.succ_mul _ _
    have e5 : ((lo / cs + 1) * cs) / cs = lo / cs + 1 := Nat.mul_div_cancel _ hcs
    have := ih ((lo / cs + 1) * cs) hi (by omega) (by rw [e5]; omega)
    rw [e5] at this
    have hcongr : (rangeIncl (lo / cs + 1) ((hi - 1) / cs)).map (fun n =>
        blocks d (max (n * cs) lo) (min (n * cs + cs) hi)) =
      (rangeIncl (lo / cs + 1) ((hi - 1) / cs)).map (fun n =>
        blocks d (max (n * cs) ((lo / cs + 1) * cs)) (min (n * cs + cs) hi)) := by
      apply List.map_congr_left
      intro n hn
      have := Nat.mul_le_mul_right cs (mem_rangeIncl.1 hn).1
      rw [show max (n * cs) lo = n * cs by omega,
        show max (n * cs) ((lo / cs + 1) * cs) = n * cs by omega]
    rw [hcongr, this, blocks_split hd (Nat.dvd_trans hdc (Nat.dvd_mul_left cs (lo / cs + 1)))
      (show lo < (lo / cs + 1) * cs by omega) (show (lo / cs + 1) * cs ≤ hi by omega)]
    generalize (lo / cs + 1) * cs = y at *
    generalize lo / cs * cs = x at *
    rw [show max x lo = lo by omega, show min (x + cs) hi = y by omega]

theorem side_blocks' {cs d lo hi : Nat} (hcs : 0 < cs) (hd : 0 < d) (hdc : d ∣ cs) (h : lo < hi) :
    ((rangeIncl (lo / cs) ((hi - 1) / cs)).map fun n =>
      blocks d (max (n * cs) lo - n * cs) (min (n * cs + cs) hi - n * cs)).sum = blocks d lo hi := by
  rw [← side_blocks hcs hd hdc _ lo hi h rfl]
  congr 1
  apply List.map_congr_left
  intro n hn
  have hb := side_bounds hcs h hn
  have := blocks_shift' hd (Nat.dvd_trans hdc (Nat.dvd_mul_left cs n)) (max (n * cs) lo - n * cs)
    (min (n * cs + cs) hi - n * cs)
  rw [← this]
  congr 1 <;> omega

theorem sum_mul_left (a : Nat) (g : Nat → Nat) : ∀ ys : List Nat,
    (ys.map fun y => a * g y).sum = a * (ys.map g).sum
  | [] => by simp
  | y :: ys => by
    rw [List.map_cons, List.sum_cons, sum_mul_left a g ys, List.map_cons, List.sum_cons, Nat.mul_add]

theorem sum_sublist {xs ys : List Nat} (h : xs.Sublist ys) : xs.sum ≤ ys.sum := by
  induction h with
  | slnil => exact Nat.le_refl _
  | cons a _ ih => rw [List.sum_cons]; omega
  | cons_cons a _ ih => rw [List.sum_cons, List.sum_cons]; omega

theorem sum_grid (xs ys : List Nat) (f g : Nat → Nat) :
    ((xs.flatMap fun x => ys.map fun y => f x * g y)).sum = (xs.map f).sum * (ys.map g).sum := by
  induction xs with
  | nil => simp
  | cons x xs ih =>
    rw [List.flatMap_cons, List.sum_append, ih, List.map_cons, List.sum_cons, Nat.add_mul,
      sum_mul_left]

/-- The parts of a window in the grid with side `cs`. -/
def windowParts (cs ss top bottom left right : Nat) : List WindowSubchunk :=
  (rangeIncl (top / cs) ((bottom - 1) / cs)).flatMap fun R =>
    (rangeIncl (left / cs) ((right - 1) / cs)).map fun C => windowPart cs ss top bottom left right R C

theorem windowParts_squares {cs d top bottom left right : Nat} (ss : Nat) (hcs : 0 < cs) (hd : 0 < d) (hdc : d ∣ cs)
    (htb : top < bottom) (hlr : left < right) :
    ((windowParts cs ss top bottom left right).map fun w =>
      tiles d w.loc.top w.loc.bottom w.loc.left w.loc.right).sum = tiles d top bottom left right := by
  unfold windowParts
  rw [List.map_flatMap]
  simp only [List.map_map, Function.comp_def, windowPart]
  unfold Spec.tiles
  have := sum_grid (rangeIncl (top / cs) ((bottom - 1) / cs)) (rangeIncl (left / cs) ((right - 1) / cs))
    (fun R => blocks d (max (R * cs) top - R * cs) (min (R * cs + cs) bottom - R * cs))
    (fun C => blocks d (max (C * cs) left - C * cs) (min (C * cs + cs) right - C * cs))
  rw [this, side_blocks' hcs hd hdc htb, side_blocks' hcs hd hdc hlr]

theorem windowParts_loc {cs ss top bottom left right : Nat} (hcs : 0 < cs) (htb : top < bottom) (hlr : left < right)
    {w : WindowSubchunk} (hw : w ∈ windowParts cs ss top bottom left right) :
    w.loc.top < w.loc.bottom ∧ w.loc.left < w.loc.right ∧ w.loc.bottom ≤ cs ∧ w.loc.right ≤ cs := by
  unfold windowParts at hw
  simp only [List.mem_flatMap, List.mem_map] at hw
  obtain ⟨R, hR, C, hC, rfl⟩ := hw
  have h1 := side_bounds hcs htb hR
  have h2 := side_bounds hcs hlr hC
  simp only [windowPart]
  omega

theorem windowParts_length {cs top bottom left right : Nat} (ss : Nat) (hcs : 0 < cs) (htb : top < bottom)
    (hlr : left < right) :
    (windowParts cs ss top bottom left right).length = tiles cs top bottom left right := by
  rw [← windowParts_squares ss hcs hcs (Nat.dvd_refl _) htb hlr]
  rw [List.map_congr_left (g := fun _ => 1)]
  · simp
  · intro w hw
    obtain ⟨h1, h2, h3, h4⟩ := windowParts_loc hcs htb hlr hw
    unfold Spec.tiles
    rw [blocks_one h1 h3, blocks_one h2 h4]

theorem windowParts_nested {k cs top bottom left right : Nat} (ss : Nat) (hk : 0 < k) (hcs : 0 < cs) (htb : top < bottom)
    (hlr : left < right) : ∀ (levels : List Nat), k ^ levels.sum ∣ cs →
    ((windowParts cs ss top bottom left right).map fun w =>
      nested k w.loc.top w.loc.bottom w.loc.left w.loc.right levels).sum = nested k top bottom left right levels := by
  intro levels
  induction levels with
  | nil => intro _; simp [Spec.nested]
  | cons l sub ih =>
    intro hd
    have hd' : k ^ sub.sum ∣ cs := Nat.dvd_trans (by rw [List.sum_cons, Nat.pow_add]; exact Nat.dvd_mul_left _ _) hd
    unfold Spec.nested
    by_cases hs : sub = []
    · simp [hs]
    · simp only [if_neg hs]
      rw [List.sum_map_add, List.sum_map_add, ih hd', windowParts_squares ss hcs (Nat.pow_pos hk) hd htb hlr,
        windowParts_squares ss hcs (Nat.pow_pos hk) hd' htb hlr]

/-! ### What a computation depends on -/

section
variable {β γ : Type} {st : Store} {base : List Cid} {n : Nat} {utf8 : List Byte → Bool}

/-- Besides the objects `base`, the result depends on at most `n` objects. -/
def Needs (st : Store) (base : List Cid) (n : Nat) (f : Store → β) : Prop :=
  ∃ cids : List Cid, cids.length ≤ n ∧ ∀ st' : Store, (∀ c ∈ base ++ cids, st' c = st c) → f st' = f st

theorem Needs.const {f : Store → β} (h : ∀ st', f st' = f st) : Needs st base n f :=
  ⟨[], by simp, fun st' _ => h st'⟩

theorem Needs.le {f : Store → β} {n' : Nat} (h : Needs st base n f) (hn : n ≤ n') : Needs st base n' f := by
  obtain ⟨c, h1, h2⟩ := h
  exact ⟨c, by omega, h2⟩

theorem Needs.comp {f : Store → β} (h : Needs st base n f) (g : β → γ) : Needs st base n (fun s => g (f s)) := by
  obtain ⟨c, h1, h2⟩ := h
  exact ⟨c, h1, fun st' hst => congrArg g (h2 st' hst)⟩

theorem Needs.also {f : Store → β} {c : Cid} (h : Needs st (c :: base) n f) : Needs st base (n + 1) f := by
  obtain ⟨l, h1, h2⟩ := h
  refine ⟨c :: l, by rw [List.length_cons]; omega, fun st' hst => h2 st' fun x hx => hst x ?_⟩
  simp only [List.mem_append, List.mem_cons] at hx ⊢
  tauto

theorem Needs.weaken {f : Store → β} (h : Needs st [] n f) : Needs st base n f := by
  obtain ⟨l, h1, h2⟩ := h
  exact ⟨l, h1, fun st' hst => h2 st' fun x hx => hst x (by simp at hx; simp [hx])⟩

theorem Store.getStruct_at {st' : Store} {cid : Cid} (h : st' cid = st cid) :
    st'.getStruct utf8 cid = st.getStruct utf8 cid := by
  unfold Store.getStruct Store.retrieve
  rw [h]

theorem Store.getLinks_at {st' : Store} {cid : Cid} (h : st' cid = st cid) :
    st'.getLinks utf8 cid = st.getLinks utf8 cid := by
  unfold Store.getLinks Store.retrieve
  rw [h]

theorem Needs.struct {F : Store → Except Fail MMStruct3 → β} {cid : Cid}
    (h : ∀ m, st.getStruct utf8 cid = .ok m → Needs st base n (fun s => F s (.ok m)))
    (he : ∀ e st', F st' (.error e) = F st (.error e)) :
    Needs st base (n + 1) (fun s => F s (s.getStruct utf8 cid)) := by
  cases hg : st.getStruct utf8 cid with
  | error e =>
    refine ⟨[cid], by simp, fun st' hst => ?_⟩
    simp only
    rw [Store.getStruct_at (hst cid (by simp)), hg]
    exact he e st'
  | ok m =>
    obtain ⟨l, h1, h2⟩ := h m hg
    refine ⟨cid :: l, by rw [List.length_cons]; omega, fun st' hst => ?_⟩
    simp only
    rw [Store.getStruct_at (hst cid (by simp)), hg]
    refine h2 st' fun x hx => hst x ?_
    simp only [List.mem_append, List.mem_cons] at hx ⊢
    tauto

theorem Needs.deref {F : Store → Except Fail MMStruct3 → β} {head : SuperHead} {ref : Reference}
    (hc : head.externalCid ∈ base)
    (h : ∀ m, head.deref utf8 st [] ref = .ok m → Needs st base n (fun s => F s (.ok m)))
    (he : ∀ e st', F st' (.error e) = F st (.error e)) :
    Needs st base (n + 1) (fun s => F s (head.deref utf8 s [] ref)) := by
  cases ref with
  | elided => exact Needs.const fun st' => he _ _
  | loc i => exact Needs.const fun st' => he _ _
  | external i =>
    have key : ∀ st' : Store, st' head.externalCid = st head.externalCid →
        head.deref utf8 st' [] (.external i) = match st.getLinks utf8 head.externalCid with
          | .error e => .error e
          | .ok links => match links.cids[i]? with
            | none => .error .panic
            | some cid => st'.getStruct utf8 cid := by
      intro st' hst
      unfold SuperHead.deref
      simp only
      rw [Store.getLinks_at hst]
      cases st.getLinks utf8 head.externalCid <;> rfl
    rcases hl : st.getLinks utf8 head.externalCid with e | links
    · refine ⟨[], by simp, fun st' hst => ?_⟩
      simp only
      rw [key st' (hst _ (by simp [hc])), key st rfl, hl]
      exact he _ _
    · rcases hi : links.cids[i]? with _ | cid
      · refine ⟨[], by simp, fun st' hst => ?_⟩
        simp only
        rw [key st' (hst _ (by simp [hc])), key st rfl, hl]
        simp only
        rw [hi]
        exact he _ _
      · have hs : Needs st base (n + 1) (fun s => F s (s.getStruct utf8 cid)) := by
          refine Needs.struct (fun m hm => h m ?_) he
          rw [key st rfl, hl]
          simp only
          rw [hi]
          exact hm
        obtain ⟨l, h1, h2⟩ := hs
        refine ⟨l, h1, fun st' hst => ?_⟩
        simp only
        rw [key st' (hst _ (by simp [hc])), key st rfl, hl]
        simp only
        rw [hi]
        exact h2 st' hst

theorem Needs.list {α : Type} {g : α → Store → γ} (G : List γ → β) : ∀ {l : List α} {n : α → Nat},
    (∀ x ∈ l, Needs st base (n x) (g x)) →
    Needs st base (l.map n).sum (fun s => G (l.map fun x => g x s)) := by
  intro l n h
  suffices hs : ∃ cids : List Cid, cids.length ≤ (l.map n).sum ∧ ∀ st' : Store,
      (∀ c ∈ base ++ cids, st' c = st c) → (l.map fun x => g x st') = l.map fun x => g x st by
    obtain ⟨c, h1, h2⟩ := hs
    exact ⟨c, h1, fun st' hst => by simp only; rw [h2 st' hst]⟩
  induction l with
  | nil => exact ⟨[], by simp, fun _ _ => rfl⟩
  | cons x l ih =>
    obtain ⟨c1, h1, h2⟩ := h x (by simp)
    obtain ⟨c2, h3, h4⟩ := ih fun y hy => h y (by simp [hy])
    refine ⟨c1 ++ c2, by rw [List.length_append, List.map_cons, List.sum_cons]; omega, fun st' hst => ?_⟩
    rw [List.map_cons, List.map_cons, h2 st' fun c hc => hst c (by
        simp only [List.mem_append] at hc ⊢; tauto),
      h4 st' fun c hc => hst c (by simp only [List.mem_append] at hc ⊢; tauto)]

end

end Verif
