import Verif.Lemmas.WindowSplit
import Verif.Lemmas.StructRepr

/-! Which positions reads write to, whatever the structures are that are read. -/
namespace Verif

/-- The positions are different ones, all in `B`. -/
def Once {β π : Type} (pos : β → π) (B : π → Prop) (l : List β) : Prop :=
  (l.map pos).Nodup ∧ ∀ x ∈ l, B (pos x)

section
variable {α β γ π ρ : Type} {pos : β → π} {B : π → Prop}

theorem Once.nil : Once pos B [] := ⟨by simp, by simp⟩

theorem Once.single {x : β} (h : B (pos x)) : Once pos B [x] :=
  ⟨by simp, fun y hy => by rw [List.mem_singleton] at hy; exact hy ▸ h⟩

theorem Once.mono {B' : π → Prop} {l : List β} (h : Once pos B l) (hB : ∀ p, B p → B' p) : Once pos B' l :=
  ⟨h.1, fun x hx => hB _ (h.2 x hx)⟩

theorem Once.sublist {l l' : List β} (h : Once pos B l) (hs : l'.Sublist l) : Once pos B l' :=
  ⟨h.1.sublist (hs.map pos), fun x hx => h.2 x (hs.subset hx)⟩

theorem Once.perm {l l' : List β} (h : Once pos B l) (hp : l'.Perm l) : Once pos B l' :=
  ⟨(hp.map pos).nodup_iff.2 h.1, fun x hx => h.2 x (hp.subset hx)⟩

theorem Once.map {f : β → γ} {pos' : γ → ρ} {B' : ρ → Prop} {l : List β} (h : Once pos B l) (g : π → ρ)
    (hg : ∀ x, pos' (f x) = g (pos x)) (hi : ∀ p q, B p → B q → g p = g q → p = q) (hB : ∀ p, B p → B' (g p)) :
    Once pos' B' (l.map f) := by
  constructor
  · rw [List.map_map, show pos' ∘ f = g ∘ pos from funext hg, ← List.map_map]
    refine List.Nodup.map_on ?_ h.1
    intro p hp q hq e
    obtain ⟨x, hx, rfl⟩ := List.mem_map.1 hp
    obtain ⟨y, hy, rfl⟩ := List.mem_map.1 hq
    exact hi _ _ (h.2 x hx) (h.2 y hy) e
  · intro y hy
    obtain ⟨x, hx, rfl⟩ := List.mem_map.1 hy
    rw [hg]
    exact hB _ (h.2 x hx)

/-- Lists of positions from sets that have nothing in common. -/
theorem Once.flatten {ls : List (List β)} {Bs : List (π → Prop)} (h : List.Forall₂ (fun l B => Once pos B l) ls Bs)
    (hd : Bs.Pairwise fun B B' => ∀ p, B p → B' p → False) (hB : ∀ B' ∈ Bs, ∀ p, B' p → B p) :
    Once pos B ls.flatten := by
  induction h with
  | nil => exact .nil
  | @cons l B' ls Bs h hs ih =>
    rw [List.pairwise_cons] at hd
    have := ih hd.2 fun B'' h'' => hB B'' (by simp [h''])
    have hin : ∀ x ∈ ls.flatten, ∃ B'' ∈ Bs, B'' (pos x) := by
      intro x hx
      obtain ⟨l', hl', hx⟩ := List.mem_flatten.1 hx
      obtain ⟨i, hi, rfl⟩ := List.mem_iff_getElem.1 hl'
      have hi' : i < Bs.length := by rw [← hs.length_eq]; exact hi
      refine ⟨Bs[i], List.getElem_mem hi', ?_⟩
      exact ((List.forall₂_iff_get.1 hs).2 i hi hi').2 x hx
    constructor
    · rw [List.flatten_cons, List.map_append, List.nodup_append]
      refine ⟨h.1, this.1, ?_⟩
      intro p hp q hq e
      subst e
      obtain ⟨x, hx, rfl⟩ := List.mem_map.1 hp
      obtain ⟨y, hy, e⟩ := List.mem_map.1 hq
      obtain ⟨B'', h1, h2⟩ := hin y hy
      rw [e] at h2
      exact hd.1 B'' h1 _ (h.2 x hx) h2
    · intro x hx
      rw [List.flatten_cons, List.mem_append] at hx
      rcases hx with hx | hx
      · exact hB B' (by simp) _ (h.2 x hx)
      · exact this.2 x hx

/-- A loop whose turns write to positions that have nothing in common. -/
theorem Once.collect {f : α → Option (List β)} (S : α → π → Prop) : ∀ {xs : List α} {l : List β},
    collect xs f = some l → (∀ x ∈ xs, ∀ l', f x = some l' → Once pos (S x) l') →
    xs.Pairwise (fun x y => ∀ p, S x p → S y p → False) → (∀ x ∈ xs, ∀ p, S x p → B p) → Once pos B l := by
  intro xs l h h1 h2 h3
  have : ∃ ls, l = ls.flatten ∧ List.Forall₂ (fun l B => Once pos B l) ls (xs.map S) := by
    clear h2 h3
    induction xs generalizing l with
    | nil =>
      cases h
      exact ⟨[], rfl, .nil⟩
    | cons x xs ih =>
      unfold Verif.collect at h
      split at h
      · cases h
      split at h
      · cases h
      rename_i a ha _ b hb
      cases h
      obtain ⟨ls, rfl, hls⟩ := ih hb fun y hy => h1 y (by simp [hy])
      exact ⟨a :: ls, rfl, .cons (h1 x (by simp) a ha) hls⟩
  obtain ⟨ls, rfl, hls⟩ := this
  refine Once.flatten hls (by rw [List.pairwise_map]; exact h2) ?_
  intro B' hB'
  obtain ⟨x, hx, rfl⟩ := List.mem_map.1 hB'
  exact h3 x hx

end

theorem rangeIncl_nodup (a b : Nat) : (rangeIncl a b).Nodup := List.nodup_range'

theorem pairwise_of_nodup {α : Type} {l : List α} (h : l.Nodup) {R : α → α → Prop} (hR : ∀ x y, x ≠ y → R x y) :
    l.Pairwise R := List.Pairwise.imp (fun {a b} hab => hR a b hab) h

/-! ### One raster -/

/-- The position of a call to `set` of a raster. -/
def pos2 (x : Nat × Nat × Int64) : Nat × Nat := (x.1, x.2.1)

/-- Cells that are from `top` to `bottom` and from `left` to `right` after moving by `wt` and `wl`. -/
def Moved (wt wl top bottom left right : Nat) (p : Nat × Nat) : Prop :=
  (top ≤ p.1 + wt ∧ p.1 + wt ≤ bottom) ∧ left ≤ p.2 + wl ∧ p.2 + wl ≤ right

theorem emitLeaf_once {top bottom left right tO lO wt wl : Nat} {v : Int64} {l : List (Nat × Nat × Int64)}
    (h : emitLeaf top bottom left right tO lO wt wl v = some l) :
    Once pos2 (Moved wt wl (tO + top) (tO + bottom) (lO + left) (lO + right)) l := by
  unfold emitLeaf at h
  refine Once.collect (fun row p => Moved wt wl (tO + row) (tO + row) (lO + left) (lO + right) p) h ?_ ?_ ?_
  · intro row hrow l' hl'
    refine Once.collect (fun col p => Moved wt wl (tO + row) (tO + row) (lO + col) (lO + col) p) hl' ?_ ?_ ?_
    · intro col hcol l'' hl''
      unfold csub at hl''
      split at hl''
      · rename_i r c hr hc
        cases hl''
        split at hr <;> cases hr
        split at hc <;> cases hc
        refine Once.single ?_
        unfold Moved pos2
        simp only
        omega
      · cases hl''
    · refine pairwise_of_nodup (rangeIncl_nodup _ _) fun x y hxy p h1 h2 => ?_
      unfold Moved at h1 h2
      omega
    · intro col hcol p hp
      rw [mem_rangeIncl] at hcol
      unfold Moved at *
      omega
  · refine pairwise_of_nodup (rangeIncl_nodup _ _) fun x y hxy p h1 h2 => ?_
    unfold Moved at h1 h2
    omega
  · intro row hrow p hp
    rw [mem_rangeIncl] at hrow
    unfold Moved at *
    omega

/-- The double loop over the children that meet a window. -/
theorem grid_once {sl top bottom left right tO lO wt wl : Nat} (hs : 0 < sl)
    {f : Nat → Nat → Nat → Nat → Option (List (Nat × Nat × Int64))} {l : List (Nat × Nat × Int64)}
    (h : (collect (rangeIncl (top / sl) (bottom / sl)) fun i =>
        match csub bottom (i * sl) with
        | none => none
        | some b => collect (rangeIncl (left / sl) (right / sl)) fun j =>
          match csub right (j * sl) with
          | none => none
          | some r => f i j b r) = some l)
    (hf : ∀ i j l', i * sl ≤ bottom → j * sl ≤ right → f i j (bottom - i * sl) (right - j * sl) = some l' →
      Once pos2 (Moved wt wl (tO + i * sl + (top - i * sl)) (tO + i * sl + Nat.min (sl - 1) (bottom - i * sl))
        (lO + j * sl + (left - j * sl)) (lO + j * sl + Nat.min (sl - 1) (right - j * sl))) l') :
    Once pos2 (Moved wt wl (tO + top) (tO + bottom) (lO + left) (lO + right)) l := by
  have apart : ∀ i j : Nat, i ≠ j → i * sl + sl ≤ j * sl ∨ j * sl + sl ≤ i * sl := by
    intro i j hij
    rcases Nat.lt_or_gt_of_ne hij with h | h
    · left
      have := Nat.mul_le_mul_right sl h
      rwa [Nat.succ_mul] at this
    · right
      have := Nat.mul_le_mul_right sl h
      rwa [Nat.succ_mul] at this
  refine Once.collect (fun i p => Moved wt wl (tO + i * sl + (top - i * sl))
    (tO + i * sl + Nat.min (sl - 1) (bottom - i * sl)) (lO + left) (lO + right) p ∧ i * sl ≤ bottom) h ?_ ?_ ?_
  · intro i hi l' hl'
    unfold csub at hl'
    by_cases hib : i * sl ≤ bottom
    · rw [if_pos hib] at hl'
      simp only at hl'
      refine Once.collect (fun j p => Moved wt wl (tO + i * sl + (top - i * sl))
        (tO + i * sl + Nat.min (sl - 1) (bottom - i * sl)) (lO + j * sl + (left - j * sl))
        (lO + j * sl + Nat.min (sl - 1) (right - j * sl)) p ∧ j * sl ≤ right) hl' ?_ ?_ ?_
      · intro j hj l'' hl''
        by_cases hjr : j * sl ≤ right
        · rw [if_pos hjr] at hl''
          exact (hf i j l'' hib hjr hl'').mono fun p hp => ⟨hp, hjr⟩
        · rw [if_neg hjr] at hl''
          cases hl''
      · refine pairwise_of_nodup (rangeIncl_nodup _ _) fun x y hxy p h1 h2 => ?_
        have := apart x y hxy
        have m1 : Nat.min (sl - 1) (right - x * sl) ≤ sl - 1 := Nat.min_le_left _ _
        have m2 : Nat.min (sl - 1) (right - y * sl) ≤ sl - 1 := Nat.min_le_left _ _
        unfold Moved at h1 h2
        omega
      · intro j hj p hp
        have m1 : Nat.min (sl - 1) (right - j * sl) ≤ right - j * sl := Nat.min_le_right _ _
        unfold Moved at *
        omega
    · rw [if_neg hib] at hl'
      cases hl'
  · refine pairwise_of_nodup (rangeIncl_nodup _ _) fun x y hxy p h1 h2 => ?_
    have := apart x y hxy
    have m1 : Nat.min (sl - 1) (bottom - x * sl) ≤ sl - 1 := Nat.min_le_left _ _
    have m2 : Nat.min (sl - 1) (bottom - y * sl) ≤ sl - 1 := Nat.min_le_left _ _
    unfold Moved at h1 h2
    omega
  · intro i hi p hp
    have m1 : Nat.min (sl - 1) (bottom - i * sl) ≤ bottom - i * sl := Nat.min_le_right _ _
    unfold Moved at *
    omega

theorem Snapshot.fillGo_once (s : Snapshot) (wt wl : Nat) : ∀ (fuel sidelen top bottom left right index : Nat)
    (maxValue : Int64) (tO lO : Nat) (l : List (Nat × Nat × Int64)),
    s.fillGo wt wl fuel sidelen top bottom left right index maxValue tO lO = some l →
    Once pos2 (Moved wt wl (tO + top) (tO + bottom) (lO + left) (lO + right)) l
  | 0, _, _, _, _, _, _, _, _, _, _, h => by simp [Snapshot.fillGo] at h
  | fuel + 1, sidelen, top, bottom, left, right, index, maxValue, tO, lO, l, h => by
    simp only [Snapshot.fillGo] at h
    split at h
    · cases h
    split at h
    · cases h
    split at h
    · cases h
    rename_i hsl _ _ _
    refine grid_once (f := fun i j b r => _) (Nat.pos_of_ne_zero hsl) h ?_
    intro i j l' hi hj hl'
    split at hl'
    · cases hl'
    split at hl'
    · cases hl'
    · exact emitLeaf_once hl'
    · exact Snapshot.fillGo_once s wt wl fuel _ _ _ _ _ _ _ _ _ _ hl'

theorem Log.fillGo_once (g : Log) (s : Snapshot) (wt wl : Nat) : ∀ (fuel sidelen top bottom left right : Nat)
    (indexT indexS : Option Nat) (maxT maxS : Int64) (tO lO : Nat) (l : List (Nat × Nat × Int64)),
    g.fillGo s wt wl fuel sidelen top bottom left right indexT indexS maxT maxS tO lO = some l →
    Once pos2 (Moved wt wl (tO + top) (tO + bottom) (lO + left) (lO + right)) l
  | 0, _, _, _, _, _, _, _, _, _, _, _, _, h => by simp [Log.fillGo] at h
  | fuel + 1, sidelen, top, bottom, left, right, indexT, indexS, maxT, maxS, tO, lO, l, h => by
    simp only [Log.fillGo] at h
    split at h
    · cases h
    split at h
    · cases h
    split at h
    · rename_i hsl _ _ _ _ _ _
      refine grid_once (f := fun i j b r => _) (Nat.pos_of_ne_zero hsl) h ?_
      intro i j l' hi hj hl'
      have ih := Log.fillGo_once g s wt wl fuel
      split at hl'
      · split at hl'
        · exact emitLeaf_once hl'
        split at hl'
        · exact ih _ _ _ _ _ _ _ _ _ _ _ _ hl'
        split at hl'
        · split at hl'
          · exact ih _ _ _ _ _ _ _ _ _ _ _ _ hl'
          · split at hl'
            · cases hl'
            · exact ih _ _ _ _ _ _ _ _ _ _ _ _ hl'
            · split at hl'
              · cases hl'
              · exact emitLeaf_once hl'
              · exact ih _ _ _ _ _ _ _ _ _ _ _ _ hl'
        · exact ih _ _ _ _ _ _ _ _ _ _ _ _ hl'
      · cases hl'
    · cases h

theorem emitAll_once (rows cols : Nat) (v : Int64) :
    Once pos2 (fun p => p.1 < rows ∧ p.2 < cols) (emitAll rows cols v) := by
  unfold emitAll rangeExcl
  have h : collect (List.range' 0 (rows - 0)) (fun row => some ((List.range' 0 (cols - 0)).map fun col => (row, col, v))) =
      some ((List.range' 0 (rows - 0)).flatMap fun row => (List.range' 0 (cols - 0)).map fun col => (row, col, v)) :=
    collect_eq _ _ _ fun _ _ => rfl
  refine Once.collect (fun row p => p.1 = row ∧ p.2 < cols) h ?_ ?_ ?_
  · intro row hrow l' hl'
    cases hl'
    constructor
    · rw [List.map_map]
      exact List.Nodup.map (fun a b hab => (Prod.mk.inj hab).2) List.nodup_range'
    · intro x hx
      obtain ⟨c, hc, rfl⟩ := List.mem_map.1 hx
      rw [List.mem_range'_1] at hc
      exact ⟨rfl, by change c < cols; omega⟩
  · refine pairwise_of_nodup List.nodup_range' fun x y hxy p h1 h2 => ?_
    omega
  · intro row hrow p hp
    rw [List.mem_range'_1] at hrow
    exact ⟨by omega, hp.2⟩

/-- The cells of an output of so many rows and columns. -/
def InRect (rows cols : Nat) (p : Nat × Nat) : Prop := p.1 < rows ∧ p.2 < cols

theorem moved_window {w : Rect} {b r : Nat} (hb : csub w.bottom 1 = some b) (hr : csub w.right 1 = some r)
    {p : Nat × Nat} (h : Moved w.top w.left (0 + w.top) (0 + b) (0 + w.left) (0 + r) p) :
    InRect (w.bottom - w.top) (w.right - w.left) p := by
  unfold csub at hb hr
  split at hb <;> cases hb
  split at hr <;> cases hr
  unfold Moved at h
  unfold InRect
  omega

theorem Snapshot.fillWindow_once {s : Snapshot} {w : Rect} {l : List (Nat × Nat × Int64)}
    (h : s.fillWindow w = some l) : Once pos2 (InRect (w.bottom - w.top) (w.right - w.left)) l := by
  unfold Snapshot.fillWindow at h
  split at h
  · rename_i rows cols hr hc
    split at h
    · cases h
    · split at h
      · cases h
      · cases h
        unfold Rect.rows csub at hr
        unfold Rect.cols csub at hc
        split at hr <;> cases hr
        split at hc <;> cases hc
        exact emitAll_once _ _ _
    · split at h
      · rename_i b r _ hb hr _
        exact (Snapshot.fillGo_once s _ _ _ _ _ _ _ _ _ _ _ _ _ h).mono fun p hp => moved_window hb hr hp
      · cases h
  · cases h

theorem Log.fillWindow_once {g : Log} {s : Snapshot} {w : Rect} {l : List (Nat × Nat × Int64)}
    (h : g.fillWindow s w = some l) : Once pos2 (InRect (w.bottom - w.top) (w.right - w.left)) l := by
  unfold Log.fillWindow at h
  split at h
  · rename_i bitT bitS _ _
    simp only at h
    generalize (if (!bitT) = true then (if (!bitS) = true then some true else (g.equal.get 0).map (!·))
      else some false) = x at h
    cases x with
    | none => cases h
    | some x =>
    cases x with
    | true =>
      simp only at h
      split at h
      · rename_i rows cols hr hc
        cases h
        unfold Rect.rows csub at hr
        unfold Rect.cols csub at hc
        split at hr <;> cases hr
        split at hc <;> cases hc
        exact emitAll_once _ _ _
      · cases h
    | false =>
      simp only at h
      split at h
      · rename_i b r _ _ hb hr _ _
        exact (Log.fillGo_once g s _ _ _ _ _ _ _ _ _ _ _ _ _ _ _ h).mono fun p hp => moved_window hb hr hp
      · cases h
  · cases h

theorem Block.fillWindow_once {b : Block} {t : Nat} {w : Rect} {l : List (Nat × Nat × Int64)}
    (h : b.fillWindow t w = some l) : Once pos2 (InRect (w.bottom - w.top) (w.right - w.left)) l := by
  unfold Block.fillWindow at h
  split at h
  · exact Snapshot.fillWindow_once h
  · split at h
    · cases h
    · exact Log.fillWindow_once h

/-! ### Chunks -/

theorem ChunkIter.toList_length {c : Chunk} : ∀ (fuel : Nat) {it : ChunkIter} {l : List (Nat × Nat)},
    it.toList c fuel = some l → l.length = it.remaining
  | 0, _, _, h => by simp [ChunkIter.toList] at h
  | fuel + 1, it, l, h => by
    unfold ChunkIter.toList at h
    split at h
    · cases h
    · rename_i hn
      cases h
      unfold ChunkIter.next at hn
      split at hn
      · rename_i h0
        exact h0.symm
      · split at hn
        · cases hn
        · split at hn <;> cases hn
    · rename_i x it' hn
      obtain ⟨l', hl', rfl⟩ := Option.map_eq_some_iff.1 h
      have := ChunkIter.toList_length fuel hl'
      unfold ChunkIter.next at hn
      split at hn
      · cases hn
      · rename_i h0
        split at hn
        · cases hn
        · split at hn <;> cases hn <;> (simp only [List.length_cons] at *; omega)

theorem Chunk.iterList_idx {c : Chunk} {start fin : Nat} {L : List ((Nat × Nat) × Nat)}
    (h : c.iterList start fin = some L) : (L.map Prod.snd).Nodup ∧ ∀ x ∈ L, x.2 < fin - start := by
  unfold Chunk.iterList at h
  split at h
  · cases h
  · rename_i it hit
    obtain ⟨l, hl, rfl⟩ := Option.map_eq_some_iff.1 h
    have := ChunkIter.toList_length _ hl
    unfold Chunk.iter csub at hit
    split at hit
    · rename_i hc
      split at hc <;> cases hc
      cases hit
      constructor
      · rw [List.zipIdx_map_snd]
        exact List.nodup_range'
      · intro x hx
        have := List.snd_lt_of_mem_zipIdx hx
        simp only at *
        omega
    · cases hit

/-- The position of a call to `set` of a series, without the bits. -/
def posC (x : Nat × Nat × Nat × Int64) : Nat × Nat × Nat := (x.1, x.2.1, x.2.2.1)

/-- The position of a call to `set` of a series. -/
def pos3 (x : Nat × Nat × Nat × Nat × Int64) : Nat × Nat × Nat := (x.1, x.2.1, x.2.2.1)

/-- The cells of an output of a shape. -/
def InCube (n rows cols : Nat) (p : Nat × Nat × Nat) : Prop := p.1 < n ∧ p.2.1 < rows ∧ p.2.2 < cols

/-- Bounds as `Cube::new` makes them. -/
structure Cube.Ordered (w : Cube) : Prop where
  time : w.start ≤ w.fin
  rows : w.top ≤ w.bottom
  cols : w.left ≤ w.right

theorem Cube.new_ordered (a b c d e f : Nat) : (Cube.new a b c d e f).Ordered := by
  unfold Cube.new rearrange
  constructor <;> (simp only; split <;> simp only <;> omega)

theorem Cube.Ordered.rect {w : Cube} (h : w.Ordered) : w.rect = ⟨w.top, w.bottom, w.left, w.right⟩ := by
  unfold Cube.rect Rect.new rearrange
  have := h.rows
  have := h.cols
  rw [if_neg (by omega), if_neg (by omega)]

theorem nodup_pairwise_snd {α : Type} {L : List (α × Nat)} (h : (L.map Prod.snd).Nodup) {R : α × Nat → α × Nat → Prop}
    (hR : ∀ x y, x.2 ≠ y.2 → R x y) : L.Pairwise R :=
  List.Pairwise.imp (fun {a b} hab => hR a b hab) (List.pairwise_map.1 h)

theorem Chunk.fillWindow_once {c : Chunk} {w : Cube} (hw : w.Ordered) {l : List (Nat × Nat × Nat × Int64)}
    (h : c.fillWindow w = some l) :
    Once posC (InCube (w.fin - w.start) (w.bottom - w.top) (w.right - w.left)) l := by
  unfold Chunk.fillWindow at h
  split at h
  · cases h
  rename_i L hL
  obtain ⟨hnd, hlt⟩ := Chunk.iterList_idx hL
  refine Once.collect (fun x p => p.1 = x.2 ∧ InRect (w.bottom - w.top) (w.right - w.left) p.2) h ?_ ?_ ?_
  · intro x hx l' hl'
    split at hl'
    · cases hl'
    · obtain ⟨calls, hcalls, rfl⟩ := Option.map_eq_some_iff.1 hl'
      rw [hw.rect] at hcalls
      refine (Block.fillWindow_once hcalls).map (fun p => (x.2, p)) (fun y => rfl) ?_ ?_
      · intro p q _ _ e
        exact (Prod.mk.inj e).2
      · intro p hp
        exact ⟨rfl, hp⟩
  · refine nodup_pairwise_snd hnd fun x y hxy p h1 h2 => ?_
    exact hxy (h1.1.symm.trans h2.1)
  · intro x hx p hp
    have := hlt x hx
    exact ⟨by omega, hp.2⟩

theorem Chunk.fillCell_once {c : Chunk} {start fin row col : Nat} {l : List (Nat × Int64)}
    (h : c.fillCell start fin row col = some l) : Once Prod.fst (· < fin - start) l := by
  unfold Chunk.fillCell at h
  split at h
  · cases h
  rename_i L hL
  obtain ⟨hnd, hlt⟩ := Chunk.iterList_idx hL
  refine Once.collect (fun x p => p = x.2) h ?_ ?_ ?_
  · intro x hx l' hl'
    split at hl'
    · cases hl'
    · obtain ⟨v, hv, rfl⟩ := Option.map_eq_some_iff.1 hl'
      exact Once.single rfl
  · exact nodup_pairwise_snd hnd fun x y hxy p h1 h2 => hxy (h1.symm.trans h2)
  · intro x hx p hp
    rw [hp]
    exact hlt x hx

end Verif
