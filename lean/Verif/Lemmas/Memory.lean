import Verif.Lemmas.Writes
import Verif.Model.Memory

/-! Reads write within the views they have, and views in use at the same time are apart. -/
namespace Verif

/-! ### The slices of a superchunk and of a span -/

theorem collect_pairwise {α β : Type} {f : α → Option (List β)} {R : β → β → Prop} (S : α → β → Prop) :
    ∀ {xs : List α} {l : List β}, collect xs f = some l →
    (∀ x ∈ xs, ∀ l', f x = some l' → l'.Pairwise R ∧ ∀ y ∈ l', S x y) →
    xs.Pairwise (fun x x' => ∀ y y', S x y → S x' y' → R y y') → l.Pairwise R ∧ ∀ y ∈ l, ∃ x ∈ xs, S x y
  | [], l, h, _, _ => by
    cases h
    exact ⟨.nil, fun y hy => (nomatch hy)⟩
  | x :: xs, l, h, h1, h2 => by
    unfold collect at h
    split at h
    · cases h
    split at h
    · cases h
    rename_i a ha _ b hb
    cases h
    rw [List.pairwise_cons] at h2
    obtain ⟨h3, h4⟩ := h1 x (by simp) a ha
    obtain ⟨h5, h6⟩ := collect_pairwise S hb (fun y hy => h1 y (by simp [hy])) h2.2
    constructor
    · rw [List.pairwise_append]
      refine ⟨h3, h5, fun y hy y' hy' => ?_⟩
      obtain ⟨x', hx', hs⟩ := h6 y' hy'
      exact h2.1 x' hx' y y' (h4 y hy) hs
    · intro y hy
      rcases List.mem_append.1 hy with hy | hy
      · exact ⟨x, by simp, h4 y hy⟩
      · obtain ⟨x', hx', hs⟩ := h6 y hy
        exact ⟨x', by simp [hx'], hs⟩

/-- One side of a slice. -/
structure SideOk (n lo hi cs lt lb st sb : Nat) : Prop where
  loc : lt ≤ lb
  slice : st ≤ sb
  within : sb ≤ hi - lo
  same : lb - lt = sb - st
  from_ : n * cs ≤ lo + st
  upto : lo + sb ≤ n * cs + cs

theorem sideSlices_ok {n lo hi cs ct cb lt lb st sb : Nat} (h : sideSlices n lo hi cs = some (ct, cb, lt, lb, st, sb)) :
    SideOk n lo hi cs lt lb st sb ∧ ct ≤ cb := by
  unfold sideSlices csub at h
  simp only at h
  split at h
  · rename_i a b h1 h2
    split at h1 <;> cases h1
    split at h2 <;> cases h2
    split at h
    · rename_i c d h3 h4
      split at h3 <;> cases h3
      split at h4 <;> cases h4
      cases h
      refine ⟨⟨?_, ?_, ?_, ?_, ?_, ?_⟩, ?_⟩ <;> omega
    · cases h
  · cases h

/-- What is said of a subchunk of a window. -/
structure SubOk (w : Rect) (sub : WindowSubchunk) : Prop where
  top : sub.loc.top ≤ sub.loc.bottom
  left : sub.loc.left ≤ sub.loc.right
  stop : sub.slice.top ≤ sub.slice.bottom
  sleft : sub.slice.left ≤ sub.slice.right
  bottom : sub.slice.bottom ≤ w.bottom - w.top
  right : sub.slice.right ≤ w.right - w.left
  rows : sub.loc.bottom - sub.loc.top = sub.slice.bottom - sub.slice.top
  cols : sub.loc.right - sub.loc.left = sub.slice.right - sub.slice.left

/-- Slices that have no cell in common. -/
def Rect.Apart (a b : Rect) : Prop :=
  (a.bottom ≤ b.top ∨ b.bottom ≤ a.top) ∨ a.right ≤ b.left ∨ b.right ≤ a.left

theorem Rect.new_of_le {a b c d : Nat} (h1 : a ≤ b) (h2 : c ≤ d) : Rect.new a b c d = ⟨a, b, c, d⟩ := by
  unfold Rect.new rearrange
  rw [if_neg (by omega), if_neg (by omega)]

theorem mul_apart {cs i j : Nat} (hij : i ≠ j) : i * cs + cs ≤ j * cs ∨ j * cs + cs ≤ i * cs := by
  rcases Nat.lt_or_gt_of_ne hij with h | h
  · left
    have := Nat.mul_le_mul_right cs h
    rwa [Nat.succ_mul] at this
  · right
    have := Nat.mul_le_mul_right cs h
    rwa [Nat.succ_mul] at this

theorem subchunksFor_ok {h : SuperHead} {w : Rect} {subs : List WindowSubchunk} (hs : h.subchunksFor w = some subs) :
    (∀ sub ∈ subs, SubOk w sub) ∧ subs.Pairwise fun a b => a.slice.Apart b.slice := by
  unfold SuperHead.subchunksFor at hs
  split at hs
  · cases hs
  split at hs
  · simp only at hs
    have := collect_pairwise (R := fun a b : WindowSubchunk => a.slice.Apart b.slice)
      (fun row (sub : WindowSubchunk) => SubOk w sub ∧ row * h.chunksSidelen ≤ w.top + sub.slice.top ∧
        w.top + sub.slice.bottom ≤ row * h.chunksSidelen + h.chunksSidelen) hs ?_ ?_
    · refine ⟨fun sub hsub => ?_, this.1⟩
      obtain ⟨_, _, h1, _⟩ := this.2 sub hsub
      exact h1
    · intro row hrow l' hl'
      split at hl'
      · cases hl'
      · rename_i ct cb lt lb st sb h1
        obtain ⟨o1, c1⟩ := sideSlices_ok h1
        have := collect_pairwise (R := fun a b : WindowSubchunk => a.slice.Apart b.slice)
          (fun col (sub : WindowSubchunk) => (SubOk w sub ∧ row * h.chunksSidelen ≤ w.top + sub.slice.top ∧
            w.top + sub.slice.bottom ≤ row * h.chunksSidelen + h.chunksSidelen) ∧
            col * h.chunksSidelen ≤ w.left + sub.slice.left ∧
            w.left + sub.slice.right ≤ col * h.chunksSidelen + h.chunksSidelen) hl' ?_ ?_
        · refine ⟨this.1, fun sub hsub => ?_⟩
          obtain ⟨_, _, h2, _⟩ := this.2 sub hsub
          exact h2
        · intro col hcol l'' hl''
          split at hl''
          · cases hl''
          · rename_i cl cr ll lr sl sr h2
            obtain ⟨o2, c2⟩ := sideSlices_ok h2
            cases hl''
            refine ⟨List.pairwise_singleton _ _, fun sub hsub => ?_⟩
            rw [List.mem_singleton] at hsub
            subst hsub
            simp only [Rect.new_of_le o1.loc o2.loc, Rect.new_of_le o1.slice o2.slice]
            exact ⟨⟨⟨o1.loc, o2.loc, o1.slice, o2.slice, o1.within, o2.within, o1.same, o2.same⟩, o1.from_, o1.upto⟩,
              o2.from_, o2.upto⟩
        · refine pairwise_of_nodup (rangeIncl_nodup _ _) fun x y hxy a b ha hb => ?_
          have := mul_apart (cs := h.chunksSidelen) hxy
          unfold Rect.Apart
          omega
    · refine pairwise_of_nodup (rangeIncl_nodup _ _) fun x y hxy a b ha hb => ?_
      have := mul_apart (cs := h.chunksSidelen) hxy
      unfold Rect.Apart
      omega
  · cases hs

theorem Span.pieces_ok {stride instants : Nat} : ∀ {fuel span instant start : Nat} {ps : List Piece},
    Span.pieces stride instants fuel span instant start = some ps →
    (∀ p ∈ ps, start ≤ p.start ∧ p.start + p.len ≤ instants) ∧
      ps.Pairwise fun a b => a.start + a.len ≤ b.start
  | 0, _, _, _, _, h => by simp [Span.pieces] at h
  | fuel + 1, span, instant, start, ps, h => by
    unfold Span.pieces at h
    split at h
    · rename_i hlt
      split at h
      · cases h
      · rename_i room hroom
        simp only at h
        obtain ⟨l, hl, rfl⟩ := Option.map_eq_some_iff.1 h
        obtain ⟨h1, h2⟩ := Span.pieces_ok hl
        constructor
        · intro p hp
          rcases List.mem_cons.1 hp with rfl | hp
          · simp only
            omega
          · have := h1 p hp
            omega
        · rw [List.pairwise_cons]
          exact ⟨fun p hp => (h1 p hp).1, h2⟩
    · cases h
      exact ⟨fun p hp => (nomatch hp), .nil⟩

theorem Span.piecesFor_ok {s : Span} {start instants : Nat} {ps : List Piece} (h : s.piecesFor start instants = some ps) :
    (∀ p ∈ ps, p.start + p.len ≤ instants) ∧ ps.Pairwise fun a b => a.start + a.len ≤ b.start := by
  unfold Span.piecesFor at h
  split at h
  · cases h
  · obtain ⟨h1, h2⟩ := Span.pieces_ok h
    exact ⟨fun p hp => (h1 p hp).2, h2⟩

/-! ### Operations that write every position at most once -/

namespace Out

variable {β γ π ρ : Type}

/-- In every run the positions are different ones, all in `B`. -/
def WritesOnce (o : Out β) (pos : β → π) (B : π → Prop) : Prop := ∀ t s, o t s → Once pos B t

theorem WritesOnce.fail {pos : β → π} {B : π → Prop} (f : Fail) : WritesOnce (Out.fail f) pos B := by
  rintro t s ⟨rfl, -⟩
  exact .nil

theorem WritesOnce.ofOption {pos : β → π} {B : π → Prop} {x : Option (List β)} (h : ∀ l, x = some l → Once pos B l) :
    WritesOnce (Out.ofOption x) pos B := by
  cases x with
  | none => exact .fail _
  | some l =>
    rintro t s ⟨rfl, -⟩
    exact h _ rfl

theorem WritesOnce.await {α : Type} {pos : β → π} {B : π → Prop} {x : Except Fail α} {k : α → Out β}
    (h : ∀ a, x = .ok a → WritesOnce (k a) pos B) : WritesOnce (Out.await x k) pos B := by
  cases x with
  | error f => exact .fail _
  | ok a => exact h a rfl

theorem WritesOnce.map {pos : β → π} {B : π → Prop} {o : Out β} {f : β → γ} {pos' : γ → ρ} {B' : ρ → Prop}
    (h : WritesOnce o pos B) (g : π → ρ) (hg : ∀ x, pos' (f x) = g (pos x))
    (hi : ∀ p q, B p → B q → g p = g q → p = q) (hB : ∀ p, B p → B' (g p)) : WritesOnce (o.map f) pos' B' := by
  rintro t s ⟨t', ht', rfl⟩
  exact (h t' s ht').map g hg hi hB

theorem once_partial {pos : β → π} {B : π → Prop} {rs : List (List β × Option Fail)} {Bs : List (π → Prop)} {t : List β}
    (h : List.Forall₂ (fun r B => Once pos B r.1) rs Bs) (hd : Bs.Pairwise fun B B' => ∀ p, B p → B' p → False)
    (hB : ∀ B' ∈ Bs, ∀ p, B' p → B p) (ht : Partial rs t) : Once pos B t := by
  obtain ⟨pre, hpre, hint⟩ := ht
  refine Once.perm (Once.flatten (ls := pre) ?_ hd hB) hint.perm
  clear hd hB hint
  induction hpre generalizing Bs with
  | nil => cases h; exact .nil
  | cons h1 h2 ih =>
    cases h with
    | cons h3 h4 => exact .cons (h3.sublist h1.sublist) (ih h4)

theorem partial_all {rs : List (List β × Option Fail)} {t : List β} (h : Interleave (rs.map Prod.fst) t) :
    Partial rs t := by
  refine ⟨rs.map Prod.fst, ?_, h⟩
  rw [List.forall₂_map_right_iff]
  exact List.forall₂_same.2 fun r _ => List.prefix_refl _

theorem once_runs {ι : Type} {pos : β → π} {xs : List ι} {o : ι → Out β} {S : ι → π → Prop}
    (h : ∀ x ∈ xs, WritesOnce (o x) pos (S x)) {rs : List (List β × Option Fail)} (hr : Runs (xs.map o) rs) :
    List.Forall₂ (fun r B => Once pos B r.1) rs (xs.map S) := by
  induction xs generalizing rs with
  | nil => cases hr; exact .nil
  | cons x xs ih =>
    cases hr with
    | cons h1 h2 => exact .cons (h x (by simp) _ _ h1) (ih (fun y hy => h y (by simp [hy])) h2)

theorem WritesOnce.tryAll {ι : Type} {pos : β → π} {B : π → Prop} {xs : List ι} {o : ι → Out β} {S : ι → π → Prop}
    (h : ∀ x ∈ xs, WritesOnce (o x) pos (S x)) (hd : xs.Pairwise fun x y => ∀ p, S x p → S y p → False)
    (hB : ∀ x ∈ xs, ∀ p, S x p → B p) : WritesOnce (Out.tryAll (xs.map o)) pos B := by
  rintro t s ⟨rs, hr, hs⟩
  have hB' : ∀ B' ∈ xs.map S, ∀ p, B' p → B p := by
    intro B' hB'
    obtain ⟨x, hx, rfl⟩ := List.mem_map.1 hB'
    exact hB x hx
  refine once_partial (once_runs h hr) (List.pairwise_map.2 hd) hB' ?_
  cases s with
  | none => exact partial_all hs.2
  | some f => exact hs.2

theorem WritesOnce.joinAll {ι : Type} {pos : β → π} {B : π → Prop} {xs : List ι} {o : ι → Out β} {S : ι → π → Prop}
    (h : ∀ x ∈ xs, WritesOnce (o x) pos (S x)) (hd : xs.Pairwise fun x y => ∀ p, S x p → S y p → False)
    (hB : ∀ x ∈ xs, ∀ p, S x p → B p) : WritesOnce (Out.joinAll (xs.map o)) pos B := by
  rintro t s ⟨rs, hr, hs⟩
  have hB' : ∀ B' ∈ xs.map S, ∀ p, B' p → B p := by
    intro B' hB'
    obtain ⟨x, hx, rfl⟩ := List.mem_map.1 hB'
    exact hB x hx
  refine once_partial (once_runs h hr) (List.pairwise_map.2 hd) hB' ?_
  cases s with
  | none => exact partial_all hs.2
  | some f => exact hs.2.2

end Out

section
variable {utf8 : List Byte → Bool} {st : Store}

theorem SuperHead.elidedWindow_once {h : SuperHead} {w : Cube} {index : Nat} {l : List (Nat × Nat × Nat × Int64)}
    (he : h.elidedWindow w index = some l) :
    Once posC (InCube (w.fin - w.start) (w.bottom - w.top) (w.right - w.left)) l := by
  unfold SuperHead.elidedWindow at he
  split at he
  · rename_i n rows cols hn hr hc
    unfold Cube.instants csub at hn
    unfold Cube.rows csub at hr
    unfold Cube.cols csub at hc
    split at hn <;> cases hn
    split at hr <;> cases hr
    split at hc <;> cases hc
    refine Once.collect (fun i p => p.1 = i ∧ InRect (w.bottom - w.top) (w.right - w.left) p.2) he ?_ ?_ ?_
    · intro i hi l' hl'
      split at hl'
      · cases hl'
      · rename_i v _
        cases hl'
        have := (emitAll_once (w.bottom - w.top) (w.right - w.left) v).map (f := fun x => (i, x)) (pos' := posC)
          (B' := fun p => p.1 = i ∧ InRect (w.bottom - w.top) (w.right - w.left) p.2)
          (fun p => (i, p)) (fun x => rfl) (fun p q _ _ e => (Prod.mk.inj e).2) (fun p hp => ⟨rfl, hp⟩)
        unfold emitAll rangeExcl at this
        rw [List.map_flatMap] at this
        simp only [List.map_map, Nat.sub_zero, Function.comp_def] at this
        simpa only [List.range_eq_range'] using this
    · exact pairwise_of_nodup List.nodup_range fun x y hxy p h1 h2 => hxy (h1.1.symm.trans h2.1)
    · intro i hi p hp
      rw [List.mem_range] at hi
      exact ⟨by omega, hp.2⟩
  · cases he

theorem Once.posC3 {l : List (Nat × Nat × Nat × Int64)} {B : Nat × Nat × Nat → Prop} (h : Once posC B l) (bits : Nat) :
    Once pos3 B (l.map fun p => (p.1, p.2.1, p.2.2.1, bits, p.2.2.2)) :=
  h.map id (fun _ => rfl) (fun _ _ _ _ e => e) fun _ hp => hp

/-- A window read writes every position of the output at most once, whatever is read. -/
theorem MMStruct3.fillWindow_once : ∀ (fuel : Nat) (m : MMStruct3) (bits : Nat) (w : Cube), w.Ordered →
    (m.fillWindow utf8 st fuel bits w).WritesOnce pos3
      (InCube (w.fin - w.start) (w.bottom - w.top) (w.right - w.left))
  | 0, m, bits, w, _ => by
    unfold MMStruct3.fillWindow
    exact .fail _
  | fuel + 1, m, bits, w, hw => by
    have ih := MMStruct3.fillWindow_once fuel
    cases m with
    | subchunk c =>
      rw [MMStruct3.fillWindow]
      refine .ofOption fun l hl => ?_
      obtain ⟨l', hl', rfl⟩ := Option.map_eq_some_iff.1 hl
      exact (Chunk.fillWindow_once hw hl').posC3 bits
    | superchunk h loc =>
      rw [MMStruct3.fillWindow]
      cases hs : h.subchunksFor w.rect with
      | none => exact .fail _
      | some subs =>
        simp only
        obtain ⟨h1, h2⟩ := subchunksFor_ok hs
        rw [hw.rect] at h1
        refine Out.WritesOnce.joinAll (S := fun (sub : WindowSubchunk) p => p.1 < w.fin - w.start ∧
          (sub.slice.top ≤ p.2.1 ∧ p.2.1 < sub.slice.bottom) ∧ sub.slice.left ≤ p.2.2 ∧ p.2.2 < sub.slice.right) ?_ ?_ ?_
        · intro sub hsub
          have hk := h1 sub hsub
          have ho : (Cube.new w.start w.fin sub.loc.top sub.loc.bottom sub.loc.left sub.loc.right).Ordered :=
            Cube.new_ordered _ _ _ _ _ _
          have e := Cube.new_eq hw.time hk.top hk.left
          have hr := hk.rows
          have hc := hk.cols
          have hst := hk.stop
          have hsl := hk.sleft
          refine Out.WritesOnce.map (pos := pos3) (B := InCube (w.fin - w.start) (sub.loc.bottom - sub.loc.top)
            (sub.loc.right - sub.loc.left)) ?_ (fun p => (p.1, sub.slice.top + p.2.1, sub.slice.left + p.2.2))
            (fun x => rfl) ?_ ?_
          · split
            · exact .fail _
            · refine .ofOption fun l hl => ?_
              obtain ⟨l', hl', rfl⟩ := Option.map_eq_some_iff.1 hl
              have := SuperHead.elidedWindow_once hl'
              rw [e] at this
              exact this.posC3 bits
            · refine .await fun m' hm' => ?_
              have := ih m' m'.fractionalBits _ ho
              rw [e] at this
              rw [e]
              exact this
          · rintro ⟨a, b, c⟩ ⟨a', b', c'⟩ _ _ heq
            simp only [Prod.mk.injEq] at heq ⊢
            omega
          · rintro ⟨a, b, c⟩ hp
            unfold InCube at hp
            simp only at hp ⊢
            omega
        · refine h2.imp fun {a b} hab p ha hb => ?_
          unfold Rect.Apart at hab
          omega
        · intro sub hsub p hp
          have hk := h1 sub hsub
          have b1 := hk.bottom
          have b2 := hk.right
          simp only at b1 b2
          unfold InCube
          omega
    | span s =>
      rw [MMStruct3.fillWindow]
      cases hi : w.instants with
      | none => exact .fail _
      | some instants =>
        simp only
        cases hp : s.piecesFor w.start instants with
        | none => exact .fail _
        | some ps =>
          simp only
          split
          · unfold Cube.instants csub at hi
            split at hi <;> cases hi
            obtain ⟨h1, h2⟩ := Span.piecesFor_ok hp
            refine Out.WritesOnce.tryAll (S := fun (q : Piece) p => (q.start ≤ p.1 ∧ p.1 < q.start + q.len) ∧
              p.2.1 < w.bottom - w.top ∧ p.2.2 < w.right - w.left) ?_ ?_ ?_
            · intro q hq
              split
              · exact .fail _
              · refine .await fun m' hm' => ?_
                have ho := Cube.new_eq (start := q.instant) (fin := q.instant + q.len) (by omega) hw.rows hw.cols
                have := ih m' m'.fractionalBits (Cube.new q.instant (q.instant + q.len) w.top w.bottom w.left w.right)
                  (Cube.new_ordered _ _ _ _ _ _)
                refine Out.WritesOnce.map (pos := pos3) this (fun p => (q.start + p.1, p.2)) (fun x => rfl) ?_ ?_
                · rintro ⟨a, b⟩ ⟨a', b'⟩ _ _ heq
                  simp only [Prod.mk.injEq] at heq ⊢
                  exact ⟨by omega, heq.2⟩
                · rintro ⟨a, b⟩ hp
                  rw [ho] at hp
                  unfold InCube at hp
                  simp only at hp ⊢
                  omega
            · refine h2.imp fun {a b} hab p ha hb => ?_
              omega
            · intro q hq p hp
              have := h1 q hq
              unfold InCube
              omega
          · exact .fail _

theorem SuperHead.elidedCell_once {h : SuperHead} {start fin index : Nat} {l : List (Nat × Int64)}
    (he : h.elidedCell start fin index = some l) : Once Prod.fst (· < fin - start) l := by
  unfold SuperHead.elidedCell csub at he
  split at he
  · cases he
  · rename_i n hn
    split at hn <;> cases hn
    refine Once.collect (fun i p => p = i) he ?_ ?_ ?_
    · intro i hi l' hl'
      obtain ⟨v, hv, rfl⟩ := Option.map_eq_some_iff.1 hl'
      exact Once.single rfl
    · exact pairwise_of_nodup List.nodup_range fun x y hxy p h1 h2 => hxy (h1.symm.trans h2)
    · intro i hi p hp
      rw [List.mem_range] at hi
      omega

theorem Once.posC1 {l : List (Nat × Int64)} {B : Nat → Prop} (h : Once Prod.fst B l) (bits : Nat) :
    Once Prod.fst B (l.map fun p => (p.1, bits, p.2)) :=
  h.map id (fun _ => rfl) (fun _ _ _ _ e => e) fun _ hp => hp

theorem MMStruct3.fillCell_once : ∀ (fuel : Nat) (m : MMStruct3) (bits start fin row col : Nat),
    (m.fillCell utf8 st fuel bits start fin row col).WritesOnce Prod.fst (· < fin - start)
  | 0, m, bits, start, fin, row, col => by
    unfold MMStruct3.fillCell
    exact .fail _
  | fuel + 1, m, bits, start, fin, row, col => by
    have ih := MMStruct3.fillCell_once fuel
    cases m with
    | subchunk c =>
      rw [MMStruct3.fillCell]
      refine .ofOption fun l hl => ?_
      obtain ⟨l', hl', rfl⟩ := Option.map_eq_some_iff.1 hl
      exact (Chunk.fillCell_once hl').posC1 bits
    | superchunk h loc =>
      rw [MMStruct3.fillCell]
      split
      · exact .fail _
      · split
        · exact .fail _
        · refine .ofOption fun l hl => ?_
          obtain ⟨l', hl', rfl⟩ := Option.map_eq_some_iff.1 hl
          exact (SuperHead.elidedCell_once hl').posC1 bits
        · exact .await fun m' hm' => ih _ _ _ _ _ _
    | span s =>
      rw [MMStruct3.fillCell]
      cases hi : csub fin start with
      | none => exact .fail _
      | some instants =>
        simp only
        cases hp : s.piecesFor start instants with
        | none => exact .fail _
        | some ps =>
          simp only
          split
          · unfold csub at hi
            split at hi <;> cases hi
            obtain ⟨h1, h2⟩ := Span.piecesFor_ok hp
            refine Out.WritesOnce.tryAll (S := fun (q : Piece) p => q.start ≤ p ∧ p < q.start + q.len) ?_ ?_ ?_
            · intro q hq
              split
              · exact .fail _
              · refine .await fun m' hm' => ?_
                refine Out.WritesOnce.map (pos := Prod.fst) (ih m' m'.fractionalBits q.instant (q.instant + q.len) row col)
                  (fun p => q.start + p) (fun x => rfl) ?_ ?_
                · intro a b _ _ heq
                  omega
                · intro a ha
                  omega
            · refine h2.imp fun {a b} hab p ha hb => ?_
              omega
            · intro q hq p hp
              have := h1 q hq
              omega
          · exact .fail _

end

/-! ### Reading through views -/

namespace Out

variable {β γ : Type}

theorem interleave_map {ls : List (List β)} {t : List β} (g : β → γ) (h : Interleave ls t) :
    Interleave (ls.map (List.map g)) (t.map g) := by
  induction h with
  | done h =>
    refine .done fun l hl => ?_
    obtain ⟨l', hl', rfl⟩ := List.mem_map.1 hl
    rw [h l' hl', List.map_nil]
  | @step ls i x xs t h1 _ ih =>
    refine .step (i := i) (xs := xs.map g) ?_ ?_
    · rw [List.getElem?_map, h1]
      rfl
    · rw [List.map_set] at ih
      exact ih

theorem interleave_of_map {ls : List (List β)} {t' : List γ} {g : β → γ}
    (h : Interleave (ls.map (List.map g)) t') : ∃ t, Interleave ls t ∧ t' = t.map g := by
  generalize hm : ls.map (List.map g) = ms at h
  induction h generalizing ls with
  | done h =>
    subst hm
    refine ⟨[], .done fun l hl => ?_, rfl⟩
    exact List.map_eq_nil_iff.1 (h _ (List.mem_map_of_mem hl))
  | @step ms i x xs t h1 _ ih =>
    subst hm
    rw [List.getElem?_map, Option.map_eq_some_iff] at h1
    obtain ⟨l, h2, h3⟩ := h1
    obtain ⟨y, ys, rfl, rfl, rfl⟩ := List.map_eq_cons_iff.1 h3
    obtain ⟨t', h4, rfl⟩ := ih (ls := ls.set i ys) (by rw [List.map_set])
    exact ⟨y :: t', .step h2 h4, rfl⟩

theorem runs_of_map {ps : List (Out β)} {g : β → γ} {rs : List (List γ × Option Fail)}
    (h : Runs (ps.map (Out.map g)) rs) : ∃ rs', Runs ps rs' ∧ rs = rs'.map fun r => (r.1.map g, r.2) := by
  induction ps generalizing rs with
  | nil =>
    cases h
    exact ⟨[], .nil, rfl⟩
  | cons p ps ih =>
    cases h with
    | @cons _ r _ rs h1 h2 =>
      obtain ⟨rs', h3, rfl⟩ := ih h2
      obtain ⟨t', h4, h5⟩ := h1
      refine ⟨(t', r.2) :: rs', .cons h4 h3, ?_⟩
      rw [List.map_cons, ← h5]

theorem partial_map {rs : List (List β × Option Fail)} {t : List β} (g : β → γ) (h : Partial rs t) :
    Partial (rs.map fun r => (r.1.map g, r.2)) (t.map g) := by
  obtain ⟨pre, h1, h2⟩ := h
  refine ⟨pre.map (List.map g), ?_, interleave_map g h2⟩
  rw [List.forall₂_map_left_iff, List.forall₂_map_right_iff]
  exact h1.imp fun r l hl => hl.map g

theorem partial_of_map {rs : List (List β × Option Fail)} {t' : List γ} {g : β → γ}
    (h : Partial (rs.map fun r => (r.1.map g, r.2)) t') : ∃ t, Partial rs t ∧ t' = t.map g := by
  obtain ⟨pre, h1, h2⟩ := h
  have : ∃ pre', List.Forall₂ (fun r l => l <+: r.1) rs pre' ∧ pre = pre'.map (List.map g) := by
    clear h2
    induction rs generalizing pre with
    | nil =>
      cases h1
      exact ⟨[], .nil, rfl⟩
    | cons r rs ih =>
      cases h1 with
      | @cons _ l _ pre h3 h4 =>
        obtain ⟨pre', h5, rfl⟩ := ih _ h4
        obtain ⟨u, hu⟩ := h3
        obtain ⟨l1, l2, h6, h7, h8⟩ := List.map_eq_append_iff.1 hu.symm
        refine ⟨l1 :: pre', .cons ⟨l2, h6.symm⟩ h5, ?_⟩
        rw [List.map_cons, h7]
  obtain ⟨pre', h3, rfl⟩ := this
  obtain ⟨t, h4, rfl⟩ := interleave_of_map h2
  exact ⟨t, ⟨pre', h3, h4⟩, rfl⟩

theorem map_joinAll (ps : List (Out β)) (g : β → γ) : (joinAll ps).map g = joinAll (ps.map (Out.map g)) := by
  funext t s
  apply propext
  constructor
  · rintro ⟨t', ⟨rs, hr, hs⟩, rfl⟩
    refine ⟨_, map_runs hr, ?_⟩
    cases s with
    | none =>
      refine ⟨fun r hm => ?_, ?_⟩
      · obtain ⟨r', hm', rfl⟩ := List.mem_map.1 hm
        exact hs.1 r' hm'
      · have := interleave_map g hs.2
        rw [List.map_map] at this ⊢
        exact this
    | some f =>
      obtain ⟨h1, ⟨r, hm, h2⟩, h3⟩ := hs
      exact ⟨h1, ⟨_, List.mem_map_of_mem hm, h2⟩, partial_map g h3⟩
  · rintro ⟨rs, hr, hs⟩
    obtain ⟨rs, hr', rfl⟩ := runs_of_map hr
    cases s with
    | none =>
      have h2 := hs.2
      rw [List.map_map] at h2
      have h3 : Interleave ((rs.map Prod.fst).map (List.map g)) t := by
        rw [List.map_map]
        exact h2
      obtain ⟨t', h4, rfl⟩ := interleave_of_map h3
      exact ⟨t', ⟨rs, hr', fun r hm => hs.1 _ (List.mem_map_of_mem hm), h4⟩, rfl⟩
    | some f =>
      obtain ⟨h1, ⟨r, hm, h2⟩, h3⟩ := hs
      obtain ⟨r', hm', rfl⟩ := List.mem_map.1 hm
      obtain ⟨t', h4, rfl⟩ := partial_of_map h3
      exact ⟨t', ⟨rs, hr', h1, ⟨r', hm', h2⟩, h4⟩, rfl⟩

theorem map_tryAll (ps : List (Out β)) (g : β → γ) : (tryAll ps).map g = tryAll (ps.map (Out.map g)) := by
  funext t s
  apply propext
  constructor
  · rintro ⟨t', ⟨rs, hr, hs⟩, rfl⟩
    refine ⟨_, map_runs hr, ?_⟩
    cases s with
    | none =>
      refine ⟨fun r hm => ?_, ?_⟩
      · obtain ⟨r', hm', rfl⟩ := List.mem_map.1 hm
        exact hs.1 r' hm'
      · have := interleave_map g hs.2
        rw [List.map_map] at this ⊢
        exact this
    | some f =>
      obtain ⟨⟨r, hm, h2⟩, h3⟩ := hs
      exact ⟨⟨_, List.mem_map_of_mem hm, h2⟩, partial_map g h3⟩
  · rintro ⟨rs, hr, hs⟩
    obtain ⟨rs, hr', rfl⟩ := runs_of_map hr
    cases s with
    | none =>
      have h2 := hs.2
      rw [List.map_map] at h2
      have h3 : Interleave ((rs.map Prod.fst).map (List.map g)) t := by
        rw [List.map_map]
        exact h2
      obtain ⟨t', h4, rfl⟩ := interleave_of_map h3
      exact ⟨t', ⟨rs, hr', fun r hm => hs.1 _ (List.mem_map_of_mem hm), h4⟩, rfl⟩
    | some f =>
      obtain ⟨⟨r, hm, h2⟩, h3⟩ := hs
      obtain ⟨r', hm', rfl⟩ := List.mem_map.1 hm
      obtain ⟨t', h4, rfl⟩ := partial_of_map h3
      exact ⟨t', ⟨rs, hr', ⟨r', hm', h2⟩, h4⟩, rfl⟩

theorem map_fail (f : Fail) (g : β → γ) : (Out.fail f : Out β).map g = Out.fail f := by
  funext t s
  apply propext
  constructor
  · rintro ⟨t', ⟨rfl, h⟩, rfl⟩
    exact ⟨rfl, h⟩
  · rintro ⟨rfl, h⟩
    exact ⟨[], ⟨rfl, h⟩, rfl⟩

theorem map_ofOption (x : Option (List β)) (g : β → γ) : (ofOption x).map g = ofOption (x.map (List.map g)) := by
  cases x with
  | none => exact map_fail _ _
  | some l => exact map_emit _ _

theorem map_await {α : Type} (x : Except Fail α) (k : α → Out β) (g : β → γ) :
    (await x k).map g = await x fun a => (k a).map g := by
  cases x with
  | error f => exact map_fail _ _
  | ok a => rfl

end Out

/-- A window has the shape of a view. -/
structure View3.Fits (v : View3) (w : Cube) : Prop where
  instants : v.instants = w.fin - w.start
  rows : v.rows = w.bottom - w.top
  cols : v.cols = w.right - w.left

/-- A call in a view, as a call in the array. -/
def View3.shift {α : Type} (v : View3) (q : Nat × Nat × Nat × α) : Nat × Nat × Nat × α :=
  (v.instant + q.1, v.row + q.2.1, v.col + q.2.2.1, q.2.2.2)

def View1.shift {α : Type} (v : View1) (q : Nat × α) : Nat × α := (v.start + q.1, q.2)

theorem collect_map {α β : Type} {f : α → Option (List β)} {g : α → β} : ∀ {xs : List α},
    (∀ x ∈ xs, f x = some [g x]) → collect xs f = some (xs.map g)
  | [], _ => rfl
  | x :: xs, h => by
    unfold collect
    rw [h x (by simp), collect_map fun y hy => h y (by simp [hy])]
    rfl

theorem collect_translate {α β γ : Type} {f : α → Option (List β)} {f' : α → Option (List γ)} {g : β → γ} :
    ∀ {xs : List α}, (∀ x ∈ xs, f' x = (f x).map (List.map g)) → collect xs f' = (collect xs f).map (List.map g)
  | [], _ => rfl
  | x :: xs, h => by
    unfold collect
    rw [h x (by simp), collect_translate fun y hy => h y (by simp [hy])]
    cases f x with
    | none => rfl
    | some a =>
      cases collect xs f with
      | none => rfl
      | some b => simp

section
variable {utf8 : List Byte → Bool} {st : Store}

theorem View3.set_all {v : View3} {calls : List (Nat × Nat × Nat × Int64)} {bits : Nat}
    (h : ∀ q ∈ calls, InCube v.instants v.rows v.cols (posC q)) :
    (collect calls fun q => (v.set q.1 q.2.1 q.2.2.1).map fun p => [(p.1, p.2.1, p.2.2, bits, q.2.2.2)]) =
      some ((calls.map fun p => (p.1, p.2.1, p.2.2.1, bits, p.2.2.2)).map v.shift) := by
  rw [List.map_map]
  refine collect_map fun q hq => ?_
  have := h q hq
  unfold InCube posC at this
  unfold View3.set
  rw [if_pos (by simp only at this; omega)]
  rfl

theorem Once.bound {α π : Type} {pos : α → π} {B : π → Prop} {l : List α} (h : Once pos B l) : ∀ x ∈ l, B (pos x) := by
  exact h.2

theorem SuperHead.elidedFill_eq {h : SuperHead} {w : Cube} {v : View3} (hf : v.Fits w) (hw : w.Ordered) (index : Nat) :
    h.elidedFill w index v = (h.elidedWindow w index).map (List.map v.shift) := by
  have e1 : w.instants = some v.instants := by
    unfold Cube.instants csub
    rw [if_pos hw.time, hf.instants]
  have e2 : w.rows = some v.rows := by
    unfold Cube.rows csub
    rw [if_pos hw.rows, hf.rows]
  have e3 : w.cols = some v.cols := by
    unfold Cube.cols csub
    rw [if_pos hw.cols, hf.cols]
  unfold SuperHead.elidedFill SuperHead.elidedWindow
  rw [e1, e2, e3]
  simp only
  refine collect_translate fun i hi => ?_
  cases h.max.get (h.slot index (w.start + i)) with
  | none => rfl
  | some x =>
    simp only [View3.fillInstant]
    rw [if_pos (List.mem_range.1 hi)]
    simp [List.map_flatMap, View3.shift, Function.comp_def]

theorem View3.forSubchunk_eq {v : View3} {w : Cube} {sub : WindowSubchunk} (hw : w.Ordered) (hf : v.Fits w)
    (hk : SubOk w.rect sub) : v.forSubchunk w sub = some ⟨v.instant, v.row + sub.slice.top, v.col + sub.slice.left,
      w.fin - w.start, sub.slice.bottom - sub.slice.top, sub.slice.right - sub.slice.left⟩ := by
  have h1 := hk.bottom
  have h2 := hk.right
  rw [hw.rect] at h1 h2
  unfold View3.forSubchunk csub
  rw [if_pos hw.time]
  simp only
  unfold View3.slice
  rw [if_pos]
  · rfl
  · refine ⟨⟨by omega, ?_⟩, ⟨hk.stop, ?_⟩, hk.sleft, ?_⟩
    · rw [hf.instants]
    · rw [hf.rows]
      exact h1
    · rw [hf.cols]
      exact h2

/-- The bounds of a subchunk fit its slice. -/
theorem SubOk.fits {v : View3} {w : Cube} {sub : WindowSubchunk} (hw : w.Ordered) (hk : SubOk w.rect sub) :
    (View3.mk v.instant (v.row + sub.slice.top) (v.col + sub.slice.left)
      (w.fin - w.start) (sub.slice.bottom - sub.slice.top) (sub.slice.right - sub.slice.left)).Fits
      (Cube.new w.start w.fin sub.loc.top sub.loc.bottom sub.loc.left sub.loc.right) := by
  rw [Cube.new_eq hw.time hk.top hk.left]
  exact ⟨rfl, hk.rows.symm, hk.cols.symm⟩

/-- Reading through a view that has the shape of the window is reading the window: no slice is out of range,
no call to `set` is. -/
theorem MMStruct3.fillView_eq : ∀ (fuel : Nat) (m : MMStruct3) (bits : Nat) (w : Cube) (v : View3), w.Ordered →
    v.Fits w → m.fillView utf8 st fuel bits w v = (m.fillWindow utf8 st fuel bits w).map v.shift
  | 0, m, bits, w, v, _, _ => by
    unfold MMStruct3.fillView MMStruct3.fillWindow
    rw [Out.map_fail]
  | fuel + 1, m, bits, w, v, hw, hf => by
    have ih := MMStruct3.fillView_eq fuel
    cases m with
    | subchunk c =>
      rw [MMStruct3.fillView, MMStruct3.fillWindow]
      cases hc : c.fillWindow w with
      | none => exact (Out.map_fail _ _).symm
      | some calls =>
        simp only [Option.map_some]
        rw [View3.set_all, Out.map_ofOption]
        · rfl
        · intro q hq
          have := (Chunk.fillWindow_once hw hc).bound q hq
          rw [hf.instants, hf.rows, hf.cols]
          exact this
    | superchunk h loc =>
      rw [MMStruct3.fillView, MMStruct3.fillWindow]
      cases hs : h.subchunksFor w.rect with
      | none => exact (Out.map_fail _ _).symm
      | some subs =>
        simp only
        obtain ⟨h1, -⟩ := subchunksFor_ok hs
        rw [collect_map (g := fun sub : WindowSubchunk => (sub, View3.mk v.instant (v.row + sub.slice.top)
          (v.col + sub.slice.left) (w.fin - w.start) (sub.slice.bottom - sub.slice.top)
          (sub.slice.right - sub.slice.left)))]
        · simp only
          rw [Out.map_joinAll, List.map_map, List.map_map]
          congr 1
          refine List.map_congr_left fun sub hsub => ?_
          have hk := h1 sub hsub
          simp only [Function.comp_def]
          rw [Out.map_map]
          cases h.references[sub.index]? with
          | none => exact (Out.map_fail _ _).symm
          | some ref =>
            have key : ∀ (q : Nat × Nat × Nat × Nat × Int64),
                v.shift (q.1, sub.slice.top + q.2.1, sub.slice.left + q.2.2.1, q.2.2.2) =
                (View3.mk v.instant (v.row + sub.slice.top)
                  (v.col + sub.slice.left) (w.fin - w.start) (sub.slice.bottom - sub.slice.top)
                  (sub.slice.right - sub.slice.left)).shift q := by
              intro q
              unfold View3.shift
              simp only [Nat.add_assoc]
            simp only [key]
            cases ref with
            | elided =>
              simp only
              rw [SuperHead.elidedFill_eq (hk.fits hw) (Cube.new_ordered _ _ _ _ _ _), Out.map_ofOption,
                Option.map_map, Option.map_map]
              congr 2
              funext l
              simp only [Function.comp_def, List.map_map]
              rfl
            | loc i =>
              simp only
              rw [Out.map_await]
              congr 1
              funext m'
              exact ih _ _ _ _ (Cube.new_ordered _ _ _ _ _ _) (hk.fits hw)
            | external i =>
              simp only
              rw [Out.map_await]
              congr 1
              funext m'
              exact ih _ _ _ _ (Cube.new_ordered _ _ _ _ _ _) (hk.fits hw)
        · intro sub hsub
          rw [View3.forSubchunk_eq hw hf (h1 sub hsub)]
          rfl
    | span s =>
      rw [MMStruct3.fillView, MMStruct3.fillWindow]
      have e1 : w.instants = some v.instants := by
        unfold Cube.instants csub
        rw [if_pos hw.time, hf.instants]
      rw [e1]
      simp only
      cases hp : s.piecesFor w.start v.instants with
      | none => exact (Out.map_fail _ _).symm
      | some ps =>
        simp only
        obtain ⟨h1, -⟩ := Span.piecesFor_ok hp
        rw [collect_map (g := fun p : Piece => (p, View3.mk (v.instant + p.start) (v.row + 0) (v.col + 0)
          (p.start + p.len - p.start) (v.rows - 0) (v.cols - 0)))]
        · simp only
          split
          · rw [Out.map_tryAll, List.map_map, List.map_map]
            congr 1
            refine List.map_congr_left fun p hp => ?_
            simp only [Function.comp_def]
            cases s.spans[p.span]? with
            | none => exact (Out.map_fail _ _).symm
            | some cid =>
              simp only
              rw [Out.map_await]
              congr 1
              funext m'
              rw [Out.map_map, ih _ _ _ _ (Cube.new_ordered _ _ _ _ _ _)]
              · congr 1
                funext q
                unfold View3.shift
                simp only [Nat.add_assoc, Nat.add_zero]
              · rw [Cube.new_eq (by omega) hw.rows hw.cols]
                refine ⟨by simp only; omega, ?_, ?_⟩
                · simp only
                  rw [Nat.sub_zero, hf.rows]
                · simp only
                  rw [Nat.sub_zero, hf.cols]
          · exact (Out.map_fail _ _).symm
        · intro p hp
          have := h1 p hp
          unfold View3.slice
          rw [if_pos (by omega)]
          rfl

theorem View1.set_all {v : View1} {calls : List (Nat × Int64)} {bits : Nat} (h : ∀ q ∈ calls, q.1 < v.len) :
    (collect calls fun q => (v.set q.1).map fun p => [(p, bits, q.2)]) =
      some ((calls.map fun p => (p.1, bits, p.2)).map v.shift) := by
  rw [List.map_map]
  refine collect_map fun q hq => ?_
  unfold View1.set
  rw [if_pos (h q hq)]
  rfl

theorem MMStruct3.fillView1_eq : ∀ (fuel : Nat) (m : MMStruct3) (bits start fin row col : Nat) (v : View1),
    v.len = fin - start →
    m.fillView1 utf8 st fuel bits start fin row col v = (m.fillCell utf8 st fuel bits start fin row col).map v.shift
  | 0, m, bits, start, fin, row, col, v, _ => by
    unfold MMStruct3.fillView1 MMStruct3.fillCell
    rw [Out.map_fail]
  | fuel + 1, m, bits, start, fin, row, col, v, hf => by
    have ih := MMStruct3.fillView1_eq fuel
    cases m with
    | subchunk c =>
      rw [MMStruct3.fillView1, MMStruct3.fillCell]
      cases hc : c.fillCell start fin row col with
      | none => exact (Out.map_fail _ _).symm
      | some calls =>
        simp only [Option.map_some]
        rw [View1.set_all, Out.map_ofOption]
        · rfl
        · intro q hq
          rw [hf]
          exact (Chunk.fillCell_once hc).bound q hq
    | superchunk h loc =>
      rw [MMStruct3.fillView1, MMStruct3.fillCell]
      cases h.locate row col with
      | none => exact (Out.map_fail _ _).symm
      | some x =>
        obtain ⟨index, row, col⟩ := x
        simp only
        cases h.references[index]? with
        | none => exact (Out.map_fail _ _).symm
        | some ref =>
          cases ref with
          | elided =>
            simp only
            cases hc : h.elidedCell start fin index with
            | none => exact (Out.map_fail _ _).symm
            | some calls =>
              simp only [Option.map_some]
              rw [View1.set_all, Out.map_ofOption]
              · rfl
              · intro q hq
                rw [hf]
                exact (SuperHead.elidedCell_once hc).bound q hq
          | loc i =>
            simp only
            rw [Out.map_await]
            congr 1
            funext m'
            exact ih _ _ _ _ _ _ _ hf
          | external i =>
            simp only
            rw [Out.map_await]
            congr 1
            funext m'
            exact ih _ _ _ _ _ _ _ hf
    | span s =>
      rw [MMStruct3.fillView1, MMStruct3.fillCell]
      cases hi : csub fin start with
      | none => exact (Out.map_fail _ _).symm
      | some instants =>
        have e1 : instants = v.len := by
          unfold csub at hi
          split at hi <;> cases hi
          exact hf.symm
        subst e1
        simp only
        cases hp : s.piecesFor start v.len with
        | none => exact (Out.map_fail _ _).symm
        | some ps =>
          simp only
          obtain ⟨h1, -⟩ := Span.piecesFor_ok hp
          rw [collect_map (g := fun p : Piece => (p, View1.mk (v.start + p.start) (p.start + p.len - p.start)))]
          · simp only
            split
            · rw [Out.map_tryAll, List.map_map, List.map_map]
              congr 1
              refine List.map_congr_left fun p hp => ?_
              simp only [Function.comp_def]
              cases s.spans[p.span]? with
              | none => exact (Out.map_fail _ _).symm
              | some cid =>
                simp only
                rw [Out.map_await]
                congr 1
                funext m'
                rw [Out.map_map, ih _ _ _ _ _ _ _ (by simp only; omega)]
                congr 1
                funext q
                unfold View1.shift
                simp only [Nat.add_assoc]
            · exact (Out.map_fail _ _).symm
          · intro p hp
            have := h1 p hp
            unfold View1.slice
            rw [if_pos (by omega)]
            rfl

end

/-! ### Views in use at the same time -/

/-- Of the views, with the ways to the futures that have them: each is in `B`; a view is within the views of the
futures that wait for its future; and views of futures that do not wait for each other are apart. -/
structure Laid {V π : Type} (Has : V → π → Prop) (B : π → Prop) (L : List (List Nat × V)) : Prop where
  within : ∀ x ∈ L, ∀ p, Has x.2 p → B p
  below : ∀ x ∈ L, ∀ y ∈ L, x.1 <+: y.1 → ∀ p, Has y.2 p → Has x.2 p
  apart : ∀ x ∈ L, ∀ y ∈ L, ¬x.1 <+: y.1 → ¬y.1 <+: x.1 → ∀ p, Has x.2 p → Has y.2 p → False

section
variable {V π ι : Type} {Has : V → π → Prop}

theorem Laid.leaf (v : V) : Laid Has (Has v) [([], v)] := by
  refine ⟨?_, ?_, ?_⟩
  · intro x hx p hp
    rw [List.mem_singleton] at hx
    subst hx
    exact hp
  · intro x hx y hy _ p hp
    rw [List.mem_singleton] at hx hy
    subst hx
    subst hy
    exact hp
  · intro x hx y hy h1
    rw [List.mem_singleton] at hx hy
    subst hx
    exact absurd List.nil_prefix h1

theorem Laid.empty (B : π → Prop) : Laid Has B [] :=
  ⟨fun _ h => (nomatch h), fun _ h => (nomatch h), fun _ h => (nomatch h)⟩

theorem Laid.node {v : V} {xs : List ι} {f : ι × Nat → List (List Nat × V)} {B : ι → π → Prop}
    (hd : xs.Pairwise fun x y => ∀ p, B x p → B y p → False) (hb : ∀ x ∈ xs, ∀ p, B x p → Has v p)
    (hf : ∀ x ∈ xs, ∀ i, ∃ L, f (x, i) = L.map (fun y => (i :: y.1, y.2)) ∧ Laid Has (B x) L) :
    Laid Has (Has v) (([], v) :: xs.zipIdx.flatMap f) := by
  have key : ∀ y ∈ xs.zipIdx.flatMap f, ∃ x i L z, xs[i]? = some x ∧ f (x, i) = L.map (fun y => (i :: y.1, y.2)) ∧
      Laid Has (B x) L ∧ z ∈ L ∧ y = (i :: z.1, z.2) := by
    intro y hy
    obtain ⟨⟨x, i⟩, hx, hm⟩ := List.mem_flatMap.1 hy
    rw [List.mk_mem_zipIdx_iff_getElem?] at hx
    obtain ⟨L, h1, h2⟩ := hf x (List.mem_of_getElem? hx) i
    rw [h1] at hm
    obtain ⟨z, hz, rfl⟩ := List.mem_map.1 hm
    exact ⟨x, i, L, z, hx, h1, h2, hz, rfl⟩
  have cut : ∀ {i j : Nat} {x y : ι}, xs[i]? = some x → xs[j]? = some y → i ≠ j → ∀ p, B x p → B y p → False := by
    intro i j x y hx hy hij p h1 h2
    obtain ⟨li, rfl⟩ := List.getElem?_eq_some_iff.1 hx
    obtain ⟨lj, rfl⟩ := List.getElem?_eq_some_iff.1 hy
    rw [List.pairwise_iff_getElem] at hd
    rcases Nat.lt_or_gt_of_ne hij with h | h
    · exact hd i j li lj h p h1 h2
    · exact hd j i lj li h p h2 h1
  have inB : ∀ y ∈ xs.zipIdx.flatMap f, ∀ p, Has y.2 p → Has v p := by
    intro y hy p hp
    obtain ⟨x, i, L, z, hx, -, h2, hz, rfl⟩ := key y hy
    exact hb x (List.mem_of_getElem? hx) p (h2.within z hz p hp)
  refine ⟨?_, ?_, ?_⟩
  · intro y hy p hp
    rcases List.mem_cons.1 hy with rfl | hy
    · exact hp
    · exact inB y hy p hp
  · intro x hx y hy h1 p hp
    rcases List.mem_cons.1 hx with rfl | hx
    · rcases List.mem_cons.1 hy with rfl | hy
      · exact hp
      · exact inB y hy p hp
    · obtain ⟨x', i, L, z, hx', e, l, hz, rfl⟩ := key x hx
      rcases List.mem_cons.1 hy with rfl | hy
      · exact absurd (List.prefix_nil.1 h1) (by simp)
      · obtain ⟨y', j, L', z', hy', e', l', hz', rfl⟩ := key y hy
        rw [List.cons_prefix_cons] at h1
        obtain ⟨rfl, h1⟩ := h1
        rw [hx'] at hy'
        cases hy'
        rw [e] at e'
        have : z' ∈ L := by
          have h3 : (i :: z'.1, z'.2) ∈ L.map fun y => (i :: y.1, y.2) := by
            rw [e']
            exact List.mem_map_of_mem (f := fun y : List Nat × V => (i :: y.1, y.2)) hz'
          obtain ⟨z'', h4, h5⟩ := List.mem_map.1 h3
          simp only [Prod.mk.injEq, List.cons.injEq, true_and] at h5
          have : z'' = z' := Prod.ext h5.1 h5.2
          rwa [← this]
        exact l.below z hz z' this h1 p hp
  · intro x hx y hy h1 h2 p hp hq
    rcases List.mem_cons.1 hx with rfl | hx
    · exact h1 List.nil_prefix
    rcases List.mem_cons.1 hy with rfl | hy
    · exact h2 List.nil_prefix
    obtain ⟨x', i, L, z, hx', e, l, hz, rfl⟩ := key x hx
    obtain ⟨y', j, L', z', hy', e', l', hz', rfl⟩ := key y hy
    by_cases hij : i = j
    · subst hij
      rw [hx'] at hy'
      cases hy'
      rw [e] at e'
      have : z' ∈ L := by
        have h3 : (i :: z'.1, z'.2) ∈ L.map fun y => (i :: y.1, y.2) := by
          rw [e']
          exact List.mem_map_of_mem (f := fun y : List Nat × V => (i :: y.1, y.2)) hz'
        obtain ⟨z'', h4, h5⟩ := List.mem_map.1 h3
        simp only [Prod.mk.injEq, List.cons.injEq, true_and] at h5
        have : z'' = z' := Prod.ext h5.1 h5.2
        rwa [← this]
      refine l.apart z hz z' this (fun h => h1 ?_) (fun h => h2 ?_) p hp hq
      · exact List.cons_prefix_cons.2 ⟨rfl, h⟩
      · exact List.cons_prefix_cons.2 ⟨rfl, h⟩
    · exact cut hx' hy' hij p (l.within z hz p hp) (l'.within z' hz' p hq)

end

section
variable {utf8 : List Byte → Bool} {st : Store}

theorem MMStruct3.slices_laid : ∀ (fuel : Nat) (m : MMStruct3) (w : Cube) (v : View3), w.Ordered → v.Fits w →
    Laid View3.Has v.Has (m.slices utf8 st fuel w v)
  | 0, m, w, v, _, _ => by
    unfold MMStruct3.slices
    exact .empty _
  | fuel + 1, m, w, v, hw, hf => by
    have ih := MMStruct3.slices_laid fuel
    cases m with
    | subchunk c =>
      rw [MMStruct3.slices]
      exact .leaf v
    | superchunk h loc =>
      rw [MMStruct3.slices]
      cases hs : h.subchunksFor w.rect with
      | none => exact .leaf v
      | some subs =>
        obtain ⟨h1, h2⟩ := subchunksFor_ok hs
        refine Laid.node (B := fun (sub : WindowSubchunk) => (View3.mk v.instant (v.row + sub.slice.top)
          (v.col + sub.slice.left) (w.fin - w.start) (sub.slice.bottom - sub.slice.top)
          (sub.slice.right - sub.slice.left)).Has) ?_ ?_ ?_
        · refine h2.imp fun {a b} hab p ha hb => ?_
          unfold Rect.Apart at hab
          unfold View3.Has at ha hb
          simp only at ha hb
          omega
        · intro sub hsub p hp
          have hk := h1 sub hsub
          have b1 := hk.bottom
          have b2 := hk.right
          have b3 := hk.stop
          have b4 := hk.sleft
          rw [hw.rect] at b1 b2
          simp only at b1 b2
          have f1 := hf.instants
          have f2 := hf.rows
          have f3 := hf.cols
          unfold View3.Has at hp ⊢
          simp only at hp
          omega
        · intro sub hsub i
          have hk := h1 sub hsub
          simp only
          rw [View3.forSubchunk_eq hw hf hk]
          simp only
          split
          · exact ⟨_, rfl, ih _ _ _ (Cube.new_ordered _ _ _ _ _ _) (hk.fits hw)⟩
          · exact ⟨_, rfl, .leaf _⟩
    | span s =>
      rw [MMStruct3.slices]
      cases hp : s.piecesFor w.start v.instants with
      | none => exact .leaf v
      | some ps =>
        obtain ⟨h1, h2⟩ := Span.piecesFor_ok hp
        refine Laid.node (B := fun (p : Piece) => (View3.mk (v.instant + p.start) (v.row + 0) (v.col + 0)
          (p.start + p.len - p.start) (v.rows - 0) (v.cols - 0)).Has) ?_ ?_ ?_
        · refine h2.imp fun {a b} hab p ha hb => ?_
          unfold View3.Has at ha hb
          simp only at ha hb
          omega
        · intro q hq p hp
          have := h1 q hq
          unfold View3.Has at hp ⊢
          simp only at hp
          omega
        · intro q hq i
          have := h1 q hq
          have e : v.slice q.start (q.start + q.len) 0 v.rows 0 v.cols = some (View3.mk (v.instant + q.start) (v.row + 0)
              (v.col + 0) (q.start + q.len - q.start) (v.rows - 0) (v.cols - 0)) := by
            unfold View3.slice
            rw [if_pos (by omega)]
          simp only
          rw [e]
          simp only
          split
          · refine ⟨_, rfl, ih _ _ _ (Cube.new_ordered _ _ _ _ _ _) ?_⟩
            rw [Cube.new_eq (by omega) hw.rows hw.cols]
            refine ⟨by simp only; omega, ?_, ?_⟩
            · simp only
              rw [Nat.sub_zero, hf.rows]
            · simp only
              rw [Nat.sub_zero, hf.cols]
          · exact ⟨_, rfl, .leaf _⟩

theorem MMStruct3.slices1_laid : ∀ (fuel : Nat) (m : MMStruct3) (start fin row col : Nat) (v : View1),
    v.len = fin - start → Laid View1.Has v.Has (m.slices1 utf8 st fuel start fin row col v)
  | 0, m, start, fin, row, col, v, _ => by
    unfold MMStruct3.slices1
    exact .empty _
  | fuel + 1, m, start, fin, row, col, v, hf => by
    have ih := MMStruct3.slices1_laid fuel
    cases m with
    | subchunk c =>
      rw [MMStruct3.slices1]
      exact .leaf v
    | superchunk h loc =>
      rw [MMStruct3.slices1]
      split
      · exact .leaf v
      · split
        · exact ih _ _ _ _ _ _ hf
        · exact .leaf v
    | span s =>
      rw [MMStruct3.slices1]
      cases hp : s.piecesFor start (fin - start) with
      | none => exact .leaf v
      | some ps =>
        obtain ⟨h1, h2⟩ := Span.piecesFor_ok hp
        refine Laid.node (B := fun (p : Piece) => (View1.mk (v.start + p.start) (p.start + p.len - p.start)).Has) ?_ ?_ ?_
        · refine h2.imp fun {a b} hab p ha hb => ?_
          unfold View1.Has at ha hb
          simp only at ha hb
          omega
        · intro q hq p hp
          have := h1 q hq
          unfold View1.Has at hp ⊢
          simp only at hp
          omega
        · intro q hq i
          have := h1 q hq
          have e : v.slice q.start (q.start + q.len) =
              some (View1.mk (v.start + q.start) (q.start + q.len - q.start)) := by
            unfold View1.slice
            rw [if_pos (by omega)]
          simp only
          rw [e]
          simp only
          split
          · exact ⟨_, rfl, ih _ _ _ _ _ _ (by simp only; omega)⟩
          · exact ⟨_, rfl, .leaf _⟩

end

theorem View3.tile_eq (v : View3) (cs : Nat) (pos : Nat × Nat) :
    v.tile cs pos = some none ∨ v.tile cs pos = some (some ⟨v.instant + 0, v.row + pos.1 * cs, v.col + pos.2 * cs,
      v.instants - 0, min (pos.1 * cs + cs) v.rows - pos.1 * cs, min (pos.2 * cs + cs) v.cols - pos.2 * cs⟩) := by
  unfold View3.tile
  simp only
  split
  · exact .inl rfl
  · right
    unfold View3.slice
    rw [if_pos]
    · rfl
    · have m1 : Nat.min (pos.1 * cs + cs) v.rows ≤ v.rows := Nat.min_le_right _ _
      have m2 : Nat.min (pos.2 * cs + cs) v.cols ≤ v.cols := Nat.min_le_right _ _
      refine ⟨⟨by omega, by omega⟩, ⟨?_, m1⟩, ?_, m2⟩
      · exact Nat.le_min.2 ⟨by omega, by omega⟩
      · exact Nat.le_min.2 ⟨by omega, by omega⟩

theorem positions_nodup (n : Nat) : ((List.range n).flatMap fun r => (List.range n).map fun c => (r, c)).Nodup := by
  rw [List.nodup_flatMap]
  constructor
  · intro r _
    exact List.nodup_range.map fun a b h => (Prod.mk.inj h).2
  · refine List.nodup_range.imp fun {a b} hab x hx hy => ?_
    obtain ⟨_, _, rfl⟩ := List.mem_map.1 hx
    obtain ⟨_, _, h⟩ := List.mem_map.1 hy
    exact hab (Prod.mk.inj h).1.symm

theorem Superchunk.buildSlices_laid (clog : Nat → Nat) (k : Nat) : ∀ (levels : List Nat) (v : View3),
    Laid View3.Has v.Has (Superchunk.buildSlices clog k levels v)
  | [], v => .leaf v
  | level :: sub, v => by
    rw [Superchunk.buildSlices]
    simp only
    split
    · exact .leaf v
    · generalize k ^ clog (max v.rows v.cols) / k ^ level = cs
      refine Laid.node (B := fun (pos : Nat × Nat) p => (v.instant ≤ p.1 ∧ p.1 < v.instant + v.instants) ∧
        ((v.row + pos.1 * cs ≤ p.2.1 ∧ p.2.1 < v.row + (pos.1 * cs + cs)) ∧ p.2.1 < v.row + v.rows) ∧
        (v.col + pos.2 * cs ≤ p.2.2 ∧ p.2.2 < v.col + (pos.2 * cs + cs)) ∧ p.2.2 < v.col + v.cols) ?_ ?_ ?_
      · refine pairwise_of_nodup (positions_nodup _) fun x y hxy p h1 h2 => ?_
        have : x.1 ≠ y.1 ∨ x.2 ≠ y.2 := by
          by_cases h : x.1 = y.1
          · right
            exact fun h' => hxy (Prod.ext h h')
          · exact .inl h
        rcases this with h | h
        · have := mul_apart (cs := cs) h
          omega
        · have := mul_apart (cs := cs) h
          omega
      · intro pos _ p hp
        unfold View3.Has
        have a1 : v.row ≤ v.row + pos.1 * cs := Nat.le_add_right _ _
        have a2 : v.col ≤ v.col + pos.2 * cs := Nat.le_add_right _ _
        omega
      · intro pos _ i
        simp only
        rcases v.tile_eq cs pos with h | h
        · rw [h]
          exact ⟨[], rfl, .empty _⟩
        · rw [h]
          refine ⟨_, rfl, ?_⟩
          have := Superchunk.buildSlices_laid clog k sub (View3.mk (v.instant + 0) (v.row + pos.1 * cs)
            (v.col + pos.2 * cs) (v.instants - 0) (min (pos.1 * cs + cs) v.rows - pos.1 * cs)
            (min (pos.2 * cs + cs) v.cols - pos.2 * cs))
          refine ⟨fun x hx p hp => ?_, this.below, this.apart⟩
          have := this.within x hx p hp
          unfold View3.Has at this
          simp only at this
          generalize pos.1 * cs = a at this ⊢
          generalize pos.2 * cs = b at this ⊢
          omega

end Verif
