import Verif.Lemmas.Memory
import Verif.Props.Superchunk

/-!
Property C77: parts of an output that are written to at the same time do not overlap. The statements are for
structures and stores of any kind, also damaged ones.
-/
namespace Verif

section
variable (utf8 : List Byte → Bool) (st : Store)

/-- However the reads of its parts are interleaved, `fill_window` on a buffer of the shape of the window writes no
cell twice, and only cells of the buffer. -/
theorem C77_window_writes_once {fuel : Nat} {m : MMStruct3} {bits : Nat} {w : Cube} {v : View3}
    (h1 : w.start ≤ w.fin) (h2 : w.top ≤ w.bottom) (h3 : w.left ≤ w.right) (h4 : v.instants = w.fin - w.start)
    (h5 : v.rows = w.bottom - w.top) (h6 : v.cols = w.right - w.left) {t : List (Nat × Nat × Nat × Nat × Int64)}
    {s : Option Fail} (h : m.fillView utf8 st fuel bits w v t s) :
    (t.map fun q => (q.1, q.2.1, q.2.2.1)).Nodup ∧
      ∀ q ∈ t, (v.instant ≤ q.1 ∧ q.1 < v.instant + v.instants) ∧ (v.row ≤ q.2.1 ∧ q.2.1 < v.row + v.rows) ∧
        v.col ≤ q.2.2.1 ∧ q.2.2.1 < v.col + v.cols := by
  have hw : w.Ordered := ⟨h1, h2, h3⟩
  rw [MMStruct3.fillView_eq fuel m bits w v hw ⟨h4, h5, h6⟩] at h
  have := Out.WritesOnce.map (pos := pos3) (pos' := pos3) (B' := v.Has) (f := v.shift)
    (MMStruct3.fillWindow_once (utf8 := utf8) (st := st) fuel m bits w hw)
    (fun p => (v.instant + p.1, v.row + p.2.1, v.col + p.2.2)) (fun x => rfl)
    (by
      rintro ⟨a, b, c⟩ ⟨a', b', c'⟩ _ _ e
      simp only [Prod.mk.injEq] at e ⊢
      omega)
    (by
      rintro ⟨a, b, c⟩ hp
      unfold InCube at hp
      unfold View3.Has
      simp only at hp ⊢
      omega) t s h
  exact ⟨this.1, fun q hq => this.2 q hq⟩

/-- The same of `fill_cell`. -/
theorem C77_cell_writes_once {fuel : Nat} {m : MMStruct3} {bits start fin row col : Nat} {v : View1}
    (h1 : v.len = fin - start) {t : List (Nat × Nat × Int64)} {s : Option Fail}
    (h : m.fillView1 utf8 st fuel bits start fin row col v t s) :
    (t.map fun q => q.1).Nodup ∧ ∀ q ∈ t, v.start ≤ q.1 ∧ q.1 < v.start + v.len := by
  rw [MMStruct3.fillView1_eq fuel m bits start fin row col v h1] at h
  have := Out.WritesOnce.map (pos := Prod.fst) (pos' := Prod.fst) (B' := v.Has) (f := v.shift)
    (MMStruct3.fillCell_once (utf8 := utf8) (st := st) fuel m bits start fin row col)
    (fun p => v.start + p) (fun x => rfl) (by intro a b _ _ e; omega)
    (by
      intro a ha
      unfold View1.Has
      omega) t s h
  exact ⟨this.1, fun q hq => this.2 q hq⟩

/-- Whatever is written through a view is in it, and what is outside of it panics; views of it are in it. -/
theorem C77_views (v : View3) :
    (∀ t r c p, v.set t r c = some p → v.Has p) ∧
      (∀ t r c, v.set t r c = none ↔ ¬v.Has (v.instant + t, v.row + r, v.col + c)) ∧
      ∀ start fin top bottom left right w, v.slice start fin top bottom left right = some w →
        ∀ p, w.Has p → v.Has p := by
  refine ⟨fun t r c p h => ?_, fun t r c => ?_, fun start fin top bottom left right w h p hp => ?_⟩
  · unfold View3.set at h
    split at h
    · cases h
      unfold View3.Has
      simp only
      omega
    · cases h
  · unfold View3.set View3.Has
    simp only
    split
    · simp only [reduceCtorEq, false_iff, not_not]
      omega
    · simp only [true_iff]
      omega
  · unfold View3.slice at h
    split at h
    · cases h
      unfold View3.Has at hp ⊢
      simp only at hp
      omega
    · cases h

/-- The same of views of an array of one dimension. -/
theorem C77_views1 (v : View1) :
    (∀ i p, v.set i = some p → v.Has p) ∧ (∀ i, v.set i = none ↔ ¬v.Has (v.start + i)) ∧
      ∀ start fin w, v.slice start fin = some w → ∀ p, w.Has p → v.Has p := by
  refine ⟨fun i p h => ?_, fun i => ?_, fun start fin w h p hp => ?_⟩
  · unfold View1.set at h
    split at h
    · cases h
      unfold View1.Has
      omega
    · cases h
  · unfold View1.set View1.Has
    split
    · simp only [reduceCtorEq, false_iff, not_not]
      omega
    · simp only [true_iff]
      omega
  · unfold View1.slice at h
    split at h
    · cases h
      unfold View1.Has at hp ⊢
      simp only at hp
      omega
    · cases h

/-- Two views that `fill_window` makes of a buffer have a cell in common only if the future of one waits for that
of the other, and then one is within the other; all are within the buffer. -/
theorem C77_window_views {fuel : Nat} {m : MMStruct3} {w : Cube} {v : View3}
    (h1 : w.start ≤ w.fin) (h2 : w.top ≤ w.bottom) (h3 : w.left ≤ w.right) (h4 : v.instants = w.fin - w.start)
    (h5 : v.rows = w.bottom - w.top) (h6 : v.cols = w.right - w.left) {a b : List Nat} {x y : View3}
    (ha : (a, x) ∈ m.slices utf8 st fuel w v) (hb : (b, y) ∈ m.slices utf8 st fuel w v) :
    (∀ p, x.Has p → v.Has p) ∧ (a <+: b → ∀ p, y.Has p → x.Has p) ∧
      (¬a <+: b → ¬b <+: a → ∀ p, ¬(x.Has p ∧ y.Has p)) := by
  have := MMStruct3.slices_laid (utf8 := utf8) (st := st) fuel m w v ⟨h1, h2, h3⟩ ⟨h4, h5, h6⟩
  exact ⟨this.within _ ha, this.below _ ha _ hb, fun n1 n2 p hp => this.apart _ ha _ hb n1 n2 p hp.1 hp.2⟩

/-- The same of `fill_cell`. -/
theorem C77_cell_views {fuel : Nat} {m : MMStruct3} {start fin row col : Nat} {v : View1}
    (h1 : v.len = fin - start) {a b : List Nat} {x y : View1}
    (ha : (a, x) ∈ m.slices1 utf8 st fuel start fin row col v)
    (hb : (b, y) ∈ m.slices1 utf8 st fuel start fin row col v) :
    (∀ p, x.Has p → v.Has p) ∧ (a <+: b → ∀ p, y.Has p → x.Has p) ∧
      (¬a <+: b → ¬b <+: a → ∀ p, ¬(x.Has p ∧ y.Has p)) := by
  have := MMStruct3.slices1_laid (utf8 := utf8) (st := st) fuel m start fin row col v h1
  exact ⟨this.within _ ha, this.below _ ha _ hb, fun n1 n2 p hp => this.apart _ ha _ hb n1 n2 p hp.1 hp.2⟩

/-- The views of the input from which the parts of a superchunk are built at the same time. -/
theorem C77_build_views (clog : Nat → Nat) {k : Nat} {levels : List Nat} {v : View3} {a b : List Nat} {x y : View3}
    (ha : (a, x) ∈ Superchunk.buildSlices clog k levels v) (hb : (b, y) ∈ Superchunk.buildSlices clog k levels v) :
    (∀ p, x.Has p → v.Has p) ∧ (a <+: b → ∀ p, y.Has p → x.Has p) ∧
      (¬a <+: b → ¬b <+: a → ∀ p, ¬(x.Has p ∧ y.Has p)) := by
  have := Superchunk.buildSlices_laid clog k levels v
  exact ⟨this.within _ ha, this.below _ ha _ hb, fun n1 n2 p hp => this.apart _ ha _ hb n1 n2 p hp.1 hp.2⟩

/-- No slice of the input is out of range. -/
theorem C77_build_slices (v : View3) (chunksSidelen : Nat) (pos : Nat × Nat) : v.tile chunksSidelen pos ≠ none := by
  rcases v.tile_eq chunksSidelen pos with h | h <;> rw [h] <;> exact fun h => nomatch h

theorem View3.shift_zero {α : Type} {n rows cols : Nat} (q : Nat × Nat × Nat × α) :
    (View3.mk 0 0 0 n rows cols).shift q = q := by
  unfold View3.shift
  simp only [Nat.zero_add]

theorem View1.shift_zero {α : Type} {n : Nat} (q : Nat × α) : (View1.mk 0 n).shift q = q := by
  unfold View1.shift
  simp only [Nat.zero_add]

theorem Out.map_id' {β : Type} (o : Out β) {g : β → β} (h : ∀ x, g x = x) : o.map g = o := by
  have : g = id := funext h
  subst this
  funext t s
  apply propext
  constructor
  · rintro ⟨t', h, rfl⟩
    rw [List.map_id]
    exact h
  · intro h
    exact ⟨t, h, (List.map_id _).symm⟩

/-- `window` of an array on a buffer whose slices are views that are checked does what `window` does as it is
modelled elsewhere, on the whole array: no slice is out of range and no call to `set` is. -/
theorem C77_window {α : Type} (kind : Kind α) (fuel : Nat) (data : MMStruct3) (bounds : Cube)
    (res : Except Fail (List (List (List α)))) :
    kind.windowView utf8 st fuel data bounds res ↔ kind.window utf8 st fuel data bounds res := by
  unfold Kind.windowView Kind.window
  cases data.checkCube bounds with
  | none => rfl
  | some u =>
    simp only
    cases hn : csub bounds.fin bounds.start with
    | none => rfl
    | some n =>
      cases hr : csub bounds.bottom bounds.top with
      | none => rfl
      | some rows =>
        cases hc : csub bounds.right bounds.left with
        | none => rfl
        | some cols =>
          unfold csub at hn hr hc
          split at hn <;> cases hn
          split at hr <;> cases hr
          split at hc <;> cases hc
          rename_i hn hr hc
          have hw : bounds.Ordered := ⟨hn, hr, hc⟩
          simp only
          rw [MMStruct3.fillView_eq fuel data _ bounds _ hw ⟨rfl, rfl, rfl⟩, Out.map_id' _ View3.shift_zero]
          refine exists_congr fun t => exists_congr fun s => and_congr_right fun h => ?_
          have hi : (t.all fun q => decide (q.1 < bounds.fin - bounds.start ∧ q.2.1 < bounds.bottom - bounds.top ∧
              q.2.2.1 < bounds.right - bounds.left)) = true := by
            rw [List.all_eq_true]
            intro q hq
            rw [decide_eq_true_iff]
            exact (MMStruct3.fillWindow_once fuel data _ bounds hw t s h).2 q hq
          unfold Kind.finish
          rw [if_pos hi]
          cases s <;> rfl

/-- The same of `cell`. -/
theorem C77_cell {α : Type} (kind : Kind α) (fuel : Nat) (data : MMStruct3) (start fin row col : Nat)
    (res : Except Fail (List α)) :
    kind.cellView utf8 st fuel data start fin row col res ↔ kind.cell utf8 st fuel data start fin row col res := by
  unfold Kind.cellView Kind.cell
  cases csub fin 1 with
  | none => rfl
  | some last =>
    simp only
    cases data.checkBounds last row col with
    | none => rfl
    | some u =>
      simp only
      cases hn : csub fin start with
      | none => rfl
      | some n =>
        unfold csub at hn
        split at hn <;> cases hn
        simp only
        rw [MMStruct3.fillView1_eq fuel data _ start fin row col _ rfl, Out.map_id' _ View1.shift_zero]
        refine exists_congr fun t => exists_congr fun s => and_congr_right fun h => ?_
        have hi : (t.all fun q => decide (q.1 < fin - start)) = true := by
          rw [List.all_eq_true]
          intro q hq
          rw [decide_eq_true_iff]
          exact (MMStruct3.fillCell_once fuel data _ start fin row col t s h).2 q hq
        unfold Kind.finish
        rw [if_pos hi]
        cases s <;> rfl

end

/-! ### Examples -/

/-- Views of the superchunk of the example, for all instants of rows 1 to 3 and columns 0 to 3: its four parts. -/
example : ((Superchunk.build exampleHash exampleClog (fun _ => 0) 2 [1, 1] [] exampleBuffer 2 4 4).map fun r =>
    r.1.data.slices (fun _ => true) (r.2.load exampleHash) 3 ⟨0, 2, 1, 4, 0, 4⟩ ⟨0, 0, 0, 2, 3, 4⟩) =
    some [([], ⟨0, 0, 0, 2, 3, 4⟩), ([0], ⟨0, 0, 0, 2, 1, 2⟩), ([1], ⟨0, 0, 2, 2, 1, 2⟩),
      ([2], ⟨0, 1, 0, 2, 2, 2⟩), ([3], ⟨0, 1, 2, 2, 2, 2⟩)] := by
  decide +kernel

/-- Views of the input from which it is built. -/
example : Superchunk.buildSlices exampleClog 2 [1, 1] ⟨0, 0, 0, 2, 3, 4⟩ =
    [([], ⟨0, 0, 0, 2, 3, 4⟩),
      ([0], ⟨0, 0, 0, 2, 2, 2⟩), ([0, 0], ⟨0, 0, 0, 2, 1, 1⟩), ([0, 1], ⟨0, 0, 1, 2, 1, 1⟩),
      ([0, 2], ⟨0, 1, 0, 2, 1, 1⟩), ([0, 3], ⟨0, 1, 1, 2, 1, 1⟩),
      ([1], ⟨0, 0, 2, 2, 2, 2⟩), ([1, 0], ⟨0, 0, 2, 2, 1, 1⟩), ([1, 1], ⟨0, 0, 3, 2, 1, 1⟩),
      ([1, 2], ⟨0, 1, 2, 2, 1, 1⟩), ([1, 3], ⟨0, 1, 3, 2, 1, 1⟩),
      ([2], ⟨0, 2, 0, 2, 1, 2⟩), ([2, 0], ⟨0, 2, 0, 2, 1, 1⟩), ([2, 1], ⟨0, 2, 1, 2, 1, 1⟩),
      ([3], ⟨0, 2, 2, 2, 1, 2⟩), ([3, 0], ⟨0, 2, 2, 2, 1, 1⟩), ([3, 1], ⟨0, 2, 3, 2, 1, 1⟩)] := by
  decide +kernel

/-- Views of a span of three chunks of two instants, which are missing: reading instants 1 to 4. -/
example : (MMStruct3.slices (fun _ => true) (fun _ => none) 3
    (.span ⟨6, 3, 4, 2, [.v1 0 0 [], .v1 0 1 [], .v1 0 2 []], .i64⟩) ⟨1, 5, 0, 3, 1, 3⟩ ⟨0, 0, 0, 4, 3, 2⟩) =
    [([], ⟨0, 0, 0, 4, 3, 2⟩), ([0], ⟨0, 0, 0, 1, 3, 2⟩), ([1], ⟨1, 0, 0, 2, 3, 2⟩),
      ([2], ⟨3, 0, 0, 1, 3, 2⟩)] := by
  decide +kernel

end Verif
