import Verif.Props.Array

/-!
The statements of C07, C08, C12, C13, C22 and C23 without their side conditions, refuted by concrete
rasters. There is one refutation for odd arities (the read panics) and one for differences that
overflow (a release build reads other numbers).
-/
namespace Verif

/-- A whole read of two rasters through log and snapshot. -/
def readBoth (getS getT : Nat → Nat → Int64) (rows cols k e r c : Nat) : Option (Option Int64) :=
  match Snapshot.build getS rows cols k e, Log.build getS getT rows cols k e with
  | some s, some l => some (l.get s r c)
  | _, _ => none

theorem readBoth_eq {getS getT : Nat → Nat → Int64} {rows cols k e r c : Nat} {s l}
    (h1 : Snapshot.build getS rows cols k e = some s)
    (h2 : Log.build getS getT rows cols k e = some l) :
    readBoth getS getT rows cols k e r c = some (l.get s r c) := by
  simp [readBoth, h1, h2]

/-- A window of two rasters read through log and snapshot. -/
def windowBoth (getS getT : Nat → Nat → Int64) (rows cols k e : Nat) (w : Rect) :
    Option (Option (List (Nat × Nat × Int64))) :=
  match Snapshot.build getS rows cols k e, Log.build getS getT rows cols k e with
  | some s, some l => some (l.fillWindow s w)
  | _, _ => none

theorem windowBoth_eq {getS getT : Nat → Nat → Int64} {rows cols k e : Nat} {w : Rect} {s l}
    (h1 : Snapshot.build getS rows cols k e = some s)
    (h2 : Log.build getS getT rows cols k e = some l) :
    windowBoth getS getT rows cols k e w = some (l.fillWindow s w) := by
  simp [windowBoth, h1, h2]

theorem odd_noOverflow : NoOverflow (constS 0) oddT 27 27 := by
  intro r c _ _
  simp [constS]

/-- C07 is false for odd arities. -/
theorem C07_odd_wrong : ¬ ∀ (getS getT : Nat → Nat → Int64) (rows cols k e : Nat), 2 ≤ k →
    (2 ≤ rows ∨ 2 ≤ cols) → rows ≤ k ^ e → cols ≤ k ^ e → NoOverflow getS getT rows cols →
    ∃ s l, Snapshot.build getS rows cols k e = some s ∧
      Log.build getS getT rows cols k e = some l ∧
      ∀ r c, r < rows → c < cols → l.get s r c = some (getT r c) := by
  intro h
  obtain ⟨s, l, h1, h2, h3⟩ := h (constS 0) oddT 27 27 3 3 (by omega) (by omega) (by decide)
    (by decide) odd_noOverflow
  have e := readBoth_eq (r := 0) (c := 0) h1 h2
  rw [h3 0 0 (by omega) (by omega)] at e
  have : readBoth (constS 0) oddT 27 27 3 3 0 0 = some none := by decide +kernel
  rw [this] at e
  cases e

/-- C07 is false when differences overflow, also for arity 2: the cell reads as another number. -/
theorem C07_overflow_wrong : ∃ s l, Snapshot.build (wrapSeries 0) 4 4 2 2 = some s ∧
    Log.build (wrapSeries 0) (wrapSeries 1) 4 4 2 2 = some l ∧
    wrapSeries 1 0 0 = Int64.minValue ∧ l.get s 0 0 ≠ some Int64.minValue ∧ l.get s 0 0 ≠ none := by
  obtain ⟨s, _, h1, -⟩ := snapshot_build_layout (wrapSeries 0) 4 4 2 (by omega) 2
  obtain ⟨l, _, h2, -⟩ := log_build_layout (wrapSeries 0) (wrapSeries 1) 4 4 2 (by omega) 2
  have e := readBoth_eq (r := 0) (c := 0) h1 h2
  refine ⟨s, l, h1, h2, by decide +kernel, fun h => ?_, fun h => ?_⟩
  · rw [h] at e; revert e; decide +kernel
  · rw [h] at e; revert e; decide +kernel

/-- C08 is false for odd arities. -/
theorem C08_odd_wrong : ¬ ∀ (getS getT : Nat → Nat → Int64) (rows cols k e : Nat), 2 ≤ k →
    (2 ≤ rows ∨ 2 ≤ cols) → rows ≤ k ^ e → cols ≤ k ^ e → NoOverflow getS getT rows cols →
    ∃ s l, Snapshot.build getS rows cols k e = some s ∧
      Log.build getS getT rows cols k e = some l ∧
      ∀ top bottom left right, top < bottom → left < right → bottom ≤ rows → right ≤ cols →
        ∃ L, l.fillWindow s (Rect.new top bottom left right) = some L ∧
          L.Perm (Spec.window getT top bottom left right) := by
  intro h
  obtain ⟨s, l, h1, h2, h3⟩ := h (constS 0) oddT 27 27 3 3 (by omega) (by omega) (by decide)
    (by decide) odd_noOverflow
  have e := windowBoth_eq (w := Rect.new 0 1 0 1) h1 h2
  obtain ⟨L, h4, -⟩ := h3 0 1 0 1 (by omega) (by omega) (by omega) (by omega)
  rw [h4] at e
  have : windowBoth (constS 0) oddT 27 27 3 3 (Rect.new 0 1 0 1) = some none := by decide +kernel
  rw [this] at e
  cases e

/-- C08 is false when differences overflow. -/
theorem C08_overflow_wrong : ∃ s l L, Snapshot.build (wrapSeries 0) 4 4 2 2 = some s ∧
    Log.build (wrapSeries 0) (wrapSeries 1) 4 4 2 2 = some l ∧
    l.fillWindow s (Rect.new 0 1 0 1) = some L ∧
    ¬ L.Perm (Spec.window (wrapSeries 1) 0 1 0 1) := by
  obtain ⟨s, _, h1, -⟩ := snapshot_build_layout (wrapSeries 0) 4 4 2 (by omega) 2
  obtain ⟨l, _, h2, -⟩ := log_build_layout (wrapSeries 0) (wrapSeries 1) 4 4 2 (by omega) 2
  have e := windowBoth_eq (w := Rect.new 0 1 0 1) h1 h2
  have key : (windowBoth (wrapSeries 0) (wrapSeries 1) 4 4 2 2 (Rect.new 0 1 0 1)).map
      (fun o => o.map fun L => decide ((0, 0, Int64.minValue) ∉ L)) = some (some true) := by
    decide +kernel
  rw [e] at key
  simp only [Option.map_some, Option.some.injEq, Option.map_eq_some_iff, decide_eq_true_eq] at key
  obtain ⟨L, h3, h4⟩ := key
  refine ⟨s, l, L, h1, h2, h3, fun hp => h4 (hp.mem_iff.2 ?_)⟩
  decide +kernel

/-- Two instants of 10 rows and 20 columns. Six numbers differ, one in each of the six blocks of 9 rows
and columns, so that the second instant is kept as a log whose nodemap has 64 bits. -/
def oddSeries (t r c : Nat) : Int64 :=
  Int64.ofNat ((r + 2 * c) % 5 + if t = 1 ∧ r % 9 = 0 ∧ c % 9 = 0 then 1 else 0)

theorem oddSeries_noOverflow : SeriesNoOverflow oddSeries 2 10 20 := by
  intro t0 t h1 h2 r c hr hc
  obtain rfl : t0 = 0 := by omega
  obtain rfl : t = 1 := by omega
  have key : ∀ r, r < 10 → ∀ c, c < 20 → (oddSeries 1 r c - oddSeries 0 r c).toInt =
      (oddSeries 1 r c).toInt - (oddSeries 0 r c).toInt := by decide +kernel
  exact key r hr c hc

/-- Something about a chunk built from two instants. -/
def onChunk {α : Type} (get : Nat → Nat → Nat → Int64) (rows cols k e : Nat) (f : Chunk → α) : Option α :=
  (Chunk.build get 2 rows cols k e .i64 0).map fun r => f r.data

theorem oddSeries_get : onChunk oddSeries 10 20 3 3 (fun c => c.get 1 0 0) = some none := by
  decide +kernel

theorem oddSeries_cell : onChunk oddSeries 10 20 3 3 (fun c => (c.fillCell 1 2 0 0).isSome) =
    some false := by
  decide +kernel

theorem oddSeries_window : onChunk oddSeries 10 20 3 3
    (fun c => (c.fillWindow (Cube.new 1 2 0 1 0 1)).isSome) = some false := by
  decide +kernel

/-- C12 is false for odd arities. -/
theorem C12_odd_wrong : ¬ ∀ (get : Nat → Nat → Nat → Int64) (instants rows cols k e : Nat),
    ShapeOk rows cols k e → 1 ≤ instants → SeriesNoOverflow get instants rows cols →
    ∃ r, Chunk.build get instants rows cols k e .i64 0 = some r ∧
      ∀ t row col, t < instants → row < rows → col < cols →
        r.data.get t row col = some (get t row col) := by
  intro h
  obtain ⟨r, h1, h2⟩ := h oddSeries 2 10 20 3 3 ⟨by omega, by omega, by decide, by decide⟩ (by omega)
    oddSeries_noOverflow
  have e := oddSeries_get
  simp only [onChunk, h1, Option.map_some, h2 1 0 0 (by omega) (by omega) (by omega)] at e
  cases e

/-- C13, cells, is false for odd arities. -/
theorem C13_odd_cell_wrong : ¬ ∀ (get : Nat → Nat → Nat → Int64) (instants rows cols k e : Nat),
    ShapeOk rows cols k e → 1 ≤ instants → SeriesNoOverflow get instants rows cols →
    ∃ r, Chunk.build get instants rows cols k e .i64 0 = some r ∧
      ∀ start fin row col, start ≤ fin → fin ≤ instants → row < rows → col < cols →
        r.data.fillCell start fin row col =
          some ((List.range (fin - start)).map fun i => (i, get (start + i) row col)) := by
  intro h
  obtain ⟨r, h1, h2⟩ := h oddSeries 2 10 20 3 3 ⟨by omega, by omega, by decide, by decide⟩ (by omega)
    oddSeries_noOverflow
  have e := oddSeries_cell
  simp only [onChunk, h1, Option.map_some,
    h2 1 2 0 0 (by omega) (by omega) (by omega) (by omega)] at e
  cases e

/-- C13, windows, is false for odd arities. -/
theorem C13_odd_window_wrong : ¬ ∀ (get : Nat → Nat → Nat → Int64) (instants rows cols k e : Nat),
    ShapeOk rows cols k e → 1 ≤ instants → SeriesNoOverflow get instants rows cols →
    ∃ r, Chunk.build get instants rows cols k e .i64 0 = some r ∧
      ∀ start fin top bottom left right, start ≤ fin → fin ≤ instants →
        top < bottom → left < right → bottom ≤ rows → right ≤ cols →
        ∃ L, r.data.fillWindow (Cube.new start fin top bottom left right) = some L ∧
          L.Perm (Spec.window3 get start fin top bottom left right) := by
  intro h
  obtain ⟨r, h1, h2⟩ := h oddSeries 2 10 20 3 3 ⟨by omega, by omega, by decide, by decide⟩ (by omega)
    oddSeries_noOverflow
  have e := oddSeries_window
  obtain ⟨L, h3, -⟩ := h2 1 2 0 1 0 1 (by omega) (by omega) (by omega) (by omega) (by omega) (by omega)
  simp only [onChunk, h1, Option.map_some, h3] at e
  cases e

/-- C12 and C13 are false when differences overflow: all reads give another number. -/
theorem C12_overflow_wrong : ∃ r, Chunk.build wrapSeries 2 4 4 2 2 .i64 0 = some r ∧
    wrapSeries 1 0 0 = Int64.minValue ∧ r.data.get 1 0 0 = some 15 ∧
    r.data.fillCell 1 2 0 0 = some [(0, 15)] ∧
    r.data.fillWindow (Cube.new 1 2 0 1 0 1) = some [(0, 0, 0, 15)] := by
  have e : onChunk wrapSeries 4 4 2 2 (fun c => decide (c.get 1 0 0 = some 15) &&
      (decide (c.fillCell 1 2 0 0 = some [(0, 15)]) &&
      decide (c.fillWindow (Cube.new 1 2 0 1 0 1) = some [(0, 0, 0, 15)]))) = some true := by
    decide +kernel
  unfold onChunk at e
  obtain ⟨r, h1, h2⟩ := Option.map_eq_some_iff.1 e
  simp only [Bool.and_eq_true, decide_eq_true_eq] at h2
  exact ⟨r, h1, by decide +kernel, h2⟩

/-- C12 is false for rasters of a single cell (C10): the chunk is built and the read panics. -/
theorem C12_single_cell_wrong : ∃ r, Chunk.build (fun _ _ _ => 5) 1 1 1 2 0 .i64 0 = some r ∧
    r.data.get 0 0 0 = none := by
  have e : (Chunk.build (fun _ _ _ => 5) 1 1 1 2 0 .i64 0).map (fun r => r.data.get 0 0 0) = some none := by
    decide +kernel
  obtain ⟨r, h1, h2⟩ := Option.map_eq_some_iff.1 e
  exact ⟨r, h1, h2⟩

/-! ### Superchunks -/

/-- The logarithm to base 3, for sizes up to 27. -/
def clog3 (n : Nat) : Nat := if n ≤ 1 then 0 else if n ≤ 3 then 1 else if n ≤ 9 then 2 else 3

theorem clog3_ok : ClogOk clog3 3 20 := by
  intro m j h1 h2
  have key : ∀ m, m < 28 → clog3 m = Nat.clog 3 m := by decide
  rw [key m (by omega)]
  exact Nat.clog_le_iff_le_pow (by omega)

/-- The superchunk has a single part, a chunk that satisfies `f`. -/
def onPart (n : Nat) (f : Chunk → Bool) (r : MMStruct3Build) (log : Saved) : Bool :=
  match r.data with
  | .superchunk h [] =>
    match h.deref (fun _ => true) (log.load exampleHash) [] (.external 0) with
    | .ok (.subchunk c) =>
      decide (h.references[0]? = some (.external 0)) &&
      (decide (h.locate 0 0 = some (0, 0, 0)) &&
      (decide (h.subchunksFor ⟨0, 1, 0, 1⟩ = some [⟨0, ⟨0, n, 0, n⟩, ⟨0, 1, 0, 1⟩, ⟨0, 1, 0, 1⟩⟩]) &&
      (decide (∀ a ∈ log, ∀ b ∈ log, exampleHash.cidOf a = exampleHash.cidOf b → a = b) &&
      f c)))
    | _ => false
  | _ => false

/-- Reads of such a superchunk are those of the chunk. -/
theorem onPart_reads {n : Nat} {f : Chunk → Bool} {r : MMStruct3Build} {log : Saved} (h : onPart n f r log = true) :
    log.NoCollision exampleHash ∧ ∃ c, f c = true ∧
      (∀ bits, r.data.get (fun _ => true) (log.load exampleHash) 3 bits 1 0 0 =
        match c.get 1 0 0 with
        | none => .error .panic
        | some v => .ok (c.fractionalBits, v)) ∧
      (∀ bits t s, r.data.fillCell (fun _ => true) (log.load exampleHash) 3 bits 1 2 0 0 t s →
        Out.ofOption ((c.fillCell 1 2 0 0).map (·.map fun p => (p.1, c.fractionalBits, p.2))) t s) ∧
      (∀ bits t s, r.data.fillWindow (fun _ => true) (log.load exampleHash) 3 bits ⟨1, 2, 0, 1, 0, 1⟩ t s →
        Out.joinAll [(Out.ofOption ((c.fillWindow ⟨1, 2, 0, 1, 0, 1⟩).map
          (·.map fun p => (p.1, p.2.1, p.2.2.1, c.fractionalBits, p.2.2.2)))).map fun q =>
            (q.1, 0 + q.2.1, 0 + q.2.2.1, q.2.2.2)] t s) := by
  unfold onPart at h
  split at h
  swap
  · cases h
  rename_i hd hh
  split at h
  swap
  · cases h
  rename_i c hc
  simp only [Bool.and_eq_true, decide_eq_true_eq] at h
  obtain ⟨h1, h2, h3, h4, h5⟩ := h
  refine ⟨h4, c, h5, fun bits => ?_, fun bits t s hrun => ?_, fun bits t s hrun => ?_⟩
  · rw [hh]
    unfold MMStruct3.get
    simp only [h2, h1, hc]
    unfold MMStruct3.get
    simp only [MMStruct3.fractionalBits]
    split <;> simp_all
  · rw [hh] at hrun
    unfold MMStruct3.fillCell at hrun
    simp only [h2, h1, hc, Out.await] at hrun
    unfold MMStruct3.fillCell at hrun
    simpa only [MMStruct3.fractionalBits] using hrun
  · rw [hh] at hrun
    unfold MMStruct3.fillWindow at hrun
    simp only [Cube.rect_eq (show (0 : Nat) ≤ 1 by omega) (show (0 : Nat) ≤ 1 by omega), h3, h1, hc,
      Out.await, Cube.new_eq (show (1 : Nat) ≤ 2 by omega) (show (0 : Nat) ≤ 1 by omega)
        (show (0 : Nat) ≤ 1 by omega), List.map_cons, List.map_nil] at hrun
    unfold MMStruct3.fillWindow at hrun
    simpa only [MMStruct3.fractionalBits] using hrun

theorem oddSuper : (Superchunk.build exampleHash clog3 (fun _ => 0) 3 [0, 3] [] (.i64 oddSeries)
    2 10 20).map (fun x => onPart 27 (fun c => decide (c.get 1 0 0 = none) &&
      (decide (c.fillCell 1 2 0 0 = none) &&
      decide (c.fillWindow ⟨1, 2, 0, 1, 0, 1⟩ = none))) x.1 x.2) = some true := by decide +kernel

theorem wrapSuper : (Superchunk.build exampleHash exampleClog (fun _ => 0) 2 [0, 2] [] (.i64 wrapSeries)
    2 4 4).map (fun x => onPart 4 (fun c => decide (c.get 1 0 0 = some 15) &&
      (decide (c.fillCell 1 2 0 0 = some [(0, 15)]) &&
      decide (c.fillWindow ⟨1, 2, 0, 1, 0, 1⟩ = some [(0, 0, 0, 15)]))) x.1 x.2) = some true := by
  decide +kernel

/-- C22 and C23 are false for odd arities: the superchunk is built, nothing overflows, no identifiers
collide, and all three kinds of read panic. -/
theorem C22_odd_wrong : ∃ r log', Superchunk.build exampleHash clog3 (fun _ => 0) 3 [0, 3] []
      (.i64 oddSeries) 2 10 20 = some (r, log') ∧ log'.NoCollision exampleHash ∧
    ClogOk clog3 3 20 ∧ LevelsOk 3 2 [0, 3] ∧ SeriesNoOverflow oddSeries 2 10 20 ∧
    r.data.get (fun _ => true) (log'.load exampleHash) 3 r.data.fractionalBits 1 0 0 = .error .panic ∧
    (∀ t s, r.data.fillCell (fun _ => true) (log'.load exampleHash) 3 r.data.fractionalBits 1 2 0 0 t s →
      s = some .panic) ∧
    ∀ t s, r.data.fillWindow (fun _ => true) (log'.load exampleHash) 3 r.data.fractionalBits
      ⟨1, 2, 0, 1, 0, 1⟩ t s → s = some .panic := by
  obtain ⟨⟨r, log'⟩, e, hl⟩ := Option.map_eq_some_iff.1 oddSuper
  obtain ⟨h1, c, h2, h3, h4, h5⟩ := onPart_reads hl
  simp only [Bool.and_eq_true, decide_eq_true_eq] at h2
  refine ⟨r, log', e, h1, clog3_ok, ⟨by decide, by decide, by decide⟩, oddSeries_noOverflow, ?_, fun t s h => ?_, fun t s h => ?_⟩
  · rw [h3, h2.1]
  · have := h4 _ t s h
    rw [h2.2.1] at this
    exact this.2
  · have := h5 _ t s h
    rw [h2.2.2] at this
    obtain ⟨rs, hr, hrun⟩ := this
    cases hr with
    | cons hp hr =>
    cases hr
    rename_i run
    obtain ⟨u, hp, -⟩ := hp
    cases s with
    | none => exact absurd hp.2 (hrun.1 _ (List.mem_singleton.2 rfl))
    | some f => rw [hrun.1]

/-- C22 and C23 are false when differences overflow: all three kinds of read end well and give 15 for
the smallest number. -/
theorem C22_overflow_wrong : ∃ r log', Superchunk.build exampleHash exampleClog (fun _ => 0) 2 [0, 2] []
      (.i64 wrapSeries) 2 4 4 = some (r, log') ∧ log'.NoCollision exampleHash ∧
    wrapSeries 1 0 0 = Int64.minValue ∧
    (∃ bits, r.data.get (fun _ => true) (log'.load exampleHash) 3 r.data.fractionalBits 1 0 0 =
      .ok (bits, 15)) ∧
    (∀ t s, r.data.fillCell (fun _ => true) (log'.load exampleHash) 3 r.data.fractionalBits 1 2 0 0 t s →
      s = none ∧ ∃ bits, t = [(0, bits, 15)]) ∧
    ∀ t s, r.data.fillWindow (fun _ => true) (log'.load exampleHash) 3 r.data.fractionalBits
      ⟨1, 2, 0, 1, 0, 1⟩ t s → s = none ∧ ∃ bits, t = [(0, 0, 0, bits, 15)] := by
  obtain ⟨⟨r, log'⟩, e, hl⟩ := Option.map_eq_some_iff.1 wrapSuper
  obtain ⟨h1, c, h2, h3, h4, h5⟩ := onPart_reads hl
  simp only [Bool.and_eq_true, decide_eq_true_eq] at h2
  refine ⟨r, log', e, h1, by decide +kernel, ⟨c.fractionalBits, ?_⟩, fun t s h => ?_, fun t s h => ?_⟩
  · rw [h3, h2.1]
  · have := h4 _ t s h
    rw [h2.2.1] at this
    exact ⟨this.2, c.fractionalBits, this.1⟩
  · have := h5 _ t s h
    rw [h2.2.2] at this
    obtain ⟨rs, hr, hrun⟩ := this
    cases hr with
    | cons hp hr =>
    cases hr
    rename_i run
    obtain ⟨u, hp, hu⟩ := hp
    have hu' : run.1 = [(0, 0, 0, c.fractionalBits, 15)] := by rw [hu, hp.1]; rfl
    cases s with
    | none =>
      refine ⟨rfl, c.fractionalBits, ?_⟩
      have := hrun.2.perm
      simp only [List.map_cons, List.map_nil, hu'] at this
      simpa using this
    | some f =>
      obtain ⟨-, ⟨x, hx, h6⟩, -⟩ := hrun
      rw [List.mem_singleton.1 hx, hp.2] at h6
      cases h6

end Verif
