import Verif.Model.SuperBuild
import Verif.Model.Dataset

/-! What is built depends on the cells of the buffer and on nothing else: not on what the buffer is
outside its shape, nor on what was saved before. -/
namespace Verif

section
variable {rows cols k : Nat}

theorem K2Node.build_congr {get get' : Nat → Nat → Int64}
    (h : ∀ r c, r < rows → c < cols → get r c = get' r c) :
    ∀ (e row col : Nat), K2Node.build get rows cols k e row col = K2Node.build get' rows cols k e row col := by
  intro e
  induction e with
  | zero =>
    intro row col
    unfold K2Node.build
    by_cases hin : row < rows ∧ col < cols
    · simp only [if_pos hin, h row col hin.1 hin.2]
    · simp only [if_neg hin]
  | succ e ih =>
    intro row col
    unfold K2Node.build
    simp only [ih]

theorem Snapshot.build_congr {get get' : Nat → Nat → Int64}
    (h : ∀ r c, r < rows → c < cols → get r c = get' r c) (e : Nat) :
    Snapshot.build get rows cols k e = Snapshot.build get' rows cols k e := by
  unfold Snapshot.build
  rw [K2Node.build_congr h]

theorem K2PNode.build_congr {getS getS' getT getT' : Nat → Nat → Int64}
    (hS : ∀ r c, r < rows → c < cols → getS r c = getS' r c)
    (hT : ∀ r c, r < rows → c < cols → getT r c = getT' r c) :
    ∀ (e row col : Nat), K2PNode.build getS getT rows cols k e row col =
      K2PNode.build getS' getT' rows cols k e row col := by
  intro e
  induction e with
  | zero =>
    intro row col
    unfold K2PNode.build
    by_cases hin : row < rows ∧ col < cols
    · simp only [if_pos hin, hS row col hin.1 hin.2, hT row col hin.1 hin.2]
    · simp only [if_neg hin]
  | succ e ih =>
    intro row col
    unfold K2PNode.build
    simp only [ih]

theorem Log.build_congr {getS getS' getT getT' : Nat → Nat → Int64}
    (hS : ∀ r c, r < rows → c < cols → getS r c = getS' r c)
    (hT : ∀ r c, r < rows → c < cols → getT r c = getT' r c) (e : Nat) :
    Log.build getS getT rows cols k e = Log.build getS' getT' rows cols k e := by
  unfold Log.build
  rw [K2PNode.build_congr hS hT]

theorem Chunk.buildLoop_congr {get get' : Nat → Nat → Nat → Int64} {n e : Nat}
    (h : ∀ t r c, t < n → r < rows → c < cols → get t r c = get' t r c) :
    ∀ (l : List Nat) (st : Chunk.BuildState), (∀ t ∈ l, t < n) → st.snapshotIndex < n →
    l.foldlM (Chunk.buildStep get rows cols k e) st = l.foldlM (Chunk.buildStep get' rows cols k e) st := by
  intro l
  induction l with
  | nil => intro st _ _; rfl
  | cons i l ih =>
    intro st hl hst
    have hi := hl i (List.mem_cons_self ..)
    have hstep : Chunk.buildStep get rows cols k e st i = Chunk.buildStep get' rows cols k e st i := by
      unfold Chunk.buildStep
      rw [Snapshot.build_congr (fun r c => h i r c hi),
        Log.build_congr (fun r c => h _ r c hst) (fun r c => h i r c hi)]
    rw [List.foldlM_cons, List.foldlM_cons, hstep]
    cases hs : Chunk.buildStep get' rows cols k e st i with
    | none => rfl
    | some st' =>
      refine ih st' (fun t ht => hl t (List.mem_cons_of_mem _ ht)) ?_
      unfold Chunk.buildStep at hs
      cases hsn : Snapshot.build (get' i) rows cols k e with
      | none => rw [hsn] at hs; cases hs
      | some sn =>
        cases hlg : Log.build (get' st.snapshotIndex) (get' i) rows cols k e with
        | none => rw [hsn, hlg] at hs; cases hs
        | some lg =>
          rw [hsn, hlg] at hs
          simp only at hs
          split at hs
          · cases hb : Block.new st.snapshot st.logs with
            | none => rw [hb] at hs; cases hs
            | some block => rw [hb] at hs; cases hs; exact hi
          · cases hs; exact hst

theorem Chunk.build_congr {get get' : Nat → Nat → Nat → Int64} {n : Nat} (hn : 1 ≤ n)
    (h : ∀ t r c, t < n → r < rows → c < cols → get t r c = get' t r c) (e : Nat) (enc : MMEncoding)
    (bits : Nat) : Chunk.build get n rows cols k e enc bits = Chunk.build get' n rows cols k e enc bits := by
  unfold Chunk.build
  rw [Snapshot.build_congr (fun r c => h 0 r c hn)]
  cases Snapshot.build (get' 0) rows cols k e with
  | none => rfl
  | some s =>
    simp only
    rw [Chunk.buildLoop_congr h _ _ (fun t ht => by
      simp only [rangeExcl, List.mem_range'_1] at ht
      omega) (show 0 < n by omega)]

end

/-- Buffers of the same type with the same cells. -/
inductive MMBuffer3.Agree (n rows cols : Nat) : MMBuffer3 → MMBuffer3 → Prop
  | i32 {a a' : Nat → Nat → Nat → Int32} :
      (∀ t r c, t < n → r < rows → c < cols → a t r c = a' t r c) → Agree n rows cols (.i32 a) (.i32 a')
  | i64 {a a' : Nat → Nat → Nat → Int64} :
      (∀ t r c, t < n → r < rows → c < cols → a t r c = a' t r c) → Agree n rows cols (.i64 a) (.i64 a')
  | flt {p : Prec} {a a' : Nat → Nat → Nat → Flt} {bits : Nat} {round : Bool} :
      (∀ t r c, t < n → r < rows → c < cols → a t r c = a' t r c) →
      Agree n rows cols (.flt p a bits round) (.flt p a' bits round)

theorem collect_congr {α β : Type} {f g : α → Option (List β)} : ∀ {xs : List α},
    (∀ x ∈ xs, f x = g x) → collect xs f = collect xs g := by
  intro xs
  induction xs with
  | nil => intro _; rfl
  | cons x xs ih =>
    intro h
    unfold collect
    rw [h x (List.mem_cons_self ..), ih fun y hy => h y (List.mem_cons_of_mem _ hy)]

section
variable {n rows cols : Nat}

theorem MMBuffer3.values_congr {α : Type} {a a' : Nat → Nat → Nat → α} {t : Nat}
    (h : ∀ r c, r < rows → c < cols → a t r c = a' t r c) :
    MMBuffer3.values a rows cols t = MMBuffer3.values a' rows cols t := by
  unfold MMBuffer3.values
  refine List.flatMap_congr fun r hr => List.map_congr_left fun c hc => ?_
  exact h r c (List.mem_range.1 hr) (List.mem_range.1 hc)

variable {b b' : MMBuffer3}

theorem MMBuffer3.Agree.slice (h : b.Agree n rows cols b') {top left rows' cols' : Nat}
    (h1 : top + rows' ≤ rows) (h2 : left + cols' ≤ cols) :
    (b.slice 0 top left).Agree n rows' cols' (b'.slice 0 top left) := by
  cases h with
  | i32 h => exact .i32 fun t r c ht hr hc => h _ _ _ (by omega) (by omega) (by omega)
  | i64 h => exact .i64 fun t r c ht hr hc => h _ _ _ (by omega) (by omega) (by omega)
  | flt h => exact .flt fun t r c ht hr hc => h _ _ _ (by omega) (by omega) (by omega)

theorem MMBuffer3.Agree.encoding (h : b.Agree n rows cols b') : b.encoding = b'.encoding := by
  cases h with
  | i32 => rfl
  | i64 => rfl
  | @flt p => cases p <;> rfl

theorem MMBuffer3.Agree.fractionalBits (h : b.Agree n rows cols b') :
    b.fractionalBits = b'.fractionalBits := by
  cases h <;> rfl

theorem MMBuffer3.Agree.get (h : b.Agree n rows cols b') {t r c : Nat} (ht : t < n) (hr : r < rows)
    (hc : c < cols) : b.get t r c = b'.get t r c := by
  cases h with
  | i32 h => simp only [MMBuffer3.get, h t r c ht hr hc]
  | i64 h => simp only [MMBuffer3.get, h t r c ht hr hc]
  | flt h => simp only [MMBuffer3.get, h t r c ht hr hc]

theorem MMBuffer3.Agree.minMax (h : b.Agree n rows cols b') :
    b.minMax n rows cols = b'.minMax n rows cols := by
  unfold MMBuffer3.minMax
  refine collect_congr fun t ht => ?_
  have ht := List.mem_range.1 ht
  cases h with
  | i32 h => simp only [MMBuffer3.values_congr fun r c => h t r c ht]
  | i64 h => simp only [MMBuffer3.values_congr fun r c => h t r c ht]
  | flt h => simp only [MMBuffer3.values_congr fun r c => h t r c ht]

/-- Both panic, or both have the same number of bits. -/
theorem MMBuffer3.Agree.computeBits (lg : Rat → Int) (h : b.Agree n rows cols b') :
    (b.computeBits lg n rows cols = none ∧ b'.computeBits lg n rows cols = none) ∨
    ∃ x x', b.computeBits lg n rows cols = some x ∧ b'.computeBits lg n rows cols = some x' ∧
      x.Agree n rows cols x' := by
  cases h with
  | i32 h => exact .inr ⟨_, _, rfl, rfl, .i32 h⟩
  | i64 h => exact .inr ⟨_, _, rfl, rfl, .i64 h⟩
  | @flt p a a' bits round h =>
    have hv : (List.range n).flatMap (MMBuffer3.values a rows cols) =
        (List.range n).flatMap (MMBuffer3.values a' rows cols) :=
      List.flatMap_congr fun t ht => MMBuffer3.values_congr fun r c => h t r c (List.mem_range.1 ht)
    unfold MMBuffer3.computeBits
    simp only [hv]
    cases Verif.computeBits lg ((List.range n).flatMap (MMBuffer3.values a' rows cols)) bits round with
    | none => exact .inl ⟨rfl, rfl⟩
    | some x => exact .inr ⟨_, _, rfl, rfl, .flt h⟩

theorem Chunk.buildBuffer_congr (clog : Nat → Nat) (k : Nat) (hn : 1 ≤ n) (h : b.Agree n rows cols b') :
    Chunk.buildBuffer clog b n rows cols k = Chunk.buildBuffer clog b' n rows cols k := by
  unfold Chunk.buildBuffer
  have hiff : (∀ t < n, ∀ r < rows, ∀ c < cols, (b.get t r c).isSome) ↔
      ∀ t < n, ∀ r < rows, ∀ c < cols, (b'.get t r c).isSome :=
    forall_congr' fun t => forall_congr' fun ht => forall_congr' fun r => forall_congr' fun hr =>
      forall_congr' fun c => forall_congr' fun hc => by rw [h.get ht hr hc]
  by_cases hs : ∀ t < n, ∀ r < rows, ∀ c < cols, (b'.get t r c).isSome
  · rw [if_pos hs, if_pos (hiff.2 hs), h.encoding, h.fractionalBits,
      Chunk.build_congr hn (get' := fun t r c => (b'.get t r c).getD 0)
        (fun t r c ht hr hc => by rw [h.get ht hr hc])]
  · rw [if_neg hs, if_neg (fun h => hs (hiff.1 h))]

end

namespace Superchunk

/-- Subarrays that are built in the same way. -/
def Part.Agree (n : Nat) (p p' : Part) : Prop :=
  p.minMax = p'.minMax ∧
  ((p.job = none ∧ p'.job = none) ∨
    ∃ j j', p.job = some j ∧ p'.job = some j' ∧ j.rows = j'.rows ∧ j.cols = j'.cols ∧
      j.chunk = j'.chunk ∧ j.buffer.Agree n j.rows j.cols j'.buffer)

section
variable {H : Hash} {clog : Nat → Nat} {lg : Rat → Int} {k n rows cols : Nat} {b b' : MMBuffer3}

theorem plan_congr (h : b.Agree n rows cols b') (sub : List Nat) (side : Nat) (pos : Nat × Nat) :
    (plan clog sub b n rows cols side pos = none ∧ plan clog sub b' n rows cols side pos = none) ∨
    ∃ p p', plan clog sub b n rows cols side pos = some p ∧
      plan clog sub b' n rows cols side pos = some p' ∧ p.Agree n p' := by
  unfold plan
  by_cases hout : pos.1 * side ≥ rows ∨ pos.2 * side ≥ cols
  · simp only [if_pos hout]
    exact .inr ⟨_, _, rfl, rfl, rfl, .inl ⟨rfl, rfl⟩⟩
  · simp only [if_neg hout]
    have hs := h.slice (top := pos.1 * side) (left := pos.2 * side)
      (rows' := min (pos.1 * side + side) rows - pos.1 * side)
      (cols' := min (pos.2 * side + side) cols - pos.2 * side) (by omega) (by omega)
    rw [hs.minMax]
    cases (b'.slice 0 (pos.1 * side) (pos.2 * side)).minMax n
        (min (pos.1 * side + side) rows - pos.1 * side) (min (pos.2 * side + side) cols - pos.2 * side) with
    | none => exact .inl ⟨rfl, rfl⟩
    | some mm =>
      simp only
      by_cases hall : mm.all (fun m => decide (m.1 = m.2)) = true
      · rw [if_pos hall, if_pos hall]
        exact .inr ⟨_, _, rfl, rfl, rfl, .inl ⟨rfl, rfl⟩⟩
      · rw [if_neg hall, if_neg hall]
        cases (if sub.length = 1 then some true else sub.head?.map fun l =>
            decide (clog (max (min (pos.1 * side + side) rows - pos.1 * side)
              (min (pos.2 * side + side) cols - pos.2 * side)) ≤ l)) with
        | none => exact .inl ⟨rfl, rfl⟩
        | some chunk => exact .inr ⟨_, _, rfl, rfl, rfl, .inr ⟨_, _, rfl, rfl, rfl, rfl, rfl, hs⟩⟩

theorem plans_congr (h : b.Agree n rows cols b') (sub : List Nat) (side : Nat) :
    ∀ (positions : List (Nat × Nat)),
    (collect positions (fun pos => (plan clog sub b n rows cols side pos).map fun p => [p]) = none ∧
      collect positions (fun pos => (plan clog sub b' n rows cols side pos).map fun p => [p]) = none) ∨
    ∃ ps ps', collect positions (fun pos => (plan clog sub b n rows cols side pos).map fun p => [p]) = some ps ∧
      collect positions (fun pos => (plan clog sub b' n rows cols side pos).map fun p => [p]) = some ps' ∧
      List.Forall₂ (Part.Agree n) ps ps' := by
  intro positions
  induction positions with
  | nil => exact .inr ⟨[], [], rfl, rfl, .nil⟩
  | cons pos positions ih =>
    unfold collect
    simp only
    rcases plan_congr (clog := clog) h sub side pos with ⟨h1, h2⟩ | ⟨p, p', h1, h2, h3⟩
    · rw [h1, h2]
      exact .inl ⟨rfl, rfl⟩
    · rw [h1, h2]
      simp only [Option.map_some]
      rcases ih with ⟨h4, h5⟩ | ⟨ps, ps', h4, h5, h6⟩
      · rw [h4, h5]
        exact .inl ⟨rfl, rfl⟩
      · rw [h4, h5]
        exact .inr ⟨_, _, rfl, rfl, .cons h3 h6⟩

/-- A builder that gives the same structure for the same cells. -/
def Extensional (n : Nat)
    (rec : Saved → MMBuffer3 → (instants rows cols : Nat) → Option (MMStruct3Build × Saved)) : Prop :=
  ∀ (log log' : Saved) (b b' : MMBuffer3) (rows cols : Nat), b.Agree n rows cols b' →
    (rec log b n rows cols).map (·.1) = (rec log' b' n rows cols).map (·.1)

variable {rec : Saved → MMBuffer3 → (instants rows cols : Nat) → Option (MMStruct3Build × Saved)}

theorem runJob_congr (hn : 1 ≤ n) (hr : Extensional n rec) {j j' : Job} (h1 : j.rows = j'.rows)
    (h2 : j.cols = j'.cols) (h3 : j.chunk = j'.chunk) (h : j.buffer.Agree n j.rows j.cols j'.buffer)
    (log log' : Saved) :
    (runJob clog lg k rec n log j).map (·.1) = (runJob clog lg k rec n log' j').map (·.1) := by
  unfold runJob
  rw [← h1, ← h2, ← h3]
  rcases h.computeBits lg with ⟨e1, e2⟩ | ⟨x, x', e1, e2, e3⟩
  · rw [e1, e2]
  · rw [e1, e2]
    simp only
    split
    · rw [Chunk.buildBuffer_congr clog k hn e3, Option.map_map, Option.map_map]
      rfl
    · exact hr _ _ _ _ _ _ e3

theorem runJobs_congr (hn : 1 ≤ n) (hr : Extensional n rec) {ps ps' : List Part}
    (h : List.Forall₂ (Part.Agree n) ps ps') : ∀ (log log' : Saved),
    (runJobs clog lg k rec n log ps).map (fun r => r.1.map fun q => (q.1.minMax, q.2)) =
      (runJobs clog lg k rec n log' ps').map (fun r => r.1.map fun q => (q.1.minMax, q.2)) := by
  induction h with
  | nil => intro _ _; rfl
  | @cons p p' ps ps' hp _ ih =>
    intro log log'
    obtain ⟨hm, ⟨h1, h2⟩ | ⟨j, j', h1, h2, h3, h4, h5, h6⟩⟩ := hp
    · unfold runJobs
      rw [h1, h2]
      simp only [Option.map_map]
      have := congrArg (Option.map fun l => (p.minMax, (none : Option MMStruct3Build)) :: l) (ih log log')
      rw [Option.map_map, Option.map_map] at this
      have e : (fun l => (p.minMax, (none : Option MMStruct3Build)) :: l) =
          fun l => (p'.minMax, (none : Option MMStruct3Build)) :: l := by rw [hm]
      rw [e] at this
      simpa [Function.comp_def, hm] using this
    · have hj := runJob_congr (clog := clog) (lg := lg) (k := k) hn hr h3 h4 h5 h6 log log'
      unfold runJobs
      rw [h1, h2]
      simp only
      cases e1 : runJob clog lg k rec n log j with
      | none =>
        rw [e1] at hj
        cases e2 : runJob clog lg k rec n log' j' with
        | none => rfl
        | some x => rw [e2] at hj; cases hj
      | some x =>
        rw [e1] at hj
        cases e2 : runJob clog lg k rec n log' j' with
        | none => rw [e2] at hj; cases hj
        | some x' =>
          rw [e2] at hj
          simp only [Option.map_some, Option.some.injEq] at hj
          simp only [Option.map_map]
          have := congrArg (Option.map fun l => (p.minMax, some x.1) :: l) (ih x.2 x'.2)
          rw [Option.map_map, Option.map_map] at this
          simpa [Function.comp_def, hm, hj] using this

theorem extremes_congr (pick : Int64 × Int64 → Int64) {ps ps' : List (Part × Option MMStruct3Build)}
    (h : ps.map (fun q => (q.1.minMax, q.2)) = ps'.map (fun q => (q.1.minMax, q.2))) :
    extremes pick n ps = extremes pick n ps' := by
  unfold extremes
  refine collect_congr fun i _ => ?_
  have hc : ∀ qs : List (Part × Option MMStruct3Build),
      collect qs (fun p => (p.1.minMax[i]?).map fun m => [pick m]) =
        collect (qs.map fun q => (q.1.minMax, q.2)) (fun p => (p.1[i]?).map fun m => [pick m]) := by
    intro qs
    induction qs with
    | nil => rfl
    | cons q qs ih =>
      rw [List.map_cons]
      unfold collect
      rw [ih]
  rw [hc, hc, h]

/-- Everything but the objects that were saved. -/
def SaveState.Alike (s s' : SaveState) : Prop :=
  s.external = s'.external ∧ s.references = s'.references ∧ s.sizes = s'.sizes ∧ s.elided = s'.elided ∧
    s.snapshots = s'.snapshots ∧ s.logs = s'.logs

theorem saveStep_congr {s s' : SaveState} (hs : s.Alike s') {q q' : Part × Option MMStruct3Build}
    (h1 : q.1.minMax = q'.1.minMax) (h2 : q.2 = q'.2) : (saveStep H s q).Alike (saveStep H s' q') := by
  obtain ⟨e1, e2, e3, e4, e5, e6⟩ := hs
  unfold saveStep
  rw [h1, h2]
  cases q'.2 with
  | none => exact ⟨e1, by simp only [e2], e3, by simp only [e4], e5, e6⟩
  | some build =>
    simp only
    split
    · exact ⟨e1, by simp only [e2], e3, by simp only [e4], e5, e6⟩
    · simp only [save, e1]
      cases s'.external.idxOf? (H.cidOf (Item.struct build.data).bytes) with
      | none => exact ⟨by simp only, by simp only [e2], by simp only [e3], e4, by simp only [e5],
          by simp only [e6]⟩
      | some i => exact ⟨rfl, by simp only [e2], by simp only [e3], e4, by simp only [e5], by simp only [e6]⟩

theorem saveAll_congr : ∀ (ps ps' : List (Part × Option MMStruct3Build)) (s s' : SaveState), s.Alike s' →
    ps.map (fun q => (q.1.minMax, q.2)) = ps'.map (fun q => (q.1.minMax, q.2)) →
    (ps.foldl (saveStep H) s).Alike (ps'.foldl (saveStep H) s') := by
  intro ps
  induction ps with
  | nil =>
    intro ps' s s' hs h
    cases ps' with
    | nil => exact hs
    | cons => cases h
  | cons q ps ih =>
    intro ps' s s' hs h
    cases ps' with
    | nil => cases h
    | cons q' ps' =>
      simp only [List.map_cons, List.cons.injEq, Prod.mk.injEq] at h
      exact ih ps' _ _ (saveStep_congr hs h.1.1 h.1.2) h.2

theorem buildLevel_congr (hn : 1 ≤ n) (hr : Extensional n rec) (level : Nat) (sub : List Nat) :
    Extensional n (buildLevel H clog lg k rec level sub) := by
  intro log log' b b' rows cols h
  unfold buildLevel
  simp only
  split
  · rfl
  · rcases plans_congr (clog := clog) h sub (k ^ clog (max rows cols) / k ^ level)
      ((List.range (k ^ level)).flatMap fun r => (List.range (k ^ level)).map fun c => (r, c)) with
      ⟨h1, h2⟩ | ⟨ps, ps', h1, h2, h3⟩
    · rw [h1, h2]
    · rw [h1, h2]
      simp only
      have hj := runJobs_congr (clog := clog) (lg := lg) (k := k) hn hr h3 log log'
      cases e1 : runJobs clog lg k rec n log ps with
      | none =>
        rw [e1] at hj
        cases e2 : runJobs clog lg k rec n log' ps' with
        | none => rfl
        | some x => rw [e2] at hj; cases hj
      | some x =>
        rw [e1] at hj
        cases e2 : runJobs clog lg k rec n log' ps' with
        | none => rw [e2] at hj; cases hj
        | some x' =>
          rw [e2] at hj
          simp only [Option.map_some, Option.some.injEq] at hj
          obtain ⟨qs, lg1⟩ := x
          obtain ⟨qs', lg2⟩ := x'
          simp only at hj ⊢
          rw [extremes_congr (n := n) Prod.fst hj, extremes_congr (n := n) Prod.snd hj, h.fractionalBits,
            h.encoding]
          cases extremes Prod.fst n qs' with
          | none => rfl
          | some mn =>
            cases extremes Prod.snd n qs' with
            | none => rfl
            | some mx =>
              simp only
              obtain ⟨a1, a2, a3, a4, a5, a6⟩ := saveAll_congr (H := H) qs qs' ⟨lg1, [], [], 0, 0, 0, 0⟩
                ⟨lg2, [], [], 0, 0, 0, 0⟩ ⟨rfl, rfl, rfl, rfl, rfl, rfl⟩ hj
              rw [a1, a2, a3, a4, a5, a6]
              cases Dac.ofList mx with
              | none => rfl
              | some mx =>
                cases Dac.ofList mn with
                | none => rfl
                | some mn => rfl

/-- `Superchunk::build` depends on the cells of the buffer only. -/
theorem build_congr (hn : 1 ≤ n) : ∀ levels : List Nat, Extensional n (build H clog lg k levels) := by
  intro levels
  induction levels with
  | nil => intro _ _ _ _ _ _ _; rfl
  | cons level sub ih => exact buildLevel_congr hn ih level sub

end

end Superchunk

/-- The chunk that gets built depends on the cells of the buffer only. -/
theorem Prog.buildChunk_congr {H : Hash} {clog : Nat → Nat} {lg : Rat → Int} {n rows cols : Nat}
    {b b' : MMBuffer3} (hn : 1 ≤ n) (h : b.Agree n rows cols b') (levels : List Nat) (log log' : Saved) :
    (Prog.buildChunk H clog lg levels b n rows cols log).1 =
      (Prog.buildChunk H clog lg levels b' n rows cols log').1 := by
  unfold Prog.buildChunk
  rcases h.computeBits lg with ⟨e1, e2⟩ | ⟨x, x', e1, e2, e3⟩
  · rw [e1, e2]
  · rw [e1, e2]
    simp only
    have := Superchunk.build_congr (H := H) (clog := clog) (lg := lg) (k := 2) hn levels log log' x x' rows
      cols e3
    cases e4 : Superchunk.build H clog lg 2 levels log x n rows cols with
    | none =>
      rw [e4] at this
      cases e5 : Superchunk.build H clog lg 2 levels log' x' n rows cols with
      | none => rfl
      | some y => rw [e5] at this; cases this
    | some y =>
      rw [e4] at this
      cases e5 : Superchunk.build H clog lg 2 levels log' x' n rows cols with
      | none => rw [e5] at this; cases this
      | some y' =>
        rw [e5] at this
        simp only [Option.map_some, Option.some.injEq] at this
        simp only [this]

end Verif
