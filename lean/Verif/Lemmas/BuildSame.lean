import Verif.Lemmas.BuildCongr
import Verif.Lemmas.DatasetHistory

/-! Building, and appending, from buffers with the same cells saves the same objects in the same order. -/
namespace Verif

namespace Superchunk

section
variable {H : Hash} {clog : Nat → Nat} {lg : Rat → Int} {k n rows cols : Nat} {b b' : MMBuffer3}

/-- A builder that does the same for the same cells. -/
def Same (n : Nat)
    (rec : Saved → MMBuffer3 → (instants rows cols : Nat) → Option (MMStruct3Build × Saved)) : Prop :=
  ∀ (log : Saved) (b b' : MMBuffer3) (rows cols : Nat), b.Agree n rows cols b' →
    rec log b n rows cols = rec log b' n rows cols

variable {rec : Saved → MMBuffer3 → (instants rows cols : Nat) → Option (MMStruct3Build × Saved)}

theorem runJob_same (hn : 1 ≤ n) (hr : Same n rec) {j j' : Job} (h1 : j.rows = j'.rows)
    (h2 : j.cols = j'.cols) (h3 : j.chunk = j'.chunk) (h : j.buffer.Agree n j.rows j.cols j'.buffer)
    (log : Saved) : runJob clog lg k rec n log j = runJob clog lg k rec n log j' := by
  unfold runJob
  rw [← h1, ← h2, ← h3]
  rcases h.computeBits lg with ⟨e1, e2⟩ | ⟨x, x', e1, e2, e3⟩
  · rw [e1, e2]
  · rw [e1, e2]
    simp only
    rw [Chunk.buildBuffer_congr clog k hn e3, hr _ _ _ _ _ e3]

/-- The parts without their buffers. -/
def outline (r : List (Part × Option MMStruct3Build) × Saved) :
    List (List (Int64 × Int64) × Option MMStruct3Build) × Saved :=
  (r.1.map fun q => (q.1.minMax, q.2), r.2)

theorem runJobs_same (hn : 1 ≤ n) (hr : Same n rec) {ps ps' : List Part}
    (h : List.Forall₂ (Part.Agree n) ps ps') : ∀ (log : Saved),
    (runJobs clog lg k rec n log ps).map outline = (runJobs clog lg k rec n log ps').map outline := by
  induction h with
  | nil => intro _; rfl
  | @cons p p' ps ps' hp _ ih =>
    intro log
    have key : ∀ (log : Saved) (x : Option MMStruct3Build),
        ((runJobs clog lg k rec n log ps).map fun r => ((p, x) :: r.1, r.2)).map outline =
        ((runJobs clog lg k rec n log ps').map fun r => ((p', x) :: r.1, r.2)).map outline := by
      intro log x
      have := congrArg (Option.map fun r => ((p.minMax, x) :: r.1, r.2)) (ih log)
      rw [Option.map_map, Option.map_map] at this
      rw [Option.map_map, Option.map_map]
      have e : p.minMax = p'.minMax := hp.1
      simpa [Function.comp_def, outline, e] using this
    obtain ⟨hm, ⟨h1, h2⟩ | ⟨j, j', h1, h2, h3, h4, h5, h6⟩⟩ := hp
    · unfold runJobs
      rw [h1, h2]
      exact key log none
    · unfold runJobs
      rw [h1, h2]
      simp only
      rw [runJob_same hn hr h3 h4 h5 h6 log]
      cases runJob clog lg k rec n log j' with
      | none => rfl
      | some x => exact key x.2 (some x.1)

theorem saveStep_same {s s' : SaveState} (hs : s = s') {q q' : Part × Option MMStruct3Build}
    (h1 : q.1.minMax = q'.1.minMax) (h2 : q.2 = q'.2) : saveStep H s q = saveStep H s' q' := by
  subst hs
  unfold saveStep
  rw [h1, h2]

theorem saveAll_same : ∀ (ps ps' : List (Part × Option MMStruct3Build)) (s : SaveState),
    ps.map (fun q => (q.1.minMax, q.2)) = ps'.map (fun q => (q.1.minMax, q.2)) →
    ps.foldl (saveStep H) s = ps'.foldl (saveStep H) s := by
  intro ps
  induction ps with
  | nil =>
    intro ps' s h
    cases ps' with
    | nil => rfl
    | cons => cases h
  | cons q ps ih =>
    intro ps' s h
    cases ps' with
    | nil => cases h
    | cons q' ps' =>
      simp only [List.map_cons, List.cons.injEq, Prod.mk.injEq] at h
      rw [List.foldl_cons, List.foldl_cons, saveStep_same rfl h.1.1 h.1.2]
      exact ih ps' _ h.2

theorem buildLevel_same (hn : 1 ≤ n) (hr : Same n rec) (level : Nat) (sub : List Nat) :
    Same n (buildLevel H clog lg k rec level sub) := by
  intro log b b' rows cols h
  unfold buildLevel
  simp only
  split
  · rfl
  · rcases plans_congr (clog := clog) h sub (k ^ clog (max rows cols) / k ^ level)
      ((List.range (k ^ level)).flatMap fun r => (List.range (k ^ level)).map fun c => (r, c)) with
      ⟨h1, h2⟩ | ⟨ps, ps', h1, h2, h3⟩
    · rw [h1, h2]
    · rw [h1, h2]
      simp only
      have hj := runJobs_same (clog := clog) (lg := lg) (k := k) hn hr h3 log
      cases e1 : runJobs clog lg k rec n log ps with
      | none =>
        rw [e1] at hj
        cases e2 : runJobs clog lg k rec n log ps' with
        | none => rfl
        | some x => rw [e2] at hj; cases hj
      | some x =>
        rw [e1] at hj
        cases e2 : runJobs clog lg k rec n log ps' with
        | none => rw [e2] at hj; cases hj
        | some x' =>
          rw [e2] at hj
          obtain ⟨qs, lg1⟩ := x
          obtain ⟨qs', lg2⟩ := x'
          simp only [Option.map_some, Option.some.injEq, outline, Prod.mk.injEq] at hj
          obtain ⟨hj, rfl⟩ := hj
          simp only
          rw [extremes_congr (n := n) Prod.fst hj, extremes_congr (n := n) Prod.snd hj, h.fractionalBits,
            h.encoding, saveAll_same _ _ _ hj]

/-- `Superchunk::build` does the same for the same cells. -/
theorem build_same (hn : 1 ≤ n) : ∀ levels : List Nat, Same n (build H clog lg k levels) := by
  intro levels
  induction levels with
  | nil => intro _ _ _ _ _ _; rfl
  | cons level sub ih => exact buildLevel_same hn ih level sub

end

end Superchunk

section
variable {H : Hash} {utf8 : List Byte → Bool} {clog : Nat → Nat} {lg : Rat → Int} {n rows cols : Nat}
  {b b' : MMBuffer3}

theorem Prog.buildChunk_same (hn : 1 ≤ n) (h : b.Agree n rows cols b') (levels : List Nat) :
    Prog.buildChunk H clog lg levels b n rows cols = Prog.buildChunk H clog lg levels b' n rows cols := by
  funext log
  unfold Prog.buildChunk
  rcases h.computeBits lg with ⟨e1, e2⟩ | ⟨x, x', e1, e2, e3⟩
  · rw [e1, e2]
  · rw [e1, e2]
    simp only
    rw [Superchunk.build_same hn levels log x x' rows cols e3]

theorem MMBuffer3.Agree.instants (h : b.Agree n rows cols b') {s n' : Nat} (hs : s + n' ≤ n) :
    (b.slice s 0 0).Agree n' rows cols (b'.slice s 0 0) := by
  cases h with
  | i32 h => exact .i32 fun t r c ht hr hc => h _ _ _ (by omega) (by omega) (by omega)
  | i64 h => exact .i64 fun t r c ht hr hc => h _ _ _ (by omega) (by omega) (by omega)
  | flt h => exact .flt fun t r c ht hr hc => h _ _ _ (by omega) (by omega) (by omega)

/-- What follows can be replaced by what does the same for all results there can be. -/
theorem Prog.bind_same {α β : Type} {m : Prog α} {f g : α → Prog β} {Q : α → Prop} (hm : Post m Q)
    (h : ∀ a, Q a → f a = g a) : m >>= f = m >>= g := by
  funext log
  change Prog.bind m f log = Prog.bind m g log
  unfold Prog.bind
  rcases e : m log with ⟨_ | a, log'⟩
  · rfl
  · simp only
    rw [h a (hm _ _ _ e)]

theorem Variable.appendLoop_same (fuel : Nat) (h : b.Agree n rows cols b') {cs : Nat} (hcs : 1 ≤ cs) :
    ∀ (starts : List Nat) (v : Variable) (spans : List Span) (update : Bool), v.chunkSize = cs →
    (∀ s ∈ starts, s < n) →
    Variable.appendLoop H utf8 clog lg fuel b n rows cols starts v spans update =
      Variable.appendLoop H utf8 clog lg fuel b' n rows cols starts v spans update := by
  intro starts
  induction starts with
  | nil => intro v spans update _ _; rfl
  | cons s starts ih =>
    intro v spans update hv hs
    have hsn := hs s (List.mem_cons_self ..)
    unfold Variable.appendLoop
    simp only
    rw [Prog.buildChunk_same (by omega)
      (h.instants (s := s) (n' := min (s + v.chunkSize) n - s) (by omega)) v.k2Levels]
    refine Prog.bind_same (Post.any _) fun chunk _ => ?_
    cases spans with
    | nil => rfl
    | cons sp rest =>
      refine Prog.bind_same (Variable.openIfFull_post v rows cols sp rest) fun x hx => ?_
      refine Prog.bind_same (Post.any _) fun sp' _ => ?_
      refine ih _ _ _ ?_ fun t ht => hs t (List.mem_cons_of_mem _ ht)
      rcases hx with e | ⟨cid, -, e⟩
      · rw [e, hv]
      · rw [e]
        exact hv

theorem Variable.append_same (fuel : Nat) (v : Variable) (h : b.Agree n rows cols b') (update : Bool) :
    Variable.append H utf8 clog lg fuel v b n rows cols update =
      Variable.append H utf8 clog lg fuel v b' n rows cols update := by
  unfold Variable.append
  refine Prog.bind_same (Post.any _) fun spans _ => ?_
  by_cases hcs : v.chunkSize = 0
  · rw [if_pos hcs, if_pos hcs]
  · rw [if_neg hcs, if_neg hcs]
    simp only
    rw [Variable.appendLoop_same fuel h (cs := v.chunkSize) (by omega) _ v spans update rfl]
    intro s hs
    obtain ⟨i, hi, rfl⟩ := List.mem_map.1 hs
    have hi := List.mem_range.1 hi
    have h1 := (Nat.le_div_iff_mul_le (k := v.chunkSize) (by omega)).1 (show i + 1 ≤ _ from hi)
    rw [Nat.add_mul] at h1
    omega

end

end Verif
