import Verif.Lemmas.Sides
import Verif.Lemmas.Ground
import Verif.Lemmas.StructSearch
import Verif.Model.SuperBuild

/-! What `Superchunk::build` builds. -/
namespace Verif

/-! ### Loops -/

theorem collect_singletons {α β} {f : α → Option β} : ∀ {xs : List α} {ys : List β},
    collect xs (fun x => (f x).map fun y => [y]) = some ys →
    List.Forall₂ (fun x y => f x = some y) xs ys := by
  intro xs
  induction xs with
  | nil => intro ys h; cases h; exact .nil
  | cons x xs ih =>
    intro ys h
    unfold collect at h
    beta_reduce at h
    cases hx : f x with
    | none => rw [hx] at h; cases h
    | some y =>
      rw [hx] at h
      simp only [Option.map_some] at h
      cases hc : collect xs (fun x => (f x).map fun y => [y]) with
      | none => rw [hc] at h; cases h
      | some zs =>
        rw [hc] at h
        cases h
        exact .cons hx (ih hc)

theorem forall₂_getElem? {α β} {R : α → β → Prop} {xs : List α} {ys : List β}
    (h : List.Forall₂ R xs ys) {i : Nat} {x : α} (hx : xs[i]? = some x) :
    ∃ y, ys[i]? = some y ∧ R x y := by
  induction h generalizing i with
  | nil => simp at hx
  | @cons a b as bs h1 h2 ih =>
    cases i with
    | zero =>
      simp only [List.getElem?_cons_zero, Option.some.injEq] at hx ⊢
      exact ⟨b, rfl, hx ▸ h1⟩
    | succ i =>
      simp only [List.getElem?_cons_succ] at hx ⊢
      exact ih hx

theorem collect_getElem? {α β} {f : α → Option (List β)} {m : Nat} : ∀ {xs : List α} {ys : List β},
    collect xs f = some ys → (∀ x ∈ xs, ∀ l, f x = some l → l.length = m) →
    ys.length = xs.length * m ∧
    ∀ i x, xs[i]? = some x → ∃ l, f x = some l ∧ ∀ j, j < m → ys[j + i * m]? = l[j]? := by
  intro xs
  induction xs with
  | nil => intro ys h _; cases h; simp
  | cons a xs ih =>
    intro ys h hm
    unfold collect at h
    cases ha : f a with
    | none => rw [ha] at h; cases h
    | some l =>
      rw [ha] at h
      simp only at h
      cases hc : collect xs f with
      | none => rw [hc] at h; cases h
      | some zs =>
        rw [hc] at h
        cases h
        obtain ⟨i1, i2⟩ := ih hc fun x hx => hm x (by simp [hx])
        have hl := hm a (by simp) l ha
        refine ⟨?_, ?_⟩
        · rw [List.length_append, i1, hl, List.length_cons, Nat.succ_mul]
          omega
        · intro i x hx
          cases i with
          | zero =>
            simp only [List.getElem?_cons_zero, Option.some.injEq] at hx
            subst hx
            refine ⟨l, ha, fun j hj => ?_⟩
            rw [Nat.zero_mul, Nat.add_zero, List.getElem?_append_left (by omega)]
          | succ i =>
            simp only [List.getElem?_cons_succ] at hx
            obtain ⟨l', e, h'⟩ := i2 i x hx
            refine ⟨l', e, fun j hj => ?_⟩
            rw [Nat.succ_mul, List.getElem?_append_right (by omega), ← h' j hj]
            congr 1
            omega

namespace Superchunk

theorem extremes_spec {pick : Int64 × Int64 → Int64} {instants : Nat}
    {parts : List (Part × Option MMStruct3Build)} {out : List Int64}
    (h : extremes pick instants parts = some out) :
    out.length = instants * parts.length ∧
    ∀ t, t < instants → ∀ i p, parts[i]? = some p →
      ∃ m, p.1.minMax[t]? = some m ∧ out[i + t * parts.length]? = some (pick m) := by
  unfold extremes at h
  have hlen : ∀ t ∈ List.range instants, ∀ l, collect parts (fun p =>
      (p.1.minMax[t]?).map fun m => [pick m]) = some l → l.length = parts.length := by
    intro t _ l hl
    have : collect parts (fun p => ((p.1.minMax[t]?).map pick).map fun y => [y]) = some l := by
      rw [← hl]
      congr 1
      funext p
      cases p.1.minMax[t]? <;> rfl
    exact (collect_singletons this).length_eq.symm
  obtain ⟨h1, h2⟩ := collect_getElem? h hlen
  rw [List.length_range] at h1
  refine ⟨h1, fun t ht i p hp => ?_⟩
  obtain ⟨l, e, h3⟩ := h2 t t (by rw [List.getElem?_range ht])
  have : collect parts (fun p => ((p.1.minMax[t]?).map pick).map fun y => [y]) = some l := by
    rw [← e]
    congr 1
    funext p
    cases p.1.minMax[t]? <;> rfl
  obtain ⟨y, e1, e2⟩ := forall₂_getElem? (collect_singletons this) hp
  have hi : i < parts.length := (List.getElem?_eq_some_iff.1 hp).1
  cases hm : p.1.minMax[t]? with
  | none => rw [hm] at e2; cases e2
  | some m =>
    rw [hm] at e2
    cases e2
    exact ⟨m, rfl, by rw [h3 i hi, e1]⟩

/-! ### The futures -/

section
variable {clog : Nat → Nat} {lg : Rat → Int} {k : Nat}
  {rec : Saved → MMBuffer3 → (instants rows cols : Nat) → Option (MMStruct3Build × Saved)}

theorem runJob_log {instants : Nat} (hrec : ∀ la b n r c x lb, rec la b n r c = some (x, lb) → la ⊆ lb)
    {log : Saved} {job : Job} {x lb}
    (h : runJob clog lg k rec instants log job = some (x, lb)) : log ⊆ lb := by
  unfold runJob at h
  split at h
  · cases h
  · split at h
    · rw [Option.map_eq_some_iff] at h
      obtain ⟨b, -, h⟩ := h
      cases h
      exact List.Subset.refl _
    · exact hrec _ _ _ _ _ _ _ h

theorem runJobs_spec {instants : Nat} (hrec : ∀ la b n r c x lb, rec la b n r c = some (x, lb) → la ⊆ lb) :
    ∀ {parts : List Part} {log log' : Saved} {ps : List (Part × Option MMStruct3Build)},
    runJobs clog lg k rec instants log parts = some (ps, log') →
    log ⊆ log' ∧ List.Forall₂ (fun part q => q.1 = part ∧ (part.job = none → q.2 = none) ∧
      ∀ job, part.job = some job → ∃ build la lb,
        runJob clog lg k rec instants la job = some (build, lb) ∧ q.2 = some build ∧ lb ⊆ log')
      parts ps := by
  intro parts
  induction parts with
  | nil =>
    intro log log' ps h
    cases h
    exact ⟨List.Subset.refl _, .nil⟩
  | cons part parts ih =>
    intro log log' ps h
    unfold runJobs at h
    cases hj : part.job with
    | none =>
      rw [hj] at h
      simp only at h
      rw [Option.map_eq_some_iff] at h
      obtain ⟨⟨qs, l⟩, h1, h2⟩ := h
      cases h2
      obtain ⟨i1, i2⟩ := ih h1
      exact ⟨i1, .cons ⟨rfl, fun _ => rfl, fun job h => by simp [hj] at h⟩ i2⟩
    | some job =>
      rw [hj] at h
      simp only at h
      cases hr : runJob clog lg k rec instants log job with
      | none => rw [hr] at h; cases h
      | some x =>
        obtain ⟨build, l1⟩ := x
        rw [hr] at h
        simp only at h
        rw [Option.map_eq_some_iff] at h
        obtain ⟨⟨qs, l⟩, h1, h2⟩ := h
        cases h2
        obtain ⟨i1, i2⟩ := ih h1
        refine ⟨fun b hb => i1 (runJob_log hrec hr hb), .cons ⟨rfl, fun h => by simp [hj] at h,
          fun job' h => ?_⟩ i2⟩
        rw [hj] at h
        cases h
        exact ⟨build, log, l1, hr, rfl, i1⟩

end

/-! ### Saving -/

/-- A part is elided or its reference leads to what was saved. -/
def SavedAs (H : Hash) (s : SaveState) (p : Part × Option MMStruct3Build) (ref : Reference) : Prop :=
  (ref = .elided ∧ (p.2 = none ∨ ∀ m ∈ p.1.minMax, m.2 = m.1)) ∨
  ∃ i build, ref = .external i ∧ p.2 = some build ∧
    s.external[i]? = some (H.cidOf (Item.struct build.data).bytes) ∧
    (Item.struct build.data).bytes ∈ s.log

theorem SavedAs.mono {H s s' p ref} (h : SavedAs H s p ref) (h1 : s.log ⊆ s'.log)
    (h2 : ∃ l, s'.external = s.external ++ l) : SavedAs H s' p ref := by
  rcases h with h | ⟨i, build, e1, e2, e3, e4⟩
  · exact .inl h
  · obtain ⟨l, hl⟩ := h2
    refine .inr ⟨i, build, e1, e2, ?_, h1 e4⟩
    rw [hl, List.getElem?_append_left (List.getElem?_eq_some_iff.1 e3).1]
    exact e3

theorem idxOf?_getElem? {α} [BEq α] [LawfulBEq α] {l : List α} {a : α} {i : Nat}
    (h : l.idxOf? a = some i) : l[i]? = some a := by
  rw [List.idxOf?, List.findIdx?_eq_some_iff_getElem] at h
  obtain ⟨h1, h2, -⟩ := h
  rw [List.getElem?_eq_getElem h1]
  rw [eq_of_beq h2]

theorem saveStep_spec (H : Hash) (s : SaveState) (p : Part × Option MMStruct3Build) :
    ∃ ref, (saveStep H s p).references = s.references ++ [ref] ∧
      SavedAs H (saveStep H s p) p ref ∧ s.log ⊆ (saveStep H s p).log ∧
      (∃ l, (saveStep H s p).external = s.external ++ l) ∧
      (saveStep H s p).external.length ≤ s.external.length + 1 ∧
      ((∀ c ∈ s.external, c.Valid) → ∀ c ∈ (saveStep H s p).external, c.Valid) := by
  unfold saveStep
  cases hp : p.2 with
  | none =>
    exact ⟨.elided, rfl, .inl ⟨rfl, .inl hp⟩, List.Subset.refl _, ⟨[], by simp⟩, by simp, fun h => h⟩
  | some build =>
    simp only
    by_cases hall : p.1.minMax.all (fun m => decide (m.2 = m.1)) = true
    · rw [if_pos hall]
      refine ⟨.elided, rfl, .inl ⟨rfl, .inr fun m hm => ?_⟩, List.Subset.refl _, ⟨[], by simp⟩,
        by simp, fun h => h⟩
      exact of_decide_eq_true (List.all_eq_true.1 hall m hm)
    · rw [if_neg hall]
      simp only [save]
      cases hi : s.external.idxOf? (H.cidOf (Item.struct build.data).bytes) with
      | some i =>
        simp only
        exact ⟨.external i, rfl, .inr ⟨i, build, rfl, hp, idxOf?_getElem? hi, by simp⟩,
          List.subset_cons_self _ _, ⟨[], by simp⟩, by simp, fun h => h⟩
      | none =>
        simp only
        refine ⟨.external s.external.length, rfl, .inr ⟨_, build, rfl, hp, by simp, by simp⟩,
          List.subset_cons_self _ _, ⟨_, rfl⟩, by simp, fun h c hc => ?_⟩
        rcases List.mem_append.1 hc with hc | hc
        · exact h c hc
        · rw [List.mem_singleton] at hc
          rw [hc]
          exact H.valid _

theorem saveAll_spec (H : Hash) : ∀ (ps : List (Part × Option MMStruct3Build)) (s : SaveState),
    ∃ refs, (ps.foldl (saveStep H) s).references = s.references ++ refs ∧
      List.Forall₂ (SavedAs H (ps.foldl (saveStep H) s)) ps refs ∧
      s.log ⊆ (ps.foldl (saveStep H) s).log ∧
      (∃ l, (ps.foldl (saveStep H) s).external = s.external ++ l) ∧
      (ps.foldl (saveStep H) s).external.length ≤ s.external.length + ps.length ∧
      ((∀ c ∈ s.external, c.Valid) → ∀ c ∈ (ps.foldl (saveStep H) s).external, c.Valid) := by
  intro ps
  induction ps with
  | nil =>
    intro s
    exact ⟨[], by simp, .nil, List.Subset.refl _, ⟨[], by simp⟩, by simp, fun h => h⟩
  | cons p ps ih =>
    intro s
    rw [List.foldl_cons]
    obtain ⟨ref, a1, a2, a3, ⟨l, a4⟩, a5, a6⟩ := saveStep_spec H s p
    obtain ⟨refs, b1, b2, b3, ⟨l', b4⟩, b5, b6⟩ := ih (saveStep H s p)
    refine ⟨ref :: refs, ?_, .cons (a2.mono b3 ⟨l', b4⟩) b2, fun x hx => b3 (a3 hx),
      ⟨l ++ l', ?_⟩, ?_, fun h => b6 (a6 h)⟩
    · rw [b1, a1]; simp
    · rw [b4, a4]; simp
    · rw [List.length_cons]; omega

/-- Every link leads to what was saved for one of the parts. -/
theorem saveAll_external (H : Hash) : ∀ (ps : List (Part × Option MMStruct3Build)) (s : SaveState),
    ∀ c ∈ (ps.foldl (saveStep H) s).external, c ∈ s.external ∨ ∃ p ∈ ps, ∃ build, p.2 = some build ∧
      c = H.cidOf (Item.struct build.data).bytes ∧
      (Item.struct build.data).bytes ∈ (ps.foldl (saveStep H) s).log := by
  intro ps
  induction ps with
  | nil => intro s c hc; exact .inl hc
  | cons p ps ih =>
    intro s c hc
    rw [List.foldl_cons] at hc ⊢
    rcases ih _ c hc with h | ⟨q, hq, build, h1, h2, h3⟩
    · obtain ⟨-, -, -, hlog, -⟩ := saveAll_spec H ps (saveStep H s p)
      unfold saveStep at h hlog
      cases hp : p.2 with
      | none => rw [hp] at h; exact .inl h
      | some build =>
        rw [hp] at h hlog
        simp only at h hlog
        by_cases hall : p.1.minMax.all (fun m => decide (m.2 = m.1)) = true
        · rw [if_pos hall] at h; exact .inl h
        · rw [if_neg hall] at h hlog
          simp only [save] at h hlog
          cases hi : s.external.idxOf? (H.cidOf (Item.struct build.data).bytes) with
          | some i => rw [hi] at h; exact .inl h
          | none =>
            rw [hi] at h hlog
            simp only at h hlog
            rcases List.mem_append.1 h with h | h
            · exact .inl h
            · rw [List.mem_singleton] at h
              refine .inr ⟨p, by simp, build, hp, h, ?_⟩
              have : (saveStep H s p).log ⊆ _ := (saveAll_spec H ps (saveStep H s p)).choose_spec.2.2.1
              refine this ?_
              unfold saveStep
              rw [hp]
              simp only
              rw [if_neg hall]
              simp only [save]
              rw [hi]
              simp
    · exact .inr ⟨q, by simp [hq], build, h1, h2, h3⟩

/-! ### Planning -/

/-- Only parts that overlap the raster are built. -/
theorem plan_job {clog : Nat → Nat} {sub : List Nat} {b : MMBuffer3} {n rows cols cs i j : Nat}
    {part : Part} (h : plan clog sub b n rows cols cs (i, j) = some part) (hj : part.job ≠ none) :
    i * cs < rows ∧ j * cs < cols := by
  unfold plan at h
  simp only at h
  by_cases hc : i * cs ≥ rows ∨ j * cs ≥ cols
  · rw [if_pos hc] at h
    cases h
    exact absurd rfl hj
  · omega

theorem forall₂_mem_right {α β} {R : α → β → Prop} : ∀ {xs : List α} {ys : List β},
    List.Forall₂ R xs ys → ∀ y ∈ ys, ∃ x ∈ xs, R x y := by
  intro xs ys h
  induction h with
  | nil => intro y hy; cases hy
  | cons h1 _ ih =>
    intro y hy
    rcases List.mem_cons.1 hy with rfl | hy
    · exact ⟨_, by simp, h1⟩
    · obtain ⟨x, hx, h⟩ := ih y hy
      exact ⟨x, by simp [hx], h⟩

theorem plan_spec {clog : Nat → Nat} {sub : List Nat} {b : MMBuffer3} {n rows cols cs i j : Nat}
    {part : Part} (h : plan clog sub b n rows cols cs (i, j) = some part) (hi : i * cs < rows)
    (hj : j * cs < cols) :
    (b.slice 0 (i * cs) (j * cs)).minMax n (min cs (rows - i * cs)) (min cs (cols - j * cs)) =
        some part.minMax ∧
      ((part.job = none ∧ ∀ m ∈ part.minMax, m.1 = m.2) ∨
        (¬ ∀ m ∈ part.minMax, m.1 = m.2) ∧ ∃ chunk, part.job = some ⟨b.slice 0 (i * cs) (j * cs),
          min cs (rows - i * cs), min cs (cols - j * cs), chunk⟩ ∧
          (chunk = true ↔ sub.length = 1 ∨ ∃ l, sub.head? = some l ∧
            clog (max (min cs (rows - i * cs)) (min cs (cols - j * cs))) ≤ l)) := by
  unfold plan at h
  simp only at h
  rw [if_neg (by omega), show min (i * cs + cs) rows - i * cs = min cs (rows - i * cs) by omega,
    show min (j * cs + cs) cols - j * cs = min cs (cols - j * cs) by omega] at h
  generalize hmm : (b.slice 0 (i * cs) (j * cs)).minMax n (min cs (rows - i * cs))
    (min cs (cols - j * cs)) = mm at h ⊢
  cases mm with
  | none => cases h
  | some mm =>
    simp only at h
    by_cases hall : mm.all (fun m => decide (m.1 = m.2)) = true
    · rw [if_pos hall] at h
      cases h
      exact ⟨rfl, .inl ⟨rfl, fun m hm => of_decide_eq_true (List.all_eq_true.1 hall m hm)⟩⟩
    · rw [if_neg hall] at h
      have hall' : ¬ ∀ m ∈ mm, m.1 = m.2 := fun hc => hall (List.all_eq_true.2 fun m hm =>
        decide_eq_true (hc m hm))
      by_cases hl : sub.length = 1
      · rw [if_pos hl] at h
        cases h
        exact ⟨rfl, .inr ⟨hall', true, rfl, by simp [hl]⟩⟩
      · rw [if_neg hl] at h
        cases hs : sub.head? with
        | none => rw [hs] at h; cases h
        | some l =>
          rw [hs] at h
          simp only [Option.map_some] at h
          cases h
          exact ⟨rfl, .inr ⟨hall', _, rfl, by simp [hl]⟩⟩

theorem collect_mem {α β} {f : α → Option (List β)} {y : β} : ∀ {xs : List α} {ys : List β},
    collect xs f = some ys → y ∈ ys → ∃ x ∈ xs, ∃ l, f x = some l ∧ y ∈ l := by
  intro xs
  induction xs with
  | nil => intro ys h hy; cases h; cases hy
  | cons a xs ih =>
    intro ys h hy
    unfold collect at h
    cases ha : f a with
    | none => rw [ha] at h; cases h
    | some l =>
      rw [ha] at h
      simp only at h
      cases hc : collect xs f with
      | none => rw [hc] at h; cases h
      | some zs =>
        rw [hc] at h
        cases h
        rcases List.mem_append.1 hy with hy | hy
        · exact ⟨a, by simp, l, ha, hy⟩
        · obtain ⟨x, hx, l, e, hl⟩ := ih hc hy
          exact ⟨x, by simp [hx], l, e, hl⟩

/-- Every instant of a series of single cells has one value. -/
theorem minMax_one {b : MMBuffer3} {n : Nat} {mm : List (Int64 × Int64)}
    (h : b.minMax n 1 1 = some mm) : ∀ m ∈ mm, m.1 = m.2 := by
  intro m hm
  unfold MMBuffer3.minMax at h
  obtain ⟨t, -, l, e, hl⟩ := collect_mem h hm
  cases b with
  | i32 a =>
    simp only at e
    rw [show MMBuffer3.values a 1 1 t = [a t 0 0] from rfl] at e
    simp only [MMBuffer3.minMaxOf, List.foldl_cons, List.foldl_nil, ite_self, Option.map_some,
      Option.some.injEq] at e
    subst e
    simp only [List.mem_singleton] at hl
    rw [hl]
  | i64 a =>
    simp only at e
    rw [show MMBuffer3.values a 1 1 t = [a t 0 0] from rfl] at e
    simp only [MMBuffer3.minMaxOf, List.foldl_cons, List.foldl_nil, ite_self, Option.map_some,
      Option.some.injEq] at e
    subst e
    simp only [List.mem_singleton] at hl
    rw [hl]
  | flt p a bits round =>
    simp only at e
    rw [show MMBuffer3.values a 1 1 t = [a t 0 0] from rfl] at e
    simp only [minMaxFloat] at e
    cases ht : toFixed (a t 0 0) bits round with
    | none => rw [ht] at e; cases e
    | some v =>
      rw [ht] at e
      cases e
      simp only [List.mem_singleton] at hl
      rw [hl]

theorem positions_getElem? (S i j : Nat) (hi : i < S) (hj : j < S) :
    ((List.range S).flatMap fun r => (List.range S).map fun c => (r, c))[i * S + j]? =
      some (i, j) := by
  have h : collect (List.range S) (fun r => some ((List.range S).map fun c => (r, c))) =
      some ((List.range S).flatMap fun r => (List.range S).map fun c => (r, c)) :=
    collect_eq _ _ _ fun _ _ => rfl
  obtain ⟨-, h2⟩ := collect_getElem? (m := S) h (by
    intro x _ l hl
    cases hl
    simp)
  obtain ⟨l, e, h3⟩ := h2 i i (by rw [List.getElem?_range hi])
  cases e
  rw [Nat.add_comm, h3 j hj]
  simp [hj]

theorem positions_length (S : Nat) :
    ((List.range S).flatMap fun r => (List.range S).map fun c => (r, c)).length = S * S := by
  simp [List.length_flatMap]

/-! ### The store only grows -/

section
variable {H : Hash} {clog : Nat → Nat} {lg : Rat → Int} {k : Nat}

theorem build_log : ∀ (levels : List Nat) (log : Saved) (b : MMBuffer3) (n rows cols : Nat)
    (r : MMStruct3Build) (log' : Saved),
    build H clog lg k levels log b n rows cols = some (r, log') → log ⊆ log' := by
  intro levels
  induction levels with
  | nil => intro log b n rows cols r log' h; cases h
  | cons level sub ih =>
    intro log b n rows cols r log' h
    unfold build buildLevel at h
    simp only at h
    split at h
    · cases h
    split at h
    · cases h
    rename_i parts hparts
    split at h
    · cases h
    rename_i ps log1 hps
    split at h
    · split at h
      · cases h
        obtain ⟨h1, -⟩ := runJobs_spec (fun la b n r c x lb h => ih la b n r c x lb h) hps
        obtain ⟨_, -, -, h2, -⟩ := saveAll_spec H ps ⟨log1, [], [], 0, 0, 0, 0⟩
        exact fun x hx => List.mem_cons_of_mem _ (h2 (h1 hx))
      · cases h
    · cases h

end

end Superchunk

/-! ### Representation -/

theorem Represents.congr {utf8 st} {α : Type} {dec : Nat → Int64 → α} {Leaf Ext}
    (hleaf : ∀ c n rows cols data data', (∀ t r c, t < n → r < rows → c < cols →
      data t r c = data' t r c) → Leaf c n rows cols data → Leaf c n rows cols data') :
    ∀ {d : Nat} {m n rows cols data data'}, (∀ t r c, t < n → r < rows → c < cols →
      data t r c = data' t r c) → Represents utf8 st dec Leaf Ext d m n rows cols data →
    Represents utf8 st dec Leaf Ext d m n rows cols data' := by
  intro d
  induction d with
  | zero => intro m n rows cols data data' _ h; exact h.elim
  | succ d ih =>
    intro m n rows cols data data' he h
    cases m with
    | subchunk c => exact hleaf _ _ _ _ _ _ he h
    | superchunk hd loc =>
      refine ⟨h.side, h.grid, fun t r c ht hr hc => he t r c ht hr hc ▸ h.ext t r c ht hr hc,
        fun i j hi hj => ?_⟩
      rcases h.sub i j hi hj with ⟨h1, h2⟩ | ⟨ref, m, h1, h2, h3, h4⟩
      · refine .inl ⟨h1, fun t ht => ?_⟩
        obtain ⟨v, e, h3⟩ := h2 t ht
        exact ⟨v, e, fun r c a1 a2 a3 a4 => he _ _ _ ht a3 a4 ▸ h3 r c a1 a2 a3 a4⟩
      · exact .inr ⟨ref, m, h1, h2, h3, ih (fun t r c a1 a2 a3 =>
          he _ _ _ a1 (by omega) (by omega)) h4⟩
    | span s =>
      refine ⟨h.stride, fun i hi => ?_⟩
      obtain ⟨cid, m, h1, h2, h3⟩ := h.sub i hi
      exact ⟨cid, m, h1, h2, ih (fun t r c a1 a2 a3 => he _ _ _ (by omega) a2 a3) h3⟩

/-- The bounds kept for a part and an instant satisfy `Bnd` with a value. -/
def ExtOf {α : Type} (Bnd : Int64 × Int64 → α → Prop) (h : SuperHead) (index t : Nat) (v : α) :
    Prop :=
  ∃ mn mx, h.min.get (h.slot index t) = some mn ∧ h.max.get (h.slot index t) = some mx ∧
    Bnd (mn, mx) v

/-- What the builder relies on: for buffers that are `OK`, `val` are the values that are read back
(decoded by `dec`). The grids divide the raster into squares of side `k ^ e` with `J e`. -/
structure BuildTheory (clog : Nat → Nat) (lg : Rat → Int) (k : Nat) {α : Type}
    (dec : Nat → Int64 → α) (Leaf : Chunk → Nat → Nat → Nat → (Nat → Nat → Nat → α) → Prop)
    (Bnd : Int64 × Int64 → α → Prop) where
  J : Nat → Prop
  OK : MMBuffer3 → (n rows cols : Nat) → Prop
  val : MMBuffer3 → Nat → Nat → Nat → α
  slice : ∀ b n rows cols e i j, J e → OK b n rows cols → i * k ^ e < rows → j * k ^ e < cols →
    OK (b.slice 0 (i * k ^ e) (j * k ^ e)) n (min (k ^ e) (rows - i * k ^ e))
      (min (k ^ e) (cols - j * k ^ e))
  slice_val : ∀ b top left t r c, val (b.slice 0 top left) t r c = val b t (top + r) (left + c)
  bits : ∀ b n rows cols e i j, J e → OK b n rows cols → i * k ^ e < rows → j * k ^ e < cols →
    ∀ R C, R = min (k ^ e) (rows - i * k ^ e) → C = min (k ^ e) (cols - j * k ^ e) → ∀ mm b',
    (b.slice 0 (i * k ^ e) (j * k ^ e)).minMax n R C = some mm → (¬ ∀ m ∈ mm, m.1 = m.2) →
    (b.slice 0 (i * k ^ e) (j * k ^ e)).computeBits lg n R C = some b' →
    OK b' n R C ∧ ∀ t r c, t < n → r < R → c < C →
      val b' t r c = val b t (i * k ^ e + r) (j * k ^ e + c)
  leaf : ∀ b n rows cols e i j, J e → OK b n rows cols → i * k ^ e < rows → j * k ^ e < cols →
    ∀ R C, R = min (k ^ e) (rows - i * k ^ e) → C = min (k ^ e) (cols - j * k ^ e) → ∀ mm b' r,
    (b.slice 0 (i * k ^ e) (j * k ^ e)).minMax n R C = some mm → (¬ ∀ m ∈ mm, m.1 = m.2) →
    (b.slice 0 (i * k ^ e) (j * k ^ e)).computeBits lg n R C = some b' → 1 ≤ n → n < 2 ^ 32 →
    ShapeOk R C k (clog (max R C)) → FormatOk R C k (clog (max R C)) →
    Chunk.buildBuffer clog b' n R C k = some r →
    ∃ c, r.data = .subchunk c ∧ c.WF ∧
      Leaf c n R C fun t r c => val b t (i * k ^ e + r) (j * k ^ e + c)
  leaf_congr : ∀ c n rows cols data data', (∀ t r c, t < n → r < rows → c < cols →
      data t r c = data' t r c) → Leaf c n rows cols data → Leaf c n rows cols data'
  elide : ∀ b n rows cols e i j, J e → OK b n rows cols → i * k ^ e < rows → j * k ^ e < cols →
    ∀ R C, R = min (k ^ e) (rows - i * k ^ e) → C = min (k ^ e) (cols - j * k ^ e) → ∀ mm t m,
    (b.slice 0 (i * k ^ e) (j * k ^ e)).minMax n R C = some mm → (∀ m ∈ mm, m.1 = m.2) →
    mm[t]? = some m → ∀ r c, t < n → r < R → c < C →
    val b t (i * k ^ e + r) (j * k ^ e + c) = dec b.fractionalBits m.2
  ext : ∀ b n rows cols mm t m, OK b n rows cols → b.minMax n rows cols = some mm →
    mm[t]? = some m → ∀ r c, t < n → r < rows → c < cols → Bnd m (val b t r c)
  bits_lt : ∀ b n rows cols, OK b n rows cols → b.fractionalBits < 256

theorem MMBuffer3.slice_fractionalBits (b : MMBuffer3) (t r c : Nat) :
    (b.slice t r c).fractionalBits = b.fractionalBits := by cases b <;> rfl

section
variable {clog : Nat → Nat} {lg : Rat → Int} {k : Nat} {α : Type} {dec : Nat → Int64 → α}
  {Leaf : Chunk → Nat → Nat → Nat → (Nat → Nat → Nat → α) → Prop}
  {Bnd : Int64 × Int64 → α → Prop}

/-- The sizes fit the format, and `k.pow(..)` fits `i32`. -/
structure LevelsOk (k n : Nat) (levels : List Nat) : Prop where
  side : k ^ levels.sum < 2 ^ 31
  tree : ∀ l ∈ levels, 4 * (k ^ l * k ^ l) ≤ 3 * 2 ^ 32
  slots : ∀ l ∈ levels, n * (k ^ l * k ^ l) < 2 ^ 32

theorem LevelsOk.tail {n l ls} (hk : 2 ≤ k) (h : LevelsOk k n (l :: ls)) : LevelsOk k n ls := by
  refine ⟨?_, fun x hx => h.tree x (by simp [hx]), fun x hx => h.slots x (by simp [hx])⟩
  refine Nat.lt_of_le_of_lt ?_ h.side
  exact Nat.pow_le_pow_right (by omega) (by simp)

/-- `clog` is the logarithm to base `k`, rounded up, of the numbers up to `N`. -/
def ClogOk (clog : Nat → Nat) (k N : Nat) : Prop :=
  ∀ m j, 1 ≤ m → m ≤ N → (clog m ≤ j ↔ m ≤ k ^ j)

theorem ClogOk.le {N m} (h : ClogOk clog k N) (h1 : 1 ≤ m) (h2 : m ≤ N) : m ≤ k ^ clog m :=
  (h m _ h1 h2).1 (Nat.le_refl _)

open Superchunk in
theorem superchunk_repr (T : BuildTheory clog lg k dec Leaf Bnd) (H : Hash)
    (utf8 : List Byte → Bool) (hk : 2 ≤ k) (hk' : k < 256) (N n : Nat) (hclog : ClogOk clog k N)
    (hn : n < 2 ^ 32) : ∀ (levels : List Nat), LevelsOk k n levels →
    (∀ s, s <:+ levels.tail → T.J s.sum) → ∀ (log : Saved) (b : MMBuffer3) (rows cols : Nat) (r : MMStruct3Build) (log' : Saved),
    T.OK b n rows cols → 0 < rows → 0 < cols → rows ≤ N → cols ≤ N →
    Superchunk.build H clog lg k levels log b n rows cols = some (r, log') →
    (∃ head, r.data = .superchunk head [] ∧ head.instants = n ∧ head.rows = rows ∧
      head.cols = cols ∧ head.encoding = b.encoding ∧ head.fractionalBits = b.fractionalBits) ∧
    r.data.WF ∧
    (∀ log'', log' ⊆ log'' → Ground utf8 H log'' (2 * levels.length + 1) (.struct r.data)) ∧
    ∀ log'', log' ⊆ log'' → Saved.NoCollision H log'' →
      Represents utf8 (Saved.load H log'') dec Leaf (ExtOf Bnd) (levels.length + 1) r.data n rows cols
        (T.val b) ∧ Sides utf8 (Saved.load H log'') k levels r.data := by
  intro levels
  induction levels with
  | nil => intro _ _ log b rows cols r log' _ _ _ _ _ h; cases h
  | cons level sub ih =>
    intro hlev hJ log b rows cols r log' hok hr hc hrN hcN h
    unfold Superchunk.build buildLevel at h
    simp only at h
    split at h
    · cases h
    rename_i hsum
    rw [Decidable.not_not] at hsum
    rw [← hsum] at h
    have hcover : max rows cols ≤ k ^ (level :: sub).sum := by
      rw [hsum]; exact hclog.le (by omega) (by omega)
    have hJs : T.J sub.sum := hJ sub (List.suffix_refl _)
    have hslice := fun i j => T.slice b n rows cols sub.sum i j hJs hok
    have hleaf := fun i j => T.leaf b n rows cols sub.sum i j hJs hok
    have helide := fun i j => T.elide b n rows cols sub.sum i j hJs hok
    have hbits := fun i j => T.bits b n rows cols sub.sum i j hJs hok
    have hkpos : ∀ x, 0 < k ^ x := fun x => Nat.pow_pos (by omega)
    have hcs : k ^ (level :: sub).sum / k ^ level = k ^ sub.sum := by
      rw [List.sum_cons, Nat.pow_add, Nat.mul_div_cancel_left _ (hkpos _)]
    have hcover' : max rows cols ≤ k ^ level * k ^ sub.sum := by
      rw [← Nat.pow_add, ← List.sum_cons]; exact hcover
    rw [hcs] at h
    have hS : k ^ level ≤ k ^ (level :: sub).sum := Nat.pow_le_pow_right (by omega) (by simp)
    have hC : k ^ sub.sum ≤ k ^ (level :: sub).sum := Nat.pow_le_pow_right (by omega) (by simp)
    have hside := hlev.side
    have hlevel : level < 256 := by
      have h1 : level < 2 ^ level := Nat.lt_two_pow_self
      have h2 : (2 : Nat) ^ level ≤ k ^ level := Nat.pow_le_pow_left hk _
      by_contra hc
      have : (2 : Nat) ^ 32 ≤ 2 ^ level := Nat.pow_le_pow_right (by omega) (by omega)
      omega
    generalize hcsdef : k ^ sub.sum = cs at *
    generalize hSdef : k ^ level = S at *
    have hcspos : 0 < cs := hcsdef ▸ hkpos _
    have htree : 4 * (S * S) ≤ 3 * 2 ^ 32 := hSdef ▸ hlev.tree level (by simp)
    have hslots : n * (S * S) < 2 ^ 32 := hSdef ▸ hlev.slots level (by simp)
    split at h
    · cases h
    rename_i parts hparts
    split at h
    · cases h
    rename_i ps log1 hps
    split at h
    swap
    · cases h
    rename_i mins maxs hmins hmaxs
    split at h
    swap
    · cases h
    rename_i dmax dmin hdmax hdmin
    cases h
    have F1 := collect_singletons hparts
    obtain ⟨hlog1, F2⟩ := runJobs_spec (fun la b n r c x lb h => build_log _ la b n r c x lb h) hps
    obtain ⟨refs, s1, F3, s3, -, s5, s6⟩ := saveAll_spec H ps ⟨log1, [], [], 0, 0, 0, 0⟩
    generalize hs : ps.foldl (saveStep H) ⟨log1, [], [], 0, 0, 0, 0⟩ = s at *
    simp only [List.nil_append] at s1
    simp only [List.length_nil, Nat.zero_add] at s5
    have hlen1 : parts.length = S * S := by rw [← F1.length_eq, positions_length]
    have hlen2 : ps.length = S * S := by rw [← F2.length_eq, hlen1]
    have hlen3 : refs.length = S * S := by rw [← F3.length_eq, hlen2]
    obtain ⟨hminl, hming⟩ := extremes_spec hmins
    obtain ⟨hmaxl, hmaxg⟩ := extremes_spec hmaxs
    rw [hlen2] at hminl hming hmaxl hmaxg
    obtain ⟨_, e, rmax⟩ := dac_ofList_repr maxs
    rw [hdmax] at e
    cases e
    obtain ⟨_, e, rmin⟩ := dac_ofList_repr mins
    rw [hdmin] at e
    cases e
    have hext : s.external.length < 2 ^ 32 := by omega
    have hvalid : ∀ c ∈ s.external, c.Valid := s6 (by simp)
    -- one part of the grid
    have part : ∀ i j, i * cs < rows → j * cs < cols → ∃ part qb ref,
        plan clog sub b n rows cols cs (i, j) = some part ∧
        refs[i * S + j]? = some ref ∧
        (part.job = none → qb = none) ∧
        (∀ job, part.job = some job → ∃ build la lb,
          runJob clog lg k (Superchunk.build H clog lg k sub) n la job = some (build, lb) ∧
          qb = some build ∧ lb ⊆ log1) ∧
        SavedAs H s (part, qb) ref ∧
        ∀ t, t < n → ∃ m, part.minMax[t]? = some m ∧
          dmin.get (i * S + j + t * (S * S)) = some m.1 ∧
          dmax.get (i * S + j + t * (S * S)) = some m.2 := by
      intro i j hi hj
      have hiS : i < S := by
        by_contra hge
        have : S * cs ≤ i * cs := Nat.mul_le_mul_right _ (by omega)
        omega
      have hjS : j < S := by
        by_contra hge
        have : S * cs ≤ j * cs := Nat.mul_le_mul_right _ (by omega)
        omega
      obtain ⟨part, p1, p2⟩ := forall₂_getElem? F1 (positions_getElem? S i j hiS hjS)
      obtain ⟨q, q1, q2, q3, q4⟩ := forall₂_getElem? F2 p1
      obtain ⟨ref, r1, r2⟩ := forall₂_getElem? F3 q1
      obtain ⟨q0, qb⟩ := q
      simp only at q2 q3 q4
      subst q2
      refine ⟨q0, qb, ref, p2, r1, q3, q4, r2, fun t ht => ?_⟩
      obtain ⟨m, m1, m2⟩ := hming t ht _ _ q1
      obtain ⟨m', m1', m2'⟩ := hmaxg t ht _ _ q1
      simp only at m1 m1'
      rw [m1] at m1'
      cases m1'
      obtain ⟨a1, a2⟩ := List.getElem?_eq_some_iff.1 m2
      obtain ⟨b1, b2⟩ := List.getElem?_eq_some_iff.1 m2'
      exact ⟨m, m1, by rw [rmin.get _ a1, a2], by rw [rmax.get _ b1, b2]⟩
    have hOKs : ∀ i j, i * cs < rows → j * cs < cols →
        T.OK (b.slice 0 (i * cs) (j * cs)) n (min cs (rows - i * cs)) (min cs (cols - j * cs)) :=
      hslice
    -- what a job gives
    have jobs : ∀ i j chunk build la lb, i * cs < rows → j * cs < cols →
        (¬ (min cs (rows - i * cs) = 1 ∧ min cs (cols - j * cs) = 1)) → 1 ≤ n →
        (∃ mm, (b.slice 0 (i * cs) (j * cs)).minMax n (min cs (rows - i * cs))
          (min cs (cols - j * cs)) = some mm ∧ ¬ ∀ m ∈ mm, m.1 = m.2) →
        (chunk = true → sub.length = 1 ∨ ∃ l, sub.head? = some l ∧
            clog (max (min cs (rows - i * cs)) (min cs (cols - j * cs))) ≤ l) →
        runJob clog lg k (Superchunk.build H clog lg k sub) n la ⟨b.slice 0 (i * cs) (j * cs),
          min cs (rows - i * cs), min cs (cols - j * cs), chunk⟩ = some (build, lb) →
        build.data.WF ∧
        (∀ log'', lb ⊆ log'' → Ground utf8 H log'' (2 * sub.length + 1) (.struct build.data)) ∧
        ∀ log'', lb ⊆ log'' → Saved.NoCollision H log'' →
          Represents utf8 (Saved.load H log'') dec Leaf (ExtOf Bnd) (sub.length + 1) build.data n
            (min cs (rows - i * cs)) (min cs (cols - j * cs))
            (fun t r c => T.val b t (i * cs + r) (j * cs + c)) ∧
          sub ≠ [] ∧ Sides utf8 (Saved.load H log'') k sub build.data := by
      intro i j chunk build la lb hi hj hne hn1 hmm hchunk hrun
      obtain ⟨mm, hmm1, hmm2⟩ := hmm
      have hok' := hOKs i j hi hj
      unfold runJob at hrun
      simp only at hrun
      split at hrun
      · cases hrun
      rename_i b' hb'
      obtain ⟨ok', hval'⟩ := hbits i j hi hj _ _ rfl rfl _ _ hmm1 hmm2 hb'
      generalize hR : min cs (rows - i * cs) = R at *
      generalize hCc : min cs (cols - j * cs) = C at *
      have hcl := hclog.le (m := max R C) (by omega) (by omega)
      split at hrun
      · rename_i hch
        rw [Option.map_eq_some_iff] at hrun
        obtain ⟨b1, hb1, e⟩ := hrun
        cases e
        have hle : ∃ l ∈ sub, clog (max R C) ≤ l := by
          rcases hchunk hch with h1 | ⟨l, h1, h2⟩
          · match sub, h1 with
            | [l], _ =>
              refine ⟨l, by simp, (hclog _ _ (by omega) (by omega)).2 ?_⟩
              simp only [List.sum_cons, List.sum_nil, Nat.add_zero] at hcsdef
              omega
          · exact ⟨l, List.mem_of_head? h1, h2⟩
        obtain ⟨l, hl1, hl2⟩ := hle
        have hkl : k ^ clog (max R C) ≤ k ^ l := Nat.pow_le_pow_right (by omega) hl2
        have hfmt : FormatOk R C k (clog (max R C)) := by
          refine ⟨hk, hk', by omega, by omega, ?_⟩
          have h1 := Nat.mul_le_mul hkl hkl
          have h2 := hlev.tree l (by simp [hl1])
          omega
        obtain ⟨c, c1, c2, c3⟩ := hleaf i j hi hj R C hR.symm hCc.symm _ _ _ hmm1 hmm2 hb' hn1 hn
          ⟨hk, by omega, hfmt.rows_le, hfmt.cols_le⟩ hfmt hb1
        rw [c1]
        exact ⟨c2, fun log'' _ => Ground.chunk c2, fun log'' _ _ => ⟨c3, List.ne_nil_of_mem hl1,
          Sides.subchunk _ _⟩⟩
      · obtain ⟨-, w, hg, h1⟩ := ih (hlev.tail hk) (fun s hs => hJ s (hs.trans (List.tail_suffix _))) la b' R C build lb ok' (by omega) (by omega) (by omega)
          (by omega) hrun
        refine ⟨w, hg, fun log'' h2 h3 => ⟨Represents.congr T.leaf_congr hval' (h1 log'' h2 h3).1, ?_,
          (h1 log'' h2 h3).2⟩⟩
        rintro rfl
        cases hrun
    have hnone : ∀ i j mm, (b.slice 0 (i * cs) (j * cs)).minMax n (min cs (rows - i * cs))
        (min cs (cols - j * cs)) = some mm → (¬ ∀ m ∈ mm, m.1 = m.2) → 1 ≤ n ∧
        ¬ (min cs (rows - i * cs) = 1 ∧ min cs (cols - j * cs) = 1) := by
      intro i j mm p7 q1
      constructor
      · by_contra hn0
        apply q1
        have : n = 0 := by omega
        subst this
        simp only [MMBuffer3.minMax, List.range_zero, collect, Option.some.injEq] at p7
        rw [← p7]
        simp
      · rintro ⟨h1, h2⟩
        rw [h1, h2] at p7
        exact q1 (minMax_one p7)
    have hall : ∀ p ∈ ps, ∀ build, p.2 = some build → ∀ log'', log1 ⊆ log'' →
        Ground utf8 H log'' (2 * sub.length + 1) (.struct build.data) := by
      intro p hp build hb log'' hl
      obtain ⟨q, hq, q2, q3, q4⟩ := forall₂_mem_right F2 p hp
      obtain ⟨⟨i, j⟩, -, hplan⟩ := forall₂_mem_right F1 q hq
      have hjob : q.job ≠ none := fun hc => by rw [q3 hc] at hb; cases hb
      obtain ⟨hi, hj⟩ := plan_job hplan hjob
      obtain ⟨p7, p8⟩ := plan_spec hplan hi hj
      rcases p8 with ⟨h1, -⟩ | ⟨q1, chunk, h2, h3⟩
      · exact absurd h1 hjob
      · obtain ⟨hn1, hne⟩ := hnone i j _ p7 q1
        obtain ⟨build', la, lb, b1, b2, b3⟩ := q4 _ h2
        rw [hb] at b2
        cases b2
        exact (jobs i j chunk build la lb hi hj hne hn1 ⟨_, p7, q1⟩ h3.1 b1).2.1 log''
          (fun y hy => hl (b3 hy))
    have hhead : MMStruct3.WF (.superchunk ⟨n, rows, cols, k ^ (level :: sub).sum, level, cs, S,
        b.fractionalBits, b.encoding, s.references, (save H s.log (.links ⟨s.external⟩)).2, dmax,
        dmin⟩ []) := by
      refine ⟨⟨hn, ?_, ?_, (Nat.lt_trans hside (by decide)), hlevel, ?_, ?_,
        T.bits_lt _ _ _ _ hok, ?_, ?_, H.valid _, Dac.ofList_wf hdmax (by omega),
        Dac.ofList_wf hdmin (by omega)⟩, by simp, trivial⟩
      · simp only; omega
      · simp only; omega
      · simp only; omega
      · simp only; omega
      · simp only; rw [s1]; omega
      · intro ref hm
        simp only at hm
        rw [s1] at hm
        obtain ⟨idx, hidx⟩ := List.mem_iff_getElem?.1 hm
        have hlt : idx < ps.length := by rw [hlen2, ← hlen3]; exact (List.getElem?_eq_some_iff.1 hidx).1
        obtain ⟨ref', e1, e2⟩ := forall₂_getElem? F3 (List.getElem?_eq_getElem hlt)
        rw [hidx] at e1
        cases e1
        rcases e2 with ⟨rfl, -⟩ | ⟨x, _, rfl, -, hx, -⟩
        · trivial
        · have := (List.getElem?_eq_some_iff.1 hx).1
          show x < 2 ^ 32
          omega
    refine ⟨⟨_, rfl, rfl, rfl, rfl, rfl, rfl⟩, hhead, ?_, ?_⟩
    · intro log'' hsub
      rw [show 2 * (level :: sub).length + 1 = 2 * sub.length + 1 + 2 by rw [List.length_cons]; omega]
      refine Ground.superchunk (cids := s.external) hhead.1 rfl (hsub (List.mem_cons_self ..))
        ⟨hext, hvalid⟩ fun c hc => ?_
      have := saveAll_external H ps ⟨log1, [], [], 0, 0, 0, 0⟩ c (by rw [hs]; exact hc)
      rcases this with h | ⟨p, hp, build, h1, h2, h3⟩
      · cases h
      · rw [hs] at h3
        exact ⟨build.data, hsub (List.mem_cons_of_mem _ h3), h2, hall p hp build h1 log''
          (fun y hy => hsub (List.mem_cons_of_mem _ (s3 hy)))⟩
    · intro log'' hsub hnc
      have hl : Links.WF ⟨s.external⟩ := ⟨hext, hvalid⟩
      refine ⟨⟨hcspos, hSdef ▸ Nat.pow_pos (by omega), ?_, ?_⟩, .inr ⟨_, rfl, hcsdef.symm, ?_⟩⟩
      · intro t r c ht hr' hc'
        have d1 : r / cs * cs ≤ r := Nat.div_mul_le_self _ _
        have d2 : c / cs * cs ≤ c := Nat.div_mul_le_self _ _
        obtain ⟨part, qb, ref, p1, -, -, -, -, p6⟩ := part (r / cs) (c / cs) (by omega) (by omega)
        obtain ⟨m, m1, m2, m3⟩ := p6 t ht
        obtain ⟨p7, -⟩ := plan_spec p1 (by omega) (by omega)
        refine ⟨m.1, m.2, m2, m3, ?_⟩
        have e1 : r / cs * cs + r % cs = r := by rw [Nat.mul_comm]; exact Nat.div_add_mod _ _
        have e2 : c / cs * cs + c % cs = c := by rw [Nat.mul_comm]; exact Nat.div_add_mod _ _
        have l1 := Nat.mod_lt r hcspos
        have l2 := Nat.mod_lt c hcspos
        have := T.ext _ _ _ _ _ t m (hOKs (r / cs) (c / cs) (by omega) (by omega)) p7 m1 (r % cs)
          (c % cs) ht (by omega) (by omega)
        rw [T.slice_val, e1, e2] at this
        exact this
      · intro i j hi hj
        simp only at hi hj ⊢
        obtain ⟨part, qb, ref, p1, p2, p3, p4, p5, p6⟩ := part i j hi hj
        obtain ⟨p7, p8⟩ := plan_spec p1 hi hj
        have hel : (∀ m ∈ part.minMax, m.1 = m.2) → ∀ t, t < n → ∃ v,
            dmax.get (i * S + j + t * (S * S)) = some v ∧
            ∀ r c, r < cs → c < cs → i * cs + r < rows → j * cs + c < cols →
              T.val b t (i * cs + r) (j * cs + c) = dec b.fractionalBits v := by
          intro hall t ht
          obtain ⟨m, m1, m2, m3⟩ := p6 t ht
          refine ⟨m.2, m3, fun r c h1 h2 h3 h4 => ?_⟩
          exact helide i j hi hj _ _ rfl rfl _ t m p7 hall m1 r c ht (by omega) (by omega)
        rcases p8 with ⟨q1, q2⟩ | ⟨q1, chunk, q2, q3⟩
        · rw [p3 q1] at p5
          rcases p5 with ⟨rfl, -⟩ | ⟨_, _, _, h, -⟩
          · left
            exact ⟨by rw [s1]; exact p2, hel q2⟩
          · cases h
        · obtain ⟨build, la, lb, b1, rfl, b3⟩ := p4 _ q2
          obtain ⟨hn1, hne⟩ := hnone i j _ p7 q1
          obtain ⟨w, -, hrep⟩ := jobs i j chunk build la lb hi hj hne hn1 ⟨_, p7, q1⟩ q3.1 b1
          rcases p5 with ⟨rfl, h | h⟩ | ⟨x, build', rfl, h, hx, hmem⟩
          · cases h
          · exact absurd (fun m hm => (h m hm).symm) q1
          · cases h
            right
            refine ⟨.external x, build.data, by simp, by rw [s1]; exact p2, ?_,
              (hrep log'' (fun y hy => hsub (List.mem_cons_of_mem _ (s3 (b3 hy)))) hnc).1⟩
            unfold SuperHead.deref
            simp only
            have hl : Links.WF ⟨s.external⟩ := ⟨hext, hvalid⟩
            rw [save, Store.getLinks_of (Saved.load_mem hnc (hsub (List.mem_cons_self ..))) hl]
            simp only
            rw [hx]
            simp only
            exact Store.getStruct_of (Saved.load_mem hnc (hsub (List.mem_cons_of_mem _ hmem))) w
      · intro e he
        simp only at he
        rw [s1] at he
        obtain ⟨⟨q0, qb⟩, hp, hsv⟩ := forall₂_mem_right F3 _ he
        rcases hsv with ⟨h, -⟩ | ⟨x, build, h, hb, hx, hmem⟩
        · cases h
        · cases h
          obtain ⟨q, hq, q2, q3, q4⟩ := forall₂_mem_right F2 _ hp
          obtain ⟨⟨i, j⟩, -, hplan⟩ := forall₂_mem_right F1 q hq
          simp only at hb q2 q3 q4
          have hjob : q.job ≠ none := fun hc => by rw [q3 hc] at hb; cases hb
          obtain ⟨hi, hj⟩ := plan_job hplan hjob
          obtain ⟨p7, p8⟩ := plan_spec hplan hi hj
          rcases p8 with ⟨h1, -⟩ | ⟨q1, chunk, h2, h3⟩
          · exact absurd h1 hjob
          · obtain ⟨hn1, hne⟩ := hnone i j _ p7 q1
            obtain ⟨build', la, lb, b1, b2, b3⟩ := q4 _ h2
            rw [hb] at b2
            cases b2
            obtain ⟨w, -, hrep⟩ := jobs i j chunk build la lb hi hj hne hn1 ⟨_, p7, q1⟩ h3.1 b1
            obtain ⟨-, hne', hsides⟩ := hrep log''
              (fun y hy => hsub (List.mem_cons_of_mem _ (s3 (b3 hy)))) hnc
            refine ⟨hne', fun m' hm' => ?_⟩
            unfold SuperHead.deref at hm'
            simp only at hm'
            rw [save, Store.getLinks_of (Saved.load_mem hnc (hsub (List.mem_cons_self ..))) hl] at hm'
            simp only at hm'
            rw [hx] at hm'
            simp only at hm'
            rw [Store.getStruct_of (Saved.load_mem hnc (hsub (List.mem_cons_of_mem _ hmem))) w] at hm'
            cases hm'
            exact hsides

end

end Verif
