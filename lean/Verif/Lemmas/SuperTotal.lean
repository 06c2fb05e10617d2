import Verif.Lemmas.SuperInt

/-! When `Superchunk::build` succeeds. -/
namespace Verif

theorem collect_isSome {α β} {f : α → Option (List β)} : ∀ {xs : List α},
    (collect xs f).isSome ↔ ∀ x ∈ xs, (f x).isSome := by
  intro xs
  induction xs with
  | nil => simp [collect]
  | cons x xs ih =>
    unfold collect
    cases hx : f x with
    | none => simp [hx]
    | some a =>
      simp only
      cases hc : collect xs f with
      | none =>
        rw [hc] at ih
        simp only [Option.isSome_none, Bool.false_eq_true, false_iff] at ih ⊢
        intro h
        exact ih fun y hy => h y (by simp [hy])
      | some b =>
        rw [hc] at ih
        simp only [Option.isSome_some, true_iff] at ih ⊢
        intro y hy
        rcases List.mem_cons.1 hy with rfl | hy
        · simp [hx]
        · exact ih y hy

theorem minMaxOf_isSome {α} [LT α] [DecidableLT α] {vs : List α} (h : vs ≠ []) :
    ∃ m, MMBuffer3.minMaxOf vs = some m := by
  cases vs with
  | nil => exact absurd rfl h
  | cons v vs => exact ⟨_, rfl⟩

/-- `minMax` of integers never panics. -/
theorem int_minMax_some {b : MMBuffer3} (hb : b.isInt) (n : Nat) {rows cols : Nat} (hr : 0 < rows)
    (hc : 0 < cols) : ∃ mm, b.minMax n rows cols = some mm ∧ mm.length = n := by
  have hv : ∀ {α : Type} (a : Nat → Nat → Nat → α) t, MMBuffer3.values a rows cols t ≠ [] := by
    intro α a t h
    have := mem_values (a := a) (t := t) hr hc
    rw [h] at this
    cases this
  have h1 : (b.minMax n rows cols).isSome := by
    unfold MMBuffer3.minMax
    rw [collect_isSome]
    intro t _
    cases b with
    | i32 a =>
      obtain ⟨m, e⟩ := minMaxOf_isSome (hv a t)
      simp only
      rw [e]
      rfl
    | i64 a =>
      obtain ⟨m, e⟩ := minMaxOf_isSome (hv a t)
      simp only
      rw [e]
      rfl
    | flt => exact hb.elim
  obtain ⟨mm, h⟩ := Option.isSome_iff_exists.1 h1
  refine ⟨mm, h, ?_⟩
  unfold MMBuffer3.minMax at h
  cases b with
  | i32 a =>
    obtain ⟨h2, -⟩ := collect_getElem? (m := 1) h (by
      intro x _ l hl
      rw [Option.map_eq_some_iff] at hl
      obtain ⟨_, -, rfl⟩ := hl
      rfl)
    simpa using h2
  | i64 a =>
    obtain ⟨h2, -⟩ := collect_getElem? (m := 1) h (by
      intro x _ l hl
      rw [Option.map_eq_some_iff] at hl
      obtain ⟨_, -, rfl⟩ := hl
      rfl)
    simpa using h2
  | flt => exact hb.elim

theorem int_elided_iff {b : MMBuffer3} (hb : b.isInt) {n rows cols : Nat} (hr : 0 < rows)
    (hc : 0 < cols) {mm : List (Int64 × Int64)} (h : b.minMax n rows cols = some mm) :
    (∀ m ∈ mm, m.1 = m.2) ↔ ∀ t, t < n → ∃ u, Const (b.int t) rows cols u := by
  constructor
  · intro hall t ht
    obtain ⟨mm', h', hl⟩ := int_minMax_some hb n hr hc
    rw [h] at h'
    cases h'
    have hm : mm[t]? = some (mm[t]'(by omega)) := List.getElem?_eq_getElem _
    obtain ⟨-, h2, -⟩ := int_minMax_spec hb h hm
    refine ⟨(mm[t]'(by omega)).1, fun r c hr hc => ?_⟩
    · obtain ⟨a1, a2⟩ := h2 r c hr hc
      rw [← hall _ (List.getElem_mem _)] at a2
      exact Int64.le_antisymm a2 a1
  · intro hall
    by_contra hne
    obtain ⟨t, ht, h1⟩ := int_not_all hb h hne
    obtain ⟨u, hu⟩ := hall t ht
    exact h1 u hu

/-- A grid can be built with these levels: they sum up to the logarithm of the longer
side, and every part that is not constant in every instant is small enough for the next level, or
can itself be built with the remaining levels. -/
def BuildOk (clog : Nat → Nat) (k n : Nat) {α : Type} : List Nat → (Nat → Nat → Nat → α) →
    (rows cols : Nat) → Prop
  | [], _, _, _ => False
  | level :: sub, get, rows, cols =>
    (level :: sub).sum = clog (max rows cols) ∧
    match sub with
    | [] | [_] => True
    | next :: _ :: _ =>
      ∀ i j, i * k ^ sub.sum < rows → j * k ^ sub.sum < cols →
        let R := min (k ^ sub.sum) (rows - i * k ^ sub.sum)
        let C := min (k ^ sub.sum) (cols - j * k ^ sub.sum)
        let get' := fun t r c => get t (i * k ^ sub.sum + r) (j * k ^ sub.sum + c)
        (∀ t, t < n → ∃ u, Const (get' t) R C u) ∨ clog (max R C) ≤ next ∨
          BuildOk clog k n sub get' R C

theorem BuildOk.congr {clog : Nat → Nat} {k n : Nat} {α : Type} : ∀ {levels : List Nat}
    {g g' : Nat → Nat → Nat → α} {rows cols : Nat},
    (∀ t r c, t < n → r < rows → c < cols → g t r c = g' t r c) →
    BuildOk clog k n levels g rows cols → BuildOk clog k n levels g' rows cols := by
  intro levels
  induction levels with
  | nil => intro g g' rows cols _ h; exact h
  | cons l sub ih =>
    intro g g' rows cols h hb
    unfold BuildOk at hb ⊢
    refine ⟨hb.1, ?_⟩
    have hb := hb.2
    rcases sub with _ | ⟨next, _ | ⟨x, xs⟩⟩
    · trivial
    · trivial
    · intro i j hi hj
      have he : ∀ t r c, t < n → r < min (k ^ (next :: x :: xs).sum) (rows - i * k ^ (next :: x :: xs).sum) →
          c < min (k ^ (next :: x :: xs).sum) (cols - j * k ^ (next :: x :: xs).sum) →
          g t (i * k ^ (next :: x :: xs).sum + r) (j * k ^ (next :: x :: xs).sum + c) =
          g' t (i * k ^ (next :: x :: xs).sum + r) (j * k ^ (next :: x :: xs).sum + c) :=
        fun t r c a1 a2 a3 => h _ _ _ a1 (by omega) (by omega)
      rcases hb i j hi hj with h1 | h1 | h1
      · left
        intro t ht
        obtain ⟨u, hu⟩ := h1 t ht
        exact ⟨u, fun r c hr hc => (he t r c ht hr hc).symm.trans (hu r c hr hc)⟩
      · exact .inr (.inl h1)
      · exact .inr (.inr (ih he h1))

/-- What the success of the builder depends on: for buffers that are `OK` nothing panics, and the
parts that are elided are those that are constant. -/
structure AcceptTheory (clog : Nat → Nat) (lg : Rat → Int) (k n : Nat) (α : Type) where
  J : Nat → Prop
  OK : MMBuffer3 → (rows cols : Nat) → Prop
  val : MMBuffer3 → Nat → Nat → Nat → α
  slice : ∀ b rows cols e i j, J e → OK b rows cols → i * k ^ e < rows → j * k ^ e < cols →
    OK (b.slice 0 (i * k ^ e) (j * k ^ e)) (min (k ^ e) (rows - i * k ^ e))
      (min (k ^ e) (cols - j * k ^ e))
  slice_val : ∀ b top left t r c, val (b.slice 0 top left) t r c = val b t (top + r) (left + c)
  bits : ∀ b rows cols e i j, J e → OK b rows cols → i * k ^ e < rows → j * k ^ e < cols →
    ∀ R C, R = min (k ^ e) (rows - i * k ^ e) → C = min (k ^ e) (cols - j * k ^ e) → ∀ mm,
    (b.slice 0 (i * k ^ e) (j * k ^ e)).minMax n R C = some mm → (¬ ∀ m ∈ mm, m.1 = m.2) → ∃ b',
    (b.slice 0 (i * k ^ e) (j * k ^ e)).computeBits lg n R C = some b' ∧ OK b' R C ∧
    ∀ t r c, t < n → r < R → c < C → val b' t r c = val b t (i * k ^ e + r) (j * k ^ e + c)
  minMax : ∀ b rows cols, OK b rows cols → 0 < rows → 0 < cols → ∃ mm,
    b.minMax n rows cols = some mm ∧ mm.length = n
  elided : ∀ b rows cols e i j, J e → OK b rows cols → i * k ^ e < rows → j * k ^ e < cols →
    ∀ R C, R = min (k ^ e) (rows - i * k ^ e) → C = min (k ^ e) (cols - j * k ^ e) → ∀ mm,
    (b.slice 0 (i * k ^ e) (j * k ^ e)).minMax n R C = some mm →
    ((∀ m ∈ mm, m.1 = m.2) ↔ ∀ t, t < n → ∃ u, Const
      (fun r c => val b t (i * k ^ e + r) (j * k ^ e + c)) R C u)
  chunk : ∀ b rows cols, OK b rows cols → (Chunk.buildBuffer clog b n rows cols k).isSome

namespace Superchunk

theorem runJobs_isSome {clog : Nat → Nat} {lg : Rat → Int} {k : Nat}
    {rec : Saved → MMBuffer3 → (instants rows cols : Nat) → Option (MMStruct3Build × Saved)}
    {n : Nat} : ∀ {parts : List Part} {log : Saved},
    (∀ part ∈ parts, ∀ job, part.job = some job → ∀ log,
      (runJob clog lg k rec n log job).isSome) →
    (runJobs clog lg k rec n log parts).isSome := by
  intro parts
  induction parts with
  | nil => intro log _; rfl
  | cons part parts ih =>
    intro log h
    unfold runJobs
    cases hj : part.job with
    | none =>
      simp only [Option.isSome_map]
      exact ih fun p hp => h p (by simp [hp])
    | some job =>
      simp only
      obtain ⟨x, hx⟩ := Option.isSome_iff_exists.1 (h part (by simp) job hj log)
      obtain ⟨build, l⟩ := x
      rw [hx]
      simp only [Option.isSome_map]
      exact ih fun p hp => h p (by simp [hp])

theorem runJobs_none {clog : Nat → Nat} {lg : Rat → Int} {k : Nat}
    {rec : Saved → MMBuffer3 → (instants rows cols : Nat) → Option (MMStruct3Build × Saved)}
    {n : Nat} : ∀ {parts : List Part} {log : Saved} {part : Part} {job : Job}, part ∈ parts →
    part.job = some job → (∀ log, runJob clog lg k rec n log job = none) →
    runJobs clog lg k rec n log parts = none := by
  intro parts
  induction parts with
  | nil => intro log part job h; cases h
  | cons p parts ih =>
    intro log part job hm hj hn
    unfold runJobs
    rcases List.mem_cons.1 hm with rfl | hm
    · rw [hj]
      simp only
      rw [hn]
    · cases p.job with
      | none => simp only; rw [ih hm hj hn]; rfl
      | some job' =>
        simp only
        cases runJob clog lg k rec n log job' with
        | none => rfl
        | some x => simp only; rw [ih hm hj hn]; rfl

theorem extremes_isSome {pick : Int64 × Int64 → Int64} {n : Nat}
    {parts : List (Part × Option MMStruct3Build)} (h : ∀ p ∈ parts, p.1.minMax.length = n) :
    (extremes pick n parts).isSome := by
  unfold extremes
  rw [collect_isSome]
  intro t ht
  rw [collect_isSome]
  intro p hp
  rw [Option.isSome_map, List.getElem?_eq_getElem (by rw [h p hp]; exact List.mem_range.1 ht)]
  rfl

variable {H : Hash} {clog : Nat → Nat} {lg : Rat → Int} {k : Nat}

theorem mem_positions {S i j : Nat} :
    (i, j) ∈ ((List.range S).flatMap fun r => (List.range S).map fun c => (r, c)) ↔ i < S ∧ j < S := by
  simp only [List.mem_flatMap, List.mem_map, List.mem_range, Prod.mk.injEq]
  constructor
  · rintro ⟨a, ha, b, hb, rfl, rfl⟩
    exact ⟨ha, hb⟩
  · rintro ⟨h1, h2⟩
    exact ⟨i, h1, j, h2, rfl, rfl⟩

theorem plan_total {n : Nat} {α : Type} (T : AcceptTheory clog lg k n α) {sub : List Nat} {b : MMBuffer3}
    {rows cols i j : Nat} (hb : T.OK b rows cols) (hk : 0 < k) (hJ : T.J sub.sum) :
    ∃ part, plan clog sub b n rows cols (k ^ sub.sum) (i, j) = some part ∧ part.minMax.length = n := by
  have hcs : 0 < k ^ sub.sum := Nat.pow_pos hk
  have hslice := T.slice b rows cols sub.sum i j hJ hb
  have hsub : sub = [] → k ^ sub.sum = 1 := by rintro rfl; rfl
  generalize k ^ sub.sum = cs at *
  by_cases hin : i * cs < rows ∧ j * cs < cols
  · obtain ⟨hi, hj⟩ := hin
    unfold plan
    simp only
    rw [if_neg (by omega), show min (i * cs + cs) rows - i * cs = min cs (rows - i * cs) by omega,
      show min (j * cs + cs) cols - j * cs = min cs (cols - j * cs) by omega]
    obtain ⟨mm, h1, h2⟩ := T.minMax _ (min cs (rows - i * cs)) (min cs (cols - j * cs)) (hslice hi hj)
      (by omega) (by omega)
    rw [h1]
    simp only
    by_cases hall : mm.all (fun m => decide (m.1 = m.2)) = true
    · rw [if_pos hall]
      exact ⟨_, rfl, h2⟩
    · rw [if_neg hall]
      cases sub with
      | nil =>
        have := hsub rfl
        subst this
        rw [show min 1 (rows - i * 1) = 1 by omega, show min 1 (cols - j * 1) = 1 by omega] at h1
        exact absurd (List.all_eq_true.2 fun m hm => decide_eq_true (minMax_one h1 m hm)) hall
      | cons l ls =>
        by_cases hl : (l :: ls).length = 1
        · rw [if_pos hl]
          exact ⟨_, rfl, h2⟩
        · rw [if_neg hl]
          exact ⟨_, rfl, h2⟩
  · unfold plan
    simp only
    rw [if_pos (by omega)]
    exact ⟨_, rfl, by simp⟩

/-- `Superchunk::build` succeeds exactly for the levels that are `BuildOk`. -/
theorem build_total_iff {n : Nat} {α : Type} (T : AcceptTheory clog lg k n α) (hk : 0 < k) :
    ∀ (levels : List Nat) (log : Saved) (b : MMBuffer3) (rows cols : Nat),
    (∀ s, s <:+ levels.tail → T.J s.sum) → T.OK b rows cols → 0 < rows → 0 < cols →
    ClogOk clog k (max rows cols) →
    ((build H clog lg k levels log b n rows cols).isSome ↔
      BuildOk clog k n levels (T.val b) rows cols) := by
  intro levels
  induction levels with
  | nil => intro log b rows cols _ _ _ _ _; simp [build, BuildOk]
  | cons level sub ih =>
    intro log b rows cols hJ hb hr hc hclog
    have hJs : T.J sub.sum := hJ sub (List.suffix_refl _)
    have hslice := fun i j => T.slice b rows cols sub.sum i j hJs hb
    unfold build buildLevel BuildOk
    simp only
    by_cases hsum : (level :: sub).sum = clog (max rows cols)
    swap
    · rw [if_pos hsum]
      exact ⟨fun h => (by cases h), fun h => absurd h.1 hsum⟩
    rw [if_neg (by simp [hsum]), ← hsum]
    have hkpos : ∀ x, 0 < k ^ x := fun x => Nat.pow_pos hk
    have hcs : k ^ (level :: sub).sum / k ^ level = k ^ sub.sum := by
      rw [List.sum_cons, Nat.pow_add, Nat.mul_div_cancel_left _ (hkpos _)]
    have hcover : max rows cols ≤ k ^ level * k ^ sub.sum := by
      rw [← Nat.pow_add, ← List.sum_cons, hsum]
      exact hclog.le (by omega) (Nat.le_refl _)
    rw [hcs]
    have hplan : ∀ i j, ∃ part, plan clog sub b n rows cols (k ^ sub.sum) (i, j) = some part ∧
        part.minMax.length = n := fun i j => plan_total T hb hk hJs
    have hparts : (collect ((List.range (k ^ level)).flatMap fun r =>
        (List.range (k ^ level)).map fun c => (r, c)) fun pos =>
        (plan clog sub b n rows cols (k ^ sub.sum) pos).map fun p => [p]).isSome := by
      rw [collect_isSome]
      rintro ⟨i, j⟩ -
      obtain ⟨part, e, -⟩ := hplan i j
      rw [e]
      rfl
    obtain ⟨parts, hparts⟩ := Option.isSome_iff_exists.1 hparts
    rw [hparts]
    simp only
    have F1 := collect_singletons hparts
    have hlens : ∀ p ∈ parts, p.minMax.length = n := by
      intro p hp
      obtain ⟨⟨i, j⟩, -, l, e, hl⟩ := collect_mem hparts hp
      obtain ⟨part, e', h⟩ := hplan i j
      rw [e'] at e
      cases e
      rw [List.mem_singleton] at hl
      rw [hl]
      exact h
    -- jobs
    have hin : ∀ i x, i * k ^ sub.sum < x → x ≤ max rows cols → i < k ^ level := by
      intro i x h1 h2
      by_contra hge
      have := Nat.mul_le_mul_right (k ^ sub.sum) (Nat.le_of_not_lt hge)
      omega
    have hjob : ∀ p ∈ parts, ∀ job, p.job = some job → ∃ i j, i * k ^ sub.sum < rows ∧
        j * k ^ sub.sum < cols ∧ plan clog sub b n rows cols (k ^ sub.sum) (i, j) = some p := by
      intro p hp job hj
      obtain ⟨⟨i, j⟩, -, l, e, hl⟩ := collect_mem hparts hp
      rw [Option.map_eq_some_iff] at e
      obtain ⟨p', e, rfl⟩ := e
      rw [List.mem_singleton] at hl
      subst hl
      refine ⟨i, j, ?_, ?_, e⟩
      · by_contra hge
        unfold plan at e
        simp only at e
        rw [if_pos (by omega)] at e
        cases e
        cases hj
      · by_contra hge
        unfold plan at e
        simp only at e
        rw [if_pos (by omega)] at e
        cases e
        cases hj
    have hrun : ∀ i j p job, i * k ^ sub.sum < rows → j * k ^ sub.sum < cols →
        plan clog sub b n rows cols (k ^ sub.sum) (i, j) = some p → p.job = some job → ∀ log,
        ((runJob clog lg k (build H clog lg k sub) n log job).isSome ↔
          (sub.length = 1 ∨ (∃ l, sub.head? = some l ∧ clog (max
            (min (k ^ sub.sum) (rows - i * k ^ sub.sum))
            (min (k ^ sub.sum) (cols - j * k ^ sub.sum))) ≤ l)) ∨
          BuildOk clog k n sub (fun t r c => T.val b t (i * k ^ sub.sum + r) (j * k ^ sub.sum + c))
            (min (k ^ sub.sum) (rows - i * k ^ sub.sum))
            (min (k ^ sub.sum) (cols - j * k ^ sub.sum))) := by
      intro i j p job hi hj hp hpj log
      obtain ⟨hmm, h | ⟨hne, chunk, h1, h2⟩⟩ := plan_spec hp hi hj
      · rw [h.1] at hpj
        cases hpj
      rw [h1] at hpj
      cases hpj
      unfold runJob
      simp only
      have hpos := hkpos sub.sum
      obtain ⟨b', e', ok', val'⟩ := T.bits b rows cols sub.sum i j hJs hb hi hj _ _ rfl rfl _ hmm hne
      rw [e']
      simp only
      have hle : max (min (k ^ sub.sum) (rows - i * k ^ sub.sum))
          (min (k ^ sub.sum) (cols - j * k ^ sub.sum)) ≤ max rows cols := by clear h2; omega
      cases hch : chunk with
      | true =>
        rw [if_pos rfl, Option.isSome_map]
        simp only [T.chunk _ _ _ ok', true_iff]
        exact .inl (h2.1 hch)
      | false =>
        have heq : ∀ t r c, t < n → r < min (k ^ sub.sum) (rows - i * k ^ sub.sum) →
            c < min (k ^ sub.sum) (cols - j * k ^ sub.sum) →
            T.val b' t r c = T.val b t (i * k ^ sub.sum + r) (j * k ^ sub.sum + c) := by
          intro t r c a1 a2 a3
          rw [val' t r c a1 a2 a3]
        rw [if_neg (by simp), ih _ _ _ _ (fun s hs => hJ s (hs.trans (List.tail_suffix _))) ok'
          (by clear h2; omega) (by clear h2; omega)
          (fun m j h1 h2 => hclog m j h1 (Nat.le_trans h2 hle)),
          show BuildOk clog k n sub (T.val b') _ _ ↔ BuildOk clog k n sub
            (fun t r c => T.val b t (i * k ^ sub.sum + r) (j * k ^ sub.sum + c)) _ _ from
          ⟨BuildOk.congr heq, BuildOk.congr fun t r c a1 a2 a3 => (heq t r c a1 a2 a3).symm⟩]
        constructor
        · exact .inr
        · rintro (h | h)
          · rw [h2.2 h] at hch; cases hch
          · exact h
    have hrest : ((match runJobs clog lg k (build H clog lg k sub) n log parts with
      | none => none
      | some (parts, log) =>
        match extremes Prod.fst n parts, extremes Prod.snd n parts with
        | some min, some max =>
          let s := parts.foldl (saveStep H) ⟨log, [], [], 0, 0, 0, 0⟩
          let saved := save H s.log (.links ⟨s.external⟩)
          match Dac.ofList max, Dac.ofList min with
          | some max, some min =>
            let head : SuperHead := ⟨n, rows, cols, k ^ (level :: sub).sum, level, k ^ sub.sum,
              k ^ level, b.fractionalBits, b.encoding, s.references, saved.2, max, min⟩
            some ((⟨.superchunk head [], head.size 0 + Links.size ⟨s.external⟩ + s.sizes, s.elided,
              s.external.length, s.snapshots, s.logs⟩, saved.1) : MMStruct3Build × Saved)
          | _, _ => none
        | _, _ => none)).isSome ↔ (runJobs clog lg k (build H clog lg k sub) n log parts).isSome := by
      cases hrj : runJobs clog lg k (build H clog lg k sub) n log parts with
      | none => simp
      | some x =>
        obtain ⟨ps, log1⟩ := x
        obtain ⟨-, F2⟩ := runJobs_spec (fun la b n r c x lb h => build_log _ la b n r c x lb h) hrj
        have hl : ∀ p ∈ ps, p.1.minMax.length = n := by
          intro p hp
          obtain ⟨idx, hidx⟩ := List.mem_iff_getElem?.1 hp
          have hlt : idx < parts.length := by
            rw [F2.length_eq]; exact (List.getElem?_eq_some_iff.1 hidx).1
          obtain ⟨q, e, h, -⟩ := forall₂_getElem? F2 (List.getElem?_eq_getElem hlt)
          rw [hidx] at e
          cases e
          rw [h]
          exact hlens _ (List.getElem_mem _)
        obtain ⟨mins, h1⟩ := Option.isSome_iff_exists.1 (extremes_isSome (pick := Prod.fst) hl)
        obtain ⟨maxs, h2⟩ := Option.isSome_iff_exists.1 (extremes_isSome (pick := Prod.snd) hl)
        simp only
        rw [h1, h2]
        simp only
        obtain ⟨_, e1, -⟩ := dac_ofList_repr maxs
        obtain ⟨_, e2, -⟩ := dac_ofList_repr mins
        rw [e1, e2]
        simp
    refine hrest.trans ?_
    clear hrest
    constructor
    · intro hs
      refine ⟨trivial, ?_⟩
      match sub, hs, ih, hrun, hin, hplan, hparts, F1, hJs with
      | [], _, _, _, _, _, _, _, _ => trivial
      | [_], _, _, _, _, _, _, _, _ => trivial
      | next :: x :: rest, hs, ih, hrun, hin, hplan, hparts, F1, hJs =>
        intro i j hi hj
        by_contra hcon
        simp only [not_or] at hcon
        obtain ⟨c1, c2, c3⟩ := hcon
        obtain ⟨p, p1, p2⟩ := forall₂_getElem? F1 (positions_getElem? _ i j (hin _ _ hi (by omega))
          (hin _ _ hj (by omega)))
        obtain ⟨q0, q⟩ := plan_spec p2 hi hj
        rcases q with ⟨-, q⟩ | ⟨-, chunk, q, -⟩
        · exact c1 ((T.elided b rows cols _ i j hJs hb hi hj _ _ rfl rfl _ q0).1 q)
        · rw [runJobs_none (List.mem_of_getElem? p1) q] at hs
          · cases hs
          · intro log
            rw [← Option.not_isSome_iff_eq_none, hrun i j p _ hi hj p2 q]
            rintro ((h | ⟨l, h, h'⟩) | h)
            · simp at h
            · simp only [List.head?_cons, Option.some.injEq] at h
              subst h
              exact c2 h'
            · exact c3 h
    · rintro ⟨-, hs⟩
      apply runJobs_isSome
      intro p hp job hj log
      obtain ⟨i, j, hi, hj', hpl⟩ := hjob p hp job hj
      rw [hrun i j p job hi hj' hpl hj]
      match sub, hs, hpl, hJs with
      | [], _, hpl, _ =>
        exfalso
        obtain ⟨q0, ⟨q, -⟩ | ⟨q, -⟩⟩ := plan_spec hpl hi hj'
        · rw [q] at hj; cases hj
        · simp only [List.sum_nil, Nat.pow_zero, Nat.mul_one] at q0 hi hj'
          rw [show min 1 (rows - i) = 1 by omega, show min 1 (cols - j) = 1 by omega] at q0
          exact q (minMax_one q0)
      | [_], _, _, _ => exact .inl (.inl rfl)
      | next :: x :: rest, hs, hpl, hJs =>
        rcases hs i j hi hj' with h | h | h
        · exfalso
          obtain ⟨q0, ⟨q, -⟩ | ⟨q, -⟩⟩ := plan_spec hpl hi hj'
          · rw [q] at hj; cases hj
          · exact q ((T.elided b rows cols _ i j hJs hb hi hj' _ _ rfl rfl _ q0).2 h)
        · exact .inl (.inr ⟨next, rfl, h⟩)
        · exact .inr h

end Superchunk

/-- Buffers of integers. -/
def intAccepts (clog : Nat → Nat) (lg : Rat → Int) (k : Nat) (hk : 0 < k) {n : Nat} (hn : 1 ≤ n) :
    AcceptTheory clog lg k n Int64 where
  J := fun _ => True
  OK := fun b _ _ => b.isInt
  val := MMBuffer3.int
  slice := fun b rows cols e i j _ h _ _ => h.slice ..
  slice_val := MMBuffer3.int_slice
  bits := by
    intro b rows cols e i j _ h hi hj R C _ _ mm _ _
    refine ⟨b.slice 0 (i * k ^ e) (j * k ^ e), ?_, h.slice .., fun _ _ _ _ _ _ => MMBuffer3.int_slice ..⟩
    cases b with
    | i32 a => rfl
    | i64 a => rfl
    | flt => exact h.elim
  minMax := fun b rows cols h hr hc => int_minMax_some h n hr hc
  elided := by
    intro b rows cols e i j _ h hi hj R C hR hC mm hmm
    have hpos : 0 < k ^ e := Nat.pow_pos hk
    rw [int_elided_iff (h.slice ..) (by omega) (by omega) hmm]
    have heq : ∀ t, (b.slice 0 (i * k ^ e) (j * k ^ e)).int t =
        fun r c => b.int t (i * k ^ e + r) (j * k ^ e + c) := by
      intro t; funext r c; exact MMBuffer3.int_slice ..
    simp only [heq]
  chunk := by
    intro b rows cols h
    rw [buildBuffer_int h, Option.isSome_map]
    obtain ⟨_, -, -, -, e, -⟩ := chunk_build b.int n rows cols k (clog (max rows cols)) hk hn b.encoding
      b.fractionalBits
    rw [e]
    rfl

/-- `Superchunk::build` of integers succeeds exactly for the levels that are `BuildOk`. -/
theorem Superchunk.build_isSome_iff {H : Hash} {clog : Nat → Nat} {lg : Rat → Int} {k : Nat}
    (hk : 0 < k) {n : Nat} (hn : 1 ≤ n) (levels : List Nat) (log : Saved)
    (b : MMBuffer3) (rows cols : Nat) (hb : b.isInt) (hr : 0 < rows) (hc : 0 < cols)
    (hclog : ClogOk clog k (max rows cols)) :
    (build H clog lg k levels log b n rows cols).isSome ↔
      BuildOk clog k n levels b.int rows cols :=
  build_total_iff (intAccepts clog lg k hk hn) hk levels log b rows cols (fun _ _ => trivial) hb hr hc hclog

end Verif
