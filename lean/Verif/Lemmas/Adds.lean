import Verif.Lemmas.AnyData
import Verif.Lemmas.Accepted

/-! How many objects an append saves. -/
namespace Verif

open Prog hiding pure bind

theorem Prog.ok_bind {α β : Type} {m : Prog α} {f : α → Prog β} {log log'' : Saved} {b : β}
    (h : (m >>= f) log = (.ok b, log'')) : ∃ a log', m log = (.ok a, log') ∧ f a log' = (.ok b, log'') := by
  change Prog.bind m f log = _ at h
  unfold Prog.bind at h
  rcases e : m log with ⟨_ | a, log1⟩
  · rw [e] at h
    have := congrArg Prod.fst h
    cases this
  · rw [e] at h
    exact ⟨a, log1, rfl, h⟩

/-- If the program ends well, it has saved at most `n` objects, with `Q` of the result and `n`. -/
def Prog.Adds {α : Type} (m : Prog α) (log : Saved) (Q : α → Nat → Prop) : Prop :=
  ∀ a log', m log = (.ok a, log') → ∃ n, log'.length ≤ log.length + n ∧ Q a n

section
variable {α β : Type} {log : Saved}

theorem Prog.Adds.pure {a : α} {Q : α → Nat → Prop} (h : Q a 0) : Adds (Pure.pure a : Prog α) log Q := by
  intro b log' e
  cases (congrArg Prod.fst e : (Except.ok a : Except Fail α) = _)
  cases (congrArg Prod.snd e : log = _)
  exact ⟨0, Nat.le_refl _, h⟩

theorem Prog.Adds.fail {f : Fail} {Q : α → Nat → Prop} : Adds (Prog.fail f : Prog α) log Q := by
  intro b log' e
  cases (congrArg Prod.fst e)

theorem Prog.Adds.ofOption {o : Option α} : Adds (Prog.ofOption o) log fun _ n => n = 0 := by
  cases o with
  | none => exact Adds.fail
  | some a => exact Adds.pure rfl

theorem Prog.Adds.bind {m : Prog α} {f : α → Prog β} {Q : α → Nat → Prop} {R : β → Nat → Prop}
    (hm : Adds m log Q)
    (hf : ∀ a log' n, m log = (.ok a, log') → Q a n → Adds (f a) log' fun b k => R b (n + k)) :
    Adds (m >>= f) log R := by
  intro b log'' e
  obtain ⟨a, log', e1, e2⟩ := Prog.ok_bind e
  obtain ⟨n, h1, h2⟩ := hm _ _ e1
  obtain ⟨k, h3, h4⟩ := hf a log' n e1 h2 _ _ e2
  exact ⟨n + k, by omega, h4⟩

theorem Prog.Adds.mono {m : Prog α} {Q R : α → Nat → Prop} (h : Adds m log Q) (hq : ∀ a n, Q a n → R a n) :
    Adds m log R := by
  intro a log' e
  obtain ⟨n, h1, h2⟩ := h a log' e
  exact ⟨n, h1, hq _ _ h2⟩

variable {H : Hash} {utf8 : List Byte → Bool}

theorem Prog.Adds.getStruct (cid : Cid) : Adds (Prog.getStruct H utf8 cid) log fun _ n => n = 0 := by
  intro a log' e
  cases (congrArg Prod.snd e : log = _)
  exact ⟨0, Nat.le_refl _, rfl⟩

theorem Prog.Adds.getSpan (cid : Cid) : Adds (Prog.getSpan H utf8 cid) log fun _ n => n = 0 := by
  refine (Adds.getStruct cid).bind ?_
  rintro m log' _ - rfl
  cases m with
  | span s => exact Adds.pure rfl
  | subchunk c => exact Adds.fail
  | superchunk h l => exact Adds.fail

theorem Prog.Adds.save (x : Item) : Adds (Prog.save H x) log fun _ n => n = 1 := by
  intro a log' e
  cases (congrArg Prod.snd e : (Verif.save H log x).1 = _)
  exact ⟨1, by simp, rfl⟩

theorem Prog.Sat.and_post {w : Prop} {m : Prog α} {Q P : α → Saved → Prop} (h : Sat w H m log Q)
    (h' : ∀ a log', m log = (.ok a, log') → log'.NoCollision H → P a log') :
    Sat w H m log fun a l => Q a l ∧ P a l := by
  intro hnc
  rcases h hnc with ⟨a, log', e, hq⟩ | h
  · exact .inl ⟨a, log', e, hq, h' a log' e (by rw [e] at hnc; exact hnc)⟩
  · exact .inr h

/-! ### Spans -/

theorem Span.append_adds (sp : Span) (m : MMStruct3) :
    Adds (Span.append H utf8 sp m) log fun _ n => n = 1 := by
  unfold Span.append
  refine Adds.bind (Q := fun _ n => n = 0) ?_ ?_
  · unfold Span.checkLast
    cases sp.spans.getLast? with
    | none => exact Adds.pure rfl
    | some last =>
      refine (Adds.getStruct last).bind ?_
      rintro m log' _ - rfl
      refine Adds.ofOption.bind ?_
      rintro s log'' _ - rfl
      split
      · exact Adds.fail
      · exact Adds.pure rfl
  rintro _ log' _ - rfl
  refine Adds.ofOption.bind ?_
  rintro s log'' _ - rfl
  split
  · exact Adds.fail
  split
  · exact Adds.fail
  refine (Adds.save _).bind ?_
  rintro cid log3 _ - rfl
  exact Adds.pure rfl

theorem Span.update_adds (sp : Span) (m : MMStruct3) :
    Adds (Span.update H utf8 sp m) log fun _ n => n = 1 := Span.append_adds _ m

theorem Span.addChunk_adds (update : Bool) (sp : Span) (m : MMStruct3) :
    Adds (Span.addChunk H utf8 update sp m) log fun _ n => n = 1 := by
  unfold Span.addChunk
  split
  · exact Span.update_adds _ _
  · exact Span.append_adds _ _

theorem Prog.bind_log {m : Prog α} {f : α → Prog β} (hm : ∀ log, (m log).2 = log)
    (hf : ∀ a log, (f a log).2 = log) (log : Saved) : ((m >>= f) log).2 = log := by
  change (Prog.bind m f log).2 = log
  unfold Prog.bind
  have h := hm log
  rcases e : m log with ⟨_ | a, l⟩
  · rw [e] at h; exact h
  · rw [e] at h
    exact (hf a l).trans h

theorem Prog.ofOption_log (o : Option α) (log : Saved) : (Prog.ofOption o log).2 = log := by
  cases o <;> rfl

theorem Prog.getSpan_log (cid : Cid) : ∀ log, (Prog.getSpan H utf8 cid log).2 = log := by
  refine Prog.bind_log (fun log => rfl) fun m log => ?_
  cases m <;> rfl

theorem tailSpansLoop_log (cs : Nat) : ∀ (fuel : Nat) (above : List Span) (sp : Span) (log : Saved),
    (tailSpansLoop H utf8 cs fuel above sp log).2 = log := by
  intro fuel
  induction fuel with
  | zero => intro above sp log; rfl
  | succ fuel ih =>
    intro above sp log
    unfold tailSpansLoop
    split
    · exact Prog.bind_log (Prog.ofOption_log _) (fun cid => Prog.bind_log (Prog.getSpan_log cid) (ih _)) log
    · rfl

theorem Variable.tailSpans_log (fuel : Nat) (v : Variable) (log : Saved) :
    (v.tailSpans H utf8 fuel log).2 = log :=
  Prog.bind_log (Prog.getSpan_log _) (fun sp => tailSpansLoop_log v.chunkSize fuel [] sp) log

theorem Variable.tailSpans_adds (fuel : Nat) (v : Variable) :
    Adds (v.tailSpans H utf8 fuel) log fun _ n => n = 0 := by
  intro a log' e
  have := Variable.tailSpans_log (H := H) (utf8 := utf8) fuel v log
  rw [e] at this
  exact ⟨0, by rw [show log' = log from this]; exact Nat.le_refl _, rfl⟩

theorem saveSpansLoop_adds : ∀ (above : List Span) (sp : Span) (log : Saved),
    Adds (saveSpansLoop H utf8 sp above) log fun _ n => n = above.length := by
  intro above
  induction above with
  | nil => intro sp log; exact Adds.pure rfl
  | cons p rest ih =>
    intro sp log
    refine (Span.update_adds _ _).bind ?_
    rintro sp' log' _ - rfl
    refine (ih sp' log').mono ?_
    rintro _ n rfl
    simp only [List.length_cons]
    omega

theorem Variable.saveSpans_adds (v : Variable) (spans : List Span) :
    Adds (v.saveSpans H utf8 spans) log fun _ n => n = spans.length := by
  unfold Variable.saveSpans
  cases spans with
  | nil => exact Adds.fail
  | cons sp rest =>
    refine (saveSpansLoop_adds rest sp log).bind ?_
    rintro sp' log' _ - rfl
    refine (Adds.save _).bind ?_
    rintro cid log'' _ - rfl
    exact Adds.pure (by simp)

theorem openSpanLoop_adds (v : Variable) (rows cols : Nat) : ∀ (above : List Span) (l sp : Span) (log : Saved),
    Adds (openSpanLoop H utf8 v rows cols l sp above) log fun x n => n + x.2.length ≤ above.length + 2 := by
  intro above
  induction above with
  | nil =>
    intro l sp log
    refine (Span.append_adds _ _).bind ?_
    rintro root log' _ - rfl
    refine (Span.append_adds _ _).bind ?_
    rintro root log'' _ - rfl
    exact Adds.pure (by simp)
  | cons p rest ih =>
    intro l sp log
    unfold openSpanLoop
    split
    · refine (Span.append_adds _ _).bind ?_
      rintro sp' log' _ - rfl
      refine (ih p sp' log').mono ?_
      intro x n h
      simp only [List.length_cons]
      omega
    · refine (Span.append_adds _ _).bind ?_
      rintro sp' log' _ - rfl
      exact Adds.pure (by simp only [List.length_cons]; omega)

theorem Variable.createOpenSpan_adds {fuel : Nat} {v : Variable} {rows cols : Nat} {D : Nat}
    (h : ∀ l log', v.tailSpans H utf8 fuel log = (.ok l, log') → l.length ≤ D) :
    Adds (v.createOpenSpan H utf8 fuel rows cols) log fun _ n => n ≤ D + 2 := by
  refine (Variable.tailSpans_adds fuel v).bind ?_
  rintro l log' _ e rfl
  have hl := h l log' e
  cases l with
  | nil => exact Adds.fail
  | cons leaf rest =>
    simp only [List.length_cons] at hl
    refine (openSpanLoop_adds v rows cols rest leaf _ log').bind ?_
    rintro x log'' n - hn
    rw [openSpanUp_eq]
    refine (saveSpansLoop_adds _ _ _).bind ?_
    rintro sp log3 _ - rfl
    refine (Adds.save _).bind ?_
    rintro cid log4 _ - rfl
    exact Adds.pure (by omega)

end

/-! ### Chunks -/

namespace Spec

/-- How many objects are saved for a superchunk besides itself, at most: all that are within it, and the tables
of links. -/
def parts : List Nat → Nat
  | [] => 0
  | level :: sub => 4 ^ level * ((if sub.length ≤ 1 then 0 else parts sub) + 1) + 1

end Spec

section
variable {H : Hash} {clog : Nat → Nat} {lg : Rat → Int}

theorem Superchunk.runJobs_adds {k : Nat}
    {rec : Saved → MMBuffer3 → (instants rows cols : Nat) → Option (MMStruct3Build × Saved)} {S n : Nat} :
    ∀ (ps : List Superchunk.Part) (log log' : Saved) (qs : List (Superchunk.Part × Option MMStruct3Build)),
    (∀ p ∈ ps, ∀ j, p.job = some j → j.chunk = false → ∀ log b rows cols r log',
      rec log b n rows cols = some (r, log') → log'.length ≤ log.length + S) →
    Superchunk.runJobs clog lg k rec n log ps = some (qs, log') →
    qs.length = ps.length ∧ log'.length ≤ log.length + ps.length * S := by
  intro ps
  induction ps with
  | nil =>
    intro log log' qs _ h
    cases h
    exact ⟨rfl, by simp⟩
  | cons p ps ih =>
    intro log log' qs hj h
    unfold Superchunk.runJobs at h
    rw [List.length_cons, Nat.succ_mul]
    cases hjob : p.job with
    | none =>
      rw [hjob] at h
      simp only [Option.map_eq_some_iff, Prod.mk.injEq] at h
      obtain ⟨⟨qs', l⟩, h1, rfl, rfl⟩ := h
      obtain ⟨a, b⟩ := ih _ _ _ (fun p hp => hj p (List.mem_cons_of_mem _ hp)) h1
      exact ⟨by simp [a], by simp only; omega⟩
    | some job =>
      rw [hjob] at h
      simp only at h
      rcases hr : Superchunk.runJob clog lg k rec n log job with _ | ⟨b, l1⟩
      · rw [hr] at h; cases h
      rw [hr] at h
      simp only [Option.map_eq_some_iff, Prod.mk.injEq] at h
      obtain ⟨⟨qs', l⟩, h1, rfl, rfl⟩ := h
      obtain ⟨a, c⟩ := ih _ _ _ (fun p hp => hj p (List.mem_cons_of_mem _ hp)) h1
      have : l1.length ≤ log.length + S := by
        unfold Superchunk.runJob at hr
        split at hr
        · cases hr
        · split at hr
          · simp only [Option.map_eq_some_iff, Prod.mk.injEq] at hr
            obtain ⟨x, -, -, rfl⟩ := hr
            omega
          · rename_i hc
            exact hj p (List.mem_cons_self ..) job hjob (by simpa using hc) _ _ _ _ _ _ hr
      exact ⟨by simp [a], by simp only; omega⟩

theorem Superchunk.saveStep_adds (s : Superchunk.SaveState) (p : Superchunk.Part × Option MMStruct3Build) :
    (Superchunk.saveStep H s p).log.length ≤ s.log.length + 1 := by
  unfold Superchunk.saveStep
  cases p.2 with
  | none => simp
  | some b =>
    simp only
    split
    · simp
    · split <;> simp [Verif.save]

theorem Superchunk.saveSteps_adds (ps : List (Superchunk.Part × Option MMStruct3Build)) (s : Superchunk.SaveState) :
    (ps.foldl (Superchunk.saveStep H) s).log.length ≤ s.log.length + ps.length := by
  induction ps generalizing s with
  | nil => simp
  | cons p ps ih =>
    have h1 := ih (Superchunk.saveStep H s p)
    have h2 := Superchunk.saveStep_adds (H := H) s p
    rw [List.foldl_cons, List.length_cons]
    omega

/-- If one level is left, what is within the superchunk are chunks. -/
theorem Superchunk.plan_chunk {sub : List Nat} (hsub : sub.length ≤ 1) {b : MMBuffer3} {n rows cols side : Nat}
    {pos : Nat × Nat} {p : Superchunk.Part} (h : Superchunk.plan clog sub b n rows cols side pos = some p)
    {j : Superchunk.Job} (hj : p.job = some j) : j.chunk = true := by
  unfold Superchunk.plan at h
  simp only at h
  split at h
  · cases h; cases hj
  split at h
  · cases h
  split at h
  · cases h; cases hj
  split at h
  · cases h
  · rename_i c hc
    cases h
    cases hj
    match sub, hsub with
    | [], _ => simp at hc
    | [x], _ => simpa using hc.symm

theorem Superchunk.build_adds : ∀ (levels : List Nat) (log log' : Saved) (b : MMBuffer3) (n rows cols : Nat)
    (r : MMStruct3Build), Superchunk.build H clog lg 2 levels log b n rows cols = some (r, log') →
    log'.length ≤ log.length + Spec.parts levels := by
  intro levels
  induction levels with
  | nil => intro log log' b n rows cols r h; cases h
  | cons level sub ih =>
    intro log log' b n rows cols r h
    unfold Superchunk.build Superchunk.buildLevel at h
    simp only at h
    split at h
    · cases h
    split at h
    · cases h
    rename_i parts hparts
    split at h
    · cases h
    rename_i qs log1 hjobs
    split at h
    · rename_i min max _ _
      split at h
      · simp only [Option.some.injEq, Prod.mk.injEq] at h
        obtain ⟨-, rfl⟩ := h
        have hlen : parts.length = 4 ^ level := by
          rw [← (collect_singletons hparts).length_eq, List.length_flatMap]
          simp only [List.length_map, List.length_range, List.map_const', List.sum_replicate]
          change 2 ^ level * 2 ^ level = 4 ^ level
          rw [← Nat.mul_pow]
        have hrec : ∀ p ∈ parts, ∀ j, p.job = some j → j.chunk = false → ∀ log b rows cols r log',
            Superchunk.build H clog lg 2 sub log b n rows cols = some (r, log') →
            log'.length ≤ log.length + if sub.length ≤ 1 then 0 else Spec.parts sub := by
          intro p hp j hj hc log b rows cols r log' h
          split
          · rename_i hsub
            obtain ⟨i, hi⟩ := List.mem_iff_getElem?.1 hp
            obtain ⟨pos, -, hpos⟩ := forall₂_getElem? (collect_singletons hparts).flip hi
            rw [Superchunk.plan_chunk hsub hpos hj] at hc
            cases hc
          · exact ih log log' b n rows cols r h
        obtain ⟨h1, h2⟩ := Superchunk.runJobs_adds parts log log1 qs hrec hjobs
        have h3 := Superchunk.saveSteps_adds (H := H) qs ⟨log1, [], [], 0, 0, 0, 0⟩
        rw [h1, hlen] at h3
        rw [hlen] at h2
        unfold Spec.parts
        rw [Nat.mul_add, Nat.mul_one]
        simp only [Verif.save, List.length_cons]
        simp only at h3
        omega
      · cases h
    · cases h

theorem Prog.buildChunk_adds {levels : List Nat} {b : MMBuffer3} {n rows cols : Nat} {log : Saved} :
    Adds (Prog.buildChunk H clog lg levels b n rows cols) log fun _ k => k ≤ Spec.parts levels := by
  intro m log' e
  unfold Prog.buildChunk at e
  split at e
  · cases congrArg Prod.fst e
  split at e
  · cases congrArg Prod.fst e
  rename_i r l h
  cases (congrArg Prod.snd e)
  have h1 := Superchunk.build_adds _ _ _ _ _ _ _ _ h
  exact ⟨_, h1, Nat.le_refl _⟩

/-! ### Variables -/

variable {utf8 : List Byte → Bool} {T : VarTheory} {fuel : Nat}

theorem VarTheory.Tall.le {h a D : Nat} (ht : T.Tall h a) (ha : a ≤ T.stride D) : h ≤ D := by
  rcases ht with rfl | ht
  · omega
  · by_contra hc
    have h1 := T.stride_mono (show D + 1 ≤ h by omega)
    have h2 := T.stride_succ D
    have h3 := T.stride_pos D
    have h4 : 2 * T.stride D ≤ T.ss * T.stride D := Nat.mul_le_mul_right _ T.ss_two
    omega

/-- How deep a variable with at most `cs * ss ^ D` instants is. -/
theorem Variable.tailSpans_deep {log : Saved} {v : Variable} {N tl D : Nat} (hf : 32 ≤ fuel)
    (h : VarOpen H T log v N tl) (hN : N ≤ T.stride D) (hnc : log.NoCollision H) {l : List Span} {log' : Saved}
    (e : v.tailSpans H utf8 fuel log = (.ok l, log')) : l.length ≤ D + 1 := by
  have hlog : log' = log := by
    have := Variable.tailSpans_log (H := H) (utf8 := utf8) fuel v log
    rwa [e] at this
  obtain ⟨l', log'', e', -, leaf, rest, a, rfl, -, -, h3, -, h5⟩ := (Variable.tailSpans_sat (w := False) hf h).ok
    (by rw [e, hlog]; exact hnc)
  rw [e] at e'
  cases e'
  have := h5.le (D := D) (by omega)
  simpa using this

theorem Variable.openIfFull_adds {log : Saved} {v : Variable} {sp : Span} {rest : List Span} {a n D : Nat}
    (hf : 32 ≤ fuel) (h1 : v.chunkSize = T.cs) (h2 : v.spanSize = T.ss)
    (h3 : v.encoding = T.enc) (ht : Tree H T log 0 sp a n n) (hc : Chain H T log 0 rest a)
    (hs : T.stride rest.length ≤ T.B) (hta : T.Tall rest.length a) (hn : a + n ≤ T.B)
    (hD : a + n ≤ T.stride D) {x : Variable × Span × List Span} {log' : Saved}
    (e : v.openIfFull H utf8 fuel T.rows T.cols sp rest log = (.ok x, log')) (hnc : log'.NoCollision H) :
    log'.length ≤ log.length + if n = T.stride 1 then 2 * D + 4 else 0 := by
  unfold Variable.openIfFull at e
  have hst : v.spanSize * sp.stride = T.stride 1 := by
    rw [h2, ht.shaped.stride, ← T.stride_succ]
  rw [hst, ht.instants] at e
  split at e
  · rename_i hfull
    rw [if_pos hfull]
    subst hfull
    obtain ⟨v1, log1, e1, e⟩ := Prog.ok_bind e
    obtain ⟨v2, log2, e2, e⟩ := Prog.ok_bind e
    obtain ⟨l3, log3, e3, e⟩ := Prog.ok_bind e
    have m1 := Variable.saveSpans_mono H utf8 v (sp :: rest) log
    have m2 := Variable.createOpenSpan_mono H utf8 fuel v1 T.rows T.cols log1
    have m3 := Variable.tailSpans_mono H utf8 fuel v2 log2
    rw [e1] at m1
    rw [e2] at m2
    rw [e3] at m3
    have e4 : log3 = log' := by
      split at e
      · cases congrArg Prod.fst e
      · split at e
        · exact congrArg Prod.snd e
        · cases congrArg Prod.fst e
    subst e4
    have n2 := NoCollision.mono m3 hnc
    have n1 := NoCollision.mono m2 n2
    obtain ⟨v1', log1', e1', hv1, -⟩ := (Variable.saveSpans_sat (w := False) (utf8 := utf8) h1 h2 h3 ht hc hs hta hn).ok
      (by rw [e1]; exact n1)
    rw [e1] at e1'
    cases e1'
    obtain ⟨k1, a1, rfl⟩ := Variable.saveSpans_adds v (sp :: rest) _ _ e1
    obtain ⟨k2, a2, a3⟩ := Variable.createOpenSpan_adds (D := D + 1)
      (fun l log' e => Variable.tailSpans_deep hf hv1 hD n1 e) _ _ e2
    obtain ⟨k3, a4, rfl⟩ := Variable.tailSpans_adds fuel v2 _ _ e3
    have := hta.le (D := D) (by omega)
    simp only [List.length_cons] at a1
    omega
  · rename_i hfull
    rw [if_neg hfull]
    cases congrArg Prod.snd e
    exact Nat.le_refl _

variable {w : Prop}

/-- How many objects the loop over the chunks saves; the last span has `q` chunks, and `o` spans are opened. -/
theorem appendLoop_adds {levels : List Nat} {b : MMBuffer3} {A n D : Nat} (hf : 32 ≤ fuel)
    (hb : ChunksOk w H clog lg T levels b A n) (hB : A + n ≤ T.B) (hD : A + n ≤ T.stride D) :
    ∀ (r s : Nat) (log : Saved) (v : Variable) (sp : Span) (rest : List Span) (a nl q : Nat),
    (∀ j, j < s + r ↔ j * T.cs < n) ∨ r = 0 →
    v.chunkSize = T.cs → v.spanSize = T.ss → v.k2Levels = levels → v.encoding = T.enc →
    Tree H T log 0 sp a nl nl → Chain H T log 0 rest a → T.stride rest.length ≤ T.B →
    a + nl = A + min (s * T.cs) n → (r = 0 → n ≤ s * T.cs) → (r ≠ 0 → nl = q * T.cs) →
    T.Tall rest.length a → (1 ≤ a + nl → 1 ≤ nl) →
    Sat w H (Variable.appendLoop H utf8 clog lg fuel b n T.rows T.cols
      ((List.range' s r).map (· * T.cs)) v (sp :: rest) false) log fun x log' =>
        LoopEnd H T v (A + n) x log' ∧ ∃ o, o * T.ss ≤ q + r - 1 ∧
          log'.length ≤ log.length + r * (Spec.parts levels + 1) + o * (2 * D + 4) := by
  intro r
  induction r with
  | zero =>
    intro s log v sp rest a nl q _ h1 h2 _ _ ht hc hs ha hr hq hta hnl
    clear hq
    have := hr rfl
    exact Sat.pure ⟨⟨sp, rest, a, nl, rfl, ht, hc, hs, by omega, ⟨v.cid, rfl⟩, hta, fun h => hnl (by omega)⟩,
      0, by omega, by omega⟩
  | succ r ih =>
    intro s log v sp rest a nl q hcount h1 h2 h3 h4 ht hc hs ha _ hq hta hnl
    have hcount : ∀ j, j < s + (r + 1) ↔ j * T.cs < n := by
      rcases hcount with h | h
      · exact h
      · omega
    have hq := hq (Nat.succ_ne_zero r)
    subst hq
    have hsn : s * T.cs < n := (hcount s).1 (by omega)
    have hsucc : (s + 1) * T.cs = s * T.cs + T.cs := Nat.succ_mul s T.cs
    have hcs := T.cs_pos
    rw [List.range'_succ, List.map_cons]
    unfold Variable.appendLoop
    refine Sat.bind (Mono.buildChunk H clog lg _ _ _ _ _) ?_ (Sat.and_post (by
      rw [h1, h3]; exact hb s log hsn) fun _ _ e _ => Prog.buildChunk_adds _ _ e) ?_
    · intro chunk
      exact (Variable.openIfFull_mono H utf8 fuel v _ _ sp rest).bind fun x =>
        (Span.addChunk_mono _ _ _).bind fun sp => Variable.appendLoop_mono H utf8 clog lg _ _ _ _ _ _ _ _ _
    rintro chunk log1 hs1 ⟨hK, k1, hk1, hk1'⟩
    rw [h3] at hk1'
    refine Sat.bind (Variable.openIfFull_mono H utf8 fuel v _ _ sp rest)
      (fun x => (Span.addChunk_mono _ _ _).bind fun sp =>
        Variable.appendLoop_mono H utf8 clog lg _ _ _ _ _ _ _ _ _)
      (Sat.and_post (Variable.openIfFull_sat hf h1 h2 h4 (ht.mono hs1) (hc.mono hs1) hs hta (by omega))
        fun _ _ e hnc => Variable.openIfFull_adds (D := D) hf h1 h2 h4 (ht.mono hs1) (hc.mono hs1) hs hta
          (by omega) (by omega) e hnc) ?_
    rintro ⟨v2, sp2, rest2⟩ log2 hs2 ⟨⟨a2, n2, ⟨cid2, rfl⟩, e1, e2, e3, e4, e5, e6, e7, e8⟩, hk2⟩
    simp only at e1 e2 e3
    have hst : T.stride 1 = T.ss * T.cs := by rw [T.stride_succ 0, T.stride_zero]
    -- whether a span had to be opened
    obtain ⟨q2, op, rfl, hop, hk2⟩ : ∃ q2 op, n2 = q2 * T.cs ∧ q2 + op * T.ss = q ∧
        log2.length ≤ log1.length + op * (2 * D + 4) := by
      rcases Nat.lt_or_ge (q * T.cs) (T.stride 1) with h | h
      · rw [if_neg (by omega)] at hk2
        exact ⟨q, 0, e6 h, by omega, by omega⟩
      · have hle := ht.le
        rw [Nat.zero_add] at hle
        have heq : q * T.cs = T.stride 1 := by omega
        rw [if_pos heq] at hk2
        rw [hst] at heq
        have hqs := Nat.eq_of_mul_eq_mul_right hcs heq
        exact ⟨0, 1, by rw [e7 (by omega), Nat.zero_mul], by omega, by omega⟩
    have hq2 : q2 < T.ss := by
      rw [hst] at e5
      exact Nat.lt_of_mul_lt_mul_right e5
    have hmin : min T.cs (n - s * T.cs) ≤ T.cs := Nat.min_le_left _ _
    refine Sat.bind (Q := fun sp' log' => (log2 ⊆ log' ∧ Tree H T log' 0 sp' a2
        (q2 * T.cs + min T.cs (n - s * T.cs)) (q2 * T.cs + min T.cs (n - s * T.cs))) ∧
        ∃ k, log'.length ≤ log2.length + k ∧ k = 1)
      (Span.addChunk_mono _ _ _)
      (fun sp => Variable.appendLoop_mono H utf8 clog lg _ _ _ _ _ _ _ _ _)
      (Sat.and_post ?_ fun _ _ e _ => Span.addChunk_adds _ _ _ _ _ e) ?_
    · refine Span.append_chunk e1 hq2 ?_ (by omega) hmin fun sp' log' b1 b2 => ⟨b1, b2⟩
      have := T.mono hs2 hK
      rwa [show A + s * T.cs = a2 + q2 * T.cs by omega] at this
    · rintro sp' log3 hs3 ⟨⟨-, ht3⟩, _, hk3, rfl⟩
      refine (ih (s + 1) log3 { v with cid := cid2 } sp' rest2 a2 _ (q2 + 1) ?_ h1 h2 h3 h4 ht3 (e2.mono hs3) e3
        (by omega) ?_ ?_ e8 (fun _ => by omega)).mono ?_
      · left
        intro j
        rw [← hcount j]
        omega
      · intro hr0
        have := hcount (s + 1)
        have h9 : ¬ s + 1 < s + (r + 1) := by omega
        have h10 : ¬ (s + 1) * T.cs < n := fun h => h9 (this.2 h)
        omega
      · intro hr0
        have := (hcount (s + 1)).1 (by omega)
        rw [Nat.succ_mul]
        omega
      · rintro x log4 ⟨⟨spx, restx, ax, nx, b1, b2, b3, b4, b5, ⟨cid, b6⟩, b7⟩, o, ho, hl⟩
        refine ⟨⟨spx, restx, ax, nx, b1, b2, b3, b4, b5, ⟨cid, b6⟩, b7⟩, o + op, ?_, ?_⟩
        · rw [Nat.add_mul]
          omega
        · rw [Nat.add_mul o op, Nat.succ_mul r]
          omega

/-- How many objects an append to a variable saves. -/
theorem Variable.append_adds {log : Saved} {v : Variable} {levels : List Nat} {b : MMBuffer3}
    {N tl A n D : Nat} {update : Bool} (hf : 32 ≤ fuel)
    (hv : VarInv H T log v N tl) (hN : N ≤ T.B) (hl : v.k2Levels = levels)
    (hb : ChunksOk w H clog lg T levels b A n) (hB : A + n ≤ T.B) (hD : A + n ≤ T.stride D)
    (hND : N ≤ T.stride D) (hu : if update then A + tl % T.cs = N ∧ tl % T.cs ≠ 0 ∧ 1 ≤ n else A = N ∧ tl % T.cs = 0) :
    Sat w H (v.append H utf8 clog lg fuel b n T.rows T.cols update) log (fun _ log' =>
      ∃ o, o * T.ss ≤ T.ss + (n + T.cs - 1) / T.cs - 1 ∧
        log'.length ≤ log.length + (n + T.cs - 1) / T.cs * (Spec.parts levels + 1) + o * (2 * D + 4) + D + 1) := by
  have hcs := T.cs_pos
  have h1 := hv.chunkSize
  have h2 := hv.spanSize
  have h4 := hv.encoding
  have hst : T.stride 1 = T.ss * T.cs := by rw [T.stride_succ 0, T.stride_zero]
  unfold Variable.append
  refine Sat.bind (Variable.tailSpans_mono H utf8 fuel v) ?_ (Variable.tailSpans_sat hf hv.toOpen) ?_
  · intro spans
    split
    · exact Mono.fail _
    · exact (Variable.appendLoop_mono H utf8 clog lg fuel _ _ _ _ _ v spans update).bind
        fun x => Variable.saveSpans_mono H utf8 _ _
  rintro _ _ - ⟨rfl, leaf, rest, a, rfl, c1, c2, c3, c4, c5⟩
  have htail := hv.tail
  rw [if_neg (by omega), h1]
  have hle := c1.le
  rw [Nat.zero_add, hst] at hle
  refine Sat.bind (Q := fun x log' => LoopEnd H T v (A + n) x log' ∧
      ∃ o, o * T.ss ≤ T.ss + (n + T.cs - 1) / T.cs - 1 ∧
        log'.length ≤ log.length + (n + T.cs - 1) / T.cs * (Spec.parts levels + 1) + o * (2 * D + 4))
    (Variable.appendLoop_mono H utf8 clog lg fuel _ _ _ _ _ v _ update)
    (fun x => Variable.saveSpans_mono H utf8 _ _) ?_ ?_
  · rw [List.range_eq_range']
    cases update with
    | false =>
      simp only [Bool.false_eq_true, if_false] at hu
      have hdm := Nat.div_add_mod tl T.cs
      rw [Nat.mul_comm] at hdm
      refine (appendLoop_adds hf hb hB hD _ 0 log v leaf rest a tl (tl / T.cs) (Or.inl fun j => ?_) h1 h2 hl h4 c1
        c2.chain c4 (by omega) ?_ (fun _ => ?_) c5 (fun h => htail (by omega))).mono ?_
      · rw [Nat.zero_add]; exact count_lt hcs n j
      · intro h0
        by_contra hc
        have := (count_lt hcs n 0).2 (by omega)
        omega
      · omega
      · rintro x log' ⟨g1, o, g2, g3⟩
        have : tl / T.cs ≤ T.ss := Nat.le_of_mul_le_mul_right (Nat.le_trans (Nat.div_mul_le_self _ _) hle) hcs
        exact ⟨g1, o, by omega, g3⟩
    | true =>
      simp only [if_true] at hu
      obtain ⟨u1, u2, u3⟩ := hu
      have hc0 := (count_lt hcs n 0).2 (by omega)
      have hcount : ∀ j, j < (n + T.cs - 1) / T.cs ↔ j * T.cs < n := count_lt hcs n
      obtain ⟨r, hr⟩ : ∃ r, (n + T.cs - 1) / T.cs = r + 1 := ⟨(n + T.cs - 1) / T.cs - 1, by omega⟩
      rw [hr] at hcount ⊢
      rw [List.range'_succ, List.map_cons]
      have hdm := Nat.div_add_mod tl T.cs
      have hmlt := Nat.mod_lt tl (show 0 < T.cs by omega)
      rw [Nat.mul_comm] at hdm
      generalize hp : tl % T.cs = p at *
      generalize hqd : tl / T.cs = q at *
      have htl : tl < T.stride 1 := by
        rw [hst]
        rcases Nat.lt_or_ge tl (T.ss * T.cs) with h | h
        · exact h
        · have h8 : tl = T.ss * T.cs := by omega
          rw [h8, Nat.mul_mod_left] at hp
          omega
      have hqs : q < T.ss := by
        rw [hst] at htl
        exact Nat.lt_of_mul_lt_mul_right (a := T.cs) (by omega)
      unfold Variable.appendLoop
      refine Sat.bind (Mono.buildChunk H clog lg _ _ _ _ _) ?_ (Sat.and_post (by
        rw [h1, hl]; exact hb 0 log (by omega)) fun _ _ e _ => Prog.buildChunk_adds _ _ e) ?_
      · intro chunk
        exact (Variable.openIfFull_mono H utf8 fuel v _ _ leaf rest).bind fun x =>
          (Span.addChunk_mono _ _ _).bind fun sp => Variable.appendLoop_mono H utf8 clog lg _ _ _ _ _ _ _ _ _
      rintro chunk log1 hs1 ⟨hK, k1, hk1, hk1'⟩
      rw [hl] at hk1'
      refine Sat.bind (Variable.openIfFull_mono H utf8 fuel v _ _ leaf rest)
        (fun x => (Span.addChunk_mono _ _ _).bind fun sp =>
          Variable.appendLoop_mono H utf8 clog lg _ _ _ _ _ _ _ _ _)
        (Sat.and_post (Variable.openIfFull_sat hf h1 h2 h4 (c1.mono hs1) (c2.chain.mono hs1) c4 c5 (by omega))
          fun _ _ e hnc => Variable.openIfFull_adds (D := D) hf h1 h2 h4 (c1.mono hs1) (c2.chain.mono hs1) c4 c5
            (by omega) (by omega) e hnc) ?_
      rintro ⟨v2, sp2, rest2⟩ log2 hs2 ⟨⟨a2, n2, ⟨cid2, rfl⟩, e1, e2, e3, e4, e5, e6, e7, e8⟩, hk2⟩
      simp only at e1 e2 e3
      rw [if_neg (by omega)] at hk2
      have hn2 := e6 htl
      subst hn2
      have ha2 : a2 = a := by omega
      subst ha2
      rw [← hdm] at e1
      refine Sat.bind (Q := fun sp' log' => (log2 ⊆ log' ∧ Tree H T log' 0 sp' a2
          (q * T.cs + min T.cs (n - 0 * T.cs)) (q * T.cs + min T.cs (n - 0 * T.cs))) ∧
          ∃ k, log'.length ≤ log2.length + k ∧ k = 1)
        (Span.addChunk_mono _ _ _)
        (fun sp => Variable.appendLoop_mono H utf8 clog lg _ _ _ _ _ _ _ _ _)
        (Sat.and_post ?_ fun _ _ e _ => Span.addChunk_adds _ _ _ _ _ e) ?_
      · refine Span.update_chunk e1 (by omega) hmlt ?_ (by omega) (by omega) fun sp' log' b1 b2 => ⟨b1, b2⟩
        have := T.mono hs2 hK
        rwa [show A + 0 * T.cs = a2 + q * T.cs by omega] at this
      · rintro sp' log3 hs3 ⟨⟨-, ht3⟩, _, hk3, rfl⟩
        refine (appendLoop_adds hf hb hB hD r 1 log3 { v with cid := cid2 } sp' rest2 a2 _ (q + 1) (Or.inl ?_) h1 h2
          hl h4 ht3 (e2.mono hs3) e3 (by omega) ?_ ?_ e8 (fun _ => by omega)).mono ?_
        · intro j
          rw [← hcount j]
          omega
        · intro hr0
          have := hcount 1
          have h9 : ¬ 1 < r + 1 := by omega
          have h10 : ¬ 1 * T.cs < n := fun h => h9 (this.2 h)
          omega
        · intro hr0
          have := (hcount 1).1 (by omega)
          rw [Nat.succ_mul]
          omega
        · rintro x log4 ⟨⟨spx, restx, ax, nx, b1, b2, b3, b4, b5, ⟨cid, b6⟩, b7⟩, o, ho, hlen⟩
          refine ⟨⟨spx, restx, ax, nx, b1, b2, b3, b4, b5, ⟨cid, b6⟩, b7⟩, o, by omega, ?_⟩
          rw [Nat.succ_mul]
          omega
  · rintro x log1 hs1 ⟨⟨sp', rest', a', n', e1, e2, e3, e4, e5, ⟨cid, e6⟩, e7, e8⟩, o, ho, hlen⟩
    rw [e1, e6]
    refine (Sat.and_post (Variable.saveSpans_sat (v := { v with cid := cid }) h1 h2 h4 e2 e3 e4 e7 (by omega))
      fun _ _ e _ => Variable.saveSpans_adds _ _ _ _ e).mono ?_
    rintro v' log2 ⟨-, k, hk, rfl⟩
    have := e7.le (D := D) (by omega)
    refine ⟨o, ho, ?_⟩
    simp only [List.length_cons] at hk
    omega

theorem VarTheory.cs_dvd (T : VarTheory) (i : Nat) : T.cs ∣ T.stride i := by
  induction i with
  | zero => rw [T.stride_zero]
  | succ i ih => rw [T.stride_succ]; exact Nat.dvd_mul_left_of_dvd ih _

/-- The last chunk of a span is as full as it would be if all chunks were in one span. -/
theorem Tree.tail_mod {log : Saved} {i : Nat} {sp : Span} {a n tl : Nat} (h : Tree H T log i sp a n tl) :
    tl % T.cs = n % T.cs := by
  induction i generalizing sp a n tl with
  | zero => rw [h.2.2.1]
  | succ i ih =>
    obtain ⟨-, -, m, n', -, -, rfl, -, cid, c, -, -, hc⟩ := h
    obtain ⟨x, hx⟩ := T.cs_dvd (i + 1)
    rw [ih hc, hx, Nat.mul_left_comm, Nat.mul_add_mod]

theorem VarInv.tail_mod {log : Saved} {v : Variable} {N tl : Nat} (h : VarInv H T log v N tl) :
    tl % T.cs = N % T.cs := by
  obtain ⟨-, -, -, i, root, -, h4, -⟩ := h
  exact h4.tail_mod

/-- How many objects an append of an array to a variable saves. -/
theorem Variable.appendArray_adds {log : Saved} {v : Variable} {levels : List Nat} {data : NdArray}
    {N tl n fuel D : Nat} {fill : Fill} (hf : 32 ≤ fuel)
    (hv : VarInv H T log v N tl) (hl : v.k2Levels = levels) (hB : N + n ≤ T.B) (hD : N + n ≤ T.stride D)
    (hb : ∀ b A m, ChunksOk True H clog lg T levels b A m) :
    Sat True H (v.appendArray H utf8 clog lg fuel fill data n T.rows T.cols) log (fun _ log' =>
      ∃ o, o * T.ss ≤ T.ss + (N % T.cs + n + T.cs - 1) / T.cs - 1 ∧
        log'.length ≤ log.length + (N % T.cs + n + T.cs - 1) / T.cs * (Spec.parts levels + 1) +
          o * (2 * D + 4) + D + 1) := by
  have hmod := hv.tail_mod
  unfold Variable.appendArray
  refine Sat.bind (Variable.tailData_mono H utf8 fuel v) ?_ (Variable.tailData_sat hf hv) ?_
  · intro tail
    cases tail with
    | none => exact Variable.append_mono H utf8 clog lg fuel v _ n _ _ false
    | some tail =>
      refine (Mono.ofOption _).bind fun s => Mono.bind (fun _ => List.Subset.refl _) fun st => ?_
      cases (fill tail st).2 with
      | some f => exact Mono.fail _
      | none =>
        simp only
        split
        · exact Mono.fail _
        · exact Variable.append_mono H utf8 clog lg fuel v _ _ _ _ true
  rintro o _ - ⟨rfl, ho⟩
  split at ho
  · subst ho
    rename_i h
    rw [← hmod, h, Nat.zero_add]
    exact Variable.append_adds hf hv (by omega) hl (hb _ _ _) hB hD (by omega) (by simp [h])
  · rename_i h
    obtain ⟨m, cid, rfl, hk, hK, hle⟩ := ho
    simp only
    refine Sat.bind (Q := fun x log' => (tl % T.cs, T.rows, T.cols) = x ∧ log = log') (Mono.ofOption _) ?_
      (Sat.ofOption (T.shape hK) ⟨rfl, rfl⟩) ?_
    · intro s
      refine Mono.bind (fun _ => List.Subset.refl _) fun st => ?_
      cases (fill m st).2 with
      | some f => exact Mono.fail _
      | none =>
        simp only
        split
        · exact Mono.fail _
        · exact Variable.append_mono H utf8 clog lg fuel v _ _ _ _ true
    rintro _ _ - ⟨rfl, rfl⟩
    refine Sat.bind (Q := fun x log' => log.load H = x ∧ log = log') (fun _ => List.Subset.refl _) ?_
      (fun _ => .inl ⟨_, _, rfl, rfl, rfl⟩) ?_
    · intro st
      cases (fill m st).2 with
      | some f => exact Mono.fail _
      | none =>
        simp only
        split
        · exact Mono.fail _
        · exact Variable.append_mono H utf8 clog lg fuel v _ _ _ _ true
    rintro _ _ - ⟨rfl, rfl⟩
    cases e3 : (fill m (log.load H)).2 with
    | some f => exact fun _ => .inr ⟨trivial, _, _, rfl⟩
    | none =>
    simp only
    rw [if_neg (by simp), ← hmod]
    refine Variable.append_adds (A := N - tl % T.cs) hf hv (by omega) hl (hb _ _ _) (by omega) (by omega) (by omega) ?_
    simp only [if_true]
    exact ⟨by omega, h, by omega⟩

/-- How many objects an append of any shape saves. -/
theorem HistInv.append_adds {levels : List Nat} {round : Option Nat} (hf : 32 ≤ fuel)
    {name : List Byte} {d : Dataset} {log : Saved} {M D : Nat} {fill : Fill} {data : NdArray} {n : Nat}
    (hi : HistInv H utf8 T levels round name (d, log) M) (hB : M + n ≤ T.B) (hD : M + n ≤ T.stride D)
    (hb : ∀ b A m, ChunksOk True H clog lg T levels b A m) (rows cols : Nat) :
    Sat True H (Dataset.append H utf8 clog lg fuel fill d name data n rows cols) log (fun _ log' =>
      ∃ o, o * T.ss ≤ T.ss + (M % T.cs + n + T.cs - 1) / T.cs - 1 ∧
        log'.length ≤ log.length + (M % T.cs + n + T.cs - 1) / T.cs * (Spec.parts levels + 1) +
          o * (2 * D + 4) + D + 1) := by
  obtain ⟨-, -, -, v, tl, h1, h2, h0, h3⟩ := hi
  have h := Variable.appendArray_adds (utf8 := utf8) (data := data) (fill := fill) hf h3 h2 hB hD hb
  unfold Dataset.append
  change d.findVariable name = some v at h1
  rw [h1]
  refine Sat.bind (Q := fun _ log' => ∃ o, o * T.ss ≤ T.ss + (M % T.cs + n + T.cs - 1) / T.cs - 1 ∧
        log'.length ≤ log.length + (M % T.cs + n + T.cs - 1) / T.cs * (Spec.parts levels + 1) +
          o * (2 * D + 4) + D + 1)
    (Variable.appendArray_mono H utf8 clog lg fuel fill v data n rows cols) (fun _ => Mono.pure _) ?_ ?_
  · by_cases hs : rows = T.rows ∧ cols = T.cols
    · rw [hs.1, hs.2]
      exact h
    have hne : rows ≠ T.rows ∨ cols ≠ T.cols := by
      by_contra h
      simp only [not_or, not_not] at h
      exact hs h
    intro hnc
    rcases Variable.appendArray_other (utf8 := utf8) (clog := clog) (lg := lg) (data := data) (n := n)
      (fill := fill) hf h3 (by omega) hne hnc with ⟨a, log', e, rfl, heq⟩ | h'
    · rw [heq] at hnc ⊢
      exact h hnc
    · exact .inr h'
  · rintro _ log' - h
    exact Sat.pure h

end

end Verif
