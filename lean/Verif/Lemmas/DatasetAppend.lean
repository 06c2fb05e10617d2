import Verif.Lemmas.DatasetTree

/-! Appending to a variable. -/
namespace Verif

open Prog hiding pure bind

theorem Prog.Sat.nc {w : Prop} {H : Hash} {α : Type} {m : Prog α} {log : Saved} {Q : α → Saved → Prop}
    (hm : Mono m) (h : log.NoCollision H → Sat w H m log Q) : Sat w H m log Q := fun hnc =>
  h (Prog.NoCollision.mono (hm log) hnc) hnc

section
variable {w : Prop} {H : Hash} {utf8 : List Byte → Bool} {T : VarTheory} {clog : Nat → Nat} {lg : Rat → Int}

theorem Span.addChunk_mono (update : Bool) (sp : Span) (m : MMStruct3) :
    Mono (Span.addChunk H utf8 update sp m) := by
  unfold Span.addChunk
  split
  · exact Span.update_mono H utf8 _ _
  · exact Span.append_mono H utf8 _ _

/-- The chunks of a buffer that begins at instant `A` get built, or, if `w`, perhaps not. -/
def ChunksOk (w : Prop) (H : Hash) (clog : Nat → Nat) (lg : Rat → Int) (T : VarTheory) (levels : List Nat)
    (b : MMBuffer3) (A n : Nat) : Prop :=
  ∀ s log, s * T.cs < n → Sat w H (Prog.buildChunk H clog lg levels (b.slice (s * T.cs) 0 0)
    (min (s * T.cs + T.cs) n - s * T.cs) T.rows T.cols) log
    (fun m log' => T.K log' m (A + s * T.cs) (min T.cs (n - s * T.cs)))

/-- Where the loop over the chunks ends. -/
def LoopEnd (H : Hash) (T : VarTheory) (v : Variable) (N : Nat) (x : Variable × List Span)
    (log : Saved) : Prop :=
  ∃ sp rest a n, x.2 = sp :: rest ∧ Tree H T log 0 sp a n n ∧ Chain H T log 0 rest a ∧
    T.stride rest.length ≤ T.B ∧ a + n = N ∧ (∃ cid, x.1 = { v with cid := cid }) ∧
    T.Tall rest.length a ∧ (1 ≤ N → 1 ≤ n)

theorem appendLoop_sat {levels : List Nat} {b : MMBuffer3} {A n fuel : Nat} (hf : 32 ≤ fuel)
    (hb : ChunksOk w H clog lg T levels b A n) (hB : A + n ≤ T.B) :
    ∀ (r s : Nat) (log : Saved) (v : Variable) (sp : Span) (rest : List Span) (a nl : Nat),
    (∀ j, j < s + r ↔ j * T.cs < n) ∨ r = 0 →
    v.chunkSize = T.cs → v.spanSize = T.ss → v.k2Levels = levels → v.encoding = T.enc →
    Tree H T log 0 sp a nl nl → Chain H T log 0 rest a → T.stride rest.length ≤ T.B →
    a + nl = A + min (s * T.cs) n → (r = 0 → n ≤ s * T.cs) → (r ≠ 0 → ∃ q, nl = q * T.cs) →
    T.Tall rest.length a → (1 ≤ a + nl → 1 ≤ nl) →
    Sat w H (Variable.appendLoop H utf8 clog lg fuel b n T.rows T.cols
      ((List.range' s r).map (· * T.cs)) v (sp :: rest) false) log (LoopEnd H T v (A + n)) := by
  intro r
  induction r with
  | zero =>
    intro s log v sp rest a nl _ h1 h2 _ _ ht hc hs ha hr hq hta hnl
    clear hq
    have := hr rfl
    exact Sat.pure ⟨sp, rest, a, nl, rfl, ht, hc, hs, by omega, ⟨v.cid, rfl⟩, hta, fun h => hnl (by omega)⟩
  | succ r ih =>
    intro s log v sp rest a nl hcount h1 h2 h3 h4 ht hc hs ha _ hq hta hnl
    have hcount : ∀ j, j < s + (r + 1) ↔ j * T.cs < n := by
      rcases hcount with h | h
      · exact h
      · omega
    obtain ⟨q, rfl⟩ := hq (Nat.succ_ne_zero r)
    clear hq
    have hsn : s * T.cs < n := (hcount s).1 (by omega)
    have hsucc : (s + 1) * T.cs = s * T.cs + T.cs := Nat.succ_mul s T.cs
    have hcs := T.cs_pos
    rw [List.range'_succ, List.map_cons]
    unfold Variable.appendLoop
    refine Sat.bind (Mono.buildChunk H clog lg _ _ _ _ _) ?_ (by
      rw [h1, h3]; exact hb s log hsn) ?_
    · intro chunk
      exact (Variable.openIfFull_mono H utf8 fuel v _ _ sp rest).bind fun x =>
        (Span.addChunk_mono _ _ _).bind fun sp => Variable.appendLoop_mono H utf8 clog lg _ _ _ _ _ _ _ _ _
    intro chunk log1 hs1 hK
    refine Sat.bind (Variable.openIfFull_mono H utf8 fuel v _ _ sp rest)
      (fun x => (Span.addChunk_mono _ _ _).bind fun sp =>
        Variable.appendLoop_mono H utf8 clog lg _ _ _ _ _ _ _ _ _)
      (Variable.openIfFull_sat hf h1 h2 h4 (ht.mono hs1) (hc.mono hs1) hs hta (by omega)) ?_
    rintro ⟨v2, sp2, rest2⟩ log2 hs2 ⟨a2, n2, ⟨cid2, rfl⟩, e1, e2, e3, e4, e5, e6, e7, e8⟩
    simp only at e1 e2 e3
    have hst : T.stride 1 = T.ss * T.cs := by rw [T.stride_succ 0, T.stride_zero]
    obtain ⟨q2, rfl⟩ : ∃ q2, n2 = q2 * T.cs := by
      rcases Nat.lt_or_ge (q * T.cs) (T.stride 1) with h | h
      · exact ⟨q, e6 h⟩
      · have hle := ht.le
        rw [Nat.zero_add] at hle
        exact ⟨0, by rw [e7 (by omega), Nat.zero_mul]⟩
    have hq2 : q2 < T.ss := by
      rw [hst] at e5
      exact Nat.lt_of_mul_lt_mul_right e5
    have hmin : min T.cs (n - s * T.cs) ≤ T.cs := Nat.min_le_left _ _
    refine Sat.bind (Q := fun sp' log' => log2 ⊆ log' ∧ Tree H T log' 0 sp' a2
        (q2 * T.cs + min T.cs (n - s * T.cs)) (q2 * T.cs + min T.cs (n - s * T.cs)))
      (Span.addChunk_mono _ _ _)
      (fun sp => Variable.appendLoop_mono H utf8 clog lg _ _ _ _ _ _ _ _ _) ?_ ?_
    · refine Span.append_chunk e1 hq2 ?_ (by omega) hmin fun sp' log' b1 b2 => ⟨b1, b2⟩
      have := T.mono hs2 hK
      rwa [show A + s * T.cs = a2 + q2 * T.cs by omega] at this
    · rintro sp' log3 hs3 ⟨-, ht3⟩
      refine (ih (s + 1) log3 { v with cid := cid2 } sp' rest2 a2 _ ?_ h1 h2 h3 h4 ht3 (e2.mono hs3) e3
        (by omega) ?_ ?_ e8 (fun _ => by omega)).mono ?_
      · left
        intro j
        rw [← hcount j]
        omega
      · intro hr0
        have := hcount (s + 1)
        have h9 : ¬ s + 1 < s + (r + 1) := by omega
        have h10 : ¬ (s + 1) * T.cs < n := fun h => h9 (this.2 h)
        omega
      · intro hr0
        have := (hcount (s + 1)).1 (by omega)
        refine ⟨q2 + 1, ?_⟩
        rw [Nat.succ_mul]
        omega
      · rintro x log4 ⟨spx, restx, ax, nx, b1, b2, b3, b4, b5, ⟨cid, b6⟩, b7⟩
        exact ⟨spx, restx, ax, nx, b1, b2, b3, b4, b5, ⟨cid, b6⟩, b7⟩

theorem count_lt {cs : Nat} (h : 1 ≤ cs) (n j : Nat) : j < (n + cs - 1) / cs ↔ j * cs < n := by
  rw [← Nat.succ_le_iff, Nat.le_div_iff_mul_le (by omega), Nat.succ_mul]
  omega

/-- Appending chunks to a variable, or chunks of which the first takes the place of the last one,
which is not full. -/
theorem Variable.append_sat {log : Saved} {v : Variable} {levels : List Nat} {b : MMBuffer3}
    {N tl A n fuel : Nat} {update : Bool} (hf : 32 ≤ fuel)
    (hv : VarInv H T log v N tl) (hN : N ≤ T.B) (hl : v.k2Levels = levels)
    (hb : ChunksOk w H clog lg T levels b A n) (hB : A + n ≤ T.B)
    (hu : if update then A + tl % T.cs = N ∧ tl % T.cs ≠ 0 ∧ 1 ≤ n else A = N ∧ tl % T.cs = 0) :
    Sat w H (v.append H utf8 clog lg fuel b n T.rows T.cols update) log (fun v' log' =>
      (∃ tl', VarInv H T log' v' (A + n) tl') ∧ ∃ cid, v' = { v with cid := cid }) := by
  have hcs := T.cs_pos
  have h1 := hv.chunkSize
  have h2 := hv.spanSize
  have h4 := hv.encoding
  unfold Variable.append
  refine Sat.bind (Variable.tailSpans_mono H utf8 fuel v) ?_ (Variable.tailSpans_sat hf hv.toOpen) ?_
  · intro spans
    split
    · exact Mono.fail _
    · exact (Variable.appendLoop_mono H utf8 clog lg fuel _ _ _ _ _ v spans update).bind
        fun x => Variable.saveSpans_mono H utf8 _ _
  rintro _ _ - ⟨rfl, leaf, rest, a, rfl, c1, c2, c3, c4, c5⟩
  have htail := hv.tail
  rw [if_neg (by omega), h1]
  refine Sat.bind (Q := LoopEnd H T v (A + n)) (Variable.appendLoop_mono H utf8 clog lg fuel _ _ _ _ _ v _ update)
    (fun x => Variable.saveSpans_mono H utf8 _ _) ?_ ?_
  · rw [List.range_eq_range']
    cases update with
    | false =>
      simp only [Bool.false_eq_true, if_false] at hu
      refine appendLoop_sat hf hb hB _ 0 log v leaf rest a tl (Or.inl fun j => ?_) h1 h2 hl h4 c1 c2.chain c4
        (by omega) ?_ (fun _ => ⟨tl / T.cs, ?_⟩) c5 (fun h => htail (by omega))
      · rw [Nat.zero_add]; exact count_lt hcs n j
      · intro h0
        by_contra hc
        have := (count_lt hcs n 0).2 (by omega)
        omega
      · have := Nat.div_add_mod tl T.cs
        rw [Nat.mul_comm]
        omega
    | true =>
      simp only [if_true] at hu
      obtain ⟨u1, u2, u3⟩ := hu
      have hc0 := (count_lt hcs n 0).2 (by omega)
      have hcount : ∀ j, j < (n + T.cs - 1) / T.cs ↔ j * T.cs < n := count_lt hcs n
      obtain ⟨r, hr⟩ : ∃ r, (n + T.cs - 1) / T.cs = r + 1 := ⟨(n + T.cs - 1) / T.cs - 1, by omega⟩
      rw [hr] at hcount ⊢
      rw [List.range'_succ, List.map_cons]
      have hdm := Nat.div_add_mod tl T.cs
      have hmlt := Nat.mod_lt tl (show 0 < T.cs by omega)
      rw [Nat.mul_comm] at hdm
      generalize hp : tl % T.cs = p at *
      generalize hqd : tl / T.cs = q at *
      unfold Variable.appendLoop
      refine Sat.bind (Mono.buildChunk H clog lg _ _ _ _ _) ?_ (by
        rw [h1, hl]; exact hb 0 log (by omega)) ?_
      · intro chunk
        exact (Variable.openIfFull_mono H utf8 fuel v _ _ leaf rest).bind fun x =>
          (Span.addChunk_mono _ _ _).bind fun sp => Variable.appendLoop_mono H utf8 clog lg _ _ _ _ _ _ _ _ _
      intro chunk log1 hs1 hK
      have hst : T.stride 1 = T.ss * T.cs := by rw [T.stride_succ 0, T.stride_zero]
      refine Sat.bind (Variable.openIfFull_mono H utf8 fuel v _ _ leaf rest)
        (fun x => (Span.addChunk_mono _ _ _).bind fun sp =>
          Variable.appendLoop_mono H utf8 clog lg _ _ _ _ _ _ _ _ _)
        (Variable.openIfFull_sat hf h1 h2 h4 (c1.mono hs1) (c2.chain.mono hs1) c4 c5 ?_) ?_
      · omega
      rintro ⟨v2, sp2, rest2⟩ log2 hs2 ⟨a2, n2, ⟨cid2, rfl⟩, e1, e2, e3, e4, e5, e6, e7, e8⟩
      simp only at e1 e2 e3
      have htl : tl < T.stride 1 := by
        have hle := c1.le
        rw [Nat.zero_add, hst] at hle
        rw [hst]
        rcases Nat.lt_or_ge tl (T.ss * T.cs) with h | h
        · exact h
        · have h8 : tl = T.ss * T.cs := by omega
          rw [h8, Nat.mul_mod_left] at hp
          omega
      have hn2 := e6 htl
      subst hn2
      have ha2 : a2 = a := by omega
      subst ha2
      rw [← hdm] at e1
      refine Sat.bind (Q := fun sp' log' => log2 ⊆ log' ∧ Tree H T log' 0 sp' a2
          (q * T.cs + min T.cs (n - 0 * T.cs)) (q * T.cs + min T.cs (n - 0 * T.cs)))
        (Span.addChunk_mono _ _ _)
        (fun sp => Variable.appendLoop_mono H utf8 clog lg _ _ _ _ _ _ _ _ _) ?_ ?_
      · refine Span.update_chunk e1 (by omega) hmlt ?_ (by omega) (by omega) fun sp' log' b1 b2 => ⟨b1, b2⟩
        have := T.mono hs2 hK
        rwa [show A + 0 * T.cs = a2 + q * T.cs by omega] at this
      · rintro sp' log3 hs3 ⟨-, ht3⟩
        refine (appendLoop_sat hf hb hB r 1 log3 { v with cid := cid2 } sp' rest2 a2 _ (Or.inl ?_) h1 h2 hl h4
          ht3 (e2.mono hs3) e3 (by omega) ?_ ?_ e8 (fun _ => by omega)).mono ?_
        · intro j
          rw [← hcount j]
          omega
        · intro hr0
          have := hcount 1
          have h9 : ¬ 1 < r + 1 := by omega
          have h10 : ¬ 1 * T.cs < n := fun h => h9 (this.2 h)
          omega
        · intro hr0
          have := (hcount 1).1 (by omega)
          refine ⟨q + 1, ?_⟩
          rw [Nat.succ_mul]
          omega
        · rintro x log4 ⟨spx, restx, ax, nx, b1, b2, b3, b4, b5, ⟨cid, b6⟩, b7⟩
          exact ⟨spx, restx, ax, nx, b1, b2, b3, b4, b5, ⟨cid, b6⟩, b7⟩
  · rintro x log1 hs1 ⟨sp', rest', a', n', e1, e2, e3, e4, e5, ⟨cid, e6⟩, e7, e8⟩
    rw [e1, e6]
    refine (Variable.saveSpans_sat (v := { v with cid := cid }) h1 h2 h4 e2 e3 e4 e7 (by omega)).mono ?_
    rintro v' log2 ⟨g1, cid', rfl⟩
    rw [e5] at g1
    exact ⟨⟨_, g1.close e8⟩, cid', by rw [← h1]⟩

/-- What `tail_data` finds. -/
theorem Variable.tailData_sat {log : Saved} {v : Variable} {N tl fuel : Nat} (hf : 32 ≤ fuel)
    (hv : VarInv H T log v N tl) :
    Sat w H (v.tailData H utf8 fuel) log (fun o log' => log = log' ∧
      if tl % T.cs = 0 then o = none
      else ∃ m cid, o = some m ∧ Kept H log cid m ∧ T.K log m (N - tl % T.cs) (tl % T.cs) ∧
        tl % T.cs ≤ N) := by
  have hcs := T.cs_pos
  unfold Variable.tailData
  refine Sat.bind (Variable.tailSpans_mono H utf8 fuel v) ?_ (Variable.tailSpans_sat hf hv.toOpen) ?_
  · intro spans
    cases spans with
    | nil => exact Mono.fail _
    | cons l spans =>
      simp only
      cases l.spans.getLast? with
      | none => exact Mono.pure _
      | some cid =>
        refine (Mono.getStruct H utf8 cid).bind fun m => (Mono.ofOption _).bind fun s => ?_
        split
        · exact Mono.pure _
        · exact Mono.pure _
  rintro _ _ - ⟨rfl, leaf, rest, a, rfl, c1, c2, c3, c4, -⟩
  simp only
  obtain ⟨-, -, -, -, hlen, hch⟩ := c1
  have hdm := Nat.div_add_mod tl T.cs
  have hmlt := Nat.mod_lt tl (show 0 < T.cs by omega)
  rw [Nat.mul_comm] at hdm
  generalize hp : tl % T.cs = p at *
  generalize hqd : tl / T.cs = q at *
  cases hlast : leaf.spans.getLast? with
  | none =>
    rw [List.getLast?_eq_none_iff] at hlast
    have h0 : leaf.spans.length = 0 := by rw [hlast]; rfl
    have := (hlen 0).2
    refine Sat.pure ⟨rfl, ?_⟩
    rw [if_pos (by omega)]
  | some cid =>
    rw [List.getLast?_eq_getElem?] at hlast
    have hlt := (List.getElem?_eq_some_iff.1 hlast).1
    have hj := (hlen _).1 hlt
    obtain ⟨cid', m, b1, b2, b3⟩ := hch _ hj
    rw [hlast] at b1
    cases b1
    have hqlen : (leaf.spans.length - 1) * T.cs + min T.cs (tl - (leaf.spans.length - 1) * T.cs) = tl := by
      have h3 := hlen leaf.spans.length
      have h4 : ¬ leaf.spans.length * T.cs < tl := fun h => by have := h3.2 h; omega
      have h5 : leaf.spans.length * T.cs = (leaf.spans.length - 1) * T.cs + T.cs := by
        rw [← Nat.succ_mul]
        congr 1
        omega
      omega
    generalize hc : min T.cs (tl - (leaf.spans.length - 1) * T.cs) = c at *
    have hcle : c ≤ T.cs := by omega
    have hcp : if p = 0 then c = T.cs else c = p := by
      have h6 : tl % T.cs = c % T.cs := by rw [← hqlen, Nat.add_comm, Nat.add_mul_mod_self_right]
      rw [hp] at h6
      rcases Nat.lt_or_ge c T.cs with h | h
      · rw [Nat.mod_eq_of_lt h] at h6
        rw [if_neg (by omega)]
        omega
      · have : c = T.cs := by omega
        rw [this, Nat.mod_self] at h6
        rw [if_pos h6]
        exact this
    refine Sat.bind (Q := fun x log' => m = x ∧ log = log') (Mono.getStruct H utf8 cid) ?_
      (Sat.getStruct b2 ⟨rfl, rfl⟩) ?_
    · intro m
      refine (Mono.ofOption _).bind fun s => ?_
      split
      · exact Mono.pure _
      · exact Mono.pure _
    rintro _ _ - ⟨rfl, rfl⟩
    refine Sat.bind (Q := fun x log' => (c, T.rows, T.cols) = x ∧ log = log') (Mono.ofOption _) ?_
      (Sat.ofOption (T.shape b3) ⟨rfl, rfl⟩) ?_
    · intro s
      split
      · exact Mono.pure _
      · exact Mono.pure _
    rintro _ _ - ⟨rfl, rfl⟩
    simp only
    rw [hv.chunkSize]
    by_cases h0 : p = 0
    · rw [if_pos h0] at hcp
      rw [if_neg (by omega)]
      refine Sat.pure ⟨rfl, ?_⟩
      rw [if_pos h0]
    · rw [if_neg h0] at hcp
      rw [if_pos (by omega)]
      refine Sat.pure ⟨rfl, ?_⟩
      rw [if_neg h0]
      subst hcp
      refine ⟨m, cid, rfl, b2, ?_, by omega⟩
      rwa [show N - c = a + (leaf.spans.length - 1) * T.cs by omega]

/-- Appending an array to a variable. -/
theorem Variable.appendArray_sat {log : Saved} {v : Variable} {levels : List Nat} {data : NdArray}
    {N tl n fuel : Nat} {fill : Fill} (hf : 32 ≤ fuel)
    (hv : VarInv H T log v N tl) (hl : v.k2Levels = levels) (hB : N + n ≤ T.B)
    (h0 : ChunksOk w H clog lg T levels (data.buffer v.round) N n)
    (h1 : ∀ m a p, log.NoCollision H → T.K log m a p → a + p = N → 1 ≤ p → p < T.cs →
      ((fill m (log.load H)).2 = none ∨ w) ∧
      ChunksOk w H clog lg T levels ((data.prepend p (fill m (log.load H)).1).buffer v.round) a (p + n)) :
    Sat w H (v.appendArray H utf8 clog lg fuel fill data n T.rows T.cols) log (fun v' log' =>
      (∃ tl', VarInv H T log' v' (N + n) tl') ∧ ∃ cid, v' = { v with cid := cid }) := by
  refine Sat.nc (Variable.appendArray_mono H utf8 clog lg fuel fill v data n _ _) fun hnc => ?_
  unfold Variable.appendArray
  refine Sat.bind (Variable.tailData_mono H utf8 fuel v) ?_ (Variable.tailData_sat hf hv) ?_
  · intro tail
    cases tail with
    | none => exact Variable.append_mono H utf8 clog lg fuel v _ n _ _ false
    | some tail =>
      refine (Mono.ofOption _).bind fun s => Mono.bind (fun _ => List.Subset.refl _) fun st => ?_
      cases (fill tail st).2 with
      | some f => exact Mono.fail _
      | none =>
        simp only
        split
        · exact Mono.fail _
        · exact Variable.append_mono H utf8 clog lg fuel v _ _ _ _ true
  rintro o _ - ⟨rfl, ho⟩
  split at ho
  · subst ho
    rename_i h
    exact Variable.append_sat hf hv (by omega) hl h0 hB (by simp [h])
  · rename_i h
    obtain ⟨m, cid, rfl, hk, hK, hle⟩ := ho
    obtain ⟨e1, e2⟩ := h1 m (N - tl % T.cs) (tl % T.cs) hnc hK (by omega) (by omega)
      (Nat.mod_lt _ T.cs_pos)
    simp only
    refine Sat.bind (Q := fun x log' => (tl % T.cs, T.rows, T.cols) = x ∧ log = log') (Mono.ofOption _) ?_
      (Sat.ofOption (T.shape hK) ⟨rfl, rfl⟩) ?_
    · intro s
      refine Mono.bind (fun _ => List.Subset.refl _) fun st => ?_
      cases (fill m st).2 with
      | some f => exact Mono.fail _
      | none =>
        simp only
        split
        · exact Mono.fail _
        · exact Variable.append_mono H utf8 clog lg fuel v _ _ _ _ true
    rintro _ _ - ⟨rfl, rfl⟩
    refine Sat.bind (Q := fun x log' => log.load H = x ∧ log = log') (fun _ => List.Subset.refl _) ?_
      (fun _ => .inl ⟨_, _, rfl, rfl, rfl⟩) ?_
    · intro st
      cases (fill m st).2 with
      | some f => exact Mono.fail _
      | none =>
        simp only
        split
        · exact Mono.fail _
        · exact Variable.append_mono H utf8 clog lg fuel v _ _ _ _ true
    rintro _ _ - ⟨rfl, rfl⟩
    cases e3 : (fill m (log.load H)).2 with
    | some f => exact fun _ => .inr ⟨e1.resolve_left fun h => (nomatch e3 ▸ h), _, _, rfl⟩
    | none =>
    simp only
    rw [if_neg (by simp)]
    refine (Variable.append_sat hf hv (by omega) hl e2 (by omega) ?_).mono ?_
    · simp only [if_true]
      exact ⟨by omega, h, by omega⟩
    · intro v' log' h
      rwa [show N - tl % T.cs + (tl % T.cs + n) = N + n by omega] at h

end

end Verif
