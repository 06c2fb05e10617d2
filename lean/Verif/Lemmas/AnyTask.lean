import Verif.Lemmas.TaskAppend
import Verif.Lemmas.AnySettled

/-! Appends of anything that run at the same time as other operations: if they end well, then they do alone. -/
namespace Verif

open Prog hiding pure bind

section
variable {α β : Type}

/-- If it ends well, then with a result that is `Q`, whatever is loaded. -/
def Task.Only (Q : α → Prop) : Task α → Prop
  | .done r => ∀ a, r = .ok a → Q a
  | .load _ k => ∀ x, (k x).Only Q
  | .save _ k => ∀ cid, (k cid).Only Q
  | .saveAll _ t => t.Only Q
  | .fill _ k => ∀ calls, (k calls).Only Q
  | .filling _ _ k => ∀ calls, (k calls).Only Q

theorem Task.Only.any (t : Task α) : t.Only fun _ => True := by
  induction t with
  | done r => exact fun _ _ => trivial
  | load cid k ih => exact ih
  | save b k ih => exact ih
  | saveAll bs t ih => exact ih
  | fill m k ih => exact ih
  | filling since m k ih => exact ih

theorem Task.Only.fail {Q : α → Prop} (f : Fail) : (Task.fail f : Task α).Only Q := fun _ h => (nomatch h)

theorem Task.Only.pure {Q : α → Prop} {a : α} (h : Q a) : (Pure.pure a : Task α).Only Q := by
  intro b hb
  cases hb
  exact h

theorem Task.Only.bind {P : β → Prop} {Q : α → Prop} {t : Task β} {f : β → Task α} (h : t.Only P)
    (hf : ∀ b, P b → (f b).Only Q) : (t >>= f).Only Q := by
  change (t.bind f).Only Q
  induction t with
  | done r =>
    cases r with
    | error e => exact fun _ h => (nomatch h)
    | ok b => exact hf b (h b rfl)
  | load cid k ih => exact fun x => ih x (h x)
  | save b k ih => exact fun x => ih x (h x)
  | saveAll bs t ih => exact ih h
  | fill m k ih => exact fun x => ih x (h x)
  | filling since m k ih => exact fun x => ih x (h x)

end

section
variable (H : Hash) (utf8 : List Byte → Bool) (readFuel : Nat)

/-- Whatever others save meanwhile, if the operation ends well, its result is `Q`. -/
def Task.Keeps {α : Type} : Task α → (α → Saved → Prop) → Saved → Prop
  | .done r, Q, log => log.NoCollision H → ∀ a, r = .ok a → Q a log
  | .load cid k, Q, log => ∀ log', log ⊆ log' → log'.NoCollision H → ∀ x,
    (log'.load H).retrieve utf8 cid = .ok x → (k x).Keeps Q log'
  | .save b k, Q, log => (k (H.cidOf b)).Keeps Q (b :: log)
  | .saveAll bs t, Q, log => t.Keeps Q (bs ++ log)
  | .fill m k, Q, log => log.NoCollision H → ∃ n rows cols, m.shape = some (n, rows, cols) ∧
    ∀ log', log ⊆ log' → log'.NoCollision H → ∀ calls,
    m.fillWindow utf8 (log'.load H) readFuel m.fractionalBits (Cube.new 0 n 0 rows 0 cols) calls none →
    (k calls).Keeps Q log'
  | .filling since m k, Q, log => log.NoCollision H → since ⊆ log ∧ ∃ n rows cols,
    m.shape = some (n, rows, cols) ∧ ∀ l log', since ⊆ l → l ⊆ log' → log ⊆ log' → log'.NoCollision H → ∀ calls,
    m.fillWindow utf8 (l.load H) readFuel m.fractionalBits (Cube.new 0 n 0 rows 0 cols) calls none →
    (k calls).Keeps Q log'

end

section
variable {H : Hash} {utf8 : List Byte → Bool} {readFuel : Nat} {faults : Bool} {α β : Type}
  {Q : α → Saved → Prop}

theorem Task.Keeps.mono (hQ : Lasting Q) {t : Task α} : ∀ {log log' : Saved}, log ⊆ log' →
    t.Keeps H utf8 readFuel Q log → t.Keeps H utf8 readFuel Q log' := by
  induction t with
  | done r => intro log log' hs h hnc a ha; exact hQ _ _ _ hs (h (NoCollision.mono hs hnc) a ha)
  | load cid k ih => intro log log' hs h l hl; exact h l (List.Subset.trans hs hl)
  | save b k ih => intro log log' hs h; exact ih _ (List.cons_subset_cons b hs) h
  | saveAll bs t ih =>
    intro log log' hs h
    refine ih ?_ h
    intro x hx
    rcases List.mem_append.1 hx with hx | hx
    · exact List.mem_append_left _ hx
    · exact List.mem_append_right _ (hs hx)
  | fill m k ih =>
    intro log log' hs h hnc
    obtain ⟨n, rows, cols, h1, h2⟩ := h (NoCollision.mono hs hnc)
    exact ⟨n, rows, cols, h1, fun l hl => h2 l (List.Subset.trans hs hl)⟩
  | filling since m k ih =>
    intro log log' hs h hnc
    obtain ⟨h0, n, rows, cols, h1, h2⟩ := h (NoCollision.mono hs hnc)
    exact ⟨List.Subset.trans h0 hs, n, rows, cols, h1, fun l l' h3 h4 h5 => h2 l l' h3 h4 (List.Subset.trans hs h5)⟩

theorem Task.Ends.keeps (hQ : Lasting Q) {t : Task α} : ∀ {log : Saved}, t.Ends H utf8 readFuel Q log →
    t.Keeps H utf8 readFuel Q log := by
  induction t with
  | done r =>
    intro log h hnc a ha
    obtain ⟨b, hb, h2⟩ := h hnc
    rw [ha] at hb
    cases hb
    exact h2
  | load cid k ih =>
    intro log h log' hs hnc x hx
    obtain ⟨b, h1, h2, y, rest, h3, h4⟩ := h (NoCollision.mono hs hnc)
    rw [Task.Ends.retrieve hnc (hs h1) h2 h3] at hx
    cases hx
    exact (ih _ h4).mono hQ hs
  | save b k ih => intro log h; exact ih _ h
  | saveAll bs t ih => intro log h; exact ih h
  | fill m k ih =>
    intro log h hnc
    obtain ⟨n, rows, cols, h1, h2⟩ := h hnc
    exact ⟨n, rows, cols, h1, fun log' hs hnc' calls hw => ih _ (h2 log' hs hnc' _ _ hw).2⟩
  | filling since m k ih =>
    intro log h hnc
    obtain ⟨h0, n, rows, cols, h1, h2⟩ := h hnc
    exact ⟨h0, n, rows, cols, h1, fun l l' h3 h4 h5 hnc' calls hw => ih _ (h2 l l' h3 h4 h5 hnc' _ _ hw).2⟩

theorem Task.Only.keeps {P : α → Prop} {t : Task α} (hP : ∀ a log, P a → Q a log) : ∀ {log : Saved}, t.Only P →
    t.Fillless → t.Keeps H utf8 readFuel Q log := by
  induction t with
  | done r => intro log h _ _ a ha; exact hP _ _ (h a ha)
  | load cid k ih => intro log h hf log' _ _ x _; exact ih x (h x) (hf x)
  | save b k ih => intro log h hf; exact ih _ (h _) (hf _)
  | saveAll bs t ih => intro log h hf; exact ih h hf
  | fill m k ih => intro log h hf; exact hf.elim
  | filling since m k ih => intro log h hf; exact hf.elim

theorem Task.Keeps.absurd {t : Task α} : ∀ {log : Saved}, ¬ log.NoCollision H →
    t.Keeps H utf8 readFuel Q log := by
  induction t with
  | done r => intro log h hnc; exact (h hnc).elim
  | load cid k ih => intro log h l hl hnc; exact (h (NoCollision.mono hl hnc)).elim
  | save b k ih =>
    intro log h
    exact ih _ fun hnc => h (NoCollision.mono (List.subset_cons_self ..) hnc)
  | saveAll bs t ih =>
    intro log h
    exact ih fun hnc => h (NoCollision.mono (List.subset_append_right ..) hnc)
  | fill m k ih => intro log h hnc; exact (h hnc).elim
  | filling since m k ih => intro log h hnc; exact (h hnc).elim

theorem Task.Keeps.bind {P : β → Saved → Prop} {t : Task β} {f : β → Task α} : ∀ {log : Saved},
    t.Keeps H utf8 readFuel P log →
    (∀ b log', log ⊆ log' → log'.NoCollision H → P b log' → (f b).Keeps H utf8 readFuel Q log') →
    (t >>= f).Keeps H utf8 readFuel Q log := by
  change ∀ {log : Saved}, _ → _ → (t.bind f).Keeps H utf8 readFuel Q log
  induction t with
  | done r =>
    intro log h hf
    by_cases hnc : log.NoCollision H
    · cases r with
      | error e => exact fun _ _ h => (nomatch h)
      | ok b => exact hf b log (List.Subset.refl _) hnc (h hnc b rfl)
    · exact Task.Keeps.absurd hnc
  | load cid k ih =>
    intro log h hf log' hs hnc x hx
    exact ih x (h log' hs hnc x hx) fun b l hl => hf b l (List.Subset.trans hs hl)
  | save b k ih =>
    intro log h hf
    exact ih _ h fun x l hl => hf x l (List.Subset.trans (List.subset_cons_self ..) hl)
  | saveAll bs t ih =>
    intro log h hf
    exact ih h fun x l hl => hf x l (List.Subset.trans (List.subset_append_right ..) hl)
  | fill m k ih =>
    intro log h hf hnc
    obtain ⟨n, rows, cols, h1, h2⟩ := h hnc
    exact ⟨n, rows, cols, h1, fun log' hs hnc' calls hw =>
      ih calls (h2 log' hs hnc' calls hw) fun b l hl => hf b l (List.Subset.trans hs hl)⟩
  | filling since m k ih =>
    intro log h hf hnc
    obtain ⟨h0, n, rows, cols, h1, h2⟩ := h hnc
    exact ⟨h0, n, rows, cols, h1, fun l l' h3 h4 hs hnc' calls hw =>
      ih calls (h2 l l' h3 h4 hs hnc' calls hw) fun b l hl => hf b l (List.Subset.trans hs hl)⟩

theorem Task.Keeps.step (hQ : Lasting Q) {t t' : Task α} {log log' : Saved}
    (h : t.Keeps H utf8 readFuel Q log) (hst : Task.Step H utf8 readFuel faults log t log' t')
    (hnc : log'.NoCollision H) : t'.Keeps H utf8 readFuel Q log' := by
  have herr : ∀ (f : Fail) (log : Saved), (Task.done (.error f) : Task α).Keeps H utf8 readFuel Q log :=
    fun _ _ _ _ h => (nomatch h)
  cases hst with
  | load e => exact h _ (List.Subset.refl _) hnc _ e
  | loadFails e => exact herr _ _
  | loadFault f hf => exact herr _ _
  | save => exact h
  | saveFault f hf => exact herr _ _
  | @saveOne bs b cs t =>
    refine Task.Keeps.mono (t := t) hQ ?_ h
    intro x hx
    simp only [List.mem_append, List.mem_cons] at hx ⊢
    tauto
  | saved => exact h
  | saveAllFault f hf => exact herr _ _
  | fillBegins =>
    intro hnc
    obtain ⟨n, rows, cols, h1, h2⟩ := h hnc
    exact ⟨List.Subset.refl _, n, rows, cols, h1, fun l l' hl hl' _ hnc' calls hw =>
      (h2 l hl (NoCollision.mono hl' hnc') calls hw).mono hQ hl'⟩
  | fill e hst hw =>
    obtain ⟨h0, n, rows, cols, h1, h2⟩ := h hnc
    rw [e] at h1
    cases h1
    obtain ⟨l, h3, h4, rfl⟩ := hst.load h0 hnc
    exact h2 l log h3 h4 (List.Subset.refl _) hnc _ hw
  | fillFails e hst hw => exact herr _ _
  | fillPanics e => exact herr _ _
  | fillFault f hf => exact herr _ _

/-- Run without interruption. -/
theorem Task.Keeps.run {fill : Fill} (hf : fill.Valid utf8 readFuel)
    (hex : ∀ (m : MMStruct3) (st : Store) n rows cols, ∃ t s, m.fillWindow utf8 st readFuel m.fractionalBits
      (Cube.new 0 n 0 rows 0 cols) t s) {t : Task α} : ∀ {log : Saved}, t.Keeps H utf8 readFuel Q log →
    (t.run H utf8 fill log).2.NoCollision H →
    ∀ a log', t.run H utf8 fill log = (.ok a, log') → Q a log' := by
  induction t with
  | done r =>
    intro log h hnc a log' e
    have e' : Task.run H utf8 fill (.done r) log = (r, log) := by cases r <;> rfl
    rw [e'] at hnc e
    cases e
    exact h hnc a rfl
  | load cid k ih =>
    intro log h hnc a log' e
    rw [Task.run_load] at hnc e
    cases hx : (log.load H).retrieve utf8 cid with
    | error f =>
      rw [hx] at e
      cases congrArg Prod.fst e
    | ok x =>
      rw [hx] at hnc e
      exact ih x (h log (List.Subset.refl _) (Prog.NoCollision.mono (Task.run_mono (k x) log) hnc) x hx) hnc a log' e
  | save b k ih => intro log h hnc; exact ih _ h hnc
  | saveAll bs t ih => intro log h hnc; exact ih h hnc
  | fill m k ih =>
    intro log h hnc a log' e
    rw [Task.run_fill] at hnc e
    cases hx : (fill m (log.load H)).2 with
    | some f =>
      rw [hx] at e
      cases congrArg Prod.fst e
    | none =>
      rw [hx] at hnc e
      have hlog : log.NoCollision H := Prog.NoCollision.mono (Task.run_mono (k _) log) hnc
      obtain ⟨n, rows, cols, h1, h2⟩ := h hlog
      have hw := hf m (log.load H) n rows cols h1 (hex m _ n rows cols)
      rw [hx] at hw
      exact ih _ (h2 log (List.Subset.refl _) hlog _ hw) hnc a log' e
  | filling since m k ih =>
    intro log h hnc a log' e
    rw [Task.run_filling, Task.run_fill] at hnc e
    cases hx : (fill m (log.load H)).2 with
    | some f =>
      rw [hx] at e
      cases congrArg Prod.fst e
    | none =>
      rw [hx] at hnc e
      have hlog : log.NoCollision H := Prog.NoCollision.mono (Task.run_mono (k _) log) hnc
      obtain ⟨h0, n, rows, cols, h1, h2⟩ := h hlog
      have hw := hf m (log.load H) n rows cols h1 (hex m _ n rows cols)
      rw [hx] at hw
      exact ih _ (h2 log log h0 (List.Subset.refl _) (List.Subset.refl _) hlog _ hw) hnc a log' e

/-- Among any others, running in any order. -/
theorem Tasks.Steps.keeps (hQ : Lasting Q) {s s' : List (Task α) × Saved} {i : Nat} {t : Task α}
    (h : Tasks.Steps H utf8 readFuel faults s s') : s.1[i]? = some t → t.Keeps H utf8 readFuel Q s.2 →
    s'.2.NoCollision H → ∃ t', s'.1[i]? = some t' ∧ t'.Keeps H utf8 readFuel Q s'.2 := by
  induction h with
  | refl => intro h1 h2 _; exact ⟨t, h1, h2⟩
  | tail h1 h2 ih =>
    intro ht he hnc
    cases h2 with
    | @task ts log j u log' u' hj hst =>
      obtain ⟨t', h3, h4⟩ := ih ht he (NoCollision.mono hst.mono hnc)
      by_cases hij : j = i
      · subst hij
        simp only at h3
        rw [hj] at h3
        cases h3
        have hlt : j < ts.length := (List.getElem?_eq_some_iff.1 hj).1
        exact ⟨u', by simp [hlt], h4.step hQ hst hnc⟩
      · exact ⟨t', by simp only [List.getElem?_set_ne hij]; exact h3, h4.mono hQ hst.mono⟩

end

/-! ### Chunks that cannot be built -/

section
variable {H : Hash} {utf8 : List Byte → Bool} {clog : Nat → Nat} {lg : Rat → Int} {fuel readFuel : Nat}

theorem Variable.saveSpansT_only (v : Variable) (spans : List Span) :
    (v.saveSpansT spans).Only fun v' => ∃ cid, v' = { v with cid := cid } := by
  cases spans with
  | nil => exact Task.Only.fail _
  | cons sp rest =>
    exact (Task.Only.any _).bind fun _ _ => (Task.Only.any _).bind fun cid _ => Task.Only.pure ⟨cid, rfl⟩

theorem Variable.createOpenSpanT_only (v : Variable) (rows cols : Nat) :
    (v.createOpenSpanT fuel rows cols).Only fun v' => ∃ cid, v' = { v with cid := cid } := by
  refine (Task.Only.any _).bind fun spans _ => ?_
  cases spans with
  | nil => exact Task.Only.fail _
  | cons sp rest =>
    exact (Task.Only.any _).bind fun _ _ => (Task.Only.any _).bind fun _ _ => (Task.Only.any _).bind fun cid _ =>
      Task.Only.pure ⟨cid, rfl⟩

theorem Variable.openIfFullT_only (v : Variable) (rows cols : Nat) (sp : Span) (rest : List Span) :
    (v.openIfFullT fuel rows cols sp rest).Only fun x => ∃ cid, x.1 = { v with cid := cid } := by
  unfold Variable.openIfFullT
  split
  · refine (Variable.saveSpansT_only ..).bind ?_
    rintro _ ⟨cid, rfl⟩
    refine (Variable.createOpenSpanT_only _ _ _).bind ?_
    rintro _ ⟨cid', rfl⟩
    refine (Task.Only.any _).bind fun spans _ => ?_
    cases spans with
    | nil => exact Task.Only.fail _
    | cons sp rest =>
      simp only
      split
      · exact Task.Only.pure ⟨cid', rfl⟩
      · exact Task.Only.fail _
  · exact Task.Only.pure ⟨v.cid, rfl⟩

variable (H clog lg) in
/-- The builder refuses a chunk. -/
def Refused (levels : List Nat) (b : MMBuffer3) (n rows cols : Nat) : Prop :=
  (Task.buildChunk H clog lg levels b n rows cols).Only fun _ => False

theorem Variable.appendLoopT_refused {levels : List Nat} {b : MMBuffer3} {n rows cols cs s : Nat}
    (hr : Refused H clog lg levels (b.slice s 0 0) (min (s + cs) n - s) rows cols) :
    ∀ (starts : List Nat) (v : Variable) (spans : List Span) (update : Bool), s ∈ starts → v.k2Levels = levels →
    v.chunkSize = cs →
    (Variable.appendLoopT H clog lg fuel b n rows cols starts v spans update).Only fun _ => False := by
  intro starts
  induction starts with
  | nil => intro v spans update hs; cases hs
  | cons start starts ih =>
    intro v spans update hs hl hc
    unfold Variable.appendLoopT
    by_cases h : start = s
    · subst h hl hc
      exact hr.bind fun _ h => h.elim
    · refine (Task.Only.any _).bind fun chunk _ => ?_
      cases spans with
      | nil => exact Task.Only.fail _
      | cons sp rest =>
        refine (Variable.openIfFullT_only ..).bind fun x ⟨cid, hx⟩ => (Task.Only.any _).bind fun sp' _ => ?_
        refine ih _ _ _ ((List.mem_cons.1 hs).resolve_left fun e => h e.symm) ?_ ?_
        · rw [hx]
          exact hl
        · rw [hx]
          exact hc

theorem Variable.appendT_refused {v : Variable} {b : MMBuffer3} {n rows cols s : Nat} {update : Bool}
    (hs : s * v.chunkSize < n)
    (hr : Refused H clog lg v.k2Levels (b.slice (s * v.chunkSize) 0 0)
      (min (s * v.chunkSize + v.chunkSize) n - s * v.chunkSize) rows cols) :
    (v.appendT H clog lg fuel b n rows cols update).Only fun _ => False := by
  unfold Variable.appendT
  refine (Task.Only.any _).bind fun spans _ => ?_
  split
  · exact Task.Only.fail _
  · rename_i hcs
    refine (Variable.appendLoopT_refused hr _ _ _ _ ?_ rfl rfl).bind fun _ h => h.elim
    refine List.mem_map.2 ⟨s, List.mem_range.2 ?_, rfl⟩
    rw [Nat.lt_iff_add_one_le, Nat.le_div_iff_mul_le (by omega), Nat.add_mul]
    omega

variable {levels : List Nat} {N rows cols cs ss : Nat} {enc : MMEncoding} {round : Option Nat}

theorem Settings.chunksOk_built (h : Settings clog levels N rows cols cs ss) {b : MMBuffer3} {A n : Nat}
    (hb : ∀ s, s * cs < n → ¬ Refused H clog lg levels (b.slice (s * cs) 0 0) (min (s * cs + cs) n - s * cs) rows cols) :
    ChunksOk False H clog lg (h.theory H enc) levels b A n := by
  intro s log hs hnc
  rcases h.chunksOk (enc := enc) (lg := lg) (H := H) b A n s log hs hnc with h1 | ⟨-, f, log', h1⟩
  · exact .inl h1
  refine (hb s hs ?_).elim
  change Prog.buildChunk H clog lg levels (b.slice (s * cs) 0 0) (min (s * cs + cs) n - s * cs) rows cols log = _ at h1
  rw [← Task.run_buildChunk (utf8 := fun _ => true) (fill := fun _ _ => ([], none))] at h1
  unfold Refused
  unfold Task.buildChunk at h1 ⊢
  cases e : (b.slice (s * cs) 0 0).computeBits lg (min (s * cs + cs) n - s * cs) rows cols with
  | none => exact Task.Only.fail _
  | some b' =>
    rw [e] at h1
    simp only at h1 ⊢
    cases e2 : Superchunk.build H clog lg 2 levels [] b' (min (s * cs + cs) n - s * cs) rows cols with
    | none => exact Task.Only.fail _
    | some x =>
      rw [e2] at h1
      cases congrArg Prod.fst h1

/-- Appending a buffer at the same time as others. -/
theorem Variable.appendT_keeps (h : Settings clog levels N rows cols cs ss) (hf : 32 ≤ fuel) {log : Saved}
    {v : Variable} {b : MMBuffer3} {M tl A n : Nat} {update : Bool}
    (hv : VarInv H (h.theory H enc) log v M tl) (hl : v.k2Levels = levels) (hB : A + n ≤ N) (hM : M ≤ N)
    (hu : if update then A + tl % cs = M ∧ tl % cs ≠ 0 ∧ 1 ≤ n else A = M ∧ tl % cs = 0) :
    (v.appendT H clog lg fuel b n rows cols update).Keeps H utf8 readFuel
      (Alone (v.append H utf8 clog lg fuel b n rows cols update) log) log := by
  have hcs : v.chunkSize = cs := hv.chunkSize
  by_cases hb : ∀ s, s * cs < n →
      ¬ Refused H clog lg levels (b.slice (s * cs) 0 0) (min (s * cs + cs) n - s * cs) rows cols
  · have hsat := Variable.append_sat (utf8 := utf8) (T := h.theory H enc) hf hv
      (Nat.le_trans hM (Nat.le_max_right cs N)) hl
      (h.chunksOk_built (A := A) hb) (Nat.le_trans hB (Nat.le_max_right cs N)) hu
    refine Task.Ends.keeps (Alone.lasting _ _) ?_
    refine (Variable.appendT_fillless fuel v b n rows cols update).ends (fill := fun _ _ => ([], none)) ?_
    rw [Variable.append_run]
    intro hnc
    obtain ⟨a, l, h1, -⟩ := Sat.ok hsat hnc
    exact ⟨a, l, h1, l, h1, List.Subset.refl _⟩
  · simp only [not_forall, not_not] at hb
    obtain ⟨s, hs, hr⟩ := hb
    refine Task.Only.keeps (P := fun _ => False) (fun _ _ h => h.elim) ?_ (Variable.appendT_fillless fuel v b n rows cols update)
    subst hcs hl
    exact Variable.appendT_refused hs hr

theorem Variable.appendArrayT_keeps (h : Settings clog levels N rows cols cs ss) (hf : 32 ≤ fuel)
    (hrf : levels.length < readFuel) {log : Saved} {v : Variable} {fill : Fill} {data : NdArray} {M n tl : Nat}
    (hfill : fill.Valid utf8 readFuel) (hv : VarInv H (h.theory H enc) log v M tl) (hl : v.k2Levels = levels)
    (hB : M + n ≤ N) :
    (v.appendArrayT H clog lg fuel data n rows cols).Keeps H utf8 readFuel
      (Alone (v.appendArray H utf8 clog lg fuel fill data n rows cols) log) log := by
  have htail : (v.tailDataT fuel).Ends H utf8 readFuel
      (fun o _ => v.tailData H utf8 fuel log = (.ok o, log) ∧ if tl % cs = 0 then o = none else ∃ m, o = some m ∧
        AnyChunk H levels rows cols log m (tl % cs) ∧ tl % cs ≤ M) log := by
    refine (Variable.tailDataT_fillless fuel v).ends (fill := fill) ?_
    rw [Variable.tailData_run]
    intro hnc
    obtain ⟨o, l, e, h1, h2⟩ := Sat.ok (Variable.tailData_sat (utf8 := utf8) hf hv) hnc
    subst h1
    refine ⟨o, log, e, e, ?_⟩
    change if tl % cs = 0 then _ else _ at h2
    split at h2
    · rw [if_pos ‹_›]
      exact h2
    · rw [if_neg ‹_›]
      obtain ⟨m, cid, e', -, h3, h4⟩ := h2
      exact ⟨m, e', h3, h4⟩
  unfold Variable.appendArrayT
  refine (htail.keeps (fun _ _ _ _ h => h)).bind fun o log' hsub hnc' ⟨ho, hk⟩ => ?_
  refine Task.Keeps.mono (Alone.lasting _ _) hsub ?_
  have hnc := NoCollision.mono hsub hnc'
  have halone : ∀ f : Option MMStruct3 → Prog Variable,
      (v.tailData H utf8 fuel >>= f) log = f o log := by
    intro f
    change Prog.bind _ _ log = _
    unfold Prog.bind
    rw [ho]
  split at hk
  · rename_i h0
    subst hk
    have e : Alone (v.appendArray H utf8 clog lg fuel fill data n rows cols) log =
        Alone (v.append H utf8 clog lg fuel (data.buffer v.round) n rows cols false) log := by
      unfold Alone Variable.appendArray
      rw [halone]
    rw [e]
    exact Variable.appendT_keeps h hf hv hl hB (by omega) (by simp [h0])
  · rename_i h0
    obtain ⟨m, rfl, hK, hle⟩ := hk
    simp only
    rw [hK.shape]
    change Task.Keeps H utf8 readFuel (.fill m _) _ _
    refine fun _ => ⟨_, _, _, hK.shape, fun l hl' hncl calls hw => ?_⟩
    obtain ⟨e1, e2, e3⟩ := h.settled (H := H) (enc := enc) (round := v.round) hrf log l fill
      (fill.but m (l.load H) (calls, none)) data M n m (M - tl % cs) (tl % cs) hfill
      (Fill.but_valid hfill hK.shape hw) trivial hl' hncl hK (by omega)
    have e : fill.but m (l.load H) (calls, none) m (l.load H) = (calls, none) := if_pos ⟨rfl, rfl⟩
    rw [e] at e3
    refine Task.Keeps.mono (Alone.lasting _ _) hl' ?_
    beta_reduce
    rw [if_neg (by simp)]
    have e : Alone (v.appendArray H utf8 clog lg fuel fill data n rows cols) log =
        Alone (v.append H utf8 clog lg fuel ((data.prepend (tl % cs) calls).buffer v.round) (tl % cs + n)
          rows cols true) log := by
      unfold Alone Variable.appendArray
      rw [halone]
      simp only
      rw [hK.shape]
      have e4 : ∀ f : (Nat × Nat × Nat) → Prog Variable,
        (Prog.ofOption (some (tl % cs, rows, cols)) >>= f) log = f (tl % cs, rows, cols) log := fun _ => rfl
      have e5 : ∀ f : Store → Prog Variable, (Prog.store H >>= f) log = f (log.load H) log := fun _ => rfl
      rw [e4, e5]
      simp only
      rw [e1]
      simp only
      rw [if_neg (by simp), show v.append H utf8 clog lg fuel _ (tl % cs + n) rows cols true = _ from
        Variable.append_same fuel v e3 true]
      rfl
    rw [e]
    refine Variable.appendT_keeps (A := M - tl % cs) h hf hv hl (by omega) (by omega) ?_
    simp only [if_true]
    exact ⟨by omega, h0, by omega⟩

theorem Dataset.appendT_keeps (h : Settings clog levels N rows cols cs ss) (hf : 32 ≤ fuel)
    (hrf : levels.length < readFuel) {d : Dataset} {log : Saved} {name : List Byte} {fill : Fill}
    {data : NdArray} {M n : Nat} (hfill : fill.Valid utf8 readFuel)
    (hi : HistInv H utf8 (h.theory H enc) levels round name (d, log) M) (hB : M + n ≤ N) :
    (d.appendT H clog lg fuel name data n rows cols).Keeps H utf8 readFuel
      (Alone (d.append H utf8 clog lg fuel fill name data n rows cols) log) log := by
  obtain ⟨v, tl, h1, h2, h0, h3⟩ := hi.var
  change d.findVariable name = some v at h1
  unfold Dataset.appendT
  rw [h1]
  refine (Variable.appendArrayT_keeps h hf hrf hfill h3 h2 hB).bind fun v' log' hsub hnc ⟨own, e, ho⟩ => ?_
  intro _ a ha
  cases ha
  refine ⟨own, ?_, ho⟩
  unfold Dataset.append
  rw [h1]
  change Prog.bind _ _ log = _
  unfold Prog.bind
  rw [e]
  rfl

/-- If an append works alone, it works at the same time as others. -/
theorem Dataset.appendT_ends_any (h : Settings clog levels N rows cols cs ss) (hf : 32 ≤ fuel)
    (hrf : levels.length < readFuel) {d d' : Dataset} {log own : Saved} {name : List Byte} {fill : Fill}
    {data : NdArray} {M n : Nat} (hfill : fill.Valid utf8 readFuel)
    (hi : HistInv H utf8 (h.theory H enc) levels round name (d, log) M)
    (ha : d.append H utf8 clog lg fuel fill name data n rows cols log = (.ok d', own)) :
    (d.appendT H clog lg fuel name data n rows cols).Ends H utf8 readFuel
      (Alone (d.append H utf8 clog lg fuel fill name data n rows cols) log) log := by
  refine Dataset.appendT_ends_of (T := h.theory H enc) (h.settled hrf) hf hfill hi trivial fun v tl h1 _ _ _ _ => ?_
  unfold Dataset.append at ha
  rw [h1] at ha
  change Prog.bind _ _ log = _ at ha
  unfold Prog.bind at ha
  change ∃ a l, v.appendArray H utf8 clog lg fuel fill data n rows cols log = (.ok a, l)
  rcases e : v.appendArray H utf8 clog lg fuel fill data n rows cols log with ⟨f | a, l⟩
  · rw [e] at ha
    cases congrArg Prod.fst ha
  · exact ⟨a, l, rfl⟩

end

end Verif
