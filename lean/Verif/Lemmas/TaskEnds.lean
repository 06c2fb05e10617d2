import Verif.Lemmas.Task

/-! How operations end that run at the same time as others. -/
namespace Verif

section
variable (H : Hash) (utf8 : List Byte → Bool) (readFuel : Nat)

/-- Whatever others save meanwhile, the operation ends well, with a result that is `Q`. Said for as long as
no two different objects have the same identifier. -/
def Task.Ends {α : Type} : Task α → (α → Saved → Prop) → Saved → Prop
  | .done r, Q, log => log.NoCollision H → ∃ a, r = .ok a ∧ Q a log
  | .load cid k, Q, log => log.NoCollision H →
    ∃ b ∈ log, H.cidOf b = cid ∧ ∃ x rest, Item.read utf8 cid b = .ok (x, rest) ∧ (k x).Ends Q log
  | .save b k, Q, log => (k (H.cidOf b)).Ends Q (b :: log)
  | .saveAll bs t, Q, log => t.Ends Q (bs ++ log)
  | .fill m k, Q, log => log.NoCollision H → ∃ n rows cols, m.shape = some (n, rows, cols) ∧
    ∀ log', log ⊆ log' → log'.NoCollision H → ∀ calls s,
      m.fillWindow utf8 (log'.load H) readFuel m.fractionalBits (Cube.new 0 n 0 rows 0 cols) calls s →
      s = none ∧ (k calls).Ends Q log'
  | .filling since m k, Q, log => log.NoCollision H → since ⊆ log ∧ ∃ n rows cols,
    m.shape = some (n, rows, cols) ∧ ∀ l log', since ⊆ l → l ⊆ log' → log ⊆ log' → log'.NoCollision H → ∀ calls s,
      m.fillWindow utf8 (l.load H) readFuel m.fractionalBits (Cube.new 0 n 0 rows 0 cols) calls s →
      s = none ∧ (k calls).Ends Q log'

end

/-- Nothing that is saved makes it false. -/
def Lasting {α : Type} (Q : α → Saved → Prop) : Prop := ∀ a log log', log ⊆ log' → Q a log → Q a log'

section
variable {H : Hash} {utf8 : List Byte → Bool} {readFuel : Nat} {faults : Bool} {α β : Type}
  {Q : α → Saved → Prop}

theorem Task.Ends.mono (hQ : Lasting Q) {t : Task α} : ∀ {log log' : Saved}, log ⊆ log' →
    t.Ends H utf8 readFuel Q log → t.Ends H utf8 readFuel Q log' := by
  induction t with
  | done r =>
    intro log log' hs h hnc
    obtain ⟨a, h1, h2⟩ := h (Prog.NoCollision.mono hs hnc)
    exact ⟨a, h1, hQ _ _ _ hs h2⟩
  | load cid k ih =>
    intro log log' hs h hnc
    obtain ⟨b, h1, h2, x, rest, h3, h4⟩ := h (Prog.NoCollision.mono hs hnc)
    exact ⟨b, hs h1, h2, x, rest, h3, ih x hs h4⟩
  | save b k ih =>
    intro log log' hs h
    exact ih _ (List.cons_subset_cons b hs) h
  | saveAll bs t ih =>
    intro log log' hs h
    refine ih ?_ h
    intro x hx
    rcases List.mem_append.1 hx with hx | hx
    · exact List.mem_append_left _ hx
    · exact List.mem_append_right _ (hs hx)
  | fill m k ih =>
    intro log log' hs h hnc
    obtain ⟨n, rows, cols, h1, h2⟩ := h (Prog.NoCollision.mono hs hnc)
    exact ⟨n, rows, cols, h1, fun l hl => h2 l (List.Subset.trans hs hl)⟩
  | filling since m k ih =>
    intro log log' hs h hnc
    obtain ⟨h0, n, rows, cols, h1, h2⟩ := h (Prog.NoCollision.mono hs hnc)
    exact ⟨List.Subset.trans h0 hs, n, rows, cols, h1, fun l l' h3 h4 h5 => h2 l l' h3 h4 (List.Subset.trans hs h5)⟩

theorem Saved.load_some {log : Saved} {cid : Cid} {b : List Byte} (h : log.load H cid = some b) :
    b ∈ log ∧ H.cidOf b = cid := by
  unfold Saved.load at h
  exact ⟨List.mem_of_find?_eq_some h, by simpa using List.find?_some h⟩

/-- Loading each object at a moment of its own finds the same as loading all of them at one. -/
theorem Saved.Meanwhile.load {since log : Saved} {st : Store} (h : since.Meanwhile H log st)
    (hs : since ⊆ log) (hnc : log.NoCollision H) : ∃ l, since ⊆ l ∧ l ⊆ log ∧ st = l.load H := by
  classical
  refine ⟨log.filter fun b => st (H.cidOf b) = some b, ?_, List.filter_subset_self .., ?_⟩
  · intro b hb
    obtain ⟨l, h1, h2, h3⟩ := h (H.cidOf b)
    rw [Saved.load_mem (Prog.NoCollision.mono h1 hnc) (h2 b hb (hs hb))] at h3
    exact List.mem_filter.2 ⟨hs hb, by simpa using h3⟩
  · have hnc' := Prog.NoCollision.mono
      (List.filter_subset_self (p := fun b => decide (st (H.cidOf b) = some b)) (l := log)) hnc
    funext cid
    cases e : st cid with
    | some b =>
      obtain ⟨l, h1, -, h3⟩ := h cid
      rw [e] at h3
      obtain ⟨h4, rfl⟩ := Saved.load_some h3.symm
      exact (Saved.load_mem hnc' (List.mem_filter.2 ⟨h1 h4, by simpa using e⟩)).symm
    | none =>
      cases e' : Saved.load H (log.filter fun b => st (H.cidOf b) = some b) cid with
      | none => rfl
      | some b =>
        obtain ⟨h4, rfl⟩ := Saved.load_some e'
        have := (List.mem_filter.1 h4).2
        rw [e] at this
        simp at this

theorem Saved.Meanwhile.now (since log : Saved) : since.Meanwhile H log (log.load H) :=
  fun _ => ⟨log, List.Subset.refl _, fun _ _ h => h, rfl⟩

theorem Task.run_mono {fill : Fill} (t : Task α) : Prog.Mono (t.run H utf8 fill) := by
  induction t with
  | done r => intro log; cases r <;> exact List.Subset.refl _
  | load cid k ih =>
    intro log
    rw [Task.run_load]
    cases (log.load H).retrieve utf8 cid with
    | error f => exact List.Subset.refl _
    | ok x => exact ih x log
  | save b k ih => intro log; exact List.Subset.trans (List.subset_cons_self ..) (ih _ (b :: log))
  | saveAll bs t ih => intro log; exact List.Subset.trans (List.subset_append_right ..) (ih (bs ++ log))
  | fill m k ih =>
    intro log
    rw [Task.run_fill]
    cases (fill m (log.load H)).2 with
    | some f => exact List.Subset.refl _
    | none => exact ih _ log
  | filling since m k ih =>
    intro log
    rw [Task.run_filling, Task.run_fill]
    cases (fill m (log.load H)).2 with
    | some f => exact List.Subset.refl _
    | none => exact ih _ log

theorem Task.Ends.retrieve {log : Saved} (hnc : log.NoCollision H) {cid : Cid} {b : List Byte} {x : Item}
    {rest : List Byte} (h1 : b ∈ log) (h2 : H.cidOf b = cid) (h3 : Item.read utf8 cid b = .ok (x, rest)) :
    (log.load H).retrieve utf8 cid = .ok x := by
  subst h2
  unfold Store.retrieve
  rw [Saved.load_mem hnc h1]
  simp only
  rw [h3]

/-- Run without interruption, it ends well. -/
theorem Task.Ends.run {fill : Fill} (hf : fill.Valid utf8 readFuel)
    (hex : ∀ (m : MMStruct3) (st : Store) n rows cols, ∃ t s, m.fillWindow utf8 st readFuel m.fractionalBits
      (Cube.new 0 n 0 rows 0 cols) t s) {t : Task α} : ∀ {log : Saved}, t.Ends H utf8 readFuel Q log →
    (t.run H utf8 fill log).2.NoCollision H →
    ∃ a log', t.run H utf8 fill log = (.ok a, log') ∧ Q a log' := by
  induction t with
  | done r =>
    intro log h hnc
    have e : Task.run H utf8 fill (.done r) log = (r, log) := by cases r <;> rfl
    rw [e] at hnc ⊢
    obtain ⟨a, rfl, h2⟩ := h hnc
    exact ⟨a, log, rfl, h2⟩
  | load cid k ih =>
    intro log h hnc
    rw [Task.run_load] at hnc ⊢
    have hlog : log.NoCollision H := by
      revert hnc
      cases (log.load H).retrieve utf8 cid with
      | error f => exact id
      | ok x => exact fun hnc => Prog.NoCollision.mono (Task.run_mono (k x) log) hnc
    obtain ⟨b, h1, h2, x, rest, h3, h4⟩ := h hlog
    rw [Task.Ends.retrieve hlog h1 h2 h3] at hnc ⊢
    exact ih x h4 hnc
  | save b k ih => intro log h hnc; exact ih _ h hnc
  | saveAll bs t ih => intro log h hnc; exact ih h hnc
  | fill m k ih =>
    intro log h hnc
    rw [Task.run_fill] at hnc ⊢
    have hlog : log.NoCollision H := by
      revert hnc
      cases (fill m (log.load H)).2 with
      | some f => exact id
      | none => exact fun hnc => Prog.NoCollision.mono (Task.run_mono (k _) log) hnc
    obtain ⟨n, rows, cols, h1, h2⟩ := h hlog
    obtain ⟨h3, h4⟩ := h2 log (List.Subset.refl _) hlog _ _
      (hf m (log.load H) n rows cols h1 (hex m _ n rows cols))
    rw [h3] at hnc ⊢
    exact ih _ h4 hnc
  | filling since m k ih =>
    intro log h hnc
    rw [Task.run_filling, Task.run_fill] at hnc ⊢
    have hlog : log.NoCollision H := by
      revert hnc
      cases (fill m (log.load H)).2 with
      | some f => exact id
      | none => exact fun hnc => Prog.NoCollision.mono (Task.run_mono (k _) log) hnc
    obtain ⟨h0, n, rows, cols, h1, h2⟩ := h hlog
    obtain ⟨h3, h4⟩ := h2 log log h0 (List.Subset.refl _) (List.Subset.refl _) hlog _ _ (hf m (log.load H) n rows cols h1 (hex m _ n rows cols))
    rw [h3] at hnc ⊢
    exact ih _ h4 hnc

/-- It never reads back a tail. -/
def Task.Fillless : Task α → Prop
  | .done _ => True
  | .load _ k => ∀ x, (k x).Fillless
  | .save _ k => ∀ cid, (k cid).Fillless
  | .saveAll _ t => t.Fillless
  | .fill _ _ => False
  | .filling _ _ _ => False

/-- If running it without interruption ends well, so does running it at the same time as others. -/
theorem Task.Fillless.ends {fill : Fill} {t : Task α} : t.Fillless → ∀ {log : Saved},
    ((t.run H utf8 fill log).2.NoCollision H →
      ∃ a log', t.run H utf8 fill log = (.ok a, log') ∧ Q a log') →
    t.Ends H utf8 readFuel Q log := by
  induction t with
  | done r =>
    intro _ log h hnc
    have e : Task.run H utf8 fill (.done r) log = (r, log) := by cases r <;> rfl
    rw [e] at h
    obtain ⟨a, log', h1, h2⟩ := h hnc
    cases h1
    exact ⟨a, rfl, h2⟩
  | load cid k ih =>
    intro hk log h hnc
    rw [Task.run_load] at h
    cases e : (log.load H).retrieve utf8 cid with
    | error f =>
      rw [e] at h
      obtain ⟨a, log', h1, h2⟩ := h hnc
      cases h1
    | ok x =>
      rw [e] at h
      unfold Store.retrieve at e
      cases e1 : log.load H cid with
      | none => rw [e1] at e; cases e
      | some b =>
        rw [e1] at e
        simp only at e
        cases e2 : Item.read utf8 cid b with
        | error f => rw [e2] at e; cases e
        | ok y =>
          obtain ⟨y, rest⟩ := y
          rw [e2] at e
          cases e
          obtain ⟨h3, h4⟩ := Saved.load_some e1
          exact ⟨b, h3, h4, x, rest, e2, ih x (hk x) h⟩
  | save b k ih => intro hk log h; exact ih _ (hk _) h
  | saveAll bs t ih => intro hk log h; exact ih hk h
  | fill m k ih => intro hk; exact hk.elim
  | filling since m k ih => intro hk; exact hk.elim

theorem Task.Ends.absurd {t : Task α} : ∀ {log : Saved}, ¬ log.NoCollision H →
    t.Ends H utf8 readFuel Q log := by
  induction t with
  | done r => intro log h hnc; exact (h hnc).elim
  | load cid k ih => intro log h hnc; exact (h hnc).elim
  | save b k ih =>
    intro log h
    exact ih _ fun hnc => h (Prog.NoCollision.mono (List.subset_cons_self ..) hnc)
  | saveAll bs t ih =>
    intro log h
    exact ih fun hnc => h (Prog.NoCollision.mono (List.subset_append_right ..) hnc)
  | fill m k ih => intro log h hnc; exact (h hnc).elim
  | filling since m k ih => intro log h hnc; exact (h hnc).elim

theorem Task.Ends.bind {P : β → Saved → Prop} {t : Task β} {f : β → Task α} : ∀ {log : Saved},
    t.Ends H utf8 readFuel P log →
    (∀ b log', log ⊆ log' → log'.NoCollision H → P b log' → (f b).Ends H utf8 readFuel Q log') →
    (t >>= f).Ends H utf8 readFuel Q log := by
  change ∀ {log : Saved}, _ → _ → (t.bind f).Ends H utf8 readFuel Q log
  induction t with
  | done r =>
    intro log h hf
    by_cases hnc : log.NoCollision H
    · obtain ⟨b, rfl, h2⟩ := h hnc
      exact hf b log (List.Subset.refl _) hnc h2
    · exact Task.Ends.absurd hnc
  | load cid k ih =>
    intro log h hf hnc
    obtain ⟨b, h1, h2, x, rest, h3, h4⟩ := h hnc
    exact ⟨b, h1, h2, x, rest, h3, ih x h4 hf⟩
  | save b k ih =>
    intro log h hf
    exact ih _ h fun x l hl => hf x l (List.Subset.trans (List.subset_cons_self ..) hl)
  | saveAll bs t ih =>
    intro log h hf
    exact ih h fun x l hl => hf x l (List.Subset.trans (List.subset_append_right ..) hl)
  | fill m k ih =>
    intro log h hf hnc
    obtain ⟨n, rows, cols, h1, h2⟩ := h hnc
    refine ⟨n, rows, cols, h1, fun l hl hl' calls s hw => ?_⟩
    obtain ⟨h3, h4⟩ := h2 l hl hl' calls s hw
    exact ⟨h3, ih calls h4 fun x l' hx => hf x l' (List.Subset.trans hl hx)⟩
  | filling since m k ih =>
    intro log h hf hnc
    obtain ⟨h0, n, rows, cols, h1, h2⟩ := h hnc
    refine ⟨h0, n, rows, cols, h1, fun l l' hl hll hl' hnc' calls s hw => ?_⟩
    obtain ⟨h3, h4⟩ := h2 l l' hl hll hl' hnc' calls s hw
    exact ⟨h3, ih calls h4 fun x l'' hx => hf x l'' (List.Subset.trans hl' hx)⟩

/-- A step of the operation itself. -/
theorem Task.Ends.step (hQ : Lasting Q) {t t' : Task α} {log log' : Saved}
    (h : t.Ends H utf8 readFuel Q log) (hst : Task.Step H utf8 readFuel faults log t log' t')
    (hnc : log'.NoCollision H) :
    log ⊆ log' ∧ (t'.Ends H utf8 readFuel Q log' ∨ faults = true ∧ ∃ f, t' = .done (.error f)) := by
  cases hst with
  | load e =>
    obtain ⟨b, h1, h2, x, rest, h3, h4⟩ := h hnc
    rw [Task.Ends.retrieve hnc h1 h2 h3] at e
    cases e
    exact ⟨List.Subset.refl _, .inl h4⟩
  | loadFails e =>
    obtain ⟨b, h1, h2, x, rest, h3, h4⟩ := h hnc
    rw [Task.Ends.retrieve hnc h1 h2 h3] at e
    cases e
  | loadFault f hf => exact ⟨List.Subset.refl _, .inr ⟨hf, f, rfl⟩⟩
  | save => exact ⟨List.subset_cons_self .., .inl h⟩
  | saveFault f hf => exact ⟨List.Subset.refl _, .inr ⟨hf, f, rfl⟩⟩
  | @saveOne bs b cs t =>
    refine ⟨List.subset_cons_self .., .inl ?_⟩
    refine Task.Ends.mono (t := t) hQ ?_ h
    intro x hx
    simp only [List.mem_append, List.mem_cons] at hx ⊢
    tauto
  | saved => exact ⟨List.Subset.refl _, .inl h⟩
  | saveAllFault f hf => exact ⟨List.Subset.refl _, .inr ⟨hf, f, rfl⟩⟩
  | fillBegins =>
    refine ⟨List.Subset.refl _, .inl fun hnc => ⟨List.Subset.refl _, ?_⟩⟩
    obtain ⟨n, rows, cols, h1, h2⟩ := h hnc
    refine ⟨n, rows, cols, h1, fun l l' hl hl' _ hnc' calls s hw => ?_⟩
    obtain ⟨h3, h4⟩ := h2 l hl (Prog.NoCollision.mono hl' hnc') calls s hw
    exact ⟨h3, h4.mono hQ hl'⟩
  | fill e hst hw =>
    obtain ⟨h0, n, rows, cols, h1, h2⟩ := h hnc
    rw [h1] at e
    cases e
    obtain ⟨l, h3, h4, rfl⟩ := hst.load h0 hnc
    exact ⟨List.Subset.refl _, .inl (h2 l log h3 h4 (List.Subset.refl _) hnc _ _ hw).2⟩
  | fillFails e hst hw =>
    obtain ⟨h0, n, rows, cols, h1, h2⟩ := h hnc
    rw [h1] at e
    cases e
    obtain ⟨l, h3, h4, rfl⟩ := hst.load h0 hnc
    cases (h2 l log h3 h4 (List.Subset.refl _) hnc _ _ hw).1
  | fillPanics e =>
    obtain ⟨h0, n, rows, cols, h1, h2⟩ := h hnc
    rw [h1] at e
    cases e
  | fillFault f hf => exact ⟨List.Subset.refl _, .inr ⟨hf, f, rfl⟩⟩

theorem Task.Step.mono {t t' : Task α} {log log' : Saved}
    (hst : Task.Step H utf8 readFuel faults log t log' t') : log ⊆ log' := by
  cases hst <;> first | exact List.Subset.refl _ | exact List.subset_cons_self ..

theorem Tasks.Steps.mono {s s' : List (Task α) × Saved} (h : Tasks.Steps H utf8 readFuel faults s s') :
    s.2 ⊆ s'.2 := by
  induction h with
  | refl => exact List.Subset.refl _
  | tail _ h2 ih =>
    cases h2 with
    | task _ hst => exact List.Subset.trans ih hst.mono

/-- Among any others, running in any order. -/
theorem Tasks.Steps.ends (hQ : Lasting Q) {s s' : List (Task α) × Saved} {i : Nat} {t : Task α}
    (h : Tasks.Steps H utf8 readFuel faults s s') : s.1[i]? = some t → t.Ends H utf8 readFuel Q s.2 →
    s'.2.NoCollision H →
    ∃ t', s'.1[i]? = some t' ∧
      (t'.Ends H utf8 readFuel Q s'.2 ∨ faults = true ∧ ∃ f, t' = .done (.error f)) := by
  induction h with
  | refl => intro h1 h2 _; exact ⟨t, h1, .inl h2⟩
  | tail h1 h2 ih =>
    intro ht he hnc
    cases h2 with
    | @task ts log j u log' u' hj hst =>
      obtain ⟨t', h3, h4⟩ := ih ht he (Prog.NoCollision.mono hst.mono hnc)
      by_cases hij : j = i
      · subst hij
        simp only at h3
        rw [hj] at h3
        cases h3
        have hlt : j < ts.length := (List.getElem?_eq_some_iff.1 hj).1
        refine ⟨u', by simp [hlt], ?_⟩
        rcases h4 with h4 | ⟨hf, f, rfl⟩
        · exact (h4.step hQ hst hnc).2
        · cases hst
      · refine ⟨t', by simp only [List.getElem?_set_ne hij]; exact h3, ?_⟩
        exact h4.imp_left fun h => h.mono hQ hst.mono

end

end Verif
