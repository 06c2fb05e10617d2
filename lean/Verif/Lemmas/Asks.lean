import Verif.Lemmas.Adds
import Verif.Lemmas.AnyTask

/-! How many objects an append asks for. -/
namespace Verif

open Prog hiding pure bind

section
variable (H : Hash) (utf8 : List Byte → Bool) (fill : Fill)

/-- What an operation asks the store for, one after the other, if it is not interrupted. -/
def Task.loads {α : Type} : Task α → Saved → List Cid
  | .done _, _ => []
  | .load cid k, log => cid ::
    match (log.load H).retrieve utf8 cid with
    | .ok x => (k x).loads log
    | .error _ => []
  | .save b k, log => (k (H.cidOf b)).loads (b :: log)
  | .saveAll bs t, log => t.loads (bs ++ log)
  | .fill m k, log =>
    match (fill m (log.load H)).2 with
    | some _ => []
    | none => (k (fill m (log.load H)).1).loads log
  | .filling _ m k, log =>
    match (fill m (log.load H)).2 with
    | some _ => []
    | none => (k (fill m (log.load H)).1).loads log

end

section
variable {H : Hash} {utf8 : List Byte → Bool} {fill : Fill} {clog : Nat → Nat} {lg : Rat → Int} {α β : Type}

local notation "run" => Task.run H utf8 fill
local notation "loads" => Task.loads H utf8 fill

theorem Task.loads_load (cid : Cid) (k : Item → Task α) (log : Saved) : loads (.load cid k) log = cid ::
    match (log.load H).retrieve utf8 cid with
    | .ok x => loads (k x) log
    | .error _ => [] := by
  rw [Task.loads]

theorem Task.loads_fill (m : MMStruct3) (k : Calls → Task α) (log : Saved) : loads (.fill m k) log =
    match (fill m (log.load H)).2 with
    | some _ => []
    | none => loads (k (fill m (log.load H)).1) log := rfl

theorem Task.loads_filling (since : Saved) (m : MMStruct3) (k : Calls → Task α) (log : Saved) :
    loads (.filling since m k) log = loads (.fill m k) log := rfl

/-- One operation after another. -/
theorem Task.loads_bind (t : Task α) (f : α → Task β) (log log' : Saved) (a : α)
    (h : run t log = (.ok a, log')) : loads (t >>= f) log = loads t log ++ loads (f a) log' := by
  change loads (t.bind f) log = _
  induction t generalizing log with
  | done r =>
    cases r with
    | ok b => cases h; rfl
    | error e => cases congrArg Prod.fst h
  | load cid k ih =>
    rw [show (Task.load cid k).bind f = .load cid fun x => (k x).bind f from rfl, Task.loads_load, Task.loads_load]
    rw [Task.run_load] at h
    cases hr : (log.load H).retrieve utf8 cid with
    | ok x =>
      rw [hr] at h
      simp only [List.cons_append]
      rw [ih x log h]
    | error e =>
      rw [hr] at h
      cases congrArg Prod.fst h
  | save b k ih => exact ih _ _ h
  | saveAll bs t ih => exact ih _ h
  | fill m k ih =>
    rw [show (Task.fill m k).bind f = .fill m fun c => (k c).bind f from rfl, Task.loads_fill, Task.loads_fill]
    rw [Task.run_fill] at h
    cases hr : (fill m (log.load H)).2 with
    | some e => rw [hr] at h; cases congrArg Prod.fst h
    | none => rw [hr] at h; exact ih _ log h
  | filling since m k ih =>
    rw [show (Task.filling since m k).bind f = .filling since m fun c => (k c).bind f from rfl, Task.loads_filling,
      Task.loads_filling, Task.loads_fill, Task.loads_fill]
    rw [Task.run_filling, Task.run_fill] at h
    cases hr : (fill m (log.load H)).2 with
    | some e => rw [hr] at h; cases congrArg Prod.fst h
    | none => rw [hr] at h; exact ih _ log h

/-- If the operation ends well, without collisions, it has asked for at most `n` objects, with `Q`. -/
def Task.Asks (H : Hash) (utf8 : List Byte → Bool) (fill : Fill) (t : Task α) (log : Saved)
    (Q : α → Saved → Nat → Prop) : Prop :=
  ∀ a log', Task.run H utf8 fill t log = (.ok a, log') → log'.NoCollision H →
    ∃ n, (Task.loads H utf8 fill t log).length ≤ n ∧ Q a log' n

local notation "Asks" => Task.Asks H utf8 fill

variable {log : Saved}

theorem Task.Asks.pure {a : α} {Q : α → Saved → Nat → Prop} (h : Q a log 0) : Asks (Pure.pure a : Task α) log Q := by
  intro b log' e _
  cases (congrArg Prod.fst e : (Except.ok a : Except Fail α) = _)
  cases (congrArg Prod.snd e : log = _)
  exact ⟨0, Nat.le_refl _, h⟩

theorem Task.Asks.fail {f : Fail} {Q : α → Saved → Nat → Prop} : Asks (Task.fail f : Task α) log Q := by
  intro b log' e
  cases (congrArg Prod.fst e)

theorem Task.Asks.ofOption {o : Option α} : Asks (Task.ofOption o) log fun a l n => n = 0 ∧ l = log ∧ o = some a := by
  cases o with
  | none => exact Task.Asks.fail
  | some a => exact Task.Asks.pure ⟨rfl, rfl, rfl⟩

theorem Task.Asks.bind {t : Task α} {f : α → Task β} {Q : α → Saved → Nat → Prop} {R : β → Saved → Nat → Prop}
    (hm : Asks t log Q)
    (hf : ∀ a log' n, run t log = (.ok a, log') → log'.NoCollision H → log ⊆ log' → Q a log' n →
      Asks (f a) log' fun b l k => R b l (n + k)) :
    Asks (t >>= f) log R := by
  intro b log'' e hnc
  rw [Task.run_bind] at e
  obtain ⟨a, log', e1, e2⟩ := Prog.ok_bind e
  have hsub := Task.run_mono (H := H) (utf8 := utf8) (fill := fill) (f a) log'
  rw [e2] at hsub
  have hsub' := Task.run_mono (H := H) (utf8 := utf8) (fill := fill) t log
  rw [e1] at hsub'
  have hnc' := NoCollision.mono hsub hnc
  obtain ⟨n, h1, h2⟩ := hm _ _ e1 hnc'
  obtain ⟨k, h3, h4⟩ := hf a log' n e1 hnc' hsub' h2 _ _ e2 hnc
  refine ⟨n + k, ?_, h4⟩
  rw [Task.loads_bind t f log log' a e1, List.length_append]
  omega

theorem Task.Asks.mono {t : Task α} {Q R : α → Saved → Nat → Prop} (h : Asks t log Q)
    (hq : ∀ a l n, Q a l n → R a l n) : Asks t log R := by
  intro a log' e hnc
  obtain ⟨n, h1, h2⟩ := h a log' e hnc
  exact ⟨n, h1, hq a _ n h2⟩

theorem Task.Asks.getStruct (cid : Cid) : Asks (Task.getStruct cid) log fun _ l n => n = 1 ∧ l = log := by
  intro a log' e _
  rw [Task.run_getStruct] at e
  cases (congrArg Prod.snd e : log = _)
  refine ⟨1, ?_, rfl, rfl⟩
  rw [Task.getStruct, Task.loads_load]
  cases (log.load H).retrieve utf8 cid with
  | error f => exact Nat.le_refl _
  | ok x => cases x <;> exact Nat.le_refl _

theorem Task.Asks.getSpan (cid : Cid) : Asks (Task.getSpan cid) log fun _ l n => n = 1 ∧ l = log := by
  refine (Task.Asks.getStruct cid).bind ?_
  rintro m log' _ - - - ⟨rfl, rfl⟩
  cases m with
  | span s => exact Task.Asks.pure ⟨rfl, rfl⟩
  | subchunk c => exact Task.Asks.fail
  | superchunk h l => exact Task.Asks.fail

theorem Task.Asks.saveItem (x : Item) : Asks (Task.saveItem x) log fun _ _ n => n = 0 := by
  intro a log' e _
  exact ⟨0, Nat.le_refl _, rfl⟩

/-! ### Spans -/

theorem Span.appendT_asks (sp : Span) (m : MMStruct3) : Asks (sp.appendT m) log fun _ _ n => n ≤ 1 := by
  unfold Span.appendT
  refine Task.Asks.bind (Q := fun _ _ n => n ≤ 1) ?_ ?_
  · unfold Span.checkLastT
    cases sp.spans.getLast? with
    | none => exact Task.Asks.pure (Nat.zero_le _)
    | some last =>
      refine (Task.Asks.getStruct last).bind ?_
      rintro m log' _ - - - ⟨rfl, rfl⟩
      refine Task.Asks.ofOption.bind ?_
      rintro s log'' _ - - - ⟨rfl, rfl, -⟩
      split
      · exact Task.Asks.fail
      · exact Task.Asks.pure (Nat.le_refl _)
  rintro _ log' n - - - hn
  refine Task.Asks.ofOption.bind ?_
  rintro s log'' _ - - - ⟨rfl, -, -⟩
  split
  · exact Task.Asks.fail
  split
  · exact Task.Asks.fail
  refine (Task.Asks.saveItem _).bind ?_
  rintro cid log3 _ - - - rfl
  exact Task.Asks.pure (by omega)

theorem Span.updateT_asks (sp : Span) (m : MMStruct3) : Asks (sp.updateT m) log fun _ _ n => n ≤ 1 :=
  Span.appendT_asks _ m

theorem Span.addChunkT_asks (update : Bool) (sp : Span) (m : MMStruct3) :
    Asks (sp.addChunkT update m) log fun _ _ n => n ≤ 1 := by
  unfold Span.addChunkT
  split
  · exact Span.updateT_asks _ _
  · exact Span.appendT_asks _ _

theorem tailSpansLoopT_asks (cs : Nat) : ∀ (fuel : Nat) (above : List Span) (sp : Span),
    Asks (tailSpansLoopT cs fuel above sp) log fun l lg n => lg = log ∧ n + above.length + 1 = l.length := by
  intro fuel
  induction fuel with
  | zero => intro above sp; exact Task.Asks.fail
  | succ fuel ih =>
    intro above sp
    unfold tailSpansLoopT
    split
    · refine Task.Asks.ofOption.bind ?_
      rintro cid log' _ - - - ⟨rfl, rfl, -⟩
      refine (Task.Asks.getSpan cid).bind ?_
      rintro c log' _ - - - ⟨rfl, rfl⟩
      refine (ih (sp :: above) c).mono ?_
      rintro l _ n ⟨rfl, h⟩
      simp only [List.length_cons] at h
      exact ⟨rfl, by omega⟩
    · exact Task.Asks.pure ⟨rfl, by simp⟩

theorem Variable.tailSpansT_asks (fuel : Nat) (v : Variable) :
    Asks (v.tailSpansT fuel) log fun l lg n => lg = log ∧ n = l.length := by
  unfold Variable.tailSpansT
  refine (Task.Asks.getSpan v.cid).bind ?_
  rintro c log' _ - - - ⟨rfl, rfl⟩
  refine (tailSpansLoopT_asks v.chunkSize fuel [] c).mono ?_
  rintro l _ n ⟨rfl, h⟩
  simp only [List.length_nil] at h
  exact ⟨rfl, by omega⟩

theorem saveSpansLoopT_asks : ∀ (above : List Span) (sp : Span) (log : Saved),
    Asks (saveSpansLoopT sp above) log fun _ _ n => n ≤ above.length := by
  intro above
  induction above with
  | nil => intro sp log; exact Task.Asks.pure (Nat.le_refl _)
  | cons p rest ih =>
    intro sp log
    refine (Span.updateT_asks _ _).bind ?_
    rintro sp' log' k - - - hk
    refine (ih sp' log').mono ?_
    rintro _ _ n hn
    simp only [List.length_cons]
    omega

theorem Variable.saveSpansT_asks (v : Variable) (spans : List Span) :
    Asks (v.saveSpansT spans) log fun _ _ n => n + 1 ≤ spans.length := by
  unfold Variable.saveSpansT
  cases spans with
  | nil => exact Task.Asks.fail
  | cons sp rest =>
    refine (saveSpansLoopT_asks rest sp log).bind ?_
    rintro sp' log' n - - - hn
    refine (Task.Asks.saveItem _).bind ?_
    rintro cid log'' _ - - - rfl
    exact Task.Asks.pure (by simp only [List.length_cons]; omega)

theorem openSpanUpT_eq : ∀ (above : List Span) (sp : Span), openSpanUpT sp above = saveSpansLoopT sp above := by
  intro above
  induction above with
  | nil => intro sp; rfl
  | cons p rest ih =>
    intro sp
    rw [openSpanUpT, saveSpansLoopT]
    congr
    funext s
    exact ih s

theorem openSpanLoopT_asks (v : Variable) (rows cols : Nat) : ∀ (above : List Span) (l sp : Span) (log : Saved),
    Asks (openSpanLoopT v rows cols l sp above) log fun x _ n => n + x.2.length ≤ above.length + 2 := by
  intro above
  induction above with
  | nil =>
    intro l sp log
    refine (Span.appendT_asks _ _).bind ?_
    rintro root log' _ - - - h1
    refine (Span.appendT_asks _ _).bind ?_
    rintro root log'' _ - - - h2
    exact Task.Asks.pure (by simp only [List.length_nil]; omega)
  | cons p rest ih =>
    intro l sp log
    unfold openSpanLoopT
    split
    · refine (Span.appendT_asks _ _).bind ?_
      rintro sp' log' _ - - - h1
      refine (ih p sp' log').mono ?_
      intro x _ n h
      simp only [List.length_cons]
      omega
    · refine (Span.appendT_asks _ _).bind ?_
      rintro sp' log' _ - - - h1
      exact Task.Asks.pure (by simp only [List.length_cons]; omega)

theorem Variable.createOpenSpanT_asks {fuel : Nat} {v : Variable} {rows cols : Nat} {D : Nat}
    (h : ∀ l log', v.tailSpans H utf8 fuel log = (.ok l, log') → log'.NoCollision H → l.length ≤ D) :
    Asks (v.createOpenSpanT fuel rows cols) log fun _ _ n => n ≤ 2 * D + 1 := by
  refine (Variable.tailSpansT_asks fuel v).bind ?_
  rintro l log' _ e hnc - ⟨rfl, rfl⟩
  rw [Variable.tailSpans_run] at e
  have hl := h l _ e hnc
  cases l with
  | nil => exact Task.Asks.fail
  | cons leaf rest =>
    simp only [List.length_cons] at hl ⊢
    refine (openSpanLoopT_asks v rows cols rest leaf _ log').bind ?_
    rintro x log'' n - - - hn
    rw [openSpanUpT_eq]
    refine (saveSpansLoopT_asks _ _ _).bind ?_
    rintro sp log3 k - - - hk
    refine (Task.Asks.saveItem _).bind ?_
    rintro cid log4 _ - - - rfl
    exact Task.Asks.pure (by omega)

/-! ### Variables -/

theorem Task.Asks.buildChunk {levels : List Nat} {b : MMBuffer3} {n rows cols : Nat} :
    Asks (Task.buildChunk H clog lg levels b n rows cols) log fun _ _ k => k = 0 := by
  intro m log' e _
  refine ⟨0, ?_, rfl⟩
  unfold Task.buildChunk
  split
  · exact Nat.le_refl _
  · split
    · exact Nat.le_refl _
    · exact Nat.le_refl _

variable {T : VarTheory} {fuel : Nat}

theorem Variable.openIfFullT_asks {v : Variable} {sp : Span} {rest : List Span} {a n D : Nat}
    (hf : 32 ≤ fuel) (h1 : v.chunkSize = T.cs) (h2 : v.spanSize = T.ss)
    (h3 : v.encoding = T.enc) (ht : Tree H T log 0 sp a n n) (hc : Chain H T log 0 rest a)
    (hs : T.stride rest.length ≤ T.B) (hta : T.Tall rest.length a) (hn : a + n ≤ T.B)
    (hD : a + n ≤ T.stride D) : Asks (v.openIfFullT fuel T.rows T.cols sp rest) log fun _ _ k =>
      k ≤ if n = T.stride 1 then 4 * D + 4 else 0 := by
  unfold Variable.openIfFullT
  have hst : v.spanSize * sp.stride = T.stride 1 := by
    rw [h2, ht.shaped.stride, ← T.stride_succ]
  rw [hst, ht.instants]
  split
  · rename_i hfull
    subst hfull
    have hr := hta.le (D := D) (by omega)
    refine (Variable.saveSpansT_asks v (sp :: rest)).bind ?_
    rintro v1 log1 k1 e1 hnc1 - hk1
    rw [Variable.saveSpans_run] at e1
    obtain ⟨v1', log1', e1', hv1, -⟩ := (Variable.saveSpans_sat (w := False) (utf8 := utf8) h1 h2 h3 ht hc hs hta hn).ok
      (by rw [e1]; exact hnc1)
    rw [e1] at e1'
    cases e1'
    refine (Variable.createOpenSpanT_asks (D := D + 1)
      (fun l log' e _ => Variable.tailSpans_deep hf hv1 hD hnc1 e)).bind ?_
    rintro v2 log2 k2 e2 hnc2 - hk2
    rw [Variable.createOpenSpan_run] at e2
    obtain ⟨v2', log2', e2', hv2, -⟩ := (Variable.createOpenSpan_sat (w := False) (utf8 := utf8) hf hv1 hn).ok
      (by rw [e2]; exact hnc2)
    rw [e2] at e2'
    cases e2'
    refine (Variable.tailSpansT_asks fuel v2).bind ?_
    rintro l log3 _ e3 hnc3 - ⟨rfl, rfl⟩
    rw [Variable.tailSpans_run] at e3
    have hl := Variable.tailSpans_deep hf hv2 hD hnc2 e3
    cases l with
    | nil => exact Task.Asks.fail
    | cons sp3 rest3 =>
      simp only [List.length_cons] at hl hk1 ⊢
      split
      · exact Task.Asks.pure (by omega)
      · exact Task.Asks.fail
  · exact Task.Asks.pure (Nat.zero_le _)

variable {w : Prop}

/-- What is known of how an operation ends. -/
theorem Task.Asks.and_sat {t : Task α} {Q : α → Saved → Nat → Prop} {P : α → Saved → Prop} (h : Asks t log Q)
    (hs : Sat w H (run t) log P) : Asks t log fun a l n => Q a l n ∧ P a l := by
  intro a log' e hnc
  obtain ⟨n, h1, h2⟩ := h a log' e hnc
  refine ⟨n, h1, h2, ?_⟩
  rcases hs (by rw [e]; exact hnc) with ⟨a', l', e', hp⟩ | ⟨-, f, l', e'⟩
  · rw [e] at e'
    cases e'
    exact hp
  · rw [e] at e'
    cases congrArg Prod.fst e'

/-- How many objects the loop over the chunks asks for; the last span has `q` chunks, and `o` spans are opened. -/
theorem appendLoopT_asks {levels : List Nat} {b : MMBuffer3} {A n D : Nat} (hf : 32 ≤ fuel)
    (hb : ChunksOk w H clog lg T levels b A n) (hB : A + n ≤ T.B) (hD : A + n ≤ T.stride D) :
    ∀ (r s : Nat) (log : Saved) (v : Variable) (sp : Span) (rest : List Span) (a nl q : Nat),
    (∀ j, j < s + r ↔ j * T.cs < n) ∨ r = 0 →
    v.chunkSize = T.cs → v.spanSize = T.ss → v.k2Levels = levels → v.encoding = T.enc →
    Tree H T log 0 sp a nl nl → Chain H T log 0 rest a → T.stride rest.length ≤ T.B →
    a + nl = A + min (s * T.cs) n → (r = 0 → n ≤ s * T.cs) → (r ≠ 0 → nl = q * T.cs) →
    T.Tall rest.length a → (1 ≤ a + nl → 1 ≤ nl) →
    Asks (Variable.appendLoopT H clog lg fuel b n T.rows T.cols
      ((List.range' s r).map (· * T.cs)) v (sp :: rest) false) log fun x log' k =>
        LoopEnd H T v (A + n) x log' ∧ ∃ o, o * T.ss ≤ q + r - 1 ∧ k ≤ r + o * (4 * D + 4) := by
  intro r
  induction r with
  | zero =>
    intro s log v sp rest a nl q _ h1 h2 _ _ ht hc hs ha hr hq hta hnl
    clear hq
    have := hr rfl
    exact Task.Asks.pure ⟨⟨sp, rest, a, nl, rfl, ht, hc, hs, by omega, ⟨v.cid, rfl⟩, hta, fun h => hnl (by omega)⟩,
      0, by omega, by omega⟩
  | succ r ih =>
    intro s log v sp rest a nl q hcount h1 h2 h3 h4 ht hc hs ha _ hq hta hnl
    have hcount : ∀ j, j < s + (r + 1) ↔ j * T.cs < n := by
      rcases hcount with h | h
      · exact h
      · omega
    have hq := hq (Nat.succ_ne_zero r)
    subst hq
    have hsn : s * T.cs < n := (hcount s).1 (by omega)
    have hsucc : (s + 1) * T.cs = s * T.cs + T.cs := Nat.succ_mul s T.cs
    have hcs := T.cs_pos
    rw [List.range'_succ, List.map_cons]
    unfold Variable.appendLoopT
    refine (Task.Asks.buildChunk.and_sat (w := w) (by
      rw [Task.run_buildChunk, h1, h3]; exact hb s log hsn)).bind ?_
    rintro chunk log1 _ - - hs1 ⟨rfl, hK⟩
    refine ((Variable.openIfFullT_asks (D := D) hf h1 h2 h4 (ht.mono hs1) (hc.mono hs1) hs hta (by omega)
      (by omega)).and_sat (w := False) (by
        rw [Variable.openIfFull_run]
        exact Variable.openIfFull_sat hf h1 h2 h4 (ht.mono hs1) (hc.mono hs1) hs hta (by omega))).bind ?_
    rintro ⟨v2, sp2, rest2⟩ log2 k2 - - hs2 ⟨hk2, a2, n2, ⟨cid2, rfl⟩, e1, e2, e3, e4, e5, e6, e7, e8⟩
    simp only at e1 e2 e3
    have hst : T.stride 1 = T.ss * T.cs := by rw [T.stride_succ 0, T.stride_zero]
    -- whether a span had to be opened
    obtain ⟨q2, op, rfl, hop, hk2⟩ : ∃ q2 op, n2 = q2 * T.cs ∧ q2 + op * T.ss = q ∧
        k2 ≤ op * (4 * D + 4) := by
      rcases Nat.lt_or_ge (q * T.cs) (T.stride 1) with h | h
      · rw [if_neg (by omega)] at hk2
        exact ⟨q, 0, e6 h, by omega, by omega⟩
      · have hle := ht.le
        rw [Nat.zero_add] at hle
        have heq : q * T.cs = T.stride 1 := by omega
        rw [if_pos heq] at hk2
        rw [hst] at heq
        have hqs := Nat.eq_of_mul_eq_mul_right hcs heq
        exact ⟨0, 1, by rw [e7 (by omega), Nat.zero_mul], by omega, by omega⟩
    have hq2 : q2 < T.ss := by
      rw [hst] at e5
      exact Nat.lt_of_mul_lt_mul_right e5
    have hmin : min T.cs (n - s * T.cs) ≤ T.cs := Nat.min_le_left _ _
    refine ((Span.addChunkT_asks false sp2 chunk).and_sat (w := w) (P := fun sp' log' => log2 ⊆ log' ∧
        Tree H T log' 0 sp' a2 (q2 * T.cs + min T.cs (n - s * T.cs)) (q2 * T.cs + min T.cs (n - s * T.cs))) ?_).bind ?_
    · rw [Span.addChunk_run]
      refine Span.append_chunk e1 hq2 ?_ (by omega) hmin fun sp' log' b1 b2 => ⟨b1, b2⟩
      have := T.mono hs2 hK
      rwa [show A + s * T.cs = a2 + q2 * T.cs by omega] at this
    · rintro sp' log3 k3 - - hs3 ⟨hk3, -, ht3⟩
      refine (ih (s + 1) log3 { v with cid := cid2 } sp' rest2 a2 _ (q2 + 1) ?_ h1 h2 h3 h4 ht3 (e2.mono hs3) e3
        (by omega) ?_ ?_ e8 (fun _ => by omega)).mono ?_
      · left
        intro j
        rw [← hcount j]
        omega
      · intro hr0
        have := hcount (s + 1)
        have h9 : ¬ s + 1 < s + (r + 1) := by omega
        have h10 : ¬ (s + 1) * T.cs < n := fun h => h9 (this.2 h)
        omega
      · intro hr0
        have := (hcount (s + 1)).1 (by omega)
        rw [Nat.succ_mul]
        omega
      · rintro x log4 k4 ⟨⟨spx, restx, ax, nx, b1, b2, b3, b4, b5, ⟨cid, b6⟩, b7⟩, o, ho, hl⟩
        refine ⟨⟨spx, restx, ax, nx, b1, b2, b3, b4, b5, ⟨cid, b6⟩, b7⟩, o + op, ?_, ?_⟩
        · rw [Nat.add_mul]
          omega
        · rw [Nat.add_mul o op]
          omega

/-- How many objects an append to a variable asks for. -/
theorem Variable.appendT_asks {v : Variable} {levels : List Nat} {b : MMBuffer3}
    {N tl A n D : Nat} {update : Bool} (hf : 32 ≤ fuel)
    (hv : VarInv H T log v N tl) (hN : N ≤ T.B) (hl : v.k2Levels = levels)
    (hb : ChunksOk w H clog lg T levels b A n) (hB : A + n ≤ T.B) (hD : A + n ≤ T.stride D)
    (hND : N ≤ T.stride D) (hu : if update then A + tl % T.cs = N ∧ tl % T.cs ≠ 0 ∧ 1 ≤ n else A = N ∧ tl % T.cs = 0) :
    Asks (v.appendT H clog lg fuel b n T.rows T.cols update) log (fun _ _ k =>
      ∃ o, o * T.ss ≤ T.ss + (n + T.cs - 1) / T.cs - 1 ∧
        k ≤ (n + T.cs - 1) / T.cs + o * (4 * D + 4) + 2 * D + 1) := by
  have hcs := T.cs_pos
  have h1 := hv.chunkSize
  have h2 := hv.spanSize
  have h4 := hv.encoding
  have hst : T.stride 1 = T.ss * T.cs := by rw [T.stride_succ 0, T.stride_zero]
  unfold Variable.appendT
  refine ((Variable.tailSpansT_asks fuel v).and_sat (w := False) (by
    rw [Variable.tailSpans_run]; exact Variable.tailSpans_sat hf hv.toOpen)).bind ?_
  rintro _ log _ e hnc0 - ⟨⟨rfl, rfl⟩, -, leaf, rest, a, rfl, c1, c2, c3, c4, c5⟩
  rw [Variable.tailSpans_run] at e
  have hdeep := Variable.tailSpans_deep hf hv.toOpen hND hnc0 e
  have htail := hv.tail
  rw [if_neg (by omega), h1]
  have hle := c1.le
  rw [Nat.zero_add, hst] at hle
  refine Task.Asks.bind (Q := fun x log' k => LoopEnd H T v (A + n) x log' ∧
      ∃ o, o * T.ss ≤ T.ss + (n + T.cs - 1) / T.cs - 1 ∧
        k ≤ (n + T.cs - 1) / T.cs + o * (4 * D + 4)) ?_ ?_
  · rw [List.range_eq_range']
    cases update with
    | false =>
      simp only [Bool.false_eq_true, if_false] at hu
      have hdm := Nat.div_add_mod tl T.cs
      rw [Nat.mul_comm] at hdm
      refine (appendLoopT_asks hf hb hB hD _ 0 log v leaf rest a tl (tl / T.cs) (Or.inl fun j => ?_) h1 h2 hl h4 c1
        c2.chain c4 (by omega) ?_ (fun _ => ?_) c5 (fun h => htail (by omega))).mono ?_
      · rw [Nat.zero_add]; exact count_lt hcs n j
      · intro h0
        by_contra hc
        have := (count_lt hcs n 0).2 (by omega)
        omega
      · omega
      · rintro x log' k ⟨g1, o, g2, g3⟩
        have : tl / T.cs ≤ T.ss := Nat.le_of_mul_le_mul_right (Nat.le_trans (Nat.div_mul_le_self _ _) hle) hcs
        exact ⟨g1, o, by omega, g3⟩
    | true =>
      simp only [if_true] at hu
      obtain ⟨u1, u2, u3⟩ := hu
      have hc0 := (count_lt hcs n 0).2 (by omega)
      have hcount : ∀ j, j < (n + T.cs - 1) / T.cs ↔ j * T.cs < n := count_lt hcs n
      obtain ⟨r, hr⟩ : ∃ r, (n + T.cs - 1) / T.cs = r + 1 := ⟨(n + T.cs - 1) / T.cs - 1, by omega⟩
      rw [hr] at hcount ⊢
      rw [List.range'_succ, List.map_cons]
      have hdm := Nat.div_add_mod tl T.cs
      have hmlt := Nat.mod_lt tl (show 0 < T.cs by omega)
      rw [Nat.mul_comm] at hdm
      generalize hp : tl % T.cs = p at *
      generalize hqd : tl / T.cs = q at *
      have htl : tl < T.stride 1 := by
        rw [hst]
        rcases Nat.lt_or_ge tl (T.ss * T.cs) with h | h
        · exact h
        · have h8 : tl = T.ss * T.cs := by omega
          rw [h8, Nat.mul_mod_left] at hp
          omega
      have hqs : q < T.ss := by
        rw [hst] at htl
        exact Nat.lt_of_mul_lt_mul_right (a := T.cs) (by omega)
      unfold Variable.appendLoopT
      refine (Task.Asks.buildChunk.and_sat (w := w) (by
        rw [Task.run_buildChunk, h1, hl]; exact hb 0 log (by omega))).bind ?_
      rintro chunk log1 _ - - hs1 ⟨rfl, hK⟩
      refine ((Variable.openIfFullT_asks (D := D) hf h1 h2 h4 (c1.mono hs1) (c2.chain.mono hs1) c4 c5 (by omega)
        (by omega)).and_sat (w := False) (by
          rw [Variable.openIfFull_run]
          exact Variable.openIfFull_sat hf h1 h2 h4 (c1.mono hs1) (c2.chain.mono hs1) c4 c5 (by omega))).bind ?_
      rintro ⟨v2, sp2, rest2⟩ log2 k2 - - hs2 ⟨hk2, a2, n2, ⟨cid2, rfl⟩, e1, e2, e3, e4, e5, e6, e7, e8⟩
      simp only at e1 e2 e3
      rw [if_neg (by omega)] at hk2
      have hn2 := e6 htl
      subst hn2
      have ha2 : a2 = a := by omega
      subst ha2
      rw [← hdm] at e1
      refine ((Span.addChunkT_asks true sp2 chunk).and_sat (w := w) (P := fun sp' log' => log2 ⊆ log' ∧
          Tree H T log' 0 sp' a2 (q * T.cs + min T.cs (n - 0 * T.cs)) (q * T.cs + min T.cs (n - 0 * T.cs))) ?_).bind ?_
      · rw [Span.addChunk_run]
        refine Span.update_chunk e1 (by omega) hmlt ?_ (by omega) (by omega) fun sp' log' b1 b2 => ⟨b1, b2⟩
        have := T.mono hs2 hK
        rwa [show A + 0 * T.cs = a2 + q * T.cs by omega] at this
      · rintro sp' log3 k3 - - hs3 ⟨hk3, -, ht3⟩
        refine (appendLoopT_asks hf hb hB hD r 1 log3 { v with cid := cid2 } sp' rest2 a2 _ (q + 1) (Or.inl ?_) h1 h2
          hl h4 ht3 (e2.mono hs3) e3 (by omega) ?_ ?_ e8 (fun _ => by omega)).mono ?_
        · intro j
          rw [← hcount j]
          omega
        · intro hr0
          have := hcount 1
          have h9 : ¬ 1 < r + 1 := by omega
          have h10 : ¬ 1 * T.cs < n := fun h => h9 (this.2 h)
          omega
        · intro hr0
          have := (hcount 1).1 (by omega)
          rw [Nat.succ_mul]
          omega
        · rintro x log4 k4 ⟨⟨spx, restx, ax, nx, b1, b2, b3, b4, b5, ⟨cid, b6⟩, b7⟩, o, ho, hlen⟩
          exact ⟨⟨spx, restx, ax, nx, b1, b2, b3, b4, b5, ⟨cid, b6⟩, b7⟩, o, by omega, by omega⟩
  · rintro x log1 k - - hs1 ⟨⟨sp', rest', a', n', e1, e2, e3, e4, e5, ⟨cid, e6⟩, e7, e8⟩, o, ho, hlen⟩
    rw [e1]
    refine (Variable.saveSpansT_asks _ _).mono ?_
    rintro v' log2 k2 hk
    have := e7.le (D := D) (by omega)
    refine ⟨o, ho, ?_⟩
    simp only [List.length_cons] at hk hdeep ⊢
    omega

/-- How many objects the search for the last chunk asks for. -/
theorem Variable.tailDataT_asks {v : Variable} {N tl D : Nat} (hf : 32 ≤ fuel)
    (hv : VarInv H T log v N tl) (hND : N ≤ T.stride D) : Asks (v.tailDataT fuel) log fun _ _ n => n ≤ D + 2 := by
  unfold Variable.tailDataT
  refine (Variable.tailSpansT_asks fuel v).bind ?_
  rintro l log' _ e hnc - ⟨rfl, rfl⟩
  rw [Variable.tailSpans_run] at e
  have hl := Variable.tailSpans_deep hf hv.toOpen hND hnc e
  cases l with
  | nil => exact Task.Asks.fail
  | cons leaf rest =>
    simp only [List.length_cons] at hl ⊢
    cases leaf.spans.getLast? with
    | none => exact Task.Asks.pure (by omega)
    | some cid =>
      refine (Task.Asks.getStruct cid).bind ?_
      rintro m _ _ - - - ⟨rfl, rfl⟩
      refine Task.Asks.ofOption.bind ?_
      rintro s _ _ - - - ⟨rfl, rfl, -⟩
      split <;> exact Task.Asks.pure (by omega)

theorem Task.Asks.filled {m : MMStruct3} {k : Calls → Task α} {Q : α → Saved → Nat → Prop}
    (h : ∀ c, Asks (k c) log Q) : Asks (Task.fill m k) log Q := by
  intro a log' e hnc
  rw [Task.run_fill] at e
  rw [Task.loads_fill]
  cases hr : (fill m (log.load H)).2 with
  | some f => rw [hr] at e; cases congrArg Prod.fst e
  | none =>
    rw [hr] at e
    exact h _ a log' e hnc

/-- How many objects an append of an array to a variable asks for, besides those of the last chunk. -/
theorem Variable.appendArrayT_asks {v : Variable} {levels : List Nat} {data : NdArray}
    {N tl n D : Nat} (hf : 32 ≤ fuel)
    (hv : VarInv H T log v N tl) (hl : v.k2Levels = levels) (hB : N + n ≤ T.B) (hD : N + n ≤ T.stride D)
    (hb : ∀ b A m, ChunksOk True H clog lg T levels b A m) (rows cols : Nat) :
    Asks (v.appendArrayT H clog lg fuel data n rows cols) log (fun _ _ k =>
      ∃ o, o * T.ss ≤ T.ss + (N % T.cs + n + T.cs - 1) / T.cs - 1 ∧
        k ≤ (N % T.cs + n + T.cs - 1) / T.cs + o * (4 * D + 4) + 3 * D + 3) := by
  have hmod := hv.tail_mod
  have hcs := T.cs_pos
  by_cases hz : n = 0 ∨ (rows = T.rows ∧ cols = T.cols)
  · unfold Variable.appendArrayT
    refine ((Variable.tailDataT_asks hf hv (D := D) (by omega)).and_sat (w := False) (by
      rw [Variable.tailData_run]; exact Variable.tailData_sat hf hv)).bind ?_
    rintro o _ k - - - ⟨hk, rfl, ho⟩
    split at ho
    · subst ho
      rename_i h
      rw [← hmod, h, Nat.zero_add]
      have hrc : v.appendT H clog lg fuel (data.buffer v.round) n rows cols false =
          v.appendT H clog lg fuel (data.buffer v.round) n T.rows T.cols false := by
        rcases hz with rfl | ⟨rfl, rfl⟩
        · unfold Variable.appendT
          congr 1
          funext spans
          have : (0 + v.chunkSize - 1) / v.chunkSize = 0 := Nat.div_eq_of_lt (by rw [hv.chunkSize]; omega)
          rw [this]
          rfl
        · rfl
      rw [hrc]
      refine (Variable.appendT_asks hf hv (by omega) hl (hb _ _ _) hB hD (by omega) (by simp [h])).mono ?_
      rintro _ _ k' ⟨o, h1, h2⟩
      exact ⟨o, h1, by omega⟩
    · rename_i h
      obtain ⟨m, cid, rfl, hk', hK, hle⟩ := ho
      simp only
      refine Task.Asks.ofOption.bind ?_
      rintro shape _ _ - - - ⟨rfl, rfl, hsh⟩
      rw [T.shape hK] at hsh
      cases hsh
      refine Task.Asks.filled fun calls => ?_
      simp only
      split
      · exact Task.Asks.fail
      · rename_i hrc
        have hr : T.rows = rows := by by_contra hc; exact hrc (.inl hc)
        have hc : T.cols = cols := by by_contra hc; exact hrc (.inr hc)
        subst hr hc
        rw [← hmod]
        refine (Variable.appendT_asks (A := N - tl % T.cs) (D := D) hf hv (by omega) hl (hb _ _ _) (by omega) (by omega)
          (by omega) ?_).mono ?_
        · simp only [if_true]
          exact ⟨by omega, h, by omega⟩
        · rintro _ _ k' ⟨o, h1, h2⟩
          exact ⟨o, h1, by omega⟩
  · intro a log' e hnc
    rw [Variable.appendArray_run] at e
    have hne : rows ≠ T.rows ∨ cols ≠ T.cols := by
      by_contra h
      simp only [not_or, not_not] at h
      exact hz (.inr h)
    rcases Variable.appendArray_other (utf8 := utf8) (clog := clog) (lg := lg) (data := data) (n := n)
      (fill := fill) hf hv (by omega) hne (by rw [e]; exact hnc) with ⟨_, _, -, h0, -⟩ | ⟨-, f, l, e'⟩
    · exact absurd (.inl h0) hz
    · rw [e] at e'
      cases congrArg Prod.fst e'

/-- How many objects an append asks for, besides those of the last chunk. -/
theorem HistInv.appendT_asks {levels : List Nat} {round : Option Nat} (hf : 32 ≤ fuel)
    {name : List Byte} {d : Dataset} {M D : Nat} {data : NdArray} {n : Nat}
    (hi : HistInv H utf8 T levels round name (d, log) M) (hB : M + n ≤ T.B) (hD : M + n ≤ T.stride D)
    (hb : ∀ b A m, ChunksOk True H clog lg T levels b A m) (rows cols : Nat) :
    Asks (d.appendT H clog lg fuel name data n rows cols) log (fun _ _ k =>
      ∃ o, o * T.ss ≤ T.ss + (M % T.cs + n + T.cs - 1) / T.cs - 1 ∧
        k ≤ (M % T.cs + n + T.cs - 1) / T.cs + o * (4 * D + 4) + 3 * D + 3) := by
  obtain ⟨-, -, -, v, tl, h1, h2, h0, h3⟩ := hi
  unfold Dataset.appendT
  change d.findVariable name = some v at h1
  rw [h1]
  refine (Variable.appendArrayT_asks hf h3 h2 hB hD hb rows cols).bind ?_
  rintro _ log' k - - - h
  exact Task.Asks.pure h

/-! ### What it depends on -/

theorem Saved.load_append_at {new log log0 : Saved} {c : Cid} (h : log0.load H c = log.load H c) :
    Saved.load H (new ++ log0) c = Saved.load H (new ++ log) c := by
  unfold Saved.load at *
  rw [List.find?_append, List.find?_append, h]

theorem Store.retrieve_at {st st' : Store} {cid : Cid} (h : st' cid = st cid) :
    st'.retrieve utf8 cid = st.retrieve utf8 cid := by
  unfold Store.retrieve
  rw [h]

/-- An operation depends on nothing but what it asks for: with another store that agrees on that, the result is the
same, and so is what is saved. -/
theorem Task.run_local {t : Task α} (hf : t.Fillless) (log log0 : Saved) : ∀ new : Saved,
    (∀ c ∈ loads t (new ++ log), log0.load H c = log.load H c) →
    ∃ r new', run t (new ++ log) = (r, new' ++ log) ∧ run t (new ++ log0) = (r, new' ++ log0) := by
  induction t with
  | done r => exact fun new _ => ⟨r, new, by cases r <;> rfl, by cases r <;> rfl⟩
  | load cid k ih =>
    intro new h
    rw [Task.loads_load] at h
    have hr := Store.retrieve_at (utf8 := utf8) (Saved.load_append_at (new := new) (h cid (List.mem_cons_self ..)))
    rw [Task.run_load, Task.run_load, hr]
    cases hx : (Saved.load H (new ++ log)).retrieve utf8 cid with
    | error f => exact ⟨.error f, new, rfl, rfl⟩
    | ok x =>
      rw [hx] at h
      exact ih x (hf x) new fun c hc => h c (List.mem_cons_of_mem _ hc)
  | save b k ih => exact fun new h => ih _ (hf _) (b :: new) h
  | saveAll bs t ih =>
    intro new h
    have := ih hf (bs ++ new) (by rw [List.append_assoc]; exact h)
    rw [List.append_assoc, List.append_assoc] at this
    exact this
  | fill m k ih => exact hf.elim
  | filling since m k ih => exact hf.elim

/-- An append of an array depends on nothing but what it asks for and what it reads of the last chunk. -/
theorem Variable.appendArrayT_local {v : Variable} {data : NdArray} {N tl n rows cols : Nat} (hf : 32 ≤ fuel)
    (hv : VarInv H T log v N tl) {v' : Variable} {log' : Saved}
    (e : run (v.appendArrayT H clog lg fuel data n rows cols) log = (.ok v', log')) (hnc : log'.NoCollision H) :
    ∃ new, log' = new ++ log ∧ (tl % T.cs = 0 ∧ (∀ log0 : Saved,
        (∀ c ∈ loads (v.appendArrayT H clog lg fuel data n rows cols) log, log0.load H c = log.load H c) →
        run (v.appendArrayT H clog lg fuel data n rows cols) log0 = (.ok v', new ++ log0)) ∨
      tl % T.cs ≠ 0 ∧ ∃ m, T.K log m (N - tl % T.cs) (tl % T.cs) ∧ ∀ log0 : Saved,
        (∀ c ∈ loads (v.appendArrayT H clog lg fuel data n rows cols) log, log0.load H c = log.load H c) →
        fill m (log0.load H) = fill m (log.load H) →
        run (v.appendArrayT H clog lg fuel data n rows cols) log0 = (.ok v', new ++ log0)) := by
  obtain ⟨g, hg, g1, g2⟩ : ∃ g, v.appendArrayT H clog lg fuel data n rows cols = v.tailDataT fuel >>= g ∧
      g none = v.appendT H clog lg fuel (data.buffer v.round) n rows cols false ∧
      ∀ tail, g (some tail) = (Task.ofOption tail.shape >>= fun shape => Task.fill tail fun calls =>
        if shape.2.1 ≠ rows ∨ shape.2.2 ≠ cols then Task.fail .panic
        else v.appendT H clog lg fuel ((data.prepend shape.1 calls).buffer v.round) (shape.1 + n) rows cols true) :=
    ⟨_, rfl, rfl, fun _ => rfl⟩
  rw [hg] at e ⊢
  rw [Task.run_bind] at e
  obtain ⟨o, log1, e1, e2⟩ := Prog.ok_bind e
  have hsub := Task.run_mono (H := H) (utf8 := utf8) (fill := fill) (g o) log1
  rw [e2] at hsub
  have hnc1 := NoCollision.mono hsub hnc
  have hl := Task.loads_bind _ g _ _ _ e1
  have e1' := e1
  rw [Variable.tailData_run] at e1'
  obtain ⟨o', log1', e1'', rfl, ho⟩ := (Variable.tailData_sat (w := False) (utf8 := utf8) hf hv).ok
    (by rw [e1']; exact hnc1)
  rw [e1'] at e1''
  cases e1''
  -- the first part
  have first : ∀ log0 : Saved, (∀ c ∈ loads (v.tailDataT fuel) log, log0.load H c = log.load H c) →
      run (v.tailDataT fuel) log0 = (.ok o, log0) := by
    intro log0 h0
    obtain ⟨r, new', r1, r2⟩ := Task.run_local (Variable.tailDataT_fillless fuel v) log log0 [] h0
    rw [List.nil_append] at r1 r2
    rw [e1] at r1
    have : new' = [] := by
      have := congrArg (List.length ∘ Prod.snd) r1
      simp only [Function.comp, List.length_append] at this
      exact List.eq_nil_of_length_eq_zero (by omega)
    subst this
    obtain ⟨rfl, -⟩ := Prod.mk.inj r1
    exact r2
  split at ho
  · subst ho
    rename_i h
    rw [g1] at e2 hl
    obtain ⟨r, new, r1, -⟩ := Task.run_local (H := H) (utf8 := utf8) (fill := fill)
      (Variable.appendT_fillless (H := H) (clog := clog) (lg := lg) fuel v (data.buffer v.round) n rows cols false) log log
      [] fun _ _ => rfl
    rw [List.nil_append, e2] at r1
    cases r1
    refine ⟨new, rfl, .inl ⟨h, fun log0 h0 => ?_⟩⟩
    rw [hl] at h0
    rw [Task.run_bind]
    change Prog.bind (run (v.tailDataT fuel)) _ log0 = _
    unfold Prog.bind
    rw [first log0 fun c hc => h0 c (List.mem_append_left _ hc)]
    change run (g none) log0 = _
    rw [g1]
    obtain ⟨r', new', r2, r3⟩ := Task.run_local (H := H) (utf8 := utf8) (fill := fill)
      (Variable.appendT_fillless (H := H) (clog := clog) (lg := lg) fuel v (data.buffer v.round) n rows cols false) log log0
      [] fun c hc => h0 c (List.mem_append_right _ hc)
    rw [List.nil_append] at r2 r3
    rw [e2] at r2
    obtain ⟨rfl, hn⟩ := Prod.mk.inj r2
    rw [r3, List.append_cancel_right hn]
  · rename_i h
    obtain ⟨m, cid, rfl, hk', hK, hle⟩ := ho
    have hsh := T.shape hK
    rw [g2, hsh] at e2 hl
    change run (Task.fill m _) log = _ at e2
    rw [Task.run_fill] at e2
    cases hr : (fill m (log.load H)).2 with
    | some f => rw [hr] at e2; cases congrArg Prod.fst e2
    | none =>
    rw [hr] at e2
    simp only at e2
    split at e2
    · cases congrArg Prod.fst e2
    rename_i hrc
    have hfl := Variable.appendT_fillless (H := H) (clog := clog) (lg := lg) fuel v
      ((data.prepend (tl % T.cs) (fill m (log.load H)).1).buffer v.round) (tl % T.cs + n) rows cols true
    obtain ⟨r, new, r1, -⟩ := Task.run_local (H := H) (utf8 := utf8) (fill := fill) hfl log log [] fun _ _ => rfl
    rw [List.nil_append, e2] at r1
    cases r1
    refine ⟨new, rfl, .inr ⟨h, m, hK, fun log0 h0 hfm => ?_⟩⟩
    rw [hl] at h0
    rw [Task.run_bind]
    change Prog.bind (run (v.tailDataT fuel)) _ log0 = _
    unfold Prog.bind
    rw [first log0 fun c hc => h0 c (List.mem_append_left _ hc)]
    change run (g (some m)) log0 = _
    rw [g2, hsh]
    change run (Task.fill m _) log0 = _
    rw [Task.run_fill, hfm, hr]
    simp only
    rw [if_neg hrc]
    obtain ⟨r', new', r2, r3⟩ := Task.run_local (H := H) (utf8 := utf8) (fill := fill) hfl log log0 [] fun c hc => by
      refine h0 c (List.mem_append_right _ ?_)
      change c ∈ loads (Task.fill m _) log
      rw [Task.loads_fill, hr]
      simp only
      rw [if_neg hrc]
      exact hc
    rw [List.nil_append] at r2 r3
    rw [e2] at r2
    obtain ⟨rfl, hn⟩ := Prod.mk.inj r2
    rw [r3, List.append_cancel_right hn]

end

end Verif
