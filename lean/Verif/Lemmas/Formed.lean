import Verif.Lemmas.Rooted

/-! The shape of the spans of a variable, in all executions. -/
namespace Verif

open Reader

/-! ### What is not a span is not read as one -/

/-- All that a reader gives has some property. -/
def Only {α : Type} (r : Reader α) (P : α → Prop) : Prop := ∀ s a s', r s = .ok (a, s') → P a

theorem Only.bind {α β : Type} {r : Reader α} {f : α → Reader β} {P : β → Prop} (h : ∀ a, Only (f a) P) :
    Only (Reader.bind r f) P := by
  intro s b s' e
  unfold Reader.bind at e
  cases h1 : r s with
  | error x => rw [h1] at e; cases e
  | ok x => rw [h1] at e; exact h _ _ _ _ e

theorem Only.pure {α : Type} {a : α} {P : α → Prop} (h : P a) : Only (Reader.pure a) P := by
  intro s b s' e
  cases e
  exact h

theorem Only.superchunk (node : Reader MMStruct3) :
    Only (SuperHead.readWith node) fun m => ∀ sp, m ≠ .span sp := by
  unfold SuperHead.readWith
  refine Only.bind fun _ => Only.bind fun _ => Only.bind fun _ => Only.bind fun _ => Only.bind fun _ =>
    Only.bind fun _ => Only.bind fun _ => Only.bind fun _ => Only.bind fun _ => Only.bind fun _ =>
    Only.bind fun _ => Only.bind fun _ => Only.bind fun _ => Only.bind fun _ => Only.bind fun _ =>
    Only.bind fun _ => Only.bind fun _ => Only.pure ?_
  intro sp h
  cases h

theorem MMStruct3.read_other {t : Byte} (ht : t ≠ 3) (rest : List Byte) (m : MMStruct3) (s' : List Byte)
    (h : MMStruct3.read (writeByte t ++ rest) = .ok (m, s')) (sp : Span) : m ≠ .span sp := by
  unfold MMStruct3.read MMStruct3.readFuel at h
  have h2 := (bind_ok (readByte_rt t)).symm.trans h
  by_cases h4 : t = 4
  · subst h4
    exact (Only.bind (P := fun m => ∀ sp, m ≠ .span sp) fun c => Only.pure fun sp h => by cases h) _ _ _ h2 sp
  · simp only [if_neg h4, if_neg ht] at h2
    split at h2
    · exact Only.superchunk _ _ _ _ h2 sp
    · cases h2

theorem Store.getStruct_other {utf8 : List Byte → Bool} {st : Store} {cid : Cid} {m m' : MMStruct3}
    (h : st cid = some (Item.struct m).bytes) (hm : ∀ sp, m ≠ .span sp)
    (hg : st.getStruct utf8 cid = .ok m') (sp : Span) : m' ≠ .span sp := by
  obtain ⟨t, rest, ht, e⟩ : ∃ t rest, t ≠ 3 ∧ m.write = writeByte t ++ rest := by
    cases m with
    | span s => exact absurd rfl (hm s)
    | subchunk c => exact ⟨4, _, by decide, by unfold MMStruct3.write; rfl⟩
    | superchunk hd loc => exact ⟨5, _, by decide, by unfold MMStruct3.write; rfl⟩
  unfold Store.getStruct Store.retrieve at hg
  rw [h] at hg
  simp only at hg
  have e1 : Item.read utf8 cid (Item.struct m).bytes =
      Reader.bind MMStruct3.read (fun m => Reader.pure (Item.struct m)) (writeByte t ++ rest) := by
    rw [← e]
    unfold Item.read Item.bytes
    exact (bind_ok (readHeader_rt 2)).trans rfl
  rw [e1] at hg
  unfold Reader.bind at hg
  cases hr : MMStruct3.read (writeByte t ++ rest) with
  | error x => rw [hr] at hg; cases hg
  | ok x =>
    rw [hr] at hg
    obtain rfl : x.1 = m' := Except.ok.inj hg
    exact MMStruct3.read_other ht rest x.1 x.2 hr sp

/-! ### Spans of one shape -/

open Prog hiding pure bind

/-- All spans that a structure consists of were saved and have some number of rows and columns. -/
inductive Formed (H : Hash) (log : Saved) (r c : Nat) : MMStruct3 → Prop
  | other {m : MMStruct3} (h : ∀ sp, m ≠ .span sp) : Formed H log r c m
  | span {sp : Span} (rows : sp.rows = r) (cols : sp.cols = c) (child : Cid → MMStruct3)
      (mem : ∀ cid ∈ sp.spans, (Item.struct (child cid)).bytes ∈ log)
      (cid : ∀ cid ∈ sp.spans, H.cidOf (Item.struct (child cid)).bytes = cid)
      (sub : ∀ cid ∈ sp.spans, Formed H log r c (child cid)) : Formed H log r c (.span sp)

section
variable {H : Hash} {utf8 : List Byte → Bool} {fuel : Nat} {log log' : Saved} {r c r' c' : Nat}

theorem Formed.mono (hs : log ⊆ log') {m : MMStruct3} (h : Formed H log r c m) : Formed H log' r c m := by
  induction h with
  | other h => exact .other h
  | span h1 h2 child h3 h4 _ ih => exact .span h1 h2 child (fun x hx => hs (h3 x hx)) h4 ih

theorem Formed.rows {sp : Span} (h : Formed H log r c (.span sp)) : sp.rows = r ∧ sp.cols = c := by
  cases h with
  | other h => exact absurd rfl (h sp)
  | span h1 h2 => exact ⟨h1, h2⟩

theorem Formed.new (rows cols stride : Nat) (e : MMEncoding) :
    Formed H log rows cols (.span (Span.new rows cols stride e)) :=
  .span rfl rfl (fun _ => .span (Span.new rows cols stride e)) (fun _ h => nomatch h) (fun _ h => nomatch h)
    (fun _ h => nomatch h)

theorem Formed.child {sp : Span} (h : Formed H log r c (.span sp)) {cid : Cid} (hc : cid ∈ sp.spans) :
    ∃ m, (Item.struct m).bytes ∈ log ∧ H.cidOf (Item.struct m).bytes = cid ∧ Formed H log r c m := by
  cases h with
  | other h => exact absurd rfl (h sp)
  | span _ _ child h3 h4 h5 => exact ⟨child cid, h3 cid hc, h4 cid hc, h5 cid hc⟩

/-- Fewer parts and other numbers. -/
theorem Formed.part {sp sp' : Span} (h : Formed H log r c (.span sp)) (hr : sp'.rows = r) (hc : sp'.cols = c)
    (hs : ∀ cid ∈ sp'.spans, cid ∈ sp.spans) : Formed H log r c (.span sp') := by
  cases h with
  | other h => exact absurd rfl (h sp)
  | span _ _ child h3 h4 h5 =>
    exact .span hr hc child (fun x hx => h3 x (hs x hx)) (fun x hx => h4 x (hs x hx)) fun x hx => h5 x (hs x hx)

theorem Formed.valid {sp : Span} (h : Formed H log r c (.span sp)) : ∀ cid ∈ sp.spans, cid.Valid := by
  intro cid hc
  obtain ⟨m, -, h2, -⟩ := h.child hc
  exact h2 ▸ H.valid _

/-- One part more. -/
theorem Formed.snoc {sp sp' : Span} {m : MMStruct3} {cid : Cid} (h : Formed H log r c (.span sp))
    (hm : Formed H log r c m) (h1 : (Item.struct m).bytes ∈ log) (h2 : H.cidOf (Item.struct m).bytes = cid)
    (hr : sp'.rows = r) (hc : sp'.cols = c) (hs : sp'.spans = sp.spans ++ [cid]) :
    Formed H log r c (.span sp') := by
  have hx : ∀ x ∈ sp'.spans, ∃ m, (Item.struct m).bytes ∈ log ∧ H.cidOf (Item.struct m).bytes = x ∧
      Formed H log r c m := by
    intro x hx
    rw [hs] at hx
    rcases List.mem_append.1 hx with hx | hx
    · exact h.child hx
    · obtain rfl := List.mem_singleton.1 hx
      exact ⟨m, h1, h2, hm⟩
  classical
  refine .span hr hc (fun x => if hx' : x ∈ sp'.spans then (hx x hx').choose else m) ?_ ?_ ?_
  · intro x hx'
    rw [dif_pos hx']
    exact (hx x hx').choose_spec.1
  · intro x hx'
    rw [dif_pos hx']
    exact (hx x hx').choose_spec.2.1
  · intro x hx'
    rw [dif_pos hx']
    exact (hx x hx').choose_spec.2.2

/-- What is not a span has any shape. -/
theorem Formed.to {m : MMStruct3} (h : Formed H log r' c' m) {n : Nat} (hs : m.shape = some (n, r, c)) :
    Formed H log r c m := by
  cases h with
  | other h => exact .other h
  | @span sp h1 h2 child h3 h4 h5 =>
    have hs : some (sp.instants, sp.rows, sp.cols) = some (n, r, c) := hs
    simp only [Option.some.injEq, Prod.mk.injEq] at hs
    obtain ⟨-, e1, e2⟩ := hs
    obtain rfl : r' = r := h1.symm.trans e1
    obtain rfl : c' = c := h2.symm.trans e2
    exact .span h1 h2 child h3 h4 h5

/-! ### Programs -/

/-- Reading a span that was saved. -/
theorem Formed.getSpan (hr : r < 2 ^ 32) (hc : c < 2 ^ 32) {cid : Cid} {m : MMStruct3}
    (h1 : (Item.struct m).bytes ∈ log) (h2 : H.cidOf (Item.struct m).bytes = cid) (h : Formed H log r c m) :
    Ends H (Prog.getSpan H utf8 cid) log fun s log' => log' = log ∧ Formed H log r c (.span s) := by
  intro s log' he hnc
  have hlog : log = log' := by
    have := congrArg Prod.snd he
    unfold Prog.getSpan at this
    change (Prog.bind (Prog.getStruct H utf8 cid) _ log).2 = _ at this
    unfold Prog.bind Prog.getStruct at this
    cases hm : (log.load H).getStruct utf8 cid with
    | error f => rw [hm] at this; exact this
    | ok m =>
      rw [hm] at this
      cases m <;> exact this
  subst hlog
  refine ⟨rfl, ?_⟩
  have hst : (log.load H) cid = some (Item.struct m).bytes := by
    rw [← h2]
    exact Saved.load_mem hnc h1
  change Prog.bind (Prog.getStruct H utf8 cid) _ log = _ at he
  unfold Prog.bind Prog.getStruct at he
  cases hg : (log.load H).getStruct utf8 cid with
  | error f => rw [hg] at he; cases congrArg Prod.fst he
  | ok m' =>
    rw [hg] at he
    obtain rfl : m' = .span s := by
      cases m' with
      | span s' =>
        have : s' = s := Except.ok.inj (congrArg Prod.fst he)
        rw [this]
      | subchunk c => cases congrArg Prod.fst he
      | superchunk h loc => cases congrArg Prod.fst he
    cases m with
    | span sp =>
      rw [Store.getStruct_span' hst h.valid] at hg
      obtain rfl := MMStruct3.span.inj (Except.ok.inj hg)
      obtain ⟨e1, e2⟩ := h.rows
      refine h.part ?_ ?_ fun x hx => List.mem_of_mem_take hx
      · change (asU32 sp.rows).toNat = r
        rw [asU32_toNat (e1.symm ▸ hr), e1]
      · change (asU32 sp.cols).toNat = c
        rw [asU32_toNat (e2.symm ▸ hc), e2]
    | subchunk ch => exact absurd rfl (Store.getStruct_other hst (fun _ h => nomatch h) hg s)
    | superchunk hd loc => exact absurd rfl (Store.getStruct_other hst (fun _ h => nomatch h) hg s)

/-- The identifier of a saved span of some shape. -/
def FormedCid (H : Hash) (log : Saved) (r c : Nat) (cid : Cid) : Prop :=
  ∃ m, (Item.struct m).bytes ∈ log ∧ H.cidOf (Item.struct m).bytes = cid ∧ Formed H log r c m

theorem FormedCid.mono (hs : log ⊆ log') {cid} (h : FormedCid H log r c cid) : FormedCid H log' r c cid := by
  obtain ⟨m, h1, h2, h3⟩ := h
  exact ⟨m, hs h1, h2, h3.mono hs⟩

/-- All of some spans have the shape. -/
def AllFormed (H : Hash) (log : Saved) (r c : Nat) (spans : List Span) : Prop :=
  ∀ s ∈ spans, Formed H log r c (.span s)

theorem AllFormed.mono (hs : log ⊆ log') {spans} (h : AllFormed H log r c spans) :
    AllFormed H log' r c spans := fun s h' => (h s h').mono hs

theorem AllFormed.cons {s : Span} {spans} (hs : Formed H log r c (.span s)) (h : AllFormed H log r c spans) :
    AllFormed H log r c (s :: spans) := by
  intro x hx
  rcases List.mem_cons.1 hx with rfl | hx
  · exact hs
  · exact h x hx

theorem AllFormed.tail {s : Span} {spans} (h : AllFormed H log r c (s :: spans)) : AllFormed H log r c spans :=
  fun x hx => h x (List.mem_cons_of_mem _ hx)

theorem AllFormed.head {s : Span} {spans} (h : AllFormed H log r c (s :: spans)) :
    Formed H log r c (.span s) := h s (List.mem_cons_self ..)

theorem tailSpansLoop_formed (hr : r < 2 ^ 32) (hc : c < 2 ^ 32) (cs : Nat) :
    ∀ (fuel : Nat) (above : List Span) (sp : Span) (log : Saved), AllFormed H log r c (sp :: above) →
    Ends H (tailSpansLoop H utf8 cs fuel above sp) log fun l log' => AllFormed H log' r c l := by
  intro fuel
  induction fuel with
  | zero => intro above sp log _; exact Ends.fail
  | succ fuel ih =>
    intro above sp log h
    unfold tailSpansLoop
    split
    · cases hl : sp.spans.getLast? with
      | none =>
        exact Ends.bind (Mono.ofOption _) (fun cid => (Mono.getSpan H utf8 cid).bind fun _ =>
          tailSpansLoop_mono H utf8 _ _ _ _) (Q := fun _ _ => False) Ends.fail (fun _ _ _ h => h.elim)
      | some cid =>
        have hmem : cid ∈ sp.spans := List.mem_of_getLast? hl
        refine Ends.bind (Mono.ofOption _) (fun cid => (Mono.getSpan H utf8 cid).bind fun _ =>
          tailSpansLoop_mono H utf8 _ _ _ _) (Q := fun c' log' => c' = cid ∧ log' = log) (Ends.pure ⟨rfl, rfl⟩) ?_
        rintro c' log' - ⟨rfl, rfl⟩
        obtain ⟨m, h1, h2, h3⟩ := h.head.child hmem
        refine Ends.bind (Mono.getSpan H utf8 c') (fun _ => tailSpansLoop_mono H utf8 _ _ _ _)
          (Formed.getSpan hr hc h1 h2 h3) ?_
        rintro s log2 - ⟨rfl, hs⟩
        exact ih (sp :: above) s _ (AllFormed.cons hs h)
    · exact Ends.pure h

theorem Variable.tailSpans_formed (hr : r < 2 ^ 32) (hc : c < 2 ^ 32) (v : Variable)
    (h : FormedCid H log r c v.cid) :
    Ends H (v.tailSpans H utf8 fuel) log fun l log' => AllFormed H log' r c l := by
  obtain ⟨m, h1, h2, h3⟩ := h
  refine Ends.bind (Mono.getSpan H utf8 v.cid) (fun _ => tailSpansLoop_mono H utf8 _ _ _ _)
    (Formed.getSpan hr hc h1 h2 h3) ?_
  rintro s log' - ⟨rfl, hs⟩
  refine tailSpansLoop_formed hr hc v.chunkSize fuel [] s _ (AllFormed.cons hs fun x hx => nomatch hx)

/-- What `Span::append` accepts has the shape of the span. -/
theorem Span.append_formed {sp : Span} {m : MMStruct3} (hsp : Formed H log r c (.span sp))
    (hm : Formed H log r' c' m) :
    Ends H (Span.append H utf8 sp m) log fun s log' =>
      Formed H log' r c (.span s) ∧ ∃ n, m.shape = some (n, r, c) := by
  unfold Span.append
  refine Ends.bind (Span.checkLast_mono H utf8 sp) ?_ (Q := fun _ _ => True) (fun _ _ _ _ => trivial) ?_
  · intro _
    refine (Mono.ofOption _).bind fun s => ?_
    split
    · exact Mono.fail _
    split
    · exact Mono.fail _
    exact (Mono.save H _).bind fun _ => Mono.pure _
  · intro _ log1 hs1 _
    cases hshape : m.shape with
    | none =>
      refine Ends.bind (Mono.ofOption _) ?_ (Q := fun _ _ => False) Ends.fail (fun _ _ _ h => h.elim)
      intro s
      split
      · exact Mono.fail _
      split
      · exact Mono.fail _
      exact (Mono.save H _).bind fun _ => Mono.pure _
    | some shape =>
      refine Ends.bind (Mono.ofOption _) ?_ (Q := fun s log' => s = shape ∧ log' = log1) (Ends.pure ⟨rfl, rfl⟩) ?_
      · intro s
        split
        · exact Mono.fail _
        split
        · exact Mono.fail _
        exact (Mono.save H _).bind fun _ => Mono.pure _
      · rintro s log2 - ⟨rfl, rfl⟩
        obtain ⟨n, a, b⟩ := s
        obtain ⟨e1, e2⟩ := hsp.rows
        simp only
        split
        · exact Ends.fail
        rename_i hne
        split
        · exact Ends.fail
        obtain ⟨rfl, rfl⟩ : a = r ∧ b = c := by
          rw [not_or, not_not, not_not] at hne
          exact ⟨hne.1.trans e1, hne.2.trans e2⟩
        refine Ends.bind (Mono.save H _) (fun _ => Mono.pure _)
          (Q := fun cid log' => (Item.struct m).bytes ∈ log' ∧ H.cidOf (Item.struct m).bytes = cid) ?_ ?_
        · intro cid log' e _
          have h1 : H.cidOf (Item.struct m).bytes = cid := Except.ok.inj (congrArg Prod.fst e)
          have h2 : (Item.struct m).bytes :: log2 = log' := congrArg Prod.snd e
          exact ⟨h2 ▸ List.mem_cons_self .., h1⟩
        · rintro cid log' hs2 ⟨h1, h2⟩
          refine Ends.pure ⟨?_, n, rfl⟩
          exact ((hsp.mono hs1).mono hs2).snoc (((hm.to hshape).mono hs1).mono hs2) h1 h2 rfl rfl rfl

theorem Span.update_formed {sp : Span} {m : MMStruct3} (hsp : Formed H log r c (.span sp))
    (hm : Formed H log r' c' m) :
    Ends H (Span.update H utf8 sp m) log fun s log' =>
      Formed H log' r c (.span s) ∧ ∃ n, m.shape = some (n, r, c) := by
  unfold Span.update
  refine Span.append_formed (hsp.part ?_ ?_ fun x hx => List.dropLast_subset _ hx) hm
  · exact hsp.rows.1
  · exact hsp.rows.2

theorem Span.addChunk_formed (update : Bool) {sp : Span} {m : MMStruct3} (hsp : Formed H log r c (.span sp))
    (hm : Formed H log r' c' m) :
    Ends H (Span.addChunk H utf8 update sp m) log fun s log' =>
      Formed H log' r c (.span s) ∧ ∃ n, m.shape = some (n, r, c) := by
  unfold Span.addChunk
  split
  · exact Span.update_formed hsp hm
  · exact Span.append_formed hsp hm

theorem saveSpansLoop_formed : ∀ (above : List Span) (sp : Span) (log : Saved),
    AllFormed H log r c (sp :: above) →
    Ends H (saveSpansLoop H utf8 sp above) log fun s log' => Formed H log' r c (.span s) := by
  intro above
  induction above with
  | nil => intro sp log h; exact Ends.pure h.head
  | cons p rest ih =>
    intro sp log h
    refine Ends.bind (Span.update_mono H utf8 p _) (fun s => saveSpansLoop_mono H utf8 rest s)
      (Span.update_formed h.tail.head h.head) ?_
    rintro s log' hs ⟨h1, -⟩
    exact ih s log' (AllFormed.cons h1 (h.tail.tail.mono hs))

theorem FormedCid.save {sp : Span} (h : Formed H log r c (.span sp)) :
    Ends H (Prog.save H (.struct (.span sp))) log fun cid log' => FormedCid H log' r c cid := by
  intro cid log' e _
  have h1 : H.cidOf (Item.struct (.span sp)).bytes = cid := Except.ok.inj (congrArg Prod.fst e)
  have h2 : (Item.struct (.span sp)).bytes :: log = log' := congrArg Prod.snd e
  exact ⟨.span sp, h2 ▸ List.mem_cons_self .., h1, h.mono (h2 ▸ List.subset_cons_self ..)⟩

theorem Variable.saveSpans_formed (v : Variable) {spans : List Span} (h : AllFormed H log r c spans) :
    Ends H (v.saveSpans H utf8 spans) log fun v' log' => FormedCid H log' r c v'.cid := by
  cases spans with
  | nil => exact Ends.fail
  | cons sp rest =>
    refine Ends.bind (saveSpansLoop_mono H utf8 rest sp) (fun s => (Mono.save H _).bind fun _ => Mono.pure _)
      (saveSpansLoop_formed rest sp log h) ?_
    intro s log' _ hs
    refine Ends.bind (Mono.save H _) (fun _ => Mono.pure _) (FormedCid.save hs) ?_
    intro cid log'' _ hc
    exact Ends.pure hc

/-- A new span is accepted only if it has the shape of the others. -/
theorem openSpanLoop_formed (v : Variable) (rows cols : Nat) : ∀ (above : List Span) (l sp : Span) (log : Saved),
    AllFormed H log r c (l :: above) → Formed H log rows cols (.span sp) →
    Ends H (openSpanLoop H utf8 v rows cols l sp above) log fun x log' =>
      (rows = r ∧ cols = c) ∧ AllFormed H log' r c (x.1 :: x.2) := by
  intro above
  induction above with
  | nil =>
    intro l sp log h hsp
    refine Ends.bind (Span.append_mono H utf8 _ _) (fun _ => (Span.append_mono H utf8 _ _).bind fun _ => Mono.pure _)
      (Span.append_formed (Formed.new rows cols _ _) h.head) ?_
    rintro root log1 hs1 ⟨hroot, n, hn⟩
    have heq : rows = r ∧ cols = c := by
      have hn : some (l.instants, l.rows, l.cols) = some (n, rows, cols) := hn
      simp only [Option.some.injEq, Prod.mk.injEq] at hn
      exact ⟨hn.2.1.symm.trans h.head.rows.1, hn.2.2.symm.trans h.head.rows.2⟩
    obtain ⟨rfl, rfl⟩ := heq
    refine Ends.bind (Span.append_mono H utf8 _ _) (fun _ => Mono.pure _)
      (Span.append_formed hroot (hsp.mono hs1)) ?_
    rintro s log2 hs2 ⟨hs, -⟩
    exact Ends.pure ⟨⟨rfl, rfl⟩, AllFormed.cons hs fun x hx => nomatch hx⟩
  | cons p rest ih =>
    intro l sp log h hsp
    unfold openSpanLoop
    split
    · refine Ends.bind (Span.append_mono H utf8 _ _) (fun _ => openSpanLoop_mono H utf8 v rows cols _ _ _)
        (Span.append_formed (Formed.new rows cols _ _) hsp) ?_
      rintro s log1 hs1 ⟨hs, -⟩
      exact ih p s log1 (h.tail.mono hs1) hs
    · refine Ends.bind (Span.append_mono H utf8 _ _) (fun _ => Mono.pure _)
        (Span.append_formed h.tail.head hsp) ?_
      rintro s log1 hs1 ⟨hs, n, hn⟩
      have hn : some (sp.instants, sp.rows, sp.cols) = some (n, r, c) := hn
      simp only [Option.some.injEq, Prod.mk.injEq] at hn
      exact Ends.pure ⟨⟨hsp.rows.1.symm.trans hn.2.1, hsp.rows.2.symm.trans hn.2.2⟩,
        AllFormed.cons hs (h.tail.tail.mono hs1)⟩

theorem Variable.createOpenSpan_formed (hr : r < 2 ^ 32) (hc : c < 2 ^ 32) (v : Variable) (rows cols : Nat)
    (h : FormedCid H log r c v.cid) :
    Ends H (v.createOpenSpan H utf8 fuel rows cols) log fun v' log' => FormedCid H log' r c v'.cid := by
  refine Ends.bind (Variable.tailSpans_mono H utf8 fuel v) ?_ (v.tailSpans_formed hr hc h) ?_
  · intro spans
    cases spans with
    | nil => exact Mono.fail _
    | cons l spans =>
      refine (openSpanLoop_mono H utf8 v rows cols spans l _).bind fun x => ?_
      rw [openSpanUp_eq]
      exact (saveSpansLoop_mono H utf8 _ _).bind fun s => (Mono.save H _).bind fun _ => Mono.pure _
  · intro spans log' _ hl
    cases spans with
    | nil => exact Ends.fail
    | cons l spans =>
      refine Ends.bind (openSpanLoop_mono H utf8 v rows cols spans l _) ?_
        (openSpanLoop_formed v rows cols spans l _ log' hl (Formed.new rows cols _ _)) ?_
      · intro x
        rw [openSpanUp_eq]
        exact (saveSpansLoop_mono H utf8 _ _).bind fun s => (Mono.save H _).bind fun _ => Mono.pure _
      · rintro x log'' _ ⟨-, hx⟩
        rw [openSpanUp_eq]
        refine Ends.bind (saveSpansLoop_mono H utf8 _ _) (fun s => (Mono.save H _).bind fun _ => Mono.pure _)
          (saveSpansLoop_formed x.2 x.1 log'' hx) ?_
        intro s log3 _ hs
        refine Ends.bind (Mono.save H _) (fun _ => Mono.pure _) (FormedCid.save hs) ?_
        intro cid log4 _ hc
        exact Ends.pure hc

theorem Variable.openIfFull_formed (hr : r < 2 ^ 32) (hc : c < 2 ^ 32) (v : Variable) (rows cols : Nat)
    (sp : Span) (rest : List Span) (h : FormedCid H log r c v.cid) (hl : AllFormed H log r c (sp :: rest)) :
    Ends H (v.openIfFull H utf8 fuel rows cols sp rest) log fun x log' =>
      FormedCid H log' r c x.1.cid ∧ AllFormed H log' r c (x.2.1 :: x.2.2) := by
  unfold Variable.openIfFull
  split
  · refine Ends.bind (Variable.saveSpans_mono H utf8 v _) ?_ (v.saveSpans_formed hl) ?_
    · intro v
      refine (Variable.createOpenSpan_mono H utf8 fuel v rows cols).bind fun v =>
        (Variable.tailSpans_mono H utf8 fuel v).bind fun spans => ?_
      cases spans with
      | nil => exact Mono.fail _
      | cons l spans =>
        simp only
        split
        · exact Mono.pure _
        · exact Mono.fail _
    · intro v1 log1 _ h1
      refine Ends.bind (Variable.createOpenSpan_mono H utf8 fuel v1 rows cols) ?_
        (v1.createOpenSpan_formed hr hc rows cols h1) ?_
      · intro v
        refine (Variable.tailSpans_mono H utf8 fuel v).bind fun spans => ?_
        cases spans with
        | nil => exact Mono.fail _
        | cons l spans =>
          simp only
          split
          · exact Mono.pure _
          · exact Mono.fail _
      · intro v2 log2 _ h2
        refine Ends.bind (Variable.tailSpans_mono H utf8 fuel v2) ?_ (v2.tailSpans_formed hr hc h2) ?_
        · intro spans
          cases spans with
          | nil => exact Mono.fail _
          | cons l spans =>
            simp only
            split
            · exact Mono.pure _
            · exact Mono.fail _
        · intro spans log3 hs3 hl3
          cases spans with
          | nil => exact Ends.fail
          | cons l spans =>
            simp only
            split
            · exact Ends.pure ⟨h2.mono hs3, hl3⟩
            · exact Ends.fail
  · exact Ends.pure ⟨h, hl⟩

variable {clog : Nat → Nat} {lg : Rat → Int}

/-- A superchunk that was built is not a span and has the shape of its input. -/
theorem buildChunk_formed (levels : List Nat) (b : MMBuffer3) (n rows cols : Nat) :
    Post (Prog.buildChunk H clog lg levels b n rows cols) fun m =>
      (∀ sp, m ≠ .span sp) ∧ m.shape = some (n, rows, cols) := by
  intro log m log' e
  unfold Prog.buildChunk at e
  cases hb : b.computeBits lg n rows cols with
  | none => rw [hb] at e; cases congrArg Prod.fst e
  | some b =>
    rw [hb] at e
    simp only at e
    cases hs : Superchunk.build H clog lg 2 levels log b n rows cols with
    | none => rw [hs] at e; cases congrArg Prod.fst e
    | some x =>
      rw [hs] at e
      obtain rfl : x.1.data = m := Except.ok.inj (congrArg Prod.fst e)
      cases levels with
      | nil => cases hs
      | cons level sub =>
        unfold Superchunk.build Superchunk.buildLevel at hs
        simp only at hs
        split at hs
        · cases hs
        split at hs
        · cases hs
        split at hs
        · cases hs
        split at hs
        · split at hs
          · obtain rfl := Option.some.inj hs
            exact ⟨fun sp h => (nomatch h), rfl⟩
          · cases hs
        · cases hs

theorem Variable.appendLoop_formed (hr : r < 2 ^ 32) (hc : c < 2 ^ 32) (data : MMBuffer3) (n rows cols : Nat) :
    ∀ (starts : List Nat) (v : Variable) (spans : List Span) (update : Bool) (log : Saved),
    FormedCid H log r c v.cid → AllFormed H log r c spans →
    Ends H (Variable.appendLoop H utf8 clog lg fuel data n rows cols starts v spans update) log
      fun x log' => AllFormed H log' r c x.2 ∧ (starts = [] ∨ rows = r ∧ cols = c) := by
  intro starts
  induction starts with
  | nil => intro v spans u log _ hl; exact Ends.pure ⟨hl, .inl rfl⟩
  | cons s starts ih =>
    intro v spans u log h hl
    unfold Variable.appendLoop
    refine Ends.bind (Mono.buildChunk H clog lg _ _ _ _ _) ?_ (Ends.post (buildChunk_formed _ _ _ _ _)) ?_
    · intro chunk
      cases spans with
      | nil => exact Mono.fail _
      | cons sp rest =>
        refine (Variable.openIfFull_mono H utf8 fuel v rows cols sp rest).bind fun x => ?_
        exact (Span.addChunk_mono _ _ _).bind fun sp => Variable.appendLoop_mono H utf8 clog lg fuel _ _ _ _ _ _ _ _
    · rintro chunk log1 hs1 ⟨hch, hshape⟩
      cases spans with
      | nil => exact Ends.fail
      | cons sp rest =>
        refine Ends.bind (Variable.openIfFull_mono H utf8 fuel v rows cols sp rest) ?_
          (v.openIfFull_formed hr hc rows cols sp rest (h.mono hs1) (hl.mono hs1)) ?_
        · intro x
          exact (Span.addChunk_mono _ _ _).bind fun sp =>
            Variable.appendLoop_mono H utf8 clog lg fuel _ _ _ _ _ _ _ _
        · rintro x log2 - ⟨h1, h2⟩
          refine Ends.bind (Span.addChunk_mono _ _ _) ?_
            (Span.addChunk_formed u h2.head (.other hch : Formed H log2 0 0 chunk)) ?_
          · intro sp
            exact Variable.appendLoop_mono H utf8 clog lg fuel _ _ _ _ _ _ _ _
          · rintro sp log3 hs3 ⟨hsp, m, hm⟩
            rw [hshape] at hm
            simp only [Option.some.injEq, Prod.mk.injEq] at hm
            intro y log4 e hnc
            exact ⟨(ih x.1 _ _ _ (h1.mono hs3) (AllFormed.cons hsp (h2.tail.mono hs3)) y log4 e hnc).1, .inr hm.2⟩

theorem Variable.append_formed (hr : r < 2 ^ 32) (hc : c < 2 ^ 32) (v : Variable) (data : MMBuffer3)
    (n rows cols : Nat) (update : Bool) (h : FormedCid H log r c v.cid) :
    Ends H (v.append H utf8 clog lg fuel data n rows cols update) log fun v' log' =>
      FormedCid H log' r c v'.cid ∧ (n = 0 ∨ rows = r ∧ cols = c) := by
  refine Ends.bind (Variable.tailSpans_mono H utf8 fuel v) ?_ (v.tailSpans_formed hr hc h) ?_
  · intro spans
    split
    · exact Mono.fail _
    · exact (Variable.appendLoop_mono H utf8 clog lg fuel data n rows cols _ v spans update).bind
        fun x => Variable.saveSpans_mono H utf8 _ _
  · intro spans log1 hs1 hl
    simp only
    split
    · exact Ends.fail
    rename_i hcs
    refine Ends.bind (Variable.appendLoop_mono H utf8 clog lg fuel data n rows cols _ v spans update)
      (fun x => Variable.saveSpans_mono H utf8 _ _)
      (Variable.appendLoop_formed hr hc data n rows cols _ v spans update log1 (h.mono hs1) hl) ?_
    rintro x log2 _ ⟨hx, hor⟩
    intro v' log3 e hnc
    refine ⟨Variable.saveSpans_formed _ hx v' log3 e hnc, ?_⟩
    rcases hor with hor | hor
    · left
      by_contra hn
      have h1 : (n + v.chunkSize - 1) / v.chunkSize = 0 := by
        have := congrArg List.length hor
        simpa using this
      have h2 : v.chunkSize ≤ n + v.chunkSize - 1 := by omega
      have := Nat.div_pos h2 (by omega)
      omega
    · exact .inr hor

/-- What is appended to a variable, if it is anything, has its shape. -/
theorem Variable.appendArray_formed (hr : r < 2 ^ 32) (hc : c < 2 ^ 32) (fill : Fill) (v : Variable)
    (data : NdArray) (n rows cols : Nat) (h : FormedCid H log r c v.cid) :
    Ends H (v.appendArray H utf8 clog lg fuel fill data n rows cols) log fun v' log' =>
      FormedCid H log' r c v'.cid ∧ (n = 0 ∨ rows = r ∧ cols = c) := by
  refine Ends.bind (Variable.tailData_mono H utf8 fuel v) ?_ (Q := fun _ _ => True) (fun _ _ _ _ => trivial) ?_
  · intro tail
    cases tail with
    | none => exact Variable.append_mono H utf8 clog lg fuel v _ n rows cols false
    | some tail =>
      refine (Mono.ofOption _).bind fun s => Mono.bind (fun _ => List.Subset.refl _) fun st => ?_
      cases (fill tail st).2 with
      | some f => exact Mono.fail _
      | none =>
        simp only
        split
        · exact Mono.fail _
        · exact Variable.append_mono H utf8 clog lg fuel v _ _ rows cols true
  · intro tail log1 hs1 _
    cases tail with
    | none => exact v.append_formed hr hc _ n rows cols false (h.mono hs1)
    | some tail =>
      refine Ends.bind (Mono.ofOption _) ?_ (Q := fun _ _ => True) (fun _ _ _ _ => trivial) ?_
      · intro s
        refine Mono.bind (fun _ => List.Subset.refl _) fun st => ?_
        cases (fill tail st).2 with
        | some f => exact Mono.fail _
        | none =>
          simp only
          split
          · exact Mono.fail _
          · exact Variable.append_mono H utf8 clog lg fuel v _ _ rows cols true
      · intro s log2 hs2 _
        refine Ends.bind (fun _ => List.Subset.refl _) ?_ (Q := fun _ _ => True) (fun _ _ _ _ => trivial) ?_
        · intro st
          cases (fill tail st).2 with
          | some f => exact Mono.fail _
          | none =>
            simp only
            split
            · exact Mono.fail _
            · exact Variable.append_mono H utf8 clog lg fuel v _ _ rows cols true
        · intro st log3 hs3 _
          cases (fill tail st).2 with
          | some f => exact Ends.fail
          | none =>
            simp only
            split
            · exact Ends.fail
            · intro v' log4 e hnc
              obtain ⟨h1, h2⟩ := v.append_formed hr hc _ _ rows cols true
                (((h.mono hs1).mono hs2).mono hs3) v' log4 e hnc
              refine ⟨h1, ?_⟩
              rcases h2 with h2 | h2
              · exact .inl (by omega)
              · exact .inr h2

/-! ### Histories -/

/-- All variables of a data set have its shape. -/
def Dataset.AllFormed (H : Hash) (d : Dataset) (log : Saved) : Prop :=
  ∀ v ∈ d.variables, FormedCid H log d.rows d.cols v.cid

theorem Dataset.append_formed (fill : Fill) (d : Dataset) (hd : d.Fits utf8) (h : d.AllFormed H log)
    (name : List Byte) (data : NdArray) (n rows cols : Nat) :
    Ends H (Dataset.append H utf8 clog lg fuel fill d name data n rows cols) log fun d' log' =>
      d'.AllFormed H log' ∧ (n = 0 ∨ rows = d.rows ∧ cols = d.cols) := by
  intro d' log' e hnc
  have hm : log ⊆ log' := by
    have := Dataset.append_mono (H := H) (utf8 := utf8) (clog := clog) (lg := lg) (fuel := fuel)
      fill d name data n rows cols log
    rw [e] at this
    exact this
  unfold Dataset.append at e
  cases hf : d.findVariable name with
  | none => rw [hf] at e; cases congrArg Prod.fst e
  | some v =>
    rw [hf] at e
    have hv := List.mem_of_find?_eq_some hf
    have hend := Ends.bind (H := H) (Variable.appendArray_mono H utf8 clog lg fuel fill v data n rows cols)
      (f := fun v => (Pure.pure { d with
        «variables» := replaceVariable v d.variables
        prev := d.nextPrev
        cid := none } : Prog Dataset)) (fun _ => Mono.pure _)
      (R := fun d' log' => ((d'.rows = d.rows ∧ d'.cols = d.cols) ∧ ∃ v', d'.variables = replaceVariable v' d.variables ∧
        FormedCid H log' d.rows d.cols v'.cid) ∧ (n = 0 ∨ rows = d.rows ∧ cols = d.cols))
      (log := log) (Variable.appendArray_formed hd.wf.rows hd.wf.cols fill v data n rows cols (h v hv)) ?_
    · obtain ⟨⟨⟨h1, h2⟩, v', h3, h4⟩, h5⟩ := hend d' log' e hnc
      refine ⟨?_, h5⟩
      intro w hw
      rw [h1, h2]
      rw [h3] at hw
      rcases replaceVariable_mem hw with rfl | hw
      · exact h4
      · exact (h w hw).mono hm
    · rintro v' log1 - ⟨h1, h2⟩
      exact Ends.pure ⟨⟨⟨rfl, rfl⟩, v', rfl, h1⟩, h2⟩

theorem Op.step_formed (op : Op) (s : Dataset × Saved) (hd : s.1.Fits utf8)
    (h : s.1.AllFormed H s.2) (hnc : (op.step H utf8 clog lg fuel s).2.NoCollision H) :
    (op.step H utf8 clog lg fuel s).1.AllFormed H (op.step H utf8 clog lg fuel s).2 := by
  obtain ⟨d, log⟩ := s
  have hm := op.step_mono (H := H) (utf8 := utf8) (clog := clog) (lg := lg) (fuel := fuel) (d, log)
  cases op with
  | append fill nm data n rows cols =>
    rcases e : Op.prog H utf8 clog lg fuel (.append fill nm data n rows cols) d log with ⟨x | d', log'⟩
    · have hst : Op.step H utf8 clog lg fuel (.append fill nm data n rows cols) (d, log) = (d, log') := by
        unfold Op.step
        rw [e]
      rw [hst] at hm ⊢
      exact fun v hv => (h v hv).mono hm
    · have hst : Op.step H utf8 clog lg fuel (.append fill nm data n rows cols) (d, log) = (d', log') := by
        unfold Op.step
        rw [e]
      rw [hst] at hm hnc ⊢
      exact (Dataset.append_formed fill d hd h nm data n rows cols d' log' e hnc).1
  | addVariable nm round spanSize chunkSize k2Levels encoding =>
    intro w hw
    change w ∈ d.variables ++ [_] at hw
    rcases List.mem_append.1 hw with hw | hw
    · exact (h w hw).mono hm
    · obtain rfl := List.mem_singleton.1 hw
      exact ⟨.span (Span.new d.rows d.cols chunkSize encoding), List.mem_cons_self .., rfl,
        Formed.new d.rows d.cols chunkSize encoding⟩
  | commit => exact fun v hv => (h v hv).mono hm
  | reload =>
    rw [Op.reload_step hd.wf hnc] at hm ⊢
    exact fun v hv => (h v hv).mono hm

theorem runs_formed : ∀ (ops : List Op) (s : Dataset × Saved) (_ : s.1.Fits utf8)
    (_ : ∀ op ∈ ops, op.Fits utf8) (_ : s.1.variables.length + adds ops < 256)
    (_ : s.1.AllFormed H s.2) (_ : (runs H utf8 clog lg fuel ops s).2.NoCollision H),
    (runs H utf8 clog lg fuel ops s).1.AllFormed H (runs H utf8 clog lg fuel ops s).2 ∧
      (runs H utf8 clog lg fuel ops s).1.Fits utf8 := by
  intro ops
  induction ops with
  | nil => intro s hd _ _ h _; exact ⟨h, hd⟩
  | cons op ops ih =>
    intro s hd hops hlen h hnc
    rw [adds_cons] at hlen
    have hnc1 : (op.step H utf8 clog lg fuel s).2.NoCollision H := NoCollision.mono (runs_mono ops _) hnc
    have hf := op.step_fits s.1 s.2 hd (hops op (List.mem_cons_self ..)) (by omega) hnc1
    have h2 : (op.step H utf8 clog lg fuel s).1.variables.length ≤ s.1.variables.length + adds [op] := hf.2.1
    exact ih _ hf.1 (fun o ho => hops o (List.mem_cons_of_mem _ ho)) (by omega)
      (op.step_formed s hd h hnc1) hnc

theorem runs_shape : ∀ (ops : List Op) (s : Dataset × Saved) (_ : s.1.Fits utf8)
    (_ : ∀ op ∈ ops, op.Fits utf8) (_ : s.1.variables.length + adds ops < 256)
    (_ : (runs H utf8 clog lg fuel ops s).2.NoCollision H),
    (runs H utf8 clog lg fuel ops s).1.rows = s.1.rows ∧ (runs H utf8 clog lg fuel ops s).1.cols = s.1.cols := by
  intro ops
  induction ops with
  | nil => intro s _ _ _ _; exact ⟨rfl, rfl⟩
  | cons op ops ih =>
    intro s hd hops hlen hnc
    rw [adds_cons] at hlen
    have hnc1 : (op.step H utf8 clog lg fuel s).2.NoCollision H := NoCollision.mono (runs_mono ops _) hnc
    have hf := op.step_fits s.1 s.2 hd (hops op (List.mem_cons_self ..)) (by omega) hnc1
    have h2 : (op.step H utf8 clog lg fuel s).1.variables.length ≤ s.1.variables.length + adds [op] := hf.2.1
    have := ih _ hf.1 (fun o ho => hops o (List.mem_cons_of_mem _ ho)) (by omega) hnc
    exact ⟨this.1.trans hf.2.2.1, this.2.trans hf.2.2.2⟩

end

end Verif
