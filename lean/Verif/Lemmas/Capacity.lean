import Verif.Lemmas.Formed

/-! Variables with a span size below two, in all executions. -/
namespace Verif

open Reader

theorem Only.superchunk_instants (node : Reader MMStruct3) (n : BitVec 32) (rest : List Byte) (m : MMStruct3)
    (s' : List Byte) (h : SuperHead.readWith node (writeU32 n ++ rest) = .ok (m, s')) :
    ∃ hd loc, m = .superchunk hd loc ∧ hd.instants = n.toNat := by
  unfold SuperHead.readWith at h
  have h2 := (bind_ok (readU32_rt n)).symm.trans h
  refine (Only.bind fun _ => Only.bind fun _ => Only.bind fun _ => Only.bind fun _ =>
    Only.bind fun _ => Only.bind fun _ => Only.bind fun _ => Only.bind fun _ => Only.bind fun _ =>
    Only.bind fun _ => Only.bind fun _ => Only.bind fun _ => Only.bind fun _ => Only.bind fun _ =>
    Only.bind fun _ => Only.bind fun _ => Only.pure ?_ : Only _ fun m => ∃ hd loc, m = MMStruct3.superchunk hd loc ∧
      hd.instants = n.toNat) _ _ _ h2
  exact ⟨_, _, rfl, rfl⟩

theorem Item.read_struct (utf8 : List Byte → Bool) (cid : Cid) (m : MMStruct3) :
    Item.read utf8 cid (Item.struct m).bytes =
      Reader.bind MMStruct3.read (fun m => Reader.pure (Item.struct m)) m.write := by
  unfold Item.read Item.bytes
  exact (bind_ok (readHeader_rt 2)).trans rfl

theorem Store.getStruct_super {utf8 : List Byte → Bool} {st : Store} {cid : Cid} {hd : SuperHead}
    {loc : List MMStruct3} {m' : MMStruct3}
    (h : st cid = some (Item.struct (.superchunk hd loc)).bytes)
    (hg : st.getStruct utf8 cid = .ok m') :
    ∃ hd' loc', m' = .superchunk hd' loc' ∧ hd'.instants = (asU32 hd.instants).toNat := by
  obtain ⟨rest, e⟩ : ∃ rest, (MMStruct3.superchunk hd loc).write = writeByte 5 ++ (writeU32 (asU32 hd.instants) ++ rest) := by
    unfold MMStruct3.write SuperHead.writeFixed
    simp only [List.append_assoc]
    exact ⟨_, rfl⟩
  unfold Store.getStruct Store.retrieve at hg
  rw [h] at hg
  simp only at hg
  rw [Item.read_struct, e] at hg
  unfold Reader.bind at hg
  cases hr : MMStruct3.read (writeByte 5 ++ (writeU32 (asU32 hd.instants) ++ rest)) with
  | error x => rw [hr] at hg; cases hg
  | ok x =>
    rw [hr] at hg
    obtain rfl : x.1 = m' := Except.ok.inj hg
    unfold MMStruct3.read MMStruct3.readFuel at hr
    have h2 := (bind_ok (readByte_rt 5)).symm.trans hr
    exact Only.superchunk_instants _ _ _ x.1 x.2 h2

open Prog hiding pure bind

section
variable {H : Hash} {utf8 : List Byte → Bool} {fuel : Nat} {log log' : Saved} {ss cs : Nat}

/-- A span with at most one chunk. -/
structure Small (H : Hash) (log : Saved) (ss cs : Nat) (sp : Span) : Prop where
  stride : sp.stride = cs
  le : sp.instants ≤ ss * cs
  parts : (sp.spans = [] ∧ sp.instants = 0) ∨ ∃ hd loc, (Item.struct (.superchunk hd loc)).bytes ∈ log ∧
    sp.spans = [H.cidOf (Item.struct (.superchunk hd loc)).bytes] ∧ hd.instants = sp.instants

theorem Small.mono (hs : log ⊆ log') {sp} (h : Small H log ss cs sp) : Small H log' ss cs sp := by
  refine ⟨h.stride, h.le, ?_⟩
  rcases h.parts with h | ⟨hd, loc, h1, h2, h3⟩
  · exact .inl h
  · exact .inr ⟨hd, loc, hs h1, h2, h3⟩

/-- The identifier of a saved one. -/
def SmallCid (H : Hash) (log : Saved) (ss cs : Nat) (cid : Cid) : Prop :=
  ∃ sp, (Item.struct (.span sp)).bytes ∈ log ∧ H.cidOf (Item.struct (.span sp)).bytes = cid ∧ Small H log ss cs sp

theorem SmallCid.mono (hs : log ⊆ log') {cid} (h : SmallCid H log ss cs cid) : SmallCid H log' ss cs cid := by
  obtain ⟨sp, h1, h2, h3⟩ := h
  exact ⟨sp, hs h1, h2, h3.mono hs⟩

theorem SmallCid.save {sp : Span} (h : Small H log ss cs sp) :
    Ends H (Prog.save H (.struct (.span sp))) log fun cid log' => SmallCid H log' ss cs cid := by
  intro cid log' e _
  have h1 : H.cidOf (Item.struct (.span sp)).bytes = cid := Except.ok.inj (congrArg Prod.fst e)
  have h2 : (Item.struct (.span sp)).bytes :: log = log' := congrArg Prod.snd e
  exact ⟨sp, h2 ▸ List.mem_cons_self .., h1, h.mono (h2 ▸ List.subset_cons_self ..)⟩

/-- Reading any span that was saved. -/
theorem getSpan_saved {cid : Cid} {sp : Span} (h1 : (Item.struct (.span sp)).bytes ∈ log)
    (h2 : H.cidOf (Item.struct (.span sp)).bytes = cid) (hv : ∀ c ∈ sp.spans, c.Valid) :
    Ends H (Prog.getSpan H utf8 cid) log fun s log' => log' = log ∧ s =
      ⟨(asU32 sp.instants).toNat, (asU32 sp.rows).toNat, (asU32 sp.cols).toNat,
      (asU32 sp.stride).toNat, sp.spans.take (asU32 sp.spans.length).toNat, sp.encoding⟩ := by
  intro s log' he hnc
  have hlog : log = log' := by
    have := congrArg Prod.snd he
    change (Prog.bind (Prog.getStruct H utf8 cid) _ log).2 = _ at this
    unfold Prog.bind Prog.getStruct at this
    cases hm : (log.load H).getStruct utf8 cid with
    | error f => rw [hm] at this; exact this
    | ok m =>
      rw [hm] at this
      cases m <;> exact this
  subst hlog
  refine ⟨rfl, ?_⟩
  have hst : (log.load H) cid = some (Item.struct (.span sp)).bytes := by
    rw [← h2]
    exact Saved.load_mem hnc h1
  change Prog.bind (Prog.getStruct H utf8 cid) _ log = _ at he
  unfold Prog.bind Prog.getStruct at he
  rw [Store.getStruct_span' hst hv] at he
  exact (Except.ok.inj (congrArg Prod.fst he)).symm

theorem Small.valid {sp} (h : Small H log ss cs sp) : ∀ c ∈ sp.spans, c.Valid := by
  intro c hc
  rcases h.parts with h | ⟨hd, loc, -, h2, -⟩
  · rw [h.1] at hc
    cases hc
  · rw [h2] at hc
    obtain rfl := List.mem_singleton.1 hc
    exact H.valid _

theorem Small.lt (hss : ss ≤ 1) (hcs : cs < 2 ^ 32) {sp} (h : Small H log ss cs sp) : sp.instants < 2 ^ 32 := by
  have h1 := h.le
  have h2 : ss * cs ≤ 1 * cs := Nat.mul_le_mul_right _ hss
  omega

/-- Such a span is read as it was saved, but for the shape. -/
theorem Small.read (hss : ss ≤ 1) (hcs : cs < 2 ^ 32) {sp} (h : Small H log ss cs sp) (s : Span)
    (hs : s = ⟨(asU32 sp.instants).toNat, (asU32 sp.rows).toNat, (asU32 sp.cols).toNat,
      (asU32 sp.stride).toNat, sp.spans.take (asU32 sp.spans.length).toNat, sp.encoding⟩) :
    Small H log ss cs s ∧ s.spans = sp.spans ∧ s.instants = sp.instants := by
  have hlen : sp.spans.length ≤ 1 := by
    rcases h.parts with h | ⟨hd, loc, -, h2, -⟩
    · simp [h.1]
    · simp [h2]
  have e1 : s.instants = sp.instants := by rw [hs]; exact asU32_toNat (h.lt hss hcs)
  have e2 : s.stride = sp.stride := by rw [hs]; exact asU32_toNat (h.stride ▸ hcs)
  have e3 : s.spans = sp.spans := by
    rw [hs]
    change List.take (asU32 sp.spans.length).toNat _ = _
    rw [asU32_toNat (by omega), List.take_length]
  refine ⟨⟨e2.trans h.stride, e1 ▸ h.le, ?_⟩, e3, e1⟩
  rw [e1, e3]
  exact h.parts

theorem Variable.tailSpans_small (v : Variable) (hss : v.spanSize ≤ 1) (hcs : v.chunkSize < 2 ^ 32)
    (h : SmallCid H log v.spanSize v.chunkSize v.cid) :
    Ends H (v.tailSpans H utf8 fuel) log fun l log' =>
      ∃ sp, l = [sp] ∧ Small H log' v.spanSize v.chunkSize sp := by
  obtain ⟨sp, h1, h2, h3⟩ := h
  refine Ends.bind (Mono.getSpan H utf8 v.cid) (fun _ => tailSpansLoop_mono H utf8 _ _ _ _)
    (getSpan_saved h1 h2 h3.valid) ?_
  rintro s log' - ⟨rfl, hs⟩
  have h4 := (h3.read hss hcs s hs).1
  cases fuel with
  | zero => exact Ends.fail
  | succ fuel =>
    unfold tailSpansLoop
    rw [if_neg (by have := h4.stride; omega)]
    exact Ends.pure ⟨s, rfl, h4⟩

/-- `Span::append` to any span. -/
theorem Span.append_any (sp : Span) (m : MMStruct3) :
    Ends H (Span.append H utf8 sp m) log fun s log' =>
      ((Item.struct m).bytes ∈ log' ∧ s.spans = sp.spans ++ [H.cidOf (Item.struct m).bytes] ∧
        s.stride = sp.stride) ∧
      ∃ n, m.shape.map Prod.fst = some n ∧ n ≤ sp.stride ∧ s.instants = sp.instants + n := by
  unfold Span.append
  have hmono : ∀ s : Nat × Nat × Nat, Mono (do
      if s.2.1 ≠ sp.rows ∨ s.2.2 ≠ sp.cols then Prog.fail .panic
      else if s.1 > sp.stride then Prog.fail .panic
      else do
        let cid ← Prog.save H (.struct m)
        Pure.pure { sp with
          instants := sp.instants + s.1
          rows := s.2.1
          cols := s.2.2
          spans := sp.spans ++ [cid] } : Prog Span) := by
    intro s
    split
    · exact Mono.fail _
    split
    · exact Mono.fail _
    exact (Mono.save H _).bind fun _ => Mono.pure _
  refine Ends.bind (Span.checkLast_mono H utf8 sp) (fun _ => (Mono.ofOption _).bind hmono)
    (Q := fun _ _ => True) (fun _ _ _ _ => trivial) ?_
  intro _ log1 hs1 _
  cases hshape : m.shape with
  | none =>
    exact Ends.bind (Mono.ofOption _) hmono (Q := fun _ _ => False) Ends.fail (fun _ _ _ h => h.elim)
  | some shape =>
    refine Ends.bind (Mono.ofOption _) hmono (Q := fun s log' => s = shape ∧ log' = log1) (Ends.pure ⟨rfl, rfl⟩) ?_
    rintro s log2 - ⟨rfl, rfl⟩
    obtain ⟨n, a, b⟩ := s
    simp only
    split
    · exact Ends.fail
    split
    · exact Ends.fail
    rename_i hle
    refine Ends.bind (Mono.save H _) (fun _ => Mono.pure _)
      (Q := fun cid log' => (Item.struct m).bytes ∈ log' ∧ H.cidOf (Item.struct m).bytes = cid) ?_ ?_
    · intro cid log' e _
      have h1 : H.cidOf (Item.struct m).bytes = cid := Except.ok.inj (congrArg Prod.fst e)
      have h2 : (Item.struct m).bytes :: log2 = log' := congrArg Prod.snd e
      exact ⟨h2 ▸ List.mem_cons_self .., h1⟩
    · rintro cid log' hs2 ⟨h1, rfl⟩
      exact Ends.pure ⟨⟨h1, rfl, rfl⟩, n, rfl, by omega, rfl⟩

/-- Appending a chunk to a span that is not full and has only one place. -/
theorem Span.addChunk_small (hss : ss ≤ 1) (hcs : cs < 2 ^ 32) (update : Bool) {sp : Span} {hd : SuperHead}
    {loc : List MMStruct3} (hsp : Small H log ss cs sp) (hfull : sp.instants ≠ ss * cs) :
    Ends H (Span.addChunk H utf8 update sp (.superchunk hd loc)) log fun s log' => Small H log' ss cs s := by
  have hss1 : ss = 1 := by
    rcases Nat.lt_or_ge ss 1 with h | h
    · have h0 : ss = 0 := by omega
      subst h0
      have := hsp.le
      omega
    · omega
  subst hss1
  have hlt : sp.instants < cs := by have := hsp.le; omega
  intro s log' e hnc
  unfold Span.addChunk at e
  cases update with
  | true =>
    simp only [if_pos] at e
    unfold Span.update at e
    have hdrop : sp.spans.dropLast = [] := by
      rcases hsp.parts with h | ⟨_, _, _, h, _⟩ <;> simp [h]
    simp only [hdrop] at e
    obtain ⟨⟨h1, h2, h3⟩, n, h4, h5, h6⟩ := Span.append_any _ _ s log' e hnc
    have h4 : some hd.instants = some n := h4
    obtain rfl := Option.some.inj h4
    simp only [List.length_nil, Nat.zero_mul, Nat.zero_add] at h6
    have h5 : hd.instants ≤ sp.stride := h5
    refine ⟨h3.trans hsp.stride, ?_, .inr ⟨hd, loc, h1, h2, h6.symm⟩⟩
    rw [h6, ← hsp.stride]
    omega
  | false =>
    simp only [Bool.false_eq_true, if_false] at e
    have hempty : sp.spans = [] ∧ sp.instants = 0 := by
      rcases hsp.parts with h | ⟨hd0, loc0, h1, h2, h3⟩
      · exact h
      exfalso
      have hst0 : log.load H (H.cidOf (Item.struct (.superchunk hd0 loc0)).bytes) =
          some (Item.struct (.superchunk hd0 loc0)).bytes := by
        refine Saved.load_mem (NoCollision.mono ?_ hnc) h1
        have := Span.append_mono H utf8 sp (.superchunk hd loc) log
        rw [e] at this
        exact this
      unfold Span.append at e
      change Prog.bind (Span.checkLast H utf8 sp) _ log = _ at e
      have hcheck : ∃ f, Span.checkLast H utf8 sp log = (.error f, log) := by
        unfold Span.checkLast
        rw [h2]
        simp only [List.getLast?_singleton]
        change ∃ f, Prog.bind (Prog.getStruct H utf8 _) _ log = _
        unfold Prog.bind Prog.getStruct
        cases hg : (log.load H).getStruct utf8 (H.cidOf (Item.struct (.superchunk hd0 loc0)).bytes) with
        | error f => exact ⟨f, rfl⟩
        | ok m' =>
          obtain ⟨hd', loc', rfl, hi⟩ := Store.getStruct_super hst0 hg
          rw [h3, asU32_toNat (by omega)] at hi
          simp only
          change ∃ f, (if hd'.instants ≠ sp.stride then Prog.fail .panic else Pure.pure () : Prog Unit) log = _
          rw [if_pos (by rw [hi, hsp.stride]; omega)]
          exact ⟨_, rfl⟩
      obtain ⟨f, hf⟩ := hcheck
      unfold Prog.bind at e
      rw [hf] at e
      cases congrArg Prod.fst e
    obtain ⟨⟨h1, h2, h3⟩, n, h4, h5, h6⟩ := Span.append_any _ _ s log' e hnc
    have h4 : some hd.instants = some n := h4
    obtain rfl := Option.some.inj h4
    rw [hempty.1] at h2
    rw [hempty.2, Nat.zero_add] at h6
    refine ⟨h3.trans hsp.stride, ?_, .inr ⟨hd, loc, h1, h2, h6.symm⟩⟩
    rw [h6, Nat.one_mul, ← hsp.stride]
    exact h5

theorem Variable.saveSpans_small (v : Variable) {sp : Span} (h : Small H log ss cs sp) :
    Ends H (v.saveSpans H utf8 [sp]) log fun v' log' =>
      SmallCid H log' ss cs v'.cid ∧ v'.spanSize = v.spanSize ∧ v'.chunkSize = v.chunkSize := by
  refine Ends.bind (saveSpansLoop_mono H utf8 [] sp) (fun s => (Mono.save H _).bind fun _ => Mono.pure _)
    (Q := fun s log' => s = sp ∧ log' = log) (Ends.pure ⟨rfl, rfl⟩) ?_
  rintro s log' - ⟨rfl, rfl⟩
  refine Ends.bind (Mono.save H _) (fun _ => Mono.pure _) (SmallCid.save h) ?_
  intro cid log'' _ hc
  exact Ends.pure ⟨hc, rfl, rfl⟩

/-- The new root has two parts and no greater a stride. -/
theorem Variable.createOpenSpan_small (v : Variable) (hss : v.spanSize ≤ 1) (hcs : v.chunkSize < 2 ^ 32)
    (rows cols : Nat) (h : SmallCid H log v.spanSize v.chunkSize v.cid) :
    Ends H (v.createOpenSpan H utf8 fuel rows cols) log fun v' log' =>
      v'.chunkSize = v.chunkSize ∧ ∃ sp, (Item.struct (.span sp)).bytes ∈ log' ∧
        H.cidOf (Item.struct (.span sp)).bytes = v'.cid ∧ sp.stride ≤ v.chunkSize ∧ sp.spans.length = 2 ∧
        ∀ c ∈ sp.spans, c.Valid := by
  refine Ends.bind (Variable.tailSpans_mono H utf8 fuel v) ?_ (v.tailSpans_small hss hcs h) ?_
  · intro spans
    cases spans with
    | nil => exact Mono.fail _
    | cons l spans =>
      refine (openSpanLoop_mono H utf8 v rows cols spans l _).bind fun x => ?_
      rw [openSpanUp_eq]
      exact (saveSpansLoop_mono H utf8 _ _).bind fun s => (Mono.save H _).bind fun _ => Mono.pure _
  · rintro spans log' _ ⟨l, rfl, hl⟩
    refine Ends.bind (openSpanLoop_mono H utf8 v rows cols [] l _) ?_
      (Q := fun x _ => x.2 = [] ∧ x.1.stride ≤ v.chunkSize ∧ x.1.spans.length = 2 ∧ ∀ c ∈ x.1.spans, c.Valid) ?_ ?_
    · intro x
      rw [openSpanUp_eq]
      exact (saveSpansLoop_mono H utf8 _ _).bind fun s => (Mono.save H _).bind fun _ => Mono.pure _
    · refine Ends.bind (Span.append_mono H utf8 _ _)
        (fun _ => (Span.append_mono H utf8 _ _).bind fun _ => Mono.pure _) (Span.append_any _ _) ?_
      rintro root log1 _ ⟨⟨-, h2, h3⟩, -⟩
      refine Ends.bind (Span.append_mono H utf8 _ _) (fun _ => Mono.pure _) (Span.append_any _ _) ?_
      rintro s log2 _ ⟨⟨-, h4, h5⟩, -⟩
      refine Ends.pure ⟨rfl, ?_, ?_, ?_⟩
      · change s.stride ≤ _
        rw [h5, h3]
        change v.spanSize * v.chunkSize ≤ _
        have : v.spanSize * v.chunkSize ≤ 1 * v.chunkSize := Nat.mul_le_mul_right _ hss
        omega
      · change s.spans.length = 2
        rw [h4, h2]
        rfl
      · intro c hc
        change c ∈ s.spans at hc
        rw [h4, h2] at hc
        change c ∈ [_, _] at hc
        simp only [List.mem_cons, List.not_mem_nil, or_false] at hc
        rcases hc with rfl | rfl <;> exact H.valid _
    · rintro ⟨sp, rest⟩ log'' _ ⟨hrest, h1, h2, h3⟩
      obtain rfl : rest = [] := hrest
      rw [openSpanUp_eq]
      refine Ends.bind (saveSpansLoop_mono H utf8 _ _) (fun s => (Mono.save H _).bind fun _ => Mono.pure _)
        (Q := fun s log' => s = sp ∧ log' = log'') (Ends.pure ⟨rfl, rfl⟩) ?_
      rintro s log3 - ⟨rfl, rfl⟩
      refine Ends.bind (Mono.save H _) (fun _ => Mono.pure _)
        (Q := fun cid log' => (Item.struct (.span s)).bytes ∈ log' ∧ H.cidOf (Item.struct (.span s)).bytes = cid) ?_ ?_
      · intro cid log' e _
        have h1 : H.cidOf (Item.struct (.span s)).bytes = cid := Except.ok.inj (congrArg Prod.fst e)
        have h2 : (Item.struct (.span s)).bytes :: log3 = log' := congrArg Prod.snd e
        exact ⟨h2 ▸ List.mem_cons_self .., h1⟩
      · rintro cid log4 - ⟨h4, h5⟩
        exact Ends.pure ⟨rfl, s, h4, h5, h1, h2, h3⟩

theorem Variable.openIfFull_small (v : Variable) (hss : v.spanSize ≤ 1) (hcs : v.chunkSize < 2 ^ 32)
    (rows cols : Nat) {sp : Span} (hsp : Small H log v.spanSize v.chunkSize sp) :
    Ends H (v.openIfFull H utf8 fuel rows cols sp []) log fun x log' =>
      x = (v, sp, []) ∧ log' = log ∧ sp.instants ≠ v.spanSize * v.chunkSize := by
  unfold Variable.openIfFull
  rw [hsp.stride]
  split
  · refine Ends.bind (Variable.saveSpans_mono H utf8 v _) ?_ (v.saveSpans_small hsp) ?_
    · intro v
      refine (Variable.createOpenSpan_mono H utf8 fuel v rows cols).bind fun v =>
        (Variable.tailSpans_mono H utf8 fuel v).bind fun spans => ?_
      cases spans with
      | nil => exact Mono.fail _
      | cons l spans =>
        simp only
        split
        · exact Mono.pure _
        · exact Mono.fail _
    · rintro v1 log1 _ ⟨h1, e1, e2⟩
      rw [← e1, ← e2] at h1
      refine Ends.bind (Variable.createOpenSpan_mono H utf8 fuel v1 rows cols) ?_
        (v1.createOpenSpan_small (e1 ▸ hss) (e2 ▸ hcs) rows cols h1) ?_
      · intro v
        refine (Variable.tailSpans_mono H utf8 fuel v).bind fun spans => ?_
        cases spans with
        | nil => exact Mono.fail _
        | cons l spans =>
          simp only
          split
          · exact Mono.pure _
          · exact Mono.fail _
      · rintro v2 log2 _ ⟨e3, r, h2, h3, h4, h5, h6⟩
        have hm : ∀ spans : List Span, Mono (match spans with
            | [] => Prog.fail .panic
            | sp :: rest => if sp.spans.length = 0 then Pure.pure (v2, sp, rest) else Prog.fail .panic :
            Prog (Variable × Span × List Span)) := by
          intro spans
          cases spans with
          | nil => exact Mono.fail _
          | cons l spans =>
            simp only
            split
            · exact Mono.pure _
            · exact Mono.fail _
        refine Ends.bind (Variable.tailSpans_mono H utf8 fuel v2) hm
          (Q := fun l _ => ∃ s, l = [s] ∧ s.spans.length = 2) ?_ ?_
        · refine Ends.bind (Mono.getSpan H utf8 v2.cid) (fun _ => tailSpansLoop_mono H utf8 _ _ _ _)
            (getSpan_saved h2 h3 h6) ?_
          rintro s log3 - ⟨rfl, hs⟩
          cases fuel with
          | zero => exact Ends.fail
          | succ fuel =>
            unfold tailSpansLoop
            have hst : s.stride = r.stride := by
              rw [hs]
              exact asU32_toNat (by omega)
            rw [if_neg (by omega)]
            refine Ends.pure ⟨s, rfl, ?_⟩
            rw [hs]
            change (List.take (asU32 r.spans.length).toNat r.spans).length = 2
            rw [asU32_toNat (by omega), List.take_length, h5]
        · rintro spans log3 - ⟨s, rfl, hs⟩
          simp only
          rw [if_neg (by omega)]
          exact Ends.fail
  · rename_i hne
    exact Ends.pure ⟨rfl, rfl, hne⟩

variable {clog : Nat → Nat} {lg : Rat → Int}

/-- A superchunk that was built is one, and its levels fit the shape. -/
theorem buildChunk_super (levels : List Nat) (b : MMBuffer3) (n rows cols : Nat) :
    Post (Prog.buildChunk H clog lg levels b n rows cols) fun m =>
      (∃ hd loc, m = .superchunk hd loc) ∧ levels ≠ [] ∧ levels.sum = clog (max rows cols) := by
  intro log m log' e
  unfold Prog.buildChunk at e
  cases hb : b.computeBits lg n rows cols with
  | none => rw [hb] at e; cases congrArg Prod.fst e
  | some b =>
    rw [hb] at e
    simp only at e
    cases hs : Superchunk.build H clog lg 2 levels log b n rows cols with
    | none => rw [hs] at e; cases congrArg Prod.fst e
    | some x =>
      rw [hs] at e
      obtain rfl : x.1.data = m := Except.ok.inj (congrArg Prod.fst e)
      cases levels with
      | nil => cases hs
      | cons level sub =>
        unfold Superchunk.build Superchunk.buildLevel at hs
        simp only at hs
        split at hs
        · cases hs
        rename_i hsum
        split at hs
        · cases hs
        split at hs
        · cases hs
        split at hs
        · split at hs
          · obtain rfl := Option.some.inj hs
            exact ⟨⟨_, _, rfl⟩, List.cons_ne_nil _ _, not_not.1 hsum⟩
          · cases hs
        · cases hs

theorem Variable.appendLoop_small (data : MMBuffer3) (n rows cols : Nat) :
    ∀ (starts : List Nat) (v : Variable) (_ : v.spanSize ≤ 1) (_ : v.chunkSize < 2 ^ 32) (sp : Span)
      (update : Bool) (log : Saved), Small H log v.spanSize v.chunkSize sp →
    Ends H (Variable.appendLoop H utf8 clog lg fuel data n rows cols starts v [sp] update) log
      fun x log' => x.1 = v ∧ ∃ sp', x.2 = [sp'] ∧ Small H log' v.spanSize v.chunkSize sp' := by
  intro starts
  induction starts with
  | nil => intro v _ _ sp u log hl; exact Ends.pure ⟨rfl, sp, rfl, hl⟩
  | cons s starts ih =>
    intro v hss hcs sp u log hl
    unfold Variable.appendLoop
    refine Ends.bind (Mono.buildChunk H clog lg _ _ _ _ _) ?_ (Ends.post (buildChunk_super _ _ _ _ _)) ?_
    · intro chunk
      refine (Variable.openIfFull_mono H utf8 fuel v rows cols sp []).bind fun x => ?_
      exact (Span.addChunk_mono _ _ _).bind fun sp => Variable.appendLoop_mono H utf8 clog lg fuel _ _ _ _ _ _ _ _
    · rintro chunk log1 hs1 ⟨⟨hd, loc, rfl⟩, -⟩
      refine Ends.bind (Variable.openIfFull_mono H utf8 fuel v rows cols sp []) ?_
        (v.openIfFull_small hss hcs rows cols (hl.mono hs1)) ?_
      · intro x
        exact (Span.addChunk_mono _ _ _).bind fun sp =>
          Variable.appendLoop_mono H utf8 clog lg fuel _ _ _ _ _ _ _ _
      · rintro x log2 - ⟨rfl, rfl, hne⟩
        refine Ends.bind (Span.addChunk_mono _ _ _) ?_
          (Span.addChunk_small hss hcs u (hl.mono hs1) hne) ?_
        · intro sp
          exact Variable.appendLoop_mono H utf8 clog lg fuel _ _ _ _ _ _ _ _
        · intro sp' log3 hs3 hsp
          exact ih v hss hcs sp' false log3 hsp

theorem Variable.append_small (v : Variable) (hss : v.spanSize ≤ 1) (hcs : v.chunkSize < 2 ^ 32)
    (data : MMBuffer3) (n rows cols : Nat) (update : Bool)
    (h : SmallCid H log v.spanSize v.chunkSize v.cid) :
    Ends H (v.append H utf8 clog lg fuel data n rows cols update) log fun v' log' =>
      SmallCid H log' v.spanSize v.chunkSize v'.cid := by
  refine Ends.bind (Variable.tailSpans_mono H utf8 fuel v) ?_ (v.tailSpans_small hss hcs h) ?_
  · intro spans
    split
    · exact Mono.fail _
    · exact (Variable.appendLoop_mono H utf8 clog lg fuel data n rows cols _ v spans update).bind
        fun x => Variable.saveSpans_mono H utf8 _ _
  · rintro spans log1 hs1 ⟨sp, rfl, hl⟩
    simp only
    split
    · exact Ends.fail
    refine Ends.bind (Variable.appendLoop_mono H utf8 clog lg fuel data n rows cols _ v [sp] update)
      (fun x => Variable.saveSpans_mono H utf8 _ _)
      (Variable.appendLoop_small data n rows cols _ v hss hcs sp update log1 hl) ?_
    rintro ⟨v', l⟩ log2 _ ⟨rfl, sp', hsp, hx⟩
    obtain rfl : l = [sp'] := hsp
    intro v'' log3 e hnc
    exact (Variable.saveSpans_small _ hx v'' log3 e hnc).1

theorem Variable.appendArray_small (v : Variable) (hss : v.spanSize ≤ 1) (hcs : v.chunkSize < 2 ^ 32)
    (fill : Fill) (data : NdArray) (n rows cols : Nat)
    (h : SmallCid H log v.spanSize v.chunkSize v.cid) :
    Ends H (v.appendArray H utf8 clog lg fuel fill data n rows cols) log fun v' log' =>
      SmallCid H log' v.spanSize v.chunkSize v'.cid := by
  have hm2 : ∀ (tail : MMStruct3) (s : Nat × Nat × Nat) (st : Store), Mono (match (fill tail st).2 with
      | some f => Prog.fail f
      | none =>
        if s.2.1 ≠ rows ∨ s.2.2 ≠ cols then Prog.fail .panic
        else
          Variable.append H utf8 clog lg fuel v
            ((data.prepend s.1 (fill tail st).1).buffer v.round) (s.1 + n) rows cols
            true : Prog Variable) := by
    intro tail s st
    cases (fill tail st).2 with
    | some f => exact Mono.fail _
    | none =>
      simp only
      split
      · exact Mono.fail _
      · exact Variable.append_mono H utf8 clog lg fuel v _ _ rows cols true
  refine Ends.bind (Variable.tailData_mono H utf8 fuel v) ?_ (Q := fun _ _ => True) (fun _ _ _ _ => trivial) ?_
  · intro tail
    cases tail with
    | none => exact Variable.append_mono H utf8 clog lg fuel v _ n rows cols false
    | some tail => exact (Mono.ofOption _).bind fun s => Mono.bind (fun _ => List.Subset.refl _) (hm2 tail s)
  · intro tail log1 hs1 _
    cases tail with
    | none => exact v.append_small hss hcs _ n rows cols false (h.mono hs1)
    | some tail =>
      refine Ends.bind (Mono.ofOption _) (fun s => Mono.bind (fun _ => List.Subset.refl _) (hm2 tail s))
        (Q := fun _ _ => True) (fun _ _ _ _ => trivial) ?_
      intro s log2 hs2 _
      refine Ends.bind (fun _ => List.Subset.refl _) (hm2 tail s) (Q := fun _ _ => True)
        (fun _ _ _ _ => trivial) ?_
      intro st log3 hs3 _
      cases (fill tail st).2 with
      | some f => exact Ends.fail
      | none =>
        simp only
        split
        · exact Ends.fail
        · exact v.append_small hss hcs _ _ rows cols true (((h.mono hs1).mono hs2).mono hs3)

/-! ### Histories -/

/-- All variables with a span size below two hold at most one chunk. -/
def Dataset.AllSmall (H : Hash) (d : Dataset) (log : Saved) : Prop :=
  ∀ v ∈ d.variables, v.spanSize ≤ 1 → SmallCid H log v.spanSize v.chunkSize v.cid

theorem Dataset.append_small (fill : Fill) (d : Dataset) (hd : d.Fits utf8) (h : d.AllSmall H log)
    (name : List Byte) (data : NdArray) (n rows cols : Nat) :
    Ends H (Dataset.append H utf8 clog lg fuel fill d name data n rows cols) log fun d' log' =>
      d'.AllSmall H log' := by
  intro d' log' e hnc
  have hm : log ⊆ log' := by
    have := Dataset.append_mono (H := H) (utf8 := utf8) (clog := clog) (lg := lg) (fuel := fuel)
      fill d name data n rows cols log
    rw [e] at this
    exact this
  unfold Dataset.append at e
  cases hf : d.findVariable name with
  | none => rw [hf] at e; cases congrArg Prod.fst e
  | some v =>
    rw [hf] at e
    have hv := List.mem_of_find?_eq_some hf
    have hend := Ends.bind (H := H) (Variable.appendArray_mono H utf8 clog lg fuel fill v data n rows cols)
      (f := fun v => (Pure.pure { d with
        «variables» := replaceVariable v d.variables
        prev := d.nextPrev
        cid := none } : Prog Dataset)) (fun _ => Mono.pure _)
      (R := fun d' log' => ∃ v', d'.variables = replaceVariable v' d.variables ∧ SameVar v v' ∧
        (v.spanSize ≤ 1 → SmallCid H log' v.spanSize v.chunkSize v'.cid))
      (Q := fun v' log' => SameVar v v' ∧ (v.spanSize ≤ 1 → SmallCid H log' v.spanSize v.chunkSize v'.cid))
      (log := log) ?_ ?_
    · obtain ⟨v', h3, h4, h5⟩ := hend d' log' e hnc
      intro w hw hss
      rw [h3] at hw
      rcases replaceVariable_mem hw with rfl | hw
      · obtain ⟨cid, -, rfl⟩ := h4
        exact h5 hss
      · exact (h w hw hss).mono hm
    · intro v' log1 e1 hnc1
      refine ⟨Variable.appendArray_post fill v data n rows cols _ _ _ e1, fun hss => ?_⟩
      exact v.appendArray_small hss (hd.wf.vars v hv).chunkSize fill data n rows cols (h v hv hss) v' log1 e1 hnc1
    · rintro v' log1 - ⟨h1, h2⟩
      exact Ends.pure ⟨v', rfl, h1, h2⟩

theorem Op.step_small (op : Op) (s : Dataset × Saved) (hd : s.1.Fits utf8)
    (h : s.1.AllSmall H s.2) (hnc : (op.step H utf8 clog lg fuel s).2.NoCollision H) :
    (op.step H utf8 clog lg fuel s).1.AllSmall H (op.step H utf8 clog lg fuel s).2 := by
  obtain ⟨d, log⟩ := s
  have hm := op.step_mono (H := H) (utf8 := utf8) (clog := clog) (lg := lg) (fuel := fuel) (d, log)
  cases op with
  | append fill nm data n rows cols =>
    rcases e : Op.prog H utf8 clog lg fuel (.append fill nm data n rows cols) d log with ⟨x | d', log'⟩
    · have hst : Op.step H utf8 clog lg fuel (.append fill nm data n rows cols) (d, log) = (d, log') := by
        unfold Op.step
        rw [e]
      rw [hst] at hm ⊢
      exact fun v hv hss => (h v hv hss).mono hm
    · have hst : Op.step H utf8 clog lg fuel (.append fill nm data n rows cols) (d, log) = (d', log') := by
        unfold Op.step
        rw [e]
      rw [hst] at hm hnc ⊢
      exact Dataset.append_small fill d hd h nm data n rows cols d' log' e hnc
  | addVariable nm round spanSize chunkSize k2Levels encoding =>
    intro w hw hss
    change w ∈ d.variables ++ [_] at hw
    rcases List.mem_append.1 hw with hw | hw
    · exact (h w hw hss).mono hm
    · obtain rfl := List.mem_singleton.1 hw
      exact ⟨Span.new d.rows d.cols chunkSize encoding, List.mem_cons_self .., rfl, rfl, Nat.zero_le _,
        .inl ⟨rfl, rfl⟩⟩
  | commit => exact fun v hv hss => (h v hv hss).mono hm
  | reload =>
    rw [Op.reload_step hd.wf hnc] at hm ⊢
    exact fun v hv hss => (h v hv hss).mono hm

theorem runs_small : ∀ (ops : List Op) (s : Dataset × Saved) (_ : s.1.Fits utf8)
    (_ : ∀ op ∈ ops, op.Fits utf8) (_ : s.1.variables.length + adds ops < 256)
    (_ : s.1.AllSmall H s.2) (_ : (runs H utf8 clog lg fuel ops s).2.NoCollision H),
    (runs H utf8 clog lg fuel ops s).1.AllSmall H (runs H utf8 clog lg fuel ops s).2 := by
  intro ops
  induction ops with
  | nil => intro s _ _ _ h _; exact h
  | cons op ops ih =>
    intro s hd hops hlen h hnc
    rw [adds_cons] at hlen
    have hnc1 : (op.step H utf8 clog lg fuel s).2.NoCollision H := NoCollision.mono (runs_mono ops _) hnc
    have hf := op.step_fits s.1 s.2 hd (hops op (List.mem_cons_self ..)) (by omega) hnc1
    have h2 : (op.step H utf8 clog lg fuel s).1.variables.length ≤ s.1.variables.length + adds [op] := hf.2.1
    exact ih _ hf.1 (fun o ho => hops o (List.mem_cons_of_mem _ ho)) (by omega)
      (op.step_small s hd h hnc1) hnc

end

end Verif
