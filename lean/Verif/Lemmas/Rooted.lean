import Verif.Props.Dataset
import Verif.Lemmas.ReadWF

/-! The type of the span that a variable refers to, in all executions. -/
namespace Verif

open Reader

/-! ### Reading a span -/

/-- A span of some type with identifiers that can be written. -/
def Span.Good (e : MMEncoding) (s : Span) : Prop := s.encoding = e ∧ ∀ c ∈ s.spans, c.Valid

theorem many_prefix {α : Type} {r : Reader α} {w : α → List Byte} : ∀ (n : Nat) (l : List α),
    (∀ a ∈ l, RT r (w a) a) → n ≤ l.length →
    ∃ rest, Reader.many r n (l.flatMap w) = .ok (l.take n, rest) := by
  intro n
  induction n with
  | zero => intro l _ _; exact ⟨_, rfl⟩
  | succ n ih =>
    intro l h hn
    cases l with
    | nil => simp at hn
    | cons a l =>
      obtain ⟨rest, hr⟩ := ih l (fun a ha => h a (List.mem_cons_of_mem _ ha)) (by simpa using hn)
      refine ⟨rest, ?_⟩
      unfold Reader.many Reader.bind
      rw [List.flatMap_cons, h a (List.mem_cons_self ..)]
      simp only
      rw [hr]
      rfl

theorem bind_ok {α β : Type} {r : Reader α} {f : α → Reader β} {bs rest : List Byte} {a : α}
    (h : RT r bs a) : Reader.bind r f (bs ++ rest) = f a rest := by
  unfold Reader.bind
  rw [h]

/-- A span that was saved is read as a span of the same type, even if it does not fit the format. -/
theorem Store.getStruct_span' {utf8 : List Byte → Bool} {st : Store} {cid : Cid} {s : Span}
    (h : st cid = some (Item.struct (.span s)).bytes) (hs : ∀ c ∈ s.spans, c.Valid) :
    st.getStruct utf8 cid = .ok (.span ⟨(asU32 s.instants).toNat, (asU32 s.rows).toNat, (asU32 s.cols).toNat,
      (asU32 s.stride).toNat, s.spans.take (asU32 s.spans.length).toNat, s.encoding⟩) := by
  have e1 : (Item.struct (.span s)).bytes = header 2 ++ (writeByte 3 ++ (writeByte s.encoding.toByte ++
      (writeU32 (asU32 s.instants) ++ (writeU32 (asU32 s.rows) ++ (writeU32 (asU32 s.cols) ++
      (writeU32 (asU32 s.stride) ++ (writeU32 (asU32 s.spans.length) ++ s.spans.flatMap writeCid))))))) := by
    unfold Item.bytes MMStruct3.write
    simp only [Span.write, List.append_assoc]
  have hle : (asU32 s.spans.length).toNat ≤ s.spans.length := by
    unfold asU32
    simp only [BitVec.toNat_ofNat]
    exact Nat.mod_le _ _
  obtain ⟨rest, hr⟩ := many_prefix (asU32 s.spans.length).toNat s.spans
    (fun c hc => readCid_rt c (hs c hc)) hle
  unfold Store.getStruct Store.retrieve
  rw [h]
  simp only
  have e2 : Span.read (writeByte s.encoding.toByte ++
      (writeU32 (asU32 s.instants) ++ (writeU32 (asU32 s.rows) ++ (writeU32 (asU32 s.cols) ++
      (writeU32 (asU32 s.stride) ++ (writeU32 (asU32 s.spans.length) ++ s.spans.flatMap writeCid)))))) =
      .ok (⟨(asU32 s.instants).toNat, (asU32 s.rows).toNat, (asU32 s.cols).toNat, (asU32 s.stride).toNat,
        s.spans.take (asU32 s.spans.length).toNat, s.encoding⟩, rest) := by
    unfold Span.read
    refine (bind_ok (readByte_rt _)).trans ?_
    rw [MMEncoding.ofByte_toByte]
    refine (bind_ok (bs := []) (ofOption_rt _)).trans ?_
    refine (bind_ok (readU32_rt _)).trans ?_
    refine (bind_ok (readU32_rt _)).trans ?_
    refine (bind_ok (readU32_rt _)).trans ?_
    refine (bind_ok (readU32_rt _)).trans ?_
    refine (bind_ok (readU32_rt _)).trans ?_
    change Reader.bind (Reader.many readCid _) _ _ = _
    unfold Reader.bind
    rw [hr]
    rfl
  have e3 : Item.read utf8 cid (Item.struct (.span s)).bytes = .ok (Item.struct (.span
      ⟨(asU32 s.instants).toNat, (asU32 s.rows).toNat, (asU32 s.cols).toNat, (asU32 s.stride).toNat,
        s.spans.take (asU32 s.spans.length).toNat, s.encoding⟩), rest) := by
    rw [e1]
    unfold Item.read
    refine (bind_ok (readHeader_rt 2)).trans ?_
    change Reader.bind MMStruct3.read _ _ = _
    have e4 : ∀ rest, MMStruct3.read (writeByte 3 ++ rest) =
        Reader.bind Span.read (fun s => Reader.pure (MMStruct3.span s)) rest := by
      intro rest
      unfold MMStruct3.read MMStruct3.readFuel
      exact (bind_ok (readByte_rt _)).trans rfl
    unfold Reader.bind
    rw [e4]
    unfold Reader.bind
    rw [e2]
    rfl
  rw [e3]

theorem Store.getStruct_span {utf8 : List Byte → Bool} {st : Store} {cid : Cid} {s : Span} {e : MMEncoding}
    (h : st cid = some (Item.struct (.span s)).bytes) (hs : s.Good e) :
    ∃ s', st.getStruct utf8 cid = .ok (.span s') ∧ s'.Good e :=
  ⟨_, Store.getStruct_span' h hs.2, hs.1, fun c hc => hs.2 c (List.mem_of_mem_take hc)⟩

/-! ### Programs -/

open Prog hiding pure bind

/-- If the program ends well and nothing collides, then with `Q`. -/
def Ends (H : Hash) {α : Type} (m : Prog α) (log : Saved) (Q : α → Saved → Prop) : Prop :=
  ∀ a log', m log = (.ok a, log') → log'.NoCollision H → Q a log'

theorem Ends.pure {H : Hash} {α : Type} {a : α} {log : Saved} {Q : α → Saved → Prop} (h : Q a log) :
    Ends H (Pure.pure a : Prog α) log Q := by
  intro b log' e _
  obtain ⟨rfl, rfl⟩ : a = b ∧ log = log' := by
    have h1 := congrArg Prod.fst e
    have h2 := congrArg Prod.snd e
    exact ⟨Except.ok.inj h1, h2⟩
  exact h

theorem Ends.fail {H : Hash} {α : Type} {f : Fail} {log : Saved} {Q : α → Saved → Prop} :
    Ends H (Prog.fail f : Prog α) log Q := by
  intro b log' e _
  cases congrArg Prod.fst e

theorem Ends.post {H : Hash} {α : Type} {m : Prog α} {log : Saved} {Q : α → Prop} (h : Post m Q) :
    Ends H m log fun a _ => Q a := fun a log' e _ => h log a log' e

theorem Ends.bind {H : Hash} {α β : Type} {m : Prog α} {f : α → Prog β} {log : Saved}
    {Q : α → Saved → Prop} {R : β → Saved → Prop} (hm : Mono m) (hf : ∀ a, Mono (f a))
    (h1 : Ends H m log Q) (h2 : ∀ a log', log ⊆ log' → Q a log' → Ends H (f a) log' R) :
    Ends H (m >>= f) log R := by
  intro b log' e hnc
  change Prog.bind m f log = _ at e
  unfold Prog.bind at e
  have hl := hm log
  rcases h : m log with ⟨_ | a, log1⟩
  · rw [h] at e
    cases congrArg Prod.fst e
  · rw [h] at e hl
    have hsub : log1 ⊆ log' := by
      have := hf a log1
      rw [show f a log1 = (.ok b, log') from e] at this
      exact this
    exact h2 a log1 hl (h1 a log1 h (NoCollision.mono hsub hnc)) b log' e hnc

/-- An identifier of a saved span of some type. -/
def Rooted (H : Hash) (log : Saved) (cid : Cid) (encoding : MMEncoding) : Prop :=
  ∃ sp : Span, (Item.struct (.span sp)).bytes ∈ log ∧ H.cidOf (Item.struct (.span sp)).bytes = cid ∧
    sp.Good encoding

theorem Rooted.mono {H : Hash} {log log' : Saved} {cid e} (hs : log ⊆ log') (h : Rooted H log cid e) :
    Rooted H log' cid e := by
  obtain ⟨sp, h1, h2, h3⟩ := h
  exact ⟨sp, hs h1, h2, h3⟩

/-- The last of some spans is good. -/
def LastIs (e : MMEncoding) (spans : List Span) : Prop := ∀ r, spans.getLast? = some r → r.Good e

theorem LastIs.cons {e : MMEncoding} {s s' : Span} {rest : List Span} (h : LastIs e (s :: rest))
    (he : s.Good e → s'.Good e) : LastIs e (s' :: rest) := by
  cases rest with
  | nil =>
    intro r hr
    obtain rfl := Option.some.inj hr
    exact he (h s rfl)
  | cons p rest => exact h

section
variable {H : Hash} {utf8 : List Byte → Bool} {fuel : Nat}

theorem Rooted.struct {log : Saved} {cid e} (h : Rooted H log cid e) (hnc : log.NoCollision H) :
    ∃ s, (log.load H).getStruct utf8 cid = .ok (.span s) ∧ s.Good e := by
  obtain ⟨sp, h1, h2, h3⟩ := h
  refine Store.getStruct_span ?_ h3
  rw [← h2]
  exact Saved.load_mem hnc h1

theorem Rooted.getSpan {log : Saved} {cid e} (h : Rooted H log cid e) :
    Ends H (Prog.getSpan H utf8 cid) log fun s _ => s.Good e := by
  intro s log' he hnc
  have hlog : log = log' := by
    have := congrArg Prod.snd he
    unfold Prog.getSpan at this
    change (Prog.bind (Prog.getStruct H utf8 cid) _ log).2 = _ at this
    unfold Prog.bind Prog.getStruct at this
    cases hm : (log.load H).getStruct utf8 cid with
    | error f => rw [hm] at this; exact this
    | ok m =>
      rw [hm] at this
      cases m <;> exact this
  subst hlog
  change Prog.bind (Prog.getStruct H utf8 cid) _ log = _ at he
  unfold Prog.bind Prog.getStruct at he
  obtain ⟨s', h1, h2⟩ := h.struct (utf8 := utf8) hnc
  rw [h1] at he
  have : s' = s := Except.ok.inj (congrArg Prod.fst he)
  exact this ▸ h2

theorem Rooted.save {sp : Span} {log : Saved} {e : MMEncoding} (hs : sp.Good e) :
    Ends H (Prog.save H (.struct (.span sp))) log fun cid log' => Rooted H log' cid e := by
  intro cid log' e _
  have h1 : H.cidOf (Item.struct (.span sp)).bytes = cid := Except.ok.inj (congrArg Prod.fst e)
  have h2 : (Item.struct (.span sp)).bytes :: log = log' := congrArg Prod.snd e
  exact ⟨sp, h2 ▸ List.mem_cons_self .., h1, hs⟩

theorem tailSpansLoop_last (cs : Nat) : ∀ (fuel : Nat) (above : List Span) (sp : Span),
    Post (tailSpansLoop H utf8 cs fuel above sp) fun l => l.getLast? = (sp :: above).getLast? := by
  intro fuel
  induction fuel with
  | zero => intro above sp; exact Post.fail
  | succ fuel ih =>
    intro above sp
    unfold tailSpansLoop
    split
    · refine (Post.any _).bind fun cid _ => (Post.any _).bind fun c _ => ?_
      exact ih (sp :: above) c
    · exact Post.pure rfl

theorem Variable.tailSpans_last (v : Variable) {log : Saved} {e} (h : Rooted H log v.cid e) :
    Ends H (v.tailSpans H utf8 fuel) log fun l _ => LastIs e l := by
  refine Ends.bind (Mono.getSpan H utf8 v.cid) (fun _ => tailSpansLoop_mono H utf8 _ _ _ _) h.getSpan ?_
  intro s log' _ hs l log'' e' _ r hr
  rw [tailSpansLoop_last v.chunkSize fuel [] s log' l log'' e'] at hr
  obtain rfl := Option.some.inj hr
  exact hs

theorem Span.append_good (sp : Span) (m : MMStruct3) :
    Post (Span.append H utf8 sp m) fun s => ∀ e, sp.Good e → s.Good e := by
  unfold Span.append
  refine (Post.any _).bind fun _ _ => (Post.any _).bind fun shape _ => ?_
  split
  · exact Post.fail
  · split
    · exact Post.fail
    · refine (Post.save _).bind fun cid hcid => Post.pure fun e h => ⟨h.1, fun c hc => ?_⟩
      rcases List.mem_append.1 hc with hc | hc
      · exact h.2 c hc
      · exact (List.mem_singleton.1 hc) ▸ hcid

theorem Span.update_good (sp : Span) (m : MMStruct3) :
    Post (Span.update H utf8 sp m) fun s => ∀ e, sp.Good e → s.Good e := by
  intro log s log' e1 e h
  exact Span.append_good _ m log s log' e1 e ⟨h.1, fun c hc => h.2 c (List.dropLast_subset _ hc)⟩

theorem Span.addChunk_good (update : Bool) (sp : Span) (m : MMStruct3) :
    Post (Span.addChunk H utf8 update sp m) fun s => ∀ e, sp.Good e → s.Good e := by
  unfold Span.addChunk
  split
  · exact Span.update_good sp m
  · exact Span.append_good sp m

theorem saveSpansLoop_last {e : MMEncoding} : ∀ (above : List Span) (sp : Span), LastIs e (sp :: above) →
    Post (saveSpansLoop H utf8 sp above) fun s => s.Good e := by
  intro above
  induction above with
  | nil => intro sp h; exact Post.pure (h sp rfl)
  | cons p rest ih =>
    intro sp h
    have h' : LastIs e (p :: rest) := h
    exact (Span.update_good p _).bind fun s hs => ih s (h'.cons (hs e))

theorem Variable.saveSpans_rooted (v : Variable) {spans : List Span} {log : Saved} {e}
    (h : LastIs e spans) :
    Ends H (v.saveSpans H utf8 spans) log fun v' log' => Rooted H log' v'.cid e := by
  cases spans with
  | nil => exact Ends.fail
  | cons sp rest =>
    refine Ends.bind (saveSpansLoop_mono H utf8 rest sp) (fun s => (Mono.save H _).bind fun _ => Mono.pure _)
      (Ends.post (saveSpansLoop_last rest sp h)) ?_
    intro s log' _ hs
    refine Ends.bind (Mono.save H _) (fun _ => Mono.pure _) (Rooted.save hs) ?_
    intro cid log'' _ hc
    exact Ends.pure hc

theorem openSpanLoop_last (v : Variable) (rows cols : Nat) : ∀ (above : List Span) (l sp : Span),
    LastIs v.encoding above →
    Post (openSpanLoop H utf8 v rows cols l sp above) fun x => LastIs v.encoding (x.1 :: x.2) := by
  intro above
  induction above with
  | nil =>
    intro l sp _
    refine (Span.append_good _ _).bind fun r hr => (Span.append_good _ _).bind fun s hs => Post.pure ?_
    intro q hq
    obtain rfl := Option.some.inj hq
    exact hs _ (hr _ ⟨rfl, fun c hc => nomatch hc⟩)
  | cons p rest ih =>
    intro l sp h
    unfold openSpanLoop
    split
    · refine (Post.any _).bind fun s _ => ih p s ?_
      intro r hr
      refine h r ?_
      cases rest with
      | nil => cases hr
      | cons q rest => exact hr
    · exact (Span.append_good _ _).bind fun s hs => Post.pure (h.cons (hs _))

theorem Variable.createOpenSpan_rooted (v : Variable) (rows cols : Nat) {log : Saved}
    (h : Rooted H log v.cid v.encoding) :
    Ends H (v.createOpenSpan H utf8 fuel rows cols) log fun v' log' =>
      Rooted H log' v'.cid v.encoding := by
  refine Ends.bind (Variable.tailSpans_mono H utf8 fuel v) ?_ (v.tailSpans_last h) ?_
  · intro spans
    cases spans with
    | nil => exact Mono.fail _
    | cons l spans =>
      refine (openSpanLoop_mono H utf8 v rows cols spans l _).bind fun x => ?_
      rw [openSpanUp_eq]
      exact (saveSpansLoop_mono H utf8 _ _).bind fun s => (Mono.save H _).bind fun _ => Mono.pure _
  · intro spans log' _ hl
    cases spans with
    | nil => exact Ends.fail
    | cons l spans =>
      have hl' : LastIs v.encoding spans := by
        intro r hr
        refine hl r ?_
        cases spans with
        | nil => cases hr
        | cons q rest => exact hr
      refine Ends.bind (openSpanLoop_mono H utf8 v rows cols spans l _) ?_
        (Ends.post (openSpanLoop_last v rows cols spans l _ hl')) ?_
      · intro x
        rw [openSpanUp_eq]
        exact (saveSpansLoop_mono H utf8 _ _).bind fun s => (Mono.save H _).bind fun _ => Mono.pure _
      · intro x log'' _ hx
        rw [openSpanUp_eq]
        refine Ends.bind (saveSpansLoop_mono H utf8 _ _) (fun s => (Mono.save H _).bind fun _ => Mono.pure _)
          (Ends.post (saveSpansLoop_last x.2 x.1 hx)) ?_
        intro s log3 _ hs
        refine Ends.bind (Mono.save H _) (fun _ => Mono.pure _) (Rooted.save hs) ?_
        intro cid log4 _ hc
        exact Ends.pure hc

theorem Variable.openIfFull_rooted (v : Variable) (rows cols : Nat) (sp : Span) (rest : List Span)
    {log : Saved} (h : Rooted H log v.cid v.encoding) (hl : LastIs v.encoding (sp :: rest)) :
    Ends H (v.openIfFull H utf8 fuel rows cols sp rest) log fun x log' =>
      x.1.encoding = v.encoding ∧ Rooted H log' x.1.cid v.encoding ∧ LastIs v.encoding (x.2.1 :: x.2.2) := by
  unfold Variable.openIfFull
  split
  · refine Ends.bind (Variable.saveSpans_mono H utf8 v _) ?_
      (Q := fun v' log' => v'.encoding = v.encoding ∧ Rooted H log' v'.cid v.encoding) ?_ ?_
    · intro v
      refine (Variable.createOpenSpan_mono H utf8 fuel v rows cols).bind fun v =>
        (Variable.tailSpans_mono H utf8 fuel v).bind fun spans => ?_
      cases spans with
      | nil => exact Mono.fail _
      | cons l spans =>
        simp only
        split
        · exact Mono.pure _
        · exact Mono.fail _
    · intro v' log' e hnc
      obtain ⟨c, -, rfl⟩ := Variable.saveSpans_post v _ _ _ _ e
      exact ⟨rfl, v.saveSpans_rooted hl _ _ e hnc⟩
    · rintro v1 log1 - ⟨he1, hr1⟩
      refine Ends.bind (Variable.createOpenSpan_mono H utf8 fuel v1 rows cols) ?_
        (Q := fun v' log' => v'.encoding = v.encoding ∧ Rooted H log' v'.cid v.encoding) ?_ ?_
      · intro v
        refine (Variable.tailSpans_mono H utf8 fuel v).bind fun spans => ?_
        cases spans with
        | nil => exact Mono.fail _
        | cons l spans =>
          simp only
          split
          · exact Mono.pure _
          · exact Mono.fail _
      · intro v' log' e hnc
        rw [← he1] at hr1 ⊢
        have := v1.createOpenSpan_rooted rows cols hr1 _ _ e hnc
        obtain ⟨c, -, rfl⟩ := Variable.createOpenSpan_post v1 rows cols _ _ _ e
        exact ⟨rfl, this⟩
      · rintro v2 log2 - ⟨he2, hr2⟩
        refine Ends.bind (Variable.tailSpans_mono H utf8 fuel v2) ?_ (v2.tailSpans_last hr2) ?_
        · intro spans
          cases spans with
          | nil => exact Mono.fail _
          | cons l spans =>
            simp only
            split
            · exact Mono.pure _
            · exact Mono.fail _
        · intro spans log3 hs3 hl3
          cases spans with
          | nil => exact Ends.fail
          | cons l spans =>
            simp only
            split
            · exact Ends.pure ⟨he2, hr2.mono hs3, hl3⟩
            · exact Ends.fail
  · exact Ends.pure ⟨rfl, h, hl⟩

variable {clog : Nat → Nat} {lg : Rat → Int}

theorem Variable.appendLoop_rooted (data : MMBuffer3) (n rows cols : Nat) (e : MMEncoding) :
    ∀ (starts : List Nat) (v : Variable) (spans : List Span) (update : Bool) (log : Saved),
    v.encoding = e → Rooted H log v.cid e → LastIs e spans →
    Ends H (Variable.appendLoop H utf8 clog lg fuel data n rows cols starts v spans update) log
      fun x _ => LastIs e x.2 := by
  intro starts
  induction starts with
  | nil => intro v spans u log _ _ hl; exact Ends.pure hl
  | cons s starts ih =>
    intro v spans u log he hr hl
    unfold Variable.appendLoop
    refine Ends.bind (Mono.buildChunk H clog lg _ _ _ _ _) ?_ (Q := fun _ _ => True)
      (fun _ _ _ _ => trivial) ?_
    · intro chunk
      cases spans with
      | nil => exact Mono.fail _
      | cons sp rest =>
        refine (Variable.openIfFull_mono H utf8 fuel v rows cols sp rest).bind fun x => ?_
        exact (Span.addChunk_mono _ _ _).bind fun sp => Variable.appendLoop_mono H utf8 clog lg fuel _ _ _ _ _ _ _ _
    · intro chunk log1 hs1 _
      cases spans with
      | nil => exact Ends.fail
      | cons sp rest =>
        subst he
        refine Ends.bind (Variable.openIfFull_mono H utf8 fuel v rows cols sp rest) ?_
          (v.openIfFull_rooted rows cols sp rest (hr.mono hs1) hl) ?_
        · intro x
          exact (Span.addChunk_mono _ _ _).bind fun sp =>
            Variable.appendLoop_mono H utf8 clog lg fuel _ _ _ _ _ _ _ _
        · rintro x log2 - ⟨h1, h2, h3⟩
          refine Ends.bind (Span.addChunk_mono _ _ _) ?_ (Ends.post (Span.addChunk_good u x.2.1 chunk)) ?_
          · intro sp
            exact Variable.appendLoop_mono H utf8 clog lg fuel _ _ _ _ _ _ _ _
          · intro sp log3 hs3 hsp
            exact ih x.1 _ _ _ h1 (h2.mono hs3) (h3.cons (hsp _))

theorem Variable.append_rooted (v : Variable) (data : MMBuffer3) (n rows cols : Nat) (update : Bool)
    {log : Saved} (h : Rooted H log v.cid v.encoding) :
    Ends H (v.append H utf8 clog lg fuel data n rows cols update) log fun v' log' =>
      Rooted H log' v'.cid v.encoding := by
  refine Ends.bind (Variable.tailSpans_mono H utf8 fuel v) ?_ (v.tailSpans_last h) ?_
  · intro spans
    split
    · exact Mono.fail _
    · exact (Variable.appendLoop_mono H utf8 clog lg fuel data n rows cols _ v spans update).bind
        fun x => Variable.saveSpans_mono H utf8 _ _
  · intro spans log1 hs1 hl
    simp only
    split
    · exact Ends.fail
    · refine Ends.bind (Variable.appendLoop_mono H utf8 clog lg fuel data n rows cols _ v spans update)
        (fun x => Variable.saveSpans_mono H utf8 _ _)
        (Variable.appendLoop_rooted data n rows cols v.encoding _ v spans update log1 rfl (h.mono hs1) hl) ?_
      intro x log2 _ hx
      exact Variable.saveSpans_rooted _ hx

theorem Variable.appendArray_rooted (fill : Fill) (v : Variable) (data : NdArray) (n rows cols : Nat)
    {log : Saved} (h : Rooted H log v.cid v.encoding) :
    Ends H (v.appendArray H utf8 clog lg fuel fill data n rows cols) log fun v' log' =>
      Rooted H log' v'.cid v.encoding := by
  refine Ends.bind (Variable.tailData_mono H utf8 fuel v) ?_ (Q := fun _ _ => True) (fun _ _ _ _ => trivial) ?_
  · intro tail
    cases tail with
    | none => exact Variable.append_mono H utf8 clog lg fuel v _ n rows cols false
    | some tail =>
      refine (Mono.ofOption _).bind fun s => Mono.bind (fun _ => List.Subset.refl _) fun st => ?_
      cases (fill tail st).2 with
      | some f => exact Mono.fail _
      | none =>
        simp only
        split
        · exact Mono.fail _
        · exact Variable.append_mono H utf8 clog lg fuel v _ _ rows cols true
  · intro tail log1 hs1 _
    cases tail with
    | none => exact v.append_rooted _ n rows cols false (h.mono hs1)
    | some tail =>
      refine Ends.bind (Mono.ofOption _) ?_ (Q := fun _ _ => True) (fun _ _ _ _ => trivial) ?_
      · intro s
        refine Mono.bind (fun _ => List.Subset.refl _) fun st => ?_
        cases (fill tail st).2 with
        | some f => exact Mono.fail _
        | none =>
          simp only
          split
          · exact Mono.fail _
          · exact Variable.append_mono H utf8 clog lg fuel v _ _ rows cols true
      · intro s log2 hs2 _
        refine Ends.bind (fun _ => List.Subset.refl _) ?_ (Q := fun _ _ => True) (fun _ _ _ _ => trivial) ?_
        · intro st
          cases (fill tail st).2 with
          | some f => exact Mono.fail _
          | none =>
            simp only
            split
            · exact Mono.fail _
            · exact Variable.append_mono H utf8 clog lg fuel v _ _ rows cols true
        · intro st log3 hs3 _
          cases (fill tail st).2 with
          | some f => exact Ends.fail
          | none =>
            simp only
            split
            · exact Ends.fail
            · exact v.append_rooted _ _ rows cols true (((h.mono hs1).mono hs2).mono hs3)

/-! ### Histories -/

/-- All variables of a data set refer to spans of their types. -/
def Dataset.AllRooted (H : Hash) (d : Dataset) (log : Saved) : Prop :=
  ∀ v ∈ d.variables, Rooted H log v.cid v.encoding

theorem replaceVariable_mem {v w : Variable} {vs : List Variable} (h : w ∈ replaceVariable v vs) :
    w = v ∨ w ∈ vs := by
  induction vs with
  | nil => cases h
  | cons x xs ih =>
    unfold replaceVariable at h
    split at h
    · rcases List.mem_cons.1 h with h | h
      · exact .inl h
      · exact .inr (List.mem_cons_of_mem _ h)
    · rcases List.mem_cons.1 h with h | h
      · exact .inr (h ▸ List.mem_cons_self ..)
      · rcases ih h with h | h
        · exact .inl h
        · exact .inr (List.mem_cons_of_mem _ h)

theorem Op.step_rooted (op : Op) (s : Dataset × Saved) (hd : s.1.Fits utf8)
    (h : s.1.AllRooted H s.2) (hnc : (op.step H utf8 clog lg fuel s).2.NoCollision H) :
    (op.step H utf8 clog lg fuel s).1.AllRooted H (op.step H utf8 clog lg fuel s).2 := by
  obtain ⟨d, log⟩ := s
  have hm := op.step_mono (H := H) (utf8 := utf8) (clog := clog) (lg := lg) (fuel := fuel) (d, log)
  cases op with
  | append fill nm data n rows cols =>
    rcases e : Op.prog H utf8 clog lg fuel (.append fill nm data n rows cols) d log with ⟨x | d', log'⟩
    · have hst : Op.step H utf8 clog lg fuel (.append fill nm data n rows cols) (d, log) = (d, log') := by
        unfold Op.step
        rw [e]
      rw [hst] at hm ⊢
      exact fun v hv => (h v hv).mono hm
    · have hst : Op.step H utf8 clog lg fuel (.append fill nm data n rows cols) (d, log) = (d', log') := by
        unfold Op.step
        rw [e]
      rw [hst] at hm hnc ⊢
      change Dataset.append H utf8 clog lg fuel fill d nm data n rows cols log = _ at e
      unfold Dataset.append at e
      cases hf : d.findVariable nm with
      | none => rw [hf] at e; cases congrArg Prod.fst e
      | some v =>
        rw [hf] at e
        have hv := List.mem_of_find?_eq_some hf
        have hend := Ends.bind (H := H) (Variable.appendArray_mono H utf8 clog lg fuel fill v data n rows cols)
          (f := fun v => (Pure.pure { d with
            «variables» := replaceVariable v d.variables
            prev := d.nextPrev
            cid := none } : Prog Dataset)) (fun _ => Mono.pure _)
          (Q := fun v' log' => v'.encoding = v.encoding ∧ Rooted H log' v'.cid v.encoding)
          (R := fun d' log' => ∃ v', d'.variables = replaceVariable v' d.variables ∧
            Rooted H log' v'.cid v'.encoding)
          (log := log) ?_ ?_
        · obtain ⟨v', h1, h2⟩ := hend d' log' e hnc
          intro w hw
          change w ∈ d'.variables at hw
          rw [h1] at hw
          rcases replaceVariable_mem hw with rfl | hw
          · exact h2
          · exact (h w hw).mono hm
        · intro v' log1 e1 hnc1
          have := Variable.appendArray_rooted fill v data n rows cols (h v hv) v' log1 e1 hnc1
          obtain ⟨c, -, rfl⟩ := Variable.appendArray_post fill v data n rows cols _ _ _ e1
          exact ⟨rfl, this⟩
        · rintro v' log1 - ⟨h1, h2⟩
          exact Ends.pure ⟨v', rfl, h1.symm ▸ h2⟩
  | addVariable nm round spanSize chunkSize k2Levels encoding =>
    intro w hw
    change w ∈ d.variables ++ [_] at hw
    rcases List.mem_append.1 hw with hw | hw
    · exact (h w hw).mono hm
    · obtain rfl := List.mem_singleton.1 hw
      exact ⟨Span.new d.rows d.cols chunkSize encoding, List.mem_cons_self .., rfl, rfl, fun c hc => nomatch hc⟩
  | commit => exact fun v hv => (h v hv).mono hm
  | reload =>
    rw [Op.reload_step hd.wf hnc] at hm ⊢
    exact fun v hv => (h v hv).mono hm

theorem runs_rooted : ∀ (ops : List Op) (s : Dataset × Saved) (_ : s.1.Fits utf8)
    (_ : ∀ op ∈ ops, op.Fits utf8) (_ : s.1.variables.length + adds ops < 256)
    (_ : s.1.AllRooted H s.2) (_ : (runs H utf8 clog lg fuel ops s).2.NoCollision H),
    (runs H utf8 clog lg fuel ops s).1.AllRooted H (runs H utf8 clog lg fuel ops s).2 := by
  intro ops
  induction ops with
  | nil => intro s _ _ _ h _; exact h
  | cons op ops ih =>
    intro s hd hops hlen h hnc
    rw [adds_cons] at hlen
    have hnc1 : (op.step H utf8 clog lg fuel s).2.NoCollision H := NoCollision.mono (runs_mono ops _) hnc
    have hf := op.step_fits s.1 s.2 hd (hops op (List.mem_cons_self ..)) (by omega) hnc1
    have h2 : (op.step H utf8 clog lg fuel s).1.variables.length ≤ s.1.variables.length + adds [op] := hf.2.1
    exact ih _ hf.1 (fun o ho => hops o (List.mem_cons_of_mem _ ho)) (by omega)
      (op.step_rooted s hd h hnc1) hnc

end

end Verif
