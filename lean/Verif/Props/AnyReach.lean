import Verif.Props.AnySchedule
import Verif.Props.Resolver
import Verif.Lemmas.Du

/-!
Property C45 for whole data sets with any history: everything that was ever committed can be reached from the
last version through listings, and nothing else is needed to read it.
-/
namespace Verif

open Prog hiding pure bind

section
variable {H : Hash} {utf8 : List Byte → Bool} {clog : Nat → Nat} {lg : Rat → Int} {fuel readFuel : Nat}

/-- A span that was saved with all it refers to. -/
def Whole (H : Hash) (utf8 : List Byte → Bool) (log : Saved) (c : Cid) : Prop :=
  ∃ dep root, Kept H log c (.span root) ∧ Ground utf8 H log dep (.struct (.span root))

theorem Whole.mono {log log' : Saved} {c : Cid} (h : Whole H utf8 log c) (hs : log ⊆ log') :
    Whole H utf8 log' c := by
  obtain ⟨dep, root, h1, h2⟩ := h
  exact ⟨dep, root, h1.mono hs, h2.mono hs⟩

/-- A data set that was saved with all it refers to. -/
def Stored (H : Hash) (utf8 : List Byte → Bool) (log : Saved) (c : Cid) : Prop :=
  ∃ dep d, (Item.dataset d).bytes ∈ log ∧ c = H.cidOf (Item.dataset d).bytes ∧ Ground utf8 H log dep (.dataset d)

theorem Stored.mono {log log' : Saved} {c : Cid} (h : Stored H utf8 log c) (hs : log ⊆ log') :
    Stored H utf8 log' c := by
  obtain ⟨dep, d, h1, h2, h3⟩ := h
  exact ⟨dep, d, hs h1, h2, h3.mono hs⟩

/-- Everything a data set refers to was saved. -/
structure Linked (H : Hash) (utf8 : List Byte → Bool) (s : Dataset × Saved) : Prop where
  vars : ∀ v ∈ s.1.variables, Whole H utf8 s.2 v.cid
  earlier : ∀ c, s.1.prev = some c ∨ s.1.cid = some c → Stored H utf8 s.2 c

theorem Linked.mono {d : Dataset} {log log' : Saved} (h : Linked H utf8 (d, log)) (hs : log ⊆ log') :
    Linked H utf8 (d, log') :=
  ⟨fun v hv => (h.vars v hv).mono hs, fun c hc => (h.earlier c hc).mono hs⟩

theorem Linked.nextPrev {s : Dataset × Saved} (h : Linked H utf8 s) {c : Cid} (hc : s.1.nextPrev = some c) :
    Stored H utf8 s.2 c := by
  refine h.earlier c ?_
  unfold Dataset.nextPrev at hc
  cases e : s.1.cid with
  | none => rw [e] at hc; exact .inl hc
  | some c' => rw [e] at hc; exact .inr hc

/-- Depths of finitely many objects. -/
theorem depth_bound {α : Type} {P : α → Nat → Prop} (hP : ∀ a i j, i ≤ j → P a i → P a j) (l : List α)
    (h : ∀ a ∈ l, ∃ i, P a i) : ∃ i, ∀ a ∈ l, P a i := by
  induction l with
  | nil => exact ⟨0, fun a ha => (nomatch ha)⟩
  | cons a l ih =>
    obtain ⟨i, hi⟩ := h a (List.mem_cons_self ..)
    obtain ⟨j, hj⟩ := ih fun b hb => h b (List.mem_cons_of_mem _ hb)
    refine ⟨max i j, fun b hb => ?_⟩
    rcases List.mem_cons.1 hb with rfl | hb
    · exact hP _ _ _ (Nat.le_max_left ..) hi
    · exact hP _ _ _ (Nat.le_max_right ..) (hj b hb)

/-- What is committed was saved with all it refers to. -/
theorem Linked.commit {d : Dataset} {log : Saved} (h : Linked H utf8 (d, log)) (hd : d.WF utf8) :
    ∃ dep, Ground utf8 H log dep (.dataset d) := by
  obtain ⟨dep, hdep⟩ := depth_bound (α := List Byte × Cid) (P := fun e i =>
      ∃ y : Item, y.bytes ∈ log ∧ e.2 = H.cidOf y.bytes ∧ Ground utf8 H log i y)
    (fun e i j hij ⟨y, h1, h2, h3⟩ => ⟨y, h1, h2, h3.deeper hij⟩) (Item.dataset d).ls (by
      intro e he
      change e ∈ d.variables.map _ ++ _ at he
      rcases List.mem_append.1 he with he | he
      · obtain ⟨v, hv, rfl⟩ := List.mem_map.1 he
        obtain ⟨dep, root, h1, h2⟩ := h.vars v hv
        exact ⟨dep, _, h1.mem, h1.cid.symm, h2⟩
      · cases hp : d.prev with
        | none => rw [hp] at he; cases he
        | some c =>
          rw [hp, List.mem_singleton] at he
          subst he
          obtain ⟨dep, d', h1, h2, h3⟩ := h.earlier c (.inl hp)
          exact ⟨dep, _, h1, h2, h3⟩)
  exact ⟨dep + 1, hd, trivial, hdep⟩

theorem Linked.step {B rows cols : Nat} {op : Op} {ops : List Op} {s : Dataset × Saved} (hl : Linked H utf8 s)
    (h : Every H utf8 clog lg fuel readFuel B rows cols ops (op.step H utf8 clog lg fuel s)) (hd : s.1.Fits utf8)
    (hon : op.Limits utf8 clog readFuel s.1.rows s.1.cols)
    (hnc : (op.step H utf8 clog lg fuel s).2.NoCollision H) :
    Linked H utf8 (op.step H utf8 clog lg fuel s) := by
  have hm := op.step_mono (H := H) (utf8 := utf8) (clog := clog) (lg := lg) (fuel := fuel) s
  have hwhole : ∀ name v, (op.step H utf8 clog lg fuel s).1.findVariable name = some v →
      Whole H utf8 (op.step H utf8 clog lg fuel s).2 v.cid := by
    intro name v hv
    obtain ⟨levels, cs, ss, enc, round, hset, M, hi, -, -⟩ := h.vars name (by rw [hv]; simp)
    obtain ⟨v', root, dep, h1, h2, h3⟩ := hi.ground (d := 2 * levels.length + 1)
      fun m a n hK => AnyChunk.ground hK utf8 _ (List.Subset.refl _)
    rw [hv] at h1
    cases h1
    exact ⟨dep, root, h2, h3⟩
  cases op with
  | append fill name data n rows' cols' =>
    rcases e : Op.prog H utf8 clog lg fuel (.append fill name data n rows' cols') s.1 s.2 with ⟨_ | d', log'⟩
    · have hstep : Op.step H utf8 clog lg fuel (.append fill name data n rows' cols') s = (s.1, log') := by
        unfold Op.step
        rw [e]
      rw [hstep] at hm ⊢
      exact hl.mono hm
    · have hstep : Op.step H utf8 clog lg fuel (.append fill name data n rows' cols') s = (d', log') := by
        unfold Op.step
        rw [e]
      rw [hstep] at hm hwhole ⊢
      obtain ⟨v, v', h1, h2, rfl⟩ := Dataset.append_post fill s.1 name data n rows' cols' _ _ _ e
      obtain ⟨cid, -, rfl⟩ := h2
      refine ⟨fun w hw => ?_, fun c hc => ?_⟩
      · rcases mem_replaceVariable hw with rfl | hw
        · exact hwhole name _ (Dataset.findVariable_replace h1 (Dataset.findVariable_mem h1).2)
        · exact (hl.vars w hw).mono hm
      · rcases hc with hc | hc
        · exact (hl.nextPrev hc).mono hm
        · cases hc
  | addVariable name round ss cs levels enc =>
    have hstep : Op.step H utf8 clog lg fuel (.addVariable name round ss cs levels enc) s =
      ({ s.1 with
        «variables» := s.1.variables ++ [⟨name, round, ss, cs, levels, enc,
          H.cidOf (Item.struct (.span (Span.new s.1.rows s.1.cols cs enc))).bytes⟩]
        prev := s.1.nextPrev
        cid := none },
        (Item.struct (.span (Span.new s.1.rows s.1.cols cs enc))).bytes :: s.2) := rfl
    rw [hstep] at hm ⊢
    refine ⟨fun w hw => ?_, fun c hc => ?_⟩
    · rcases List.mem_append.1 hw with hw | hw
      · exact (hl.vars w hw).mono hm
      · rw [List.mem_singleton] at hw
        subst hw
        have hw : (MMStruct3.span (Span.new s.1.rows s.1.cols cs enc)).WF :=
          Tree.wf (H := H) (T := hon.1.theory H enc) (log := s.2) (i := 0) (a := 0) (n := 0) (tl := 0)
            (Tree.empty s.2 0 _ rfl) (by rw [VarTheory.stride_zero]; exact (hon.1.theory H enc).cs_le) (Nat.zero_le _)
        exact ⟨1, _, ⟨rfl, List.mem_cons_self .., hw⟩, Ground.span hw fun c hc => (nomatch hc)⟩
    · rcases hc with hc | hc
      · exact (hl.nextPrev hc).mono hm
      · cases hc
  | commit => exact hl.mono hm
  | reload =>
    have hlog : (Op.step H utf8 clog lg fuel .reload s).2 = (Item.dataset s.1).bytes :: s.2 := by
      unfold Op.step
      have : (Op.reload.prog H utf8 clog lg fuel s.1 s.2).2 = (Item.dataset s.1).bytes :: s.2 := rfl
      revert this
      rcases Op.reload.prog H utf8 clog lg fuel s.1 s.2 with ⟨_ | d', log'⟩ <;> exact id
    have hstep : Op.step H utf8 clog lg fuel .reload s =
        ({ s.1 with cid := some (H.cidOf (Item.dataset s.1).bytes) }, (Item.dataset s.1).bytes :: s.2) := by
      rw [hlog] at hnc
      unfold Op.step
      rw [Dataset.reload_eq hd.wf hnc]
    rw [hstep] at hm ⊢
    have hl' := hl.mono hm
    refine ⟨hl'.vars, fun c hc => ?_⟩
    rcases hc with hc | hc
    · exact hl'.earlier c (.inl hc)
    · cases hc
      obtain ⟨dep, hg⟩ := hl'.commit hd.wf
      exact ⟨dep, s.1, List.mem_cons_self .., rfl, hg⟩

theorem Every.linked {B rows cols : Nat} (hB : B ≤ 2 ^ 32) (hf : 32 ≤ fuel) : ∀ (ops : List Op) (s : Dataset × Saved),
    Every H utf8 clog lg fuel readFuel B rows cols ops s → Linked H utf8 s →
    (∀ op ∈ ops, op.Fits utf8 ∧ op.Limits utf8 clog readFuel rows cols) →
    s.1.variables.length + adds ops < 256 →
    (∀ name, total (accepted H utf8 clog lg fuel name ops s) < B) →
    (Verif.runs H utf8 clog lg fuel ops s).2.NoCollision H →
    Linked H utf8 (Verif.runs H utf8 clog lg fuel ops s) := by
  intro ops
  induction ops with
  | nil => intro s _ h _ _ _ _; exact h
  | cons op ops ih =>
    intro s h hl ho hn htot hnc
    rw [adds_cons] at hn
    have hnc1 : (op.step H utf8 clog lg fuel s).2.NoCollision H := NoCollision.mono (runs_mono ops _) hnc
    obtain ⟨ho1, ho2⟩ := ho op (List.mem_cons_self ..)
    have hlen : (op.step H utf8 clog lg fuel s).1.variables.length ≤ s.1.variables.length + adds [op] :=
      (op.step_fits s.1 s.2 h.fits ho1 (by omega) hnc1).2.1
    have hstep := h.step hB hf ho1 ho2 (by omega) (fun nm => accepted_step (htot nm)) hnc1
    exact ih _ hstep (hl.step hstep h.fits (by rw [h.shape.1, h.shape.2]; exact ho2) hnc1)
      (fun o h => ho o (List.mem_cons_of_mem _ h)) (by omega) (fun nm => accepted_step (htot nm)) hnc

theorem Limited.linked {d : Dataset} {ops : List Op} {log : Saved} {room : Nat}
    (h : Limited H utf8 clog lg fuel readFuel d ops log room) (hf : 32 ≤ fuel) {s : Dataset × Saved}
    (hs : s = Verif.runs H utf8 clog lg fuel ops (d, log)) (hnc : s.2.NoCollision H) : Linked H utf8 s := by
  subst hs
  refine Every.linked (readFuel := readFuel) (by omega : 2 ^ 32 - room ≤ 2 ^ 32) hf ops _ (h.every ops) ?_ h.each ?_
    (fun nm => by have := h.instants nm; omega) hnc
  · refine ⟨fun v hv => ?_, fun c hc => ?_⟩
    · change v ∈ d.variables at hv
      rw [h.new.1] at hv
      cases hv
    · change d.prev = _ ∨ d.cid = _ at hc
      rw [h.new.2.1, h.new.2.2] at hc
      rcases hc with hc | hc <;> cases hc
  · rw [h.new.1]
    have := h.count
    simpa using this

/-- C45: whatever was appended to the variables of a data set and whatever failed, after a commit everything that
listings lead to from its identifier is in the store and can be listed, with the types and sizes of all entries.
The data set and its variables are loaded and read the same from every store that has what listings lead to. -/
theorem C45_dataset (d : Dataset) (ops : List Op) (log : Saved)
    (h : Limited H utf8 clog lg fuel readFuel d ops log 0) (hf : 32 ≤ fuel) (s : Dataset × Saved)
    (hs : s = runs H utf8 clog lg fuel ops (d, log)) (root : Cid) (L : Saved)
    (hc : s.1.commit H s.2 = (.ok root, L)) (hnc : L.NoCollision H) :
    (∀ c, Reach utf8 (L.load H) root c → ∃ x es, (L.load H).retrieve utf8 c = .ok x ∧
      (L.load H).ls utf8 c = .ok es ∧ es.map LsEntry.cid = x.refs ∧
      ∀ e ∈ es, e.nodeType ≠ none ∧ e.size ≠ none) ∧
    ∀ st', (∀ c, Reach utf8 (L.load H) root c → st' c = L.load H c) →
      st'.getDataset utf8 root = .ok { s.1 with cid := some root } ∧
      ∀ v ∈ s.1.variables, ∃ m, (L.load H).getStruct utf8 v.cid = .ok m ∧ st'.getStruct utf8 v.cid = .ok m ∧
        SameReads utf8 (L.load H) st' m := by
  have hL : L = (Item.dataset s.1).bytes :: s.2 := (congrArg Prod.snd hc).symm
  have hroot : root = H.cidOf (Item.dataset s.1).bytes := (Except.ok.inj (congrArg Prod.fst hc)).symm
  have hsub : s.2 ⊆ L := by
    rw [hL]
    exact List.subset_cons_self ..
  have hmem : (Item.dataset s.1).bytes ∈ L := by
    rw [hL]
    exact List.mem_cons_self ..
  have hfit := (h.runs hf hs (NoCollision.mono hsub hnc)).fits
  have hlink : Linked H utf8 (s.1, L) := (h.linked hf hs (NoCollision.mono hsub hnc)).mono hsub
  obtain ⟨dep, hg⟩ := hlink.commit hfit.wf
  have hall : ∀ c, Reach utf8 (L.load H) root c → _ := fun c hc =>
    Ground.reach hnc hmem hg (c := c) (by rw [← hroot]; exact hc)
  refine ⟨fun c hc => ?_, fun st' hst => ?_⟩
  · obtain ⟨y, d', a1, rfl, a3⟩ := hall c hc
    obtain ⟨es, b1, b2⟩ := a3.ls hnc a1
    obtain ⟨x, c1, c2, -⟩ := C45_listing _ _ _ _ b1
    refine ⟨x, es, c1, b1, c2, fun e he => ?_⟩
    obtain ⟨q, -, -, -, z, -, -, e1, e2⟩ := Superchunk.forall₂_mem_right b2 e he
    rw [e1, e2]
    exact ⟨by simp, by simp⟩
  · have hds : (L.load H).getDataset utf8 root = .ok { s.1 with cid := some root } := by
      rw [hroot]
      exact Store.getDataset_of (Saved.load_mem hnc hmem) hfit.wf
    obtain ⟨g1, g2⟩ := C45_reads_partial utf8 (L.load H) st' root _ hst (fun c m hc hm => by
      obtain ⟨y, d', a1, rfl, a3⟩ := hall c hc
      cases d' with
      | zero => exact a3.elim
      | succ d' =>
        have := Store.retrieve_of_getStruct hm
        rw [Store.retrieve_of (Saved.load_mem hnc a1) a3.1] at this
        have h9 := (Item.loaded_localChunks y (H.cidOf y.bytes)).2 a3.2.1
        rw [Except.ok.inj this] at h9
        exact h9) hds
    refine ⟨g1, fun v hv => ?_⟩
    obtain ⟨dep, sp, h1, -⟩ := hlink.vars v hv
    have h2 := h1.get utf8 hnc
    obtain ⟨h3, h4⟩ := g2 v hv _ h2
    exact ⟨_, h2, h3, h4⟩

end

/-! ### Examples -/

/-- The assumptions of `C45_dataset`. -/
example : ∀ v ∈ (runs exampleHash (fun _ => true) exampleClog exampleLg 32 exampleTwo (exampleDataset, [])).1.variables,
    ∃ m, (((runs exampleHash (fun _ => true) exampleClog exampleLg 32 exampleTwo (exampleDataset, [])).1.commit
      exampleHash (runs exampleHash (fun _ => true) exampleClog exampleLg 32 exampleTwo (exampleDataset, [])).2).2.load
        exampleHash).getStruct (fun _ => true) v.cid = .ok m := by
  intro v hv
  obtain ⟨-, h⟩ := C45_dataset (H := exampleHash) (utf8 := fun _ => true) (clog := exampleClog) (lg := exampleLg)
    (fuel := 32) (readFuel := 40) exampleDataset exampleTwo [] (exampleTwo_limited (by decide)) (by decide) _ rfl _ _ rfl
    (by unfold Saved.NoCollision; decide +kernel)
  obtain ⟨-, h⟩ := h _ fun _ _ => rfl
  obtain ⟨m, h1, -⟩ := h v hv
  exact ⟨m, h1⟩

end Verif
