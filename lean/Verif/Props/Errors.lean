import Verif.Lemmas.Blame
import Verif.Props.AnyData
import Verif.Props.Missing
import Verif.Props.Ipfs
import Verif.Props.CacheTasks
import Verif.Model.Du

/-!
Property C81: failures say what went wrong. True of reads and appends through a resolver that is asked for one
thing at a time; false of callers that wait for the load of another one, and of IPFS.
-/
namespace Verif

section
variable {utf8 : List Byte → Bool} {st : Store} {fuel : Nat}

/-- C81: if an object cannot be loaded then the error names it as not found exactly if it is not there; otherwise it
says that the bytes ended or are no text, that an identifier is wrong, or that a number is wrong. In Python, the
first is a `KeyError`, the others are `OSError` and `ValueError`. -/
theorem C81_retrieve (cid : Cid) (e : Err) (h : st.retrieve utf8 cid = .error (.err e)) :
    (st cid = none ↔ e = .notFound cid) ∧ (st cid = none ↔ e.exception = .key) ∧
    (st cid ≠ none → (e = .io ∨ e = .varint) ∧ e.exception = .os ∨ e = .cid ∧ e.exception = .value) := by
  unfold Store.retrieve at h
  cases hb : st cid with
  | none =>
    rw [hb] at h
    cases h
    simp [Err.exception]
  | some bytes =>
    rw [hb] at h
    simp only at h
    cases hi : Item.read utf8 cid bytes with
    | ok x => rw [hi] at h; cases h
    | error f =>
      rw [hi] at h
      cases h
      cases Plain.item utf8 cid _ _ hi <;> simp [Err.exception]

/-- An object that is not there is blamed, or one whose bytes are wrong. -/
def Store.Blamed (utf8 : List Byte → Bool) (st : Store) (e : Err) : Prop :=
  ∃ c, (st c = none ∧ e = .notFound c) ∨
    ∃ bytes, st c = some bytes ∧ Item.read utf8 c bytes = .error (.err e) ∧ (e = .io ∨ e = .varint ∨ e = .cid)

theorem Store.Gives.blamed {e : Err} (h : st.Gives utf8 e) : st.Blamed utf8 e := by
  obtain ⟨c, h⟩ := h
  refine ⟨c, ?_⟩
  unfold Store.retrieve at h
  cases hb : st c with
  | none =>
    rw [hb] at h
    cases h
    exact .inl ⟨rfl, rfl⟩
  | some bytes =>
    rw [hb] at h
    simp only at h
    cases hi : Item.read utf8 c bytes with
    | ok x => rw [hi] at h; cases h
    | error f =>
      rw [hi] at h
      cases h
      refine .inr ⟨bytes, rfl, hi, ?_⟩
      cases Plain.item utf8 c _ _ hi <;> simp

/-- C81: whatever a store holds, if opening or reading a variable ends in an error then an object of that store is to
blame. -/
theorem C81_reads {α : Type} (kind : Kind α) (v : Variable) (m : MMStruct3) (e : Err)
    (h : v.data kind utf8 st = .error (.err e) ∨
      (∃ t row col, kind.get utf8 st fuel m t row col = .error (.err e)) ∨
      (∃ start fin row col, kind.cell utf8 st fuel m start fin row col (.error (.err e))) ∨
      ∃ bounds, kind.window utf8 st fuel m bounds (.error (.err e))) : st.Blamed utf8 e := by
  refine Store.Gives.blamed ?_
  have fin : ∀ {γ δ : Type} {t : List γ} {inside : γ → Bool} {s : Option Fail} {a : δ},
      (.error (.err e) : Except Fail δ) = Kind.finish t inside s a → s = some (.err e) := by
    intro γ δ t inside s a hf
    unfold Kind.finish at hf
    split at hf
    · cases s with
      | none => cases hf
      | some f => cases hf; rfl
    · cases hf
  rcases h with h | ⟨t, row, col, h⟩ | ⟨start, fi, row, col, h⟩ | ⟨bounds, h⟩
  · unfold Variable.data at h
    cases hx : st.getStruct utf8 v.cid with
    | error f =>
      rw [hx] at h
      cases h
      exact .struct hx
    | ok m =>
      rw [hx] at h
      simp only at h
      cases hk : kind.new m with
      | none => rw [hk] at h; cases h
      | some a => rw [hk] at h; cases h
  · unfold Kind.get at h
    cases hb : m.checkBounds t row col with
    | none => rw [hb] at h; cases h
    | some u =>
      rw [hb] at h
      simp only at h
      cases hg : m.get utf8 st fuel m.fractionalBits t row col with
      | error f =>
        rw [hg] at h
        cases h
        exact m.get_gives _ _ _ _ _ _ hg
      | ok x => rw [hg] at h; cases h
  · unfold Kind.cell at h
    cases h1 : csub fi 1 with
    | none => rw [h1] at h; cases h
    | some last =>
      rw [h1] at h
      simp only at h
      cases hb : m.checkBounds last row col with
      | none => rw [hb] at h; cases h
      | some u =>
        rw [hb] at h
        simp only at h
        cases h2 : csub fi start with
        | none => rw [h2] at h; cases h
        | some n =>
          rw [h2] at h
          obtain ⟨t, s, h3, h4⟩ := h
          rw [fin h4] at h3
          exact m.fillCell_gives _ _ _ _ _ _ _ _ h3
  · unfold Kind.window at h
    cases hb : m.checkCube bounds with
    | none => rw [hb] at h; cases h
    | some u =>
      rw [hb] at h
      simp only at h
      cases h1 : csub bounds.fin bounds.start with
      | none => rw [h1] at h; cases h
      | some n =>
        cases h2 : csub bounds.bottom bounds.top with
        | none => rw [h1, h2] at h; cases h
        | some rows =>
          cases h3 : csub bounds.right bounds.left with
          | none => rw [h1, h2, h3] at h; cases h
          | some cols =>
            rw [h1, h2, h3] at h
            obtain ⟨t, s, h4, h5⟩ := h
            rw [fin h5] at h4
            exact m.fillWindow_gives _ _ _ _ _ h4

/-- Reads give a series of `n` rasters, or say that an object was not found which is not there; cells of windows
may be zero. -/
structure HonestReads {α : Type} (kind : Kind α) (utf8 : List Byte → Bool) (st : Store) (fuel : Nat)
    (m : MMStruct3) (n rows cols : Nat) (data : Nat → Nat → Nat → α) : Prop where
  get : ∀ t row col, t < n → row < rows → col < cols →
    kind.get utf8 st fuel m t row col = .ok (data t row col) ∨
      ∃ c, st c = none ∧ kind.get utf8 st fuel m t row col = .error (.err (.notFound c))
  cell : ∀ start fin row col, start ≤ fin → 0 < fin → fin ≤ n → row < rows → col < cols →
    ∀ res, kind.cell utf8 st fuel m start fin row col res →
      res = .ok ((List.range (fin - start)).map fun i => data (start + i) row col) ∨
      ∃ c, st c = none ∧ res = .error (.err (.notFound c))
  window : ∀ start fin top bottom left right, start ≤ fin → 0 < fin → fin ≤ n → top < bottom →
    left < right → bottom ≤ rows → right ≤ cols →
    ∀ res, kind.window utf8 st fuel m ⟨start, fin, top, bottom, left, right⟩ res →
      (∃ kept : Nat → Nat → Nat → Bool,
        res = .ok ((List.range (fin - start)).map fun t => (List.range (bottom - top)).map fun r =>
          (List.range (right - left)).map fun c =>
            if kept t r c then data (start + t) (top + r) (left + c) else kind.zero)) ∨
      ∃ c, st c = none ∧ res = .error (.err (.notFound c))

theorem Reads.honest {α : Type} {kind : Kind α} {m : MMStruct3} {n rows cols : Nat} {st' : Store}
    {data : Nat → Nat → Nat → α} (h : Reads kind.dec utf8 st fuel m n rows cols data)
    (hst : st'.Part st) : HonestReads kind utf8 st' fuel m n rows cols data where
  get t row col h1 h2 h3 := by
    obtain ⟨bits, v, e, hv⟩ := h.get t row col h1 h2 h3
    unfold Kind.get
    rw [checkBounds_some h.shape h1 h2 h3]
    simp only
    rcases m.get_short (utf8 := utf8) hst fuel m.fractionalBits t row col with e' | ⟨c, hc, e'⟩
    · rw [e', e]
      simp only
      rw [hv]
      exact .inl rfl
    · rw [e']
      exact .inr ⟨c, hc, rfl⟩
  cell start fin row col h1 h2 h3 h4 h5 res hres := by
    cases res with
    | ok l => exact .inl ((h.kind_cell h1 h2 h3 h4 h5 _).1 (C61_cell kind m start fin row col l hst hres))
    | error f =>
      refine .inr ?_
      have hy := h.cell start fin row col h1 h3 h4 h5
      unfold Kind.cell at hres
      unfold csub at hres
      rw [if_pos (show 1 ≤ fin by omega)] at hres
      simp only at hres
      rw [checkBounds_some h.shape (by omega) h4 h5, if_pos h1] at hres
      obtain ⟨t, s, e1, e2⟩ := hres
      have hin : t.all (fun q => decide (q.1 < fin - start)) = true := by
        obtain ⟨t₁, s₁, f1, f2⟩ := (m.fillCell_within (utf8 := utf8) hst fuel _ _ _ _ _).1 _ _ e1
        rw [List.filter_eq_self.2 fun _ _ => rfl] at f2
        have hp := (hy.2 _ _ ⟨t₁, f1, rfl⟩).2
        refine List.all_eq_true.2 fun q hq => decide_eq_true ?_
        have := hp.mem_iff.1 (List.mem_map.2 ⟨q, f2.subset hq, rfl⟩)
        simp only [List.mem_map, List.mem_range, Prod.mk.injEq] at this
        obtain ⟨i, hi, rfl, -⟩ := this
        exact hi
      unfold Kind.finish at e2
      rw [if_pos hin] at e2
      cases s with
      | none => cases e2
      | some g =>
        cases e2
        rcases m.fillCell_blames (utf8 := utf8) hst fuel _ _ _ _ _ _ _ e1 with ⟨t₁, f1⟩ | ⟨c, hc, rfl⟩
        · cases (hy.2 _ _ ⟨t₁, f1, rfl⟩).1
        · exact ⟨c, hc, rfl⟩
  window start fin top bottom left right h1 h0 h2 h3 h4 h5 h6 res hres := by
    cases res with
    | ok a =>
      obtain ⟨kept, e⟩ := (h.missing hst).window start fin top bottom left right a h1 h0 h2 h3 h4 h5 h6 hres
      exact .inl ⟨kept, by rw [e]⟩
    | error f =>
      refine .inr ?_
      have hy := h.window start fin top bottom left right h1 h2 h3 h4 h5 h6
      unfold Kind.window at hres
      rw [checkCube_some h.shape (by exact h0) (by exact h2) (by change 0 < bottom; omega) (by exact h5)
        (by change 0 < right; omega) (by exact h6)] at hres
      unfold csub at hres
      simp only at hres
      rw [if_pos h1, if_pos (by omega), if_pos (by omega)] at hres
      simp only at hres
      obtain ⟨t, s, e1, e2⟩ := hres
      have hin : t.all (fun q => decide (q.1 < fin - start ∧ q.2.1 < bottom - top ∧ q.2.2.1 < right - left)) =
          true := by
        obtain ⟨t₁, s₁, f1, f2⟩ := C61_window m _ _ t s hst e1
        have hp := (hy.2 _ _ ⟨t₁, f1, rfl⟩).2
        refine List.all_eq_true.2 fun q hq => decide_eq_true ?_
        have := hp.mem_iff.1 (List.mem_map.2 ⟨q, f2.subset hq, rfl⟩)
        rw [Spec.window3_range] at this
        simp only [List.mem_flatMap, List.mem_map, List.mem_range, Prod.mk.injEq] at this
        obtain ⟨i, hi, j, hj, k, hk, rfl, rfl, rfl, -⟩ := this
        exact ⟨hi, hj, hk⟩
      unfold Kind.finish at e2
      rw [if_pos hin] at e2
      cases s with
      | none => cases e2
      | some g =>
        cases e2
        rcases m.fillWindow_blames (utf8 := utf8) hst fuel _ _ _ _ e1 with ⟨t₁, f1⟩ | ⟨c, hc, rfl⟩
        · cases (hy.2 _ _ ⟨t₁, f1, rfl⟩).1
        · exact ⟨c, hc, rfl⟩

end

section
variable {H : Hash} {utf8 : List Byte → Bool} {clog : Nat → Nat} {lg : Rat → Int} {fuel readFuel : Nat}
  {levels : List Nat} {cs ss : Nat}

/-- C81, and C61 for any data: whatever was appended to a variable and whatever failed, there is one value for each
cell of each instant, which all reads give. If objects of the store are missing, then opening the variable and
reads through an array of its type end with these values or with the error that an object was not found, naming
one that is not there; they never panic. But cells of windows may be zero. -/
theorem C81_missing (d : Dataset) (name : List Byte) (round : Option Nat) (enc : MMEncoding) (ops : List Op)
    (log : Saved) (as : List (NdArray × Nat))
    (has : as = acceptedAfter H utf8 clog lg fuel d log name (.addVariable name round ss cs levels enc) ops)
    (h : AnyHistory utf8 readFuel d name round ss cs levels enc ops)
    (hset : Settings clog levels (total as) d.rows d.cols cs ss) (hf : 32 ≤ fuel)
    (hrf : levels.length + 34 ≤ readFuel) (s : Dataset × Saved)
    (hs : s = runs H utf8 clog lg fuel (.addVariable name round ss cs levels enc :: ops) (d, log))
    (hnc : s.2.NoCollision H) :
    ∃ v m, s.1.findVariable name = some v ∧ ∀ (α : Type) (kind : Kind α), kind.encoding = enc →
      ∃ D, ArrayReads kind utf8 (s.2.load H) readFuel m (total as) d.rows d.cols D ∧
        ∀ st : Store, st.Part (s.2.load H) →
          (v.data kind utf8 st = .ok m ∨ st v.cid = none ∧ v.data kind utf8 st = .error (.err (.notFound v.cid))) ∧
          HonestReads kind utf8 st readFuel m (total as) d.rows d.cols D := by
  obtain ⟨v, tl, h1, -, -, -, -, -, i, root, h2, h3, h7, -⟩ := (h.any has hset hf hs hnc).var
  have hh := VarTheory.height_lt _ h7
  have hsnd : Sound utf8 (s.2.load H) (levels.length + 1 + i + 1) (.span root) (total as) d.rows d.cols :=
    Tree.represents (T := hset.theory H enc) (D := fun _ _ _ => ()) (d := levels.length + 1) hnc
      (fun m a n hK => AnyChunk.sound hK utf8 _ (List.Subset.refl _) hnc) _ _ _ _ _ h3
  have hshape : (MMStruct3.span root).shape = some (total as, d.rows, d.cols) := h3.shape
  refine ⟨v, .span root, h1, fun α kind henc => ?_⟩
  obtain ⟨D, hD⟩ := hsnd.represents kind.dec
  have hreads : Reads kind.dec utf8 (s.2.load H) readFuel (.span root) (total as) d.rows d.cols D :=
    Reads.of_repr (fun _ _ _ _ _ h => h) hshape hD (by omega)
  refine ⟨D, hreads.array, fun st hst => ⟨?_, hreads.honest hst⟩⟩
  rcases hst v.cid with e | e
  · right
    refine ⟨e, ?_⟩
    unfold Variable.data Store.getStruct Store.retrieve
    rw [e]
  · left
    refine Variable.data_ok ?_ ((h3.shaped.encoding : root.encoding = enc).trans henc.symm)
    have := h2.get utf8 hnc
    unfold Store.getStruct Store.retrieve at this ⊢
    rw [e]
    exact this

/-- C81: appending to a name that no variable has fails with the error that the name is bad, naming it, and leaves the
store as it is; in Python this is a `NameError`. An append to a variable never fails so: if it ends in an error, then an
object of the store is to blame. -/
theorem C81_append (fill : Fill) (hfill : fill.Valid utf8 readFuel) (d : Dataset) (name : List Byte)
    (data : NdArray) (n rows cols : Nat) (log : Saved) :
    (d.findVariable name = none → Dataset.append H utf8 clog lg fuel fill d name data n rows cols log =
      (.error (.err (.badName name)), log) ∧ (Err.badName name).exception = .name) ∧
    ∀ v, d.findVariable name = some v → ∀ e log',
      Dataset.append H utf8 clog lg fuel fill d name data n rows cols log = (.error (.err e), log') →
      (log'.load H).Blamed utf8 e := by
  refine ⟨fun h => ⟨?_, rfl⟩, fun v hv e log' h => Store.Gives.blamed ?_⟩
  · unfold Dataset.append
    rw [h]
    rfl
  · unfold Dataset.append at h
    rw [hv] at h
    exact Prog.Gives.bind (Variable.appendArray_gives clog lg fuel hfill v data n rows cols)
      (fun _ => Prog.Gives.pure _) _ _ _ h

end

section
open Cache

/-- C81, for tasks that share a cache: whatever the schedule, an error that `get` comes back with is one that
`load` gave for that object, or the error that another task could not load it. -/
theorem C81_shared_partial {K V : Type} [DecidableEq K] (P : K → Loaded V → Prop) (size : V → Nat) (limit : Nat)
    (keys : List K) (es : List (Event V)) (hes : NoDrop es) (hP : Allowed P keys es) (s : State K V)
    (hs : (State.init limit keys).steps size es = some s) (t : Nat) (k : K) (e : Err)
    (ht : s.tasks[t]? = some (.done k (.err e))) :
    P k (.error e) ∨ e = .load ∧ (P k .nothing ∨ ∃ e', P k (.error e')) := by
  obtain ⟨-, r, hr, hp, ha⟩ := C37_answers P size limit keys es hes hP s hs t k _ ht
  cases r with
  | object v => rcases ha with h | h <;> cases h
  | nothing =>
    rcases ha with h | h
    · cases h
    · cases h
      exact .inr ⟨rfl, .inl hr⟩
  | error e' =>
    rcases ha with h | h
    · cases h
      exact .inl hr
    · cases h
      exact .inr ⟨rfl, .inr ⟨e', hr⟩⟩
  | panic => exact absurd rfl hp

/-- C81 is false of tasks that share a cache: whenever an object is not there, two tasks that ask for it at
the same time can be told different things. One gets the error that the object was not found, a `KeyError` in
Python; the other one is told that loading failed, an `OSError`, without the name of the object. -/
theorem C81_shared_wrong (utf8 : List Byte → Bool) (st : Store) (c : Cid) (hc : st c = none) (cacheBytes : Nat) :
    ∃ es s, NoDrop es ∧ Allowed (fun k r => r = st.loaded utf8 k) [c, c] es ∧
      (State.init cacheBytes [c, c]).steps Item.size es = some s ∧
      s.tasks = [.done c (.err (.notFound c)), .done c (.err .load)] ∧
      (Err.notFound c).exception = .key ∧ Err.load.exception = .os := by
  have hl : st.loaded utf8 c = .error (.notFound c) := by
    unfold Store.loaded Store.retrieve
    rw [hc]
  let r : Loaded Item := .error (.notFound c)
  refine ⟨[.run 0 r, .run 0 r, .run 1 r, .run 1 r, .run 1 r, .run 0 r, .run 0 r, .run 0 r, .run 0 r, .run 1 r], ?_⟩
  refine ⟨⟨Entries.new cacheBytes, [], [⟨some .err, []⟩], [.done c (.err (.notFound c)), .done c (.err .load)],
    [(1, .sent .err)], [c]⟩,
    ?_, ?_, ?_, rfl, rfl, rfl⟩
  · intro e he
    simp only [List.mem_cons, List.not_mem_nil, or_false] at he
    rcases he with h | h | h | h | h | h | h | h | h | h <;> exact ⟨_, _, h⟩
  · intro t r' k hm hk
    have h1 : r' = r := by
      simp only [List.mem_cons, List.not_mem_nil, or_false, Event.run.injEq] at hm
      rcases hm with h | h | h | h | h | h | h | h | h | h <;> exact h.2
    have h2 : k = c := by
      rcases t with _ | _ | t
      · cases hk; rfl
      · cases hk; rfl
      · cases hk
    rw [h1, h2, hl]
  · simp [State.steps, State.step, State.run, State.init, State.goto, Entries.lookup, Entries.remove, Entries.new,
      Map.find, Map.put, Map.erase, State.drain, State.hungUp, Loaded.outcome, Loaded.answer, Outcome.answer, r]

end

/-- C81 is false of IPFS, and so of Python: whatever the server answers, no error is a `KeyError` or says that an
object was not found. -/
theorem C81_ipfs_wrong {σ : Type} (srv : Ipfs σ) (utf8 : List Byte → Bool) (s : σ) (cid : Cid) (e : Err)
    (h : srv.retrieve utf8 s cid = .error (.err e)) : e.exception ≠ .key ∧ ∀ c, e ≠ .notFound c := by
  unfold Ipfs.retrieve Ipfs.load at h
  cases hb : srv.cat s cid with
  | none => rw [hb] at h; cases h
  | some body =>
    rw [hb] at h
    simp only at h
    unfold Store.retrieve at h
    simp only at h
    cases hi : Item.read utf8 cid body with
    | ok x => rw [hi] at h; cases h
    | error f =>
      rw [hi] at h
      cases h
      cases Plain.item utf8 cid _ _ hi <;> exact ⟨by simp [Err.exception], fun _ => nofun⟩

/-- C81 is false of `ls` and `du` of the example program: an object that holds a wrong identifier is said not to
be found (and the program exits), although it is there and its identifier was given. -/
theorem C81_ls_wrong (utf8 : List Byte → Bool) (parse : List Byte → Option Cid) (st : Store) (head c : Cid)
    (s : List Byte) (entries : List LsEntry) (hp : parse s = some c) (hc : st.ls utf8 c = .error (.err .cid))
    (hh : st.ls utf8 head = .ok entries) (hn : ∀ e ∈ entries, (Example.split s).head? ≠ some e.name) :
    Example.list utf8 parse st (some head) (some s) = .error (.err (.py .exit)) := by
  unfold Example.list
  simp only [Example.lsOf, hp, hc, hh, Example.isValueError, Err.exception, decide_true, if_true]
  cases hs : Example.split s with
  | nil =>
    cases s with
    | nil => cases hs
    | cons b bs =>
      unfold Example.split at hs
      split at hs
      · cases hs
      · split at hs <;> cases hs
  | cons name path =>
    unfold Example.walk
    rw [List.find?_eq_none.2]
    intro e he
    have := hn e he
    rw [hs] at this
    simp only [List.head?_cons, ne_eq, Option.some.injEq] at this
    simpa using fun h => this h.symm

/-! ### Examples -/

/-- Some objects with wrong bytes. -/
def exampleWrong : Store := fun c =>
  if c = .v0 [1] then some [0xDC]
  else if c = .v0 [2] then some [0xDC, 0xE0, 0, 0, 0, 1, 1, 0, 0, 0, 1, 7, 7]
  else none

example : exampleWrong.retrieve (fun _ => true) (.v0 [1]) = .error (.err .io) ∧
    exampleWrong.retrieve (fun _ => true) (.v0 [2]) = .error (.err .cid) ∧
    exampleWrong.retrieve (fun _ => true) (.v0 [3]) = .error (.err (.notFound (.v0 [3]))) :=
  ⟨rfl, rfl, rfl⟩

/-- The assumptions of `C81_missing`: numbers of every type were appended, and one object, whichever, is lost. -/
example (cid : Cid) : ∃ v m,
    (runs exampleHash (fun _ => true) exampleClog exampleLg 32
      (.addVariable [7] none 2 2 [1, 1] .i64 :: exampleMixed) (exampleDataset, [])).1.findVariable [7] = some v ∧
    ∃ D, HonestReads Kind.i64 (fun _ => true) (((runs exampleHash (fun _ => true) exampleClog exampleLg 32
      (.addVariable [7] none 2 2 [1, 1] .i64 :: exampleMixed) (exampleDataset, [])).2.load exampleHash).without cid) 40
      m 4 4 4 D :=
  let ⟨v, m, h1, h2⟩ := C81_missing (H := exampleHash) (fuel := 32) (readFuel := 40) exampleDataset [7] none .i64
    exampleMixed [] _ exampleMixed_accepted.symm exampleMixed_any (exampleSettings (by decide)) (by decide)
    (by decide) _ rfl exampleMixed_noCollision
  let ⟨D, _, h3⟩ := h2 Int64 .i64 rfl
  ⟨v, m, h1, D, (h3 _ (Store.without_part _ cid)).2⟩

/-- An append that ends in an error: the object of the variable is not there. -/
example : Dataset.append exampleHash (fun _ => true) exampleClog exampleLg 32 exampleFill
    { exampleDataset with «variables» := [⟨[7], none, 2, 2, [1, 1], .i64, .v0 [5]⟩] } [7] (.i64 exampleGrid) 3 4 4 [] =
      (.error (.err (.notFound (.v0 [5]))), []) ∧ exampleFill.Valid (fun _ => true) 40 :=
  ⟨rfl, exampleFill_valid⟩

/-- The assumptions of `C81_ls_wrong`: the identifier of the second object above was given, the head is an object
without references. -/
example : Example.list (fun _ => true) (fun _ => some (.v0 [2]))
    (fun c => if c = .v0 [4] then some [0xDC, 0xE0, 0, 0, 0, 1, 1, 0, 0, 0, 0] else exampleWrong c) (some (.v0 [4]))
    (some [81]) = .error (.err (.py .exit)) :=
  C81_ls_wrong _ _ _ (.v0 [4]) (.v0 [2]) _ [] rfl rfl rfl (by simp)

end Verif
