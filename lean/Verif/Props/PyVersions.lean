import Verif.Props.SessionCopy

/-!
Properties C33 and C99 together: the versions of a data set as they are found in Python, where a version is known by a
string and `prev` gives the string of the one before.
-/
namespace Verif

open Prog hiding pure bind

/-- Following the strings of the versions before from `p` one meets `l`, and then there is none. Each string loads a data
set that says it. -/
inductive Spec.PyVersions (utf8 : List Byte → Bool) (other : List Byte → Option (List Byte)) (st : Store) :
    (p : Option (List Byte)) → (l : List (List Byte)) → Prop
  | nil : PyVersions utf8 other st none []
  | cons {text d l} : Py.getDataset other utf8 st text = .ok d → Py.cid d = some text →
      PyVersions utf8 other st (Py.prev d) l → PyVersions utf8 other st (some text) (text :: l)

section
variable {H : Hash} {utf8 : List Byte → Bool} {clog : Nat → Nat} {lg : Rat → Int} {fuel : Nat}

variable (H utf8 clog lg fuel) in
/-- The strings that `commit` gave, where the data set was loaded again with the string, newest first; a string that the
data set had already is none. -/
def Spec.pyStrings : List PyOp → Dataset × Saved → List (List Byte) → List (List Byte)
  | [], _, l => l
  | .reload :: ops, s, l =>
    Spec.pyStrings ops (PyOp.reload.step H utf8 clog lg fuel s)
      (match (Py.commit H s.1 s.2).1 with
      | .ok text => if Py.cid s.1 = some text then l else text :: l
      | .error _ => l)
  | op :: ops, s, l => Spec.pyStrings ops (op.step H utf8 clog lg fuel s) l

theorem Store.getDataset_cid {st : Store} {cid : Cid} {d : Dataset} (h : st.getDataset utf8 cid = .ok d) :
    d.cid = some cid := by
  have h1 := Store.retrieve_of_getDataset h
  unfold Store.retrieve at h1
  cases hb : st cid with
  | none => rw [hb] at h1; cases h1
  | some bytes =>
    rw [hb] at h1
    simp only at h1
    cases hr : Item.read utf8 cid bytes with
    | error e => rw [hr] at h1; cases h1
    | ok q =>
      rw [hr] at h1
      obtain ⟨x, rest⟩ := q
      have hx : x = .dataset d := Except.ok.inj h1
      subst hx
      unfold Item.read at hr
      change Reader.bind _ _ _ = _ at hr
      unfold Reader.bind at hr
      split at hr
      · cases hr
      · rename_i t rest' _
        beta_reduce at hr
        split at hr
        · change Reader.bind _ _ _ = _ at hr
          unfold Reader.bind at hr
          split at hr
          · cases hr
          · cases hr
            rfl
        · split at hr
          · change Reader.bind _ _ _ = _ at hr
            unfold Reader.bind at hr
            split at hr <;> cases hr
          · split at hr
            · change Reader.bind _ _ _ = _ at hr
              unfold Reader.bind at hr
              split at hr <;> cases hr
            · cases hr

theorem Versions.python {other : List Byte → Option (List Byte)} {st : Store} {p : Option Cid} {l : List Cid}
    (h : Versions utf8 st p l) (hv : ∀ c ∈ l, c.Valid) :
    Spec.PyVersions utf8 other st (p.map Cid.text) (l.map Cid.text) := by
  induction h with
  | nil => exact .nil
  | @cons cid d l h1 h2 ih =>
    refine .cons (d := d) ?_ ?_ (ih fun c hc => hv c (List.mem_cons_of_mem _ hc))
    · unfold Py.getDataset Py.parseCid
      rw [C99_round_trip other _ (hv cid List.mem_cons_self)]
      exact h1
    · unfold Py.cid
      rw [Store.getDataset_cid h1]
      rfl

theorem commits_valid : ∀ (ops : List Op) (s : Dataset × Saved) (l : List Cid), (∀ c ∈ l, c.Valid) →
    ∀ c ∈ commits H utf8 clog lg fuel ops s l, c.Valid := by
  intro ops
  induction ops with
  | nil => intro s l h; exact h
  | cons op ops ih =>
    intro s l h
    cases op with
    | reload =>
      refine ih _ _ ?_
      split
      · exact h
      · intro c hc
        rcases List.mem_cons.1 hc with rfl | hc
        · exact H.valid _
        · exact h c hc
    | append fill nm data n rows cols => exact ih _ _ h
    | addVariable name round ss cs levels enc => exact ih _ _ h
    | commit => exact ih _ _ h

theorem text_nodup {l : List Cid} (hv : ∀ c ∈ l, c.Valid) (h : l.Nodup) : (l.map Cid.text).Nodup := by
  refine List.Nodup.map_on (fun a ha b hb e => ?_) h
  have h1 := C99_round_trip (fun _ => none) a (hv a ha)
  rw [e, C99_round_trip (fun _ => none) b (hv b hb)] at h1
  exact (Option.some.inj h1).symm

theorem pyStrings_eq : ∀ (ops : List PyOp) (s : Dataset × Saved) (l : List Cid), ChainInv H utf8 s l →
    (∀ op ∈ ops.filterMap PyOp.op, op.Fits utf8) → s.1.variables.length + adds (ops.filterMap PyOp.op) < 256 →
    (pyRuns H utf8 clog lg fuel ops s).2.NoCollision H →
    Spec.pyStrings H utf8 clog lg fuel ops s (l.map Cid.text) =
      (commits H utf8 clog lg fuel (ops.filterMap PyOp.op) s l).map Cid.text := by
  intro ops
  induction ops with
  | nil => intro s l _ _ _ _; rfl
  | cons op ops ih =>
    intro s l h ho hn hnc
    have hstep : pyRuns H utf8 clog lg fuel (op :: ops) s = pyRuns H utf8 clog lg fuel ops (op.step H utf8 clog lg fuel s) :=
      rfl
    rw [hstep] at hnc
    have hop := op.step_op (H := H) (utf8 := utf8) (clog := clog) (lg := lg) (fuel := fuel) s
    have hskip : op ≠ .reload → Spec.pyStrings H utf8 clog lg fuel (op :: ops) s (l.map Cid.text) =
        Spec.pyStrings H utf8 clog lg fuel ops (op.step H utf8 clog lg fuel s) (l.map Cid.text) := by
      intro hne
      cases op with
      | reload => exact absurd rfl hne
      | _ => rfl
    cases e : op.op with
    | none =>
      rw [e] at hop
      simp only at hop
      rw [hop] at hnc hskip
      rw [hskip (by rintro rfl; cases e)]
      rw [List.filterMap_cons_none e] at ho hn ⊢
      exact ih s l h ho hn hnc
    | some o =>
      rw [e] at hop
      simp only at hop
      rw [List.filterMap_cons_some e] at ho hn ⊢
      rw [hop] at hnc hskip
      rw [adds_cons] at hn
      have hnc1 : (o.step H utf8 clog lg fuel s).2.NoCollision H := by
        rw [pyRuns_eq] at hnc
        exact NoCollision.mono (runs_mono _ _) hnc
      have hlen : (o.step H utf8 clog lg fuel s).1.variables.length ≤ s.1.variables.length + adds [o] :=
        (o.step_fits s.1 s.2 h.fits (ho o (List.mem_cons_self ..)) (by omega) hnc1).2.1
      have hrec := fun l' (h' : ChainInv H utf8 (o.step H utf8 clog lg fuel s) l') =>
        ih (o.step H utf8 clog lg fuel s) l' h' (fun o h => ho o (List.mem_cons_of_mem _ h)) (by omega) hnc
      have hedit := fun hop => h.edit (ho o (List.mem_cons_self ..)) (by omega) hnc1 hop
      cases op with
      | reload =>
        cases e
        have h1 := hrec _ (h.reload hnc1)
        have e1 : Spec.pyStrings H utf8 clog lg fuel (.reload :: ops) s (l.map Cid.text) =
            Spec.pyStrings H utf8 clog lg fuel ops (Op.reload.step H utf8 clog lg fuel s)
              (if Py.cid s.1 = some (H.cidOf (Item.dataset s.1).bytes).text then l.map Cid.text
                else (H.cidOf (Item.dataset s.1).bytes).text :: l.map Cid.text) := by
          rw [← hop]
          rfl
        have e2 : (Py.cid s.1 = some (H.cidOf (Item.dataset s.1).bytes).text) =
            (s.1.cid = some (H.cidOf (Item.dataset s.1).bytes)) := by
          unfold Py.cid
          cases hc : s.1.cid with
          | none => simp
          | some c => rw [h.cid c hc]; simp
        rw [e1]
        simp only [e2]
        have e3 : (if s.1.cid = some (H.cidOf (Item.dataset s.1).bytes) then l.map Cid.text
            else (H.cidOf (Item.dataset s.1).bytes).text :: l.map Cid.text) =
            (if s.1.cid = some (H.cidOf (Item.dataset s.1).bytes) then l
            else H.cidOf (Item.dataset s.1).bytes :: l).map Cid.text := by
          split <;> rfl
        rw [e3]
        exact h1
      | commit =>
        cases e
        rw [hskip (by simp)]
        exact hrec _ (hedit (by simp))
      | append fill nm data n rows cols =>
        obtain ⟨x, -, rfl⟩ := Option.map_eq_some_iff.1 e
        rw [hskip (by simp)]
        exact hrec _ (hedit (by simp))
      | addVariable nm spanSize chunkSize k2Levels round bits dtype =>
        obtain ⟨x, -, rfl⟩ := Option.map_eq_some_iff.1 e
        rw [hskip (by simp)]
        exact hrec _ (hedit (by simp))

/-- C33 in Python (partial as `C33_versions_partial`: strings with which the data set was not loaded again are left out, see
`C33_wrong`): after any operations, whoever loads the last string and goes on from version to version with `prev` meets
exactly the strings that were given, newest first, each once; each loads a data set that says it. -/
theorem C33_python_partial (coord0 coord1 coord2 : Coordinate) (rows cols : Nat) (ops : List PyOp) (log : Saved)
    (hd : (Dataset.new coord0 coord1 coord2 rows cols).WF utf8)
    (hops : ∀ p ∈ Spec.pyDeclarations ops, Spec.pyFits utf8 p)
    (hlen : (Spec.pyDeclarations ops).length < 256) (s : Dataset × Saved)
    (hs : s = pyRuns H utf8 clog lg fuel (ops ++ [.reload]) (Dataset.new coord0 coord1 coord2 rows cols, log))
    (hnc : s.2.NoCollision H) (l : List (List Byte))
    (hl : l = Spec.pyStrings H utf8 clog lg fuel (ops ++ [.reload]) (Dataset.new coord0 coord1 coord2 rows cols, log) [])
    (other : List Byte → Option (List Byte)) :
    ∃ text, Py.cid s.1 = some text ∧ Spec.PyVersions utf8 other (s.2.load H) (some text) l ∧ l.Nodup := by
  have hf := pyFits_op ops hops
  have ha : adds (ops.filterMap PyOp.op) < 256 := by rw [adds_eq]; exact hlen
  have hf' : ∀ op ∈ (ops ++ [PyOp.reload]).filterMap PyOp.op, op.Fits utf8 := by
    rw [filterMap_reload]
    intro op ho
    rcases List.mem_append.1 ho with ho | ho
    · exact hf op ho
    · rw [List.mem_singleton.1 ho]
      trivial
  have ha' : adds ((ops ++ [PyOp.reload]).filterMap PyOp.op) < 256 := by
    rw [filterMap_reload, adds_append]
    simpa [adds] using ha
  have hs' := hs
  rw [pyRuns_eq] at hs'
  have h1 := pyStrings_eq (H := H) (clog := clog) (lg := lg) (fuel := fuel) (ops ++ [.reload])
    (Dataset.new coord0 coord1 coord2 rows cols, log) []
    ⟨⟨hd, fun c hc => by cases hc⟩, .nil, fun c hc => by cases hc⟩ hf' (by change 0 + _ < 256; omega) (hs ▸ hnc)
  obtain ⟨-, h2⟩ := C33_versions_partial coord0 coord1 coord2 rows cols _ log hd hf' ha' s hs' hnc _ rfl
  rw [filterMap_reload] at hs' h1 h2
  obtain ⟨cid, h3, h4⟩ := C33_last_commit_partial coord0 coord1 coord2 rows cols _ log hd hf ha s hs' hnc
  have hv := commits_valid (H := H) (utf8 := utf8) (clog := clog) (lg := lg) (fuel := fuel)
    (ops.filterMap PyOp.op ++ [.reload]) (Dataset.new coord0 coord1 coord2 rows cols, log) [] (by simp)
  rw [hl]
  change ∃ text, Py.cid s.1 = some text ∧ Spec.PyVersions utf8 other (s.2.load H) (some text)
    (Spec.pyStrings H utf8 clog lg fuel (ops ++ [.reload]) _ (([] : List Cid).map Cid.text)) ∧ _
  refine ⟨cid.text, ?_, ?_, ?_⟩
  · unfold Py.cid
    rw [h3]
    rfl
  · rw [h1]
    exact h4.python hv
  · change (Spec.pyStrings H utf8 clog lg fuel (ops ++ [.reload]) _ (([] : List Cid).map Cid.text)).Nodup
    rw [h1]
    exact text_nodup hv h2

end

/-! ### Example -/

/-- The data set is loaded again three times. Nothing was changed before the second time, so there is no new version; in
between it is committed without being loaded. -/
def versionsOps : List PyOp :=
  [.reload, .reload, .addVariable [7] 2 2 [1, 1] false 0 .int32, .commit, .addVariable [8] 2 2 [1, 1] true 3 .float64]

example (s : Dataset × Saved) (hs : s = pyRuns exampleHash (fun _ => true) exampleClog (fun _ => 0) 32
      (versionsOps ++ [.reload]) (exampleDataset, [])) :
    ∃ t1 t2, Py.cid s.1 = some t2 ∧ t1 ≠ t2 ∧
      Spec.PyVersions (fun _ => true) (fun _ => none) (s.2.load exampleHash) (some t2) [t2, t1] := by
  obtain ⟨text, h1, h2, h3⟩ := C33_python_partial (H := exampleHash) (utf8 := fun _ => true) (clog := exampleClog)
    (lg := fun _ => 0) (fuel := 32) exampleDataset.coord0 exampleDataset.coord1 exampleDataset.coord2 4 4 versionsOps []
    exampleWF (by
      intro p hp
      have : Spec.pyDeclarations versionsOps =
        [⟨[7], 2, 2, [1, 1], false, 0, .int32⟩, ⟨[8], 2, 2, [1, 1], true, 3, .float64⟩] := rfl
      rw [this] at hp
      simp only [List.mem_cons, List.not_mem_nil, or_false] at hp
      rcases hp with rfl | rfl <;> exact ⟨by decide, rfl, by decide, by decide, by decide, by decide, by decide⟩)
    (by decide) s hs (by rw [hs]; unfold Saved.NoCollision; decide +kernel) _ rfl fun _ => none
  have hlen : (Spec.pyStrings exampleHash (fun _ => true) exampleClog (fun _ => 0) 32 (versionsOps ++ [.reload])
      (Dataset.new exampleDataset.coord0 exampleDataset.coord1 exampleDataset.coord2 4 4, []) []).length = 2 := by
    decide +kernel
  generalize Spec.pyStrings exampleHash (fun _ => true) exampleClog (fun _ => 0) 32 (versionsOps ++ [.reload])
    (Dataset.new exampleDataset.coord0 exampleDataset.coord1 exampleDataset.coord2 4 4, []) [] = l at h2 h3 hlen
  match l, hlen with
  | [a, b], _ =>
    have : a = text := by cases h2; rfl
    subst this
    refine ⟨b, a, h1, ?_, h2⟩
    rintro rfl
    simp at h3

end Verif
