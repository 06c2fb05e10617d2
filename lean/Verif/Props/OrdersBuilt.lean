import Verif.Props.Orders
import Verif.Props.AnyReach
import Verif.Props.Missing

/-!
Property C96 for the variables of data sets that were made with the library: windows do not depend on the order of
the tasks, whatever the store fails to deliver.
-/
namespace Verif

open Prog hiding pure bind

section
variable {utf8 : List Byte → Bool} {st st' : Store}

theorem Sides.flat {k : Nat} : ∀ (fuel : Nat) (levels : List Nat) (m : MMStruct3), Sides utf8 st k levels m →
    Spec.Flat utf8 st fuel m := by
  intro fuel
  induction fuel with
  | zero => intros; trivial
  | succ fuel ih =>
    intro levels m h
    cases levels with
    | nil =>
      obtain ⟨c, rfl⟩ := h
      trivial
    | cons l sub =>
      rcases h with ⟨c, rfl⟩ | ⟨head, rfl, -, h⟩
      · trivial
      · intro ref hr hn m' hm
        cases ref with
        | elided => exact absurd rfl hn
        | loc i => cases hm
        | external e => exact ih sub m' ((h e hr).2 m' hm)

theorem Spec.Flat.part (hp : st'.Part st) : ∀ (fuel : Nat) (m : MMStruct3), Spec.Flat utf8 st fuel m →
    Spec.Flat utf8 st' fuel m := by
  intro fuel
  induction fuel with
  | zero => intros; trivial
  | succ fuel ih =>
    intro m h
    cases m with
    | subchunk c => trivial
    | superchunk head loc =>
      intro ref hr hn m hm
      rcases hp.deref (utf8 := utf8) head loc ref with e | ⟨c, -, e⟩
      · exact ih m (h ref hr hn m (e ▸ hm))
      · rw [e] at hm
        cases hm
    | span s => exact h

theorem Spec.Plain.part (hp : st'.Part st) : ∀ (fuel : Nat) (m : MMStruct3), Spec.Plain utf8 st fuel m →
    Spec.Plain utf8 st' fuel m := by
  intro fuel
  induction fuel with
  | zero => intros; trivial
  | succ fuel ih =>
    intro m h
    cases m with
    | subchunk c => trivial
    | superchunk head loc => exact Spec.Flat.part hp (fuel + 1) (.superchunk head loc) h
    | span s =>
      intro cid hc m hm
      rcases hp.getStruct (utf8 := utf8) cid with e | ⟨c, -, e⟩
      · exact ih m (h cid hc m (e ▸ hm))
      · rw [e] at hm
        cases hm

theorem Spec.Flat.plain : ∀ (fuel : Nat) (m : MMStruct3), Spec.Flat utf8 st fuel m → Spec.Plain utf8 st fuel m := by
  intro fuel m h
  cases fuel with
  | zero => trivial
  | succ fuel =>
    cases m with
    | subchunk c => trivial
    | superchunk head loc => exact h
    | span s => exact h.elim

theorem Tree.plain {H : Hash} {log : Saved} (hnc : log.NoCollision H) {T : VarTheory}
    (hK : ∀ m a n, T.K log m a n → ∀ fuel, Spec.Flat utf8 (log.load H) fuel m) :
    ∀ (i : Nat) (sp : Span) (a n tl : Nat), Tree H T log i sp a n tl → ∀ fuel,
      Spec.Plain utf8 (log.load H) fuel (.span sp) := by
  intro i
  induction i with
  | zero =>
    intro sp a n tl ht fuel
    cases fuel with
    | zero => trivial
    | succ fuel =>
      obtain ⟨-, -, -, -, h5, h6⟩ := ht
      intro c hc m' hm'
      obtain ⟨j, hj⟩ := List.mem_iff_getElem?.1 hc
      obtain ⟨cid, m, a1, a2, a3⟩ := h6 j ((h5 j).1 (List.getElem?_eq_some_iff.1 hj).1)
      rw [hj] at a1
      cases a1
      rw [a2.get utf8 hnc] at hm'
      cases hm'
      exact (hK _ _ _ a3 fuel).plain
  | succ i ih =>
    intro sp a n tl ht fuel
    cases fuel with
    | zero => trivial
    | succ fuel =>
      obtain ⟨-, -, m, n', h3, hm, -, h5, cid, c, h6, h7, h8⟩ := ht
      intro c' hc m' hm'
      obtain ⟨j, hj⟩ := List.mem_iff_getElem?.1 hc
      have hjl := (List.getElem?_eq_some_iff.1 hj).1
      rcases Nat.lt_or_ge j m with h | h
      · obtain ⟨cid', c', tl', b1, b2, b3⟩ := h5 j h
        rw [hj] at b1
        cases b1
        rw [b2.get utf8 hnc] at hm'
        cases hm'
        exact ih _ _ _ _ b3 fuel
      · have : j = m := by omega
        subst this
        rw [hj] at h6
        cases h6
        rw [h7.get utf8 hnc] at hm'
        cases hm'
        exact ih _ _ _ _ h8 fuel

end

section
variable {H : Hash} {utf8 : List Byte → Bool} {clog : Nat → Nat} {lg : Rat → Int} {fuel readFuel : Nat}

/-- C96 for data sets with any history, and any of their variables: whatever the store fails to deliver, a window of
the variable has an answer; it is the same window in all orders of the tasks, or an error or a panic in all of them. -/
theorem C96_built {α : Type} (kind : Kind α) (d : Dataset) (ops : List Op) (log : Saved)
    (h : Limited H utf8 clog lg fuel readFuel d ops log 0) (hf : 32 ≤ fuel) (s : Dataset × Saved)
    (hs : s = runs H utf8 clog lg fuel ops (d, log)) (hnc : s.2.NoCollision H) (name : List Byte) (v : Variable)
    (hv : s.1.findVariable name = some v) (st : Store) (hst : st.Part (s.2.load H)) (m : MMStruct3)
    (hm : v.data kind utf8 st = .ok m) (anyFuel : Nat) (bounds : Cube) :
    (∃ res, kind.window utf8 st anyFuel m bounds res) ∧
    ((∃ a, ∀ res, kind.window utf8 st anyFuel m bounds res → res = .ok a) ∨
      ∀ res, kind.window utf8 st anyFuel m bounds res → ∃ f, res = .error f) := by
  refine C96_window_plain_partial kind utf8 st anyFuel m bounds ?_
  refine Spec.Plain.part hst anyFuel m ?_
  obtain ⟨levels, cs, ss, enc, round, hset, M, hi, -, -⟩ := (h.runs hf hs hnc).vars name (by rw [hv]; simp)
  obtain ⟨v', tl, h1, h2, -, h3, h4, he, i, root, h5, h6, h7, -⟩ := hi.var
  rw [hv] at h1
  cases h1
  have hg := h5.get utf8 hnc
  have : m = .span root := by
    unfold Variable.data at hm
    rcases hst.getStruct (utf8 := utf8) v.cid with e | ⟨c, -, e⟩
    · rw [e, hg] at hm
      simp only at hm
      unfold Kind.new at hm
      by_cases hk : (MMStruct3.span root).encoding ≠ kind.encoding
      · rw [if_pos hk] at hm
        cases hm
      · rw [if_neg hk] at hm
        exact (Except.ok.inj hm).symm
    · rw [e] at hm
      cases hm
  subst this
  exact Tree.plain hnc (T := hset.theory H enc) (fun m a n hK fuel =>
    Sides.flat fuel levels m (AnyChunk.sides hK utf8 s.2 (List.Subset.refl _) hnc)) _ _ _ _ _ h6 anyFuel

end

/-! ### Examples -/

/-- A data set of two variables after many appends, in a store that has lost one of its objects. -/
example (cid : Cid) (v : Variable) (hv : (runs exampleHash (fun _ => true) exampleClog exampleLg 32 exampleTwo
      (exampleDataset, [])).1.findVariable [7] = some v) (m : MMStruct3)
    (hm : v.data .i64 (fun _ => true) (((runs exampleHash (fun _ => true) exampleClog exampleLg 32 exampleTwo
      (exampleDataset, [])).2.load exampleHash).without cid) = .ok m) :=
  C96_built (H := exampleHash) (utf8 := fun _ => true) (clog := exampleClog) (lg := exampleLg) (fuel := 32)
    (readFuel := 40) Kind.i64 exampleDataset exampleTwo [] (exampleTwo_limited (by decide)) (by decide) _ rfl
    (by unfold Saved.NoCollision; decide +kernel) [7] v hv _ (Store.without_part _ cid) m hm 40 (Cube.new 0 2 0 4 0 4)

/-- There are such a variable and such an array. -/
example : (match (runs exampleHash (fun _ => true) exampleClog exampleLg 32 exampleTwo
      (exampleDataset, [])).1.findVariable [7] with
    | some v => (match v.data .i64 (fun _ => true) (((runs exampleHash (fun _ => true) exampleClog exampleLg 32 exampleTwo
      (exampleDataset, [])).2.load exampleHash).without Half.gone) with
      | .ok _ => true
      | .error _ => false)
    | none => false) = true := by decide +kernel

end Verif
