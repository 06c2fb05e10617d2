import Verif.Props.Missing
import Verif.Props.Resolver

/-!
Listings in stores that have lost objects (C45).
-/
namespace Verif

theorem Store.lsLoop_part {st st' : Store} (hst : st'.Part st) : ∀ {l : List (List Byte × Cid)} {es : List LsEntry},
    st.lsLoop l = .ok es →
    st'.lsLoop l = .ok (es.map fun e => if st' e.cid = none then ⟨e.cid, e.name, none, none⟩ else e) := by
  intro l
  induction l with
  | nil => intro es h; cases h; rfl
  | cons e l ih =>
    intro es h
    unfold Store.lsLoop Store.lsEntry at h
    cases ht : st.nodeTypeOf e.2 with
    | error f => rw [ht] at h; cases h
    | ok t =>
      rw [ht] at h
      simp only at h
      cases hl : st.lsLoop l with
      | error f => rw [hl] at h; cases h
      | ok ys =>
        rw [hl] at h
        cases h
        unfold Store.lsLoop Store.lsEntry
        rw [ih hl]
        by_cases hn : st' e.2 = none
        · have : st'.nodeTypeOf e.2 = .ok none := by
            unfold Store.nodeTypeOf
            rw [hn]
          simp only [this, hn, List.map_cons, if_true, Option.map_none]
        · have he : st' e.2 = st e.2 := (hst e.2).resolve_left hn
          have : st'.nodeTypeOf e.2 = .ok t := by
            rw [← ht]
            unfold Store.nodeTypeOf
            rw [he]
          simp only [this, List.map_cons]
          rw [if_neg hn, he]

/-- C45: an object that is there is listed whatever else is missing. The entries are those of the whole store; those
that lead to objects that are missing have neither a type nor a size. -/
theorem C45_missing (utf8 : List Byte → Bool) (st st' : Store) (hst : st'.Part st) (c : Cid) (es : List LsEntry)
    (h : st.ls utf8 c = .ok es) (hc : st' c ≠ none) :
    st'.ls utf8 c = .ok (es.map fun e => if st' e.cid = none then ⟨e.cid, e.name, none, none⟩ else e) := by
  have hr : st'.retrieve utf8 c = st.retrieve utf8 c := by
    unfold Store.retrieve
    rw [(hst c).resolve_left hc]
  unfold Store.ls at h ⊢
  rw [hr]
  cases hx : st.retrieve utf8 c with
  | error f => rw [hx] at h; cases h
  | ok x =>
    rw [hx] at h
    exact Store.lsLoop_part hst h

/-- C45: an object that is not there is not listed, and its identifier is named. -/
theorem C45_gone (utf8 : List Byte → Bool) (st : Store) (c : Cid) (hc : st c = none) :
    st.ls utf8 c = .error (.err (.notFound c)) := by
  unfold Store.ls Store.retrieve
  rw [hc]

/-- The root of a variable after many appends, in a store that has lost the first of its two spans: both are listed, the
first without type and size. -/
example : (match (runs exampleHash (fun _ => true) exampleClog (fun _ => 0) 32
    (.addVariable [7] none 2 2 [1, 1] .i64 :: exampleOps) (exampleDataset, [])) with
    | (d, log) => (match d.findVariable [7] with
      | some v => (match (log.load exampleHash).ls (fun _ => true) v.cid with
        | .ok (e :: _) => (match ((log.load exampleHash).without e.cid).ls (fun _ => true) v.cid with
          | .ok es => es.map fun e => (e.nodeType, e.size.isSome)
          | .error _ => [])
        | _ => [])
      | none => [])) = [(none, false), (some .span, true)] := by decide +kernel

end Verif
