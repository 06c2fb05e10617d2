import Verif.Lemmas.StoreSerial
import Verif.Model.Ls

/-! Objects that are saved with everything they refer to. -/
namespace Verif

/-- All local subchunks are chunks, which refer to nothing. -/
def MMStruct3.LocalChunks : MMStruct3 → Prop
  | .superchunk _ loc => ∀ m ∈ loc, ∃ c, m = .subchunk c
  | _ => True

def Item.LocalChunks : Item → Prop
  | .struct m => m.LocalChunks
  | _ => True

/-- The object fits its format, has no local subchunks that refer to something, and everything it
lists was saved and is like that again, down to a depth below `depth`. -/
def Ground (utf8 : List Byte → Bool) (H : Hash) (log : Saved) : (depth : Nat) → Item → Prop
  | 0, _ => False
  | depth + 1, x => x.WF utf8 ∧ x.LocalChunks ∧ ∀ e ∈ x.ls,
      ∃ y : Item, y.bytes ∈ log ∧ e.2 = H.cidOf y.bytes ∧ Ground utf8 H log depth y

variable {utf8 : List Byte → Bool} {H : Hash} {log log' : Saved}

theorem Ground.mono (hs : log ⊆ log') : ∀ {d : Nat} {x : Item}, Ground utf8 H log d x →
    Ground utf8 H log' d x := by
  intro d
  induction d with
  | zero => intro x h; exact h
  | succ d ih =>
    intro x h
    refine ⟨h.1, h.2.1, fun e he => ?_⟩
    obtain ⟨y, h1, h2, h3⟩ := h.2.2 e he
    exact ⟨y, hs h1, h2, ih h3⟩

theorem Ground.deeper : ∀ {d d' : Nat} {x : Item}, d ≤ d' → Ground utf8 H log d x →
    Ground utf8 H log d' x := by
  intro d
  induction d with
  | zero => intro d' x _ h; exact h.elim
  | succ d ih =>
    intro d' x hd h
    obtain ⟨d', rfl⟩ : ∃ n, d' = n + 1 := ⟨d' - 1, by omega⟩
    refine ⟨h.1, h.2.1, fun e he => ?_⟩
    obtain ⟨y, h1, h2, h3⟩ := h.2.2 e he
    exact ⟨y, h1, h2, ih (by omega) h3⟩

theorem Ground.chunk {d : Nat} {c : Chunk} (h : c.WF) :
    Ground utf8 H log (d + 1) (.struct (.subchunk c)) :=
  ⟨h, trivial, fun _ he => by cases he⟩

theorem mem_lsNumbered {cids : List Cid} {e : List Byte × Cid} (h : e ∈ lsNumbered cids) :
    e.2 ∈ cids := by
  unfold lsNumbered at h
  rw [List.mem_map] at h
  obtain ⟨p, hp, rfl⟩ := h
  exact (List.mem_zipIdx_iff_getElem?.1 hp) |> List.mem_of_getElem?

/-- A saved superchunk without local subchunks, its links and its parts. -/
theorem Ground.superchunk {d : Nat} {h : SuperHead} {cids : List Cid} (hw : h.WF)
    (hl : h.externalCid = H.cidOf (Item.links ⟨cids⟩).bytes) (hm : (Item.links ⟨cids⟩).bytes ∈ log)
    (hlw : Links.WF ⟨cids⟩)
    (hc : ∀ c ∈ cids, ∃ m : MMStruct3, (Item.struct m).bytes ∈ log ∧
      c = H.cidOf (Item.struct m).bytes ∧ Ground utf8 H log d (.struct m)) :
    Ground utf8 H log (d + 2) (.struct (.superchunk h [])) := by
  refine ⟨⟨hw, by simp, trivial⟩, fun m hm => (by cases hm), ?_⟩
  intro e he
  change e ∈ [_] at he
  rw [List.mem_singleton] at he
  subst he
  refine ⟨.links ⟨cids⟩, hm, hl, hlw, trivial, fun e he => ?_⟩
  obtain ⟨m, h1, h2, h3⟩ := hc e.2 (mem_lsNumbered he)
  exact ⟨.struct m, h1, h2, h3⟩

theorem Ground.span {d : Nat} {s : Span} (hw : s.WF)
    (hc : ∀ c ∈ s.spans, ∃ m : MMStruct3, (Item.struct m).bytes ∈ log ∧
      c = H.cidOf (Item.struct m).bytes ∧ Ground utf8 H log d (.struct m)) :
    Ground utf8 H log (d + 1) (.struct (.span s)) := by
  refine ⟨hw, trivial, fun e he => ?_⟩
  obtain ⟨m, h1, h2, h3⟩ := hc e.2 (mem_lsNumbered he)
  exact ⟨.struct m, h1, h2, h3⟩

end Verif
