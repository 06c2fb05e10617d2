import Verif.Lemmas.ReadWF
import Verif.Props.Dataset

/-!
Properties C28 and C34, continued: the limits of the format are exact. What is within them reads back
(`C28_round_trip_partial`, `C28_links_partial`, `C34_round_trip`), nothing else does.
-/
namespace Verif

section
variable {H : Hash} {utf8 : List Byte → Bool}

/-- C28: a structure reads back, whatever follows it, if and only if its numbers fit the format. -/
theorem C28_limits (m : MMStruct3) :
    (∀ rest, MMStruct3.read (m.write ++ rest) = .ok (m, rest)) ↔ m.WF := by
  refine ⟨fun h => ?_, fun h rest => m.read_rt h rest⟩
  have h1 := h [0]
  unfold MMStruct3.read at h1
  exact (Gives.struct _ _ _ _ h1).2 (.inr (by simp))

/-- C28: a list of links reads back if and only if it has fewer than `2^32` links to identifiers that
exist. -/
theorem C28_links_limits (l : Links) (rest : List Byte) :
    Links.read (l.write ++ rest) = .ok (l, []) ↔ l.cids.length < 2 ^ 32 ∧ ∀ c ∈ l.cids, c.Valid :=
  ⟨fun h => have hw := ((Gives.links (e := true)).1 _ _ _ h).2 (.inl rfl); ⟨hw.len, hw.cids⟩,
    fun h => l.read_all ⟨h.1, h.2⟩ rest⟩

/-- C28: a span reads back if and only if its numbers are below `2^32` and its identifiers exist. -/
theorem C28_span_limits (s : Span) (rest : List Byte) :
    MMStruct3.read ((MMStruct3.span s).write ++ rest) = .ok (.span s, rest) ↔
      s.instants < 2 ^ 32 ∧ s.rows < 2 ^ 32 ∧ s.cols < 2 ^ 32 ∧ s.stride < 2 ^ 32 ∧
        s.spans.length < 2 ^ 32 ∧ ∀ c ∈ s.spans, c.Valid := by
  constructor
  · intro h
    have hs : Span.WF s := by
      unfold MMStruct3.read at h
      have key : Gives true (Reader.bind readByte fun tag => if tag = 3 then
          Reader.bind Span.read fun s => Reader.pure (MMStruct3.span s) else Reader.fail .panic)
          (fun m => ∀ s, m = .span s → Span.WF s) := by
        refine Gives.bind Gives.readByte fun tag => ?_
        split
        · exact Gives.bind Gives.span fun s => Gives.pure _ fun h _ s' hs => by cases hs; exact h
        · exact Gives.fail _
      have h' : Reader.bind readByte (fun tag => if tag = 3 then
          Reader.bind Span.read fun s => Reader.pure (MMStruct3.span s) else Reader.fail .panic)
          ((MMStruct3.span s).write ++ rest) = .ok (.span s, rest) := by
        rw [← h]
        unfold MMStruct3.readFuel MMStruct3.write
        change _ = Reader.bind readByte _ _
        unfold Reader.bind
        rw [List.append_assoc, readByte_rt]
        rfl
      exact (key _ _ _ h').2 (.inl rfl) s rfl
    exact ⟨hs.instants, hs.rows, hs.cols, hs.stride, hs.len, hs.cids⟩
  · intro ⟨h1, h2, h3, h4, h5, h6⟩
    exact MMStruct3.read_rt (.span s) ⟨h1, h2, h3, h4, h5, h6⟩ rest

/-- C34: committing a data set and loading it returns the same data set if and only if it is within
the limits of the format: names of at most 255 bytes, at most 255 variables, at most 255 levels and
fractional bits, other sizes below `2^32` (and identifiers that exist). -/
theorem C34_limits (d : Dataset) (log : Saved) (cid : Cid) (log' : Saved)
    (hc : d.commit H log = (.ok cid, log')) (hnc : log'.NoCollision H) :
    (log'.load H).getDataset utf8 cid = .ok { d with cid := some cid } ↔ d.WF utf8 := by
  refine ⟨fun h => ?_, fun h => C34_round_trip d h log cid log' hc hnc⟩
  have hw := Store.getDataset_wf h
  exact ⟨hw.coord0, hw.coord1, hw.coord2, hw.len, hw.vars, hw.rows, hw.cols, hw.prev⟩

/-- C34 beyond the limits: a commit of a data set with more than 255 variables, or a name of more than
255 bytes, or a variable rounded to more than 255 bits, succeeds, and does not load as what it was. -/
theorem C34_beyond (d : Dataset) (log : Saved) (cid : Cid) (log' : Saved)
    (hc : d.commit H log = (.ok cid, log')) (hnc : log'.NoCollision H)
    (h : 255 < d.variables.length ∨ (∃ v ∈ d.variables, 255 < v.name.length) ∨
      255 < d.coord0.name.length ∨ 255 < d.coord1.name.length ∨ 255 < d.coord2.name.length ∨
      ∃ v ∈ d.variables, ∃ b, v.round = some b ∧ 255 < b) :
    (log'.load H).getDataset utf8 cid ≠ .ok { d with cid := some cid } := by
  rw [ne_eq, C34_limits d log cid log' hc hnc]
  intro hw
  rcases h with h | ⟨v, hv, h⟩ | h | h | h | ⟨v, hv, b, hb, h⟩
  · have := hw.len; omega
  · have := (hw.vars v hv).name; omega
  · have := hw.coord0.name; omega
  · have := hw.coord1.name; omega
  · have := hw.coord2.name; omega
  · have := (hw.vars v hv).round b hb; omega

end

/-! ### Examples -/

/-- A data set of 256 variables: it loads without an error, as one without variables and of another
shape. -/
def crowdedDataset : Dataset :=
  { exampleDataset with «variables» := List.replicate 256 ⟨[1, 0], none, 2, 2, [1, 1], .i64, .v0 (List.replicate 32 0)⟩ }

def crowdedShape : Except Fail (Dataset × List Byte) → Option (List Variable × Nat × Nat)
  | .ok (d, _) => some (d.variables, d.rows, d.cols)
  | .error _ => none

example : crowdedShape (Dataset.read (fun _ => true) crowdedDataset.write) =
    some ([], 33619968, 2) := by
  decide +kernel

end Verif
