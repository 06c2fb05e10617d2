import Verif.Lemmas.Calm

/-! C91: objects that are cut off. -/
namespace Verif

variable {utf8 : List Byte → Bool}

/-- C91: if loading some bytes does not panic, loading what is left of them after the end was cut off does not
either, wherever they are cut. -/
theorem C91_cut_partial (cid : Cid) (bytes : List Byte) (n : Nat) (h : Item.read utf8 cid bytes ≠ .error .panic) :
    Item.read utf8 cid (bytes.take n) ≠ .error .panic := by
  intro h1
  have h2 := Calm.item utf8 cid (bytes.take n) (bytes.drop n) h1
  rw [List.take_append_drop] at h2
  exact h h2

/-- C91: so whatever part of the beginning of an object of the library there is, loading it is no panic. -/
theorem C91_written_partial (cid : Cid) (x : Item) (hx : x.WF utf8) (n : Nat) :
    (∃ f, Item.read utf8 cid (x.bytes.take n) = .error (.err f)) ∨
      ∃ y rest, Item.read utf8 cid (x.bytes.take n) = .ok (y, rest) := by
  have h := C91_cut_partial (utf8 := utf8) cid x.bytes n (by
    rw [Item.read_bytes x hx cid]
    intro h
    cases h)
  cases h1 : Item.read utf8 cid (x.bytes.take n) with
  | error e =>
    cases e with
    | panic => exact absurd h1 h
    | err f => exact .inl ⟨f, rfl⟩
  | ok p => exact .inr ⟨p.1, p.2, rfl⟩

/-- C91 for a store that has lost objects or the ends of some: nothing that could be retrieved before becomes a
panic. -/
theorem C91_store_partial (st st' : Store) (cid : Cid)
    (h : ∀ b, st' cid = some b → ∃ b', st cid = some b' ∧ b <+: b')
    (hr : st.retrieve utf8 cid ≠ .error .panic) : st'.retrieve utf8 cid ≠ .error .panic := by
  unfold Store.retrieve at hr ⊢
  cases h1 : st' cid with
  | none =>
    intro e
    cases e
  | some b =>
    obtain ⟨b', h2, t, rfl⟩ := h b h1
    rw [h2] at hr
    dsimp only at hr ⊢
    intro e
    have h3 : Item.read utf8 cid b = .error .panic := by
      cases h4 : Item.read utf8 cid b with
      | error f => rw [h4] at e; cases e; rfl
      | ok p => rw [h4] at e; cases e
    rw [Calm.item utf8 cid b t h3] at hr
    exact hr rfl

/-- Numbers of a raster of four rows and columns. -/
def Example.cutRaster : Nat → Nat → Nat → Int64 := fun _ r c =>
  if r = 3 ∧ c = 3 then 300 else Int64.ofNat (r + c) - 500

/-- C91 is false of the code for what comes after loading: a chunk of 124 bytes of which the last one is missing
loads, all its cells can be read, and a search in it panics. -/
theorem C91_search_wrong : ∃ r c, Chunk.build Example.cutRaster 1 4 4 2 2 .i64 0 = some r ∧
    (Item.struct (.subchunk r.data)).bytes.length = 124 ∧
    Item.read (fun _ => true) (.v0 []) (Item.struct (.subchunk r.data)).bytes.dropLast =
      .ok (.struct (.subchunk c), []) ∧
    (∀ i < 4, ∀ j < 4, c.get 0 i j = some (Example.cutRaster 0 i j)) ∧
    c.iterSearch (Cube.new 0 1 0 4 0 4) (-498) 1000 = none := by
  have key : (match Chunk.build Example.cutRaster 1 4 4 2 2 .i64 0 with
    | some r =>
      match Item.read (fun _ => true) (.v0 []) (Item.struct (.subchunk r.data)).bytes.dropLast with
      | .ok (.struct (.subchunk c), []) =>
        decide ((Item.struct (.subchunk r.data)).bytes.length = 124) &&
          (decide (∀ i : Fin 4, ∀ j : Fin 4, c.get 0 i j = some (Example.cutRaster 0 i j)) &&
          decide (c.iterSearch (Cube.new 0 1 0 4 0 4) (-498) 1000 = none))
      | _ => false
    | none => false) = true := by decide +kernel
  cases h : Chunk.build Example.cutRaster 1 4 4 2 2 .i64 0 with
  | none => rw [h] at key; cases key
  | some r =>
    rw [h] at key
    dsimp only at key
    split at key
    · rename_i c hc
      rw [Bool.and_eq_true, Bool.and_eq_true] at key
      exact ⟨r, c, rfl, of_decide_eq_true key.1, hc, fun i hi j hj => of_decide_eq_true key.2.1 ⟨i, hi⟩ ⟨j, hj⟩, of_decide_eq_true key.2.2⟩
    · cases key

end Verif
