import Verif.Lemmas.Exact
import Verif.Lemmas.Fuel
import Verif.Props.Dataset

/-!
Properties of bytes that need not have been written by the library: what is loaded and saved again is
the same object with the same identifier (C65), and what is no object is rejected (C66).
-/
namespace Verif

open Reader

theorem bind_run {α β : Type} {r : Reader α} {f : α → Reader β} {s s1 : List Byte} {a : α}
    (h : r s = .ok (a, s1)) : (r >>= f) s = f a s1 := by
  change Reader.bind r f s = _
  unfold Reader.bind
  rw [h]

theorem bind_fails {α β : Type} {r : Reader α} {f : α → Reader β} {s : List Byte} {e : Fail}
    (h : r s = .error e) : (r >>= f) s = .error e := by
  change Reader.bind r f s = _
  unfold Reader.bind
  rw [h]

section
variable {utf8 : List Byte → Bool}

/-! ### C65 -/

/-- C65 for chunks, superchunks and spans: whatever bytes are loaded as a structure, saving it again
writes the very same bytes.

Partial: up to bytes after the end of the object, which are not looked at (`C65_trailing_wrong`). -/
theorem C65_struct_partial (cid : Cid) (bytes rest : List Byte) (m : MMStruct3)
    (h : Item.read utf8 cid bytes = .ok (.struct m, rest)) : (Item.struct m).bytes ++ rest = bytes := by
  obtain ⟨b, s1, h1, h⟩ := read_bind_ok h
  have e := readHeader_exact _ _ _ h1
  split at h
  · obtain ⟨d, s2, h2, h⟩ := read_bind_ok h
    cases h
  split at h
  · obtain ⟨d, s2, h2, h⟩ := read_bind_ok h
    cases h
  split at h
  · rename_i hb
    obtain ⟨m', s2, h2, h⟩ := read_bind_ok h
    cases h
    rw [← e, ← MMStruct3.read_exact _ _ _ h2, hb]
    unfold Item.bytes
    rw [List.append_assoc]
  · cases h

/-- C65 for lists of links. Partial: as above. -/
theorem C65_links_partial (cid : Cid) (bytes rest : List Byte) (l : Links)
    (h : Item.read utf8 cid bytes = .ok (.links l, rest)) : ∃ rest', (Item.links l).bytes ++ rest' = bytes := by
  obtain ⟨b, s1, h1, h⟩ := read_bind_ok h
  have e := readHeader_exact _ _ _ h1
  split at h
  · obtain ⟨d, s2, h2, h⟩ := read_bind_ok h
    cases h
  split at h
  · rename_i hb
    obtain ⟨l', s2, h2, h⟩ := read_bind_ok h
    cases h
    obtain ⟨rest', e2⟩ := Links.read_prefix h2
    refine ⟨rest', ?_⟩
    rw [← e, ← e2, hb]
    unfold Item.bytes
    rw [List.append_assoc]
  split at h
  · obtain ⟨d, s2, h2, h⟩ := read_bind_ok h
    cases h
  · cases h

/-- C65 for data sets. Partial: up to bytes after the end, and up to flags: a byte other than 0 and 1 in the
place of a flag is taken for 0 (`SameFlag`), and becomes 0 (`C65_flag_wrong`). -/
theorem C65_dataset_partial (cid : Cid) (bytes rest : List Byte) (d : Dataset)
    (h : Item.read utf8 cid bytes = .ok (.dataset d, rest)) :
    d.cid = some cid ∧ ∃ l, List.Forall₂ SameFlag (Item.dataset d).bytes l ∧ l ++ rest = bytes := by
  obtain ⟨b, s1, h1, h⟩ := read_bind_ok h
  have e := readHeader_exact _ _ _ h1
  split at h
  · rename_i hb
    obtain ⟨d', s2, h2, h⟩ := read_bind_ok h
    cases h
    obtain ⟨l, f, e2⟩ := Dataset.read_alike utf8 _ _ _ h2
    refine ⟨rfl, header 0 ++ l, ?_, ?_⟩
    · exact List.rel_append (SameFlag.refl _) f
    · rw [← e, ← e2, hb, List.append_assoc]
  split at h
  · obtain ⟨d, s2, h2, h⟩ := read_bind_ok h
    cases h
  split at h
  · obtain ⟨d, s2, h2, h⟩ := read_bind_ok h
    cases h
  · cases h

/-- C65: a structure that was loaded from a store gets its own identifier when it is saved again,
whoever has written it, if nothing follows it. -/
theorem C65_identifier_partial (H : Hash) (log log' : Saved) (c : Cid) (m : MMStruct3)
    (h : (log.load H).getStruct utf8 c = .ok m) :
    ∃ rest, (Item.struct m).bytes ++ rest ∈ log ∧ H.cidOf ((Item.struct m).bytes ++ rest) = c ∧
      (rest = [] → (save H log' (.struct m)).2 = c) := by
  unfold Store.getStruct Store.retrieve at h
  cases h1 : log.load H c with
  | none => rw [h1] at h; cases h
  | some bytes =>
    rw [h1] at h
    simp only at h
    cases h2 : Item.read utf8 c bytes with
    | error e => rw [h2] at h; cases h
    | ok x =>
      rw [h2] at h
      obtain ⟨item, rest⟩ := x
      cases item with
      | dataset d => cases h
      | links l => cases h
      | struct m' =>
        cases h
        have e := C65_struct_partial c bytes rest m h2
        have hm : bytes ∈ log := List.mem_of_find?_eq_some h1
        have hc : H.cidOf bytes = c := by
          have := List.find?_some h1
          simpa using this
        refine ⟨rest, e ▸ hm, e ▸ hc, fun h0 => ?_⟩
        rw [h0, List.append_nil] at e
        unfold save
        rw [e]; exact hc

/-- C65: no two different sequences of bytes are one structure, if nothing follows it. -/
theorem C65_distinct_partial (c : Cid) (a b : List Byte) (m : MMStruct3)
    (ha : Item.read utf8 c a = .ok (.struct m, [])) (hb : Item.read utf8 c b = .ok (.struct m, [])) : a = b := by
  rw [← C65_struct_partial c a [] m ha, ← C65_struct_partial c b [] m hb]

/-- C65 is false of the code for bytes after the end of an object: they are never looked at, so every
object can be loaded under as many identifiers as one likes, and saved again gets another one. -/
theorem C65_trailing_wrong (x : Item) (hx : x.WF utf8) (rest : List Byte) (cid : Cid) :
    ∃ rest', Item.read utf8 cid (x.bytes ++ rest) = .ok (x.loaded cid, rest') := by
  cases x with
  | dataset d =>
    refine ⟨rest, ?_⟩
    have h1 := readHeader_rt 0 (d.write ++ rest)
    have h2 := Dataset.read_rt (utf8 := utf8) d hx rest
    unfold Item.bytes
    rw [List.append_assoc]
    unfold Item.read
    rw [bind_run h1]
    rw [if_pos rfl]
    rw [bind_run h2]
    rfl
  | links l =>
    refine ⟨[], ?_⟩
    have h1 := readHeader_rt 1 (l.write ++ rest)
    have h2 := Links.read_all l hx rest
    unfold Item.bytes
    rw [List.append_assoc]
    unfold Item.read
    rw [bind_run h1]
    rw [if_neg (by decide), if_pos rfl]
    rw [bind_run h2]
    rfl
  | struct m =>
    refine ⟨rest, ?_⟩
    have h1 := readHeader_rt 2 (m.write ++ rest)
    have h2 := MMStruct3.read_rt m hx rest
    unfold Item.bytes
    rw [List.append_assoc]
    unfold Item.read
    rw [bind_run h1]
    rw [if_neg (by decide), if_neg (by decide), if_pos rfl]
    rw [bind_run h2]
    rfl

/-- C65 is false of the code for data sets with other flags than 0 and 1: the last byte of a data set
without a version before it is such a flag. -/
theorem C65_flag_wrong (d : Dataset) (hd : d.WF utf8) (hp : d.prev = none) (b : Byte) (hb : b ≠ 1) (cid : Cid) :
    Item.read utf8 cid ((Item.dataset d).bytes.dropLast ++ [b]) = .ok (.dataset { d with cid := some cid }, []) := by
  have h0 := Item.read_bytes (.dataset d) hd cid
  have e : (Item.dataset d).bytes = header 0 ++ (d.coord0.write ++ (d.coord1.write ++ (d.coord2.write ++
      (writeByte (asU8 d.variables.length) ++ (d.variables.flatMap Variable.write ++ (writeU32 (asU32 d.rows) ++
        (writeU32 (asU32 d.cols) ++ [0]))))))) := by
    unfold Item.bytes Dataset.write
    simp only [hp, List.append_assoc]
    rfl
  have e2 : (Item.dataset d).bytes.dropLast ++ [b] = header 0 ++ (d.coord0.write ++ (d.coord1.write ++ (d.coord2.write ++
      (writeByte (asU8 d.variables.length) ++ (d.variables.flatMap Variable.write ++ (writeU32 (asU32 d.rows) ++
        (writeU32 (asU32 d.cols) ++ [b]))))))) := by
    rw [e]
    simp only [← List.append_assoc, List.dropLast_concat]
  have hv := RT.many (r := Variable.read utf8) (w := Variable.write) (g := id) d.variables
    (fun v hv => Variable.read_rt v (hd.vars v hv))
  rw [e2]
  unfold Item.read
  rw [bind_run (readHeader_rt 0 _), if_pos rfl]
  have hr : Dataset.read utf8 (d.coord0.write ++ (d.coord1.write ++ (d.coord2.write ++
      (writeByte (asU8 d.variables.length) ++ (d.variables.flatMap Variable.write ++ (writeU32 (asU32 d.rows) ++
        (writeU32 (asU32 d.cols) ++ [b]))))))) = .ok ({ d with cid := none }, []) := by
    unfold Dataset.read
    rw [bind_run (Coordinate.read_rt _ hd.coord0 _)]
    rw [bind_run (Coordinate.read_rt _ hd.coord1 _)]
    rw [bind_run (Coordinate.read_rt _ hd.coord2 _)]
    rw [bind_run (readByte_rt _ _)]
    rw [asU8_toNat hd.len]
    rw [bind_run (hv _)]
    rw [bind_run (readU32_rt _ _)]
    rw [bind_run (readU32_rt _ _)]
    have : Dataset.readPrev [b] = .ok (none, []) := by
      unfold Dataset.readPrev
      rw [bind_run (r := readByte) (s := [b]) (readByte_rt b []), if_neg hb]
      rfl
    rw [bind_run this]
    simp only [asU32_toNat hd.rows, asU32_toNat hd.cols, List.map_id, hp]
    rfl
  rw [bind_run hr]
  rfl

/-! ### C66 -/

/-- C66: reading structures that contain others always ends: the depth to which the model follows them
is no limit. -/
theorem C66_ends (bytes : List Byte) (fuel : Nat) (h : bytes.length < fuel) :
    MMStruct3.readFuel fuel bytes = MMStruct3.read bytes := by
  unfold MMStruct3.read
  exact MMStruct3.readFuel_enough _ _ _ (by omega) (by omega)

/-- A reader that fails only with errors. -/
def NoPanic {α : Type} (r : Reader α) : Prop := ∀ s, r s ≠ .error .panic

theorem NoPanic.bind {α β : Type} {r : Reader α} {f : α → Reader β} (hr : NoPanic r) (hf : ∀ a, NoPanic (f a)) :
    NoPanic (Reader.bind r f) := by
  intro s h
  unfold Reader.bind at h
  cases h1 : r s with
  | error e =>
    rw [h1] at h
    cases h
    exact hr s h1
  | ok x => rw [h1] at h; exact hf x.1 x.2 h

theorem NoPanic.pure {α : Type} (a : α) : NoPanic (Reader.pure a) := fun _ h => nomatch h

theorem NoPanic.err {α : Type} {e : Err} : NoPanic (Reader.fail (.err e) : Reader α) := fun _ h => nomatch h

theorem NoPanic.withErr {α : Type} {r : Reader α} (h : NoPanic r) (e : Err) : NoPanic (r.withErr e) := by
  intro s hs
  unfold Reader.withErr at hs
  split at hs
  · cases hs
  · exact h s hs

theorem NoPanic.readExact (n : Nat) : NoPanic (readExact n) := by
  intro s h
  unfold Verif.readExact at h
  split at h <;> cases h

theorem NoPanic.many {α : Type} {r : Reader α} (h : NoPanic r) (n : Nat) : NoPanic (Reader.many r n) := by
  induction n with
  | zero => exact NoPanic.pure _
  | succ n ih => exact NoPanic.bind h fun a => NoPanic.bind ih fun as => NoPanic.pure _

theorem NoPanic.readVarint : NoPanic readVarint := by
  have key : ∀ fuel i acc, NoPanic (readVarintGo fuel i acc) := by
    intro fuel
    induction fuel with
    | zero => intro i acc; exact NoPanic.err
    | succ fuel ih =>
      intro i acc
      refine NoPanic.bind (NoPanic.bind (NoPanic.readExact 1) fun _ => NoPanic.pure _) fun b => ?_
      simp only
      split
      · split
        · exact NoPanic.err
        split
        · exact NoPanic.pure _
        · exact NoPanic.err
      · exact ih _ _
  exact NoPanic.withErr (key 10 0 0) _

theorem NoPanic.parse : NoPanic Cid.parse := by
  refine NoPanic.withErr ?_ _
  refine NoPanic.bind NoPanic.readVarint fun version => NoPanic.bind NoPanic.readVarint fun codec => ?_
  split
  · exact NoPanic.bind (NoPanic.readExact _) fun _ => NoPanic.pure _
  split
  · refine NoPanic.bind NoPanic.readVarint fun code => NoPanic.bind NoPanic.readVarint fun size => ?_
    split
    · exact NoPanic.err
    · exact NoPanic.bind (NoPanic.readExact _) fun _ => NoPanic.pure _
  · exact NoPanic.err

/-- C66 for lists of links: any bytes after the header of one are a list of links or an error. Partial:
false for other objects, see below. -/
theorem C66_links_partial (cid : Cid) (bytes : List Byte) :
    Item.read utf8 cid (header 1 ++ bytes) ≠ .error .panic := by
  intro h
  unfold Item.read at h
  rw [bind_run (readHeader_rt 1 _)] at h
  rw [if_neg (by decide), if_pos rfl] at h
  have : NoPanic (Reader.bind Links.read fun l => Reader.pure (Item.links l)) := by
    refine NoPanic.bind ?_ fun _ => NoPanic.pure _
    refine NoPanic.bind (NoPanic.bind (NoPanic.readExact 4) fun _ => NoPanic.pure _) fun n => ?_
    refine NoPanic.bind (fun s hs => ?_) fun _ => NoPanic.pure _
    split at hs
    · cases hs
    · rename_i e he
      cases hs
      exact NoPanic.many NoPanic.parse _ _ he
  exact this bytes h

/-- C66 is false of the code: bytes that do not begin as objects of this library do make `retrieve`
panic, whatever they are. -/
theorem C66_magic_panics (cid : Cid) (a b : Byte) (bytes : List Byte) (h : a ≠ 0xDC#8 ∨ b ≠ 0xE0#8) :
    Item.read utf8 cid (a :: b :: bytes) = .error .panic := by
  have : readHeader (a :: b :: bytes) = .error .panic := by
    have h1 := readU16_rt (BitVec.ofNat 16 (a.toNat * 256 + b.toNat)) bytes
    have e : writeU16 (BitVec.ofNat 16 (a.toNat * 256 + b.toNat)) = [a, b] := by
      have ha := a.isLt
      have hb := b.isLt
      unfold writeU16 toBE toBE toBE
      rw [BitVec.toNat_ofNat, Nat.mod_eq_of_lt (by omega)]
      simp only [List.nil_append, List.singleton_append, List.cons.injEq, and_true]
      constructor
      · apply BitVec.eq_of_toNat_eq
        rw [BitVec.toNat_ofNat]; omega
      · apply BitVec.eq_of_toNat_eq
        rw [BitVec.toNat_ofNat]; omega
    rw [e] at h1
    change readU16 (a :: b :: bytes) = _ at h1
    unfold readHeader
    rw [bind_run h1, if_pos]
    · rfl
    · intro hm
      have hn := congrArg BitVec.toNat hm
      have ha := a.isLt
      have hb := b.isLt
      rw [BitVec.toNat_ofNat, Nat.mod_eq_of_lt (by omega)] at hn
      change _ = 0xDCE0 at hn
      rcases h with h | h
      · apply h
        apply BitVec.eq_of_toNat_eq
        change _ = 0xDC
        omega
      · apply h
        apply BitVec.eq_of_toNat_eq
        change _ = 0xE0
        omega
  unfold Item.read
  rw [bind_fails this]

/-- C66 is false of the code: an identifier of an object of another kind makes `get_dataset` and its like
panic. -/
theorem C66_kind_panics (st : Store) (cid : Cid) (x : Item) (hx : x.WF utf8) (hs : st cid = some x.bytes) :
    (st.getDataset utf8 cid = .error .panic ∨ ∃ d, x = .dataset d) ∧
    (st.getLinks utf8 cid = .error .panic ∨ ∃ l, x = .links l) ∧
    (st.getStruct utf8 cid = .error .panic ∨ ∃ m, x = .struct m) := by
  have h := Store.retrieve_of hs hx
  unfold Store.getDataset Store.getLinks Store.getStruct
  rw [h]
  cases x with
  | dataset d => exact ⟨.inr ⟨d, rfl⟩, .inl rfl, .inl rfl⟩
  | links d => exact ⟨.inl rfl, .inr ⟨d, rfl⟩, .inl rfl⟩
  | struct d => exact ⟨.inl rfl, .inl rfl, .inr ⟨d, rfl⟩⟩

/-- C66 is false of the code: unknown tags of structures and of types panic. -/
theorem C66_tag_panics (cid : Cid) (b : Byte) (bytes : List Byte) :
    (b ≠ 3 → b ≠ 4 → b ≠ 5 → Item.read utf8 cid (header 2 ++ b :: bytes) = .error .panic) ∧
    (MMEncoding.ofByte b = none → Item.read utf8 cid (header 2 ++ 3 :: b :: bytes) = .error .panic ∧
      Item.read utf8 cid (header 2 ++ 4 :: b :: bytes) = .error .panic) := by
  have key : ∀ s, MMStruct3.read s = .error .panic → Item.read utf8 cid (header 2 ++ s) = .error .panic := by
    intro s h
    unfold Item.read
    rw [bind_run (readHeader_rt 2 _), if_neg (by decide), if_neg (by decide), if_pos rfl, bind_fails h]
  have rb : ∀ (b : Byte) s, readByte (b :: s) = .ok (b, s) := fun b s => readByte_rt b s
  refine ⟨fun h3 h4 h5 => key _ ?_, fun h => ⟨key _ ?_, key _ ?_⟩⟩
  · unfold MMStruct3.read MMStruct3.readFuel
    rw [bind_run (rb _ _), if_neg h4, if_neg h3, if_neg h5]
    rfl
  · unfold MMStruct3.read MMStruct3.readFuel
    rw [bind_run (rb _ _), if_neg (by decide), if_pos rfl]
    refine bind_fails ?_
    unfold Span.read
    rw [bind_run (rb _ _), h]
    exact bind_fails rfl
  · unfold MMStruct3.read MMStruct3.readFuel
    rw [bind_run (rb _ _), if_pos rfl]
    refine bind_fails ?_
    unfold Chunk.read
    rw [bind_run (rb _ _), h]
    exact bind_fails rfl

end

/-! ### Examples -/

/-- The assumptions of `C65_struct_partial`: a span that was written elsewhere. -/
example : Item.read (fun _ => true) (.v0 []) (header 2 ++ [3, 8, 0, 0, 0, 7, 0, 0, 0, 4, 0, 0, 0, 4, 0, 0, 0, 9, 0, 0, 0, 0])
    = .ok (.struct (.span ⟨7, 4, 4, 9, [], .i64⟩), []) := by rfl

/-- The assumptions of `C65_flag_wrong`. -/
example : Item.read (fun _ => true) (.v0 []) ((Item.dataset exampleDataset).bytes.dropLast ++ [2]) =
    .ok (.dataset { exampleDataset with cid := some (.v0 []) }, []) :=
  C65_flag_wrong exampleDataset exampleWF rfl 2 (by decide) _

example : (Item.dataset exampleDataset).bytes.dropLast ++ [2] ≠ (Item.dataset exampleDataset).bytes := by
  decide +kernel

end Verif
