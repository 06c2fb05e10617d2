import Verif.Props.Cached

/-!
The sizes that objects report and the bytes that are stored for them (C52).

The sizes are what the cache counts against its limit. The bytes are those written by `Resolver::save`,
the header included.
-/
namespace Verif

/-! ### C52 -/

theorem cids_length (cs : List Cid) : (cs.flatMap writeCid).length = (cs.map Cid.encodedLen).sum :=
  flatMap_length_eq _ _ _ fun _ _ => rfl

theorem header_length (b : Byte) : (header b).length = headerSize := by
  unfold header
  simp only [List.length_append, writeU32_length, writeByte_length]
  exact congrArg (· + 4 + 1) (toBE_length 2 _)

/-- C52, partial: links and spans report the number of bytes stored for them.

The full statement would have this for every object. It is false of the others, see `C52_struct`,
`C52_dataset` and `C52_wrong`. -/
theorem C52_partial (x : Item) (h : (∃ l, x = .links l) ∨ ∃ s, x = .struct (.span s)) :
    x.size = x.bytes.length := by
  rcases h with ⟨l, rfl⟩ | ⟨s, rfl⟩
  · simp only [Item.size, Item.bytes, Links.size, Links.write, List.length_append, header_length,
      writeU32_length, cids_length]
    omega
  · simp only [Item.size, Item.bytes, MMStruct3.size, MMStruct3.write, Span.size, Span.write,
      List.length_append, header_length, writeU32_length, writeByte_length, cids_length]
    omega

namespace Spec

mutual

/-- How much the reported size of a structure is above the number of bytes written for the structure
itself, without header: a span counts the header, a chunk does not, a superchunk counts it but not the
byte of the encoding; and those kept inside add up. -/
def above : MMStruct3 → Nat
  | .span _ => 7
  | .subchunk _ => 0
  | .superchunk _ loc => 6 + aboves loc

def aboves : List MMStruct3 → Nat
  | [] => 0
  | x :: xs => above x + aboves xs

end

end Spec

theorem Reference.size_eq (r : Reference) : r.write.length = r.size := by
  cases r with
  | elided => rfl
  | loc i => simp [Reference.write, Reference.size, writeU32_length, writeByte_length]
  | external i => simp [Reference.write, Reference.size, writeU32_length, writeByte_length]

mutual

theorem MMStruct3.size_above : ∀ m : MMStruct3, m.size = m.write.length + Spec.above m
  | .span s => by
    simp only [MMStruct3.size, MMStruct3.write, Span.size, Span.write, headerSize, Spec.above,
      List.length_append, writeU32_length, writeByte_length, cids_length]
    omega
  | .subchunk c => by
    simp only [MMStruct3.size, MMStruct3.write, Spec.above, List.length_append, writeByte_length, c.size_eq]
    omega
  | .superchunk h loc => by
    have ih := MMStruct3.sizes_above loc
    have hr := flatMap_length_eq Reference.write Reference.size h.references fun r _ => r.size_eq
    simp only [MMStruct3.size, MMStruct3.write, SuperHead.size, SuperHead.writeFixed, headerSize, Spec.above,
      List.length_append, writeU32_length, writeByte_length, h.max.size_eq, h.min.size_eq, ih, hr, writeCid,
      Cid.encodedLen]
    omega

theorem MMStruct3.sizes_above : ∀ l : List MMStruct3,
    MMStruct3.sizes l = (MMStruct3.writes l).length + Spec.aboves l
  | [] => rfl
  | x :: xs => by
    simp only [MMStruct3.sizes, MMStruct3.writes, Spec.aboves, List.length_append, x.size_above,
      MMStruct3.sizes_above xs]
    omega

end

/-- C52 for structures, what holds instead: the exact difference. A chunk reports 7 bytes less than are
stored, and a superchunk 1 less, unless it keeps other superchunks inside: each of these adds 6. -/
theorem C52_struct (m : MMStruct3) :
    (Item.struct m).size + 7 = (Item.struct m).bytes.length + Spec.above m := by
  have := m.size_above
  simp only [Item.size, Item.bytes, List.length_append, header_length, headerSize]
  omega

theorem Coordinate.size_succ (c : Coordinate) : c.write.length = c.size + 1 := by
  obtain ⟨name, kind⟩ := c
  cases kind <;>
    simp only [Coordinate.write, Coordinate.size, CoordinateKind.write, CoordinateKind.size, writeStr,
      List.length_append, writeByte_length, writeI64, writeI32, writeF32, writeF64, toBE_length,
      writeU32_length] <;> omega

theorem Variable.size_succ (v : Variable) : v.write.length = v.size + 1 := by
  have hl : (v.k2Levels.flatMap fun l => writeU32 (asU32 l)).length = 4 * v.k2Levels.length := by
    rw [flatMap_length_eq _ (fun _ => 4) _ fun _ _ => writeU32_length _]
    simp [Nat.mul_comm]
  cases hr : v.round <;>
    simp [Variable.write, Variable.size, writeStr, writeByte_length, writeU32_length, hl, hr, writeCid,
      Cid.encodedLen] <;> omega

/-- C52 for data sets, what holds instead: one byte is missing for each coordinate and each variable, and
the one with the number of variables. -/
theorem C52_dataset (d : Dataset) :
    (Item.dataset d).bytes.length = (Item.dataset d).size + 4 + d.variables.length := by
  have hv := flatMap_length_eq Variable.write (fun v => v.size + 1) d.variables fun v _ => v.size_succ
  have hs : (d.variables.map fun v => v.size + 1).sum
      = (d.variables.map Variable.size).sum + d.variables.length := by
    rw [List.sum_map_add, List.map_const', List.sum_replicate_nat, Nat.mul_one]
  rw [hs] at hv
  cases hp : d.prev <;>
    simp [Item.bytes, Item.size, Dataset.write, Dataset.size, header_length, headerSize,
      Coordinate.size_succ, hv, hp, writeByte_length, writeU32_length, writeCid, Cid.encodedLen] <;> omega

/-- C52, for what the cache counts: no object takes more than 7 bytes more than it reports, data sets
excepted. -/
theorem C52_most (x : Item) : x.bytes.length ≤ x.size + match x with
    | .dataset d => 4 + d.variables.length
    | .links _ => 0
    | .struct _ => 7 := by
  cases x with
  | dataset d => have := C52_dataset d; simp only; omega
  | links l => exact Nat.le_of_eq (C52_partial _ (.inl ⟨l, rfl⟩)).symm
  | struct m => have := C52_struct m; simp only; omega

/-- C52: the cache of a resolver that reads no data sets keeps objects of no more stored bytes than its
limit and 7 for each object. -/
theorem C52_cache (utf8 : List Byte → Bool) (cacheBytes : Nat) (gets : List (Cid × Store))
    (hnd : ∀ g ∈ gets, ∀ d, g.2.retrieve utf8 g.1 ≠ .ok (.dataset d)) :
    ∃ s as, (Cache.Entries.new cacheBytes).gets Item.size (gets.map fun g => (g.1, g.2.loaded utf8))
        = some (s, as) ∧
      ∃ held : List (Cid × Item), (held.map Prod.fst).Nodup ∧
        (∀ c x, (c, x) ∈ held ↔ ∃ e, Cache.Map.find s.map c = some e ∧ e.object = x) ∧
        (held.map fun p => p.2.bytes.length).sum ≤ cacheBytes + 7 * held.length := by
  obtain ⟨s, l, as, hg, hh, hlim⟩ := (Cache.Holds.new (K := Cid) Item.size cacheBytes).gets
    (gets.map fun g => (g.1, g.2.loaded utf8))
  refine ⟨s, as, hg, l, hh.linked.nodup, hh.mem_iff, ?_⟩
  have hor : ∀ c x, (c, x) ∈ l → ∀ d, x ≠ .dataset d := by
    have key : ∀ (calls : List (Cid × (Cid → Cache.Loaded Item))),
        (∀ c ∈ calls, ∀ d, c.2 c.1 ≠ .object (.dataset d)) →
        ∀ (s0 : Cache.Entries Cid Item) l0 left as, Cache.Holds Item.size s0 l0 →
        (∀ c x, (c, x) ∈ l0 → ∀ d, x ≠ .dataset d) →
        s0.getsWith Item.size left calls = some (s, as) → ∀ c x, (c, x) ∈ l → ∀ d, x ≠ .dataset d := by
      intro calls
      induction calls with
      | nil =>
        intro _ s0 l0 left as h0 hl0 hg c x hm
        simp only [Cache.Entries.getsWith, Option.some.injEq, Prod.mk.injEq] at hg
        obtain ⟨rfl, -⟩ := hg
        obtain ⟨e, he, rfl⟩ := (hh.mem_iff c x).1 hm
        exact hl0 c _ ((h0.mem_iff c _).2 ⟨e, he, rfl⟩)
      | cons cl calls ih =>
        intro hcalls s0 l0 left as h0 hl0 hg c x hm
        obtain ⟨k, load⟩ := cl
        by_cases hw : k ∈ left ∧ (Cache.Map.find s0.map k).isNone
        · simp only [Cache.Entries.getsWith, if_pos hw, Option.some.injEq, Prod.mk.injEq] at hg
          obtain ⟨rfl, -⟩ := hg
          obtain ⟨e, he, rfl⟩ := (hh.mem_iff c x).1 hm
          exact hl0 c _ ((h0.mem_iff c _).2 ⟨e, he, rfl⟩)
        obtain ⟨s1, l1, a, called, hget, hh1, -, -, hcase⟩ := h0.get k load
        simp only [Cache.Entries.getsWith, if_neg hw, hget] at hg
        cases hrest : s1.getsWith Item.size (if called && (load k).panics then k :: left else left) calls with
        | none => simp only [hrest, reduceCtorEq] at hg
        | some p =>
          obtain ⟨s2, as'⟩ := p
          simp only [hrest, Option.some.injEq, Prod.mk.injEq] at hg
          obtain ⟨rfl, -⟩ := hg
          refine ih (fun c hc => hcalls c (List.mem_cons_of_mem _ hc)) s1 l1 _ as' hh1 ?_ hrest c x hm
          intro c' x' hm'
          rcases hcase with ⟨x, v, y, rfl, rfl, -⟩ | ⟨-, v, gone, hv, -, hlg, -⟩ | ⟨-, rfl, -, -⟩
          · apply hl0 c'
            simp only [List.mem_cons, List.mem_append] at hm' ⊢
            tauto
          · have : (c', x') ∈ (k, v) :: l0 := by rw [hlg]; exact List.mem_append_left _ hm'
            rcases List.mem_cons.1 this with h | h
            · cases h
              rintro d rfl
              exact hcalls (k, load) (List.mem_cons_self ..) d hv
            · exact hl0 _ _ h
          · exact hl0 _ _ hm'
    refine key _ ?_ _ [] [] as (Cache.Holds.new Item.size cacheBytes) (by simp) hg
    intro c hc d hd
    obtain ⟨g, hgm, rfl⟩ := List.mem_map.1 hc
    exact hnd g hgm d (Store.loaded_object.1 hd)
  have hsum : (l.map fun p => p.2.bytes.length).sum ≤ Cache.total Item.size l + 7 * l.length := by
    clear hh hg hlim
    induction l with
    | nil => simp [Cache.total]
    | cons p l ih =>
      have h1 := ih fun c x hm => hor c x (List.mem_cons_of_mem _ hm)
      have h2 : p.2.bytes.length ≤ p.2.size + 7 := by
        have := C52_most p.2
        cases hx : p.2 with
        | dataset d => exact absurd hx (hor p.1 p.2 (List.mem_cons_self ..) d)
        | links l => rw [hx] at this; simp only at this; omega
        | struct m => rw [hx] at this; simp only at this; omega
      simp only [List.map_cons, List.sum_cons, List.length_cons, Cache.total] at h1 ⊢
      omega
  have h1 := hh.size_eq
  have h2 := hh.le_limit
  rw [hlim] at h2
  simp only [Cache.Entries.new] at h2
  omega

theorem Spec.aboves_ne_one : ∀ l, Spec.aboves l ≠ 1
  | [] => by simp [Spec.aboves]
  | x :: xs => by
    have ih := Spec.aboves_ne_one xs
    cases x with
    | span s => simp only [Spec.aboves, Spec.above]; omega
    | subchunk c => simp only [Spec.aboves, Spec.above]; omega
    | superchunk h loc => simp only [Spec.aboves, Spec.above]; omega

/-- C52 is false of every chunk, every superchunk and every data set. -/
theorem C52_wrong :
    (∀ c, (Item.struct (.subchunk c)).size ≠ (Item.struct (.subchunk c)).bytes.length) ∧
    (∀ h loc, (Item.struct (.superchunk h loc)).size ≠ (Item.struct (.superchunk h loc)).bytes.length) ∧
    (∀ d, (Item.dataset d).size ≠ (Item.dataset d).bytes.length) := by
  refine ⟨fun c h => ?_, fun hd loc h => ?_, fun d h => ?_⟩
  · have := C52_struct (.subchunk c)
    simp only [Spec.above] at this
    omega
  · have := C52_struct (.superchunk hd loc)
    have := Spec.aboves_ne_one loc
    simp only [Spec.above] at *
    omega
  · have := C52_dataset d
    omega

/-! ### Examples -/

/-- Reported and stored sizes: links, a span, a superchunk, one that keeps a span, one that keeps two
superchunks, and a data set with one variable. -/
example : [cachedLinks, .struct (.span Local.span), .struct Local.inner, .struct Local.outer,
      .struct (.superchunk ⟨1, 1, 1, 2, 1, 2, 1, 0, .i64, [.loc 0, .loc 1], exampleHash.cidOf [],
        Local.dac, Local.dac⟩ [Local.inner, Local.inner]),
      .dataset { exampleDataset with «variables» := [⟨[97], some 3, 2, 2, [1, 1], .f32, exampleHash.cidOf []⟩] }].map
      (fun x => (x.size, x.bytes.length)) =
    [(20, 20), (35, 35), (77, 78), (116, 110), (238, 227), (107, 112)] := by
  decide +kernel

/-- The hypothesis of `C52_cache`: links are read twice. -/
example : ∀ g ∈ [(exampleHash.cidOf cachedLinks.bytes, cachedStore), (exampleHash.cidOf [], cachedStore)],
    ∀ d, g.2.retrieve (fun _ => true) g.1 ≠ .ok (.dataset d) := by
  intro g hg d
  simp only [List.mem_cons, List.not_mem_nil, or_false] at hg
  rcases hg with rfl | rfl
  · rw [show cachedStore.retrieve (fun _ => true) (exampleHash.cidOf cachedLinks.bytes) = .ok cachedLinks from
      Store.retrieve_of (x := cachedLinks) (by decide +kernel) ⟨by decide, fun c hc => by
        simp only [List.mem_cons, List.not_mem_nil, or_false] at hc
        rcases hc with rfl | rfl <;> exact exampleHash.valid _⟩]
    exact fun h => nomatch h
  · rw [show cachedStore.retrieve (fun _ => true) (exampleHash.cidOf []) = .error (.err (.notFound (exampleHash.cidOf []))) by
      unfold Store.retrieve
      rw [show cachedStore (exampleHash.cidOf []) = none by decide +kernel]]
    exact fun h => nomatch h

end Verif
