import Verif.Lemmas.SuperBuild

/-! The encoding of what is built. -/
namespace Verif

theorem MMBuffer3.slice_encoding (b : MMBuffer3) (t r c : Nat) : (b.slice t r c).encoding = b.encoding := by
  cases b with
  | flt p a bits round => cases p <;> rfl
  | _ => rfl

theorem MMBuffer3.computeBits_encoding {lg : Rat → Int} {b b' : MMBuffer3} {n rows cols : Nat}
    (h : b.computeBits lg n rows cols = some b') : b'.encoding = b.encoding := by
  unfold MMBuffer3.computeBits at h
  cases b with
  | flt p a bits round =>
    simp only [Option.map_eq_some_iff] at h
    obtain ⟨bits', -, rfl⟩ := h
    cases p <;> rfl
  | _ => cases h; rfl

theorem Chunk.build_encoding {get : Nat → Nat → Nat → Int64} {n rows cols k e : Nat} {enc : MMEncoding}
    {bits : Nat} {r : Chunk.Build} (h : Chunk.build get n rows cols k e enc bits = some r) :
    r.data.encoding = enc := by
  unfold Chunk.build at h
  split at h
  · cases h
  split at h
  · cases h
  split at h
  · cases h
  · cases h
    rfl

theorem Chunk.buildBuffer_encoding {clog : Nat → Nat} {b : MMBuffer3} {n rows cols k : Nat}
    {r : MMStruct3Build} (h : Chunk.buildBuffer clog b n rows cols k = some r) :
    r.data.encoding = b.encoding := by
  unfold Chunk.buildBuffer at h
  split at h
  · rw [Option.map_eq_some_iff] at h
    obtain ⟨x, h1, rfl⟩ := h
    exact Chunk.build_encoding h1
  · cases h

namespace Superchunk
variable {H : Hash} {clog : Nat → Nat} {lg : Rat → Int} {k : Nat}

/-- Something the builder may have saved: a structure with that encoding, or links. -/
def BuiltItem (enc : MMEncoding) (x : List Byte) : Prop :=
  (∃ m, x = (Item.struct m).bytes ∧ m.encoding = enc) ∨ ∃ l, x = (Item.links l).bytes

theorem plan_encoding {sub : List Nat} {b : MMBuffer3} {n rows cols cs : Nat} {pos : Nat × Nat}
    {part : Part} (h : plan clog sub b n rows cols cs pos = some part) {job : Job} (hj : part.job = some job) :
    job.buffer.encoding = b.encoding := by
  unfold plan at h
  simp only at h
  split at h
  · cases h; cases hj
  split at h
  · cases h
  split at h
  · cases h; cases hj
  generalize (if sub.length = 1 then some true else _) = bs at h
  cases bs with
  | none => cases h
  | some chunk =>
    cases h
    cases hj
    exact MMBuffer3.slice_encoding _ _ _ _

theorem runJobs_encoding
    {rec : Saved → MMBuffer3 → (instants rows cols : Nat) → Option (MMStruct3Build × Saved)} {n : Nat}
    (hrec : ∀ la b n r c x lb, rec la b n r c = some (x, lb) → x.data.encoding = b.encoding ∧
      ∀ y ∈ lb, y ∈ la ∨ BuiltItem b.encoding y) {enc : MMEncoding} :
    ∀ {parts : List Part} {log log' : Saved} {ps : List (Part × Option MMStruct3Build)},
    (∀ part ∈ parts, ∀ job, part.job = some job → job.buffer.encoding = enc) →
    runJobs clog lg k rec n log parts = some (ps, log') →
    (∀ q ∈ ps, ∀ x, q.2 = some x → x.data.encoding = enc) ∧ ∀ y ∈ log', y ∈ log ∨ BuiltItem enc y := by
  intro parts
  induction parts with
  | nil =>
    intro log log' ps _ h
    cases h
    exact ⟨fun q hq => (nomatch hq), fun y hy => .inl hy⟩
  | cons part parts ih =>
    intro log log' ps hp h
    unfold runJobs at h
    cases hj : part.job with
    | none =>
      rw [hj] at h
      simp only at h
      rw [Option.map_eq_some_iff] at h
      obtain ⟨⟨qs, l⟩, h1, h2⟩ := h
      cases h2
      obtain ⟨i1, i2⟩ := ih (fun part h => hp part (List.mem_cons_of_mem _ h)) h1
      refine ⟨fun q hq x hx => ?_, i2⟩
      rcases List.mem_cons.1 hq with rfl | hq
      · cases hx
      · exact i1 q hq x hx
    | some job =>
      rw [hj] at h
      simp only at h
      cases hr : runJob clog lg k rec n log job with
      | none => rw [hr] at h; cases h
      | some x =>
        obtain ⟨build, l1⟩ := x
        rw [hr] at h
        simp only at h
        rw [Option.map_eq_some_iff] at h
        obtain ⟨⟨qs, l⟩, h1, h2⟩ := h
        cases h2
        obtain ⟨i1, i2⟩ := ih (fun part h => hp part (List.mem_cons_of_mem _ h)) h1
        have he := hp part (List.mem_cons_self ..) job hj
        have hb : build.data.encoding = enc ∧ ∀ y ∈ l1, y ∈ log ∨ BuiltItem enc y := by
          unfold runJob at hr
          cases hc : job.buffer.computeBits lg n job.rows job.cols with
          | none => rw [hc] at hr; cases hr
          | some b' =>
            rw [hc] at hr
            simp only at hr
            have he' := (MMBuffer3.computeBits_encoding hc).trans he
            split at hr
            · rw [Option.map_eq_some_iff] at hr
              obtain ⟨r, h3, h4⟩ := hr
              cases h4
              exact ⟨(Chunk.buildBuffer_encoding h3).trans he', fun y hy => .inl hy⟩
            · have := hrec _ _ _ _ _ _ _ hr
              rw [he'] at this
              exact this
        refine ⟨fun q hq x hx => ?_, fun y hy => ?_⟩
        · rcases List.mem_cons.1 hq with rfl | hq
          · cases hx
            exact hb.1
          · exact i1 q hq x hx
        · rcases i2 y hy with hy | hy
          · exact hb.2 y hy
          · exact .inr hy

theorem saveAll_encoding (H : Hash) {enc : MMEncoding} : ∀ (ps : List (Part × Option MMStruct3Build))
    (s : SaveState), (∀ q ∈ ps, ∀ x, q.2 = some x → x.data.encoding = enc) →
    ∀ y ∈ (ps.foldl (saveStep H) s).log, y ∈ s.log ∨ BuiltItem enc y := by
  intro ps
  induction ps with
  | nil => intro s _ y hy; exact .inl hy
  | cons q ps ih =>
    intro s hq y hy
    rw [List.foldl_cons] at hy
    rcases ih _ (fun q h => hq q (List.mem_cons_of_mem _ h)) y hy with h | h
    · have h1 := hq q (List.mem_cons_self ..)
      unfold saveStep at h
      cases h2 : q.2 with
      | none => rw [h2] at h; exact .inl h
      | some build =>
        rw [h2] at h
        simp only at h
        split at h
        · exact .inl h
        · have h : y ∈ (save H s.log (.struct build.data)).1 := by
            revert h
            cases s.external.idxOf? (save H s.log (.struct build.data)).2 <;> exact id
          rcases List.mem_cons.1 h with h | h
          · exact .inr (.inl ⟨_, h, h1 _ h2⟩)
          · exact .inl h
    · exact .inr h

theorem build_encoding : ∀ (levels : List Nat) (log : Saved) (b : MMBuffer3) (n rows cols : Nat)
    (r : MMStruct3Build) (log' : Saved),
    build H clog lg k levels log b n rows cols = some (r, log') → r.data.encoding = b.encoding ∧
      ∀ y ∈ log', y ∈ log ∨ BuiltItem b.encoding y := by
  intro levels
  induction levels with
  | nil => intro log b n rows cols r log' h; cases h
  | cons level sub ih =>
    intro log b n rows cols r log' h
    unfold build buildLevel at h
    simp only at h
    split at h
    · cases h
    split at h
    · cases h
    rename_i parts hparts
    split at h
    · cases h
    rename_i ps log1 hps
    split at h
    · split at h
      · cases h
        refine ⟨rfl, fun y hy => ?_⟩
        obtain ⟨h1, h2⟩ := runJobs_encoding (enc := b.encoding)
          (fun la b n r c x lb h => ih la b n r c x lb h) (fun part hp job hj => by
            obtain ⟨pos, -, l, hl, hm⟩ := collect_mem hparts hp
            rw [Option.map_eq_some_iff] at hl
            obtain ⟨part', h3, rfl⟩ := hl
            cases List.mem_singleton.1 hm
            exact plan_encoding h3 hj) hps
        rcases List.mem_cons.1 hy with hy | hy
        · exact .inr (.inr ⟨_, hy⟩)
        · rcases saveAll_encoding H ps _ h1 y hy with hy | hy
          · exact h2 y hy
          · exact .inr hy
      · cases h
    · cases h

end Superchunk

end Verif
