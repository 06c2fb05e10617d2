import Verif.Lemmas.Pruned

/-! Which instants the chunk builder stores as snapshots and which as logs. -/
namespace Verif

/-- Every log is smaller than the snapshot of its instant would be, and a block ends only when it is
full or the snapshot of the next instant is not larger than the log would be. -/
structure Chosen (get : Nat → Nat → Nat → Int64) (rows cols k e : Nat) (bs : List Block) : Prop where
  small : ∀ (i : Nat) b, bs[i]? = some b → ∀ (j : Nat) l, b.logs[j]? = some l → ∀ s,
    Snapshot.build (get (blocksLen (bs.take i) + 1 + j)) rows cols k e = some s → l.size < s.size
  fresh : ∀ (i : Nat) b b', bs[i]? = some b → bs[i + 1]? = some b' → b.logs.length = 254 ∨
    ∀ l, Log.build (get (blocksLen (bs.take i))) (get (blocksLen (bs.take (i + 1)))) rows cols k e
      = some l → b'.snapshot.size ≤ l.size

theorem getElem?_snoc {α} {bs : List α} {x b : α} {i : Nat} (h : (bs ++ [x])[i]? = some b) :
    (i < bs.length ∧ bs[i]? = some b) ∨ (i = bs.length ∧ b = x) := by
  rw [List.getElem?_append] at h
  split at h
  · exact .inl ⟨by assumption, h⟩
  · rename_i hl
    have hi0 : i - bs.length = 0 := by
      by_contra hc
      rw [List.getElem?_eq_none (by simp; omega)] at h
      simp at h
    rw [hi0] at h
    simp at h
    exact .inr ⟨by omega, h.symm⟩

theorem take_snoc {α} (bs : List α) (x : α) {i : Nat} (h : i ≤ bs.length) :
    (bs ++ [x]).take i = bs.take i := List.take_append_of_le_length h

theorem Chosen.push {get rows cols k e bs cur s}
    (h : Chosen get rows cols k e (bs ++ [cur]))
    (hc : cur.logs.length = 254 ∨ ∀ l, Log.build (get (blocksLen bs)) (get (blocksLen (bs ++ [cur])))
      rows cols k e = some l → s.size ≤ l.size) :
    Chosen get rows cols k e ((bs ++ [cur]) ++ [⟨s, []⟩]) := by
  refine ⟨fun i b hb j l hl s' hs' => ?_, fun i b b' hb hb' => ?_⟩
  · rcases getElem?_snoc hb with ⟨h1, h2⟩ | ⟨_, rfl⟩
    · rw [take_snoc _ _ (by omega)] at hs'
      exact h.small i b h2 j l hl s' hs'
    · simp at hl
  · rcases getElem?_snoc hb with ⟨h1, h2⟩ | ⟨h1, rfl⟩
    · rcases getElem?_snoc hb' with ⟨h3, h4⟩ | ⟨h3, rfl⟩
      · rw [take_snoc (bs ++ [cur]) _ (i := i) (by omega), take_snoc (bs ++ [cur]) _ (by omega)]
        exact h.fresh i b b' h2 h4
      · have hi : i = bs.length := by simp at h3; omega
        rcases getElem?_snoc h2 with ⟨h5, _⟩ | ⟨_, rfl⟩
        · omega
        · rw [take_snoc (bs ++ [b]) _ (i := i) (by omega), take_snoc (bs ++ [b]) _ (by omega),
            List.take_of_length_le (i := i + 1) (by omega), hi, take_snoc bs _ (Nat.le_refl _),
            List.take_length]
          exact hc
    · rw [List.getElem?_eq_none (by simp at h1 ⊢; omega)] at hb'
      simp at hb'

theorem Chosen.extend {get rows cols k e bs s logs l}
    (h : Chosen get rows cols k e (bs ++ [⟨s, logs⟩]))
    (hc : ∀ s', Snapshot.build (get (blocksLen bs + 1 + logs.length)) rows cols k e = some s' →
      l.size < s'.size) :
    Chosen get rows cols k e (bs ++ [⟨s, logs ++ [l]⟩]) := by
  have hlast : (bs ++ [(⟨s, logs⟩ : Block)])[bs.length]? = some ⟨s, logs⟩ := by simp
  have hlen : ∀ i < bs.length, ∀ x : Block, (bs ++ [x])[i]? = bs[i]? := fun i hi x =>
    List.getElem?_append_left hi
  refine ⟨fun i b hb j l' hl s' hs' => ?_, fun i b b' hb hb' => ?_⟩
  · rcases getElem?_snoc hb with ⟨h1, h2⟩ | ⟨h1, rfl⟩
    · rw [take_snoc _ _ (by omega)] at hs'
      refine h.small i b (by rw [hlen i h1]; exact h2) j l' hl s' ?_
      rw [take_snoc _ _ (by omega)]; exact hs'
    · subst h1
      rw [take_snoc _ _ (Nat.le_refl _), List.take_length] at hs'
      rcases getElem?_snoc hl with ⟨h3, h4⟩ | ⟨h3, rfl⟩
      · refine h.small _ _ hlast j l' h4 s' ?_
        rw [take_snoc _ _ (Nat.le_refl _), List.take_length]; exact hs'
      · rw [h3] at hs'; exact hc s' hs'
  · rcases getElem?_snoc hb with ⟨h1, h2⟩ | ⟨h1, rfl⟩
    · have hb2 : (bs ++ [(⟨s, logs⟩ : Block)])[i]? = some b := by rw [hlen i h1]; exact h2
      rw [take_snoc _ _ (by omega), take_snoc _ _ (by omega)]
      rcases getElem?_snoc hb' with ⟨h3, h4⟩ | ⟨h3, rfl⟩
      · have := h.fresh i b b' hb2 (by rw [hlen _ h3]; exact h4)
        rwa [take_snoc _ _ (by omega), take_snoc _ _ (by omega)] at this
      · have := h.fresh i b ⟨s, logs⟩ hb2 (by rw [h3]; exact hlast)
        rwa [take_snoc _ _ (by omega), take_snoc _ _ (by omega)] at this
    · rw [List.getElem?_eq_none (by simp at h1 ⊢; omega)] at hb'
      simp at hb'

theorem buildStep_chosen {get rows cols k e st st' i} (hk : 0 < k)
    (h : BuildInv get rows cols k e st i)
    (hc : Chosen get rows cols k e (st.blocks ++ [⟨st.snapshot, st.logs⟩]))
    (hs : Chunk.buildStep get rows cols k e st i = some st') :
    Chosen get rows cols k e (st'.blocks ++ [⟨st'.snapshot, st'.logs⟩]) := by
  obtain ⟨s, N, h1, -⟩ := snapshot_build_layout (get i) rows cols k hk e
  obtain ⟨l, NL, h2, -⟩ := log_build_layout (get st.snapshotIndex) (get i) rows cols k hk e
  unfold Chunk.buildStep at hs
  rw [h1, h2] at hs
  simp only at hs
  have hcount := h.count
  have hlim := h.current.limit
  simp only at hlim
  split at hs
  · rename_i hcond
    unfold Block.new at hs
    rw [if_neg (by omega)] at hs
    obtain rfl := Option.some.inj hs
    refine hc.push ?_
    rcases hcond with hcond | hcond
    · exact .inl hcond
    · refine .inr fun l' hl' => ?_
      have hlen : blocksLen (st.blocks ++ [⟨st.snapshot, st.logs⟩]) = i := by
        simp [Block.len]; omega
      rw [hlen, ← h.index, h2] at hl'
      obtain rfl := Option.some.inj hl'
      exact hcond
  · rename_i hcond
    obtain rfl := Option.some.inj hs
    refine hc.extend fun s' hs' => ?_
    rw [show blocksLen st.blocks + 1 + st.logs.length = i by omega, h1] at hs'
    obtain rfl := Option.some.inj hs'
    omega

theorem buildFold_chosen {get rows cols k e} (hk : 0 < k) : ∀ n st i st',
    BuildInv get rows cols k e st i →
    Chosen get rows cols k e (st.blocks ++ [⟨st.snapshot, st.logs⟩]) →
    (List.range' i n).foldlM (Chunk.buildStep get rows cols k e) st = some st' →
    Chosen get rows cols k e (st'.blocks ++ [⟨st'.snapshot, st'.logs⟩]) := by
  intro n
  induction n with
  | zero => intro st i st' _ hc h; obtain rfl := Option.some.inj h; exact hc
  | succ n ih =>
    intro st i st' hi hc h
    obtain ⟨st1, h1, h2⟩ := buildStep_inv hk hi
    rw [List.range'_succ, List.foldlM_cons, h1] at h
    exact ih st1 (i + 1) st' h2 (buildStep_chosen hk hi hc h1) h

theorem chunk_chosen (get : Nat → Nat → Nat → Int64) (instants rows cols k e : Nat) (hk : 0 < k)
    (enc : MMEncoding) (fb : Nat) (r : Chunk.Build)
    (h : Chunk.build get instants rows cols k e enc fb = some r) :
    Chosen get rows cols k e r.data.blocks := by
  obtain ⟨s, N, h1, -⟩ := snapshot_build_layout (get 0) rows cols k hk e
  unfold Chunk.build at h
  rw [h1] at h
  simp only [rangeExcl] at h
  split at h
  · simp at h
  · rename_i st hst
    split at h
    · simp at h
    · rename_i block hb
      obtain rfl := Option.some.inj h
      unfold Block.new at hb
      split at hb
      · simp at hb
      obtain rfl := Option.some.inj hb
      refine buildFold_chosen hk _ ⟨0, 0, [], s, 0, []⟩ 1 st
        ⟨fun i b h => by simp at h, rfl, ⟨h1, fun j l hl => by simp at hl, by simp⟩, rfl, rfl, rfl⟩
        ⟨fun i b hb j l hl => ?_, fun i b b' hb hb' => ?_⟩ hst
      · rcases getElem?_snoc hb with ⟨h1, _⟩ | ⟨_, rfl⟩
        · simp at h1
        · simp at hl
      · rcases getElem?_snoc hb' with ⟨h1, _⟩ | ⟨h1, _⟩
        · simp at h1
        · simp at h1

end Verif
