import Verif.Lemmas.Chunk
import Verif.Lemmas.LogFinds

/-! What the chunk builder produces. -/
namespace Verif

/-- `b` encodes the instants from `t0` on. -/
structure BlockOf (get : Nat → Nat → Nat → Int64) (rows cols k e t0 : Nat) (b : Block) : Prop where
  snapshot : Snapshot.build (get t0) rows cols k e = some b.snapshot
  logs : ∀ (j : Nat) l, b.logs[j]? = some l →
    Log.build (get t0) (get (t0 + 1 + j)) rows cols k e = some l
  limit : b.logs.length ≤ 254

/-- `bs` encodes the instants from 0 on. -/
def BlocksOf (get : Nat → Nat → Nat → Int64) (rows cols k e : Nat) (bs : List Block) : Prop :=
  ∀ (i : Nat) b, bs[i]? = some b → BlockOf get rows cols k e (blocksLen (bs.take i)) b

theorem BlocksOf.push {get rows cols k e bs b} (h : BlocksOf get rows cols k e bs)
    (hb : BlockOf get rows cols k e (blocksLen bs) b) : BlocksOf get rows cols k e (bs ++ [b]) := by
  intro i b' hi
  rw [List.getElem?_append] at hi
  split at hi
  · rename_i hl
    rw [List.take_append_of_le_length (by omega)]
    exact h i b' hi
  · rename_i hl
    have hi0 : i - bs.length = 0 := by
      by_contra hc
      rw [List.getElem?_eq_none (by simp; omega)] at hi
      simp at hi
    rw [hi0] at hi
    have e1 : i = bs.length := by omega
    subst e1
    simp at hi
    subst hi
    rw [List.take_left]
    exact hb

/-- Invariant of the loop of `Chunk::build` before the iteration for instant `i`. -/
structure BuildInv (get : Nat → Nat → Nat → Int64) (rows cols k e : Nat) (st : Chunk.BuildState)
    (i : Nat) : Prop where
  blocks : BlocksOf get rows cols k e st.blocks
  index : st.snapshotIndex = blocksLen st.blocks
  current : BlockOf get rows cols k e st.snapshotIndex ⟨st.snapshot, st.logs⟩
  count : blocksLen st.blocks + st.logs.length + 1 = i
  snapshots : st.countSnapshots = st.blocks.length
  logs : st.countLogs + st.blocks.length = blocksLen st.blocks

theorem buildStep_inv {get rows cols k e st i} (hk : 0 < k)
    (h : BuildInv get rows cols k e st i) :
    ∃ st', Chunk.buildStep get rows cols k e st i = some st' ∧
      BuildInv get rows cols k e st' (i + 1) := by
  obtain ⟨s, N, h1, -⟩ := snapshot_build_layout (get i) rows cols k hk e
  obtain ⟨l, NL, h2, -⟩ := log_build_layout (get st.snapshotIndex) (get i) rows cols k hk e
  unfold Chunk.buildStep
  rw [h1, h2]
  simp only
  have hlim := h.current.limit
  simp only at hlim
  split
  · unfold Block.new
    rw [if_neg (by omega)]
    refine ⟨_, rfl, ?_⟩
    have hc := h.current
    rw [h.index] at hc
    have hlen : blocksLen (st.blocks ++ [⟨st.snapshot, st.logs⟩]) = i := by
      simp [Block.len]; have := h.count; omega
    refine ⟨h.blocks.push hc, hlen.symm, ?_, ?_, ?_, ?_⟩
    · exact ⟨h1, fun j l hl => by simp at hl, by simp⟩
    · simp only [hlen, List.length_nil]
    · simp [h.snapshots]
    · simp [Block.len]; have := h.logs; omega
  · rename_i hne
    refine ⟨_, rfl, h.blocks, h.index, ⟨h.current.snapshot, ?_, ?_⟩, ?_, h.snapshots, h.logs⟩
    · intro j l' hl
      simp only at hl
      rw [List.getElem?_append] at hl
      split at hl
      · exact h.current.logs j l' hl
      · rename_i hj
        have hj0 : j - st.logs.length = 0 := by
          by_contra hc
          rw [List.getElem?_eq_none (by simp; omega)] at hl
          simp at hl
        rw [hj0] at hl
        simp at hl
        subst hl
        have : st.snapshotIndex + 1 + j = i := by have := h.count; have := h.index; omega
        simp only [this]
        exact h2
    · simp; omega
    · simp; have := h.count; omega

theorem buildFold_inv {get rows cols k e} (hk : 0 < k) : ∀ n st i,
    BuildInv get rows cols k e st i →
    ∃ st', (List.range' i n).foldlM (Chunk.buildStep get rows cols k e) st = some st' ∧
      BuildInv get rows cols k e st' (i + n) := by
  intro n
  induction n with
  | zero => intro st i h; exact ⟨st, rfl, h⟩
  | succ n ih =>
    intro st i h
    obtain ⟨st1, h1, h2⟩ := buildStep_inv hk h
    obtain ⟨st2, h3, h4⟩ := ih st1 (i + 1) h2
    refine ⟨st2, ?_, by rw [show i + (n + 1) = i + 1 + n by omega]; exact h4⟩
    rw [List.range'_succ, List.foldlM_cons, h1]
    exact h3

theorem chunk_build (get : Nat → Nat → Nat → Int64) (instants rows cols k e : Nat) (hk : 0 < k)
    (hi : 1 ≤ instants) (enc : MMEncoding) (fb : Nat) :
    ∃ bs, BlocksOf get rows cols k e bs ∧ bs ≠ [] ∧ blocksLen bs = instants ∧
      Chunk.build get instants rows cols k e enc fb =
        some ⟨Chunk.new bs enc fb, (Chunk.new bs enc fb).size, instants - bs.length, bs.length⟩ ∧
      bs.length ≤ instants := by
  obtain ⟨s, N, h1, -⟩ := snapshot_build_layout (get 0) rows cols k hk e
  obtain ⟨st, h2, h3⟩ := buildFold_inv (get := get) (rows := rows) (cols := cols) (e := e) hk
    (instants - 1) ⟨0, 0, [], s, 0, []⟩ 1
    ⟨fun i b h => by simp at h, rfl, ⟨h1, fun j l hl => by simp at hl, by simp⟩, rfl, rfl, rfl⟩
  have hlim := h3.current.limit
  simp only at hlim
  have hc := h3.current
  rw [h3.index] at hc
  have hlen : blocksLen (st.blocks ++ [⟨st.snapshot, st.logs⟩]) = instants := by
    simp [Block.len]; have := h3.count; omega
  have hcount := h3.count
  have hlogs := h3.logs
  refine ⟨st.blocks ++ [⟨st.snapshot, st.logs⟩], h3.blocks.push hc, by simp, hlen, ?_, ?_⟩
  · unfold Chunk.build
    rw [h1]
    simp only [rangeExcl]
    rw [h2]
    simp only
    unfold Block.new
    rw [if_neg (by omega)]
    simp only [Option.some.injEq, Chunk.Build.mk.injEq, true_and]
    refine ⟨?_, ?_⟩
    · simp; omega
    · simp [h3.snapshots]
  · simp; omega

end Verif
