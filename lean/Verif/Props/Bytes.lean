import Verif.Lemmas.Bytes
import Verif.Props.Space

/-!
Exactly how many bytes a snapshot and a log take (C67), and a chunk (C68), as a function of the values alone.
-/
namespace Verif

namespace Spec

open Classical in
/-- The squares that are divided. -/
noncomputable def parted (split : Nat → Nat → Nat → Prop) (k e : Nat) : List (Nat × Nat × Nat) :=
  (squares split k e 0 0).filter fun x => decide (0 < x.1 ∧ split (k ^ x.1) x.2.1 x.2.2)

/-- Bytes of a raster on its own: the header, a bit for every square of more than one cell, the stored greatest values of
all squares and the stored least values of those that are divided. -/
noncomputable def snapshotBytes (get : Nat → Nat → Int64) (rows cols k e : Nat) : Nat :=
  let split := fun side R C => ¬ Uniform get rows cols side R C
  13 + bitmapBytes (branches split k e) +
    dacBytes ((squares split k e 0 0).map (maxStored get rows cols k e)) +
    dacBytes ((parted split k e).map (minStored get rows cols k e))

/-- Bytes of a raster as a log: the header, a bit for every square of more than one cell, another for those that are not
divided, by how much the greatest values of all squares differ from those of the snapshot, and by how much the least ones
do of the squares that are divided. -/
noncomputable def logBytes (getS getT : Nat → Nat → Int64) (rows cols k e : Nat) : Nat :=
  let split := fun side R C => ¬ Uniform getT rows cols side R C ∧ ¬ Shifted getS getT rows cols side R C
  13 + bitmapBytes (branches split k e) + bitmapBytes (branches split k e - divided split k e) +
    dacBytes ((squares split k e 0 0).map fun x =>
      greatest getT rows cols (k ^ x.1) x.2.1 x.2.2 - greatest getS rows cols (k ^ x.1) x.2.1 x.2.2) +
    dacBytes ((parted split k e).map fun x =>
      least getT rows cols (k ^ x.1) x.2.1 x.2.2 - least getS rows cols (k ^ x.1) x.2.1 x.2.2)

/-- Bytes of `n` instants from `t` on, if the last snapshot is that of instant `t0` and `logs` logs follow it: the
smaller of the two for each, a snapshot if they are equal or the block is full, and a byte more for every new block. -/
def seriesBytes (snapshot : Nat → Nat) (log : Nat → Nat → Nat) : (n t t0 logs : Nat) → Nat
  | 0, _, _, _ => 0
  | n + 1, t, t0, logs =>
    if logs < 254 ∧ log t0 t < snapshot t then log t0 t + seriesBytes snapshot log n (t + 1) t0 (logs + 1)
    else 1 + snapshot t + seriesBytes snapshot log n (t + 1) t 0

end Spec

/-- C67 for snapshots: exactly how many bytes are written. -/
theorem C67_snapshot_bytes (get : Nat → Nat → Int64) (rows cols k e : Nat) (hk : 0 < k) (s : Snapshot)
    (h : Snapshot.build get rows cols k e = some s) :
    s.write.length = Spec.snapshotBytes get rows cols k e := by
  obtain ⟨N, hN⟩ := snapLayout_of_build hk h
  obtain ⟨-, c2, -⟩ := SnapLayout.counts get rows cols k hk hN
  obtain ⟨p1, p2⟩ := SnapLayout.stored get rows cols k hk hN
  have hs := hN.nodes.repr.size
  rw [← hN.nodes.repr.len, c2] at hs
  rw [s.size_eq]
  unfold Snapshot.size
  rw [hs, hN.max.size, hN.min.size, dacBytes_perm p1, dacBytes_perm p2]
  show 13 + _ + _ + _ = 13 + Spec.bitmapBytes (Spec.branches (snapSplit get rows cols) k e) +
    Spec.dacBytes ((Spec.squares (snapSplit get rows cols) k e 0 0).map (Spec.maxStored get rows cols k e)) +
    Spec.dacBytes ((Spec.parted (snapSplit get rows cols) k e).map (Spec.minStored get rows cols k e))
  unfold Spec.parted
  omega

/-- C67 for logs: exactly how many bytes are written. -/
theorem C67_log_bytes (getS getT : Nat → Nat → Int64) (rows cols k e : Nat) (hk : 0 < k) (l : Log)
    (h : Log.build getS getT rows cols k e = some l) :
    l.write.length = Spec.logBytes getS getT rows cols k e := by
  obtain ⟨N, hN⟩ := logLayout_of_build hk h
  obtain ⟨-, c2, c3, -⟩ := LogLayout.counts getS getT rows cols k hk hN
  obtain ⟨p1, p2⟩ := LogLayout.stored getS getT rows cols k hk hN
  have hs := hN.nodes.repr.size
  rw [← hN.nodes.repr.len, c2] at hs
  have hq := hN.eq.size
  rw [← hN.eq.len, show l.equal.length = Spec.branches (logSplit getS getT rows cols) k e -
    Spec.divided (logSplit getS getT rows cols) k e by omega] at hq
  rw [l.size_eq]
  unfold Log.size
  rw [hs, hq, hN.max.size, hN.min.size, dacBytes_perm p1, dacBytes_perm p2]
  have : Spec.logBytes getS getT rows cols k e =
    13 + Spec.bitmapBytes (Spec.branches (logSplit getS getT rows cols) k e) + Spec.bitmapBytes
      (Spec.branches (logSplit getS getT rows cols) k e - Spec.divided (logSplit getS getT rows cols) k e) +
      Spec.dacBytes ((Spec.squares (logSplit getS getT rows cols) k e 0 0).map fun x => _) +
      Spec.dacBytes ((Spec.parted (logSplit getS getT rows cols) k e).map fun x => _) := rfl
  rw [this]
  unfold Spec.parted
  omega

/-- C67: exactly how many bytes a raster takes that holds a single value. The size of the raster does not matter. -/
theorem C67_uniform_bytes (get : Nat → Nat → Int64) (rows cols k e : Nat) (hk : 0 < k) (he : 0 < e) (hr : 0 < rows)
    (hc : 0 < cols) (v : Int64) (hv : ∀ r c, r < rows → c < cols → get r c = v) (s : Snapshot)
    (h : Snapshot.build get rows cols k e = some s) : s.write.length = 26 + Spec.dacBytes [v] := by
  rw [C67_snapshot_bytes get rows cols k e hk s h]
  unfold Spec.snapshotBytes Spec.branches
  have hu : ¬ ¬ Spec.Uniform get rows cols (k ^ e) 0 0 :=
    not_not.2 fun r c r' c' _ _ _ _ a b _ _ _ _ a' b' => by rw [hv r c a b, hv r' c' a' b']
  have hg : Spec.greatest get rows cols (k ^ e) 0 0 = v := by
    have hp : 0 < k ^ e := Nat.pow_pos hk
    refine i64_max?_getD (mem_within.2 ⟨0, 0, by omega, hv 0 0 hr hc⟩) fun x hx => ?_
    obtain ⟨r, c, h1, rfl⟩ := mem_within.1 hx
    rw [hv r c (by omega) (by omega)]
    exact Int64.le_refl _
  simp only [Spec.parted]
  rw [squares_single _ k e hu]
  simp only [List.map_cons, List.map_nil, Spec.maxStored, if_true, hg, List.filter_cons, List.filter_nil]
  rw [if_neg (by simpa using fun _ => not_not.1 hu)]
  have e1 : List.countP (fun x : Nat × Nat × Nat => decide (0 < x.1)) [(e, 0, 0)] = 1 := by simp [he]
  have e2 : Spec.dacBytes ([].map (Spec.minStored get rows cols k e)) = 1 := by
    rw [List.map_nil]; decide
  have e3 : Spec.bitmapBytes 1 = 12 := rfl
  rw [e1, e2, e3]
  omega

theorem seriesBytes_step {get : Nat → Nat → Nat → Int64} {rows cols k e : Nat} {st st' : Chunk.BuildState} {i n : Nat}
    (hk : 0 < k) (h : BuildInv get rows cols k e st i)
    (hs : Chunk.buildStep get rows cols k e st i = some st') :
    (st.blocks.map Block.size).sum + Block.size ⟨st.snapshot, st.logs⟩ +
      Spec.seriesBytes (fun t => Spec.snapshotBytes (get t) rows cols k e)
        (fun t0 t => Spec.logBytes (get t0) (get t) rows cols k e) (n + 1) i st.snapshotIndex st.logs.length =
    (st'.blocks.map Block.size).sum + Block.size ⟨st'.snapshot, st'.logs⟩ +
      Spec.seriesBytes (fun t => Spec.snapshotBytes (get t) rows cols k e)
        (fun t0 t => Spec.logBytes (get t0) (get t) rows cols k e) n (i + 1) st'.snapshotIndex st'.logs.length := by
  obtain ⟨s, N, h1, -⟩ := snapshot_build_layout (get i) rows cols k hk e
  obtain ⟨l, NL, h2, -⟩ := log_build_layout (get st.snapshotIndex) (get i) rows cols k hk e
  have b1 := C67_snapshot_bytes _ _ _ _ _ hk s h1
  have b2 := C67_log_bytes _ _ _ _ _ _ hk l h2
  rw [s.size_eq] at b1
  rw [l.size_eq] at b2
  unfold Chunk.buildStep at hs
  rw [h1, h2] at hs
  simp only at hs
  have hlim := h.current.limit
  simp only at hlim
  rw [Spec.seriesBytes]
  rw [← b1, ← b2]
  by_cases hcond : st.logs.length = 254 ∨ s.size ≤ l.size
  · rw [if_pos hcond] at hs
    unfold Block.new at hs
    rw [if_neg (by omega)] at hs
    obtain rfl := Option.some.inj hs
    rw [if_neg (by omega)]
    simp [Block.size]
    omega
  · rw [if_neg hcond] at hs
    obtain rfl := Option.some.inj hs
    rw [if_pos (by omega)]
    simp [Block.size]
    omega

theorem seriesBytes_fold {get : Nat → Nat → Nat → Int64} {rows cols k e : Nat} (hk : 0 < k) : ∀ n st i st',
    BuildInv get rows cols k e st i →
    (List.range' i n).foldlM (Chunk.buildStep get rows cols k e) st = some st' →
    (st.blocks.map Block.size).sum + Block.size ⟨st.snapshot, st.logs⟩ +
      Spec.seriesBytes (fun t => Spec.snapshotBytes (get t) rows cols k e)
        (fun t0 t => Spec.logBytes (get t0) (get t) rows cols k e) n i st.snapshotIndex st.logs.length =
    (st'.blocks.map Block.size).sum + Block.size ⟨st'.snapshot, st'.logs⟩ := by
  intro n
  induction n with
  | zero => intro st i st' _ h; obtain rfl := Option.some.inj h; rfl
  | succ n ih =>
    intro st i st' hi h
    obtain ⟨st1, h1, h2⟩ := buildStep_inv hk hi
    rw [List.range'_succ, List.foldlM_cons, h1] at h
    rw [seriesBytes_step hk hi h1]
    exact ih st1 (i + 1) st' h2 h

/-- C68: exactly how many bytes a chunk takes. -/
theorem C68_bytes (get : Nat → Nat → Nat → Int64) (instants rows cols k e : Nat) (hk : 0 < k)
    (enc : MMEncoding) (fb : Nat) (r : Chunk.Build)
    (h : Chunk.build get instants rows cols k e enc fb = some r) :
    r.data.write.length = 7 + Spec.snapshotBytes (get 0) rows cols k e +
      Spec.seriesBytes (fun t => Spec.snapshotBytes (get t) rows cols k e)
        (fun t0 t => Spec.logBytes (get t0) (get t) rows cols k e) (instants - 1) 1 0 0 := by
  obtain ⟨s, N, h1, -⟩ := snapshot_build_layout (get 0) rows cols k hk e
  have b1 := C67_snapshot_bytes _ _ _ _ _ hk s h1
  rw [s.size_eq] at b1
  rw [r.data.size_eq]
  unfold Chunk.build at h
  rw [h1] at h
  simp only [rangeExcl] at h
  cases hst : (List.range' 1 (instants - 1)).foldlM (Chunk.buildStep get rows cols k e) ⟨0, 0, [], s, 0, []⟩ with
  | none => rw [hst] at h; simp at h
  | some st =>
    rw [hst] at h
    simp only at h
    cases hb : Block.new st.snapshot st.logs with
    | none => rw [hb] at h; simp at h
    | some block =>
      rw [hb] at h
      obtain rfl := Option.some.inj h
      unfold Block.new at hb
      split at hb
      · simp at hb
      obtain rfl := Option.some.inj hb
      have := seriesBytes_fold hk _ ⟨0, 0, [], s, 0, []⟩ 1 st
        ⟨fun i b h => by simp at h, rfl, ⟨h1, fun j l hl => by simp at hl, by simp⟩, rfl, rfl, rfl⟩ hst
      simp only [List.map_nil, List.sum_nil, List.length_nil] at this
      simp only [Chunk.size, Chunk.new, List.map_append, List.sum_append, List.map_cons, List.map_nil, List.sum_cons,
        List.sum_nil]
      rw [← b1]
      have e1 : Block.size ⟨s, []⟩ = 1 + s.size := by simp [Block.size]
      omega

/-- A raster of 1024 by 1024 cells that all hold 5 takes 40 bytes, and so does one that holds -3; 300 takes 53. -/
example (s : Snapshot) (h : Snapshot.build (fun _ _ => 5) 1024 1024 2 10 = some s) : s.write.length = 40 :=
  C67_uniform_bytes _ _ _ _ _ (by decide) (by decide) (by decide) (by decide) 5 (fun _ _ _ _ => rfl) s h

example (s : Snapshot) (h : Snapshot.build (fun _ _ => 300) 1024 1024 2 10 = some s) : s.write.length = 53 :=
  C67_uniform_bytes _ _ _ _ _ (by decide) (by decide) (by decide) (by decide) 300 (fun _ _ _ _ => rfl) s h

/-- Logs are taken while they are smaller, and a block begins where they are not. -/
example : Spec.seriesBytes (fun _ => 40) (fun t0 t => 30 + 4 * (t - t0)) 5 1 0 0 = 34 + 38 + 41 + 34 + 38 := by
  decide

end Verif
