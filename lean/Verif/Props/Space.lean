import Verif.Lemmas.Choice
import Verif.Props.Serial
import Verif.Props.SuperFloat

/-!
How much space rasters (C67), series of rasters (C68) and superchunks (C69) take. Squares that hold one value, and in logs also squares that differ by
one amount from the snapshot, are not divided, so that only their extremes are stored.
-/
namespace Verif

namespace Spec

/-- Number of integers kept in a container. -/
def values (d : Dac) : Nat := (d.levels.head?.map fun l => l.2.length).getD 0

end Spec

theorem Dac.Repr.values {d : Dac} {xs : List Int64} (h : d.Repr xs) : Spec.values d = xs.length := by
  unfold Dac.Repr at h
  unfold Spec.values
  cases hl : d.levels with
  | nil =>
    rw [hl] at h
    generalize hx : xs.map zigzagEncode = ys at h
    cases h
    have := congrArg List.length hx
    simpa using this.symm
  | cons l ls =>
    rw [hl] at h
    cases h with
    | cons _ _ _ _ => simp [Verif.dacBytes]

/-! ### C67 -/

/-- C67 for integer containers: exactly how many bytes are written for a list of integers. Every integer
takes as many bytes as it needs, small ones one byte, whatever their sign. -/
theorem C67_container (xs : List Int64) :
    ∃ d, Dac.ofList xs = some d ∧ d.write.length = Spec.dacBytes xs ∧ Spec.values d = xs.length := by
  obtain ⟨d, h1, h2⟩ := dac_ofList_repr xs
  exact ⟨d, h1, by rw [d.size_eq, h2.size], h2.values⟩

/-- C67 for bit maps: exactly how many bytes are written for a list of bits. -/
theorem C67_bitmap (bs : List Bool) :
    ∃ m, BitMap.ofBits bs = some m ∧ m.write.length = Spec.bitmapBytes bs.length := by
  obtain ⟨m, h1, h2⟩ := ofBits_repr bs
  exact ⟨m, h1, by rw [m.size_eq, h2.size]⟩

/-- C67 for snapshots: a value is stored for every square that is reached by dividing squares that are
not uniform, and for no other; a second one for every square that is divided; a bit for every square of
more than one cell. -/
theorem C67_snapshot (get : Nat → Nat → Int64) (rows cols k e : Nat) (hk : 0 < k) (s : Snapshot)
    (h : Snapshot.build get rows cols k e = some s) :
    let split := fun side R C => ¬ Spec.Uniform get rows cols side R C
    Spec.values s.max = Spec.nodes split k e ∧ Spec.values s.min = Spec.divided split k e ∧
    s.nodemap.length = Spec.branches split k e ∧
    s.write.length ≤ 13 + Spec.bitmapBytes (Spec.branches split k e) +
      Spec.dacMost (Spec.nodes split k e) + Spec.dacMost (Spec.divided split k e) := by
  intro split
  obtain ⟨N, hN⟩ := snapLayout_of_build hk h
  obtain ⟨c1, c2, c3⟩ := SnapLayout.counts get rows cols k hk hN
  have e1 : N.length = Spec.nodes split k e := c1
  have e2 : s.nodemap.length = Spec.branches split k e := c2
  have e3 : (N.filter snapInt).length = Spec.divided split k e := c3
  have b1 := dacBytes_le (N.map (·.1))
  have b2 := dacBytes_le ((N.filter snapInt).map (·.2.1))
  have hb := hN.nodes.repr
  have hs := hb.size
  rw [← hb.len] at hs
  rw [List.length_map] at b1 b2
  refine ⟨?_, ?_, e2, ?_⟩
  · rw [hN.max.values, List.length_map, e1]
  · rw [hN.min.values, List.length_map, e3]
  · rw [s.size_eq]
    unfold Snapshot.size
    rw [hs, hN.max.size, hN.min.size, e2, ← e1, ← e3]
    omega

/-- C67 for logs: as for snapshots, but squares are divided only if the new raster is not uniform there
and the difference from the snapshot is not the same everywhere in the square, cells outside of the
raster counting as not changed. A bit tells, for every square that could be divided and is not, why. -/
theorem C67_log (getS getT : Nat → Nat → Int64) (rows cols k e : Nat) (hk : 0 < k) (l : Log)
    (h : Log.build getS getT rows cols k e = some l) :
    let split := fun side R C =>
      ¬ Spec.Uniform getT rows cols side R C ∧ ¬ Spec.Shifted getS getT rows cols side R C
    Spec.values l.max = Spec.nodes split k e ∧ Spec.values l.min = Spec.divided split k e ∧
    l.nodemap.length = Spec.branches split k e ∧
    l.equal.length + Spec.divided split k e = Spec.branches split k e ∧
    l.write.length ≤ 13 + Spec.bitmapBytes (Spec.branches split k e) +
      Spec.bitmapBytes (Spec.branches split k e - Spec.divided split k e) +
      Spec.dacMost (Spec.nodes split k e) + Spec.dacMost (Spec.divided split k e) := by
  intro split
  obtain ⟨N, hN⟩ := logLayout_of_build hk h
  obtain ⟨c1, c2, c3, c4⟩ := LogLayout.counts getS getT rows cols k hk hN
  have e1 : N.length = Spec.nodes split k e := c1
  have e2 : l.nodemap.length = Spec.branches split k e := c2
  have e3 : l.equal.length + Spec.divided split k e = Spec.branches split k e := c3
  have e4 : (N.filter K2PNode.internal).length = Spec.divided split k e := c4
  have b1 := dacBytes_le (N.map (fun a => a.maxT.getD 0 - a.maxS.getD 0))
  have b2 := dacBytes_le ((N.filter K2PNode.internal).map (fun a => a.minT.getD 0 - a.minS.getD 0))
  have hs := hN.nodes.repr.size
  rw [← hN.nodes.repr.len] at hs
  have hq := hN.eq.size
  rw [← hN.eq.len] at hq
  rw [List.length_map] at b1 b2
  have e5 : l.equal.length = Spec.branches split k e - Spec.divided split k e := by omega
  refine ⟨?_, ?_, e2, e3, ?_⟩
  · rw [hN.max.values, List.length_map, e1]
  · rw [hN.min.values, List.length_map, e4]
  · rw [l.size_eq]
    unfold Log.size
    rw [hs, hq, hN.max.size, hN.min.size, e2, e5, ← e1, ← e4]
    omega

theorem squares_single (split : Nat → Nat → Nat → Prop) (k e : Nat) (h : ¬ split (k ^ e) 0 0) :
    Spec.squares split k e 0 0 = [(e, 0, 0)] := by
  cases e with
  | zero => rfl
  | succ e => simp only [Spec.squares, if_neg h]

theorem counts_single (split : Nat → Nat → Nat → Prop) (k e : Nat) (h : ¬ split (k ^ e) 0 0) :
    Spec.nodes split k e = 1 ∧ Spec.branches split k e ≤ 1 ∧ Spec.divided split k e = 0 := by
  have hs := squares_single split k e h
  refine ⟨?_, ?_, ?_⟩
  · unfold Spec.nodes; rw [hs]; rfl
  · unfold Spec.branches; rw [hs]; exact List.countP_le_length
  · unfold Spec.divided; rw [hs]; simp [h]

/-- C67: a raster that holds a single value takes at most 131 bytes as a snapshot, however large it
is. -/
theorem C67_snapshot_uniform (get : Nat → Nat → Int64) (rows cols k e : Nat) (hk : 0 < k)
    (v : Int64) (hv : ∀ r c, r < rows → c < cols → get r c = v) (s : Snapshot)
    (h : Snapshot.build get rows cols k e = some s) :
    Spec.values s.max = 1 ∧ Spec.values s.min = 0 ∧ s.write.length ≤ 131 := by
  obtain ⟨h1, h2, h3, h4⟩ := C67_snapshot get rows cols k e hk s h
  obtain ⟨c1, c2, c3⟩ := counts_single (fun side R C => ¬ Spec.Uniform get rows cols side R C) k e
    (not_not.2 fun r c r' c' _ _ _ _ a b _ _ _ _ a' b' => by rw [hv r c a b, hv r' c' a' b'])
  rw [c1] at h1 h4
  rw [c3] at h2 h4
  refine ⟨h1, h2, le_trans h4 ?_⟩
  have hb := bitmapBytes_mono c2
  have : Spec.bitmapBytes 1 = 12 := rfl
  have : Spec.dacMost 1 = 105 := rfl
  have : Spec.dacMost 0 = 1 := rfl
  omega

/-- C67: a raster that holds a single value, or is the same as that of the snapshot, or fills the whole
square of the tree and differs by one amount from that of the snapshot, takes at most 143 bytes as a log,
however large it is. -/
theorem C67_log_uniform (getS getT : Nat → Nat → Int64) (rows cols k e : Nat) (hk : 0 < k)
    (v : Int64) (hv : (∀ r c, r < rows → c < cols → getT r c = v) ∨
      (∀ r c, r < rows → c < cols → getT r c = getS r c) ∨
      (rows = k ^ e ∧ cols = k ^ e ∧ ∀ r c, r < rows → c < cols → getT r c = getS r c + v))
    (l : Log) (h : Log.build getS getT rows cols k e = some l) :
    Spec.values l.max = 1 ∧ Spec.values l.min = 0 ∧ l.write.length ≤ 143 := by
  obtain ⟨h1, h2, h3, h4, h5⟩ := C67_log getS getT rows cols k e hk l h
  obtain ⟨c1, c2, c3⟩ := counts_single (fun side R C =>
      ¬ Spec.Uniform getT rows cols side R C ∧ ¬ Spec.Shifted getS getT rows cols side R C) k e (by
    rintro ⟨hu, hs⟩
    rcases hv with hv | hv | ⟨rfl, rfl, hv⟩
    · exact hu fun r c r' c' _ _ _ _ a b _ _ _ _ a' b' => by rw [hv r c a b, hv r' c' a' b']
    · refine hs ⟨0, fun r c _ _ _ _ => ?_⟩
      split
      · rename_i hb; rw [hv r c hb.1 hb.2, Int64.sub_self]
      · rfl
    · refine hs ⟨v, fun r c _ hr _ hc => ?_⟩
      have hb : r < k ^ e ∧ c < k ^ e := ⟨by omega, by omega⟩
      rw [if_pos hb, hv r c hb.1 hb.2, Int64.add_comm, Int64.add_sub_cancel])
  rw [c1] at h1 h5
  rw [c3] at h2 h5
  refine ⟨h1, h2, le_trans h5 ?_⟩
  have hb := bitmapBytes_mono c2
  rw [Nat.sub_zero]
  have : Spec.bitmapBytes 1 = 12 := rfl
  have : Spec.dacMost 1 = 105 := rfl
  have : Spec.dacMost 0 = 1 := rfl
  omega

theorem squares_most (split : Nat → Nat → Nat → Prop) (k e : Nat) (hk : 2 ≤ k) : ∀ R C,
    (Spec.squares split k e R C).length * (k * k - 1) + 1 ≤ (k * k) ^ (e + 1) := by
  have hkk : 1 ≤ k * k := Nat.mul_pos (by omega) (by omega)
  induction e with
  | zero =>
    intro R C
    simp only [Spec.squares, List.length_singleton, Nat.zero_add, Nat.pow_one, Nat.one_mul]
    omega
  | succ e ih =>
    intro R C
    simp only [Spec.squares, List.length_cons]
    have hp : 1 ≤ (k * k) ^ (e + 1) := Nat.one_le_pow _ _ hkk
    have hpow : (k * k) ^ (e + 1 + 1) = k * k * (k * k) ^ (e + 1) := by rw [Nat.pow_succ, Nat.mul_comm]
    have hge : k * k ≤ k * k * (k * k) ^ (e + 1) := Nat.le_mul_of_pos_right _ hp
    split
    · have hlen : ∀ n m : Nat, ∀ f : Nat → Nat → List (Nat × Nat × Nat),
          (∀ i j, (f i j).length * (k * k - 1) + 1 ≤ (k * k) ^ (e + 1)) →
          ((List.range n).flatMap fun i => (List.range m).flatMap fun j => f i j).length * (k * k - 1)
            + n * m ≤ n * m * (k * k) ^ (e + 1) := by
        intro n m f hf
        have hin : ∀ i m, ((List.range m).flatMap fun j => f i j).length * (k * k - 1) + m ≤
            m * (k * k) ^ (e + 1) := by
          intro i m
          induction m with
          | zero => simp
          | succ m ihm =>
            rw [List.range_succ, List.flatMap_append, List.length_append]
            simp only [List.flatMap_cons, List.flatMap_nil, List.append_nil]
            have := hf i m
            rw [Nat.add_mul, Nat.add_mul, Nat.one_mul]
            omega
        induction n with
        | zero => simp
        | succ n ihn =>
          rw [List.range_succ, List.flatMap_append, List.length_append]
          simp only [List.flatMap_cons, List.flatMap_nil, List.append_nil]
          have := hin n m
          rw [Nat.add_mul, Nat.add_mul, Nat.add_mul, Nat.one_mul]
          omega
      have := hlen k k _ (fun i j => ih (R + i * k ^ e) (C + j * k ^ e))
      rw [Nat.add_mul, hpow, Nat.one_mul]
      omega
    · simp only [List.length_nil, Nat.zero_add, Nat.one_mul]
      rw [hpow]; omega

/-- C67, at most: there are no more squares than cells and their fourfold (for `k = 2`) and so on
combined, so that the space of a snapshot is bounded by the side of the raster, whatever it holds. -/
theorem C67_most (get : Nat → Nat → Int64) (rows cols k e : Nat) (hk : 2 ≤ k) (s : Snapshot)
    (h : Snapshot.build get rows cols k e = some s) :
    Spec.values s.max * (k * k - 1) < (k * k) ^ (e + 1) := by
  rw [(C67_snapshot get rows cols k e (by omega) s h).1]
  exact squares_most _ k e hk 0 0

/-- C67 for logs is not as good as it could be: a raster that differs by one amount from that of the
snapshot is divided all the same if it does not fill the square of the tree. The cells outside of the
raster count as not changed. -/
theorem C67_shift_wrong :
    ∃ (getS getT : Nat → Nat → Int64) (l : Log),
      (∀ r c, getT r c = getS r c + 1) ∧ Log.build getS getT 3 3 2 2 = some l ∧
      Spec.values l.max = 13 := by
  refine ⟨fun r c => Int64.ofNat (3 * r + c), fun r c => Int64.ofNat (3 * r + c) + 1, _, fun _ _ => rfl,
    rfl, ?_⟩
  decide +kernel

/-! ### C68 -/

namespace Spec

/-- The first instant of block `i`. -/
def firstInstant (bs : List Block) (i : Nat) : Nat := ((bs.take i).map fun b => 1 + b.logs.length).sum

end Spec

theorem firstInstant_eq (bs : List Block) (i : Nat) : Spec.firstInstant bs i = blocksLen (bs.take i) := by
  unfold Spec.firstInstant blocksLen
  congr 1
  apply List.map_congr_left
  intro b _
  unfold Block.len
  omega

/-- C68: an instant is stored as a log only if that takes fewer bytes than its snapshot would, and as a
snapshot only if the log would not take fewer, or the block is full, or it is the first. -/
theorem C68_choice (get : Nat → Nat → Nat → Int64) (instants rows cols k e : Nat) (hk : 0 < k)
    (enc : MMEncoding) (fb : Nat) (r : Chunk.Build)
    (h : Chunk.build get instants rows cols k e enc fb = some r) :
    (∀ (i : Nat) b, r.data.blocks[i]? = some b → ∀ (j : Nat) l, b.logs[j]? = some l → ∀ s,
      Snapshot.build (get (Spec.firstInstant r.data.blocks i + 1 + j)) rows cols k e = some s →
      l.write.length < s.write.length) ∧
    (∀ (i : Nat) b b', r.data.blocks[i]? = some b → r.data.blocks[i + 1]? = some b' →
      b.logs.length = 254 ∨ ∀ l,
        Log.build (get (Spec.firstInstant r.data.blocks i)) (get (Spec.firstInstant r.data.blocks (i + 1)))
          rows cols k e = some l → b'.snapshot.write.length ≤ l.write.length) := by
  have hc := chunk_chosen get instants rows cols k e hk enc fb r h
  refine ⟨fun i b hb j l hl s hs => ?_, fun i b b' hb hb' => ?_⟩
  · rw [firstInstant_eq] at hs
    rw [l.size_eq, s.size_eq]
    exact hc.small i b hb j l hl s hs
  · rw [firstInstant_eq, firstInstant_eq]
    refine (hc.fresh i b b' hb hb').imp id fun hf l hl => ?_
    rw [l.size_eq, b'.snapshot.size_eq]
    exact hf l hl

theorem block_write_length (b : Block) :
    b.size = 1 + b.snapshot.write.length + (b.logs.map fun l => l.write.length).sum := by
  unfold Block.size
  rw [b.snapshot.size_eq]
  congr 2
  exact List.map_congr_left fun l _ => l.size_eq.symm

theorem chunk_built (get : Nat → Nat → Nat → Int64) (instants rows cols k e : Nat) (hk : 0 < k)
    (hi : 1 ≤ instants) (enc : MMEncoding) (fb : Nat) (r : Chunk.Build)
    (h : Chunk.build get instants rows cols k e enc fb = some r) :
    BlocksOf get rows cols k e r.data.blocks ∧ blocksLen r.data.blocks = instants ∧
      r.data.write.length = 6 + (r.data.blocks.map Block.size).sum := by
  obtain ⟨bs, h1, _, h3, h4, _⟩ := chunk_build get instants rows cols k e hk hi enc fb
  rw [h] at h4
  obtain rfl := Option.some.inj h4
  exact ⟨h1, h3, by rw [(Chunk.new bs enc fb).size_eq]; rfl⟩

theorem sum_getElem_le {α : Type _} (l : List α) (f : α → Nat) (g : Nat → Nat)
    (h : ∀ (j : Nat) x, l[j]? = some x → f x ≤ g j) :
    (l.map f).sum ≤ ((List.range l.length).map g).sum := by
  induction l generalizing g with
  | nil => simp
  | cons x l ih =>
    rw [List.map_cons, List.sum_cons, List.length_cons, List.range_succ_eq_map, List.map_cons,
      List.sum_cons, List.map_map]
    have h0 := h 0 x rfl
    have h1 := ih (g ∘ Nat.succ) (fun j y hy => h (j + 1) y (by simpa using hy))
    omega

theorem range_sum_add (f : Nat → Nat) (a b : Nat) :
    ((List.range (a + b)).map f).sum =
      ((List.range a).map f).sum + ((List.range b).map fun j => f (a + j)).sum := by
  rw [List.range_add, List.map_append, List.sum_append, List.map_map]
  rfl

/-- C68: a chunk never takes more bytes than the snapshots of all its instants would, one byte for each
and six for the chunk included. -/
theorem C68_never_worse (get : Nat → Nat → Nat → Int64) (instants rows cols k e : Nat) (hk : 0 < k)
    (hi : 1 ≤ instants) (enc : MMEncoding) (fb : Nat) (r : Chunk.Build)
    (h : Chunk.build get instants rows cols k e enc fb = some r) (bytes : Nat → Nat)
    (hb : ∀ t s, t < instants → Snapshot.build (get t) rows cols k e = some s →
      s.write.length ≤ bytes t) :
    r.data.write.length ≤ 6 + ((List.range instants).map fun t => 1 + bytes t).sum := by
  obtain ⟨h1, h2, h3⟩ := chunk_built get instants rows cols k e hk hi enc fb r h
  have hc := chunk_chosen get instants rows cols k e hk enc fb r h
  generalize r.data.blocks = bs at *
  have key : ∀ n, n ≤ bs.length → ((bs.take n).map Block.size).sum ≤
      ((List.range (blocksLen (bs.take n))).map fun t => 1 + bytes t).sum := by
    intro n
    induction n with
    | zero => simp
    | succ n ih =>
      intro hn
      have ih := ih (by omega)
      obtain ⟨b, hbn⟩ : ∃ b, bs[n]? = some b := ⟨_, List.getElem?_eq_getElem (by omega)⟩
      have hend : blocksLen (bs.take (n + 1)) ≤ instants := by
        rw [← h2]
        have := blocksLen_take_le bs hn (Nat.le_refl _)
        rwa [List.take_length] at this
      rw [blocksLen_take_succ hbn] at hend ⊢
      rw [List.take_add_one, hbn, List.map_append, List.sum_append, range_sum_add]
      simp only [Option.toList_some, List.map_cons, List.map_nil, List.sum_cons, List.sum_nil,
        Nat.add_zero]
      have hblk := h1 n b hbn
      have hlen : b.len = 1 + b.logs.length := by unfold Block.len; omega
      rw [hlen] at hend ⊢
      rw [range_sum_add]
      simp only [List.range_one, List.map_cons, List.map_nil, List.sum_cons, List.sum_nil,
        Nat.add_zero]
      have hs := hb _ _ (by omega) hblk.snapshot
      rw [b.snapshot.size_eq] at hs
      have hl := sum_getElem_le b.logs Log.size
        (fun j => 1 + bytes (blocksLen (bs.take n) + (1 + j))) (fun j l hl => by
          have hj : j < b.logs.length := (List.getElem?_eq_some_iff.1 hl).1
          obtain ⟨s, _, hs, _⟩ := snapshot_build_layout
            (get (blocksLen (bs.take n) + 1 + j)) rows cols k hk e
          have h5 := hc.small n b hbn j l hl s hs
          have h6 := hb _ _ (by omega) hs
          rw [s.size_eq] at h6
          rw [← Nat.add_assoc]
          omega)
      have hbs : b.size = 1 + b.snapshot.size + (b.logs.map Log.size).sum := rfl
      omega
  have := key bs.length (Nat.le_refl _)
  rw [List.take_length, h2] at this
  omega

/-- C68: a series that does not change takes, but for one snapshot in every 255 instants, at most 144
bytes for an instant, however large the raster is. -/
theorem C68_static (get : Nat → Nat → Nat → Int64) (instants rows cols k e : Nat) (hk : 0 < k)
    (hi : 1 ≤ instants) (enc : MMEncoding) (fb : Nat) (r : Chunk.Build)
    (h : Chunk.build get instants rows cols k e enc fb = some r)
    (hg : ∀ t t' a b, t < instants → t' < instants → a < rows → b < cols → get t a b = get t' a b)
    (bytes : Nat)
    (hb : ∀ t s, t < instants → Snapshot.build (get t) rows cols k e = some s →
      s.write.length ≤ bytes) :
    r.data.write.length ≤ 6 + (1 + instants / 255) * (1 + bytes) + 144 * instants := by
  obtain ⟨h1, h2, h3⟩ := chunk_built get instants rows cols k e hk hi enc fb r h
  have hc := chunk_chosen get instants rows cols k e hk enc fb r h
  generalize r.data.blocks = bs at *
  have hlog : ∀ t t' l, t < instants → t' < instants →
      Log.build (get t) (get t') rows cols k e = some l → l.size ≤ 143 := by
    intro t t' l ht ht' hl
    rw [← l.size_eq]
    exact (C67_log_uniform (get t) (get t') rows cols k e hk 0
      (.inr (.inl fun a b ha hb => hg t' t a b ht' ht ha hb)) l hl).2.2
  have hfull : ∀ cs : List Block, 255 * cs.countP (fun b => decide (b.logs.length = 254)) ≤
      blocksLen cs := by
    intro cs
    induction cs with
    | nil => simp
    | cons b cs ih =>
      rw [List.countP_cons, blocksLen_cons]
      unfold Block.len
      by_cases hb : b.logs.length = 254
      · simp only [hb, decide_true, if_true]; omega
      · simp only [hb, decide_false, Bool.false_eq_true, if_false]; omega
  have key : ∀ n, n < bs.length → ((bs.take (n + 1)).map Block.size).sum ≤
      (1 + (bs.take n).countP (fun b => decide (b.logs.length = 254))) * (1 + bytes) +
        144 * blocksLen (bs.take (n + 1)) := by
    intro n
    induction n with
    | zero =>
      intro hn
      obtain ⟨b, hbn⟩ : ∃ b, bs[0]? = some b := ⟨_, List.getElem?_eq_getElem (by omega)⟩
      have hblk := h1 0 b hbn
      have hend : blocksLen (bs.take (0 + 1)) ≤ instants := by
        rw [← h2]
        have := blocksLen_take_le bs (i := 0 + 1) (by omega) (Nat.le_refl _)
        rwa [List.take_length] at this
      rw [blocksLen_take_succ hbn] at hend ⊢
      rw [List.take_add_one, hbn]
      simp only [List.take_zero, List.nil_append, Option.toList_some, List.map_cons, List.map_nil,
        List.sum_cons, List.sum_nil, Nat.add_zero, List.countP_nil, Nat.one_mul, blocksLen_nil,
        Nat.zero_add] at hend hblk ⊢
      have hs := hb _ _ (by omega) hblk.snapshot
      rw [b.snapshot.size_eq] at hs
      have hl := sum_getElem_le b.logs Log.size (fun _ => 143) (fun j l hl => by
        have hj : j < b.logs.length := (List.getElem?_eq_some_iff.1 hl).1
        unfold Block.len at hend
        exact hlog _ _ _ (by omega) (by omega) (hblk.logs j l hl))
      simp only [List.map_const', List.length_range, List.sum_replicate_nat] at hl
      have hbs : b.size = 1 + b.snapshot.size + (b.logs.map Log.size).sum := rfl
      have hbl : b.len = b.logs.length + 1 := rfl
      omega
    | succ n ih =>
      intro hn
      have ih := ih (by omega)
      obtain ⟨b, hbn⟩ : ∃ b, bs[n + 1]? = some b := ⟨_, List.getElem?_eq_getElem (by omega)⟩
      obtain ⟨p, hpn⟩ : ∃ p, bs[n]? = some p := ⟨_, List.getElem?_eq_getElem (by omega)⟩
      have hblk := h1 (n + 1) b hbn
      have hend : blocksLen (bs.take (n + 1 + 1)) ≤ instants := by
        rw [← h2]
        have := blocksLen_take_le bs (i := n + 1 + 1) (by omega) (Nat.le_refl _)
        rwa [List.take_length] at this
      have hlt := blocksLen_take_succ hpn
      rw [blocksLen_take_succ hbn] at hend ⊢
      rw [List.take_add_one (i := n + 1), hbn, List.map_append, List.sum_append,
        List.take_add_one (i := n) (l := bs), hpn, List.countP_append]
      rw [List.take_add_one (i := n) (l := bs), hpn] at ih
      simp only [Option.toList_some, List.map_cons, List.map_nil, List.sum_cons, List.sum_nil,
        Nat.add_zero, List.countP_cons, List.countP_nil, Nat.zero_add] at ih ⊢
      have hs := hb _ _ (by unfold Block.len at hend; omega) hblk.snapshot
      rw [b.snapshot.size_eq] at hs
      have hl := sum_getElem_le b.logs Log.size (fun _ => 143) (fun j l hl => by
        have hj : j < b.logs.length := (List.getElem?_eq_some_iff.1 hl).1
        unfold Block.len at hend
        exact hlog _ _ _ (by omega) (by omega) (hblk.logs j l hl))
      simp only [List.map_const', List.length_range, List.sum_replicate_nat] at hl
      rw [List.take_add_one (i := n) (l := bs), hpn] at hlt hend hblk
      simp only [Option.toList_some] at hlt hend hblk
      by_cases hp : p.logs.length = 254
      · simp only [hp, decide_true, if_true]
        rw [show ∀ x : Nat, 1 + (x + 1) = (1 + x) + 1 from fun x => by omega, Nat.add_mul _ 1,
          Nat.one_mul]
        generalize (1 + (bs.take n).countP (fun b => decide (b.logs.length = 254))) * (1 + bytes) = z at *
        have hbs : b.size = 1 + b.snapshot.size + (b.logs.map Log.size).sum := rfl
        have hbl : b.len = b.logs.length + 1 := rfl
        simp only [List.map_append, List.sum_append, List.map_cons, List.map_nil, List.sum_cons,
          List.sum_nil] at ih ⊢
        omega
      · simp only [hp, decide_false, Bool.false_eq_true, if_false, Nat.add_zero]
        have hf : b.snapshot.size ≤ 143 := by
          obtain ⟨l, _, hl, _⟩ := log_build_layout (get (blocksLen (bs.take n)))
            (get (blocksLen (bs.take (n + 1)))) rows cols k hk e
          have h5 := (hc.fresh n p b hpn hbn).resolve_left hp l hl
          have h6 := hlog _ _ l (by unfold Block.len at hend hlt; omega)
            (by rw [blocksLen_take_succ hpn]; unfold Block.len at hend hlt ⊢; omega) hl
          omega
        generalize (1 + (bs.take n).countP (fun b => decide (b.logs.length = 254))) * (1 + bytes) = z at *
        have hbs : b.size = 1 + b.snapshot.size + (b.logs.map Log.size).sum := rfl
        have hbl : b.len = b.logs.length + 1 := rfl
        simp only [List.map_append, List.sum_append, List.map_cons, List.map_nil, List.sum_cons,
          List.sum_nil] at ih ⊢
        omega
  have hne : 0 < bs.length := by
    rcases bs with _ | ⟨b, bs⟩
    · simp at h2; omega
    · simp
  have hk1 := key (bs.length - 1) (by omega)
  rw [Nat.sub_add_cancel hne, List.take_length, h2] at hk1
  have hf := hfull (bs.take (bs.length - 1))
  have hle := blocksLen_take_le bs (i := bs.length - 1) (by omega) (Nat.le_refl _)
  rw [List.take_length, h2] at hle
  have hdiv : (bs.take (bs.length - 1)).countP (fun b => decide (b.logs.length = 254)) ≤
      instants / 255 := by
    rw [Nat.le_div_iff_mul_le (by omega)]; omega
  have := Nat.mul_le_mul_right (1 + bytes) (Nat.add_le_add_left hdiv 1)
  omega

/-! ### C69 -/

namespace Superchunk

theorem saveStep_counts (H : Hash) (s : SaveState) (p : Part × Option MMStruct3Build)
    (hn : s.external.Nodup) (he : s.elided = s.references.count .elided) :
    (saveStep H s p).external.Nodup ∧
      (saveStep H s p).elided = (saveStep H s p).references.count .elided := by
  unfold saveStep
  cases hp : p.2 with
  | none => exact ⟨hn, by simp [List.count_append, he]⟩
  | some build =>
    simp only
    split
    · exact ⟨hn, by simp [List.count_append, he]⟩
    · simp only [save]
      split
      · exact ⟨hn, by simp [List.count_append, he]⟩
      · rename_i hi
        refine ⟨?_, by simp [List.count_append, he]⟩
        rw [List.nodup_append]
        refine ⟨hn, List.nodup_singleton _, fun a ha b hb hab => ?_⟩
        rw [List.mem_singleton] at hb
        rw [List.idxOf?_eq_none_iff] at hi
        exact hi (by rw [← hb, ← hab]; exact ha)

theorem saveAll_counts (H : Hash) : ∀ (ps : List (Part × Option MMStruct3Build)) (s : SaveState),
    s.external.Nodup → s.elided = s.references.count .elided →
    (ps.foldl (saveStep H) s).external.Nodup ∧
      (ps.foldl (saveStep H) s).elided = (ps.foldl (saveStep H) s).references.count .elided := by
  intro ps
  induction ps with
  | nil => intro s h1 h2; exact ⟨h1, h2⟩
  | cons p ps ih =>
    intro s h1 h2
    obtain ⟨h3, h4⟩ := saveStep_counts H s p h1 h2
    exact ih _ h3 h4

end Superchunk

namespace Spec

/-- What a superchunk keeps of the squares it consists of: a square is elided if and only if it lies
outside of the raster or holds one value in every instant; for every other a link is kept. No two links
are the same. The builder reports how many squares are elided and how many links there are. -/
def Kept (H : Hash) (k level : Nat) (sub : List Nat) (log' : Saved) (r : MMStruct3Build) {α : Type}
    (val : Nat → Nat → Nat → α) (n rows cols : Nat) : Prop :=
  ∃ (head : SuperHead) (links : Links), r.data = .superchunk head [] ∧
    (Item.links links).bytes ∈ log' ∧ head.externalCid = H.cidOf (Item.links links).bytes ∧
    links.cids.Nodup ∧ r.external = links.cids.length ∧
    r.elided = head.references.count .elided ∧
    head.references.length = k ^ level * k ^ level ∧
    ∀ i j, i < k ^ level → j < k ^ level →
      (head.references[i * k ^ level + j]? = some .elided ∧
        ∀ t, t < n → ∃ v, ∀ row col, i * k ^ sub.sum ≤ row → row < (i + 1) * k ^ sub.sum →
          row < rows → j * k ^ sub.sum ≤ col → col < (j + 1) * k ^ sub.sum → col < cols →
          val t row col = v) ∨
      ((∃ index, index < links.cids.length ∧
          head.references[i * k ^ level + j]? = some (.external index)) ∧
        i * k ^ sub.sum < rows ∧ j * k ^ sub.sum < cols ∧
        ∃ t, t < n ∧ ∀ v, ∃ row col, i * k ^ sub.sum ≤ row ∧ row < (i + 1) * k ^ sub.sum ∧
          row < rows ∧ j * k ^ sub.sum ≤ col ∧ col < (j + 1) * k ^ sub.sum ∧ col < cols ∧
          val t row col ≠ v)

end Spec

theorem superchunk_kept (H : Hash) (clog : Nat → Nat) (lg : Rat → Int) (k : Nat) (hk : 0 < k) (n : Nat)
    {α : Type} (T : AcceptTheory clog lg k n α) (level : Nat) (sub : List Nat) (hJ : T.J sub.sum)
    (log log' : Saved) (b : MMBuffer3) (rows cols : Nat) (hok : T.OK b rows cols) (r : MMStruct3Build)
    (hb : Superchunk.build H clog lg k (level :: sub) log b n rows cols = some (r, log')) :
    Spec.Kept H k level sub log' r (T.val b) n rows cols := by
  unfold Superchunk.build Superchunk.buildLevel at hb
  simp only at hb
  split at hb
  · cases hb
  rename_i hsum
  simp only [ne_eq, not_not] at hsum
  have hcs : k ^ clog (max rows cols) / k ^ level = k ^ sub.sum := by
    rw [← hsum, List.sum_cons, Nat.pow_add, Nat.mul_div_cancel_left _ (Nat.pow_pos hk)]
  have hpos : 0 < k ^ sub.sum := Nat.pow_pos hk
  split at hb
  · cases hb
  rename_i parts hparts
  rw [hcs] at hparts hb
  split at hb
  · cases hb
  rename_i ps log1 hps
  split at hb
  · split at hb
    · cases hb
      obtain ⟨-, hjobs⟩ := Superchunk.runJobs_spec
        (fun la b n r c x lb h => Superchunk.build_log sub la b n r c x lb h) hps
      obtain ⟨refs, r1, r2, -, -, -, -⟩ := Superchunk.saveAll_spec H ps ⟨log1, [], [], 0, 0, 0, 0⟩
      obtain ⟨c1, c2⟩ := Superchunk.saveAll_counts H ps ⟨log1, [], [], 0, 0, 0, 0⟩ (by simp) (by simp)
      have hplan := collect_singletons hparts
      simp only [List.nil_append] at r1
      refine ⟨_, ⟨(ps.foldl (Superchunk.saveStep H) ⟨log1, [], [], 0, 0, 0, 0⟩).external⟩, rfl,
        List.mem_cons_self, rfl, c1, rfl, c2, ?_, ?_⟩
      · simp only [r1]
        rw [← r2.length_eq, ← hjobs.length_eq, ← hplan.length_eq, Superchunk.positions_length]
      · intro i j hi hj
        simp only [r1]
        obtain ⟨part, p1, p2⟩ := forall₂_getElem? hplan
          (Superchunk.positions_getElem? (k ^ level) i j hi hj)
        obtain ⟨q, q1, q2, q3, q4⟩ := forall₂_getElem? hjobs p1
        obtain ⟨ref, s1, s2⟩ := forall₂_getElem? r2 q1
        by_cases hout : i * k ^ sub.sum < rows ∧ j * k ^ sub.sum < cols
        · obtain ⟨m1, m2⟩ := Superchunk.plan_spec p2 hout.1 hout.2
          have hiff := T.elided b rows cols sub.sum i j hJ hok hout.1 hout.2 _ _ rfl rfl _ m1
          rcases m2 with ⟨m3, m4⟩ | ⟨m3, ch, m4, -⟩
          · left
            refine ⟨?_, fun t ht => ?_⟩
            · rcases s2 with ⟨h, -⟩ | ⟨_, bd, _, h, -⟩
              · rw [s1, h]
              · rw [q3 m3] at h; cases h
            · obtain ⟨v, hv⟩ := hiff.1 m4 t ht
              refine ⟨v, fun row col a1 a2 a3 a4 a5 a6 => ?_⟩
              rw [Nat.succ_mul] at a2 a5
              have := hv (row - i * k ^ sub.sum) (col - j * k ^ sub.sum) (by omega) (by omega)
              simp only at this
              rwa [show i * k ^ sub.sum + (row - i * k ^ sub.sum) = row by omega,
                show j * k ^ sub.sum + (col - j * k ^ sub.sum) = col by omega] at this
          · right
            refine ⟨?_, hout.1, hout.2, ?_⟩
            · obtain ⟨bd, _, _, _, h5, -⟩ := q4 _ m4
              rcases s2 with ⟨-, h | h⟩ | ⟨idx, bd', h, -, h', -⟩
              · rw [h5] at h; cases h
              · exact absurd (fun m hm => (h m (by rw [q2]; exact hm)).symm) m3
              · exact ⟨idx, (List.getElem?_eq_some_iff.1 h').1, by rw [s1, h]⟩
            · by_contra hcon
              apply m3
              rw [hiff]
              intro t ht
              by_contra hno
              apply hcon
              refine ⟨t, ht, fun v => ?_⟩
              by_contra hv
              apply hno
              refine ⟨v, fun row col h1 h2 => ?_⟩
              by_contra hne
              apply hv
              refine ⟨_, _, by omega, ?_, by omega, by omega, ?_, by omega, hne⟩
              · rw [Nat.succ_mul]; omega
              · rw [Nat.succ_mul]; omega
        · left
          refine ⟨?_, fun t ht => ⟨T.val b 0 0 0, fun row col a1 a2 a3 a4 a5 a6 => ?_⟩⟩
          · have : part.job = none := by
              by_contra hjb
              exact hout (Superchunk.plan_job p2 hjb)
            rcases s2 with ⟨h, -⟩ | ⟨_, bd, _, h, -⟩
            · rw [s1, h]
            · rw [q3 this] at h; cases h
          · omega
    · cases hb
  · cases hb

/-- C69: in a superchunk of integers, built on any levels, a square is elided if and only if it lies
outside of the raster or holds one value in every instant; for every other a link is kept. No two links
are the same, so that equal subchunks are stored once. The builder reports how many squares are elided
and how many links there are. -/
theorem C69_superchunk (H : Hash) (clog : Nat → Nat) (lg : Rat → Int) (k : Nat) (hk : 0 < k)
    (level : Nat) (sub : List Nat) (log log' : Saved) (b : MMBuffer3) (hint : b.isInt)
    (n rows cols : Nat) (hn : 1 ≤ n) (r : MMStruct3Build)
    (hb : Superchunk.build H clog lg k (level :: sub) log b n rows cols = some (r, log')) :
    Spec.Kept H k level sub log' r b.int n rows cols :=
  superchunk_kept H clog lg k hk n (intAccepts clog lg k hk hn) level sub trivial log log' b rows cols
    hint r hb

/-- C69 for floats: the same, of the values that are read back. Missing for the full claim: see
`FltInput`; without its condition on NaN, squares are elided that do not hold one value
(`C27_nan_wrong`). -/
theorem C69_float_partial (H : Hash) (clog : Nat → Nat) (lg : Rat → Int) (k level : Nat)
    (sub : List Nat) (p : Prec) (B : Nat) (round : Bool) (a : Nat → Nat → Nat → Flt)
    (bits n rows cols : Nat) (h : FltInput clog lg k (level :: sub) p B round a bits n rows cols)
    (hn : 1 ≤ n) (log log' : Saved) (r : MMStruct3Build)
    (hb : Superchunk.build H clog lg k (level :: sub) log (.flt p a bits round) n rows cols
      = some (r, log')) :
    Spec.Kept H k level sub log' r (fun t row col => (a t row col).rounded B) n rows cols :=
  superchunk_kept H clog lg k (by have := h.arity; omega) n
    (fltAccepts clog h.lgOk h.arity p h.max_bits round
      (fun e => ∃ s, s <:+ (level :: sub).tail ∧ e = s.sum) hn) level sub ⟨sub, List.suffix_refl _, rfl⟩
    log log' _ rows cols ⟨a, bits, rfl, h.ok⟩ r hb

/-! ### Examples -/

/-- Superchunks with a square that is elided and three that are not. -/
example : (Superchunk.build exampleHash exampleClog (fun _ => 0) 2 [1, 1] [] exampleBuffer 2 4 4).isSome ∧
    (Superchunk.build exampleHash exampleClog exampleLg 2 [1, 1] []
      (.flt .single exampleFloats 2 false) 2 4 4).isSome :=
  ⟨by decide +kernel, (C26_float_accepts_iff exampleFltInput (by decide)).2 ⟨by decide, trivial⟩⟩

/-- A static series of a thousand instants whose snapshots take at most 5000 bytes. -/
example (r : Chunk.Build)
    (h : Chunk.build (fun _ a b => Int64.ofNat (a * b)) 1000 16 16 2 4 .i64 0 = some r)
    (hb : ∀ s, Snapshot.build (fun a b => Int64.ofNat (a * b)) 16 16 2 4 = some s →
      s.write.length ≤ 5000) : r.data.write.length ≤ 164010 := by
  have := C68_static (fun _ a b => Int64.ofNat (a * b)) 1000 16 16 2 4 (by decide) (by decide) .i64 0 r h
    (fun _ _ _ _ _ _ _ _ => rfl) 5000 (fun _ s _ hs => hb s hs)
  omega

/-- Two instants of one value each: snapshots of at most 131 bytes. -/
example : ∃ r, Chunk.build (fun t _ _ => Int64.ofNat t) 2 100 100 2 7 .i64 0 = some r ∧
    r.data.write.length ≤ 270 := by
  obtain ⟨bs, _, _, _, h, _⟩ := chunk_build (fun t _ _ => Int64.ofNat t) 2 100 100 2 7 (by decide)
    (by decide) .i64 0
  exact ⟨_, h, C68_never_worse _ 2 100 100 2 7 (by decide) (by decide) .i64 0 _ h (fun _ => 131)
    fun t s _ hs => (C67_snapshot_uniform _ 100 100 2 7 (by decide) (Int64.ofNat t)
      (fun _ _ _ _ => rfl) s hs).2.2⟩

/-- The statement about logs is met by a raster that is not uniform. -/
example : ∃ l, Log.build (fun r c => Int64.ofNat (3 * r + c)) (fun r c => Int64.ofNat (3 * r + c) + 1)
    4 4 2 2 = some l ∧ Spec.values l.max = 1 ∧ l.write.length ≤ 143 := by
  obtain ⟨l, _, h, _⟩ := log_build_layout (fun r c => Int64.ofNat (3 * r + c))
    (fun r c => Int64.ofNat (3 * r + c) + 1) 4 4 2 (by decide) 2
  have := C67_log_uniform _ _ 4 4 2 2 (by decide) 1 (.inr (.inr ⟨rfl, rfl, fun _ _ _ _ => rfl⟩)) l h
  exact ⟨l, h, this.1, this.2.2⟩

/-- A raster of a million cells that hold 7. -/
example : ∃ s, Snapshot.build (fun _ _ => 7) 1000 1000 2 10 = some s ∧ s.write.length ≤ 131 := by
  obtain ⟨s, _, h, _⟩ := snapshot_build_layout (fun _ _ => 7) 1000 1000 2 (by decide) 10
  exact ⟨s, h, (C67_snapshot_uniform _ 1000 1000 2 10 (by decide) 7 (fun _ _ _ _ => rfl) s h).2.2⟩

/-- Three integers of one byte, one of two. -/
example : ∃ d, Dac.ofList [1, -2, 100, 1000] = some d ∧ d.write.length = 30 := by
  obtain ⟨d, h1, h2, _⟩ := C67_container [1, -2, 100, 1000]
  exact ⟨d, h1, by rw [h2]; decide⟩

end Verif
