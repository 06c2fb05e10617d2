import Verif.Lemmas.Zigzag

/-! Properties C01-C03: bit maps and compressed integers. -/
namespace Verif

/-- C01. For every bit sequence the finished map exists, every position reads back, and rank and
zero-rank count exactly; rank beyond the length is rejected. -/
theorem C01_bitmap_exact (bits : List Bool) :
    ∃ m, BitMap.ofBits bits = some m ∧ m.length = bits.length ∧
      (∀ i (h : i < bits.length), m.get i = some bits[i]) ∧
      (∀ i, i ≤ bits.length → m.rank i = some ((bits.take i).count true)) ∧
      (∀ i, i ≤ bits.length → m.rank0 i = some ((bits.take i).count false)) ∧
      (∀ i, bits.length < i → m.rank i = none) := by
  obtain ⟨m, h1, h2⟩ := ofBits_repr bits
  exact ⟨m, h1, h2.len, h2.get, h2.rank, h2.rank0, h2.rank_gt⟩

/-- Non-vacuity: a 140-bit map spans several words and an index block. -/
example : ((BitMap.ofBits ((List.range 140).map (fun i => i % 3 == 0))).bind (·.rank 137)) =
    some 46 := by decide +kernel

/-- C02. Every list of 64-bit integers reads back; an index past the end is rejected (an empty
container reads as zero everywhere). -/
theorem C02_dac_roundtrip (data : List Int64) :
    ∃ d, Dac.ofList data = some d ∧
      (∀ i (h : i < data.length), d.get i = some data[i]) ∧
      (data ≠ [] → ∀ i, data.length ≤ i → d.get i = none) ∧
      (data = [] → ∀ i, d.get i = some 0) := by
  obtain ⟨d, h1, h2⟩ := dac_ofList_repr data
  refine ⟨d, h1, h2.get, fun hne i hi => h2.get_ge i hne hi, ?_⟩
  intro h i
  subst h
  exact h2.get_nil i

/-- Non-vacuity: values of one to eight bytes, including the extremes. -/
example : (Dac.ofList [0, -1, 300, Int64.minValue, 7, Int64.maxValue]).bind (·.get 3) =
    some Int64.minValue := by decide +kernel

/-- C03. Zigzag is a bijection with the decoder as inverse, maps `n ≥ 0` to `2n` and `n < 0` to
`-2n - 1`, and a container of integers uses at most `b` byte levels (`1 ≤ b ≤ 8`) exactly when all
images are below `256^b`. -/
theorem C03_zigzag :
    (∀ n : Int64, zigzagDecode (zigzagEncode n) = n) ∧
    (∀ u : BitVec 64, zigzagEncode (zigzagDecode u) = u) ∧
    (∀ n : Int64, ((zigzagEncode n).toNat : Int) =
      if 0 ≤ n.toInt then 2 * n.toInt else -2 * n.toInt - 1) ∧
    (∀ data : List Int64, ∃ d, Dac.ofList data = some d ∧
      ∀ b, 0 < b → b ≤ 8 →
        (d.levels.length ≤ b ↔ ∀ n ∈ data, (zigzagEncode n).toNat < 256 ^ b)) := by
  refine ⟨zigzag_roundtrip, zigzag_decode_encode, zigzag_toNat, ?_⟩
  intro data
  obtain ⟨d, h1, h2⟩ := dac_ofList_repr data
  refine ⟨d, h1, ?_⟩
  intro b hb1 hb2
  rw [levels_length 8 _ _ h2 (fun x _ => x.isLt) b hb1 hb2]
  simp

example : (zigzagEncode (-3)).toNat = 5 ∧ (zigzagEncode 3).toNat = 6 := by decide

end Verif
