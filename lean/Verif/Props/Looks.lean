import Verif.Lemmas.Looks

/-! C86: a cell of a chunk is read from few places. -/
namespace Verif

theorem BitMap.look_inj {m m' : BitMap} (h : ∀ p, m.look p = m'.look p) : m = m' := by
  have h1 : m.index = m'.index := List.ext_getElem? fun i => h [0, i]
  have h2 : m.bitmap = m'.bitmap := List.ext_getElem? fun i => toNat_map_inj (h [1, i])
  have h3 : m.length = m'.length := by simpa [BitMap.look] using h [2]
  have h4 : m.k = m'.k := by simpa [BitMap.look] using h [3]
  cases m
  cases m'
  simp_all

theorem Dac.look_inj {d d' : Dac} (h : ∀ p, d.look p = d'.look p) : d = d' := by
  have key : ∀ ls ls' : List (BitMap × List Byte), (∀ p, Dac.lookLevels ls p = Dac.lookLevels ls' p) → ls = ls' := by
    intro ls
    induction ls with
    | nil =>
      intro ls' h
      cases ls' with
      | nil => rfl
      | cons l ls' => simpa [Dac.lookLevels] using h []
    | cons l ls ih =>
      intro ls' h
      obtain ⟨m, bytes⟩ := l
      cases ls' with
      | nil => simpa [Dac.lookLevels] using h []
      | cons l' ls' =>
        obtain ⟨m', bytes'⟩ := l'
        have h1 : m = m' := BitMap.look_inj fun p => by simpa [Dac.lookLevels] using h (0 :: p)
        have h2 : bytes = bytes' := List.ext_getElem? fun i => toNat_map_inj (by
          simpa [Dac.lookLevels] using h [1, i])
        have h3 : ls = ls' := ih ls' fun p => by simpa [Dac.lookLevels] using h (2 :: p)
        rw [h1, h2, h3]
  have := key d.levels d'.levels h
  cases d
  cases d'
  simp_all

theorem Snapshot.look_inj {s s' : Snapshot} (h : ∀ p, s.look p = s'.look p) : s = s' := by
  have h1 : s.nodemap = s'.nodemap := BitMap.look_inj fun p => h (0 :: p)
  have h2 : s.max = s'.max := Dac.look_inj fun p => h (1 :: p)
  have h3 : s.min = s'.min := Dac.look_inj fun p => h (2 :: p)
  have h4 : s.k = s'.k := by simpa [Snapshot.look] using h [3]
  have h5 : s.rows = s'.rows := by simpa [Snapshot.look] using h [4]
  have h6 : s.cols = s'.cols := by simpa [Snapshot.look] using h [5]
  have h7 : s.sidelen = s'.sidelen := by simpa [Snapshot.look] using h [6]
  cases s
  cases s'
  simp_all

theorem Log.look_inj {l l' : Log} (h : ∀ p, l.look p = l'.look p) : l = l' := by
  have h1 : l.nodemap = l'.nodemap := BitMap.look_inj fun p => h (0 :: p)
  have h2 : l.equal = l'.equal := BitMap.look_inj fun p => h (1 :: p)
  have h3 : l.max = l'.max := Dac.look_inj fun p => h (2 :: p)
  have h4 : l.min = l'.min := Dac.look_inj fun p => h (3 :: p)
  have h5 : l.k = l'.k := by simpa [Log.look] using h [4]
  have h6 : l.rows = l'.rows := by simpa [Log.look] using h [5]
  have h7 : l.cols = l'.cols := by simpa [Log.look] using h [6]
  have h8 : l.sidelen = l'.sidelen := by simpa [Log.look] using h [7]
  cases l
  cases l'
  simp_all

theorem Block.look_inj {b b' : Block} (h : ∀ p, b.look p = b'.look p) : b = b' := by
  have h1 : b.snapshot = b'.snapshot := Snapshot.look_inj fun p => h (0 :: p)
  have h2 : b.logs = b'.logs := by
    refine List.ext_getElem? fun i => ?_
    have h0 := h [1, i]
    cases e1 : b.logs[i]? with
    | none => cases e2 : b'.logs[i]? with
      | none => rfl
      | some l' => simp [Block.look, e1, e2] at h0
    | some l => cases e2 : b'.logs[i]? with
      | none => simp [Block.look, e1, e2] at h0
      | some l' =>
        congr 1
        refine Log.look_inj fun p => ?_
        by_cases hp : p = []
        · subst hp; rfl
        · simpa [Block.look, e1, e2, hp] using h (1 :: i :: p)
  cases b
  cases b'
  simp_all

/-- C86. The places are all there is in a chunk: two chunks that have the same at every place are the same. -/
theorem C86_places (c c' : Chunk) (h : ∀ p, c.look p = c'.look p) : c = c' := by
  have h1 : c.blocks = c'.blocks := by
    refine List.ext_getElem? fun i => ?_
    have h0 := h [0, i]
    cases e1 : c.blocks[i]? with
    | none => cases e2 : c'.blocks[i]? with
      | none => rfl
      | some b' => simp [Chunk.look, e1, e2] at h0
    | some b => cases e2 : c'.blocks[i]? with
      | none => simp [Chunk.look, e1, e2] at h0
      | some b' =>
        congr 1
        refine Block.look_inj fun p => ?_
        by_cases hp : p = []
        · subst hp; rfl
        · simpa [Chunk.look, e1, e2, hp] using h (0 :: i :: p)
  have h2 : c.index = c'.index := List.ext_getElem? fun i => h [1, i]
  have h3 : c.fractionalBits = c'.fractionalBits := by simpa [Chunk.look] using h [3]
  have h4 : c.encoding = c'.encoding := by
    have := h [4]
    simp only [Chunk.look, Option.some.injEq] at this
    revert this
    cases c.encoding <;> cases c'.encoding <;> decide
  cases c
  cases c'
  simp_all

/-- C86. A read of a cell looks at few words, bytes and numbers of a chunk: any other chunk that has the same at these
places gives the same, whatever else it holds. There are some 228 for every level of the tree and two for every
halving of the list of blocks. -/
theorem C86_cell (get : Nat → Nat → Nat → Int64) (instants rows cols k e : Nat) (hk : 2 ≤ k) (enc : MMEncoding)
    (fb t row col : Nat) (ht : t < instants) :
    ∃ r, Chunk.build get instants rows cols k e enc fb = some r ∧
      Spec.LooksAt Chunk.look (fun c => c.get t row col) r.data
        (228 * e + 2 * Nat.clog 2 r.data.blocks.length + 432) := by
  obtain ⟨bs, h1, -, h3, h4, -⟩ := chunk_build get instants rows cols k e (by omega) (by omega) enc fb
  refine ⟨_, h4, ?_⟩
  refine Chunk.looks_get (k := k) (fun b hb => ?_) enc fb t row col (by omega)
  obtain ⟨i, hi⟩ := List.getElem?_of_mem hb
  exact (h1 i b hi).small hk

/-- In terms of the shape of the series, when the side of the square is the least power that covers the raster: the
number of places grows with the logarithms of the sides and of the number of instants. -/
theorem C86_logarithmic (get : Nat → Nat → Nat → Int64) (instants rows cols k e : Nat) (hk : 2 ≤ k)
    (hleast : ∀ e', e' < e → k ^ e' < max rows cols) (enc : MMEncoding) (fb t row col : Nat) (ht : t < instants) :
    ∃ r, Chunk.build get instants rows cols k e enc fb = some r ∧
      Spec.LooksAt Chunk.look (fun c => c.get t row col) r.data
        (228 * Nat.clog k (max rows cols) + 2 * Nat.clog 2 instants + 432) := by
  obtain ⟨bs, h1, -, h3, h4, h5⟩ := chunk_build get instants rows cols k e (by omega) (by omega) enc fb
  obtain ⟨r, h6, h7⟩ := C86_cell get instants rows cols k e hk enc fb t row col ht
  refine ⟨r, h6, h7.mono ?_⟩
  rw [h4, Option.some.injEq] at h6
  have e1 : r.data.blocks.length ≤ instants := by rw [← h6]; exact h5
  have e2 : Nat.clog 2 r.data.blocks.length ≤ Nat.clog 2 instants := Nat.clog_mono_right 2 e1
  have e3 : e ≤ Nat.clog k (max rows cols) := by
    by_contra hc
    have a := hleast (Nat.clog k (max rows cols)) (by omega)
    have b := Nat.le_pow_clog (b := k) (by omega) (max rows cols)
    omega
  omega

/-- A series of 65536 instants of 1048576 times 1048576 cells: 5024 places of all that the chunk of 2^56 cells holds. -/
example (get : Nat → Nat → Nat → Int64) (t row col : Nat) (ht : t < 65536) :
    ∃ r, Chunk.build get 65536 1048576 1048576 2 20 .i64 0 = some r ∧
      Spec.LooksAt Chunk.look (fun c => c.get t row col) r.data 5024 := by
  obtain ⟨r, h1, h2⟩ := C86_logarithmic get 65536 1048576 1048576 2 20 (by omega) (fun e' h => by
    have : 2 ^ e' < 2 ^ 20 := Nat.pow_lt_pow_right (by omega) h
    simpa using this) .i64 0 t row col ht
  refine ⟨r, h1, h2.mono ?_⟩
  rw [show max 1048576 1048576 = 2 ^ 20 by norm_num, show 65536 = 2 ^ 16 by norm_num,
    Nat.clog_pow 2 20 (by omega), Nat.clog_pow 2 16 (by omega)]

end Verif
