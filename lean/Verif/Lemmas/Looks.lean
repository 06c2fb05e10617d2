import Verif.Lemmas.ChunkRead
import Mathlib.Data.Nat.Log

/-! What a read of a cell looks at. -/
namespace Verif

/-- A place in a structure. -/
abbrev Place := List Nat

/-- `f` looks at no more than `n` places of `s`: with any other structure that has the same at these places, it has
the same result. -/
def Spec.LooksAt {S β : Type} (look : S → Place → Option Nat) (f : S → β) (s : S) (n : Nat) : Prop :=
  ∃ ps : List Place, ps.length ≤ n ∧ ∀ s', (∀ p ∈ ps, look s' p = look s p) → f s' = f s

/-- What is at a place of a bit map: an entry of the index, a word, or one of the numbers. -/
def BitMap.look (m : BitMap) : Place → Option Nat
  | [0, i] => m.index[i]?
  | [1, i] => (m.bitmap[i]?).map BitVec.toNat
  | [2] => some m.length
  | [3] => some m.k
  | [4] => some m.bitmap.length
  | _ => none

/-- What is at a place of the levels of integers: of the first level the bit map and the bytes, or of the others;
or whether there is a level. -/
def Dac.lookLevels : List (BitMap × List Byte) → Place → Option Nat
  | [], p => if p = [] then some 0 else none
  | (m, bytes) :: rest, p =>
    match p with
    | [] => some 1
    | 0 :: p => m.look p
    | [1, i] => (bytes[i]?).map BitVec.toNat
    | 2 :: p => Dac.lookLevels rest p
    | _ => none

def Dac.look (d : Dac) : Place → Option Nat := Dac.lookLevels d.levels

def Snapshot.look (s : Snapshot) : Place → Option Nat
  | 0 :: p => s.nodemap.look p
  | 1 :: p => s.max.look p
  | 2 :: p => s.min.look p
  | [3] => some s.k
  | [4] => some s.rows
  | [5] => some s.cols
  | [6] => some s.sidelen
  | _ => none

def Log.look (l : Log) : Place → Option Nat
  | 0 :: p => l.nodemap.look p
  | 1 :: p => l.equal.look p
  | 2 :: p => l.max.look p
  | 3 :: p => l.min.look p
  | [4] => some l.k
  | [5] => some l.rows
  | [6] => some l.cols
  | [7] => some l.sidelen
  | _ => none

def Block.look (b : Block) : Place → Option Nat
  | 0 :: p => b.snapshot.look p
  | 1 :: i :: p =>
    match b.logs[i]? with
    | none => none
    | some l => if p = [] then some 0 else l.look p
  | [2] => some b.logs.length
  | _ => none

def Chunk.look (c : Chunk) : Place → Option Nat
  | 0 :: i :: p =>
    match c.blocks[i]? with
    | none => none
    | some b => if p = [] then some 0 else b.look p
  | [1, i] => c.index[i]?
  | [2] => some c.blocks.length
  | [3] => some c.fractionalBits
  | [4] => some c.encoding.ctorIdx
  | _ => none

namespace Spec.LooksAt

variable {S β γ : Type} {look : S → Place → Option Nat} {s : S} {n m : Nat}

theorem const (b : β) : LooksAt look (fun _ => b) s n := ⟨[], by simp, fun _ _ => rfl⟩

theorem mono {f : S → β} (h : LooksAt look f s n) (hnm : n ≤ m) : LooksAt look f s m := by
  obtain ⟨ps, h1, h2⟩ := h
  exact ⟨ps, by omega, h2⟩

/-- What is looked at next may depend on what was seen. -/
theorem seq {f : S → β} {g : β → S → γ} (hf : LooksAt look f s n) (hg : LooksAt look (g (f s)) s m) :
    LooksAt look (fun x => g (f x) x) s (n + m) := by
  obtain ⟨ps, h1, h2⟩ := hf
  obtain ⟨qs, h3, h4⟩ := hg
  refine ⟨ps ++ qs, by simp; omega, fun s' h => ?_⟩
  simp only
  rw [h2 s' fun p hp => h p (by simp [hp]), h4 s' fun p hp => h p (by simp [hp])]

theorem map {f : S → β} (hf : LooksAt look f s n) (g : β → γ) : LooksAt look (fun x => g (f x)) s n :=
  seq (g := fun b _ => g b) (m := 0) hf (const _)

/-- Looking at one place. -/
theorem place {f : S → β} (p : Place) (h : ∀ s', look s' p = look s p → f s' = f s) : LooksAt look f s 1 :=
  ⟨[p], by simp, fun s' hs => h s' (hs p (by simp))⟩

/-- Looking at places of a part. -/
theorem part {T : Type} {look' : T → Place → Option Nat} {f : T → β} {t : S → T} (pre : Place)
    (hl : ∀ s p, look s (pre ++ p) = look' (t s) p) (h : LooksAt look' f (t s) n) :
    LooksAt look (fun x => f (t x)) s n := by
  obtain ⟨ps, h1, h2⟩ := h
  refine ⟨ps.map (pre ++ ·), by simpa using h1, fun s' hs => h2 _ fun p hp => ?_⟩
  rw [← hl, ← hl]
  exact hs _ (List.mem_map.2 ⟨p, hp, rfl⟩)

theorem congr {f g : S → β} (h : LooksAt look f s n) (e : ∀ x, g x = f x) : LooksAt look g s n := by
  rw [show g = f from funext e]; exact h

end Spec.LooksAt

open Spec (LooksAt)

theorem toNat_map_inj {w : Nat} {a b : Option (BitVec w)} (h : a.map BitVec.toNat = b.map BitVec.toNat) :
    a = b := by
  cases a <;> cases b <;> simp_all
  exact BitVec.eq_of_toNat_eq h

namespace BitMap
variable {m : BitMap}

theorem looks_word (i : Nat) : LooksAt BitMap.look (fun m => m.bitmap[i]?) m 1 :=
  .place [1, i] fun _ h => toNat_map_inj h

theorem looks_get (i : Nat) : LooksAt BitMap.look (fun m => m.get i) m 1 := by
  refine ((looks_word (i / 32)).map fun w => match w with
    | none => none
    | some word => some (decide (((word >>> (31 - i % 32)) &&& 1#32) > 0#32))).congr fun x => ?_
  unfold BitMap.get
  rfl

theorem looks_length : LooksAt BitMap.look BitMap.length m 1 :=
  .place [2] fun _ h => by simpa [BitMap.look] using h

theorem looks_k : LooksAt BitMap.look BitMap.k m 1 :=
  .place [3] fun _ h => by simpa [BitMap.look] using h

theorem looks_words : LooksAt BitMap.look (fun m => m.bitmap.length) m 1 :=
  .place [4] fun _ h => by simpa [BitMap.look] using h

theorem looks_index (i : Nat) : LooksAt BitMap.look (fun m => m.index[i]?) m 1 :=
  .place [0, i] fun _ h => h

theorem looks_slice (a b : Nat) : LooksAt BitMap.look (fun m => slice? m.bitmap a b) m (1 + (b - a)) := by
  refine ⟨[4] :: (List.range' a (b - a)).map fun i => [1, i], by simp; try omega, fun m' h => ?_⟩
  have h0 : m'.bitmap.length = m.bitmap.length := by simpa [BitMap.look] using h [4] (by simp)
  unfold slice?
  simp only
  rw [h0]
  by_cases hc : a ≤ b ∧ b ≤ m.bitmap.length
  · rw [if_pos hc, if_pos hc]
    congr 1
    apply List.ext_getElem?
    intro i
    rw [List.getElem?_take, List.getElem?_take]
    by_cases hi : i < b - a
    · rw [if_pos hi, if_pos hi, List.getElem?_drop, List.getElem?_drop]
      refine toNat_map_inj (h [1, a + i] ?_)
      simp only [List.mem_cons, List.mem_map]
      exact Or.inr ⟨a + i, by rw [List.mem_range'_1]; omega, rfl⟩
    · rw [if_neg hi, if_neg hi]
  · rw [if_neg hc, if_neg hc]

theorem looks_rank (i : Nat) : LooksAt BitMap.look (fun m => m.rank i) m (m.k + 5) := by
  obtain ⟨p1, a1, b1⟩ := looks_length (m := m)
  obtain ⟨p2, a2, b2⟩ := looks_k (m := m)
  by_cases h0 : m.k = 0
  · refine ⟨p1 ++ p2, by simp; omega, fun m' h => ?_⟩
    simp only [BitMap.rank]
    rw [b1 m' fun p hp => h p (by simp [hp]), b2 m' fun p hp => h p (by simp [hp]), if_pos h0, if_pos h0]
  obtain ⟨p3, a3, b3⟩ := looks_index (m := m) (i / 32 / m.k - 1)
  obtain ⟨p4, a4, b4⟩ := looks_slice (m := m) (i / 32 / m.k * m.k) (i / 32)
  obtain ⟨p5, a5, b5⟩ := looks_word (m := m) (i / 32)
  have hle : i / 32 - i / 32 / m.k * m.k ≤ m.k := by
    have h1 := Nat.div_add_mod (i / 32) m.k
    rw [Nat.mul_comm] at h1
    have := Nat.mod_lt (i / 32) (Nat.pos_of_ne_zero h0)
    generalize i / 32 / m.k * m.k = x at *
    omega
  refine ⟨p1 ++ p2 ++ p3 ++ p4 ++ p5, ?_, fun m' h => ?_⟩
  · simp only [List.length_append]
    generalize i / 32 / m.k * m.k = x at *
    omega
  simp only at b3 b4 b5
  simp only [BitMap.rank]
  rw [b1 m' fun p hp => h p (by simp [hp]), b2 m' fun p hp => h p (by simp [hp]),
    b3 m' fun p hp => h p (by simp [hp]), b4 m' fun p hp => h p (by simp [hp]),
    b5 m' fun p hp => h p (by simp [hp])]

theorem looks_rank0 (i : Nat) : LooksAt BitMap.look (fun m => m.rank0 i) m (m.k + 5) :=
  ((looks_rank i).map fun o => match o with
    | none => none
    | some r => if r ≤ i then some (i - r) else none).congr fun x => by unfold BitMap.rank0; rfl

theorem looks_leafGe (i : Nat) : LooksAt BitMap.look (fun m => isLeafGe m i) m 2 := by
  obtain ⟨p1, a1, b1⟩ := looks_length (m := m)
  obtain ⟨p2, a2, b2⟩ := looks_get (m := m) i
  refine ⟨p1 ++ p2, by simp; omega, fun m' h => ?_⟩
  simp only at b2
  simp only [isLeafGe]
  rw [b1 m' fun p hp => h p (by simp [hp]), b2 m' fun p hp => h p (by simp [hp])]

theorem looks_leafGt (i : Option Nat) : LooksAt BitMap.look (fun m => optLeaf isLeafGt m i) m 2 := by
  cases i with
  | none => exact .const _
  | some i =>
    obtain ⟨p1, a1, b1⟩ := looks_length (m := m)
    obtain ⟨p2, a2, b2⟩ := looks_get (m := m) i
    refine ⟨p1 ++ p2, by simp; omega, fun m' h => ?_⟩
    simp only at b2
    simp only [optLeaf, isLeafGt]
    rw [b1 m' fun p hp => h p (by simp [hp]), b2 m' fun p hp => h p (by simp [hp])]

theorem looks_base (k : Nat) (i : Option Nat) : LooksAt BitMap.look (fun m => childBase m k i) m (m.k + 5) := by
  cases i with
  | none => exact .const _
  | some i => exact (looks_rank i).map fun o => o.map fun r => some (1 + r * k * k)

end BitMap

/-! ### Integers -/

theorem Dac.looks_loop : ∀ (ls : List (BitMap × List Byte)), (∀ l ∈ ls, l.1.k = 4) → ∀ (i index : Nat)
    (n : BitVec 64), LooksAt Dac.lookLevels (fun ls => Dac.getLoop ls i index n) ls (12 * ls.length + 1) := by
  intro ls
  induction ls with
  | nil =>
    intro _ i index n
    refine .place [] fun ls' h => ?_
    cases ls' with
    | nil => rfl
    | cons l ls' => simp [Dac.lookLevels] at h
  | cons l ls ih =>
    intro hk i index n
    obtain ⟨m, bytes⟩ := l
    have hm : m.k = 4 := hk (m, bytes) (by simp)
    obtain ⟨p1, a1, b1⟩ := BitMap.looks_get (m := m) index
    obtain ⟨p2, a2, b2⟩ := BitMap.looks_rank (m := m) index
    simp only at b1 b2
    have key : ∃ ps : List Place, ps.length ≤ 12 * ls.length + 1 ∧ ∀ ls', (∀ p ∈ ps,
        Dac.lookLevels ls' p = Dac.lookLevels ls p) → ∀ byte r, bytes[index]? = some byte → m.rank index = some r →
        Dac.getLoop ls' (i + 1) r (n ||| ((byte.zeroExtend 64) <<< (i * 8 % 64))) =
        Dac.getLoop ls (i + 1) r (n ||| ((byte.zeroExtend 64) <<< (i * 8 % 64))) := by
      cases hb : bytes[index]? with
      | none => exact ⟨[], by simp, fun _ _ _ _ h => by simp at h⟩
      | some byte =>
        cases hr : m.rank index with
        | none => exact ⟨[], by simp, fun _ _ _ _ _ h => by simp at h⟩
        | some r =>
          obtain ⟨ps, c1, c2⟩ := ih (fun l hl => hk l (by simp [hl])) (i + 1) r
            (n ||| ((byte.zeroExtend 64) <<< (i * 8 % 64)))
          refine ⟨ps, c1, fun ls' h byte' r' e1 e2 => ?_⟩
          cases e1
          cases e2
          exact c2 ls' h
    obtain ⟨p3, a3, b3⟩ := key
    refine ⟨[] :: [1, index] :: (p1.map (0 :: ·) ++ p2.map (0 :: ·) ++ p3.map (2 :: ·)), ?_, fun ls' h => ?_⟩
    · simp only [List.length_cons, List.length_append, List.length_map]
      omega
    cases ls' with
    | nil => simpa [Dac.lookLevels] using h [] (by simp)
    | cons l' ls' =>
    obtain ⟨m', bytes'⟩ := l'
    have e1 : bytes'[index]? = bytes[index]? := by
      refine toNat_map_inj ?_
      simpa [Dac.lookLevels] using h [1, index] (by simp)
    have e2 : m'.get index = m.get index := b1 m' fun p hp => by
      simpa [Dac.lookLevels] using h (0 :: p) (by simp [hp])
    have e3 : m'.rank index = m.rank index := b2 m' fun p hp => by
      simpa [Dac.lookLevels] using h (0 :: p) (by simp [hp])
    have e4 := b3 ls' fun p hp => by
      simpa [Dac.lookLevels] using h (2 :: p) (by simp [hp])
    simp only [Dac.getLoop]
    rw [e1, e2, e3]
    cases hb : bytes[index]? with
    | none => rfl
    | some byte =>
      cases hg : m.get index with
      | none => rfl
      | some b =>
        cases b with
        | false => rfl
        | true =>
          cases hr : m.rank index with
          | none => rfl
          | some r => exact e4 byte r hb hr

/-- A list of integers as it is built: no more than eight levels. -/
structure Dac.Small (d : Dac) : Prop where
  levels : d.levels.length ≤ 8
  maps : ∀ l ∈ d.levels, l.1.k = 4

theorem Dac.looks_get {d : Dac} (hd : d.Small) (index : Nat) :
    LooksAt Dac.look (fun d => d.get index) d 97 := by
  have h := Dac.looks_loop d.levels hd.maps 0 index 0#64
  have h1 : LooksAt Dac.look (fun d => Dac.getLoop d.levels 0 index 0#64) d (12 * d.levels.length + 1) :=
    .part [] (t := Dac.levels) (fun _ _ => rfl) h
  have := hd.levels
  exact ((h1.map fun o => match o with
    | none => none
    | some n => some (zigzagDecode n)).congr fun x => by unfold Dac.get; rfl).mono (by omega)

/-! ### Snapshots and logs -/

structure Snapshot.Small (s : Snapshot) : Prop where
  nodemap : s.nodemap.k = 4
  max : s.max.Small

structure Log.Small (l : Log) : Prop where
  nodemap : l.nodemap.k = 4
  equal : l.equal.k = 4
  max : l.max.Small

theorem Snapshot.looks_go {s : Snapshot} (hs : s.Small) (hk : 2 ≤ s.k) : ∀ (j fuel sidelen row col index : Nat)
    (m : Int64), sidelen < s.k ^ j →
    LooksAt Snapshot.look (fun s => s.getGo fuel sidelen row col index m) s (109 * j + 1) := by
  intro j
  induction j with
  | zero =>
    intro fuel sidelen row col index m hj
    refine .place [3] fun s' h => ?_
    have hk' : s'.k = s.k := by simpa [Snapshot.look] using h
    cases fuel with
    | zero => rfl
    | succ fuel =>
      have h0 : sidelen = 0 := by simpa using hj
      simp only [Snapshot.getGo, hk', h0, Nat.zero_div, if_pos]
  | succ j ih =>
    intro fuel sidelen row col index m hj
    cases fuel with
    | zero => exact .const _
    | succ fuel =>
    have hj' : sidelen / s.k < s.k ^ j := by
      rw [Nat.div_lt_iff_lt_mul (by omega), ← Nat.pow_succ]; exact hj
    obtain ⟨p1, a1, b1⟩ := BitMap.looks_rank (m := s.nodemap) index
    rw [hs.nodemap] at a1
    simp only at b1
    have base : ∀ s' : Snapshot, s'.k = s.k → s'.nodemap.rank index = s.nodemap.rank index →
        (sidelen / s.k = 0 ∨ s.nodemap.rank index = none) →
        s'.getGo (fuel + 1) sidelen row col index m = s.getGo (fuel + 1) sidelen row col index m := by
      intro s' e1 e2 h
      simp only [Snapshot.getGo, e1, e2]
      rcases h with h | h
      · rw [if_pos h, if_pos h]
      · rw [h]
    have step : ∀ s' : Snapshot, (∀ p ∈ [3] :: p1.map (0 :: ·), Snapshot.look s' p = Snapshot.look s p) →
        s'.k = s.k ∧ s'.nodemap.rank index = s.nodemap.rank index := by
      intro s' h
      exact ⟨by simpa [Snapshot.look] using h [3] (by simp), b1 _ fun p hp => by
        simpa [Snapshot.look] using h (0 :: p) (by simp [hp])⟩
    by_cases h0 : sidelen / s.k = 0
    · refine ⟨[3] :: p1.map (0 :: ·), by simp; omega, fun s' h => ?_⟩
      exact base s' (step s' h).1 (step s' h).2 (Or.inl h0)
    cases hr : s.nodemap.rank index with
    | none =>
      refine ⟨[3] :: p1.map (0 :: ·), by simp; omega, fun s' h => ?_⟩
      exact base s' (step s' h).1 (step s' h).2 (Or.inr hr)
    | some r =>
    generalize hx : 1 + r * s.k * s.k + row / (sidelen / s.k) * s.k + col / (sidelen / s.k) = x
    obtain ⟨p2, a2, b2⟩ := Dac.looks_get hs.max x
    obtain ⟨p3, a3, b3⟩ := BitMap.looks_leafGe (m := s.nodemap) x
    simp only at b2 b3
    obtain ⟨p4, a4, b4⟩ := ih fuel (sidelen / s.k) (row % (sidelen / s.k)) (col % (sidelen / s.k)) x
      (m - (s.max.get x).getD 0) hj'
    simp only at b4
    refine ⟨([3] :: p1.map (0 :: ·)) ++ p2.map (1 :: ·) ++ p3.map (0 :: ·) ++ p4, ?_, fun s' h => ?_⟩
    · simp only [List.length_cons, List.length_append, List.length_map]
      omega
    obtain ⟨e1, e2⟩ := step s' fun p hp => h p (by simp only [List.mem_append]; exact Or.inl (Or.inl (Or.inl hp)))
    have e3 : s'.max.get x = s.max.get x := b2 _ fun p hp => by
      simpa [Snapshot.look] using h (1 :: p) (by simp [hp])
    have e4 : isLeafGe s'.nodemap x = isLeafGe s.nodemap x := b3 _ fun p hp => by
      simpa [Snapshot.look] using h (0 :: p) (by simp [hp])
    have e5 := b4 s' fun p hp => h p (by simp [hp])
    simp only [Snapshot.getGo, e1, e2, hr, hx, e3, e4]
    rw [if_neg (by omega), if_neg h0, if_neg (by omega), if_neg h0]
    cases hm : s.max.get x with
    | none => rfl
    | some d =>
      rw [hm] at e5
      cases hl : isLeafGe s.nodemap x with
      | none => rfl
      | some b =>
        cases b with
        | true => rfl
        | false => exact e5

theorem Snapshot.looks_get {s : Snapshot} (hs : s.Small) (hk : 2 ≤ s.k) {e : Nat} (hside : s.sidelen = s.k ^ e)
    (row col : Nat) : LooksAt Snapshot.look (fun s => s.get row col) s (109 * e + 209) := by
  obtain ⟨p1, a1, b1⟩ := BitMap.looks_get (m := s.nodemap) 0
  obtain ⟨p2, a2, b2⟩ := Dac.looks_get hs.max 0
  obtain ⟨p3, a3, b3⟩ := Snapshot.looks_go hs hk (e + 1) s.sidelen s.sidelen row col 0 ((s.max.get 0).getD 0)
    (by rw [hside]; exact Nat.pow_lt_pow_right (by omega) (by omega))
  simp only at b1 b2 b3
  refine ⟨[6] :: (p1.map (0 :: ·) ++ p2.map (1 :: ·) ++ p3), ?_, fun s' h => ?_⟩
  · simp only [List.length_cons, List.length_append, List.length_map]
    omega
  have e0 : s'.sidelen = s.sidelen := by simpa [Snapshot.look] using h [6] (by simp)
  have e1 : s'.nodemap.get 0 = s.nodemap.get 0 := b1 _ fun p hp => by
    simpa [Snapshot.look] using h (0 :: p) (by simp [hp])
  have e2 : s'.max.get 0 = s.max.get 0 := b2 _ fun p hp => by
    simpa [Snapshot.look] using h (1 :: p) (by simp [hp])
  have e3 := b3 s' fun p hp => h p (by simp [hp])
  simp only [Snapshot.get, e0, e1, e2]
  cases hg : s.nodemap.get 0 with
  | none => rfl
  | some b =>
    cases b with
    | false => rfl
    | true =>
      cases hm : s.max.get 0 with
      | none => rfl
      | some d => rw [hm] at e3; exact e3

/-- What is at a place of a log together with its snapshot. -/
def lookPair (x : Log × Snapshot) : Place → Option Nat
  | 0 :: p => x.1.look p
  | 1 :: p => x.2.look p
  | _ => none

namespace Log
variable {l : Log} {s : Snapshot}

theorem looks_baseT (h : l.Small) (k : Nat) (i : Option Nat) :
    LooksAt lookPair (fun x => childBase x.1.nodemap k i) (l, s) 9 :=
  .part [0, 0] (t := fun x : Log × Snapshot => x.1.nodemap) (fun _ _ => rfl)
    ((BitMap.looks_base k i).mono (by show l.nodemap.k + 5 ≤ 9; rw [h.nodemap]))

theorem looks_baseS (h : s.Small) (k : Nat) (i : Option Nat) :
    LooksAt lookPair (fun x => childBase x.2.nodemap k i) (l, s) 9 :=
  .part [1, 0] (t := fun x : Log × Snapshot => x.2.nodemap) (fun _ _ => rfl)
    ((BitMap.looks_base k i).mono (by show s.nodemap.k + 5 ≤ 9; rw [h.nodemap]))

theorem looks_dacT (h : l.Small) (i : Nat) : LooksAt lookPair (fun x => x.1.max.get i) (l, s) 97 :=
  .part (f := fun d : Dac => d.get i) [0, 2] (t := fun x : Log × Snapshot => x.1.max) (fun _ _ => rfl)
    (Dac.looks_get h.max i)

theorem looks_dacS (h : s.Small) (i : Nat) : LooksAt lookPair (fun x => x.2.max.get i) (l, s) 97 :=
  .part (f := fun d : Dac => d.get i) [1, 1] (t := fun x : Log × Snapshot => x.2.max) (fun _ _ => rfl)
    (Dac.looks_get h.max i)

theorem looks_maxT (h : l.Small) (m : Int64) (i : Option Nat) :
    LooksAt lookPair (fun x => x.1.childMaxT m i) (l, s) 97 := by
  cases i with
  | none => exact .const _
  | some i => exact looks_dacT h i

theorem looks_maxS (h : s.Small) (m : Int64) (i : Option Nat) :
    LooksAt lookPair (fun x => x.2.childMaxS m i) (l, s) 97 := by
  cases i with
  | none => exact .const _
  | some i => exact (looks_dacS h i).map fun o => o.map fun d => m - d

theorem looks_leafT (i : Option Nat) :
    LooksAt lookPair (fun x => optLeaf isLeafGt x.1.nodemap i) (l, s) 2 :=
  .part [0, 0] (t := fun x : Log × Snapshot => x.1.nodemap) (fun _ _ => rfl) (BitMap.looks_leafGt i)

theorem looks_leafS (i : Option Nat) :
    LooksAt lookPair (fun x => optLeaf isLeafGt x.2.nodemap i) (l, s) 2 :=
  .part [1, 0] (t := fun x : Log × Snapshot => x.2.nodemap) (fun _ _ => rfl) (BitMap.looks_leafGt i)

theorem looks_lenT : LooksAt lookPair (fun x => x.1.nodemap.length) (l, s) 1 :=
  .part [0, 0] (t := fun x : Log × Snapshot => x.1.nodemap) (fun _ _ => rfl) BitMap.looks_length

theorem looks_k : LooksAt lookPair (fun x => x.1.k) (l, s) 1 :=
  .place [0, 4] fun _ h => by simpa [lookPair, Log.look] using h

theorem looks_side : LooksAt lookPair (fun x => x.1.sidelen) (l, s) 1 :=
  .place [0, 7] fun _ h => by simpa [lookPair, Log.look] using h

theorem looks_equal (i : Nat) : LooksAt lookPair (fun x => x.1.equal.get i) (l, s) 1 :=
  .part [0, 1] (t := fun x : Log × Snapshot => x.1.equal) (fun _ _ => rfl) (BitMap.looks_get i)

theorem looks_equalAt (h : l.Small) (i : Nat) : LooksAt lookPair (fun x => x.1.equalAt i) (l, s) 10 := by
  have h1 : LooksAt lookPair (fun x => x.1.nodemap.rank0 (i + 1)) (l, s) 9 :=
    .part [0, 0] (t := fun x : Log × Snapshot => x.1.nodemap) (fun _ _ => rfl)
      ((BitMap.looks_rank0 (i + 1)).mono (by show l.nodemap.k + 5 ≤ 9; rw [h.nodemap]))
  refine (LooksAt.seq (n := 9) (m := 1) (g := fun o x => match o with
    | none => none
    | some r =>
      match csub r 1 with
      | none => none
      | some q => x.1.equal.get q) h1 ?_).congr fun x => by unfold Log.equalAt; rfl
  simp only
  cases l.nodemap.rank0 (i + 1) with
  | none => exact .const _
  | some r =>
    simp only
    cases csub r 1 with
    | none => exact .const _
    | some q => exact looks_equal q

theorem looks_go (hl : l.Small) (hs : s.Small) (hk : 2 ≤ l.k) : ∀ (j fuel sidelen row col : Nat)
    (indexT indexS : Option Nat) (maxT maxS : Int64), sidelen < l.k ^ j →
    LooksAt lookPair (fun x => x.1.getGo x.2 fuel sidelen row col indexT indexS maxT maxS) (l, s)
      (228 * j + 1) := by
  intro j
  induction j with
  | zero =>
    intro fuel sidelen row col indexT indexS maxT maxS hj
    have h0 : sidelen = 0 := by simpa using hj
    cases fuel with
    | zero => exact .const _
    | succ fuel =>
      refine (looks_k (l := l) (s := s)).mono (by omega) |>.map (fun _ => (none : Option Int64)) |>.congr fun x => ?_
      simp [Log.getGo, h0]
  | succ j ih =>
    intro fuel sidelen row col indexT indexS maxT maxS hj
    cases fuel with
    | zero => exact .const _
    | succ fuel =>
    have hj' : sidelen / l.k < l.k ^ j := by
      rw [Nat.div_lt_iff_lt_mul (by omega), ← Nat.pow_succ]; exact hj
    obtain ⟨p1, a1, b1⟩ := looks_k (l := l) (s := s)
    obtain ⟨p2, a2, b2⟩ := looks_baseS (l := l) hs l.k indexS
    obtain ⟨p3, a3, b3⟩ := looks_baseT (s := s) hl l.k indexT
    generalize hiS : ((childBase s.nodemap l.k indexS).getD none).map
      (fun b => b + row / (sidelen / l.k) * l.k + col / (sidelen / l.k)) = iS
    generalize hiT : ((childBase l.nodemap l.k indexT).getD none).map
      (fun b => b + row / (sidelen / l.k) * l.k + col / (sidelen / l.k)) = iT
    obtain ⟨p4, a4, b4⟩ := looks_maxS (l := l) hs maxS iS
    obtain ⟨p5, a5, b5⟩ := looks_maxT (s := s) hl maxT iT
    obtain ⟨p6, a6, b6⟩ := looks_leafT (l := l) (s := s) iT
    obtain ⟨p7, a7, b7⟩ := looks_leafS (l := l) (s := s) iS
    obtain ⟨p8, a8, b8⟩ := looks_lenT (l := l) (s := s)
    obtain ⟨p9, a9, b9⟩ := looks_equalAt (s := s) hl (iT.getD 0)
    obtain ⟨p10, a10, b10⟩ := ih fuel (sidelen / l.k) (row % (sidelen / l.k)) (col % (sidelen / l.k))
      (if optLeaf isLeafGt l.nodemap iT = some true then none else iT)
      (if optLeaf isLeafGt s.nodemap iS = some true then none else iS)
      ((l.childMaxT maxT iT).getD 0) ((s.childMaxS maxS iS).getD 0) hj'
    simp only at b1 b2 b3 b4 b5 b6 b7 b8 b9 b10
    refine ⟨p1 ++ (p2 ++ (p3 ++ (p4 ++ (p5 ++ (p6 ++ (p7 ++ (p8 ++ (p9 ++ p10)))))))), ?_, fun x h => ?_⟩
    · simp only [List.length_append]
      omega
    simp only [List.mem_append, or_imp, forall_and] at h
    obtain ⟨h1, h2, h3, h4, h5, h6, h7, h8, h9, h10⟩ := h
    have e1 := b1 x h1
    have e2 := b2 x h2
    have e3 := b3 x h3
    have e4 := b4 x h4
    have e5 := b5 x h5
    have e6 := b6 x h6
    have e7 := b7 x h7
    have e8 := b8 x h8
    have e9 := b9 x h9
    have e10 := b10 x h10
    simp only [Log.getGo, e1, e2, e3]
    have hk0 : ¬ l.k = 0 := by omega
    simp only [if_neg hk0]
    by_cases h0 : sidelen / l.k = 0
    · simp only [if_pos h0]
    simp only [if_neg h0]
    cases c1 : childBase s.nodemap l.k indexS with
    | none => rfl
    | some baseS =>
    cases c2 : childBase l.nodemap l.k indexT with
    | none => rfl
    | some baseT =>
    rw [c1] at hiS
    rw [c2] at hiT
    simp only [Option.getD_some] at hiS hiT
    simp only [hiS, hiT, e4, e5, e6, e7, e8]
    cases c3 : s.childMaxS maxS iS with
    | none => rfl
    | some mS =>
    cases c4 : l.childMaxT maxT iT with
    | none => rfl
    | some mT =>
    cases c5 : optLeaf isLeafGt l.nodemap iT with
    | none => rfl
    | some leafT =>
    cases c6 : optLeaf isLeafGt s.nodemap iS with
    | none => rfl
    | some leafS =>
    rw [c3, c4, c5, c6] at e10
    cases leafT <;> cases leafS
    · simpa using e10
    · simpa using e10
    · simp only [Option.getD_some, if_true, Option.some.injEq, Bool.false_eq_true, if_false] at e10
      cases c7 : iT with
      | none => simpa using e10
      | some index =>
        rw [c7] at e9
        simp only [Option.getD_some] at e9
        simp only [e9, Bool.and_false, Bool.false_eq_true, if_false, if_true, e10]
    · simp

theorem looks_get (hl : l.Small) (hs : s.Small) (hk : 2 ≤ l.k) {e : Nat} (hside : l.sidelen = l.k ^ e)
    (row col : Nat) : LooksAt lookPair (fun x => x.1.get x.2 row col) (l, s) (228 * e + 427) := by
  obtain ⟨p1, a1, b1⟩ := looks_dacT (s := s) hl 0
  obtain ⟨p2, a2, b2⟩ := looks_dacS (l := l) hs 0
  obtain ⟨p3, a3, b3⟩ : LooksAt lookPair (fun x => x.1.nodemap.get 0) (l, s) 1 :=
    .part [0, 0] (t := fun x : Log × Snapshot => x.1.nodemap) (fun _ _ => rfl) (BitMap.looks_get 0)
  obtain ⟨p4, a4, b4⟩ : LooksAt lookPair (fun x => x.2.nodemap.get 0) (l, s) 1 :=
    .part [1, 0] (t := fun x : Log × Snapshot => x.2.nodemap) (fun _ _ => rfl) (BitMap.looks_get 0)
  obtain ⟨p5, a5, b5⟩ := looks_side (l := l) (s := s)
  obtain ⟨p6, a6, b6⟩ := looks_equal (l := l) (s := s) 0
  obtain ⟨p7, a7, b7⟩ := looks_go hl hs hk (e + 1) l.sidelen l.sidelen row col
    (if l.nodemap.get 0 = some false then none else some 0) (if s.nodemap.get 0 = some false then none else some 0)
    ((l.max.get 0).getD 0) ((s.max.get 0).getD 0)
    (by rw [hside]; exact Nat.pow_lt_pow_right (by omega) (by omega))
  simp only at b1 b2 b3 b4 b5 b6 b7
  refine ⟨p1 ++ (p2 ++ (p3 ++ (p4 ++ (p5 ++ (p6 ++ p7))))), ?_, fun x h => ?_⟩
  · simp only [List.length_append]
    omega
  simp only [List.mem_append, or_imp, forall_and] at h
  obtain ⟨h1, h2, h3, h4, h5, h6, h7⟩ := h
  have e7 := b7 x h7
  simp only [Log.get, b1 x h1, b2 x h2, b3 x h3, b4 x h4, b5 x h5, b6 x h6]
  cases c1 : l.max.get 0 with
  | none => rfl
  | some mT =>
  cases c2 : s.max.get 0 with
  | none => rfl
  | some mS =>
  cases c3 : l.nodemap.get 0 with
  | none => rfl
  | some bT =>
  cases c4 : s.nodemap.get 0 with
  | none => rfl
  | some bS =>
  rw [c1, c2, c3, c4] at e7
  cases bT <;> cases bS <;> simp_all

end Log

/-! ### Blocks and chunks -/

structure Block.Small (b : Block) (k e : Nat) : Prop where
  arity : 2 ≤ k
  snapshot : b.snapshot.Small
  side : b.snapshot.sidelen = k ^ e
  k_eq : b.snapshot.k = k
  logs : ∀ l ∈ b.logs, l.Small ∧ l.k = k ∧ l.sidelen = k ^ e

theorem Block.looks_get {b : Block} {k e : Nat} (hb : b.Small k e) (t row col : Nat) :
    LooksAt Block.look (fun b => b.get t row col) b (228 * e + 428) := by
  cases t with
  | zero =>
    have h := Snapshot.looks_get hb.snapshot (by rw [hb.k_eq]; exact hb.arity) (e := e)
      (by rw [hb.side, hb.k_eq]) row col
    exact (LooksAt.part [0] (t := Block.snapshot) (fun _ _ => rfl) h).mono (by omega)
  | succ i =>
    cases hl : b.logs[i]? with
    | none =>
      refine (LooksAt.place (look := Block.look) [1, i] fun b' h => ?_).mono (by omega)
      have : b'.logs[i]? = none := by
        cases hl' : b'.logs[i]? with
        | none => rfl
        | some l' => simp [Block.look, hl, hl'] at h
      simp only [Block.get, hl, this]
    | some l =>
      obtain ⟨h1, h2, h3⟩ := hb.logs l (List.mem_of_getElem? hl)
      obtain ⟨ps, a1, b1⟩ := Log.looks_get h1 hb.snapshot (by rw [h2]; exact hb.arity) (e := e)
        (by rw [h3, h2]) row col
      refine ⟨[1, i] :: ps.map (fun p => match p with
        | 0 :: q => 1 :: i :: q
        | 1 :: q => 0 :: q
        | _ => []), by simp; omega, fun b' h => ?_⟩
      have h0 := h [1, i] (by simp)
      cases hl' : b'.logs[i]? with
      | none => simp [Block.look, hl, hl'] at h0
      | some l' =>
      simp only [Block.get, hl, hl']
      refine b1 (l', b'.snapshot) fun p hp => ?_
      have hq := h _ (List.mem_cons_of_mem _ (List.mem_map.2 ⟨p, hp, rfl⟩))
      rcases p with _ | ⟨_ | _ | n, q⟩
      · rfl
      · simp only [Block.look, hl, hl'] at hq
        simp only [lookPair]
        by_cases hq0 : q = []
        · subst hq0; rfl
        · rw [if_neg hq0, if_neg hq0] at hq
          exact hq
      · exact hq
      · rfl

/-- The search for a block halves the range in every step. -/
theorem looks_findLoop (bs : List Block) (t p : Nat) (hp : p < bs.length)
    (h1 : blocksLen (bs.take p) ≤ t) (h2 : t < blocksLen (bs.take (p + 1))) :
    ∀ j fuel lower upper, lower < p → p < upper → upper ≤ bs.length → upper - lower ≤ 2 ^ j →
      ∃ ps : List Nat, ps.length ≤ 2 * j ∧ ∀ index', (∀ i ∈ ps, index'[i]? = (Chunk.mkIndex 0 bs)[i]?) →
        Chunk.findLoop index' t fuel lower upper ((lower + upper) / 2) =
          Chunk.findLoop (Chunk.mkIndex 0 bs) t fuel lower upper ((lower + upper) / 2) := by
  intro j
  induction j with
  | zero => intro fuel lower upper a1 a2 a3 a4; simp at a4; omega
  | succ j ih =>
    intro fuel lower upper a1 a2 a3 a4
    cases fuel with
    | zero => exact ⟨[], by simp, fun _ _ => rfl⟩
    | succ fuel =>
    rw [Nat.pow_succ] at a4
    generalize hi : (lower + upper) / 2 = i
    have mono := fun {x y} => blocksLen_take_le bs (i := x) (j := y)
    have hget := mkIndex_getElem? bs 0 i (by omega)
    rw [Nat.zero_add] at hget
    by_cases c1 : blocksLen (bs.take (i + 1)) = t
    · refine ⟨[i], by simp; omega, fun index' h => ?_⟩
      rw [Chunk.findLoop, Chunk.findLoop, h i (by simp), hget]
      simp only [if_pos c1]
    by_cases c2 : blocksLen (bs.take (i + 1)) < t
    · have : i < p := by
        by_contra hc
        have := mono (x := p + 1) (y := i + 1) (by omega) (by omega); omega
      obtain ⟨ps, b1, b2⟩ := ih fuel i upper this a2 a3 (by omega)
      refine ⟨i :: ps, by simp; omega, fun index' h => ?_⟩
      rw [Chunk.findLoop, Chunk.findLoop, h i (by simp), hget]
      simp only [if_neg c1, if_pos c2]
      exact b2 index' fun q hq => h q (by simp [hq])
    · have hpi : p ≤ i := by
        by_contra hc
        have := mono (x := i + 1) (y := p) (by omega) (by omega); omega
      have hprev := mkIndex_getElem? bs 0 (i - 1) (by omega)
      rw [Nat.zero_add, show i - 1 + 1 = i by omega] at hprev
      have hcs : csub i 1 = some (i - 1) := by unfold csub; rw [if_pos (by omega)]
      by_cases c3 : blocksLen (bs.take i) ≤ t
      · refine ⟨[i, i - 1], by simp, fun index' h => ?_⟩
        rw [Chunk.findLoop, Chunk.findLoop, h i (by simp), hget]
        simp only [if_neg c1, if_neg c2, hcs]
        rw [h (i - 1) (by simp), hprev]
        simp only [if_pos c3]
      · have : p < i := by
          rcases Nat.lt_or_ge p i with h | h
          · exact h
          · have : i = p := by omega
            subst this
            omega
        obtain ⟨ps, b1, b2⟩ := ih fuel lower i a1 this (by omega) (by omega)
        refine ⟨i :: (i - 1) :: ps, by simp; omega, fun index' h => ?_⟩
        rw [Chunk.findLoop, Chunk.findLoop, h i (by simp), hget]
        simp only [if_neg c1, if_neg c2, hcs]
        rw [h (i - 1) (by simp), hprev]
        simp only [if_neg c3]
        exact b2 index' fun q hq => h q (by simp [hq])

theorem Chunk.looks_find (bs : List Block) (enc : MMEncoding) (fb t : Nat) (ht : t < blocksLen bs) :
    LooksAt Chunk.look (fun c => c.findBlock t) (Chunk.new bs enc fb) (2 * Nat.clog 2 bs.length + 3) := by
  obtain ⟨i, off, hh⟩ := exists_holds bs t ht
  have hspec := findBlock_spec bs enc fb t i off hh (bs.length + 1) (by omega)
  obtain ⟨b, h1, h2, h3⟩ := hh
  have l := (List.getElem?_eq_some_iff.1 h1).1
  have e := blocksLen_take_succ h1
  have hfirst := mkIndex_getElem? bs 0 0 (by omega)
  rw [Nat.zero_add] at hfirst
  by_cases hi : t < blocksLen (bs.take (0 + 1))
  · refine ⟨[[1, 0]], by simp, fun c' h => ?_⟩
    have e1 : c'.index[0]? = some (blocksLen (bs.take (0 + 1))) := by
      rw [← hfirst]; exact h [1, 0] (by simp)
    simp only [Chunk.findBlock, Chunk.findBlockFuel, e1, Chunk.new, hfirst, if_pos hi]
  · have hi0 : 0 < i := by
      rcases Nat.eq_zero_or_pos i with h0 | h0
      · subst h0; omega
      · exact h0
    obtain ⟨ps, b1, b2⟩ := looks_findLoop bs t i l (by omega) (by omega) (Nat.clog 2 bs.length) (bs.length + 1) 0
      bs.length hi0 l (by omega) (by have := Nat.le_pow_clog (b := 2) (by omega) bs.length; omega)
    refine ⟨[1, 0] :: [2] :: [1, i - 1] :: ps.map (fun i => [1, i]), by simp; try omega, fun c' h => ?_⟩
    have e1 : c'.index[0]? = (Chunk.mkIndex 0 bs)[0]? := h [1, 0] (by simp)
    have e2 : c'.blocks.length = bs.length := by
      simpa [Chunk.look, Chunk.new] using h [2] (by simp)
    have e3 : c'.index[i - 1]? = (Chunk.mkIndex 0 bs)[i - 1]? := h [1, i - 1] (by simp)
    have e4 := b2 c'.index fun q hq => h [1, q] (by
      simp only [List.mem_cons, List.mem_map]
      exact Or.inr (Or.inr (Or.inr ⟨q, hq, rfl⟩)))
    rw [Nat.zero_add] at e4
    have e5 : Chunk.findLoop (Chunk.mkIndex 0 bs) t (bs.length + 1) 0 bs.length (bs.length / 2) = some i :=
      findLoop_spec bs t i l (by omega) (by omega) (bs.length + 1) 0 bs.length _ hi0 l (by omega)
        (by omega) (by omega)
    simp only [Chunk.findBlock, Chunk.findBlockFuel, e1, e2, e4, Chunk.new, e5]
    have hcs : csub i 1 = some (i - 1) := by unfold csub; rw [if_pos (by omega)]
    simp only [hcs, e3]

theorem Chunk.looks_get {bs : List Block} {k e : Nat} (hb : ∀ b ∈ bs, b.Small k e) (enc : MMEncoding)
    (fb t row col : Nat) (ht : t < blocksLen bs) :
    LooksAt Chunk.look (fun c => c.get t row col) (Chunk.new bs enc fb)
      (228 * e + 2 * Nat.clog 2 bs.length + 432) := by
  obtain ⟨i, off, hh⟩ := exists_holds bs t ht
  have hspec : (Chunk.new bs enc fb).findBlock t = some (i, off) :=
    findBlock_spec bs enc fb t i off hh _ (by simp [Chunk.new])
  obtain ⟨b, h1, -, -⟩ := hh
  obtain ⟨p1, a1, b1⟩ := Chunk.looks_find bs enc fb t ht
  obtain ⟨p2, a2, b2⟩ := Block.looks_get (hb b (List.mem_of_getElem? h1)) off row col
  simp only at b1 b2
  refine ⟨[0, i] :: (p1 ++ p2.map (fun p => 0 :: i :: p)), ?_, fun c' h => ?_⟩
  · simp only [List.length_cons, List.length_append, List.length_map]
    omega
  have e1 := b1 c' fun p hp => h p (by simp [hp])
  have h1' : (Chunk.new bs enc fb).blocks[i]? = some b := h1
  simp only [Chunk.get, e1, hspec, h1']
  have h0 := h [0, i] (by simp)
  cases hb' : c'.blocks[i]? with
  | none => simp [Chunk.look, h1', hb'] at h0
  | some b' =>
    refine b2 b' fun p hp => ?_
    have hq := h (0 :: i :: p) (by
      simp only [List.mem_cons, List.mem_append, List.mem_map]
      exact Or.inr (Or.inr ⟨p, hp, rfl⟩))
    simp only [Chunk.look, h1', hb'] at hq
    by_cases hp0 : p = []
    · subst hp0; rfl
    · rw [if_neg hp0, if_neg hp0] at hq
      exact hq

/-! ### What is built is small -/

theorem BitMap.ofBits_k {bits : List Bool} {m : BitMap} (h : BitMap.ofBits bits = some m) : m.k = 4 := by
  unfold BitMap.ofBits at h
  split at h
  · simp at h
  · unfold BitMapBuilder.finish at h
    simp only at h
    split at h
    · simp at h
    · split at h
      · simp at h
      · simp only [Option.some.injEq] at h
        rw [← h]

theorem BitMapBuilder.finish_k {b : BitMapBuilder} {m : BitMap} (h : b.finish = some m) : m.k = 4 := by
  unfold BitMapBuilder.finish at h
  simp only at h
  split at h
  · simp at h
  · split at h
    · simp at h
    · simp only [Option.some.injEq] at h
      rw [← h]

theorem Dac.pushDatum_length : ∀ (ls : DacBuilder) (d : BitVec 64) ls', Dac.pushDatum ls d = some ls' →
    ls'.length = ls.length := by
  intro ls
  induction ls with
  | nil => intro d ls' h; simp [Dac.pushDatum] at h; simp [← h]
  | cons l ls ih =>
    intro d ls' h
    obtain ⟨m, bytes⟩ := l
    simp only [Dac.pushDatum] at h
    split at h
    · split at h
      · simp at h
      · simp only [Option.some.injEq] at h; rw [← h]; rfl
    · split at h
      · simp at h
      · split at h
        · simp at h
        · rename_i r hr
          simp only [Option.some.injEq] at h
          rw [← h]
          simp [ih _ _ hr]

theorem Dac.finishLevels_small : ∀ (ls : DacBuilder) r, Dac.finishLevels ls = some r →
    r.length ≤ ls.length ∧ ∀ l ∈ r, l.1.k = 4 := by
  intro ls
  induction ls with
  | nil => intro r h; simp [Dac.finishLevels] at h; subst h; simp
  | cons l ls ih =>
    intro r h
    obtain ⟨m, bytes⟩ := l
    simp only [Dac.finishLevels] at h
    split at h
    · split at h
      · simp at h
      · rename_i m' hm
        split at h
        · simp at h
        · rename_i r' hr
          simp only [Option.some.injEq] at h
          obtain ⟨i1, i2⟩ := ih _ hr
          rw [← h]
          refine ⟨by simp; omega, fun l hl => ?_⟩
          rcases List.mem_cons.1 hl with hl | hl
          · rw [hl]; exact BitMapBuilder.finish_k hm
          · exact i2 l hl
    · simp only [Option.some.injEq] at h
      rw [← h]; simp

theorem Dac.ofList_small {data : List Int64} {d : Dac} (h : Dac.ofList data = some d) : d.Small := by
  have hlen : ∀ (data : List Int64) (ls ls' : DacBuilder),
      data.foldlM (fun ls x => Dac.pushDatum ls (zigzagEncode x)) ls = some ls' → ls'.length = ls.length := by
    intro data
    induction data with
    | nil => intro ls ls' h; simp at h; rw [h]
    | cons x data ih =>
      intro ls ls' h
      rw [List.foldlM_cons] at h
      cases hx : Dac.pushDatum ls (zigzagEncode x) with
      | none => rw [hx] at h; simp at h
      | some l1 =>
        rw [hx] at h
        rw [ih l1 ls' h, Dac.pushDatum_length _ _ _ hx]
  unfold Dac.ofList at h
  simp only at h
  split at h
  · simp at h
  · rename_i ls hls
    split at h
    · simp at h
    · rename_i r hr
      simp only [Option.some.injEq] at h
      obtain ⟨h1, h2⟩ := Dac.finishLevels_small _ _ hr
      have := hlen _ _ _ hls
      rw [List.length_replicate] at this
      rw [← h]
      exact ⟨by show r.length ≤ 8; omega, h2⟩

theorem Snapshot.build_small {get : Nat → Nat → Int64} {rows cols k e : Nat} {s : Snapshot}
    (h : Snapshot.build get rows cols k e = some s) : s.Small ∧ s.k = k ∧ s.sidelen = k ^ e := by
  unfold Snapshot.build at h
  simp only at h
  split at h
  · simp at h
  · split at h
    · rename_i h1 h2 h3
      simp only [Option.some.injEq] at h
      rw [← h]
      exact ⟨⟨BitMap.ofBits_k h1, Dac.ofList_small h2⟩, rfl, rfl⟩
    · simp at h

theorem Log.build_small {getS getT : Nat → Nat → Int64} {rows cols k e : Nat} {l : Log}
    (h : Log.build getS getT rows cols k e = some l) : l.Small ∧ l.k = k ∧ l.sidelen = k ^ e := by
  unfold Log.build at h
  simp only at h
  split at h
  · simp at h
  · split at h
    · rename_i h1 h2 h3 h4
      simp only [Option.some.injEq] at h
      rw [← h]
      exact ⟨⟨BitMap.ofBits_k h1, BitMap.ofBits_k h2, Dac.ofList_small h3⟩, rfl, rfl⟩
    · simp at h

theorem BlockOf.small {get : Nat → Nat → Nat → Int64} {rows cols k e t0 : Nat} {b : Block}
    (h : BlockOf get rows cols k e t0 b) (hk : 2 ≤ k) : b.Small k e := by
  obtain ⟨h1, h2, h3⟩ := Snapshot.build_small h.snapshot
  refine ⟨hk, h1, h3, h2, fun l hl => ?_⟩
  obtain ⟨j, hj⟩ := List.getElem?_of_mem hl
  exact Log.build_small (h.logs j l hj)

end Verif
