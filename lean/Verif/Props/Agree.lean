import Verif.Lemmas.Agree
import Verif.Lemmas.ChunkAny
import Verif.Props.Serial

/-!
Property C92: windows and series of cells hold what single reads give, also of objects that the library has not
written.
-/
namespace Verif

theorem window_congr_of {D D' : Nat → Nat → Int64} {top bottom left right : Nat}
    (h : ∀ r c, top ≤ r → r < bottom → left ≤ c → c < right → D r c = D' r c) :
    Spec.window D top bottom left right = Spec.window D' top bottom left right := by
  unfold Spec.window
  refine List.map_congr_left fun p hp => ?_
  obtain ⟨r, c⟩ := p
  rw [mem_cells] at hp
  simp only
  rw [h r c hp.1 hp.2.1 hp.2.2.1 hp.2.2.2]

theorem rect_mk {top bottom left right : Nat} (h1 : top < bottom) (h2 : left < right) :
    Rect.new top bottom left right = ⟨top, bottom, left, right⟩ := by
  unfold Rect.new rearrange
  rw [if_neg (by omega), if_neg (by omega)]

/-- C92 for any snapshot: a window can be read if and only if each of its cells can, and holds what they give. -/
theorem C92_snapshot (s : Snapshot) (top bottom left right : Nat) (h1 : top < bottom) (h2 : left < right) :
    ((∃ L, s.fillWindow (Rect.new top bottom left right) = some L) ↔
      ∀ r c, top ≤ r → r < bottom → left ≤ c → c < right → ∃ v, s.get r c = some v) ∧
    ∀ L D, s.fillWindow (Rect.new top bottom left right) = some L →
      (∀ r c, top ≤ r → r < bottom → left ≤ c → c < right → s.get r c = some (D r c)) →
      L.Perm (Spec.window D top bottom left right) := by
  rw [rect_mk h1 h2]
  refine ⟨⟨?_, fun h => ?_⟩, fun L D hL hD => ?_⟩
  · rintro ⟨L, hL⟩ r c a1 a2 a3 a4
    exact Option.isSome_iff_exists.1 ((s.fillWindow_heeds h1 h2 L hL).1 r c a1 a2 a3 a4)
  · exact Option.isSome_iff_exists.1 (s.fillWindow_backs h1 h2 fun r c a1 a2 a3 a4 =>
      Option.isSome_iff_exists.2 (h r c a1 a2 a3 a4))
  · rw [window_congr_of (D' := fun r c => (s.get r c).getD 0) fun r c a1 a2 a3 a4 => by
      rw [hD r c a1 a2 a3 a4]; rfl]
    exact (s.fillWindow_heeds h1 h2 L hL).2

/-- What C92 says of a window of a log: the full statement. -/
def Spec.LogAgrees (l : Log) (s : Snapshot) : Prop :=
  ∀ top bottom left right, top < bottom → left < right →
    ((∃ L, l.fillWindow s (Rect.new top bottom left right) = some L) ↔
      ∀ r c, top ≤ r → r < bottom → left ≤ c → c < right → ∃ v, l.get s r c = some v) ∧
    ∀ L D, l.fillWindow s (Rect.new top bottom left right) = some L →
      (∀ r c, top ≤ r → r < bottom → left ≤ c → c < right → l.get s r c = some (D r c)) →
      L.Perm (Spec.window D top bottom left right)

/-- C92 for any log on any snapshot: a window that can be read holds what its cells give, and each of them can be
read. Missing, as it is false (`C92_log_wrong`): that the window can be read if its cells can. -/
theorem C92_log_partial (l : Log) (s : Snapshot) (top bottom left right : Nat) (h1 : top < bottom)
    (h2 : left < right) (L : List (Nat × Nat × Int64))
    (hL : l.fillWindow s (Rect.new top bottom left right) = some L) :
    (∀ r c, top ≤ r → r < bottom → left ≤ c → c < right → ∃ v, l.get s r c = some v) ∧
    ∀ D, (∀ r c, top ≤ r → r < bottom → left ≤ c → c < right → l.get s r c = some (D r c)) →
      L.Perm (Spec.window D top bottom left right) := by
  rw [rect_mk h1 h2] at hL
  obtain ⟨a, b⟩ := l.fillWindow_heeds s h1 h2 L hL
  refine ⟨fun r c a1 a2 a3 a4 => Option.isSome_iff_exists.1 (a r c a1 a2 a3 a4), fun D hD => ?_⟩
  rw [window_congr_of (D' := fun r c => (l.get s r c).getD 0) fun r c a1 a2 a3 a4 => by
    rw [hD r c a1 a2 a3 a4]; rfl]
  exact b

section
variable {bytes rest : List Byte} {ch : Chunk}

theorem chunk_look (bs : List Block) (enc : MMEncoding) (fb : Nat) {t i off : Nat} {b : Block}
    (h : Holds bs t i off) (hb : bs[i]? = some b) (row col : Nat) :
    (Chunk.new bs enc fb).get t row col = b.get off row col := by
  unfold Chunk.get Chunk.findBlock
  rw [findBlock_spec bs enc fb t i off h _ (by simp [Chunk.new])]
  simp only [Chunk.new, hb]

/-- C92 for the series of a cell of any chunk that loads: it is what the single reads give, in order, and it
cannot be read if one of them cannot. -/
theorem C92_cell (hc : Chunk.read bytes = .ok (ch, rest)) (hne : ch.blocks ≠ []) (start fin row col : Nat)
    (h1 : start ≤ fin) (h2 : fin ≤ (ch.blocks.map fun b => b.logs.length + 1).sum) :
    ch.fillCell start fin row col =
      (List.range' start (fin - start)).mapM fun t => (ch.get t row col).map fun v => (t - start, v) := by
  rw [chunk_read_new hc]
  generalize ch.blocks = bs at *
  obtain ⟨L, e, h⟩ := iterList_spec bs ch.encoding ch.fractionalBits start fin hne h1 h2
  unfold Chunk.fillCell
  rw [e]
  simp only
  generalize List.range' start (fin - start) = ts at *
  clear e
  induction h with
  | nil => rfl
  | @cons t p ts ps hp _ ih =>
    obtain ⟨hp, e1, -⟩ := hp
    obtain ⟨b, hb⟩ : ∃ b, bs[p.1.1]? = some b := ⟨_, List.getElem?_eq_getElem hp.lt⟩
    rw [collect, List.mapM_cons, ih, chunk_look _ _ _ hp hb, e1]
    generalize List.mapM (m := Option) _ ts = X
    simp only [Chunk.new, hb]
    cases b.get p.1.2 row col with
    | none => rfl
    | some v => cases X <;> rfl

theorem collect_heeds {α β γ : Type} {R : γ → α → Prop} {F : α → Option (List β)} {g : γ → List β} {Q : γ → Prop}
    (hR : ∀ t p, R t p → ∀ M, F p = some M → Q t ∧ M.Perm (g t)) {ts : List γ} {ps : List α}
    (h : List.Forall₂ R ts ps) {L : List β} (hL : collect ps F = some L) :
    (∀ t ∈ ts, Q t) ∧ L.Perm (ts.flatMap g) := by
  induction h generalizing L with
  | nil =>
    simp only [collect, Option.some.injEq] at hL
    subst hL
    exact ⟨fun _ h => absurd h List.not_mem_nil, List.Perm.refl _⟩
  | @cons t p ts ps hp _ ih =>
    rw [collect] at hL
    cases hFp : F p with
    | none => simp [hFp] at hL
    | some M =>
      simp only [hFp] at hL
      cases hps : collect ps F with
      | none => simp [hps] at hL
      | some M' =>
        simp only [hps, Option.some.injEq] at hL
        subst hL
        obtain ⟨a1, a2⟩ := hR t p hp M hFp
        obtain ⟨b1, b2⟩ := ih hps
        refine ⟨fun t' ht' => ?_, ?_⟩
        · rcases List.mem_cons.1 ht' with rfl | ht'
          · exact a1
          · exact b1 t' ht'
        · rw [List.flatMap_cons]
          exact a2.append b2

/-- C92 for windows of any chunk that loads: a window that can be read holds what the single reads give, and each
of them can be done. -/
theorem C92_window_partial (hc : Chunk.read bytes = .ok (ch, rest))  (hne : ch.blocks ≠ []) (start fin top bottom left right : Nat) (h1 : start ≤ fin)
    (h2 : fin ≤ (ch.blocks.map fun b => b.logs.length + 1).sum) (h3 : top < bottom) (h4 : left < right)
    (L : List (Nat × Nat × Nat × Int64))
    (hL : ch.fillWindow (Cube.new start fin top bottom left right) = some L) :
    ∃ D, (∀ t r c, start ≤ t → t < fin → top ≤ r → r < bottom → left ≤ c → c < right →
        ch.get t r c = some (D t r c)) ∧
      L.Perm (Spec.window3 D start fin top bottom left right) := by
  rw [chunk_read_new hc] at hL ⊢
  generalize ch.blocks = bs at *
  have hcube : Cube.new start fin top bottom left right = ⟨start, fin, top, bottom, left, right⟩ := by
    unfold Cube.new rearrange
    rw [if_neg (by omega), if_neg (by omega), if_neg (by omega)]
  rw [hcube] at hL
  have hrect : (Cube.mk start fin top bottom left right).rect = ⟨top, bottom, left, right⟩ :=
    Cube.rect_eq (by omega) (by omega)
  obtain ⟨Ps, e, h⟩ := iterList_spec bs ch.encoding ch.fractionalBits start fin hne h1 h2
  unfold Chunk.fillWindow at hL
  simp only [hrect] at hL
  rw [e] at hL
  simp only at hL
  refine ⟨fun t r c => ((Chunk.new bs ch.encoding ch.fractionalBits).get t r c).getD 0, ?_⟩
  have main := collect_heeds (Q := fun t => ∀ r c, top ≤ r → r < bottom → left ≤ c → c < right →
      ((Chunk.new bs ch.encoding ch.fractionalBits).get t r c).isSome)
    (g := fun t => (Spec.window (fun r c => ((Chunk.new bs ch.encoding ch.fractionalBits).get t r c).getD 0)
        top bottom left right).map fun q => (t - start, q)) ?_ h hL
  rotate_left
  · rintro t p ⟨hp, e1, -⟩ M hM
    obtain ⟨b, hb⟩ : ∃ b, bs[p.1.1]? = some b := ⟨_, List.getElem?_eq_getElem hp.lt⟩
    simp only [Chunk.new, hb] at hM
    simp only [chunk_look bs ch.encoding ch.fractionalBits hp hb]
    obtain ⟨N, hN, rfl⟩ := Option.map_eq_some_iff.1 hM
    rw [e1]
    have : (∀ r c, top ≤ r → r < bottom → left ≤ c → c < right → (b.get p.1.2 r c).isSome) ∧
        N.Perm (Spec.window (fun r c => (b.get p.1.2 r c).getD 0) top bottom left right) := by
      generalize p.1.2 = off at hN ⊢
      cases off with
      | zero => exact b.snapshot.fillWindow_heeds h3 h4 N hN
      | succ i =>
        simp only [Block.fillWindow, Block.get] at hN ⊢
        cases hl : b.logs[i]? with
        | none => simp [hl] at hN
        | some l =>
          simp only [hl] at hN
          exact l.fillWindow_heeds b.snapshot h3 h4 N hN
    exact ⟨this.1, this.2.map _⟩
  · refine ⟨fun t r c a1 a2 a3 a4 a5 a6 => ?_, main.2⟩
    obtain ⟨v, hv⟩ := Option.isSome_iff_exists.1 (main.1 t (List.mem_range'_1.2 ⟨a1, by omega⟩) r c a3 a4 a5 a6)
    beta_reduce
    rw [hv]
    rfl

end

/-- The raster of the first instant of the chunk below: the four cells of a corner differ. -/
def Example.apartRaster (r c : Nat) : Int64 := if r < 2 ∧ c < 2 then Int64.ofNat (2 * r + c) else 7

/-- A chunk with a log whose tree says that it has one node although there are numbers for five. -/
def Example.apart : Option Chunk :=
  match Snapshot.build Example.apartRaster 4 4 2 2, BitMap.ofBits [true], BitMap.ofBits [false],
      Dac.ofList [10, 20, 30, 40, 50], Dac.ofList [0] with
  | some s, some nodemap, some equal, some max, some min =>
    some (Chunk.new [⟨s, [⟨nodemap, equal, max, min, 2, 4, 4, 4⟩]⟩] .i64 0)
  | _, _, _, _, _ => none

/-- C92 is false of the code in one direction, for logs that the library has not written: this chunk loads, all
its cells can be read, alone and as series, and a window of a single cell panics. -/
theorem C92_log_wrong : ∃ ch, Example.apart = some ch ∧ Chunk.read ch.write = .ok (ch, []) ∧
    (∀ r < 4, ∀ c < 4, ∃ v, ch.get 1 r c = some v) ∧ ch.fillCell 1 2 0 0 = some [(0, 20)] ∧
    ch.fillWindow (Cube.new 1 2 0 1 0 1) = none := by
  have key : (match Example.apart with
    | some ch =>
      (match Chunk.read ch.write with
        | .ok (c, []) => decide (c = ch)
        | _ => false) &&
      (decide (∀ r : Fin 4, ∀ c : Fin 4, (ch.get 1 r c).isSome) &&
      (decide (ch.fillCell 1 2 0 0 = some [(0, 20)]) && decide (ch.fillWindow (Cube.new 1 2 0 1 0 1) = none)))
    | none => false) = true := by decide +kernel
  cases h : Example.apart with
  | none => rw [h] at key; cases key
  | some ch =>
    rw [h] at key
    simp only [Bool.and_eq_true, decide_eq_true_eq] at key
    obtain ⟨k1, k2, k3, k4⟩ := key
    refine ⟨ch, rfl, ?_, fun r hr c hc => Option.isSome_iff_exists.1 (k2 ⟨r, hr⟩ ⟨c, hc⟩), k3, k4⟩
    cases h1 : Chunk.read ch.write with
    | error f => rw [h1] at k1; cases k1
    | ok q =>
      obtain ⟨c, rest⟩ := q
      rw [h1] at k1
      cases rest with
      | nil => rw [of_decide_eq_true k1]
      | cons _ _ => cases k1

/-- What `C92_snapshot` and `C92_window_partial` ask for is met: this chunk loads and a window of its first instant
can be read. -/
example : ∃ ch, Example.apart = some ch ∧ ch.blocks ≠ [] ∧
    ch.fillWindow (Cube.new 0 1 1 3 1 2) = some [(0, 0, 0, 3), (0, 1, 0, 7)] := by
  have key : (match Example.apart with
    | some ch => decide (ch.blocks ≠ []) &&
        decide (ch.fillWindow (Cube.new 0 1 1 3 1 2) = some [(0, 0, 0, 3), (0, 1, 0, 7)])
    | none => false) = true := by decide +kernel
  cases h : Example.apart with
  | none => rw [h] at key; cases key
  | some ch =>
    rw [h] at key
    simp only [Bool.and_eq_true, decide_eq_true_eq] at key
    exact ⟨ch, rfl, key⟩

/-- C92 for what the library writes, whatever the numbers, with an even arity: all cells and all windows can be
read, and the windows hold what the cells give. -/
theorem C92_built {get : Nat → Nat → Nat → Int64} {n rows cols k e : Nat} (enc : MMEncoding) (fb : Nat)
    (hs : ShapeOk rows cols k e) (hn : 1 ≤ n) (heven : k % 2 = 0) :
    ∃ q, Chunk.build get n rows cols k e enc fb = some q ∧ ∃ D : Nat → Nat → Nat → Int64,
      (∀ t r c, t < n → r < rows → c < cols → q.data.get t r c = some (D t r c)) ∧
      ∀ start fin top bottom left right, start ≤ fin → fin ≤ n → top < bottom → left < right → bottom ≤ rows →
        right ≤ cols → ∃ L, q.data.fillWindow (Cube.new start fin top bottom left right) = some L ∧
          L.Perm (Spec.window3 D start fin top bottom left right) := by
  obtain ⟨bs, -, -, -, hq, -⟩ := chunk_build get n rows cols k e (by have := hs.arity; omega) hn enc fb
  obtain ⟨D, hD⟩ := (chunk_any enc fb hs hn heven hq).reads
  refine ⟨_, hq, D, fun t r c a1 a2 a3 => ?_, fun start fin top bottom left right a1 a2 a3 a4 a5 a6 => ?_⟩
  · obtain ⟨v, h1, rfl⟩ := hD.get t r c a1 a2 a3
    exact h1
  · have hcube : Cube.new start fin top bottom left right = ⟨start, fin, top, bottom, left, right⟩ := by
      unfold Cube.new rearrange
      rw [if_neg (by omega), if_neg (by omega), if_neg (by omega)]
    rw [hcube]
    obtain ⟨L, h1, h2⟩ := hD.window start fin top bottom left right a1 a2 a3 a4 a5 a6
    exact ⟨L, h1, by rwa [List.map_id''] at h2; intro q; rfl⟩

end Verif
