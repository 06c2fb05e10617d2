import Verif.Lemmas.Ends
import Verif.Lemmas.ReadWF

/-!
C89: reads end, whatever the bytes of an object are, unless they say that `k` is 1.
-/
namespace Verif

/-- `f` is what a recursive function with the body `step` computes, with no limit on its depth. -/
def Spec.Solves {X : Type} (step : (Nat → X) → Nat → X) (f : Nat → X) : Prop := f = step f

/-- The recursion with the body `step` ends for all arguments: there is just one function it can
compute, and for sides below `2 ^ depth` nothing more than `depth` calls inside each other happen. -/
def Spec.EndsSoon {X : Type} (step : (Nat → X) → Nat → X) (limited : Nat → Nat → X) : Prop :=
  (∃! f, Spec.Solves step f) ∧
    ∀ f, Spec.Solves step f → ∀ depth side, side < 2 ^ (depth + 1) → limited (depth + 1) side = f side

theorem Divides.of_ne {X : Type} {k : Nat} {step : (Nat → X) → Nat → X} (h : Divides k step) (hk : k ≠ 1) :
    ∃ k', 2 ≤ k' ∧ Divides k' step := by
  rcases Nat.eq_zero_or_pos k with h0 | h0
  · refine ⟨2, by omega, fun f g n _ => h f g n fun hne => ?_⟩
    rw [h0, Nat.div_zero] at hne
    exact absurd rfl hne
  · exact ⟨k, by omega, h⟩

theorem Divides.endsSoon {X : Type} {k : Nat} {step : (Nat → X) → Nat → X} (h : Divides k step) (hk : k ≠ 1)
    (b : X) (limited : Nat → Nat → X) (hl : ∀ fuel, limited fuel = deepen b step fuel) :
    Spec.EndsSoon step limited := by
  obtain ⟨k', hk', h'⟩ := h.of_ne hk
  refine ⟨h'.exists hk' b, fun f hf depth side hs => ?_⟩
  rw [hl]
  exact h'.deepen_eq hk' b hf depth side hs

/-- C89: the recursion of each kind of read of a raster ends, however the raster was made, if its
`k` is not 1: at any place, with any arguments, after at most 32 calls inside each other for every
side that fits into 32 bits. -/
theorem C89_snapshot_partial (s : Snapshot) (hk : s.k ≠ 1) :
    Spec.EndsSoon s.getStep s.getGo ∧
    (∀ top left, Spec.EndsSoon (s.fillStep top left) (s.fillGo top left)) ∧
    ∀ lower upper, Spec.EndsSoon (s.searchStep lower upper) (s.searchGo lower upper) :=
  ⟨(Snapshot.getStep_divides s).endsSoon hk _ _ (Snapshot.getGo_deepen s),
    fun a b => (Snapshot.fillStep_divides s a b).endsSoon hk _ _ (Snapshot.fillGo_deepen s a b),
    fun a b => (Snapshot.searchStep_divides s a b).endsSoon hk _ _ (Snapshot.searchGo_deepen s a b)⟩

/-- C89 for rasters stored as differences. -/
theorem C89_log_partial (l : Log) (s : Snapshot) (hk : l.k ≠ 1) :
    Spec.EndsSoon (l.getStep s) (l.getGo s) ∧
    (∀ top left, Spec.EndsSoon (l.fillStep s top left) (l.fillGo s top left)) ∧
    ∀ lower upper, Spec.EndsSoon (l.searchStep s lower upper) (l.searchGo s lower upper) :=
  ⟨(Log.getStep_divides l s).endsSoon hk _ _ (Log.getGo_deepen l s),
    fun a b => (Log.fillStep_divides l s a b).endsSoon hk _ _ (Log.fillGo_deepen l s a b),
    fun a b => (Log.searchStep_divides l s a b).endsSoon hk _ _ (Log.searchGo_deepen l s a b)⟩

/-- Within the models, whose recursion is as deep as the side is long, reads give what the unlimited
recursion gives. -/
theorem Spec.EndsSoon.self {X : Type} {step : (Nat → X) → Nat → X} {limited : Nat → Nat → X}
    (h : Spec.EndsSoon step limited) {f : Nat → X} (hf : Spec.Solves step f) (n : Nat) :
    limited (n + 1) n = f n ∧ (n ≠ 0 → limited n n = f n) := by
  refine ⟨h.2 f hf n n ?_, fun hn => ?_⟩
  · exact Nat.lt_trans Nat.lt_two_pow_self (Nat.pow_lt_pow_right (by omega) (by omega))
  · obtain ⟨m, rfl⟩ : ∃ m, n = m + 1 := ⟨n - 1, by omega⟩
    exact h.2 f hf m (m + 1) Nat.lt_two_pow_self

/-- C89: so the models of the reads of a raster, which count a recursion deeper than the side as a
panic, say what the code does, which has no such limit. -/
theorem C89_snapshot_model_partial (s : Snapshot) (hk : s.k ≠ 1) :
    (∀ f, Spec.Solves s.getStep f → ∀ row col, s.get row col = s.getVia f row col) ∧
    (∀ f, (∀ top left, Spec.Solves (s.fillStep top left) (f top left)) →
      ∀ bounds, s.fillWindow bounds = s.fillWindowVia f bounds) ∧
    ∀ f, (∀ lower upper, Spec.Solves (s.searchStep lower upper) (f lower upper)) →
      ∀ bounds lower upper, s.searchWindow bounds lower upper = s.searchWindowVia f bounds lower upper := by
  obtain ⟨h1, h2, h3⟩ := C89_snapshot_partial s hk
  have a1 : ∀ f, Spec.Solves s.getStep f → s.getGo s.sidelen s.sidelen = f s.sidelen := by
    intro f hf
    by_cases h0 : s.sidelen = 0
    · rw [hf, h0]
      funext a b c d
      rw [Snapshot.getGo, Snapshot.getStep]
      simp
    · exact (h1.self hf _).2 h0
  have a2 : ∀ t w f, Spec.Solves (s.fillStep t w) f → s.fillGo t w s.sidelen s.sidelen = f s.sidelen := by
    intro t w f hf
    by_cases h0 : s.sidelen = 0
    · rw [hf, h0]
      funext a b c d e x y z
      rw [Snapshot.fillGo, Snapshot.fillStep]
      simp
    · exact ((h2 t w).self hf _).2 h0
  have a3 : ∀ t w f, Spec.Solves (s.searchStep t w) f → s.searchGo t w s.sidelen s.sidelen = f s.sidelen := by
    intro t w f hf
    by_cases h0 : s.sidelen = 0
    · rw [hf, h0]
      funext a b c d e x y z u
      rw [Snapshot.searchGo, Snapshot.searchStep]
      simp
    · exact ((h3 t w).self hf _).2 h0
  refine ⟨fun f hf row col => ?_, fun f hf bounds => ?_, fun f hf bounds lower upper => ?_⟩
  · rw [Snapshot.get, a1 f hf, Snapshot.getVia]
    rfl
  · rw [Snapshot.fillWindow, a2 _ _ _ (hf _ _), Snapshot.fillWindowVia]
    rfl
  · rw [Snapshot.searchWindow, a3 _ _ _ (hf _ _), Snapshot.searchWindowVia]
    rfl

/-- C89: the same for rasters stored as differences. -/
theorem C89_log_model_partial (l : Log) (s : Snapshot) (hk : l.k ≠ 1) :
    (∀ f, Spec.Solves (l.getStep s) f → ∀ row col, l.get s row col = l.getVia s f row col) ∧
    (∀ f, (∀ top left, Spec.Solves (l.fillStep s top left) (f top left)) →
      ∀ bounds, l.fillWindow s bounds = l.fillWindowVia s f bounds) ∧
    ∀ f, (∀ lower upper, Spec.Solves (l.searchStep s lower upper) (f lower upper)) →
      ∀ bounds lower upper, l.searchWindow s bounds lower upper =
        l.searchWindowVia s f bounds lower upper := by
  obtain ⟨h1, h2, h3⟩ := C89_log_partial l s hk
  have a1 : ∀ f, Spec.Solves (l.getStep s) f → l.getGo s l.sidelen l.sidelen = f l.sidelen := by
    intro f hf
    by_cases h0 : l.sidelen = 0
    · rw [hf, h0]
      funext a b c d e x
      rw [Log.getGo, Log.getStep]
      simp
    · exact (h1.self hf _).2 h0
  have a2 : ∀ t w f, Spec.Solves (l.fillStep s t w) f → l.fillGo s t w l.sidelen l.sidelen = f l.sidelen := by
    intro t w f hf
    by_cases h0 : l.sidelen = 0
    · rw [hf, h0]
      funext a b c d e x y z u v
      rw [Log.fillGo, Log.fillStep]
      simp
    · exact ((h2 t w).self hf _).2 h0
  refine ⟨fun f hf row col => ?_, fun f hf bounds => ?_, fun f hf bounds lower upper => ?_⟩
  · rw [Log.get, a1 f hf, Log.getVia]
    rfl
  · rw [Log.fillWindow, a2 _ _ _ (hf _ _), Log.fillWindowVia]
    rfl
  · rw [Log.searchWindow, ((h3 lower upper).self (hf lower upper) _).1, Log.searchWindowVia]
    rfl

theorem Gives.weak {α : Type} {e : Bool} {r : Reader α} {P : α → Prop} (h : Gives e r P) :
    Gives true r fun _ => True :=
  fun s a s' hr => ⟨(h s a s' hr).1, fun _ => trivial⟩

theorem Gives.snapshot_side : Gives true Snapshot.read fun s => s.sidelen < 2 ^ 32 :=
  Gives.bind Gives.readByte fun _ => Gives.bind Gives.readU32 fun _ =>
    Gives.bind Gives.readU32 fun _ => Gives.bind Gives.readU32 fun _ =>
    Gives.bind Gives.bitmap fun _ => Gives.bind Gives.dac.weak fun _ =>
    Gives.bind Gives.dac.weak fun _ => Gives.pure _ fun _ _ _ _ _ _ _ => u32_lt _

theorem Gives.log_side : Gives true Log.read fun l => l.sidelen < 2 ^ 32 :=
  Gives.bind Gives.readByte fun _ => Gives.bind Gives.readU32 fun _ =>
    Gives.bind Gives.readU32 fun _ => Gives.bind Gives.readU32 fun _ =>
    Gives.bind Gives.bitmap fun _ => Gives.bind Gives.bitmap fun _ =>
    Gives.bind Gives.dac.weak fun _ => Gives.bind Gives.dac.weak fun _ =>
    Gives.pure _ fun _ _ _ _ _ _ _ _ => u32_lt _

theorem Gives.block_side : Gives true Block.read fun b =>
    b.snapshot.sidelen < 2 ^ 32 ∧ ∀ l ∈ b.logs, l.sidelen < 2 ^ 32 :=
  Gives.bind Gives.readByte fun _ => Gives.bind Gives.snapshot_side fun _ =>
    Gives.bind (Gives.ofOption (P := fun _ => True) _ fun _ _ => trivial) fun m =>
    Gives.bind (Gives.many Gives.log_side m) fun _ => Gives.pure _ fun h1 _ h3 _ => ⟨h3, h1.2⟩

theorem Gives.chunk_side : Gives true Chunk.read fun c => ∀ b ∈ c.blocks,
    b.snapshot.sidelen < 2 ^ 32 ∧ ∀ l ∈ b.logs, l.sidelen < 2 ^ 32 :=
  Gives.bind Gives.readByte fun _ => Gives.bind (Gives.ofOption (P := fun _ => True) _ fun _ _ => trivial)
    fun _ => Gives.bind Gives.readByte fun _ => Gives.bind Gives.readU32 fun n =>
    Gives.bind (Gives.many Gives.block_side n.toNat) fun _ => Gives.pure _ fun h _ _ _ _ => h.2

/-- C89: whatever the bytes of a chunk are, 32 calls inside each other are enough for any read of any
raster of it that does not say that `k` is 1. -/
theorem C89_depth_partial (bytes rest : List Byte) (c : Chunk) (h : Chunk.read bytes = .ok (c, rest)) :
    ∀ b ∈ c.blocks,
      (b.snapshot.k ≠ 1 →
        (∀ f, Spec.Solves b.snapshot.getStep f →
          b.snapshot.getGo 32 b.snapshot.sidelen = f b.snapshot.sidelen) ∧
        (∀ top left f, Spec.Solves (b.snapshot.fillStep top left) f →
          b.snapshot.fillGo top left 32 b.snapshot.sidelen = f b.snapshot.sidelen) ∧
        ∀ lower upper f, Spec.Solves (b.snapshot.searchStep lower upper) f →
          b.snapshot.searchGo lower upper 32 b.snapshot.sidelen = f b.snapshot.sidelen) ∧
      ∀ l ∈ b.logs, l.k ≠ 1 →
        (∀ f, Spec.Solves (l.getStep b.snapshot) f → l.getGo b.snapshot 32 l.sidelen = f l.sidelen) ∧
        (∀ top left f, Spec.Solves (l.fillStep b.snapshot top left) f →
          l.fillGo b.snapshot top left 32 l.sidelen = f l.sidelen) ∧
        ∀ lower upper f, Spec.Solves (l.searchStep b.snapshot lower upper) f →
          l.searchGo b.snapshot lower upper 32 l.sidelen = f l.sidelen := by
  intro b hb
  obtain ⟨h1, h2⟩ := (Gives.chunk_side _ _ _ h).2 (Or.inl rfl) b hb
  refine ⟨fun hk => ?_, fun l hl hk => ?_⟩
  · obtain ⟨e1, e2, e3⟩ := C89_snapshot_partial b.snapshot hk
    exact ⟨fun f hf => e1.2 f hf 31 _ h1, fun t w f hf => (e2 t w).2 f hf 31 _ h1,
      fun t w f hf => (e3 t w).2 f hf 31 _ h1⟩
  · obtain ⟨e1, e2, e3⟩ := C89_log_partial l b.snapshot hk
    exact ⟨fun f hf => e1.2 f hf 31 _ (h2 l hl), fun t w f hf => (e2 t w).2 f hf 31 _ (h2 l hl),
      fun t w f hf => (e3 t w).2 f hf 31 _ (h2 l hl)⟩

/-- A raster of an object that says that `k` is 1. -/
def Example.oneSnapshot : Snapshot :=
  let dac : Dac := ⟨[(⟨3, 4, [], [0]⟩, [0, 0, 0])]⟩
  ⟨⟨3, 4, [], [0xa0000000#32]⟩, dac, dac, 1, 2, 1, 1⟩

/-- Its bytes in a chunk. -/
def Example.oneBytes : List Byte := Chunk.write ⟨[⟨Example.oneSnapshot, []⟩], [1], .i64, 0⟩

theorem Example.one_reads : Chunk.read Example.oneBytes =
    .ok (⟨[⟨Example.oneSnapshot, []⟩], [1], .i64, 0⟩, []) := by
  rfl

theorem Example.one_root (f) : Example.oneSnapshot.getVia f 1 0 = f 1 1 0 0 0 := by rfl

theorem Example.one_first (f) : Example.oneSnapshot.getStep f 1 1 0 0 0 = f 1 0 0 2 0 := by rfl

theorem Example.one_again (f) : Example.oneSnapshot.getStep f 1 0 0 2 0 = f 1 0 0 2 0 := by rfl

/-- C89 is wrong of the code without the condition: a read of a cell inside of the shape of an object
that loads without complaint can go on for ever. For a chunk of 64 bytes no depth of the recursion is
enough, because the call for a node is the call for the same node again. -/
theorem C89_forever_wrong : ∃ bytes : List Byte, bytes.length = 64 ∧ ∃ c s,
    Chunk.read bytes = .ok (c, []) ∧ c.blocks = [⟨s, []⟩] ∧ s.rows = 2 ∧ s.cols = 1 ∧
    (∀ f, s.getVia f 1 0 = f s.sidelen 1 0 0 0) ∧ (∀ f, s.getStep f s.sidelen 1 0 0 0 = f 1 0 0 2 0) ∧
    (∀ f, s.getStep f 1 0 0 2 0 = f 1 0 0 2 0) ∧ ∀ fuel, s.getGo fuel s.sidelen 1 0 0 0 = none := by
  refine ⟨Example.oneBytes, by decide +kernel, ⟨[⟨Example.oneSnapshot, []⟩], [1], .i64, 0⟩,
    Example.oneSnapshot, Example.one_reads, rfl, rfl, rfl, Example.one_root, Example.one_first,
    Example.one_again, fun fuel => ?_⟩
  have loop : ∀ fuel, Example.oneSnapshot.getGo fuel 1 0 0 2 0 = none := by
    intro fuel
    induction fuel with
    | zero => rfl
    | succ fuel ih =>
      rw [Snapshot.getGo_deepen, deepen, ← Snapshot.getGo_deepen, Example.one_again, ih]
  cases fuel with
  | zero => rfl
  | succ fuel =>
    rw [Snapshot.getGo_deepen, deepen, ← Snapshot.getGo_deepen]
    exact (Example.one_first _).trans (loop fuel)

theorem Example.one_stays (v : Option Int64) (n r c : Nat) (m : Int64) (hn : n ≠ 0) (hr : r < n) (hc : c < n) :
    Example.oneSnapshot.getStep (fun _ _ _ _ _ => v) n r c 2 m = v := by
  have h1 : Example.oneSnapshot.nodemap.rank 2 = some 1 := by rfl
  have h2 : Example.oneSnapshot.max.get 2 = some 0 := by rfl
  have h3 : isLeafGe Example.oneSnapshot.nodemap 2 = some false := by rfl
  have hk : Example.oneSnapshot.k = 1 := rfl
  simp only [Snapshot.getStep, hk, h1, Nat.div_one, Nat.div_eq_of_lt hr, Nat.div_eq_of_lt hc, hn, h2, h3,
    if_false, Nat.add_zero, Nat.mul_one, Nat.one_ne_zero]

/-- So what reads of such an object give is not determined: with any value at all for the call for
the third node the recursion comes out. -/
theorem C89_undetermined_wrong : ∃ s : Snapshot, ∀ v : Option Int64, ∃ f, Spec.Solves s.getStep f ∧
    s.getVia f 1 0 = v := by
  refine ⟨Example.oneSnapshot, fun v =>
    ⟨Example.oneSnapshot.getStep fun _ _ _ _ _ => v, ?_, ?_⟩⟩
  · funext n r c i m
    generalize hg : Example.oneSnapshot.getStep (fun _ _ _ _ _ => v) = g
    have hg' : g n r c i m = Example.oneSnapshot.getStep (fun _ _ _ _ _ => v) n r c i m := by rw [hg]
    rw [hg']
    have hk : Example.oneSnapshot.k = 1 := rfl
    simp only [Snapshot.getStep, hk, Nat.div_one, Nat.one_ne_zero, if_false, Nat.mul_one]
    by_cases hn : n = 0
    · simp only [hn, if_true]
    · simp only [hn, if_false]
      cases Example.oneSnapshot.nodemap.rank i with
      | none => rfl
      | some q =>
        dsimp only
        generalize hx : 1 + q + r / n + c / n = x
        cases Example.oneSnapshot.max.get x with
        | none => rfl
        | some d =>
          dsimp only
          cases hl : isLeafGe Example.oneSnapshot.nodemap x with
          | none => rfl
          | some b =>
            cases b with
            | true => rfl
            | false =>
              have h3 : x < 3 := by
                apply Nat.lt_of_not_le
                intro h
                have : isLeafGe Example.oneSnapshot.nodemap x = some true := if_pos (by
                  show x ≥ 3
                  omega)
                rw [this] at hl
                cases hl
              have h2 : x = 2 := by
                generalize r / n = a, c / n = b at hx
                have : x = 1 ∨ x = 2 := by omega
                rcases this with h | h
                · rw [h] at hl
                  exact absurd hl (by decide)
                · exact h
              dsimp only
              rw [h2, ← hg]
              exact (Example.one_stays v n (r % n) (c % n) (m - d) hn (Nat.mod_lt _ (by omega))
                (Nat.mod_lt _ (by omega))).symm
  · rw [Example.one_root]
    rfl

/-- A raster with `k` 2 meets the condition; two calls inside each other are enough to read it. -/
theorem Example.C89_ends : ∃ s : Snapshot,
    Snapshot.build (fun r c => if r = 1 ∧ c = 2 then 6 else 9) 4 4 2 2 = some s ∧
    s.k ≠ 1 ∧ s.sidelen = 4 ∧ s.getGo 1 4 1 2 0 9 = none ∧ s.getGo 2 4 1 2 0 9 = some 6 := by
  have key : (match Snapshot.build (fun r c => if r = 1 ∧ c = 2 then 6 else 9) 4 4 2 2 with
    | some s => decide (s.k ≠ 1 ∧ s.sidelen = 4 ∧ s.getGo 1 4 1 2 0 9 = none ∧ s.getGo 2 4 1 2 0 9 = some 6)
    | none => false) = true := by decide +kernel
  cases h : Snapshot.build (fun r c => if r = 1 ∧ c = 2 then 6 else 9) 4 4 2 2 with
  | none => rw [h] at key; cases key
  | some s => rw [h] at key; exact ⟨s, rfl, of_decide_eq_true key⟩

end Verif
