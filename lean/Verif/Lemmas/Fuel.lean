import Verif.Lemmas.ReadWF

/-! The fuel for nested structures is enough. -/
namespace Verif

open Reader

/-- A reader puts nothing back. -/
def Shrinks {α : Type} (r : Reader α) : Prop := ∀ s a s', r s = .ok (a, s') → s'.length ≤ s.length

theorem Gives.shrinks {α : Type} {e : Bool} {P : α → Prop} {r : Reader α} (h : Gives e r P) : Shrinks r :=
  fun s a s' hr => (h s a s' hr).1

theorem bind_congr_len {α β : Type} {r : Reader α} {f g : α → Reader β} {n : Nat} (hr : Shrinks r)
    (h : ∀ a s, s.length ≤ n → f a s = g a s) (s : List Byte) (hs : s.length ≤ n) :
    Reader.bind r f s = Reader.bind r g s := by
  unfold Reader.bind
  cases h1 : r s with
  | error x => rfl
  | ok x => exact h x.1 x.2 (Nat.le_trans (hr s x.1 x.2 h1) hs)

theorem bind_congr_left {α β : Type} {r r' : Reader α} {f : α → Reader β} {s : List Byte} (h : r s = r' s) :
    Reader.bind r f s = Reader.bind r' f s := by
  unfold Reader.bind
  rw [h]

theorem many_congr_len {α : Type} {r r' : Reader α} {n : Nat} (hr : Shrinks r)
    (h : ∀ s, s.length ≤ n → r s = r' s) (k : Nat) : ∀ s, s.length ≤ n →
      Reader.many r k s = Reader.many r' k s := by
  induction k with
  | zero => intro s _; rfl
  | succ k ih =>
    intro s hs
    refine (bind_congr_len hr (fun a s hs => ?_) s hs).trans (bind_congr_left (h s hs))
    exact bind_congr_left (ih s hs)

theorem readWith_congr_len {node node' : Reader MMStruct3} {n : Nat} (hn : Shrinks node)
    (h : ∀ s, s.length ≤ n → node s = node' s) (s : List Byte) (hs : s.length ≤ n) :
    SuperHead.readWith node s = SuperHead.readWith node' s := by
  have hu : Shrinks readU32 := (Gives.readU32 (e := true)).shrinks
  have hb : Shrinks readByte := (Gives.readByte (e := true)).shrinks
  unfold SuperHead.readWith
  refine bind_congr_len hu (fun a s hs => ?_) s hs
  refine bind_congr_len hu (fun a s hs => ?_) s hs
  refine bind_congr_len hu (fun a s hs => ?_) s hs
  refine bind_congr_len hu (fun a s hs => ?_) s hs
  refine bind_congr_len hb (fun a s hs => ?_) s hs
  refine bind_congr_len hu (fun a s hs => ?_) s hs
  refine bind_congr_len hu (fun a s hs => ?_) s hs
  refine bind_congr_len hb (fun a s hs => ?_) s hs
  refine bind_congr_len hb (fun b s hs => ?_) s hs
  refine bind_congr_len (Gives.ofOption (e := true) (P := fun _ => True) _ fun _ _ => trivial).shrinks
    (fun a s hs => ?_) s hs
  refine bind_congr_len hu (fun a s hs => ?_) s hs
  refine bind_congr_len (Gives.many (Gives.reference (e := true)) _).shrinks (fun a s hs => ?_) s hs
  refine bind_congr_len (Gives.readCid (e := true)).shrinks (fun a s hs => ?_) s hs
  refine bind_congr_len hu (fun k s hs => ?_) s hs
  exact bind_congr_left (many_congr_len hn h _ s hs)

/-- More fuel than bytes makes no difference. -/
theorem MMStruct3.readFuel_enough : ∀ (n : Nat) (fuel : Nat) (s : List Byte), s.length < n → n ≤ fuel →
    MMStruct3.readFuel fuel s = MMStruct3.readFuel n s := by
  intro n
  induction n with
  | zero => intro fuel s h _; omega
  | succ n ih =>
    intro fuel s hs hf
    obtain ⟨fuel, rfl⟩ : ∃ f, fuel = f + 1 := ⟨fuel - 1, by omega⟩
    change Reader.bind readByte _ s = Reader.bind readByte _ s
    unfold Reader.bind
    cases h1 : readByte s with
    | error x => rfl
    | ok x =>
      have hl : x.2.length + 1 ≤ s.length := by
        cases s with
        | nil => cases h1
        | cons b t => cases h1; simp
      simp only
      split
      · rfl
      split
      · rfl
      split
      · rcases Nat.eq_zero_or_pos n with h0 | h0
        · omega
        refine readWith_congr_len (n := n - 1) (Gives.struct fuel).shrinks (fun s' hs' => ?_) _ (by omega)
        exact ih fuel s' (by omega) (by omega)
      · rfl

end Verif
