import Verif.Model.Rec
import Mathlib.Logic.ExistsUnique

/-!
Recursion that ends: a body that calls itself only with a side `k` times smaller, for `k` at least 2.
-/
namespace Verif

/-- `step` calls itself with no side but the `k`th part of its own, and not at all where that is 0. -/
def Divides {X : Type} (k : Nat) (step : (Nat → X) → Nat → X) : Prop :=
  ∀ f g n, (n / k ≠ 0 → f (n / k) = g (n / k)) → step f n = step g n

/-- What bodies with the recursion as a parameter give when the depth of the recursion is limited. -/
def deepen {X : Type} (bottom : X) (step : (Nat → X) → Nat → X) : Nat → Nat → X
  | 0 => fun _ => bottom
  | fuel + 1 => step (deepen bottom step fuel)

variable {X : Type} {k : Nat} {step : (Nat → X) → Nat → X}

theorem Divides.deepen_eq (h : Divides k step) (hk : 2 ≤ k) (b : X) {f : Nat → X} (hf : f = step f) :
    ∀ fuel n, n < 2 ^ (fuel + 1) → deepen b step (fuel + 1) n = f n := by
  intro fuel
  induction fuel with
  | zero =>
    intro n hn
    rw [hf]
    refine h _ _ n fun hne => ?_
    exact absurd (Nat.div_eq_of_lt (by omega)) hne
  | succ fuel ih =>
    intro n hn
    rw [hf]
    refine h _ _ n fun _ => ih _ ?_
    have h1 : n / k ≤ n / 2 := Nat.div_le_div_left hk (by omega)
    have h2 : n / 2 < 2 ^ (fuel + 1) := by
      rw [Nat.div_lt_iff_lt_mul (by omega)]
      rw [Nat.pow_succ] at hn
      exact hn
    omega

theorem Divides.exists (h : Divides k step) (hk : 2 ≤ k) (b : X) : ∃! f, f = step f := by
  have stable : ∀ fuel n, n < 2 ^ (fuel + 1) →
      deepen b step (fuel + 2) n = deepen b step (fuel + 1) n := by
    intro fuel
    induction fuel with
    | zero =>
      intro n hn
      refine h _ _ n fun hne => ?_
      exact absurd (Nat.div_eq_of_lt (by omega)) hne
    | succ fuel ih =>
      intro n hn
      refine h _ _ n fun _ => ih _ ?_
      have h1 : n / k ≤ n / 2 := Nat.div_le_div_left hk (by omega)
      have h2 : n / 2 < 2 ^ (fuel + 1) := by
        rw [Nat.div_lt_iff_lt_mul (by omega)]
        rw [Nat.pow_succ] at hn
        exact hn
      omega
  have same : ∀ d fuel n, n < 2 ^ (fuel + 1) →
      deepen b step (fuel + 1 + d) n = deepen b step (fuel + 1) n := by
    intro d
    induction d with
    | zero => intros; rfl
    | succ d ih =>
      intro fuel n hn
      rw [show fuel + 1 + (d + 1) = (fuel + d) + 2 by omega, stable (fuel + d) n, ← ih fuel n hn]
      · congr 1; omega
      · exact Nat.lt_of_lt_of_le hn (Nat.pow_le_pow_right (by omega) (by omega))
  have hlt : ∀ n : Nat, n < 2 ^ (n + 1) := fun n =>
    Nat.lt_trans Nat.lt_two_pow_self (Nat.pow_lt_pow_right (by omega) (by omega))
  refine ⟨fun n => deepen b step (n + 1) n, ?_, ?_⟩
  · funext n
    have e : deepen b step (n + 2) n = deepen b step (n + 1) n := stable n n (hlt n)
    show deepen b step (n + 1) n = _
    rw [← e]
    refine h _ _ n fun hne => ?_
    have hle : n / k ≤ n := Nat.div_le_self _ _
    have := same (n - n / k) (n / k) (n / k) (hlt _)
    rw [show n / k + 1 + (n - n / k) = n + 1 by omega] at this
    exact this
  · intro g hg
    funext n
    exact (h.deepen_eq hk b hg n n (hlt n)).symm

theorem Snapshot.getStep_divides (s : Snapshot) : Divides s.k (Snapshot.getStep s) := by
  intro f g n h
  by_cases hne : n / s.k = 0
  · funext x1 x2 x3 x4
    simp [Snapshot.getStep, hne]
  · have e := h hne
    funext x1 x2 x3 x4
    simp only [Snapshot.getStep, e]

theorem Snapshot.fillStep_divides (s : Snapshot) (a b : Nat) : Divides s.k (Snapshot.fillStep s a b) := by
  intro f g n h
  by_cases hne : n / s.k = 0
  · funext x1 x2 x3 x4 x5 x6 x7 x8
    simp [Snapshot.fillStep, hne]
  · have e := h hne
    funext x1 x2 x3 x4 x5 x6 x7 x8
    simp only [Snapshot.fillStep, e]

theorem Snapshot.searchStep_divides (s : Snapshot) (a b : Int64) : Divides s.k (Snapshot.searchStep s a b) := by
  intro f g n h
  by_cases hne : n / s.k = 0
  · funext x1 x2 x3 x4 x5 x6 x7 x8 x9
    simp [Snapshot.searchStep, hne]
  · have e := h hne
    funext x1 x2 x3 x4 x5 x6 x7 x8 x9
    simp only [Snapshot.searchStep, e]

theorem Log.getStep_divides (l : Log) (s : Snapshot) : Divides l.k (Log.getStep l s) := by
  intro f g n h
  by_cases hne : n / l.k = 0
  · funext x1 x2 x3 x4 x5 x6
    simp [Log.getStep, hne]
  · have e := h hne
    funext x1 x2 x3 x4 x5 x6
    simp only [Log.getStep, e]

theorem Log.fillStep_divides (l : Log) (s : Snapshot) (a b : Nat) : Divides l.k (Log.fillStep l s a b) := by
  intro f g n h
  by_cases hne : n / l.k = 0
  · funext x1 x2 x3 x4 x5 x6 x7 x8 x9 x10
    simp [Log.fillStep, hne]
  · have e := h hne
    funext x1 x2 x3 x4 x5 x6 x7 x8 x9 x10
    simp only [Log.fillStep, e]

theorem Log.searchStep_divides (l : Log) (s : Snapshot) (a b : Int64) : Divides l.k (Log.searchStep l s a b) := by
  intro f g n h
  by_cases hne : n / l.k = 0
  · funext x1 x2 x3 x4 x5 x6 x7 x8 x9 x10 x11 x12
    simp [Log.searchStep, hne]
  · have e := h hne
    funext x1 x2 x3 x4 x5 x6 x7 x8 x9 x10 x11 x12
    simp only [Log.searchStep, e]

theorem Snapshot.getGo_deepen (s : Snapshot) :
    ∀ fuel, Snapshot.getGo s fuel = deepen (fun _ _ _ _ => none) (Snapshot.getStep s) fuel
  | 0 => by
    funext x0 x1 x2 x3 x4
    rfl
  | fuel + 1 => by
    rw [deepen, ← Snapshot.getGo_deepen s fuel]
    funext x0 x1 x2 x3 x4
    rw [Snapshot.getGo]
    rfl

theorem Snapshot.fillGo_deepen (s : Snapshot) (a b : Nat) :
    ∀ fuel, Snapshot.fillGo s a b fuel = deepen (fun _ _ _ _ _ _ _ _ => none) (Snapshot.fillStep s a b) fuel
  | 0 => by
    funext x0 x1 x2 x3 x4 x5 x6 x7 x8
    rfl
  | fuel + 1 => by
    rw [deepen, ← Snapshot.fillGo_deepen s a b fuel]
    funext x0 x1 x2 x3 x4 x5 x6 x7 x8
    rw [Snapshot.fillGo]
    rfl

theorem Snapshot.searchGo_deepen (s : Snapshot) (a b : Int64) :
    ∀ fuel, Snapshot.searchGo s a b fuel = deepen (fun _ _ _ _ _ _ _ _ _ => none) (Snapshot.searchStep s a b) fuel
  | 0 => by
    funext x0 x1 x2 x3 x4 x5 x6 x7 x8 x9
    rfl
  | fuel + 1 => by
    rw [deepen, ← Snapshot.searchGo_deepen s a b fuel]
    funext x0 x1 x2 x3 x4 x5 x6 x7 x8 x9
    rw [Snapshot.searchGo]
    rfl

theorem Log.getGo_deepen (l : Log) (s : Snapshot) :
    ∀ fuel, Log.getGo l s fuel = deepen (fun _ _ _ _ _ _ => none) (Log.getStep l s) fuel
  | 0 => by
    funext x0 x1 x2 x3 x4 x5 x6
    rfl
  | fuel + 1 => by
    rw [deepen, ← Log.getGo_deepen l s fuel]
    funext x0 x1 x2 x3 x4 x5 x6
    rw [Log.getGo]
    rfl

theorem Log.fillGo_deepen (l : Log) (s : Snapshot) (a b : Nat) :
    ∀ fuel, Log.fillGo l s a b fuel = deepen (fun _ _ _ _ _ _ _ _ _ _ => none) (Log.fillStep l s a b) fuel
  | 0 => by
    funext x0 x1 x2 x3 x4 x5 x6 x7 x8 x9 x10
    rfl
  | fuel + 1 => by
    rw [deepen, ← Log.fillGo_deepen l s a b fuel]
    funext x0 x1 x2 x3 x4 x5 x6 x7 x8 x9 x10
    rw [Log.fillGo]
    rfl

theorem Log.searchGo_deepen (l : Log) (s : Snapshot) (a b : Int64) :
    ∀ fuel, Log.searchGo l s a b fuel = deepen (fun _ _ _ _ _ _ _ _ _ _ _ _ => none) (Log.searchStep l s a b) fuel
  | 0 => by
    funext x0 x1 x2 x3 x4 x5 x6 x7 x8 x9 x10 x11 x12
    rfl
  | fuel + 1 => by
    rw [deepen, ← Log.searchGo_deepen l s a b fuel]
    funext x0 x1 x2 x3 x4 x5 x6 x7 x8 x9 x10 x11 x12
    rw [Log.searchGo]
    rfl

end Verif
