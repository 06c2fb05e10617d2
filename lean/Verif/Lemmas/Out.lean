import Mathlib.Data.List.Perm.Basic
import Verif.Model.Struct

/-! Operations that emit the same up to order however their parts are interleaved. -/
namespace Verif

theorem Interleave.perm {α : Type} {ls : List (List α)} {t : List α} (h : Interleave ls t) :
    t.Perm ls.flatten := by
  induction h with
  | @done ls h =>
    have : ls.flatten = [] := List.flatten_eq_nil_iff.2 h
    rw [this]
  | @step ls i x xs t hi _ ih =>
    obtain ⟨hlt, hx⟩ := List.getElem?_eq_some_iff.1 hi
    have e1 : ls = ls.take i ++ (x :: xs) :: ls.drop (i + 1) := by
      rw [← hx, List.getElem_cons_drop, List.take_append_drop]
    have e2 : ls.set i xs = ls.take i ++ xs :: ls.drop (i + 1) := by
      rw [List.set_eq_take_append_cons_drop, if_pos hlt]
    rw [e2] at ih
    rw [e1]
    simp only [List.flatten_append, List.flatten_cons] at ih ⊢
    refine (List.Perm.cons x ih).trans ?_
    exact List.perm_middle.symm

theorem Interleave.seq {α : Type} : ∀ (ls : List (List α)), Interleave ls ls.flatten := by
  suffices h : ∀ (n : Nat) (ls : List (List α)), ls.flatten.length = n → Interleave ls ls.flatten from
    fun ls => h _ ls rfl
  intro n
  induction n with
  | zero =>
    intro ls h
    rw [List.length_eq_zero_iff] at h
    rw [h]
    exact .done (List.flatten_eq_nil_iff.1 h)
  | succ n ih =>
    intro ls h
    -- the first list that is not empty
    have : ∃ (i : Nat) (x : α) (xs : List α), ls[i]? = some (x :: xs) ∧
        (ls.set i xs).flatten = xs ++ (ls.drop (i + 1)).flatten ∧
        ls.flatten = x :: (xs ++ (ls.drop (i + 1)).flatten) := by
      clear ih
      induction ls with
      | nil => simp at h
      | cons l ls ih2 =>
        cases l with
        | cons x xs => exact ⟨0, x, xs, rfl, by simp, by simp⟩
        | nil =>
          obtain ⟨i, x, xs, h1, h2, h3⟩ := ih2 (by simpa using h)
          exact ⟨i + 1, x, xs, by simpa using h1, by simpa using h2, by simpa using h3⟩
    obtain ⟨i, x, xs, h1, h2, h3⟩ := this
    rw [h3, ← h2]
    refine .step h1 (ih _ ?_)
    rw [h3] at h
    rw [h2]
    simpa using h

namespace Out

variable {β γ : Type}

/-- Every run ends well and emits exactly `spec`, in some order; and there is a run. -/
def Yields (o : Out β) (spec : List β) : Prop :=
  (∃ t s, o t s) ∧ ∀ t s, o t s → s = none ∧ t.Perm spec

theorem Yields.perm {o : Out β} {a b : List β} (h : Yields o a) (p : a.Perm b) : Yields o b :=
  ⟨h.1, fun t s r => ⟨(h.2 t s r).1, (h.2 t s r).2.trans p⟩⟩

theorem yields_emit (l : List β) : Yields (emit l) l :=
  ⟨⟨l, none, rfl, rfl⟩, fun _ _ h => ⟨h.2, h.1 ▸ List.Perm.refl _⟩⟩

theorem Yields.map {o : Out β} {a : List β} (h : Yields o a) (g : β → γ) :
    Yields (o.map g) (a.map g) := by
  obtain ⟨⟨t, s, h1⟩, h2⟩ := h
  refine ⟨⟨t.map g, s, t, h1, rfl⟩, ?_⟩
  rintro t' s' ⟨u, h3, rfl⟩
  exact ⟨(h2 _ _ h3).1, (h2 _ _ h3).2.map g⟩

theorem Yields.runs {ps : List (Out β)} {specs : List (List β)}
    (h : List.Forall₂ Yields ps specs) {rs} (hr : Runs ps rs) :
    (∀ r ∈ rs, r.2 = none) ∧ (rs.map Prod.fst).flatten.Perm specs.flatten := by
  induction h generalizing rs with
  | nil =>
    cases hr
    simp
  | @cons p spec ps specs h1 h2 ih =>
    obtain ⟨⟩ := hr
    rename_i r rs hp hr
    obtain ⟨i1, i2⟩ := ih hr
    obtain ⟨e1, e2⟩ := h1.2 _ _ hp
    refine ⟨?_, ?_⟩
    · intro r' hr'
      rcases List.mem_cons.1 hr' with rfl | hr'
      · exact e1
      · exact i1 _ hr'
    · simp only [List.map_cons, List.flatten_cons]
      exact e2.append i2

theorem Yields.exists_runs {ps : List (Out β)} {specs : List (List β)}
    (h : List.Forall₂ Yields ps specs) : ∃ rs, Runs ps rs := by
  induction h with
  | nil => exact ⟨[], .nil⟩
  | cons h1 h2 ih =>
    obtain ⟨rs, hr⟩ := ih
    obtain ⟨⟨t, s, h1⟩, -⟩ := h1
    exact ⟨(t, s) :: rs, .cons h1 hr⟩

/-- Translating afterwards what is emitted by parts that ran together. -/
theorem Yields.of_map {o : Out β} {g : β → γ} {spec : List γ}
    (he : ∃ t s, o t s) (h : ∀ t s, o t s → s = none ∧ (t.map g).Perm spec) :
    Yields (o.map g) spec := by
  obtain ⟨t, s, h1⟩ := he
  refine ⟨⟨t.map g, s, t, h1, rfl⟩, ?_⟩
  rintro t' s' ⟨u, h2, rfl⟩
  exact h _ _ h2

theorem map_runs {ps : List (Out β)} {g : β → γ} {rs : List (List β × Option Fail)}
    (h : Runs ps rs) : Runs (ps.map (Out.map g)) (rs.map fun r => (r.1.map g, r.2)) := by
  unfold Runs at *
  rw [List.forall₂_map_left_iff, List.forall₂_map_right_iff]
  exact h.imp fun p r hp => ⟨r.1, hp, rfl⟩

theorem map_map {δ : Type} (o : Out β) (f : β → γ) (g : γ → δ) :
    (o.map f).map g = o.map fun x => g (f x) := by
  funext t s
  apply propext
  constructor
  · rintro ⟨u, ⟨v, h, rfl⟩, rfl⟩
    exact ⟨v, h, by rw [List.map_map]; rfl⟩
  · rintro ⟨v, h, rfl⟩
    exact ⟨_, ⟨v, h, rfl⟩, by rw [List.map_map]; rfl⟩

theorem map_emit (l : List β) (g : β → γ) : (emit l).map g = emit (l.map g) := by
  funext t s
  apply propext
  constructor
  · rintro ⟨u, ⟨rfl, rfl⟩, rfl⟩
    exact ⟨rfl, rfl⟩
  · rintro ⟨rfl, rfl⟩
    exact ⟨l, ⟨rfl, rfl⟩, rfl⟩

theorem runs_of_mapped {ps : List (Out β)} {g : β → γ} {specs : List (List γ)}
    (h : List.Forall₂ Yields (ps.map (Out.map g)) specs) :
    (∃ rs, Runs ps rs) ∧ ∀ rs, Runs ps rs → (∀ r ∈ rs, r.2 = none) ∧
      ((rs.map Prod.fst).flatten.map g).Perm specs.flatten := by
  constructor
  · generalize hq : ps.map (Out.map g) = qs at h
    induction h generalizing ps with
    | nil =>
      rw [List.map_eq_nil_iff] at hq
      subst hq
      exact ⟨[], .nil⟩
    | cons h1 h2 ih =>
      obtain ⟨p, ps, rfl, rfl, rfl⟩ := List.map_eq_cons_iff.1 hq
      obtain ⟨rs, hr⟩ := ih rfl
      obtain ⟨⟨t, s, u, h3, -⟩, -⟩ := h1
      exact ⟨(u, s) :: rs, .cons h3 hr⟩
  · intro rs hr
    obtain ⟨h1, h2⟩ := Yields.runs h (map_runs hr)
    refine ⟨fun r hm => h1 (r.1.map g, r.2) (List.mem_map_of_mem hm), ?_⟩
    have e : ((rs.map fun r => (r.1.map g, r.2)).map Prod.fst).flatten
        = (rs.map Prod.fst).flatten.map g := by
      rw [List.map_map, List.map_flatten, List.map_map]
      rfl
    rwa [e] at h2

/-- A run of parts that succeed one by one after translation succeeds after translation. -/
theorem yields_map_joinAll {ps : List (Out β)} {g : β → γ} {specs : List (List γ)}
    (h : List.Forall₂ Yields (ps.map (Out.map g)) specs) :
    Yields ((joinAll ps).map g) specs.flatten := by
  obtain ⟨⟨rs, hr⟩, key⟩ := runs_of_mapped h
  refine Yields.of_map ⟨_, none, rs, hr, fun r hm => ?_, Interleave.seq _⟩ ?_
  · rw [(key rs hr).1 r hm]
    simp
  · rintro t s ⟨rs, hr, hs⟩
    obtain ⟨h1, h2⟩ := key rs hr
    cases s with
    | none => exact ⟨rfl, (hs.2.perm.map g).trans h2⟩
    | some f =>
      obtain ⟨-, ⟨r, hm, hf⟩, -⟩ := hs
      rw [h1 r hm] at hf
      cases hf

theorem yields_map_tryAll {ps : List (Out β)} {g : β → γ} {specs : List (List γ)}
    (h : List.Forall₂ Yields (ps.map (Out.map g)) specs) :
    Yields ((tryAll ps).map g) specs.flatten := by
  obtain ⟨⟨rs, hr⟩, key⟩ := runs_of_mapped h
  refine Yields.of_map ⟨_, none, rs, hr, (key rs hr).1, Interleave.seq _⟩ ?_
  rintro t s ⟨rs, hr, hs⟩
  obtain ⟨h1, h2⟩ := key rs hr
  cases s with
  | none => exact ⟨rfl, (hs.2.perm.map g).trans h2⟩
  | some f =>
    obtain ⟨⟨r, hm, hf⟩, -⟩ := hs
    rw [h1 r hm] at hf
    cases hf

/-- The same for parts given by a function. -/
theorem yields_joinAll_map {ι : Type} {xs : List ι} {p : ι → Out β} {g : β → γ} {spec : ι → List γ}
    (h : ∀ x ∈ xs, Yields ((p x).map g) (spec x)) :
    Yields ((joinAll (xs.map p)).map g) (xs.flatMap spec) := by
  rw [List.flatMap_def]
  refine yields_map_joinAll ?_
  rw [List.map_map, List.forall₂_map_left_iff, List.forall₂_map_right_iff, List.forall₂_same]
  exact h

theorem yields_tryAll_map {ι : Type} {xs : List ι} {p : ι → Out β} {g : β → γ} {spec : ι → List γ}
    (h : ∀ x ∈ xs, Yields ((p x).map g) (spec x)) :
    Yields ((tryAll (xs.map p)).map g) (xs.flatMap spec) := by
  rw [List.flatMap_def]
  refine yields_map_tryAll ?_
  rw [List.map_map, List.forall₂_map_left_iff, List.forall₂_map_right_iff, List.forall₂_same]
  exact h

end Out

end Verif
