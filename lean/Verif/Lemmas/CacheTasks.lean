import Verif.Lemmas.Cache

/-!
Several tasks that share one cache: what holds in every schedule in which no task is dropped.
-/
namespace Verif.Cache

/-- How far the task that loads an object is. -/
inductive Phase (V : Type) where
  | before
  | stored (o : Outcome V)
  | after (o : Outcome V)
deriving DecidableEq

/-- What is in the loader in that phase. -/
def Phase.object {V : Type} : Phase V → Option (Outcome V)
  | .before => none
  | .stored o => some o
  | .after o => some o

/-- What a task is to the loaders. -/
inductive Role (K V : Type) where
  | fresh
  | own (k : K) (l : Nat) (p : Phase V)
  | wait (l : Nat)
  | park (l : Nat)
  | over
deriving DecidableEq

/-- What a task is to the loaders. -/
def Task.role {K V : Type} : Task K V → Role K V
  | .start _ => .fresh
  | .missed _ => .fresh
  | .loading k l => .own k l .before
  | .loaded k l _ => .own k l .before
  | .finishing k l _ => .own k l .before
  | .stored k l r => .own k l (.stored r.outcome)
  | .finished k l r => .own k l (.after r.outcome)
  | .waiting _ l => .wait l
  | .parked _ l => .park l
  | .done _ _ => .over
  | .died k (some l) => .own k l .before
  | .died _ none => .over
  | .dropped _ _ => .over

section
variable {K V : Type} [DecidableEq K]

/-- The part of the state that the loaders need. -/
structure Core (K V : Type) where
  role : Nat → Role K V
  loaders : K → Option Nat
  heap : Nat → Option (Loader V)
  mail : Nat → Option (Mail V)

def State.role (s : State K V) (t : Nat) : Role K V :=
  match s.tasks[t]? with
  | none => .over
  | some task => task.role

def State.core (s : State K V) : Core K V :=
  { role := s.role
    loaders := fun k => Map.find s.loaders k
    heap := fun l => s.heap[l]?
    mail := fun t => Map.find s.mail t }

/-- What holds of the loaders. -/
structure Core.Inv (c : Core K V) : Prop where
  own : ∀ t k l p, c.role t = .own k l p → c.loaders k = some l ∧
    ∃ ld, c.heap l = some ld ∧ ld.object = p.object ∧ ∀ o, p = .after o → ld.waiters = []
  uniq : ∀ t t' k k' l p p', c.role t = .own k l p → c.role t' = .own k' l p' → t = t'
  owned : ∀ k l, c.loaders k = some l → ∃ t p, c.role t = .own k l p
  free : ∀ l ld, c.heap l = some ld → (∃ t k p, c.role t = .own k l p) ∨
    (∃ o, ld.object = some o) ∧ ld.waiters = []
  wait : ∀ t l, c.role t = .wait l → ∃ ld, c.heap l = some ld
  waiter : ∀ l ld t, c.heap l = some ld → t ∈ ld.waiters → c.role t = .park l ∧ c.mail t = none
  parked : ∀ t l, c.role t = .park l → ∃ ld, c.heap l = some ld ∧
    ((c.mail t = none ∧ t ∈ ld.waiters) ∨
      ∃ o, c.mail t = some (.sent o) ∧ ld.object = some o ∧ ld.waiters = [])
  mailed : ∀ t m, c.mail t = some m → (∃ l, c.role t = .park l) ∨ c.role t = .over

/-- The role of one task changes. -/
def Core.become (c : Core K V) (t : Nat) (r : Role K V) : Core K V :=
  { c with role := fun t' => if t' = t then r else c.role t' }

/-- One loader changes. -/
def Core.change (c : Core K V) (l : Nat) (ld : Loader V) : Core K V :=
  { c with heap := fun l' => if l' = l then some ld else c.heap l' }

theorem Core.Inv.init {c : Core K V} (h1 : ∀ t, c.role t = .fresh ∨ c.role t = .over)
    (h2 : ∀ k, c.loaders k = none) (h3 : ∀ l, c.heap l = none) (h4 : ∀ t, c.mail t = none) :
    c.Inv where
  own t k l p h := by rcases h1 t with h' | h' <;> simp [h'] at h
  uniq t t' k k' l p p' h := by rcases h1 t with h' | h' <;> simp [h'] at h
  owned k l h := by simp [h2] at h
  free l ld h := by simp [h3] at h
  wait t l h := by rcases h1 t with h' | h' <;> simp [h'] at h
  waiter l ld t h := by simp [h3] at h
  parked t l h := by rcases h1 t with h' | h' <;> simp [h'] at h
  mailed t m h := by simp [h4] at h

/-- A task that does not concern the loaders ends. -/
theorem Core.Inv.quit {c : Core K V} (h : c.Inv) {t : Nat}
    (hr : c.role t = .fresh ∨ (∃ l, c.role t = .wait l) ∨
      ∃ l m, c.role t = .park l ∧ c.mail t = some m) : (c.become t .over).Inv := by
  have hown : ∀ k l p, c.role t ≠ .own k l p := by
    intro k l p hh
    rcases hr with h' | ⟨l, h'⟩ | ⟨l, m, h', -⟩ <;> simp [h'] at hh
  refine ⟨?_, ?_, ?_, ?_, ?_, ?_, ?_, ?_⟩
  · intro t' k l p h'
    simp only [Core.become] at h' ⊢
    by_cases ht : t' = t
    · simp [ht] at h'
    · rw [if_neg ht] at h'; exact h.own _ _ _ _ h'
  · intro t1 t2 k k' l p p' h1 h2
    simp only [Core.become] at h1 h2
    by_cases ht : t1 = t
    · simp [ht] at h1
    · by_cases ht' : t2 = t
      · simp [ht'] at h2
      · rw [if_neg ht] at h1; rw [if_neg ht'] at h2; exact h.uniq _ _ _ _ _ _ _ h1 h2
  · intro k l h'
    obtain ⟨t', p, hp⟩ := h.owned k l h'
    refine ⟨t', p, ?_⟩
    simp only [Core.become]
    rw [if_neg (by rintro rfl; exact hown _ _ _ hp)]
    exact hp
  · intro l ld h'
    rcases h.free l ld h' with ⟨t', k, p, hp⟩ | h''
    · refine .inl ⟨t', k, p, ?_⟩
      simp only [Core.become]
      rw [if_neg (by rintro rfl; exact hown _ _ _ hp)]
      exact hp
    · exact .inr h''
  · intro t' l h'
    simp only [Core.become] at h' ⊢
    by_cases ht : t' = t
    · simp [ht] at h'
    · rw [if_neg ht] at h'; exact h.wait _ _ h'
  · intro l ld t' h1 h2
    obtain ⟨h3, h4⟩ := h.waiter l ld t' h1 h2
    have ht : t' ≠ t := by
      rintro rfl
      rcases hr with h' | ⟨l, h'⟩ | ⟨l, m, h', hm⟩
      · simp [h'] at h3
      · simp [h'] at h3
      · rw [h4] at hm; exact nomatch hm
    simp only [Core.become, if_neg ht]
    exact ⟨h3, h4⟩
  · intro t' l h'
    simp only [Core.become] at h' ⊢
    by_cases ht : t' = t
    · simp [ht] at h'
    · rw [if_neg ht] at h'; exact h.parked _ _ h'
  · intro t' m h'
    simp only [Core.become]
    by_cases ht : t' = t
    · exact .inr (by rw [if_pos ht])
    · simp only [if_neg ht]; exact h.mailed _ _ h'

/-- A task finds a loader. -/
theorem Core.Inv.join {c : Core K V} (h : c.Inv) {t l : Nat} {k : K} (hr : c.role t = .fresh)
    (hl : c.loaders k = some l) : (c.become t (.wait l)).Inv := by
  obtain ⟨t0, p0, h0⟩ := h.owned k l hl
  obtain ⟨-, ld, hld, -⟩ := h.own _ _ _ _ h0
  refine ⟨?_, ?_, ?_, ?_, ?_, ?_, ?_, ?_⟩
  · intro t' k l p h'
    simp only [Core.become] at h' ⊢
    by_cases ht : t' = t
    · simp [ht] at h'
    · rw [if_neg ht] at h'; exact h.own _ _ _ _ h'
  · intro t1 t2 k k' l p p' h1 h2
    simp only [Core.become] at h1 h2
    by_cases ht : t1 = t
    · simp [ht] at h1
    · by_cases ht' : t2 = t
      · simp [ht'] at h2
      · rw [if_neg ht] at h1; rw [if_neg ht'] at h2; exact h.uniq _ _ _ _ _ _ _ h1 h2
  · intro k l h'
    obtain ⟨t', p, hp⟩ := h.owned k l h'
    refine ⟨t', p, ?_⟩
    simp only [Core.become]
    rw [if_neg (by rintro rfl; simp [hr] at hp)]
    exact hp
  · intro l ld h'
    rcases h.free l ld h' with ⟨t', k, p, hp⟩ | h''
    · refine .inl ⟨t', k, p, ?_⟩
      simp only [Core.become]
      rw [if_neg (by rintro rfl; simp [hr] at hp)]
      exact hp
    · exact .inr h''
  · intro t' l' h'
    simp only [Core.become] at h' ⊢
    by_cases ht : t' = t
    · rw [if_pos ht] at h'; cases h'; exact ⟨ld, hld⟩
    · rw [if_neg ht] at h'; exact h.wait _ _ h'
  · intro l ld t' h1 h2
    obtain ⟨h3, h4⟩ := h.waiter l ld t' h1 h2
    have ht : t' ≠ t := by
      rintro rfl
      simp [hr] at h3
    simp only [Core.become, if_neg ht]
    exact ⟨h3, h4⟩
  · intro t' l h'
    simp only [Core.become] at h' ⊢
    by_cases ht : t' = t
    · simp [ht] at h'
    · rw [if_neg ht] at h'; exact h.parked _ _ h'
  · intro t' m h'
    simp only [Core.become]
    by_cases ht : t' = t
    · subst ht
      rcases h.mailed _ _ h' with ⟨l, hh⟩ | hh <;> simp [hr] at hh
    · simp only [if_neg ht]; exact h.mailed _ _ h'

/-- A task makes a loader. -/
theorem Core.Inv.open {c : Core K V} (h : c.Inv) {t l : Nat} {k : K} (hr : c.role t = .fresh)
    (hk : c.loaders k = none) (hl : c.heap l = none) :
    Core.Inv { (c.change l { object := none, waiters := [] }).become t (.own k l .before) with
      loaders := fun k' => if k' = k then some l else c.loaders k' } := by
  have hnew : ∀ t' k' p, c.role t' ≠ .own k' l p := by
    intro t' k' p hh
    obtain ⟨-, ld, hld, -⟩ := h.own _ _ _ _ hh
    rw [hl] at hld
    exact nomatch hld
  refine ⟨?_, ?_, ?_, ?_, ?_, ?_, ?_, ?_⟩
  · intro t' k' l' p h'
    simp only [Core.become, Core.change] at h' ⊢
    by_cases ht : t' = t
    · rw [if_pos ht] at h'
      cases h'
      rw [if_pos rfl]
      exact ⟨rfl, _, if_pos rfl, rfl, by simp⟩
    · rw [if_neg ht] at h'
      obtain ⟨h1, ld, h2, h3⟩ := h.own _ _ _ _ h'
      have hk' : k' ≠ k := by rintro rfl; rw [hk] at h1; exact nomatch h1
      have hl' : l' ≠ l := by rintro rfl; rw [hl] at h2; exact nomatch h2
      rw [if_neg hk', if_neg hl']
      exact ⟨h1, ld, h2, h3⟩
  · intro t1 t2 k1 k2 l' p p' h1 h2
    simp only [Core.become] at h1 h2
    by_cases ht : t1 = t
    · by_cases ht' : t2 = t
      · rw [ht, ht']
      · rw [if_pos ht] at h1; rw [if_neg ht'] at h2
        cases h1
        exact absurd h2 (hnew _ _ _)
    · by_cases ht' : t2 = t
      · rw [if_neg ht] at h1; rw [if_pos ht'] at h2
        cases h2
        exact absurd h1 (hnew _ _ _)
      · rw [if_neg ht] at h1; rw [if_neg ht'] at h2; exact h.uniq _ _ _ _ _ _ _ h1 h2
  · intro k' l' h'
    simp only at h'
    by_cases hk' : k' = k
    · rw [if_pos hk'] at h'
      cases h'
      subst hk'
      exact ⟨t, .before, by simp [Core.become]⟩
    · rw [if_neg hk'] at h'
      obtain ⟨t', p, hp⟩ := h.owned k' l' h'
      refine ⟨t', p, ?_⟩
      simp only [Core.become]
      rw [if_neg (by rintro rfl; simp [hr] at hp)]
      exact hp
  · intro l' ld h'
    simp only [Core.become, Core.change] at h' ⊢
    by_cases hl' : l' = l
    · subst hl'
      exact .inl ⟨t, k, .before, by simp⟩
    · rw [if_neg hl'] at h'
      rcases h.free l' ld h' with ⟨t', k', p, hp⟩ | h''
      · refine .inl ⟨t', k', p, ?_⟩
        rw [if_neg (by rintro rfl; simp [hr] at hp)]
        exact hp
      · exact .inr h''
  · intro t' l' h'
    simp only [Core.become, Core.change] at h' ⊢
    by_cases ht : t' = t
    · simp [ht] at h'
    · rw [if_neg ht] at h'
      obtain ⟨ld, hld⟩ := h.wait _ _ h'
      rw [if_neg (by rintro rfl; rw [hl] at hld; exact nomatch hld)]
      exact ⟨ld, hld⟩
  · intro l' ld t' h1 h2
    simp only [Core.become, Core.change] at h1 ⊢
    by_cases hl' : l' = l
    · rw [if_pos hl'] at h1
      cases h1
      simp at h2
    · rw [if_neg hl'] at h1
      obtain ⟨h3, h4⟩ := h.waiter l' ld t' h1 h2
      rw [if_neg (by rintro rfl; simp [hr] at h3)]
      exact ⟨h3, h4⟩
  · intro t' l' h'
    simp only [Core.become, Core.change] at h' ⊢
    by_cases ht : t' = t
    · simp [ht] at h'
    · rw [if_neg ht] at h'
      obtain ⟨ld, hld, hh⟩ := h.parked _ _ h'
      rw [if_neg (by rintro rfl; rw [hl] at hld; exact nomatch hld)]
      exact ⟨ld, hld, hh⟩
  · intro t' m h'
    simp only [Core.become, Core.change] at h' ⊢
    by_cases ht : t' = t
    · subst ht
      rcases h.mailed _ _ h' with ⟨l, hh⟩ | hh <;> simp [hr] at hh
    · simp only [if_neg ht]; exact h.mailed _ _ h'

/-- The object is stored in the loader. -/
theorem Core.Inv.store {c : Core K V} (h : c.Inv) {t l : Nat} {k : K} {ld : Loader V}
    (o : Outcome V) (hr : c.role t = .own k l .before) (hl : c.heap l = some ld) :
    ((c.change l { ld with object := some o }).become t (.own k l (.stored o))).Inv := by
  obtain ⟨hk, ld', hl', hobj, -⟩ := h.own _ _ _ _ hr
  rw [hl] at hl'
  cases hl'
  simp only [Phase.object] at hobj
  refine ⟨?_, ?_, ?_, ?_, ?_, ?_, ?_, ?_⟩
  · intro t' k' l' p h'
    simp only [Core.become, Core.change] at h' ⊢
    by_cases ht : t' = t
    · rw [if_pos ht] at h'
      cases h'
      exact ⟨hk, _, if_pos rfl, rfl, by simp⟩
    · rw [if_neg ht] at h'
      obtain ⟨h1, ld', h2, h3⟩ := h.own _ _ _ _ h'
      rw [if_neg (by rintro rfl; exact ht (h.uniq _ _ _ _ _ _ _ h' hr))]
      exact ⟨h1, ld', h2, h3⟩
  · intro t1 t2 k1 k2 l' p p' h1 h2
    simp only [Core.become, Core.change] at h1 h2
    have e1 : ∃ p, c.role t1 = .own k1 l' p := by
      by_cases ht : t1 = t
      · rw [if_pos ht] at h1; cases h1; exact ⟨_, ht ▸ hr⟩
      · rw [if_neg ht] at h1; exact ⟨_, h1⟩
    have e2 : ∃ p, c.role t2 = .own k2 l' p := by
      by_cases ht : t2 = t
      · rw [if_pos ht] at h2; cases h2; exact ⟨_, ht ▸ hr⟩
      · rw [if_neg ht] at h2; exact ⟨_, h2⟩
    obtain ⟨p1, e1⟩ := e1
    obtain ⟨p2, e2⟩ := e2
    exact h.uniq _ _ _ _ _ _ _ e1 e2
  · intro k' l' h'
    obtain ⟨t', p, hp⟩ := h.owned k' l' h'
    simp only [Core.become, Core.change]
    by_cases ht : t' = t
    · subst ht
      rw [hr] at hp
      cases hp
      exact ⟨t', _, if_pos rfl⟩
    · exact ⟨t', p, by rw [if_neg ht]; exact hp⟩
  · intro l' ld' h'
    simp only [Core.become, Core.change] at h' ⊢
    by_cases hl' : l' = l
    · subst hl'
      exact .inl ⟨t, k, _, if_pos rfl⟩
    · rw [if_neg hl'] at h'
      rcases h.free l' ld' h' with ⟨t', k', p, hp⟩ | h''
      · refine .inl ⟨t', k', p, ?_⟩
        rw [if_neg (by rintro rfl; rw [hr] at hp; cases hp; exact hl' rfl)]
        exact hp
      · exact .inr h''
  · intro t' l' h'
    simp only [Core.become, Core.change] at h' ⊢
    by_cases ht : t' = t
    · simp [ht] at h'
    · rw [if_neg ht] at h'
      by_cases hl' : l' = l
      · exact ⟨_, if_pos hl'⟩
      · rw [if_neg hl']; exact h.wait _ _ h'
  · intro l' ld' t' h1 h2
    simp only [Core.become, Core.change] at h1 ⊢
    have : c.role t' = .park l' ∧ c.mail t' = none := by
      by_cases hl' : l' = l
      · rw [if_pos hl'] at h1
        cases h1
        exact hl' ▸ h.waiter l ld t' hl h2
      · rw [if_neg hl'] at h1
        exact h.waiter l' ld' t' h1 h2
    rw [if_neg (by rintro rfl; simp [hr] at this)]
    exact this
  · intro t' l' h'
    simp only [Core.become, Core.change] at h' ⊢
    by_cases ht : t' = t
    · simp [ht] at h'
    · rw [if_neg ht] at h'
      obtain ⟨ld', hld, hh⟩ := h.parked _ _ h'
      by_cases hl' : l' = l
      · subst hl'
        rw [hl] at hld
        cases hld
        refine ⟨_, if_pos rfl, ?_⟩
        rcases hh with hh | ⟨o', h1, h2, h3⟩
        · exact .inl hh
        · rw [hobj] at h2; exact nomatch h2
      · exact ⟨ld', by rw [if_neg hl']; exact hld, hh⟩
  · intro t' m h'
    simp only [Core.become, Core.change] at h' ⊢
    by_cases ht : t' = t
    · subst ht
      rcases h.mailed _ _ h' with ⟨l, hh⟩ | hh <;> simp [hr] at hh
    · simp only [if_neg ht]; exact h.mailed _ _ h'

/-- All waiting tasks are told. -/
theorem Core.Inv.tell {c : Core K V} (h : c.Inv) {t l : Nat} {k : K} {ld : Loader V}
    {o : Outcome V} (hr : c.role t = .own k l (.stored o)) (hl : c.heap l = some ld) :
    Core.Inv { (c.change l { ld with waiters := [] }).become t (.own k l (.after o)) with
      mail := fun t' => if t' ∈ ld.waiters then some (.sent o) else c.mail t' } := by
  obtain ⟨hk, ld', hl', hobj, -⟩ := h.own _ _ _ _ hr
  rw [hl] at hl'
  cases hl'
  simp only [Phase.object] at hobj
  refine ⟨?_, ?_, ?_, ?_, ?_, ?_, ?_, ?_⟩
  · intro t' k' l' p h'
    simp only [Core.become, Core.change] at h' ⊢
    by_cases ht : t' = t
    · rw [if_pos ht] at h'
      cases h'
      exact ⟨hk, _, if_pos rfl, hobj, fun _ _ => rfl⟩
    · rw [if_neg ht] at h'
      obtain ⟨h1, ld', h2, h3⟩ := h.own _ _ _ _ h'
      rw [if_neg (by rintro rfl; exact ht (h.uniq _ _ _ _ _ _ _ h' hr))]
      exact ⟨h1, ld', h2, h3⟩
  · intro t1 t2 k1 k2 l' p p' h1 h2
    simp only [Core.become, Core.change] at h1 h2
    have e1 : ∃ p, c.role t1 = .own k1 l' p := by
      by_cases ht : t1 = t
      · rw [if_pos ht] at h1; cases h1; exact ⟨_, ht ▸ hr⟩
      · rw [if_neg ht] at h1; exact ⟨_, h1⟩
    have e2 : ∃ p, c.role t2 = .own k2 l' p := by
      by_cases ht : t2 = t
      · rw [if_pos ht] at h2; cases h2; exact ⟨_, ht ▸ hr⟩
      · rw [if_neg ht] at h2; exact ⟨_, h2⟩
    obtain ⟨p1, e1⟩ := e1
    obtain ⟨p2, e2⟩ := e2
    exact h.uniq _ _ _ _ _ _ _ e1 e2
  · intro k' l' h'
    obtain ⟨t', p, hp⟩ := h.owned k' l' h'
    simp only [Core.become, Core.change]
    by_cases ht : t' = t
    · subst ht
      rw [hr] at hp
      cases hp
      exact ⟨t', _, if_pos rfl⟩
    · exact ⟨t', p, by rw [if_neg ht]; exact hp⟩
  · intro l' ld' h'
    simp only [Core.become, Core.change] at h' ⊢
    by_cases hl' : l' = l
    · subst hl'
      exact .inl ⟨t, k, _, if_pos rfl⟩
    · rw [if_neg hl'] at h'
      rcases h.free l' ld' h' with ⟨t', k', p, hp⟩ | h''
      · refine .inl ⟨t', k', p, ?_⟩
        rw [if_neg (by rintro rfl; rw [hr] at hp; cases hp; exact hl' rfl)]
        exact hp
      · exact .inr h''
  · intro t' l' h'
    simp only [Core.become, Core.change] at h' ⊢
    by_cases ht : t' = t
    · simp [ht] at h'
    · rw [if_neg ht] at h'
      by_cases hl' : l' = l
      · exact ⟨_, if_pos hl'⟩
      · rw [if_neg hl']; exact h.wait _ _ h'
  · intro l' ld' t' h1 h2
    simp only [Core.become, Core.change] at h1 ⊢
    by_cases hl' : l' = l
    · rw [if_pos hl'] at h1
      cases h1
      simp at h2
    · rw [if_neg hl'] at h1
      have := h.waiter l' ld' t' h1 h2
      rw [if_neg (by rintro rfl; simp [hr] at this), if_neg]
      · exact this
      · intro hm
        have h' := h.waiter l ld t' hl hm
        rw [this.1] at h'
        cases h'.1
        exact hl' rfl
  · intro t' l' h'
    simp only [Core.become, Core.change] at h' ⊢
    by_cases ht : t' = t
    · simp [ht] at h'
    · rw [if_neg ht] at h'
      obtain ⟨ld', hld, hh⟩ := h.parked _ _ h'
      by_cases hl' : l' = l
      · subst hl'
        rw [hl] at hld
        cases hld
        refine ⟨_, if_pos rfl, ?_⟩
        rcases hh with hh | ⟨o', h1, h2, h3⟩
        · exact .inr ⟨o, if_pos hh.2, hobj, rfl⟩
        · rw [hobj] at h2
          cases h2
          refine .inr ⟨o, ?_, hobj, rfl⟩
          rw [h3]
          simpa using h1
      · refine ⟨ld', by rw [if_neg hl']; exact hld, ?_⟩
        rw [if_neg]
        · exact hh
        · intro hm
          have h'' := h.waiter l ld t' hl hm
          rw [h'] at h''
          cases h''.1
          exact hl' rfl
  · intro t' m h'
    simp only [Core.become, Core.change] at h' ⊢
    by_cases hm : t' ∈ ld.waiters
    · have := (h.waiter l ld t' hl hm).1
      rw [if_neg (by rintro rfl; simp [hr] at this)]
      exact .inl ⟨l, this⟩
    · rw [if_neg hm] at h'
      by_cases ht : t' = t
      · subst ht
        rcases h.mailed _ _ h' with ⟨l, hh⟩ | hh <;> simp [hr] at hh
      · simp only [if_neg ht]; exact h.mailed _ _ h'

/-- The loader is taken out of the map. -/
theorem Core.Inv.close {c : Core K V} (h : c.Inv) {t l : Nat} {k : K}
    {o : Outcome V} (hr : c.role t = .own k l (.after o)) :
    Core.Inv { c.become t .over with
      loaders := fun k' => if k' = k then none else c.loaders k' } := by
  obtain ⟨hk, ld, hl, hobj, hw⟩ := h.own _ _ _ _ hr
  have hw := hw o rfl
  simp only [Phase.object] at hobj
  refine ⟨?_, ?_, ?_, ?_, ?_, ?_, ?_, ?_⟩
  · intro t' k' l' p h'
    simp only [Core.become] at h' ⊢
    by_cases ht : t' = t
    · simp [ht] at h'
    · rw [if_neg ht] at h'
      obtain ⟨h1, ld', h2, h3⟩ := h.own _ _ _ _ h'
      rw [if_neg]
      · exact ⟨h1, ld', h2, h3⟩
      · rintro rfl
        rw [hk] at h1
        cases h1
        exact ht (h.uniq _ _ _ _ _ _ _ h' hr)
  · intro t1 t2 k1 k2 l' p p' h1 h2
    simp only [Core.become] at h1 h2
    by_cases ht : t1 = t
    · simp [ht] at h1
    · by_cases ht' : t2 = t
      · simp [ht'] at h2
      · rw [if_neg ht] at h1; rw [if_neg ht'] at h2; exact h.uniq _ _ _ _ _ _ _ h1 h2
  · intro k' l' h'
    simp only at h'
    by_cases hk' : k' = k
    · simp [hk'] at h'
    · rw [if_neg hk'] at h'
      obtain ⟨t', p, hp⟩ := h.owned k' l' h'
      refine ⟨t', p, ?_⟩
      simp only [Core.become]
      rw [if_neg (by rintro rfl; rw [hr] at hp; cases hp; exact hk' rfl)]
      exact hp
  · intro l' ld' h'
    simp only [Core.become] at h' ⊢
    by_cases hl' : l' = l
    · subst hl'
      have h' : c.heap l' = some ld' := h'
      rw [hl] at h'
      cases h'
      exact .inr ⟨⟨o, hobj⟩, hw⟩
    · rcases h.free l' ld' h' with ⟨t', k', p, hp⟩ | h''
      · refine .inl ⟨t', k', p, ?_⟩
        rw [if_neg (by rintro rfl; rw [hr] at hp; cases hp; exact hl' rfl)]
        exact hp
      · exact .inr h''
  · intro t' l' h'
    simp only [Core.become] at h' ⊢
    by_cases ht : t' = t
    · simp [ht] at h'
    · rw [if_neg ht] at h'; exact h.wait _ _ h'
  · intro l' ld' t' h1 h2
    obtain ⟨h3, h4⟩ := h.waiter l' ld' t' h1 h2
    simp only [Core.become]
    rw [if_neg (by rintro rfl; simp [hr] at h3)]
    exact ⟨h3, h4⟩
  · intro t' l' h'
    simp only [Core.become] at h' ⊢
    by_cases ht : t' = t
    · simp [ht] at h'
    · rw [if_neg ht] at h'; exact h.parked _ _ h'
  · intro t' m h'
    simp only [Core.become]
    by_cases ht : t' = t
    · exact .inr (by rw [if_pos ht])
    · simp only [if_neg ht]; exact h.mailed _ _ h'

/-- A task begins to wait. -/
theorem Core.Inv.park {c : Core K V} (h : c.Inv) {t l : Nat} {ld : Loader V}
    (hr : c.role t = .wait l) (hl : c.heap l = some ld) (ho : ld.object = none) :
    ((c.change l { ld with waiters := ld.waiters ++ [t] }).become t (.park l)).Inv := by
  have hmail : c.mail t = none := by
    cases hm : c.mail t with
    | none => rfl
    | some m => rcases h.mailed _ _ hm with ⟨l, hh⟩ | hh <;> simp [hr] at hh
  refine ⟨?_, ?_, ?_, ?_, ?_, ?_, ?_, ?_⟩
  · intro t' k' l' p h'
    simp only [Core.become, Core.change] at h' ⊢
    by_cases ht : t' = t
    · simp [ht] at h'
    · rw [if_neg ht] at h'
      obtain ⟨h1, ld', h2, h3, h4⟩ := h.own _ _ _ _ h'
      refine ⟨h1, ?_⟩
      by_cases hl' : l' = l
      · subst hl'
        rw [hl] at h2
        cases h2
        refine ⟨_, if_pos rfl, h3, ?_⟩
        rintro o rfl
        rw [ho] at h3
        exact nomatch h3
      · exact ⟨ld', by rw [if_neg hl']; exact h2, h3, h4⟩
  · intro t1 t2 k1 k2 l' p p' h1 h2
    simp only [Core.become] at h1 h2
    by_cases ht : t1 = t
    · simp [ht] at h1
    · by_cases ht' : t2 = t
      · simp [ht'] at h2
      · rw [if_neg ht] at h1; rw [if_neg ht'] at h2; exact h.uniq _ _ _ _ _ _ _ h1 h2
  · intro k' l' h'
    obtain ⟨t', p, hp⟩ := h.owned k' l' h'
    refine ⟨t', p, ?_⟩
    simp only [Core.become]
    rw [if_neg (by rintro rfl; simp [hr] at hp)]
    exact hp
  · intro l' ld' h'
    simp only [Core.become, Core.change] at h' ⊢
    have keep : ∀ ld0, c.heap l' = some ld0 → (∃ t' k p, c.role t' = .own k l' p) →
        ∃ t' k p, (if t' = t then (.park l : Role K V) else c.role t') = .own k l' p := by
      rintro ld0 - ⟨t', k', p, hp⟩
      exact ⟨t', k', p, by rw [if_neg (by rintro rfl; simp [hr] at hp)]; exact hp⟩
    by_cases hl' : l' = l
    · subst hl'
      rcases h.free l' ld hl with h'' | ⟨⟨o, h''⟩, -⟩
      · exact .inl (keep ld hl h'')
      · rw [ho] at h''; exact nomatch h''
    · rw [if_neg hl'] at h'
      rcases h.free l' ld' h' with h'' | h''
      · exact .inl (keep ld' h' h'')
      · exact .inr h''
  · intro t' l' h'
    simp only [Core.become, Core.change] at h' ⊢
    by_cases ht : t' = t
    · simp [ht] at h'
    · rw [if_neg ht] at h'
      by_cases hl' : l' = l
      · exact ⟨_, if_pos hl'⟩
      · rw [if_neg hl']; exact h.wait _ _ h'
  · intro l' ld' t' h1 h2
    simp only [Core.become, Core.change] at h1 ⊢
    by_cases hl' : l' = l
    · subst hl'
      rw [if_pos rfl] at h1
      cases h1
      simp only [List.mem_append, List.mem_cons, List.not_mem_nil, or_false] at h2
      by_cases ht : t' = t
      · subst ht
        exact ⟨if_pos rfl, hmail⟩
      · rw [if_neg ht]
        rcases h2 with h2 | h2
        · exact h.waiter l' ld t' hl h2
        · exact absurd h2 ht
    · rw [if_neg hl'] at h1
      have := h.waiter l' ld' t' h1 h2
      rw [if_neg (by rintro rfl; simp [hr] at this)]
      exact this
  · intro t' l' h'
    simp only [Core.become, Core.change] at h' ⊢
    by_cases ht : t' = t
    · rw [if_pos ht] at h'
      cases h'
      refine ⟨_, if_pos rfl, .inl ⟨ht ▸ hmail, ?_⟩⟩
      simp [ht]
    · rw [if_neg ht] at h'
      obtain ⟨ld', hld, hh⟩ := h.parked _ _ h'
      by_cases hl' : l' = l
      · subst hl'
        rw [hl] at hld
        cases hld
        refine ⟨_, if_pos rfl, ?_⟩
        rcases hh with hh | ⟨o', h1, h2, h3⟩
        · exact .inl ⟨hh.1, List.mem_append_left _ hh.2⟩
        · rw [ho] at h2; exact nomatch h2
      · exact ⟨ld', by rw [if_neg hl']; exact hld, hh⟩
  · intro t' m h'
    simp only [Core.become, Core.change] at h' ⊢
    by_cases ht : t' = t
    · subst ht
      have h' : c.mail t' = some m := h'
      rw [hmail] at h'
      exact nomatch h'
    · simp only [if_neg ht]; exact h.mailed _ _ h'

/-- A task does something else. -/
theorem Core.Inv.same {c : Core K V} (h : c.Inv) {t : Nat} {r : Role K V} (hr : c.role t = r) :
    (c.become t r).Inv := by
  have : c.become t r = c := by
    unfold Core.become
    congr
    funext t'
    by_cases ht : t' = t
    · rw [if_pos ht, ht, hr]
    · rw [if_neg ht]
  rw [this]
  exact h

/-! ### Steps of the program -/

theorem State.role_goto (s : State K V) (t : Nat) (task : Task K V) (t' : Nat)
    (hlt : t < s.tasks.length) :
    (s.goto t task).role t' = if t' = t then task.role else s.role t' := by
  simp only [State.role, State.goto]
  by_cases ht : t' = t
  · subst ht
    simp [hlt]
  · rw [if_neg ht, List.getElem?_set_ne (Ne.symm ht)]

theorem State.lt_of_task {s : State K V} {t : Nat} {task : Task K V} (h : s.tasks[t]? = some task) :
    t < s.tasks.length := by
  rcases Nat.lt_or_ge t s.tasks.length with h' | h'
  · exact h'
  · rw [List.getElem?_eq_none h'] at h; exact nomatch h

theorem State.role_eq {s : State K V} {t : Nat} {task : Task K V} (h : s.tasks[t]? = some task) :
    s.role t = task.role := by simp [State.role, h]

theorem State.core_goto (s : State K V) (t : Nat) (task : Task K V)
    (h : t < s.tasks.length) : (s.goto t task).core = s.core.become t task.role := by
  unfold State.core Core.become
  congr
  funext t'
  exact s.role_goto t task t' h

theorem State.drain_ok (s : State K V) (o : Outcome V) (ws : List Nat) (mail : Map Nat (Mail V))
    (h : ∀ t ∈ ws, s.hungUp t = false) :
    (s.drain o mail ws).2 = true ∧ ∀ t, Map.find (s.drain o mail ws).1 t =
      if t ∈ ws then some (.sent o) else Map.find mail t := by
  induction ws generalizing mail with
  | nil => simp [State.drain]
  | cons w ws ih =>
    have hw : s.hungUp w = false := h w (by simp)
    simp only [State.drain, hw, Bool.false_eq_true, if_false]
    obtain ⟨h1, h2⟩ := ih (Map.put mail w (.sent o)) fun t ht => h t (List.mem_cons_of_mem _ ht)
    refine ⟨h1, fun t => ?_⟩
    rw [h2, Map.find_put]
    by_cases ht : t ∈ ws
    · simp [ht]
    · by_cases ht' : t = w
      · simp [ht']
      · simp [ht, ht']

theorem State.hungUp_of_park {s : State K V} {t l : Nat} (h : s.role t = .park l) :
    s.hungUp t = false := by
  unfold State.role at h
  unfold State.hungUp
  cases ht : s.tasks[t]? with
  | none => simp [ht] at h
  | some task =>
    simp only [ht] at h
    cases task <;> simp_all [Task.role]
    all_goals (rename_i o; cases o <;> simp_all [Task.role])

theorem heap_set (heap : List (Loader V)) (l : Nat) (ld old : Loader V) (l' : Nat)
    (h : heap[l]? = some old) : (heap.set l ld)[l']? = if l' = l then some ld else heap[l']? := by
  have hlt : l < heap.length := by
    rcases Nat.lt_or_ge l heap.length with h' | h'
    · exact h'
    · rw [List.getElem?_eq_none h'] at h; exact nomatch h
  by_cases hl : l' = l
  · subst hl
    simp [hlt]
  · rw [if_neg hl, List.getElem?_set_ne (Ne.symm hl)]

/-- A step keeps what holds of the loaders. -/
theorem State.run_inv (size : V → Nat) (s s' : State K V) (t : Nat) (r : Loaded V)
    (h : s.core.Inv) (hs : s.run size t r = some s') : s'.core.Inv := by
  unfold State.run at hs
  cases ht : s.tasks[t]? with
  | none => simp [ht] at hs
  | some task =>
    have hrole : s.core.role t = task.role := State.role_eq ht
    have hlt := State.lt_of_task ht
    cases task with
    | start k =>
      simp only [ht] at hs
      cases hl : s.entries.lookup k with
      | none =>
        simp only [hl, Option.some.injEq] at hs
        subst hs
        refine (congrArg Core.Inv (State.core_goto _ t _ (by exact hlt))).mpr ?_
        exact h.quit (.inl hrole)
      | some p =>
        obtain ⟨e, o⟩ := p
        cases o with
        | some v =>
          simp only [hl, Option.some.injEq] at hs
          subst hs
          refine (congrArg Core.Inv (State.core_goto _ t _ (by exact hlt))).mpr ?_
          exact h.quit (.inl hrole)
        | none =>
          simp only [hl, Option.some.injEq] at hs
          subst hs
          refine (congrArg Core.Inv (State.core_goto _ t _ (by exact hlt))).mpr ?_
          exact h.same hrole
    | missed k =>
      simp only [ht] at hs
      cases hl : Map.find s.loaders k with
      | some l =>
        simp only [hl, Option.some.injEq] at hs
        subst hs
        refine (congrArg Core.Inv (State.core_goto _ t _ (by exact hlt))).mpr ?_
        exact h.join hrole hl
      | none =>
        simp only [hl, Option.some.injEq] at hs
        subst hs
        refine (congrArg Core.Inv (State.core_goto _ t _ (by exact hlt))).mpr ?_
        have := h.open (l := s.heap.length) hrole hl
          (by simp [State.core])
        refine (congrArg Core.Inv ?_).mpr this
        simp only [State.core, Core.become, Core.change, Task.role]
        congr 1
        · funext k'
          rw [Map.find_put]
        · funext l'
          by_cases hl' : l' = s.heap.length
          · subst hl'; simp
          · rw [if_neg hl']
            rcases Nat.lt_or_ge l' s.heap.length with h' | h'
            · rw [List.getElem?_append_left h']
            · rw [List.getElem?_eq_none h', List.getElem?_eq_none]
              simp; omega
    | loading k l =>
      simp only [ht] at hs
      cases r with
      | object v =>
        simp only [Option.some.injEq] at hs
        subst hs
        refine (congrArg Core.Inv (State.core_goto _ t _ (by exact hlt))).mpr ?_
        exact h.same hrole
      | nothing =>
        simp only [Option.some.injEq] at hs
        subst hs
        refine (congrArg Core.Inv (State.core_goto _ t _ (by exact hlt))).mpr ?_
        exact h.same hrole
      | error =>
        simp only [Option.some.injEq] at hs
        subst hs
        refine (congrArg Core.Inv (State.core_goto _ t _ (by exact hlt))).mpr ?_
        exact h.same hrole
      | panic =>
        simp only [Option.some.injEq] at hs
        subst hs
        refine (congrArg Core.Inv (State.core_goto _ t _ (by exact hlt))).mpr ?_
        exact h.same hrole
    | loaded k l v =>
      simp only [ht] at hs
      cases hi : s.entries.insert size k v with
      | none =>
        simp only [hi, Option.some.injEq] at hs
        subst hs
        refine (congrArg Core.Inv (State.core_goto _ t _ (by exact hlt))).mpr ?_
        exact h.same hrole
      | some e =>
        simp only [hi, Option.some.injEq] at hs
        subst hs
        refine (congrArg Core.Inv (State.core_goto _ t _ (by exact hlt))).mpr ?_
        exact h.same hrole
    | finishing k l r' =>
      simp only [ht] at hs
      cases hl : s.heap[l]? with
      | none => simp [hl] at hs
      | some ld =>
        simp only [hl, Option.some.injEq] at hs
        subst hs
        refine (congrArg Core.Inv (State.core_goto _ t _ (by exact hlt))).mpr ?_
        have := h.store r'.outcome hrole hl
        refine (congrArg Core.Inv ?_).mpr this
        simp only [State.core, Core.become, Core.change, Task.role]
        congr 1
        funext l'
        exact heap_set _ _ _ _ _ hl
    | stored k l r' =>
      simp only [ht] at hs
      cases hl : s.heap[l]? with
      | none => simp [hl] at hs
      | some ld =>
        have hdr := s.drain_ok r'.outcome ld.waiters s.mail fun t' ht' =>
          State.hungUp_of_park (h.waiter l ld t' hl ht').1
        simp only [hl, hdr.1, if_true, Option.some.injEq] at hs
        subst hs
        refine (congrArg Core.Inv (State.core_goto _ t _ (by exact hlt))).mpr ?_
        have := h.tell hrole hl
        refine (congrArg Core.Inv ?_).mpr this
        simp only [State.core, Core.become, Core.change, Task.role]
        congr 1
        · funext l'
          exact heap_set _ _ _ _ _ hl
        · funext t'
          exact hdr.2 t'
    | finished k l r' =>
      simp only [ht, Option.some.injEq] at hs
      subst hs
      refine (congrArg Core.Inv (State.core_goto _ t _ (by exact hlt))).mpr ?_
      have := h.close hrole
      refine (congrArg Core.Inv ?_).mpr this
      simp only [State.core, Core.become, Core.change, Task.role]
      congr 1
      funext k'
      rw [Map.find_erase]
    | waiting k l =>
      simp only [ht] at hs
      cases hl : s.heap[l]? with
      | none => simp [hl] at hs
      | some ld =>
        cases ho : ld.object with
        | some o =>
          simp only [hl, ho, Option.some.injEq] at hs
          subst hs
          refine (congrArg Core.Inv (State.core_goto _ t _ (by exact hlt))).mpr ?_
          exact h.quit (.inr (.inl ⟨l, hrole⟩))
        | none =>
          simp only [hl, ho, Option.some.injEq] at hs
          subst hs
          refine (congrArg Core.Inv (State.core_goto _ t _ (by exact hlt))).mpr ?_
          have := h.park hrole hl ho
          refine (congrArg Core.Inv ?_).mpr this
          simp only [State.core, Core.become, Core.change, Task.role]
          congr 1
          funext l'
          rw [ho]
          exact heap_set _ _ _ _ _ hl
    | parked k l =>
      simp only [ht] at hs
      cases hm : Map.find s.mail t with
      | none => simp [hm] at hs
      | some m =>
        cases m with
        | sent o =>
          simp only [hm, Option.some.injEq] at hs
          subst hs
          refine (congrArg Core.Inv (State.core_goto _ t _ (by exact hlt))).mpr ?_
          exact h.quit (.inr (.inr ⟨l, _, hrole, hm⟩))
        | closed =>
          simp only [hm, Option.some.injEq] at hs
          subst hs
          refine (congrArg Core.Inv (State.core_goto _ t _ (by exact hlt))).mpr ?_
          exact h.quit (.inr (.inr ⟨l, _, hrole, hm⟩))
    | done k a => simp [ht] at hs
    | died k l => simp [ht] at hs
    | dropped k l => simp [ht] at hs

theorem State.init_inv (limit : Nat) (keys : List K) :
    (State.init limit keys : State K V).core.Inv := by
  apply Core.Inv.init
  · intro t
    simp only [State.core, State.role, State.init, List.getElem?_map]
    cases keys[t]? with
    | none => exact .inr rfl
    | some k => exact .inl rfl
  · intro k; rfl
  · intro l; rfl
  · intro t; rfl

/-- A schedule in which no task is dropped. -/
def NoDrop (es : List (Event V)) : Prop := ∀ e ∈ es, ∃ t r, e = .run t r

theorem State.steps_inv (size : V → Nat) (es : List (Event V)) (hes : NoDrop es) (s s' : State K V)
    (h : s.core.Inv) (hs : s.steps size es = some s') : s'.core.Inv := by
  induction es generalizing s with
  | nil => cases hs; exact h
  | cons e es ih =>
    obtain ⟨t, r, rfl⟩ := hes e (by simp)
    simp only [State.steps, State.step] at hs
    cases hr : s.run size t r with
    | none => simp [hr] at hs
    | some s1 =>
      simp only [hr] at hs
      exact ih (fun e he => hes e (List.mem_cons_of_mem _ he)) s1 (s.run_inv size s1 t r h hr) hs

end

end Verif.Cache
