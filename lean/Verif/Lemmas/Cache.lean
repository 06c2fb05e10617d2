import Verif.Model.Cache
import Mathlib.Tactic.Common
import Mathlib.Data.List.Basic
import Mathlib.Data.List.Induction
import Mathlib.Data.List.Perm.Subperm

/-!
The linked list of the cache holds the entries in the order of use.
-/
namespace Verif.Cache

section
variable {K V : Type} [DecidableEq K]

/-! ### Maps -/

section
variable {E : Type}

theorem Map.find_erase (m : Map K E) (k k' : K) :
    Map.find (Map.erase m k) k' = if k' = k then none else Map.find m k' := by
  induction m with
  | nil => simp [Map.find, Map.erase]
  | cons p m ih =>
    obtain ⟨a, e⟩ := p
    simp only [Map.erase] at ih
    by_cases ha : a = k
    · subst ha
      simp only [Map.erase, List.filter_cons, ne_eq, not_true_eq_false, decide_false,
        Bool.false_eq_true, if_false, Map.find]
      rw [ih]
      by_cases h : k' = a <;> simp [h]
    · simp only [Map.erase, List.filter_cons, ne_eq, ha, not_false_eq_true, decide_true, if_true,
        Map.find]
      rw [ih]
      by_cases h : k' = a
      · subst h; simp [ha]
      · simp [h]

theorem Map.find_put (m : Map K E) (k k' : K) (e : E) :
    Map.find (Map.put m k e) k' = if k' = k then some e else Map.find m k' := by
  simp only [Map.put, Map.find, Map.find_erase]
  by_cases h : k' = k <;> simp [h]

theorem Map.mem_keys_of_find {m : Map K E} {k : K} {e : E} (h : Map.find m k = some e) :
    k ∈ m.map Prod.fst := by
  induction m with
  | nil => simp [Map.find] at h
  | cons p m ih =>
    obtain ⟨a, e'⟩ := p
    simp only [Map.find] at h
    by_cases hk : k = a
    · simp [hk]
    · rw [if_neg hk] at h
      simp [ih h]

end

/-! ### The linked list -/

/-- The key at the front. -/
def headKey (l : List (K × V)) : Option K := l.head?.map Prod.fst

/-- The key at the back, or `p` if there is none. -/
def lastKey (p : Option K) : List (K × V) → Option K
  | [] => p
  | (k, _) :: l => lastKey (some k) l

/-- The entry that the map should hold for a key when the list is `l` and what is before it is
`p`. -/
def expected (size : V → Nat) (p : Option K) : List (K × V) → K → Option (Entry K V)
  | [], _ => none
  | (k, v) :: l, k' =>
    if k' = k then
      some { key := k, object := v, more := p, less := headKey l, size := size v }
    else
      expected size (some k) l k'

theorem lastKey_append (p : Option K) (a b : List (K × V)) :
    lastKey p (a ++ b) = lastKey (lastKey p a) b := by
  induction a generalizing p with
  | nil => rfl
  | cons x a ih => obtain ⟨k, v⟩ := x; exact ih _

theorem expected_none (size : V → Nat) (p : Option K) (l : List (K × V)) (k : K)
    (h : k ∉ l.map Prod.fst) : expected size p l k = none := by
  induction l generalizing p with
  | nil => rfl
  | cons x l ih =>
    obtain ⟨a, v⟩ := x
    simp only [List.map_cons, List.mem_cons, not_or] at h
    simp only [expected, if_neg h.1]
    exact ih _ h.2

theorem expected_mid (size : V → Nat) (p : Option K) (a b : List (K × V)) (k : K) (v : V)
    (h : k ∉ a.map Prod.fst) :
    expected size p (a ++ (k, v) :: b) k =
      some { key := k, object := v, more := lastKey p a, less := headKey b, size := size v } := by
  induction a generalizing p with
  | nil => simp [expected, lastKey]
  | cons x a ih =>
    obtain ⟨k', v'⟩ := x
    simp only [List.map_cons, List.mem_cons, not_or] at h
    simp only [List.cons_append, expected, if_neg h.1, lastKey]
    exact ih _ h.2

theorem expected_key {size : V → Nat} {p : Option K} {l : List (K × V)} {k : K} {e : Entry K V}
    (h : expected size p l k = some e) : e.key = k ∧ (k, e.object) ∈ l ∧ e.size = size e.object := by
  induction l generalizing p with
  | nil => simp [expected] at h
  | cons x l ih =>
    obtain ⟨k', v'⟩ := x
    simp only [expected] at h
    by_cases hk : k = k'
    · rw [if_pos hk] at h
      cases h
      simp [hk]
    · rw [if_neg hk] at h
      have := ih h
      simp [this]

/-- What is before the list matters only for its first entry. -/
theorem expected_front (size : V → Nat) (p q : Option K) (l : List (K × V)) (k : K)
    (hnd : (l.map Prod.fst).Nodup) :
    expected size p l k =
      if headKey l = some k then (expected size q l k).map fun e => e.update p e.less
      else expected size q l k := by
  cases l with
  | nil => simp [expected, headKey]
  | cons x l =>
    obtain ⟨a, v⟩ := x
    by_cases h : k = a
    · subst h; simp [expected, headKey, Entry.update]
    · have h' : a ≠ k := fun hh => h hh.symm
      simp [expected, headKey, h, h']

theorem headKey_mem {l : List (K × V)} {k : K} (h : headKey l = some k) : k ∈ l.map Prod.fst := by
  cases l with
  | nil => simp [headKey] at h
  | cons x l => simp [headKey] at h; simp [h]

theorem lastKey_mem {l : List (K × V)} {p : Option K} {k : K} (h : lastKey p l = some k) :
    p = some k ∨ k ∈ l.map Prod.fst := by
  induction l generalizing p with
  | nil => exact .inl h
  | cons x l ih =>
    obtain ⟨a, v⟩ := x
    rcases ih h with h | h
    · cases h; simp
    · simp only [List.map_cons, List.mem_cons]; exact .inr (.inr h)

theorem lastKey_none_mem {l : List (K × V)} {k : K} (h : lastKey none l = some k) :
    k ∈ l.map Prod.fst := by
  rcases lastKey_mem h with h | h
  · exact nomatch h
  · exact h

theorem expected_remove (size : V → Nat) (p : Option K) (a b : List (K × V)) (k : K) (v : V) (k' : K)
    (hp : ∀ x, p = some x → x ∉ (a ++ (k, v) :: b).map Prod.fst)
    (hnd : ((a ++ (k, v) :: b).map Prod.fst).Nodup) :
    expected size p (a ++ b) k' =
      if k' = k then none
      else if headKey b = some k' then
        (expected size p (a ++ (k, v) :: b) k').map fun e => e.update (lastKey p a) e.less
      else if lastKey none a = some k' then
        (expected size p (a ++ (k, v) :: b) k').map fun e => e.update e.more (headKey b)
      else expected size p (a ++ (k, v) :: b) k' := by
  induction a generalizing p with
  | nil =>
    simp only [List.nil_append, List.map_cons, List.nodup_cons] at hnd
    simp only [List.nil_append, lastKey, reduceCtorEq, if_false]
    by_cases h : k' = k
    · subst h
      rw [if_pos rfl, expected_none _ _ _ _ hnd.1]
    · rw [if_neg h]
      simp only [expected, if_neg h]
      exact expected_front _ _ _ _ _ hnd.2
  | cons x a ih =>
    obtain ⟨k1, v1⟩ := x
    simp only [List.cons_append, List.map_cons, List.nodup_cons] at hnd
    simp only [List.cons_append, expected]
    have hkk : k ≠ k1 := by
      rintro rfl
      exact hnd.1 (by simp)
    by_cases h1 : k' = k1
    · subst h1
      have hb : headKey b ≠ some k' := by
        intro h
        have := headKey_mem h
        apply hnd.1
        simp only [List.map_append, List.map_cons, List.mem_append, List.mem_cons]
        exact .inr (.inr this)
      rw [if_neg (Ne.symm hkk), if_neg hb, if_pos rfl, if_pos rfl]
      cases a with
      | nil => simp [lastKey, headKey, Entry.update]
      | cons y a =>
        have : lastKey none ((k', v1) :: y :: a) ≠ some k' := by
          intro h
          have h' : lastKey none (y :: a) = some k' := h
          have := lastKey_none_mem h'
          apply hnd.1
          simp only [List.map_append, List.mem_append]
          exact .inl this
        rw [if_neg this]
        simp [headKey]
    · rw [if_neg h1, if_neg h1]
      have hp' : ∀ x, some k1 = some x → x ∉ (a ++ (k, v) :: b).map Prod.fst := by
        rintro x hx
        cases hx
        exact hnd.1
      rw [ih (some k1) hp' hnd.2]
      have hl : lastKey (some k1) a = some k' ↔ lastKey none a = some k' := by
        cases a with
        | nil =>
          simp only [lastKey, Option.some.injEq, reduceCtorEq, iff_false]
          exact fun h => h1 h.symm
        | cons y a => obtain ⟨y, w⟩ := y; exact Iff.rfl
      simp only [lastKey, hl]

/-- The cache holds `l`, most recently used first: the links agree with `l` in both directions and
nothing else is held. -/
structure Linked (size : V → Nat) (s : Entries K V) (l : List (K × V)) : Prop where
  nodup : (l.map Prod.fst).Nodup
  most : s.most = headKey l
  least : s.least = lastKey none l
  find : ∀ k, Map.find s.map k = expected size none l k

theorem headKey_append (a b : List (K × V)) :
    headKey (a ++ b) = if a = [] then headKey b else headKey a := by
  cases a with
  | nil => rfl
  | cons x a => simp [headKey]

/-- A key is either not held, or is somewhere in the list. -/
theorem split_key (l : List (K × V)) (k : K) (h : k ∈ l.map Prod.fst) :
    ∃ a v b, l = a ++ (k, v) :: b ∧ k ∉ a.map Prod.fst := by
  induction l with
  | nil => simp at h
  | cons x l ih =>
    obtain ⟨k', v'⟩ := x
    by_cases hk : k = k'
    · subst hk
      exact ⟨[], v', l, rfl, by simp⟩
    · simp only [List.map_cons, List.mem_cons, hk, false_or] at h
      obtain ⟨a, v, b, rfl, ha⟩ := ih h
      refine ⟨(k', v') :: a, v, b, rfl, ?_⟩
      simp only [List.map_cons, List.mem_cons, not_or]
      exact ⟨hk, ha⟩

theorem Linked.remove_none {size : V → Nat} {s : Entries K V} {l : List (K × V)}
    (h : Linked size s l) {k : K} (hk : k ∉ l.map Prod.fst) : s.remove k = some (s, none) := by
  have := h.find k
  rw [expected_none _ _ _ _ hk] at this
  simp only [Entries.remove, this]

theorem nodup_mid {a b : List (K × V)} {k : K} {v : V}
    (hnd : ((a ++ (k, v) :: b).map Prod.fst).Nodup) :
    k ∉ a.map Prod.fst ∧ k ∉ b.map Prod.fst ∧ ((a ++ b).map Prod.fst).Nodup ∧
      ∀ x ∈ a.map Prod.fst, x ∉ b.map Prod.fst := by
  simp only [List.map_append, List.map_cons] at hnd ⊢
  rw [List.nodup_append] at hnd
  obtain ⟨h1, h2, h3⟩ := hnd
  rw [List.nodup_cons] at h2
  refine ⟨fun h => h3 _ h _ (List.mem_cons_self ..) rfl, h2.1, ?_, ?_⟩
  · rw [List.nodup_append]
    exact ⟨h1, h2.2, fun x hx y hy => h3 x hx y (List.mem_cons_of_mem _ hy)⟩
  · intro x hx hxb
    exact h3 x hx x (List.mem_cons_of_mem _ hxb) rfl

/-- Taking an entry out. -/
theorem Linked.remove_some {size : V → Nat} {s : Entries K V} {a b : List (K × V)} {k : K} {v : V}
    (h : Linked size s (a ++ (k, v) :: b)) :
    ∃ s', s.remove k = some (s', some
        { key := k, object := v, more := lastKey none a, less := headKey b, size := size v }) ∧
      Linked size s' (a ++ b) ∧ s'.size = s.size ∧ s'.limit = s.limit := by
  obtain ⟨ha, hb, hnd, hab⟩ := nodup_mid h.nodup
  have hfind : Map.find s.map k = some
      { key := k, object := v, more := lastKey none a, less := headKey b, size := size v } := by
    rw [h.find, expected_mid _ _ _ _ _ _ ha]
  have hmost : ∃ x, s.most = some x ∧ (x = k ↔ a = []) ∧ (a ≠ [] → headKey a = some x) := by
    rw [h.most, headKey_append]
    cases a with
    | nil => exact ⟨k, by simp [headKey]⟩
    | cons x a =>
      refine ⟨x.1, by simp [headKey], ?_, by simp [headKey]⟩
      simp only [reduceCtorEq, iff_false]
      rintro rfl
      exact ha (by simp)
  have hleast : ∃ x, s.least = some x ∧ (x = k ↔ b = []) ∧ (b ≠ [] → lastKey none b = some x) := by
    rw [h.least, lastKey_append]
    simp only [lastKey]
    cases b with
    | nil => exact ⟨k, by simp [lastKey]⟩
    | cons x b =>
      obtain ⟨x, w⟩ := x
      have hx : ∃ y, lastKey (some x) b = some y := by
        clear h hfind hnd hb hab
        induction b generalizing x with
        | nil => exact ⟨x, rfl⟩
        | cons z b ih => exact ih _
      obtain ⟨y, hy⟩ := hx
      refine ⟨y, hy, ?_, fun _ => hy⟩
      simp only [reduceCtorEq, iff_false]
      rintro rfl
      apply hb
      rcases lastKey_mem hy with h | h
      · cases h; simp
      · simp only [List.map_cons, List.mem_cons]; exact .inr h
  obtain ⟨most, hm1, hm2, hm3⟩ := hmost
  obtain ⟨least, hl1, hl2, hl3⟩ := hleast
  -- the entries of the neighbours
  have hless : ∀ kb, headKey b = some kb → ∃ e, Map.find s.map kb = some e := by
    intro kb hkb
    have hmem := headKey_mem hkb
    obtain ⟨b1, vb, b2, rfl, hb1⟩ := split_key b kb hmem
    have : a ++ (k, v) :: (b1 ++ (kb, vb) :: b2) = (a ++ (k, v) :: b1) ++ (kb, vb) :: b2 := by simp
    rw [h.find, this, expected_mid]
    · exact ⟨_, rfl⟩
    · simp only [List.map_append, List.map_cons, List.mem_append, List.mem_cons, not_or]
      refine ⟨fun hh => hab _ hh hmem, ?_, hb1⟩
      rintro rfl
      exact hb hmem
  have hmore : ∀ ka, lastKey none a = some ka → ∃ e, Map.find s.map ka = some e := by
    intro ka hka
    have hmem := lastKey_none_mem hka
    obtain ⟨a1, va, a2, rfl, ha1⟩ := split_key a ka hmem
    rw [h.find, List.append_assoc, List.cons_append, expected_mid _ _ _ _ _ _ ha1]
    exact ⟨_, rfl⟩
  -- the first change
  have h1 : ∃ m1, Entries.relink (Map.erase s.map k) (headKey b)
        (fun n => n.update (lastKey none a) n.less) = some m1 ∧
      ∀ k', Map.find m1 k' =
        if k' = k then none
        else if headKey b = some k' then
          (Map.find s.map k').map fun e => e.update (lastKey none a) e.less
        else Map.find s.map k' := by
    cases hb' : headKey b with
    | none =>
      refine ⟨_, rfl, fun k' => ?_⟩
      rw [Map.find_erase]
      simp
    | some kb =>
      have hne : kb ≠ k := by
        rintro rfl
        exact hb (headKey_mem hb')
      obtain ⟨e, he⟩ := hless kb hb'
      have hf : Map.find (Map.erase s.map k) kb = some e := by
        rw [Map.find_erase, if_neg hne, he]
      refine ⟨_, (by simp only [Entries.relink, hf]; rfl), fun k' => ?_⟩
      rw [Map.find_put, Map.find_erase, Map.find_erase]
      by_cases hk' : k' = kb
      · subst hk'
        rw [if_pos rfl, if_neg hne, if_pos rfl, he]
        rfl
      · rw [if_neg hk', if_neg hk']
        have : ¬ (some kb = some k') := fun hh => hk' (Option.some.inj hh).symm
        rw [if_neg this]
  obtain ⟨m1, hm1', hf1⟩ := h1
  have h2 : ∃ m2, Entries.relink m1 (lastKey none a)
        (fun n => n.update n.more (headKey b)) = some m2 ∧
      ∀ k', Map.find m2 k' = expected size none (a ++ b) k' := by
    have hexp : ∀ k', expected size none (a ++ b) k' =
        if k' = k then none
        else if headKey b = some k' then
          (Map.find s.map k').map fun e => e.update (lastKey none a) e.less
        else if lastKey none a = some k' then
          (Map.find s.map k').map fun e => e.update e.more (headKey b)
        else Map.find s.map k' := by
      intro k'
      rw [expected_remove size none a b k v k' (by simp) h.nodup, h.find]
    cases ha' : lastKey none a with
    | none =>
      refine ⟨_, rfl, fun k' => ?_⟩
      rw [hf1, hexp, ha']
      simp
    | some ka =>
      have hka : ka ∈ a.map Prod.fst := lastKey_none_mem ha'
      have hne : ka ≠ k := by
        rintro rfl
        exact ha hka
      have hneb : headKey b ≠ some ka := fun hh => hab _ hka (headKey_mem hh)
      obtain ⟨e, he⟩ := hmore ka ha'
      have hf : Map.find m1 ka = some e := by
        rw [hf1, if_neg hne, if_neg hneb, he]
      refine ⟨_, (by simp only [Entries.relink, hf]; rfl), fun k' => ?_⟩
      rw [Map.find_put, Map.find_erase, hexp, hf1, ha']
      by_cases hk' : k' = ka
      · subst hk'
        rw [if_pos rfl, if_neg hne, if_neg hneb, if_pos rfl, he]
        rfl
      · have : ¬ (some ka = some k') := fun hh => hk' (Option.some.inj hh).symm
        rw [if_neg hk', if_neg hk', if_neg this]
  obtain ⟨m2, hm2', hf2⟩ := h2
  refine ⟨_, (by simp only [Entries.remove, hfind, hm1, hl1, hm1', hm2']; rfl), ?_, ?_, ?_⟩
  rotate_left
  · rfl
  · rfl
  refine ⟨hnd, ?_, ?_, hf2⟩
  · simp only
    rw [headKey_append]
    by_cases hae : a = []
    · rw [if_pos (hm2.2 hae), if_pos hae]
    · rw [if_neg (fun hh => hae (hm2.1 hh)), if_neg hae, hm3 hae]
  · simp only
    rw [lastKey_append]
    by_cases hbe : b = []
    · rw [if_pos (hl2.2 hbe), hbe]; rfl
    · rw [if_neg (fun hh => hbe (hl2.1 hh))]
      have := hl3 hbe
      cases b with
      | nil => exact absurd rfl hbe
      | cons x b => obtain ⟨x, w⟩ := x; exact this.symm

/-- Putting an entry in front. -/
theorem Linked.push {size : V → Nat} {s : Entries K V} {l : List (K × V)} (h : Linked size s l)
    (e : Entry K V) (hk : e.key ∉ l.map Prod.fst) (hs : e.size = size e.object) :
    ∃ s', s.push e = some s' ∧ Linked size s' ((e.key, e.object) :: l) ∧ s'.size = s.size ∧
      s'.limit = s.limit := by
  cases l with
  | nil =>
    have hm : s.most = none := h.most
    have hl : s.least = none := h.least
    refine ⟨_, (by simp only [Entries.push, hm]; rfl), ?_, ?_, ?_⟩
    rotate_left
    · rfl
    · rfl
    refine ⟨by simp, rfl, by simp [hl, lastKey], fun k' => ?_⟩
    simp only [Map.find_put, h.find, expected]
    by_cases hk' : k' = e.key
    · simp [hk', headKey, Entry.update, hs]
    · simp [hk']
  | cons x l =>
    obtain ⟨k0, v0⟩ := x
    have hm : s.most = some k0 := h.most
    simp only [List.map_cons, List.mem_cons, not_or] at hk
    have hfind : Map.find s.map k0 = some
        { key := k0, object := v0, more := none, less := headKey l, size := size v0 } := by
      rw [h.find]; simp [expected]
    have hne : k0 ≠ e.key := fun hh => hk.1 hh.symm
    have hl : ∃ y, s.least = some y := by
      rw [h.least]
      simp only [lastKey]
      clear h hk hfind hm hne
      induction l generalizing k0 with
      | nil => exact ⟨_, rfl⟩
      | cons z l ih => exact ih _
    obtain ⟨y, hy⟩ := hl
    refine ⟨_, (by simp only [Entries.push, hm, if_neg hne, hfind]; rfl), ?_, ?_, ?_⟩
    rotate_left
    · rfl
    · rfl
    refine ⟨?_, rfl, ?_, fun k' => ?_⟩
    · simp only [List.map_cons, List.nodup_cons, List.mem_cons, not_or]
      have := h.nodup
      simp only [List.map_cons, List.nodup_cons] at this
      exact ⟨hk, this⟩
    · simp only [hy]
      have := h.least
      rw [hy] at this
      simpa [lastKey] using this
    · simp only [Map.find_put, Map.find_erase, h.find, expected]
      by_cases hk' : k' = e.key
      · subst hk'
        simp [headKey, Entry.update, hs]
      · rw [if_neg hk', if_neg hk']
        by_cases hk0 : k' = k0
        · simp [hk0, Entry.update]
        · simp [hk0]

theorem Linked.length_le {size : V → Nat} {s : Entries K V} {l : List (K × V)}
    (h : Linked size s l) : l.length ≤ s.map.length := by
  have hsub : l.map Prod.fst ⊆ s.map.map Prod.fst := by
    intro k hk
    obtain ⟨a, v, b, rfl, ha⟩ := split_key l k hk
    apply Map.mem_keys_of_find
    rw [h.find, expected_mid _ _ _ _ _ _ ha]
  have := (List.subperm_of_subset h.nodup hsub).length_le
  simpa using this

/-- The sum of the sizes. -/
def total (size : V → Nat) (l : List (K × V)) : Nat := (l.map fun p => size p.2).sum

theorem total_cons (size : V → Nat) (x : K × V) (l : List (K × V)) :
    total size (x :: l) = size x.2 + total size l := by simp [total]

theorem total_append (size : V → Nat) (a b : List (K × V)) :
    total size (a ++ b) = total size a + total size b := by simp [total]

/-- The state of the cache between two calls. -/
structure Holds (size : V → Nat) (s : Entries K V) (l : List (K × V)) : Prop where
  linked : Linked size s l
  size_eq : s.size = total size l
  le_limit : s.size ≤ s.limit

theorem Linked.congr {size : V → Nat} {s s' : Entries K V} {l : List (K × V)}
    (h : Linked size s l) (hm : s'.map = s.map) (h1 : s'.most = s.most) (h2 : s'.least = s.least) :
    Linked size s' l :=
  ⟨h.nodup, by rw [h1, h.most], by rw [h2, h.least], by rw [hm]; exact h.find⟩

theorem lastKey_concat (p : Option K) (a : List (K × V)) (k : K) (v : V) :
    lastKey p (a ++ [(k, v)]) = some k := by
  rw [lastKey_append]; rfl

/-- Evicting leaves the longest part at the front that fits. -/
theorem Linked.evict {size : V → Nat} {l : List (K × V)} (n : Nat) (hn : l.length < n) {s : Entries K V}
    (h : Linked size s l) (hs : s.size = total size l) :
    ∃ s' l' gone, s.evict n = some s' ∧ l = l' ++ gone ∧ Holds size s' l' ∧ s'.limit = s.limit ∧
      ∀ g gs, gone = g :: gs → s.limit < total size (l' ++ [g]) := by
  induction l using List.reverseRecOn generalizing n s with
  | nil =>
    obtain ⟨n, rfl⟩ : ∃ m, n = m + 1 := ⟨n - 1, by omega⟩
    have h0 : s.size = 0 := by simpa [total] using hs
    refine ⟨s, [], [], ?_, rfl, ⟨h, hs, by omega⟩, rfl, by simp⟩
    simp [Entries.evict, h0]
  | append_singleton l x ih =>
    obtain ⟨k, v⟩ := x
    obtain ⟨n, rfl⟩ : ∃ m, n = m + 1 := ⟨n - 1, by omega⟩
    by_cases hle : s.size ≤ s.limit
    · refine ⟨s, l ++ [(k, v)], [], ?_, by simp, ⟨h, hs, hle⟩, rfl, by simp⟩
      simp [Entries.evict, hle]
    · have hleast : s.least = some k := by rw [h.least, lastKey_concat]
      obtain ⟨s1, hr, hl1, hsz, hlim⟩ := h.remove_some
      rw [List.append_nil] at hl1
      have ht : s.size = total size l + size v := by
        rw [hs, total_append]; simp [total]
      have hsub : size v ≤ s1.size := by omega
      have hn' : l.length < n := by simp at hn; omega
      obtain ⟨s', l', gone, he, hlg, hh, hlim', hg⟩ := ih n hn'
        (s := { s1 with size := s1.size - size v })
        (hl1.congr rfl rfl rfl) (by simp only; omega)
      refine ⟨s', l', gone ++ [(k, v)], ?_, by rw [hlg]; simp, hh, by rw [hlim', ← hlim], ?_⟩
      · simp only [Entries.evict, if_neg hle, hleast, hr, if_pos hsub]
        exact he
      · intro g gs hgs
        cases gone with
        | nil =>
          simp only [List.nil_append, List.cons.injEq] at hgs
          obtain ⟨rfl, rfl⟩ := hgs
          simp only [List.append_nil] at hlg
          subst hlg
          rw [← hs]
          omega
        | cons g' gs' =>
          simp only [List.cons_append, List.cons.injEq] at hgs
          obtain ⟨rfl, rfl⟩ := hgs
          have := hg g' gs' rfl
          rw [← hlim]
          exact this

theorem Holds.insert {size : V → Nat} {s : Entries K V} {l : List (K × V)} (h : Holds size s l)
    (k : K) (v : V) (hk : k ∉ l.map Prod.fst) :
    ∃ s' l' gone, s.insert size k v = some s' ∧ (k, v) :: l = l' ++ gone ∧ Holds size s' l' ∧
      s'.limit = s.limit ∧ ∀ g gs, gone = g :: gs → s.limit < total size (l' ++ [g]) := by
  have hl : Linked size { s with size := s.size + size v } l := h.linked.congr rfl rfl rfl
  obtain ⟨s1, hp, hl1, hsz, hlim⟩ := hl.push (Entry.new size k v) hk rfl
  obtain ⟨s', l', gone, he, hlg, hh, hlim', hg⟩ := hl1.evict (s1.map.length + 1)
    (by have := hl1.length_le; omega)
    (by rw [hsz]; simp only; rw [h.size_eq, total_cons]; simp only [Entry.new]; omega)
  refine ⟨s', l', gone, ?_, hlg, hh, by rw [hlim', hlim], ?_⟩
  · simp only [Entries.insert]
    have : (Entry.new size k v).size = size v := rfl
    rw [this, hp]
    exact he
  · intro g gs hgs
    have := hg g gs hgs
    rw [hlim] at this
    exact this

theorem Holds.lookup_none {size : V → Nat} {s : Entries K V} {l : List (K × V)} (h : Holds size s l)
    {k : K} (hk : k ∉ l.map Prod.fst) : s.lookup k = some (s, none) := by
  simp only [Entries.lookup, h.linked.remove_none hk]

theorem Holds.lookup_some {size : V → Nat} {s : Entries K V} {a b : List (K × V)} {k : K} {v : V}
    (h : Holds size s (a ++ (k, v) :: b)) :
    ∃ s', s.lookup k = some (s', some v) ∧ Holds size s' ((k, v) :: (a ++ b)) ∧
      s'.limit = s.limit := by
  obtain ⟨ha, hb, hnd, hab⟩ := nodup_mid h.linked.nodup
  obtain ⟨s1, hr, hl1, hsz, hlim⟩ := h.linked.remove_some
  obtain ⟨s2, hp, hl2, hsz2, hlim2⟩ := hl1.push
    { key := k, object := v, more := lastKey none a, less := headKey b, size := size v }
    (by simp only [List.map_append, List.mem_append, not_or]; exact ⟨ha, hb⟩) rfl
  refine ⟨s2, by simp only [Entries.lookup, hr, hp], ⟨hl2, ?_, ?_⟩, by rw [hlim2, hlim]⟩
  · rw [hsz2, hsz, h.size_eq, total_cons]
    simp only [total_append, total_cons]
    omega
  · rw [hsz2, hsz, hlim2, hlim]; exact h.le_limit

theorem Holds.new (size : V → Nat) (limit : Nat) :
    Holds size (Entries.new limit : Entries K V) [] :=
  ⟨⟨by simp, rfl, rfl, fun _ => rfl⟩, rfl, Nat.zero_le _⟩

/-! ### One call -/

theorem Holds.get {size : V → Nat} {s : Entries K V} {l : List (K × V)} (h : Holds size s l)
    (k : K) (load : K → Loaded V) :
    ∃ s' l' a c, s.get size k load = some (s', a, c) ∧ Holds size s' l' ∧ s'.limit = s.limit ∧
      (c = true ↔ k ∉ l.map Prod.fst) ∧
      ((∃ x v y, l = x ++ (k, v) :: y ∧ l' = (k, v) :: (x ++ y) ∧ a = .ok v) ∨
        (k ∉ l.map Prod.fst ∧ ∃ v gone, load k = .object v ∧ a = .ok v ∧ (k, v) :: l = l' ++ gone ∧
          ∀ g gs, gone = g :: gs → s.limit < total size (l' ++ [g])) ∨
        (k ∉ l.map Prod.fst ∧ l' = l ∧ a = (load k).answer ∧ ∀ v, load k ≠ .object v)) := by
  by_cases hk : k ∈ l.map Prod.fst
  · obtain ⟨x, v, y, rfl, hx⟩ := split_key l k hk
    obtain ⟨s', hl, hh, hlim⟩ := h.lookup_some
    refine ⟨s', _, .ok v, false, by simp only [Entries.get, hl], hh, hlim, by simpa using hk,
      .inl ⟨x, v, y, rfl, rfl, rfl⟩⟩
  · have hl := h.lookup_none hk
    cases hld : load k with
    | object v =>
      obtain ⟨s', l', gone, hi, hlg, hh, hlim, hg⟩ := h.insert k v hk
      exact ⟨s', l', .ok v, true, by simp only [Entries.get, hl, hld, hi], hh, hlim,
        by simpa using hk, .inr (.inl ⟨hk, v, gone, rfl, rfl, hlg, hg⟩)⟩
    | nothing =>
      exact ⟨s, l, .panic, true, by simp only [Entries.get, hl, hld], h, rfl, by simpa using hk,
        .inr (.inr ⟨hk, rfl, rfl, by simp⟩)⟩
    | error e =>
      exact ⟨s, l, .err e, true, by simp only [Entries.get, hl, hld], h, rfl, by simpa using hk,
        .inr (.inr ⟨hk, rfl, rfl, by simp⟩)⟩
    | panic =>
      exact ⟨s, l, .panic, true, by simp only [Entries.get, hl, hld], h, rfl, by simpa using hk,
        .inr (.inr ⟨hk, rfl, rfl, by simp⟩)⟩

theorem Holds.getsWith {size : V → Nat} {s : Entries K V} {l : List (K × V)} (h : Holds size s l)
    (left : List K) (calls : List (K × (K → Loaded V))) :
    ∃ s' l' as, s.getsWith size left calls = some (s', as) ∧ Holds size s' l' ∧ s'.limit = s.limit := by
  induction calls generalizing s l left with
  | nil => exact ⟨s, l, [], rfl, h, rfl⟩
  | cons c calls ih =>
    obtain ⟨k, load⟩ := c
    by_cases hw : k ∈ left ∧ (Map.find s.map k).isNone
    · exact ⟨s, l, [], by simp only [Entries.getsWith, if_pos hw], h, rfl⟩
    · obtain ⟨s1, l1, a, c, hg, hh, hlim, -, -⟩ := h.get k load
      obtain ⟨s', l', as, hgs, hh', hlim'⟩ := ih hh (if c && (load k).panics then k :: left else left)
      exact ⟨s', l', (a, c) :: as, by simp only [Entries.getsWith, if_neg hw, hg, hgs], hh',
        by rw [hlim', hlim]⟩

theorem Holds.gets {size : V → Nat} {s : Entries K V} {l : List (K × V)} (h : Holds size s l)
    (calls : List (K × (K → Loaded V))) :
    ∃ s' l' as, s.gets size calls = some (s', as) ∧ Holds size s' l' ∧ s'.limit = s.limit :=
  h.getsWith [] calls

theorem Holds.mem_iff {size : V → Nat} {s : Entries K V} {l : List (K × V)} (h : Holds size s l)
    (k : K) (v : V) : (k, v) ∈ l ↔ ∃ e, Map.find s.map k = some e ∧ e.object = v := by
  constructor
  · intro hm
    obtain ⟨a, b, rfl⟩ := List.append_of_mem hm
    have := nodup_mid h.linked.nodup
    refine ⟨_, by rw [h.linked.find, expected_mid _ _ _ _ _ _ this.1], rfl⟩
  · rintro ⟨e, he, rfl⟩
    rw [h.linked.find] at he
    exact (expected_key he).2.1

/-- The keys met when following the links from the most recently used entry: the first half of
`collect_linked_list` in the tests (cache.rs:432-447). -/
def Entries.down (s : Entries K V) : Nat → Option K → List K
  | 0, _ => []
  | _, none => []
  | n + 1, some k =>
    match Map.find s.map k with
    | none => []
    | some e => k :: Entries.down s n e.less

/-- The keys met when following the links from the least recently used entry: the second half of
`collect_linked_list` in the tests (cache.rs:449-462). -/
def Entries.up (s : Entries K V) : Nat → Option K → List K
  | 0, _ => []
  | _, none => []
  | n + 1, some k =>
    match Map.find s.map k with
    | none => []
    | some e => k :: Entries.up s n e.more

theorem Linked.down {size : V → Nat} {s : Entries K V} {a b : List (K × V)}
    (h : Linked size s (a ++ b)) (n : Nat) (hn : b.length ≤ n) :
    s.down n (headKey b) = b.map Prod.fst := by
  induction b generalizing a n with
  | nil => cases n <;> rfl
  | cons x b ih =>
    obtain ⟨k, v⟩ := x
    obtain ⟨n, rfl⟩ : ∃ m, n = m + 1 := ⟨n - 1, by simp at hn; omega⟩
    have hf := h.find k
    rw [expected_mid _ _ _ _ _ _ (nodup_mid h.nodup).1] at hf
    have hk : headKey ((k, v) :: b) = some k := rfl
    have := ih (a := a ++ [(k, v)]) (by simpa using h) n (by simpa using hn)
    simp only [hk, Entries.down, hf, this, List.map_cons]

theorem Linked.up {size : V → Nat} {s : Entries K V} {a b : List (K × V)}
    (h : Linked size s (a ++ b)) (n : Nat) (hn : a.length ≤ n) :
    s.up n (lastKey none a) = (a.map Prod.fst).reverse := by
  induction a using List.reverseRecOn generalizing b n with
  | nil => cases n <;> rfl
  | append_singleton a x ih =>
    obtain ⟨k, v⟩ := x
    obtain ⟨n, rfl⟩ : ∃ m, n = m + 1 := ⟨n - 1, by simp at hn; omega⟩
    have h' : Linked size s (a ++ (k, v) :: b) := by simpa using h
    have hf := h'.find k
    rw [expected_mid _ _ _ _ _ _ (nodup_mid h'.nodup).1] at hf
    have := ih h' n (by simpa using hn)
    simp only [lastKey_concat, Entries.up, hf, this, List.map_append, List.reverse_append,
      List.map_cons, List.map_nil, List.reverse_cons, List.reverse_nil, List.nil_append,
      List.cons_append]

end

end Verif.Cache
