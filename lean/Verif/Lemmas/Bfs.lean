/-! Breadth first order of a tree given by a `kids` function, and where children end up in it. -/
namespace Verif

variable {α : Type _}

/-- Order in which a queue-driven breadth first traversal visits nodes. -/
def bfs (kids : α → List α) : Nat → List α → Option (List α)
  | _, [] => some []
  | 0, _ :: _ => none
  | n + 1, x :: q => (bfs kids n (q ++ kids x)).map (x :: ·)

theorem bfs_total (kids : α → List α) (w : α → Nat)
    (P : α → Prop) (hP : ∀ x, P x → ∀ y ∈ kids x, P y)
    (hw : ∀ x, P x → 1 + ((kids x).map w).sum ≤ w x) :
    ∀ n q, (∀ x ∈ q, P x) → (q.map w).sum ≤ n → ∃ N, bfs kids n q = some N := by
  intro n
  induction n with
  | zero =>
    intro q hq h
    cases q with
    | nil => exact ⟨[], rfl⟩
    | cons x q =>
      have := hw x (hq x (by simp))
      simp at h; omega
  | succ n ih =>
    intro q hq h
    cases q with
    | nil => exact ⟨[], rfl⟩
    | cons x q =>
      have hx := hw x (hq x (by simp))
      simp only [List.map_cons, List.sum_cons] at h
      obtain ⟨N, hN⟩ := ih (q ++ kids x) (by
        intro y hy
        rw [List.mem_append] at hy
        cases hy with
        | inl h => exact hq y (by simp [h])
        | inr h => exact hP x (hq x (by simp)) y h) (by
        simp only [List.map_append, List.sum_append]; omega)
      exact ⟨x :: N, by simp [bfs, hN]⟩

theorem bfs_fix (kids : α → List α) : ∀ n q N, bfs kids n q = some N →
    N = q ++ N.flatMap kids := by
  intro n
  induction n with
  | zero =>
    intro q N h
    cases q with
    | nil => simp [bfs] at h; subst h; rfl
    | cons x q => simp [bfs] at h
  | succ n ih =>
    intro q N h
    cases q with
    | nil => simp [bfs] at h; subst h; rfl
    | cons x q =>
      simp only [bfs, Option.map_eq_some_iff] at h
      obtain ⟨M, h1, rfl⟩ := h
      have := ih _ _ h1
      rw [List.flatMap_cons, List.cons_append]
      congr 1
      rw [← List.append_assoc]
      exact this

theorem bfs_forall (kids : α → List α) (P : α → Prop) (hP : ∀ x, P x → ∀ y ∈ kids x, P y) :
    ∀ n q N, bfs kids n q = some N → (∀ x ∈ q, P x) → ∀ x ∈ N, P x := by
  intro n
  induction n with
  | zero =>
    intro q N h hq
    cases q with
    | nil => simp [bfs] at h; subst h; simp
    | cons x q => simp [bfs] at h
  | succ n ih =>
    intro q N h hq
    cases q with
    | nil => simp [bfs] at h; subst h; simp
    | cons x q =>
      simp only [bfs, Option.map_eq_some_iff] at h
      obtain ⟨M, h1, rfl⟩ := h
      have := ih _ _ h1 (by
        intro y hy
        rw [List.mem_append] at hy
        cases hy with
        | inl h => exact hq y (by simp [h])
        | inr h => exact hP x (hq x (by simp)) y h)
      intro y hy
      rw [List.mem_cons] at hy
      cases hy with
      | inl h => subst h; exact hq _ (by simp)
      | inr h => exact this y h

/-- Heights never increase along the breadth first order. -/
theorem bfs_heights (kids : α → List α) (ht : α → Nat) (P : α → Prop)
    (hP : ∀ x, P x → ∀ y ∈ kids x, P y ∧ ht y + 1 = ht x) :
    ∀ n q N, bfs kids n q = some N → (∀ x ∈ q, P x) →
      (∃ h A B, q = A ++ B ∧ (∀ x ∈ A, ht x = h + 1) ∧ (∀ x ∈ B, ht x = h)) →
      N.Pairwise (fun a b => ht b ≤ ht a) := by
  intro n
  induction n with
  | zero =>
    intro q N h hq _
    cases q with
    | nil => simp [bfs] at h; subst h; exact List.Pairwise.nil
    | cons x q => simp [bfs] at h
  | succ n ih =>
    intro q N h hq hlev
    cases q with
    | nil => simp [bfs] at h; subst h; exact List.Pairwise.nil
    | cons x q =>
      simp only [bfs, Option.map_eq_some_iff] at h
      obtain ⟨M, h1, rfl⟩ := h
      have hPx := hq x (by simp)
      have hnext : ∀ y ∈ q ++ kids x, P y := by
        intro y hy
        rw [List.mem_append] at hy
        cases hy with
        | inl h => exact hq y (by simp [h])
        | inr h => exact (hP x hPx y h).1
      obtain ⟨h, A, B, hAB, hA, hB⟩ := hlev
      -- every queued node is at most as high as `x`
      have hle : ∀ y ∈ q ++ kids x, ht y ≤ ht x := by
        intro y hy
        rw [List.mem_append] at hy
        cases hy with
        | inr hk => have := (hP x hPx y hk).2; omega
        | inl hk =>
          cases A with
          | nil =>
            simp at hAB
            have hx := hB x (by rw [← hAB]; simp)
            have := hB y (by rw [← hAB]; simp [hk])
            omega
          | cons a A =>
            simp at hAB
            have hx := hA x (by simp [hAB.1])
            rw [hAB.2] at hk
            rw [List.mem_append] at hk
            cases hk with
            | inl hk => have := hA y (by simp [hk]); omega
            | inr hk => have := hB y hk; omega
      rw [List.pairwise_cons]
      refine ⟨?_, ?_⟩
      · have := bfs_forall kids (fun y => P y ∧ ht y ≤ ht x) (by
          intro a ha b hb
          have := hP a ha.1 b hb
          exact ⟨this.1, by have := this.2; have := ha.2; omega⟩) n _ M h1 (by
          intro y hy; exact ⟨hnext y hy, hle y hy⟩)
        intro y hy; exact (this y hy).2
      · apply ih _ _ h1 hnext
        cases A with
        | nil =>
          simp at hAB
          have hx := hB x (by rw [← hAB]; simp)
          cases h with
          | zero =>
            refine ⟨0, [], q ++ kids x, rfl, by simp, ?_⟩
            intro y hy
            have := hle y hy; omega
          | succ h =>
            refine ⟨h, q, kids x, rfl, ?_, ?_⟩
            · intro y hy; exact hB y (by rw [← hAB]; simp [hy])
            · intro y hy; have := (hP x hPx y hy).2; omega
        | cons a A =>
          simp at hAB
          have hx := hA x (by simp [hAB.1])
          refine ⟨h, A, B ++ kids x, by rw [hAB.2]; simp, ?_, ?_⟩
          · intro y hy; exact hA y (by simp [hy])
          · intro y hy
            rw [List.mem_append] at hy
            cases hy with
            | inl hy => exact hB y hy
            | inr hy => have := (hP x hPx y hy).2; omega

theorem flatMap_length_count (kids : α → List α) (int : α → Bool) (K : Nat) (L : List α)
    (h : ∀ x ∈ L, (kids x).length = if int x then K else 0) :
    (L.flatMap kids).length = L.countP int * K := by
  induction L with
  | nil => simp
  | cons x L ih =>
    rw [List.flatMap_cons, List.length_append, ih (fun y hy => h y (by simp [hy])), h x (by simp),
      List.countP_cons]
    split <;> simp_all [Nat.add_mul, Nat.add_comm]

/-- Where child number `j` of the node at position `p` is found. -/
theorem bfs_child (kids : α → List α) (int : α → Bool) (K : Nat) (root : α) (N : List α)
    (hfix : N = [root] ++ N.flatMap kids)
    (hk : ∀ x ∈ N, (kids x).length = if int x then K else 0)
    (p : Nat) (x : α) (hp : N[p]? = some x) (j : Nat) (hj : j < (kids x).length) :
    N[1 + (N.take p).countP int * K + j]? = (kids x)[j]? := by
  have hlt : p < N.length := (List.getElem?_eq_some_iff.1 hp).1
  have hx : N[p] = x := (List.getElem?_eq_some_iff.1 hp).2
  have hsplit : N = N.take p ++ x :: N.drop (p + 1) := by
    rw [← hx, ← List.drop_eq_getElem_cons hlt, List.take_append_drop]
  have hlen : ((N.take p).flatMap kids).length = (N.take p).countP int * K :=
    flatMap_length_count kids int K _ (fun y hy => hk y (List.mem_of_mem_take hy))
  have hF : N.flatMap kids =
      (N.take p).flatMap kids ++ (kids x ++ (N.drop (p + 1)).flatMap kids) := by
    conv => lhs; rw [hsplit]
    rw [List.flatMap_append, List.flatMap_cons]
  have e : N[1 + (N.take p).countP int * K + j]? =
      ([root] ++ N.flatMap kids)[1 + (N.take p).countP int * K + j]? := by rw [← hfix]
  rw [e, hF, List.getElem?_append_right (by simp; omega), List.getElem?_append_right (by simp [hlen]; omega),
    List.getElem?_append_left (by simp [hlen]; omega)]
  congr 1
  simp [hlen]; omega

/-- The first nodes are exactly those with positive height. -/
theorem heights_prefix (ht : α → Nat) (N : List α) (h : N.Pairwise (fun a b => ht b ≤ ht a)) :
    ∀ p x, N[p]? = some x →
      (0 < ht x → (N.filter (fun a => decide (0 < ht a)))[p]? = some x ∧
        N.take p = (N.filter (fun a => decide (0 < ht a))).take p) ∧
      (ht x = 0 → (N.filter (fun a => decide (0 < ht a))).length ≤ p) := by
  induction N with
  | nil => intro p x hp; simp at hp
  | cons a N ih =>
    rw [List.pairwise_cons] at h
    intro p x hp
    cases p with
    | zero =>
      simp at hp; subst hp
      refine ⟨?_, ?_⟩
      · intro h0; simp [h0]
      · intro h0
        have : (a :: N).filter (fun a => decide (0 < ht a)) = [] := by
          rw [List.filter_eq_nil_iff]
          intro b hb
          rw [List.mem_cons] at hb
          cases hb with
          | inl hb => subst hb; simp [h0]
          | inr hb => have := h.1 b hb; simp; omega
        simp [this]
    | succ p =>
      simp at hp
      obtain ⟨ih1, ih2⟩ := ih h.2 p x hp
      have hmem : x ∈ N := List.mem_of_getElem? hp
      have hax := h.1 x hmem
      refine ⟨?_, ?_⟩
      · intro h0
        have ha : 0 < ht a := by omega
        obtain ⟨h1, h2⟩ := ih1 h0
        simp only [List.filter_cons, ha, decide_true, if_true, List.getElem?_cons_succ,
          List.take_succ_cons]
        exact ⟨h1, by rw [h2]⟩
      · intro h0
        have := ih2 h0
        rw [List.filter_cons]
        split
        · simp; omega
        · omega

end Verif
