import Verif.Lemmas.Bfs
import Verif.Lemmas.Dac
import Verif.Model.Snapshot

/-! How a breadth first node order is laid out in the node bit map. -/
namespace Verif

variable {α : Type _}

/-- Index of a selected element after filtering. -/
theorem getElem?_filter_countP (p : α → Bool) (N : List α) : ∀ (i : Nat) (x : α),
    N[i]? = some x → p x = true → (N.filter p)[(N.take i).countP p]? = some x := by
  induction N with
  | nil => intro i x h; simp at h
  | cons a N ih =>
    intro i x h hp
    cases i with
    | zero => simp at h; subst h; simp [hp]
    | succ i =>
      simp at h
      have := ih i x h hp
      by_cases ha : p a = true
      · simp [ha]; exact this
      · simp [ha]; exact this

structure NodeLayout (m : BitMap) (N : List α) (kids : α → List α) (int : α → Bool)
    (ht : α → Nat) (K : Nat) : Prop where
  repr : m.Repr ((N.filter (fun a => decide (0 < ht a))).map int)
  get : ∀ p x, N[p]? = some x → 0 < ht x → m.get p = some (int x) ∧ p < m.length
  bottom : ∀ p x, N[p]? = some x → ht x = 0 → m.length ≤ p
  rank : ∀ p x, N[p]? = some x → 0 < ht x → m.rank p = some ((N.take p).countP int)
  child : ∀ p x, N[p]? = some x → ∀ j, j < (kids x).length →
    N[1 + (N.take p).countP int * K + j]? = (kids x)[j]?
  pre : ∀ (p : Nat) x, N[p]? = some x → 0 < ht x → (N.filter (fun a => decide (0 < ht a)))[p]? = some x
  single : ∀ x, N[0]? = some x → kids x = [] → N = [x]
  length_mod : 0 < K → (∀ x, N[0]? = some x → 0 < ht x) → m.length % K = 1 % K

theorem bfs_layout (kids : α → List α) (int : α → Bool) (ht : α → Nat) (K : Nat)
    (P : α → Prop)
    (hP : ∀ x, P x → ∀ y ∈ kids x, P y ∧ ht y + 1 = ht x)
    (hk : ∀ x, P x → (kids x).length = if int x then K else 0)
    (hint : ∀ x, P x → int x = true → 0 < ht x)
    (root : α) (hroot : P root) (n : Nat) (N : List α) (hN : bfs kids n [root] = some N)
    (m : BitMap) (hm : m.Repr ((N.filter (fun a => decide (0 < ht a))).map int)) :
    NodeLayout m N kids int ht K := by
  have hall : ∀ x ∈ N, P x := bfs_forall kids P (fun x hx y hy => (hP x hx y hy).1) n _ N hN
    (by intro x hx; simp at hx; subst hx; exact hroot)
  have hfix := bfs_fix kids n _ N hN
  have hpw := bfs_heights kids ht P hP n _ N hN
    (by intro x hx; simp at hx; subst hx; exact hroot)
    ⟨ht root, [], [root], rfl, by simp, by simp⟩
  have hpre := heights_prefix ht N hpw
  refine ⟨hm, ?_, ?_, ?_, ?_, fun p x hp hx => ((hpre p x hp).1 hx).1, ?_, ?_⟩
  · intro p x hp hx
    have h1 := ((hpre p x hp).1 hx).1
    have hb : ((N.filter (fun a => decide (0 < ht a))).map int)[p]? = some (int x) := by
      rw [List.getElem?_map, h1]; rfl
    obtain ⟨hlt, hv⟩ := List.getElem?_eq_some_iff.1 hb
    exact ⟨by rw [hm.get p hlt, hv], by rw [hm.len]; exact hlt⟩
  · intro p x hp hx
    rw [hm.len, List.length_map]
    exact (hpre p x hp).2 hx
  · intro p x hp hx
    obtain ⟨h1, h2⟩ := (hpre p x hp).1 hx
    have hlt : p < (N.filter (fun a => decide (0 < ht a))).length :=
      (List.getElem?_eq_some_iff.1 h1).1
    rw [hm.rank p (by rw [List.length_map]; omega)]
    congr 1
    rw [h2, ← List.map_take, List.count, List.countP_map]
    apply List.countP_congr
    intro a _
    simp
  · intro p x hp j hj
    exact bfs_child kids int K root N hfix (fun x hx => hk x (hall x hx)) p x hp j hj
  · intro x hx hkx
    have hx' : root = x := by rw [hfix] at hx; simpa using hx
    subst hx'
    cases n with
    | zero => simp [bfs] at hN
    | succ n =>
      rw [bfs, hkx] at hN
      cases n <;> simp [bfs] at hN <;> exact hN.symm
  · intro hK h0
    rw [hm.len, List.length_map]
    have hr0 : 0 < ht root := h0 root (by rw [hfix]; rfl)
    have e : (N.filter (fun a => decide (0 < ht a))).length =
        1 + ((N.flatMap kids).filter (fun a => decide (0 < ht a))).length := by
      conv => lhs; rw [hfix]
      simp [List.filter_append, hr0]; omega
    have hdvd : ∀ L : List α, (∀ x ∈ L, P x) →
        K ∣ ((L.flatMap kids).filter (fun a => decide (0 < ht a))).length := by
      intro L
      induction L with
      | nil => intro _; simp
      | cons a L ih =>
        intro hL
        rw [List.flatMap_cons, List.filter_append, List.length_append]
        apply Nat.dvd_add _ (ih (fun x hx => hL x (by simp [hx])))
        have hPa := hL a (by simp)
        by_cases hh : 1 < ht a
        · have : (kids a).filter (fun a => decide (0 < ht a)) = kids a := by
            rw [List.filter_eq_self]
            intro b hb
            have := (hP a hPa b hb).2
            simp; omega
          rw [this, hk a hPa]
          split <;> simp
        · have : (kids a).filter (fun a => decide (0 < ht a)) = [] := by
            rw [List.filter_eq_nil_iff]
            intro b hb
            have := (hP a hPa b hb).2
            simp; omega
          rw [this]; simp
    obtain ⟨c, hc⟩ := hdvd N hall
    rw [e, hc, Nat.add_mul_mod_self_left]

theorem NodeLayout.leafGe {m : BitMap} {N : List α} {kids : α → List α} {int : α → Bool}
    {ht : α → Nat} {K : Nat} (h : NodeLayout m N kids int ht K)
    (hint : ∀ x, ht x = 0 → int x = false) (p : Nat) (x : α) (hp : N[p]? = some x) :
    isLeafGe m p = some (!int x) := by
  unfold isLeafGe
  by_cases hx : 0 < ht x
  · obtain ⟨h1, h2⟩ := h.get p x hp hx
    rw [if_neg (by omega), h1]
  · have h0 : ht x = 0 := by omega
    rw [if_pos (h.bottom p x hp h0), hint x h0]; rfl

end Verif
