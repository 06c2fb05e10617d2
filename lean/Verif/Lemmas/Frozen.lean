import Verif.Lemmas.AnyData
import Verif.Lemmas.Canon
import Verif.Lemmas.Intact

/-!
A chunk that is full is never written again.
-/
namespace Verif

open Prog hiding pure bind

section
variable {H : Hash} {T : VarTheory} {log : Saved}

theorem VarTheory.and_stride (P : MMStruct3 → Nat → Nat → Prop) (i : Nat) : (T.and P).stride i = T.stride i := rfl

/-- A condition on chunks that holds of those in the range of a tree. -/
theorem Tree.and_of {P : MMStruct3 → Nat → Nat → Prop} : ∀ (i : Nat) (sp : Span) (a n tl : Nat),
    Tree H T log i sp a n tl → (∀ m x k, a ≤ x → x < a + n → T.K log m x k → P m x k) →
    Tree H (T.and P) log i sp a n tl := by
  intro i
  induction i with
  | zero =>
    rintro sp a n tl ⟨h1, h2, h3, h4, h5, h6⟩ hP
    refine ⟨⟨h1.stride, h1.rows, h1.cols, h1.encoding⟩, h2, h3, h4, h5, fun j hj => ?_⟩
    obtain ⟨cid, m, g1, g2, g3⟩ := h6 j hj
    refine ⟨cid, m, g1, g2, g3, hP _ _ _ (by omega) ?_ g3⟩
    change j * T.cs < n at hj
    change a + j * T.cs < a + n
    omega
  | succ i ih =>
    rintro sp a n tl ⟨h1, h2, m, n', h3, h4, rfl, h5, cid, c, h6, h7, h8⟩ hP
    refine ⟨⟨h1.stride, h1.rows, h1.cols, h1.encoding⟩, h2, m, n', h3, h4, rfl, fun j hj => ?_, cid, c, h6, h7,
      ih _ _ _ _ h8 fun m' x k e1 e2 => hP m' x k (by omega) (by rw [VarTheory.and_stride] at e2; omega)⟩
    obtain ⟨cid', c', tl', g1, g2, g3⟩ := h5 j hj
    refine ⟨cid', c', tl', g1, g2, ih _ _ _ _ g3 fun m' x k e1 e2 => hP m' x k (by omega) ?_⟩
    rw [VarTheory.and_stride] at e2
    have h9 : (j + 1) * T.stride (i + 1) ≤ m * T.stride (i + 1) := Nat.mul_le_mul_right _ hj
    rw [Nat.succ_mul] at h9
    omega

/-- There is one chunk that begins at an instant. -/
def At (a0 : Nat) (m0 m : MMStruct3) (a _ : Nat) : Prop := a = a0 → m = m0

theorem Tree.freeze (a0 : Nat) : ∀ (i : Nat) (sp : Span) (a n tl : Nat), Tree H T log i sp a n tl →
    ∃ m0, Tree H (T.and (At a0 m0)) log i sp a n tl := by
  intro i
  induction i with
  | zero =>
    intro sp a n tl h
    by_cases hj : ∃ j, a + j * T.cs = a0 ∧ j * T.cs < n
    · obtain ⟨j0, e1, e2⟩ := hj
      obtain ⟨h1, h2, h3, h4, h5, h6⟩ := h
      obtain ⟨cid0, m0, g1, g2, g3⟩ := h6 j0 e2
      refine ⟨m0, ⟨h1.stride, h1.rows, h1.cols, h1.encoding⟩, h2, h3, h4, h5, fun j hj => ?_⟩
      change j * T.cs < n at hj
      obtain ⟨cid, m, f1, f2, f3⟩ := h6 j hj
      by_cases hjj : j = j0
      · subst hjj
        exact ⟨cid0, m0, g1, g2, g3, fun _ => rfl⟩
      · refine ⟨cid, m, f1, f2, f3, fun e => ?_⟩
        change a + j * T.cs = a0 at e
        have : j * T.cs = j0 * T.cs := by omega
        exact absurd (Nat.eq_of_mul_eq_mul_right T.cs_pos this) hjj
    · obtain ⟨h1, h2, h3, h4, h5, h6⟩ := h
      refine ⟨.span sp, ⟨h1.stride, h1.rows, h1.cols, h1.encoding⟩, h2, h3, h4, h5, fun j hj' => ?_⟩
      obtain ⟨cid, m, f1, f2, f3⟩ := h6 j hj'
      exact ⟨cid, m, f1, f2, f3, fun e => absurd ⟨j, e, hj'⟩ hj⟩
  | succ i ih =>
    rintro sp a n tl ⟨h1, h2, m, n', h3, h4, rfl, h5, cid, c, h6, h7, h8⟩
    have hpos := T.stride_pos (i + 1)
    have hle := h8.le
    by_cases hlast : a + m * T.stride (i + 1) ≤ a0
    · obtain ⟨m0, h9⟩ := ih _ _ _ _ h8
      refine ⟨m0, ⟨h1.stride, h1.rows, h1.cols, h1.encoding⟩, h2, m, n', h3, h4, rfl, fun j hj => ?_, cid, c, h6, h7,
        h9⟩
      obtain ⟨cid', c', tl', g1, g2, g3⟩ := h5 j hj
      refine ⟨cid', c', tl', g1, g2, Tree.and_of _ _ _ _ _ g3 fun m' x k e1 e2 _ e => ?_⟩
      rw [VarTheory.and_stride] at e1 e2
      have h10 : (j + 1) * T.stride (i + 1) ≤ m * T.stride (i + 1) := Nat.mul_le_mul_right _ hj
      rw [Nat.succ_mul] at h10
      omega
    by_cases hj : ∃ j, j < m ∧ a + j * T.stride (i + 1) ≤ a0 ∧ a0 < a + (j + 1) * T.stride (i + 1)
    · obtain ⟨j0, e1, e2, e3⟩ := hj
      obtain ⟨cid0, c0, tl0, g1, g2, g3⟩ := h5 j0 e1
      obtain ⟨m0, g4⟩ := ih _ _ _ _ g3
      refine ⟨m0, ⟨h1.stride, h1.rows, h1.cols, h1.encoding⟩, h2, m, n', h3, h4, rfl, fun j hj => ?_, cid, c, h6, h7,
        Tree.and_of _ _ _ _ _ h8 fun m' x k d1 d2 _ e => by
          rw [VarTheory.and_stride] at d1 d2; omega⟩
      by_cases hjj : j = j0
      · subst hjj
        exact ⟨cid0, c0, tl0, g1, g2, g4⟩
      · obtain ⟨cid', c', tl', f1, f2, f3⟩ := h5 j hj
        refine ⟨cid', c', tl', f1, f2, Tree.and_of _ _ _ _ _ f3 fun m' x k d1 d2 _ e => ?_⟩
        rw [VarTheory.and_stride] at d1 d2
        rw [Nat.succ_mul] at e3
        rcases Nat.lt_or_gt_of_ne hjj with hlt | hgt
        · have h10 : (j + 1) * T.stride (i + 1) ≤ j0 * T.stride (i + 1) := Nat.mul_le_mul_right _ hlt
          rw [Nat.succ_mul] at h10
          omega
        · have h10 : (j0 + 1) * T.stride (i + 1) ≤ j * T.stride (i + 1) := Nat.mul_le_mul_right _ hgt
          rw [Nat.succ_mul] at h10
          omega
    · refine ⟨.span sp, ⟨h1.stride, h1.rows, h1.cols, h1.encoding⟩, h2, m, n', h3, h4, rfl, fun j hj' => ?_, cid, c,
        h6, h7, Tree.and_of _ _ _ _ _ h8 fun m' x k d1 d2 _ e => by
          rw [VarTheory.and_stride] at d1 d2; omega⟩
      obtain ⟨cid', c', tl', f1, f2, f3⟩ := h5 j hj'
      refine ⟨cid', c', tl', f1, f2, Tree.and_of _ _ _ _ _ f3 fun m' x k d1 d2 _ e => ?_⟩
      rw [VarTheory.and_stride] at d1 d2
      refine absurd ⟨j, hj', ?_, ?_⟩ hj
      · omega
      · rw [Nat.succ_mul]
        omega

theorem VarInv.freeze (a0 : Nat) {v : Variable} {N tl : Nat} (h : VarInv H T log v N tl) :
    ∃ m0, VarInv H (T.and (At a0 m0)) log v N tl := by
  obtain ⟨h1, h2, h3, i, root, h4, h5, h6⟩ := h
  obtain ⟨m0, h7⟩ := Tree.freeze a0 _ _ _ _ _ h5
  exact ⟨m0, h1, h2, h3, i, root, h4, h7, h6⟩

theorem HistInv.freeze (a0 : Nat) {utf8 : List Byte → Bool} {levels : List Nat} {round : Option Nat}
    {name : List Byte} {s : Dataset × Saved} {M : Nat} (h : HistInv H utf8 T levels round name s M) :
    ∃ m0, HistInv H utf8 (T.and (At a0 m0)) levels round name s M := by
  obtain ⟨h1, h2, h3, v, tl, h4, h5, h6, h7⟩ := h
  obtain ⟨m0, h8⟩ := h7.freeze a0
  exact ⟨m0, h1, h2, h3, v, tl, h4, h5, h6, h8⟩

end

section
variable {H : Hash} {utf8 : List Byte → Bool} {clog : Nat → Nat} {lg : Rat → Int} {fuel readFuel : Nat}
  {levels : List Nat} {N rows cols cs ss : Nat} {enc : MMEncoding} {round : Option Nat}

theorem Settings.frozenOk (h : Settings clog levels N rows cols cs ss) {a0 : Nat} {m0 : MMStruct3} (b : MMBuffer3)
    {A n : Nat} (hA : a0 < A) :
    ChunksOk True H clog lg ((h.theory H enc).and (At a0 m0)) levels b A n := by
  intro s log hs hnc
  rcases h.chunksOk (enc := enc) (lg := lg) (H := H) b A n s log hs hnc with ⟨m, log', h1, h2⟩ | h'
  · refine .inl ⟨m, log', h1, h2, fun e => ?_⟩
    change A + s * cs = a0 at e
    omega
  · exact .inr h'

/-- Any array may be next in a variable in which the chunk that begins at `a0` is full. -/
def NextFull (N a0 cs M : Nat) (_ : NdArray) (n : Nat) : Prop := a0 + cs ≤ M ∧ M + n ≤ N

theorem Settings.frozen (h : Settings clog levels N rows cols cs ss) (hf : 32 ≤ fuel) (a0 : Nat) (m0 : MMStruct3) :
    Appends True H utf8 clog lg fuel readFuel ((h.theory H enc).and (At a0 m0)) levels round
      (NextFull N a0 cs) := by
  intro log v fill data M tl n _ hv hl _ hd
  have hcs := h.cs_pos
  refine Variable.appendArray_sat (T := (h.theory H enc).and (At a0 m0)) hf hv hl
    (Nat.le_trans hd.2 (Nat.le_max_right cs N)) (h.frozenOk _ (by have := hd.1; omega)) ?_
  intro m a p _ _ e1 _ e2
  change p < cs at e2
  exact ⟨.inr trivial, h.frozenOk _ (by have := hd.1; omega)⟩

theorem follows_full {a0 : Nat} : ∀ (as : List (NdArray × Nat)) (M : Nat), a0 + cs ≤ M → M + total as ≤ N →
    Follows (NextFull N a0 cs) M as := by
  intro as
  induction as with
  | nil => intro M _ _; trivial
  | cons x as ih =>
    intro M h1 h2
    rw [total_cons] at h2
    exact ⟨⟨h1, by omega⟩, ih _ (by omega) (by omega)⟩

end

end Verif
