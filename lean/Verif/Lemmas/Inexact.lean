import Verif.Lemmas.DatasetHistory
import Verif.Lemmas.DatasetFloat

/-! Floats that are stored without rounding. -/
namespace Verif

theorem maxValue_nan {data : List Flt} (h : maxValue data = .nan) : ∀ x ∈ data, x = .nan := by
  have aux : ∀ (xs : List Flt) (acc : Flt),
      xs.foldl (fun m n => if m = .nan then n else if n ≠ .nan ∧ n.gt m then n else m) acc = .nan →
      acc = .nan ∧ ∀ x ∈ xs, x = .nan := by
    intro xs
    induction xs with
    | nil => intro acc h; exact ⟨h, fun x hx => by cases hx⟩
    | cons n ns ih =>
      intro acc h
      obtain ⟨h1, h2⟩ := ih _ h
      have h3 : acc = .nan ∧ n = .nan := by
        simp only at h1
        split at h1
        · exact ⟨by assumption, h1⟩
        · split at h1
          · rename_i h4
            exact absurd h1 h4.1
          · contradiction
      refine ⟨h3.1, fun x hx => ?_⟩
      rcases List.mem_cons.1 hx with rfl | hx
      · exact h3.2
      · exact h2 x hx
  cases data with
  | nil => intro x hx; cases hx
  | cons x xs =>
    obtain ⟨h1, h2⟩ := aux xs x h
    intro y hy
    rcases List.mem_cons.1 hy with rfl | hy
    · exact h1
    · exact h2 y hy

/-- A number that can be stored exactly, at the most bits there are. -/
def Flt.Exact : Flt → Prop
  | .nan => True
  | .inf _ => False
  | .fin q => ∃ z : Int, q * 2 ^ 61 = z

theorem wholeBits_pos {lg : Rat → Int} {x : Flt} (h : x ≠ .inf false) :
    1 ≤ (wholeBits lg x).getD 0 := by
  unfold wholeBits
  cases x with
  | nan => exact le_refl 1
  | inf s => cases s <;> first | exact absurd rfl h | exact le_refl 1
  | fin q =>
    simp only
    split <;> simp

theorem computeBits_exact {lg : Rat → Int} {data : List Flt} {bits b : Nat}
    (h : computeBits lg data bits false = some b) : ∀ x ∈ data, x.Exact := by
  unfold computeBits at h
  cases hs : suggestFraction lg data with
  | none => rw [hs] at h; cases h
  | some f =>
    rw [hs] at h
    cases f with
    | round n => simp at h
    | precise n =>
      unfold suggestFraction at hs
      cases data with
      | nil => cases hs
      | cons y ys =>
        simp only at hs
        split at hs
        · rename_i hm
          intro x hx
          rw [maxValue_nan hm x hx]
          trivial
        · split at hs
          · rename_i hw
            obtain ⟨-, hall⟩ := fractionLoop_precise (Option.some.inj hs)
            have hinf : ∀ s, Flt.inf s ∉ y :: ys := by
              intro s hmem
              obtain ⟨c, hc, -⟩ := hall _ hmem
              cases hc
            have h1 := wholeBits_pos (lg := lg) (x := maxValue (y :: ys)) (fun e => hinf false (by
              rw [← e]; exact maxValue_mem y ys))
            generalize (wholeBits lg (maxValue (y :: ys))).getD 0 = w at *
            intro x hx
            obtain ⟨c, hc, -⟩ := hall _ hx
            cases x with
            | nan => trivial
            | inf s => exact absurd hx (hinf s)
            | fin q =>
              unfold fractionOf at hc
              simp only at hc
              split at hc
              · cases hc
              · rename_i hf
                have hf := not_not.1 hf
                unfold ratFract at hf
                have e : q * ((shl1 (62 - w)).toInt : Rat) = ratTrunc (q * ((shl1 (62 - w)).toInt : Rat)) := by
                  linarith
                rw [shl1_toInt (by omega)] at e
                generalize ratTrunc _ = z at e
                refine ⟨z * 2 ^ (61 - (62 - w)), ?_⟩
                push_cast at e ⊢
                rw [← e, mul_assoc, ← pow_add]
                congr 2
                omega
          · cases hs

section
variable {H : Hash} {utf8 : List Byte → Bool} {clog : Nat → Nat} {lg : Rat → Int} {fuel : Nat} {p : Prec}

theorem Prog.buildChunk_exact (levels : List Nat) (a : Nat → Nat → Nat → Flt) (bits n rows cols : Nat) :
    Post (Prog.buildChunk H clog lg levels (.flt p a bits false) n rows cols) fun _ =>
      ∀ t r c, t < n → r < rows → c < cols → (a t r c).Exact := by
  intro log m log' e t r c ht hr hc
  unfold Prog.buildChunk MMBuffer3.computeBits at e
  simp only at e
  cases hb : computeBits lg ((List.range n).flatMap (MMBuffer3.values a rows cols)) bits false with
  | none => rw [hb] at e; cases congrArg Prod.fst e
  | some b =>
    exact computeBits_exact hb _ (List.mem_flatMap.2 ⟨t, List.mem_range.2 ht, mem_values hr hc⟩)

theorem Variable.appendLoop_exact (a : Nat → Nat → Nat → Flt) (bits n rows cols : Nat) :
    ∀ (starts : List Nat) (v : Variable) (spans : List Span) (update : Bool),
    Post (Variable.appendLoop H utf8 clog lg fuel (.flt p a bits false) n rows cols starts v spans update)
      fun _ => ∀ s ∈ starts, ∀ t r c, s ≤ t → t < min (s + v.chunkSize) n → r < rows → c < cols →
        (a t r c).Exact := by
  intro starts
  induction starts with
  | nil => intro v spans update; exact Post.pure fun s hs => by cases hs
  | cons start starts ih =>
    intro v spans update
    unfold Variable.appendLoop
    refine (Prog.buildChunk_exact _ _ _ _ _ _).bind fun chunk hc => ?_
    cases spans with
    | nil => exact Post.fail
    | cons sp rest =>
      refine (Variable.openIfFull_post v rows cols sp rest).bind fun x hx => (Post.any _).bind fun sp _ => ?_
      intro log y log' e s hs t r c h1 h2 h3 h4
      rcases List.mem_cons.1 hs with rfl | hs
      · have := hc (t - s) r c (by omega) h3 h4
        simpa [Nat.add_sub_cancel' h1] using this
      · refine ih x.1 _ _ log y log' e s hs t r c h1 ?_ h3 h4
        rcases hx with hx | ⟨cid, -, hx⟩ <;> rw [hx] <;> exact h2

theorem Variable.append_exact (v : Variable) (a : Nat → Nat → Nat → Flt) (bits n rows cols : Nat)
    (update : Bool) : Post (v.append H utf8 clog lg fuel (.flt p a bits false) n rows cols update) fun _ =>
      ∀ t r c, t < n → r < rows → c < cols → (a t r c).Exact := by
  unfold Variable.append
  refine (Post.any _).bind fun spans _ => ?_
  split
  · exact Post.fail
  · rename_i h0
    refine (Variable.appendLoop_exact _ _ _ _ _ _ _ _ _).bind fun x hx => ?_
    intro log y log' _ t r c ht hr hc
    have h1 : v.chunkSize * (t / v.chunkSize) + t % v.chunkSize = t := Nat.div_add_mod _ _
    have h2 := Nat.mod_lt t (Nat.pos_of_ne_zero h0)
    rw [Nat.mul_comm] at h1
    refine hx (t / v.chunkSize * v.chunkSize) (List.mem_map.2 ⟨t / v.chunkSize, List.mem_range.2 ?_, rfl⟩)
      t r c (by omega) (by omega) hr hc
    rw [Nat.lt_iff_add_one_le, Nat.le_div_iff_mul_le (Nat.pos_of_ne_zero h0), Nat.add_mul]
    omega

end

end Verif
