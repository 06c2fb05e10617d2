import Verif.Lemmas.FloatBits
import Verif.Lemmas.SuperTotal

/-!
Superchunks of floats.
-/
namespace Verif

/-- The values of a square at an instant, row by row. -/
def squareValues {α : Type} (a : Nat → Nat → Nat → α) (top bottom left right t : Nat) : List α :=
  (Spec.cells top bottom left right).map fun q => a t q.1 q.2

/-- After leading NaNs there are only numbers, which are all read back as the same. -/
def Steady (B : Nat) (vs : List Flt) : Prop :=
  ∃ y, ∀ v ∈ vs.dropWhile (· = .nan), v ≠ .nan ∧ v.rounded B = y

/-- What is asked of a square. If it is steady in every instant, it is elided, and then no instant may
mix NaN with numbers (`C27_nan_wrong`). If it is not, the number of bits is computed for it, and
then it has to be balanced (`C41_negative_wrong`). -/
structure SquareOk (B n : Nat) (vs : Nat → List Flt) : Prop where
  nans : (∀ t, t < n → Steady B (vs t)) → ∀ t, t < n → (∀ v ∈ vs t, v = .nan) ∨ ∀ v ∈ vs t, v ≠ .nan
  balanced : (¬ ∀ t, t < n → Steady B (vs t)) → Balanced ((List.range n).flatMap vs)

/-- This for the squares of the grids with exponents in `J`. -/
def GridOk (B k : Nat) (J : Nat → Prop) (a : Nat → Nat → Nat → Flt) (n rows cols : Nat) : Prop :=
  ∀ e i j, J e → i * k ^ e < rows → j * k ^ e < cols →
    SquareOk B n (squareValues a (i * k ^ e) (i * k ^ e + min (k ^ e) (rows - i * k ^ e)) (j * k ^ e)
      (j * k ^ e + min (k ^ e) (cols - j * k ^ e)))

theorem squareValues_eq {α : Type} (a : Nat → Nat → Nat → α) (top left R C t : Nat) :
    squareValues a top (top + R) left (left + C) t =
      MMBuffer3.values (fun t r c => a t (top + r) (left + c)) R C t := by
  unfold squareValues Spec.cells MMBuffer3.values
  rw [List.map_flatMap, Nat.add_sub_cancel_left, Nat.add_sub_cancel_left, List.range'_eq_map_range,
    List.range'_eq_map_range, List.flatMap_map]
  simp [Function.comp_def]

theorem values_ne_nil {α : Type} (a : Nat → Nat → Nat → α) {rows cols : Nat} (t : Nat) (hr : 0 < rows)
    (hc : 0 < cols) : MMBuffer3.values a rows cols t ≠ [] := by
  intro h
  have := mem_values (a := a) (t := t) hr hc
  rw [h] at this
  cases this

theorem collect_pure {α β : Type} (f : α → β) {g : α → Option (List β)} : ∀ (xs : List α),
    (∀ x ∈ xs, g x = some [f x]) → collect xs g = some (xs.map f) := by
  intro xs
  induction xs with
  | nil => intro _; rfl
  | cons x xs ih =>
    intro h
    rw [collect, h x (by simp), ih fun y hy => h y (by simp [hy])]
    rfl

theorem dropWhile_nil_iff {α : Type} {f : α → Bool} : ∀ {l : List α}, l.dropWhile f = [] ↔ ∀ x ∈ l, f x = true := by
  intro l
  induction l with
  | nil => simp
  | cons x xs ih =>
    rw [List.dropWhile_cons]
    split
    · rw [ih]; simp [*]
    · simp [*]

section
variable {p : Prec} {B : Nat} {round : Bool}

/-- The extremes as stored are equal exactly for steady instants. -/
theorem steady_iff (hB : B ≤ 60) {b : Nat} (hb : b ≤ B) {vs : List Flt} (hne : vs ≠ [])
    (hfit : ∀ x ∈ vs, x.Fits p B round) (hbits : ∀ x ∈ vs, x.BitsOk B b) {mn mx : Flt}
    (h : minMaxFloat vs = some (mn, mx)) :
    mn ∈ vs ∧ mx ∈ vs ∧ (mn.fixed b = mx.fixed b ↔ Steady B vs) ∧
      (mn.fixed b = mx.fixed b → ((∀ v ∈ vs, v = .nan) ∨ ∀ v ∈ vs, v ≠ .nan) →
        ∀ v ∈ vs, v.rounded B = mx.rounded B) := by
  rcases minMaxFloat_spec hne (Flt.Fits.no_inf hfit) with ⟨h1, h2⟩ | ⟨k, u, us, mn', M, h1, h2, h3, h4, h5, h6⟩
  · rw [h] at h1
    cases h1
    have hm : Flt.nan ∈ vs := by
      match vs, hne, h2 with
      | x :: xs, _, h2 => rw [← h2 x (by simp)]; simp
    refine ⟨hm, hm, ⟨fun _ => ⟨.nan, fun v hv => ?_⟩, fun _ => rfl⟩, fun _ _ v hv => by rw [h2 v hv]⟩
    have : vs.dropWhile (· = .nan) = [] := by
      rw [dropWhile_nil_iff]
      intro x hx
      simpa using h2 x hx
    rw [this] at hv
    cases hv
  · rw [h] at h2
    cases h2
    have hdrop : vs.dropWhile (· = .nan) = .fin u :: us := by
      rw [h1, List.dropWhile_append]
      have : (List.replicate k Flt.nan).dropWhile (· = .nan) = [] := by
        rw [dropWhile_nil_iff]
        intro x hx
        simpa using (List.mem_replicate.1 hx).2
      rw [this]
      simp
    have hsub : ∀ x, x ∈ Flt.fin u :: us → x ∈ vs := by
      intro x hx; rw [h1]; exact List.mem_append_right _ hx
    have hM := hsub _ h3
    have hmn : mn ∈ vs := by
      by_cases hn : Flt.nan ∈ us
      · rw [h5 hn]; exact hsub _ (by simp [hn])
      · obtain ⟨a, rfl, ha, -⟩ := h6 hn
        exact hsub _ ha
    have key : ∀ a, mn = .fin a → (∀ q, Flt.fin q ∈ vs → a ≤ q) → mn.fixed b = (Flt.fin M).fixed b →
        ∀ q, Flt.fin q ∈ vs → (Flt.fin q).rounded B = (Flt.fin M).rounded B := by
      rintro a rfl ha e q hq
      rw [← Flt.Fits.fixed_inj (hfit _ hq) (hfit _ hM) hB hb (hbits _ hq) (hbits _ hM)]
      have e : fixedOf b a = fixedOf b M := e
      show fixedOf b q = fixedOf b M
      have g1 := fixedOf_mono (b := b) (ha q hq)
      have g2 := fixedOf_mono (b := b) (h4 q hq)
      omega
    have hnan : mn = .nan → mn.fixed b ≠ (Flt.fin M).fixed b := by
      rintro rfl e
      have := ((hfit _ hM).fixed_zero (hbits _ hM)).1 e.symm
      cases this
    refine ⟨hmn, hM, ⟨fun e => ?_, fun hs => ?_⟩, fun e hall v hv => ?_⟩
    · by_cases hn : Flt.nan ∈ us
      · exact absurd e (hnan (h5 hn))
      · obtain ⟨a, ea, ha, hmin⟩ := h6 hn
        refine ⟨(Flt.fin M).rounded B, fun v hv => ?_⟩
        rw [hdrop] at hv
        cases v with
        | nan => rcases List.mem_cons.1 hv with h | h <;> [cases h; exact absurd h hn]
        | inf s => exact absurd (hsub _ hv) (Flt.Fits.no_inf hfit s)
        | fin q => exact ⟨by simp, key a ea hmin e q (hsub _ hv)⟩
    · obtain ⟨y, hy⟩ := hs
      rw [hdrop] at hy
      have hn : Flt.nan ∉ us := fun hc => (hy _ (by simp [hc])).1 rfl
      obtain ⟨a, rfl, ha, hmin⟩ := h6 hn
      rw [Flt.Fits.fixed_inj (hfit _ hmn) (hfit _ hM) hB hb (hbits _ hmn) (hbits _ hM), (hy _ ha).2,
        (hy _ h3).2]
    · rcases hall with hall | hall
      · exact absurd (hall _ hM) (by simp)
      · have hn : Flt.nan ∉ us := fun hc => hall _ (hsub _ (by simp [hc])) rfl
        obtain ⟨a, ea, ha, hmin⟩ := h6 hn
        cases v with
        | nan => exact absurd rfl (hall _ hv)
        | inf s => exact absurd hv (Flt.Fits.no_inf hfit s)
        | fin q => exact key a ea hmin e q hv

/-- A buffer of floats that can be stored. -/
structure FltOk (p : Prec) (B : Nat) (round : Bool) (k : Nat) (J : Nat → Prop)
    (a : Nat → Nat → Nat → Flt) (bits n rows cols : Nat) : Prop where
  bits_le : bits ≤ B
  fits : ∀ t r c, t < n → r < rows → c < cols → (a t r c).Fits p B round
  bitsOk : ∀ t r c, t < n → r < rows → c < cols → (a t r c).BitsOk B bits
  grid : GridOk B k J a n rows cols

variable {k : Nat} {J : Nat → Prop} {a : Nat → Nat → Nat → Flt} {bits n rows cols : Nat}

theorem FltOk.mem_fits (h : FltOk p B round k J a bits n rows cols) {t : Nat} (ht : t < n) :
    ∀ x ∈ MMBuffer3.values a rows cols t, x.Fits p B round := by
  intro x hx
  obtain ⟨r, c, hr, hc, rfl⟩ := of_mem_values hx
  exact h.fits t r c ht hr hc

theorem FltOk.mem_bits (h : FltOk p B round k J a bits n rows cols) {t : Nat} (ht : t < n) :
    ∀ x ∈ MMBuffer3.values a rows cols t, x.BitsOk B bits := by
  intro x hx
  obtain ⟨r, c, hr, hc, rfl⟩ := of_mem_values hx
  exact h.bitsOk t r c ht hr hc

theorem FltOk.gets (hB : B ≤ 60) (h : FltOk p B round k J a bits n rows cols) :
    ∀ t r c, t < n → r < rows → c < cols →
      (MMBuffer3.flt p a bits round).get t r c = some (Int64.ofInt ((a t r c).fixed bits)) := by
  intro t r c ht hr hc
  exact (h.fits t r c ht hr hc).toFixed hB h.bits_le (h.bitsOk t r c ht hr hc)

theorem FltOk.int (hB : B ≤ 60) (h : FltOk p B round k J a bits n rows cols) {t r c : Nat}
    (ht : t < n) (hr : r < rows) (hc : c < cols) :
    (MMBuffer3.flt p a bits round).int t r c = Int64.ofInt ((a t r c).fixed bits) := by
  unfold MMBuffer3.int
  rw [h.gets hB t r c ht hr hc]
  rfl

theorem FltOk.toInt (h : FltOk p B round k J a bits n rows cols) {t r c : Nat}
    (ht : t < n) (hr : r < rows) (hc : c < cols) :
    (Int64.ofInt ((a t r c).fixed bits)).toInt = (a t r c).fixed bits := by
  have := (h.fits t r c ht hr hc).bound h.bits_le
  exact Int64.toInt_ofInt_of_le (by omega) (by omega)

theorem FltOk.noOverflow (hB : B ≤ 60) (h : FltOk p B round k J a bits n rows cols) :
    SeriesNoOverflow (MMBuffer3.flt p a bits round).int n rows cols := by
  intro t0 t h1 h2 r c hr hc
  rw [h.int hB h2 hr hc, h.int hB (by omega) hr hc, h.toInt h2 hr hc, h.toInt (by omega) hr hc,
    Int64.toInt_sub, h.toInt h2 hr hc, h.toInt (by omega) hr hc]
  have b1 := (h.fits t r c h2 hr hc).bound h.bits_le
  have b2 := (h.fits t0 r c (by omega) hr hc).bound h.bits_le
  rw [Int.bmod_eq_of_le] <;> omega

/-- The extremes that are stored. -/
theorem FltOk.minMax (hB : B ≤ 60) (h : FltOk p B round k J a bits n rows cols) (hr : 0 < rows)
    (hc : 0 < cols) :
    ∃ f : Nat → Flt × Flt, (∀ t, t < n → minMaxFloat (MMBuffer3.values a rows cols t) = some (f t)) ∧
      (MMBuffer3.flt p a bits round).minMax n rows cols = some ((List.range n).map fun t =>
        (Int64.ofInt ((f t).1.fixed bits), Int64.ofInt ((f t).2.fixed bits))) := by
  refine ⟨fun t => (minMaxFloat (MMBuffer3.values a rows cols t)).getD (.nan, .nan), ?_, ?_⟩
  · intro t ht
    rcases minMaxFloat_spec (values_ne_nil a t hr hc) (Flt.Fits.no_inf (h.mem_fits ht)) with
      ⟨e, -⟩ | ⟨_, _, _, _, _, -, e, -⟩
    · simp only [e, Option.getD_some]
    · simp only [e, Option.getD_some]
  · unfold MMBuffer3.minMax
    apply collect_pure
    intro t ht
    have ht : t < n := List.mem_range.1 ht
    obtain ⟨mn, mx, e⟩ : ∃ mn mx, minMaxFloat (MMBuffer3.values a rows cols t) = some (mn, mx) := by
      rcases minMaxFloat_spec (values_ne_nil a t hr hc) (Flt.Fits.no_inf (h.mem_fits ht)) with
        ⟨e, -⟩ | ⟨_, _, _, _, _, -, e, -⟩
      · exact ⟨_, _, e⟩
      · exact ⟨_, _, e⟩
    obtain ⟨h1, h2, -⟩ := steady_iff hB h.bits_le (values_ne_nil a t hr hc) (h.mem_fits ht)
      (h.mem_bits ht) e
    simp only [e, Option.getD_some]
    rw [(h.mem_fits ht mn h1).toFixed hB h.bits_le (h.mem_bits ht mn h1),
      (h.mem_fits ht mx h2).toFixed hB h.bits_le (h.mem_bits ht mx h2)]

/-- A square is elided exactly if it is steady in every instant. -/
theorem FltOk.elided_iff (hB : B ≤ 60) (h : FltOk p B round k J a bits n rows cols) (hr : 0 < rows)
    (hc : 0 < cols) {mm : List (Int64 × Int64)}
    (hmm : (MMBuffer3.flt p a bits round).minMax n rows cols = some mm) :
    (∀ m ∈ mm, m.1 = m.2) ↔ ∀ t, t < n → Steady B (MMBuffer3.values a rows cols t) := by
  obtain ⟨f, h1, h2⟩ := h.minMax hB hr hc
  rw [hmm] at h2
  cases h2
  have key : ∀ t, t < n → (Int64.ofInt ((f t).1.fixed bits) = Int64.ofInt ((f t).2.fixed bits) ↔
      Steady B (MMBuffer3.values a rows cols t)) := by
    intro t ht
    obtain ⟨e1, e2, e3, -⟩ := steady_iff hB h.bits_le (values_ne_nil a t hr hc) (h.mem_fits ht)
      (h.mem_bits ht) (h1 t ht)
    rw [← e3]
    have b1 := (h.mem_fits ht _ e1).bound h.bits_le
    have b2 := (h.mem_fits ht _ e2).bound h.bits_le
    constructor
    · intro e
      have := congrArg Int64.toInt e
      rwa [Int64.toInt_ofInt_of_le (by omega) (by omega),
        Int64.toInt_ofInt_of_le (by omega) (by omega)] at this
    · intro e; rw [e]
  simp only [List.mem_map, List.mem_range, forall_exists_index, and_imp, forall_apply_eq_imp_iff₂]
  exact forall₂_congr key

theorem FltOk.slice (hk : 2 ≤ k) (h : FltOk p B round k J a bits n rows cols) {e i j : Nat} (hJ : J e)
    (hi : i * k ^ e < rows) (hj : j * k ^ e < cols) :
    FltOk p B round k J (fun t r c => a t (i * k ^ e + r) (j * k ^ e + c)) bits n
      (min (k ^ e) (rows - i * k ^ e)) (min (k ^ e) (cols - j * k ^ e)) where
  bits_le := h.bits_le
  fits := fun t r c ht hr hc => h.fits t _ _ ht (by omega) (by omega)
  bitsOk := fun t r c ht hr hc => h.bitsOk t _ _ ht (by omega) (by omega)
  grid := by
    intro e' i' j' hJ' hi' hj'
    obtain ⟨i'', a1, a2, a3⟩ := grid_nested hk hi hi'
    obtain ⟨j'', b1, b2, b3⟩ := grid_nested hk hj hj'
    have := h.grid (min e e') i'' j'' (by rcases Nat.le_total e e' with h | h <;> simp [h, hJ, hJ']) a1 b1
    rw [a3, b3]
    convert this using 1
    funext t
    rw [squareValues_eq, squareValues_eq]
    simp only [← Nat.add_assoc, a2, b2]

theorem FltOk.square (h : FltOk p B round k J a bits n rows cols) {e i j : Nat} (hJ : J e)
    (hi : i * k ^ e < rows) (hj : j * k ^ e < cols) :
    SquareOk B n (MMBuffer3.values (fun t r c => a t (i * k ^ e + r) (j * k ^ e + c))
      (min (k ^ e) (rows - i * k ^ e)) (min (k ^ e) (cols - j * k ^ e))) := by
  have := h.grid e i j hJ hi hj
  convert this using 1
  funext t
  rw [squareValues_eq]

/-- The number of bits of a part that is not elided. -/
theorem FltOk.computeBits {lg : Rat → Int} (hlg : LogClose lg) (hB : B ≤ 60)
    (hfits : ∀ t r c, t < n → r < rows → c < cols → (a t r c).Fits p B round)
    (hbits : round = true → bits ≤ B ∧ ∀ t r c, t < n → r < rows → c < cols → (a t r c).BitsOk B bits)
    (hn : 1 ≤ n) (hr : 0 < rows) (hc : 0 < cols)
    (hbal : Balanced ((List.range n).flatMap (MMBuffer3.values a rows cols)))
    (hgrid : GridOk B k J a n rows cols) :
    ∃ bits', (MMBuffer3.flt p a bits round).computeBits lg n rows cols = some (.flt p a bits' round) ∧
      FltOk p B round k J a bits' n rows cols := by
  have hmem : ∀ x ∈ (List.range n).flatMap (MMBuffer3.values a rows cols), ∃ t r c, t < n ∧ r < rows ∧
      c < cols ∧ x = a t r c := by
    intro x hx
    obtain ⟨t, ht, hx⟩ := List.mem_flatMap.1 hx
    obtain ⟨r, c, hr, hc, rfl⟩ := of_mem_values hx
    exact ⟨t, r, c, List.mem_range.1 ht, hr, hc, rfl⟩
  have hmem' : ∀ t r c, t < n → r < rows → c < cols →
      a t r c ∈ (List.range n).flatMap (MMBuffer3.values a rows cols) := fun t r c ht hr hc =>
    List.mem_flatMap.2 ⟨t, List.mem_range.2 ht, mem_values hr hc⟩
  obtain ⟨b, e, h1, h2⟩ := computeBits_ok (p := p) (bits := bits) (round := round) hlg hB
    (data := (List.range n).flatMap (MMBuffer3.values a rows cols))
    (fun hc' => by
      have := hmem' 0 0 0 (by omega) hr hc
      rw [hc'] at this
      cases this)
    (fun x hx => by
      obtain ⟨t, r, c, b1, b2, b3, rfl⟩ := hmem x hx
      exact hfits t r c b1 b2 b3)
    hbal
    (fun hround => ⟨(hbits hround).1, fun x hx => by
      obtain ⟨t, r, c, b1, b2, b3, rfl⟩ := hmem x hx
      exact (hbits hround).2 t r c b1 b2 b3⟩)
  refine ⟨b, ?_, ⟨h1, hfits, fun t r c b1 b2 b3 => h2 _ (hmem' t r c b1 b2 b3), hgrid⟩⟩
  unfold MMBuffer3.computeBits
  simp only [e, Option.map_some]

end

/-- The values that are read back from a buffer of floats. -/
def fltVal (B : Nat) : MMBuffer3 → Nat → Nat → Nat → Flt
  | .flt _ a _ _, t, r, c => (a t r c).rounded B
  | _, _, _, _ => .nan

/-- Buffers of floats that can be stored. -/
def FltBuffer (p : Prec) (B : Nat) (round : Bool) (k : Nat) (J : Nat → Prop) (b : MMBuffer3)
    (n rows cols : Nat) : Prop :=
  ∃ a bits, b = .flt p a bits round ∧ FltOk p B round k J a bits n rows cols

section
variable {clog : Nat → Nat} {lg : Rat → Int} {k : Nat} {p : Prec} {B : Nat} {round : Bool}
  {J : Nat → Prop} {b : MMBuffer3} {n rows cols : Nat}

theorem slice_flt {a : Nat → Nat → Nat → Flt} {bits : Nat} (top left : Nat) :
    (MMBuffer3.flt p a bits round).slice 0 top left =
      .flt p (fun t r c => a t (top + r) (left + c)) bits round := by
  simp only [MMBuffer3.slice, Nat.zero_add]

theorem n_pos_of_not_elided {R C : Nat} {mm : List (Int64 × Int64)} (h : b.minMax n R C = some mm)
    (hne : ¬ ∀ m ∈ mm, m.1 = m.2) : 1 ≤ n := by
  by_contra hn
  have : n = 0 := by omega
  subst this
  simp only [MMBuffer3.minMax, List.range_zero, collect, Option.some.injEq] at h
  rw [← h] at hne
  simp at hne

theorem FltBuffer.slice (hk : 2 ≤ k) (h : FltBuffer p B round k J b n rows cols) {e i j : Nat}
    (hJ : J e) (hi : i * k ^ e < rows) (hj : j * k ^ e < cols) :
    FltBuffer p B round k J (b.slice 0 (i * k ^ e) (j * k ^ e)) n (min (k ^ e) (rows - i * k ^ e))
      (min (k ^ e) (cols - j * k ^ e)) := by
  obtain ⟨a, bits, rfl, h⟩ := h
  exact ⟨_, bits, slice_flt _ _, h.slice hk hJ hi hj⟩

theorem fltVal_slice (b : MMBuffer3) (top left t r c : Nat) :
    fltVal B (b.slice 0 top left) t r c = fltVal B b t (top + r) (left + c) := by
  cases b with
  | i32 a => rfl
  | i64 a => rfl
  | flt p a bits round => rw [slice_flt]; rfl

theorem FltBuffer.bits (hlg : LogClose lg) (hB : B ≤ 60) (hk : 2 ≤ k)
    (h : FltBuffer p B round k J b n rows cols) {e i j : Nat}
    (hJ : J e) (hi : i * k ^ e < rows) (hj : j * k ^ e < cols) {R C : Nat}
    (hR : R = min (k ^ e) (rows - i * k ^ e)) (hC : C = min (k ^ e) (cols - j * k ^ e))
    {mm : List (Int64 × Int64)} (hmm : (b.slice 0 (i * k ^ e) (j * k ^ e)).minMax n R C = some mm)
    (hne : ¬ ∀ m ∈ mm, m.1 = m.2) :
    ∃ b', (b.slice 0 (i * k ^ e) (j * k ^ e)).computeBits lg n R C = some b' ∧
      FltBuffer p B round k J b' n R C ∧ ∀ t r c, fltVal B b' t r c =
        fltVal B b t (i * k ^ e + r) (j * k ^ e + c) := by
  have hn := n_pos_of_not_elided hmm hne
  obtain ⟨a, bits, rfl, h⟩ := h
  have hpos : 0 < k ^ e := Nat.pow_pos (by omega)
  have hs := h.slice hk hJ hi hj
  have hsq := h.square hJ hi hj
  rw [slice_flt] at hmm ⊢
  rw [← hR, ← hC] at hs hsq
  rw [hs.elided_iff hB (by omega) (by omega) hmm] at hne
  obtain ⟨bits', h1, h2⟩ := FltOk.computeBits hlg hB hs.fits (bits := bits)
    (fun _ => ⟨hs.bits_le, hs.bitsOk⟩) hn
    (by omega) (by omega) (hsq.balanced hne) hs.grid
  exact ⟨_, h1, ⟨_, _, rfl, h2⟩, fun t r c => rfl⟩

theorem FltBuffer.elide (hB : B ≤ 60) (hk : 2 ≤ k)
    (h : FltBuffer p B round k J b n rows cols) {e i j : Nat}
    (hJ : J e) (hi : i * k ^ e < rows) (hj : j * k ^ e < cols) {R C : Nat}
    (hR : R = min (k ^ e) (rows - i * k ^ e)) (hC : C = min (k ^ e) (cols - j * k ^ e))
    {mm : List (Int64 × Int64)} (hmm : (b.slice 0 (i * k ^ e) (j * k ^ e)).minMax n R C = some mm)
    (hall : ∀ m ∈ mm, m.1 = m.2) {t : Nat} {m : Int64 × Int64} (hm : mm[t]? = some m) {r c : Nat}
    (ht : t < n) (hr : r < R) (hc : c < C) :
    fltVal B b t (i * k ^ e + r) (j * k ^ e + c) = fromFixed p m.2 b.fractionalBits := by
  obtain ⟨a, bits, rfl, h⟩ := h
  have hs := h.slice hk hJ hi hj
  have hsq := h.square hJ hi hj
  rw [slice_flt] at hmm
  rw [← hR, ← hC] at hs hsq
  have hst := (hs.elided_iff hB (by omega) (by omega) hmm).1 hall
  obtain ⟨f, h1, h2⟩ := hs.minMax hB (by omega) (by omega)
  rw [hmm] at h2
  cases h2
  rw [List.getElem?_map, List.getElem?_range ht] at hm
  cases hm
  obtain ⟨e1, e2, e3, e4⟩ := steady_iff hB hs.bits_le (values_ne_nil _ t (by omega) (by omega))
    (hs.mem_fits ht) (hs.mem_bits ht) (h1 t ht)
  have := e4 (e3.2 (hst t ht)) (hsq.nans hst t ht) _ (mem_values hr hc)
  show (a t _ _).rounded B = _
  rw [this]
  exact ((hs.mem_fits ht _ e2).fromFixed hB hs.bits_le (hs.mem_bits ht _ e2)).symm

theorem FltBuffer.leaf (hB : B ≤ 60) (heven : k % 2 = 0) (h : FltBuffer p B round k J b n rows cols)
    (hn : 1 ≤ n) (hn' : n < 2 ^ 32) (hs : ShapeOk rows cols k (clog (max rows cols)))
    (hf : FormatOk rows cols k (clog (max rows cols))) {r : MMStruct3Build}
    (hb : Chunk.buildBuffer clog b n rows cols k = some r) :
    ∃ c, r.data = .subchunk c ∧ c.WF ∧
      LeafReads (fun bits v => fromFixed p v bits) c n rows cols (fltVal B b) := by
  obtain ⟨a, bits, rfl, h⟩ := h
  obtain ⟨c, h1, h2, h3, h4, -⟩ := buffer_leaf (b := .flt p a bits round) heven (fun t r c ht hr hc => by
      rw [h.int hB ht hr hc]; exact h.gets hB t r c ht hr hc)
    (show bits < 256 by have := h.bits_le; omega) (h.noOverflow hB).noSplit hn hn' hs hf hb
  refine ⟨c, h1, h2, LeafReads.congr (fun t r cc ht hr hc => ?_) h4.decode⟩
  rw [h3, h.int hB ht hr hc]
  exact (h.fits t r cc ht hr hc).fromFixed hB h.bits_le (h.bitsOk t r cc ht hr hc)

end

/-- Reads of floats. -/
def fltReads (clog : Nat → Nat) {lg : Rat → Int} (hlg : LogClose lg) {k : Nat} (hk : 2 ≤ k)
    (heven : k % 2 = 0) (p : Prec) {B : Nat} (hB : B ≤ 60) (round : Bool) (J : Nat → Prop) :
    BuildTheory clog lg k (fun bits v => fromFixed p v bits)
      (LeafReads fun bits v => fromFixed p v bits) (fun _ _ => True) where
  J := J
  OK := FltBuffer p B round k J
  val := fltVal B
  slice := fun b n rows cols e i j hJ h hi hj => h.slice hk hJ hi hj
  slice_val := fltVal_slice
  bits := by
    intro b n rows cols e i j hJ h hi hj R C hR hC mm b' hmm hne hb
    obtain ⟨b'', h1, h2, h3⟩ := h.bits hlg hB hk hJ hi hj hR hC hmm hne
    rw [h1] at hb
    cases hb
    exact ⟨h2, fun t r c _ _ _ => h3 t r c⟩
  leaf := by
    intro b n rows cols e i j hJ h hi hj R C hR hC mm b' r hmm hne hb hn hn' hs hf hr
    obtain ⟨b'', h1, h2, h3⟩ := h.bits hlg hB hk hJ hi hj hR hC hmm hne
    rw [h1] at hb
    cases hb
    obtain ⟨c, c1, c2, c3⟩ := h2.leaf hB heven hn hn' hs hf hr
    exact ⟨c, c1, c2, c3.congr fun t r c _ _ _ => h3 t r c⟩
  leaf_congr := fun c n rows cols data data' h hl => LeafReads.congr h hl
  elide := fun b n rows cols e i j hJ h hi hj R C hR hC mm t m hmm hall hm r c ht hr hc =>
    h.elide hB hk hJ hi hj hR hC hmm hall hm ht hr hc
  ext := fun _ _ _ _ _ _ _ _ _ _ _ _ _ _ _ => trivial
  bits_lt := by
    rintro b n rows cols ⟨a, bits, rfl, h⟩
    have := h.bits_le
    show bits < 256
    omega

theorem Flt.rounded_nan {B : Nat} {x : Flt} : x.rounded B = .nan ↔ x = .nan := by
  cases x <;> simp [Flt.rounded]

/-- Buffers of floats. -/
def fltAccepts (clog : Nat → Nat) {lg : Rat → Int} (hlg : LogClose lg) {k : Nat} (hk : 2 ≤ k)
    (p : Prec) {B : Nat} (hB : B ≤ 60) (round : Bool) (J : Nat → Prop) {n : Nat} (hn : 1 ≤ n) :
    AcceptTheory clog lg k n Flt where
  J := J
  OK := fun b rows cols => FltBuffer p B round k J b n rows cols
  val := fltVal B
  slice := fun b rows cols e i j hJ h hi hj => h.slice hk hJ hi hj
  slice_val := fltVal_slice
  bits := by
    intro b rows cols e i j hJ h hi hj R C hR hC mm hmm hne
    obtain ⟨b'', h1, h2, h3⟩ := h.bits hlg hB hk hJ hi hj hR hC hmm hne
    exact ⟨b'', h1, h2, fun t r c _ _ _ => h3 t r c⟩
  minMax := by
    rintro b rows cols ⟨a, bits, rfl, h⟩ hr hc
    obtain ⟨f, -, h2⟩ := h.minMax hB hr hc
    exact ⟨_, h2, by simp⟩
  elided := by
    intro b rows cols e i j hJ h hi hj R C hR hC mm hmm
    have hpos : 0 < k ^ e := Nat.pow_pos (by omega)
    constructor
    · intro hall t ht
      have hlen : mm.length = n := by
        obtain ⟨a, bits, rfl, h⟩ := h
        have hs := h.slice hk hJ hi hj
        rw [slice_flt] at hmm
        rw [← hR, ← hC] at hs
        obtain ⟨f, -, h2⟩ := hs.minMax hB (by omega) (by omega)
        rw [hmm] at h2
        cases h2
        simp
      exact ⟨fromFixed p (mm[t]'(by omega)).2 b.fractionalBits, fun r c hr hc =>
        h.elide hB hk hJ hi hj hR hC hmm hall (List.getElem?_eq_getElem (by omega)) ht hr hc⟩
    · intro hconst
      obtain ⟨a, bits, rfl, h⟩ := h
      have hs := h.slice hk hJ hi hj
      rw [slice_flt] at hmm
      rw [← hR, ← hC] at hs
      rw [hs.elided_iff hB (by omega) (by omega) hmm]
      intro t ht
      obtain ⟨u, hu⟩ := hconst t ht
      have hv : ∀ v ∈ MMBuffer3.values (fun t r c => a t (i * k ^ e + r) (j * k ^ e + c)) R C t,
          v.rounded B = u := by
        intro v hv
        obtain ⟨r, c, hr, hc, rfl⟩ := of_mem_values hv
        exact hu r c hr hc
      refine ⟨u, fun v hvm => ?_⟩
      have hmem := (List.dropWhile_sublist _).subset hvm
      refine ⟨?_, hv v hmem⟩
      rintro rfl
      have hu : u = .nan := (hv _ hmem).symm
      have : (MMBuffer3.values (fun t r c => a t (i * k ^ e + r) (j * k ^ e + c)) R C t).dropWhile
          (· = .nan) = [] := by
        rw [dropWhile_nil_iff]
        intro x hx
        have := hv x hx
        rw [hu, Flt.rounded_nan] at this
        simpa using this
      rw [this] at hvm
      cases hvm
  chunk := by
    rintro b rows cols ⟨a, bits, rfl, h⟩
    rw [buildBuffer_gets fun t r c ht hr hc => by
      rw [h.int hB ht hr hc]; exact h.gets hB t r c ht hr hc, Option.isSome_map]
    obtain ⟨_, -, -, -, e, -⟩ := chunk_build (MMBuffer3.flt p a bits round).int n rows cols k
      (clog (max rows cols)) (by omega) hn (MMBuffer3.flt p a bits round).encoding
      (MMBuffer3.flt p a bits round).fractionalBits
    rw [e]
    rfl

end Verif
