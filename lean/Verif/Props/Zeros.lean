import Verif.Props.OrdersBuilt

/-!
Property C97: a window that is given has a zero that is not of the data exactly where a single read gives an error.
-/
namespace Verif

theorem runs_part {β ι : Type} {p : ι → Out β} : ∀ {xs : List ι} {rs : List (List β × Option Fail)},
    Out.Runs (xs.map p) rs → ∀ x ∈ xs, ∃ r ∈ rs, p x r.1 r.2 := by
  intro xs
  induction xs with
  | nil => intro rs _ x hx; cases hx
  | cons y xs ih =>
    intro rs hr x hx
    cases hr with
    | @cons _ r _ rs h1 h2 =>
      rcases List.mem_cons.1 hx with rfl | hx
      · exact ⟨r, by simp, h1⟩
      · obtain ⟨r', a, b⟩ := ih h2 x hx
        exact ⟨r', by simp [a], b⟩

theorem mem_of_part {β : Type} {rs : List (List β × Option Fail)} {t : List β}
    (h : Interleave (rs.map Prod.fst) t) {r : List β × Option Fail} (hr : r ∈ rs) {q : β} (hq : q ∈ r.1) : q ∈ t :=
  h.perm.mem_iff.2 (List.mem_flatten.2 ⟨r.1, List.mem_map.2 ⟨r, hr, rfl⟩, hq⟩)

section
variable {utf8 : List Byte → Bool} {st : Store}

theorem place_written {o : Option (List (Nat × Nat × Nat × Int64))} {bits start fin top bottom left right i r c : Nat}
    {t : List (Nat × Nat × Nat × Nat × Int64)} {s : Option Fail}
    (ho : ∀ L, o = some L → (L.map fun q => (q.1, q.2.1, q.2.2.1)).Perm (places start fin top bottom left right))
    (ht : Out.ofOption (o.map (·.map fun p => (p.1, p.2.1, p.2.2.1, bits, p.2.2.2))) t s) (hs : s ≠ some .panic)
    (hi : i < fin - start) (hr : r < bottom - top) (hc : c < right - left) :
    ∃ q ∈ t, q.1 = i ∧ q.2.1 = r ∧ q.2.2.1 = c := by
  cases o with
  | none => exact absurd ht.2 hs
  | some L =>
    obtain ⟨rfl, rfl⟩ := ht
    have hm : (i, r, c) ∈ places start fin top bottom left right := by
      rw [places_eq, Spec.mem_cells3]
      simp only
      omega
    obtain ⟨q, hq, e⟩ := List.mem_map.1 ((ho L rfl).mem_iff.2 hm)
    simp only [Prod.mk.injEq] at e
    exact ⟨_, List.mem_map.2 ⟨q, hq, rfl⟩, e⟩

/-- Each cell of a window that ends well is written, or a single read of it gives an error. -/
theorem MMStruct3.fillWindow_lacks : ∀ (fuel : Nat) (m : MMStruct3) (bits start fin top bottom left right : Nat),
    Spec.Plain utf8 st fuel m → start ≤ fin → top < bottom → left < right → ∀ t,
    m.fillWindow utf8 st fuel bits ⟨start, fin, top, bottom, left, right⟩ t none → ∀ i r c, i < fin - start →
    r < bottom - top → c < right - left → (∃ q ∈ t, q.1 = i ∧ q.2.1 = r ∧ q.2.2.1 = c) ∨
      ∃ e, m.get utf8 st fuel bits (start + i) (top + r) (left + c) = .error (.err e) := by
  intro fuel
  induction fuel with
  | zero => intro m bits start fin top bottom left right _ _ _ _ t ht; cases ht.2
  | succ fuel ih =>
    intro m bits start fin top bottom left right hw hse htb hlr t ht i r c hi hr hc
    cases m with
    | subchunk ch =>
      unfold MMStruct3.fillWindow at ht
      exact .inl (place_written (fun L hL => Chunk.fillWindow_places htb hlr hL) ht nofun hi hr hc)
    | superchunk hd loc =>
      unfold MMStruct3.fillWindow at ht
      simp only at ht
      by_cases hs : hd.chunksSidelen = 0
      · rw [show hd.subchunksFor (Cube.mk start fin top bottom left right).rect = none by
          unfold SuperHead.subchunksFor
          rw [if_pos hs]] at ht
        cases ht.2
      have hs : 0 < hd.chunksSidelen := by omega
      rw [Cube.rect_eq (by omega) (by omega), subchunksFor_eq hd hs htb hlr] at ht
      simp only at ht
      obtain ⟨rs, hrs, hnp, hil⟩ := ht
      have hI : (top + r) / hd.chunksSidelen ∈ rangeIncl (top / hd.chunksSidelen) ((bottom - 1) / hd.chunksSidelen) :=
        mem_rangeIncl.2 ⟨Nat.div_le_div_right (by omega), Nat.div_le_div_right (by omega)⟩
      have hJ : (left + c) / hd.chunksSidelen ∈ rangeIncl (left / hd.chunksSidelen) ((right - 1) / hd.chunksSidelen) :=
        mem_rangeIncl.2 ⟨Nat.div_le_div_right (by omega), Nat.div_le_div_right (by omega)⟩
      obtain ⟨run, hrun, hp⟩ := runs_part hrs _ (List.mem_flatMap.2 ⟨_, hI, List.mem_map.2 ⟨_, hJ, rfl⟩⟩)
      have b1 := side_bounds hs htb hI
      have b2 := side_bounds hs hlr hJ
      have d1 := Nat.div_add_mod (top + r) hd.chunksSidelen
      have d2 := Nat.div_add_mod (left + c) hd.chunksSidelen
      have m1 := Nat.mod_lt (top + r) hs
      have m2 := Nat.mod_lt (left + c) hs
      rw [Nat.mul_comm] at d1 d2
      have hloc : hd.locate (top + r) (left + c) = some ((top + r) / hd.chunksSidelen * hd.subsidelen +
          (left + c) / hd.chunksSidelen, (top + r) % hd.chunksSidelen, (left + c) % hd.chunksSidelen) := by
        unfold SuperHead.locate
        rw [if_neg (by omega)]
      have hget : ∀ ref, hd.references[(top + r) / hd.chunksSidelen * hd.subsidelen + (left + c) / hd.chunksSidelen]? =
          some ref → ref ≠ .elided → (MMStruct3.superchunk hd loc).get utf8 st (fuel + 1) bits (start + i) (top + r)
            (left + c) = match hd.deref utf8 st loc ref with
              | .error f => .error f
              | .ok m => m.get utf8 st fuel m.fractionalBits (start + i) ((top + r) % hd.chunksSidelen)
                ((left + c) % hd.chunksSidelen) := by
        intro ref href hne
        simp only [MMStruct3.get, hloc, href]
        cases ref with
        | elided => exact absurd rfl hne
        | loc a => rfl
        | external a => rfl
      simp only [windowPart] at hp
      rw [Cube.new_eq hse (by omega) (by omega)] at hp
      obtain ⟨t', hp, et⟩ := hp
      have hnp := hnp run hrun
      revert hloc hget hp et
      generalize (top + r) / hd.chunksSidelen = I at *
      generalize (left + c) / hd.chunksSidelen = J at *
      generalize (top + r) % hd.chunksSidelen = ρ at *
      generalize (left + c) % hd.chunksSidelen = γ at *
      generalize I * hd.chunksSidelen = P at *
      generalize J * hd.chunksSidelen = Q at *
      intro hloc hget hp et
      have fin' : (∃ q ∈ t', q.1 = i ∧ q.2.1 = ρ - (max P top - P) ∧ q.2.2.1 = γ - (max Q left - Q)) →
          ∃ q ∈ t, q.1 = i ∧ q.2.1 = r ∧ q.2.2.1 = c := by
        rintro ⟨q, hq, e1, e2, e3⟩
        refine ⟨(q.1, max P top - top + q.2.1, max Q left - left + q.2.2.1, q.2.2.2),
          mem_of_part hil hrun (by rw [et]; exact List.mem_map.2 ⟨q, hq, rfl⟩), e1, ?_, ?_⟩
        · simp only [e2]; omega
        · simp only [e3]; omega
      have child : ∀ ref, hd.references[I * hd.subsidelen + J]? = some ref → ref ≠ .elided →
          Out.await (hd.deref utf8 st loc ref) (fun m => m.fillWindow utf8 st fuel m.fractionalBits
            ⟨start, fin, max P top - P, min (P + hd.chunksSidelen) bottom - P, max Q left - Q,
              min (Q + hd.chunksSidelen) right - Q⟩) t' run.2 →
          (∃ q ∈ t, q.1 = i ∧ q.2.1 = r ∧ q.2.2.1 = c) ∨
            ∃ e, (MMStruct3.superchunk hd loc).get utf8 st (fuel + 1) bits (start + i) (top + r) (left + c) =
              .error (.err e) := by
        intro ref href hne ha
        rw [hget ref href hne]
        cases hd' : hd.deref utf8 st loc ref with
        | error f =>
          rw [hd'] at ha
          cases f with
          | err e => exact .inr ⟨e, rfl⟩
          | panic => exact absurd ha.2 hnp
        | ok m =>
          rw [hd'] at ha
          change m.fillWindow utf8 st fuel m.fractionalBits _ t' run.2 at ha
          have hf : Spec.Flat utf8 st fuel m := hw ref (List.mem_of_getElem? href) hne m hd'
          have hn : run.2 = none := by
            rcases (MMStruct3.fillWindow_flat fuel m m.fractionalBits _ hf).2 with ⟨L, hL⟩ | hL
            · exact (hL _ _ ha).1
            · exact absurd (hL _ _ ha) hnp
          rw [hn] at ha
          rcases ih m _ _ _ _ _ _ _ (Spec.Flat.plain _ _ hf) hse (by omega) (by omega) t' ha i (ρ - (max P top - P))
            (γ - (max Q left - Q)) hi (by omega) (by omega) with h | ⟨e, h⟩
          · exact .inl (fin' h)
          · rw [show max P top - P + (ρ - (max P top - P)) = ρ by omega,
              show max Q left - Q + (γ - (max Q left - Q)) = γ by omega] at h
            exact .inr ⟨e, h⟩
      cases href : hd.references[I * hd.subsidelen + J]? with
      | none =>
        rw [href] at hp
        exact absurd hp.2 hnp
      | some ref =>
        rw [href] at hp
        cases ref with
        | elided =>
          exact .inl (fin' (place_written (fun L hL => elidedWindow_places hL) hp hnp hi (by omega) (by omega)))
        | loc a => exact child _ href nofun hp
        | external a => exact child _ href nofun hp
    | span s =>
      unfold MMStruct3.fillWindow Cube.instants csub at ht
      simp only at ht
      rw [if_pos hse] at ht
      simp only at ht
      by_cases hs : s.stride = 0
      · rw [show s.piecesFor start (fin - start) = none by
          unfold Span.piecesFor Span.findSpan
          rw [if_pos hs]] at ht
        cases ht.2
      obtain ⟨ps, e0, hp, hcov⟩ := piecesFor_spec s start (fin - start) (by omega)
      rw [e0] at ht
      simp only at ht
      by_cases hlen : ∀ p ∈ ps, p.span < s.spans.length
      · rw [if_pos hlen] at ht
        obtain ⟨rs, hrs, hn, hil⟩ := ht
        obtain ⟨p, hpm, hmi⟩ := List.mem_flatMap.1 (hcov.symm ▸ List.mem_range.2 hi :
          i ∈ ps.flatMap fun p => List.range' p.start p.len)
        rw [List.mem_range'_1] at hmi
        obtain ⟨run, hrun, hpr⟩ := runs_part hrs p hpm
        obtain ⟨a1, a2, a3, a4⟩ := hp p hpm
        have hn := hn run hrun
        cases hcid : s.spans[p.span]? with
        | none =>
          rw [hcid] at hpr
          rw [hpr.2] at hn
          cases hn
        | some cid =>
          rw [hcid] at hpr
          simp only at hpr
          cases hg : st.getStruct utf8 cid with
          | error f =>
            rw [hg] at hpr
            rw [hpr.2] at hn
            cases hn
          | ok m =>
            rw [hg] at hpr
            rw [Cube.new_eq (by omega) (by omega) (by omega)] at hpr
            obtain ⟨t', hm, et⟩ := hpr
            rw [hn] at hm
            rcases ih m _ _ _ _ _ _ _ (hw cid (List.mem_of_getElem? hcid) m hg) (by omega) htb hlr t' hm (i - p.start) r c
              (by omega) hr hc with ⟨q, hq, e1, e2⟩ | ⟨e, h⟩
            · refine .inl ⟨(p.start + q.1, q.2), mem_of_part hil hrun (by rw [et]; exact List.mem_map.2 ⟨q, hq, rfl⟩), ?_, e2⟩
              simp only [e1]
              omega
            · refine .inr ⟨e, ?_⟩
              have d : start + i = s.stride * p.span + (p.instant + (i - p.start)) := by
                rw [Nat.mul_comm]; omega
              simp only [MMStruct3.get, Span.findSpan, if_neg hs]
              rw [d, Nat.mul_add_div (by omega), Nat.div_eq_of_lt (by omega), Nat.mul_add_mod, Nat.mod_eq_of_lt (by omega),
                Nat.add_zero, hcid]
              simp only [hg]
              exact h
      · rw [if_neg hlen] at ht
        cases ht.2

/-- C97 (partial: of structures in which no superchunk leads to a span): each cell of a window that is given holds what
a single read of it gives; or that read gives an error, and the cell holds the zero that the window was made with. -/
theorem C97_window_partial {α : Type} (kind : Kind α) {fuel : Nat} {m : MMStruct3} {cid : Cid}
    (hm : st.getStruct utf8 cid = .ok m) (hw : Spec.Plain utf8 st fuel m) (start fin top bottom left right : Nat)
    (h0 : start ≤ fin) (h1 : top < bottom) (h2 : left < right) (a : List (List (List α)))
    (h : kind.window utf8 st fuel m (Cube.new start fin top bottom left right) (.ok a)) (i r c : Nat)
    (x : α) (hx : (a[i]?.bind fun y => y[r]?.bind fun z => z[c]?) = some x) :
    kind.get utf8 st fuel m (start + i) (top + r) (left + c) = .ok x ∨
    (x = kind.zero ∧ ∃ e, kind.get utf8 st fuel m (start + i) (top + r) (left + c) = .error (.err e)) := by
  rw [Cube.new_eq h0 h1.le h2.le] at h
  unfold Kind.window at h
  cases hc : m.checkCube ⟨start, fin, top, bottom, left, right⟩ with
  | none => simp [hc] at h
  | some u =>
    simp only [hc, csub_of_le h0, csub_of_le h1.le, csub_of_le h2.le] at h
    obtain ⟨t, s, hrun, hres⟩ := h
    unfold Kind.finish at hres
    by_cases ht : (t.all fun q => q.1 < fin - start ∧ q.2.1 < bottom - top ∧ q.2.2.1 < right - left) = true
    · rw [if_pos ht] at hres
      cases s with
      | some f => cases hres
      | none =>
        cases hres
        obtain ⟨y, hy, hx⟩ := Option.bind_eq_some_iff.1 hx
        obtain ⟨z, hz, hx⟩ := Option.bind_eq_some_iff.1 hx
        rw [List.getElem?_map] at hy
        obtain ⟨i', hi, rfl⟩ := Option.map_eq_some_iff.1 hy
        rw [List.getElem?_map] at hz
        obtain ⟨r', hr, rfl⟩ := Option.map_eq_some_iff.1 hz
        rw [List.getElem?_map] at hx
        obtain ⟨c', hc', rfl⟩ := Option.map_eq_some_iff.1 hx
        obtain ⟨li, rfl⟩ := List.getElem?_eq_some_iff.1 hi
        obtain ⟨lr, rfl⟩ := List.getElem?_eq_some_iff.1 hr
        obtain ⟨lc, rfl⟩ := List.getElem?_eq_some_iff.1 hc'
        rw [List.length_range] at li lr lc
        simp only [List.getElem_range]
        have hb : m.checkBounds (start + i) (top + r) (left + c) = some () := by
          unfold MMStruct3.checkCube at hc
          simp only [csub_of_le (by omega : 1 ≤ bottom), csub_of_le (by omega : 1 ≤ right),
            csub_of_le (by omega : 1 ≤ fin)] at hc
          exact checkBounds_mono hc (by omega) (by omega) (by omega)
        unfold written Kind.get
        simp only [hb]
        cases hf : t.reverse.find? fun q => q.1 = i ∧ q.2.1 = r ∧ q.2.2.1 = c with
        | some q =>
          have a1 := List.mem_reverse.1 (List.mem_of_find?_eq_some hf)
          have a2 := List.find?_some hf
          obtain ⟨rfl, rfl, rfl⟩ := of_decide_eq_true a2
          have := (MMStruct3.fillWindow_shows fuel m m.fractionalBits start fin top bottom left right
            (Store.getStruct_loaded hm) h0 h1 h2 t none hrun q a1).2
          rw [this]
          exact .inl rfl
        | none =>
          rcases MMStruct3.fillWindow_lacks fuel m m.fractionalBits start fin top bottom left right hw h0 h1 h2 t hrun
            i r c li lr lc with ⟨q, hq, e⟩ | ⟨e, he⟩
          · have := List.find?_eq_none.1 hf _ (List.mem_reverse.2 hq)
            simp [e.1, e.2.1, e.2.2] at this
          · rw [he]
            exact .inr ⟨rfl, e, rfl⟩
    · rw [if_neg ht] at hres
      cases hres

end

section
variable {H : Hash} {utf8 : List Byte → Bool} {clog : Nat → Nat} {lg : Rat → Int} {fuel readFuel : Nat}

theorem limited_plain {α : Type} (kind : Kind α) {d : Dataset} {ops : List Op} {log : Saved}
    (h : Limited H utf8 clog lg fuel readFuel d ops log 0) (hf : 32 ≤ fuel) {s : Dataset × Saved}
    (hs : s = runs H utf8 clog lg fuel ops (d, log)) (hnc : s.2.NoCollision H) {name : List Byte} {v : Variable}
    (hv : s.1.findVariable name = some v) {st : Store} (hst : st.Part (s.2.load H)) {m : MMStruct3}
    (hm : v.data kind utf8 st = .ok m) (anyFuel : Nat) :
    st.getStruct utf8 v.cid = .ok m ∧ Spec.Plain utf8 st anyFuel m := by
  obtain ⟨levels, cs, ss, enc, round, hset, M, hi, -, -⟩ := (h.runs hf hs hnc).vars name (by rw [hv]; simp)
  obtain ⟨v', tl, h1, h2, -, h3, h4, he, i, root, h5, h6, h7, -⟩ := hi.var
  rw [hv] at h1
  cases h1
  have hg := h5.get utf8 hnc
  have : m = .span root ∧ st.getStruct utf8 v.cid = .ok m := by
    unfold Variable.data at hm
    rcases hst.getStruct (utf8 := utf8) v.cid with e | ⟨c, -, e⟩
    · rw [e, hg] at hm ⊢
      simp only at hm
      unfold Kind.new at hm
      by_cases hk : (MMStruct3.span root).encoding ≠ kind.encoding
      · rw [if_pos hk] at hm
        cases hm
      · rw [if_neg hk] at hm
        exact ⟨(Except.ok.inj hm).symm, hm⟩
    · rw [e] at hm
      cases hm
  refine ⟨this.2, Spec.Plain.part hst anyFuel m ?_⟩
  rw [this.1]
  exact Tree.plain hnc (T := hset.theory H enc) (fun m a n hK fuel =>
    Sides.flat fuel levels m (AnyChunk.sides hK utf8 s.2 (List.Subset.refl _) hnc)) _ _ _ _ _ h6 anyFuel

/-- C97 for data sets with any history, and any of their variables, whatever the store fails to deliver: each cell of a
window that is given holds what `get` gives; or `get` gives an error, and the cell holds the zero that the window was
made with. -/
theorem C97_built {α : Type} (kind : Kind α) (d : Dataset) (ops : List Op) (log : Saved)
    (h : Limited H utf8 clog lg fuel readFuel d ops log 0) (hf : 32 ≤ fuel) (s : Dataset × Saved)
    (hs : s = runs H utf8 clog lg fuel ops (d, log)) (hnc : s.2.NoCollision H) (name : List Byte) (v : Variable)
    (hv : s.1.findVariable name = some v) (st : Store) (hst : st.Part (s.2.load H)) (m : MMStruct3)
    (hm : v.data kind utf8 st = .ok m) (anyFuel start fin top bottom left right : Nat)
    (h0 : start ≤ fin) (h1 : top < bottom) (h2 : left < right) (a : List (List (List α)))
    (hw : kind.window utf8 st anyFuel m (Cube.new start fin top bottom left right) (.ok a)) (i r c : Nat)
    (x : α) (hx : (a[i]?.bind fun y => y[r]?.bind fun z => z[c]?) = some x) :
    kind.get utf8 st anyFuel m (start + i) (top + r) (left + c) = .ok x ∨
    (x = kind.zero ∧ ∃ e, kind.get utf8 st anyFuel m (start + i) (top + r) (left + c) = .error (.err e)) := by
  obtain ⟨hg, hp⟩ := limited_plain kind h hf hs hnc hv hst hm anyFuel
  exact C97_window_partial kind hg hp start fin top bottom left right h0 h1 h2 a hw i r c x hx

end

open Half in
/-- C97 does not hold of windows in general: of a superchunk that leads to a span, a window may hold a zero in a cell
that `get` reads as 7. -/
theorem C97_window_wrong :
    Kind.i64.window (fun _ => true) store 3 (.superchunk head [.span span]) (Cube.new 0 2 0 1 0 1) (.ok [[[0]], [[0]]]) ∧
    Kind.i64.get (fun _ => true) store 3 (.superchunk head [.span span]) 0 0 0 = .ok 7 := by
  refine ⟨C96_window_wrong.2, ?_⟩
  have key : (match Kind.i64.get (fun _ => true) store 3 (.superchunk head [.span span]) 0 0 0 with
    | .ok x => decide (x = 7)
    | .error _ => false) = true := by decide +kernel
  revert key
  generalize Kind.i64.get (fun _ => true) store 3 (.superchunk head [.span span]) 0 0 0 = x
  intro key
  match x, key with
  | .ok x, key => exact congrArg Except.ok (of_decide_eq_true key)

/-! ### Examples -/

namespace Lost

def dac : Dac := match Dac.ofList [7, 0, 0, 0] with
  | some d => d
  | none => ⟨[]⟩

def head : SuperHead := ⟨1, 1, 2, 2, 1, 1, 2, 0, .i64, [.elided, .external 0, .elided, .elided], Half.gone, dac, dac⟩

def store : Store := Saved.load exampleHash [(Item.struct (.superchunk head [])).bytes]

theorem loads : store.getStruct (fun _ => true) (exampleHash.cidOf (Item.struct (.superchunk head [])).bytes) =
    .ok (.superchunk head []) := by
  have key : (match store.getStruct (fun _ => true) (exampleHash.cidOf (Item.struct (.superchunk head [])).bytes) with
    | .ok (.superchunk h []) => decide (h = head)
    | _ => false) = true := by decide +kernel
  revert key
  generalize store.getStruct (fun _ => true) (exampleHash.cidOf (Item.struct (.superchunk head [])).bytes) = x
  intro key
  match x, key with
  | .ok (.superchunk h []), key => exact congrArg (fun h => Except.ok (MMStruct3.superchunk h [])) (of_decide_eq_true key)

theorem gone : head.deref (fun _ => true) store [] (.external 0) = .error (.err (.notFound Half.gone)) := by
  have key : (match head.deref (fun _ => true) store [] (.external 0) with
    | .error f => decide (f = .err (.notFound Half.gone))
    | _ => false) = true := by decide +kernel
  revert key
  generalize head.deref (fun _ => true) store [] (.external 0) = x
  intro key
  match x, key with
  | .error f, key => exact congrArg Except.error (of_decide_eq_true key)

theorem plain (fuel : Nat) : Spec.Plain (fun _ => true) store fuel (.superchunk head []) := by
  cases fuel with
  | zero => trivial
  | succ fuel =>
    intro ref href hne m hm
    have : ref = .external 0 := by
      simp only [head, List.mem_cons, List.not_mem_nil, or_false] at href
      rcases href with rfl | rfl | rfl | rfl
      · exact absurd rfl hne
      · rfl
      · exact absurd rfl hne
      · exact absurd rfl hne
    subst this
    rw [gone] at hm
    cases hm

theorem fills : (MMStruct3.superchunk head []).fillWindow (fun _ => true) store 2 0 (Cube.new 0 1 0 1 0 2)
    [(0, 0, 0, 0, 7)] none := by
  have e : head.elidedWindow (Cube.new 0 1 0 1 0 1) 0 = some [(0, 0, 0, 7)] := by decide +kernel
  refine ⟨[([(0, 0, 0, 0, 7)], none), ([], some (.err (.notFound Half.gone)))],
    .cons ⟨[(0, 0, 0, 0, 7)], ?_, rfl⟩ (.cons ⟨[], ?_, rfl⟩ .nil), by simp, .step (i := 0) rfl (.done ?_)⟩
  · show Out.ofOption _ _ _
    erw [e]
    exact ⟨rfl, rfl⟩
  · show Out.await (head.deref (fun _ => true) store [] (.external 0)) _ _ _
    rw [gone]
    exact ⟨rfl, rfl⟩
  · simp

end Lost

open Lost in
/-- A superchunk of two cells, one of which lies in a subchunk that is gone: it meets what C97 asks for, and its window
is 7 and 0. -/
example : store.getStruct (fun _ => true) (exampleHash.cidOf (Item.struct (.superchunk head [])).bytes) =
      .ok (.superchunk head []) ∧
    Spec.Plain (fun _ => true) store 2 (.superchunk head []) ∧
    Kind.i64.window (fun _ => true) store 2 (.superchunk head []) (Cube.new 0 1 0 1 0 2) (.ok [[[7, 0]]]) :=
  ⟨loads, plain 2, ⟨_, _, fills, rfl⟩⟩

/-- A data set of two variables after many appends, in a store that has lost one of its objects. -/
example (cid : Cid) (v : Variable) (hv : (runs exampleHash (fun _ => true) exampleClog exampleLg 32 exampleTwo
      (exampleDataset, [])).1.findVariable [7] = some v) (m : MMStruct3)
    (hm : v.data .i64 (fun _ => true) (((runs exampleHash (fun _ => true) exampleClog exampleLg 32 exampleTwo
      (exampleDataset, [])).2.load exampleHash).without cid) = .ok m) :=
  C97_built (H := exampleHash) (utf8 := fun _ => true) (clog := exampleClog) (lg := exampleLg) (fuel := 32)
    (readFuel := 40) Kind.i64 exampleDataset exampleTwo [] (exampleTwo_limited (by decide)) (by decide) _ rfl
    (by unfold Saved.NoCollision; decide +kernel) [7] v hv _ (Store.without_part _ cid) m hm 40 0 2 0 4 0 4
    (by decide) (by decide) (by decide)

end Verif
