import Verif.Lemmas.Cache

/-!
Properties C35 and C36: the cache, one call at a time.
-/
namespace Verif.Cache

section
variable {K V : Type} [DecidableEq K]

/-! ### C35 -/

/-- C35: after any sequence of calls of `get`, whatever the functions `load` come back with, the size
that the cache accounts for is the sum of the sizes of the objects held, and is not above the limit.
In particular no call panics in the code of the cache. `held` lists what is held. -/
theorem C35 (size : V → Nat) (limit : Nat) (calls : List (K × (K → Loaded V))) :
    ∃ s as, (Entries.new limit : Entries K V).gets size calls = some (s, as) ∧
      ∃ held : List (K × V), (held.map Prod.fst).Nodup ∧
        (∀ k v, (k, v) ∈ held ↔ ∃ e, Map.find s.map k = some e ∧ e.object = v) ∧
        s.size = (held.map fun p => size p.2).sum ∧ s.size ≤ limit := by
  obtain ⟨s, l, as, hg, hh, hlim⟩ := (Holds.new (K := K) size limit).gets calls
  exact ⟨s, as, hg, l, hh.linked.nodup, hh.mem_iff, hh.size_eq,
    Nat.le_trans hh.le_limit (Nat.le_of_eq hlim)⟩

/-- The links agree: following them from either end meets every key held once, in opposite
orders. -/
theorem C35_links (size : V → Nat) (limit : Nat) (calls : List (K × (K → Loaded V)))
    (s : Entries K V) (as : List (Answer V × Bool))
    (h : (Entries.new limit : Entries K V).gets size calls = some (s, as)) (n : Nat)
    (hn : s.map.length ≤ n) :
    (s.down n s.most).reverse = s.up n s.least ∧ (s.down n s.most).Nodup ∧
      ∀ k, k ∈ s.down n s.most ↔ ∃ e, Map.find s.map k = some e := by
  obtain ⟨s', l, as', hg, hh, hlim⟩ := (Holds.new (K := K) size limit).gets calls
  rw [h] at hg
  cases hg
  have hlen := hh.linked.length_le
  have hd := hh.linked.down (a := []) n (by omega)
  have hu : s.up n (lastKey none l) = (l.map Prod.fst).reverse :=
    Linked.up (b := []) (by rw [List.append_nil]; exact hh.linked) n (by omega)
  rw [hh.linked.most, hh.linked.least, hd, hu]
  refine ⟨rfl, hh.linked.nodup, fun k => ?_⟩
  simp only [List.mem_map, Prod.exists, exists_and_right, exists_eq_right]
  constructor
  · rintro ⟨v, hv⟩
    obtain ⟨e, he, -⟩ := (hh.mem_iff k v).1 hv
    exact ⟨e, he⟩
  · rintro ⟨e, he⟩
    exact ⟨e.object, (hh.mem_iff k _).2 ⟨e, he, rfl⟩⟩

/-! ### C36 -/

/-- C36: if `load` gives no other object than `val k` for the key `k`, then `get` gives none
either; and if `load` always gives it, `get` always gives it. All calls are answered, unless `load`
panics (see `C38_after_panic`). -/
theorem C36_honest (size : V → Nat) (limit : Nat) (calls : List (K × (K → Loaded V))) (val : K → V)
    (hval : ∀ c ∈ calls, ∀ v, c.2 c.1 = .object v → v = val c.1)
    (s : Entries K V) (as : List (Answer V × Bool))
    (h : (Entries.new limit : Entries K V).gets size calls = some (s, as)) :
    (as.length = calls.length ∨ ∃ c ∈ calls, c.2 c.1 = .panic) ∧
    ∀ (i : Nat) (k : K) (load : K → Loaded V) (a : Answer V) (called : Bool),
      calls[i]? = some (k, load) → as[i]? = some (a, called) →
      (∀ v, a = .ok v → v = val k) ∧ (load k = .object (val k) → a = .ok (val k)) := by
  suffices H : ∀ (s0 : Entries K V) l left, Holds size s0 l → (∀ k v, (k, v) ∈ l → v = val k) →
      s0.getsWith size left calls = some (s, as) →
      (as.length = calls.length ∨ left ≠ [] ∨ ∃ c ∈ calls, c.2 c.1 = .panic) ∧
      ∀ (i : Nat) (k : K) (load : K → Loaded V) (a : Answer V) (called : Bool),
      calls[i]? = some (k, load) → as[i]? = some (a, called) →
      (∀ v, a = .ok v → v = val k) ∧ (load k = .object (val k) → a = .ok (val k)) by
    have := H _ [] [] (Holds.new size limit) (by simp) h
    simpa using this
  clear h
  induction calls generalizing as with
  | nil =>
    intro s0 l left _ _ hg
    cases hg
    simp
  | cons c calls ih =>
    intro s0 l left hh hl hg
    obtain ⟨k, load⟩ := c
    by_cases hw : k ∈ left ∧ (Map.find s0.map k).isNone
    · simp only [Entries.getsWith, if_pos hw, Option.some.injEq, Prod.mk.injEq] at hg
      obtain ⟨-, rfl⟩ := hg
      exact ⟨.inr (.inl (List.ne_nil_of_mem hw.1)), by simp⟩
    obtain ⟨s1, l1, a, c, hget, hh1, hlim, hc, hcase⟩ := hh.get k load
    simp only [Entries.getsWith, if_neg hw, hget] at hg
    cases hrest : s1.getsWith size (if c && (load k).panics then k :: left else left) calls with
    | none => simp only [hrest, reduceCtorEq] at hg
    | some p =>
      obtain ⟨s2, as'⟩ := p
      simp only [hrest, Option.some.injEq, Prod.mk.injEq] at hg
      obtain ⟨rfl, rfl⟩ := hg
      have hload : ∀ v, load k = .object v → v = val k := fun v hv =>
        hval (k, load) (by simp) v hv
      have hl1 : ∀ k v, (k, v) ∈ l1 → v = val k := by
        intro k' v' hm
        rcases hcase with ⟨x, v, y, rfl, rfl, -⟩ | ⟨-, v, gone, hv, -, hlg, -⟩ | ⟨-, rfl, -, -⟩
        · apply hl
          simp only [List.mem_cons, List.mem_append] at hm ⊢
          tauto
        · have : (k', v') ∈ (k, v) :: l := by rw [hlg]; exact List.mem_append_left _ hm
          rcases List.mem_cons.1 this with h | h
          · cases h; exact hload _ hv
          · exact hl _ _ h
        · exact hl _ _ hm
      have hans : (∀ v, a = .ok v → v = val k) ∧ (load k = .object (val k) → a = .ok (val k)) := by
        rcases hcase with ⟨x, v, y, rfl, rfl, rfl⟩ | ⟨-, v, gone, hv, rfl, hlg, -⟩ | ⟨-, rfl, ha, hno⟩
        · have : v = val k := hl _ _ (by simp)
          subst this
          exact ⟨by rintro v hv; cases hv; rfl, fun _ => rfl⟩
        · have := hload v hv
          subst this
          exact ⟨by rintro v hv; cases hv; rfl, fun _ => rfl⟩
        · refine ⟨fun v hv => ?_, fun hv => absurd hv (hno _)⟩
          rw [ha] at hv
          cases hld : load k with
          | object w => exact absurd hld (hno w)
          | nothing => simp [hld, Loaded.answer] at hv
          | error => simp [hld, Loaded.answer] at hv
          | panic => simp [hld, Loaded.answer] at hv
      obtain ⟨hlen, hrec⟩ := ih (fun c hc => hval c (List.mem_cons_of_mem _ hc)) as' s1 l1 _ hh1 hl1 hrest
      have hlen' : ((a, c) :: as').length = ((k, load) :: calls).length ∨ left ≠ [] ∨
          ∃ c ∈ (k, load) :: calls, c.2 c.1 = .panic := by
        rcases hlen with h | h | ⟨x, hx, hp⟩
        · exact .inl (by simp [h])
        · by_cases hp : (c && (load k).panics) = true
          · refine .inr (.inr ⟨(k, load), by simp, ?_⟩)
            rw [Bool.and_eq_true] at hp
            cases hld : load k <;> simp [hld, Loaded.panics] at hp ⊢
          · rw [if_neg hp] at h
            exact .inr (.inl h)
        · exact .inr (.inr ⟨x, List.mem_cons_of_mem _ hx, hp⟩)
      refine ⟨hlen', fun i k' load' a' called' hi ha' => ?_⟩
      cases i with
      | zero =>
        simp only [List.getElem?_cons_zero, Option.some.injEq, Prod.mk.injEq] at hi ha'
        obtain ⟨rfl, rfl⟩ := hi
        obtain ⟨rfl, rfl⟩ := ha'
        exact hans
      | succ i =>
        simp only [List.getElem?_cons_succ] at hi ha'
        exact hrec i k' load' a' called' hi ha'

/-- The keys in the order in which they were used last. `history` has the latest first. -/
def lastUsed : List K → List K
  | [] => []
  | k :: history => k :: (lastUsed history).erase k

/-- The keys that `get` gave an object for. -/
def served : List (K × (K → Loaded V)) → List (Answer V × Bool) → List K
  | (k, _) :: calls, (.ok _, _) :: as => k :: served calls as
  | _ :: calls, _ :: as => served calls as
  | _, _ => []

theorem prefix_erase_of_notMem {l m : List K} {k : K} (h : l <+: m) (hk : k ∉ l) :
    l <+: m.erase k := by
  obtain ⟨r, rfl⟩ := h
  rw [List.erase_append_right _ hk]
  exact ⟨_, rfl⟩

theorem mid_prefix_erase {a b m : List K} {k : K} (h : a ++ k :: b <+: m) (hk : k ∉ a) :
    a ++ b <+: m.erase k := by
  obtain ⟨r, rfl⟩ := h
  rw [List.append_assoc, List.erase_append_right _ hk, List.cons_append, List.erase_cons_head,
    ← List.append_assoc]
  exact ⟨_, rfl⟩

/-- C36: where the answers come from. An answer for which `load` was called is the one of `load`; any
other is an object that an earlier call of `load` has given for the same key. -/
theorem C36_origin (size : V → Nat) (limit : Nat) (calls : List (K × (K → Loaded V)))
    (s : Entries K V) (as : List (Answer V × Bool))
    (h : (Entries.new limit : Entries K V).gets size calls = some (s, as))
    (i : Nat) (k : K) (load : K → Loaded V) (a : Answer V) (called : Bool)
    (hi : calls[i]? = some (k, load)) (ha : as[i]? = some (a, called)) :
    (called = true ∧ a = (load k).answer) ∨
    (called = false ∧ ∃ j < i, ∃ load' v, calls[j]? = some (k, load') ∧ load' k = .object v ∧ a = .ok v) := by
  suffices H : ∀ (s0 : Entries K V) l left pre, Holds size s0 l →
      (∀ k v, (k, v) ∈ l → ∃ load, (k, load) ∈ pre ∧ load k = .object v) →
      s0.getsWith size left calls = some (s, as) →
      (called = true ∧ a = (load k).answer) ∨
      (called = false ∧ ∃ load' v, (k, load') ∈ pre ++ calls.take i ∧ load' k = .object v ∧ a = .ok v) by
    rcases H _ [] [] [] (Holds.new size limit) (by simp) h with h | ⟨h, load', v, hm, hv, rfl⟩
    · exact .inl h
    · rw [List.nil_append, List.mem_take_iff_getElem] at hm
      obtain ⟨j, hj, hm⟩ := hm
      refine .inr ⟨h, j, by omega, load', v, ?_, hv, rfl⟩
      rw [← hm]
      exact List.getElem?_eq_getElem _
  clear h
  induction calls generalizing as i with
  | nil => simp at hi
  | cons c calls ih =>
    intro s0 l left pre hh hl hg
    obtain ⟨k0, load0⟩ := c
    by_cases hw : k0 ∈ left ∧ (Map.find s0.map k0).isNone
    · simp only [Entries.getsWith, if_pos hw, Option.some.injEq, Prod.mk.injEq] at hg
      obtain ⟨-, rfl⟩ := hg
      simp at ha
    obtain ⟨s1, l1, a0, c, hget, hh1, hlim, hc, hcase⟩ := hh.get k0 load0
    simp only [Entries.getsWith, if_neg hw, hget] at hg
    cases hrest : s1.getsWith size (if c && (load0 k0).panics then k0 :: left else left) calls with
    | none => simp only [hrest, reduceCtorEq] at hg
    | some p =>
      obtain ⟨s2, as'⟩ := p
      simp only [hrest, Option.some.injEq, Prod.mk.injEq] at hg
      obtain ⟨rfl, rfl⟩ := hg
      cases i with
      | zero =>
        simp only [List.getElem?_cons_zero, Option.some.injEq, Prod.mk.injEq] at hi ha
        obtain ⟨rfl, rfl⟩ := hi
        obtain ⟨rfl, rfl⟩ := ha
        rcases hcase with ⟨x, v, y, rfl, rfl, rfl⟩ | ⟨hk, v, gone, hv, rfl, hlg, -⟩ | ⟨hk, rfl, ha, hno⟩
        · right
          refine ⟨?_, ?_⟩
          · cases c with
            | false => rfl
            | true => exact absurd (by simp) (hc.1 rfl)
          · obtain ⟨load', hm, hv⟩ := hl k0 v (by simp)
            exact ⟨load', v, by simpa using hm, hv, rfl⟩
        · exact .inl ⟨hc.2 hk, by rw [hv]; rfl⟩
        · exact .inl ⟨hc.2 hk, ha⟩
      | succ i =>
        simp only [List.getElem?_cons_succ] at hi ha
        have hl1 : ∀ k v, (k, v) ∈ l1 → ∃ load, (k, load) ∈ pre ++ [(k0, load0)] ∧ load k = .object v := by
          intro k' v' hm
          have old : (k', v') ∈ l → ∃ load, (k', load) ∈ pre ++ [(k0, load0)] ∧ load k' = .object v' := by
            intro hm
            obtain ⟨load', hm, hv⟩ := hl _ _ hm
            exact ⟨load', List.mem_append_left _ hm, hv⟩
          rcases hcase with ⟨x, v, y, rfl, rfl, -⟩ | ⟨-, v, gone, hv, -, hlg, -⟩ | ⟨-, rfl, -, -⟩
          · apply old
            simp only [List.mem_cons, List.mem_append] at hm ⊢
            tauto
          · have : (k', v') ∈ (k0, v) :: l := by rw [hlg]; exact List.mem_append_left _ hm
            rcases List.mem_cons.1 this with h | h
            · cases h; exact ⟨load0, by simp, hv⟩
            · exact old h
          · exact old hm
        have := ih as' i hi ha s1 l1 _ (pre ++ [(k0, load0)]) hh1 hl1 hrest
        simpa using this

/-- C36: the keys held are those used last: of all the keys that were served, in the order in which
they were served last, the cache holds an initial part, and its links follow that order. -/
theorem C36_order (size : V → Nat) (limit : Nat) (calls : List (K × (K → Loaded V)))
    (s : Entries K V) (as : List (Answer V × Bool))
    (h : (Entries.new limit : Entries K V).gets size calls = some (s, as)) (n : Nat)
    (hn : s.map.length ≤ n) :
    s.down n s.most <+: lastUsed (served calls as).reverse := by
  suffices H : ∀ (s0 : Entries K V) l left hist, Holds size s0 l → l.map Prod.fst <+: lastUsed hist →
      s0.getsWith size left calls = some (s, as) →
      ∃ l', Holds size s l' ∧ l'.map Prod.fst <+: lastUsed ((served calls as).reverse ++ hist) by
    obtain ⟨l, hh, hp⟩ := H _ [] [] [] (Holds.new size limit) (by simp) h
    have hlen := hh.linked.length_le
    have hd := hh.linked.down (a := []) n (by omega)
    rw [hh.linked.most, hd]
    rwa [List.append_nil] at hp
  clear h hn
  induction calls generalizing as with
  | nil =>
    intro s0 l left hist hh hp hg
    cases hg
    exact ⟨l, hh, hp⟩
  | cons c calls ih =>
    intro s0 l left hist hh hp hg
    obtain ⟨k, load⟩ := c
    by_cases hw : k ∈ left ∧ (Map.find s0.map k).isNone
    · simp only [Entries.getsWith, if_pos hw, Option.some.injEq, Prod.mk.injEq] at hg
      obtain ⟨rfl, rfl⟩ := hg
      exact ⟨l, hh, by simpa [served] using hp⟩
    obtain ⟨s1, l1, a, c, hget, hh1, hlim, hc, hcase⟩ := hh.get k load
    simp only [Entries.getsWith, if_neg hw, hget] at hg
    cases hrest : s1.getsWith size (if c && (load k).panics then k :: left else left) calls with
    | none => simp only [hrest, reduceCtorEq] at hg
    | some p =>
      obtain ⟨s2, as'⟩ := p
      simp only [hrest, Option.some.injEq, Prod.mk.injEq] at hg
      obtain ⟨rfl, rfl⟩ := hg
      rcases hcase with ⟨x, v, y, rfl, rfl, rfl⟩ | ⟨hk, v, gone, hv, rfl, hlg, -⟩ | ⟨hk, rfl, ha, hno⟩
      · have hk := (nodup_mid hh.linked.nodup).1
        obtain ⟨l', hl', hp'⟩ := ih as' s1 _ _ (k :: hist) hh1 (by
          simp only [List.map_append, List.map_cons] at hp
          simp only [List.map_cons, List.map_append, lastUsed]
          exact (List.prefix_cons_inj k).2 (mid_prefix_erase hp hk)) hrest
        exact ⟨l', hl', by simpa [served] using hp'⟩
      · obtain ⟨l', hl', hp'⟩ := ih as' s1 l1 _ (k :: hist) hh1 (by
          have h1 : l1.map Prod.fst <+: k :: l.map Prod.fst := by
            have : (k :: l.map Prod.fst) = l1.map Prod.fst ++ gone.map Prod.fst := by
              have := congrArg (List.map Prod.fst) hlg
              simpa using this
            exact ⟨_, this.symm⟩
          refine h1.trans ?_
          exact (List.prefix_cons_inj k).2 (prefix_erase_of_notMem hp hk)) hrest
        exact ⟨l', hl', by simpa [served] using hp'⟩
      · obtain ⟨l', hl', hp'⟩ := ih as' s1 _ _ hist hh1 hp hrest
        refine ⟨l', hl', ?_⟩
        have : served ((k, load) :: calls) ((a, c) :: as') = served calls as' := by
          cases hld : load k with
          | object w => exact absurd hld (hno w)
          | nothing => simp [ha, hld, Loaded.answer, served]
          | error => simp [ha, hld, Loaded.answer, served]
          | panic => simp [ha, hld, Loaded.answer, served]
        rw [this]
        exact hp'

/-- C36, what one call does after any sequence of calls; `order` is what the links say. If the key is
held, `load` is not called, what is held stays and the key comes to the front. If it is not held,
`load` is called; if there is an object, the key is put in front and entries are dropped from the
other end, no more than needed: with the last one dropped, the sizes would add up to more than the
limit. `sizes` are the sizes of the objects held. (After a panic of `load` for the same key the call is
not answered, see `C38_after_panic`.) -/
theorem C36_step (size : V → Nat) (limit : Nat) (calls : List (K × (K → Loaded V)))
    (s : Entries K V) (as : List (Answer V × Bool))
    (h : (Entries.new limit : Entries K V).gets size calls = some (s, as))
    (k : K) (load : K → Loaded V) :
    ∃ s' a called, s.get size k load = some (s', a, called) ∧
      (called = true ↔ Map.find s.map k = none) ∧
      ∀ n, s.map.length ≤ n → s'.map.length ≤ n →
        (called = false → s'.down n s'.most = k :: (s.down n s.most).erase k) ∧
        (∀ v, called = true → load k = .object v →
          ∃ gone, k :: s.down n s.most = s'.down n s'.most ++ gone ∧
            ∀ g gs, gone = g :: gs →
              limit < ((s'.down n s'.most ++ [g]).map fun k' =>
                if k' = k then size v else ((Map.find s.map k').map (·.size)).getD 0).sum) ∧
        (called = true → (∀ v, load k ≠ .object v) → s' = s) := by
  obtain ⟨s0, l, as', hg, hh, hlim0⟩ := (Holds.new (K := K) size limit).gets calls
  rw [h] at hg
  cases hg
  obtain ⟨s', l', a, called, hget, hh', hlim, hc, hcase⟩ := hh.get k load
  refine ⟨s', a, called, hget, ?_, ?_⟩
  · rw [hc, hh.linked.find]
    constructor
    · exact expected_none _ _ _ _
    · intro hn hk
      obtain ⟨x, v, y, rfl, hx⟩ := split_key l k hk
      rw [expected_mid _ _ _ _ _ _ hx] at hn
      exact nomatch hn
  · intro n hn hn'
    have hlen := hh.linked.length_le
    have hlen' := hh'.linked.length_le
    have hd := hh.linked.down (a := []) n (by omega)
    have hd' := hh'.linked.down (a := []) n (by omega)
    rw [hh.linked.most, hh'.linked.most, hd, hd']
    refine ⟨fun hcall => ?_, fun v hcall hload => ?_, fun hcall hno => ?_⟩
    · have hmem : k ∈ l.map Prod.fst := by
        by_contra hk
        rw [← hc, hcall] at hk
        exact nomatch hk
      rcases hcase with ⟨x, v, y, rfl, rfl, rfl⟩ | ⟨hk, -⟩ | ⟨hk, -⟩
      · have hk := (nodup_mid hh.linked.nodup).1
        simp only [List.map_append, List.map_cons]
        rw [List.erase_append_right _ hk, List.erase_cons_head]
      · exact absurd hmem hk
      · exact absurd hmem hk
    · have hnm := hc.1 hcall
      rcases hcase with ⟨x, v', y, rfl, rfl, rfl⟩ | ⟨hk, v', gone, hv, rfl, hlg, hgone⟩ | ⟨hk, -, -, hno⟩
      · exact absurd (by simp) hnm
      · rw [hload] at hv
        cases hv
        refine ⟨gone.map Prod.fst, ?_, ?_⟩
        · have := congrArg (List.map Prod.fst) hlg
          simpa using this
        · intro g gs hgs
          cases gone with
          | nil => exact nomatch hgs
          | cons p ps =>
            simp only [List.map_cons, List.cons.injEq] at hgs
            have hlt := hgone p ps rfl
            rw [hlim0] at hlt
            have hlt' : limit < total size (l' ++ [p]) := hlt
            refine Nat.lt_of_lt_of_le hlt' (Nat.le_of_eq ?_)
            unfold total
            rw [← hgs.1]
            have : l'.map Prod.fst ++ [p.1] = (l' ++ [p]).map Prod.fst := by simp
            rw [this, List.map_map]
            congr 1
            apply List.map_congr_left
            rintro ⟨k', v'⟩ hm
            have hm' : (k', v') ∈ (k, v) :: l := by
              rw [hlg]
              simp only [List.mem_append, List.mem_cons, List.not_mem_nil, or_false] at hm ⊢
              tauto
            simp only [Function.comp]
            rcases List.mem_cons.1 hm' with heq | hmem
            · cases heq; rw [if_pos rfl]
            · have hne : k' ≠ k := by
                rintro rfl
                exact hk (List.mem_map.2 ⟨_, hmem, rfl⟩)
              rw [if_neg hne]
              obtain ⟨x, y, rfl⟩ := List.append_of_mem hmem
              rw [hh.linked.find, expected_mid _ _ _ _ _ _ (nodup_mid hh.linked.nodup).1]
              rfl
      · exact absurd hload (hno v)
    · have hnm := hc.1 hcall
      have hl := hh.lookup_none hnm
      cases hld : load k with
      | object w => exact absurd hld (hno w)
      | nothing => simp only [Entries.get, hl, hld, Option.some.injEq, Prod.mk.injEq] at hget; exact hget.1.symm
      | error => simp only [Entries.get, hl, hld, Option.some.injEq, Prod.mk.injEq] at hget; exact hget.1.symm
      | panic => simp only [Entries.get, hl, hld, Option.some.injEq, Prod.mk.injEq] at hget; exact hget.1.symm

/-- What C38 asks for does not hold after a panic in `load`: whatever was called before, later calls for
that key are not answered, even if `load` would give the object now. -/
theorem C38_after_panic (size : V → Nat) (limit : Nat) (calls : List (K × (K → Loaded V)))
    (hp : ∀ c ∈ calls, c.2 c.1 ≠ .panic) (s : Entries K V) (as : List (Answer V × Bool))
    (h : (Entries.new limit : Entries K V).gets size calls = some (s, as)) (k : K)
    (hk : Map.find s.map k = none) (load load' : K → Loaded V) (hload : load k = .panic) :
    (Entries.new limit : Entries K V).gets size (calls ++ [(k, load), (k, load')]) =
      some (s, as ++ [(.panic, true)]) := by
  suffices H : ∀ (s0 : Entries K V) l, Holds size s0 l → s0.getsWith size [] calls = some (s, as) →
      s0.getsWith size [] (calls ++ [(k, load), (k, load')]) = some (s, as ++ [(.panic, true)]) from
    H _ [] (Holds.new size limit) h
  clear h
  induction calls generalizing as with
  | nil =>
    intro s0 l hh hg
    simp only [Entries.getsWith, Option.some.injEq, Prod.mk.injEq] at hg
    obtain ⟨rfl, rfl⟩ := hg
    obtain ⟨s1, l1, a, c, hget, hh1, hlim, hc, hcase⟩ := hh.get k load
    have hkl : k ∉ l.map Prod.fst := by
      intro hm
      obtain ⟨x, v, y, rfl, hx⟩ := split_key l k hm
      rw [hh.linked.find, expected_mid _ _ _ _ _ _ hx] at hk
      exact nomatch hk
    have hl := hh.lookup_none hkl
    have hget : s0.get size k load = some (s0, .panic, true) := by simp only [Entries.get, hl, hload]
    simp [Entries.getsWith, hget, hload, Loaded.panics, hk]
  | cons c calls ih =>
    intro s0 l hh hg
    obtain ⟨k', load1⟩ := c
    obtain ⟨s1, l1, a, c, hget, hh1, -, -, -⟩ := hh.get k' load1
    have hn : (load1 k').panics = false := by
      have := hp (k', load1) (by simp)
      cases hld : load1 k' <;> simp [hld] at this ⊢ <;> rfl
    simp only [Entries.getsWith, hget, hn, Bool.and_false, List.cons_append, List.not_mem_nil, false_and,
      if_false, Bool.false_eq_true] at hg ⊢
    cases hrest : s1.getsWith size [] calls with
    | none => simp only [hrest, reduceCtorEq] at hg
    | some p =>
      obtain ⟨s2, as'⟩ := p
      simp only [hrest, Option.some.injEq, Prod.mk.injEq] at hg
      obtain ⟨rfl, rfl⟩ := hg
      rw [ih (fun c hc => hp c (List.mem_cons_of_mem _ hc)) as' s1 l1 hh1 hrest]
      rfl

end

/-! ### Examples -/

/-- A sequence of calls with hits, misses, evictions, a failure and an object too large. -/
def exampleCalls : List (Nat × (Nat → Loaded Nat)) :=
  let load : Nat → Loaded Nat := fun k => if k = 9 then .error .io else .object (10 * k)
  [(1, load), (2, load), (1, load), (3, load), (9, load), (2, load), (4, load), (1, load), (50, load),
    (3, load)]

/-- What the calls come back with; the cache can hold objects of 60 in total. -/
example : (Entries.new 60 : Entries Nat Nat).gets id exampleCalls = some
    ({ limit := 60, size := 30, map := [(3, ⟨3, 30, none, none, 30⟩)], most := some 3,
       least := some 3 },
      [(.ok 10, true), (.ok 20, true), (.ok 10, false), (.ok 30, true), (.err .io, true),
        (.ok 20, false), (.ok 40, true), (.ok 10, true), (.ok 500, true), (.ok 30, true)]) := by
  decide +kernel

/-- The hypothesis of `C36_honest` holds for these calls. -/
example : ∀ c ∈ exampleCalls, ∀ v, c.2 c.1 = .object v → v = 10 * c.1 := by
  intro c hc v hv
  simp only [exampleCalls, List.mem_cons, List.not_mem_nil, or_false] at hc
  rcases hc with rfl | rfl | rfl | rfl | rfl | rfl | rfl | rfl | rfl | rfl <;>
    simp at hv <;> simp [← hv]

/-- After six calls the links give the order of use, which is the order of the last calls answered. -/
example : ((Entries.new 60 : Entries Nat Nat).gets id (exampleCalls.take 6)).map (fun p =>
      (p.1.down 5 p.1.most, lastUsed (served (exampleCalls.take 6) p.2).reverse)) =
    some ([2, 3, 1], [2, 3, 1]) := by
  decide +kernel

/-- `C38_after_panic` after six calls: the key 9 is not held, `load` panics for it, and the next call for
it is not answered, nor is any later one. -/
example : ((Entries.new 60 : Entries Nat Nat).gets id (exampleCalls.take 6 ++
      [(9, fun _ => .panic), (9, fun _ => .object 90)])).map (fun p => p.2.drop 5) =
    some [(.ok 20, false), (.panic, true)] := by
  decide +kernel

end Verif.Cache
