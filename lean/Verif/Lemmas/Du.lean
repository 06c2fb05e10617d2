import Verif.Lemmas.Example
import Verif.Model.Du
import Verif.Props.Resolver

/-! Paths, and counting bytes along all of them. -/
namespace Verif

namespace Example

/-! ### Strings with slashes -/

/-- The names, with slashes between them. -/
def Spec.joined : List (List Byte) → List Byte
  | [] => []
  | [name] => name
  | name :: names => name ++ 47#8 :: Spec.joined names

theorem split_name : ∀ (name : List Byte), 47#8 ∉ name → split name = [name] := by
  intro name
  induction name with
  | nil => intro _; rfl
  | cons b bs ih =>
    intro h
    rw [List.mem_cons, not_or] at h
    unfold split
    rw [if_neg (Ne.symm h.1), ih h.2]

theorem split_cons : ∀ (name rest : List Byte), 47#8 ∉ name →
    split (name ++ 47#8 :: rest) = name :: split rest := by
  intro name
  induction name with
  | nil =>
    intro rest _
    rw [List.nil_append]
    conv => lhs; unfold split
    rw [if_pos rfl]
  | cons b bs ih =>
    intro rest h
    rw [List.mem_cons, not_or] at h
    rw [List.cons_append]
    conv => lhs; unfold split
    rw [if_neg (Ne.symm h.1), ih _ h.2]

theorem split_joined : ∀ (names : List (List Byte)), names ≠ [] → (∀ n ∈ names, 47#8 ∉ n) →
    split (Spec.joined names) = names := by
  intro names
  induction names with
  | nil => intro h; exact absurd rfl h
  | cons name names ih =>
    intro _ h
    cases names with
    | nil => exact split_name _ (h _ (List.mem_cons_self ..))
    | cons n ns =>
      change split (name ++ 47#8 :: Spec.joined (n :: ns)) = _
      rw [split_cons _ _ (h _ (List.mem_cons_self ..)), ih (by simp) fun n hn => h n (List.mem_cons_of_mem _ hn)]

theorem split_ne (s : List Byte) : split s ≠ [] := by
  cases s with
  | nil => simp [split]
  | cons b bs =>
    unfold split
    split
    · simp
    · split <;> simp

theorem joined_split (s : List Byte) : Spec.joined (split s) = s ∧ ∀ n ∈ split s, 47#8 ∉ n := by
  induction s with
  | nil => exact ⟨rfl, by simp [split]⟩
  | cons b bs ih =>
    unfold split
    cases hs : split bs with
    | nil => exact absurd hs (split_ne bs)
    | cons name names =>
      rw [hs] at ih
      split
      · rename_i hb
        subst hb
        refine ⟨?_, fun n hn => ?_⟩
        · change [] ++ 47#8 :: Spec.joined (name :: names) = _
          rw [ih.1, List.nil_append]
        · rcases List.mem_cons.1 hn with rfl | hn
          · simp
          · exact ih.2 n hn
      · rename_i hb
        simp only
        refine ⟨?_, fun n hn => ?_⟩
        · cases names with
          | nil => exact congrArg (b :: ·) ih.1
          | cons n ns => exact congrArg (b :: ·) ih.1
        · rcases List.mem_cons.1 hn with rfl | hn
          · rw [List.mem_cons, not_or]
            exact ⟨Ne.symm hb, ih.2 _ (List.mem_cons_self ..)⟩
          · exact ih.2 n (List.mem_cons_of_mem _ hn)

/-! ### What is below an object -/

section
variable {H : Hash} {utf8 : List Byte → Bool} {log : Saved}

/-- All objects that are met on the ways down from an object, each as often as there are ways to it. -/
def Spec.below (utf8 : List Byte → Bool) (st : Store) : Nat → Cid → List Cid
  | 0, _ => []
  | depth + 1, c =>
    match st.retrieve utf8 c with
    | .ok x => x.refs.flatMap fun r => r :: Spec.below utf8 st depth r
    | .error _ => []

/-- The bytes of objects. -/
def Spec.bytes (st : Store) (cs : List Cid) : Nat := (cs.map fun c => ((st c).map List.length).getD 0).sum

theorem Item.loaded_refs (x : Item) (c : Cid) : (x.loaded c).refs = x.refs := by
  rw [← Item.ls_refs, ← Item.ls_refs, Item.loaded_ls]

/-- An object that was saved, with all its parts down to a depth. -/
def Stored (H : Hash) (utf8 : List Byte → Bool) (log : Saved) (dep : Nat) (c : Cid) : Prop :=
  ∃ y : Item, y.bytes ∈ log ∧ c = H.cidOf y.bytes ∧ Ground utf8 H log dep y

theorem Stored.deeper {d d' : Nat} {c : Cid} (h : Stored H utf8 log d c) (hd : d ≤ d') : Stored H utf8 log d' c := by
  obtain ⟨y, h1, h2, h3⟩ := h
  exact ⟨y, h1, h2, h3.deeper hd⟩

theorem Stored.retrieve (hnc : log.NoCollision H) {d : Nat} {c : Cid} (h : Stored H utf8 log (d + 1) c) :
    ∃ x : Item, (log.load H).retrieve utf8 c = .ok x ∧ ∀ r ∈ x.refs, Stored H utf8 log d r := by
  obtain ⟨y, h1, rfl, h3⟩ := h
  refine ⟨_, Store.retrieve_of (Saved.load_mem hnc h1) h3.1, fun r hr => ?_⟩
  rw [Item.loaded_refs, ← Item.ls_refs, List.mem_map] at hr
  obtain ⟨e, he, rfl⟩ := hr
  exact h3.2.2 e he

theorem flatMap_congr {α β : Type} {l : List α} {f g : α → List β} (h : ∀ a ∈ l, f a = g a) :
    l.flatMap f = l.flatMap g := by
  induction l with
  | nil => rfl
  | cons a l ih =>
    rw [List.flatMap_cons, List.flatMap_cons, h a (List.mem_cons_self ..),
      ih fun b hb => h b (List.mem_cons_of_mem _ hb)]

theorem below_succ (hnc : log.NoCollision H) : ∀ {d : Nat} {c : Cid}, Stored H utf8 log d c →
    Spec.below utf8 (log.load H) (d + 1) c = Spec.below utf8 (log.load H) d c := by
  intro d
  induction d with
  | zero =>
    rintro c ⟨y, -, -, h⟩
    exact h.elim
  | succ d ih =>
    intro c h
    obtain ⟨x, h1, h2⟩ := h.retrieve hnc
    rw [Spec.below, Spec.below, h1]
    exact flatMap_congr fun r hr => by rw [ih (h2 r hr)]

theorem below_add (hnc : log.NoCollision H) {d : Nat} {c : Cid} (h : Stored H utf8 log d c) (k : Nat) :
    Spec.below utf8 (log.load H) (d + k) c = Spec.below utf8 (log.load H) d c := by
  induction k with
  | zero => rfl
  | succ k ih => rw [← ih]; exact below_succ hnc (h.deeper (Nat.le_add_right d k))

theorem bytes_append (st : Store) (a b : List Cid) : Spec.bytes st (a ++ b) = Spec.bytes st a + Spec.bytes st b := by
  unfold Spec.bytes
  rw [List.map_append, List.sum_append]

theorem bytes_cons (st : Store) (a : Cid) (b : List Cid) :
    Spec.bytes st (a :: b) = ((st a).map List.length).getD 0 + Spec.bytes st b := by
  unfold Spec.bytes
  rw [List.map_cons, List.sum_cons]

/-- An object and all below. -/
def family (utf8 : List Byte → Bool) (st : Store) (dep : Nat) (c : Cid) : List Cid := c :: Spec.below utf8 st dep c

theorem duLoop_eq (hnc : log.NoCollision H) (dep : Nat) : ∀ (fuel : Nat) (es : List LsEntry) (usage : Nat),
    (∀ e ∈ es, Stored H utf8 log dep e.cid ∧ e.size = (log.load H e.cid).map List.length) →
    ((es.map LsEntry.cid).flatMap (family utf8 (log.load H) dep)).length < fuel →
    duLoop utf8 (log.load H) fuel es usage =
      .ok (usage + Spec.bytes (log.load H) ((es.map LsEntry.cid).flatMap (family utf8 (log.load H) dep))) := by
  intro fuel
  induction fuel with
  | zero => intro es usage _ h; omega
  | succ fuel ih =>
    intro es usage hes hl
    cases es with
    | nil => rfl
    | cons e es =>
      obtain ⟨hs, hz⟩ := hes e (List.mem_cons_self ..)
      have hs' := hs
      obtain ⟨y, h1, h2, h3⟩ := hs'
      obtain ⟨more, m1, m2⟩ := h3.ls hnc h1
      rw [← h2] at m1
      have hsz : e.size = some y.bytes.length := by
        rw [hz, h2, Saved.load_mem hnc h1]
        rfl
      obtain ⟨x, c1, c2, c3⟩ := C45_listing _ _ _ _ m1
      have hbelow : Spec.below utf8 (log.load H) dep e.cid =
          (more.map LsEntry.cid).flatMap (family utf8 (log.load H) dep) := by
        rw [← below_succ hnc hs, Spec.below, c1, c2]
        rfl
      unfold duLoop
      rw [m1]
      simp only
      rw [hsz]
      simp only
      rw [List.map_cons, List.flatMap_cons] at hl ⊢
      rw [bytes_append, family, bytes_cons, ← hz, hsz, Option.getD_some, hbelow]
      rw [family, hbelow, List.length_append, List.length_cons] at hl
      rw [ih]
      · rw [List.map_append, List.flatMap_append, bytes_append]
        congr 1
        omega
      · intro e' he
        rcases List.mem_append.1 he with he | he
        · exact hes e' (List.mem_cons_of_mem _ he)
        · refine ⟨?_, c3 e' he⟩
          obtain ⟨d, rfl⟩ : ∃ d, dep = d + 1 := by
            cases dep with
            | zero => exact h3.elim
            | succ d => exact ⟨d, rfl⟩
          obtain ⟨x', f1, f2⟩ := hs.retrieve hnc
          rw [c1] at f1
          cases f1
          refine (f2 e'.cid ?_).deeper (Nat.le_succ _)
          rw [← c2]
          exact List.mem_map_of_mem he
      · rw [List.map_append, List.flatMap_append, List.length_append]
        omega

/-- Everything below can be reached. -/
theorem below_reach {st : Store} : ∀ (dep : Nat) (c r : Cid), r ∈ Spec.below utf8 st dep c → Reach utf8 st c r := by
  intro dep
  induction dep with
  | zero => intro c r h; cases h
  | succ dep ih =>
    intro c r h
    unfold Spec.below at h
    cases hx : st.retrieve utf8 c with
    | error f => rw [hx] at h; cases h
    | ok x =>
      rw [hx] at h
      simp only [List.mem_flatMap] at h
      obtain ⟨a, h1, h2⟩ := h
      rw [← Item.ls_refs, List.mem_map] at h1
      obtain ⟨e, h3, rfl⟩ := h1
      have h4 : Reach utf8 st c e.2 := .step .root hx h3
      rcases List.mem_cons.1 h2 with rfl | h2
      · exact h4
      · exact h4.trans (ih _ _ h2)

/-- Everything that can be reached is below, or the object itself. -/
theorem reach_below (hnc : log.NoCollision H) {dep : Nat} {c r : Cid} (h : Stored H utf8 log dep c)
    (hr : Reach utf8 (log.load H) c r) : (r = c ∨ r ∈ Spec.below utf8 (log.load H) dep c) ∧ Stored H utf8 log dep r := by
  have key : ∀ {d : Nat} {a b : Cid}, Stored H utf8 log d a → b ∈ Spec.below utf8 (log.load H) d a →
      ∀ {x : Item} {e}, (log.load H).retrieve utf8 b = .ok x → e ∈ x.ls → e.2 ∈ Spec.below utf8 (log.load H) d a := by
    intro d
    induction d with
    | zero =>
      rintro a b ⟨y, -, -, h⟩
      exact h.elim
    | succ d ih =>
      intro a b ha hb x e hx he
      obtain ⟨z, h1, h2⟩ := ha.retrieve hnc
      rw [Spec.below, h1] at hb ⊢
      simp only [List.mem_flatMap] at hb ⊢
      obtain ⟨r, h3, h4⟩ := hb
      refine ⟨r, h3, ?_⟩
      rcases List.mem_cons.1 h4 with rfl | h4
      · refine List.mem_cons_of_mem _ ?_
        rw [← below_succ hnc (h2 _ h3), Spec.below, hx]
        simp only [List.mem_flatMap]
        refine ⟨e.2, ?_, List.mem_cons_self ..⟩
        rw [← Item.ls_refs]
        exact List.mem_map_of_mem he
      · exact List.mem_cons_of_mem _ (ih (h2 _ h3) h4 hx he)
  induction hr with
  | root => exact ⟨.inl rfl, h⟩
  | step h0 h1 h2 ih =>
    rename_i b x e
    obtain ⟨ih, ih'⟩ := ih
    have hs : Stored H utf8 log dep e.2 := by
      cases dep with
      | zero =>
        obtain ⟨y, -, -, h⟩ := h
        exact h.elim
      | succ d =>
        obtain ⟨x', f1, f2⟩ := ih'.retrieve hnc
        rw [h1] at f1
        cases f1
        refine (f2 _ ?_).deeper (Nat.le_succ _)
        rw [← Item.ls_refs]
        exact List.mem_map_of_mem h2
    refine ⟨.inr ?_, hs⟩
    rcases ih with rfl | ih
    · rw [← below_succ hnc h, Spec.below, h1]
      simp only [List.mem_flatMap]
      refine ⟨e.2, ?_, List.mem_cons_self ..⟩
      rw [← Item.ls_refs]
      exact List.mem_map_of_mem h2
    · exact key h ih h1 h2

/-! ### Paths -/

/-- The object that a path leads to: by each name to the first part that has it. -/
inductive Spec.Path (utf8 : List Byte → Bool) (st : Store) : Cid → List (List Byte) → Cid → Prop
  | here (c : Cid) : Spec.Path utf8 st c [] c
  | down {a b c : Cid} {x : Item} {name : List Byte} {names : List (List Byte)} :
      st.retrieve utf8 a = .ok x → x.ls.find? (fun e => e.1 = name) = some (name, b) →
      Spec.Path utf8 st b names c → Spec.Path utf8 st a (name :: names) c

/-- The object that the argument of `ls` or `du` means. -/
def Spec.Means (utf8 : List Byte → Bool) (parse : List Byte → Option Cid) (st : Store) (head : Cid) :
    Option (List Byte) → Cid → Prop
  | none, c => c = head
  | some s, c => parse s = some c ∨ parse s = none ∧ ∃ names, names ≠ [] ∧ (∀ n ∈ names, 47#8 ∉ n) ∧
    s = Spec.joined names ∧ Spec.Path utf8 st head names c

theorem lsLoop_find {st : Store} {name : List Byte} : ∀ {es : List (List Byte × Cid)} {xs : List LsEntry},
    st.lsLoop es = .ok xs →
    (xs.find? fun e => e.name = name).map LsEntry.cid = (es.find? fun e => e.1 = name).map Prod.snd := by
  intro es xs h
  have := Store.lsLoop_ok h
  clear h
  induction this with
  | nil => rfl
  | cons h _ ih =>
    obtain ⟨h1, h2, -⟩ := h
    rw [List.find?_cons, List.find?_cons, h1]
    split
    · simp only [Option.map_some, h2]
    · exact ih

theorem find_name {es : List (List Byte × Cid)} {name : List Byte} {b : Cid}
    (h : (es.find? fun e => e.1 = name).map Prod.snd = some b) : es.find? (fun e => e.1 = name) = some (name, b) := by
  cases he : es.find? fun e => e.1 = name with
  | none => rw [he] at h; cases h
  | some e =>
    rw [he] at h
    have := List.find?_some he
    simp only [decide_eq_true_eq] at this
    cases h
    rw [← this]

theorem walk_sound {st : Store} : ∀ (names : List (List Byte)) (a : Cid) (es es' : List LsEntry),
    st.ls utf8 a = .ok es → walk utf8 st names es = .ok es' →
    ∃ c, Spec.Path utf8 st a names c ∧ st.ls utf8 c = .ok es' := by
  intro names
  induction names with
  | nil =>
    intro a es es' h1 h2
    cases h2
    exact ⟨a, .here a, h1⟩
  | cons name names ih =>
    intro a es es' h1 h2
    unfold walk at h2
    cases hf : es.find? fun e => e.name = name with
    | none => rw [hf] at h2; cases h2
    | some e =>
      rw [hf] at h2
      simp only at h2
      cases hl : st.ls utf8 e.cid with
      | error f => rw [hl] at h2; cases h2
      | ok es1 =>
        rw [hl] at h2
        obtain ⟨c, h3, h4⟩ := ih e.cid es1 es' hl h2
        refine ⟨c, ?_, h4⟩
        unfold Store.ls at h1
        cases hx : st.retrieve utf8 a with
        | error f => rw [hx] at h1; cases h1
        | ok x =>
          rw [hx] at h1
          have h5 := lsLoop_find (name := name) h1
          rw [hf, Option.map_some] at h5
          exact .down hx (find_name h5.symm) h3

theorem walk_complete (hnc : log.NoCollision H) : ∀ (names : List (List Byte)) (dep : Nat) (a c : Cid)
    (es : List LsEntry), Stored H utf8 log dep a → (log.load H).ls utf8 a = .ok es →
    Spec.Path utf8 (log.load H) a names c → ∃ es', walk utf8 (log.load H) names es = .ok es' ∧
      (log.load H).ls utf8 c = .ok es' := by
  intro names
  induction names with
  | nil =>
    intro dep a c es _ h1 h2
    cases h2
    exact ⟨es, rfl, h1⟩
  | cons name names ih =>
    intro dep a c es hs h1 h2
    obtain ⟨b, x, hx, hf, hp⟩ : ∃ b x, (log.load H).retrieve utf8 a = .ok x ∧
        x.ls.find? (fun e => e.1 = name) = some (name, b) ∧ Spec.Path utf8 (log.load H) b names c := by
      cases h2
      exact ⟨_, _, ‹_›, ‹_›, ‹_›⟩
    have hb : Stored H utf8 log dep b :=
      (reach_below hnc hs (.step .root hx (List.mem_of_find?_eq_some hf))).2
    have hb' := hb
    obtain ⟨y, g1, g2, g3⟩ := hb'
    obtain ⟨es1, g4, -⟩ := g3.ls hnc g1
    rw [← g2] at g4
    obtain ⟨es', f1, f2⟩ := ih dep b c es1 hb g4 hp
    refine ⟨es', ?_, f2⟩
    unfold Store.ls at h1
    rw [hx] at h1
    have h5 := lsLoop_find (name := name) h1
    rw [hf, Option.map_some] at h5
    unfold walk
    cases hf' : es.find? fun e => e.name = name with
    | none => rw [hf'] at h5; cases h5
    | some e =>
      rw [hf'] at h5
      have h6 : e.cid = b := Option.some.inj h5
      simp only
      rw [h6, g4]
      exact f1

theorem Path.reach {st : Store} {a c : Cid} {names : List (List Byte)} (h : Spec.Path utf8 st a names c) :
    Reach utf8 st a c := by
  induction h with
  | here c => exact .root
  | down h1 h2 _ ih => exact Reach.trans (.step .root h1 (List.mem_of_find?_eq_some h2)) ih

/-- Listings are those of what the argument means. -/
theorem list_complete (hnc : log.NoCollision H) {parse : List Byte → Option Cid} {dep : Nat} {head c : Cid}
    {arg : Option (List Byte)} (hs : Stored H utf8 log dep head)
    (hm : Spec.Means utf8 parse (log.load H) head arg c) (hc : Stored H utf8 log dep c) :
    ∃ es, list utf8 parse (log.load H) (some head) arg = .ok es ∧ (log.load H).ls utf8 c = .ok es := by
  have key : ∀ {c : Cid}, Stored H utf8 log dep c → ∃ es, (log.load H).ls utf8 c = .ok es := by
    rintro c ⟨y, g1, rfl, g3⟩
    obtain ⟨es, g4, -⟩ := g3.ls hnc g1
    exact ⟨es, g4⟩
  cases arg with
  | none =>
    obtain rfl : c = head := hm
    obtain ⟨es, h⟩ := key hc
    exact ⟨es, h, h⟩
  | some s =>
    rcases hm with hm | ⟨hm, names, n1, n2, rfl, n4⟩
    · obtain ⟨es, h⟩ := key hc
      refine ⟨es, ?_, h⟩
      simp only [list, lsOf, hm, h]
    · obtain ⟨es, h⟩ := key hs
      obtain ⟨es', f1, f2⟩ := walk_complete hnc names dep head c es hs h n4
      refine ⟨es', ?_, f2⟩
      simp only [list, lsOf, hm, h, isValueError, Err.exception, decide_true, if_true, split_joined _ n1 n2]
      exact f1

theorem list_sound {st : Store} {parse : List Byte → Option Cid} {head : Cid} {arg : Option (List Byte)}
    {es : List LsEntry} (h : list utf8 parse st (some head) arg = .ok es) :
    (∃ c, Spec.Means utf8 parse st head arg c ∧ st.ls utf8 c = .ok es) ∨
      ∃ s b e, arg = some s ∧ parse s = some b ∧ st.ls utf8 b = .error (.err e) ∧ e.exception = .value := by
  cases arg with
  | none => exact .inl ⟨head, rfl, h⟩
  | some s =>
    unfold list at h
    simp only at h
    cases hp : parse s with
    | some c =>
      rw [hp] at h
      simp only [lsOf] at h
      cases hc : st.ls utf8 c with
      | ok entries => rw [hc] at h; exact .inl ⟨c, .inl hp, hc.trans h⟩
      | error f =>
        rw [hc] at h
        simp only at h
        cases f with
        | panic => simp [isValueError] at h
        | err e =>
          by_cases he : e.exception = .value
          · exact .inr ⟨s, c, e, rfl, hp, hc, he⟩
          · simp [isValueError, he] at h
    | none =>
      rw [hp] at h
      simp only [lsOf, isValueError, Err.exception, decide_true, if_true] at h
      cases hl : st.ls utf8 head with
      | error f => rw [hl] at h; cases h
      | ok entries =>
        rw [hl] at h
        obtain ⟨c, h1, h2⟩ := walk_sound _ _ _ _ hl h
        exact .inl ⟨c, .inr ⟨hp, split s, split_ne s, (joined_split s).2, (joined_split s).1.symm, h1⟩, h2⟩

end

end Example

end Verif
