import Verif.Model.Resolver
import Verif.Props.Cache
import Verif.Props.CacheTasks
import Verif.Props.Resolver

/-!
The cache of the resolver makes no difference to what is read (C50).
-/
namespace Verif

open Cache

/-! ### C50 -/

namespace Spec

/-- What a call comes back with if there is no cache. -/
def reply (H : Hash) (utf8 : List Byte → Bool) (log : Saved) : Call → Reply
  | .save x => .saved (H.cidOf x.bytes)
  | .getDataset c =>
    match (log.load H).getDataset utf8 c with
    | .ok d => .dataset d
    | .error e => .failed e
  | .getLinks c =>
    match (log.load H).getLinks utf8 c with
    | .ok l => .links l
    | .error e => .failed e
  | .getStruct c =>
    match (log.load H).getStruct utf8 c with
    | .ok m => .struct m
    | .error e => .failed e

/-- What is in the store after a call. -/
def after (log : Saved) : Call → Saved
  | .save x => x.bytes :: log
  | _ => log

/-- What is in the store after some calls. -/
def afterAll (log : Saved) (cs : List Call) : Saved := cs.foldl after log

/-- What the calls come back with if there is no cache. -/
def replies (H : Hash) (utf8 : List Byte → Bool) (log : Saved) : List Call → List Reply
  | [] => []
  | c :: cs => reply H utf8 log c :: replies H utf8 (after log c) cs

end Spec

section
variable {H : Hash} {utf8 : List Byte → Bool}

theorem Spec.after_mono (log : Saved) (c : Call) : log ⊆ Spec.after log c := by
  cases c with
  | save x => exact List.subset_cons_self _ _
  | _ => exact List.Subset.refl _

theorem Spec.afterAll_mono (cs : List Call) : ∀ log : Saved, log ⊆ Spec.afterAll log cs := by
  induction cs with
  | nil => exact fun log => List.Subset.refl _
  | cons c cs ih => exact fun log => List.Subset.trans (Spec.after_mono log c) (ih _)

/-- The cache holds what reading the store would give. -/
def Resolver.Good (H : Hash) (utf8 : List Byte → Bool) (r : Resolver) : Prop :=
  ∃ l, Cache.Holds Item.size r.entries l ∧
    ∀ c x, (c, x) ∈ l → (r.log.load H).retrieve utf8 c = .ok x

/-- What the cache would answer if it were empty. -/
def Store.answer (utf8 : List Byte → Bool) (st : Store) (c : Cid) : Answer Item := (st.loaded utf8 c).answer

theorem Store.loaded_object {st : Store} {c : Cid} {x : Item} :
    st.loaded utf8 c = .object x ↔ st.retrieve utf8 c = .ok x := by
  unfold Store.loaded
  cases h : st.retrieve utf8 c with
  | ok y => simp
  | error e => cases e <;> simp

theorem Resolver.checkCache_good {r : Resolver} (hr : r.Good H utf8) (c : Cid) :
    ∃ r' a, r.checkCache utf8 H c = some (r', a) ∧ r'.log = r.log ∧ r'.Good H utf8 ∧
      (a = some ((r.log.load H).answer utf8 c) ∨ (a = none ∧ c ∈ r.left)) ∧
      (∀ k ∈ r'.left, k ∈ r.left ∨ a = some .panic) := by
  obtain ⟨l, hh, hl⟩ := hr
  unfold Resolver.checkCache
  by_cases hw : c ∈ r.left ∧ (Map.find r.entries.map c).isNone
  · rw [if_pos hw]
    exact ⟨r, none, rfl, rfl, ⟨l, hh, hl⟩, .inr ⟨rfl, hw.1⟩, fun k hk => .inl hk⟩
  rw [if_neg hw]
  obtain ⟨s1, l1, a, called, hget, hh1, -, hc, hcase⟩ := hh.get c ((r.log.load H).loaded utf8)
  simp only [hget]
  refine ⟨_, _, rfl, rfl, ⟨l1, hh1, ?_⟩, .inl (congrArg some ?_), ?_⟩
  · intro k x hm
    simp only
    rcases hcase with ⟨x', v, y, rfl, rfl, -⟩ | ⟨-, v, gone, hv, -, hlg, -⟩ | ⟨-, rfl, -, -⟩
    · apply hl
      simp only [List.mem_cons, List.mem_append] at hm ⊢
      tauto
    · have : (k, x) ∈ (c, v) :: l := by rw [hlg]; exact List.mem_append_left _ hm
      rcases List.mem_cons.1 this with h | h
      · cases h; exact Store.loaded_object.1 hv
      · exact hl _ _ h
    · exact hl _ _ hm
  · unfold Store.answer
    rcases hcase with ⟨x, v, y, rfl, rfl, rfl⟩ | ⟨-, v, gone, hv, rfl, hlg, -⟩ | ⟨-, rfl, ha, hno⟩
    · rw [Store.loaded_object.2 (hl c v (by simp))]
      rfl
    · rw [hv]
      rfl
    · exact ha
  · intro k hk
    simp only at hk
    by_cases hp : (called && ((r.log.load H).loaded utf8 c).panics) = true
    · right
      rw [Bool.and_eq_true] at hp
      rcases hcase with ⟨x, v, y, rfl, rfl, rfl⟩ | ⟨-, v, gone, hv, rfl, hlg, -⟩ | ⟨-, rfl, ha, hno⟩
      · exact absurd (by simp) (hc.1 hp.1)
      · rw [hv] at hp
        exact nomatch hp.2
      · rw [ha]
        cases hld : (r.log.load H).loaded utf8 c <;> simp [hld, Loaded.panics] at hp ⊢
        rfl
    · rw [if_neg hp] at hk
      exact .inl hk

theorem Reply.asDataset_answer (st : Store) (c : Cid) :
    Reply.asDataset (st.answer utf8 c) = match st.getDataset utf8 c with
      | .ok d => .dataset d
      | .error e => .failed e := by
  unfold Store.answer Store.loaded Store.getDataset
  cases h : st.retrieve utf8 c with
  | ok x => cases x <;> rfl
  | error e => cases e <;> rfl

theorem Reply.asLinks_answer (st : Store) (c : Cid) :
    Reply.asLinks (st.answer utf8 c) = match st.getLinks utf8 c with
      | .ok d => .links d
      | .error e => .failed e := by
  unfold Store.answer Store.loaded Store.getLinks
  cases h : st.retrieve utf8 c with
  | ok x => cases x <;> rfl
  | error e => cases e <;> rfl

theorem Reply.asStruct_answer (st : Store) (c : Cid) :
    Reply.asStruct (st.answer utf8 c) = match st.getStruct utf8 c with
      | .ok d => .struct d
      | .error e => .failed e := by
  unfold Store.answer Store.loaded Store.getStruct
  cases h : st.retrieve utf8 c with
  | ok x => cases x <;> rfl
  | error e => cases e <;> rfl

theorem Resolver.call_good {r : Resolver} (hr : r.Good H utf8) (c : Call)
    (hnc : (Spec.after r.log c).NoCollision H) :
    ∃ r' a, r.call utf8 H c = some (r', a) ∧ r'.log = Spec.after r.log c ∧ r'.Good H utf8 ∧
      (a = some (Spec.reply H utf8 r.log c) ∨ (a = none ∧ r.left ≠ [])) ∧
      (r'.left ≠ [] → r.left ≠ [] ∨ a = some (.failed .panic)) := by
  have read : ∀ (cid : Cid) (f : Answer Item → Reply) (hf : f .panic = .failed .panic),
      ∃ r' a, ((r.checkCache utf8 H cid).map fun (r, a) => (r, a.map f)) = some (r', a) ∧
        r'.log = r.log ∧ r'.Good H utf8 ∧
        (a = some (f ((r.log.load H).answer utf8 cid)) ∨ (a = none ∧ r.left ≠ [])) ∧
        (r'.left ≠ [] → r.left ≠ [] ∨ a = some (.failed .panic)) := by
    intro cid f hf
    obtain ⟨r', a, h1, h2, h3, h4, h5⟩ := Resolver.checkCache_good hr cid
    refine ⟨r', a.map f, by rw [h1]; rfl, h2, h3, ?_, ?_⟩
    · rcases h4 with rfl | ⟨rfl, h⟩
      · exact .inl rfl
      · exact .inr ⟨rfl, List.ne_nil_of_mem h⟩
    · intro hne
      obtain ⟨k, hk⟩ := List.exists_mem_of_ne_nil _ hne
      rcases h5 k hk with h | rfl
      · exact .inl (List.ne_nil_of_mem h)
      · exact .inr (by rw [Option.map_some, hf])
  cases c with
  | save x =>
    refine ⟨_, _, rfl, rfl, ?_, .inl rfl, .inl⟩
    obtain ⟨l, hh, hl⟩ := hr
    refine ⟨l, hh, fun c y hm => ?_⟩
    exact Store.retrieve_mono (Saved.load_mono hnc fun b hb => List.mem_cons_of_mem _ hb) c y (hl c y hm)
  | getDataset cid =>
    have := read cid Reply.asDataset rfl
    rw [Reply.asDataset_answer] at this
    exact this
  | getLinks cid =>
    have := read cid Reply.asLinks rfl
    rw [Reply.asLinks_answer] at this
    exact this
  | getStruct cid =>
    have := read cid Reply.asStruct rfl
    rw [Reply.asStruct_answer] at this
    exact this

/-- C50: a resolver with a cache of any size replies to every sequence of savings and readings as it
would without a cache. Only after a panic (of an object that cannot be read) may a reply be missing, and
then there are no more. -/
theorem C50_transparent (log : Saved) (cacheBytes : Nat) (cs : List Call)
    (hnc : (Spec.afterAll log cs).NoCollision H) :
    ∃ r replies, (Resolver.new log cacheBytes).calls utf8 H cs = some (r, replies) ∧
      replies <+: Spec.replies H utf8 log cs ∧
      (replies = Spec.replies H utf8 log cs ∨ .failed .panic ∈ replies) := by
  suffices A : ∀ r : Resolver, r.log = log → r.Good H utf8 →
      ∃ r' replies, r.calls utf8 H cs = some (r', replies) ∧
      replies <+: Spec.replies H utf8 log cs ∧
      (replies = Spec.replies H utf8 log cs ∨ r.left ≠ [] ∨ .failed .panic ∈ replies) by
    obtain ⟨r', replies, h1, h2, h3⟩ := A (Resolver.new log cacheBytes) rfl
      ⟨[], Cache.Holds.new _ cacheBytes, by simp⟩
    refine ⟨r', replies, h1, h2, ?_⟩
    rcases h3 with h | h | h
    · exact .inl h
    · exact absurd rfl h
    · exact .inr h
  induction cs generalizing log with
  | nil => exact fun r _ _ => ⟨r, [], rfl, List.prefix_refl _, .inl rfl⟩
  | cons c cs ih =>
    rintro r rfl hr
    obtain ⟨r1, a, h1, h2, h3, h4, h5⟩ := Resolver.call_good hr c
      (hnc.mono (Spec.afterAll_mono cs _))
    unfold Resolver.calls
    rw [h1]
    rcases h4 with rfl | ⟨rfl, hleft⟩
    · obtain ⟨r', replies, h6, h7, h8⟩ := ih (Spec.after r.log c) hnc r1 h2 h3
      refine ⟨r', Spec.reply H utf8 r.log c :: replies, by simp only [h6], ?_, ?_⟩
      · exact (List.prefix_cons_inj _).2 h7
      · rcases h8 with h | h | h
        · exact .inl (by rw [h]; rfl)
        · rcases h5 h with h | h
          · exact .inr (.inl h)
          · exact .inr (.inr (by rw [Option.some.inj h]; exact List.mem_cons_self ..))
        · exact .inr (.inr (List.mem_cons_of_mem _ h))
    · exact ⟨r1, [], rfl, List.nil_prefix, .inr (.inl hleft)⟩

/-- C50, for a store from which objects may vanish (or in which they may not be reachable for a while)
but where an identifier never leads to other bytes (`content`): every object that is read is the one
stored under the identifier. -/
theorem C50_content (content : Cid → List Byte) (cacheBytes : Nat) (gets : List (Cid × Store))
    (hst : ∀ g ∈ gets, ∀ c b, g.2 c = some b → b = content c)
    (s : Entries Cid Item) (as : List (Answer Item × Bool))
    (h : (Entries.new cacheBytes).gets Item.size (gets.map fun g => (g.1, g.2.loaded utf8)) = some (s, as))
    (i : Nat) (c : Cid) (st : Store) (a : Answer Item) (called : Bool) (hi : gets[i]? = some (c, st))
    (ha : as[i]? = some (a, called)) :
    (∀ x, a = .ok x → ∃ rest, Item.read utf8 c (content c) = .ok (x, rest)) ∧
    (∀ e, a = .err e → st.retrieve utf8 c = .error (.err e)) ∧ (a = .panic → st.retrieve utf8 c = .error .panic) := by
  have hread : ∀ g ∈ gets, ∀ c x, g.2.retrieve utf8 c = .ok x →
      ∃ rest, Item.read utf8 c (content c) = .ok (x, rest) := by
    intro g hg c x hx
    unfold Store.retrieve at hx
    cases hb : g.2 c with
    | none => rw [hb] at hx; cases hx
    | some b =>
      rw [hb] at hx
      rw [← hst g hg c b hb]
      cases hr : Item.read utf8 c b with
      | error e => simp [hr] at hx
      | ok p => obtain ⟨y, rest⟩ := p; simp only [hr, Except.ok.injEq] at hx; exact ⟨rest, by rw [hx]⟩
  have hi' : (gets.map fun g => (g.1, g.2.loaded utf8))[i]? = some (c, st.loaded utf8) := by
    rw [List.getElem?_map, hi]; rfl
  rcases C36_origin Item.size cacheBytes _ s as h i c _ a called hi' ha with
    ⟨-, rfl⟩ | ⟨-, j, -, load', v, hj, hv, rfl⟩
  · refine ⟨fun x hx => ?_, fun e' hx => ?_, fun hx => ?_⟩
    · refine hread (c, st) (List.mem_of_getElem? hi) c x (Store.loaded_object.1 ?_)
      cases hl : st.loaded utf8 c <;> rw [hl] at hx <;> cases hx
      rfl
    · unfold Store.loaded at hx
      cases hl : st.retrieve utf8 c with
      | ok y => rw [hl] at hx; cases hx
      | error e => cases e <;> rw [hl] at hx <;> cases hx <;> rfl
    · unfold Store.loaded at hx
      cases hl : st.retrieve utf8 c with
      | ok y => rw [hl] at hx; cases hx
      | error e => cases e <;> rw [hl] at hx <;> cases hx
  · refine ⟨fun x hx => ?_, fun _ hx => (nomatch hx), fun hx => (nomatch hx)⟩
    cases hx
    rw [List.getElem?_map] at hj
    cases hg : gets[j]? with
    | none => rw [hg] at hj; cases hj
    | some g =>
      rw [hg] at hj
      cases hj
      exact hread g (List.mem_of_getElem? hg) _ _ (Store.loaded_object.1 hv)

/-- C50 for tasks that read at the same time, in any order of their steps, as long as none is dropped:
every object that is read is the one stored under the identifier, and if all objects asked for are in the
store all the time and can be read, every task that comes back has read its object. -/
theorem C50_tasks (content : Cid → List Byte) (stores : Store → Prop)
    (hst : ∀ st, stores st → ∀ c b, st c = some b → b = content c) (cacheBytes : Nat) (cids : List Cid)
    (es : List (Event Item)) (hes : NoDrop es)
    (hP : Allowed (fun c r => ∃ st, stores st ∧ r = st.loaded utf8 c) cids es) (s : State Cid Item)
    (hs : (State.init cacheBytes cids).steps Item.size es = some s) (t : Nat) (c : Cid)
    (a : Answer Item) (ht : s.tasks[t]? = some (.done c a)) :
    cids[t]? = some c ∧ a ≠ .panic ∧
    (∀ x, a = .ok x → ∃ rest, Item.read utf8 c (content c) = .ok (x, rest)) ∧
    (∀ x rest, (∀ st, stores st → st c = some (content c)) →
      Item.read utf8 c (content c) = .ok (x, rest) → a = .ok x) := by
  obtain ⟨h1, r, ⟨st, hst1, rfl⟩, hr, ha⟩ := C37_answers _ Item.size cacheBytes cids es hes hP s hs t c a ht
  refine ⟨h1, ?_, fun x hx => ?_, fun x rest hall hx => ?_⟩
  · rintro rfl
    unfold Store.loaded at ha hr
    cases hl : st.retrieve utf8 c with
    | ok y => simp [hl, Loaded.answer, Loaded.outcome, Outcome.answer] at ha
    | error e => cases e <;> simp [hl, Loaded.answer, Loaded.outcome, Outcome.answer] at ha hr
  · have hl : st.retrieve utf8 c = .ok x := by
      refine Store.loaded_object.1 ?_
      subst hx
      cases hl : st.loaded utf8 c <;>
        simp [hl, Loaded.answer, Loaded.outcome, Outcome.answer] at ha
      rw [ha]
    unfold Store.retrieve at hl
    cases hb : st c with
    | none => rw [hb] at hl; cases hl
    | some b =>
      rw [hb] at hl
      rw [← hst st hst1 c b hb]
      cases hr : Item.read utf8 c b with
      | error e => simp [hr] at hl
      | ok p => obtain ⟨y, rest⟩ := p; simp only [hr, Except.ok.injEq] at hl; exact ⟨rest, by rw [hl]⟩
  · have hl : st.loaded utf8 c = .object x := by
      refine Store.loaded_object.2 ?_
      unfold Store.retrieve
      rw [hall st hst1]
      simp only [hx]
    rw [hl] at ha
    rcases ha with rfl | rfl <;> rfl

end

/-- C50 for the links that a superchunk keeps: if `get_links` gives no other links than `l` (which C50
shows for the resolver), then neither does `external`; and a failure is one of `get_links` at that
time. -/
theorem C50_links (l : Links) (calls : List (Bool × Except Fail Links))
    (h : ∀ c ∈ calls, ∀ l', c.2 = .ok l' → l' = l) (i : Nat) (alive : Bool) (fetched a : Except Fail Links)
    (hi : calls[i]? = some (alive, fetched)) (ha : (externals none calls)[i]? = some a) :
    (a = .ok l ∨ a = fetched) ∧ (fetched = .ok l → a = .ok l) := by
  suffices A : ∀ memo, (∀ l', memo = some l' → l' = l) → (externals memo calls)[i]? = some a →
      (a = .ok l ∨ a = fetched) ∧ (fetched = .ok l → a = .ok l) from A none (by simp) ha
  clear ha
  induction calls generalizing i with
  | nil => simp at hi
  | cons c calls ih =>
    obtain ⟨alive', fetched'⟩ := c
    intro memo hm ha
    have h0 : ∀ l', fetched' = .ok l' → l' = l := fun l' hl => h _ (List.mem_cons_self ..) l' hl
    have h1 : ∀ l', (external memo alive' fetched').2 = some l' → l' = l := by
      intro l' hl
      unfold external at hl
      cases memo <;> cases alive' <;> cases fetched' <;> simp at hl hm h0 <;> simp_all
    cases i with
    | zero =>
      simp only [externals, List.getElem?_cons_zero, Option.some.injEq, Prod.mk.injEq] at hi ha
      obtain ⟨rfl, rfl⟩ := hi
      subst ha
      unfold external
      cases memo <;> cases alive' <;> cases fetched' <;> simp at hm h0 ⊢ <;> simp_all
    | succ i =>
      simp only [externals, List.getElem?_cons_succ] at hi ha
      exact ih (fun c hc => h c (List.mem_cons_of_mem _ hc)) i hi _ h1 ha

/-! ### Examples -/

/-- Some links. -/
def cachedLinks : Item := .links ⟨[exampleHash.cidOf [], exampleHash.cidOf [1]]⟩

/-- Savings and readings, some of which fail. -/
def cachedCalls : List Call :=
  [.getLinks (exampleHash.cidOf cachedLinks.bytes), .save cachedLinks,
    .getLinks (exampleHash.cidOf cachedLinks.bytes), .getLinks (exampleHash.cidOf cachedLinks.bytes),
    .save (.dataset exampleDataset), .getDataset (exampleHash.cidOf (Item.dataset exampleDataset).bytes),
    .getDataset (exampleHash.cidOf cachedLinks.bytes), .getLinks (exampleHash.cidOf cachedLinks.bytes)]

/-- What kind of reply it is. -/
def Reply.kind : Reply → Nat
  | .saved _ => 0
  | .dataset _ => 1
  | .links _ => 2
  | .struct _ => 3
  | .failed (.err _) => 4
  | .failed .panic => 5

/-- The hypothesis of `C50_transparent`. -/
example : (Spec.afterAll [] cachedCalls).NoCollision exampleHash := by
  unfold Saved.NoCollision; decide +kernel

/-- The replies: the first reading fails, and so does the reading of links as a data set; the others
find what was saved. Five of the eight calls read the store without a cache, two with it. -/
example : ((Resolver.new [] 1000).calls (fun _ => true) exampleHash cachedCalls).map
      (fun p => (p.2.map Reply.kind, p.1.entries.map.length)) = some ([4, 0, 2, 2, 0, 1, 5, 2], 2) := by
  decide +kernel

/-- An object that cannot be read, because the store was given other bytes: the second reading of it is
not answered. -/
example : ((Resolver.new [[1, 2, 3]] 1000).calls (fun _ => true) exampleHash
      (cachedCalls.take 3 ++ [.getLinks (exampleHash.cidOf [1, 2, 3]),
        .getLinks (exampleHash.cidOf [1, 2, 3]), .save cachedLinks])).map
      (fun p => p.2.map Reply.kind) = some [4, 0, 2, 5] := by
  decide +kernel

/-- `C50_content`: the links are found, vanish from the store, are still in the cache, and in a cache too
small for them are missed. -/
def cachedStore : Store := Saved.load exampleHash [cachedLinks.bytes]

example : ∀ n ∈ [1000, 0], ((Entries.new n).gets Item.size
      ([(exampleHash.cidOf cachedLinks.bytes, cachedStore), (exampleHash.cidOf cachedLinks.bytes, fun _ => none)].map
        fun g => (g.1, g.2.loaded fun _ => true))).map
      (fun p => p.2.map fun a => (match a.1 with | .ok _ => true | _ => false, a.2)) =
    if n = 0 then some [(true, true), (false, true)] else some [(true, true), (true, false)] := by
  decide +kernel

/-- `C50_links`: kept, lost and fetched again, lost and not found. -/
example : externals none [(false, .error (.err .io)), (true, .ok ⟨[]⟩), (true, .error (.err .io)),
    (false, .ok ⟨[]⟩), (false, .error .panic), (false, .error (.err .load))] =
    [.error (.err .io), .ok ⟨[]⟩, .ok ⟨[]⟩, .ok ⟨[]⟩, .error .panic, .error (.err .load)] := by rfl

end Verif
