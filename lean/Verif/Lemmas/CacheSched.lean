import Verif.Lemmas.CacheTasks
import Mathlib.Algebra.BigOperators.Group.List.Basic
import Mathlib.Data.List.Dedup

/-!
Several tasks that share one cache: answers, progress, and schedules in which a task that has found
nothing asks for the loader at once.
-/
namespace Verif.Cache

/-- The key that a task asks for. -/
def Task.key {K V : Type} : Task K V → K
  | .start k => k
  | .missed k => k
  | .loading k _ => k
  | .loaded k _ _ => k
  | .finishing k _ _ => k
  | .stored k _ _ => k
  | .finished k _ _ => k
  | .waiting k _ => k
  | .parked k _ => k
  | .done k _ => k
  | .died k _ => k
  | .dropped k _ => k

section
variable {K V : Type} [DecidableEq K]

/-! ### What is in the map -/

/-- Every entry is under its own key and has an object that is good for it. -/
def Good (G : K → V → Prop) (m : Map K (Entry K V)) : Prop :=
  ∀ k e, Map.find m k = some e → e.key = k ∧ G k e.object

theorem Good.erase {G : K → V → Prop} {m : Map K (Entry K V)} (h : Good G m) (k : K) :
    Good G (Map.erase m k) := by
  intro k' e he
  rw [Map.find_erase] at he
  by_cases hk : k' = k
  · simp [hk] at he
  · rw [if_neg hk] at he; exact h _ _ he

theorem Good.put {G : K → V → Prop} {m : Map K (Entry K V)} (h : Good G m) {k : K} {e : Entry K V}
    (h1 : e.key = k) (h2 : G k e.object) : Good G (Map.put m k e) := by
  intro k' e' he
  rw [Map.find_put] at he
  by_cases hk : k' = k
  · rw [if_pos hk] at he
    cases he
    rw [hk]
    exact ⟨h1, h2⟩
  · rw [if_neg hk] at he; exact h _ _ he

theorem Good.relink {G : K → V → Prop} {m m' : Map K (Entry K V)} (h : Good G m) {k : Option K}
    {f : Entry K V → Entry K V} (hf : ∀ e, (f e).key = e.key ∧ (f e).object = e.object)
    (hr : Entries.relink m k f = some m') : Good G m' := by
  unfold Entries.relink at hr
  cases k with
  | none => cases hr; exact h
  | some k =>
    cases hfind : Map.find m k with
    | none => simp [hfind] at hr
    | some e =>
      simp only [hfind, Option.some.injEq] at hr
      subst hr
      obtain ⟨h1, h2⟩ := h _ _ hfind
      exact (h.erase k).put (by rw [(hf e).1, h1]) (by rw [(hf e).2]; exact h2)

theorem Good.push {G : K → V → Prop} {s s' : Entries K V} (h : Good G s.map) {e : Entry K V}
    (he : G e.key e.object) (hp : s.push e = some s') : Good G s'.map := by
  unfold Entries.push at hp
  cases hm : s.most with
  | none =>
    simp only [hm, Option.some.injEq] at hp
    subst hp
    exact h.put rfl he
  | some k =>
    simp only [hm] at hp
    by_cases hk : k = e.key
    · simp only [if_pos hk, Option.some.injEq] at hp
      subst hp
      exact h
    · simp only [if_neg hk] at hp
      cases hf : Map.find s.map k with
      | none => simp [hf] at hp
      | some old =>
        simp only [hf, Option.some.injEq] at hp
        subst hp
        obtain ⟨h1, h2⟩ := h _ _ hf
        exact ((h.erase k).put (k := k) (e := old.update (some e.key) old.less) h1 h2).put
          (e := e.update none (some k)) rfl he

theorem Good.remove {G : K → V → Prop} {s s' : Entries K V} (h : Good G s.map) {k : K}
    {o : Option (Entry K V)} (hr : s.remove k = some (s', o)) :
    Good G s'.map ∧ ∀ e, o = some e → e.key = k ∧ G k e.object := by
  unfold Entries.remove at hr
  cases hf : Map.find s.map k with
  | none =>
    simp only [hf, Option.some.injEq, Prod.mk.injEq] at hr
    obtain ⟨rfl, rfl⟩ := hr
    exact ⟨h, by simp⟩
  | some e =>
    simp only [hf] at hr
    cases hm : s.most with
    | none => simp [hm] at hr
    | some most =>
      cases hl : s.least with
      | none => simp [hm, hl] at hr
      | some least =>
        simp only [hm, hl] at hr
        cases h1 : Entries.relink (Map.erase s.map k) e.less (fun n => n.update e.more n.less) with
        | none => simp [h1] at hr
        | some m1 =>
          simp only [h1] at hr
          cases h2 : Entries.relink m1 e.more (fun n => n.update n.more e.less) with
          | none => simp [h2] at hr
          | some m2 =>
            simp only [h2, Option.some.injEq, Prod.mk.injEq] at hr
            obtain ⟨rfl, rfl⟩ := hr
            have g1 : Good G m1 := Good.relink (h.erase k)
              (f := fun n => n.update e.more n.less) (fun _ => ⟨rfl, rfl⟩) h1
            have g2 : Good G m2 := Good.relink g1
              (f := fun n => n.update n.more e.less) (fun _ => ⟨rfl, rfl⟩) h2
            refine ⟨g2, ?_⟩
            intro e' he'
            cases he'
            exact h _ _ hf

theorem Good.lookup {G : K → V → Prop} {s s' : Entries K V} (h : Good G s.map) {k : K}
    {o : Option V} (hr : s.lookup k = some (s', o)) :
    Good G s'.map ∧ ∀ v, o = some v → G k v := by
  unfold Entries.lookup at hr
  cases h1 : s.remove k with
  | none => simp [h1] at hr
  | some p =>
    obtain ⟨s1, oe⟩ := p
    obtain ⟨hg, he⟩ := h.remove h1
    cases oe with
    | none =>
      simp only [h1, Option.some.injEq, Prod.mk.injEq] at hr
      obtain ⟨rfl, rfl⟩ := hr
      exact ⟨hg, by simp⟩
    | some e =>
      obtain ⟨hk, hge⟩ := he e rfl
      simp only [h1] at hr
      cases h2 : s1.push e with
      | none => simp [h2] at hr
      | some s2 =>
        simp only [h2, Option.some.injEq, Prod.mk.injEq] at hr
        obtain ⟨rfl, rfl⟩ := hr
        refine ⟨hg.push (by rw [hk]; exact hge) h2, ?_⟩
        intro v hv
        cases hv
        exact hge

theorem Good.evict {G : K → V → Prop} (n : Nat) {s s' : Entries K V} (h : Good G s.map)
    (hr : s.evict n = some s') : Good G s'.map := by
  induction n generalizing s with
  | zero => simp [Entries.evict] at hr
  | succ n ih =>
    unfold Entries.evict at hr
    by_cases hle : s.size ≤ s.limit
    · simp only [if_pos hle, Option.some.injEq] at hr
      subst hr
      exact h
    · simp only [if_neg hle] at hr
      cases hl : s.least with
      | none => simp [hl] at hr
      | some k =>
        simp only [hl] at hr
        cases h1 : s.remove k with
        | none => simp [h1] at hr
        | some p =>
          obtain ⟨s1, oe⟩ := p
          cases oe with
          | none => simp [h1] at hr
          | some e =>
            simp only [h1] at hr
            by_cases hsz : e.size ≤ s1.size
            · rw [if_pos hsz] at hr
              exact ih (s := { s1 with size := s1.size - e.size }) (h.remove h1).1 hr
            · rw [if_neg hsz] at hr
              exact nomatch hr

theorem Good.insert {G : K → V → Prop} {size : V → Nat} {s s' : Entries K V} (h : Good G s.map)
    {k : K} {v : V} (hv : G k v) (hr : s.insert size k v = some s') : Good G s'.map := by
  unfold Entries.insert at hr
  simp only at hr
  cases h1 : Entries.push { s with size := s.size + (Entry.new size k v).size }
      (Entry.new size k v) with
  | none => simp [h1] at hr
  | some s1 =>
    simp only [h1] at hr
    have : Good G s1.map := Good.push (s := { s with size := s.size + (Entry.new size k v).size })
      h (e := Entry.new size k v) hv h1
    exact this.evict _ hr

/-! ### Answers -/

/-- An answer that a call of `load` accounts for. -/
def Fine (P : K → Loaded V → Prop) (k : K) (a : Answer V) : Prop :=
  ∃ r, P k r ∧ r ≠ .panic ∧ (a = r.answer ∨ a = r.outcome.answer)

/-- What a task knows is accounted for. `κ` is the key of each loader. -/
def Task.Fine (P : K → Loaded V → Prop) (κ : Nat → K) : Task K V → Prop
  | .loading k l => κ l = k
  | .loaded k l v => κ l = k ∧ P k (.object v)
  | .finishing k l r => κ l = k ∧ P k r ∧ r ≠ .panic
  | .stored k l r => κ l = k ∧ P k r ∧ r ≠ .panic
  | .finished k l r => κ l = k ∧ P k r ∧ r ≠ .panic
  | .waiting k l => κ l = k
  | .parked k l => κ l = k
  | .done k a => Verif.Cache.Fine P k a
  | .died k (some l) => κ l = k
  | _ => True

/-- Everything that is known is accounted for. -/
structure AllFine (P : K → Loaded V → Prop) (keys : List K) (s : State K V) (κ : Nat → K) : Prop where
  entries : Good (fun k v => P k (.object v)) s.entries.map
  loaders : ∀ k l, Map.find s.loaders k = some l → κ l = k
  object : ∀ l ld o, s.heap[l]? = some ld → ld.object = some o →
    ∃ r, P (κ l) r ∧ r ≠ .panic ∧ r.outcome = o
  keyed : ∀ t : Nat, (s.tasks[t]?).map Task.key = keys[t]?
  task : ∀ (t : Nat) task, s.tasks[t]? = some task → task.Fine P κ

theorem tasks_set {tasks : List (Task K V)} {t : Nat} (task : Task K V) (h : t < tasks.length)
    (t' : Nat) : (tasks.set t task)[t']? = if t' = t then some task else tasks[t']? := by
  by_cases ht : t' = t
  · subst ht; simp [h]
  · rw [if_neg ht, List.getElem?_set_ne (Ne.symm ht)]

/-- Only the task `t` has moved; the entries may have changed. -/
theorem AllFine.move {P : K → Loaded V → Prop} {keys : List K} {s : State K V} {κ : Nat → K}
    (h : AllFine P keys s κ) {t : Nat} {old : Task K V} (ht : s.tasks[t]? = some old)
    {e : Entries K V} (he : Good (fun k v => P k (.object v)) e.map) {task : Task K V}
    (hk : task.key = old.key) (hf : task.Fine P κ) :
    AllFine P keys ({ s with entries := e }.goto t task) κ := by
  have hlt := State.lt_of_task ht
  refine ⟨he, h.loaders, h.object, ?_, ?_⟩
  · intro t'
    simp only [State.goto, tasks_set task hlt]
    by_cases h' : t' = t
    · subst h'
      rw [if_pos rfl, ← h.keyed t', ht]
      simp [hk]
    · rw [if_neg h']; exact h.keyed t'
  · intro t' task' h'
    simp only [State.goto, tasks_set task hlt] at h'
    by_cases hh : t' = t
    · rw [if_pos hh] at h'; cases h'; exact hf
    · rw [if_neg hh] at h'; exact h.task _ _ h'

theorem Core.Inv.known {s : State K V} (h : s.core.Inv) {t : Nat} {task : Task K V}
    (ht : s.tasks[t]? = some task) {l : Nat}
    (hl : (∃ k p, task.role = .own k l p) ∨ task.role = .wait l ∨ task.role = .park l) :
    ∃ ld, s.heap[l]? = some ld := by
  have hrole : s.core.role t = task.role := State.role_eq ht
  rcases hl with ⟨k, p, hl⟩ | hl | hl
  · obtain ⟨-, ld, hld, -⟩ := h.own t k l p (by rw [hrole, hl])
    exact ⟨ld, hld⟩
  · exact h.wait t l (by rw [hrole, hl])
  · obtain ⟨ld, hld, -⟩ := h.parked t l (by rw [hrole, hl])
    exact ⟨ld, hld⟩

theorem State.run_fine (P : K → Loaded V → Prop) (keys : List K) (size : V → Nat)
    (s s' : State K V) (κ : Nat → K) (t : Nat) (r : Loaded V) (hinv : s.core.Inv)
    (h : AllFine P keys s κ) (hr : ∀ k, keys[t]? = some k → P k r)
    (hs : s.run size t r = some s') : ∃ κ', AllFine P keys s' κ' := by
  unfold State.run at hs
  cases ht : s.tasks[t]? with
  | none => simp [ht] at hs
  | some task =>
    have hlt := State.lt_of_task ht
    have hrole : s.core.role t = task.role := State.role_eq ht
    have htask := h.task t task ht
    have hkey : keys[t]? = some task.key := by rw [← h.keyed t, ht]; rfl
    have hPr : P task.key r := hr _ hkey
    cases task with
    | start k =>
      simp only [ht] at hs
      cases hl : s.entries.lookup k with
      | none =>
        simp only [hl, Option.some.injEq] at hs
        subst hs
        exact ⟨κ, h.move ht h.entries rfl trivial⟩
      | some p =>
        obtain ⟨e, o⟩ := p
        obtain ⟨hg, hv⟩ := h.entries.lookup hl
        cases o with
        | some v =>
          simp only [hl, Option.some.injEq] at hs
          subst hs
          exact ⟨κ, h.move ht hg rfl ⟨.object v, hv v rfl, by simp, .inl rfl⟩⟩
        | none =>
          simp only [hl, Option.some.injEq] at hs
          subst hs
          exact ⟨κ, h.move ht hg rfl trivial⟩
    | missed k =>
      simp only [ht] at hs
      cases hl : Map.find s.loaders k with
      | some l =>
        simp only [hl, Option.some.injEq] at hs
        subst hs
        exact ⟨κ, h.move ht h.entries rfl (h.loaders k l hl)⟩
      | none =>
        simp only [hl, Option.some.injEq] at hs
        subst hs
        refine ⟨fun l => if l = s.heap.length then k else κ l, ?_⟩
        have hlen : ∀ l ld, s.heap[l]? = some ld → l ≠ s.heap.length := by
          rintro l ld hl rfl
          simp at hl
        refine ⟨h.entries, ?_, ?_, ?_, ?_⟩
        · intro k' l hk'
          simp only [State.goto, Map.find_put] at hk'
          by_cases hkk : k' = k
          · rw [if_pos hkk] at hk'
            cases hk'
            simp [hkk]
          · rw [if_neg hkk] at hk'
            obtain ⟨t0, p0, h0⟩ := hinv.owned k' l hk'
            obtain ⟨-, ld, hld, -⟩ := hinv.own _ _ _ _ h0
            rw [if_neg (hlen l ld hld)]
            exact h.loaders _ _ hk'
        · intro l ld o hld ho
          simp only [State.goto] at hld
          rcases Nat.lt_or_ge l s.heap.length with hl' | hl'
          · rw [List.getElem?_append_left hl'] at hld
            rw [if_neg (by omega)]
            exact h.object l ld o hld ho
          · rw [List.getElem?_append_right hl'] at hld
            cases hd : l - s.heap.length with
            | zero => simp only [hd, List.getElem?_cons_zero, Option.some.injEq] at hld; subst hld; simp at ho
            | succ n => simp [hd] at hld
        · intro t'
          simp only [State.goto, tasks_set _ hlt]
          by_cases h' : t' = t
          · subst h'
            rw [if_pos rfl, hkey]
            rfl
          · rw [if_neg h']; exact h.keyed t'
        · intro t' task' h'
          simp only [State.goto, tasks_set _ hlt] at h'
          by_cases hh : t' = t
          · rw [if_pos hh] at h'; cases h'; simp [Task.Fine]
          · rw [if_neg hh] at h'
            have hf := h.task _ _ h'
            have hkn := fun l => hinv.known h' (l := l)
            have hne : ∀ l, ((∃ k p, task'.role = .own k l p) ∨ task'.role = .wait l ∨
                task'.role = .park l) → (if l = s.heap.length then k else κ l) = κ l := by
              intro l hl'
              obtain ⟨ld, hld⟩ := hkn l hl'
              rw [if_neg (hlen l ld hld)]
            cases task' with
            | start _ => trivial
            | missed _ => trivial
            | loading _ l => simp only [Task.Fine, hne l (.inl ⟨_, _, rfl⟩)] at hf ⊢; exact hf
            | loaded _ l _ => simp only [Task.Fine, hne l (.inl ⟨_, _, rfl⟩)] at hf ⊢; exact hf
            | finishing _ l _ => simp only [Task.Fine, hne l (.inl ⟨_, _, rfl⟩)] at hf ⊢; exact hf
            | stored _ l _ => simp only [Task.Fine, hne l (.inl ⟨_, _, rfl⟩)] at hf ⊢; exact hf
            | finished _ l _ => simp only [Task.Fine, hne l (.inl ⟨_, _, rfl⟩)] at hf ⊢; exact hf
            | waiting _ l => simp only [Task.Fine, hne l (.inr (.inl rfl))] at hf ⊢; exact hf
            | parked _ l => simp only [Task.Fine, hne l (.inr (.inr rfl))] at hf ⊢; exact hf
            | done _ _ => exact hf
            | died _ ol =>
              cases ol with
              | none => trivial
              | some l => simp only [Task.Fine, hne l (.inl ⟨_, _, rfl⟩)] at hf ⊢; exact hf
            | dropped _ _ => trivial
    | loading k l =>
      simp only [ht] at hs
      have hκ : κ l = k := htask
      cases r with
      | object v =>
        simp only [Option.some.injEq] at hs
        subst hs
        exact ⟨κ, h.move ht h.entries rfl ⟨hκ, hPr⟩⟩
      | nothing =>
        simp only [Option.some.injEq] at hs
        subst hs
        exact ⟨κ, h.move ht h.entries rfl ⟨hκ, hPr, by simp⟩⟩
      | error =>
        simp only [Option.some.injEq] at hs
        subst hs
        exact ⟨κ, h.move ht h.entries rfl ⟨hκ, hPr, by simp⟩⟩
      | panic =>
        simp only [Option.some.injEq] at hs
        subst hs
        exact ⟨κ, h.move ht h.entries rfl hκ⟩
    | loaded k l v =>
      simp only [ht] at hs
      obtain ⟨hκ, hv⟩ := htask
      cases hi : s.entries.insert size k v with
      | none =>
        simp only [hi, Option.some.injEq] at hs
        subst hs
        exact ⟨κ, h.move ht h.entries rfl hκ⟩
      | some e =>
        simp only [hi, Option.some.injEq] at hs
        subst hs
        exact ⟨κ, h.move ht (h.entries.insert hv hi) rfl ⟨hκ, hv, by simp⟩⟩
    | finishing k l r' =>
      simp only [ht] at hs
      obtain ⟨hκ, hv, hnp⟩ := htask
      cases hl : s.heap[l]? with
      | none => simp [hl] at hs
      | some ld =>
        simp only [hl, Option.some.injEq] at hs
        subst hs
        have hm := h.move ht h.entries (task := .stored k l r') rfl ⟨hκ, hv, hnp⟩
        refine ⟨κ, hm.entries, hm.loaders, ?_, hm.keyed, hm.task⟩
        intro l' ld' o h1 h2
        simp only [State.goto, heap_set _ _ _ _ _ hl] at h1
        by_cases hl' : l' = l
        · rw [if_pos hl'] at h1
          cases h1
          cases h2
          subst hl'
          exact ⟨r', by rw [hκ]; exact hv, hnp, rfl⟩
        · rw [if_neg hl'] at h1
          exact h.object _ _ _ h1 h2
    | stored k l r' =>
      simp only [ht] at hs
      obtain ⟨hκ, hv, hnp⟩ := htask
      cases hl : s.heap[l]? with
      | none => simp [hl] at hs
      | some ld =>
        have hdr := s.drain_ok r'.outcome ld.waiters s.mail fun t' ht' =>
          State.hungUp_of_park (hinv.waiter l ld t' hl ht').1
        simp only [hl, hdr.1, if_true, Option.some.injEq] at hs
        subst hs
        have hm := h.move ht h.entries (task := .finished k l r') rfl ⟨hκ, hv, hnp⟩
        refine ⟨κ, hm.entries, hm.loaders, ?_, hm.keyed, hm.task⟩
        intro l' ld' o h1 h2
        simp only [State.goto, heap_set _ _ _ _ _ hl] at h1
        by_cases hl' : l' = l
        · rw [if_pos hl'] at h1
          cases h1
          subst hl'
          exact h.object _ _ _ hl h2
        · rw [if_neg hl'] at h1
          exact h.object _ _ _ h1 h2
    | finished k l r' =>
      obtain ⟨hκ, hv, hnp⟩ := htask
      simp only [ht, Option.some.injEq] at hs
      subst hs
      have hm := h.move ht h.entries (task := .done k r'.answer) rfl ⟨r', hv, hnp, .inl rfl⟩
      refine ⟨κ, hm.entries, ?_, hm.object, hm.keyed, hm.task⟩
      intro k' l' hk'
      simp only [State.goto, Map.find_erase] at hk'
      by_cases hkk : k' = k
      · simp [hkk] at hk'
      · rw [if_neg hkk] at hk'; exact h.loaders _ _ hk'
    | waiting k l =>
      have hκ : κ l = k := htask
      simp only [ht] at hs
      cases hl : s.heap[l]? with
      | none => simp [hl] at hs
      | some ld =>
        cases ho : ld.object with
        | some o =>
          simp only [hl, ho, Option.some.injEq] at hs
          subst hs
          obtain ⟨r', h1, h2, h3⟩ := h.object l ld o hl ho
          exact ⟨κ, h.move ht h.entries rfl ⟨r', by rw [← hκ]; exact h1, h2, .inr (by rw [h3])⟩⟩
        | none =>
          simp only [hl, ho, Option.some.injEq] at hs
          subst hs
          have hm := h.move ht h.entries (task := .parked k l) rfl hκ
          refine ⟨κ, hm.entries, hm.loaders, ?_, hm.keyed, hm.task⟩
          intro l' ld' o h1 h2
          simp only [State.goto, heap_set _ _ _ _ _ hl] at h1
          by_cases hl' : l' = l
          · rw [if_pos hl'] at h1
            cases h1
            exact nomatch h2
          · rw [if_neg hl'] at h1
            exact h.object _ _ _ h1 h2
    | parked k l =>
      have hκ : κ l = k := htask
      simp only [ht] at hs
      obtain ⟨ld, hld, hpk⟩ := hinv.parked t l hrole
      cases hm : Map.find s.mail t with
      | none => simp [hm] at hs
      | some m =>
        have hm' : s.core.mail t = some m := hm
        rcases hpk with ⟨hno, -⟩ | ⟨o, hsent, ho, -⟩
        · rw [hm'] at hno; exact nomatch hno
        · rw [hm'] at hsent
          cases hsent
          simp only [hm, Option.some.injEq] at hs
          subst hs
          obtain ⟨r', h1, h2, h3⟩ := h.object l ld o hld ho
          exact ⟨κ, h.move ht h.entries rfl ⟨r', by rw [← hκ]; exact h1, h2, .inr (by rw [h3])⟩⟩
    | done k a => simp [ht] at hs
    | died k l => simp [ht] at hs
    | dropped k l => simp [ht] at hs

/-- What `load` comes back with during the schedule. -/
def Allowed (P : K → Loaded V → Prop) (keys : List K) (es : List (Event V)) : Prop :=
  ∀ (t : Nat) r k, Event.run t r ∈ es → keys[t]? = some k → P k r

theorem State.steps_fine (P : K → Loaded V → Prop) (keys : List K) (size : V → Nat)
    (es : List (Event V)) (hes : NoDrop es) (hP : Allowed P keys es) (s s' : State K V) (κ : Nat → K)
    (hinv : s.core.Inv) (h : AllFine P keys s κ) (hs : s.steps size es = some s') :
    ∃ κ', AllFine P keys s' κ' := by
  induction es generalizing s κ with
  | nil => cases hs; exact ⟨κ, h⟩
  | cons e es ih =>
    obtain ⟨t, r, rfl⟩ := hes e (by simp)
    simp only [State.steps, State.step] at hs
    cases hr : s.run size t r with
    | none => simp [hr] at hs
    | some s1 =>
      simp only [hr] at hs
      obtain ⟨κ1, h1⟩ := s.run_fine P keys size s1 κ t r hinv h (fun k hk => hP t r k (by simp) hk) hr
      exact ih (fun e he => hes e (List.mem_cons_of_mem _ he))
        (fun t r k he hk => hP t r k (List.mem_cons_of_mem _ he) hk) s1 κ1
        (s.run_inv size s1 t r hinv hr) h1 hs

theorem State.init_fine [Nonempty K] (P : K → Loaded V → Prop) (limit : Nat) (keys : List K) :
    ∃ κ, AllFine P keys (State.init limit keys : State K V) κ := by
  refine ⟨fun _ => Classical.choice inferInstance, ?_, ?_, ?_, ?_, ?_⟩
  · intro k e h; simp [State.init, Entries.new, Map.find] at h
  · intro k l h; simp [State.init, Map.find] at h
  · intro l ld o h; simp [State.init] at h
  · intro t
    simp only [State.init, List.getElem?_map, Option.map_map]
    cases keys[t]? <;> rfl
  · intro t task h
    simp only [State.init, List.getElem?_map] at h
    cases hk : keys[t]? with
    | none => simp [hk] at h
    | some k =>
      simp only [hk, Option.map_some, Option.some.injEq] at h
      subst h
      trivial

/-! ### Progress -/

/-- How many steps a task may still do. -/
def Task.left : Task K V → Nat
  | .start _ => 7
  | .missed _ => 6
  | .loading _ _ => 5
  | .loaded _ _ _ => 4
  | .finishing _ _ _ => 3
  | .stored _ _ _ => 2
  | .finished _ _ _ => 1
  | .waiting _ _ => 2
  | .parked _ _ => 1
  | .done _ _ => 0
  | .died _ _ => 0
  | .dropped _ _ => 0

def State.left (s : State K V) : Nat := (s.tasks.map Task.left).sum

theorem sum_set (tasks : List (Task K V)) (t : Nat) (old task : Task K V)
    (h : tasks[t]? = some old) (hlt : task.left < old.left) :
    ((tasks.set t task).map Task.left).sum < (tasks.map Task.left).sum := by
  induction tasks generalizing t with
  | nil => simp at h
  | cons x xs ih =>
    cases t with
    | zero =>
      simp only [List.getElem?_cons_zero, Option.some.injEq] at h
      subst h
      simp only [List.set_cons_zero, List.map_cons, List.sum_cons]
      omega
    | succ t =>
      simp only [List.getElem?_cons_succ] at h
      have := ih t h
      simp only [List.set_cons_succ, List.map_cons, List.sum_cons]
      omega

theorem State.run_left (size : V → Nat) (s s' : State K V) (t : Nat) (r : Loaded V)
    (hs : s.run size t r = some s') : s'.left < s.left := by
  unfold State.run at hs
  cases ht : s.tasks[t]? with
  | none => simp [ht] at hs
  | some task =>
    have key : ∀ (s0 : State K V) task', s0.tasks = s.tasks → task'.left < task.left →
        (s0.goto t task').left < s.left := by
      intro s0 task' h0 hlt
      simp only [State.left, State.goto, h0]
      exact sum_set _ _ _ _ ht hlt
    cases task with
    | start k =>
      simp only [ht] at hs
      cases hl : s.entries.lookup k with
      | none => simp only [hl, Option.some.injEq] at hs; subst hs; exact key _ _ rfl (by simp [Task.left])
      | some p =>
        obtain ⟨e, o⟩ := p
        cases o <;> simp only [hl, Option.some.injEq] at hs <;> subst hs <;>
          exact key _ _ rfl (by simp [Task.left])
    | missed k =>
      simp only [ht] at hs
      cases hl : Map.find s.loaders k <;> simp only [hl, Option.some.injEq] at hs <;> subst hs <;>
          exact key _ _ rfl (by simp [Task.left])
    | loading k l =>
      simp only [ht] at hs
      cases r <;> simp only [Option.some.injEq] at hs <;> subst hs <;>
          exact key _ _ rfl (by simp [Task.left])
    | loaded k l v =>
      simp only [ht] at hs
      cases hi : s.entries.insert size k v <;> simp only [hi, Option.some.injEq] at hs <;> subst hs <;>
          exact key _ _ rfl (by simp [Task.left])
    | finishing k l r' =>
      simp only [ht] at hs
      cases hl : s.heap[l]? with
      | none => simp [hl] at hs
      | some ld => simp only [hl, Option.some.injEq] at hs; subst hs; exact key _ _ rfl (by simp [Task.left])
    | stored k l r' =>
      simp only [ht] at hs
      cases hl : s.heap[l]? with
      | none => simp [hl] at hs
      | some ld =>
        simp only [hl, Option.some.injEq] at hs
        subst hs
        refine key _ _ rfl ?_
        by_cases hd : (s.drain r'.outcome s.mail ld.waiters).2 = true <;> simp [hd, Task.left]
    | finished k l r' => simp only [ht, Option.some.injEq] at hs; subst hs; exact key _ _ rfl (by simp [Task.left])
    | waiting k l =>
      simp only [ht] at hs
      cases hl : s.heap[l]? with
      | none => simp [hl] at hs
      | some ld =>
        cases ho : ld.object <;> simp only [hl, ho, Option.some.injEq] at hs <;> subst hs <;>
          exact key _ _ rfl (by simp [Task.left])
    | parked k l =>
      simp only [ht] at hs
      cases hm : Map.find s.mail t with
      | none => simp [hm] at hs
      | some m =>
        cases m <;> simp only [hm, Option.some.injEq] at hs <;> subst hs <;>
          exact key _ _ rfl (by simp [Task.left])
    | done k a => simp [ht] at hs
    | died k l => simp [ht] at hs
    | dropped k l => simp [ht] at hs

theorem State.steps_left (size : V → Nat) (es : List (Event V)) (hes : NoDrop es) (s s' : State K V)
    (hs : s.steps size es = some s') : es.length + s'.left ≤ s.left := by
  induction es generalizing s with
  | nil => cases hs; simp
  | cons e es ih =>
    obtain ⟨t, r, rfl⟩ := hes e (by simp)
    simp only [State.steps, State.step] at hs
    cases hr : s.run size t r with
    | none => simp [hr] at hs
    | some s1 =>
      simp only [hr] at hs
      have h1 := ih (fun e he => hes e (List.mem_cons_of_mem _ he)) s1 hs
      have h2 := s.run_left size s1 t r hr
      simp only [List.length_cons]
      omega

/-- The task is not waiting for anything and has not ended. -/
def State.Ready (s : State K V) (t : Nat) : Task K V → Prop
  | .done _ _ => False
  | .died _ _ => False
  | .dropped _ _ => False
  | .parked _ _ => ∃ m, Map.find s.mail t = some m
  | _ => True

/-- A task that has an owner's role or has been told something can go on. -/
theorem State.can_run (size : V → Nat) (s : State K V) (hinv : s.core.Inv) (t : Nat) (r : Loaded V)
    (task : Task K V) (ht : s.tasks[t]? = some task)
    (hgo : s.Ready t task) : ∃ s', s.run size t r = some s' := by
  unfold State.run
  simp only [ht]
  cases task with
  | start k =>
    simp only
    cases hl : s.entries.lookup k with
    | none => exact ⟨_, rfl⟩
    | some p =>
      obtain ⟨e, o⟩ := p
      cases o <;> exact ⟨_, rfl⟩
  | missed k =>
    simp only
    cases Map.find s.loaders k <;> exact ⟨_, rfl⟩
  | loading k l => cases r <;> exact ⟨_, rfl⟩
  | loaded k l v =>
    simp only
    cases s.entries.insert size k v <;> exact ⟨_, rfl⟩
  | finishing k l r' =>
    obtain ⟨ld, hld⟩ := hinv.known ht (l := l) (.inl ⟨_, _, rfl⟩)
    simp only [hld]
    exact ⟨_, rfl⟩
  | stored k l r' =>
    obtain ⟨ld, hld⟩ := hinv.known ht (l := l) (.inl ⟨_, _, rfl⟩)
    simp only [hld]
    exact ⟨_, rfl⟩
  | finished k l r' => exact ⟨_, rfl⟩
  | waiting k l =>
    obtain ⟨ld, hld⟩ := hinv.known ht (l := l) (.inr (.inl rfl))
    simp only [hld]
    cases ld.object <;> exact ⟨_, rfl⟩
  | parked k l =>
    obtain ⟨m, hm⟩ := hgo
    simp only [hm]
    cases m <;> exact ⟨_, rfl⟩
  | done k a => exact hgo.elim
  | died k l => exact hgo.elim
  | dropped k l => exact hgo.elim

/-- When no task can do a step, all calls have come back. -/
theorem State.all_done (size : V → Nat) (s : State K V) (hinv : s.core.Inv)
    (hdied : ∀ (t : Nat) k l, s.tasks[t]? ≠ some (.died k l))
    (hdrop : ∀ (t : Nat) k l, s.tasks[t]? ≠ some (.dropped k l))
    (hstuck : ∀ t r, s.run size t r = none) (t : Nat) (task : Task K V)
    (ht : s.tasks[t]? = some task) : ∃ k a, task = .done k a := by
  have hno : ∀ (t : Nat) task, s.tasks[t]? = some task → ¬ s.Ready t task := by
    intro t task ht hgo
    obtain ⟨s', hs'⟩ := s.can_run size hinv t (.error .load) task ht hgo
    rw [hstuck] at hs'
    exact nomatch hs'
  cases task with
  | done k a => exact ⟨k, a, rfl⟩
  | died k l => exact absurd ht (hdied t k l)
  | dropped k l => exact absurd ht (hdrop t k l)
  | parked k l =>
    exfalso
    have hrole : s.core.role t = .park l := State.role_eq ht
    obtain ⟨ld, hld, hh⟩ := hinv.parked t l hrole
    rcases hh with ⟨-, hmem⟩ | ⟨o, hm, -⟩
    · rcases hinv.free l ld hld with ⟨t', k', p, hp⟩ | ⟨-, hnil⟩
      · have hp' : s.role t' = .own k' l p := hp
        unfold State.role at hp'
        cases ht' : s.tasks[t']? with
        | none => simp [ht'] at hp'
        | some task' =>
          simp only [ht'] at hp'
          have := hno t' task' ht'
          cases task' with
          | died k l => exact hdied t' _ _ ht'
          | start _ => exact this trivial
          | missed _ => exact this trivial
          | loading _ _ => exact this trivial
          | loaded _ _ _ => exact this trivial
          | finishing _ _ _ => exact this trivial
          | stored _ _ _ => exact this trivial
          | finished _ _ _ => exact this trivial
          | waiting _ _ => exact this trivial
          | parked _ _ => simp [Task.role] at hp'
          | done _ _ => simp [Task.role] at hp'
          | dropped _ _ => simp [Task.role] at hp'
      · rw [hnil] at hmem; simp at hmem
    · exact hno t _ ht ⟨_, hm⟩
  | start _ => exact absurd trivial (hno t _ ht)
  | missed _ => exact absurd trivial (hno t _ ht)
  | loading _ _ => exact absurd trivial (hno t _ ht)
  | loaded _ _ _ => exact absurd trivial (hno t _ ht)
  | finishing _ _ _ => exact absurd trivial (hno t _ ht)
  | stored _ _ _ => exact absurd trivial (hno t _ ht)
  | finished _ _ _ => exact absurd trivial (hno t _ ht)
  | waiting _ _ => exact absurd trivial (hno t _ ht)

theorem State.no_dropped (size : V → Nat) (es : List (Event V)) (hes : NoDrop es) (s s' : State K V)
    (h : ∀ (t : Nat) k l, s.tasks[t]? ≠ some (.dropped k l)) (hs : s.steps size es = some s') :
    ∀ (t : Nat) k l, s'.tasks[t]? ≠ some (.dropped k l) := by
  induction es generalizing s with
  | nil => cases hs; exact h
  | cons e es ih =>
    obtain ⟨t, r, rfl⟩ := hes e (by simp)
    simp only [State.steps, State.step] at hs
    cases hr : s.run size t r with
    | none => simp [hr] at hs
    | some s1 =>
      simp only [hr] at hs
      refine ih (fun e he => hes e (List.mem_cons_of_mem _ he)) s1 ?_ hs
      have key : ∀ (s0 : State K V) task', s0.tasks = s.tasks → (∀ k l, task' ≠ .dropped k l) →
          ∀ (t' : Nat) k l, (s0.goto t task').tasks[t']? ≠ some (.dropped k l) := by
        intro s0 task' h0 hne t' k l
        simp only [State.goto, h0]
        by_cases ht : t' = t
        · subst ht
          rw [List.getElem?_set_self']
          cases hh : s.tasks[t']? with
          | none => simp
          | some x => simp [hne]
        · rw [List.getElem?_set_ne (Ne.symm ht)]
          exact h t' k l
      unfold State.run at hr
      cases ht : s.tasks[t]? with
      | none => simp [ht] at hr
      | some task =>
        cases task with
        | start k =>
          simp only [ht] at hr
          cases hl : s.entries.lookup k with
          | none => simp only [hl, Option.some.injEq] at hr; subst hr; exact key _ _ rfl (by simp)
          | some p =>
            obtain ⟨e, o⟩ := p
            cases o <;> simp only [hl, Option.some.injEq] at hr <;> subst hr <;>
              exact key _ _ rfl (by simp)
        | missed k =>
          simp only [ht] at hr
          cases hl : Map.find s.loaders k <;> simp only [hl, Option.some.injEq] at hr <;> subst hr <;>
              exact key _ _ rfl (by simp)
        | loading k l =>
          simp only [ht] at hr
          cases r <;> simp only [Option.some.injEq] at hr <;> subst hr <;>
              exact key _ _ rfl (by simp)
        | loaded k l v =>
          simp only [ht] at hr
          cases hi : s.entries.insert size k v <;> simp only [hi, Option.some.injEq] at hr <;> subst hr <;>
              exact key _ _ rfl (by simp)
        | finishing k l r' =>
          simp only [ht] at hr
          cases hl : s.heap[l]? with
          | none => simp [hl] at hr
          | some ld => simp only [hl, Option.some.injEq] at hr; subst hr; exact key _ _ rfl (by simp)
        | stored k l r' =>
          simp only [ht] at hr
          cases hl : s.heap[l]? with
          | none => simp [hl] at hr
          | some ld =>
            simp only [hl, Option.some.injEq] at hr
            subst hr
            refine key _ _ rfl ?_
            by_cases hd : (s.drain r'.outcome s.mail ld.waiters).2 = true <;> simp [hd]
        | finished k l r' => simp only [ht, Option.some.injEq] at hr; subst hr; exact key _ _ rfl (by simp)
        | waiting k l =>
          simp only [ht] at hr
          cases hl : s.heap[l]? with
          | none => simp [hl] at hr
          | some ld =>
            cases ho : ld.object <;> simp only [hl, ho, Option.some.injEq] at hr <;> subst hr <;>
              exact key _ _ rfl (by simp)
        | parked k l =>
          simp only [ht] at hr
          cases hm : Map.find s.mail t with
          | none => simp [hm] at hr
          | some m =>
            cases m <;> simp only [hm, Option.some.injEq] at hr <;> subst hr <;>
              exact key _ _ rfl (by simp)
        | done k a => simp [ht] at hr
        | died k l => simp [ht] at hr
        | dropped k l => simp [ht] at hr

/-! ### Schedules without the race -/

/-- The tasks that are going to put the object for a key into the cache, or are about to. -/
def Task.pre : Task K V → Option K
  | .missed k => some k
  | .loading k _ => some k
  | .loaded k _ _ => some k
  | _ => none

/-- A task that has found nothing goes on to ask for the loader before any other task does
anything. This is so when all tasks run on one thread, as the code has no `await` in between. -/
def Atomic (size : V → Nat) : State K V → List (Event V) → Prop
  | _, [] => True
  | s, e :: es => (∀ (t : Nat) k, s.tasks[t]? = some (.missed k) → ∃ r, e = .run t r) ∧
    ∀ s', s.step size e = some s' → Atomic size s' es

/-- Nobody is going to put in what is held already, and nothing has gone wrong. -/
structure Tidy (size : V → Nat) (s : State K V) (held : List (K × V)) : Prop where
  holds : Holds size s.entries held
  pre : ∀ (t : Nat) task k, s.tasks[t]? = some task → task.pre = some k → k ∉ held.map Prod.fst
  alive : ∀ (t : Nat) k l, s.tasks[t]? ≠ some (.died k l)

theorem Tidy.move {size : V → Nat} {s : State K V} {held held' : List (K × V)} {e : Entries K V}
    (h : Tidy size s held) {t : Nat} {old task : Task K V} (ht : s.tasks[t]? = some old)
    (he : Holds size e held')
    (hsub : ∀ (t' : Nat) task' k, t' ≠ t → s.tasks[t']? = some task' → task'.pre = some k →
      k ∈ held'.map Prod.fst → k ∈ held.map Prod.fst)
    (hpre : ∀ k, task.pre = some k → k ∉ held'.map Prod.fst) (hal : ∀ k l, task ≠ .died k l)
    (s0 : State K V) (h0 : s0.tasks = s.tasks) (h1 : s0.entries = e) :
    Tidy size (s0.goto t task) held' := by
  have hlt := State.lt_of_task ht
  refine ⟨by simpa [State.goto, h1] using he, ?_, ?_⟩
  · intro t' task' k h' hp hk
    simp only [State.goto, h0, tasks_set task hlt] at h'
    by_cases hh : t' = t
    · rw [if_pos hh] at h'; cases h'; exact hpre k hp hk
    · rw [if_neg hh] at h'
      exact h.pre t' task' k h' hp (hsub t' task' k hh h' hp hk)
  · intro t' k l h'
    simp only [State.goto, h0, tasks_set task hlt] at h'
    by_cases hh : t' = t
    · rw [if_pos hh] at h'; cases h'; exact hal k l rfl
    · rw [if_neg hh] at h'; exact h.alive t' k l h'

theorem State.run_tidy (size : V → Nat) (s s' : State K V) (t : Nat) (r : Loaded V)
    (held : List (K × V)) (hinv : s.core.Inv) (h : Tidy size s held) (hr : r ≠ .panic)
    (hat : ∀ (t' : Nat) k, s.tasks[t']? = some (.missed k) → t' = t)
    (hs : s.run size t r = some s') :
    ∃ held', Tidy size s' held' ∧ s'.entries.limit = s.entries.limit ∧
      ((s'.calls = s.calls ∧
        (((∀ k l v, s.tasks[t]? ≠ some (.loaded k l v)) ∧
            ∀ k, k ∈ held'.map Prod.fst ↔ k ∈ held.map Prod.fst) ∨
          ∃ k l v gone, s.tasks[t]? = some (.loaded k l v) ∧
            k ∉ held.map Prod.fst ∧ (k, v) :: held = held' ++ gone ∧
            ∀ g gs, gone = g :: gs → s.entries.limit < Cache.total size (held' ++ [g]))) ∨
        (∃ k, s.tasks[t]? = some (.missed k) ∧ s'.calls = k :: s.calls ∧ held' = held ∧
          k ∉ held.map Prod.fst ∧ Map.find s.loaders k = none)) := by
  unfold State.run at hs
  cases ht : s.tasks[t]? with
  | none => simp [ht] at hs
  | some task =>
    cases task with
    | start k =>
      simp only [ht] at hs
      by_cases hk : k ∈ held.map Prod.fst
      · obtain ⟨a, v, b, rfl, ha⟩ := split_key held k hk
        obtain ⟨e, hl, he, hlim⟩ := h.holds.lookup_some
        simp only [hl, Option.some.injEq] at hs
        subst hs
        have hiff : ∀ x, x ∈ ((k, v) :: (a ++ b)).map Prod.fst ↔ x ∈ (a ++ (k, v) :: b).map Prod.fst := by
          intro x
          simp only [List.map_cons, List.map_append, List.mem_cons, List.mem_append]
          tauto
        exact ⟨_, h.move ht he (fun _ _ x _ _ _ hx => (hiff x).1 hx) (by simp [Task.pre]) (by simp)
          _ rfl rfl, hlim, .inl ⟨rfl, .inl ⟨by simp, hiff⟩⟩⟩
      · have hl := h.holds.lookup_none hk
        simp only [hl, Option.some.injEq] at hs
        subst hs
        refine ⟨held, h.move ht h.holds (fun _ _ _ _ _ _ hx => hx) ?_ (by simp) _ rfl rfl, rfl,
          .inl ⟨rfl, .inl ⟨by simp, fun _ => Iff.rfl⟩⟩⟩
        intro k' hk'
        simp only [Task.pre, Option.some.injEq] at hk'
        subst hk'
        exact hk
    | missed k =>
      simp only [ht] at hs
      cases hl : Map.find s.loaders k with
      | some l =>
        simp only [hl, Option.some.injEq] at hs
        subst hs
        exact ⟨held, h.move ht h.holds (fun _ _ _ _ _ _ hx => hx) (by simp [Task.pre]) (by simp) _
          rfl rfl, rfl, .inl ⟨rfl, .inl ⟨by simp, fun _ => Iff.rfl⟩⟩⟩
      | none =>
        simp only [hl, Option.some.injEq] at hs
        subst hs
        have hk := h.pre t _ k ht rfl
        refine ⟨held, h.move ht h.holds (fun _ _ _ _ _ _ hx => hx) ?_ (by simp) _ rfl rfl, rfl,
          .inr ⟨k, rfl, rfl, rfl, hk, hl⟩⟩
        intro k' hk'
        simp only [Task.pre, Option.some.injEq] at hk'
        subst hk'
        exact hk
    | loading k l =>
      simp only [ht] at hs
      have hk := h.pre t _ k ht rfl
      cases r with
      | object v =>
        simp only [Option.some.injEq] at hs
        subst hs
        refine ⟨held, h.move ht h.holds (fun _ _ _ _ _ _ hx => hx) ?_ (by simp) _ rfl rfl, rfl,
          .inl ⟨rfl, .inl ⟨by simp, fun _ => Iff.rfl⟩⟩⟩
        intro k' hk'
        simp only [Task.pre, Option.some.injEq] at hk'
        subst hk'
        exact hk
      | nothing =>
        simp only [Option.some.injEq] at hs
        subst hs
        exact ⟨held, h.move ht h.holds (fun _ _ _ _ _ _ hx => hx) (by simp [Task.pre]) (by simp) _
          rfl rfl, rfl, .inl ⟨rfl, .inl ⟨by simp, fun _ => Iff.rfl⟩⟩⟩
      | error =>
        simp only [Option.some.injEq] at hs
        subst hs
        exact ⟨held, h.move ht h.holds (fun _ _ _ _ _ _ hx => hx) (by simp [Task.pre]) (by simp) _
          rfl rfl, rfl, .inl ⟨rfl, .inl ⟨by simp, fun _ => Iff.rfl⟩⟩⟩
      | panic => exact absurd rfl hr
    | loaded k l v =>
      simp only [ht] at hs
      have hk := h.pre t _ k ht rfl
      obtain ⟨e, held', gone, hi, hlg, he, hlim, hg⟩ := h.holds.insert k v hk
      simp only [hi, Option.some.injEq] at hs
      subst hs
      refine ⟨held', h.move ht he ?_ (by simp [Task.pre]) (by simp) _ rfl rfl, hlim,
        .inl ⟨rfl, .inr ⟨k, l, v, gone, rfl, hk, hlg, hg⟩⟩⟩
      intro t' task' x hne ht' hp hx
      have hx' : x ∈ ((k, v) :: held).map Prod.fst := by
        rw [hlg, List.map_append]
        exact List.mem_append_left _ hx
      simp only [List.map_cons, List.mem_cons] at hx'
      rcases hx' with rfl | hx'
      · exfalso
        apply hne
        have hown : ∀ l', task'.role = .own x l' .before → t' = t := by
          intro l' hl'
          have h1 : s.core.role t' = .own x l' .before := by
            rw [← hl']; exact State.role_eq ht'
          have h2 : s.core.role t = .own x l .before := State.role_eq ht
          have e1 := (hinv.own _ _ _ _ h1).1
          have e2 := (hinv.own _ _ _ _ h2).1
          rw [e1] at e2
          cases e2
          exact hinv.uniq _ _ _ _ _ _ _ h1 h2
        cases task' with
        | missed k' =>
          simp only [Task.pre, Option.some.injEq] at hp
          subst hp
          exact hat t' _ ht'
        | loading k' l' =>
          simp only [Task.pre, Option.some.injEq] at hp
          subst hp
          exact hown l' rfl
        | loaded k' l' v' =>
          simp only [Task.pre, Option.some.injEq] at hp
          subst hp
          exact hown l' rfl
        | _ => simp [Task.pre] at hp
      · exact hx'
    | finishing k l r' =>
      simp only [ht] at hs
      cases hl : s.heap[l]? with
      | none => simp [hl] at hs
      | some ld =>
        simp only [hl, Option.some.injEq] at hs
        subst hs
        exact ⟨held, h.move ht h.holds (fun _ _ _ _ _ _ hx => hx) (by simp [Task.pre]) (by simp) _
          rfl rfl, rfl, .inl ⟨rfl, .inl ⟨by simp, fun _ => Iff.rfl⟩⟩⟩
    | stored k l r' =>
      simp only [ht] at hs
      cases hl : s.heap[l]? with
      | none => simp [hl] at hs
      | some ld =>
        have hdr := s.drain_ok r'.outcome ld.waiters s.mail fun t' ht' =>
          State.hungUp_of_park (hinv.waiter l ld t' hl ht').1
        simp only [hl, hdr.1, if_true, Option.some.injEq] at hs
        subst hs
        exact ⟨held, h.move ht h.holds (fun _ _ _ _ _ _ hx => hx) (by simp [Task.pre]) (by simp) _
          rfl rfl, rfl, .inl ⟨rfl, .inl ⟨by simp, fun _ => Iff.rfl⟩⟩⟩
    | finished k l r' =>
      simp only [ht, Option.some.injEq] at hs
      subst hs
      exact ⟨held, h.move ht h.holds (fun _ _ _ _ _ _ hx => hx) (by simp [Task.pre]) (by simp) _
        rfl rfl, rfl, .inl ⟨rfl, .inl ⟨by simp, fun _ => Iff.rfl⟩⟩⟩
    | waiting k l =>
      simp only [ht] at hs
      cases hl : s.heap[l]? with
      | none => simp [hl] at hs
      | some ld =>
        cases ho : ld.object with
        | some o =>
          simp only [hl, ho, Option.some.injEq] at hs
          subst hs
          exact ⟨held, h.move ht h.holds (fun _ _ _ _ _ _ hx => hx) (by simp [Task.pre]) (by simp) _
            rfl rfl, rfl, .inl ⟨rfl, .inl ⟨by simp, fun _ => Iff.rfl⟩⟩⟩
        | none =>
          simp only [hl, ho, Option.some.injEq] at hs
          subst hs
          exact ⟨held, h.move ht h.holds (fun _ _ _ _ _ _ hx => hx) (by simp [Task.pre]) (by simp) _
            rfl rfl, rfl, .inl ⟨rfl, .inl ⟨by simp, fun _ => Iff.rfl⟩⟩⟩
    | parked k l =>
      simp only [ht] at hs
      cases hm : Map.find s.mail t with
      | none => simp [hm] at hs
      | some m =>
        cases m with
        | sent o =>
          simp only [hm, Option.some.injEq] at hs
          subst hs
          exact ⟨held, h.move ht h.holds (fun _ _ _ _ _ _ hx => hx) (by simp [Task.pre]) (by simp) _
            rfl rfl, rfl, .inl ⟨rfl, .inl ⟨by simp, fun _ => Iff.rfl⟩⟩⟩
        | closed =>
          simp only [hm, Option.some.injEq] at hs
          subst hs
          exact ⟨held, h.move ht h.holds (fun _ _ _ _ _ _ hx => hx) (by simp [Task.pre]) (by simp) _
            rfl rfl, rfl, .inl ⟨rfl, .inl ⟨by simp, fun _ => Iff.rfl⟩⟩⟩
    | done k a => simp [ht] at hs
    | died k l => simp [ht] at hs
    | dropped k l => simp [ht] at hs

/-- No call of `load` panics. -/
def NoPanic (es : List (Event V)) : Prop := ∀ t, Event.run t .panic ∉ es

theorem State.steps_tidy (size : V → Nat) (es : List (Event V)) (hes : NoDrop es) (hnp : NoPanic es)
    (s s' : State K V) (held : List (K × V)) (hinv : s.core.Inv) (h : Tidy size s held)
    (hat : Atomic size s es) (hs : s.steps size es = some s') :
    ∃ held', Tidy size s' held' ∧ s'.entries.limit = s.entries.limit := by
  induction es generalizing s held with
  | nil => cases hs; exact ⟨held, h, rfl⟩
  | cons e es ih =>
    obtain ⟨t, r, rfl⟩ := hes e (by simp)
    simp only [State.steps, State.step] at hs
    cases hr : s.run size t r with
    | none => simp [hr] at hs
    | some s1 =>
      simp only [hr] at hs
      obtain ⟨held1, h1, hlim, -⟩ := s.run_tidy size s1 t r held hinv h
        (by rintro rfl; exact hnp t (by simp))
        (fun t' k ht' => by
          obtain ⟨r', hr'⟩ := hat.1 t' k ht'
          cases hr'
          rfl) hr
      obtain ⟨held', h', hlim'⟩ := ih (fun e he => hes e (List.mem_cons_of_mem _ he))
        (fun t ht => hnp t (List.mem_cons_of_mem _ ht)) s1 held1 (s.run_inv size s1 t r hinv hr) h1
        (hat.2 s1 hr) hs
      exact ⟨held', h', by rw [hlim', hlim]⟩

theorem State.init_tidy (size : V → Nat) (limit : Nat) (keys : List K) :
    Tidy size (State.init limit keys : State K V) [] := by
  refine ⟨Holds.new size limit, by simp, ?_⟩
  intro t k l h
  simp only [State.init, List.getElem?_map] at h
  cases keys[t]? <;> simp at h

/-! ### Loading once -/

/-- Every key for which `load` was called is held or is going to be. -/
structure Once (val : K → V) (keys : List K) (s : State K V) (held : List (K × V)) : Prop where
  nodup : s.calls.Nodup
  values : ∀ k v, (k, v) ∈ held → v = val k ∧ k ∈ keys
  called : ∀ k ∈ s.calls, k ∈ held.map Prod.fst ∨
    ∃ (t : Nat) (l : Nat), s.tasks[t]? = some (.loading k l) ∨
      ∃ v, s.tasks[t]? = some (.loaded k l v)

theorem total_le (size : V → Nat) (val : K → V) (keys : List K) (l : List (K × V))
    (hnd : (l.map Prod.fst).Nodup) (h : ∀ k v, (k, v) ∈ l → v = val k ∧ k ∈ keys) :
    total size l ≤ (keys.dedup.map fun k => size (val k)).sum := by
  have h1 : total size l = ((l.map Prod.fst).map fun k => size (val k)).sum := by
    unfold total
    rw [List.map_map]
    congr 1
    apply List.map_congr_left
    rintro ⟨k, v⟩ hm
    simp only [Function.comp]
    rw [← (h k v hm).1]
  rw [h1]
  have hsub : l.map Prod.fst ⊆ keys.dedup := by
    intro k hk
    obtain ⟨⟨k', v⟩, hm, rfl⟩ := List.mem_map.1 hk
    exact List.mem_dedup.2 (h _ _ hm).2
  obtain ⟨m, hp, hm⟩ := List.subperm_of_subset hnd hsub
  rw [← (hp.map fun k => size (val k)).sum_eq]
  clear hsub hnd hp h1 h
  generalize keys.dedup = ks at hm ⊢
  induction hm with
  | slnil => simp
  | cons a _ ih => simp only [List.map_cons, List.sum_cons]; omega
  | cons_cons a _ ih => simp only [List.map_cons, List.sum_cons]; omega

theorem State.tasks_other (size : V → Nat) (s s' : State K V) (t : Nat) (r : Loaded V)
    (hs : s.run size t r = some s') : ∃ old task, s.tasks[t]? = some old ∧
      s'.tasks = s.tasks.set t task ∧
      (∀ k l, old = .loading k l → ∀ v, r = .object v → task = .loaded k l v) ∧
      (∀ k, old = .missed k → s'.calls ≠ s.calls → ∃ l, task = .loading k l) := by
  unfold State.run at hs
  cases ht : s.tasks[t]? with
  | none => simp [ht] at hs
  | some task =>
    refine ⟨task, ?_⟩
    cases task with
    | start k =>
      simp only [ht] at hs
      cases hl : s.entries.lookup k with
      | none => simp only [hl, Option.some.injEq] at hs; subst hs; exact ⟨_, rfl, rfl, by simp, by simp⟩
      | some p =>
        obtain ⟨e, o⟩ := p
        cases o <;> simp only [hl, Option.some.injEq] at hs <;> subst hs <;>
          exact ⟨_, rfl, rfl, by simp, by simp⟩
    | missed k =>
      simp only [ht] at hs
      cases hl : Map.find s.loaders k with
      | none =>
        simp only [hl, Option.some.injEq] at hs
        subst hs
        refine ⟨_, rfl, rfl, by simp, ?_⟩
        intro k' hk'
        cases hk'
        exact fun _ => ⟨_, rfl⟩
      | some l =>
        simp only [hl, Option.some.injEq] at hs
        subst hs
        exact ⟨_, rfl, rfl, by simp, by simp [State.goto]⟩
    | loading k l =>
      simp only [ht] at hs
      cases r with
      | object v =>
        simp only [Option.some.injEq] at hs
        subst hs
        refine ⟨_, rfl, rfl, ?_, by simp⟩
        intro k' l' h' v' hv'
        cases h'
        cases hv'
        rfl
      | nothing => simp only [Option.some.injEq] at hs; subst hs; exact ⟨_, rfl, rfl, by simp, by simp⟩
      | error => simp only [Option.some.injEq] at hs; subst hs; exact ⟨_, rfl, rfl, by simp, by simp⟩
      | panic => simp only [Option.some.injEq] at hs; subst hs; exact ⟨_, rfl, rfl, by simp, by simp⟩
    | loaded k l v =>
      simp only [ht] at hs
      cases hi : s.entries.insert size k v <;> simp only [hi, Option.some.injEq] at hs <;> subst hs <;>
          exact ⟨_, rfl, rfl, by simp, by simp⟩
    | finishing k l r' =>
      simp only [ht] at hs
      cases hl : s.heap[l]? with
      | none => simp [hl] at hs
      | some ld => simp only [hl, Option.some.injEq] at hs; subst hs; exact ⟨_, rfl, rfl, by simp, by simp⟩
    | stored k l r' =>
      simp only [ht] at hs
      cases hl : s.heap[l]? with
      | none => simp [hl] at hs
      | some ld =>
        simp only [hl, Option.some.injEq] at hs
        subst hs
        exact ⟨_, rfl, rfl, by simp, by simp⟩
    | finished k l r' => simp only [ht, Option.some.injEq] at hs; subst hs; exact ⟨_, rfl, rfl, by simp, by simp⟩
    | waiting k l =>
      simp only [ht] at hs
      cases hl : s.heap[l]? with
      | none => simp [hl] at hs
      | some ld =>
        cases ho : ld.object <;> simp only [hl, ho, Option.some.injEq] at hs <;> subst hs <;>
          exact ⟨_, rfl, rfl, by simp, by simp⟩
    | parked k l =>
      simp only [ht] at hs
      cases hm : Map.find s.mail t with
      | none => simp [hm] at hs
      | some m =>
        cases m <;> simp only [hm, Option.some.injEq] at hs <;> subst hs <;>
          exact ⟨_, rfl, rfl, by simp, by simp⟩
    | done k a => simp [ht] at hs
    | died k l => simp [ht] at hs
    | dropped k l => simp [ht] at hs

theorem State.steps_once (size : V → Nat) (val : K → V) (keys : List K) (es : List (Event V))
    (hes : NoDrop es) (hP : Allowed (fun k r => r = .object (val k)) keys es)
    (s s' : State K V) (held : List (K × V)) (κ : Nat → K) (hinv : s.core.Inv) (h : Tidy size s held)
    (hfine : AllFine (fun k r => r = .object (val k)) keys s κ) (honce : Once val keys s held)
    (hfit : (keys.dedup.map fun k => size (val k)).sum ≤ s.entries.limit)
    (hat : Atomic size s es) (hs : s.steps size es = some s') : s'.calls.Nodup := by
  induction es generalizing s held κ with
  | nil => cases hs; exact honce.nodup
  | cons e es ih =>
    obtain ⟨t, r, rfl⟩ := hes e (by simp)
    simp only [State.steps, State.step] at hs
    cases hr : s.run size t r with
    | none => simp [hr] at hs
    | some s1 =>
      simp only [hr] at hs
      obtain ⟨old, task, hold, htasks, hload, hmiss⟩ := s.tasks_other size s1 t r hr
      have hlt := State.lt_of_task hold
      have hkey : keys[t]? = some old.key := by rw [← hfine.keyed t, hold]; rfl
      have hrv : r = .object (val old.key) := hP t r old.key (by simp) hkey
      have hmem : old.key ∈ keys := by
        rw [List.mem_iff_getElem?]; exact ⟨t, hkey⟩
      obtain ⟨held1, h1, hlim, hcase⟩ := s.run_tidy size s1 t r held hinv h
        (by rw [hrv]; simp)
        (fun t' k ht' => by
          obtain ⟨r', hr'⟩ := hat.1 t' k ht'
          cases hr'
          rfl) hr
      obtain ⟨κ1, hf1⟩ := s.run_fine _ keys size s1 κ t r hinv hfine
        (fun k hk => hP t r k (by simp) hk) hr
      refine ih (fun e he => hes e (List.mem_cons_of_mem _ he))
        (fun t r k he hk => hP t r k (List.mem_cons_of_mem _ he) hk) s1 held1 κ1
        (s.run_inv size s1 t r hinv hr) h1 hf1 ?_ (by rw [hlim]; exact hfit) (hat.2 s1 hr) hs
      -- tasks that load stay so, unless they put in what they have
      have hkeep : ∀ k, (∃ (t' l : Nat), s.tasks[t']? = some (.loading k l) ∨
            ∃ v, s.tasks[t']? = some (.loaded k l v)) →
          (∃ l v, s.tasks[t]? = some (.loaded k l v)) ∨
          ∃ (t' l : Nat), s1.tasks[t']? = some (.loading k l) ∨
            ∃ v, s1.tasks[t']? = some (.loaded k l v) := by
        rintro k ⟨t', l, ht'⟩
        by_cases hh : t' = t
        · subst hh
          rcases ht' with ht' | ⟨v, ht'⟩
          · rw [hold] at ht'
            cases ht'
            refine .inr ⟨t', l, .inr ⟨val k, ?_⟩⟩
            rw [htasks, tasks_set _ hlt, if_pos rfl, hload k l rfl _ hrv]
            rfl
          · exact .inl ⟨l, v, ht'⟩
        · refine .inr ⟨t', l, ?_⟩
          rw [htasks, tasks_set _ hlt, if_neg hh]
          exact ht'
      -- what is held
      have hheld : ∀ k v, (k, v) ∈ held1 → v = val k ∧ k ∈ keys := by
        intro k v hm
        have hv : v = val k := by
          obtain ⟨e, he, rfl⟩ := (h1.holds.mem_iff k v).1 hm
          have := (hf1.entries k e he).2
          simpa using this
        refine ⟨hv, ?_⟩
        rcases hcase with ⟨-, ⟨-, hiff⟩ | ⟨k', l, v', gone, ht', -, hlg, -⟩⟩ | ⟨k', -, -, rfl, -⟩
        · have : k ∈ held.map Prod.fst := (hiff k).1 (List.mem_map.2 ⟨_, hm, rfl⟩)
          obtain ⟨⟨k0, v0⟩, hm0, rfl⟩ := List.mem_map.1 this
          exact (honce.values _ _ hm0).2
        · have : (k, v) ∈ (k', v') :: held := by rw [hlg]; exact List.mem_append_left _ hm
          rcases List.mem_cons.1 this with heq | hm0
          · cases heq
            rw [hold] at ht'
            cases ht'
            exact hmem
          · exact (honce.values _ _ hm0).2
        · exact (honce.values _ _ hm).2
      rcases hcase with ⟨hcalls, hc⟩ | ⟨k, ht', hcalls, rfl, hk, hnone⟩
      · refine ⟨by rw [hcalls]; exact honce.nodup, hheld, ?_⟩
        intro k hk
        rw [hcalls] at hk
        rcases hc with ⟨hno, hiff⟩ | ⟨k', l, v', gone, ht', hk', hlg, hg⟩
        · rcases honce.called k hk with hh | hh
          · exact .inl ((hiff k).2 hh)
          · rcases hkeep k hh with ⟨l, v, hlv⟩ | hh'
            · exact absurd hlv (hno k l v)
            · exact .inr hh'
        · -- nothing is dropped
          have hgone : gone = [] := by
            cases gone with
            | nil => rfl
            | cons g gs =>
              exfalso
              have h2 := hg g gs rfl
              have h3 : total size ((k', v') :: held) ≤ (keys.dedup.map fun k => size (val k)).sum := by
                apply total_le
                · simp only [List.map_cons, List.nodup_cons]
                  exact ⟨hk', h.holds.linked.nodup⟩
                · intro k0 v0 hm
                  rcases List.mem_cons.1 hm with heq | hm
                  · cases heq
                    have hft := hfine.task t _ ht'
                    simp only [Task.Fine, Loaded.object.injEq] at hft
                    rw [hold] at ht'
                    cases ht'
                    exact ⟨hft.2, hmem⟩
                  · exact honce.values _ _ hm
              have h4 : total size (held1 ++ [g]) ≤ total size ((k', v') :: held) := by
                rw [hlg]
                simp only [total_append, total_cons]
                simp only [total, List.map_nil, List.sum_nil]
                omega
              omega
          subst hgone
          rw [List.append_nil] at hlg
          rcases honce.called k hk with hh | hh
          · left
            rw [← hlg]
            exact List.mem_cons_of_mem _ hh
          · rcases hkeep k hh with ⟨l', v, hlv⟩ | hh'
            · left
              rw [hlv] at ht'
              cases ht'
              rw [← hlg]
              simp
            · exact .inr hh'
      · have hnew : ∃ l, task = .loading k l := by
          refine hmiss k ?_ ?_
          · rw [hold] at ht'; exact Option.some.inj ht'
          · rw [hcalls]; simp
        obtain ⟨l, rfl⟩ := hnew
        refine ⟨?_, hheld, ?_⟩
        · rw [hcalls, List.nodup_cons]
          refine ⟨fun hk' => ?_, honce.nodup⟩
          rcases honce.called k hk' with hh | ⟨t', l', hh⟩
          · exact hk hh
          · have hown : s.core.role t' = .own k l' .before := by
              rcases hh with hh | ⟨v, hh⟩ <;> exact State.role_eq hh
            have := (hinv.own _ _ _ _ hown).1
            have hnone' : s.core.loaders k = none := hnone
            rw [hnone'] at this
            exact nomatch this
        · intro k' hk'
          rw [hcalls] at hk'
          rcases List.mem_cons.1 hk' with rfl | hk'
          · refine .inr ⟨t, l, .inl ?_⟩
            rw [htasks, tasks_set _ hlt, if_pos rfl]
          · rcases honce.called k' hk' with hh | hh
            · exact .inl hh
            · rcases hkeep k' hh with ⟨l', v, hlv⟩ | hh'
              · rw [hlv] at ht'; exact nomatch ht'
              · exact .inr hh'

end

end Verif.Cache
