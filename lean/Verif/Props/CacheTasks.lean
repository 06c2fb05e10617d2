import Verif.Lemmas.CacheSched

/-!
Properties C37 and C38: several tasks that use one cache.

`State.init limit keys` has one task for each key in `keys`, which is going to call `get` for that
key. A schedule `es` says which task does the next step, and what `load` comes back with if that is
what the task awaits. Tasks may begin at any time: a task that is not scheduled has not begun.
-/
namespace Verif.Cache

section
variable {K V : Type} [DecidableEq K]

/-! ### C37 -/

/-- The task is loading the object for `k`, or has it and has not put it into the cache yet. -/
def Task.Loads (k : K) : Task K V → Prop
  | .loading k' _ => k' = k
  | .loaded k' _ _ => k' = k
  | _ => False

/-- C37: at no time do two tasks load the object for the same key. -/
theorem C37_one_at_a_time (size : V → Nat) (limit : Nat) (keys : List K) (es : List (Event V))
    (hes : NoDrop es) (s : State K V) (hs : (State.init limit keys).steps size es = some s)
    (k : K) (t t' : Nat) (task task' : Task K V) (ht : s.tasks[t]? = some task) (hl : task.Loads k)
    (ht' : s.tasks[t']? = some task') (hl' : task'.Loads k) : t = t' := by
  have hinv := State.steps_inv size es hes _ s (State.init_inv limit keys) hs
  have hown : ∀ (t : Nat) (task : Task K V), s.tasks[t]? = some task → task.Loads k →
      ∃ l, s.core.role t = .own k l .before := by
    intro t task ht hl
    have hr : s.core.role t = task.role := State.role_eq ht
    cases task with
    | loading k' l => cases hl; exact ⟨l, hr⟩
    | loaded k' l v => cases hl; exact ⟨l, hr⟩
    | _ => exact hl.elim
  obtain ⟨l, h1⟩ := hown t task ht hl
  obtain ⟨l', h2⟩ := hown t' task' ht' hl'
  have e1 := (hinv.own _ _ _ _ h1).1
  have e2 := (hinv.own _ _ _ _ h2).1
  rw [e1] at e2
  cases e2
  exact hinv.uniq _ _ _ _ _ _ _ h1 h2

/-- C37: whatever the schedule, an object that `get` comes back with was given by `load` for that
key. -/
theorem C37_answers (P : K → Loaded V → Prop) (size : V → Nat) (limit : Nat) (keys : List K)
    (es : List (Event V)) (hes : NoDrop es) (hP : Allowed P keys es) (s : State K V)
    (hs : (State.init limit keys).steps size es = some s) (t : Nat) (k : K) (a : Answer V)
    (ht : s.tasks[t]? = some (.done k a)) :
    keys[t]? = some k ∧ ∃ r, P k r ∧ r ≠ .panic ∧ (a = r.answer ∨ a = r.outcome.answer) := by
  have : Nonempty K := ⟨k⟩
  obtain ⟨κ, h0⟩ := State.init_fine (V := V) P limit keys
  obtain ⟨κ', h⟩ := State.steps_fine P keys size es hes hP _ s κ (State.init_inv limit keys) h0 hs
  refine ⟨?_, h.task t _ ht⟩
  rw [← h.keyed t, ht]
  rfl

/-- C37: when `load` always gives the object `val k` for the key `k`, all tasks get it. -/
theorem C37_all_get_it (val : K → V) (size : V → Nat) (limit : Nat) (keys : List K)
    (es : List (Event V)) (hes : NoDrop es)
    (hP : Allowed (fun k r => r = .object (val k)) keys es) (s : State K V)
    (hs : (State.init limit keys).steps size es = some s) (t : Nat) (k : K) (a : Answer V)
    (ht : s.tasks[t]? = some (.done k a)) : keys[t]? = some k ∧ a = .ok (val k) := by
  obtain ⟨h1, r, hr, -, ha⟩ := C37_answers _ size limit keys es hes hP s hs t k a ht
  refine ⟨h1, ?_⟩
  subst hr
  rcases ha with rfl | rfl <;> rfl

/-- C37, partial: only for schedules in which a task that has found nothing asks for the loader at
once (`Atomic`), which is what one thread does. No call panics in the code of the cache, and the
links agree: following them from either end meets every key held once, in opposite orders; the size
that is accounted for is right and within the limit.

The full statement would have this without `Atomic`; `C37_wrong` shows that it is false. -/
theorem C37_list_partial (size : V → Nat) (limit : Nat) (keys : List K) (es : List (Event V))
    (hes : NoDrop es) (hnp : NoPanic es) (s : State K V)
    (hat : Atomic size (State.init limit keys : State K V) es)
    (hs : (State.init limit keys).steps size es = some s) (n : Nat)
    (hn : s.entries.map.length ≤ n) :
    (∀ (t : Nat) k l, s.tasks[t]? ≠ some (.died k l)) ∧
    (s.entries.down n s.entries.most).reverse = s.entries.up n s.entries.least ∧
    (s.entries.down n s.entries.most).Nodup ∧
    (∀ k, k ∈ s.entries.down n s.entries.most ↔ ∃ e, Map.find s.entries.map k = some e) ∧
    s.entries.size = ((s.entries.down n s.entries.most).map fun k =>
      ((Map.find s.entries.map k).map fun e => size e.object).getD 0).sum ∧
    s.entries.size ≤ limit := by
  obtain ⟨held, h, hlim⟩ := State.steps_tidy size es hes hnp _ s [] (State.init_inv limit keys)
    (State.init_tidy size limit keys) hat hs
  have hh := h.holds
  have hlen := hh.linked.length_le
  have hd := hh.linked.down (a := []) n (by omega)
  have hu : s.entries.up n (lastKey none held) = (held.map Prod.fst).reverse :=
    Linked.up (b := []) (by rw [List.append_nil]; exact hh.linked) n (by omega)
  rw [hh.linked.most, hh.linked.least, hd, hu]
  refine ⟨h.alive, rfl, hh.linked.nodup, fun k => ?_, ?_, Nat.le_trans hh.le_limit (Nat.le_of_eq hlim)⟩
  · simp only [List.mem_map, Prod.exists, exists_and_right, exists_eq_right]
    constructor
    · rintro ⟨v, hv⟩
      obtain ⟨e, he, -⟩ := (hh.mem_iff k v).1 hv
      exact ⟨e, he⟩
    · rintro ⟨e, he⟩
      exact ⟨e.object, (hh.mem_iff k _).2 ⟨e, he, rfl⟩⟩
  · rw [hh.size_eq]
    unfold total
    rw [List.map_map]
    congr 1
    apply List.map_congr_left
    rintro ⟨k, v⟩ hm
    obtain ⟨e, he, hv⟩ := (hh.mem_iff k v).1 hm
    simp [he, hv]

/-- C37, partial: only for such schedules. `load` is called for a key only if the cache does not hold
its object and no task is loading it. -/
theorem C37_call_partial (size : V → Nat) (limit : Nat) (keys : List K) (es : List (Event V))
    (hes : NoDrop es) (hnp : NoPanic es) (s : State K V)
    (hat : Atomic size (State.init limit keys : State K V) es)
    (hs : (State.init limit keys).steps size es = some s)
    (t : Nat) (r : Loaded V) (s' : State K V) (hr : r ≠ .panic)
    (hnext : ∀ (t' : Nat) k, s.tasks[t']? = some (.missed k) → t' = t)
    (hrun : s.run size t r = some s') (k : K) (hk : s'.calls = k :: s.calls) :
    Map.find s.entries.map k = none ∧
      ∀ (t' : Nat) task, s.tasks[t']? = some task → ¬ task.Loads k := by
  obtain ⟨held, h, hlim⟩ := State.steps_tidy size es hes hnp _ s [] (State.init_inv limit keys)
    (State.init_tidy size limit keys) hat hs
  have hinv := State.steps_inv size es hes _ s (State.init_inv limit keys) hs
  obtain ⟨held', -, -, hcase⟩ := s.run_tidy size s' t r held hinv h hr hnext hrun
  rcases hcase with ⟨hc, -⟩ | ⟨k', -, hc, -, hk', hnone⟩
  · rw [hk] at hc
    have := congrArg List.length hc
    simp at this
  · rw [hk] at hc
    cases hc
    refine ⟨by rw [h.holds.linked.find]; exact expected_none _ _ _ _ hk', ?_⟩
    intro t' task ht' hl
    have hr' : s.core.role t' = task.role := State.role_eq ht'
    have hnone' : s.core.loaders k = none := hnone
    cases task with
    | loading k' l =>
      cases hl
      have := (hinv.own _ _ _ _ hr').1
      rw [hnone'] at this
      exact nomatch this
    | loaded k' l v =>
      cases hl
      have := (hinv.own _ _ _ _ hr').1
      rw [hnone'] at this
      exact nomatch this
    | _ => exact hl.elim

/-- C37, partial: only for such schedules. When the objects for all the keys asked for fit into the
cache together, `load` is called at most once for each key, however many tasks ask for it. -/
theorem C37_once_partial (val : K → V) (size : V → Nat) (limit : Nat) (keys : List K)
    (es : List (Event V)) (hes : NoDrop es)
    (hP : Allowed (fun k r => r = .object (val k)) keys es) (s : State K V)
    (hfit : (keys.dedup.map fun k => size (val k)).sum ≤ limit)
    (hat : Atomic size (State.init limit keys : State K V) es)
    (hs : (State.init limit keys).steps size es = some s) : s.calls.Nodup := by
  by_cases hne : Nonempty K
  · obtain ⟨κ, h0⟩ := State.init_fine (V := V) (fun k r => r = .object (val k)) limit keys
    exact State.steps_once size val keys es hes hP _ s [] κ (State.init_inv limit keys)
      (State.init_tidy size limit keys) h0 ⟨by simp [State.init], by simp, by simp [State.init]⟩
      hfit hat hs
  · cases hc : s.calls with
    | nil => simp
    | cons k ks => exact absurd ⟨k⟩ hne

end

/-- A schedule of whole calls: `n` steps of task `t`, for which `load` gives `v`. -/
def steps (t n : Nat) (v : Nat) : List (Event Nat) := List.replicate n (.run t (.object v))

/-- C37 is false in general: task 0 looks for the object 1 and finds nothing; before it goes on, task
1 loads that object and task 2 the object 2; then task 0 loads the object 1 again. It was loaded
twice although the cache had it, the cache accounts for three objects while it holds two, following
the links never ends, and after the next object has been put in (task 3) a call that should find the
object 2 (task 4) panics. Every object has the size 1 and the limit is 3. -/
theorem C37_wrong :
    ∃ es es' : List (Event Nat), NoDrop (es ++ es') ∧
      Allowed (fun k r => r = .object (10 * k)) [1, 1, 2, 3, 2] (es ++ es') ∧
      ∃ s : State Nat Nat,
        (State.init 3 [1, 1, 2, 3, 2]).steps (fun _ => 1) es = some s ∧
        s.calls = [1, 2, 1] ∧ s.entries.size = 3 ∧ s.entries.map.map Prod.fst = [1, 2] ∧
        (∀ n, (s.entries.down n s.entries.most).length = n) ∧
        ∃ s', s.steps (fun _ => 1) es' = some s' ∧ s'.tasks[4]? = some (.died 2 none) := by
  refine ⟨steps 0 1 10 ++ steps 1 7 10 ++ steps 2 7 20 ++ steps 0 6 10, steps 3 7 30 ++ steps 4 1 20,
    ?_, ?_, _, rfl, by decide +kernel, by decide +kernel, by decide +kernel, ?_, _, rfl,
    by decide +kernel⟩
  · intro e he
    simp only [steps, List.mem_append, List.mem_replicate] at he
    rcases he with (((⟨-, rfl⟩ | ⟨-, rfl⟩) | ⟨-, rfl⟩) | ⟨-, rfl⟩) | ⟨-, rfl⟩ | ⟨-, rfl⟩ <;>
      exact ⟨_, _, rfl⟩
  · intro t r k he hk
    simp only [steps, List.mem_append, List.mem_replicate, Event.run.injEq] at he
    rcases he with (((⟨-, rfl, rfl⟩ | ⟨-, rfl, rfl⟩) | ⟨-, rfl, rfl⟩) | ⟨-, rfl, rfl⟩) |
      ⟨-, rfl, rfl⟩ | ⟨-, rfl, rfl⟩ <;> simp at hk <;> subst hk <;> rfl
  · have key : ∀ (e : Entries Nat Nat) (a b : Entry Nat Nat), Map.find e.map 1 = some a →
        Map.find e.map 2 = some b → a.less = some 2 → b.less = some 1 →
        ∀ n, (e.down n (some 1)).length = n ∧ (e.down n (some 2)).length = n := by
      intro e a b h1 h2 h3 h4 n
      induction n with
      | zero => exact ⟨rfl, rfl⟩
      | succ n ih =>
        simp only [Entries.down, h1, h2, h3, h4, List.length_cons, ih.1, ih.2, and_self]
    intro n
    exact (key _ { key := 1, object := 10, more := none, less := some 2, size := 1 }
      { key := 2, object := 20, more := some 1, less := some 1, size := 1 } (by decide +kernel)
      (by decide +kernel) rfl rfl n).1

/-- Five tasks ask for two objects, all at the same time, on one thread: every task that has found
nothing asks for the loader at once. -/
def exampleSchedule : List (Event Nat) :=
  steps 0 2 10 ++ steps 1 2 20 ++ steps 2 2 10 ++ steps 3 2 20 ++ steps 2 1 10 ++ steps 0 1 10 ++
    steps 4 2 10 ++ steps 0 2 10 ++ steps 1 5 20 ++ steps 0 2 10 ++ steps 3 1 20 ++ steps 2 1 10 ++
    steps 4 1 10

/-- A decision procedure for `Atomic`. -/
def atomicB (size : Nat → Nat) : State Nat Nat → List (Event Nat) → Bool
  | _, [] => true
  | s, e :: es =>
    (List.range s.tasks.length).all (fun t =>
      match s.tasks[t]? with
      | some (.missed _) => match e with
        | .run t' _ => t' == t
        | .drop _ => false
      | _ => true) &&
    match s.step size e with
    | none => true
    | some s' => atomicB size s' es

theorem atomic_of_atomicB (size : Nat → Nat) (s : State Nat Nat) (es : List (Event Nat))
    (h : atomicB size s es = true) : Atomic size s es := by
  induction es generalizing s with
  | nil => trivial
  | cons e es ih =>
    simp only [atomicB, Bool.and_eq_true, List.all_eq_true, List.mem_range] at h
    refine ⟨fun t k ht => ?_, fun s' hs' => ?_⟩
    · have hlt : t < s.tasks.length := State.lt_of_task ht
      have := h.1 t hlt
      simp only [ht] at this
      cases e with
      | run t' r => simp only [beq_iff_eq] at this; subst this; exact ⟨r, rfl⟩
      | drop t' => simp at this
    · have := h.2
      simp only [hs'] at this
      exact ih s' this

example : NoDrop exampleSchedule ∧ NoPanic exampleSchedule ∧
    Allowed (fun k r => r = .object (10 * k)) [1, 2, 1, 2, 1] exampleSchedule ∧
    Atomic id (State.init 30 [1, 2, 1, 2, 1] : State Nat Nat) exampleSchedule ∧
    (([1, 2, 1, 2, 1] : List Nat).dedup.map fun k => id (10 * k)).sum ≤ 30 ∧
    ((State.init 30 [1, 2, 1, 2, 1] : State Nat Nat).steps id exampleSchedule).map (fun s =>
        (s.tasks, s.calls)) = some
      ([.done 1 (.ok 10), .done 2 (.ok 20), .done 1 (.ok 10), .done 2 (.ok 20), .done 1 (.ok 10)],
        [2, 1]) := by
  refine ⟨?_, ?_, ?_, atomic_of_atomicB _ _ _ (by decide +kernel), by decide, by decide +kernel⟩
  · have : ∀ e ∈ exampleSchedule, (match e with
        | .run _ _ => true
        | .drop _ => false) = true := by decide
    intro e he
    have := this e he
    cases e with
    | run t r => exact ⟨t, r, rfl⟩
    | drop t => simp at this
  · have : ∀ e ∈ exampleSchedule, (match e with
        | .run _ .panic => false
        | _ => true) = true := by decide
    intro t he
    have := this _ he
    simp at this
  · have : ∀ e ∈ exampleSchedule, (match e with
        | .run t r => match ([1, 2, 1, 2, 1] : List Nat)[t]? with
          | some k => decide (r = .object (10 * k))
          | none => true
        | .drop _ => true) = true := by decide
    intro t r k he hk
    have := this _ he
    simp only [hk, decide_eq_true_eq] at this
    exact this

/-! ### C38 -/

section
variable {K V : Type} [DecidableEq K]

/-- C38: in every schedule, once `finish` has been called with `r`, each task that waits for this
load has been sent it, and its next step is to come back with it. -/
theorem C38_woken (size : V → Nat) (limit : Nat) (keys : List K) (es : List (Event V))
    (hes : NoDrop es) (s : State K V) (hs : (State.init limit keys).steps size es = some s)
    (t t' : Nat) (k k' : K) (l : Nat) (r : Loaded V) (ht : s.tasks[t]? = some (.parked k l))
    (ht' : s.tasks[t']? = some (.finished k' l r)) :
    Map.find s.mail t = some (.sent r.outcome) ∧
      ∀ r', s.run size t r' = some (s.goto t (.done k r.outcome.answer)) := by
  have hinv := State.steps_inv size es hes _ s (State.init_inv limit keys) hs
  have hr : s.core.role t = .park l := State.role_eq ht
  have hr' : s.core.role t' = .own k' l (.after r.outcome) := State.role_eq ht'
  obtain ⟨-, ld, hld, hobj, hw⟩ := hinv.own _ _ _ _ hr'
  obtain ⟨ld', hld', hh⟩ := hinv.parked _ _ hr
  rw [hld] at hld'
  cases hld'
  have hm : Map.find s.mail t = some (.sent r.outcome) := by
    rcases hh with ⟨-, hmem⟩ | ⟨o, hm, ho, -⟩
    · rw [hw _ rfl] at hmem
      simp at hmem
    · rw [hobj] at ho
      cases ho
      exact hm
  refine ⟨hm, fun r' => ?_⟩
  simp only [State.run, ht, hm]

/-- The task has the load `l` to do and has not called `finish`, or has not got to the end of it. -/
def Task.Unfinished (l : Nat) : Task K V → Prop
  | .loading _ l' => l' = l
  | .loaded _ l' _ => l' = l
  | .finishing _ l' _ => l' = l
  | .stored _ l' _ => l' = l
  | .died _ (some l') => l' = l
  | _ => False

/-- C38: a task that waits has been sent something, or the load it waits for has not been finished:
some task has yet to do it, or has panicked before it was done. -/
theorem C38_not_forgotten (size : V → Nat) (limit : Nat) (keys : List K) (es : List (Event V))
    (hes : NoDrop es) (s : State K V) (hs : (State.init limit keys).steps size es = some s)
    (t : Nat) (k : K) (l : Nat) (ht : s.tasks[t]? = some (.parked k l)) :
    (∃ o, Map.find s.mail t = some (.sent o)) ∨
      ∃ (t' : Nat) (task : Task K V), s.tasks[t']? = some task ∧ task.Unfinished l := by
  have hinv := State.steps_inv size es hes _ s (State.init_inv limit keys) hs
  have hr : s.core.role t = .park l := State.role_eq ht
  obtain ⟨ld, hld, hh⟩ := hinv.parked _ _ hr
  rcases hh with ⟨-, hmem⟩ | ⟨o, hm, -⟩
  · right
    rcases hinv.free l ld hld with ⟨t', k', p, hp⟩ | ⟨-, hnil⟩
    · have hp' : s.role t' = .own k' l p := hp
      unfold State.role at hp'
      cases ht' : s.tasks[t']? with
      | none => simp [ht'] at hp'
      | some task' =>
        simp only [ht'] at hp'
        refine ⟨t', task', ht', ?_⟩
        cases task' with
        | loading _ _ => simp only [Task.role, Role.own.injEq] at hp'; exact hp'.2.1
        | loaded _ _ _ => simp only [Task.role, Role.own.injEq] at hp'; exact hp'.2.1
        | finishing _ _ _ => simp only [Task.role, Role.own.injEq] at hp'; exact hp'.2.1
        | stored _ _ _ => simp only [Task.role, Role.own.injEq] at hp'; exact hp'.2.1
        | finished k2 l2 r2 =>
          exfalso
          simp only [Task.role, Role.own.injEq] at hp'
          obtain ⟨rfl, rfl, rfl⟩ := hp'
          obtain ⟨-, ld', hld', -, hw⟩ := hinv.own _ _ _ _ hp
          rw [hld] at hld'
          cases hld'
          rw [hw _ rfl] at hmem
          simp at hmem
        | died _ ol =>
          cases ol with
          | none => simp [Task.role] at hp'
          | some l' => simp only [Task.role, Role.own.injEq] at hp'; exact hp'.2.1
        | start _ => simp [Task.role] at hp'
        | missed _ => simp [Task.role] at hp'
        | waiting _ _ => simp [Task.role] at hp'
        | parked _ _ => simp [Task.role] at hp'
        | done _ _ => simp [Task.role] at hp'
        | dropped _ _ => simp [Task.role] at hp'
    · rw [hnil] at hmem
      simp at hmem
  · exact .inl ⟨o, hm⟩

/-- C38: no schedule goes on for ever; each call takes at most seven steps. -/
theorem C38_bounded (size : V → Nat) (limit : Nat) (keys : List K) (es : List (Event V))
    (hes : NoDrop es) (s : State K V) (hs : (State.init limit keys).steps size es = some s) :
    es.length ≤ 7 * keys.length := by
  have h := State.steps_left size es hes _ s hs
  have : (State.init limit keys : State K V).left = 7 * keys.length := by
    simp only [State.left, State.init, List.map_map]
    clear hs h
    induction keys with
    | nil => rfl
    | cons k keys ih =>
      simp only [List.map_cons, List.sum_cons, ih, Function.comp, Task.left, List.length_cons]
      omega
  omega

/-- C38: when no task can do a step and none has panicked inside the cache or `load`, every call has
come back. -/
theorem C38_all_come_back (size : V → Nat) (limit : Nat) (keys : List K) (es : List (Event V))
    (hes : NoDrop es) (s : State K V) (hs : (State.init limit keys).steps size es = some s)
    (hdied : ∀ (t : Nat) k l, s.tasks[t]? ≠ some (.died k l))
    (hstuck : ∀ t r, s.run size t r = none) (t : Nat) (k : K) (hk : keys[t]? = some k) :
    ∃ a, s.tasks[t]? = some (.done k a) := by
  have hinv := State.steps_inv size es hes _ s (State.init_inv limit keys) hs
  have hdrop : ∀ (t : Nat) k l, s.tasks[t]? ≠ some (.dropped k l) := by
    refine State.no_dropped size es hes _ s ?_ hs
    intro t k l h
    simp only [State.init, List.getElem?_map] at h
    cases keys[t]? <;> simp at h
  have : Nonempty K := ⟨k⟩
  obtain ⟨κ, h0⟩ := State.init_fine (V := V) (fun _ _ => True) limit keys
  obtain ⟨κ', h⟩ := State.steps_fine _ keys size es hes (fun _ _ _ _ _ => trivial) _ s κ
    (State.init_inv limit keys) h0 hs
  have hkey := h.keyed t
  rw [hk] at hkey
  cases ht : s.tasks[t]? with
  | none => simp [ht] at hkey
  | some task =>
    obtain ⟨k', a, rfl⟩ := State.all_done size s hinv hdied hdrop hstuck t task ht
    simp only [ht, Option.map_some, Option.some.injEq] at hkey
    refine ⟨a, ?_⟩
    have : k' = k := hkey
    rw [this]

/-- C38: on one thread (`Atomic`), if no call of `load` panics, every call comes back. -/
theorem C38_one_thread (size : V → Nat) (limit : Nat) (keys : List K) (es : List (Event V))
    (hes : NoDrop es) (hnp : NoPanic es) (s : State K V)
    (hat : Atomic size (State.init limit keys : State K V) es)
    (hs : (State.init limit keys).steps size es = some s)
    (hstuck : ∀ t r, s.run size t r = none) (t : Nat) (k : K) (hk : keys[t]? = some k) :
    ∃ a, s.tasks[t]? = some (.done k a) := by
  obtain ⟨held, h, hlim⟩ := State.steps_tidy size es hes hnp _ s [] (State.init_inv limit keys)
    (State.init_tidy size limit keys) hat hs
  exact C38_all_come_back size limit keys es hes s hs h.alive hstuck t k hk

end

/-- In this state task 2 waits for a load that task 0 has finished. -/
example : ((State.init 30 [1, 2, 1, 2, 1] : State Nat Nat).steps id
      (steps 0 2 10 ++ steps 2 3 10 ++ steps 0 4 10)).map (fun s =>
        (s.tasks.take 3, Map.find s.mail 2)) =
    some ([.finished 1 0 (.object 10), .start 2, .parked 1 0], some (.sent (.ok 10))) := by
  decide +kernel

/-- In this state task 2 waits for a load that task 0 has yet to do. -/
example : ((State.init 30 [1, 2, 1, 2, 1] : State Nat Nat).steps id
      (steps 0 2 10 ++ steps 2 3 10)).map (fun s => (s.tasks.take 3, Map.find s.mail 2)) =
    some ([.loading 1 0, .start 2, .parked 1 0], none) := by
  decide +kernel

/-- No task can do a step. -/
def stuckB (size : Nat → Nat) (s : State Nat Nat) : Bool :=
  (List.range s.tasks.length).all fun t => (s.run size t (.error .load)).isNone

theorem stuck_of_stuckB (size : Nat → Nat) (s : State Nat Nat) (h : stuckB size s = true)
    (hl : ∀ (t k l : Nat), s.tasks[t]? ≠ some (.loading k l)) (t : Nat) (r : Loaded Nat) :
    s.run size t r = none := by
  by_cases hlt : t < s.tasks.length
  · simp only [stuckB, List.all_eq_true, List.mem_range, Option.isNone_iff_eq_none] at h
    have := h t hlt
    rw [← this]
    unfold State.run
    cases ht : s.tasks[t]? with
    | none => rfl
    | some task =>
      cases task with
      | loading k l => exact absurd ht (hl t k l)
      | _ => rfl
  · simp [State.run, List.getElem?_eq_none (Nat.le_of_not_lt hlt)]

/-- C38 is false when tasks may be dropped or `load` may panic.

First: a task that waits is dropped. The task that has loaded the object panics when it tries to tell
it, and another task that waits panics too.

Second: the task that loads is dropped. The task that waits for it waits for ever: no task can do a
step, and it has not come back. Third: the same when `load` panics. -/
theorem C38_wrong :
    (∃ (es : List (Event Nat)) (s : State Nat Nat),
      (State.init 30 [1, 1, 1]).steps id es = some s ∧
      s.tasks = [.died 1 (some 0), .dropped 1 0, .done 1 .panic]) ∧
    (∃ (es : List (Event Nat)) (s : State Nat Nat),
      (State.init 30 [1, 1]).steps id es = some s ∧
      s.tasks = [.dropped 1 0, .parked 1 0] ∧ ∀ t r, s.run id t r = none) ∧
    (∃ (es : List (Event Nat)) (s : State Nat Nat), NoDrop es ∧
      (State.init 30 [1, 1]).steps id es = some s ∧
      s.tasks = [.died 1 (some 0), .parked 1 0] ∧ ∀ t r, s.run id t r = none) := by
  have hl : ∀ {a b : Task Nat Nat}, (∀ k l, a ≠ .loading k l) → (∀ k l, b ≠ .loading k l) →
      ∀ (t k l : Nat), ([a, b] : List (Task Nat Nat))[t]? ≠ some (.loading k l) := by
    intro a b ha hb t k l h
    match t with
    | 0 => exact ha k l (Option.some.inj h)
    | 1 => exact hb k l (Option.some.inj h)
    | t + 2 => simp at h
  refine ⟨⟨steps 0 2 10 ++ steps 1 3 10 ++ steps 2 3 10 ++ [.drop 1] ++ steps 0 4 10 ++ steps 2 1 10,
      _, rfl, by decide +kernel⟩,
    ⟨steps 0 2 10 ++ steps 1 3 10 ++ [.drop 0], _, rfl, by decide +kernel,
      stuck_of_stuckB _ _ (by decide +kernel) ?_⟩,
    ⟨steps 0 2 10 ++ steps 1 3 10 ++ [.run 0 .panic], _, ?_, rfl, by decide +kernel,
      stuck_of_stuckB _ _ (by decide +kernel) ?_⟩⟩
  · exact hl (a := .dropped 1 0) (b := .parked 1 0) (by simp) (by simp)
  · intro e he
    simp only [steps, List.mem_append, List.mem_replicate, List.mem_singleton] at he
    rcases he with (⟨-, rfl⟩ | ⟨-, rfl⟩) | rfl <;> exact ⟨_, _, rfl⟩
  · exact hl (a := .died 1 (some 0)) (b := .parked 1 0) (by simp) (by simp)

end Verif.Cache
