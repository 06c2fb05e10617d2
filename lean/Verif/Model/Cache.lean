import Verif.Model.Errors

/-!
Model of the cache (`/repo/dcdf/src/cache.rs`).

Keys are any type with decidable equality, values any type with a function `size` (trait
`Cacheable`). A `HashMap` is a list of pairs in which a later insertion hides an earlier one. Sizes
(`u64`) are natural numbers, so that `size +=` never overflows; `size -=` below zero is a panic, as
it is in a debug build. An `Arc` is the value it points to. `none` is a panic. A panic while the
entries are being changed leaves them as they were; the code leaves them half changed.

The second part models tasks that share one cache. Each task performs one `get`. What is done while
a lock is held is one step (`Loader::wait` holds two locks, but no other code changes what they
guard without one of them); between two steps of one task any number of steps of other tasks may be
done. The answer of the function `load` is part of the schedule. A task may also be dropped while it
awaits something.
-/
namespace Verif.Cache

/-! ### Maps -/

/-- `std::collections::HashMap`. -/
abbrev Map (K E : Type) := List (K × E)

/-- `HashMap::get`. -/
def Map.find {K E : Type} [DecidableEq K] (m : Map K E) (k : K) : Option E :=
  match m with
  | [] => none
  | (k', e) :: m => if k = k' then some e else Map.find m k

/-- `HashMap::remove`, without its result. -/
def Map.erase {K E : Type} [DecidableEq K] (m : Map K E) (k : K) : Map K E :=
  m.filter fun p => decide (p.1 ≠ k)

/-- `HashMap::insert`. -/
def Map.put {K E : Type} [DecidableEq K] (m : Map K E) (k : K) (e : E) : Map K E :=
  (k, e) :: Map.erase m k

/-! ### Entries -/

/-- cache.rs:102-121 `struct CacheEntry`. -/
structure Entry (K V : Type) where
  key : K
  object : V
  more : Option K
  less : Option K
  size : Nat
deriving DecidableEq, Repr

/-- cache.rs:78-99 `struct Entries`. -/
structure Entries (K V : Type) where
  limit : Nat
  size : Nat
  map : Map K (Entry K V)
  most : Option K
  least : Option K
deriving DecidableEq, Repr

section
variable {K V : Type} [DecidableEq K]

/-- cache.rs:130-141 `Cache::new`, the entries. -/
def Entries.new (limit : Nat) : Entries K V :=
  { limit := limit, size := 0, map := [], most := none, least := none }

/-- cache.rs:381-389 `CacheEntry::new`. -/
def Entry.new (size : V → Nat) (k : K) (v : V) : Entry K V :=
  { key := k, object := v, more := none, less := none, size := size v }

/-- cache.rs:396-404 `CacheEntry::update`. -/
def Entry.update (e : Entry K V) (more less : Option K) : Entry K V :=
  { e with more := more, less := less }

/-- cache.rs:293-320 `Entries::push_most_recent`. -/
def Entries.push (s : Entries K V) (e : Entry K V) : Option (Entries K V) :=
  match s.most with
  | some h =>
    if h = e.key then
      some s
    else
      match Map.find s.map h with
      | none => none
      | some old =>
        some { s with
          map := Map.put (Map.put (Map.erase s.map h) h (old.update (some e.key) old.less)) e.key
            (e.update none (some h))
          most := some e.key
          least := match s.least with
            | none => some e.key
            | some k => some k }
  | none =>
    some { s with
      map := Map.put s.map e.key (e.update none none)
      most := some e.key
      least := match s.least with
        | none => some e.key
        | some k => some k }

/-- cache.rs:338-344, 346-352: a neighbour gets new links. `none`: it is not in the map. -/
def Entries.relink (m : Map K (Entry K V)) (k : Option K) (f : Entry K V → Entry K V) :
    Option (Map K (Entry K V)) :=
  match k with
  | none => some m
  | some k =>
    match Map.find m k with
    | none => none
    | some e => some (Map.put (Map.erase m k) k (f e))

/-- cache.rs:324-355 `Entries::remove`. -/
def Entries.remove (s : Entries K V) (k : K) : Option (Entries K V × Option (Entry K V)) :=
  match Map.find s.map k with
  | none => some (s, none)
  | some e =>
    match s.most, s.least with
    | some most, some least =>
      match Entries.relink (Map.erase s.map k) e.less
          (fun n => n.update e.more n.less) with
      | none => none
      | some m1 =>
        match Entries.relink m1 e.more (fun n => n.update n.more e.less) with
        | none => none
        | some m2 =>
          some ({ s with
            map := m2
            most := if most = e.key then e.less else some most
            least := if least = e.key then e.more else some least }, some e)
    | _, _ => none

/-- cache.rs:369-372: the loop in `Entries::insert`. Every round takes an entry out of the map or
panics, so that `fuel` rounds are enough when the map has fewer entries. -/
def Entries.evict (fuel : Nat) (s : Entries K V) : Option (Entries K V) :=
  match fuel with
  | 0 => none
  | fuel + 1 =>
    if s.size ≤ s.limit then
      some s
    else
      match s.least with
      | none => none
      | some k =>
        match Entries.remove s k with
        | some (s', some e) =>
          if e.size ≤ s'.size then
            Entries.evict fuel { s' with size := s'.size - e.size }
          else
            none
        | _ => none

/-- cache.rs:362-373 `Entries::insert`. -/
def Entries.insert (size : V → Nat) (s : Entries K V) (k : K) (v : V) : Option (Entries K V) :=
  let e := Entry.new size k v
  match Entries.push { s with size := s.size + e.size } e with
  | none => none
  | some s' => Entries.evict (s'.map.length + 1) s'

/-- cache.rs:164-175 `Cache::lookup`. -/
def Entries.lookup (s : Entries K V) (k : K) : Option (Entries K V × Option V) :=
  match Entries.remove s k with
  | none => none
  | some (s', none) => some (s', none)
  | some (s', some e) =>
    match Entries.push s' e with
    | none => none
    | some s'' => some (s'', some e.object)

/-! ### One caller at a time -/

/-- What the function `load` given to `get` comes back with: `Ok(Some(object))`, `Ok(None)`, an
error, or a panic. -/
inductive Loaded (V : Type) where
  | object (v : V)
  | nothing
  | error (e : Err)
  | panic
deriving DecidableEq, Repr

/-- What a call of `get` comes back with. -/
inductive Answer (V : Type) where
  | ok (v : V)
  | err (e : Err)
  | panic
deriving DecidableEq, Repr

/-- cache.rs:149-159, 181-232 `Cache::get`, `Cache::load` when no other call is being made. The
result is the cache afterwards, the answer, and whether `load` was called. A panic in `load` leaves
the entries as they were (for the loader see `getsWith`); a panic in the code of the cache itself is
`none`. -/
def Entries.get (size : V → Nat) (s : Entries K V) (k : K) (load : K → Loaded V) :
    Option (Entries K V × Answer V × Bool) :=
  match s.lookup k with
  | none => none
  | some (s', some v) => some (s', .ok v, false)
  | some (s', none) =>
    match load k with
    | .object v =>
      match s'.insert size k v with
      | none => none
      | some s'' => some (s'', .ok v, true)
    | .nothing => some (s', .panic, true)
    | .error e => some (s', .err e, true)
    | .panic => some (s', .panic, true)

/-- Did `load` panic? -/
def Loaded.panics : Loaded V → Bool
  | .panic => true
  | _ => false

/-- A sequence of calls of `get`, each with its own function `load`. `left` are the keys whose loader
was left in the map of loaders because `load` panicked (cache.rs:189, 200). A call that finds no
object but such a loader waits for ever (cache.rs:230): it is not answered, and no call after it is
made. -/
def Entries.getsWith (size : V → Nat) (s : Entries K V) (left : List K) :
    List (K × (K → Loaded V)) → Option (Entries K V × List (Answer V × Bool))
  | [] => some (s, [])
  | (k, load) :: rest =>
    if k ∈ left ∧ (Map.find s.map k).isNone then
      some (s, [])
    else
      match s.get size k load with
      | none => none
      | some (s', a, called) =>
        match Entries.getsWith size s' (if called && (load k).panics then k :: left else left) rest with
        | none => none
        | some (s'', as) => some (s'', (a, called) :: as)

/-- A sequence of calls of `get` of a new cache. -/
def Entries.gets (size : V → Nat) (s : Entries K V) (calls : List (K × (K → Loaded V))) :
    Option (Entries K V × List (Answer V × Bool)) :=
  s.getsWith size [] calls

/-! ### Several tasks -/

/-- What `Loader::finish` is given: the object, or `Err(Error::Load)`. -/
inductive Outcome (V : Type) where
  | ok (v : V)
  | err
deriving DecidableEq, Repr

/-- Where a task that performs `get(key)` stands. `l` is a loader. -/
inductive Task (K V : Type) where
  /-- `get` has not done anything yet. -/
  | start (k : K)
  /-- `lookup` has found nothing (cache.rs:155). -/
  | missed (k : K)
  /-- First to ask: awaits `load(*key)` (cache.rs:200). -/
  | loading (k : K) (l : Nat)
  /-- `load` has given an object, which is not in the cache yet (cache.rs:205). -/
  | loaded (k : K) (l : Nat) (v : V)
  /-- About to call `finish` (cache.rs:208, 215, 223). -/
  | finishing (k : K) (l : Nat) (r : Loaded V)
  /-- In `finish`, after the object has been stored (cache.rs:254). -/
  | stored (k : K) (l : Nat) (r : Loaded V)
  /-- After `finish` (cache.rs:209, 216, 224). -/
  | finished (k : K) (l : Nat) (r : Loaded V)
  /-- Not first: about to call `wait` (cache.rs:230). -/
  | waiting (k : K) (l : Nat)
  /-- In `wait`, awaits the channel (cache.rs:282). -/
  | parked (k : K) (l : Nat)
  /-- `get` has come back. -/
  | done (k : K) (a : Answer V)
  /-- The code of the cache or `load` has panicked before `finish` was completed. -/
  | died (k : K) (l : Option Nat)
  /-- The task has been dropped at an `await`. -/
  | dropped (k : K) (l : Nat)
deriving DecidableEq, Repr

/-- What has arrived on the channel of a waiting task. -/
inductive Mail (V : Type) where
  | sent (o : Outcome V)
  | closed
deriving DecidableEq, Repr

/-- cache.rs:61-71 `struct Loader`. Senders are named by the task that holds the receiver. -/
structure Loader (V : Type) where
  object : Option (Outcome V)
  waiters : List Nat
deriving DecidableEq, Repr

/-- The cache, the loaders and all tasks. `loaders` is the map of loaders (cache.rs:47), `heap` all
loaders ever made, `mail` what was sent to the tasks, `calls` the keys for which `load` was called,
the latest first. -/
structure State (K V : Type) where
  entries : Entries K V
  loaders : Map K Nat
  heap : List (Loader V)
  tasks : List (Task K V)
  mail : Map Nat (Mail V)
  calls : List K
deriving DecidableEq, Repr

/-- What happens next: a step of task `t` (`r` is what `load` comes back with, if the task awaits
that), or task `t` is dropped. -/
inductive Event (V : Type) where
  | run (t : Nat) (r : Loaded V)
  | drop (t : Nat)
deriving DecidableEq, Repr

/-- The tasks have been made and nothing has been done. -/
def State.init (limit : Nat) (keys : List K) : State K V :=
  { entries := Entries.new limit
    loaders := []
    heap := []
    tasks := keys.map .start
    mail := []
    calls := [] }

/-- The outcome `finish` is called with. -/
def Loaded.outcome : Loaded V → Outcome V
  | .object v => .ok v
  | _ => .err

/-- What `get` comes back with in the task that has called `load`. -/
def Loaded.answer : Loaded V → Answer V
  | .object v => .ok v
  | .error e => .err e
  | .nothing => .panic
  | .panic => .panic

/-- What `get` comes back with in a task that has waited. -/
def Outcome.answer : Outcome V → Answer V
  | .ok v => .ok v
  | .err => .err .load

/-- Is the receiver of the channel of task `t` gone? -/
def State.hungUp (s : State K V) (t : Nat) : Bool :=
  match s.tasks[t]? with
  | some (.parked _ _) => false
  | _ => true

/-- cache.rs:255-263: the loop in `Loader::finish`. The result is what was sent, and whether all of
it could be sent: when a receiver is gone the code panics, and the senders left are dropped, which
closes their channels. -/
def State.drain (s : State K V) (o : Outcome V) (mail : Map Nat (Mail V)) :
    List Nat → Map Nat (Mail V) × Bool
  | [] => (mail, true)
  | t :: ts =>
    if s.hungUp t then
      (ts.foldl (fun m t => Map.put m t .closed) mail, false)
    else
      State.drain s o (Map.put mail t (.sent o)) ts

/-- Task `t` is now at `task`. -/
def State.goto (s : State K V) (t : Nat) (task : Task K V) : State K V :=
  { s with tasks := s.tasks.set t task }

/-- One step of task `t`. `none`: the task cannot do a step (it has ended, or what it awaits has not
happened). -/
def State.run (size : V → Nat) (s : State K V) (t : Nat) (r : Loaded V) : Option (State K V) :=
  match s.tasks[t]? with
  | none => none
  | some (.start k) =>
    -- cache.rs:153 `self.lookup(key)`
    match s.entries.lookup k with
    | none => some (s.goto t (.died k none))
    | some (e, some v) => some ({ s with entries := e }.goto t (.done k (.ok v)))
    | some (e, none) => some ({ s with entries := e }.goto t (.missed k))
  | some (.missed k) =>
    -- cache.rs:185-196
    match Map.find s.loaders k with
    | some l => some (s.goto t (.waiting k l))
    | none =>
      some ({ s with
        loaders := Map.put s.loaders k s.heap.length
        heap := s.heap ++ [({ object := none, waiters := [] } : Loader V)]
        calls := k :: s.calls }.goto t (.loading k s.heap.length))
  | some (.loading k l) =>
    -- cache.rs:200-226
    match r with
    | .object v => some (s.goto t (.loaded k l v))
    | .nothing => some (s.goto t (.finishing k l .nothing))
    | .error e => some (s.goto t (.finishing k l (.error e)))
    | .panic => some (s.goto t (.died k (some l)))
  | some (.loaded k l v) =>
    -- cache.rs:205 `self.recent.lock().insert(*key, &object)`
    match s.entries.insert size k v with
    | none => some (s.goto t (.died k (some l)))
    | some e => some ({ s with entries := e }.goto t (.finishing k l (.object v)))
  | some (.finishing k l r') =>
    -- cache.rs:250-253
    match s.heap[l]? with
    | none => none
    | some ld =>
      some ({ s with heap := s.heap.set l { ld with object := some r'.outcome } }.goto t
        (.stored k l r'))
  | some (.stored k l r') =>
    -- cache.rs:254-263
    match s.heap[l]? with
    | none => none
    | some ld =>
      let sent := s.drain r'.outcome s.mail ld.waiters
      some ({ s with
        heap := s.heap.set l { ld with waiters := [] }
        mail := sent.1 }.goto t (if sent.2 then .finished k l r' else .died k (some l)))
  | some (.finished k _ r') =>
    -- cache.rs:209-211, 216-217, 224-225
    some ({ s with loaders := Map.erase s.loaders k }.goto t (.done k r'.answer))
  | some (.waiting k l) =>
    -- cache.rs:269-279
    match s.heap[l]? with
    | none => none
    | some ld =>
      match ld.object with
      | some o => some (s.goto t (.done k o.answer))
      | none =>
        some ({ s with heap := s.heap.set l { ld with waiters := ld.waiters ++ [t] } }.goto t
          (.parked k l))
  | some (.parked k _) =>
    -- cache.rs:282 `receive.await.expect("channel closed unexpectedly")`
    match Map.find s.mail t with
    | none => none
    | some (.sent o) => some (s.goto t (.done k o.answer))
    | some .closed => some (s.goto t (.done k .panic))
  | some (.done _ _) => none
  | some (.died _ _) => none
  | some (.dropped _ _) => none

/-- Task `t` is dropped while it awaits `load` or the channel. -/
def State.drop (s : State K V) (t : Nat) : Option (State K V) :=
  match s.tasks[t]? with
  | some (.loading k l) => some (s.goto t (.dropped k l))
  | some (.parked k l) => some (s.goto t (.dropped k l))
  | _ => none

/-- What happens on an event. -/
def State.step (size : V → Nat) (s : State K V) : Event V → Option (State K V)
  | .run t r => s.run size t r
  | .drop t => s.drop t

/-- A schedule. `none`: some event could not happen. -/
def State.steps (size : V → Nat) (s : State K V) : List (Event V) → Option (State K V)
  | [] => some s
  | e :: es =>
    match s.step size e with
    | none => none
    | some s' => State.steps size s' es

end

end Verif.Cache
