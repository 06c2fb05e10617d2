import Verif.Model.Store
import Verif.Model.Cache

/-!
Model of the resolver with its cache (`/repo/dcdf/src/resolver.rs`) and of the links a superchunk keeps
(`superchunk.rs:635-649`).

The other models read the store directly (`Store.getDataset`, `Store.getStruct`, `Store.getLinks`); here
the cache is between. Calls are made one after the other; for calls made at the same time see the second
part of `Model/Cache.lean`.
-/
namespace Verif

/-- resolver.rs:47-55 `CacheItem::size`. -/
def Item.size : Item → Nat
  | .dataset d => d.size
  | .links l => l.size
  | .struct m => m.size

section
variable (utf8 : List Byte → Bool)

/-- What `Resolver::retrieve` (resolver.rs:142-165) is to the cache. It never gives `Ok(None)`. -/
def Store.loaded (st : Store) (cid : Cid) : Cache.Loaded Item :=
  match st.retrieve utf8 cid with
  | .ok x => .object x
  | .error (.err e) => .error e
  | .error .panic => .panic

/-- resolver.rs:26-29 `struct Resolver`: what the store behind the mapper holds, and the cache. `left`
are the keys whose loader was left in the cache by a panic (see `Cache.Entries.getsWith`). -/
structure Resolver where
  log : Saved
  entries : Cache.Entries Cid Item
  left : List Cid

/-- resolver.rs:71-74 `Resolver::new`, for a store that holds something already. -/
def Resolver.new (log : Saved) (cacheBytes : Nat) : Resolver := ⟨log, Cache.Entries.new cacheBytes, []⟩

/-- resolver.rs:118-122 `Resolver::check_cache`. The first `none` is a panic in the code of the cache,
the second a call that never comes back. -/
def Resolver.checkCache (H : Hash) (r : Resolver) (cid : Cid) :
    Option (Resolver × Option (Cache.Answer Item)) :=
  if cid ∈ r.left ∧ (Cache.Map.find r.entries.map cid).isNone then
    some (r, none)
  else
    let load := (r.log.load H).loaded utf8
    match r.entries.get Item.size cid load with
    | none => none
    | some (entries, a, called) =>
      some (⟨r.log, entries, if called && (load cid).panics then cid :: r.left else r.left⟩, some a)

/-- The calls of a resolver. -/
inductive Call where
  | save (x : Item)
  | getDataset (cid : Cid)
  | getLinks (cid : Cid)
  | getStruct (cid : Cid)

/-- What they come back with. -/
inductive Reply where
  | saved (cid : Cid)
  | dataset (d : Dataset)
  | links (l : Links)
  | struct (m : MMStruct3)
  | failed (f : Fail)

/-- resolver.rs:84-87: an item of another kind panics. -/
def Reply.asDataset : Cache.Answer Item → Reply
  | .ok (.dataset d) => .dataset d
  | .ok _ => .failed .panic
  | .err e => .failed (.err e)
  | .panic => .failed .panic

/-- resolver.rs:112-115. -/
def Reply.asLinks : Cache.Answer Item → Reply
  | .ok (.links l) => .links l
  | .ok _ => .failed .panic
  | .err e => .failed (.err e)
  | .panic => .failed .panic

/-- resolver.rs:98-101. -/
def Reply.asStruct : Cache.Answer Item → Reply
  | .ok (.struct m) => .struct m
  | .ok _ => .failed .panic
  | .err e => .failed (.err e)
  | .panic => .failed .panic

/-- resolver.rs:82-88, 96-102, 110-116, 126-138 `get_dataset`, `get_mmstruct3`, `get_links`, `save`. -/
def Resolver.call (H : Hash) (r : Resolver) : Call → Option (Resolver × Option Reply)
  | .save x => let (log, cid) := Verif.save H r.log x; some (⟨log, r.entries, r.left⟩, some (.saved cid))
  | .getDataset cid => (r.checkCache utf8 H cid).map fun (r, a) => (r, a.map Reply.asDataset)
  | .getLinks cid => (r.checkCache utf8 H cid).map fun (r, a) => (r, a.map Reply.asLinks)
  | .getStruct cid => (r.checkCache utf8 H cid).map fun (r, a) => (r, a.map Reply.asStruct)

/-- A sequence of calls and their replies. After a call that never comes back there are no more. -/
def Resolver.calls (H : Hash) (r : Resolver) : List Call → Option (Resolver × List Reply)
  | [] => some (r, [])
  | c :: cs =>
    match r.call utf8 H c with
    | none => none
    | some (r', none) => some (r', [])
    | some (r', some reply) =>
      match Resolver.calls H r' cs with
      | none => none
      | some (r'', replies) => some (r'', reply :: replies)

end

/-! ### The links kept by a superchunk -/

/-- superchunk.rs:635-649 `Superchunk::external`. `memo` is the weak reference, with what it refers to,
`alive` whether that still exists when it is upgraded, `fetched` what `get_links` comes back with if it
is called. A panic leaves the reference alone. -/
def external (memo : Option Links) (alive : Bool) (fetched : Except Fail Links) :
    Except Fail Links × Option Links :=
  match memo, alive with
  | some links, true => (.ok links, memo)
  | _, _ =>
    match fetched with
    | .ok links => (.ok links, some links)
    | .error e => (.error e, memo)

/-- A sequence of calls of `external` of one superchunk. -/
def externals (memo : Option Links) : List (Bool × Except Fail Links) → List (Except Fail Links)
  | [] => []
  | (alive, fetched) :: rest =>
    (external memo alive fetched).1 :: externals (external memo alive fetched).2 rest

end Verif
