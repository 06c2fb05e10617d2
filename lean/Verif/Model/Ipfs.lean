import Verif.Model.Store

/-!
Model of the store in IPFS (`/repo/dcdf-ipfs/src/lib.rs`).

The server is any state machine that answers three requests; `none` is a request without a usable answer
(no connection, or an answer that is not the expected JSON). Requests, JSON and the text form of
identifiers are left out: a request that is answered is answered with data. The answer to `cat` is the
body, whatever the HTTP status, since the code does not look at the status. Bodies that break off in the
middle are not modelled.
-/
namespace Verif

/-- The requests of the server: `add`, `cat`, `files/stat` (lib.rs:73-124). -/
structure Ipfs (σ : Type) where
  add : σ → (data : List Byte) → (onlyHash : Bool) → σ × Option Cid
  cat : σ → Cid → Option (List Byte)
  stat : σ → Cid → Option Nat

section
variable {σ : Type} (srv : Ipfs σ)

/-- lib.rs:142-157 `struct IpfsStoreWrite`, without the mapper. -/
structure IpfsWrite where
  buffer : List Byte
  onlyHash : Bool

/-- lib.rs:165-167 `IpfsMapper::store`. -/
def IpfsWrite.store : IpfsWrite := ⟨[], false⟩

/-- lib.rs:171-173 `IpfsMapper::hash`. -/
def IpfsWrite.hash : IpfsWrite := ⟨[], true⟩

/-- lib.rs:199-205 `IpfsStoreWrite::poll_write`: everything is taken. -/
def IpfsWrite.write (w : IpfsWrite) (buf : List Byte) : IpfsWrite := { w with buffer := w.buffer ++ buf }

/-- lib.rs:218-221 `IpfsStoreWrite::finish`; `none` is a panic. -/
def IpfsWrite.finish (s : σ) (w : IpfsWrite) : σ × Option Cid := srv.add s w.buffer w.onlyHash

/-- lib.rs:179-187 `IpfsMapper::load`; the outer `none` is a panic. -/
def Ipfs.load (s : σ) (cid : Cid) : Option (Option (List Byte)) :=
  match srv.cat s cid with
  | none => none
  | some body => some (some body)

/-- lib.rs:191-195 `IpfsMapper::size_of`; the outer `none` is a panic. -/
def Ipfs.sizeOf (s : σ) (cid : Cid) : Option (Option Nat) :=
  match srv.stat s cid with
  | none => none
  | some n => some (some n)

/-- resolver.rs:142-165 `Resolver::retrieve` from IPFS. -/
def Ipfs.retrieve (utf8 : List Byte → Bool) (s : σ) (cid : Cid) : Except Fail Item :=
  match srv.load s cid with
  | none => .error .panic
  | some found => Store.retrieve utf8 (fun _ => found) cid

/-- resolver.rs:126-138 `Resolver::save` to IPFS. The parts are what is written one after the other. -/
def Ipfs.save (s : σ) (parts : List (List Byte)) : σ × Option Cid :=
  (parts.foldl IpfsWrite.write IpfsWrite.store).finish srv s

end

end Verif
