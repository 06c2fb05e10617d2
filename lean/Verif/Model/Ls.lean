import Verif.Model.Store

/-!
Model of listings: `Node::ls` of the kinds of objects (`/repo/dcdf/src/dataset.rs`, `links.rs`,
`span.rs`, `superchunk.rs`, `chunk.rs`, `mmstruct.rs`) and `Resolver::ls` (`resolver.rs:181-223`).

`Mapper::size_of` is the number of bytes of the object, `None` if it is missing, and does not fail.
Names are their bytes. Codes of node types are those of `node.rs:9-15`.
-/
namespace Verif

open Reader

/-- The bytes of a string of ASCII characters. -/
def ascii (s : String) : List Byte := s.toList.map fun c => BitVec.ofNat 8 c.toNat

/-- links.rs:79-86 and span.rs:332-338: the identifiers, named by their decimal number. -/
def lsNumbered (cids : List Cid) : List (List Byte × Cid) :=
  cids.zipIdx.map fun p => (ascii (toString p.2), p.1)

/-- links.rs:79-86 `Links::ls`. -/
def Links.ls (l : Links) : List (List Byte × Cid) := lsNumbered l.cids

/-- span.rs:332-338 `Span::ls`. -/
def Span.ls (s : Span) : List (List Byte × Cid) := lsNumbered s.spans

/-- superchunk.rs:765-767 `Superchunk::ls`. -/
def SuperHead.ls (h : SuperHead) : List (List Byte × Cid) := [(ascii "subchunks", h.externalCid)]

/-- mmstruct.rs:247-253 `MMStruct3::ls`, with chunk.rs:160-162 `Chunk::ls`. -/
def MMStruct3.ls : MMStruct3 → List (List Byte × Cid)
  | .span s => s.ls
  | .subchunk _ => []
  | .superchunk h _ => h.ls

/-- dataset.rs:473-483 `Dataset::ls`. -/
def Dataset.ls (d : Dataset) : List (List Byte × Cid) :=
  d.variables.map (fun v => (v.name, v.cid)) ++
    match d.prev with
    | some cid => [(ascii "prev", cid)]
    | none => []

/-- resolver.rs:38-44 `CacheItem::ls`. -/
def Item.ls : Item → List (List Byte × Cid)
  | .dataset d => d.ls
  | .links l => l.ls
  | .struct m => m.ls

/-- resolver.rs:211-218, the names of the node types. -/
inductive NodeType where
  | dataset
  | links
  | subchunk
  | superchunk
  | span
deriving DecidableEq, Repr

/-- resolver.rs:207-218; another code panics. -/
def NodeType.read : Reader NodeType := do
  let code ← readHeader
  let code ← if code = 2 then readByte else Reader.pure code
  if code = 0 then return .dataset
  else if code = 1 then return .links
  else if code = 4 then return .subchunk
  else if code = 5 then return .superchunk
  else if code = 3 then return .span
  else Reader.fail .panic

/-- resolver.rs:203-223 `Resolver::node_type_of`. -/
def Store.nodeTypeOf (st : Store) (cid : Cid) : Except Fail (Option NodeType) :=
  match st cid with
  | none => .ok none
  | some bytes =>
    match NodeType.read bytes with
    | .ok (t, _) => .ok (some t)
    | .error e => .error e

/-- resolver.rs:226-231 `struct LsEntry`. -/
structure LsEntry where
  cid : Cid
  name : List Byte
  nodeType : Option NodeType
  size : Option Nat
deriving DecidableEq, Repr

/-- resolver.rs:186-196, one turn of the loop. -/
def Store.lsEntry (st : Store) (e : List Byte × Cid) : Except Fail LsEntry :=
  match st.nodeTypeOf e.2 with
  | .error f => .error f
  | .ok t => .ok ⟨e.2, e.1, t, (st e.2).map List.length⟩

/-- resolver.rs:186-196, the loop. -/
def Store.lsLoop (st : Store) : List (List Byte × Cid) → Except Fail (List LsEntry)
  | [] => .ok []
  | e :: es =>
    match st.lsEntry e with
    | .error f => .error f
    | .ok x =>
      match st.lsLoop es with
      | .error f => .error f
      | .ok xs => .ok (x :: xs)

/-- resolver.rs:181-201 `Resolver::ls`. -/
def Store.ls (utf8 : List Byte → Bool) (st : Store) (cid : Cid) : Except Fail (List LsEntry) :=
  match st.retrieve utf8 cid with
  | .error f => .error f
  | .ok x => st.lsLoop x.ls

end Verif
