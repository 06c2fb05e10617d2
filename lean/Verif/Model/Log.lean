import Verif.Model.Snapshot

/-!
Model of `/repo/dcdf/src/log.rs`. Conventions as for snapshots: the exponent `e` of the side length
is a parameter, `set` callbacks become lists of calls, `i64` arithmetic wraps.
-/
namespace Verif

/-- log.rs:21-47 `struct Log`. -/
structure Log where
  nodemap : BitMap
  equal : BitMap
  max : Dac
  min : Dac
  k : Nat
  rows : Nat
  cols : Nat
  sidelen : Nat
deriving DecidableEq, Repr

/-- log.rs:706-714 `struct K2PTreeNode`. -/
inductive K2PNode where
  | mk (maxT minT maxS minS : Option Int64) (diff : Int64) (equal : Bool) (children : List K2PNode)

namespace K2PNode
def maxT : K2PNode → Option Int64 | .mk m _ _ _ _ _ _ => m
def minT : K2PNode → Option Int64 | .mk _ m _ _ _ _ _ => m
def maxS : K2PNode → Option Int64 | .mk _ _ m _ _ _ _ => m
def minS : K2PNode → Option Int64 | .mk _ _ _ m _ _ _ => m
def diff : K2PNode → Int64 | .mk _ _ _ _ d _ _ => d
def equal : K2PNode → Bool | .mk _ _ _ _ _ e _ => e
def children : K2PNode → List K2PNode | .mk _ _ _ _ _ _ c => c

mutual
/-- Number of nodes of a tree. -/
def count : K2PNode → Nat
  | .mk _ _ _ _ _ _ cs => 1 + countList cs
def countList : List K2PNode → Nat
  | [] => 0
  | c :: cs => count c + countList cs
end

/-- log.rs:783-790 `is_lt`. -/
def isLt (left right : Option Int64) : Bool :=
  match left, right with
  | some left, some right => left < right
  | _, _ => false

/-- log.rs:793-795 and 799-801: keep the larger value. -/
def keepMax (mx child : Option Int64) : Option Int64 := if isLt mx child then child else mx

/-- log.rs:796-798 and 802-804: keep the smaller value. -/
def keepMin (mn child : Option Int64) : Option Int64 := if isLt child mn then child else mn

/-- log.rs:725-817 `K2PTreeNode::_build` for `sidelen = k^e`. -/
def build (getS getT : Nat → Nat → Int64) (rows cols k : Nat) : (e row col : Nat) → K2PNode
  | 0, row, col =>
    let valueS := if row < rows ∧ col < cols then some (getS row col) else none
    let valueT := if row < rows ∧ col < cols then some (getT row col) else none
    .mk valueT valueT valueS valueS (valueT.getD 0 - valueS.getD 0) true []
  | e + 1, row, col =>
    let sidelen := k ^ e
    let children := (List.range k).flatMap fun i =>
      (List.range k).map fun j =>
        build getS getT rows cols k e (row + i * sidelen) (col + j * sidelen)
    let diff := match children.head? with
      | some c => c.diff
      | none => 0
    .mk (children.tail.foldl (fun m c => keepMax m c.maxT) (children.head?.bind (·.maxT)))
      (children.tail.foldl (fun m c => keepMin m c.minT) (children.head?.bind (·.minT)))
      (children.tail.foldl (fun m c => keepMax m c.maxS) (children.head?.bind (·.maxS)))
      (children.tail.foldl (fun m c => keepMin m c.minS) (children.head?.bind (·.minS)))
      diff
      (children.tail.foldl (fun q c => q && (c.diff == diff)) (children.all (·.equal)))
      children

end K2PNode

/-- log.rs:132-154, the breadth first traversal, with what has been pushed so far. -/
def Log.traverse : (fuel : Nat) → List K2PNode → (nodemap equal : List Bool) →
    (max min : List Int64) → Option (List Bool × List Bool × List Int64 × List Int64)
  | _, [], nodemap, equal, max, min => some (nodemap, equal, max, min)
  | 0, _ :: _, _, _, _, _ => none
  | fuel + 1, node :: queue, nodemap, equal, max, min =>
    let max := max ++ [node.maxT.getD 0 - node.maxS.getD 0]
    if node.children.isEmpty then
      Log.traverse fuel queue nodemap equal max min
    else if node.minT = node.maxT then
      Log.traverse fuel queue (nodemap ++ [false]) (equal ++ [false]) max min
    else if node.equal then
      Log.traverse fuel queue (nodemap ++ [false]) (equal ++ [true]) max min
    else
      match node.minT, node.minS with
      | some minT, some minS =>
        Log.traverse fuel (queue ++ node.children) (nodemap ++ [true]) equal max
          (min ++ [minT - minS])
      | _, _ => none

/-- log.rs:112-165 `Log::build`. -/
def Log.build (getS getT : Nat → Nat → Int64) (rows cols k e : Nat) : Option Log :=
  let root := K2PNode.build getS getT rows cols k e 0 0
  match Log.traverse root.count [root] [] [] [] [] with
  | none => none
  | some (nodemap, equal, max, min) =>
    match BitMap.ofBits nodemap, BitMap.ofBits equal, Dac.ofList max, Dac.ofList min with
    | some nodemap, some equal, some max, some min =>
      some ⟨nodemap, equal, max, min, k, rows, cols, k ^ e⟩
    | _, _, _, _ => none

/-- log.rs:95-97 `Log::size`. -/
def Log.size (l : Log) : Nat :=
  1 + 4 + 4 + 4 + l.nodemap.size + l.equal.size + l.max.size + l.min.size

/-- `index > nodemap.length || !nodemap.get(index)` (log.rs:240, 245, 403, 418); note `>`, where
snapshots and `search_window` use `>=`. -/
def isLeafGt (m : BitMap) (index : Nat) : Option Bool :=
  if index > m.length then some true
  else match m.get index with
    | none => none
    | some b => some (!b)

/-- `match index { Some(index) => leaf test, None => true }`. -/
def optLeaf (test : BitMap → Nat → Option Bool) (m : BitMap) : Option Nat → Option Bool
  | none => some true
  | some index => test m index

/-- `self.equal.get(self.nodemap.rank0(index + 1) - 1)` (log.rs:265, 454, 673). -/
def Log.equalAt (l : Log) (index : Nat) : Option Bool :=
  match l.nodemap.rank0 (index + 1) with
  | none => none
  | some r =>
    match csub r 1 with
    | none => none
    | some q => l.equal.get q

/-- `match index { Some(index) => Some(1 + nodemap.rank(index) * k * k), None => None }`. -/
def childBase (m : BitMap) (k : Nat) : Option Nat → Option (Option Nat)
  | none => some none
  | some index => (m.rank index).map fun r => some (1 + r * k * k)

/-- Maximum of the child in the log: log.rs:233 and 397-400. -/
def Log.childMaxT (l : Log) (maxT : Int64) : Option Nat → Option Int64
  | none => some maxT
  | some index => l.max.get index

/-- Maximum of the child in the snapshot: log.rs:223 and 412-415. -/
def Snapshot.childMaxS (s : Snapshot) (maxS : Int64) : Option Nat → Option Int64
  | none => some maxS
  | some index => (s.max.get index).map fun d => maxS - d

/-- log.rs:203-293 `Log::_get`. -/
def Log.getGo (l : Log) (s : Snapshot) : (fuel sidelen row col : Nat) →
    (indexT indexS : Option Nat) → (maxT maxS : Int64) → Option Int64
  | 0, _, _, _, _, _, _, _ => none
  | fuel + 1, sidelen, row, col, indexT, indexS, maxT, maxS =>
    let k := l.k
    if k = 0 then none else
    let sidelen := sidelen / k
    if sidelen = 0 then none else
    match childBase s.nodemap k indexS, childBase l.nodemap k indexT with
    | some baseS, some baseT =>
      let indexS := baseS.map fun b => b + row / sidelen * k + col / sidelen
      let indexT := baseT.map fun b => b + row / sidelen * k + col / sidelen
      match s.childMaxS maxS indexS, l.childMaxT maxT indexT,
          optLeaf isLeafGt l.nodemap indexT, optLeaf isLeafGt s.nodemap indexS with
      | some maxS, some maxT, some leafT, some leafS =>
        if leafT && leafS then some (maxT + maxS)
        else if leafS then
          Log.getGo l s fuel sidelen (row % sidelen) (col % sidelen) indexT none maxT maxS
        else if leafT then
          let descend :=
            Log.getGo l s fuel sidelen (row % sidelen) (col % sidelen) none indexS maxT maxS
          match indexT with
          | none => descend
          | some index =>
            if index < l.nodemap.length then
              match l.equalAt index with
              | none => none
              | some false => some (maxT + maxS)
              | some true => descend
            else descend
        else
          Log.getGo l s fuel sidelen (row % sidelen) (col % sidelen) indexT indexS maxT maxS
      | _, _, _, _ => none
    | _, _ => none

/-- log.rs:176-201 `Log::get`. -/
def Log.get (l : Log) (s : Snapshot) (row col : Nat) : Option Int64 :=
  match l.max.get 0, s.max.get 0, l.nodemap.get 0, s.nodemap.get 0 with
  | some maxT, some maxS, some bitT, some bitS =>
    let singleT := !bitT
    let singleS := !bitS
    let descend := Log.getGo l s l.sidelen l.sidelen row col (if singleT then none else some 0)
      (if singleS then none else some 0) maxT maxS
    if singleT && singleS then some (maxT + maxS)
    else if singleT then
      match l.equal.get 0 with
      | none => none
      | some false => some (maxT + maxS)
      | some true => descend
    else descend
  | _, _, _, _ => none

/-- log.rs:349-508 `Log::_fill_window`. -/
def Log.fillGo (l : Log) (s : Snapshot) (windowTop windowLeft : Nat) :
    (fuel sidelen top bottom left right : Nat) → (indexT indexS : Option Nat) →
    (maxT maxS : Int64) → (topOffset leftOffset : Nat) → Option (List (Nat × Nat × Int64))
  | 0, _, _, _, _, _, _, _, _, _, _, _ => none
  | fuel + 1, sidelen, top, bottom, left, right, indexT, indexS, maxT, maxS, topOffset,
      leftOffset =>
    let k := l.k
    if k = 0 then none else
    let sidelen := sidelen / k
    if sidelen = 0 then none else
    match childBase l.nodemap k indexT, childBase s.nodemap k indexS with
    | some baseT, some baseS =>
      collect (rangeIncl (top / sidelen) (bottom / sidelen)) fun i =>
        match csub bottom (i * sidelen) with
        | none => none
        | some b =>
        collect (rangeIncl (left / sidelen) (right / sidelen)) fun j =>
          match csub right (j * sidelen) with
          | none => none
          | some r =>
          let top' := top - i * sidelen  -- saturating_sub
          let bottom' := Nat.min (sidelen - 1) b
          let topOffset' := topOffset + i * sidelen
          let left' := left - j * sidelen  -- saturating_sub
          let right' := Nat.min (sidelen - 1) r
          let leftOffset' := leftOffset + j * sidelen
          let indexT' := baseT.map fun b => b + i * k + j
          let indexS' := baseS.map fun b => b + i * k + j
          match l.childMaxT maxT indexT', optLeaf isLeafGt l.nodemap indexT',
              s.childMaxS maxS indexS', optLeaf isLeafGt s.nodemap indexS' with
          | some maxT', some leafT, some maxS', some leafS =>
            let leaf := emitLeaf top' bottom' left' right' topOffset' leftOffset' windowTop
              windowLeft (maxT' + maxS')
            if leafT && leafS then leaf
            else if leafS then
              Log.fillGo l s windowTop windowLeft fuel sidelen top' bottom' left' right' indexT' none
                maxT' maxS' topOffset' leftOffset'
            else if leafT then
              let descend := Log.fillGo l s windowTop windowLeft fuel sidelen top' bottom' left'
                right' none indexS' maxT' maxS' topOffset' leftOffset'
              match indexT' with
              | none => descend
              | some index =>
                match l.nodemap.get index with
                | none => none
                | some true => descend
                | some false =>
                  match l.equalAt index with
                  | none => none
                  | some false => leaf
                  | some true => descend
            else
              Log.fillGo l s windowTop windowLeft fuel sidelen top' bottom' left' right' indexT'
                indexS' maxT' maxS' topOffset' leftOffset'
          | _, _, _, _ => none
    | _, _ => none

/-- log.rs:311-347 `Log::fill_window`. -/
def Log.fillWindow (l : Log) (s : Snapshot) (bounds : Rect) : Option (List (Nat × Nat × Int64)) :=
  match l.nodemap.get 0, s.nodemap.get 0 with
  | some bitT, some bitS =>
    let singleT := !bitT
    let singleS := !bitS
    -- `single_t && (single_s || !self.equal.get(0))`
    match (if singleT then (if singleS then some true else (l.equal.get 0).map (!·))
      else some false) with
    | none => none
    | some true =>
      match l.max.get 0, s.max.get 0, bounds.rows, bounds.cols with
      | some maxT, some maxS, some rows, some cols => some (emitAll rows cols (maxT + maxS))
      | _, _, _, _ => none
    | some false =>
      match csub bounds.bottom 1, csub bounds.right 1, l.max.get 0, s.max.get 0 with
      | some bottom, some right, some maxT, some maxS =>
        Log.fillGo l s bounds.top bounds.left l.sidelen l.sidelen bounds.top bottom bounds.left
          right (if singleT then none else some 0) (if singleS then none else some 0) maxT maxS 0 0
      | _, _, _, _ => none
  | _, _ => none

/-- Minimum of the child in the log before the leaf adjustments: log.rs:642-651. -/
def Log.childMinT (l : Log) (minT : Int64) (leafT : Bool) : Option Nat → Option Int64
  | none => some minT
  | some index =>
    if leafT then some minT
    else match l.nodemap.rank index with
      | none => none
      | some r => l.min.get r

/-- Minimum of the child in the snapshot before the leaf adjustments: log.rs:653-662. -/
def Snapshot.childMinS (s : Snapshot) (minS : Int64) (leafS : Bool) : Option Nat → Option Int64
  | none => some minS
  | some index =>
    if leafS then some minS
    else match s.nodemap.rank index with
      | none => none
      | some r => (s.min.get r).map fun d => minS + d

/-- log.rs:669-679: the log's minimum at a leaf; `minS`, `maxS`, `maxT` are already the child's. -/
def Log.leafMinT (l : Log) (minS maxS maxT : Int64) : Option Nat → Option Int64
  | none => some maxT
  | some index =>
    if index < l.nodemap.length then
      match l.equalAt index with
      | none => none
      | some false => some (maxS + maxT - minS)
      | some true => some maxT
    else some maxT

/-- log.rs:553-702 `Log::_search_window`. -/
def Log.searchGo (l : Log) (s : Snapshot) (lower upper : Int64) :
    (fuel sidelen top bottom left right : Nat) → (indexT indexS : Option Nat) →
    (minT minS maxT maxS : Int64) → (topOffset leftOffset : Nat) → Option (List (Nat × Nat))
  | 0, _, _, _, _, _, _, _, _, _, _, _, _, _ => none
  | fuel + 1, sidelen, top, bottom, left, right, indexT, indexS, minT, minS, maxT, maxS, topOffset,
      leftOffset =>
    let maxValue := maxS + maxT
    let minValue := minS + minT
    if minValue ≥ lower ∧ maxValue ≤ upper then
      some (pushCells top bottom left right topOffset leftOffset)
    else if minValue > upper ∨ maxValue < lower then some []
    else
    let k := l.k
    if k = 0 then none else
    let sidelen := sidelen / k
    if sidelen = 0 then none else
    match childBase l.nodemap k indexT, childBase s.nodemap k indexS with
    | some baseT, some baseS =>
      collect (rangeIncl (top / sidelen) (bottom / sidelen)) fun i =>
        match csub bottom (i * sidelen) with
        | none => none
        | some b =>
        collect (rangeIncl (left / sidelen) (right / sidelen)) fun j =>
          match csub right (j * sidelen) with
          | none => none
          | some r =>
          let top' := top - i * sidelen  -- saturating_sub
          let bottom' := Nat.min (sidelen - 1) b
          let topOffset' := topOffset + i * sidelen
          let left' := left - j * sidelen  -- saturating_sub
          let right' := Nat.min (sidelen - 1) r
          let leftOffset' := leftOffset + j * sidelen
          let indexT' := baseT.map fun b => b + i * k + j
          let indexS' := baseS.map fun b => b + i * k + j
          match l.childMaxT maxT indexT', s.childMaxS maxS indexS',
              optLeaf isLeafGe l.nodemap indexT', optLeaf isLeafGe s.nodemap indexS' with
          | some maxT', some maxS', some leafT, some leafS =>
            match l.childMinT minT leafT indexT', s.childMinS minS leafS indexS' with
            | some minT', some minS' =>
              let minS' := if leafS then maxS' else minS'
              let indexS'' := if leafS then none else indexS'
              match (if leafT then l.leafMinT minS' maxS' maxT' indexT' else some minT') with
              | none => none
              | some minT' =>
                let indexT'' := if leafT then none else indexT'
                Log.searchGo l s lower upper fuel sidelen top' bottom' left' right' indexT''
                  indexS'' minT' minS' maxT' maxS' topOffset' leftOffset'
            | _, _ => none
          | _, _, _, _ => none
    | _, _ => none

/-- log.rs:519-551 `Log::search_window`. The fuel is one more than for the other reads because the
test of a node happens one call deeper. -/
def Log.searchWindow (l : Log) (s : Snapshot) (bounds : Rect) (lower upper : Int64) :
    Option (List (Nat × Nat)) :=
  match l.nodemap.get 0, s.nodemap.get 0, csub bounds.bottom 1, csub bounds.right 1 with
  | some bitT, some bitS, some bottom, some right =>
    match l.min.get 0, s.min.get 0, l.max.get 0, s.max.get 0 with
    | some minT, some minS, some maxT, some maxS =>
      Log.searchGo l s lower upper (l.sidelen + 1) l.sidelen bounds.top bottom bounds.left right
        (if bitT then some 0 else none) (if bitS then some 0 else none) minT minS maxT maxS 0 0
    | _, _, _, _ => none
  | _, _, _, _ => none

end Verif
