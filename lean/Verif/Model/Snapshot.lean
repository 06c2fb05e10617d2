import Verif.Model.Dac
import Verif.Model.Geom

/-!
Model of `/repo/dcdf/src/snapshot.rs`.

* `k: i32` is `Nat`; the code needs `k ≥ 2` (theorems assume it).
* The side length is computed in snapshot.rs:118-119 as `k.pow(ceil(log_k(max(shape))))` with `f64`
  arithmetic. The model takes the exponent `e` as a parameter; theorems assume only that the square
  of side `k^e` covers the raster, which also covers the case where the float logarithm overshoots.
* The `set` callback becomes the list of calls `(row, col, value)` in order.
-/
namespace Verif

/-- snapshot.rs:20-42 `struct Snapshot`. -/
structure Snapshot where
  nodemap : BitMap
  max : Dac
  min : Dac
  k : Nat
  rows : Nat
  cols : Nat
  sidelen : Nat
deriving DecidableEq, Repr

/-- snapshot.rs:425-429 `struct K2TreeNode`. -/
inductive K2Node where
  | mk (max min : Option Int64) (children : List K2Node)

def K2Node.max : K2Node → Option Int64 | .mk m _ _ => m
def K2Node.min : K2Node → Option Int64 | .mk _ m _ => m
def K2Node.children : K2Node → List K2Node | .mk _ _ c => c

mutual
/-- Number of nodes of a tree (bounds the number of iterations of the traversal). -/
def K2Node.count : K2Node → Nat
  | .mk _ _ cs => 1 + K2Node.countList cs
def K2Node.countList : List K2Node → Nat
  | [] => 0
  | c :: cs => K2Node.count c + K2Node.countList cs
end

/-- snapshot.rs:480-488, one step of the maximum loop. -/
def stepMax (mx child : Option Int64) : Option Int64 :=
  match child with
  | some childMax =>
    match mx with
    | some nodeMax => if childMax > nodeMax then some childMax else mx
    | none => some childMax
  | none => mx

/-- snapshot.rs:489-497, one step of the minimum loop. -/
def stepMin (mn child : Option Int64) : Option Int64 :=
  match child with
  | some childMin =>
    match mn with
    | some nodeMin => if childMin < nodeMin then some childMin else mn
    | none => some childMin
  | none => mn

/-- snapshot.rs:439-500 `K2TreeNode::_build` for `sidelen = k^e`; the test `sidelen == 1` is
`e = 0`. `children[0]` exists because `k ≥ 1` (for `k = 0` the code panics earlier). -/
def K2Node.build (get : Nat → Nat → Int64) (rows cols k : Nat) : (e row col : Nat) → K2Node
  | 0, row, col =>
    let value := if row < rows ∧ col < cols then some (get row col) else none
    .mk value value []
  | e + 1, row, col =>
    let sidelen := k ^ e
    let children := (List.range k).flatMap fun i =>
      (List.range k).map fun j =>
        K2Node.build get rows cols k e (row + i * sidelen) (col + j * sidelen)
    let mx := children.tail.foldl (fun mx c => stepMax mx c.max) (children.head?.bind (·.max))
    let mn := children.tail.foldl (fun mn c => stepMin mn c.min) (children.head?.bind (·.min))
    .mk mx mn children

/-- An entry of the traversal queue, snapshot.rs:123: (diff_max, diff_min, node). -/
abbrev SnapEntry := Int64 × Int64 × K2Node

/-- snapshot.rs:135-141: the entries pushed for the children of a node. -/
def K2Node.childEntries (n : K2Node) : List SnapEntry :=
  n.children.map fun d =>
    (n.max.getD 0 - d.max.getD 0, d.min.getD 0 - n.min.getD 0, d)

/-- snapshot.rs:126-145, the breadth first traversal, with the bits, maxima and minima pushed so
far. Running out of fuel is `none`. -/
def Snapshot.traverse : (fuel : Nat) → List SnapEntry → List Bool → List Int64 → List Int64 →
    Option (List Bool × List Int64 × List Int64)
  | _, [], nodemap, max, min => some (nodemap, max, min)
  | 0, _ :: _, _, _, _ => none
  | fuel + 1, (diffMax, diffMin, child) :: queue, nodemap, max, min =>
    let childMax := child.max.getD 0
    let childMin := child.min.getD 0
    let max := max ++ [diffMax]
    if child.children.isEmpty then
      Snapshot.traverse fuel queue nodemap max min
    else
      let elide := childMin == childMax
      if elide then
        Snapshot.traverse fuel queue (nodemap ++ [false]) max min
      else
        Snapshot.traverse fuel (queue ++ child.childEntries) (nodemap ++ [true]) max
          (min ++ [diffMin])

/-- snapshot.rs:108-156 `Snapshot::build`. -/
def Snapshot.build (get : Nat → Nat → Int64) (rows cols k e : Nat) : Option Snapshot :=
  let root := K2Node.build get rows cols k e 0 0
  match Snapshot.traverse root.count [(root.max.getD 0, root.min.getD 0, root)] [] [] [] with
  | none => none
  | some (nodemap, max, min) =>
    match BitMap.ofBits nodemap, Dac.ofList max, Dac.ofList min with
    | some nodemap, some max, some min => some ⟨nodemap, max, min, k, rows, cols, k ^ e⟩
    | _, _, _ => none

/-- snapshot.rs:87-92 `Snapshot::size`. -/
def Snapshot.size (s : Snapshot) : Nat :=
  1 + 4 + 4 + 4 + s.nodemap.size + s.max.size + s.min.size

/-- `index >= self.nodemap.length || !self.nodemap.get(index)`, snapshot.rs:181. -/
def isLeafGe (m : BitMap) (index : Nat) : Option Bool :=
  if index ≥ m.length then some true
  else match m.get index with
    | none => none
    | some b => some (!b)

/-- snapshot.rs:174-188 `Snapshot::_get`. Division by a zero `sidelen` or `k` panics. -/
def Snapshot.getGo (s : Snapshot) : (fuel sidelen row col index : Nat) → (maxValue : Int64) →
    Option Int64
  | 0, _, _, _, _, _ => none
  | fuel + 1, sidelen, row, col, index, maxValue =>
    let k := s.k
    if k = 0 then none else
    let sidelen := sidelen / k
    if sidelen = 0 then none else
    match s.nodemap.rank index with
    | none => none
    | some r =>
      let index := 1 + r * k * k
      let index := index + row / sidelen * k + col / sidelen
      match s.max.get index with
      | none => none
      | some d =>
        let maxValue := maxValue - d
        match isLeafGe s.nodemap index with
        | none => none
        | some true => some maxValue
        | some false => Snapshot.getGo s fuel sidelen (row % sidelen) (col % sidelen) index maxValue

/-- snapshot.rs:165-172 `Snapshot::get`. The fuel (side length) exceeds the height of the tree. -/
def Snapshot.get (s : Snapshot) (row col : Nat) : Option Int64 :=
  match s.nodemap.get 0 with
  | none => none
  | some false => s.max.get 0
  | some true =>
    match s.max.get 0 with
    | none => none
    | some m => Snapshot.getGo s s.sidelen s.sidelen row col 0 m

/-- snapshot.rs:262-272: the calls of `set` for a leaf. -/
def emitLeaf (top bottom left right topOffset leftOffset windowTop windowLeft : Nat)
    (value : Int64) : Option (List (Nat × Nat × Int64)) :=
  collect (rangeIncl top bottom) fun row =>
    collect (rangeIncl left right) fun col =>
      match csub (topOffset + row) windowTop, csub (leftOffset + col) windowLeft with
      | some r, some c => some [(r, c, value)]
      | _, _ => none

/-- snapshot.rs:237-301 `Snapshot::_fill_window`. -/
def Snapshot.fillGo (s : Snapshot) (windowTop windowLeft : Nat) :
    (fuel sidelen top bottom left right index : Nat) → (maxValue : Int64) →
    (topOffset leftOffset : Nat) → Option (List (Nat × Nat × Int64))
  | 0, _, _, _, _, _, _, _, _, _ => none
  | fuel + 1, sidelen, top, bottom, left, right, index, maxValue, topOffset, leftOffset =>
    let k := s.k
    if k = 0 then none else
    let sidelen := sidelen / k
    if sidelen = 0 then none else
    match s.nodemap.rank index with
    | none => none
    | some r =>
      let index := 1 + r * k * k
      collect (rangeIncl (top / sidelen) (bottom / sidelen)) fun i =>
        match csub bottom (i * sidelen) with
        | none => none
        | some b =>
        let top' := top - i * sidelen  -- saturating_sub
        let bottom' := Nat.min (sidelen - 1) b
        let topOffset' := topOffset + i * sidelen
        collect (rangeIncl (left / sidelen) (right / sidelen)) fun j =>
          match csub right (j * sidelen) with
          | none => none
          | some r =>
          let left' := left - j * sidelen  -- saturating_sub
          let right' := Nat.min (sidelen - 1) r
          let leftOffset' := leftOffset + j * sidelen
          let index' := index + i * k + j
          match s.max.get index' with
          | none => none
          | some d =>
            let maxValue' := maxValue - d
            match isLeafGe s.nodemap index' with
            | none => none
            | some true =>
              emitLeaf top' bottom' left' right' topOffset' leftOffset' windowTop windowLeft
                maxValue'
            | some false =>
              Snapshot.fillGo s windowTop windowLeft fuel sidelen top' bottom' left' right' index'
                maxValue' topOffset' leftOffset'

/-- snapshot.rs:215-219 (and log.rs:325-329): constant fill of the whole window. -/
def emitAll (rows cols : Nat) (value : Int64) : List (Nat × Nat × Int64) :=
  (rangeExcl 0 rows).flatMap fun row => (rangeExcl 0 cols).map fun col => (row, col, value)

/-- snapshot.rs:204-235 `Snapshot::fill_window`. -/
def Snapshot.fillWindow (s : Snapshot) (bounds : Rect) : Option (List (Nat × Nat × Int64)) :=
  match bounds.rows, bounds.cols with
  | some rows, some cols =>
    match s.nodemap.get 0 with
    | none => none
    | some false =>
      match s.max.get 0 with
      | none => none
      | some value => some (emitAll rows cols value)
    | some true =>
      match csub bounds.bottom 1, csub bounds.right 1, s.max.get 0 with
      | some bottom, some right, some m =>
        Snapshot.fillGo s bounds.top bounds.left s.sidelen s.sidelen bounds.top bottom bounds.left
          right 0 m 0 0
      | _, _, _ => none
  | _, _ => none

/-- snapshot.rs:383-387 (and 395-399): push all cells of a sub-window. -/
def pushCells (top bottom left right topOffset leftOffset : Nat) : List (Nat × Nat) :=
  (rangeIncl top bottom).flatMap fun row =>
    (rangeIncl left right).map fun col => (topOffset + row, leftOffset + col)

/-- snapshot.rs:347-421 `Snapshot::_search_window`. -/
def Snapshot.searchGo (s : Snapshot) (lower upper : Int64) :
    (fuel sidelen top bottom left right index : Nat) → (minValue maxValue : Int64) →
    (topOffset leftOffset : Nat) → Option (List (Nat × Nat))
  | 0, _, _, _, _, _, _, _, _, _, _ => none
  | fuel + 1, sidelen, top, bottom, left, right, index, minValue, maxValue, topOffset,
      leftOffset =>
    let k := s.k
    if k = 0 then none else
    let sidelen := sidelen / k
    if sidelen = 0 then none else
    match s.nodemap.rank index with
    | none => none
    | some r =>
      let index := 1 + r * k * k
      collect (rangeIncl (top / sidelen) (bottom / sidelen)) fun i =>
        match csub bottom (i * sidelen) with
        | none => none
        | some b =>
        let top' := top - i * sidelen  -- saturating_sub
        let bottom' := Nat.min (sidelen - 1) b
        let topOffset' := topOffset + i * sidelen
        collect (rangeIncl (left / sidelen) (right / sidelen)) fun j =>
          match csub right (j * sidelen) with
          | none => none
          | some r =>
          let left' := left - j * sidelen  -- saturating_sub
          let right' := Nat.min (sidelen - 1) r
          let leftOffset' := leftOffset + j * sidelen
          let index' := index + i * k + j
          match s.max.get index' with
          | none => none
          | some d =>
            let maxValue' := maxValue - d
            match isLeafGe s.nodemap index' with
            | none => none
            | some true =>
              if lower ≤ maxValue' ∧ maxValue' ≤ upper then
                some (pushCells top' bottom' left' right' topOffset' leftOffset')
              else some []
            | some false =>
              match s.nodemap.rank index' with
              | none => none
              | some r' =>
                match s.min.get r' with
                | none => none
                | some dmin =>
                  let minValue' := minValue + dmin
                  -- the code compares `lower` with the parent's minimum here
                  if lower ≤ minValue ∧ maxValue' ≤ upper then
                    some (pushCells top' bottom' left' right' topOffset' leftOffset')
                  else if upper ≥ minValue' ∧ lower ≤ maxValue' then
                    Snapshot.searchGo s lower upper fuel sidelen top' bottom' left' right' index'
                      minValue' maxValue' topOffset' leftOffset'
                  else some []

/-- snapshot.rs:310-345 `Snapshot::search_window`. -/
def Snapshot.searchWindow (s : Snapshot) (bounds : Rect) (lower upper : Int64) :
    Option (List (Nat × Nat)) :=
  match s.nodemap.get 0 with
  | none => none
  | some false =>
    match s.max.get 0 with
    | none => none
    | some value =>
      if lower ≤ value ∧ value ≤ upper then bounds.cells else some []
  | some true =>
    match csub bounds.bottom 1, csub bounds.right 1, s.min.get 0, s.max.get 0 with
    | some bottom, some right, some mn, some mx =>
      Snapshot.searchGo s lower upper s.sidelen s.sidelen bounds.top bottom bounds.left right 0 mn mx
        0 0
    | _, _, _, _ => none

end Verif
