import Verif.Model.Chunk

/-!
Snapshots, logs, blocks and chunks in a build with overflow checks (the default of Cargo's `dev` and
`test` profiles; no profile is set in /repo/Cargo.toml): `+` and `-` on `i64` panic when the result
does not fit. The other models describe builds without these checks, where they wrap.

Only the arithmetic differs. All additions and subtractions of `i64` in snapshot.rs and log.rs are
here; the shifts of dac.rs are not checked for the value, and all other arithmetic is on `usize` and
`u64`, modelled by natural numbers as in the other models.
-/
namespace Verif

/-- The integer is in the range of `i64`. -/
def InI64 (x : Int) : Prop := -9223372036854775808 ≤ x ∧ x ≤ 9223372036854775807

instance (x : Int) : Decidable (InI64 x) := by unfold InI64; infer_instance

/-- `a + b` with overflow check. -/
def ckAdd (a b : Int64) : Option Int64 := if InI64 (a.toInt + b.toInt) then some (a + b) else none

/-- `a - b` with overflow check. -/
def ckSub (a b : Int64) : Option Int64 := if InI64 (a.toInt - b.toInt) then some (a - b) else none

/-- snapshot.rs:135-141: the entries pushed for the children of a node. -/
def K2Node.childEntriesC (n : K2Node) : Option (List SnapEntry) :=
  collect n.children fun d =>
    match ckSub (n.max.getD 0) (d.max.getD 0), ckSub (d.min.getD 0) (n.min.getD 0) with
    | some diffMax, some diffMin => some [(diffMax, diffMin, d)]
    | _, _ => none

/-- snapshot.rs:126-145, the breadth first traversal. -/
def Snapshot.traverseC : (fuel : Nat) → List SnapEntry → List Bool → List Int64 → List Int64 →
    Option (List Bool × List Int64 × List Int64)
  | _, [], nodemap, max, min => some (nodemap, max, min)
  | 0, _ :: _, _, _, _ => none
  | fuel + 1, (diffMax, diffMin, child) :: queue, nodemap, max, min =>
    let childMax := child.max.getD 0
    let childMin := child.min.getD 0
    let max := max ++ [diffMax]
    if child.children.isEmpty then
      Snapshot.traverseC fuel queue nodemap max min
    else
      let elide := childMin == childMax
      if elide then
        Snapshot.traverseC fuel queue (nodemap ++ [false]) max min
      else
        match child.childEntriesC with
        | none => none
        | some entries =>
          Snapshot.traverseC fuel (queue ++ entries) (nodemap ++ [true]) max (min ++ [diffMin])

/-- snapshot.rs:108-156 `Snapshot::build`. -/
def Snapshot.buildC (get : Nat → Nat → Int64) (rows cols k e : Nat) : Option Snapshot :=
  let root := K2Node.build get rows cols k e 0 0
  match Snapshot.traverseC root.count [(root.max.getD 0, root.min.getD 0, root)] [] [] [] with
  | none => none
  | some (nodemap, max, min) =>
    match BitMap.ofBits nodemap, Dac.ofList max, Dac.ofList min with
    | some nodemap, some max, some min => some ⟨nodemap, max, min, k, rows, cols, k ^ e⟩
    | _, _, _ => none

/-- snapshot.rs:174-188 `Snapshot::_get`. -/
def Snapshot.getGoC (s : Snapshot) : (fuel sidelen row col index : Nat) → (maxValue : Int64) →
    Option Int64
  | 0, _, _, _, _, _ => none
  | fuel + 1, sidelen, row, col, index, maxValue =>
    let k := s.k
    if k = 0 then none else
    let sidelen := sidelen / k
    if sidelen = 0 then none else
    match s.nodemap.rank index with
    | none => none
    | some r =>
      let index := 1 + r * k * k
      let index := index + row / sidelen * k + col / sidelen
      match s.max.get index with
      | none => none
      | some d =>
        match ckSub maxValue d with
        | none => none
        | some maxValue =>
        match isLeafGe s.nodemap index with
        | none => none
        | some true => some maxValue
        | some false => Snapshot.getGoC s fuel sidelen (row % sidelen) (col % sidelen) index maxValue

/-- snapshot.rs:165-172 `Snapshot::get`. -/
def Snapshot.getC (s : Snapshot) (row col : Nat) : Option Int64 :=
  match s.nodemap.get 0 with
  | none => none
  | some false => s.max.get 0
  | some true =>
    match s.max.get 0 with
    | none => none
    | some m => Snapshot.getGoC s s.sidelen s.sidelen row col 0 m

/-- snapshot.rs:237-301 `Snapshot::_fill_window`. -/
def Snapshot.fillGoC (s : Snapshot) (windowTop windowLeft : Nat) :
    (fuel sidelen top bottom left right index : Nat) → (maxValue : Int64) →
    (topOffset leftOffset : Nat) → Option (List (Nat × Nat × Int64))
  | 0, _, _, _, _, _, _, _, _, _ => none
  | fuel + 1, sidelen, top, bottom, left, right, index, maxValue, topOffset, leftOffset =>
    let k := s.k
    if k = 0 then none else
    let sidelen := sidelen / k
    if sidelen = 0 then none else
    match s.nodemap.rank index with
    | none => none
    | some r =>
      let index := 1 + r * k * k
      collect (rangeIncl (top / sidelen) (bottom / sidelen)) fun i =>
        match csub bottom (i * sidelen) with
        | none => none
        | some b =>
        let top' := top - i * sidelen  -- saturating_sub
        let bottom' := Nat.min (sidelen - 1) b
        let topOffset' := topOffset + i * sidelen
        collect (rangeIncl (left / sidelen) (right / sidelen)) fun j =>
          match csub right (j * sidelen) with
          | none => none
          | some r =>
          let left' := left - j * sidelen  -- saturating_sub
          let right' := Nat.min (sidelen - 1) r
          let leftOffset' := leftOffset + j * sidelen
          let index' := index + i * k + j
          match s.max.get index' with
          | none => none
          | some d =>
            match ckSub maxValue d with
            | none => none
            | some maxValue' =>
            match isLeafGe s.nodemap index' with
            | none => none
            | some true =>
              emitLeaf top' bottom' left' right' topOffset' leftOffset' windowTop windowLeft
                maxValue'
            | some false =>
              Snapshot.fillGoC s windowTop windowLeft fuel sidelen top' bottom' left' right' index'
                maxValue' topOffset' leftOffset'

/-- snapshot.rs:204-235 `Snapshot::fill_window`. -/
def Snapshot.fillWindowC (s : Snapshot) (bounds : Rect) : Option (List (Nat × Nat × Int64)) :=
  match bounds.rows, bounds.cols with
  | some rows, some cols =>
    match s.nodemap.get 0 with
    | none => none
    | some false =>
      match s.max.get 0 with
      | none => none
      | some value => some (emitAll rows cols value)
    | some true =>
      match csub bounds.bottom 1, csub bounds.right 1, s.max.get 0 with
      | some bottom, some right, some m =>
        Snapshot.fillGoC s bounds.top bounds.left s.sidelen s.sidelen bounds.top bottom bounds.left
          right 0 m 0 0
      | _, _, _ => none
  | _, _ => none

/-- snapshot.rs:347-421 `Snapshot::_search_window`. -/
def Snapshot.searchGoC (s : Snapshot) (lower upper : Int64) :
    (fuel sidelen top bottom left right index : Nat) → (minValue maxValue : Int64) →
    (topOffset leftOffset : Nat) → Option (List (Nat × Nat))
  | 0, _, _, _, _, _, _, _, _, _, _ => none
  | fuel + 1, sidelen, top, bottom, left, right, index, minValue, maxValue, topOffset,
      leftOffset =>
    let k := s.k
    if k = 0 then none else
    let sidelen := sidelen / k
    if sidelen = 0 then none else
    match s.nodemap.rank index with
    | none => none
    | some r =>
      let index := 1 + r * k * k
      collect (rangeIncl (top / sidelen) (bottom / sidelen)) fun i =>
        match csub bottom (i * sidelen) with
        | none => none
        | some b =>
        let top' := top - i * sidelen  -- saturating_sub
        let bottom' := Nat.min (sidelen - 1) b
        let topOffset' := topOffset + i * sidelen
        collect (rangeIncl (left / sidelen) (right / sidelen)) fun j =>
          match csub right (j * sidelen) with
          | none => none
          | some r =>
          let left' := left - j * sidelen  -- saturating_sub
          let right' := Nat.min (sidelen - 1) r
          let leftOffset' := leftOffset + j * sidelen
          let index' := index + i * k + j
          match s.max.get index' with
          | none => none
          | some d =>
            match ckSub maxValue d with
            | none => none
            | some maxValue' =>
            match isLeafGe s.nodemap index' with
            | none => none
            | some true =>
              if lower ≤ maxValue' ∧ maxValue' ≤ upper then
                some (pushCells top' bottom' left' right' topOffset' leftOffset')
              else some []
            | some false =>
              match s.nodemap.rank index' with
              | none => none
              | some r' =>
                match s.min.get r' with
                | none => none
                | some dmin =>
                  match ckAdd minValue dmin with
                  | none => none
                  | some minValue' =>
                  -- the code compares `lower` with the parent's minimum here
                  if lower ≤ minValue ∧ maxValue' ≤ upper then
                    some (pushCells top' bottom' left' right' topOffset' leftOffset')
                  else if upper ≥ minValue' ∧ lower ≤ maxValue' then
                    Snapshot.searchGoC s lower upper fuel sidelen top' bottom' left' right' index'
                      minValue' maxValue' topOffset' leftOffset'
                  else some []

/-- snapshot.rs:310-345 `Snapshot::search_window`. -/
def Snapshot.searchWindowC (s : Snapshot) (bounds : Rect) (lower upper : Int64) :
    Option (List (Nat × Nat)) :=
  match s.nodemap.get 0 with
  | none => none
  | some false =>
    match s.max.get 0 with
    | none => none
    | some value =>
      if lower ≤ value ∧ value ≤ upper then bounds.cells else some []
  | some true =>
    match csub bounds.bottom 1, csub bounds.right 1, s.min.get 0, s.max.get 0 with
    | some bottom, some right, some mn, some mx =>
      Snapshot.searchGoC s lower upper s.sidelen s.sidelen bounds.top bottom bounds.left right 0 mn mx
        0 0
    | _, _, _, _ => none

/-- log.rs:725-817 `K2PTreeNode::_build` for `sidelen = k^e`. -/
def K2PNode.buildC (getS getT : Nat → Nat → Int64) (rows cols k : Nat) :
    (e row col : Nat) → Option K2PNode
  | 0, row, col =>
    let valueS := if row < rows ∧ col < cols then some (getS row col) else none
    let valueT := if row < rows ∧ col < cols then some (getT row col) else none
    match ckSub (valueT.getD 0) (valueS.getD 0) with
    | none => none
    | some diff => some (.mk valueT valueT valueS valueS diff true [])
  | e + 1, row, col =>
    let sidelen := k ^ e
    match collect (List.range k) (fun i => collect (List.range k) fun j =>
        (K2PNode.buildC getS getT rows cols k e (row + i * sidelen) (col + j * sidelen)).map
          ([·])) with
    | none => none
    | some children =>
      let diff := match children.head? with
        | some c => c.diff
        | none => 0
      some (.mk (children.tail.foldl (fun m c => K2PNode.keepMax m c.maxT)
          (children.head?.bind (·.maxT)))
        (children.tail.foldl (fun m c => K2PNode.keepMin m c.minT) (children.head?.bind (·.minT)))
        (children.tail.foldl (fun m c => K2PNode.keepMax m c.maxS) (children.head?.bind (·.maxS)))
        (children.tail.foldl (fun m c => K2PNode.keepMin m c.minS) (children.head?.bind (·.minS)))
        diff
        (children.tail.foldl (fun q c => q && (c.diff == diff)) (children.all (·.equal)))
        children)

/-- log.rs:132-154, the breadth first traversal. -/
def Log.traverseC : (fuel : Nat) → List K2PNode → (nodemap equal : List Bool) →
    (max min : List Int64) → Option (List Bool × List Bool × List Int64 × List Int64)
  | _, [], nodemap, equal, max, min => some (nodemap, equal, max, min)
  | 0, _ :: _, _, _, _, _ => none
  | fuel + 1, node :: queue, nodemap, equal, max, min =>
    match ckSub (node.maxT.getD 0) (node.maxS.getD 0) with
    | none => none
    | some diffMax =>
    let max := max ++ [diffMax]
    if node.children.isEmpty then
      Log.traverseC fuel queue nodemap equal max min
    else if node.minT = node.maxT then
      Log.traverseC fuel queue (nodemap ++ [false]) (equal ++ [false]) max min
    else if node.equal then
      Log.traverseC fuel queue (nodemap ++ [false]) (equal ++ [true]) max min
    else
      match node.minT, node.minS with
      | some minT, some minS =>
        match ckSub minT minS with
        | none => none
        | some diffMin =>
          Log.traverseC fuel (queue ++ node.children) (nodemap ++ [true]) equal max
            (min ++ [diffMin])
      | _, _ => none

/-- log.rs:112-165 `Log::build`. -/
def Log.buildC (getS getT : Nat → Nat → Int64) (rows cols k e : Nat) : Option Log :=
  match K2PNode.buildC getS getT rows cols k e 0 0 with
  | none => none
  | some root =>
    match Log.traverseC root.count [root] [] [] [] [] with
    | none => none
    | some (nodemap, equal, max, min) =>
      match BitMap.ofBits nodemap, BitMap.ofBits equal, Dac.ofList max, Dac.ofList min with
      | some nodemap, some equal, some max, some min =>
        some ⟨nodemap, equal, max, min, k, rows, cols, k ^ e⟩
      | _, _, _, _ => none

/-- Maximum of the child in the snapshot: log.rs:223 and 412-415. -/
def Snapshot.childMaxSC (s : Snapshot) (maxS : Int64) : Option Nat → Option Int64
  | none => some maxS
  | some index => (s.max.get index).bind fun d => ckSub maxS d

/-- log.rs:203-293 `Log::_get`. -/
def Log.getGoC (l : Log) (s : Snapshot) : (fuel sidelen row col : Nat) →
    (indexT indexS : Option Nat) → (maxT maxS : Int64) → Option Int64
  | 0, _, _, _, _, _, _, _ => none
  | fuel + 1, sidelen, row, col, indexT, indexS, maxT, maxS =>
    let k := l.k
    if k = 0 then none else
    let sidelen := sidelen / k
    if sidelen = 0 then none else
    match childBase s.nodemap k indexS, childBase l.nodemap k indexT with
    | some baseS, some baseT =>
      let indexS := baseS.map fun b => b + row / sidelen * k + col / sidelen
      let indexT := baseT.map fun b => b + row / sidelen * k + col / sidelen
      match s.childMaxSC maxS indexS, l.childMaxT maxT indexT,
          optLeaf isLeafGt l.nodemap indexT, optLeaf isLeafGt s.nodemap indexS with
      | some maxS, some maxT, some leafT, some leafS =>
        if leafT && leafS then ckAdd maxT maxS
        else if leafS then
          Log.getGoC l s fuel sidelen (row % sidelen) (col % sidelen) indexT none maxT maxS
        else if leafT then
          let descend :=
            Log.getGoC l s fuel sidelen (row % sidelen) (col % sidelen) none indexS maxT maxS
          match indexT with
          | none => descend
          | some index =>
            if index < l.nodemap.length then
              match l.equalAt index with
              | none => none
              | some false => ckAdd maxT maxS
              | some true => descend
            else descend
        else
          Log.getGoC l s fuel sidelen (row % sidelen) (col % sidelen) indexT indexS maxT maxS
      | _, _, _, _ => none
    | _, _ => none

/-- log.rs:176-201 `Log::get`. -/
def Log.getC (l : Log) (s : Snapshot) (row col : Nat) : Option Int64 :=
  match l.max.get 0, s.max.get 0, l.nodemap.get 0, s.nodemap.get 0 with
  | some maxT, some maxS, some bitT, some bitS =>
    let singleT := !bitT
    let singleS := !bitS
    let descend := Log.getGoC l s l.sidelen l.sidelen row col (if singleT then none else some 0)
      (if singleS then none else some 0) maxT maxS
    if singleT && singleS then ckAdd maxT maxS
    else if singleT then
      match l.equal.get 0 with
      | none => none
      | some false => ckAdd maxT maxS
      | some true => descend
    else descend
  | _, _, _, _ => none

/-- log.rs:349-508 `Log::_fill_window`. -/
def Log.fillGoC (l : Log) (s : Snapshot) (windowTop windowLeft : Nat) :
    (fuel sidelen top bottom left right : Nat) → (indexT indexS : Option Nat) →
    (maxT maxS : Int64) → (topOffset leftOffset : Nat) → Option (List (Nat × Nat × Int64))
  | 0, _, _, _, _, _, _, _, _, _, _, _ => none
  | fuel + 1, sidelen, top, bottom, left, right, indexT, indexS, maxT, maxS, topOffset,
      leftOffset =>
    let k := l.k
    if k = 0 then none else
    let sidelen := sidelen / k
    if sidelen = 0 then none else
    match childBase l.nodemap k indexT, childBase s.nodemap k indexS with
    | some baseT, some baseS =>
      collect (rangeIncl (top / sidelen) (bottom / sidelen)) fun i =>
        match csub bottom (i * sidelen) with
        | none => none
        | some b =>
        collect (rangeIncl (left / sidelen) (right / sidelen)) fun j =>
          match csub right (j * sidelen) with
          | none => none
          | some r =>
          let top' := top - i * sidelen  -- saturating_sub
          let bottom' := Nat.min (sidelen - 1) b
          let topOffset' := topOffset + i * sidelen
          let left' := left - j * sidelen  -- saturating_sub
          let right' := Nat.min (sidelen - 1) r
          let leftOffset' := leftOffset + j * sidelen
          let indexT' := baseT.map fun b => b + i * k + j
          let indexS' := baseS.map fun b => b + i * k + j
          match l.childMaxT maxT indexT', optLeaf isLeafGt l.nodemap indexT',
              s.childMaxSC maxS indexS', optLeaf isLeafGt s.nodemap indexS' with
          | some maxT', some leafT, some maxS', some leafS =>
            let leaf := match ckAdd maxT' maxS' with
              | none => none
              | some value => emitLeaf top' bottom' left' right' topOffset' leftOffset' windowTop
                windowLeft value
            if leafT && leafS then leaf
            else if leafS then
              Log.fillGoC l s windowTop windowLeft fuel sidelen top' bottom' left' right' indexT' none
                maxT' maxS' topOffset' leftOffset'
            else if leafT then
              let descend := Log.fillGoC l s windowTop windowLeft fuel sidelen top' bottom' left'
                right' none indexS' maxT' maxS' topOffset' leftOffset'
              match indexT' with
              | none => descend
              | some index =>
                match l.nodemap.get index with
                | none => none
                | some true => descend
                | some false =>
                  match l.equalAt index with
                  | none => none
                  | some false => leaf
                  | some true => descend
            else
              Log.fillGoC l s windowTop windowLeft fuel sidelen top' bottom' left' right' indexT'
                indexS' maxT' maxS' topOffset' leftOffset'
          | _, _, _, _ => none
    | _, _ => none

/-- log.rs:311-347 `Log::fill_window`. -/
def Log.fillWindowC (l : Log) (s : Snapshot) (bounds : Rect) : Option (List (Nat × Nat × Int64)) :=
  match l.nodemap.get 0, s.nodemap.get 0 with
  | some bitT, some bitS =>
    let singleT := !bitT
    let singleS := !bitS
    -- `single_t && (single_s || !self.equal.get(0))`
    match (if singleT then (if singleS then some true else (l.equal.get 0).map (!·))
      else some false) with
    | none => none
    | some true =>
      match l.max.get 0, s.max.get 0, bounds.rows, bounds.cols with
      | some maxT, some maxS, some rows, some cols =>
        (ckAdd maxT maxS).map fun value => emitAll rows cols value
      | _, _, _, _ => none
    | some false =>
      match csub bounds.bottom 1, csub bounds.right 1, l.max.get 0, s.max.get 0 with
      | some bottom, some right, some maxT, some maxS =>
        Log.fillGoC l s bounds.top bounds.left l.sidelen l.sidelen bounds.top bottom bounds.left
          right (if singleT then none else some 0) (if singleS then none else some 0) maxT maxS 0 0
      | _, _, _, _ => none
  | _, _ => none

/-- Minimum of the child in the snapshot before the leaf adjustments: log.rs:653-662. -/
def Snapshot.childMinSC (s : Snapshot) (minS : Int64) (leafS : Bool) : Option Nat → Option Int64
  | none => some minS
  | some index =>
    if leafS then some minS
    else match s.nodemap.rank index with
      | none => none
      | some r => (s.min.get r).bind fun d => ckAdd minS d

/-- log.rs:669-679: the log's minimum at a leaf. -/
def Log.leafMinTC (l : Log) (minS maxS maxT : Int64) : Option Nat → Option Int64
  | none => some maxT
  | some index =>
    if index < l.nodemap.length then
      match l.equalAt index with
      | none => none
      | some false => (ckAdd maxS maxT).bind fun v => ckSub v minS
      | some true => some maxT
    else some maxT

/-- log.rs:553-702 `Log::_search_window`. -/
def Log.searchGoC (l : Log) (s : Snapshot) (lower upper : Int64) :
    (fuel sidelen top bottom left right : Nat) → (indexT indexS : Option Nat) →
    (minT minS maxT maxS : Int64) → (topOffset leftOffset : Nat) → Option (List (Nat × Nat))
  | 0, _, _, _, _, _, _, _, _, _, _, _, _, _ => none
  | fuel + 1, sidelen, top, bottom, left, right, indexT, indexS, minT, minS, maxT, maxS, topOffset,
      leftOffset =>
    match ckAdd maxS maxT, ckAdd minS minT with
    | none, _ => none
    | some _, none => none
    | some maxValue, some minValue =>
    if minValue ≥ lower ∧ maxValue ≤ upper then
      some (pushCells top bottom left right topOffset leftOffset)
    else if minValue > upper ∨ maxValue < lower then some []
    else
    let k := l.k
    if k = 0 then none else
    let sidelen := sidelen / k
    if sidelen = 0 then none else
    match childBase l.nodemap k indexT, childBase s.nodemap k indexS with
    | some baseT, some baseS =>
      collect (rangeIncl (top / sidelen) (bottom / sidelen)) fun i =>
        match csub bottom (i * sidelen) with
        | none => none
        | some b =>
        collect (rangeIncl (left / sidelen) (right / sidelen)) fun j =>
          match csub right (j * sidelen) with
          | none => none
          | some r =>
          let top' := top - i * sidelen  -- saturating_sub
          let bottom' := Nat.min (sidelen - 1) b
          let topOffset' := topOffset + i * sidelen
          let left' := left - j * sidelen  -- saturating_sub
          let right' := Nat.min (sidelen - 1) r
          let leftOffset' := leftOffset + j * sidelen
          let indexT' := baseT.map fun b => b + i * k + j
          let indexS' := baseS.map fun b => b + i * k + j
          match l.childMaxT maxT indexT', s.childMaxSC maxS indexS',
              optLeaf isLeafGe l.nodemap indexT', optLeaf isLeafGe s.nodemap indexS' with
          | some maxT', some maxS', some leafT, some leafS =>
            match l.childMinT minT leafT indexT', s.childMinSC minS leafS indexS' with
            | some minT', some minS' =>
              let minS' := if leafS then maxS' else minS'
              let indexS'' := if leafS then none else indexS'
              match (if leafT then l.leafMinTC minS' maxS' maxT' indexT' else some minT') with
              | none => none
              | some minT' =>
                let indexT'' := if leafT then none else indexT'
                Log.searchGoC l s lower upper fuel sidelen top' bottom' left' right' indexT''
                  indexS'' minT' minS' maxT' maxS' topOffset' leftOffset'
            | _, _ => none
          | _, _, _, _ => none
    | _, _ => none

/-- log.rs:519-551 `Log::search_window`. -/
def Log.searchWindowC (l : Log) (s : Snapshot) (bounds : Rect) (lower upper : Int64) :
    Option (List (Nat × Nat)) :=
  match l.nodemap.get 0, s.nodemap.get 0, csub bounds.bottom 1, csub bounds.right 1 with
  | some bitT, some bitS, some bottom, some right =>
    match l.min.get 0, s.min.get 0, l.max.get 0, s.max.get 0 with
    | some minT, some minS, some maxT, some maxS =>
      Log.searchGoC l s lower upper (l.sidelen + 1) l.sidelen bounds.top bottom bounds.left right
        (if bitT then some 0 else none) (if bitS then some 0 else none) minT minS maxT maxS 0 0
    | _, _, _, _ => none
  | _, _, _, _ => none

/-- block.rs:42-47 `Block::get`. -/
def Block.getC (b : Block) (instant row col : Nat) : Option Int64 :=
  match instant with
  | 0 => b.snapshot.getC row col
  | i + 1 =>
    match b.logs[i]? with
    | none => none
    | some l => l.getC b.snapshot row col

/-- block.rs:56-64 `Block::fill_window`. -/
def Block.fillWindowC (b : Block) (instant : Nat) (bounds : Rect) :
    Option (List (Nat × Nat × Int64)) :=
  match instant with
  | 0 => b.snapshot.fillWindowC bounds
  | i + 1 =>
    match b.logs[i]? with
    | none => none
    | some l => l.fillWindowC b.snapshot bounds

/-- block.rs:70-81 `Block::search_window`. -/
def Block.searchWindowC (b : Block) (instant : Nat) (bounds : Rect) (lower upper : Int64) :
    Option (List (Nat × Nat)) :=
  match instant with
  | 0 => b.snapshot.searchWindowC bounds lower upper
  | i + 1 =>
    match b.logs[i]? with
    | none => none
    | some l => l.searchWindowC b.snapshot bounds lower upper

/-- chunk.rs:55-75, one iteration of the loop of `Chunk::build`. -/
def Chunk.buildStepC (get : Nat → Nat → Nat → Int64) (rows cols k e : Nat) (st : Chunk.BuildState)
    (i : Nat) : Option Chunk.BuildState :=
  match Snapshot.buildC (get i) rows cols k e,
      Log.buildC (get st.snapshotIndex) (get i) rows cols k e with
  | some newSnapshot, some newLog =>
    if st.logs.length = 254 ∨ newSnapshot.size ≤ newLog.size then
      match Block.new st.snapshot st.logs with
      | none => none
      | some block =>
        some ⟨st.countSnapshots + 1, st.countLogs + st.logs.length, st.blocks ++ [block],
          newSnapshot, i, []⟩
    else
      some { st with logs := st.logs ++ [newLog] }
  | _, _ => none

/-- chunk.rs:42-96 `Chunk::build`. -/
def Chunk.buildC (get : Nat → Nat → Nat → Int64) (instants rows cols k e : Nat)
    (encoding : MMEncoding) (fractionalBits : Nat) : Option Chunk.Build :=
  match Snapshot.buildC (get 0) rows cols k e with
  | none => none
  | some snapshot =>
    match (rangeExcl 1 instants).foldlM (Chunk.buildStepC get rows cols k e)
        ⟨0, 0, [], snapshot, 0, []⟩ with
    | none => none
    | some st =>
      match Block.new st.snapshot st.logs with
      | none => none
      | some block =>
        let chunk := Chunk.new (st.blocks ++ [block]) encoding fractionalBits
        some ⟨chunk, chunk.size, st.countLogs + st.logs.length, st.countSnapshots + 1⟩

/-- chunk.rs:127-131 `Chunk::get`. -/
def Chunk.getC (c : Chunk) (instant row col : Nat) : Option Int64 :=
  match c.findBlock instant with
  | none => none
  | some (block, instant) =>
    match c.blocks[block]? with
    | none => none
    | some b => b.getC instant row col

/-- chunk.rs:135-148 `Chunk::fill_cell`: calls `buffer.set(i, value)`. -/
def Chunk.fillCellC (c : Chunk) (start fin row col : Nat) : Option (List (Nat × Int64)) :=
  match c.iterList start fin with
  | none => none
  | some L =>
    collect L fun p =>
      match c.blocks[p.1.1]? with
      | none => none
      | some b => (b.getC p.1.2 row col).map fun v => [(p.2, v)]

/-- chunk.rs:152-158 `Chunk::fill_window`: calls `buffer.set(i, row, col, value)`. -/
def Chunk.fillWindowC (c : Chunk) (bounds : Cube) : Option (List (Nat × Nat × Nat × Int64)) :=
  match c.iterList bounds.start bounds.fin with
  | none => none
  | some L =>
    collect L fun p =>
      match c.blocks[p.1.1]? with
      | none => none
      | some b =>
        (b.fillWindowC p.1.2 bounds.rect).map fun calls => calls.map fun q => (p.2, q)

/-- chunk.rs:347-358 `SearchIter::next_results`. -/
def SearchIter.nextResultsC (c : Chunk) (it : SearchIter) : Option SearchIter :=
  match it.iter.next c with
  | none => none
  | some none => some { it with results := none }
  | some (some ((block, instant), iter)) =>
    match c.blocks[block]? with
    | none => none
    | some b =>
      match b.searchWindowC instant it.bounds it.lower it.upper with
      | none => none
      | some results =>
        some { it with iter := iter, instant := it.instant + 1, results := some results }

/-- chunk.rs:213-228 `Chunk::iter_search`. -/
def Chunk.iterSearchC (c : Chunk) (bounds : Cube) (lower upper : Int64) : Option SearchIter :=
  match c.iter bounds.start bounds.fin with
  | none => none
  | some it =>
    SearchIter.nextResultsC c
      ⟨it, bounds.rect, (rearrangeI lower upper).1, (rearrangeI lower upper).2, bounds.start, none⟩

/-- chunk.rs:368-374, the `while result == None` loop of `SearchIter::next`. -/
def SearchIter.skipC (c : Chunk) : (fuel : Nat) → SearchIter →
    Option (Option (Nat × Nat) × SearchIter)
  | 0, _ => none
  | fuel + 1, it =>
    match it.nextResultsC c with
    | none => none
    | some it =>
      match it.results with
      | none => some (none, it)
      | some [] => SearchIter.skipC c fuel it
      | some (x :: xs) => some (some x, { it with results := some xs })

/-- chunk.rs:364-382 `SearchIter::next`; outer `none` is a panic, inner `none` the end. -/
def SearchIter.nextC (c : Chunk) (it : SearchIter) :
    Option (Option (Nat × Nat × Nat) × SearchIter) :=
  match it.results with
  | none => some (none, it)
  | some results =>
    let found : Option (Option (Nat × Nat) × SearchIter) :=
      match results with
      | [] => SearchIter.skipC c (it.iter.remaining + 1) it
      | x :: xs => some (some x, { it with results := some xs })
    match found with
    | none => none
    | some (none, it) => some (none, it)
    | some (some (row, col), it) =>
      match csub it.instant 1 with
      | none => none
      | some instant => some (some (instant, row, col), it)

/-- Driving the search iterator to its end. -/
def SearchIter.toListC (c : Chunk) : (fuel : Nat) → SearchIter →
    Option (List (Nat × Nat × Nat))
  | 0, _ => none
  | fuel + 1, it =>
    match it.nextC c with
    | none => none
    | some (none, _) => some []
    | some (some x, it) => (SearchIter.toListC c fuel it).map (x :: ·)

end Verif
