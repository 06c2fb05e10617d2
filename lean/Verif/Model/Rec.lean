import Verif.Model.Log

/-!
The bodies of the recursive functions of snapshot.rs and log.rs, with the call of themselves as a
parameter. The other models limit the depth of the recursion and count it as a panic if that is not
enough; with these one can say what programs do that have no such limit.
-/
namespace Verif

/-- snapshot.rs:174-188, the body of `Snapshot::_get`. -/
def Snapshot.getStep (s : Snapshot)
    (self : Nat → Nat → Nat → Nat → Int64 → Option Int64) :
    Nat → Nat → Nat → Nat → Int64 → Option Int64 :=
  fun sidelen row col index maxValue =>
  let k := s.k
  if k = 0 then none else
  let sidelen := sidelen / k
  if sidelen = 0 then none else
  match s.nodemap.rank index with
  | none => none
  | some r =>
    let index := 1 + r * k * k
    let index := index + row / sidelen * k + col / sidelen
    match s.max.get index with
    | none => none
    | some d =>
      let maxValue := maxValue - d
      match isLeafGe s.nodemap index with
      | none => none
      | some true => some maxValue
      | some false => self sidelen (row % sidelen) (col % sidelen) index maxValue

/-- snapshot.rs:237-301, the body of `Snapshot::_fill_window`. -/
def Snapshot.fillStep (s : Snapshot) (windowTop windowLeft : Nat)
    (self : Nat → Nat → Nat → Nat → Nat → Nat → Int64 → Nat → Nat →
      Option (List (Nat × Nat × Int64))) :
    Nat → Nat → Nat → Nat → Nat → Nat → Int64 → Nat → Nat → Option (List (Nat × Nat × Int64)) :=
  fun sidelen top bottom left right index maxValue topOffset leftOffset =>
  let k := s.k
  if k = 0 then none else
  let sidelen := sidelen / k
  if sidelen = 0 then none else
  match s.nodemap.rank index with
  | none => none
  | some r =>
    let index := 1 + r * k * k
    collect (rangeIncl (top / sidelen) (bottom / sidelen)) fun i =>
      match csub bottom (i * sidelen) with
      | none => none
      | some b =>
      let top' := top - i * sidelen  -- saturating_sub
      let bottom' := Nat.min (sidelen - 1) b
      let topOffset' := topOffset + i * sidelen
      collect (rangeIncl (left / sidelen) (right / sidelen)) fun j =>
        match csub right (j * sidelen) with
        | none => none
        | some r =>
        let left' := left - j * sidelen  -- saturating_sub
        let right' := Nat.min (sidelen - 1) r
        let leftOffset' := leftOffset + j * sidelen
        let index' := index + i * k + j
        match s.max.get index' with
        | none => none
        | some d =>
          let maxValue' := maxValue - d
          match isLeafGe s.nodemap index' with
          | none => none
          | some true =>
            emitLeaf top' bottom' left' right' topOffset' leftOffset' windowTop windowLeft
              maxValue'
          | some false =>
            self sidelen top' bottom' left' right' index'
              maxValue' topOffset' leftOffset'

/-- snapshot.rs:347-421, the body of `Snapshot::_search_window`. -/
def Snapshot.searchStep (s : Snapshot) (lower upper : Int64)
    (self : Nat → Nat → Nat → Nat → Nat → Nat → Int64 → Int64 → Nat → Nat → Option (List (Nat × Nat))) :
    Nat → Nat → Nat → Nat → Nat → Nat → Int64 → Int64 → Nat → Nat → Option (List (Nat × Nat)) :=
  fun sidelen top bottom left right index minValue maxValue topOffset leftOffset =>
  let k := s.k
  if k = 0 then none else
  let sidelen := sidelen / k
  if sidelen = 0 then none else
  match s.nodemap.rank index with
  | none => none
  | some r =>
    let index := 1 + r * k * k
    collect (rangeIncl (top / sidelen) (bottom / sidelen)) fun i =>
      match csub bottom (i * sidelen) with
      | none => none
      | some b =>
      let top' := top - i * sidelen  -- saturating_sub
      let bottom' := Nat.min (sidelen - 1) b
      let topOffset' := topOffset + i * sidelen
      collect (rangeIncl (left / sidelen) (right / sidelen)) fun j =>
        match csub right (j * sidelen) with
        | none => none
        | some r =>
        let left' := left - j * sidelen  -- saturating_sub
        let right' := Nat.min (sidelen - 1) r
        let leftOffset' := leftOffset + j * sidelen
        let index' := index + i * k + j
        match s.max.get index' with
        | none => none
        | some d =>
          let maxValue' := maxValue - d
          match isLeafGe s.nodemap index' with
          | none => none
          | some true =>
            if lower ≤ maxValue' ∧ maxValue' ≤ upper then
              some (pushCells top' bottom' left' right' topOffset' leftOffset')
            else some []
          | some false =>
            match s.nodemap.rank index' with
            | none => none
            | some r' =>
              match s.min.get r' with
              | none => none
              | some dmin =>
                let minValue' := minValue + dmin
                if lower ≤ minValue ∧ maxValue' ≤ upper then
                  some (pushCells top' bottom' left' right' topOffset' leftOffset')
                else if upper ≥ minValue' ∧ lower ≤ maxValue' then
                  self sidelen top' bottom' left' right' index'
                    minValue' maxValue' topOffset' leftOffset'
                else some []

/-- log.rs:203-293, the body of `Log::_get`. -/
def Log.getStep (l : Log) (s : Snapshot)
    (self : Nat → Nat → Nat → Option Nat → Option Nat → Int64 → Int64 → Option Int64) :
    Nat → Nat → Nat → Option Nat → Option Nat → Int64 → Int64 → Option Int64 :=
  fun sidelen row col indexT indexS maxT maxS =>
  let k := l.k
  if k = 0 then none else
  let sidelen := sidelen / k
  if sidelen = 0 then none else
  match childBase s.nodemap k indexS, childBase l.nodemap k indexT with
  | some baseS, some baseT =>
    let indexS := baseS.map fun b => b + row / sidelen * k + col / sidelen
    let indexT := baseT.map fun b => b + row / sidelen * k + col / sidelen
    match s.childMaxS maxS indexS, l.childMaxT maxT indexT,
        optLeaf isLeafGt l.nodemap indexT, optLeaf isLeafGt s.nodemap indexS with
    | some maxS, some maxT, some leafT, some leafS =>
      if leafT && leafS then some (maxT + maxS)
      else if leafS then
        self sidelen (row % sidelen) (col % sidelen) indexT none maxT maxS
      else if leafT then
        let descend :=
          self sidelen (row % sidelen) (col % sidelen) none indexS maxT maxS
        match indexT with
        | none => descend
        | some index =>
          if index < l.nodemap.length then
            match l.equalAt index with
            | none => none
            | some false => some (maxT + maxS)
            | some true => descend
          else descend
      else
        self sidelen (row % sidelen) (col % sidelen) indexT indexS maxT maxS
    | _, _, _, _ => none
  | _, _ => none

/-- log.rs:349-508, the body of `Log::_fill_window`. -/
def Log.fillStep (l : Log) (s : Snapshot) (windowTop windowLeft : Nat)
    (self : Nat → Nat → Nat → Nat → Nat → Option Nat → Option Nat → Int64 → Int64 → Nat → Nat →
      Option (List (Nat × Nat × Int64))) :
    Nat → Nat → Nat → Nat → Nat → Option Nat → Option Nat → Int64 → Int64 → Nat → Nat →
      Option (List (Nat × Nat × Int64)) :=
  fun sidelen top bottom left right indexT indexS maxT maxS topOffset leftOffset =>
  let k := l.k
  if k = 0 then none else
  let sidelen := sidelen / k
  if sidelen = 0 then none else
  match childBase l.nodemap k indexT, childBase s.nodemap k indexS with
  | some baseT, some baseS =>
    collect (rangeIncl (top / sidelen) (bottom / sidelen)) fun i =>
      match csub bottom (i * sidelen) with
      | none => none
      | some b =>
      collect (rangeIncl (left / sidelen) (right / sidelen)) fun j =>
        match csub right (j * sidelen) with
        | none => none
        | some r =>
        let top' := top - i * sidelen  -- saturating_sub
        let bottom' := Nat.min (sidelen - 1) b
        let topOffset' := topOffset + i * sidelen
        let left' := left - j * sidelen  -- saturating_sub
        let right' := Nat.min (sidelen - 1) r
        let leftOffset' := leftOffset + j * sidelen
        let indexT' := baseT.map fun b => b + i * k + j
        let indexS' := baseS.map fun b => b + i * k + j
        match l.childMaxT maxT indexT', optLeaf isLeafGt l.nodemap indexT',
            s.childMaxS maxS indexS', optLeaf isLeafGt s.nodemap indexS' with
        | some maxT', some leafT, some maxS', some leafS =>
          let leaf := emitLeaf top' bottom' left' right' topOffset' leftOffset' windowTop
            windowLeft (maxT' + maxS')
          if leafT && leafS then leaf
          else if leafS then
            self sidelen top' bottom' left' right' indexT' none
              maxT' maxS' topOffset' leftOffset'
          else if leafT then
            let descend := self sidelen top' bottom' left'
              right' none indexS' maxT' maxS' topOffset' leftOffset'
            match indexT' with
            | none => descend
            | some index =>
              match l.nodemap.get index with
              | none => none
              | some true => descend
              | some false =>
                match l.equalAt index with
                | none => none
                | some false => leaf
                | some true => descend
          else
            self sidelen top' bottom' left' right' indexT'
              indexS' maxT' maxS' topOffset' leftOffset'
        | _, _, _, _ => none
  | _, _ => none

/-- log.rs:553-702, the body of `Log::_search_window`. -/
def Log.searchStep (l : Log) (s : Snapshot) (lower upper : Int64)
    (self : Nat → Nat → Nat → Nat → Nat → Option Nat → Option Nat → Int64 → Int64 → Int64 → Int64 →
      Nat → Nat → Option (List (Nat × Nat))) :
    Nat → Nat → Nat → Nat → Nat → Option Nat → Option Nat → Int64 → Int64 → Int64 → Int64 →
      Nat → Nat → Option (List (Nat × Nat)) :=
  fun sidelen top bottom left right indexT indexS minT minS maxT maxS topOffset leftOffset =>
  let maxValue := maxS + maxT
  let minValue := minS + minT
  if minValue ≥ lower ∧ maxValue ≤ upper then
    some (pushCells top bottom left right topOffset leftOffset)
  else if minValue > upper ∨ maxValue < lower then some []
  else
  let k := l.k
  if k = 0 then none else
  let sidelen := sidelen / k
  if sidelen = 0 then none else
  match childBase l.nodemap k indexT, childBase s.nodemap k indexS with
  | some baseT, some baseS =>
    collect (rangeIncl (top / sidelen) (bottom / sidelen)) fun i =>
      match csub bottom (i * sidelen) with
      | none => none
      | some b =>
      collect (rangeIncl (left / sidelen) (right / sidelen)) fun j =>
        match csub right (j * sidelen) with
        | none => none
        | some r =>
        let top' := top - i * sidelen  -- saturating_sub
        let bottom' := Nat.min (sidelen - 1) b
        let topOffset' := topOffset + i * sidelen
        let left' := left - j * sidelen  -- saturating_sub
        let right' := Nat.min (sidelen - 1) r
        let leftOffset' := leftOffset + j * sidelen
        let indexT' := baseT.map fun b => b + i * k + j
        let indexS' := baseS.map fun b => b + i * k + j
        match l.childMaxT maxT indexT', s.childMaxS maxS indexS',
            optLeaf isLeafGe l.nodemap indexT', optLeaf isLeafGe s.nodemap indexS' with
        | some maxT', some maxS', some leafT, some leafS =>
          match l.childMinT minT leafT indexT', s.childMinS minS leafS indexS' with
          | some minT', some minS' =>
            let minS' := if leafS then maxS' else minS'
            let indexS'' := if leafS then none else indexS'
            match (if leafT then l.leafMinT minS' maxS' maxT' indexT' else some minT') with
            | none => none
            | some minT' =>
              let indexT'' := if leafT then none else indexT'
              self sidelen top' bottom' left' right' indexT''
                indexS'' minT' minS' maxT' maxS' topOffset' leftOffset'
          | _, _ => none
        | _, _, _, _ => none
  | _, _ => none

/-- snapshot.rs:165-172 `Snapshot::get`, calling `self` for the recursion. -/
def Snapshot.getVia (s : Snapshot)
    (self : Nat → Nat → Nat → Nat → Int64 → Option Int64)
    (row col : Nat) : Option Int64 :=
  match s.nodemap.get 0 with
  | none => none
  | some false => s.max.get 0
  | some true =>
    match s.max.get 0 with
    | none => none
    | some m => self s.sidelen row col 0 m

/-- snapshot.rs:204-235 `Snapshot::fill_window`, calling `self` for the recursion. -/
def Snapshot.fillWindowVia (s : Snapshot)
    (self : Nat → Nat → Nat → Nat → Nat → Nat → Nat → Nat → Int64 → Nat → Nat →
      Option (List (Nat × Nat × Int64)))
    (bounds : Rect) : Option (List (Nat × Nat × Int64)) :=
  match bounds.rows, bounds.cols with
  | some rows, some cols =>
    match s.nodemap.get 0 with
    | none => none
    | some false =>
      match s.max.get 0 with
      | none => none
      | some value => some (emitAll rows cols value)
    | some true =>
      match csub bounds.bottom 1, csub bounds.right 1, s.max.get 0 with
      | some bottom, some right, some m =>
        self bounds.top bounds.left s.sidelen bounds.top bottom bounds.left
          right 0 m 0 0
      | _, _, _ => none
  | _, _ => none

/-- snapshot.rs:310-345 `Snapshot::search_window`, calling `self` for the recursion. -/
def Snapshot.searchWindowVia (s : Snapshot)
    (self : Int64 → Int64 → Nat → Nat → Nat → Nat → Nat → Nat → Int64 → Int64 → Nat → Nat →
      Option (List (Nat × Nat)))
    (bounds : Rect) (lower upper : Int64) :
    Option (List (Nat × Nat)) :=
  match s.nodemap.get 0 with
  | none => none
  | some false =>
    match s.max.get 0 with
    | none => none
    | some value =>
      if lower ≤ value ∧ value ≤ upper then bounds.cells else some []
  | some true =>
    match csub bounds.bottom 1, csub bounds.right 1, s.min.get 0, s.max.get 0 with
    | some bottom, some right, some mn, some mx =>
      self lower upper s.sidelen bounds.top bottom bounds.left right 0 mn mx 0 0
    | _, _, _, _ => none

/-- log.rs:176-201 `Log::get`, calling `self` for the recursion. -/
def Log.getVia (l : Log) (s : Snapshot)
    (self : Nat → Nat → Nat → Option Nat → Option Nat → Int64 → Int64 → Option Int64)
    (row col : Nat) : Option Int64 :=
  match l.max.get 0, s.max.get 0, l.nodemap.get 0, s.nodemap.get 0 with
  | some maxT, some maxS, some bitT, some bitS =>
    let singleT := !bitT
    let singleS := !bitS
    let descend := self l.sidelen row col (if singleT then none else some 0)
      (if singleS then none else some 0) maxT maxS
    if singleT && singleS then some (maxT + maxS)
    else if singleT then
      match l.equal.get 0 with
      | none => none
      | some false => some (maxT + maxS)
      | some true => descend
    else descend
  | _, _, _, _ => none

/-- log.rs:311-347 `Log::fill_window`, calling `self` for the recursion. -/
def Log.fillWindowVia (l : Log) (s : Snapshot)
    (self : Nat → Nat → Nat → Nat → Nat → Nat → Nat → Option Nat → Option Nat → Int64 → Int64 → Nat → Nat →
      Option (List (Nat × Nat × Int64)))
    (bounds : Rect) : Option (List (Nat × Nat × Int64)) :=
  match l.nodemap.get 0, s.nodemap.get 0 with
  | some bitT, some bitS =>
    let singleT := !bitT
    let singleS := !bitS
    match (if singleT then (if singleS then some true else (l.equal.get 0).map (!·))
      else some false) with
    | none => none
    | some true =>
      match l.max.get 0, s.max.get 0, bounds.rows, bounds.cols with
      | some maxT, some maxS, some rows, some cols => some (emitAll rows cols (maxT + maxS))
      | _, _, _, _ => none
    | some false =>
      match csub bounds.bottom 1, csub bounds.right 1, l.max.get 0, s.max.get 0 with
      | some bottom, some right, some maxT, some maxS =>
        self bounds.top bounds.left l.sidelen bounds.top bottom bounds.left
          right (if singleT then none else some 0) (if singleS then none else some 0) maxT maxS 0 0
      | _, _, _, _ => none
  | _, _ => none

/-- log.rs:519-551 `Log::search_window`, calling `self` for the recursion. -/
def Log.searchWindowVia (l : Log) (s : Snapshot)
    (self : Int64 → Int64 → Nat → Nat → Nat → Nat → Nat → Option Nat → Option Nat → Int64 → Int64 → Int64 → Int64 →
      Nat → Nat → Option (List (Nat × Nat)))
    (bounds : Rect) (lower upper : Int64) :
    Option (List (Nat × Nat)) :=
  match l.nodemap.get 0, s.nodemap.get 0, csub bounds.bottom 1, csub bounds.right 1 with
  | some bitT, some bitS, some bottom, some right =>
    match l.min.get 0, s.min.get 0, l.max.get 0, s.max.get 0 with
    | some minT, some minS, some maxT, some maxS =>
      self lower upper l.sidelen bounds.top bottom bounds.left right
        (if bitT then some 0 else none) (if bitS then some 0 else none) minT minS maxT maxS 0 0
    | _, _, _, _ => none
  | _, _, _, _ => none

end Verif
