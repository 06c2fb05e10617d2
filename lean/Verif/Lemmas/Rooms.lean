import Verif.Lemmas.Alloc
import Verif.Lemmas.Calm

/-! Exactly what readers ask for when they succeed. -/
namespace Verif

open AReader

/-- After requests `t`, all requests up to the end of `r` and its value are in `P`, if it succeeds. -/
def Wants {α : Type} (t : List Nat) (r : AReader α) (P : List Nat → α → Prop) : Prop :=
  ∀ s a s', (r s).2 = .ok (a, s') → P (t ++ (r s).1) a

section
variable {α β : Type} {t : List Nat}

theorem Wants.mono {r : AReader α} {P Q : List Nat → α → Prop} (h : Wants t r P) (hp : ∀ t a, P t a → Q t a) :
    Wants t r Q := fun s a s' hr => hp _ _ (h s a s' hr)

theorem Wants.pure {P : List Nat → α → Prop} (a : α) (h : P t a) : Wants t (Pure.pure a : AReader α) P := by
  intro s b s' hr
  cases hr
  change P (t ++ []) a
  rw [List.append_nil]
  exact h

theorem Wants.fail {P : List Nat → α → Prop} (e : Fail) : Wants t (AReader.lift (Reader.fail e) : AReader α) P :=
  fun _ _ _ h => nomatch h

theorem Wants.bind {r : AReader α} {f : α → AReader β} {P : List Nat → α → Prop} {Q : List Nat → β → Prop}
    (hr : Wants t r P) (hf : ∀ u a, P u a → Wants u (f a) Q) : Wants t (r >>= f) Q := by
  intro s b s' h
  change (AReader.bind r f s).2 = _ at h
  change Q (t ++ (AReader.bind r f s).1) b
  have h1 := hr s
  unfold AReader.bind at h ⊢
  rcases hs : r s with ⟨u, e | ⟨a, s1⟩⟩
  · rw [hs] at h
    cases h
  · rw [hs] at h h1
    have h2 := hf _ a (h1 a s1 rfl) s1 b s' h
    rw [List.append_assoc] at h2
    exact h2

theorem Wants.ask (n : Nat) : Wants t (AReader.ask n) (fun u _ => u = t ++ [n]) := fun _ _ _ _ => rfl

theorem Wants.lift (r : Reader α) : Wants t (AReader.lift r) (fun u _ => u = t) :=
  fun _ _ _ _ => List.append_nil t

theorem Wants.many {r : AReader α} {f : α → List Nat} (h : ∀ t, Wants t r (fun u a => u = t ++ f a)) (n : Nat) :
    Wants t (AReader.many r n) (fun u as => u = t ++ as.flatMap f ∧ as.length = n) := by
  induction n generalizing t with
  | zero => exact Wants.pure [] ⟨by simp, rfl⟩
  | succ n ih =>
    refine Wants.bind (h t) fun u a hu => Wants.bind ih fun v as hv => Wants.pure _ ?_
    subst hu
    exact ⟨by rw [hv.1]; simp, by simp [hv.2]⟩

theorem Wants.reads {r : Reader α} (n : Nat) :
    Wants t (AReader.many (AReader.lift r) n) (fun u as => u = t ∧ as.length = n) := by
  refine (Wants.many (f := fun _ => []) (fun t => (Wants.lift r).mono fun u a h => ?_) n).mono fun u as h => ?_
  · rw [h, List.append_nil]
  · exact ⟨by rw [h.1]; simp, h.2⟩

end

theorem AReader.bind_ask {β : Type} (n : Nat) (f : Unit → AReader β) (s : List Byte) :
    (AReader.ask n >>= f) s = (n :: (f () s).1, (f () s).2) := rfl

theorem AReader.bind_lift {α β : Type} {r : Reader α} {f : α → AReader β} {s s' : List Byte} {a : α}
    (h : r s = .ok (a, s')) : (AReader.lift r >>= f) s = f a s' := by
  change AReader.bind _ _ _ = _
  unfold AReader.bind AReader.lift
  rw [h]
  rfl

theorem AReader.bind_error {α β : Type} {r : AReader α} {f : α → AReader β} {s : List Byte} {t : List Nat}
    {e : Fail} (h : r s = (t, .error e)) : (r >>= f) s = (t, .error e) := by
  change AReader.bind _ _ _ = _
  unfold AReader.bind
  rw [h]

/-! ### What objects have -/

/-- The lengths of the index and the words of a bit map. -/
def Spec.roomBits (m : BitMap) : List Nat := [m.index.length, m.bitmap.length]

/-- The number of levels of a container, and for each those of its bit map and the number of its bytes, which is
that of its bits. -/
def Spec.roomDac (d : Dac) : List Nat :=
  d.levels.length :: d.levels.flatMap fun l => Spec.roomBits l.1 ++ [l.1.length]

def Spec.roomSnapshot (s : Snapshot) : List Nat :=
  Spec.roomBits s.nodemap ++ Spec.roomDac s.max ++ Spec.roomDac s.min

def Spec.roomLog (l : Log) : List Nat :=
  Spec.roomBits l.nodemap ++ Spec.roomBits l.equal ++ Spec.roomDac l.max ++ Spec.roomDac l.min

def Spec.roomBlock (b : Block) : List Nat :=
  Spec.roomSnapshot b.snapshot ++ b.logs.length :: b.logs.flatMap Spec.roomLog

def Spec.roomChunk (c : Chunk) : List Nat :=
  c.blocks.length :: c.index.length :: c.blocks.flatMap Spec.roomBlock

mutual

def Spec.roomStruct : MMStruct3 → List Nat
  | .span s => [s.spans.length]
  | .subchunk c => Spec.roomChunk c
  | .superchunk h loc =>
    h.references.length :: loc.length :: (Spec.roomStructs loc ++ Spec.roomDac h.max ++ Spec.roomDac h.min)

def Spec.roomStructs : List MMStruct3 → List Nat
  | [] => []
  | x :: xs => Spec.roomStruct x ++ Spec.roomStructs xs

end

theorem Spec.roomStructs_eq (xs : List MMStruct3) : Spec.roomStructs xs = xs.flatMap Spec.roomStruct := by
  induction xs with
  | nil => rfl
  | cons x xs ih =>
    rw [Spec.roomStructs, ih]
    rfl

def Spec.roomVariable (v : Variable) : List Nat := [v.name.length, v.k2Levels.length]

def Spec.roomDataset (d : Dataset) : List Nat :=
  [d.coord0.name.length, d.coord1.name.length, d.coord2.name.length, d.variables.length] ++
    d.variables.flatMap Spec.roomVariable

/-- The lengths of all vectors and names of an object. -/
def Spec.room : Item → List Nat
  | .dataset d => Spec.roomDataset d
  | .links l => [l.cids.length]
  | .struct m => Spec.roomStruct m

/-! ### What readers ask for -/

theorem Wants.bitmap (t : List Nat) : Wants t BitMap.readA (fun u m => u = t ++ Spec.roomBits m) := by
  refine Wants.bind (Wants.lift _) fun u length hu => Wants.bind (Wants.lift _) fun v k hv => ?_
  split
  · exact Wants.fail _
  · refine Wants.bind (Wants.ask _) fun w _ hw => Wants.bind (Wants.reads _) fun x index hx => Wants.bind (Wants.ask _)
      fun y _ hy => Wants.bind (Wants.reads _) fun z words hz => Wants.pure _ ?_
    simp only [hz.1, hy, hx.1, hw, hv, hu, Spec.roomBits, List.length_map, hx.2, hz.2, List.append_assoc,
      List.singleton_append]

theorem Wants.level (t : List Nat) :
    Wants t Dac.readLevelA (fun u l => u = t ++ (Spec.roomBits l.1 ++ [l.1.length])) := by
  refine Wants.bind (Wants.bitmap _) fun u m hu => Wants.bind (Wants.ask _) fun v _ hv => Wants.bind (Wants.lift _)
    fun w bytes hw => Wants.pure _ ?_
  rw [hw, hv, hu, List.append_assoc]

theorem Wants.dac (t : List Nat) : Wants t Dac.readA (fun u d => u = t ++ Spec.roomDac d) := by
  refine Wants.bind (Wants.lift _) fun u n hu => Wants.bind (Wants.ask _) fun v _ hv =>
    Wants.bind (Wants.many Wants.level _) fun w levels hw => Wants.pure _ ?_
  rw [hw.1, hv, hu, ← hw.2, List.append_assoc]
  rfl

theorem Wants.snapshot (t : List Nat) : Wants t Snapshot.readA (fun u d => u = t ++ Spec.roomSnapshot d) := by
  refine Wants.bind (Wants.lift _) fun _ _ h1 => Wants.bind (Wants.lift _) fun _ _ h2 => Wants.bind (Wants.lift _)
    fun _ _ h3 => Wants.bind (Wants.lift _) fun _ _ h4 => Wants.bind (Wants.bitmap _) fun _ _ h5 => Wants.bind (Wants.dac _)
    fun _ _ h6 => Wants.bind (Wants.dac _) fun _ _ h7 => Wants.pure _ ?_
  simp only [h7, h6, h5, h4, h3, h2, h1, Spec.roomSnapshot, List.append_assoc]

theorem Wants.log (t : List Nat) : Wants t Log.readA (fun u d => u = t ++ Spec.roomLog d) := by
  refine Wants.bind (Wants.lift _) fun _ _ h1 => Wants.bind (Wants.lift _) fun _ _ h2 => Wants.bind (Wants.lift _)
    fun _ _ h3 => Wants.bind (Wants.lift _) fun _ _ h4 => Wants.bind (Wants.bitmap _) fun _ _ h5 => Wants.bind (Wants.bitmap _)
    fun _ _ h8 => Wants.bind (Wants.dac _) fun _ _ h6 => Wants.bind (Wants.dac _) fun _ _ h7 => Wants.pure _ ?_
  simp only [h7, h6, h8, h5, h4, h3, h2, h1, Spec.roomLog, List.append_assoc]

theorem Wants.block (t : List Nat) : Wants t Block.readA (fun u d => u = t ++ Spec.roomBlock d) := by
  refine Wants.bind (Wants.lift _) fun _ _ h1 => Wants.bind (Wants.snapshot _) fun _ _ h2 => Wants.bind (Wants.lift _)
    fun _ m h3 => Wants.bind (Wants.ask _) fun _ _ h4 => Wants.bind (Wants.many Wants.log _) fun _ _ h5 => Wants.pure _ ?_
  simp only [h5.1, h4, h3, h2, h1, Spec.roomBlock, List.append_assoc, h5.2, List.singleton_append]

theorem Chunk.mkIndex_length (n : Nat) (blocks : List Block) : (Chunk.mkIndex n blocks).length = blocks.length := by
  induction blocks generalizing n with
  | nil => rfl
  | cons b bs ih => simp [Chunk.mkIndex, ih]

theorem Wants.chunk (t : List Nat) : Wants t Chunk.readA (fun u d => u = t ++ Spec.roomChunk d) := by
  refine Wants.bind (Wants.lift _) fun _ _ h1 => Wants.bind (Wants.lift _) fun _ _ h2 => Wants.bind (Wants.lift _)
    fun _ _ h3 => Wants.bind (Wants.lift _) fun _ _ h4 => Wants.bind (Wants.ask _) fun _ _ h5 => Wants.bind (Wants.ask _)
    fun _ _ h6 => Wants.bind (Wants.many Wants.block _) fun _ _ h7 => Wants.pure _ ?_
  simp only [h7.1, h6, h5, h4, h3, h2, h1, Spec.roomChunk, List.append_assoc, Chunk.mkIndex_length, h7.2,
    List.cons_append, List.nil_append]

theorem Wants.span (t : List Nat) : Wants t Span.readA (fun u d => u = t ++ [d.spans.length]) := by
  refine Wants.bind (Wants.lift _) fun _ _ h1 => Wants.bind (Wants.lift _) fun _ _ h2 => Wants.bind (Wants.lift _)
    fun _ _ h3 => Wants.bind (Wants.lift _) fun _ _ h4 => Wants.bind (Wants.lift _) fun _ _ h5 => Wants.bind (Wants.lift _)
    fun _ _ h6 => Wants.bind (Wants.lift _) fun _ _ h7 => Wants.bind (Wants.ask _) fun _ _ h8 => Wants.bind (Wants.reads _)
    fun _ _ h9 => Wants.pure _ ?_
  simp only [h9.1, h8, h7, h6, h5, h4, h3, h2, h1, h9.2]

theorem Reader.many_length {α : Type} {r : Reader α} {n : Nat} {s s' : List Byte} {as : List α}
    (h : Reader.many r n s = .ok (as, s')) : as.length = n := by
  have h1 := Wants.reads (t := []) (r := r) n s as s'
  have e : (AReader.many (AReader.lift r) n s).2 = Reader.many r n s := by
    change erase (AReader.many (AReader.lift r) n) s = _
    rw [erase_many, erase_lift]
  exact (h1 (e.trans h)).2

theorem Wants.links (t : List Nat) : Wants t Links.readA (fun u l => u = t ++ [l.cids.length]) := by
  refine Wants.bind (Wants.lift _) fun _ n h1 => Wants.bind (Wants.ask _) fun v _ h2 =>
    Wants.bind (P := fun u cids => u = v ∧ cids.length = n.toNat) ?_ fun _ _ h3 => Wants.pure _ ?_
  · intro s a s' h
    refine ⟨List.append_nil _, ?_⟩
    change (match Reader.many Cid.parse n.toNat s with
      | .ok (cids, _) => Except.ok (cids, [])
      | .error e => Except.error e) = _ at h
    rcases h2 : Reader.many Cid.parse n.toNat s with e | ⟨x, s1⟩
    · rw [h2] at h
      cases h
    · rw [h2] at h
      cases h
      exact Reader.many_length h2
  · rw [h3.1, h2, h1, h3.2]

theorem Wants.superchunk {node : AReader MMStruct3} (hn : ∀ t, Wants t node (fun u m => u = t ++ Spec.roomStruct m))
    (t : List Nat) : Wants t (SuperHead.readWithA node) (fun u m => u = t ++ Spec.roomStruct m) := by
  refine Wants.bind (Wants.lift _) fun _ _ h1 => Wants.bind (Wants.lift _) fun _ _ h2 => Wants.bind (Wants.lift _)
    fun _ _ h3 => Wants.bind (Wants.lift _) fun _ _ h4 => Wants.bind (Wants.lift _) fun _ _ h5 => Wants.bind (Wants.lift _)
    fun _ _ h6 => Wants.bind (Wants.lift _) fun _ _ h7 => Wants.bind (Wants.lift _) fun _ _ h8 => Wants.bind (Wants.lift _)
    fun _ _ h9 => Wants.bind (Wants.lift _) fun _ _ h10 => Wants.bind (Wants.lift _) fun _ _ h11 => Wants.bind (Wants.ask _)
    fun _ _ h12 => Wants.bind (Wants.reads _) fun _ _ h13 => Wants.bind (Wants.lift _) fun _ _ h14 =>
    Wants.bind (Wants.lift _) fun _ _ h15 => Wants.bind (Wants.ask _) fun _ _ h16 => Wants.bind (Wants.many hn _)
    fun _ _ h17 => Wants.bind (Wants.dac _) fun _ _ h18 => Wants.bind (Wants.dac _) fun _ _ h19 => Wants.pure _ ?_
  rw [Spec.roomStruct, Spec.roomStructs_eq]
  simp only [h19, h18, h17.1, h16, h15, h14, h13.1, h12, h11, h10, h9, h8, h7, h6, h5, h4, h3, h2, h1, h17.2, h13.2,
    List.append_assoc, List.cons_append, List.nil_append]

theorem Wants.structFuel (fuel : Nat) (t : List Nat) :
    Wants t (MMStruct3.readFuelA fuel) (fun u m => u = t ++ Spec.roomStruct m) := by
  induction fuel generalizing t with
  | zero => exact Wants.fail _
  | succ fuel ih =>
    refine Wants.bind (Wants.lift _) fun _ tag h1 => ?_
    subst h1
    split
    · refine Wants.bind (Wants.chunk _) fun _ _ h2 => Wants.pure _ ?_
      rw [h2, Spec.roomStruct]
    · split
      · refine Wants.bind (Wants.span _) fun _ _ h2 => Wants.pure _ ?_
        rw [h2, Spec.roomStruct]
      · split
        · exact Wants.superchunk ih _
        · exact Wants.fail _

section
variable (utf8 : List Byte → Bool)

/-- What is asked for a name is its length, if more follows. -/
theorem Wants.str {β : Type} {f : List Byte → AReader β} {t : List Nat} {Q : List Nat → β → Prop}
    (hf : ∀ a, Wants (t ++ [a.length]) (f a) Q) (h0 : ∀ a x, (f a []).2 ≠ .ok x) : Wants t (readStrA utf8 >>= f) Q := by
  intro s b s' h
  change (AReader.bind _ f s).2 = _ at h
  change Q (t ++ (AReader.bind _ f s).1) b
  unfold AReader.bind at h ⊢
  cases hb : readByte s with
  | error e =>
    have : readStrA utf8 s = ([], .error e) := by
      unfold readStrA
      change AReader.bind _ _ _ = _
      unfold AReader.bind AReader.lift
      rw [hb]
    rw [this] at h
    cases h
  | ok p =>
    obtain ⟨n, s1⟩ := p
    have e : readStrA utf8 s = ([n.toNat], if utf8 (s1.take n.toNat) then .ok (s1.take n.toNat, s1.drop n.toNat)
        else .error (.err .io)) := by
      unfold readStrA
      rw [AReader.bind_lift hb, AReader.bind_ask, AReader.bind_lift (r := readUpTo n.toNat) (a := s1.take n.toNat)
        (s' := s1.drop n.toNat) rfl]
      by_cases hu : utf8 (s1.take n.toNat) = true
      · rw [if_pos hu, if_pos hu]
        rfl
      · rw [if_neg hu, if_neg hu]
        rfl
    rw [e] at h ⊢
    by_cases hu : utf8 (s1.take n.toNat) = true
    · rw [if_pos hu] at h ⊢
      have hl : (s1.take n.toNat).length = n.toNat := by
        rw [List.length_take]
        apply Nat.min_eq_left
        apply Nat.le_of_not_lt
        intro hlt
        rw [List.drop_eq_nil_of_le (by omega)] at h
        exact h0 _ _ h
      have h2 := hf (s1.take n.toNat) (s1.drop n.toNat) b s' h
      rw [hl, List.append_assoc] at h2
      exact h2
    · rw [if_neg hu] at h
      cases h

theorem Wants.coordinate (t : List Nat) :
    Wants t (Coordinate.readA utf8) (fun u c => u = t ++ [c.name.length]) := by
  refine Wants.str utf8 (fun name => ?_) fun name x h => ?_
  · refine Wants.bind (Wants.lift _) fun _ _ h1 => Wants.pure _ ?_
    rw [h1]
  · change erase (AReader.lift CoordinateKind.read >>= _) [] = _ at h
    rw [erase_bind] at h
    exact Starts.kind.bind.ok x h

theorem Wants.variable (t : List Nat) :
    Wants t (Variable.readA utf8) (fun u v => u = t ++ Spec.roomVariable v) := by
  refine Wants.str utf8 (fun name => ?_) fun name x h => ?_
  · refine Wants.bind (Wants.lift _) fun _ _ h1 => Wants.bind (Wants.lift _) fun _ _ h2 => Wants.bind (Wants.lift _)
      fun _ _ h3 => Wants.bind (Wants.lift _) fun _ _ h4 => Wants.bind (Wants.ask _) fun _ _ h5 =>
      Wants.bind (Wants.reads _) fun _ _ h6 => Wants.bind (Wants.lift _) fun _ _ h7 => Wants.bind (Wants.lift _)
      fun _ _ h8 => Wants.bind (Wants.lift _) fun _ _ h9 => Wants.pure _ ?_
    simp only [h9, h8, h7, h6.1, h5, h4, h3, h2, h1, Spec.roomVariable, List.length_map, h6.2, List.append_assoc,
      List.singleton_append]
  · change erase (AReader.lift Variable.readRound >>= _) [] = _ at h
    rw [erase_bind] at h
    exact Starts.round.bind.ok x h

theorem Wants.dataset (t : List Nat) : Wants t (Dataset.readA utf8) (fun u d => u = t ++ Spec.roomDataset d) := by
  refine Wants.bind (Wants.coordinate utf8 _) fun _ _ h1 => Wants.bind (Wants.coordinate utf8 _) fun _ _ h2 =>
    Wants.bind (Wants.coordinate utf8 _) fun _ _ h3 => Wants.bind (Wants.lift _) fun _ _ h4 => Wants.bind (Wants.ask _)
    fun _ _ h5 => Wants.bind (Wants.many (Wants.variable utf8) _) fun _ _ h6 => Wants.bind (Wants.lift _) fun _ _ h7 =>
    Wants.bind (Wants.lift _) fun _ _ h8 => Wants.bind (Wants.lift _) fun _ _ h9 => Wants.pure _ ?_
  simp only [h9, h8, h7, h6.1, h5, h4, h3, h2, h1, Spec.roomDataset, h6.2, List.append_assoc,
    List.cons_append, List.nil_append]

theorem Wants.item (cid : Cid) (t : List Nat) : Wants t (Item.readA utf8 cid) (fun u x => u = t ++ Spec.room x) := by
  refine Wants.bind (Wants.lift _) fun _ tag h1 => ?_
  subst h1
  split
  · refine Wants.bind (Wants.dataset utf8 _) fun _ _ h2 => Wants.pure _ ?_
    rw [h2]
    rfl
  split
  · refine Wants.bind (Wants.links _) fun _ _ h2 => Wants.pure _ ?_
    rw [h2]
    rfl
  split
  · refine Wants.bind (P := fun u m => u = _ ++ Spec.roomStruct m) (fun s a s' h => Wants.structFuel (s.length + 1) _ s a s' h)
      fun _ _ h2 => Wants.pure _ ?_
    rw [h2]
    rfl
  · exact Wants.fail _

end

end Verif
