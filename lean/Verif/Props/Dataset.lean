import Verif.Lemmas.Sequential
import Verif.Lemmas.DatasetHistory
import Verif.Lemmas.StructMono
import Verif.Lemmas.StructRead
import Verif.Props.Superchunk

/-!
Properties C30-C34: data sets that grow.

`fuel` is the depth of recursion the model allows for while appending, `readFuel` while reading; the
code has no such limits. `Saved.NoCollision` says that no two different objects saved in the history
have the same identifier. `fill` is any way in which the window read of the tail of a variable may
complete.
-/
namespace Verif

open Prog hiding pure bind

/-! ### C30 -/

section
variable {H : Hash} {utf8 : List Byte → Bool} {α : Type} {dec : Nat → Int64 → α}
  {Leaf : Chunk → Nat → Nat → Nat → (Nat → Nat → Nat → α) → Prop}
  {Ext : SuperHead → Nat → Nat → α → Prop}

/-- C30: a span that holds a series of `n` instants in full children, and a structure that holds
`n'` more: after `append` the span holds the one and then the other. In particular the instants
below `n` are as before. -/
theorem C30_append (sp : Span) (m : MMStruct3) (log : Saved) (d n n' : Nat)
    (data data' : Nat → Nat → Nat → α)
    (hleaf : ∀ c n rows cols data data', (∀ t r c, t < n → r < rows → c < cols →
      data t r c = data' t r c) → Leaf c n rows cols data → Leaf c n rows cols data')
    (hsp : Represents utf8 (log.load H) dec Leaf Ext (d + 1) (.span sp) n sp.rows sp.cols data)
    (hm : Represents utf8 (log.load H) dec Leaf Ext d m n' sp.rows sp.cols data')
    (hfull : n = sp.spans.length * sp.stride)
    (hlast : ∀ cid, sp.spans.getLast? = some cid → ∃ c r k,
      (log.load H).getStruct utf8 cid = .ok c ∧ c.shape = some (sp.stride, r, k))
    (hw : m.WF) (hshape : m.shape = some (n', sp.rows, sp.cols)) (hn' : n' ≤ sp.stride)
    (hnc : (Span.append H utf8 sp m log).2.NoCollision H) :
    ∃ sp' log', Span.append H utf8 sp m log = (.ok sp', log') ∧
      sp'.rows = sp.rows ∧ sp'.cols = sp.cols ∧ sp'.stride = sp.stride ∧
      sp'.instants = sp.instants + n' ∧
      Represents utf8 (log'.load H) dec Leaf Ext (d + 1) (.span sp') (n + n') sp.rows sp.cols
        (fun t => if t < n then data t else data' (t - n)) := by
  have hchk : Span.checkLast H utf8 sp log = (.ok (), log) := by
    unfold Span.checkLast
    cases h : sp.spans.getLast? with
    | none => rfl
    | some cid =>
      obtain ⟨c, r, k, h1, h2⟩ := hlast cid h
      change Prog.bind (Prog.getStruct H utf8 cid) _ log = _
      unfold Prog.bind Prog.getStruct
      rw [h1]
      change Prog.bind (Prog.ofOption c.shape) _ log = _
      rw [h2]
      unfold Prog.bind
      change (if sp.stride ≠ sp.stride then Prog.fail Fail.panic else Pure.pure ()) log = _
      rw [if_neg (by simp)]
      rfl
  have hrun : Span.append H utf8 sp m log = (.ok { sp with
      instants := sp.instants + n'
      spans := sp.spans ++ [H.cidOf (Item.struct m).bytes] }, (Item.struct m).bytes :: log) := by
    unfold Span.append
    change Prog.bind (Span.checkLast H utf8 sp) _ log = _
    unfold Prog.bind
    rw [hchk]
    change Prog.bind (Prog.ofOption m.shape) _ log = _
    rw [hshape]
    unfold Prog.bind
    change (if sp.rows ≠ sp.rows ∨ sp.cols ≠ sp.cols then Prog.fail Fail.panic else
      if n' > sp.stride then Prog.fail Fail.panic else _) log = _
    rw [if_neg (by simp), if_neg (by omega)]
    rfl
  rw [hrun] at hnc
  have hst := Saved.load_mono (H := H) (log := log) hnc (fun b hb => List.mem_cons_of_mem _ hb)
  refine ⟨_, _, hrun, rfl, rfl, rfl, rfl, ?_⟩
  have hpos : 0 < sp.stride := hsp.stride
  refine ⟨hpos, fun i hi => ?_⟩
  change i * sp.stride < n + n' at hi
  change ∃ cid m', (sp.spans ++ [H.cidOf (Item.struct m).bytes])[i]? = some cid ∧ _ ∧
    Represents utf8 _ dec Leaf Ext d m' (min sp.stride (n + n' - i * sp.stride)) sp.rows sp.cols
      (fun t => (fun t => if t < n then data t else data' (t - n)) (i * sp.stride + t))
  rcases Nat.lt_or_ge i sp.spans.length with h | h
  · have h9 : (i + 1) * sp.stride ≤ sp.spans.length * sp.stride := Nat.mul_le_mul_right _ h
    rw [Nat.succ_mul] at h9
    obtain ⟨cid, c, h1, h2, h3⟩ := hsp.sub i (by omega)
    refine ⟨cid, c, ?_, (Store.getStruct_mono hst _ _ h2), ?_⟩
    · rw [List.getElem?_append_left h]; exact h1
    · have h4 := Represents.mono hst (Nat.le_refl d) h3
      rw [show min sp.stride (n - i * sp.stride) = sp.stride by omega] at h4
      rw [show min sp.stride (n + n' - i * sp.stride) = sp.stride by omega]
      refine Represents.congr hleaf ?_ h4
      intro t r c ht hr hc
      dsimp only
      rw [if_pos (by omega)]
  · have hi' : i = sp.spans.length := by
      by_contra hne
      have h9 : (sp.spans.length + 1) * sp.stride ≤ i * sp.stride := Nat.mul_le_mul_right _ (by omega)
      rw [Nat.succ_mul] at h9
      omega
    subst hi'
    rw [← hfull]
    refine ⟨_, m, by rw [List.getElem?_append_right (Nat.le_refl _), Nat.sub_self]; rfl, ?_, ?_⟩
    · exact Store.getStruct_of (Saved.load_mem hnc (List.mem_cons_self ..)) hw
    · rw [show min sp.stride (n + n' - n) = n' by omega]
      refine Represents.congr hleaf ?_ (Represents.mono hst (Nat.le_refl d) hm)
      intro t r c ht hr hc
      dsimp only
      rw [if_neg (by omega), show n + t - n = t by omega]

/-- C30: `update` keeps the instants before the last child and puts the new structure there. -/
theorem C30_update (sp : Span) (m : MMStruct3) (log : Saved) (d n n' k : Nat)
    (data data' : Nat → Nat → Nat → α)
    (hleaf : ∀ c n rows cols data data', (∀ t r c, t < n → r < rows → c < cols →
      data t r c = data' t r c) → Leaf c n rows cols data → Leaf c n rows cols data')
    (hsp : Represents utf8 (log.load H) dec Leaf Ext (d + 1) (.span sp) n sp.rows sp.cols data)
    (hm : Represents utf8 (log.load H) dec Leaf Ext d m n' sp.rows sp.cols data')
    (hlen : sp.spans.length = k + 1) (hn : k * sp.stride ≤ n)
    (hlast : ∀ cid, sp.spans.dropLast.getLast? = some cid → ∃ c r k,
      (log.load H).getStruct utf8 cid = .ok c ∧ c.shape = some (sp.stride, r, k))
    (hw : m.WF) (hshape : m.shape = some (n', sp.rows, sp.cols)) (hn' : n' ≤ sp.stride)
    (hnc : (Span.update H utf8 sp m log).2.NoCollision H) :
    ∃ sp' log', Span.update H utf8 sp m log = (.ok sp', log') ∧
      sp'.rows = sp.rows ∧ sp'.cols = sp.cols ∧ sp'.stride = sp.stride ∧
      sp'.instants = k * sp.stride + n' ∧
      Represents utf8 (log'.load H) dec Leaf Ext (d + 1) (.span sp') (k * sp.stride + n') sp.rows
        sp.cols (fun t => if t < k * sp.stride then data t else data' (t - k * sp.stride)) := by
  have hl : sp.spans.dropLast.length = k := by rw [List.length_dropLast, hlen]; rfl
  unfold Span.update at hnc ⊢
  have hpos : 0 < sp.stride := hsp.stride
  have hsp' : Represents utf8 (log.load H) dec Leaf Ext (d + 1)
      (.span { sp with instants := sp.spans.dropLast.length * sp.stride, spans := sp.spans.dropLast })
      (k * sp.stride) sp.rows sp.cols data := by
    refine ⟨hpos, fun i hi => ?_⟩
    change i * sp.stride < _ at hi
    have hik : i < k := Nat.lt_of_mul_lt_mul_right hi
    have h9 : (i + 1) * sp.stride ≤ k * sp.stride := Nat.mul_le_mul_right _ hik
    rw [Nat.succ_mul] at h9
    obtain ⟨cid, c, h1, h2, h3⟩ := hsp.sub i (by omega)
    refine ⟨cid, c, ?_, h2, ?_⟩
    · change sp.spans.dropLast[i]? = _
      rw [List.getElem?_dropLast, if_pos (by rw [hlen]; omega)]
      exact h1
    · change Represents _ _ _ _ _ _ _ (min sp.stride (k * sp.stride - i * sp.stride)) _ _ _
      rw [show min sp.stride (k * sp.stride - i * sp.stride) = sp.stride by omega]
      rw [show min sp.stride (n - i * sp.stride) = sp.stride by omega] at h3
      exact h3
  obtain ⟨sp', log', h1, h2, h3, h4, h5, h6⟩ := C30_append _ m log d (k * sp.stride) n' data data'
    hleaf hsp' hm (by rw [← hl]) hlast hw hshape hn' hnc
  exact ⟨sp', log', h1, h2, h3, h4, by rw [h5]; simp [hl], h6⟩

/-- C30: nothing is appended after a child that is not full. -/
theorem C30_rejects_open (sp : Span) (m : MMStruct3) (log : Saved) (cid : Cid) (c : MMStruct3)
    (n r k : Nat) (hl : sp.spans.getLast? = some cid)
    (hc : (log.load H).getStruct utf8 cid = .ok c) (hs : c.shape = some (n, r, k))
    (hn : n ≠ sp.stride) : Span.append H utf8 sp m log = (.error .panic, log) := by
  have hchk : Span.checkLast H utf8 sp log = (.error .panic, log) := by
    unfold Span.checkLast
    rw [hl]
    change Prog.bind (Prog.getStruct H utf8 cid) _ log = _
    unfold Prog.bind Prog.getStruct
    rw [hc]
    change Prog.bind (Prog.ofOption c.shape) _ log = _
    rw [hs]
    unfold Prog.bind
    change (if n ≠ sp.stride then Prog.fail Fail.panic else Pure.pure ()) log = _
    rw [if_pos hn]
    rfl
  unfold Span.append
  change Prog.bind (Span.checkLast H utf8 sp) _ log = _
  unfold Prog.bind
  rw [hchk]

/-- C30: a structure of other rows or columns, or of more instants than the stride, is rejected. -/
theorem C30_rejects_shape (sp : Span) (m : MMStruct3) (log : Saved) (n r k : Nat)
    (hs : m.shape = some (n, r, k)) (h : r ≠ sp.rows ∨ k ≠ sp.cols ∨ sp.stride < n) :
    ∃ f, Span.append H utf8 sp m log = (.error f, log) := by
  have hlog : (Span.checkLast H utf8 sp log).2 = log := by
    unfold Span.checkLast
    cases sp.spans.getLast? with
    | none => rfl
    | some cid =>
      change (Prog.bind (Prog.getStruct H utf8 cid) _ log).2 = _
      unfold Prog.bind Prog.getStruct
      cases (log.load H).getStruct utf8 cid with
      | error f => rfl
      | ok c =>
        change (Prog.bind (Prog.ofOption c.shape) _ log).2 = _
        cases c.shape with
        | none => rfl
        | some s =>
          change ((if s.1 ≠ sp.stride then Prog.fail Fail.panic else Pure.pure () : Prog Unit) log).2 = _
          split <;> rfl
  unfold Span.append
  change ∃ f, Prog.bind (Span.checkLast H utf8 sp) _ log = _
  unfold Prog.bind
  rcases e : Span.checkLast H utf8 sp log with ⟨f | u, log'⟩
  · rw [e] at hlog
    exact ⟨f, by rw [← hlog]⟩
  · rw [e] at hlog
    change log' = log at hlog
    subst hlog
    change ∃ f, Prog.bind (Prog.ofOption m.shape) _ log' = _
    rw [hs]
    change ∃ f, (if r ≠ sp.rows ∨ k ≠ sp.cols then Prog.fail Fail.panic else
      if n > sp.stride then Prog.fail Fail.panic else _ : Prog Span) log' = _
    by_cases h1 : r ≠ sp.rows ∨ k ≠ sp.cols
    · rw [if_pos h1]; exact ⟨_, rfl⟩
    · rw [if_neg h1, if_pos (by
        rcases h with h | h | h
        · exact absurd (.inl h) h1
        · exact absurd (.inr h) h1
        · exact h)]
      exact ⟨_, rfl⟩

end

/-! ### C31 -/

/-- Reads of a structure give a series of `n` rasters. -/
structure ReadsAs (utf8 : List Byte → Bool) (st : Store) (fuel : Nat) (m : MMStruct3)
    (n rows cols : Nat) (data : Nat → Nat → Nat → Int64) : Prop where
  shape : m.shape = some (n, rows, cols)
  get : ∀ t row col, t < n → row < rows → col < cols →
    ∃ bits, MMStruct3.get utf8 st fuel m 0 t row col = .ok (bits, data t row col)
  cell : ∀ start fin row col, start ≤ fin → fin ≤ n → row < rows → col < cols →
    (Out.map (fun q => (q.1, q.2.2)) (MMStruct3.fillCell utf8 st fuel m 0 start fin row col)).Yields
      ((List.range (fin - start)).map fun i => (i, data (start + i) row col))
  window : ∀ start fin top bottom left right, start ≤ fin → fin ≤ n → top < bottom →
    left < right → bottom ≤ rows → right ≤ cols →
    (Out.map (fun q => (q.1, q.2.1, q.2.2.1, q.2.2.2.2)) (MMStruct3.fillWindow utf8 st fuel m 0
      ⟨start, fin, top, bottom, left, right⟩)).Yields
      (Spec.window3 data start fin top bottom left right)

/-- Searches of a structure find what is in a series of `n` rasters. -/
def SearchesAs (utf8 : List Byte → Bool) (st : Store) (fuel : Nat) (m : MMStruct3)
    (n rows cols : Nat) (data : Nat → Nat → Nat → Int64) : Prop :=
  ∀ start fin top bottom left right lower upper, start ≤ fin → fin ≤ n → top < bottom →
    left < right → bottom ≤ rows → right ≤ cols →
    (MMStruct3.search utf8 st fuel m ⟨start, fin, top, bottom, left, right⟩ lower upper).Yields
      ((Spec.hits3 data start fin top bottom left right (min lower upper) (max lower upper)).map some)

section
variable {H : Hash} {utf8 : List Byte → Bool} {clog : Nat → Nat} {lg : Rat → Int} {fuel readFuel : Nat}
  {levels : List Nat} {cs ss : Nat}

/-- A variable reads as a series. -/
theorem HistInv.reads {D : Nat → Nat → Nat → Int64} {N rows cols : Nat}
    (h : IntBase clog levels D N rows cols cs ss) {name : List Byte} {enc : MMEncoding}
    {round : Option Nat} {s : Dataset × Saved} {M : Nat}
    (hi : HistInv H utf8 (h.theory H enc) levels round name s M) (log : Saved) (hsub : s.2 ⊆ log) (hnc : log.NoCollision H)
    (hrf : levels.length + 34 ≤ readFuel) :
    ∃ v m, s.1.findVariable name = some v ∧ (log.load H).getStruct utf8 v.cid = .ok m ∧
      m.encoding = enc ∧ m.fractionalBits = 0 ∧ ReadsAs utf8 (log.load H) readFuel m M rows cols D ∧
      (IntSafe clog levels D N rows cols cs → SearchesAs utf8 (log.load H) readFuel m M rows cols D) := by
  obtain ⟨v, tl, h1, h2, -, h3, h4, he, i, root, h5, h6, h7, -⟩ := hi.var
  have hh := VarTheory.height_lt _ h7
  have h5 := h5.mono hsub
  have h6 := h6.mono hsub
  refine ⟨v, .span root, h1, h5.get utf8 hnc, h6.shaped.encoding, rfl, ?_, ?_⟩
  · have hrep := Tree.represents (T := h.theory H enc) (utf8 := utf8) (dec := fun _ v => v) (Leaf := LeafReads fun _ v => v)
      (Ext := ExtOf fun m v => m.1 ≤ v ∧ v ≤ m.2) (D := D) (d := levels.length + 1) hnc
      (fun m a n hK => IntChunk.reads hK utf8 log (List.Subset.refl _) hnc) _ _ _ _ _ h6
    simp only [Nat.zero_add] at hrep
    refine ⟨h6.shape, fun t row col h1 h2 h3 => ?_, ?_, ?_⟩
    · obtain ⟨bits, v, e, rfl⟩ := repr_get (fun _ _ _ _ _ h => h) _ readFuel _ _ _ _ _ hrep (by omega) t row
        col h1 h2 h3
      exact ⟨bits, e⟩
    · intro start fin row col a1 a2 a3 a4
      exact repr_fillCell (fun _ _ _ _ _ h => h) _ readFuel _ _ _ _ _ hrep (by omega) start fin row col a1 a2
        a3 a4
    · intro start fin top bottom left right a1 a2 a3 a4 a5 a6
      exact repr_fillWindow (fun _ _ _ _ _ h => h) _ readFuel _ _ _ _ _ hrep (by omega) start fin top
        bottom left right a1 a2 a3 a4 a5 a6
  · intro hsafe
    have hrep := Tree.represents (T := h.theory H enc) (utf8 := utf8) (dec := fun _ v => v) (Leaf := LeafSearches)
      (Ext := ExtOf fun m v => m.1 ≤ v ∧ v ≤ m.2) (D := D) (d := levels.length + 1) hnc
      (fun m a n hK => IntChunk.searches hK hsafe utf8 log (List.Subset.refl _) hnc) _ _ _ _ _ h6
    simp only [Nat.zero_add] at hrep
    intro start fin top bottom left right lower upper a1 a2 a3 a4 a5 a6
    exact repr_search (fun _ _ _ _ _ h => h) _ readFuel _ _ _ _ _ hrep (by omega) start fin top
        bottom left right lower upper a1 a2 a3 a4 a5 a6

/-- The assumptions on a history: a variable is added to a data set that has no variable of that name,
then follow any operations on this and other variables, of which some may fail; only the appends to
this variable have to be of the shape of the data set. -/
structure HistoryShape (utf8 : List Byte → Bool) (readFuel : Nat) (d : Dataset)
    (name : List Byte) (round : Option Nat) (ss cs : Nat) (levels : List Nat) (enc : MMEncoding)
    (ops : List Op) : Prop where
  dataset : d.Fits utf8
  new : d.findVariable name = none
  fits : (Op.addVariable name round ss cs levels enc).Fits utf8
  count : d.variables.length + 1 + adds ops < 256
  each : ∀ op ∈ ops, op.Fits utf8 ∧ op.On utf8 readFuel name d.rows d.cols

/-- The assumptions on a history of a variable of integers. -/
structure History (utf8 : List Byte → Bool) (clog : Nat → Nat) (readFuel : Nat) (d : Dataset)
    (name : List Byte) (round : Option Nat) (ss cs : Nat) (levels : List Nat) (enc : MMEncoding)
    (ops : List Op) : Prop extends
    HistoryShape utf8 readFuel d name round ss cs levels enc ops where
  type : OneType (arrays name ops)
  int : IntVar clog levels (concatInt (arrays name ops)) (total (arrays name ops)) d.rows d.cols cs ss

theorem HistoryShape.inv {T : VarTheory} {Next : Nat → NdArray → Nat → Prop} {d : Dataset}
    {name : List Byte} {round : Option Nat} {ops : List Op}
    (h : HistoryShape utf8 readFuel d name round T.ss T.cs levels T.enc ops)
    (hr : d.rows = T.rows) (hc : d.cols = T.cols)
    (ha : Appends False H utf8 clog lg fuel readFuel T levels round Next)
    (hfo : Follows Next 0 (arrays name ops)) (log : Saved)
    (hnc : (runs H utf8 clog lg fuel (.addVariable name round T.ss T.cs levels T.enc :: ops)
      (d, log)).2.NoCollision H) :
    HistInv H utf8 T levels round name (runs H utf8 clog lg fuel
      (.addVariable name round T.ss T.cs levels T.enc :: ops) (d, log)) (total (arrays name ops)) := by
  have hnc1 : ((Op.addVariable name round T.ss T.cs levels T.enc).step H utf8 clog lg fuel
      (d, log)).2.NoCollision H := NoCollision.mono (runs_mono ops _) hnc
  have hcount := h.count
  have h1 := HistInv.start (H := H) (lg := lg) (clog := clog) (fuel := fuel) (log := log) (round := round)
    T h.dataset hr hc h.new h.fits (by omega) hnc1
  have hlen : ((Op.addVariable name round T.ss T.cs levels T.enc).step H utf8 clog lg fuel
      (d, log)).1.variables.length = d.variables.length + 1 := by
    change (d.variables ++ [_]).length = _
    simp
  have := HistInv.runs ha ops _ 0 h1 (by rw [← hr, ← hc]; exact h.each) (by rw [hlen]; omega) hfo hnc
  rwa [Nat.zero_add] at this

theorem History.follows {d : Dataset} {name : List Byte} {round : Option Nat} {enc : MMEncoding}
    {ops : List Op} (h : History utf8 clog readFuel d name round ss cs levels enc ops) :
    Follows (NextInt (concatInt (arrays name ops)) (total (arrays name ops)) d.rows d.cols) 0
      (arrays name ops) := by
  refine follows_int _ _ (by omega) (fun t r c _ _ _ => by rw [Nat.zero_add]) ?_
  rcases h.type with h | h
  · exact .inl h
  · exact .inr ⟨h, fun t r c ht => by omega⟩

theorem History.inv {d : Dataset} {name : List Byte} {round : Option Nat} {enc : MMEncoding}
    {ops : List Op} (h : History utf8 clog readFuel d name round ss cs levels enc ops)
    (hf : 32 ≤ fuel) (hrf : levels.length < readFuel) (log : Saved)
    (hnc : (runs H utf8 clog lg fuel (.addVariable name round ss cs levels enc :: ops)
      (d, log)).2.NoCollision H) :
    HistInv H utf8 (h.int.theory H enc) levels round name (runs H utf8 clog lg fuel
      (.addVariable name round ss cs levels enc :: ops) (d, log)) (total (arrays name ops)) :=
  HistoryShape.inv (T := h.int.theory H enc) h.toHistoryShape rfl rfl (h.int.appends hf hrf) h.follows log
    hnc

/-- C31: after any history, reads of the variable give the arrays appended to it, one after the
other, and searches find what is in them if the rasters can be searched (see C09 and C24).

Partial: the variable holds integers, the arrays appended to it are all of 32 or all of 64 bits, the
superchunk builder accepts the rasters (see C26), no square of a chunk is split by overflow
(`C07_exact`). All this is in `History` and `IntVar`. -/
theorem C31_history_partial (d : Dataset) (name : List Byte) (round : Option Nat)
    (enc : MMEncoding) (ops : List Op) (log : Saved)
    (h : History utf8 clog readFuel d name round ss cs levels enc ops)
    (hf : 32 ≤ fuel) (hrf : levels.length + 34 ≤ readFuel)
    (s : Dataset × Saved)
    (hs : s = runs H utf8 clog lg fuel (.addVariable name round ss cs levels enc :: ops) (d, log))
    (hnc : s.2.NoCollision H) :
    ∃ v m, s.1.findVariable name = some v ∧ (s.2.load H).getStruct utf8 v.cid = .ok m ∧
      m.encoding = enc ∧
      ReadsAs utf8 (s.2.load H) readFuel m (total (arrays name ops)) d.rows d.cols
        (concatInt (arrays name ops)) ∧
      (IntSafe clog levels (concatInt (arrays name ops)) (total (arrays name ops)) d.rows d.cols cs →
        SearchesAs utf8 (s.2.load H) readFuel m (total (arrays name ops)) d.rows d.cols
          (concatInt (arrays name ops))) := by
  subst hs
  obtain ⟨v, m, h1, h2, h3, -, h4⟩ := (h.inv hf (by omega) log hnc).reads h.int.toIntBase _ (List.Subset.refl _) hnc hrf
  exact ⟨v, m, h1, h2, h3, h4⟩

theorem arrays_append (name : List Byte) (ops ops' : List Op) :
    arrays name (ops ++ ops') = arrays name ops ++ arrays name ops' := by
  induction ops with
  | nil => rfl
  | cons op ops ih => rw [List.cons_append, arrays_cons, ih, arrays_cons name op ops, List.append_assoc]

theorem runs_append (ops ops' : List Op) (s : Dataset × Saved) :
    runs H utf8 clog lg fuel (ops ++ ops') s =
      runs H utf8 clog lg fuel ops' (runs H utf8 clog lg fuel ops s) := by
  induction ops generalizing s with
  | nil => rfl
  | cons op ops ih => exact ih _

theorem adds_append (ops ops' : List Op) : adds (ops ++ ops') = adds ops + adds ops' := by
  induction ops with
  | nil => simp [adds]
  | cons op ops ih => rw [List.cons_append, adds_cons, ih, adds_cons op ops, Nat.add_assoc]

theorem concatInt_append_left (as bs : List (NdArray × Nat)) (t r c : Nat) (h : t < total as) :
    concatInt (as ++ bs) t r c = concatInt as t r c := by
  induction as generalizing t with
  | nil => simp [total] at h
  | cons x as ih =>
    rw [total_cons] at h
    obtain ⟨a, n⟩ := x
    simp only [List.cons_append, concatInt]
    split
    · rfl
    · exact ih _ (by change t < n + _ at h; omega)

theorem concatInt_append_right (as bs : List (NdArray × Nat)) (t r c : Nat) :
    concatInt (as ++ bs) (total as + t) r c = concatInt bs t r c := by
  induction as with
  | nil => simp [total]
  | cons x as ih =>
    rw [total_cons]
    obtain ⟨a, n⟩ := x
    simp only [List.cons_append, concatInt]
    rw [if_neg (by omega), show n + total as + t - n = total as + t by omega, ih]

theorem total_append (as bs : List (NdArray × Nat)) : total (as ++ bs) = total as + total bs := by
  simp [total]

theorem Follows.split {Next : Nat → NdArray → Nat → Prop} : ∀ (as bs : List (NdArray × Nat)) (M : Nat),
    Follows Next M (as ++ bs) ↔ Follows Next M as ∧ Follows Next (M + total as) bs := by
  intro as bs
  induction as with
  | nil => intro M; simp [Follows, total]
  | cons x as ih =>
    intro M
    rw [List.cons_append, Follows, Follows, ih, total_cons, and_assoc, Nat.add_assoc]

theorem HistoryShape.append {T : VarTheory} {Next : Nat → NdArray → Nat → Prop} {d : Dataset}
    {name : List Byte} {round : Option Nat} {ops : List Op} {fill : Fill} {data : NdArray} {n : Nat}
    (h : HistoryShape utf8 readFuel d name round T.ss T.cs levels T.enc
      (ops ++ [.append fill name data n d.rows d.cols]))
    (hr : d.rows = T.rows) (hc : d.cols = T.cols)
    (ha : Appends False H utf8 clog lg fuel readFuel T levels round Next)
    (hfo : Follows Next 0 (arrays name (ops ++ [.append fill name data n d.rows d.cols]))) (log : Saved)
    (hnc : (Dataset.append H utf8 clog lg fuel fill
      (runs H utf8 clog lg fuel (.addVariable name round T.ss T.cs levels T.enc :: ops) (d, log)).1 name
      data n d.rows d.cols
      (runs H utf8 clog lg fuel (.addVariable name round T.ss T.cs levels T.enc :: ops)
        (d, log)).2).2.NoCollision H) :
    ∃ d' log', Dataset.append H utf8 clog lg fuel fill
      (runs H utf8 clog lg fuel (.addVariable name round T.ss T.cs levels T.enc :: ops) (d, log)).1 name
      data n d.rows d.cols
      (runs H utf8 clog lg fuel (.addVariable name round T.ss T.cs levels T.enc :: ops) (d, log)).2 =
        (.ok d', log') := by
  have hone : arrays name [Op.append fill name data n d.rows d.cols] = [(data, n)] := by simp [arrays]
  rw [arrays_append, hone, Follows.split] at hfo
  have hcount := h.count
  rw [adds_append] at hcount
  have hpre : HistoryShape utf8 readFuel d name round T.ss T.cs levels T.enc ops :=
    ⟨h.dataset, h.new, h.fits, by omega, fun op ho => h.each op (List.mem_append_left _ ho)⟩
  have hnc0 : (runs H utf8 clog lg fuel (.addVariable name round T.ss T.cs levels T.enc :: ops)
      (d, log)).2.NoCollision H :=
    NoCollision.mono (Dataset.append_mono fill _ name data n d.rows d.cols _) hnc
  have h2 := hpre.inv hr hc ha hfo.1 log hnc0
  have hon := (h.each (.append fill name data n d.rows d.cols) (by simp)).2 rfl
  have hsat := HistInv.append ha h2 hon.1 (by simpa using hfo.2.1)
  rw [← hr, ← hc] at hsat
  obtain ⟨d', log', e, -⟩ := hsat.ok hnc
  exact ⟨d', log', e⟩

/-- C31: an append that keeps to the assumptions succeeds after any history. -/
theorem C31_append_succeeds_partial (d : Dataset) (name : List Byte) (round : Option Nat)
    (enc : MMEncoding) (ops : List Op) (log : Saved) (fill : Fill) (data : NdArray) (n : Nat)
    (h : History utf8 clog readFuel d name round ss cs levels enc
      (ops ++ [.append fill name data n d.rows d.cols]))
    (hf : 32 ≤ fuel) (hrf : levels.length < readFuel)
    (s : Dataset × Saved)
    (hs : s = runs H utf8 clog lg fuel (.addVariable name round ss cs levels enc :: ops) (d, log))
    (hnc : (Dataset.append H utf8 clog lg fuel fill s.1 name data n d.rows d.cols s.2).2.NoCollision H) :
    ∃ d' log', Dataset.append H utf8 clog lg fuel fill s.1 name data n d.rows d.cols s.2 =
      (.ok d', log') := by
  subst hs
  exact HistoryShape.append (T := h.int.theory H enc) h.toHistoryShape rfl rfl
    (h.int.appends hf hrf) h.follows log hnc

/-- C31: an append to a variable that does not exist is an error, and nothing is saved. -/
theorem C31_unknown_name (d : Dataset) (name : List Byte) (fill : Fill) (data : NdArray)
    (n rows cols : Nat) (log : Saved) (h : ∀ v ∈ d.variables, v.name ≠ name) :
    Dataset.append H utf8 clog lg fuel fill d name data n rows cols log = (.error (.err (.badName name)), log) := by
  have : d.findVariable name = none := by
    unfold Dataset.findVariable
    rw [List.find?_eq_none]
    intro v hv
    simpa using h v hv
  unfold Dataset.append
  rw [this]
  rfl

/-! ### C32 -/

/-- C32: an identifier denotes the same bytes for ever. -/
theorem C32_bytes (ops : List Op) (s : Dataset × Saved)
    (hnc : (runs H utf8 clog lg fuel ops s).2.NoCollision H) (cid : Cid) (bytes : List Byte)
    (h : s.2.load H cid = some bytes) :
    (runs H utf8 clog lg fuel ops s).2.load H cid = some bytes :=
  Saved.load_mono hnc (fun _ hb => runs_mono ops s hb) cid bytes h

/-- C32: the identifier of a data set denotes the same coordinates, shape, variables and previous
version after any later operations, and the identifier of a structure the same structure. -/
theorem C32_loaded (ops : List Op) (s : Dataset × Saved)
    (hnc : (runs H utf8 clog lg fuel ops s).2.NoCollision H) (cid : Cid) :
    (∀ d, (s.2.load H).getDataset utf8 cid = .ok d →
      ((runs H utf8 clog lg fuel ops s).2.load H).getDataset utf8 cid = .ok d) ∧
    ∀ m, (s.2.load H).getStruct utf8 cid = .ok m →
      ((runs H utf8 clog lg fuel ops s).2.load H).getStruct utf8 cid = .ok m := by
  have hst := C32_bytes (H := H) (utf8 := utf8) (clog := clog) (lg := lg) (fuel := fuel) ops s hnc
  refine ⟨fun d h => ?_, fun m h => Store.getStruct_mono hst _ _ h⟩
  unfold Store.getDataset at h ⊢
  cases h1 : (s.2.load H).retrieve utf8 cid with
  | error e => rw [h1] at h; cases h
  | ok x =>
    rw [h1] at h
    rw [Store.retrieve_mono hst _ _ h1]
    exact h

/-- C32: a value read from a structure is read again after any later operations. -/
theorem C32_get (ops : List Op) (s : Dataset × Saved)
    (hnc : (runs H utf8 clog lg fuel ops s).2.NoCollision H) (m : MMStruct3)
    (rf bits t row col : Nat) (x : Nat × Int64)
    (h : MMStruct3.get utf8 (s.2.load H) rf m bits t row col = .ok x) :
    MMStruct3.get utf8 ((runs H utf8 clog lg fuel ops s).2.load H) rf m bits t row col = .ok x :=
  MMStruct3.get_mono (C32_bytes ops s hnc) rf m bits t row col x h

/-- C32: if all that a structure refers to, directly or not, is in the store, then every read and
search of it has the same possible outcomes after any later operations (also the ones that fail). -/
theorem C32_reads (ops : List Op) (s : Dataset × Saved)
    (hnc : (runs H utf8 clog lg fuel ops s).2.NoCollision H) (m : MMStruct3) (depth : Nat)
    (hm : Closed utf8 (s.2.load H) depth m) (st' : Store)
    (hst' : st' = (runs H utf8 clog lg fuel ops s).2.load H) (rf : Nat) :
    (∀ bits t row col, MMStruct3.get utf8 st' rf m bits t row col =
      MMStruct3.get utf8 (s.2.load H) rf m bits t row col) ∧
    (∀ bits start fin row col, MMStruct3.fillCell utf8 st' rf m bits start fin row col =
      MMStruct3.fillCell utf8 (s.2.load H) rf m bits start fin row col) ∧
    (∀ bits window, MMStruct3.fillWindow utf8 st' rf m bits window =
      MMStruct3.fillWindow utf8 (s.2.load H) rf m bits window) ∧
    ∀ bounds lower upper, MMStruct3.search utf8 st' rf m bounds lower upper =
      MMStruct3.search utf8 (s.2.load H) rf m bounds lower upper := by
  have hst := C32_bytes (H := H) (utf8 := utf8) (clog := clog) (lg := lg) (fuel := fuel) ops s hnc
  subst hst'
  exact ⟨hm.get_eq hst rf, hm.fillCell_eq hst rf, hm.fillWindow_eq hst rf, hm.search_eq hst rf⟩

/-- C32: the contents of a variable, as they were at some point of a history, stay readable under the
identifier the variable had then, whatever is done later (appends to the same variable and failed
operations too). Partial as C31. -/
theorem C32_contents_partial (d : Dataset) (name : List Byte) (round : Option Nat)
    (enc : MMEncoding) (ops later : List Op) (log : Saved)
    (h : History utf8 clog readFuel d name round ss cs levels enc ops)
    (hf : 32 ≤ fuel) (hrf : levels.length + 34 ≤ readFuel) (s s' : Dataset × Saved)
    (hs : s = runs H utf8 clog lg fuel (.addVariable name round ss cs levels enc :: ops) (d, log))
    (hs' : s' = runs H utf8 clog lg fuel later s) (hnc : s'.2.NoCollision H) :
    ∃ v m, s.1.findVariable name = some v ∧ (s'.2.load H).getStruct utf8 v.cid = .ok m ∧
      m.encoding = enc ∧ ReadsAs utf8 (s'.2.load H) readFuel m (total (arrays name ops)) d.rows d.cols
        (concatInt (arrays name ops)) ∧
      (IntSafe clog levels (concatInt (arrays name ops)) (total (arrays name ops)) d.rows d.cols cs →
        SearchesAs utf8 (s'.2.load H) readFuel m (total (arrays name ops)) d.rows d.cols
          (concatInt (arrays name ops))) := by
  subst hs hs'
  have hsub := runs_mono (H := H) (utf8 := utf8) (clog := clog) (lg := lg) (fuel := fuel) later
    (runs H utf8 clog lg fuel (.addVariable name round ss cs levels enc :: ops) (d, log))
  obtain ⟨v, m, h1, h2, h3, -, h4⟩ := (h.inv hf (by omega) log (NoCollision.mono hsub hnc)).reads h.int.toIntBase _
    hsub hnc hrf
  exact ⟨v, m, h1, h2, h3, h4⟩

/-! ### C34 -/

/-- C34: committing a data set within the limits of the format and loading it returns the same
coordinates, shape, variables and previous version; it knows its identifier. -/
theorem C34_round_trip (d : Dataset) (hd : d.WF utf8) (log : Saved)
    (cid : Cid) (log' : Saved) (hc : d.commit H log = (.ok cid, log')) (hnc : log'.NoCollision H) :
    (log'.load H).getDataset utf8 cid = .ok { d with cid := some cid } := by
  have h1 : H.cidOf (Item.dataset d).bytes = cid := Except.ok.inj (congrArg Prod.fst hc)
  have h2 : (Item.dataset d).bytes :: log = log' := congrArg Prod.snd hc
  subst h2 h1
  exact Store.getDataset_of (Saved.load_mem hnc (List.mem_cons_self ..)) hd

/-! ### C33 -/

/-- Following the previous versions from `p` one meets `l`, and then there is none. -/
inductive Versions (utf8 : List Byte → Bool) (st : Store) : (p : Option Cid) → (l : List Cid) → Prop
  | nil : Versions utf8 st none []
  | cons {cid d l} : st.getDataset utf8 cid = .ok d → Versions utf8 st d.prev l →
      Versions utf8 st (some cid) (cid :: l)

theorem Versions.unique {st : Store} {p : Option Cid} {l l' : List Cid} (h : Versions utf8 st p l)
    (h' : Versions utf8 st p l') : l = l' := by
  induction h generalizing l' with
  | nil => cases h'; rfl
  | @cons cid d l hd _ ih =>
    cases h' with
    | @cons _ d' l' hd' hl' =>
      rw [hd] at hd'
      cases hd'
      rw [ih hl']

theorem Versions.suffix {st : Store} {p : Option Cid} {l : List Cid} (h : Versions utf8 st p l) :
    ∀ cid ∈ l, ∃ l', l' <:+ l ∧ Versions utf8 st (some cid) l' := by
  induction h with
  | nil => intro cid hc; cases hc
  | @cons cid d l hd hl ih =>
    intro c hc
    rcases List.mem_cons.1 hc with rfl | hc
    · exact ⟨_, List.suffix_refl _, .cons hd hl⟩
    · obtain ⟨l', h1, h2⟩ := ih c hc
      exact ⟨l', h1.trans (List.suffix_cons ..), h2⟩

/-- No version comes twice. -/
theorem Versions.nodup {st : Store} {p : Option Cid} {l : List Cid} (h : Versions utf8 st p l) :
    l.Nodup := by
  induction h with
  | nil => exact List.nodup_nil
  | @cons cid d l hd hl ih =>
    refine List.nodup_cons.2 ⟨fun hc => ?_, ih⟩
    obtain ⟨l', h1, h2⟩ := hl.suffix cid hc
    have := h2.unique (.cons hd hl)
    subst this
    have := h1.length_le
    simp at this

theorem Versions.mono {log log' : Saved} (hs : log ⊆ log') (hnc : log'.NoCollision H) {p : Option Cid}
    {l : List Cid} (h : Versions utf8 (log.load H) p l) : Versions utf8 (log'.load H) p l := by
  induction h with
  | nil => exact .nil
  | @cons cid d l hd _ ih =>
    refine .cons ?_ ih
    have hst := Saved.load_mono hnc (fun _ hb => hs hb)
    unfold Store.getDataset at hd ⊢
    cases h1 : (log.load H).retrieve utf8 cid with
    | error e => rw [h1] at hd; cases hd
    | ok x =>
      rw [h1] at hd
      rw [Store.retrieve_mono hst _ _ h1]
      exact hd

variable (H utf8 clog lg fuel) in
/-- The identifiers given out by the `reload`s of a history, newest first. Committing a data set that
was not changed since it was loaded gives the identifier it has, and is no new version. -/
def commits : List Op → Dataset × Saved → List Cid → List Cid
  | [], _, l => l
  | .reload :: ops, s, l =>
    commits ops (Op.reload.step H utf8 clog lg fuel s)
      (if s.1.cid = some (H.cidOf (Item.dataset s.1).bytes) then l
      else H.cidOf (Item.dataset s.1).bytes :: l)
  | op :: ops, s, l => commits ops (op.step H utf8 clog lg fuel s) l

/-- The state of a history of which `l` are the versions. -/
structure ChainInv (H : Hash) (utf8 : List Byte → Bool) (s : Dataset × Saved) (l : List Cid) : Prop where
  fits : s.1.Fits utf8
  versions : Versions utf8 (s.2.load H) s.1.nextPrev l
  cid : ∀ c, s.1.cid = some c → c = H.cidOf (Item.dataset s.1).bytes

theorem ChainInv.edit {op : Op} {s : Dataset × Saved} {l : List Cid} (h : ChainInv H utf8 s l)
    (ho : op.Fits utf8) (hn : s.1.variables.length + adds [op] < 256)
    (hnc : (op.step H utf8 clog lg fuel s).2.NoCollision H) (hop : op ≠ .reload) :
    ChainInv H utf8 (op.step H utf8 clog lg fuel s) l := by
  have hf := (op.step_fits s.1 s.2 h.fits ho hn hnc).1
  have hv := h.versions.mono (op.step_mono s) hnc
  cases op with
  | append fill nm data n rows cols =>
    have : (∃ d', (Op.step H utf8 clog lg fuel (.append fill nm data n rows cols) s).1 = d' ∧
        ((d'.nextPrev = s.1.nextPrev ∧ d'.cid = none) ∨ d' = s.1)) := by
      refine ⟨_, rfl, ?_⟩
      unfold Op.step
      rcases e : Op.prog H utf8 clog lg fuel (.append fill nm data n rows cols) s.1 s.2 with ⟨_ | d', log'⟩
      · exact .inr rfl
      · obtain ⟨w, w', e1, -, rfl⟩ := Dataset.append_post fill s.1 nm data n rows cols _ _ _ e
        exact .inl ⟨rfl, rfl⟩
    obtain ⟨d', e, h1 | h1⟩ := this
    · exact ⟨hf, by rw [e, h1.1]; exact hv, fun c hc => by rw [e, h1.2] at hc; cases hc⟩
    · exact ⟨hf, by rw [e, h1]; exact hv, fun c hc => by rw [e, h1] at hc ⊢; exact h.cid c hc⟩
  | addVariable nm round spanSize chunkSize k2Levels encoding =>
    exact ⟨hf, hv, fun c hc => by cases hc⟩
  | commit => exact ⟨hf, hv, h.cid⟩
  | reload => exact absurd rfl hop

theorem Op.reload_step {s : Dataset × Saved} (hd : s.1.WF utf8)
    (hnc : (Op.reload.step H utf8 clog lg fuel s).2.NoCollision H) :
    Op.reload.step H utf8 clog lg fuel s =
      ({ s.1 with cid := some (H.cidOf (Item.dataset s.1).bytes) }, (Item.dataset s.1).bytes :: s.2) := by
  have hlog : (Op.step H utf8 clog lg fuel .reload s).2 = (Item.dataset s.1).bytes :: s.2 := by
    have : (Op.reload.prog H utf8 clog lg fuel s.1 s.2).2 = (Item.dataset s.1).bytes :: s.2 := rfl
    rw [← this]
    unfold Op.step
    rcases Op.reload.prog H utf8 clog lg fuel s.1 s.2 with ⟨_ | d', log'⟩ <;> rfl
  rw [hlog] at hnc
  unfold Op.step
  rw [Dataset.reload_eq hd hnc]

theorem ChainInv.reload {s : Dataset × Saved} {l : List Cid} (h : ChainInv H utf8 s l)
    (hnc : (Op.reload.step H utf8 clog lg fuel s).2.NoCollision H) :
    ChainInv H utf8 (Op.reload.step H utf8 clog lg fuel s)
      (if s.1.cid = some (H.cidOf (Item.dataset s.1).bytes) then l
      else H.cidOf (Item.dataset s.1).bytes :: l) := by
  have hv := h.versions.mono (Op.step_mono (H := H) (utf8 := utf8) (clog := clog) (lg := lg) (fuel := fuel)
    .reload s) hnc
  have hstep := Op.reload_step h.fits.wf hnc
  rw [hstep] at hnc hv ⊢
  refine ⟨⟨⟨h.fits.wf.coord0, h.fits.wf.coord1, h.fits.wf.coord2, h.fits.wf.len, h.fits.wf.vars,
    h.fits.wf.rows, h.fits.wf.cols, h.fits.wf.prev⟩, fun c hc => ?_⟩, ?_, ?_⟩
  · have : H.cidOf (Item.dataset s.1).bytes = c := Option.some.inj hc
    exact this ▸ H.valid _
  · change Versions utf8 _ (some (H.cidOf (Item.dataset s.1).bytes)) _
    by_cases hc : s.1.cid = some (H.cidOf (Item.dataset s.1).bytes)
    · rw [if_pos hc]
      have : s.1.nextPrev = some (H.cidOf (Item.dataset s.1).bytes) := by
        unfold Dataset.nextPrev
        rw [hc]
        rfl
      rw [this] at hv
      exact hv
    · rw [if_neg hc]
      have hnone : s.1.cid = none := by
        cases h1 : s.1.cid with
        | none => rfl
        | some c => exact absurd (by rw [h1, ← h.cid c h1]) hc
      have : s.1.nextPrev = s.1.prev := by
        unfold Dataset.nextPrev
        rw [hnone]
        rfl
      rw [this] at hv
      exact .cons (Store.getDataset_of (Saved.load_mem hnc (List.mem_cons_self ..)) h.fits.wf) hv
  · intro c hc
    exact (Option.some.inj hc).symm

theorem ChainInv.runs : ∀ (ops : List Op) (s : Dataset × Saved) (l : List Cid), ChainInv H utf8 s l →
    (∀ op ∈ ops, op.Fits utf8) → s.1.variables.length + adds ops < 256 →
    (Verif.runs H utf8 clog lg fuel ops s).2.NoCollision H →
    ChainInv H utf8 (Verif.runs H utf8 clog lg fuel ops s) (commits H utf8 clog lg fuel ops s l) := by
  intro ops
  induction ops with
  | nil => intro s l h _ _ _; exact h
  | cons op ops ih =>
    intro s l h ho hn hnc
    rw [adds_cons] at hn
    have hnc1 : (op.step H utf8 clog lg fuel s).2.NoCollision H := NoCollision.mono (runs_mono ops _) hnc
    have hlen : (op.step H utf8 clog lg fuel s).1.variables.length ≤ s.1.variables.length + adds [op] :=
      (op.step_fits s.1 s.2 h.fits (ho op (List.mem_cons_self ..)) (by omega) hnc1).2.1
    have hrec := fun l' (h' : ChainInv H utf8 (op.step H utf8 clog lg fuel s) l') =>
      ih (op.step H utf8 clog lg fuel s) l' h' (fun o h => ho o (List.mem_cons_of_mem _ h)) (by omega) hnc
    have hedit := fun hop => h.edit (ho op (List.mem_cons_self ..)) (by omega) hnc1 hop
    cases op with
    | reload => exact hrec _ (h.reload hnc1)
    | commit => exact hrec _ (hedit (by simp))
    | append fill nm data n rows cols => exact hrec _ (hedit (by simp))
    | addVariable nm round spanSize chunkSize k2Levels encoding => exact hrec _ (hedit (by simp))

/-- C33: in a history in which every commit is followed by loading the data set again, the previous
versions of the data set are exactly the commits, newest first, then there is none; no version comes
twice.

Partial: commits of a data set that goes on being used without being loaded are left out of the
chain, see `C33_wrong`. -/
theorem C33_versions_partial (coord0 coord1 coord2 : Coordinate) (rows cols : Nat) (ops : List Op)
    (log : Saved) (hd : (Dataset.new coord0 coord1 coord2 rows cols).WF utf8)
    (hops : ∀ op ∈ ops, op.Fits utf8) (hadds : adds ops < 256)
    (s : Dataset × Saved)
    (hs : s = runs H utf8 clog lg fuel ops (Dataset.new coord0 coord1 coord2 rows cols, log))
    (hnc : s.2.NoCollision H) (l : List Cid)
    (hl : l = commits H utf8 clog lg fuel ops (Dataset.new coord0 coord1 coord2 rows cols, log) []) :
    Versions utf8 (s.2.load H) s.1.nextPrev l ∧ l.Nodup := by
  subst hs hl
  have := ChainInv.runs (H := H) (utf8 := utf8) (clog := clog) (lg := lg) (fuel := fuel) ops
    (Dataset.new coord0 coord1 coord2 rows cols, log) [] ⟨⟨hd, fun c hc => by cases hc⟩, .nil,
      fun c hc => by cases hc⟩ hops (by change 0 + adds ops < 256; omega) hnc
  exact ⟨this.versions, this.versions.nodup⟩

/-- C33: the versions reachable from the identifier of the last commit are that commit and the ones
before it. -/
theorem C33_last_commit_partial (coord0 coord1 coord2 : Coordinate) (rows cols : Nat) (ops : List Op)
    (log : Saved) (hd : (Dataset.new coord0 coord1 coord2 rows cols).WF utf8)
    (hops : ∀ op ∈ ops, op.Fits utf8) (hadds : adds ops < 256)
    (s : Dataset × Saved)
    (hs : s = runs H utf8 clog lg fuel (ops ++ [.reload])
      (Dataset.new coord0 coord1 coord2 rows cols, log))
    (hnc : s.2.NoCollision H) :
    ∃ cid, s.1.cid = some cid ∧ Versions utf8 (s.2.load H) (some cid)
      (commits H utf8 clog lg fuel (ops ++ [.reload])
        (Dataset.new coord0 coord1 coord2 rows cols, log) []) := by
  have h1 := (C33_versions_partial (H := H) (clog := clog) (lg := lg) (fuel := fuel) coord0 coord1 coord2
    rows cols (ops ++ [.reload]) log hd (fun op ho => by
      rcases List.mem_append.1 ho with h | h
      · exact hops op h
      · rw [List.mem_singleton] at h; subst h; trivial) (by rw [adds_append]; simpa [adds] using hadds)
    s hs hnc _ rfl).1
  rw [runs_append] at hs
  have h2 := ChainInv.runs (H := H) (utf8 := utf8) (clog := clog) (lg := lg) (fuel := fuel) ops
    (Dataset.new coord0 coord1 coord2 rows cols, log) [] ⟨⟨hd, fun c hc => by cases hc⟩, .nil,
      fun c hc => by cases hc⟩ hops (by change 0 + adds ops < 256; omega)
      (NoCollision.mono (by rw [hs]; exact Op.step_mono .reload _) hnc)
  have h3 : s = Op.reload.step H utf8 clog lg fuel (runs H utf8 clog lg fuel ops
    (Dataset.new coord0 coord1 coord2 rows cols, log)) := hs
  rw [h3] at hnc
  rw [Op.reload_step h2.fits.wf hnc] at h3
  refine ⟨H.cidOf (Item.dataset (runs H utf8 clog lg fuel ops
    (Dataset.new coord0 coord1 coord2 rows cols, log)).1).bytes, by rw [h3], ?_⟩
  have h4 : s.1.nextPrev = some (H.cidOf (Item.dataset (runs H utf8 clog lg fuel ops
    (Dataset.new coord0 coord1 coord2 rows cols, log)).1).bytes) := by rw [h3]; rfl
  rw [← h4]
  exact h1

/-- C33 is false of the code: `commit` does not change the data set it is called on, so when one
goes on with that data set (a variable is added) and commits again, the first commit is not among the
previous versions of the second. -/
theorem C33_wrong (coord0 coord1 coord2 : Coordinate) (rows cols : Nat) (log : Saved)
    (name : List Byte) (round : Option Nat) (ss cs : Nat) (levels : List Nat) (enc : MMEncoding)
    (hd : (Dataset.new coord0 coord1 coord2 rows cols).WF utf8)
    (ho : (Op.addVariable name round ss cs levels enc).Fits utf8)
    (s1 s2 : Dataset × Saved) (c1 c2 : Cid) (log1 log2 : Saved)
    (hs1 : s1 = (Dataset.new coord0 coord1 coord2 rows cols, log))
    (h1 : s1.1.commit H s1.2 = (.ok c1, log1))
    (hs2 : s2 = (Op.addVariable name round ss cs levels enc).step H utf8 clog lg fuel (s1.1, log1))
    (h2 : s2.1.commit H s2.2 = (.ok c2, log2)) (hnc : log2.NoCollision H) :
    c1 ≠ c2 ∧ Versions utf8 (log2.load H) (some c2) [c2] ∧
      ∀ l, Versions utf8 (log2.load H) (some c2) l → c1 ∉ l := by
  subst hs1
  have e1 : H.cidOf (Item.dataset (Dataset.new coord0 coord1 coord2 rows cols)).bytes = c1 :=
    Except.ok.inj (congrArg Prod.fst h1)
  have e2 : (Item.dataset (Dataset.new coord0 coord1 coord2 rows cols)).bytes :: log = log1 :=
    congrArg Prod.snd h1
  have e3 : H.cidOf (Item.dataset s2.1).bytes = c2 := Except.ok.inj (congrArg Prod.fst h2)
  have e4 : (Item.dataset s2.1).bytes :: s2.2 = log2 := congrArg Prod.snd h2
  have hnc2 : s2.2.NoCollision H := NoCollision.mono (by rw [← e4]; exact List.subset_cons_self ..) hnc
  have hfit := (Op.step_fits (H := H) (clog := clog) (lg := lg) (fuel := fuel) (.addVariable name round ss cs
    levels enc) (Dataset.new coord0 coord1 coord2 rows cols) log1 ⟨hd, fun c hc => by cases hc⟩ ho
    (by change 0 + 1 < 256; omega) (by rw [← hs2]; exact hnc2)).1
  rw [← hs2] at hfit
  have hprev : s2.1.prev = none := by rw [hs2]; rfl
  have hvars : s2.1.variables ≠ [] := by
    rw [hs2]
    change [] ++ [_] ≠ []
    simp
  have hsub : log1 ⊆ log2 := by
    rw [← e4]
    refine List.Subset.trans ?_ (List.subset_cons_self ..)
    rw [hs2]
    exact Op.step_mono _ (_, log1)
  have g1 : (log2.load H).getDataset utf8 c1 =
      .ok { Dataset.new coord0 coord1 coord2 rows cols with cid := some c1 } := by
    refine Store.getDataset_of ?_ hd
    rw [← e1]
    exact Saved.load_mem hnc (hsub (by rw [← e2]; exact List.mem_cons_self ..))
  have g2 : (log2.load H).getDataset utf8 c2 = .ok { s2.1 with cid := some c2 } := by
    refine Store.getDataset_of ?_ hfit.wf
    rw [← e3]
    exact Saved.load_mem hnc (by rw [← e4]; exact List.mem_cons_self ..)
  have hne : c1 ≠ c2 := by
    rintro rfl
    rw [g1] at g2
    have := congrArg Dataset.variables (Except.ok.inj g2)
    exact hvars this.symm
  have hv : Versions utf8 (log2.load H) (some c2) [c2] := .cons g2 (by
    change Versions utf8 _ s2.1.prev []
    rw [hprev]
    exact .nil)
  refine ⟨hne, hv, fun l hl => ?_⟩
  rw [hl.unique hv, List.mem_singleton]
  exact hne

end

/-! ### Examples -/

/-- The tail of a variable is read back in order. -/
def exampleFill : Fill := Fill.sequential (fun _ => true) 40

theorem exampleFill_valid : exampleFill.Valid (fun _ => true) 40 := Fill.sequential_valid _ _

def exampleCoord (b : Byte) : Coordinate := ⟨[b], .i64 0 1 4⟩

def exampleDataset : Dataset := Dataset.new (exampleCoord 1) (exampleCoord 2) (exampleCoord 3) 4 4

/-- Two instants, a commit, four more instants; another variable is added and appended to under a
wrong name. Chunks have two instants, spans two children. -/
def exampleOps : List Op :=
  [.append exampleFill [7] (.i64 exampleGrid) 2 4 4, .reload, .addVariable [8] none 2 2 [1, 1] .i64,
    .append exampleFill [9] (.i64 exampleGrid) 2 4 4,
    .append exampleFill [7] (.i64 fun t => exampleGrid (2 + t)) 4 4 4]

theorem exampleWF : exampleDataset.WF fun _ => true := by
  have : ∀ b, (exampleCoord b).WF fun _ => true :=
    fun b => ⟨by simp [exampleCoord], rfl, by change (4 : Nat) < 2 ^ 32; decide⟩
  exact ⟨this _, this _, this _, by decide, fun v hv => (List.not_mem_nil hv).elim, by decide, by decide,
    fun c hc => by cases hc⟩

theorem exampleArrays : arrays [7] exampleOps =
    [(.i64 exampleGrid, 2), (.i64 fun t => exampleGrid (2 + t), 4)] := rfl

theorem exampleHistory : History (fun _ => true) exampleClog 40 exampleDataset [7] none 2 2 [1, 1] .i64
    exampleOps where
  dataset := ⟨exampleWF, fun c hc => by cases hc⟩
  new := rfl
  fits := by
    refine ⟨by decide, rfl, fun b hb => (nomatch hb), by decide, by decide, by decide, by decide⟩
  count := by decide +kernel
  each := by
    have hf := exampleFill_valid
    intro op ho
    simp only [exampleOps, List.mem_cons, List.not_mem_nil, or_false] at ho
    rcases ho with rfl | rfl | rfl | rfl | rfl
    · exact ⟨trivial, fun _ => ⟨hf, rfl, rfl⟩⟩
    · exact ⟨trivial, trivial⟩
    · exact ⟨⟨by decide, rfl, fun b hb => (nomatch hb), by decide, by decide, by decide, by decide⟩, trivial⟩
    · exact ⟨trivial, fun h => absurd h (by decide)⟩
    · exact ⟨trivial, fun _ => ⟨hf, rfl, rfl⟩⟩
  type := by
    rw [exampleArrays]
    left
    intro x hx
    simp only [List.mem_cons, List.not_mem_nil, or_false] at hx
    rcases hx with rfl | rfl <;> exact ⟨_, rfl⟩
  int := by
    rw [exampleArrays]
    have hD : ∀ t r c, t < 6 → r < 4 → c < 4 → concatInt [(.i64 exampleGrid, 2),
        (.i64 fun t => exampleGrid (2 + t), 4)] t r c = exampleGrid t r c := by
      intro t r c ht _ _
      simp only [concatInt]
      split
      · rfl
      · rw [if_pos (by omega)]
        change exampleGrid (2 + (t - 2)) r c = _
        rw [show 2 + (t - 2) = t by omega]
    refine ⟨⟨exampleClogOk.mono (by decide), by decide, by decide, by decide, by decide, by decide, by decide,
      by decide, by decide, by decide, ⟨by decide, by decide, by decide⟩, ?_⟩, fun a n _ _ _ => ⟨rfl, trivial⟩⟩
    intro t0 t h1 _ h3
    refine NoOverflow.noSplit fun r c hr hc => ?_
    change t < 6 at h3
    rw [hD t r c h3 hr hc, hD t0 r c (by omega) hr hc]
    have key : ∀ t0, t0 < 6 → ∀ t, t < 6 → ∀ r, r < 4 → ∀ c, c < 4 →
        (exampleGrid t r c - exampleGrid t0 r c).toInt =
          (exampleGrid t r c).toInt - (exampleGrid t0 r c).toInt := by decide +kernel
    exact key t0 (by omega) t h3 r hr c hc

/-- No two objects saved in the history have the same identifier. -/
example : (runs exampleHash (fun _ => true) exampleClog (fun _ => 0) 32
    (.addVariable [7] none 2 2 [1, 1] .i64 :: exampleOps) (exampleDataset, [])).2.NoCollision
      exampleHash := by
  unfold Saved.NoCollision
  decide +kernel

/-- What the variable is in the end, in numbers: the 6 instants and the stride of its root. -/
example : ((runs exampleHash (fun _ => true) exampleClog (fun _ => 0) 32
    (.addVariable [7] none 2 2 [1, 1] .i64 :: exampleOps) (exampleDataset, [])).1.findVariable
      [7]).map (fun v => match ((runs exampleHash (fun _ => true) exampleClog (fun _ => 0) 32
    (.addVariable [7] none 2 2 [1, 1] .i64 :: exampleOps) (exampleDataset, [])).2.load
      exampleHash).getStruct (fun _ => true) v.cid with
        | .ok (.span sp) => (sp.instants, sp.stride, sp.spans.length)
        | _ => (0, 0, 0)) = some (6, 4, 2) := by
  decide +kernel

/-- The history has one commit that was loaded again. -/
example : (commits exampleHash (fun _ => true) exampleClog (fun _ => 0) 32
    (.addVariable [7] none 2 2 [1, 1] .i64 :: exampleOps) (exampleDataset, []) []).length = 1 ∧
    adds (.addVariable [7] none 2 2 [1, 1] .i64 :: exampleOps) < 256 := by
  decide +kernel

/-- C30 in numbers: two full children, then one of one instant, which is replaced by one of two; nothing
is appended after the short one. -/
def exampleSpans : Prog (List (Nat × Nat)) := do
  let a ← Prog.buildChunk exampleHash exampleClog (fun _ => 0) [1, 1] exampleBuffer 2 4 4
  let b ← Prog.buildChunk exampleHash exampleClog (fun _ => 0) [1, 1] exampleBuffer 1 4 4
  let s1 ← Span.append exampleHash (fun _ => true) (Span.new 4 4 2 .i64) a
  let s2 ← Span.append exampleHash (fun _ => true) s1 a
  let s3 ← Span.append exampleHash (fun _ => true) s2 b
  let s4 ← Span.update exampleHash (fun _ => true) s3 a
  pure [(s1.instants, s1.spans.length), (s2.instants, s2.spans.length), (s3.instants, s3.spans.length),
    (s4.instants, s4.spans.length)]

def exampleOpen : Prog Span := do
  let b ← Prog.buildChunk exampleHash exampleClog (fun _ => 0) [1, 1] exampleBuffer 1 4 4
  let s1 ← Span.append exampleHash (fun _ => true) (Span.new 4 4 2 .i64) b
  Span.append exampleHash (fun _ => true) s1 b

example : (match (exampleSpans []).1 with | .ok l => l | .error _ => []) =
    [(2, 1), (4, 2), (5, 3), (6, 3)] := by decide +kernel

example : (match (exampleOpen []).1 with | .ok _ => false | .error f => f == .panic) = true := by
  decide +kernel

/-- A span of two children that are both stored. -/
example : Closed (fun _ => true) (Saved.load exampleHash [(Item.struct (.subchunk ⟨[], [], .i64, 0⟩)).bytes]) 2
    (.span ⟨2, 4, 4, 1, [exampleHash.cidOf (Item.struct (.subchunk ⟨[], [], .i64, 0⟩)).bytes,
      exampleHash.cidOf (Item.struct (.subchunk ⟨[], [], .i64, 0⟩)).bytes], .i64⟩) := by
  intro cid hc
  refine ⟨.subchunk ⟨[], [], .i64, 0⟩, ?_, trivial⟩
  have : cid = exampleHash.cidOf (Item.struct (.subchunk ⟨[], [], .i64, 0⟩)).bytes := by
    simpa using hc
  subst this
  rfl

end Verif
