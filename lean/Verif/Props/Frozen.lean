import Verif.Lemmas.Frozen
import Verif.Props.Intact
import Verif.Props.Concurrent
import Verif.Props.FloatTail

/-!
Property C79: what is in full chunks never changes again. Whatever is done to a variable after some moment, each
instant of a chunk that was full at that moment reads as it did then.
-/
namespace Verif

open Prog hiding pure bind

section
variable {H : Hash} {utf8 : List Byte → Bool} {clog : Nat → Nat} {lg : Rat → Int} {fuel readFuel : Nat}
  {levels : List Nat} {cs ss : Nat}

theorem accepted_append (name : List Byte) (ops ops' : List Op) (s : Dataset × Saved) :
    accepted H utf8 clog lg fuel name (ops ++ ops') s = accepted H utf8 clog lg fuel name ops s ++
      accepted H utf8 clog lg fuel name ops' (runs H utf8 clog lg fuel ops s) := by
  induction ops generalizing s with
  | nil => rfl
  | cons op ops ih =>
    change op.taken H utf8 clog lg fuel name s ++ accepted H utf8 clog lg fuel name (ops ++ ops') _ =
      (op.taken H utf8 clog lg fuel name s ++ accepted H utf8 clog lg fuel name ops _) ++ _
    rw [ih, List.append_assoc]
    rfl

theorem AnyHistory.before {d : Dataset} {name : List Byte} {round : Option Nat} {enc : MMEncoding}
    {ops ops' : List Op} (h : AnyHistory utf8 readFuel d name round ss cs levels enc (ops ++ ops')) :
    AnyHistory utf8 readFuel d name round ss cs levels enc ops :=
  ⟨h.dataset, h.new, h.fits, by have := h.count; rw [adds_append] at this; omega,
    fun op ho => h.each op (List.mem_append_left _ ho)⟩

/-- The state after some operations, when others are to follow. -/
theorem AnyHistory.prefix_inv {d : Dataset} {name : List Byte} {round : Option Nat} {enc : MMEncoding}
    {ops ops' : List Op} {log : Saved} {N : Nat}
    (h : AnyHistory utf8 readFuel d name round ss cs levels enc (ops ++ ops'))
    (hset : Settings clog levels N d.rows d.cols cs ss) (hf : 32 ≤ fuel)
    (hN : total (acceptedAfter H utf8 clog lg fuel d log name (.addVariable name round ss cs levels enc) ops) ≤ N)
    (hnc : (runs H utf8 clog lg fuel (.addVariable name round ss cs levels enc :: ops) (d, log)).2.NoCollision H) :
    HistInv H utf8 (hset.theory H enc) levels round name
      (runs H utf8 clog lg fuel (.addVariable name round ss cs levels enc :: ops) (d, log))
      (total (acceptedAfter H utf8 clog lg fuel d log name (.addVariable name round ss cs levels enc) ops)) :=
  AnyHistory.inv (H := H) (T := hset.theory H enc) (lg := lg) (fuel := fuel) (Next := NextAny N) h.before rfl rfl
    (hset.appends hf) (fun M data n hn => Nat.le_trans hn (Nat.le_max_right ..)) hf log
    (follows_any _ _ (by rw [Nat.zero_add]; exact hN)) hnc

theorem runs_length : ∀ (ops : List Op) (s : Dataset × Saved), s.1.Fits utf8 → (∀ op ∈ ops, op.Fits utf8) →
    s.1.variables.length + adds ops < 256 → (runs H utf8 clog lg fuel ops s).2.NoCollision H →
    (runs H utf8 clog lg fuel ops s).1.variables.length ≤ s.1.variables.length + adds ops := by
  intro ops
  induction ops with
  | nil => intro s _ _ _ _; exact Nat.le_refl _
  | cons op ops ih =>
    intro s hs ho hn hnc
    rw [adds_cons] at hn ⊢
    have h1 := op.step_fits s.1 s.2 hs (ho op (List.mem_cons_self ..)) (by omega) (NoCollision.mono (runs_mono ops _) hnc)
    have h2 := ih _ h1.1 (fun o h => ho o (List.mem_cons_of_mem _ h)) (by have := h1.2.1; omega) hnc
    have := h1.2.1
    exact Nat.le_trans h2 (by omega)

/-- The chunk that begins at `a0`, if it is full, is the same after any further operations. -/
theorem AnyHistory.frozen {d : Dataset} {name : List Byte} {round : Option Nat} {enc : MMEncoding}
    {ops ops' : List Op} {log : Saved} {as as' : List (NdArray × Nat)}
    (has : as = acceptedAfter H utf8 clog lg fuel d log name (.addVariable name round ss cs levels enc) ops)
    (has' : as' = acceptedAfter H utf8 clog lg fuel d log name (.addVariable name round ss cs levels enc)
      (ops ++ ops'))
    (h : AnyHistory utf8 readFuel d name round ss cs levels enc (ops ++ ops'))
    (hset : Settings clog levels (total as') d.rows d.cols cs ss) (hf : 32 ≤ fuel) {s s' : Dataset × Saved}
    (hs : s = runs H utf8 clog lg fuel (.addVariable name round ss cs levels enc :: ops) (d, log))
    (hs' : s' = runs H utf8 clog lg fuel ops' s) (hnc : s'.2.NoCollision H) :
    (∃ bs, as' = as ++ bs) ∧ ∀ a0, a0 + cs ≤ total as → ∃ m0,
      HistInv H utf8 ((hset.theory H enc).and (At a0 m0)) levels round name s (total as) ∧
      HistInv H utf8 ((hset.theory H enc).and (At a0 m0)) levels round name s' (total as') := by
  have hbs : as' = as ++ accepted H utf8 clog lg fuel name ops' s := by
    rw [has', has, hs]
    exact accepted_append ..
  have hsub : s.2 ⊆ s'.2 := hs' ▸ runs_mono ops' s
  have htot : total as' = total as + total (accepted H utf8 clog lg fuel name ops' s) := by
    rw [hbs, total_append]
  refine ⟨⟨_, hbs⟩, fun a0 ha0 => ?_⟩
  have h1 : HistInv H utf8 (hset.theory H enc) levels round name s (total as) := by
    rw [hs, has]
    exact h.prefix_inv hset hf (by rw [← has]; omega) (hs ▸ NoCollision.mono hsub hnc)
  obtain ⟨m0, h2⟩ := h1.freeze a0
  refine ⟨m0, h2, ?_⟩
  have hlen : s.1.variables.length ≤ d.variables.length + (adds ops + 1) := by
    have := h.count
    rw [adds_append] at this
    have e : adds (.addVariable name round ss cs levels enc :: ops) = adds ops + 1 := rfl
    have := runs_length (H := H) (utf8 := utf8) (clog := clog) (lg := lg) (fuel := fuel)
      (.addVariable name round ss cs levels enc :: ops) (d, log) h.dataset (by
        intro op ho
        rcases List.mem_cons.1 ho with rfl | ho
        · exact h.fits
        · exact (h.each op (List.mem_append_left _ ho)).1)
      (by change d.variables.length + _ < _; omega) (hs ▸ NoCollision.mono hsub hnc)
    rw [hs, ← e]
    exact this
  have h3 := HistInv.runs_accepted (hset.frozen (H := H) (lg := lg) (enc := enc) (utf8 := utf8)
    (readFuel := readFuel) (round := round) hf a0 m0)
    (fun M data n hn => Nat.le_trans hn.2 (Nat.le_max_right ..)) hf ops' s (total as) h2
    (fun op ho => h.each op (List.mem_append_right _ ho))
    (by have := h.count; rw [adds_append] at this; omega) (follows_full _ _ ha0 (by omega)) (hs' ▸ hnc)
  rw [← htot] at h3
  rw [hs']
  exact h3

/-- What a variable reads as is, in the chunk that begins at `a0`, what that chunk reads as. -/
theorem HistInv.at {levels' : List Nat} {N M rows cols : Nat} {enc : MMEncoding} {round : Option Nat}
    {name : List Byte} {s : Dataset × Saved} {a0 : Nat} {m0 : MMStruct3}
    {hset : Settings clog levels' N rows cols cs ss}
    (h : HistInv H utf8 ((hset.theory H enc).and (At a0 m0)) levels round name s M) (hnc : s.2.NoCollision H)
    {α : Type} {dec : Nat → Int64 → α} {Ext : SuperHead → Nat → Nat → α → Prop} {dep : Nat}
    {v : Variable} {m : MMStruct3} (hv : s.1.findVariable name = some v)
    (hm : (s.2.load H).getStruct utf8 v.cid = .ok m) {E : Nat → Nat → Nat → α}
    (hE : Represents utf8 (s.2.load H) dec (LeafReads dec) Ext dep m M rows cols E) (ha : a0 % cs = 0)
    (hM : a0 + cs ≤ M) :
    ∃ d', Represents utf8 (s.2.load H) dec (LeafReads dec) Ext d' m0 cs rows cols (fun t => E (a0 + t)) := by
  obtain ⟨v', tl, e1, -, -, -, -, -, i, root, e2, e3, -, -⟩ := h.var
  rw [hv] at e1
  cases e1
  rw [e2.get utf8 hnc] at hm
  cases hm
  have ea : a0 / cs * cs = a0 := Nat.div_mul_cancel (Nat.dvd_of_mod_eq_zero ha)
  have hcs := hset.cs_pos
  obtain ⟨m', d', g1, g2⟩ := Tree.chunk (T := (hset.theory H enc).and (At a0 m0)) hnc _ _ _ _ _ _ E e3 hE
    (a0 / cs) (by change a0 / cs * cs < M; omega)
  have g3 : m' = m0 := g1.2 (by change 0 + a0 / cs * cs = a0; omega)
  subst g3
  change Represents utf8 (s.2.load H) dec (LeafReads dec) Ext d' m' (min cs (M - a0 / cs * cs)) rows cols
    (fun t => E (a0 / cs * cs + t)) at g2
  rw [ea, show min cs (M - a0) = cs by omega] at g2
  exact ⟨d', g2⟩

/-- C79: after any history, whatever has been appended and whatever has failed, and after whatever else is done
afterwards, each instant of each chunk that was full before reads as it did before. Instants are never lost. -/
theorem C79_full_chunks (d : Dataset) (name : List Byte) (round : Option Nat) (enc : MMEncoding)
    (ops ops' : List Op) (log : Saved) (as as' : List (NdArray × Nat))
    (has : as = acceptedAfter H utf8 clog lg fuel d log name (.addVariable name round ss cs levels enc) ops)
    (has' : as' = acceptedAfter H utf8 clog lg fuel d log name (.addVariable name round ss cs levels enc)
      (ops ++ ops'))
    (h : AnyHistory utf8 readFuel d name round ss cs levels enc (ops ++ ops'))
    (hset : Settings clog levels (total as') d.rows d.cols cs ss) (hf : 32 ≤ fuel)
    (hrf : levels.length + 34 ≤ readFuel) (s s' : Dataset × Saved)
    (hs : s = runs H utf8 clog lg fuel (.addVariable name round ss cs levels enc :: ops) (d, log))
    (hs' : s' = runs H utf8 clog lg fuel ops' s) (hnc : s'.2.NoCollision H) :
    total as ≤ total as' ∧ ∃ v m v' m', s.1.findVariable name = some v ∧ s'.1.findVariable name = some v' ∧
      ∀ (α : Type) (kind : Kind α), kind.encoding = enc →
        v.data kind utf8 (s.2.load H) = .ok m ∧ v'.data kind utf8 (s'.2.load H) = .ok m' ∧
        ∃ D D', ArrayReads kind utf8 (s.2.load H) readFuel m (total as) d.rows d.cols D ∧
          ArrayReads kind utf8 (s'.2.load H) readFuel m' (total as') d.rows d.cols D' ∧
          ∀ t r c, t < total as / cs * cs → r < d.rows → c < d.cols → D' t r c = D t r c := by
  have hsub : s.2 ⊆ s'.2 := hs' ▸ runs_mono ops' s
  have hnc0 := NoCollision.mono hsub hnc
  obtain ⟨⟨bs, hbs⟩, hfr⟩ := h.frozen has has' hset hf hs hs' hnc
  have htot : total as ≤ total as' := by rw [hbs, total_append]; omega
  have hi : HistInv H utf8 (hset.theory H enc) levels round name s (total as) := by
    rw [hs, has]
    exact h.prefix_inv hset hf (by rw [← has]; omega) (hs ▸ hnc0)
  have hi' : HistInv H utf8 (hset.theory H enc) levels round name s' (total as') := by
    refine h.any has' hset hf ?_ hnc
    rw [hs', hs, ← List.cons_append, runs_append]
  have key : ∀ (s : Dataset × Saved) (M : Nat), HistInv H utf8 (hset.theory H enc) levels round name s M →
      s.2.NoCollision H → ∃ v m dep, s.1.findVariable name = some v ∧ (s.2.load H).getStruct utf8 v.cid = .ok m ∧
        m.shape = some (M, d.rows, d.cols) ∧ dep ≤ readFuel ∧ m.encoding = enc ∧
        Sound utf8 (s.2.load H) dep m M d.rows d.cols := by
    intro s M hi hnc
    obtain ⟨v, tl, h1, -, -, -, -, -, i, root, h2, h3, h7, -⟩ := hi.var
    have hh := VarTheory.height_lt _ h7
    exact ⟨v, .span root, levels.length + 1 + i + 1, h1, h2.get utf8 hnc, h3.shape, by omega, h3.shaped.encoding,
      Tree.represents (T := hset.theory H enc) (D := fun _ _ _ => ()) (d := levels.length + 1) hnc
        (fun m a n hK => AnyChunk.sound hK utf8 _ (List.Subset.refl _) hnc) _ _ _ _ _ h3⟩
  obtain ⟨v, m, dep, a1, a2, a3, a4, a5, a6⟩ := key s _ hi hnc0
  obtain ⟨v', m', dep', b1, b2, b3, b4, b5, b6⟩ := key s' _ hi' hnc
  refine ⟨htot, v, m, v', m', a1, b1, fun α kind henc => ⟨?_, ?_, ?_⟩⟩
  · exact Variable.data_ok a2 (a5.trans henc.symm)
  · exact Variable.data_ok b2 (b5.trans henc.symm)
  obtain ⟨D, hD⟩ := a6.represents kind.dec
  obtain ⟨D', hD'⟩ := b6.represents kind.dec
  refine ⟨D, D', (Reads.of_repr (fun _ _ _ _ _ h => h) a3 hD a4).array,
    (Reads.of_repr (fun _ _ _ _ _ h => h) b3 hD' b4).array, fun t r c ht hr hc => ?_⟩
  have hcs : 0 < cs := hset.cs_pos
  have hq : t / cs < total as / cs := by
    rw [Nat.div_lt_iff_lt_mul hcs]
    exact ht
  have hq' : t / cs * cs + cs ≤ total as / cs * cs := by
    rw [← Nat.succ_mul]
    exact Nat.mul_le_mul_right _ hq
  have hq2 : total as / cs * cs ≤ total as := Nat.div_mul_le_self ..
  obtain ⟨m0, g1, g2⟩ := hfr (t / cs * cs) (by omega)
  obtain ⟨d1, e1⟩ := g1.at hnc0 a1 a2 hD (Nat.mul_mod_left ..) (by omega)
  obtain ⟨d2, e2⟩ := g2.at hnc b1 b2 hD' (Nat.mul_mod_left ..) (by omega)
  have e1' := e1.mono (Saved.load_mono hnc hsub) (Nat.le_refl _)
  have hmod : t / cs * cs + t % cs = t := Nat.div_add_mod' t cs
  have := Represents.unique e2 e1' (t := t % cs) (Nat.mod_lt _ hcs) hr hc
  rw [hmod] at this
  exact this

/-! ### The last chunk, if it is not full -/

theorem Settings.less {N N' rows cols : Nat} (h : Settings clog levels N rows cols cs ss) (hN : N' ≤ N) :
    Settings clog levels N' rows cols cs ss :=
  { h with instants := Nat.lt_of_le_of_lt hN h.instants }

theorem Within.before {as bs : List (NdArray × Nat)} {a : Nat} {P : NdArray → Prop} (h : Within (as ++ bs) cs a P) :
    Within as cs a P := by
  intro i x hx h1 h2
  have hi : i < as.length := (List.getElem?_eq_some_iff.1 hx).1
  refine h i x ?_ ?_ ?_
  · rw [List.getElem?_append_left hi]
    exact hx
  · rw [List.take_append_of_le_length (by omega)]
    exact h1
  · rw [List.take_append_of_le_length (by omega)]
    exact h2

theorem Intact.before {as bs : List (NdArray × Nat)} {rows cols a : Nat} (h : Intact (as ++ bs) rows cols cs a) :
    Intact as rows cols cs a := by
  rcases h with h | ⟨h1, h2⟩
  · exact .inl h.before
  · refine .inr ⟨h1.before, fun t0 t e1 e2 e3 e4 => ?_⟩
    have e : ∀ t, t < total as → concatInt (as ++ bs) t = concatInt as t := fun t ht => by
      funext r c
      exact concatInt_append_left as bs t r c ht
    have := h2 t0 t e1 e2 e3 (by rw [total_append]; omega)
    rwa [e t0 (by omega), e t e4] at this

/-- C79 for integers: the instants of the last chunk stay as they are, too, even if it was not full, if no
overflow happens in it then or later (`Intact`): for example, if all arrays in it are of 32 bits. -/
theorem C79_int_partial (d : Dataset) (name : List Byte) (round : Option Nat) (enc : MMEncoding)
    (ops ops' : List Op) (log : Saved) (as as' : List (NdArray × Nat))
    (has : as = acceptedAfter H utf8 clog lg fuel d log name (.addVariable name round ss cs levels enc) ops)
    (has' : as' = acceptedAfter H utf8 clog lg fuel d log name (.addVariable name round ss cs levels enc)
      (ops ++ ops'))
    (h : AnyHistory utf8 readFuel d name round ss cs levels enc (ops ++ ops'))
    (hset : Settings clog levels (total as') d.rows d.cols cs ss) (hf : 32 ≤ fuel)
    (hrf : levels.length + 34 ≤ readFuel) (s s' : Dataset × Saved)
    (hs : s = runs H utf8 clog lg fuel (.addVariable name round ss cs levels enc :: ops) (d, log))
    (hs' : s' = runs H utf8 clog lg fuel ops' s) (hnc : s'.2.NoCollision H) :
    ∃ v m D v' m' D', s.1.findVariable name = some v ∧ s'.1.findVariable name = some v' ∧
      (enc = .i64 → v.data .i64 utf8 (s.2.load H) = .ok m ∧ v'.data .i64 utf8 (s'.2.load H) = .ok m' ∧
        ArrayReads .i64 utf8 (s.2.load H) readFuel m (total as) d.rows d.cols D ∧
        ArrayReads .i64 utf8 (s'.2.load H) readFuel m' (total as') d.rows d.cols D') ∧
      (enc = .i32 → v.data .i32 utf8 (s.2.load H) = .ok m ∧ v'.data .i32 utf8 (s'.2.load H) = .ok m' ∧
        ArrayReads .i32 utf8 (s.2.load H) readFuel m (total as) d.rows d.cols (fun t r c => (D t r c).toInt32) ∧
        ArrayReads .i32 utf8 (s'.2.load H) readFuel m' (total as') d.rows d.cols
          (fun t r c => (D' t r c).toInt32)) ∧
      ∀ a, a % cs = 0 → Intact as' d.rows d.cols cs a → ∀ t r c, a ≤ t → t < a + cs → t < total as →
        r < d.rows → c < d.cols → D' t r c = D t r c := by
  have hsub : s.2 ⊆ s'.2 := hs' ▸ runs_mono ops' s
  obtain ⟨⟨bs, hbs⟩, -⟩ := h.frozen has has' hset hf hs hs' hnc
  have htot : total as' = total as + total bs := by rw [hbs, total_append]
  obtain ⟨v, m, D, h1, h2, h3, h4⟩ := C75_int d name round enc ops log as has h.before (hset.less (by omega)) hf hrf s
    hs (NoCollision.mono hsub hnc)
  obtain ⟨v', m', D', g1, g2, g3, g4⟩ := C75_int d name round enc (ops ++ ops') log as' has' h hset hf hrf s'
    (by rw [hs', hs, ← List.cons_append, runs_append]) hnc
  refine ⟨v, m, D, v', m', D', h1, g1, fun e => ⟨(h2 e).1, (g2 e).1, (h2 e).2, (g2 e).2⟩,
    fun e => ⟨(h3 e).1, (g3 e).1, (h3 e).2, (g3 e).2⟩, fun a ha hint t r c e1 e2 e3 e4 e5 => ?_⟩
  rw [g4 a ha hint t r c e1 e2 (by omega) e4 e5, h4 a ha (hbs ▸ hint).before t r c e1 e2 e3 e4 e5, hbs,
    concatInt_append_left _ _ _ _ _ e3]

theorem squareValues_congr {α : Type} {D D' : Nat → Nat → Nat → α} {top bottom left right rows cols t t' : Nat}
    (hb : bottom ≤ rows) (hr : right ≤ cols) (h : ∀ r c, r < rows → c < cols → D t r c = D' t' r c) :
    squareValues D top bottom left right t = squareValues D' top bottom left right t' := by
  unfold squareValues
  refine List.map_congr_left fun q hq => ?_
  have := Spec.mem_cells.1 hq
  exact h _ _ (by omega) (by omega)

theorem SquareOk.congr {B n : Nat} {vs vs' : Nat → List Flt} (h : ∀ t, t < n → vs t = vs' t)
    (hv : SquareOk B n vs) : SquareOk B n vs' where
  nans := fun hs t ht => by
    rw [← h t ht]
    exact hv.nans (fun t ht => (h t ht).symm ▸ hs t ht) t ht
  balanced := fun hn => by
    rw [← List.flatMap_congr fun t ht => h t (List.mem_range.1 ht)]
    exact hv.balanced fun hs => hn fun t ht => h t ht ▸ hs t ht

/-- What is asked of floats is asked of fewer of them. -/
theorem FltBase.before {p : Prec} {B : Nat} {round : Option Nat} {D D' : Nat → Nat → Nat → Flt}
    {N N' rows cols : Nat} (h : FltBase clog lg levels p B round D N rows cols cs ss) (hN : N' ≤ N)
    (heq : ∀ t r c, t < N' → r < rows → c < cols → D t r c = D' t r c) :
    FltBase clog lg levels p B round D' N' rows cols cs ss :=
  { h with
    instants := Nat.lt_of_le_of_lt hN h.instants
    fits := fun t r c h1 h2 h3 => heq t r c h1 h2 h3 ▸ h.fits t r c (by omega) h2 h3
    grid := fun a n h1 h2 h3 e i j he hi hj => (h.grid a n h1 h2 (by omega) e i j he hi hj).congr fun t ht =>
      squareValues_congr (rows := rows) (cols := cols) (by omega) (by omega) fun r c hr hc =>
        heq (a + t) r c (by omega) hr hc
    balanced := fun a n h1 h2 h3 => by
      have := h.balanced a n h1 h2 (by omega)
      have e : (List.range n).flatMap (squareValues (fun t => D (a + t)) 0 rows 0 cols) =
          (List.range n).flatMap (squareValues (fun t => D' (a + t)) 0 rows 0 cols) :=
        List.flatMap_congr fun t ht => squareValues_congr (Nat.le_refl rows) (Nat.le_refl cols) fun r c hr hc =>
          heq (a + t) r c (by have := List.mem_range.1 ht; omega) hr hc
      rwa [e] at this }

/-- C79 for floats: the instants of the last chunk stay as they are, too, even if it was not full, if all arrays in
it are of floats of the type of the variable that can be rounded to the same number of bits (`FltBase`). -/
theorem C79_float_partial (p : Prec) (d : Dataset) (name : List Byte) (round : Option Nat)
    (ops ops' : List Op) (log : Saved) (as as' : List (NdArray × Nat))
    (has : as = acceptedAfter H utf8 clog lg fuel d log name
      (.addVariable name round ss cs levels p.kind.encoding) ops)
    (has' : as' = acceptedAfter H utf8 clog lg fuel d log name
      (.addVariable name round ss cs levels p.kind.encoding) (ops ++ ops'))
    (h : AnyHistory utf8 readFuel d name round ss cs levels p.kind.encoding (ops ++ ops'))
    (hset : Settings clog levels (total as') d.rows d.cols cs ss) (hf : 32 ≤ fuel)
    (hrf : levels.length + 34 ≤ readFuel) (s s' : Dataset × Saved)
    (hs : s = runs H utf8 clog lg fuel (.addVariable name round ss cs levels p.kind.encoding :: ops) (d, log))
    (hs' : s' = runs H utf8 clog lg fuel ops' s) (hnc : s'.2.NoCollision H) :
    ∃ v m D v' m' D', s.1.findVariable name = some v ∧ s'.1.findVariable name = some v' ∧
      v.data p.kind utf8 (s.2.load H) = .ok m ∧ v'.data p.kind utf8 (s'.2.load H) = .ok m' ∧
      ArrayReads p.kind utf8 (s.2.load H) readFuel m (total as) d.rows d.cols D ∧
      ArrayReads p.kind utf8 (s'.2.load H) readFuel m' (total as') d.rows d.cols D' ∧
      ∀ a B, a % cs = 0 → (Within as' cs a fun x => ∃ y, x = .flt p y) →
        FltBase clog lg levels p B round (fun t => concatFlt as' (a + t)) (min cs (total as' - a)) d.rows d.cols
          cs ss →
        ∀ t r c, a ≤ t → t < a + cs → t < total as → r < d.rows → c < d.cols → D' t r c = D t r c := by
  have hsub : s.2 ⊆ s'.2 := hs' ▸ runs_mono ops' s
  obtain ⟨⟨bs, hbs⟩, -⟩ := h.frozen has has' hset hf hs hs' hnc
  have htot : total as' = total as + total bs := by rw [hbs, total_append]
  obtain ⟨v, m, D, h1, h2, h3, h4⟩ := C75_float p d name round ops log as has h.before (hset.less (by omega)) hf hrf s
    hs (NoCollision.mono hsub hnc)
  obtain ⟨v', m', D', g1, g2, g3, g4⟩ := C75_float p d name round (ops ++ ops') log as' has' h hset hf hrf s'
    (by rw [hs', hs, ← List.cons_append, runs_append]) hnc
  refine ⟨v, m, D, v', m', D', h1, g1, h2, g2, h3, g3, fun a B ha hw hflt t r c e1 e2 e3 e4 e5 => ?_⟩
  rw [g4 a B ha hw hflt t r c e1 e2 (by omega) e4 e5,
    h4 a B ha (hbs ▸ hw).before (hflt.before (by omega) fun t r c f1 _ _ => by
      rw [hbs, concatFlt_append_left _ _ _ _ _ (by omega)]) t r c e1 e2 e3 e4 e5, hbs,
    concatFlt_append_left _ _ _ _ _ e3]

end

/-! ### An example -/

/-- A full chunk that is damaged by overflow and one instant of the next; then more, also of another type. The
damage stays as it is. -/
example : ∃ s s', s = runs exampleHash (fun _ => true) exampleClog exampleLg 32
      (.addVariable [7] none 2 2 [1, 1] .i64 :: exampleDamaged.take 2) (exampleDataset, []) ∧
    s' = runs exampleHash (fun _ => true) exampleClog exampleLg 32 (exampleDamaged.drop 2) s ∧
    ∃ m m' D D', ArrayReads Kind.i64 (fun _ => true) (s.2.load exampleHash) 40 m 3 4 4 D ∧
      ArrayReads Kind.i64 (fun _ => true) (s'.2.load exampleHash) 40 m' 6 4 4 D' ∧
      D' 1 2 2 = D 1 2 2 ∧ D' 0 3 3 = D 0 3 3 := by
  obtain ⟨-, v, m, v', m', -, -, h⟩ := C79_full_chunks (H := exampleHash) (fuel := 32) (readFuel := 40)
    exampleDataset [7] none .i64 (exampleDamaged.take 2) (exampleDamaged.drop 2) [] _ _ rfl
    (exampleDamaged_accepted.symm.trans (by rw [List.take_append_drop]))
    (by rw [List.take_append_drop]; exact exampleDamaged_any) (exampleSettings (by decide))
    (by decide) (by decide) _ _ rfl rfl (by unfold Saved.NoCollision; decide +kernel)
  obtain ⟨-, -, D, D', h1, h2, h3⟩ := h _ Kind.i64 rfl
  have e : total (acceptedAfter exampleHash (fun _ => true) exampleClog exampleLg 32 exampleDataset [] [7]
      (.addVariable [7] none 2 2 [1, 1] .i64) (exampleDamaged.take 2)) = 3 := by decide +kernel
  rw [e] at h3 h1
  exact ⟨_, _, rfl, rfl, m, m', D, D', h1, h2, h3 1 2 2 (by decide) (by decide) (by decide),
    h3 0 3 3 (by decide) (by decide) (by decide)⟩

/-! ### A chunk that is not full -/

/-- A variable of 64-bit floats that rounds to 20 bits, with two instants per chunk: a raster of `1 + 2 ^ -20`, and
then, perhaps, one of `2 ^ 50`. -/
def hugeRun (n : Nat) : Dataset × Saved :=
  runs exampleHash (fun _ => true) exampleClog exampleLg 32
    ([.addVariable [7] (some 20) 2 2 [1, 1] .f64, .append exampleFill [7] (flatFlt (1 + 1 / 2 ^ 20)) 1 4 4] ++
      List.replicate n (.append exampleFill [7] (flatFlt (2 ^ 50)) 1 4 4)) (exampleDataset, [])

def hugeReads (s : Dataset × Saved) (q : Rat) : Bool :=
  match s.1.findVariable [7] with
  | none => false
  | some v => match v.data .f64 (fun _ => true) (s.2.load exampleHash) with
    | .error _ => false
    | .ok m => match Kind.f64.get (fun _ => true) (s.2.load exampleHash) 40 m 0 2 2 with
      | .error _ => false
      | .ok x => decide (x = .fin q)

theorem hugeReads_iff {s : Dataset × Saved} {q : Rat} (h : hugeReads s q = true) :
    ∃ v m, s.1.findVariable [7] = some v ∧ v.data .f64 (fun _ => true) (s.2.load exampleHash) = .ok m ∧
      Kind.f64.get (fun _ => true) (s.2.load exampleHash) 40 m 0 2 2 = .ok (.fin q) := by
  unfold hugeReads at h
  cases h1 : s.1.findVariable [7] with
  | none => rw [h1] at h; cases h
  | some v =>
    rw [h1] at h
    simp only at h
    cases h2 : v.data .f64 (fun _ => true) (s.2.load exampleHash) with
    | error e => rw [h2] at h; cases h
    | ok m =>
      rw [h2] at h
      simp only at h
      cases h3 : Kind.f64.get (fun _ => true) (s.2.load exampleHash) 40 m 0 2 2 with
      | error e => rw [h3] at h; cases h
      | ok x =>
        rw [h3] at h
        rw [of_decide_eq_true h] at h3
        exact ⟨v, m, rfl, h2, h3⟩

/-- C79 does not hold for a chunk that is not full: an append changes what is there already. In a variable that
rounds to 20 bits a number of 20 bits is stored as it is; a huge number in the next instant leaves fewer bits for
the chunk, which is encoded anew, and the number that was there loses its bits. -/
theorem C79_tail_wrong : ∃ s s' : Dataset × Saved,
    s = runs exampleHash (fun _ => true) exampleClog exampleLg 32 [.addVariable [7] (some 20) 2 2 [1, 1] .f64,
      .append exampleFill [7] (flatFlt (1 + 1 / 2 ^ 20)) 1 4 4] (exampleDataset, []) ∧
    s' = runs exampleHash (fun _ => true) exampleClog exampleLg 32
      [.append exampleFill [7] (flatFlt (2 ^ 50)) 1 4 4] s ∧ s'.2.NoCollision exampleHash ∧
    (∃ v m, s.1.findVariable [7] = some v ∧ v.data .f64 (fun _ => true) (s.2.load exampleHash) = .ok m ∧
      Kind.f64.get (fun _ => true) (s.2.load exampleHash) 40 m 0 2 2 = .ok (.fin (1 + 1 / 2 ^ 20))) ∧
    ∃ v m, s'.1.findVariable [7] = some v ∧ v.data .f64 (fun _ => true) (s'.2.load exampleHash) = .ok m ∧
      Kind.f64.get (fun _ => true) (s'.2.load exampleHash) 40 m 0 2 2 = .ok (.fin 1) :=
  ⟨hugeRun 0, hugeRun 1, rfl, rfl, by unfold Saved.NoCollision; decide +kernel,
    hugeReads_iff (by decide +kernel), hugeReads_iff (by decide +kernel)⟩

end Verif
