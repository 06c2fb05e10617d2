import Verif.Props.Dataset

/-!
Property C53: names of variables and coordinates.
-/
namespace Verif

open Prog hiding pure bind

namespace Spec

/-- What a variable is declared with: name, rounding, sizes of spans and chunks, levels, type. -/
abbrev Declared := List Byte × Option Nat × Nat × Nat × List Nat × MMEncoding

def declared (v : Variable) : Declared :=
  (v.name, v.round, v.spanSize, v.chunkSize, v.k2Levels, v.encoding)

/-- The declarations of a history. -/
def declarations : List Op → List Declared
  | [] => []
  | .addVariable name round spanSize chunkSize k2Levels encoding :: ops =>
    (name, round, spanSize, chunkSize, k2Levels, encoding) :: declarations ops
  | _ :: ops => declarations ops

/-- An operation that may change the contents of the variables of some name. -/
def touches (name : List Byte) : Op → Prop
  | .append _ nm _ _ _ _ => nm = name
  | _ => False

end Spec

section
variable {H : Hash} {utf8 : List Byte → Bool} {clog : Nat → Nat} {lg : Rat → Int} {fuel : Nat}

theorem Dataset.getVariable_eq (d : Dataset) (name : List Byte) : d.getVariable name = d.findVariable name :=
  rfl

/-! ### One operation -/

/-- Replacing a variable that is there changes exactly the first of its name. -/
theorem replaceVariable_set {vs : List Variable} {v v' : Variable} {name : List Byte}
    (h : vs.find? (fun v => v.name = name) = some v) (hn : v'.name = name) :
    ∃ i, vs[i]? = some v ∧ (∀ j < i, ∀ w, vs[j]? = some w → w.name ≠ name) ∧
      replaceVariable v' vs = vs.set i v' := by
  induction vs with
  | nil => cases h
  | cons w ws ih =>
    unfold replaceVariable
    by_cases hw : w.name = v'.name
    · rw [if_pos hw]
      rw [List.find?_cons_of_pos (by simpa [hn] using hw)] at h
      exact ⟨0, h, fun j hj => absurd hj (Nat.not_lt_zero j), rfl⟩
    · rw [if_neg hw]
      rw [List.find?_cons_of_neg (by simpa [hn] using hw)] at h
      obtain ⟨i, h1, h2, h3⟩ := ih h
      refine ⟨i + 1, h1, ?_, by rw [h3]; rfl⟩
      intro j hj x hx
      cases j with
      | zero =>
        obtain rfl := Option.some.inj hx
        exact fun e => hw (e.trans hn.symm)
      | succ j => exact h2 j (by omega) x hx

/-- C53: adding a variable never fails; it puts a variable as declared after the others, and changes
nothing else of what can be looked up. -/
theorem C53_add (d : Dataset) (name : List Byte) (round : Option Nat) (spanSize chunkSize : Nat)
    (k2Levels : List Nat) (encoding : MMEncoding) (log : Saved) :
    ∃ d' log' v, d.addVariable H name round spanSize chunkSize k2Levels encoding log = (.ok d', log') ∧
      d'.variables = d.variables ++ [v] ∧
      Spec.declared v = (name, round, spanSize, chunkSize, k2Levels, encoding) ∧
      (d'.coord0, d'.coord1, d'.coord2, d'.rows, d'.cols) = (d.coord0, d.coord1, d.coord2, d.rows, d.cols) ∧
      (d.getVariable name = none → d'.getVariable name = some v) ∧
      ∀ nm, d.getVariable nm ≠ none ∨ nm ≠ name → d'.getVariable nm = d.getVariable nm := by
  refine ⟨_, _, _, rfl, rfl, rfl, rfl, ?_, ?_⟩
  · intro h
    change (d.variables ++ [_]).find? _ = _
    unfold Dataset.getVariable at h
    rw [List.find?_append, h]
    simp
  · intro nm h
    change (d.variables ++ [_]).find? _ = _
    rcases h with h | h
    · obtain ⟨w, h⟩ := Option.ne_none_iff_exists'.1 h
      unfold Dataset.getVariable at h ⊢
      rw [List.find?_append, h]
      rfl
    · unfold Dataset.getVariable
      rw [List.find?_append]
      simp [Ne.symm h]

/-- C53: a variable that was added is empty and of the shape of the data set. -/
theorem C53_add_empty (d : Dataset) (name : List Byte) (round : Option Nat) (spanSize chunkSize : Nat)
    (k2Levels : List Nat) (encoding : MMEncoding) (log : Saved) (hr : d.rows < 2 ^ 32) (hc : d.cols < 2 ^ 32)
    (hcs : chunkSize < 2 ^ 32) (hn : d.getVariable name = none) (d' : Dataset) (log' : Saved)
    (h : d.addVariable H name round spanSize chunkSize k2Levels encoding log = (.ok d', log'))
    (hnc : log'.NoCollision H) :
    ∃ v m, d'.getVariable name = some v ∧ (log'.load H).getStruct utf8 v.cid = .ok m ∧
      m.shape = some (0, d.rows, d.cols) ∧ m.encoding = encoding := by
  obtain ⟨d1, log1, v, h1, h2, h3, h4, h5, h6⟩ := C53_add (H := H) d name round spanSize chunkSize k2Levels encoding log
  rw [h] at h1
  obtain ⟨rfl, rfl⟩ : d' = d1 ∧ log' = log1 := by simpa using h1
  have hlog : (Item.struct (.span (Span.new d.rows d.cols chunkSize encoding))).bytes :: log = log' :=
    congrArg Prod.snd h
  have hv : v.cid = H.cidOf (Item.struct (.span (Span.new d.rows d.cols chunkSize encoding))).bytes := by
    have := congrArg Prod.fst h
    have := congrArg Dataset.variables (Except.ok.inj this)
    rw [h2] at this
    have := List.append_cancel_left (Eq.symm this)
    have := congrArg Variable.cid (List.cons.inj this).1
    exact this
  refine ⟨v, .span (Span.new d.rows d.cols chunkSize encoding), h5 hn, ?_, rfl, rfl⟩
  rw [hv]
  subst hlog
  exact Store.getStruct_of (Saved.load_mem hnc (List.mem_cons_self ..))
    ⟨Nat.two_pow_pos 32, hr, hc, hcs, Nat.two_pow_pos 32, fun c hc => nomatch hc⟩

/-- C53: an append that succeeds changes the identifier of the first variable of the name, and nothing
else of what can be looked up. -/
theorem C53_append (fill : Fill) (d : Dataset) (name : List Byte) (data : NdArray) (n rows cols : Nat)
    (log : Saved) (d' : Dataset) (log' : Saved)
    (h : Dataset.append H utf8 clog lg fuel fill d name data n rows cols log = (.ok d', log')) :
    ∃ i v cid, d.variables[i]? = some v ∧ v.name = name ∧
      (∀ j < i, ∀ w, d.variables[j]? = some w → w.name ≠ name) ∧
      d'.variables = d.variables.set i { v with cid := cid } ∧
      d'.getVariable name = some { v with cid := cid } ∧
      (∀ nm, nm ≠ name → d'.getVariable nm = d.getVariable nm) ∧
      (d'.coord0, d'.coord1, d'.coord2, d'.rows, d'.cols) =
        (d.coord0, d.coord1, d.coord2, d.rows, d.cols) := by
  obtain ⟨v, v', h1, ⟨cid, -, rfl⟩, rfl⟩ := Dataset.append_post fill d name data n rows cols _ _ _ h
  have hname : v.name = name := by
    have := List.find?_some h1
    simpa using this
  obtain ⟨i, h2, h3, h4⟩ := replaceVariable_set (v' := { v with cid := cid }) h1 hname
  refine ⟨i, v, cid, h2, hname, h3, h4, ?_, ?_, rfl⟩
  · exact Dataset.findVariable_replace h1 hname
  · intro nm hnm
    exact Dataset.findVariable_replace_ne (fun e => hnm (e.symm.trans hname))

/-- C53: coordinates are found by name, the first if there are several, and only if there is one. -/
theorem C53_coordinate (d : Dataset) (name : List Byte) :
    d.getCoordinate name = [d.coord0, d.coord1, d.coord2].find? (fun c => c.name = name) ∧
    (d.getCoordinate name = none ↔ d.coord0.name ≠ name ∧ d.coord1.name ≠ name ∧ d.coord2.name ≠ name) ∧
    ∀ c, d.getCoordinate name = some c → c.name = name := by
  unfold Dataset.getCoordinate
  by_cases h0 : d.coord0.name = name <;> by_cases h1 : d.coord1.name = name <;>
    by_cases h2 : d.coord2.name = name <;> simp [h0, h1, h2] <;> (intro c hc; subst hc; assumption)

/-! ### Histories -/

/-- What is looked up after one operation. -/
theorem Op.step_declared (op : Op) (s : Dataset × Saved) (hd : s.1.Fits utf8)
    (hnc : (op.step H utf8 clog lg fuel s).2.NoCollision H) :
    (op.step H utf8 clog lg fuel s).1.variables.map Spec.declared =
      s.1.variables.map Spec.declared ++ Spec.declarations [op] ∧
    ((op.step H utf8 clog lg fuel s).1.coord0, (op.step H utf8 clog lg fuel s).1.coord1,
      (op.step H utf8 clog lg fuel s).1.coord2, (op.step H utf8 clog lg fuel s).1.rows,
      (op.step H utf8 clog lg fuel s).1.cols) = (s.1.coord0, s.1.coord1, s.1.coord2, s.1.rows, s.1.cols) ∧
    ∀ (j : Nat) (w : Variable), s.1.variables[j]? = some w →
      (¬ Spec.touches w.name op ∨ ∃ (i : Nat) (u : Variable), i < j ∧ s.1.variables[i]? = some u ∧ u.name = w.name) →
      (op.step H utf8 clog lg fuel s).1.variables[j]? = some w := by
  obtain ⟨d, log⟩ := s
  cases op with
  | append fill nm data n rows cols =>
    rcases e : Op.prog H utf8 clog lg fuel (.append fill nm data n rows cols) d log with ⟨x | d', log'⟩
    · have : Op.step H utf8 clog lg fuel (.append fill nm data n rows cols) (d, log) = (d, log') := by
        unfold Op.step
        rw [e]
      rw [this]
      exact ⟨by simp [Spec.declarations], rfl, fun j w h _ => h⟩
    · have : Op.step H utf8 clog lg fuel (.append fill nm data n rows cols) (d, log) = (d', log') := by
        unfold Op.step
        rw [e]
      rw [this]
      obtain ⟨i, v, cid, h1, h2, h3, h4, -, -, h6⟩ := C53_append fill d nm data n rows cols log d' log' e
      refine ⟨?_, h6, ?_⟩
      · change d'.variables.map _ = d.variables.map _ ++ _
        rw [h4, List.map_set]
        simp only [Spec.declarations, List.append_nil]
        have : (d.variables.map Spec.declared)[i]? = some (Spec.declared { v with cid := cid }) := by
          rw [List.getElem?_map, h1]
          rfl
        refine List.ext_getElem? fun k => ?_
        rw [List.getElem?_set]
        split
        · rename_i hk
          subst hk
          rw [this]
          split
          · rfl
          · rename_i hk
            rw [List.getElem?_eq_none (by omega)] at this
            cases this
        · rfl
      · intro j w hw hor
        change d'.variables[j]? = some w
        rw [h4, List.getElem?_set_ne]
        · exact hw
        · rintro rfl
          have hwv : w = v := by
            change d.variables[i]? = some w at hw
            rw [h1] at hw
            exact (Option.some.inj hw).symm
          subst hwv
          rcases hor with hor | ⟨k, u, hk, hu, hun⟩
          · exact hor h2.symm
          · exact h3 k hk u hu (hun.trans h2)
  | addVariable nm round spanSize chunkSize k2Levels encoding =>
    refine ⟨?_, rfl, ?_⟩
    · change (d.variables ++ [_]).map _ = d.variables.map _ ++ [_]
      rw [List.map_append]
      rfl
    · intro j w hw _
      change (d.variables ++ [_])[j]? = some w
      change d.variables[j]? = some w at hw
      rw [List.getElem?_append_left]
      · exact hw
      · by_contra h
        rw [List.getElem?_eq_none (by omega)] at hw
        cases hw
  | commit => exact ⟨by simp [Spec.declarations]; rfl, rfl, fun j w h _ => h⟩
  | reload =>
    rw [Op.reload_step hd.wf hnc]
    exact ⟨by simp [Spec.declarations], rfl, fun j w h _ => h⟩

theorem declarations_cons (op : Op) (ops : List Op) :
    Spec.declarations (op :: ops) = Spec.declarations [op] ++ Spec.declarations ops := by
  cases op <;> rfl

/-- C53: after any history (of appends to any names, additions, commits and reloads, some of which may
fail) the variables are exactly the ones there were, and then the ones added, in this order and as
declared. Coordinates and shape are as they were. A variable has the same identifier, if nothing was
appended under its name. -/
theorem C53_history : ∀ (ops : List Op) (s : Dataset × Saved) (_ : s.1.Fits utf8)
    (_ : ∀ op ∈ ops, op.Fits utf8) (_ : s.1.variables.length + adds ops < 256) (s' : Dataset × Saved)
    (_ : s' = runs H utf8 clog lg fuel ops s) (_ : s'.2.NoCollision H),
    s'.1.variables.map Spec.declared = s.1.variables.map Spec.declared ++ Spec.declarations ops ∧
    (s'.1.coord0, s'.1.coord1, s'.1.coord2, s'.1.rows, s'.1.cols) =
      (s.1.coord0, s.1.coord1, s.1.coord2, s.1.rows, s.1.cols) ∧
    ∀ (j : Nat) (w : Variable), s.1.variables[j]? = some w → (∀ op ∈ ops, ¬ Spec.touches w.name op) →
      s'.1.variables[j]? = some w := by
  intro ops
  induction ops with
  | nil =>
    intro s _ _ _ s' hs _
    subst hs
    exact ⟨by simp [Spec.declarations, runs], rfl, fun j w h _ => h⟩
  | cons op ops ih =>
    intro s hd hops hlen s' hs hnc
    subst hs
    rw [adds_cons] at hlen
    have hnc1 : (op.step H utf8 clog lg fuel s).2.NoCollision H := NoCollision.mono (runs_mono ops _) hnc
    have hf := op.step_fits s.1 s.2 hd (hops op (List.mem_cons_self ..)) (by omega) hnc1
    obtain ⟨a1, a2, a3⟩ := op.step_declared s hd hnc1
    have h2 : (op.step H utf8 clog lg fuel s).1.variables.length ≤ s.1.variables.length + adds [op] := hf.2.1
    obtain ⟨b1, b2, b3⟩ := ih (op.step H utf8 clog lg fuel s) hf.1
      (fun o ho => hops o (List.mem_cons_of_mem _ ho)) (by omega) _ rfl hnc
    refine ⟨?_, b2.trans a2, ?_⟩
    · change (runs H utf8 clog lg fuel ops (op.step H utf8 clog lg fuel s)).1.variables.map _ = _
      rw [b1, a1, declarations_cons op ops, List.append_assoc]
    · intro j w hw ht
      exact b3 j w (a3 j w hw (.inl (ht op (List.mem_cons_self ..))))
        fun o ho => ht o (List.mem_cons_of_mem _ ho)

theorem find_declared (vs : List Variable) (name : List Byte) :
    (vs.map Spec.declared).find? (fun p => p.1 = name) =
      (vs.find? (fun v => v.name = name)).map Spec.declared := by
  rw [List.find?_map]
  rfl

/-- C53: the variable of a name is the first that was declared with it; there is none if none was. -/
theorem C53_lookup (coord0 coord1 coord2 : Coordinate) (rows cols : Nat) (ops : List Op) (log : Saved)
    (hd : (Dataset.new coord0 coord1 coord2 rows cols).WF utf8) (hops : ∀ op ∈ ops, op.Fits utf8)
    (hadds : adds ops < 256) (s : Dataset × Saved)
    (hs : s = runs H utf8 clog lg fuel ops (Dataset.new coord0 coord1 coord2 rows cols, log))
    (hnc : s.2.NoCollision H) (name : List Byte) :
    (s.1.getVariable name).map Spec.declared = (Spec.declarations ops).find? (fun p => p.1 = name) := by
  obtain ⟨h1, -, -⟩ := C53_history ops (Dataset.new coord0 coord1 coord2 rows cols, log)
    ⟨hd, fun c hc => nomatch hc⟩ hops (by change 0 + adds ops < 256; omega) s hs hnc
  change s.1.variables.map _ = [] ++ _ at h1
  rw [List.nil_append] at h1
  rw [← h1, find_declared]
  rfl

/-- C53 is false of the code for a name that is in use: `add_variable` accepts it, and the new variable
cannot be reached by its name: it is never looked up, and nothing is ever appended to it. -/
theorem C53_duplicate_wrong (ops : List Op) (s : Dataset × Saved) (hd : s.1.Fits utf8)
    (hops : ∀ op ∈ ops, op.Fits utf8) (hlen : s.1.variables.length + 1 + adds ops < 256)
    (name : List Byte) (hname : s.1.getVariable name ≠ none) (round : Option Nat) (spanSize chunkSize : Nat)
    (k2Levels : List Nat) (encoding : MMEncoding)
    (hfit : (Op.addVariable name round spanSize chunkSize k2Levels encoding).Fits utf8)
    (d' : Dataset) (log' : Saved)
    (hadd : s.1.addVariable H name round spanSize chunkSize k2Levels encoding s.2 = (.ok d', log'))
    (s' : Dataset × Saved) (hs' : s' = runs H utf8 clog lg fuel ops (d', log')) (hnc : s'.2.NoCollision H) :
    ∃ j v, s.1.variables.length = j ∧ d'.variables[j]? = some v ∧ s'.1.variables[j]? = some v ∧
      v.name = name ∧ d'.getVariable name = s.1.getVariable name := by
  obtain ⟨d1, log1, v, h1, h2, h3, -, -, h6⟩ :=
    C53_add (H := H) s.1 name round spanSize chunkSize k2Levels encoding s.2
  rw [hadd] at h1
  obtain ⟨rfl, rfl⟩ : d' = d1 ∧ log' = log1 := by simpa using h1
  obtain ⟨u, hu⟩ := Option.ne_none_iff_exists'.1 hname
  have hname' : v.name = name := congrArg Prod.fst h3
  refine ⟨_, v, rfl, by rw [h2]; simp, ?_, hname', h6 name (.inl hname)⟩
  have hun : u.name = name := by simpa using List.find?_some hu
  obtain ⟨i, hi⟩ := List.getElem?_of_mem (List.mem_of_find?_eq_some hu)
  have hil : i < s.1.variables.length := by
    by_contra h
    rw [List.getElem?_eq_none (by omega)] at hi
    cases hi
  have hstep : (Op.addVariable name round spanSize chunkSize k2Levels encoding).step H utf8 clog lg fuel s =
      (d', log') := by
    unfold Op.step
    rw [show Op.prog H utf8 clog lg fuel (.addVariable name round spanSize chunkSize k2Levels encoding) s.1 s.2 =
      (.ok d', log') from hadd]
  have hnc1 : Saved.NoCollision H log' := by
    subst hs'
    exact NoCollision.mono (runs_mono ops (d', log')) hnc
  have hf : d'.Fits utf8 := by
    have := (Op.step_fits (H := H) (clog := clog) (lg := lg) (fuel := fuel) _ s.1 s.2 hd hfit
      (by change _ + 1 < 256; omega) (by rw [hstep]; exact hnc1)).1
    rw [hstep] at this
    exact this
  -- a variable that has an earlier one of its name never changes
  have key : ∀ (ops : List Op) (t : Dataset × Saved), t.1.Fits utf8 → (∀ op ∈ ops, op.Fits utf8) →
      t.1.variables.length + adds ops < 256 → (runs H utf8 clog lg fuel ops t).2.NoCollision H →
      t.1.variables[s.1.variables.length]? = some v →
      (∃ u, t.1.variables[i]? = some u ∧ u.name = name) →
      (runs H utf8 clog lg fuel ops t).1.variables[s.1.variables.length]? = some v := by
    intro ops
    induction ops with
    | nil => intro t _ _ _ _ h _; exact h
    | cons op ops ih =>
      intro t hd hops hlen hnc ht ⟨u, hu, hun⟩
      rw [adds_cons] at hlen
      have hnc1 : (op.step H utf8 clog lg fuel t).2.NoCollision H := NoCollision.mono (runs_mono ops _) hnc
      have hf := op.step_fits t.1 t.2 hd (hops op (List.mem_cons_self ..)) (by omega) hnc1
      have h2 : (op.step H utf8 clog lg fuel t).1.variables.length ≤ t.1.variables.length + adds [op] :=
        hf.2.1
      obtain ⟨a1, -, a3⟩ := op.step_declared t hd hnc1
      refine ih _ hf.1 (fun o ho => hops o (List.mem_cons_of_mem _ ho)) (by omega) hnc
        (a3 _ v ht (.inr ⟨i, u, hil, hu, hun.trans hname'.symm⟩)) ?_
      have := congrArg (fun l => l[i]?) a1
      simp only [List.getElem?_map] at this
      rw [List.getElem?_append_left (by
        rw [List.length_map]
        by_contra h
        rw [List.getElem?_eq_none (by omega)] at hu
        cases hu), List.getElem?_map, hu] at this
      obtain ⟨w, hw, hwd⟩ := Option.map_eq_some_iff.1 this
      exact ⟨w, hw, (congrArg Prod.fst hwd).trans hun⟩
  subst hs'
  refine key ops (d', log') hf hops (by rw [h2]; simp; omega) hnc (by rw [h2]; simp) ?_
  exact ⟨u, by rw [h2, List.getElem?_append_left hil]; exact hi, hun⟩

end

/-! ### Examples -/

/-- Two variables, then a third with the name of the first. -/
def namesOps : List Op :=
  [.addVariable [7] none 2 2 [1, 1] .i64, .addVariable [8] (some 3) 4 2 [1, 1] .f32,
    .append exampleFill [7] (.i64 exampleGrid) 2 4 4, .reload, .addVariable [7] none 3 3 [2] .i32, .commit]

example : (∀ op ∈ namesOps, op.Fits fun _ => true) ∧ adds namesOps < 256 ∧
    Spec.declarations namesOps =
      [([7], none, 2, 2, [1, 1], .i64), ([8], some 3, 4, 2, [1, 1], .f32), ([7], none, 3, 3, [2], .i32)] ∧
    (Spec.declarations namesOps).find? (fun p => p.1 = [7]) = some ([7], none, 2, 2, [1, 1], .i64) := by
  refine ⟨?_, by simp [namesOps, adds], rfl, rfl⟩
  intro op ho
  simp only [namesOps, List.mem_cons, List.not_mem_nil, or_false] at ho
  rcases ho with rfl | rfl | rfl | rfl | rfl | rfl
  · exact ⟨by decide, rfl, fun b hb => (nomatch hb), by decide, by decide, by decide, by decide⟩
  · exact ⟨by decide, rfl, fun b hb => by cases hb; decide, by decide, by decide, by decide, by decide⟩
  · trivial
  · trivial
  · exact ⟨by decide, rfl, fun b hb => (nomatch hb), by decide, by decide, by decide, by decide⟩
  · trivial

example : exampleDataset.getCoordinate [2] = some (exampleCoord 2) ∧ exampleDataset.getCoordinate [7] = none := by
  decide +kernel

end Verif
