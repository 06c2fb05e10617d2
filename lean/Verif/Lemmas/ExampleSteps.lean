import Verif.Lemmas.Example

/-! How many steps the runs of the example program make, and what copying has published after so many of them. -/
namespace Verif

namespace Example

open Prog (NoCollision.mono)

/-- A script that makes at most `c` steps. -/
def Within {α : Type} (m : Script α) (c : Nat) : Prop :=
  ∀ env env' s, (∀ i, i < s.2 + c → env i = env' i) → m env s = m env' s ∧ (m env s).2.2 ≤ s.2 + c

theorem Within.pure {α : Type} (a : α) : Within (Pure.pure a : Script α) 0 := fun _ _ _ _ => ⟨rfl, Nat.le_refl _⟩

theorem Within.fail {α : Type} (f : Fail) : Within (Script.fail f : Script α) 0 := fun _ _ _ _ => ⟨rfl, Nat.le_refl _⟩

theorem Within.head : Within Script.head 0 := fun _ _ _ _ => ⟨rfl, Nat.le_refl _⟩

theorem Within.call {α : Type} (p : Fill → Prog α) : Within (Script.call p) 1 := by
  intro env env' s h
  unfold Script.call
  rw [← h s.2 (by omega)]
  refine ⟨rfl, ?_⟩
  cases env s.2 <;> exact Nat.le_refl _

theorem Within.saveHead (cid : Cid) : Within (Script.saveHead cid) 1 := by
  intro env env' s h
  unfold Script.saveHead
  rw [← h s.2 (by omega)]
  refine ⟨rfl, ?_⟩
  cases env s.2 <;> exact Nat.le_refl _

theorem Within.mono {α : Type} {m : Script α} {c c' : Nat} (h : Within m c) (hc : c ≤ c') : Within m c' := by
  intro env env' s he
  obtain ⟨h1, h2⟩ := h env env' s fun i hi => he i (by omega)
  exact ⟨h1, by omega⟩

theorem Within.bind {α β : Type} {m : Script α} {f : α → Script β} {c c' : Nat} (hm : Within m c)
    (hf : ∀ a, Within (f a) c') : Within (m >>= f) (c + c') := by
  intro env env' s he
  change Script.bind m f env s = Script.bind m f env' s ∧ (Script.bind m f env s).2.2 ≤ _
  obtain ⟨h1, h2⟩ := hm env env' s fun i hi => he i (by omega)
  unfold Script.bind
  rw [← h1]
  rcases h : m env s with ⟨_ | a, s'⟩
  · rw [h] at h2
    refine ⟨rfl, ?_⟩
    change s'.2 ≤ _
    change s'.2 ≤ _ at h2
    omega
  · rw [h] at h2
    change s'.2 ≤ _ at h2
    obtain ⟨h3, h4⟩ := hf a env env' s' fun i hi => he i (by omega)
    exact ⟨h3, Nat.le_trans h4 (by omega)⟩

theorem Within.loop {σ : Type} {f : σ → Nat → Script σ} {c : Nat} (hf : ∀ s i, Within (f s i) c) :
    ∀ (is : List Nat) (s : σ), Within (loop f s is) (is.length * c) := by
  intro is
  induction is with
  | nil => exact fun s => (Within.pure s).mono (Nat.zero_le _)
  | cons i is ih =>
    intro s
    refine ((hf s i).bind fun s => ih s).mono ?_
    rw [List.length_cons, Nat.succ_mul]
    omega

section
variable {w : Prop} {H : Hash} {utf8 : List Byte → Bool} {readFuel : Nat}
  {clog : Nat → Nat} {lg : Rat → Int} {fuel : Nat} {T : VarTheory} {levels : List Nat}
  {round : Option Nat} {name : List Byte} {axes : Coordinate × Coordinate × Coordinate}
  {Next : Nat → NdArray → Nat → Prop}

theorem current_within : Within (current H utf8) 1 := by
  refine (Within.head.bind (c' := 1) fun h => ?_).mono (Nat.le_refl _)
  cases h with
  | missing => exact (Within.fail _).mono (by omega)
  | lost => exact (Within.fail _).mono (by omega)
  | «at» cid => exact Within.call _

theorem first_within (d : Dataset) : Within (first d) 0 := by
  unfold first
  cases d.variables with
  | nil => exact Within.fail _
  | cons v vs => exact Within.pure v

theorem progress_within (d : Dataset) (commitEvery commitCount : Nat) :
    Within (progress H d commitEvery commitCount) 2 := by
  unfold progress
  split
  · exact ((Within.call _).bind fun cid => Within.saveHead cid).bind fun _ => Within.pure _
  · exact (Within.pure _).mono (by omega)

theorem copyStep_within (src : Source) (commitEvery : Nat) (s : CopyState) (index : Nat) :
    Within (copyStep H utf8 clog lg fuel src commitEvery s index) 4 :=
  ((Within.call _).bind fun d => (progress_within d _ _).bind fun _ => (first_within d).bind fun _ =>
    (Within.call _).bind fun _ => Within.pure _)

theorem bind_assoc {α β γ : Type} (m : Script α) (f : α → Script β) (g : β → Script γ) :
    m >>= f >>= g = m >>= fun a => f a >>= g := by
  funext env s
  change Script.bind (Script.bind m f) g env s = Script.bind m (fun a => Script.bind (f a) g) env s
  unfold Script.bind
  rcases m env s with ⟨_ | a, s'⟩ <;> rfl

theorem fail_bind {α β : Type} (e : Fail) (f : α → Script β) : (Script.fail e : Script α) >>= f = Script.fail e := rfl

theorem loop_append {σ : Type} (f : σ → Nat → Script σ) : ∀ (xs ys : List Nat) (s : σ),
    loop f s (xs ++ ys) = loop f s xs >>= fun s => loop f s ys := by
  intro xs ys
  induction xs with
  | nil => exact fun s => rfl
  | cons x xs ih =>
    intro s
    change f s x >>= (fun s => loop f s (xs ++ ys)) = (f s x >>= fun s => loop f s xs) >>= _
    rw [bind_assoc]
    congr 1
    funext s
    exact ih s

/-- The first `t` turns of `copy`. -/
def turns (H : Hash) (utf8 : List Byte → Bool) (clog : Nat → Nat) (lg : Rat → Int) (fuel : Nat) (src : Source)
    (commitEvery t : Nat) : Script (Nat × Nat × CopyState) := do
  let dataset ← current H utf8
  let dst ← first dataset
  let written ← instants H utf8 dst
  let remaining : Int := src.total - written
  if remaining ≤ 0 then Script.fail (.err (.py .exit))
  else if dst.chunkSize = 0 then Script.fail (.err (.py .value))
  else do
    let s ← loop (copyStep H utf8 clog lg fuel src commitEvery) ⟨dataset, dst, remaining, commitEvery⟩
      ((pyRange written remaining dst.chunkSize).take t)
    pure (written, dst.chunkSize, s)

/-- What follows them. -/
def others (H : Hash) (utf8 : List Byte → Bool) (clog : Nat → Nat) (lg : Rat → Int) (fuel : Nat) (src : Source)
    (commitEvery t : Nat) (x : Nat × Nat × CopyState) : Script Unit := do
  let s ← loop (copyStep H utf8 clog lg fuel src commitEvery) x.2.2
    ((pyRange x.1 (src.total - x.1) x.2.1).drop t)
  let dataset ← nubbin H utf8 clog lg fuel src s
  publish H dataset

theorem copy_split (src : Source) (commitEvery t : Nat) :
    copy H utf8 clog lg fuel src none commitEvery =
      turns H utf8 clog lg fuel src commitEvery t >>= others H utf8 clog lg fuel src commitEvery t := by
  unfold copy turns
  rw [bind_assoc]
  congr 1
  funext d
  rw [bind_assoc]
  congr 1
  funext v
  rw [bind_assoc]
  congr 1
  funext n
  unfold copyFrom
  simp only
  by_cases h1 : (src.total : Int) - n ≤ 0
  · rw [if_pos h1, if_pos h1, fail_bind]
  · rw [if_neg h1, if_neg h1]
    by_cases h2 : v.chunkSize = 0
    · rw [if_pos h2, if_pos h2, fail_bind]
    · rw [if_neg h2, if_neg h2, bind_assoc]
      change loop _ _ (pyRange n (src.total - n) v.chunkSize) >>= _ = _
      conv => lhs; rw [← List.take_append_drop t (pyRange n (src.total - n) v.chunkSize), loop_append, bind_assoc]
      rfl

theorem turns_within (src : Source) (commitEvery t : Nat) :
    Within (turns H utf8 clog lg fuel src commitEvery t) (2 + 4 * t) := by
  refine (current_within.bind fun d => (first_within d).bind fun v => (Within.call _).bind (c' := 4 * t) fun n => ?_).mono
    (by omega)
  simp only
  split
  · exact (Within.fail _).mono (by omega)
  · split
    · exact (Within.fail _).mono (by omega)
    · refine ((Within.loop (copyStep_within src commitEvery) _ _).bind fun s => Within.pure _).mono ?_
      rw [List.length_take]
      omega

theorem turns_mono (src : Source) (commitEvery t : Nat) : Mono (turns H utf8 clog lg fuel src commitEvery t) := by
  refine Mono.bind current_mono fun d => (first_mono d).bind fun v => (instants_mono v).bind fun n => ?_
  simp only
  split
  · exact Mono.fail _
  · split
    · exact Mono.fail _
    · exact (loop_mono (fun _ _ => copyStep_mono _ _ _ _) _ _).bind fun _ => Mono.pure _

theorem others_mono (src : Source) (commitEvery t : Nat) (x : Nat × Nat × CopyState) :
    Mono (others H utf8 clog lg fuel src commitEvery t x) :=
  (loop_mono (fun _ _ => copyStep_mono _ _ _ _) _ _).bind fun s => (nubbin_mono src s).bind fun d => publish_mono d

/-- After `t` turns: `M0 + t * T.cs` instants are in the data set, and those of every `ce` turns are published. -/
structure Turned (H : Hash) (utf8 : List Byte → Bool) (T : VarTheory) (levels : List Nat)
    (round : Option Nat) (name : List Byte) (axes : Coordinate × Coordinate × Coordinate) (ce M0 : Nat) (rem : Int)
    (t : Nat) (s : CopyState) (world : World) : Prop where
  held : Held H utf8 T levels round name axes (s.dataset, world.log) (M0 + t * T.cs)
  dst : s.dst.name = name
  var : ∃ tl, VarInv H T world.log s.dst (M0 + t * T.cs) tl
  remaining : s.remaining = rem - (t * T.cs : Nat)
  low : 1 ≤ s.commitCount
  high : s.commitCount ≤ ce
  head : ∃ j M', t + s.commitCount = j * ce + ce ∧ M0 + j * ce * T.cs ≤ M' ∧ M' ≤ M0 + t * T.cs ∧
    HeadAt H utf8 T levels round name axes world M'

theorem copyStep_turned (ha : Appends False H utf8 clog lg fuel readFuel T levels round Next) (hT : Sound H utf8 T)
    {src : Source} (hsrc : src.Of Next T) {ce M0 t : Nat} {rem : Int} {s : CopyState} {world : World} (hce : 1 ≤ ce)
    (h : Turned H utf8 T levels round name axes ce M0 rem t s world) (hM : M0 + (t + 1) * T.cs ≤ src.total) :
    Runs False H utf8 readFuel (copyStep H utf8 clog lg fuel src ce s (M0 + t * T.cs)) world
      (Turned H utf8 T levels round name axes ce M0 rem (t + 1)) (fun _ => False) := by
  obtain ⟨h1, h2, ⟨tl, h3⟩, h4, l1, l2, j, M1, h5, h5', h5'', h6⟩ := h
  have hmul : (t + 1) * T.cs = t * T.cs + T.cs := Nat.succ_mul ..
  unfold copyStep
  rw [h3.chunkSize, h2, hsrc.rows, hsrc.cols]
  rw [show min (M0 + t * T.cs + T.cs) src.total - (M0 + t * T.cs) = T.cs by omega]
  refine Runs.bind (append_mono _ _ _ _ _ _) (fun d => (progress_mono d _ _).bind fun _ =>
      (first_mono d).bind fun v => (instants_mono v).bind fun _ => Mono.pure _)
    (append_runs ha h1 (hsrc.next _ _ (by omega)) fun h => h.elim) ?_
  rintro d world1 - ⟨e1, e2, e3⟩
  rw [show M0 + t * T.cs + T.cs = M0 + (t + 1) * T.cs by omega] at e3
  have h6' : HeadAt H utf8 T levels round name axes world1 M1 := by
    have := HeadAt.mono (log := world.log) (log' := world1.log) h6 e2
    rw [← e1] at this
    exact this
  refine Runs.bind (Q := fun cc world' => Held H utf8 T levels round name axes (d, world'.log) (M0 + (t + 1) * T.cs) ∧
      1 ≤ cc ∧ cc ≤ ce ∧ ∃ j M', t + 1 + cc = j * ce + ce ∧ M0 + j * ce * T.cs ≤ M' ∧ M' ≤ M0 + (t + 1) * T.cs ∧
        HeadAt H utf8 T levels round name axes world' M') (progress_mono d _ _) (fun _ =>
        (first_mono d).bind fun v => (instants_mono v).bind fun _ => Mono.pure _) ?_ ?_
  · unfold progress
    split
    · rename_i hc
      refine Runs.bind (publish_mono d) (fun _ => Mono.pure _) (publish_runs hT e3 fun h => h.elim) ?_
      rintro _ world2 - ⟨f1, f2⟩
      have hj : (j + 1) * ce = t + 1 := by rw [Nat.succ_mul]; omega
      exact Runs.pure ⟨e3.mono f1, hce, Nat.le_refl _, j + 1, _, by rw [hj], by rw [hj], Nat.le_refl _, f2⟩
    · exact Runs.pure ⟨e3, by omega, by omega, j, M1, by omega, h5', by omega, h6'⟩
  · rintro cc world2 - ⟨f1, c1, c2, j2, M2, f2, f2', f2'', f3⟩
    refine Runs.bind (first_mono d) (fun v => (instants_mono v).bind fun _ => Mono.pure _) (first_runs f1) ?_
    rintro v world2 - ⟨rfl, g1, tl', g2⟩
    refine Runs.bind (instants_mono v) (fun _ => Mono.pure _) (instants_runs g2 hT.type fun h => h.elim) ?_
    rintro _ world2 - ⟨rfl, rfl⟩
    exact Runs.pure ⟨f1, g1, ⟨tl', g2⟩, by change s.remaining - T.cs = _; rw [h4, hmul]; omega, c1, c2, j2, M2, f2, f2',
      f2'', f3⟩

theorem loop_turned (ha : Appends False H utf8 clog lg fuel readFuel T levels round Next) (hT : Sound H utf8 T)
    {src : Source} (hsrc : src.Of Next T) {ce M0 : Nat} {rem : Int} (hce : 1 ≤ ce) : ∀ (k t : Nat) (s : CopyState)
    (world : World), Turned H utf8 T levels round name axes ce M0 rem t s world → M0 + (t + k) * T.cs ≤ src.total →
    Runs False H utf8 readFuel (loop (copyStep H utf8 clog lg fuel src ce) s
      ((List.range k).map fun i => M0 + (t + i) * T.cs)) world
      (Turned H utf8 T levels round name axes ce M0 rem (t + k)) (fun _ => False) := by
  intro k
  induction k with
  | zero => exact fun t s world h _ => Runs.pure h
  | succ k ih =>
    intro t s world h hM
    rw [List.range_succ_eq_map, List.map_cons, List.map_map, Nat.add_zero]
    have hle : (t + 1) * T.cs ≤ (t + (k + 1)) * T.cs := Nat.mul_le_mul_right _ (by omega)
    refine Runs.bind (copyStep_mono _ _ _ _) (fun s => loop_mono (fun _ _ => copyStep_mono _ _ _ _) _ s)
      (copyStep_turned ha hT hsrc hce h (by omega)) ?_
    intro s' world' _ h'
    have := ih (t + 1) s' world' h' (by rw [show t + 1 + k = t + (k + 1) by omega]; exact hM)
    rw [show t + 1 + k = t + (k + 1) by omega] at this
    have hlist : (List.range k).map ((fun i => M0 + (t + i) * T.cs) ∘ Nat.succ) =
        (List.range k).map fun i => M0 + (t + 1 + i) * T.cs := by
      refine List.map_congr_left fun i _ => ?_
      change M0 + (t + (i + 1)) * T.cs = _
      rw [show t + (i + 1) = t + 1 + i by omega]
    rw [hlist]
    exact this

theorem pyRange_split {M total cs t : Nat} (hcs : 1 ≤ cs) (ht : M + t * cs ≤ total) :
    ∃ k, chunks (total - M) cs = t + k ∧
      (pyRange M (total - M) cs).take t = (List.range t).map (fun i => M + (0 + i) * cs) ∧
      (pyRange M (total - M) cs).drop t = (List.range k).map fun i => M + t * cs + i * cs := by
  have hge := chunks_ge (n := total - M) hcs
  have hle : t ≤ chunks (total - M) cs := Nat.le_of_mul_le_mul_right (show t * cs ≤ _ * cs by omega) hcs
  obtain ⟨k, hk⟩ := Nat.exists_eq_add_of_le hle
  have hp : pyRange M (total - M) cs = (List.range t).map (fun i => M + (0 + i) * cs) ++
      (List.range k).map fun i => M + t * cs + i * cs := by
    unfold pyRange
    rw [show ((total - M : Int)).toNat = total - M by omega]
    change (List.range (chunks (total - M) cs)).map _ = _
    rw [hk, List.range_add, List.map_append, List.map_map]
    congr 1
    · refine List.map_congr_left fun i _ => ?_
      rw [Nat.zero_add]
    · refine List.map_congr_left fun i _ => ?_
      change M + (t + i) * cs = _
      rw [Nat.add_mul]
      omega
  have hlen : ((List.range t).map (fun i => M + (0 + i) * cs)).length = t := by simp
  refine ⟨k, hk, ?_, ?_⟩
  · rw [hp, List.take_append_of_le_length (by omega), List.take_of_length_le (by omega)]
  · rw [hp, List.drop_append_of_le_length (by omega), List.drop_of_length_le (by omega), List.nil_append]

theorem turns_runs (ha : Appends False H utf8 clog lg fuel readFuel T levels round Next) (hT : Sound H utf8 T)
    {src : Source} (hsrc : src.Of Next T) {ce M t : Nat} {world : World} (hce : 1 ≤ ce) (ht : 1 ≤ t)
    (h : HeadAt H utf8 T levels round name axes world M) (hM : M + t * T.cs ≤ src.total) :
    Runs False H utf8 readFuel (turns H utf8 clog lg fuel src ce t) world
      (fun x world' => x.1 = M ∧ x.2.1 = T.cs ∧
        Turned H utf8 T levels round name axes ce M (src.total - M) t x.2.2 world') (fun _ => False) := by
  have hrest : ∀ (d : Dataset) (v : Variable) (n : Nat), Mono (if (src.total : Int) - n ≤ 0 then Script.fail (.err (.py .exit))
      else if v.chunkSize = 0 then Script.fail (.err (.py .value))
      else do
        let s ← loop (copyStep H utf8 clog lg fuel src ce) ⟨d, v, src.total - n, ce⟩
          ((pyRange n (src.total - n) v.chunkSize).take t)
        pure (n, v.chunkSize, s)) := by
    intro d v n
    split
    · exact Mono.fail _
    · split
      · exact Mono.fail _
      · exact (loop_mono (fun _ _ => copyStep_mono _ _ _ _) _ _).bind fun _ => Mono.pure _
  have hcs := T.cs_pos
  have hpos : 1 * T.cs ≤ t * T.cs := Nat.mul_le_mul_right _ ht
  unfold turns
  refine Runs.bind current_mono (fun d => (first_mono d).bind fun v => (instants_mono v).bind fun n => hrest d v n)
    (current_runs h fun h => h.elim) ?_
  rintro d world - ⟨rfl, h1⟩
  refine Runs.bind (first_mono d) (fun v => (instants_mono v).bind fun n => hrest d v n) (first_runs h1) ?_
  rintro v world - ⟨rfl, h2, tl, h3⟩
  refine Runs.bind (instants_mono v) (fun n => hrest d v n) (instants_runs h3 hT.type fun h => h.elim) ?_
  rintro M world - ⟨rfl, rfl⟩
  simp only
  rw [if_neg (by omega), h3.chunkSize, if_neg (by omega)]
  obtain ⟨k, -, hk, -⟩ := pyRange_split hcs hM
  rw [hk]
  refine Runs.bind (loop_mono (fun _ _ => copyStep_mono _ _ _ _) _ _) (fun _ => Mono.pure _)
    (loop_turned ha hT hsrc (M0 := M) (rem := src.total - M) hce t 0 _ world ⟨?_, h2, ⟨tl, ?_⟩, ?_, hce, Nat.le_refl _, 0, M,
      ?_, ?_, ?_, h⟩ ?_) ?_
  · rw [Nat.zero_mul]; exact h1
  · rw [Nat.zero_mul]; exact h3
  · change (src.total : Int) - M = _
    rw [Nat.zero_mul]
    omega
  · change 0 + ce = _
    rw [Nat.zero_mul]
  · rw [Nat.zero_mul, Nat.zero_mul]
    exact Nat.le_refl _
  · rw [Nat.zero_mul]
    exact Nat.le_refl _
  · rw [Nat.zero_add]
    exact hM
  · intro s world' _ hs
    rw [Nat.zero_add] at hs
    exact Runs.pure ⟨rfl, rfl, hs⟩

theorem others_runs (ha : Appends w H utf8 clog lg fuel readFuel T levels round Next) (hT : Sound H utf8 T)
    {src : Source} (hsrc : src.Of Next T) {ce M t : Nat} {s : CopyState} {world : World} (hce : 1 ≤ ce)
    (h : Turned H utf8 T levels round name axes ce M (src.total - M) t s world) (hM : M + t * T.cs ≤ src.total) :
    Runs w H utf8 readFuel (others H utf8 clog lg fuel src ce t (M, T.cs, s)) world
      (fun _ world' => ∃ M', M + t / ce * ce * T.cs ≤ M' ∧ M' ≤ src.total ∧
        HeadAt H utf8 T levels round name axes world' M')
      (fun world' => ∃ M', M + t / ce * ce * T.cs ≤ M' ∧ M' ≤ src.total ∧
        HeadAt H utf8 T levels round name axes world' M') := by
  obtain ⟨h1, h2, ⟨tl, h3⟩, h4, l1, l2, j, M1, h5, h5', h5'', h6⟩ := h
  have hj : t / ce = j := by
    have : t = (ce - s.commitCount) + ce * j := by rw [Nat.mul_comm]; omega
    rw [this, Nat.add_mul_div_left _ _ hce, Nat.div_eq_of_lt (by omega), Nat.zero_add]
  rw [hj]
  have hcs := T.cs_pos
  obtain ⟨k, hk, -, hd⟩ := pyRange_split hcs hM
  have hge := chunks_ge (n := src.total - M) hcs
  have hlt := chunks_lt (n := src.total - M) hcs
  rw [hk] at hge hlt
  unfold others
  simp only
  rw [hd]
  have hend : M + t * T.cs + (k - 1) * T.cs ≤ src.total := by
    cases k with
    | zero => rw [Nat.zero_sub, Nat.zero_mul]; exact hM
    | succ k =>
      rw [← Nat.add_assoc, Nat.add_sub_cancel, Nat.add_mul] at hlt
      rw [Nat.add_sub_cancel]
      generalize k * T.cs = x at *
      generalize t * T.cs = y at *
      omega
  rw [Nat.add_mul] at hge
  have hloop := loop_runs ha hT hsrc ce (M0 := M + j * ce * T.cs) k (M + t * T.cs) (src.total - M - (t * T.cs : Nat)) s
    world ⟨h1, h2, ⟨tl, h3⟩, h4, by omega, M1, h5', h5'', h6⟩ hM hend
  refine Runs.bind (loop_mono (fun _ _ => copyStep_mono _ _ _ _) _ _) (fun s => (nubbin_mono src s).bind fun d =>
    publish_mono d) (Runs.imp hloop (fun _ _ h => h) fun world' hb => hb.2) ?_
  rintro s world' - ⟨f1, f2, f3, f4, f5, M2, f6, f6', f7⟩
  unfold nubbin
  rw [if_neg (by omega)]
  refine Runs.bind (Q := fun d world'' => d = s.dataset ∧ world'' = world') (Mono.pure _)
    (fun d => publish_mono d) (Runs.pure ⟨rfl, rfl⟩) ?_
  rintro _ world' - ⟨rfl, rfl⟩
  refine Runs.imp (publish_runs hT f1 (E := fun world' => ∃ M', M + j * ce * T.cs ≤ M' ∧ M' ≤ src.total ∧
      HeadAt H utf8 T levels round name axes world' M')
    (fun hw log hs => ⟨M2, f6, by omega, HeadAt.mono (log := world'.log) f7 hs⟩))
    (fun _ world'' hq => ⟨_, f5, by omega, hq.2⟩) fun world'' hb => hb

/-- What is published if at least the first `2 + 4 * t` steps of a copy go well. -/
theorem copy_progress (hf : Appends False H utf8 clog lg fuel readFuel T levels round Next)
    (ha : Appends True H utf8 clog lg fuel readFuel T levels round Next) (hT : Sound H utf8 T)
    {src : Source} (hsrc : src.Of Next T) {ce M t : Nat} {world : World} (hce : 1 ≤ ce) (ht : 1 ≤ t)
    (h : HeadAt H utf8 T levels round name axes world M) (hM : M + t * T.cs ≤ src.total) (env : Nat → Event)
    (henv : ∀ i, (env i).Ok True utf8 readFuel) (hgo : ∀ i, i < 2 + 4 * t → ∃ fill, env i = .goes fill)
    (hnc : (copy H utf8 clog lg fuel src none ce env (world, 0)).2.1.log.NoCollision H) :
    ∃ M', M + t / ce * ce * T.cs ≤ M' ∧ M' ≤ src.total ∧
      HeadAt H utf8 T levels round name axes (copy H utf8 clog lg fuel src none ce env (world, 0)).2.1 M' := by
  rw [copy_split src ce t] at hnc ⊢
  change Saved.NoCollision H (Script.bind _ _ env (world, 0)).2.1.log at hnc
  change ∃ M', _ ∧ _ ∧ HeadAt _ _ _ _ _ _ _ (Script.bind _ _ env (world, 0)).2.1 M'
  obtain ⟨e1, -⟩ := turns_within (H := H) (utf8 := utf8) (clog := clog) (lg := lg) (fuel := fuel) src ce t env
    (fun i => if i < 2 + 4 * t then env i else env 0) (world, 0) fun i hi => by
      rw [Nat.zero_add] at hi
      rw [if_pos hi]
  have hok : ∀ i, (if i < 2 + 4 * t then env i else env 0).Ok False utf8 readFuel := by
    have hgoes : ∀ i, i < 2 + 4 * t → (env i).Ok False utf8 readFuel := by
      intro i hi
      obtain ⟨fill, e⟩ := hgo i hi
      have := henv i
      rw [e] at this ⊢
      exact this
    intro i
    split
    · rename_i hi
      exact hgoes i hi
    · exact hgoes 0 (by omega)
  have hnc1 : (turns H utf8 clog lg fuel src ce t env (world, 0)).2.1.log.NoCollision H := by
    refine NoCollision.mono ?_ hnc
    unfold Script.bind
    rcases turns H utf8 clog lg fuel src ce t env (world, 0) with ⟨_ | a, s'⟩
    · exact List.Subset.refl _
    · exact others_mono src ce t a env s'
  rw [e1] at hnc1
  rcases turns_runs hf hT hsrc hce ht h hM _ 0 hok hnc1 with ⟨⟨a, b, c⟩, s, e, g1, g2, g3⟩ | ⟨_, _, _, g⟩
  · simp only at g1 g2 g3
    subst g1 g2
    rw [← e1] at e
    unfold Script.bind at hnc ⊢
    rw [e] at hnc ⊢
    simp only at hnc ⊢
    rcases others_runs ha hT hsrc hce g3 hM env s.2 henv hnc with ⟨_, s', e', M', g⟩ | ⟨_, s', e', M', g⟩
    · change ∃ M', _ ∧ _ ∧ HeadAt _ _ _ _ _ _ _ (others H utf8 clog lg fuel src ce t _ env (s.1, s.2)).2.1 M'
      rw [e']
      exact ⟨M', g⟩
    · change ∃ M', _ ∧ _ ∧ HeadAt _ _ _ _ _ _ _ (others H utf8 clog lg fuel src ce t _ env (s.1, s.2)).2.1 M'
      rw [e']
      exact ⟨M', g⟩
  · exact g.elim

end

end Example

end Verif
