import Verif.Props.Example32
import Verif.Lemmas.ExampleSteps

/-!
Property C70: what a run of `copy` has published when it is broken off. A step is a call of the library or the writing of
the head.
-/
namespace Verif

open Prog hiding pure bind

namespace Example

section
variable {H : Hash} {utf8 : List Byte → Bool} {clog : Nat → Nat} {lg : Rat → Int} {fuel readFuel : Nat}
  {T : VarTheory} {f : Factory} {Next : Nat → NdArray → Nat → Prop} {N : Nat} {α : Type} {kind : Kind α}
  {data : Nat → Nat → Nat → α}

theorem steady (hx : Fixed H utf8 clog lg fuel readFuel T f Next N)
    (ha : Appends False H utf8 clog lg fuel readFuel T f.k2Levels (if f.round then some f.bits else none) Next)
    (hs : Serving H utf8 readFuel T f kind data)
    (cmds : List (Cmd × (Nat → Event))) (world : World) (hw : world.head = .missing)
    (hc : ∀ c ∈ cmds, c.1.Of Next T f ∧ ∀ i, (c.2 i).Ok True utf8 readFuel)
    (before : World) (hb : before = runs H utf8 clog lg fuel cmds world) (hm : before.head ≠ .missing)
    (src : Source) (commitEvery : Nat) (hce : 0 < commitEvery) (hsrc : src.Of Next T) (t : Nat) (ht : 0 < t)
    (env : Nat → Event) (henv : ∀ i, (env i).Ok True utf8 readFuel)
    (hgo : ∀ i, i < 2 + 4 * t → ∃ fill, env i = .goes fill) (after : World) (done : Bool)
    (hrun : (Cmd.copy src none commitEvery).run H utf8 clog lg fuel env before = (after, done))
    (hnc : after.log.NoCollision H) :
    ∃ M, M ≤ N ∧ Spec.Serves H utf8 readFuel f kind data before M ∧
      (M + t * f.chunkSize ≤ src.total → ∃ M', M + t / commitEvery * commitEvery * f.chunkSize ≤ M' ∧ M' ≤ src.total ∧
        Spec.Serves H utf8 readFuel f kind data after M') := by
  have hmono := Cmd.script_mono (H := H) (utf8 := utf8) (clog := clog) (lg := lg) (fuel := fuel)
    (.copy src none commitEvery) env (before, 0)
  unfold Cmd.run at hrun
  have hl : (copy H utf8 clog lg fuel src none commitEvery env (before, 0)).2.1 = after := congrArg Prod.fst hrun
  change before.log ⊆ (copy H utf8 clog lg fuel src none commitEvery env (before, 0)).2.1.log at hmono
  rw [hl] at hmono
  have hnc1 := NoCollision.mono hmono hnc
  subst hb
  obtain ⟨M, -, h1, h2⟩ := runs_state hx cmds world 0 (.inl ⟨hw, rfl⟩) (Nat.zero_le _) hc hnc1
  have h2 := h2.resolve_left fun h => hm h.1
  refine ⟨M, h1, h2.serves hs hnc1, fun hM => ?_⟩
  rw [hx.cs] at hM ⊢
  obtain ⟨M', g1, g2, g3⟩ := copy_progress ha hx.appends hx.sound hsrc hce ht h2 hM env henv hgo (by rw [hl]; exact hnc)
  rw [hl] at g3
  exact ⟨M', g1, g2, g3.serves hs hnc⟩

/-- C70 for 32-bit integers whatever their values: a `copy` that is broken off, but not before `2 + 4 * t` steps are made, has
published all of `t` chunks but the last ones that are less than `commitEvery`.

Partial: as `C70_copy_i32_partial`. -/
theorem C70_progress_i32_partial (a : Nat → Nat → Nat → Int32) (hf : f.Fits utf8 .i32)
    (hset : Settings clog f.k2Levels N f.rows f.cols f.chunkSize f.spanSize)
    (haccept : ∀ t n, 1 ≤ n → n ≤ f.chunkSize → t + n ≤ N →
      BuildOk clog 2 n f.k2Levels (fun t' r c => (a (t + t') r c).toInt64) f.rows f.cols)
    (hfuel : 32 ≤ fuel) (hrf : f.k2Levels.length + 34 ≤ readFuel)
    (cmds : List (Cmd × (Nat → Event))) (world : World) (hw : world.head = .missing)
    (hc : ∀ c ∈ cmds, Spec.From (.i32 a) N f c.1 ∧ ∀ i, (c.2 i).Ok True utf8 readFuel)
    (before : World) (hb : before = runs H utf8 clog lg fuel cmds world) (hm : before.head ≠ .missing)
    (src : Source) (commitEvery : Nat) (hce : 0 < commitEvery)
    (hsrc : Spec.From (.i32 a) N f (.copy src none commitEvery)) (t : Nat) (ht : 0 < t)
    (env : Nat → Event) (henv : ∀ i, (env i).Ok True utf8 readFuel)
    (hgo : ∀ i, i < 2 + 4 * t → ∃ fill, env i = .goes fill) (after : World) (done : Bool)
    (hrun : (Cmd.copy src none commitEvery).run H utf8 clog lg fuel env before = (after, done))
    (hnc : after.log.NoCollision H) :
    ∃ M, M ≤ N ∧ Spec.Serves H utf8 readFuel f .i32 a before M ∧
      (M + t * f.chunkSize ≤ src.total → ∃ M', M + t / commitEvery * commitEvery * f.chunkSize ≤ M' ∧ M' ≤ src.total ∧
        Spec.Serves H utf8 readFuel f .i32 a after M') :=
  have hint := var32 hset a haccept
  steady (lg := lg) (fixedInt hf (by decide) hint.toIntBase hfuel hrf) (hint.appends hfuel (by omega))
    (serving32 hint.toIntBase hrf) cmds world hw (fun c h => ⟨from32 ⟨rfl, rfl⟩ (hc c h).1, (hc c h).2⟩) before hb hm
    src commitEvery hce (from32 (T := hint.toIntBase.theory H .i32) ⟨rfl, rfl⟩ hsrc) t ht env henv hgo after done hrun hnc

/-- C70 for 64-bit integers, as `C70_progress_i32_partial`.

Partial: as `C70_copy_i64_partial`. -/
theorem C70_progress_i64_partial (a : Nat → Nat → Nat → Int64) (hf : f.Fits utf8 .i64)
    (hint : IntVar clog f.k2Levels a N f.rows f.cols f.chunkSize f.spanSize)
    (hfuel : 32 ≤ fuel) (hrf : f.k2Levels.length + 34 ≤ readFuel)
    (cmds : List (Cmd × (Nat → Event))) (world : World) (hw : world.head = .missing)
    (hc : ∀ c ∈ cmds, Spec.From (.i64 a) N f c.1 ∧ ∀ i, (c.2 i).Ok True utf8 readFuel)
    (before : World) (hb : before = runs H utf8 clog lg fuel cmds world) (hm : before.head ≠ .missing)
    (src : Source) (commitEvery : Nat) (hce : 0 < commitEvery)
    (hsrc : Spec.From (.i64 a) N f (.copy src none commitEvery)) (t : Nat) (ht : 0 < t)
    (env : Nat → Event) (henv : ∀ i, (env i).Ok True utf8 readFuel)
    (hgo : ∀ i, i < 2 + 4 * t → ∃ fill, env i = .goes fill) (after : World) (done : Bool)
    (hrun : (Cmd.copy src none commitEvery).run H utf8 clog lg fuel env before = (after, done))
    (hnc : after.log.NoCollision H) :
    ∃ M, M ≤ N ∧ Spec.Serves H utf8 readFuel f .i64 a before M ∧
      (M + t * f.chunkSize ≤ src.total → ∃ M', M + t / commitEvery * commitEvery * f.chunkSize ≤ M' ∧ M' ≤ src.total ∧
        Spec.Serves H utf8 readFuel f .i64 a after M') :=
  steady (lg := lg) (fixedInt hf (by decide) hint.toIntBase hfuel hrf) (hint.appends hfuel (by omega))
    (serving64 hint.toIntBase hrf) cmds world hw (fun c h => ⟨from64 ⟨rfl, rfl⟩ (hc c h).1, (hc c h).2⟩) before hb hm
    src commitEvery hce (from64 (T := hint.toIntBase.theory H .i64) ⟨rfl, rfl⟩ hsrc) t ht env henv hgo after done hrun hnc

/-- C70 for floats, as `C70_progress_i32_partial`. Partial as C31 for floats (`FltVar`). -/
theorem C70_progress_float_partial {p : Prec} {B : Nat} (a : Nat → Nat → Nat → Flt)
    (hf : f.Fits utf8 p.kind.encoding)
    (hflt : FltVar clog lg f.k2Levels p B (if f.round then some f.bits else none) a N f.rows f.cols f.chunkSize
      f.spanSize)
    (hfuel : 32 ≤ fuel) (hrf : f.k2Levels.length + 34 ≤ readFuel)
    (cmds : List (Cmd × (Nat → Event))) (world : World) (hw : world.head = .missing)
    (hc : ∀ c ∈ cmds, Spec.From (.flt p a) N f c.1 ∧ ∀ i, (c.2 i).Ok True utf8 readFuel)
    (before : World) (hb : before = runs H utf8 clog lg fuel cmds world) (hm : before.head ≠ .missing)
    (src : Source) (commitEvery : Nat) (hce : 0 < commitEvery)
    (hsrc : Spec.From (.flt p a) N f (.copy src none commitEvery)) (t : Nat) (ht : 0 < t)
    (env : Nat → Event) (henv : ∀ i, (env i).Ok True utf8 readFuel)
    (hgo : ∀ i, i < 2 + 4 * t → ∃ fill, env i = .goes fill) (after : World) (done : Bool)
    (hrun : (Cmd.copy src none commitEvery).run H utf8 clog lg fuel env before = (after, done))
    (hnc : after.log.NoCollision H) :
    ∃ M, M ≤ N ∧ Spec.Serves H utf8 readFuel f p.kind (fun t r c => (a t r c).rounded B) before M ∧
      (M + t * f.chunkSize ≤ src.total → ∃ M', M + t / commitEvery * commitEvery * f.chunkSize ≤ M' ∧ M' ≤ src.total ∧
        Spec.Serves H utf8 readFuel f p.kind (fun t r c => (a t r c).rounded B) after M') :=
  steady (lg := lg) (fixedFlt hf hflt.toFltBase hfuel hrf) (hflt.appends hfuel (by omega))
    (servingFlt hflt.toFltBase hrf) cmds world hw (fun c h => ⟨fromFlt ⟨rfl, rfl⟩ (hc c h).1, (hc c h).2⟩) before hb hm
    src commitEvery hce (fromFlt (T := hflt.toFltBase.theory H p.kind.encoding) ⟨rfl, rfl⟩ hsrc) t ht env henv hgo after done hrun hnc

end

/-! ### Examples -/

/-- The assumptions of `C70_progress_i32_partial`: a copy that is broken off at its ninth step has published a chunk. -/
example : ∃ M', 2 ≤ M' ∧ M' ≤ 3 ∧ Spec.Serves exampleHash (fun _ => true) 40 exampleFactory32 .i32 exampleWide
    ((Cmd.copy exampleSource32 none 1).run exampleHash (fun _ => true) exampleClog (fun _ => 0) 32 (brokenAt 8)
      (runs exampleHash (fun _ => true) exampleClog (fun _ => 0) 32 [(.init exampleFactory32, smooth)] ⟨[], .missing⟩)).1
    M' := by
  have hcount : count32 exampleHash (fun _ => true) (runs exampleHash (fun _ => true) exampleClog (fun _ => 0) 32
        [(.init exampleFactory32, smooth)] ⟨[], .missing⟩) = some 0 := by decide +kernel
  rcases hrun : (Cmd.copy exampleSource32 none 1).run exampleHash (fun _ => true) exampleClog
      (fun _ => 0) 32 (brokenAt 8) (runs exampleHash (fun _ => true) exampleClog (fun _ => 0) 32
        [(.init exampleFactory32, smooth)] ⟨[], .missing⟩) with ⟨after, done⟩
  have hnc : ((Cmd.copy exampleSource32 none 1).run exampleHash (fun _ => true) exampleClog
      (fun _ => 0) 32 (brokenAt 8) (runs exampleHash (fun _ => true) exampleClog (fun _ => 0) 32
        [(.init exampleFactory32, smooth)] ⟨[], .missing⟩)).1.log.NoCollision exampleHash := by
    unfold Saved.NoCollision
    decide +kernel
  rw [hrun] at hnc
  obtain ⟨M, -, h1, h2⟩ := C70_progress_i32_partial (H := exampleHash) (utf8 := fun _ => true) (clog := exampleClog)
    (lg := fun _ => 0) (fuel := 32) (readFuel := 40) (N := 4) exampleWide exampleFactory32_fits exampleSettings32
    (fun a n _ _ _ => ⟨rfl, trivial⟩) (by decide)
    (by decide) [(.init exampleFactory32, smooth)] ⟨[], .missing⟩ rfl (by
      intro c hc
      rw [List.mem_singleton] at hc
      subst hc
      exact ⟨rfl, smooth_ok True⟩) _ rfl (by decide +kernel) exampleSource32 1 (by decide) exampleCopy32_from 1 (by decide)
    (brokenAt 8) (brokenAt_ok 8) (fun i hi => ⟨exampleFill, if_neg (by omega)⟩) _ _ hrun hnc
  have := h1.count32
  rw [hcount] at this
  cases this
  exact h2 (by decide)

end Example

end Verif
