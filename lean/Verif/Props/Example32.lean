import Verif.Props.Example

/-!
Property C70 for 32-bit integers whatever their values: what runs of the example program do that are not broken off.
-/
namespace Verif

open Prog hiding pure bind

namespace Example

section
variable {H : Hash} {utf8 : List Byte → Bool} {clog : Nat → Nat} {lg : Rat → Int} {fuel readFuel : Nat}
  {f : Factory} {N : Nat}

theorem var32 (hset : Settings clog f.k2Levels N f.rows f.cols f.chunkSize f.spanSize) (a : Nat → Nat → Nat → Int32)
    (haccept : ∀ t n, 1 ≤ n → n ≤ f.chunkSize → t + n ≤ N →
      BuildOk clog 2 n f.k2Levels (fun t' r c => (a (t + t') r c).toInt64) f.rows f.cols) :
    IntVar clog f.k2Levels (fun t r c => (a t r c).toInt64) N f.rows f.cols f.chunkSize f.spanSize :=
  { base32 hset a with accepts := haccept }

/-- C70 for 32-bit integers whatever their values: a `copy` that is not broken off copies all that is left of the source,
or, with a limit, all chunks that the limit begins; if there is nothing left, it fails and changes nothing.

Partial: the superchunk builder accepts the rasters (see C26). -/
theorem C70_copy_i32_partial (a : Nat → Nat → Nat → Int32) (hf : f.Fits utf8 .i32)
    (hset : Settings clog f.k2Levels N f.rows f.cols f.chunkSize f.spanSize)
    (haccept : ∀ t n, 1 ≤ n → n ≤ f.chunkSize → t + n ≤ N →
      BuildOk clog 2 n f.k2Levels (fun t' r c => (a (t + t') r c).toInt64) f.rows f.cols)
    (hfuel : 32 ≤ fuel) (hrf : f.k2Levels.length + 34 ≤ readFuel)
    (cmds : List (Cmd × (Nat → Event))) (world : World) (hw : world.head = .missing)
    (hc : ∀ c ∈ cmds, Spec.From (.i32 a) N f c.1 ∧ ∀ i, (c.2 i).Ok True utf8 readFuel)
    (before : World) (hb : before = runs H utf8 clog lg fuel cmds world) (hm : before.head ≠ .missing)
    (src : Source) (limit : Option Int) (commitEvery : Nat) (hsrc : Spec.From (.i32 a) N f (.copy src limit commitEvery))
    (env : Nat → Event) (henv : ∀ i, (env i).Ok False utf8 readFuel) (after : World) (done : Bool)
    (hrun : (Cmd.copy src limit commitEvery).run H utf8 clog lg fuel env before = (after, done))
    (hnc : after.log.NoCollision H) :
    ∃ M, M ≤ N ∧ Spec.Serves H utf8 readFuel f .i32 a before M ∧
      if M < src.total then
        done = true ∧ Spec.Serves H utf8 readFuel f .i32 a after (Spec.copied M src.total f.chunkSize limit)
      else done = false ∧ Spec.Serves H utf8 readFuel f .i32 a after M := by
  subst hb
  have hint := var32 hset a haccept
  have := live (lg := lg) (fixedInt hf (by decide) hint.toIntBase hfuel hrf) (hint.appends hfuel (by omega))
    (serving32 hint.toIntBase hrf) cmds world hw (fun c h => ⟨from32 ⟨rfl, rfl⟩ (hc c h).1, (hc c h).2⟩) hm src limit
    commitEvery (from32 (T := hint.toIntBase.theory H .i32) ⟨rfl, rfl⟩ hsrc) env henv (by rw [hrun]; exact hnc)
  rw [hrun] at this
  exact this

/-- C70 for 32-bit integers whatever their values: an `add` that is not broken off appends the instants of its file if
they begin where the variable ends; if they do not, it changes nothing.

Partial: as `C70_copy_i32_partial`. -/
theorem C70_add_i32_partial (a : Nat → Nat → Nat → Int32) (hf : f.Fits utf8 .i32)
    (hset : Settings clog f.k2Levels N f.rows f.cols f.chunkSize f.spanSize)
    (haccept : ∀ t n, 1 ≤ n → n ≤ f.chunkSize → t + n ≤ N →
      BuildOk clog 2 n f.k2Levels (fun t' r c => (a (t + t') r c).toInt64) f.rows f.cols)
    (hfuel : 32 ≤ fuel) (hrf : f.k2Levels.length + 34 ≤ readFuel)
    (cmds : List (Cmd × (Nat → Event))) (world : World) (hw : world.head = .missing)
    (hc : ∀ c ∈ cmds, Spec.From (.i32 a) N f c.1 ∧ ∀ i, (c.2 i).Ok True utf8 readFuel)
    (before : World) (hb : before = runs H utf8 clog lg fuel cmds world) (hm : before.head ≠ .missing)
    (start : Int) (part : NdArray) (n rows cols : Nat)
    (hadd : Spec.From (.i32 a) N f (.add start part n rows cols))
    (env : Nat → Event) (henv : ∀ i, (env i).Ok False utf8 readFuel) (after : World) (done : Bool)
    (hrun : (Cmd.add start part n rows cols).run H utf8 clog lg fuel env before = (after, done))
    (hnc : after.log.NoCollision H) :
    ∃ M, M ≤ N ∧ Spec.Serves H utf8 readFuel f .i32 a before M ∧ done = true ∧
      Spec.Serves H utf8 readFuel f .i32 a after (if start = M then M + n else M) :=
  have hint := var32 hset a haccept
  alive (lg := lg) (fixedInt hf (by decide) hint.toIntBase hfuel hrf) (hint.appends hfuel (by omega))
    (serving32 hint.toIntBase hrf) cmds world hw (fun c h => ⟨from32 ⟨rfl, rfl⟩ (hc c h).1, (hc c h).2⟩) before hb hm
    start part n rows cols (from32 (T := hint.toIntBase.theory H .i32) ⟨rfl, rfl⟩ hadd) env henv after done hrun hnc

end

/-! ### Examples -/

/-- How many instants the variable has that the head leads to. -/
def count32 (H : Hash) (utf8 : List Byte → Bool) (world : World) : Option Nat :=
  match world.head with
  | .at cid =>
    match (world.log.load H).getDataset utf8 cid with
    | .ok d =>
      match d.variables with
      | v :: _ =>
        match v.data .i32 utf8 (world.log.load H) with
        | .ok m => m.shape.map fun s => s.1
        | .error _ => none
      | [] => none
    | .error _ => none
  | _ => none

theorem Spec.Serves.count32 {H : Hash} {utf8 : List Byte → Bool} {readFuel : Nat} {f : Factory}
    {data : Nat → Nat → Nat → Int32} {world : World} {M : Nat}
    (h : Spec.Serves H utf8 readFuel f .i32 data world M) : count32 H utf8 world = some M := by
  obtain ⟨cid, d, v, m, h1, h2, -, h3, -, h4, h5⟩ := h
  unfold Example.count32
  rw [h1]
  simp only
  rw [h2]
  simp only
  rw [h3]
  simp only
  rw [h4]
  simp only
  rw [h5.shape]
  rfl

def exampleFactory32 : Factory := { exampleFactory with dtype := .int32 }

/-- The least and the greatest 32-bit integer beside each other, changing places from instant to instant. -/
def exampleWide : Nat → Nat → Nat → Int32 := fun t r c => if (t + r + c) % 2 = 0 then -2147483648 else 2147483647

def exampleSource32 : Source := ⟨.i32 exampleWide, 3, 4, 4⟩

theorem exampleFactory32_fits : exampleFactory32.Fits (fun _ => true) .i32 where
  dataset := exampleHistory.dataset
  «variable» := exampleHistory32.fits
  type := rfl

theorem exampleSettings32 : Settings exampleClog [1, 1] 4 4 4 2 2 :=
  ⟨exampleClogOk.mono (by decide), by decide, by decide, by decide, by decide, by decide, by decide, by decide,
    by decide, by decide, ⟨by decide, by decide, by decide⟩⟩

theorem exampleCopy32_from : Spec.From (.i32 exampleWide) 4 exampleFactory32 (.copy exampleSource32 none 1) :=
  ⟨rfl, rfl, by decide, fun t r c _ _ _ => by rw [Nat.zero_add]⟩

/-- The assumptions of `C70_copy_i32_partial`: the three instants of a source are copied. -/
theorem exampleCopied : ∃ after, (Cmd.copy exampleSource32 none 1).run exampleHash (fun _ => true) exampleClog
      (fun _ => 0) 32 smooth (runs exampleHash (fun _ => true) exampleClog (fun _ => 0) 32
        [(.init exampleFactory32, smooth)] ⟨[], .missing⟩) = (after, true) ∧
    Spec.Serves exampleHash (fun _ => true) 40 exampleFactory32 .i32 exampleWide after 3 := by
  have hcount : count32 exampleHash (fun _ => true) (runs exampleHash (fun _ => true) exampleClog (fun _ => 0) 32
        [(.init exampleFactory32, smooth)] ⟨[], .missing⟩) = some 0 := by decide +kernel
  rcases hrun : (Cmd.copy exampleSource32 none 1).run exampleHash (fun _ => true) exampleClog
      (fun _ => 0) 32 smooth (runs exampleHash (fun _ => true) exampleClog (fun _ => 0) 32
        [(.init exampleFactory32, smooth)] ⟨[], .missing⟩) with ⟨after, done⟩
  have hnc : ((Cmd.copy exampleSource32 none 1).run exampleHash (fun _ => true) exampleClog
      (fun _ => 0) 32 smooth (runs exampleHash (fun _ => true) exampleClog (fun _ => 0) 32
        [(.init exampleFactory32, smooth)] ⟨[], .missing⟩)).1.log.NoCollision exampleHash := by
    unfold Saved.NoCollision
    decide +kernel
  rw [hrun] at hnc
  obtain ⟨M, -, h1, h2⟩ := C70_copy_i32_partial (H := exampleHash) (utf8 := fun _ => true) (clog := exampleClog)
    (lg := fun _ => 0) (fuel := 32) (readFuel := 40) (N := 4) exampleWide exampleFactory32_fits exampleSettings32
    (fun a n _ _ _ => ⟨rfl, trivial⟩) (by decide)
    (by decide) [(.init exampleFactory32, smooth)] ⟨[], .missing⟩ rfl (by
      intro c hc
      rw [List.mem_singleton] at hc
      subst hc
      exact ⟨rfl, smooth_ok True⟩) _ rfl (by decide +kernel) exampleSource32 none 1 exampleCopy32_from
    smooth (smooth_ok False) _ _ hrun hnc
  have := h1.count32
  rw [hcount] at this
  cases this
  rw [if_pos (by decide)] at h2
  obtain ⟨rfl, h2⟩ := h2
  exact ⟨_, rfl, h2⟩

/-- The assumptions of `C70_add_i32_partial`: one more instant is added. -/
example : ∃ after, (Cmd.add 3 (.i32 fun t => exampleWide (3 + t)) 1 4 4).run exampleHash (fun _ => true) exampleClog
      (fun _ => 0) 32 smooth (runs exampleHash (fun _ => true) exampleClog (fun _ => 0) 32
        [(.init exampleFactory32, smooth), (.copy exampleSource32 none 1, smooth)] ⟨[], .missing⟩) = (after, true) ∧
    Spec.Serves exampleHash (fun _ => true) 40 exampleFactory32 .i32 exampleWide after 4 := by
  have hcount : count32 exampleHash (fun _ => true) (runs exampleHash (fun _ => true) exampleClog (fun _ => 0) 32
        [(.init exampleFactory32, smooth), (.copy exampleSource32 none 1, smooth)] ⟨[], .missing⟩) = some 3 := by
    decide +kernel
  rcases hrun : (Cmd.add 3 (.i32 fun t => exampleWide (3 + t)) 1 4 4).run exampleHash (fun _ => true) exampleClog
      (fun _ => 0) 32 smooth (runs exampleHash (fun _ => true) exampleClog (fun _ => 0) 32
        [(.init exampleFactory32, smooth), (.copy exampleSource32 none 1, smooth)] ⟨[], .missing⟩) with ⟨after, done⟩
  have hnc : ((Cmd.add 3 (.i32 fun t => exampleWide (3 + t)) 1 4 4).run exampleHash (fun _ => true) exampleClog
      (fun _ => 0) 32 smooth (runs exampleHash (fun _ => true) exampleClog (fun _ => 0) 32
        [(.init exampleFactory32, smooth), (.copy exampleSource32 none 1, smooth)]
          ⟨[], .missing⟩)).1.log.NoCollision exampleHash := by
    unfold Saved.NoCollision
    decide +kernel
  rw [hrun] at hnc
  obtain ⟨M, -, h1, h2, h3⟩ := C70_add_i32_partial (H := exampleHash) (utf8 := fun _ => true) (clog := exampleClog)
    (lg := fun _ => 0) (fuel := 32) (readFuel := 40) (N := 4) exampleWide exampleFactory32_fits exampleSettings32
    (fun a n _ _ _ => ⟨rfl, trivial⟩) (by decide)
    (by decide) [(.init exampleFactory32, smooth), (.copy exampleSource32 none 1, smooth)] ⟨[], .missing⟩ rfl (by
      intro c hc
      simp only [List.mem_cons, List.not_mem_nil, or_false] at hc
      rcases hc with rfl | rfl
      · exact ⟨rfl, smooth_ok True⟩
      · exact ⟨exampleCopy32_from, smooth_ok True⟩) _ rfl (by decide +kernel) 3 (.i32 fun t => exampleWide (3 + t)) 1 4 4
    ⟨rfl, rfl, fun M hM => by
      obtain rfl : M = 3 := by omega
      exact ⟨by decide, fun t r c _ _ _ => rfl⟩⟩
    smooth (smooth_ok False) _ _ hrun hnc
  have := h1.count32
  rw [hcount] at this
  cases this
  subst h2
  exact ⟨_, rfl, h3⟩

end Example

end Verif
