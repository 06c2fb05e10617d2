import Verif.Lemmas.SuperBuild
import Verif.Model.Dataset

/-! Reasoning about programs that use the store. -/
namespace Verif

namespace Prog

/-- A program that forgets nothing. -/
def Mono {α : Type} (m : Prog α) : Prop := ∀ log, log ⊆ (m log).2

theorem Mono.pure {α : Type} (a : α) : Mono (Pure.pure a : Prog α) := fun log => List.Subset.refl log

theorem Mono.fail {α : Type} (f : Fail) : Mono (Prog.fail f : Prog α) := fun log => List.Subset.refl log

theorem Mono.ofOption {α : Type} (o : Option α) : Mono (Prog.ofOption o) := by
  cases o
  · exact Mono.fail _
  · exact Mono.pure _

theorem Mono.bind {α β : Type} {m : Prog α} {f : α → Prog β} (hm : Mono m) (hf : ∀ a, Mono (f a)) :
    Mono (m >>= f) := by
  intro log
  change log ⊆ (Prog.bind m f log).2
  unfold Prog.bind
  have h1 := hm log
  rcases h : m log with ⟨r, log1⟩
  rw [h] at h1
  cases r with
  | ok a => exact List.Subset.trans h1 (hf a log1)
  | error e => exact h1

theorem Mono.getStruct (H : Hash) (utf8 : List Byte → Bool) (cid : Cid) :
    Mono (Prog.getStruct H utf8 cid) := fun log => List.Subset.refl log

theorem Mono.save (H : Hash) (x : Item) : Mono (Prog.save H x) := fun log => by
  simp [Prog.save, Verif.save]

theorem Mono.getSpan (H : Hash) (utf8 : List Byte → Bool) (cid : Cid) :
    Mono (Prog.getSpan H utf8 cid) := by
  refine (Mono.getStruct H utf8 cid).bind fun m => ?_
  cases m with
  | span s => exact Mono.pure _
  | subchunk c => exact Mono.fail _
  | superchunk h l => exact Mono.fail _

/-- If no two objects collide in the end, the program ends well, with `Q`, or, if `w`, fails. -/
def Sat (w : Prop) (H : Hash) {α : Type} (m : Prog α) (log : Saved) (Q : α → Saved → Prop) : Prop :=
  (m log).2.NoCollision H →
    (∃ a log', m log = (.ok a, log') ∧ Q a log') ∨ w ∧ ∃ f log', m log = (.error f, log')

variable {w : Prop}

theorem Sat.ok {H : Hash} {α : Type} {m : Prog α} {log : Saved} {Q : α → Saved → Prop}
    (hs : Sat False H m log Q) (hnc : (m log).2.NoCollision H) :
    ∃ a log', m log = (.ok a, log') ∧ Q a log' :=
  (hs hnc).resolve_right fun h => h.1

theorem Sat.pure {H : Hash} {α : Type} {a : α} {log : Saved} {Q : α → Saved → Prop} (h : Q a log) :
    Sat w H (Pure.pure a : Prog α) log Q := fun _ => .inl ⟨a, log, rfl, h⟩

theorem Sat.mono {H : Hash} {α : Type} {m : Prog α} {log : Saved} {Q R : α → Saved → Prop}
    (hs : Sat w H m log Q) (h : ∀ a log', Q a log' → R a log') : Sat w H m log R := by
  intro hnc
  rcases hs hnc with ⟨a, log', e, hq⟩ | hw
  · exact .inl ⟨a, log', e, h a log' hq⟩
  · exact .inr hw

theorem NoCollision.mono {H : Hash} {a b : Saved} (h : a ⊆ b) (hb : Saved.NoCollision H b) :
    Saved.NoCollision H a := fun x hx y hy e => hb x (h hx) y (h hy) e

/-- Sequencing; what was saved before is still there. -/
theorem Sat.bind {H : Hash} {α β : Type} {m : Prog α} {f : α → Prog β} {log : Saved}
    {Q : α → Saved → Prop} {R : β → Saved → Prop} (hm : Mono m) (hf : ∀ a, Mono (f a))
    (h1 : Sat w H m log Q) (h2 : ∀ a log', log ⊆ log' → Q a log' → Sat w H (f a) log' R) :
    Sat w H (m >>= f) log R := by
  intro hnc
  change (∃ a log', Prog.bind m f log = _ ∧ _) ∨ _ ∧ ∃ e log', Prog.bind m f log = _
  change Saved.NoCollision H (Prog.bind m f log).2 at hnc
  have hl := hm log
  have hsub : (m log).2 ⊆ (Prog.bind m f log).2 := by
    unfold Prog.bind
    rcases h : m log with ⟨r, log1⟩
    cases r with
    | ok a => exact hf a log1
    | error e => exact List.Subset.refl _
  rcases h1 (NoCollision.mono hsub hnc) with ⟨a, log1, e, hq⟩ | ⟨hw, e, log1, he⟩
  · rw [e] at hl
    have := h2 a log1 hl hq
    unfold Prog.bind at hnc ⊢
    rw [e] at hnc ⊢
    exact this hnc
  · refine .inr ⟨hw, e, log1, ?_⟩
    unfold Prog.bind
    rw [he]

theorem Sat.ofOption {H : Hash} {α : Type} {o : Option α} {a : α} {log : Saved}
    {Q : α → Saved → Prop} (e : o = some a) (h : Q a log) : Sat w H (Prog.ofOption o) log Q := by
  subst e
  exact Sat.pure h

/-- A structure that was saved. -/
structure Kept (H : Hash) (log : Saved) (cid : Cid) (m : MMStruct3) : Prop where
  cid : H.cidOf (Item.struct m).bytes = cid
  mem : (Item.struct m).bytes ∈ log
  wf : m.WF

theorem Kept.mono {H : Hash} {log log' : Saved} {cid m} (h : Kept H log cid m) (hs : log ⊆ log') :
    Kept H log' cid m := ⟨h.cid, hs h.mem, h.wf⟩

theorem Kept.get {H : Hash} {log : Saved} {cid m} (h : Kept H log cid m) (utf8 : List Byte → Bool)
    (hnc : log.NoCollision H) : (log.load H).getStruct utf8 cid = .ok m := by
  refine Store.getStruct_of ?_ h.wf
  rw [← h.cid]
  exact Saved.load_mem hnc h.mem

theorem Kept.valid {H : Hash} {log : Saved} {cid m} (h : Kept H log cid m) : cid.Valid :=
  h.cid ▸ H.valid _

theorem Sat.getStruct {H : Hash} {utf8 : List Byte → Bool} {cid m} {log : Saved}
    {Q : MMStruct3 → Saved → Prop} (h : Kept H log cid m) (hq : Q m log) :
    Sat w H (Prog.getStruct H utf8 cid) log Q := by
  intro hnc
  refine .inl ⟨m, log, ?_, hq⟩
  unfold Prog.getStruct
  rw [h.get utf8 hnc]

theorem Sat.getSpan {H : Hash} {utf8 : List Byte → Bool} {cid} {s : Span} {log : Saved}
    {Q : Span → Saved → Prop} (h : Kept H log cid (.span s)) (hq : Q s log) :
    Sat w H (Prog.getSpan H utf8 cid) log Q := by
  refine Sat.bind (Mono.getStruct H utf8 cid) ?_ (Sat.getStruct (Q := fun m log' => m = .span s ∧ log' = log)
    h ⟨rfl, rfl⟩) ?_
  · intro m
    cases m with
    | span s => exact Mono.pure _
    | subchunk c => exact Mono.fail _
    | superchunk h l => exact Mono.fail _
  · rintro m log' - ⟨rfl, rfl⟩
    exact Sat.pure hq

theorem Sat.save {H : Hash} {m : MMStruct3} {log : Saved} {Q : Cid → Saved → Prop}
    (hw : m.WF) (hq : ∀ cid log', log ⊆ log' → Kept H log' cid m → Q cid log') :
    Sat w H (Prog.save H (.struct m)) log Q := by
  intro _
  refine .inl ⟨_, _, rfl, hq _ _ ?_ ⟨rfl, ?_, hw⟩⟩
  · simp [Verif.save]
  · simp [Verif.save]

end Prog

end Verif
