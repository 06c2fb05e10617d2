import Verif.Model.Ipfs
import Verif.Props.Cached

/-!
Objects kept in IPFS (C51).
-/
namespace Verif

/-! ### C51 -/

namespace Spec

/-- How a server should behave: `content` is what it holds in some state, `H` the identifiers it gives.
Adding adds, unless only the identifier is asked for; what was added is found. What is said about an
object that is not there is some body, the message of an error. -/
structure Honest {σ : Type} (srv : Ipfs σ) (H : Hash) (content : σ → Saved) : Prop where
  add : ∀ s data, (srv.add s data false).2 = some (H.cidOf data) ∧
    content (srv.add s data false).1 = data :: content s
  hash : ∀ s data, (srv.add s data true).2 = some (H.cidOf data) ∧
    content (srv.add s data true).1 = content s
  cat : ∀ s c b, (content s).load H c = some b → srv.cat s c = some b
  stat : ∀ s c b, (content s).load H c = some b → srv.stat s c = some b.length

end Spec

section
variable {σ : Type} {srv : Ipfs σ} {H : Hash} {content : σ → Saved}

theorem IpfsWrite.write_all (parts : List (List Byte)) (w : IpfsWrite) :
    parts.foldl IpfsWrite.write w = ⟨w.buffer ++ parts.flatten, w.onlyHash⟩ := by
  induction parts generalizing w with
  | nil => simp
  | cons p ps ih => rw [List.foldl_cons, ih]; simp [IpfsWrite.write]

/-- C51: what was written in any pieces is found under the identifier that is returned, with the right
size, and everything that was there before is still found. -/
theorem C51_store (hs : Spec.Honest srv H content) (s : σ) (parts : List (List Byte))
    (hnc : Saved.NoCollision H (parts.flatten :: content s)) :
    ∃ s' c, (parts.foldl IpfsWrite.write IpfsWrite.store).finish srv s = (s', some c) ∧
      c = H.cidOf parts.flatten ∧ content s' = parts.flatten :: content s ∧
      srv.load s' c = some (some parts.flatten) ∧
      srv.sizeOf s' c = some (some parts.flatten.length) ∧
      ∀ c' b, (content s).load H c' = some b → srv.load s' c' = some (some b) := by
  obtain ⟨h1, h2⟩ := hs.add s parts.flatten
  have hload : ∀ c' b, (content (srv.add s parts.flatten false).1).load H c' = some b →
      srv.load (srv.add s parts.flatten false).1 c' = some (some b) := fun c' b h => by
    unfold Ipfs.load
    rw [hs.cat _ _ _ h]
  have hmem : (content (srv.add s parts.flatten false).1).load H (H.cidOf parts.flatten)
      = some parts.flatten := by
    rw [h2]
    exact Saved.load_mem hnc (List.mem_cons_self ..)
  refine ⟨(srv.add s parts.flatten false).1, H.cidOf parts.flatten, ?_, rfl, h2, hload _ _ hmem, ?_, ?_⟩
  · rw [IpfsWrite.write_all]
    unfold IpfsWrite.finish
    simp only [IpfsWrite.store, List.nil_append]
    rw [← h1]
  · unfold Ipfs.sizeOf
    rw [hs.stat _ _ _ hmem]
  · intro c' b hb
    refine hload c' b ?_
    rw [h2]
    exact Saved.load_mono hnc (fun b hb => List.mem_cons_of_mem _ hb) c' b hb

/-- C51: `hash` gives the identifier that `store` would give, and nothing is stored. -/
theorem C51_hash (hs : Spec.Honest srv H content) (s : σ) (parts : List (List Byte)) :
    ((parts.foldl IpfsWrite.write IpfsWrite.hash).finish srv s).2
      = ((parts.foldl IpfsWrite.write IpfsWrite.store).finish srv s).2 ∧
    content ((parts.foldl IpfsWrite.write IpfsWrite.hash).finish srv s).1 = content s := by
  rw [IpfsWrite.write_all, IpfsWrite.write_all]
  obtain ⟨h1, h2⟩ := hs.hash s parts.flatten
  refine ⟨?_, ?_⟩
  · simp only [IpfsWrite.finish, IpfsWrite.hash, IpfsWrite.store, List.nil_append, h1,
      (hs.add s parts.flatten).1]
  · simp only [IpfsWrite.finish, IpfsWrite.hash, List.nil_append, h2]

/-- C51: an object saved through the resolver, in whatever pieces its bytes are written, is retrieved. -/
theorem C51_resolver (hs : Spec.Honest srv H content) (utf8 : List Byte → Bool) (s : σ) (x : Item)
    (hx : x.WF utf8) (parts : List (List Byte)) (hp : parts.flatten = x.bytes)
    (hnc : Saved.NoCollision H (x.bytes :: content s)) :
    ∃ s' c, srv.save s parts = (s', some c) ∧ c = H.cidOf x.bytes ∧
      srv.retrieve utf8 s' c = .ok (x.loaded c) ∧ content s' = x.bytes :: content s := by
  rw [← hp] at hnc
  obtain ⟨s', c, h1, h2, h3, h4, -, -⟩ := C51_store hs s parts hnc
  refine ⟨s', c, h1, by rw [h2, hp], ?_, by rw [h3, hp]⟩
  unfold Ipfs.retrieve
  rw [h4]
  simp only
  rw [hp]
  exact Store.retrieve_of rfl hx

/-- What C51 asks for does not hold of identifiers that lead nowhere: `load` never answers `None`, as it
should; if the server answers with the JSON of an error (which begins with a brace), then reading the
object panics instead of being answered with an error, and so does asking for the size if there is no
answer with a size. -/
theorem C51_absent_wrong (srv : Ipfs σ) (utf8 : List Byte → Bool) (s : σ) (c : Cid) :
    srv.load s c ≠ some none ∧ srv.sizeOf s c ≠ some none ∧
    (∀ b rest, srv.cat s c = some (0x7b :: b :: rest) → srv.retrieve utf8 s c = .error .panic) ∧
    (srv.cat s c = none → srv.retrieve utf8 s c = .error .panic) ∧
    (srv.stat s c = none → srv.sizeOf s c = none) := by
  refine ⟨?_, ?_, fun b rest h => ?_, fun h => ?_, fun h => ?_⟩
  · unfold Ipfs.load
    cases srv.cat s c <;> simp
  · unfold Ipfs.sizeOf
    cases srv.stat s c <;> simp
  · have hb : ∀ b : Byte, BitVec.ofNat 16 (ofBE [0x7b, b]) ≠ magicNumber := by decide +kernel
    unfold Ipfs.retrieve Ipfs.load
    rw [h]
    simp only
    unfold Store.retrieve
    simp only
    have : readHeader (0x7b :: b :: rest) = .error .panic := by
      unfold readHeader
      change Reader.bind _ _ _ = _
      unfold Reader.bind
      rw [show readU16 (0x7b :: b :: rest) = .ok (BitVec.ofNat 16 (ofBE [0x7b, b]), rest) from rfl]
      simp only
      rw [if_pos (hb b)]
      rfl
    unfold Item.read
    change (match (Reader.bind _ _ _ : Except Fail (Item × List Byte)) with
      | .ok (item, _) => Except.ok item
      | .error e => Except.error e) = _
    unfold Reader.bind
    rw [this]
  · unfold Ipfs.retrieve Ipfs.load
    rw [h]
  · unfold Ipfs.sizeOf
    rw [h]

/-- And it does not hold when the server gives no answer: saving panics, there is no error. -/
theorem C51_unreachable_wrong (srv : Ipfs σ) (s : σ) (parts : List (List Byte))
    (h : ∀ s data flag, (srv.add s data flag).2 = none) : (srv.save s parts).2 = none := by
  unfold Ipfs.save IpfsWrite.finish
  exact h _ _ _

end

/-! ### Examples -/

/-- A server that answers as it should, with an error as JSON if an object is not there. -/
def exampleServer : Ipfs Saved where
  add s data onlyHash := (if onlyHash then s else data :: s, some (exampleHash.cidOf data))
  cat s c := some ((s.load exampleHash c).getD (ascii "{\"Message\":\"not found\"}"))
  stat s c := (s.load exampleHash c).map List.length

theorem exampleServer_honest : Spec.Honest exampleServer exampleHash id where
  add _ _ := ⟨rfl, rfl⟩
  hash _ _ := ⟨rfl, rfl⟩
  cat s c b h := by
    show some ((s.load exampleHash c).getD _) = _
    rw [show s.load exampleHash c = some b from h]
    rfl
  stat s c b h := by
    show (s.load exampleHash c).map List.length = _
    rw [show s.load exampleHash c = some b from h]
    rfl

/-- Links written byte by byte and read; an identifier that leads nowhere panics. -/
example : let (s, c) := exampleServer.save [] (cachedLinks.bytes.map fun b => [b])
    c = some (exampleHash.cidOf cachedLinks.bytes) ∧
    exampleServer.load s (exampleHash.cidOf cachedLinks.bytes) = some (some cachedLinks.bytes) ∧
    exampleServer.sizeOf s (exampleHash.cidOf cachedLinks.bytes) = some (some 20) ∧
    exampleServer.sizeOf s (exampleHash.cidOf []) = none := by
  decide +kernel

example (utf8 : List Byte → Bool) :
    exampleServer.retrieve utf8 [] (exampleHash.cidOf []) = .error .panic :=
  (C51_absent_wrong exampleServer utf8 [] (exampleHash.cidOf [])).2.2.1 _ _ rfl

end Verif
