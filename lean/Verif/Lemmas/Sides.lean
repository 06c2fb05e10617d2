import Verif.Model.Struct

/-! How large the parts of a nested superchunk are. -/
namespace Verif

/-- A chunk, or a superchunk whose parts have the side `k ^ sub.sum` when `sub` are the levels below the
first, and so on for the structures it refers to. -/
def Sides (utf8 : List Byte → Bool) (st : Store) (k : Nat) : List Nat → MMStruct3 → Prop
  | [], m => ∃ c, m = .subchunk c
  | _ :: sub, m => (∃ c, m = .subchunk c) ∨
      ∃ head, m = .superchunk head [] ∧ head.chunksSidelen = k ^ sub.sum ∧
        ∀ e, .external e ∈ head.references → sub ≠ [] ∧
          ∀ m', head.deref utf8 st [] (.external e) = .ok m' → Sides utf8 st k sub m'

theorem Sides.subchunk {utf8 st k} : ∀ (levels : List Nat) (c : Chunk), Sides utf8 st k levels (.subchunk c)
  | [], c => ⟨c, rfl⟩
  | _ :: _, c => .inl ⟨c, rfl⟩

end Verif
