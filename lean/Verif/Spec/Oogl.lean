import Verif.Model.Oogl
import Mathlib.Data.Sym.Sym2
/-
A reader of the OFF format, as Geomview's documentation describes it: the word OFF, the numbers of vertices, faces and edges, then for each vertex its
coordinates (three of them in a file that begins with OFF), then for each face the number of its vertices and these. What follows is left over.
-/
namespace Verif
namespace Oogl
open Mesh

/-- `n` groups of `d` tokens. -/
def readVerts {R : Type} (d : Nat) : Nat → List (Tok R) → Option (List (List (Tok R)) × List (Tok R))
  | 0, l => some ([], l)
  | n + 1, l => if l.length < d then none else (readVerts d n (l.drop d)).map fun r => (l.take d :: r.1, r.2)

/-- An integer. -/
def Tok.int? {R : Type} : Tok R → Option Int
  | .int i => some i
  | _ => none

/-- `n` faces. -/
def readFaces {R : Type} : Nat → List (Tok R) → Option (List (List Int) × List (Tok R))
  | 0, l => some ([], l)
  | n + 1, .int k :: l => if l.length < k.toNat then none else
    ((l.take k.toNat).mapM Tok.int?).bind fun f => (readFaces n (l.drop k.toNat)).map fun r => (f :: r.1, r.2)
  | _ + 1, _ => none

/-- What a reader of an OFF file gets: vertices, faces, and what is left over. -/
structure Off (R : Type) where
  verts : List (List (Tok R))
  faces : List (List Int)
  rest : List (Tok R)

/-- The reader, for vertices with `d` coordinates. -/
def readOFF {R : Type} (d : Nat) : List (Tok R) → Option (Off R)
  | .word "OFF" :: .int np :: .int nf :: .int _ :: l =>
    (readVerts d np.toNat l).bind fun v => (readFaces nf.toNat v.2).map fun f => ⟨v.1, f.1, f.2⟩
  | _ => none

/-- Vertex `i` is point `i` of the flat coordinate array. -/
def HasPoints {R : Type} (d : Nat) (coords : List R) (verts : List (List (Tok R))) : Prop :=
  verts.length = coords.length / d ∧ ∀ i < coords.length / d, ∃ v, verts[i]? = some v ∧ v.length = d ∧
    ∀ c < d, ∃ x, coords[d * i + c]? = some x ∧ v[c]? = some (.real x)

end Oogl
end Verif
