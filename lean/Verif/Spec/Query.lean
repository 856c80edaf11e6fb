import Verif.Spec.Geom
import Verif.Spec.PLC
/- What 2D boundaries are: the segments of facets given by vertex ids into a flat coordinate array. -/
namespace Verif.Geom
open Verif Verif.Mesh
section
variable {K : Type} [Field K]

/-- The position of vertex `i` of a flat array. -/
def vtx (verts : List K) (i : Int) : V2 K := ⟨verts.getD (2 * i.toNat) 0, verts.getD (2 * i.toNat + 1) 0⟩

/-- The end points of a facet. -/
def segA (verts : List K) (f : List Int) : V2 K := vtx verts (f.getD 0 0)
def segB (verts : List K) (f : List Int) : V2 K := vtx verts (f.getD 1 0)

/-- Facets are segments between existing vertices. -/
def GoodFacets (n : Nat) (verts : List K) (fs : List (List Int)) : Prop :=
  verts.length = 2 * n ∧ ∀ f ∈ fs, f.length = 2 ∧ ∀ i ∈ f, 0 ≤ i ∧ i < n

/-- All the facets of a PLC: the outer boundary and the holes. -/
def allFacets (plc : PLC) : List (List Int) := plc.facets ++ plc.holes.flatten

/-- `q` is on the boundary of the PLC. -/
def OnPLC [LinearOrder K] (verts : List K) (plc : PLC) (q : V2 K) : Prop := ∃ f ∈ allFacets plc, OnSeg (segA verts f) (segB verts f) q
end
end Verif.Geom
