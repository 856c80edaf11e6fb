import Verif.Model.Python
import Verif.Spec.SiloC
import Verif.Spec.Mesh
/-
What the results of the Python properties and the arguments of the Python functions mean.
-/
namespace Verif
namespace Py
open Mesh Silo

/-- `flat` holds the points, one after another, with `D` coordinates each. -/
def HoldsPoints {R : Type} (D : Nat) (points : List (List R)) (flat : List R) : Prop :=
  flat.length = D * points.length ∧ ∀ (i : Nat) p, points[i]? = some p → (flat.drop (D * i)).take D = p

/-- The fields in `x` are those of the dictionaries (whose keys differ), in the order of their names; there are no tags. -/
structure Same {R : Type} (a : Dicts R) (x : Extras R) : Prop where
  node : x.nodeFields.Perm a.nodeFields ∧ (x.nodeFields.map Prod.fst).Pairwise (· < ·)
  edge : x.edgeFields.Perm a.edgeFields ∧ (x.edgeFields.map Prod.fst).Pairwise (· < ·)
  face : x.faceFields.Perm a.faceFields ∧ (x.faceFields.map Prod.fst).Pairwise (· < ·)
  cell : x.cellFields.Perm a.cellFields ∧ (x.cellFields.map Prod.fst).Pairwise (· < ·)
  tags : x.nodeTags = [] ∧ x.edgeTags = [] ∧ x.faceTags = [] ∧ x.cellTags = []

/-- The four dictionaries. -/
def Dicts.all {R : Type} (a : Dicts R) : List (List (String × List R)) := [a.nodeFields, a.edgeFields, a.faceFields, a.cellFields]

/-- The keys of a Python dictionary differ. -/
def Dicts.Keys {R : Type} (a : Dicts R) : Prop := ∀ d ∈ a.all, (d.map Prod.fst).Nodup

/-- No field is an empty list. -/
def Dicts.Filled {R : Type} (a : Dicts R) : Prop := ∀ d ∈ a.all, ∀ f ∈ d, f.2 ≠ []

/-- Every field has one value per node, edge, face or cell. `e` is the number of edges. -/
structure Dicts.Fit {R : Type} (dim e : Nat) (m : Tess R) (a : Dicts R) : Prop where
  node : ∀ f ∈ a.nodeFields, f.2.length = m.nodes.length / dim
  edge : ∀ f ∈ a.edgeFields, f.2.length = e
  face : ∀ f ∈ a.faceFields, f.2.length = m.faces.length
  cell : ∀ f ∈ a.cellFields, f.2.length = m.cells.length

end Py
end Verif
