import Verif.Model.SiloC
import Verif.Spec.Silo
import Verif.Spec.CApi
/-
What the arguments of the C functions mean. Independent of how the maps are filled.
-/
namespace Verif
namespace Silo
open Mesh CApi

/-- `m` holds, in the order of the names, for each name that is given the value it is given last. -/
structure LastOf {β : Type} (given : List (String × β)) (m : List (String × β)) : Prop where
  sorted : (m.map Prod.fst).Pairwise (· < ·)
  mem : ∀ k v, (k, v) ∈ m ↔ ∃ i : Nat, given[i]? = some (k, v) ∧ ∀ j > i, ∀ v', given[j]? ≠ some (k, v')

/-- The tags with the values that are asked for. -/
def tagsGiven (ts : List CTag) : List (String × List Int) := ts.map fun t => (t.name, t.values.take t.size)

/-- The fields and tags in `x` are those of the call. -/
structure Given {R : Type} (a : CArgs R) (x : Extras R) : Prop where
  nodeFields : LastOf a.nodeFields x.nodeFields
  edgeFields : LastOf a.edgeFields x.edgeFields
  faceFields : LastOf a.faceFields x.faceFields
  cellFields : LastOf a.cellFields x.cellFields
  nodeTags : LastOf (tagsGiven a.nodeTags) x.nodeTags
  edgeTags : LastOf (tagsGiven a.edgeTags) x.edgeTags
  faceTags : LastOf (tagsGiven a.faceTags) x.faceTags
  cellTags : LastOf (tagsGiven a.cellTags) x.cellTags

/-- The tags of one kind, for each of the four kinds. -/
def CArgs.tagKinds {R : Type} (a : CArgs R) : List (List CTag) := [a.nodeTags, a.edgeTags, a.faceTags, a.cellTags]

/-- No tag is longer than its array. -/
def CArgs.TagsFit {R : Type} (a : CArgs R) : Prop := ∀ ts ∈ a.tagKinds, ∀ t ∈ ts, t.size ≤ t.values.length

/-- Every field has one value per node, edge, face or cell. `e` is the number of edges. -/
structure CArgs.Fit {R : Type} (dim e : Nat) (m : Tess R) (a : CArgs R) : Prop where
  node : ∀ f ∈ a.nodeFields, f.2.length = m.nodes.length / dim
  edge : ∀ f ∈ a.edgeFields, f.2.length = e
  face : ∀ f ∈ a.faceFields, f.2.length = m.faces.length
  cell : ∀ f ∈ a.cellFields, f.2.length = m.cells.length

/-- The vectors that are never freed: for each kind of tags the places of those whose name is given again later. -/
def Leaks {R : Type} (a : CArgs R) (leaks : List (List Nat)) : Prop :=
  leaks.length = 4 ∧ ∀ (k : Nat) ts l, a.tagKinds[k]? = some ts → leaks[k]? = some l →
    ∀ b, b ∈ l ↔ ∃ t, ts[b]? = some t ∧ ∃ b' > b, ∃ t', ts[b']? = some t' ∧ t'.name = t.name

end Silo
end Verif
