import Verif.Spec.Editor
/-
Meshes of processes that each share nodes with one other process, and what it means that the two sides of such a border agree. Nothing here refers to how the
library computes anything.
-/
namespace Verif.Editor
open Verif Verif.Mesh
variable {R : Type}

/-- The nodes a mesh shares with its only neighbour, in order. -/
def sharedN (m : Tess R) : List Nat := m.sharedNodes.getD 0 []
/-- The faces a mesh shares with its only neighbour, in order. -/
def sharedF (m : Tess R) : List Nat := m.sharedFaces.getD 0 []

/-- The processes `0 … n-1` come in pairs: the only neighbour of `p` is `mate p`. -/
structure Paired (n : Nat) (mesh : Nat → Tess R) (mate : Nat → Nat) : Prop where
  lt : ∀ p, p < n → mate p < n
  back : ∀ p, p < n → mate (mate p) = p
  nbrs : ∀ p, p < n → (mesh p).neighborDomains = [mate p]
  lists : ∀ p, p < n → (mesh p).sharedNodes.length = 1

/-- The two sides agree: they share equally many nodes, the `i`th shared node is the same point on both sides, and they share equally many faces, the `k`th of
which joins the same two shared nodes on both sides. -/
structure Agree (m m' : Tess R) : Prop where
  nodes : (sharedN m).length = (sharedN m').length
  point : ∀ i, i < (sharedN m).length → node 2 m (old (sharedN m) i) = node 2 m' (old (sharedN m') i)
  faces : (sharedF m).length = (sharedF m').length
  ends : ∀ k, k < (sharedF m).length → ∃ i j, i < (sharedN m).length ∧ j < (sharedN m).length ∧
    JoinsNodes m (old (sharedF m) k) (old (sharedN m) i) (old (sharedN m) j) ∧ JoinsNodes m' (old (sharedF m') k) (old (sharedN m') i) (old (sharedN m') j)

/-- Two shared nodes are joined by a face on one side exactly if they are on the other. -/
def SameEdges (m m' : Tess R) : Prop := ∀ i j, i < (sharedN m).length → j < (sharedN m).length →
  ((∃ f, f < m.faces.length ∧ JoinsNodes m f (old (sharedN m) i) (old (sharedN m) j)) ↔
    ∃ f, f < m'.faces.length ∧ JoinsNodes m' f (old (sharedN m') i) (old (sharedN m') j))

/-- How nodes are merged on one side, `m`, of a border; the other side is `m'`. `own` says where each node goes if `m` is cleaned by itself, and `own'` the same
for `m'`; `tgt` says where the nodes of `m` go when both are cleaned together. Nodes are merged along faces, a node takes part in at most one merge, and the ends
of a face are merged exactly if `m` by itself merges them and, should they both be shared, `m'` by itself does so too. Of two shared nodes the one that comes first in
the list stays; a shared node is never moved to one that is not shared; of two nodes that are not shared the one with the smaller number stays. -/
structure Joint (m m' : Tess R) (own own' tgt : Nat → Nat) : Prop where
  edge : ∀ n, n < numNodes 2 m → tgt n ≠ n → ∃ f, f < m.faces.length ∧ JoinsNodes m f n (tgt n)
  once : ∀ n n', n < numNodes 2 m → n' < numNodes 2 m → tgt n ≠ n → tgt n' ≠ n' → tgt n = tgt n' → n = n'
  merged : ∀ f a b, f < m.faces.length → JoinsNodes m f a b → (tgt a = tgt b ↔ own a = own b ∧
    ∀ i j, i < (sharedN m).length → j < (sharedN m).length → old (sharedN m) i = a → old (sharedN m) j = b →
      own' (old (sharedN m') i) = own' (old (sharedN m') j))
  front : ∀ j, j < (sharedN m).length → tgt (old (sharedN m) j) ≠ old (sharedN m) j → ∃ i, i < j ∧ tgt (old (sharedN m) j) = old (sharedN m) i
  smaller : ∀ n, n < numNodes 2 m → n ∉ sharedN m → tgt n ≠ n → tgt n ∈ sharedN m ∨ tgt n < n

/-- The two sides merge their shared nodes in the same way. -/
def SameMoves (m m' : Tess R) (tgt tgt' : Nat → Nat) : Prop := ∀ i j, i < (sharedN m).length → j < (sharedN m).length →
  (tgt (old (sharedN m) i) = old (sharedN m) j ↔ tgt' (old (sharedN m') i) = old (sharedN m') j)

end Verif.Editor
