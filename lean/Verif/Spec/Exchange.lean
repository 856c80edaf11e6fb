import Verif.Spec.Mesh
/-
When processes agree on what they share. Nothing here refers to how the library exchanges anything.
-/
namespace Verif.Exch
open Verif Verif.Mesh
variable {R γ : Type}

/-- The meshes of processes `0 … n-1` share consistently: `gid p i` names the physical node that process `p` knows as its node `i`. Two processes list the same
physical nodes for each other in the same order, and every physical node present on both is in those lists. -/
structure Sharing (D n : Nat) (mesh : Nat → Tess R) (gid : Nat → Nat → γ) : Prop where
  dim : 0 < D
  lt : ∀ p, p < n → ∀ q ∈ (mesh p).neighborDomains, q < n ∧ q ≠ p
  nodup : ∀ p, p < n → (mesh p).neighborDomains.Nodup
  sym : ∀ p, p < n → ∀ q ∈ (mesh p).neighborDomains, p ∈ (mesh q).neighborDomains
  len : ∀ p, p < n → (mesh p).sharedNodes.length = (mesh p).neighborDomains.length
  nodes : ∀ p, p < n → ∀ l ∈ (mesh p).sharedNodes, ∀ i ∈ l, i < numNodes D (mesh p)
  inj : ∀ p, p < n → ∀ a b, a < numNodes D (mesh p) → b < numNodes D (mesh p) → gid p a = gid p b → a = b
  agree : ∀ p, p < n → ∀ i q j, (mesh p).neighborDomains[i]? = some q → (mesh q).neighborDomains[j]? = some p →
    ((mesh p).sharedNodes.getD i []).map (gid p) = ((mesh q).sharedNodes.getD j []).map (gid q)
  complete : ∀ p q, p < n → q < n → p ≠ q → ∀ a b, a < numNodes D (mesh p) → b < numNodes D (mesh q) → gid p a = gid q b →
    ∃ i, (mesh p).neighborDomains[i]? = some q ∧ a ∈ (mesh p).sharedNodes.getD i []
  small : ∀ p, p < n → ∀ l ∈ (mesh p).sharedNodes, D * l.length < 2 ^ 31

/-- The neighbours together with what is shared with each. -/
def comm (m : Tess R) : List (Nat × List Nat × List Nat) := m.neighborDomains.zip (m.sharedNodes.zip m.sharedFaces)
end Verif.Exch
