import Verif.Spec.Exchange
/-
What the check of C50 takes for granted about the data of each process, and what it should find out. Nothing here refers to how the library computes anything.
-/
namespace Verif.Check
open Verif Verif.Mesh Verif.Exch
variable {R γ : Type}

/-- The data of each process by itself are in order: sorted neighbours other than the process itself, a list of existing nodes for each neighbour, and names that tell
the nodes of a process apart. Nothing is said about two processes. -/
structure Tables (D n : Nat) (mesh : Nat → Tess R) (gid : Nat → Nat → γ) : Prop where
  dim : 0 < D
  dvd : ∀ p, p < n → D ∣ (mesh p).nodes.length
  lt : ∀ p, p < n → ∀ q ∈ (mesh p).neighborDomains, q < n ∧ q ≠ p
  sorted : ∀ p, p < n → (mesh p).neighborDomains.Pairwise (· < ·)
  len : ∀ p, p < n → (mesh p).sharedNodes.length = (mesh p).neighborDomains.length
  nodes : ∀ p, p < n → ∀ l ∈ (mesh p).sharedNodes, ∀ i ∈ l, i < numNodes D (mesh p)
  inj : ∀ p, p < n → ∀ a b, a < numNodes D (mesh p) → b < numNodes D (mesh p) → gid p a = gid p b → a = b
  small : ∀ p, p < n → ∀ l ∈ (mesh p).sharedNodes, D * l.length < 2 ^ 31

/-- The data of all processes fit together (see `Sharing`), something is shared with each neighbour, and no node is listed twice for one neighbour. -/
def FitTogether (D n : Nat) (mesh : Nat → Tess R) (gid : Nat → Nat → γ) : Prop :=
  Sharing D n mesh gid ∧ ∀ p, p < n → ∀ l ∈ (mesh p).sharedNodes, l ≠ [] ∧ l.Nodup

/-- Process `p` and its neighbour `q`, the `k`-th in its list, list different numbers of nodes for each other, and `q` has at most `k` neighbours. -/
def Overrun (n : Nat) (mesh : Nat → Tess R) : Prop :=
  ∃ p k q j, p < n ∧ (mesh p).neighborDomains[k]? = some q ∧ (mesh q).neighborDomains[j]? = some p ∧ (mesh q).neighborDomains.length ≤ k ∧
    ((mesh p).sharedNodes.getD k []).length ≠ ((mesh q).sharedNodes.getD j []).length
end Verif.Check
