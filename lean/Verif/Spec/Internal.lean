import Verif.Model.Mesh
/-
Specifications for the small utilities. Nothing here refers to how they compute anything.
-/
namespace Verif.Internal
open Verif

/-- Edge `e` joins the nodes `a` and `b`, in either direction. -/
def Joins (e : Int × Int) (a b : Int) : Prop := e = (a, b) ∨ e = (b, a)

/-- The edges are those of one simple closed polygon with at least three corners, listed in any order and any direction: the corners are
`node 0, …, node (n-1)`, and the side from corner `k` to the next is the edge number `order k`. -/
def IsPolygon (edges : List (Int × Int)) : Prop :=
  3 ≤ edges.length ∧ ∃ (node : Nat → Int) (order : Nat → Nat),
    (∀ i < edges.length, ∀ j < edges.length, node i = node j → i = j) ∧
    (∀ i < edges.length, ∀ j < edges.length, order i = order j → i = j) ∧
    ∀ k < edges.length, ∃ e, edges[order k]? = some e ∧ Joins e (node k) (node ((k + 1) % edges.length))

/-- The edges are those of one simple open chain with at least two edges, in any order and any direction: the corners are
`node 0, …, node n`, and the side from corner `k` to corner `k+1` is the edge number `order k`. -/
structure IsChain (edges : List (Int × Int)) (node : Nat → Int) (order : Nat → Nat) : Prop where
  two : 2 ≤ edges.length
  node_inj : ∀ i ≤ edges.length, ∀ j ≤ edges.length, node i = node j → i = j
  order_inj : ∀ i < edges.length, ∀ j < edges.length, order i = order j → i = j
  edge : ∀ k < edges.length, ∃ e, edges[order k]? = some e ∧ Joins e (node k) (node (k + 1))

/-- A signed edge id as (tail, head): `i` is edge `i` forwards and `~i` is edge `i` backwards. -/
def directed (edges : List (Int × Int)) (s : Int) : Option (Int × Int) :=
  if 0 ≤ s then edges[s.toNat]? else (edges[(-s - 1).toNat]?).map Prod.swap

/-- The index of a signed edge id. -/
def index (s : Int) : Nat := if 0 ≤ s then s.toNat else (-s - 1).toNat

/-- `s` lists every edge exactly once, directed so that each one starts where the one before it ends, cyclically. -/
structure IsOrientedLoop (edges : List (Int × Int)) (s : List Int) : Prop where
  each_once : (s.map index).Perm (List.range edges.length)
  head_to_tail : ∀ i < edges.length, ∃ s₁ s₂ a b c, s[i]? = some s₁ ∧ s[(i + 1) % edges.length]? = some s₂ ∧
    directed edges s₁ = some (a, b) ∧ directed edges s₂ = some (b, c)

end Verif.Internal
