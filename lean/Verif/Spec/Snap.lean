import Verif.Spec.Query
/- What snapping the boundary nodes of a mesh to a boundary is. -/
namespace Verif.Snap
open Verif Verif.Mesh Verif.Geom

/-- Which PLC point took which boundary node: `claim v = some i`. Different points take different nodes, each within the tolerance. -/
structure Claims (tol : ℝ) (nodes : List ℝ) (bnodes : List Nat) (verts : List ℝ) (claim : Nat → Option Nat) : Prop where
  near : ∀ v i, claim v = some i → v < verts.length / 2 ∧ i ∈ bnodes ∧ dist2 (vtx nodes (i : Int)) (vtx verts (v : Int)) < tol
  once : ∀ v w i, claim v = some i → claim w = some i → v = w

/-- The effect of snapping with tolerance `tol`. -/
structure Snapped (tol : ℝ) (nodes : List ℝ) (bnodes : List Nat) (verts : List ℝ) (plc : PLC) (claim : Nat → Option Nat) (nodes' : List ℝ) : Prop where
  /-- no node is added or removed -/
  length : nodes'.length = nodes.length
  /-- other nodes do not move -/
  others : ∀ i : Nat, i ∉ bnodes → vtx nodes' (i : Int) = vtx nodes (i : Int)
  /-- a node that a PLC point took is exactly on it -/
  taken : ∀ v i, claim v = some i → vtx nodes' (i : Int) = vtx verts (v : Int)
  /-- any other boundary node is moved onto the PLC by less than the tolerance, or it is not moved and is no closer to the PLC than the tolerance (and rounding for segments shorter than 1e-10) -/
  rest : ∀ i ∈ bnodes, (∀ v, claim v ≠ some i) →
    (OnPLC verts plc (vtx nodes' (i : Int)) ∧ dist2 (vtx nodes (i : Int)) (vtx nodes' (i : Int)) < tol) ∨
    (vtx nodes' (i : Int) = vtx nodes (i : Int) ∧ ∀ q, OnPLC verts plc q → tol ≤ dist2 (vtx nodes (i : Int)) q + 1 / 2 * (1 / 10 ^ 10))
end Verif.Snap
