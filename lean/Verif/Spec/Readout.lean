import Verif.Spec.Internal
/- Vocabulary for cells that are read out as signed edge lists. -/
namespace Verif.Readout
open Verif Verif.Internal

/-- The two ends, in the direction of travel, of the signed edge `k`: `k` is edge `k` forwards, `~k` backwards. `none` if an id is out of range. -/
def side {α : Type} (nodes : List α) (edges : List (Int × Int)) (k : Int) : Option (α × α) :=
  match directed edges k with
  | some (a, b) => if 0 ≤ a ∧ 0 ≤ b then do
      let p ← nodes[a.toNat]?
      let q ← nodes[b.toNat]?
      return (p, q)
    else none
  | none => none

/-- The sides lead from `a` to `b`, each starting where the one before it ends. -/
def Walk {α : Type} (a : α) : List (α × α) → α → Prop
  | [], b => a = b
  | s :: w, b => s.1 = a ∧ Walk s.2 w b

/-- The sides lead from some point back to it. -/
def ClosedWalk {α : Type} (w : List (α × α)) : Prop := ∃ a, Walk a w a

/-- Two integer points that differ by at most 2 in each coordinate. -/
def Within2 (p q : Int × Int) : Prop := (p.1 - 2 ≤ q.1 ∧ q.1 ≤ p.1 + 2) ∧ p.2 - 2 ≤ q.2 ∧ q.2 ≤ p.2 + 2

/-- Every node once and every edge once, an edge being a pair of different node ids in increasing order. -/
structure Numbered {α : Type} (nodes : List α) (edges : List (Int × Int)) : Prop where
  nodes_once : nodes.Nodup
  edges_once : edges.Nodup
  ends : ∀ e ∈ edges, 0 ≤ e.1 ∧ e.1 < e.2 ∧ e.2 < nodes.length

/-- Every edge is in some cell, and every node is the end of some edge. -/
structure AllUsed {α : Type} (nodes : List α) (edges : List (Int × Int)) (cells : List (List Int)) : Prop where
  edges_used : ∀ f : Nat, f < edges.length → ∃ C ∈ cells, (f : Int) ∈ C ∨ (-(f : Int) - 1) ∈ C
  nodes_used : ∀ a : Nat, a < nodes.length → ∃ e ∈ edges, e.1 = (a : Int) ∨ e.2 = (a : Int)

/-- The sides that have two different ends. -/
def proper {α : Type} [DecidableEq α] (w : List (α × α)) : List (α × α) := w.filter fun t => decide (t.1 ≠ t.2)

end Verif.Readout
