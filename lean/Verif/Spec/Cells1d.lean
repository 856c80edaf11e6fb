import Verif.Model.Vec
/- What is expected of cells for generators on a line, in a disc. -/
namespace Verif.Cells1d
open Verif.Geom

/-- Squared distance. -/
def d2 (p q : V2 ℝ) : ℝ := (p.x - q.x) ^ 2 + (p.y - q.y) ^ 2

/-- Twice the signed area of a triangle: positive if `r` is to the left of the way from `p` to `q`. -/
def area2 (p q r : V2 ℝ) : ℝ := (q.x - p.x) * (r.y - p.y) - (q.y - p.y) * (r.x - p.x)

/-- The generators are different points of one line, with coordinates a computer can tell apart, and further than the tolerance 1e-10 from the circle (as squares). -/
structure OnLine (gens : List (V2 ℝ)) (c : V2 ℝ) (radius : ℝ) : Prop where
  two : 2 ≤ gens.length
  line : ∀ p ∈ gens, ∀ q ∈ gens, ∀ r ∈ gens, area2 p q r = 0
  apart : gens.Pairwise fun p q => 1 / 10 ^ 200 ≤ d2 p q
  inside : ∀ p ∈ gens, d2 p c ≤ radius ^ 2 - 1 / 10 ^ 10
  radius : 0 ≤ radius

/-- The sides of the closed polygon with the given corners. -/
def sides {α : Type} (l : List α) : List (α × α) := List.zip l (l.rotate 1)

/-- The cells: one per generator, each a polygon with corners on the circle, counterclockwise around its generator, none of whose corners is nearer to another generator. -/
structure GoodCells (gens : List (V2 ℝ)) (c : V2 ℝ) (radius : ℝ) (cells : List (List Nat)) (nodes : List (V2 ℝ)) : Prop where
  count : cells.length = gens.length
  nodes_count : nodes.length = 2 * gens.length
  circle : ∀ p ∈ nodes, d2 p c = radius ^ 2
  size : ∀ l ∈ cells, 3 ≤ l.length
  range : ∀ l ∈ cells, ∀ k ∈ l, k < nodes.length
  used : ∀ k < nodes.length, ∃ l ∈ cells, k ∈ l
  left : ∀ (i : Nat) (g : V2 ℝ) (l : List Nat), gens[i]? = some g → cells[i]? = some l → ∀ e ∈ sides l, ∀ p q, nodes[e.1]? = some p → nodes[e.2]? = some q → 0 < area2 p q g
  nearest : ∀ (i : Nat) (g : V2 ℝ) (l : List Nat), gens[i]? = some g → cells[i]? = some l → ∀ k ∈ l, ∀ p, nodes[k]? = some p → ∀ h ∈ gens, d2 p g ≤ d2 p h

/-- Neighbours on the line share one side, in opposite directions: `j` is next to `i` if no generator is strictly between them. -/
def Shared (gens : List (V2 ℝ)) (cells : List (List Nat)) : Prop :=
  ∀ (i j : Nat) (g h : V2 ℝ) (l m : List Nat), i ≠ j → gens[i]? = some g → gens[j]? = some h → cells[i]? = some l → cells[j]? = some m →
    (∀ w ∈ gens, w ≠ g → w ≠ h → ¬ (d2 g w < d2 g h ∧ d2 h w < d2 g h)) → ∃ a b, (a, b) ∈ sides l ∧ (b, a) ∈ sides m
end Verif.Cells1d
