import Mathlib.Data.List.Rotate
import Verif.Spec.Internal
import Verif.Spec.Geom
/- Vocabulary for triangulations and their duals. Triangles are triples of point numbers. -/
namespace Verif.Tri
open Verif.Internal Verif.Geom

/-- The corners of a triangle. -/
def corners (t : Nat × Nat × Nat) : List Nat := [t.1, t.2.1, t.2.2]

/-- The corners of triangle number `k` (none if there is no such triangle). -/
def cornersOf (T : List (Nat × Nat × Nat)) (k : Nat) : List Nat := ((T[k]?).map corners).getD []

/-- Point `p` is surrounded by triangles: `ts` are the numbers of all the triangles with corner `p`, each once, `gs` are the points around `p`, each once, and the triangles follow one another around
`p`: triangle `ts[k]` has the corners `p`, `gs[k]` and `gs[k+1]`, after the last point comes the first. -/
structure Fan (T : List (Nat × Nat × Nat)) (p : Nat) (ts gs : List Nat) : Prop where
  three : 3 ≤ ts.length
  len : gs.length = ts.length
  once : ts.Nodup
  rim_once : gs.Nodup
  all : ∀ k, k ∈ ts ↔ p ∈ cornersOf T k
  tri : ∀ k, k < ts.length → (cornersOf T (ts.getD k 0)).Perm [p, gs.getD k 0, gs.getD ((k + 1) % ts.length) 0]

/-- Triangles `a` and `b` are different and have an edge at `p` in common. -/
def Across (T : List (Nat × Nat × Nat)) (p a b : Nat) : Prop := a ≠ b ∧ ∃ g, g ≠ p ∧ p ∈ cornersOf T a ∧ p ∈ cornersOf T b ∧ g ∈ cornersOf T a ∧ g ∈ cornersOf T b

/-- No two triangles but at most two have an edge in common. -/
def TwoPerEdge (T : List (Nat × Nat × Nat)) : Prop := ∀ p q a b c, p ≠ q → (p ∈ cornersOf T a ∧ q ∈ cornersOf T a) → (p ∈ cornersOf T b ∧ q ∈ cornersOf T b) →
  (p ∈ cornersOf T c ∧ q ∈ cornersOf T c) → a = b ∨ a = c ∨ b = c

/-- What is expected of a Delaunay triangulation `tris` of points `pts`, of which the first `n` are inside: triangles are counterclockwise, no point is nearer to the centre of a triangle than its
corners, the inside points are surrounded by triangles, counterclockwise, and edges have no more than two triangles. -/
structure IsDelaunay (pts : List (V2 ℝ)) (n : Nat) (tris : List (Nat × Nat × Nat)) : Prop where
  ccw : ∀ t ∈ tris, ∃ A B C, pts[t.1]? = some A ∧ pts[t.2.1]? = some B ∧ pts[t.2.2]? = some C ∧ 0 < area2 A B C
  empty : ∀ t ∈ tris, ∀ A B C X, pts[t.1]? = some A → pts[t.2.1]? = some B → pts[t.2.2]? = some C → sq2 X A = sq2 X B → sq2 X B = sq2 X C → ∀ P ∈ pts, sq2 X A ≤ sq2 X P
  around : ∀ p, p < n → ∃ ts gs, Fan tris p ts gs ∧ ∀ k, k < gs.length → ∃ P A B, pts[p]? = some P ∧ pts[gs.getD k 0]? = some A ∧ pts[gs.getD ((k + 1) % gs.length) 0]? = some B ∧ 0 < area2 P A B
  two : TwoPerEdge tris

/-- Every entry with the next one, the last with the first. -/
def loopSides {α : Type} (l : List α) : List (α × α) := l.zip (l.rotate 1)

/-- The list ends with its smallest entry, and of the two neighbours of that entry, the smaller one is the first of the list. -/
def EndsLow (us : List Nat) : Prop := (∀ u ∈ us, us.getD (us.length - 1) 0 ≤ u) ∧ us.getD 0 0 < us.getD (us.length - 2) 0

/-- The cells of the first `n` points are dual to the triangles `T`: node `k` belongs to triangle `k`; a signed edge `s` of a cell leads from the first to the second node of `directed edges s`. -/
structure Dual (T : List (Nat × Nat × Nat)) (n : Nat) (edges : List (Int × Int)) (cells : List (List Int)) : Prop where
  /-- One cell per point. -/
  cells_len : cells.length = n
  /-- A cell leads once around the triangles of its point; the direction is the one in which it comes from the first of them to the one of its neighbours that was listed earlier. -/
  around : ∀ p, p < n → ∀ ts gs, Fan T p ts gs → ∃ us, (ts ~r us ∨ ts.reverse ~r us) ∧ EndsLow us ∧ (cells.getD p []).map (directed edges) = (loopSides us).map fun x => some ((x.1 : Int), (x.2 : Int))
  /-- Its sides join exactly the triangles that have an edge at the point in common. -/
  sides : ∀ p, p < n → ∀ a b : Nat, (∃ s ∈ cells.getD p [], directed edges s = some ((a : Int), (b : Int)) ∨ directed edges s = some ((b : Int), (a : Int))) ↔ Across T p a b
  /-- Every edge is there once, between two different nodes. -/
  edges_once : edges.Nodup
  ends : ∀ e ∈ edges, 0 ≤ e.1 ∧ e.1 < e.2 ∧ e.2 < T.length
  /-- Every edge is a side of one cell or of two. -/
  uses : ∀ f : Nat, f < edges.length → 1 ≤ cells.flatten.countP (fun s => decide (index s = f)) ∧ cells.flatten.countP (fun s => decide (index s = f)) ≤ 2
  /-- No cell has an edge twice. -/
  cell_once : ∀ p, p < n → ((cells.getD p []).map index).Nodup

end Verif.Tri
