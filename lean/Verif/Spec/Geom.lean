import Verif.Model.Vec
/- Elementary geometry used in the statements of the geometric properties. -/
namespace Verif.Geom

/-- The directed sides of a closed list of vertices: each with the next, the last with the first. -/
def dirSides {α : Type} (G : List α) : List (α × α) := G.zip (G.rotate 1)

section
variable {K : Type} [Field K]

/-- Squared distance. -/
def sq2 (a b : V2 K) : K := (a.x - b.x) ^ 2 + (a.y - b.y) ^ 2
def sq3 (a b : V3 K) : K := (a.x - b.x) ^ 2 + (a.y - b.y) ^ 2 + (a.z - b.z) ^ 2

/-- Twice the signed area of a triangle; zero exactly if the points are on one line. -/
def area2 (a b c : V2 K) : K := (b.x - a.x) * (c.y - a.y) - (b.y - a.y) * (c.x - a.x)

/-- Six times the signed volume of a tetrahedron; zero exactly if the points are in one plane. -/
def vol6 (a b c d : V3 K) : K :=
  (b.x - a.x) * ((c.y - a.y) * (d.z - a.z) - (c.z - a.z) * (d.y - a.y))
  - (b.y - a.y) * ((c.x - a.x) * (d.z - a.z) - (c.z - a.z) * (d.x - a.x))
  + (b.z - a.z) * ((c.x - a.x) * (d.y - a.y) - (c.y - a.y) * (d.x - a.x))

/-- Three points of space are on one line. -/
def OnLine (a b c : V3 K) : Prop :=
  (b.y - a.y) * (c.z - a.z) = (b.z - a.z) * (c.y - a.y) ∧ (b.z - a.z) * (c.x - a.x) = (b.x - a.x) * (c.z - a.z) ∧ (b.x - a.x) * (c.y - a.y) = (b.y - a.y) * (c.x - a.x)

/-- The point at parameter `t` of the segment from `a` to `b`. -/
def lerp2 (a b : V2 K) (t : K) : V2 K := ⟨a.x + t * (b.x - a.x), a.y + t * (b.y - a.y)⟩

def lerp3 (a b : V3 K) (t : K) : V3 K := ⟨a.x + t * (b.x - a.x), a.y + t * (b.y - a.y), a.z + t * (b.z - a.z)⟩

/-- `p` is on the segment from `a` to `b`. -/
def OnSeg [LinearOrder K] (a b p : V2 K) : Prop := ∃ t, 0 ≤ t ∧ t ≤ 1 ∧ p = lerp2 a b t
end

/-- Distance. -/
noncomputable def dist2 (a b : V2 ℝ) : ℝ := Real.sqrt (sq2 a b)
noncomputable def dist3 (a b : V3 ℝ) : ℝ := Real.sqrt (sq3 a b)
end Verif.Geom
