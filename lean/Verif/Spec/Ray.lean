import Verif.Spec.Geom
/- Rays and surfaces. -/
namespace Verif.Geom

/-- The point at parameter `t` of the ray from `p` in direction `n`. -/
def along2 {K : Type} [Field K] (p n : V2 K) (t : K) : V2 K := ⟨p.x + t * n.x, p.y + t * n.y⟩
def along3 {K : Type} [Field K] (p n : V3 K) (t : K) : V3 K := ⟨p.x + t * n.x, p.y + t * n.y, p.z + t * n.z⟩

/-- On the plane through `o` with normal `n`. -/
def OnPlane {K : Type} [Field K] (o n q : V3 K) : Prop := n.x * (q.x - o.x) + n.y * (q.y - o.y) + n.z * (q.z - o.z) = 0

/-- In the closed box, strictly in it, and on its side number `k` (0, 1: x low, high; 2, 3: y; 4, 5: z). -/
def InBox (lo hi q : V3 ℝ) : Prop := lo.x ≤ q.x ∧ q.x ≤ hi.x ∧ lo.y ≤ q.y ∧ q.y ≤ hi.y ∧ lo.z ≤ q.z ∧ q.z ≤ hi.z
def InsideBox (lo hi q : V3 ℝ) : Prop := lo.x < q.x ∧ q.x < hi.x ∧ lo.y < q.y ∧ q.y < hi.y ∧ lo.z < q.z ∧ q.z < hi.z
def OnSide (lo hi q : V3 ℝ) (k : Int) : Prop :=
  InBox lo hi q ∧ (k = 0 ∧ q.x = lo.x ∨ k = 1 ∧ q.x = hi.x ∨ k = 2 ∧ q.y = lo.y ∨ k = 3 ∧ q.y = hi.y ∨ k = 4 ∧ q.z = lo.z ∨ k = 5 ∧ q.z = hi.z)
end Verif.Geom
