import Verif.Spec.Geom
/-
What it means to simplify a 2D PLC. A PLC is a list of facets, each a pair of positions in a list of points.
-/
namespace Verif.Simplify
open Verif Verif.Geom
variable {K : Type} [Field K]

/-- Facet number `k` goes from the point `p` to the point `q`. -/
def Side (facets : List (List Int)) (pts : List (V2 K)) (k : Nat) (p q : V2 K) : Prop :=
  ∃ a b : Nat, facets[k]? = some [(a : Int), (b : Int)] ∧ pts[a]? = some p ∧ pts[b]? = some q

/-- The facets are the sides of one closed polygon with at least three corners, which are different points. The facets may be listed in any order and directed in any
way, and a corner may be listed among the points several times. -/
def ClosedPolygon (facets : List (List Int)) (pts : List (V2 K)) : Prop :=
  3 ≤ facets.length ∧ ∃ (corner : Nat → V2 K) (order : Nat → Nat),
    (∀ i < facets.length, ∀ j < facets.length, corner i = corner j → i = j) ∧
    (∀ i < facets.length, ∀ j < facets.length, order i = order j → i = j) ∧
    ∀ k < facets.length, Side facets pts (order k) (corner k) (corner ((k + 1) % facets.length)) ∨
      Side facets pts (order k) (corner ((k + 1) % facets.length)) (corner k)

/-- The facets are directed one after the other: no two begin at the same point, no two end at the same point. -/
def Directed (facets : List (List Int)) (pts : List (V2 K)) : Prop :=
  ∀ k l p q p' q', Side facets pts k p q → Side facets pts l p' q' → k ≠ l → p ≠ p' ∧ q ≠ q'

/-- `p` and `q` are the ends of a facet, in either direction. -/
def Joined (facets : List (List Int)) (pts : List (V2 K)) (k : Nat) (p q : V2 K) : Prop := Side facets pts k p q ∨ Side facets pts k q p

/-- The polygon turns at `q`: the two facets that meet there are not on one line. -/
def TurnsAt (facets : List (List Int)) (pts : List (V2 K)) (q : V2 K) : Prop :=
  ∃ k l p s, k ≠ l ∧ Joined facets pts k p q ∧ Joined facets pts l q s ∧ area2 p q s ≠ 0

/-- Twice the area that directed facets enclose, positive if they run counterclockwise. -/
def enclosed (facets : List (List Int)) (pts : List (V2 K)) : K :=
  (facets.map fun f => cross2 (pts.getD (f.getD 0 0).toNat 0) (pts.getD (f.getD 1 0).toNat 0)).sum

/-- `x` is on one of the facets. -/
def OnFacets [LinearOrder K] (facets : List (List Int)) (pts : List (V2 K)) (x : V2 K) : Prop := ∃ k p q, Side facets pts k p q ∧ OnSeg p q x

/-- The polygon does not turn back on itself: where two facets that meet are on one line, they go to opposite sides. -/
def NoSpikes [LinearOrder K] (facets : List (List Int)) (pts : List (V2 K)) : Prop :=
  ∀ k l p q s, k ≠ l → Joined facets pts k p q → Joined facets pts l q s → area2 p q s = 0 → dot2 (p - q) (s - q) < 0
/-- `p` occurs in the list before `q` does. -/
def Before {α : Type} (l : List α) (p q : α) : Prop := ∃ i : Nat, l[i]? = some p ∧ ∀ j : Nat, j ≤ i → l[j]? ≠ some q

/-- The sides are long and the turns sharp enough for the tolerance: whenever two joined corners and a third one are not on one line, the sides of their triangle that
begin at the first are no shorter than the root of the tolerance, and the square of the sine of the angle between them is at least twice the tolerance. -/
def Resolved [LinearOrder K] (tol : K) (facets : List (List Int)) (pts : List (V2 K)) : Prop :=
  ∀ k p q l r s, Joined facets pts k p q → Joined facets pts l r s → area2 p q r ≠ 0 →
    tol ≤ dot2 (q - p) (q - p) ∧ tol ≤ dot2 (r - p) (r - p) ∧ 2 * tol * (dot2 (q - p) (q - p) * dot2 (r - p) (r - p)) ≤ area2 p q r ^ 2
end Verif.Simplify
