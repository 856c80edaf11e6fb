import Verif.Spec.Csg3
import Mathlib.Data.Set.Basic
/-
Solids of any shape, given by the set of the points inside them.
-/
namespace Verif.Csg
open Verif Verif.Geom
section
variable {K : Type} [Field K] [LinearOrder K]

omit [LinearOrder K] in
/-- The normal of a facet, from its first three corners. -/
def normalOf (P : RPLC K) (f : List Int) : V3 K :=
  cross3 ((corners P f).getD 1 0 - (corners P f).getD 0 0) ((corners P f).getD 2 0 - (corners P f).getD 0 0)

/-- `c` is in a convex polygon but not on its rim: strictly on the side of every plane that has all corners on that side or in it, and not all of them in it. -/
def Inner (vs : List (V3 K)) (c : V3 K) : Prop :=
  Hull3 vs c ∧ ∀ n w, (∀ v ∈ vs, w ≤ dot3 n v) → (∃ v ∈ vs, w < dot3 n v) → w < dot3 n c

/-- The facets of `P` are the boundary of the solid `S`, which may have any shape, any number of parts and any number of cavities: a way from a point in `S` to a point not in `S`
meets a facet, and just behind any inner point of a facet is `S`, just in front of it is not. -/
structure Bounds (P : RPLC K) (S : Set (V3 K)) : Prop where
  four : 4 ≤ P.facets.length
  good : ∀ f ∈ P.facets, GoodFacet P f
  separates : ∀ p q, (∀ t, 0 ≤ t → t ≤ 1 → ¬ OnFacets3 P (lerp3 p q t)) → (p ∈ S ↔ q ∈ S)
  outward : ∀ f ∈ P.facets, ∀ c, Inner (corners P f) c →
    ∃ d, 0 < d ∧ ∀ t, 0 < t → t < d → c - V3.scale t (normalOf P f) ∈ S ∧ c + V3.scale t (normalOf P f) ∉ S

/-- `p` is part of a facet of `P` and faces the same way, or the other way. -/
def PartFacing (P : RPLC K) (p : Poly K) : Prop :=
  ∃ f ∈ P.facets, (∀ v ∈ p.verts, Hull3 (corners P f) v) ∧ ∃ k, 0 < k ∧ p.plane.normal = V3.scale k (normalOf P f)
def PartTurned (P : RPLC K) (p : Poly K) : Prop :=
  ∃ f ∈ P.facets, (∀ v ∈ p.verts, Hull3 (corners P f) v) ∧ ∃ k, k < 0 ∧ p.plane.normal = V3.scale k (normalOf P f)

/-- For every tolerance that is small enough. -/
def SmallEps (p : K → Prop) : Prop := ∃ e, 0 < e ∧ ∀ eps, 0 ≤ eps → eps ≤ e → p eps
end
end Verif.Csg
