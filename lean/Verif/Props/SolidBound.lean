import Verif.Proofs.SolidBound
import Verif.Proofs.PrismL
import Mathlib.Algebra.Order.Field.Rat
import Mathlib.Algebra.Order.Ring.Unbundled.Rat
/-
Property C67 for solids of any shape: the polygons that the operations return are the boundary of the union, the difference and the intersection.
-/
namespace Verif.Csg
open Verif Verif.Geom

section
variable {K : Type} [Field K] [LinearOrder K] [IsStrictOrderedRing K]

/-- C67 for the union of solids of any shape, wherever they touch or overlap, up to the list of polygons, with every tolerance that is small enough: the polygons are the boundary of the union.
A way from inside to outside that starts and ends off the facets meets one of them, and each of them has the union just behind it and not just in front of it. Missing: solids with
parts as thin as the tolerance, and the conversion of the polygons to a PLC, which never returns (`C67_returns_fails`). -/
theorem C67_any_union_boundary_partial {A B : RPLC K} {SA SB : Set (V3 K)} (hA : Bounds A SA) (hB : Bounds B SB) :
    ∃ N r, SmallEps (fun eps => ∀ n, N ≤ n → ∀ dbg, csgUnion3 eps n dbg A B = .ok (some r)) ∧ Boundary r (SA ∪ SB) (OnEither A B) := by
  refine csgBound_spec (fun eps => unionT (polyOps eps)) union_small (fun eps n m h a b r => union_mono h) hA hB _ fun a b ha hb => ?_
  obtain ⟨N, r, hr, hx, hk⟩ := union_bound ha hb
  exact ⟨N, r, hr, hx, fun p q hp hq h => way ha hb hk hp hq h⟩

/-- C67 for the difference of solids of any shape. -/
theorem C67_any_subtract_boundary_partial {A B : RPLC K} {SA SB : Set (V3 K)} (hA : Bounds A SA) (hB : Bounds B SB) :
    ∃ N r, SmallEps (fun eps => ∀ n, N ≤ n → ∀ dbg, csgSubtract3 eps n dbg A B = .ok (some r)) ∧ Boundary r (SA \ SB) (OnEither A B) := by
  refine csgBound_spec (fun eps => subtractT (polyOps eps)) subtract_small (fun eps n m h a b r => subtract_mono h) hA hB _ fun a b ha hb => ?_
  obtain ⟨N, r, hr, hx, hk⟩ := subtract_bound ha hb
  have e : SA \ SB = (SAᶜ ∪ SB)ᶜ := by ext x; simp
  rw [e]
  refine ⟨N, r, hr, hx, fun p q hp hq h => ?_⟩
  rw [Set.mem_compl_iff, Set.mem_compl_iff, way ha.invert hb hk (fun x hx => ?_) (fun x hx => ?_) h]
  · exact hx.elim (avoids_invert (fun y hy => hp y (Or.inl hy)) x) fun h => hp x (Or.inr h)
  · exact hx.elim (avoids_invert (fun y hy => hq y (Or.inl hy)) x) fun h => hq x (Or.inr h)

/-- C67 for the intersection of solids of any shape. -/
theorem C67_any_intersect_boundary_partial {A B : RPLC K} {SA SB : Set (V3 K)} (hA : Bounds A SA) (hB : Bounds B SB) :
    ∃ N r, SmallEps (fun eps => ∀ n, N ≤ n → ∀ dbg, csgIntersect3 eps n dbg A B = .ok (some r)) ∧ Boundary r (SA ∩ SB) (OnEither A B) := by
  refine csgBound_spec (fun eps => intersectT (polyOps eps)) intersect_small (fun eps n m h a b r => intersect_mono h) hA hB _ fun a b ha hb => ?_
  obtain ⟨N, r, hr, hx, hk⟩ := intersect_bound ha hb
  have e : SA ∩ SB = (SAᶜ ∪ SBᶜ)ᶜ := by ext x; simp
  rw [e]
  refine ⟨N, r, hr, hx, fun p q hp hq h => ?_⟩
  rw [Set.mem_compl_iff, Set.mem_compl_iff, way ha.invert hb.invert hk (fun x hx => ?_) (fun x hx => ?_) h]
  · exact hx.elim (avoids_invert (fun y hy => hp y (Or.inl hy)) x) (avoids_invert (fun y hy => hp y (Or.inr hy)) x)
  · exact hx.elim (avoids_invert (fun y hy => hq y (Or.inl hy)) x) (avoids_invert (fun y hy => hq y (Or.inr hy)) x)

end

/-! ### Two solids that are not convex -/

/-- The prism over an L and the same prism moved. -/
example : ∃ N r, SmallEps (fun eps => ∀ n, N ≤ n → ∀ dbg, csgUnion3 eps n dbg prismL prismL' = .ok (some r)) ∧ Boundary r (insideL ∪ {q | q - ⟨1 / 2, 1 / 2, 1 / 2⟩ ∈ insideL}) (OnEither prismL prismL') :=
  C67_any_union_boundary_partial boundsL boundsL'

/-- A solid and itself: the union and the intersection are bounded by it, and nothing bounds the difference, because nothing is in it. -/
example : ∃ N r, SmallEps (fun eps => ∀ n, N ≤ n → ∀ dbg, csgSubtract3 eps n dbg prismL prismL = .ok (some r)) ∧ r = [] := by
  obtain ⟨N, r, h, hb⟩ := C67_any_subtract_boundary_partial boundsL boundsL
  refine ⟨N, r, h, ?_⟩
  cases r with
  | nil => rfl
  | cons x r =>
    exfalso
    have hx : x.verts ≠ [] := by have := (hb.good x (by simp)).three; intro h; simp [h] at this
    obtain ⟨c, hc⟩ := inner_exists hx
    obtain ⟨d, d0, hd⟩ := hb.outward x (by simp) c hc
    have := (hd (d / 2) (by linarith) (by linarith)).1
    exact this.2 this.1

end Verif.Csg
