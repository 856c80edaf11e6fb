import Verif.Proofs.SolidDir
import Verif.Proofs.PrismL
import Mathlib.Algebra.Order.Field.Rat
import Mathlib.Algebra.Order.Ring.Unbundled.Rat
/-
Property C67 for solids of any shape.
-/
namespace Verif.Csg
open Verif Verif.Geom

section
variable {K : Type} [Field K] [LinearOrder K] [IsStrictOrderedRing K]

/-- C67 for the union of solids of any shape, up to the list of polygons, with every tolerance that is small enough: the operation comes to an end, and returns the same convex
polygons for all these tolerances. They are parts of facets and face the way the facets do. They have what is on the facets of one solid and outside the other, and nothing that is inside
the other. Points on the facets of both solids may be kept or not. Missing: solids with parts as thin as the tolerance, and the conversion of the polygons to a PLC, which never returns
(`C67_returns_fails`). -/
theorem C67_any_union_partial {A B : RPLC K} {SA SB : Set (V3 K)} (hA : Bounds A SA) (hB : Bounds B SB) :
    ∃ N r, SmallEps (fun eps => ∀ n, N ≤ n → ∀ dbg, csgUnion3 eps n dbg A B = .ok (some r)) ∧ (∀ p ∈ r, PolyW p ∧ (PartFacing A p ∨ PartFacing B p))
      ∧ (∀ q, OnFacets3 A q → ¬ OnFacets3 B q ∧ q ∉ SB → ∃ p ∈ r, Hull3 p.verts q) ∧ (∀ q, OnFacets3 B q → ¬ OnFacets3 A q ∧ q ∉ SA → ∃ p ∈ r, Hull3 p.verts q)
      ∧ ∀ q, (∃ p ∈ r, Hull3 p.verts q) → (OnFacets3 A q ∧ ¬ (¬ OnFacets3 B q ∧ q ∈ SB)) ∨ (OnFacets3 B q ∧ ¬ (¬ OnFacets3 A q ∧ q ∈ SA)) := by
  refine csgAny_spec (fun eps => unionT (polyOps eps)) union_small (fun eps n m h a b r => union_mono h) hA hB _ _ _ _ (fun p => PartFacing A p ∨ PartFacing B p) ?_ ?_
  · intro n a b r ha hb h x hx
    exact (union_D (sameWay_pieces A) (sameWay_pieces B) (otherWay_pieces B) (sameWay_flip B) (otherWay_flip B) ha hb h x hx).imp And.right And.right
  · intro a b wa ka na wb kb nb qa qb
    obtain ⟨N, r, hr, w, -, h1, h2, h3⟩ := union_spec (polyLaws le_rfl) wa ka na wb kb nb
    exact ⟨N, r, hr, w, fun q hq h => h1 q hq ((qb q h.1).2.2 h.2), fun q hq h => h2 q hq ((qa q h.1).2.2 h.2), fun q hq =>
      (h3 q hq).imp (fun h => ⟨h.1, fun h' => h.2 ((qb q h'.1).1.2 h'.2)⟩) fun h => ⟨h.1, fun h' => h.2 ((qa q h'.1).1.2 h'.2)⟩⟩

/-- C67 for the difference of solids of any shape: what is on the facets of the first and outside the second, facing the same way, and what is on the facets of the second and inside the
first, facing the other way. -/
theorem C67_any_subtract_partial {A B : RPLC K} {SA SB : Set (V3 K)} (hA : Bounds A SA) (hB : Bounds B SB) :
    ∃ N r, SmallEps (fun eps => ∀ n, N ≤ n → ∀ dbg, csgSubtract3 eps n dbg A B = .ok (some r)) ∧ (∀ p ∈ r, PolyW p ∧ (PartFacing A p ∨ PartTurned B p))
      ∧ (∀ q, OnFacets3 A q → ¬ OnFacets3 B q ∧ q ∉ SB → ∃ p ∈ r, Hull3 p.verts q) ∧ (∀ q, OnFacets3 B q → ¬ OnFacets3 A q ∧ q ∈ SA → ∃ p ∈ r, Hull3 p.verts q)
      ∧ ∀ q, (∃ p ∈ r, Hull3 p.verts q) → (OnFacets3 A q ∧ ¬ (¬ OnFacets3 B q ∧ q ∈ SB)) ∨ (OnFacets3 B q ∧ ¬ (¬ OnFacets3 A q ∧ q ∉ SA)) := by
  refine csgAny_spec (fun eps => subtractT (polyOps eps)) subtract_small (fun eps n m h a b r => subtract_mono h) hA hB _ _ _ _ (fun p => PartFacing A p ∨ PartTurned B p) ?_ ?_
  · intro n a b r ha hb h x hx
    exact (subtract_D (sameWay_pieces A) (otherWay_pieces A) (sameWay_pieces B) (otherWay_pieces B) (sameWay_flip A) (otherWay_flip A) (sameWay_flip B) (otherWay_flip B) ha hb h x hx).imp And.right And.right
  · intro a b wa ka na wb kb nb qa qb
    obtain ⟨N, r, hr, w, -, h1, h2, h3⟩ := subtract_spec (polyLaws le_rfl) wa ka na wb kb nb
    exact ⟨N, r, hr, w, fun q hq h => h1 q hq ((qb q h.1).2.2 h.2), fun q hq h => h2 q hq ((qa q h.1).1.2 h.2), fun q hq =>
      (h3 q hq).imp (fun h => ⟨h.1, fun h' => h.2 ((qb q h'.1).1.2 h'.2)⟩) fun h => ⟨h.1, fun h' => h.2 ((qa q h'.1).2.2 h'.2)⟩⟩

/-- C67 for the intersection of solids of any shape: what is on the facets of one and inside the other. -/
theorem C67_any_intersect_partial {A B : RPLC K} {SA SB : Set (V3 K)} (hA : Bounds A SA) (hB : Bounds B SB) :
    ∃ N r, SmallEps (fun eps => ∀ n, N ≤ n → ∀ dbg, csgIntersect3 eps n dbg A B = .ok (some r)) ∧ (∀ p ∈ r, PolyW p ∧ (PartFacing A p ∨ PartFacing B p))
      ∧ (∀ q, OnFacets3 A q → ¬ OnFacets3 B q ∧ q ∈ SB → ∃ p ∈ r, Hull3 p.verts q) ∧ (∀ q, OnFacets3 B q → ¬ OnFacets3 A q ∧ q ∈ SA → ∃ p ∈ r, Hull3 p.verts q)
      ∧ ∀ q, (∃ p ∈ r, Hull3 p.verts q) → (OnFacets3 A q ∧ ¬ (¬ OnFacets3 B q ∧ q ∉ SB)) ∨ (OnFacets3 B q ∧ ¬ (¬ OnFacets3 A q ∧ q ∉ SA)) := by
  refine csgAny_spec (fun eps => intersectT (polyOps eps)) intersect_small (fun eps n m h a b r => intersect_mono h) hA hB _ _ _ _ (fun p => PartFacing A p ∨ PartFacing B p) ?_ ?_
  · intro n a b r ha hb h x hx
    exact (intersect_D (sameWay_pieces A) (otherWay_pieces A) (sameWay_pieces B) (otherWay_pieces B) (sameWay_flip A) (otherWay_flip A) (sameWay_flip B) (otherWay_flip B) ha hb h x hx).imp And.right And.right
  · intro a b wa ka na wb kb nb qa qb
    obtain ⟨N, r, hr, w, -, h1, h2, h3⟩ := intersect_spec (polyLaws le_rfl) wa ka na wb kb nb
    exact ⟨N, r, hr, w, fun q hq h => h1 q hq ((qb q h.1).1.2 h.2), fun q hq h => h2 q hq ((qa q h.1).1.2 h.2), fun q hq =>
      (h3 q hq).imp (fun h => ⟨h.1, fun h' => h.2 ((qb q h'.1).2.2 h'.2)⟩) fun h => ⟨h.1, fun h' => h.2 ((qa q h'.1).2.2 h'.2)⟩⟩

end

/-! ### Two solids that are not convex -/

/-- The prism over an L and the same prism moved by (1/2, 1/2, 1/2): a union is computed, and a difference, and an intersection. -/
example : ∃ N r, SmallEps (fun eps => ∀ n, N ≤ n → ∀ dbg, csgUnion3 eps n dbg prismL prismL' = .ok (some r)) :=
  let ⟨N, r, h, _⟩ := C67_any_union_partial boundsL boundsL'; ⟨N, r, h⟩
example : ∃ N r, SmallEps (fun eps => ∀ n, N ≤ n → ∀ dbg, csgSubtract3 eps n dbg prismL prismL' = .ok (some r)) :=
  let ⟨N, r, h, _⟩ := C67_any_subtract_partial boundsL boundsL'; ⟨N, r, h⟩
example : ∃ N r, SmallEps (fun eps => ∀ n, N ≤ n → ∀ dbg, csgIntersect3 eps n dbg prismL prismL' = .ok (some r)) :=
  let ⟨N, r, h, _⟩ := C67_any_intersect_partial boundsL boundsL'; ⟨N, r, h⟩

/-- The L is not convex: two points are inside, the point between them is not. -/
example : (⟨3 / 2, 3 / 4, 1 / 2⟩ : V3 ℚ) ∈ insideL ∧ (⟨3 / 4, 3 / 2, 1 / 2⟩ : V3 ℚ) ∈ insideL ∧ lerp3 (⟨3 / 2, 3 / 4, 1 / 2⟩ : V3 ℚ) ⟨3 / 4, 3 / 2, 1 / 2⟩ (1 / 2) ∉ insideL := by
  simp only [insideL, Set.mem_ofPred_eq, lerp3]; norm_num

/-- A point on a facet of the first and outside the second: the union keeps it. -/
example : ∃ N r, SmallEps (fun eps => ∀ n, N ≤ n → ∀ dbg, csgUnion3 eps n dbg prismL prismL' = .ok (some r))
    ∧ (∃ p ∈ r, Hull3 p.verts ⟨0, 0, 0⟩) := by
  obtain ⟨N, r, h, -, h1, -⟩ := C67_any_union_partial boundsL boundsL'
  refine ⟨N, r, h, h1 _ (on_left rfl (by norm_num) (by norm_num) (by norm_num) (by norm_num)) ⟨?_, ?_⟩⟩
  · rintro ⟨f, hf, hh⟩
    have : ∀ f ∈ prismL'.facets, ∀ v ∈ corners prismL' f, (1 / 2 : ℚ) ≤ dot3 ⟨1, 0, 0⟩ v := by decide +kernel
    have h2 := hull_ge (this f hf) hh
    simp [dot3] at h2
    norm_num at h2
  · simp only [insideL, Set.mem_ofPred_eq, V3.sub_x, V3.sub_y, V3.sub_z]; norm_num

end Verif.Csg
