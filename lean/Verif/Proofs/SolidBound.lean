import Verif.Proofs.SolidWay
import Verif.Spec.SolidBound
/-
The trees of solids, and what the operations return for them.
-/
namespace Verif.Csg
open Verif Verif.Geom Verif.Mesh

variable {K : Type} [Field K] [LinearOrder K] [IsStrictOrderedRing K]

theorem boundTree {P : RPLC K} {S : Set (V3 K)} (hP : Bounds P S) :
    ∃ polys t, (∀ dbg, toPolygons dbg P.points P.facets = .ok polys) ∧ (∃ N, ∀ n, N ≤ n → build (polyOps 0) n .nil polys = some t) ∧ Solid t S
      ∧ ∀ q, (∃ x ∈ all t, Hull3 x.verts q) ↔ OnFacets3 P q := by
  obtain ⟨polys, t, e, hN, ne, w, k, pts, ⟨n, hb⟩, dec⟩ := anyTree hP
  have hpart : ∀ x ∈ P.facets.flatMap (fun f => firstTri P f :: otherTris P f), ∃ f ∈ P.facets, PartOf (normalOf P f) (corners P f) x := by
    intro x hx
    obtain ⟨f, hf, hx⟩ := List.mem_flatMap.1 hx
    exact ⟨f, hf, facet_parts (hP.good f hf) x hx⟩
  have placed : Placed t := build_placed n _ t (fun x hx => by obtain ⟨f, -, h⟩ := hpart x hx; exact h.wf) hb
  have pts' : ∀ q, (∃ x ∈ all t, Hull3 x.verts q) ↔ OnFacets3 P q := pts
  have off : ∀ q, Sharp t q → ¬ OnFacets3 P q := by
    intro q hq h
    obtain ⟨x, hx, hh⟩ := (pts' q).2 h
    exact placed_sharp placed hq x hx hh
  refine ⟨polys, t, e, hN, ⟨⟨k, ne, fun q hq => (dec q (off q hq)).2, fun q hq => (dec q (off q hq)).1⟩, w, placed, fun x hx => ?_, fun p q h => ?_⟩, pts'⟩
  · refine (build_D (good_pieces S) n .nil _ (by simp [all]) (fun y hy => ?_) t hb x hx).2
    obtain ⟨f, hf, h⟩ := hpart y hy
    exact ⟨h.wf, Faces.part h (hP.outward f hf)⟩
  · refine hP.separates p q fun s s0 s1 hh => ?_
    obtain ⟨x, hx, hh⟩ := (pts' _).2 hh
    exact h s s0 s1 x hx hh

theorem csgBound_spec (op : K → Nat → Tree (Poly K) (Plane K) → Tree (Poly K) (Plane K) → Option (Tree (Poly K) (Plane K)))
    (hsmall : ∀ n a b, SmallEps fun eps => op eps n a b = op 0 n a b)
    (hmono : ∀ eps n m, n ≤ m → ∀ a b r, op eps n a b = some r → op eps m a b = some r)
    {A B : RPLC K} {SA SB : Set (V3 K)} (hA : Bounds A SA) (hB : Bounds B SB) (U : Set (V3 K))
    (hop : ∀ a b, Solid a SA → Solid b SB → ∃ N r, (∀ n, N ≤ n → op 0 n a b = some r) ∧ (∀ x ∈ all r, PolyW x ∧ Faces U x)
      ∧ ∀ p q, (∀ x, x ∈ all a ∨ x ∈ all b → ¬ Hull3 x.verts p) → (∀ x, x ∈ all a ∨ x ∈ all b → ¬ Hull3 x.verts q) → (∀ s, 0 ≤ s → s ≤ 1 → ∀ x ∈ all r, ¬ Hull3 x.verts (lerp3 p q s)) → (p ∈ U ↔ q ∈ U)) :
    ∃ N r, SmallEps (fun eps => ∀ n, N ≤ n → ∀ dbg, csg3 (op eps) eps n dbg A B = .ok (some r)) ∧ Boundary r U (OnEither A B) := by
  obtain ⟨sa, ta, ea, ⟨Na, ba⟩, ha, pa⟩ := boundTree hA
  obtain ⟨sb, tb, eb, ⟨Nb, bb⟩, hb, pb⟩ := boundTree hB
  obtain ⟨N, t, ht, hx, hs⟩ := hop ta tb ha hb
  set M := max N (max Na Nb) with hM
  have m1 : N ≤ M := le_max_left _ _
  have m2 : Na ≤ M := le_trans (le_max_left _ _) (le_max_right _ _)
  have m3 : Nb ≤ M := le_trans (le_max_right _ _) (le_max_right _ _)
  refine ⟨M, all t, ?_, fun x h => (hx x h).1, fun p q hp hq h => hs p q ?_ ?_ h, fun x h => (hx x h).2⟩
  · refine ((build_small M .nil sa).and ((build_small M .nil sb).and (hsmall M ta tb))).mono fun eps ⟨e1, e2, e3⟩ n hn dbg => ?_
    have f1 := build_mono_le hn (e1.trans (ba M m2))
    have f2 := build_mono_le hn (e2.trans (bb M m3))
    have f3 := hmono eps M n hn _ _ _ (e3.trans (ht M m1))
    rw [csg3, ea, Res.ok_bind, eb, Res.ok_bind, f1, f2]
    simp only [Option.bind_some, f3, Option.map_some]; rfl
  · rintro x (h | h) hh
    · exact hp (Or.inl ((pa p).1 ⟨x, h, hh⟩))
    · exact hp (Or.inr ((pb p).1 ⟨x, h, hh⟩))
  · rintro x (h | h) hh
    · exact hq (Or.inl ((pa q).1 ⟨x, h, hh⟩))
    · exact hq (Or.inr ((pb q).1 ⟨x, h, hh⟩))

/-- The polygons of an inverted tree have the same points. -/
theorem avoids_invert {t : Tree (Poly K) (Plane K)} {p : V3 K} (h : ∀ x ∈ all t, ¬ Hull3 x.verts p) : ∀ x ∈ all (invert (polyOps 0) t), ¬ Hull3 x.verts p := by
  intro x hx hh
  obtain ⟨y, hy, rfl⟩ := (mem_all_invert t x).1 hx
  exact h y hy (hull_flip.1 hh)

end Verif.Csg
