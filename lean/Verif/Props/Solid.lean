import Verif.Proofs.Solid
import Verif.Model.Csg3Out
import Verif.Props.Hash
import Mathlib.Algebra.Order.Field.Rat
import Mathlib.Algebra.Order.Ring.Unbundled.Rat
/-
Property C67: the boolean operations on solids.
-/
namespace Verif.Csg
open Verif Verif.Geom Verif.Points Verif.Hash

section
variable {K : Type} [Field K] [LinearOrder K] [IsStrictOrderedRing K]

/-- What the operations return, given what happens to the trees. -/
theorem csg3_spec {eps : K} (h0 : 0 ≤ eps) (op : Nat → Tree (Poly K) (Plane K) → Tree (Poly K) (Plane K) → Option (Tree (Poly K) (Plane K))) {A B : RPLC K}
    (hA : ConvexSolid eps A) (hB : ConvexSolid eps B) (keepA keepB notA notB : V3 K → Prop)
    (hop : ∀ a b, AllW (polyOps eps) PolyW a → AllOk (polyOps eps) a → a ≠ .nil → AllW (polyOps eps) PolyW b → AllOk (polyOps eps) b → b ≠ .nil →
      (∀ q, (In (polyOps eps) (polyGeo eps) true a q ↔ Inside3 eps A q) ∧ (Out (polyOps eps) (polyGeo eps) true a q ↔ Outside3 eps A q)) →
      (∀ q, (In (polyOps eps) (polyGeo eps) true b q ↔ Inside3 eps B q) ∧ (Out (polyOps eps) (polyGeo eps) true b q ↔ Outside3 eps B q)) →
      ∃ N r, (∀ n, N ≤ n → op n a b = some r) ∧ AllW (polyOps eps) PolyW r ∧ (∀ q ∈ (polyGeo eps).points (all a), keepA q → q ∈ (polyGeo eps).points (all r))
        ∧ (∀ q ∈ (polyGeo eps).points (all b), keepB q → q ∈ (polyGeo eps).points (all r))
        ∧ ∀ q ∈ (polyGeo eps).points (all r), (q ∈ (polyGeo eps).points (all a) ∧ ¬ notA q) ∨ (q ∈ (polyGeo eps).points (all b) ∧ ¬ notB q)) :
    ∃ N r, (∀ n, N ≤ n → ∀ dbg, csg3 op eps n dbg A B = .ok (some r)) ∧ (∀ p ∈ r, PolyW p)
      ∧ (∀ q, OnFacets3 A q → keepA q → ∃ p ∈ r, Hull3 p.verts q) ∧ (∀ q, OnFacets3 B q → keepB q → ∃ p ∈ r, Hull3 p.verts q)
      ∧ ∀ q, (∃ p ∈ r, Hull3 p.verts q) → (OnFacets3 A q ∧ ¬ notA q) ∨ (OnFacets3 B q ∧ ¬ notB q) := by
  obtain ⟨sa, ta, ea, ⟨Na, ba⟩, na, wa, ka, pa, qa⟩ := solidTree h0 hA
  obtain ⟨sb, tb, eb, ⟨Nb, bb⟩, nb, wb, kb, pb, qb⟩ := solidTree h0 hB
  obtain ⟨N, t, ht, hw, h1, h2, h3⟩ := hop ta tb wa ka na wb kb nb qa qb
  refine ⟨max N (max Na Nb), all t, ?_, hw, ?_, ?_, ?_⟩
  · intro n hn dbg
    have n1 : N ≤ n := le_trans (le_max_left _ _) hn
    have n2 : Na ≤ n := le_trans (le_trans (le_max_left _ _) (le_max_right _ _)) hn
    have n3 : Nb ≤ n := le_trans (le_trans (le_max_right _ _) (le_max_right _ _)) hn
    rw [csg3, ea, Res.ok_bind, eb, Res.ok_bind, ba n n2, bb n n3]
    simp only [Option.bind_some, ht n n1, Option.map_some]; rfl
  · intro q hq hk; exact h1 q ((pa q).2 hq) hk
  · intro q hq hk; exact h2 q ((pb q).2 hq) hk
  · intro q hq
    rcases h3 q hq with ⟨h, h'⟩ | ⟨h, h'⟩
    · exact Or.inl ⟨(pa q).1 h, h'⟩
    · exact Or.inr ⟨(pb q).1 h, h'⟩

/-- C67 for the union of convex solids, up to the list of polygons: the operation comes to an end, its polygons are convex, and they are the parts of the facets of each solid that are
outside the other. Points within `eps` of the plane of a facet of the other solid may be kept or not. Solids of any shape: `C67_any_union_partial`. Missing: the conversion of the polygons to a PLC,
which never returns (`C67_returns_fails`). -/
theorem C67_union_partial {eps : K} (h0 : 0 ≤ eps) {A B : RPLC K} (hA : ConvexSolid eps A) (hB : ConvexSolid eps B) :
    ∃ N r, (∀ n, N ≤ n → ∀ dbg, csgUnion3 eps n dbg A B = .ok (some r)) ∧ (∀ p ∈ r, PolyW p)
      ∧ (∀ q, OnFacets3 A q → Outside3 eps B q → ∃ p ∈ r, Hull3 p.verts q) ∧ (∀ q, OnFacets3 B q → Outside3 eps A q → ∃ p ∈ r, Hull3 p.verts q)
      ∧ ∀ q, (∃ p ∈ r, Hull3 p.verts q) → (OnFacets3 A q ∧ ¬ Inside3 eps B q) ∨ (OnFacets3 B q ∧ ¬ Inside3 eps A q) := by
  refine csg3_spec h0 _ hA hB (Outside3 eps B) (Outside3 eps A) (Inside3 eps B) (Inside3 eps A) ?_
  intro a b wa ka na wb kb nb qa qb
  obtain ⟨N, r, hr, w, -, h1, h2, h3⟩ := union_spec (polyLaws h0) wa ka na wb kb nb
  exact ⟨N, r, hr, w, fun q hq h => h1 q hq ((qb q).2.2 h), fun q hq h => h2 q hq ((qa q).2.2 h), fun q hq => by
    rw [← (qb q).1, ← (qa q).1]; exact h3 q hq⟩

/-- C67 for the difference of convex solids: the parts of the facets of the first outside the second, and of the second inside the first. -/
theorem C67_subtract_partial {eps : K} (h0 : 0 ≤ eps) {A B : RPLC K} (hA : ConvexSolid eps A) (hB : ConvexSolid eps B) :
    ∃ N r, (∀ n, N ≤ n → ∀ dbg, csgSubtract3 eps n dbg A B = .ok (some r)) ∧ (∀ p ∈ r, PolyW p)
      ∧ (∀ q, OnFacets3 A q → Outside3 eps B q → ∃ p ∈ r, Hull3 p.verts q) ∧ (∀ q, OnFacets3 B q → Inside3 eps A q → ∃ p ∈ r, Hull3 p.verts q)
      ∧ ∀ q, (∃ p ∈ r, Hull3 p.verts q) → (OnFacets3 A q ∧ ¬ Inside3 eps B q) ∨ (OnFacets3 B q ∧ ¬ Outside3 eps A q) := by
  refine csg3_spec h0 _ hA hB (Outside3 eps B) (Inside3 eps A) (Inside3 eps B) (Outside3 eps A) ?_
  intro a b wa ka na wb kb nb qa qb
  obtain ⟨N, r, hr, w, -, h1, h2, h3⟩ := subtract_spec (polyLaws h0) wa ka na wb kb nb
  exact ⟨N, r, hr, w, fun q hq h => h1 q hq ((qb q).2.2 h), fun q hq h => h2 q hq ((qa q).1.2 h), fun q hq => by
    rw [← (qb q).1, ← (qa q).2]; exact h3 q hq⟩

/-- C67 for the intersection of convex solids: the parts of the facets of each inside the other. -/
theorem C67_intersect_partial {eps : K} (h0 : 0 ≤ eps) {A B : RPLC K} (hA : ConvexSolid eps A) (hB : ConvexSolid eps B) :
    ∃ N r, (∀ n, N ≤ n → ∀ dbg, csgIntersect3 eps n dbg A B = .ok (some r)) ∧ (∀ p ∈ r, PolyW p)
      ∧ (∀ q, OnFacets3 A q → Inside3 eps B q → ∃ p ∈ r, Hull3 p.verts q) ∧ (∀ q, OnFacets3 B q → Inside3 eps A q → ∃ p ∈ r, Hull3 p.verts q)
      ∧ ∀ q, (∃ p ∈ r, Hull3 p.verts q) → (OnFacets3 A q ∧ ¬ Outside3 eps B q) ∨ (OnFacets3 B q ∧ ¬ Outside3 eps A q) := by
  refine csg3_spec h0 _ hA hB (Inside3 eps B) (Inside3 eps A) (Outside3 eps B) (Outside3 eps A) ?_
  intro a b wa ka na wb kb nb qa qb
  obtain ⟨N, r, hr, w, -, h1, h2, h3⟩ := intersect_spec (polyLaws h0) wa ka na wb kb nb
  exact ⟨N, r, hr, w, fun q hq h => h1 q hq ((qb q).1.2 h), fun q hq h => h2 q hq ((qa q).1.2 h), fun q hq => by
    rw [← (qb q).2, ← (qa q).2]; exact h3 q hq⟩
end

/-! ### The conversion to a PLC -/

theorem foldl_min (vs : List (V3 ℝ)) : ∀ v : V3 ℝ, let r := vs.foldl (fun m p => ⟨min m.x p.x, min m.y p.y, min m.z p.z⟩) v; r.x ≤ v.x ∧ r.y ≤ v.y ∧ r.z ≤ v.z := by
  induction vs with
  | nil => intro v; exact ⟨le_rfl, le_rfl, le_rfl⟩
  | cons p vs ih =>
    intro v
    have := ih ⟨min v.x p.x, min v.y p.y, min v.z p.z⟩
    exact ⟨this.1.trans (min_le_left _ _), this.2.1.trans (min_le_left _ _), this.2.2.trans (min_le_left _ _)⟩

theorem foldl_max (vs : List (V3 ℝ)) : ∀ v : V3 ℝ, let r := vs.foldl (fun m p => ⟨max m.x p.x, max m.y p.y, max m.z p.z⟩) v; v.x ≤ r.x ∧ v.y ≤ r.y ∧ v.z ≤ r.z := by
  induction vs with
  | nil => intro v; exact ⟨le_rfl, le_rfl, le_rfl⟩
  | cons p vs ih =>
    intro v
    have := ih ⟨max v.x p.x, max v.y p.y, max v.z p.z⟩
    exact ⟨(le_max_left _ _).trans this.1, (le_max_left _ _).trans this.2.1, (le_max_left _ _).trans this.2.2⟩

/-- The hash of a position in space shifts an `int` by 42, which is undefined. -/
theorem hash3_ub {dbg : Bool} {eh tol : ℝ} (he : 0 < eh) {b : HBox3} {p : V3 ℝ} (hp : inBox3 b p) (hb : dbg = true → nested3 b b) : Hash.hashPosition3 standard dbg eh tol b b p = .ub := by
  cases dbg with
  | true => exact C37_3d_undefined_fails he hp true (hb rfl)
  | false =>
    unfold Hash.hashPosition3
    have : ∀ p : Prop, ∀ [Decidable p], Res.assert false p = .ok () := fun p _ => by simp [Res.assert]
    rw [this, Res.ok_bind, this, Res.ok_bind]
    simp only [not_not.mpr hp, if_false]
    rw [quantCoord_ok (by decide) (by decide) he hp.1.1 hp.1.2, Res.ok_bind, quantCoord_ok (by decide) (by decide) he hp.2.1.1 hp.2.1.2, Res.ok_bind,
      quantCoord_ok (by decide) (by decide) he hp.2.2.1 hp.2.2.2, Res.ok_bind]
    unfold hash3 standard
    dsimp only
    split
    · rw [Res.ok_bind, if_neg (by omega)]; rfl
    · rfl

/-- C67 fails for the conversion: whatever polygons it is given, it aborts or its behaviour is undefined. -/
theorem fromPolygons_fails (rest : Key → Res (RPLC ℝ)) (dbg : Bool) {eh : ℝ} (he : 0 < eh) (tol : ℝ) (polys : List (Poly ℝ)) :
    fromPolygons rest dbg eh tol polys = .ub ∨ (dbg = true ∧ fromPolygons rest dbg eh tol polys = .abort) := by
  have A : ∀ (p : Prop) [Decidable p] (k : Unit → Res (RPLC ℝ)), ((dbg = true → p) → k () = .ub ∨ (dbg = true ∧ k () = .abort)) →
      (Res.assert dbg p >>= k) = .ub ∨ (dbg = true ∧ (Res.assert dbg p >>= k) = .abort) := by
    intro p _ k hk
    by_cases hp : dbg = true → p
    · have : Res.assert dbg p = .ok () := by cases dbg <;> simp_all [Res.assert]
      rw [this]; exact hk hp
    · have : Res.assert dbg p = .abort := by
        cases dbg
        · simp at hp
        · have : ¬ p := by simpa using hp
          simp [Res.assert, this]
      rw [this]
      refine Or.inr ⟨?_, rfl⟩
      cases dbg <;> simp_all
  unfold fromPolygons
  refine A _ _ fun _ => ?_
  cases polys with
  | nil => exact Or.inl rfl
  | cons p polys =>
    dsimp only
    cases hv : p.verts with
    | nil => exact Or.inl rfl
    | cons v vs =>
      dsimp only
      refine A _ _ fun _ => A _ _ fun hb => ?_
      left
      have hlo := foldl_min ((p :: polys).flatMap Poly.verts) v
      have hhi := foldl_max ((p :: polys).flatMap Poly.verts) v
      rw [hash3_ub he ⟨⟨hlo.1, hhi.1⟩, ⟨hlo.2.1, hhi.2.1⟩, hlo.2.2, hhi.2.2⟩ fun hd => ⟨⟨le_rfl, le_rfl, le_rfl⟩, ⟨le_rfl, le_rfl, le_rfl⟩, hb hd⟩]
      rfl

/-- C67 fails: by the language standard no boolean operation on solids ever returns a PLC. -/
theorem C67_returns_fails (op : Nat → Tree (Poly ℝ) (Plane ℝ) → Tree (Poly ℝ) (Plane ℝ) → Option (Tree (Poly ℝ) (Plane ℝ))) (rest : Key → Res (RPLC ℝ)) (eps : ℝ) {eh : ℝ} (he : 0 < eh)
    (n : Nat) (dbg : Bool) (A B r : RPLC ℝ) : csgPublic3 op rest eps eh n dbg A B ≠ .ok (some r) := by
  unfold csgPublic3
  cases hc : csg3 op eps n dbg A B with
  | abort => exact fun h => by cases h
  | ub => exact fun h => by cases h
  | ok o =>
    rw [Res.ok_bind]
    cases o with
    | none => exact fun h => by cases h
    | some polys =>
      dsimp only
      rcases fromPolygons_fails rest dbg he eps polys with h | ⟨-, h⟩
      · rw [h]; exact fun h => by cases h
      · rw [h]; exact fun h => by cases h

/-- C67 fails: for convex solids the behaviour is undefined, or the operation aborts, once the bound on the depth is large enough. -/
theorem C67_undefined_fails (rest : Key → Res (RPLC ℝ)) {eps eh : ℝ} (h0 : 0 ≤ eps) (he : 0 < eh) {A B : RPLC ℝ} (hA : ConvexSolid eps A) (hB : ConvexSolid eps B) (dbg : Bool) :
    ∃ N, ∀ n, N ≤ n → csgPublic3 (unionT (polyOps eps)) rest eps eh n dbg A B = .ub ∨ csgPublic3 (unionT (polyOps eps)) rest eps eh n dbg A B = .abort := by
  obtain ⟨N, r, h, -⟩ := C67_union_partial h0 hA hB
  refine ⟨N, fun n hn => ?_⟩
  have := h n hn dbg
  rw [csgUnion3] at this
  unfold csgPublic3
  rw [this, Res.ok_bind]
  dsimp only
  rcases fromPolygons_fails rest dbg he eps r with h | ⟨-, h⟩
  · rw [h]; exact Or.inl rfl
  · rw [h]; exact Or.inr rfl

/-! ### Examples -/

/-- The cube from (`x`, `y`, `z`) with sides of length 2. -/
def cubeQ (x y z : ℚ) : RPLC ℚ where
  points := [x, y, z, x + 2, y, z, x + 2, y + 2, z, x, y + 2, z, x, y, z + 2, x + 2, y, z + 2, x + 2, y + 2, z + 2, x, y + 2, z + 2]
  facets := [[0, 3, 2, 1], [4, 5, 6, 7], [0, 1, 5, 4], [1, 2, 6, 5], [2, 3, 7, 6], [3, 0, 4, 7]]

theorem cubeQ_convex : ConvexSolid (1 / 2147483647) (cubeQ 0 0 0) ∧ ConvexSolid (1 / 2147483647) (cubeQ 1 1 1) := by
  have key : ∀ P : RPLC ℚ, 4 ≤ P.facets.length →
      (∀ f ∈ P.facets, (∀ i ∈ f, 0 ≤ i ∧ 3 * i.toNat + 2 < P.points.length) ∧ f.length = 4 ∧ (∀ v ∈ corners P f, above P f v = 0)
        ∧ ∀ i < 4, ∀ j < 4, ∀ k < 4, i < j → j < k →
          0 < turn (cross3 ((corners P f).getD 1 0 - (corners P f).getD 0 0) ((corners P f).getD 2 0 - (corners P f).getD 0 0)) ((corners P f).getD i 0) ((corners P f).getD j 0) ((corners P f).getD k 0)) →
      P.facets.Nodup → (∀ f ∈ P.facets, ∀ g ∈ P.facets, f ≠ g → (∀ v ∈ corners P g, above P f v ≤ 0) ∧ g.length = 4) →
      (∀ f ∈ P.facets, ∀ g ∈ P.facets, f ≠ g → ∀ t ∈ [(0, 1, 2), (0, 1, 3), (0, 2, 3), (1, 2, 3)],
        above P f ((corners P g).getD t.1 0) < -(1 / 2147483647) ∨ above P f ((corners P g).getD t.2.1 0) < -(1 / 2147483647) ∨ above P f ((corners P g).getD t.2.2 0) < -(1 / 2147483647)) →
      ConvexSolid (1 / 2147483647) P := by
    intro P h1 h2 hn h3 h4
    refine ⟨h1, fun f hf => ?_, hn.imp_of_mem ?_⟩
    · obtain ⟨a, b, c, d⟩ := h2 f hf
      exact ⟨a, by omega, c, fun i j k hij hjk hk => d i (by omega) j (by omega) k (by omega) hij hjk⟩
    · intro f g hf hg hne
      obtain ⟨a, b⟩ := h3 f hf g hg hne
      have c := h4 f hf g hg hne
      exact ⟨a, fun i j k hij hjk hk => c (i, j, k) (by
        have : (i = 0 ∧ j = 1 ∧ k = 2) ∨ (i = 0 ∧ j = 1 ∧ k = 3) ∨ (i = 0 ∧ j = 2 ∧ k = 3) ∨ (i = 1 ∧ j = 2 ∧ k = 3) := by omega
        rcases this with ⟨rfl, rfl, rfl⟩ | ⟨rfl, rfl, rfl⟩ | ⟨rfl, rfl, rfl⟩ | ⟨rfl, rfl, rfl⟩ <;> simp)⟩
  constructor <;> refine key _ ?_ ?_ ?_ ?_ ?_ <;> decide +kernel

/-- Two overlapping cubes meet the hypotheses of C67, and there are points of each kind: (0, 0, 0) is on the first and outside the second, (2, 3/2, 3/2) is on the first and inside the
second. -/
example : OnFacets3 (cubeQ 0 0 0) ⟨0, 0, 0⟩ ∧ Outside3 (1 / 2147483647) (cubeQ 1 1 1) ⟨0, 0, 0⟩ ∧ OnFacets3 (cubeQ 0 0 0) ⟨2, 3 / 2, 3 / 2⟩ ∧ Inside3 (1 / 2147483647) (cubeQ 1 1 1) ⟨2, 3 / 2, 3 / 2⟩ := by
  refine ⟨⟨[0, 3, 2, 1], by decide, .pt (by decide +kernel)⟩, ⟨[0, 3, 2, 1], by decide, by decide +kernel⟩, ⟨[1, 2, 6, 5], by decide, ?_⟩, ?_⟩
  · have h1 : Hull3 (corners (cubeQ 0 0 0) [1, 2, 6, 5]) ⟨2, 3 / 2, 0⟩ := by
      have e : (⟨2, 3 / 2, 0⟩ : V3 ℚ) = lerp3 ⟨2, 0, 0⟩ ⟨2, 2, 0⟩ (3 / 4) := by decide +kernel
      rw [e]; exact .seg (.pt (by decide +kernel)) (.pt (by decide +kernel)) (by norm_num) (by norm_num)
    have h2 : Hull3 (corners (cubeQ 0 0 0) [1, 2, 6, 5]) ⟨2, 3 / 2, 2⟩ := by
      have e : (⟨2, 3 / 2, 2⟩ : V3 ℚ) = lerp3 ⟨2, 0, 2⟩ ⟨2, 2, 2⟩ (3 / 4) := by decide +kernel
      rw [e]; exact .seg (.pt (by decide +kernel)) (.pt (by decide +kernel)) (by norm_num) (by norm_num)
    have e : (⟨2, 3 / 2, 3 / 2⟩ : V3 ℚ) = lerp3 ⟨2, 3 / 2, 0⟩ ⟨2, 3 / 2, 2⟩ (3 / 4) := by decide +kernel
    rw [e]; exact .seg h1 h2 (by norm_num) (by norm_num)
  · unfold Inside3; decide +kernel

end Verif.Csg
