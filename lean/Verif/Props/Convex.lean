import Verif.Proofs.Convex3
import Verif.Props.Polygon
import Mathlib.Algebra.Order.Field.Rat
import Mathlib.Algebra.Order.Ring.Unbundled.Rat
/- C32, C60: containment and overlap of convex polygons and polyhedra. -/
namespace Verif.Geom
open Verif Verif.Mesh
section
variable {K : Type} [Field K] [LinearOrder K] [IsStrictOrderedRing K]

omit [IsStrictOrderedRing K] in
theorem polygon_nonempty {a : RPLC K} {A : List (V2 K)} (ha : IsPolygon a A) (hA : ConvexCCW A) : 0 < a.points.length := by
  cases A with
  | nil => exact absurd hA.1 (by simp)
  | cons v A =>
    obtain ⟨k, hk, _⟩ := mem_pts2.mp ((ha.points v).mpr (by simp))
    omega

/-- `convexWithin` decides exactly whether one convex polygon, with its boundary, is in the interior of the other. -/
theorem C32_within (dbg : Bool) {a b : RPLC K} {A B : List (V2 K)} (ha : IsPolygon a A) (hb : IsPolygon b B) (hA : ConvexCCW A) :
    ∃ r, convexWithin2 dbg a b = .ok r ∧ (r = true ↔ ∀ p, InPoly A p → StrictlyIn B p) := by
  have h0 := polygon_nonempty ha hA
  obtain ⟨r, hr, hi⟩ := scan2_spec (dbg := dbg) (b := b) ha.even h0 (stop := fun s => s != -1) (bad := fun x y => ¬ ∀ v ∈ pts2 a.points, 0 < area2 x y v)
    (fun x y s hs => by
      obtain ⟨s', hs', h1, _⟩ := cloudSide2_spec (dbg := dbg) ha.even h0 x y
      rw [hs] at hs'
      injection hs' with e
      subst e
      rw [bne_iff_ne, ne_eq, h1]) hb.ids
  refine ⟨!r, by unfold convexWithin2; rw [hr, Res.ok_bind]; rfl, ?_⟩
  rw [Bool.not_eq_true', ← Bool.not_eq_true, hi]
  constructor
  · intro h p hp e he
    obtain ⟨f, hf, rfl⟩ := (hb.sides e).mpr he
    have : ∀ v ∈ pts2 a.points, 0 < area2 (segA b.points f) (segB b.points f) v := by
      by_contra hc
      exact h ⟨f, hf, hc⟩
    exact hull2_pos this (hull2_mono (fun v hv => (ha.points v).mpr hv) ((inPoly_hull hA).mp hp))
  · rintro h ⟨f, hf, hc⟩
    exact hc fun v hv => h v ((inPoly_hull hA).mpr (Hull2.pt ((ha.points v).mp hv))) _ ((hb.sides _).mp ⟨f, hf, rfl⟩)

/-- So no polygon is within itself, and none that touches the boundary of the other is. -/
theorem C32_self_fails (dbg : Bool) {a : RPLC K} {A : List (V2 K)} (ha : IsPolygon a A) (hA : ConvexCCW A) : convexWithin2 dbg a a = .ok false := by
  obtain ⟨r, hr, hi⟩ := C32_within dbg ha ha hA
  rw [hr]
  have : r = false := by
    rw [← Bool.not_eq_true, hi]
    intro h
    cases A with
    | nil => exact absurd hA.1 (by simp)
    | cons v A =>
      obtain ⟨u, hu⟩ := exists_side_from (v := v) (vs := v :: A) (by simp)
      have := h v ((inPoly_hull hA).mpr (Hull2.pt (by simp))) _ hu
      simp only [area2] at this
      ring_nf at this
      exact lt_irrefl _ this
  rw [this]

theorem C32_touch_fails (dbg : Bool) {a b : RPLC K} {A B : List (V2 K)} (ha : IsPolygon a A) (hb : IsPolygon b B) (hA : ConvexCCW A) {v : V2 K} (hv : InPoly A v) (hv' : OnBoundary B v) :
    convexWithin2 dbg a b = .ok false := by
  obtain ⟨r, hr, hi⟩ := C32_within dbg ha hb hA
  rw [hr]
  have : r = false := by
    rw [← Bool.not_eq_true, hi]
    intro h
    obtain ⟨e, he, t, _, _, rfl⟩ := hv'
    have := h _ hv e he
    have e0 : area2 e.1 e.2 (lerp2 e.1 e.2 t) = 0 := by simp only [area2, lerp2]; ring
    rw [e0] at this
    exact lt_irrefl _ this
  rw [this]

/-- `convexIntersect` decides exactly whether two convex polygons, with their boundaries, have a point in common. -/
theorem C32_intersect (dbg : Bool) {a b : RPLC K} {A B : List (V2 K)} (ha : IsPolygon a A) (hb : IsPolygon b B) (hA : ConvexCCW A) (hB : ConvexCCW B) :
    ∃ r, convexIntersect2 dbg a b = .ok r ∧ (r = true ↔ ∃ p, InPoly A p ∧ InPoly B p) := by
  have ha0 := polygon_nonempty ha hA
  have hb0 := polygon_nonempty hb hB
  have gen : ∀ (l : List K), l.length % 2 = 0 → 0 < l.length → ∀ x y s, cloudSide2 dbg x y l = .ok s → ((fun s => s == 1) s = true ↔ ∀ v ∈ pts2 l, area2 x y v < 0) := by
    intro l h1 h2 x y s hs
    obtain ⟨s', hs', _, h⟩ := cloudSide2_spec (dbg := dbg) h1 h2 x y
    rw [hs] at hs'
    injection hs' with e
    subst e
    rw [← h]; simp
  obtain ⟨r1, hr1, hi1⟩ := scan2_spec (dbg := dbg) (b := a) hb.even hb0 (stop := fun s => s == 1) (bad := fun x y => ∀ v ∈ pts2 b.points, area2 x y v < 0)
    (gen b.points hb.even hb0) ha.ids
  obtain ⟨r2, hr2, hi2⟩ := scan2_spec (dbg := dbg) (b := b) ha.even ha0 (stop := fun s => s == 1) (bad := fun x y => ∀ v ∈ pts2 a.points, area2 x y v < 0)
    (gen a.points ha.even ha0) hb.ids
  -- a side with the other polygon strictly outside excludes common points
  have excl : ∀ {A B : List (V2 K)} (hB : ConvexCCW B) (e : V2 K × V2 K), e ∈ dirSides A → (∀ v ∈ B, area2 e.1 e.2 v < 0) → ¬ ∃ p, InPoly A p ∧ InPoly B p := by
    rintro A B hB e he hneg ⟨p, hpA, hpB⟩
    have h1 := hpA e he
    have h2 : 0 < area2 e.2 e.1 p := by
      apply hull2_pos (S := B) (fun v hv => ?_) ((inPoly_hull hB).mp hpB)
      have e' : area2 e.2 e.1 v = -area2 e.1 e.2 v := by unfold area2; ring
      rw [e']; linarith [hneg v hv]
    have e' : area2 e.2 e.1 p = -area2 e.1 e.2 p := by unfold area2; ring
    rw [e'] at h2
    linarith
  have main : (r1 = true ∨ r2 = true) ↔ ¬ ∃ p, InPoly A p ∧ InPoly B p := by
    constructor
    · rintro (h | h)
      · obtain ⟨f, hf, hn⟩ := hi1.mp h
        exact excl hB _ ((ha.sides _).mp ⟨f, hf, rfl⟩) fun v hv => hn v ((hb.points v).mpr hv)
      · obtain ⟨f, hf, hn⟩ := hi2.mp h
        rintro ⟨p, hpA, hpB⟩
        exact excl hA _ ((hb.sides _).mp ⟨f, hf, rfl⟩) (fun v hv => hn v ((ha.points v).mpr hv)) ⟨p, hpB, hpA⟩
    · intro h
      by_contra hc
      apply h
      apply separation hA hB
      · intro e he
        obtain ⟨f, hf, rfl⟩ := (ha.sides e).mpr he
        by_contra hn
        apply hc
        refine Or.inl (hi1.mpr ⟨f, hf, fun v hv => ?_⟩)
        by_contra hv'
        exact hn ⟨v, (hb.points v).mp hv, not_lt.mp hv'⟩
      · intro e he
        obtain ⟨f, hf, rfl⟩ := (hb.sides e).mpr he
        by_contra hn
        apply hc
        refine Or.inr (hi2.mpr ⟨f, hf, fun v hv => ?_⟩)
        by_contra hv'
        exact hn ⟨v, (ha.points v).mp hv, not_lt.mp hv'⟩
  unfold convexIntersect2
  rw [hr1, Res.ok_bind]
  cases r1 with
  | true =>
    refine ⟨false, rfl, ?_⟩
    have := main.mp (Or.inl rfl)
    simp only [Bool.false_eq_true, false_iff]
    exact this
  | false =>
    rw [if_neg (by simp), hr2, Res.ok_bind]
    refine ⟨!r2, rfl, ?_⟩
    cases r2 with
    | true => simpa using main.mp (Or.inr rfl)
    | false =>
      simp only [Bool.not_false, true_iff]
      by_contra hc
      rcases main.mpr hc with h | h <;> exact absurd h (by simp)

/-- Two triangles in the plane as `ReducedPLC`s. -/
def triPLC (a b c : V2 K) : RPLC K := ⟨[[0, 1], [1, 2], [2, 0]], [], [a.x, a.y, b.x, b.y, c.x, c.y]⟩
omit [IsStrictOrderedRing K] in
theorem triPLC_polygon (a b c : V2 K) : IsPolygon (triPLC a b c) [a, b, c] := by
  refine ⟨by simp [triPLC], fun v => ?_, ?_, fun e => ?_⟩
  · have : pts2 (triPLC a b c).points = [a, b, c] := by simp [pts2, triPLC, corners, vtx, List.range_succ]
    rw [this]
  · intro f hf
    simp only [triPLC, List.mem_cons, List.not_mem_nil, or_false] at hf
    rcases hf with rfl | rfl | rfl <;> simp [triPLC]
  · have hd : dirSides [a, b, c] = [(a, b), (b, c), (c, a)] := by simp [dirSides]
    rw [hd]
    constructor
    · rintro ⟨f, hf, rfl⟩
      simp only [triPLC, List.mem_cons, List.not_mem_nil, or_false] at hf
      rcases hf with rfl | rfl | rfl <;> simp [triPLC, segA, segB, vtx]
    · intro he
      simp only [List.mem_cons, List.not_mem_nil, or_false] at he
      rcases he with rfl | rfl | rfl
      · exact ⟨[0, 1], by simp [triPLC], rfl⟩
      · exact ⟨[1, 2], by simp [triPLC], rfl⟩
      · exact ⟨[2, 0], by simp [triPLC], rfl⟩
example : convexWithin2 true (triPLC (K := ℚ) ⟨1, 1⟩ ⟨2, 1⟩ ⟨1, 2⟩) (triPLC ⟨0, 0⟩ ⟨5, 0⟩ ⟨0, 5⟩) = .ok true ∧
    convexIntersect2 true (triPLC (K := ℚ) ⟨1, 1⟩ ⟨2, 1⟩ ⟨1, 2⟩) (triPLC ⟨0, 0⟩ ⟨5, 0⟩ ⟨0, 5⟩) = .ok true ∧
    convexIntersect2 true (triPLC (K := ℚ) ⟨3, 3⟩ ⟨4, 3⟩ ⟨3, 4⟩) (triPLC ⟨0, 0⟩ ⟨5, 0⟩ ⟨0, 5⟩) = .ok false := by decide +kernel

/-! ### Solids -/

/-- In space `convexWithin` is right for solids with correctly computed normals. -/
theorem C60_within_partial (dbg : Bool) {a b : RPLC K} (ha : GoodSolid a) (hb : GoodSolid b) (hn : ∀ f ∈ b.facets, TrueNormal b.points f) :
    ∃ r, convexWithin3 dbg a b = .ok r ∧ (r = true ↔ ∀ p, Hull3 (pts3 a.points) p → Behind b p) := by
  obtain ⟨r, hr, hi⟩ := scan3_spec (dbg := dbg) (b := b) (bound := b.points.length / 2) (by omega) ha.mult ha.some (stop := fun s => s != -1)
    (bad := fun o n => ¬ ∀ v ∈ pts3 a.points, dot3 n (v - o) < 0)
    (fun o n s hs => by
      obtain ⟨s', hs', h1, _⟩ := cloudSide3_spec (dbg := dbg) ha.mult ha.some o n
      rw [hs] at hs'
      injection hs' with e
      subst e
      rw [bne_iff_ne, ne_eq, h1]) hb.ids
  refine ⟨!r, by unfold convexWithin3; rw [hr, Res.ok_bind]; rfl, ?_⟩
  rw [Bool.not_eq_true', ← Bool.not_eq_true, hi]
  have hN : ∀ f ∈ b.facets, ∀ p, dot3 (computeNormal (tri3 b.points f 0) (tri3 b.points f 1) (tri3 b.points f 2)) (p - tri3 b.points f 0) =
      vol6 (tri3 b.points f 0) (tri3 b.points f 1) (tri3 b.points f 2) p := by
    intro f hf p
    have := hn f hf
    unfold TrueNormal at this
    rw [normal_height, this]; ring
  constructor
  · intro h p hp f hf
    have : ∀ v ∈ pts3 a.points, vol6 (tri3 b.points f 0) (tri3 b.points f 1) (tri3 b.points f 2) v < 0 := by
      intro v hv
      rw [← hN f hf v]
      by_contra hc
      exact h ⟨f, hf, fun hall => hc (hall v hv)⟩
    exact hull3_neg this hp
  · rintro h ⟨f, hf, hc⟩
    exact hc fun v hv => by rw [hN f hf v]; exact h v (Hull3.pt hv) f hf

omit [IsStrictOrderedRing K] in
/-- A facet across the x direction whose first and third vertices are equally high gets the normal zero, and then nothing is within the solid. -/
theorem C60_zero_normal_fails (dbg : Bool) {a b : RPLC K} (ha : GoodSolid a) (hb : GoodSolid b) {f : List Int} (hf : f ∈ b.facets)
    (hx1 : (tri3 b.points f 1).x = (tri3 b.points f 0).x) (hx2 : (tri3 b.points f 2).x = (tri3 b.points f 0).x) (hz : (tri3 b.points f 2).z = (tri3 b.points f 0).z) :
    convexWithin3 dbg a b = .ok false := by
  obtain ⟨r, hr, hi⟩ := scan3_spec (dbg := dbg) (b := b) (bound := b.points.length / 2) (by omega) ha.mult ha.some (stop := fun s => s != -1)
    (bad := fun o n => ¬ ∀ v ∈ pts3 a.points, dot3 n (v - o) < 0)
    (fun o n s hs => by
      obtain ⟨s', hs', h1, _⟩ := cloudSide3_spec (dbg := dbg) ha.mult ha.some o n
      rw [hs] at hs'
      injection hs' with e
      subst e
      rw [bne_iff_ne, ne_eq, h1]) hb.ids
  have : r = true := by
    rw [hi]
    refine ⟨f, hf, fun hall => ?_⟩
    have hm : vtx3 a.points 0 ∈ pts3 a.points := mem_pts3.mpr ⟨0, by have := ha.some; have := ha.mult; omega, rfl⟩
    have := hall _ hm
    rw [show computeNormal (tri3 b.points f 0) (tri3 b.points f 1) (tri3 b.points f 2) = 0 from by
      ext <;> simp [computeNormal, hx1, hx2, hz]] at this
    simp [dot3] at this
  unfold convexWithin3
  rw [hr, this]; rfl

omit [IsStrictOrderedRing K] in
/-- What `convexIntersect` decides in space: only the planes of the facets matter, never the directions of the edges. -/
theorem C60_intersect_facets_only (dbg : Bool) {a b : RPLC K} (ha : GoodSolid a) (hb : GoodSolid b) (hna : ∀ f ∈ a.facets, f.Nodup) (hnb : ∀ f ∈ b.facets, f.Nodup) :
    ∃ r, convexIntersect3 dbg a b = .ok r ∧ (r = false ↔
      (∃ f ∈ a.facets, ∀ v ∈ pts3 b.points, 0 < dot3 (computeNormal (tri3 a.points f 0) (tri3 a.points f 1) (tri3 a.points f 2)) (v - tri3 a.points f 0)) ∨
      (∃ f ∈ b.facets, ∀ v ∈ pts3 a.points, 0 < dot3 (computeNormal (tri3 b.points f 0) (tri3 b.points f 1) (tri3 b.points f 2)) (v - tri3 b.points f 0))) := by
  have gen : ∀ {l : List K}, l.length % 3 = 0 → 0 < l.length → ∀ o n s, cloudSide3 dbg o n l = .ok s → ((fun s => s == 1) s = true ↔ ∀ v ∈ pts3 l, 0 < dot3 n (v - o)) := by
    intro l h1 h2 o n s hs
    obtain ⟨s', hs', _, h⟩ := cloudSide3_spec (dbg := dbg) h1 h2 o n
    rw [hs] at hs'
    injection hs' with e
    subst e
    rw [← h]; simp
  obtain ⟨r1, hr1, hi1⟩ := scan3_spec (dbg := dbg) (b := a) (bound := a.points.length / 3) (le_refl _) hb.mult hb.some (stop := fun s => s == 1)
    (bad := fun o n => ∀ v ∈ pts3 b.points, 0 < dot3 n (v - o)) (gen hb.mult hb.some) ha.ids
  obtain ⟨r2, hr2, hi2⟩ := scan3_spec (dbg := dbg) (b := b) (bound := b.points.length / 3) (le_refl _) ha.mult ha.some (stop := fun s => s == 1)
    (bad := fun o n => ∀ v ∈ pts3 a.points, 0 < dot3 n (v - o)) (gen ha.mult ha.some) hb.ids
  rw [← hi1, ← hi2]
  unfold convexIntersect3
  rw [hr1, Res.ok_bind]
  cases r1 with
  | true => exact ⟨false, rfl, by simp⟩
  | false =>
    rw [if_neg (by simp), hr2, Res.ok_bind]
    cases r2 with
    | true => exact ⟨false, rfl, by simp⟩
    | false =>
      rw [if_neg (by simp)]
      obtain ⟨EA, hEA, hA⟩ := allEdges_spec dbg (n := a.points.length / 3) (fs := a.facets) (acc := [])
        (fun f hf => ⟨hna f hf, by have := (ha.ids f hf).1; omega, (ha.ids f hf).2⟩) (by simp)
      obtain ⟨EB, hEB, hB⟩ := allEdges_spec dbg (n := b.points.length / 3) (fs := b.facets) (acc := [])
        (fun f hf => ⟨hnb f hf, by have := (hb.ids f hf).1; omega, (hb.ids f hf).2⟩) (by simp)
      rw [hEA, Res.ok_bind, hEB, Res.ok_bind, edgeOuter_dead dbg ha hb hB hA, Res.ok_bind]
      exact ⟨true, rfl, by simp⟩

/-- With correctly computed normals, solids reported disjoint have no point in common. -/
theorem C60_disjoint_partial (dbg : Bool) {a b : RPLC K} (ha : GoodSolid a) (hb : GoodSolid b) (hna : ∀ f ∈ a.facets, f.Nodup) (hnb : ∀ f ∈ b.facets, f.Nodup)
    (hta : ∀ f ∈ a.facets, TrueNormal a.points f) (htb : ∀ f ∈ b.facets, TrueNormal b.points f)
    (hca : ∀ v ∈ pts3 a.points, BehindOrOn a v) (hcb : ∀ v ∈ pts3 b.points, BehindOrOn b v) (h : convexIntersect3 dbg a b = .ok false) :
    ¬ ∃ p, Hull3 (pts3 a.points) p ∧ Hull3 (pts3 b.points) p := by
  obtain ⟨r, hr, hi⟩ := C60_intersect_facets_only dbg ha hb hna hnb
  rw [h] at hr
  injection hr with hr
  rintro ⟨p, hpa, hpb⟩
  have excl : ∀ {a : RPLC K} {l : List K}, (∀ f ∈ a.facets, TrueNormal a.points f) → (∀ v ∈ pts3 a.points, BehindOrOn a v) → Hull3 (pts3 a.points) p → Hull3 (pts3 l) p →
      (∃ f ∈ a.facets, ∀ v ∈ pts3 l, 0 < dot3 (computeNormal (tri3 a.points f 0) (tri3 a.points f 1) (tri3 a.points f 2)) (v - tri3 a.points f 0)) → False := by
    rintro a l ht hc h1 h2 ⟨f, hf, hall⟩
    have hN : ∀ q, dot3 (computeNormal (tri3 a.points f 0) (tri3 a.points f 1) (tri3 a.points f 2)) (q - tri3 a.points f 0) =
        vol6 (tri3 a.points f 0) (tri3 a.points f 1) (tri3 a.points f 2) q := by
      intro q
      have := ht f hf
      unfold TrueNormal at this
      rw [normal_height, this]; ring
    have g1 := hull3_pos (S := pts3 l) (fun v hv => by rw [← hN v]; exact hall v hv) h2
    have g2 := hull3_nonpos (S := pts3 a.points) (fun v hv => hc v hv f hf) h1
    exact absurd g1 (not_lt.mpr g2)
  rcases hi.mp hr.symm with h' | h'
  · exact excl hta hca hpa hpb h'
  · exact excl htb hcb hpb hpa h'
end

/-- Tetrahedra with wrong answers. `tetA` and `tetB` are apart, which only a direction across two edges shows, and are reported as intersecting. `tetC` contains a corner of
`tetD` strictly, and they are reported as disjoint. -/
def tetA : RPLC ℚ := ⟨[[0, 1, 2], [0, 3, 1], [0, 2, 3], [1, 3, 2]], [], [-2, 0, 0, 2, 0, 0, 0, 2, -2, 0, -2, -2]⟩
def tetB : RPLC ℚ := ⟨[[0, 2, 1], [0, 1, 3], [0, 3, 2], [1, 2, 3]], [], [-2, 0, 3, 0, -2, 1, 0, 2, 1, 2, 0, 3]⟩
def tetC : RPLC ℚ := ⟨[[0, 2, 1], [0, 1, 3], [0, 3, 2], [1, 2, 3]], [], [-2, -1, 0, 1, 0, 1, 0, 0, -1, -1, 2, 1]⟩
def tetD : RPLC ℚ := ⟨[[0, 2, 1], [0, 1, 3], [0, 3, 2], [1, 2, 3]], [], [-1, 0, 0, 1, 1, 1, 0, -1, -2, 0, 0, -1]⟩

theorem hull3_z {S : List (V3 ℚ)} {c : ℚ} (h : ∀ v ∈ S, v.z ≤ c) {p : V3 ℚ} (hp : Hull3 S p) : p.z ≤ c := by
  induction hp with
  | pt hm => exact h _ hm
  | @seg p q t _ _ h0 h1 ih1 ih2 => simp only [lerp3]; nlinarith
theorem hull3_z' {S : List (V3 ℚ)} {c : ℚ} (h : ∀ v ∈ S, c ≤ v.z) {p : V3 ℚ} (hp : Hull3 S p) : c ≤ p.z := by
  induction hp with
  | pt hm => exact h _ hm
  | @seg p q t _ _ h0 h1 ih1 ih2 => simp only [lerp3]; nlinarith

/-- Disjoint solids reported as intersecting. -/
theorem C60_edge_fails : convexIntersect3 true tetA tetB = .ok true ∧ ¬ ∃ p, Hull3 (pts3 tetA.points) p ∧ Hull3 (pts3 tetB.points) p := by
  refine ⟨by decide +kernel, ?_⟩
  rintro ⟨p, hA, hB⟩
  have h1 := hull3_z (c := 0) (by decide +kernel) hA
  have h2 := hull3_z' (c := 1) (by decide +kernel) hB
  linarith

/-- Intersecting solids reported as disjoint: a corner of one is strictly inside the other. -/
theorem C60_normal_fails : convexIntersect3 true tetC tetD = .ok false ∧ ∃ v ∈ pts3 tetD.points, Behind tetC v := by
  refine ⟨by decide +kernel, ⟨-1, 0, 0⟩, by decide +kernel, ?_⟩
  unfold Behind
  decide +kernel

/-- Outside points reported within, and inside points reported not within. -/
def tetE : RPLC ℚ := ⟨[[0, 2, 1], [0, 1, 3], [0, 3, 2], [1, 2, 3]], [], [0, 1, -2, -2, 1, -1, 0, 0, 0, 1, 0, 1]⟩
def tetF : RPLC ℚ := ⟨[[0, 1, 2], [0, 3, 1], [0, 2, 3], [1, 3, 2]], [], [-1, 1, 0, 1, 1, 2, 0, 0, -1, 0, -2, -1]⟩
theorem C60_within_fails : (convexWithin3 true ⟨[], [], [0, 0, 1]⟩ tetE = .ok true ∧ ¬ BehindOrOn tetE ⟨0, 0, 1⟩) ∧
    (convexWithin3 true ⟨[], [], [0, 0, 0]⟩ tetF = .ok false ∧ Behind tetF ⟨0, 0, 0⟩) := by
  unfold Behind BehindOrOn
  decide +kernel

/-- The hypotheses of the positive theorems hold for tetrahedra listed so that the second vertices of the facets are level. -/
def tetG : RPLC ℚ := ⟨[[0, 2, 1], [0, 1, 3], [2, 0, 3], [1, 2, 3]], [], [0, 0, 0, 4, 0, 0, 0, 4, 0, 0, 0, 4]⟩
def tetH : RPLC ℚ := ⟨[[0, 2, 1], [0, 1, 3], [2, 0, 3], [1, 2, 3]], [], [5, 5, 5, 9, 5, 5, 5, 9, 5, 5, 5, 9]⟩
example : GoodSolid tetG ∧ (∀ f ∈ tetG.facets, f.Nodup) ∧ (∀ f ∈ tetG.facets, TrueNormal tetG.points f) ∧ (∀ v ∈ pts3 tetG.points, BehindOrOn tetG v) ∧
    (∀ f ∈ tetH.facets, TrueNormal tetH.points f) ∧ (∀ v ∈ pts3 tetH.points, BehindOrOn tetH v) ∧
    convexIntersect3 true tetG tetH = .ok false ∧ convexWithin3 true ⟨[], [], [1, 1, 1]⟩ tetG = .ok true := by
  unfold TrueNormal BehindOrOn
  refine ⟨⟨by decide, by decide, by decide⟩, ?_⟩
  decide +kernel
/-- And the zero normal appears on the unit corner tetrahedron. -/
def tetI : RPLC ℚ := ⟨[[0, 2, 1], [0, 1, 3], [0, 3, 2], [1, 2, 3]], [], [0, 0, 0, 4, 0, 0, 0, 4, 0, 0, 0, 4]⟩
example : convexWithin3 true ⟨[], [], [1, 1, 1]⟩ tetI = .ok false ∧ Behind tetI ⟨1, 1, 1⟩ := by
  unfold Behind; decide +kernel
example : [0, 3, 2] ∈ tetI.facets ∧ (tri3 tetI.points [0, 3, 2] 1).x = (tri3 tetI.points [0, 3, 2] 0).x ∧ (tri3 tetI.points [0, 3, 2] 2).x = (tri3 tetI.points [0, 3, 2] 0).x ∧
    (tri3 tetI.points [0, 3, 2] 2).z = (tri3 tetI.points [0, 3, 2] 0).z := by decide +kernel

end Verif.Geom
