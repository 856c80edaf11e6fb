import Verif.Proofs.Query
import Mathlib.Algebra.Order.Field.Rat
import Mathlib.Algebra.Order.Ring.Unbundled.Rat
/- C29, C30, C55: closest points, segment intersection, counting intersections with a boundary. -/
namespace Verif.Geom
open Verif Verif.Mesh

/-! ### C29 -/

/-- C29 (partial). The returned point is on the segment and, for segments of length at least 1e-10, no point of the segment is closer. -/
theorem C29_segment_partial (p s1 s2 : V2 ℝ) : OnSeg s1 s2 (closestOnSeg p s1 s2) ∧
    (1 / 10 ^ 10 ≤ dist2 s1 s2 → ∀ q, OnSeg s1 s2 q → dist2 p (closestOnSeg p s1 s2) ≤ dist2 p q) :=
  ⟨closest_onSeg p s1 s2, fun h _ hq => closest_best (not_lt.2 h) hq⟩

/-- C29 (partial). For every segment the returned point is within 5e-11 of being closest. -/
theorem C29_segment_near (p s1 s2 : V2 ℝ) : ∀ q, OnSeg s1 s2 q → dist2 p (closestOnSeg p s1 s2) ≤ dist2 p q + 1 / 2 * (1 / 10 ^ 10) := fun _ hq => closest_near hq

/-- C29 is false of the code for short segments: for every segment of length below 1e-10 that is not a point, the answer for its own end point is not the end point. -/
theorem C29_short_segment_fails {s1 s2 : V2 ℝ} (hne : s1 ≠ s2) (h : dist2 s1 s2 < 1 / 10 ^ 10) :
    OnSeg s1 s2 s1 ∧ dist2 s1 s1 < dist2 s1 (closestOnSeg s1 s1 s2) := by
  refine ⟨⟨0, le_refl _, zero_le_one, by simp [lerp2]⟩, ?_⟩
  rw [closest_mid h]
  refine Real.sqrt_lt_sqrt (sq2_nonneg _ _) ?_
  have e : sq2 s1 (lerp2 s1 s2 (1 / 2)) = 1 / 4 * ((s2.x - s1.x) ^ 2 + (s2.y - s1.y) ^ 2) := by simp only [sq2, lerp2]; ring
  have e0 : sq2 s1 s1 = 0 := by simp [sq2]
  rw [e, e0]
  have : s2.x - s1.x ≠ 0 ∨ s2.y - s1.y ≠ 0 := by
    by_contra hh
    rw [not_or, not_not, not_not] at hh
    exact hne (V2.ext (by linarith [hh.1]) (by linarith [hh.2]))
  rcases this with h1 | h1
  · have := pow_pos (abs_pos.2 h1) 2; rw [sq_abs] at this; nlinarith [sq_nonneg (s2.y - s1.y)]
  · have := pow_pos (abs_pos.2 h1) 2; rw [sq_abs] at this; nlinarith [sq_nonneg (s2.x - s1.x)]

/-- C29. `nearestPoint` for a PLC with at least one facet, closer than `big` (the largest number): it succeeds, the reported distance is that of the reported point, that
point is on the boundary, and no boundary point is closer by more than 5e-11; by nothing at all if no facet is shorter than 1e-10. -/
theorem C29_nearestPoint {dbg : Bool} {big : ℝ} {n : Nat} {verts : List ℝ} {p : V2 ℝ} {plc : PLC} (hg : GoodFacets n verts (allFacets plc))
    (hbig : ∃ q, OnPLC verts plc q ∧ dist2 p q + 1 / 2 * (1 / 10 ^ 10) < big) :
    ∃ d r, nearestPoint dbg big n verts p plc = .ok (d, some r) ∧ d = dist2 p r ∧ OnPLC verts plc r ∧
      (∀ q, OnPLC verts plc q → d ≤ dist2 p q + 1 / 2 * (1 / 10 ^ 10)) ∧
      ((∀ f ∈ allFacets plc, 1 / 10 ^ 10 ≤ dist2 (segA verts f) (segB verts f)) → ∀ q, OnPLC verts plc q → d ≤ dist2 p q) := by
  obtain ⟨r, e, h1, h2, h3⟩ := nearestPoint_spec (dbg := dbg) (big := big) (p := p) hg
  have hr : ∃ f ∈ allFacets plc, r = (dist2 p (closestOnSeg p (segA verts f) (segB verts f)), some (closestOnSeg p (segA verts f) (segB verts f))) := by
    rcases h3 with h3 | h3
    · obtain ⟨q, ⟨f, hf, hq⟩, hlt⟩ := hbig
      have ha := h2 f hf
      have hb := closest_near (p := p) hq
      rw [h3] at ha
      dsimp only at ha
      linarith
    · exact h3
  obtain ⟨f, hf, rfl⟩ := hr
  refine ⟨_, _, e, rfl, ⟨f, hf, closest_onSeg _ _ _⟩, ?_, ?_⟩
  · rintro q ⟨g, hgm, hq⟩
    exact (h2 g hgm).trans (closest_near hq)
  · rintro hlong q ⟨g, hgm, hq⟩
    exact (h2 g hgm).trans (closest_best (not_lt.2 (hlong g hgm)) hq)

/-- C29. Without facets nothing is written and the largest number is returned. -/
theorem C29_no_facets {dbg : Bool} {big : ℝ} {n : Nat} {verts : List ℝ} {p : V2 ℝ} : nearestPoint dbg big n verts p {} = .ok (big, none) := rfl

/-- A unit square. -/
noncomputable def squareR : List ℝ := [0, 0, 1, 0, 1, 1, 0, 1]
def squareFacets : PLC := { facets := [[0, 1], [1, 2], [2, 3], [3, 0]] }

/-- The hypotheses of C29 hold for the unit square, the query (1/2, -1) and a large `big`. -/
example : GoodFacets 4 squareR (allFacets squareFacets) ∧ (∃ q, OnPLC squareR squareFacets q ∧ dist2 ⟨1/2, -1⟩ q + 1 / 2 * (1 / 10 ^ 10) < 1000) ∧
    ∀ f ∈ allFacets squareFacets, 1 / 10 ^ 10 ≤ dist2 (segA squareR f) (segB squareR f) := by
  refine ⟨⟨rfl, by decide⟩, ⟨⟨1/2, 0⟩, ⟨[0, 1], by decide, 1/2, by norm_num, by norm_num, ?_⟩, ?_⟩, ?_⟩
  · ext <;> norm_num [lerp2, segA, segB, vtx, squareR]
  · have : dist2 ⟨1/2, -1⟩ ⟨1/2, 0⟩ = 1 := by norm_num [dist2, sq2]
    rw [this]; norm_num
  · intro f hf
    simp only [allFacets, squareFacets, List.flatten_nil, List.append_nil, List.mem_cons, List.not_mem_nil, or_false] at hf
    have v0 : vtx squareR 0 = ⟨0, 0⟩ := rfl
    have v1 : vtx squareR 1 = ⟨1, 0⟩ := rfl
    have v2 : vtx squareR 2 = ⟨1, 1⟩ := rfl
    have v3 : vtx squareR 3 = ⟨0, 1⟩ := rfl
    rcases hf with rfl | rfl | rfl | rfl <;> norm_num [dist2, sq2, segA, segB, v0, v1, v2, v3]

/-! ### C30 -/
section
variable {K : Type} [Field K] [LinearOrder K] [IsStrictOrderedRing K]

/-- Solving for the crossing of two lines. -/
theorem crossing {a b c d : V2 K} (hk : cross2 (b - a) (d - c) ≠ 0) :
    lerp2 a b (cross2 (c - a) (d - c) / cross2 (b - a) (d - c)) = lerp2 c d (cross2 (c - a) (b - a) / cross2 (b - a) (d - c)) := by
  have key : ∀ (k n1 n2 u v r s : K), k ≠ 0 → u * k + n1 * r = v * k + n2 * s → u + n1 / k * r = v + n2 / k * s := by
    intro k n1 n2 u v r s hk h
    field_simp
    linear_combination h
  unfold lerp2
  ext
  · refine key _ _ _ _ _ _ _ hk ?_
    simp only [cross2, V2.sub_x, V2.sub_y]; ring
  · refine key _ _ _ _ _ _ _ hk ?_
    simp only [cross2, V2.sub_x, V2.sub_y]; ring

theorem crossing_unique {a b c d : V2 K} (hk : cross2 (b - a) (d - c) ≠ 0) {s t : K} (h : lerp2 a b s = lerp2 c d t) :
    s = cross2 (c - a) (d - c) / cross2 (b - a) (d - c) ∧ t = cross2 (c - a) (b - a) / cross2 (b - a) (d - c) := by
  have hx : a.x + s * (b.x - a.x) = c.x + t * (d.x - c.x) := congrArg V2.x h
  have hy : a.y + s * (b.y - a.y) = c.y + t * (d.y - c.y) := congrArg V2.y h
  rw [eq_div_iff hk, eq_div_iff hk]
  simp only [cross2, V2.sub_x, V2.sub_y]
  constructor
  · linear_combination (d.y - c.y) * hx - (d.x - c.x) * hy
  · linear_combination (b.y - a.y) * hx - (b.x - a.x) * hy

/-- C30 (partial: sound up to the tolerance). A reported point is on one of the segments, and it is the crossing of the two lines moved by at most `tol` times one of the
segments; the crossing is on both segments extended by `tol` times their length at each end. -/
theorem C30_sound_partial {a b c d p : V2 K} {tol : K} (ht0 : 0 ≤ tol) (ht1 : tol ≤ 1) (h : segIntersect a b c d tol = some p) :
    (OnSeg a b p ∨ OnSeg c d p) ∧ ∃ s t e, lerp2 a b s = lerp2 c d t ∧ -tol ≤ s ∧ s ≤ 1 + tol ∧ -tol ≤ t ∧ t ≤ 1 + tol ∧ |e| ≤ tol ∧
      (p = lerp2 a b (s + e) ∨ p = lerp2 c d (t + e)) := by
  unfold segIntersect at h
  dsimp only at h
  split at h
  · cases h
  · rename_i hk
    have hcr := crossing hk
    generalize cross2 (c - a) (d - c) / cross2 (b - a) (d - c) = s at *
    generalize cross2 (c - a) (b - a) / cross2 (b - a) (d - c) = t at *
    split at h
    · rename_i hr
      obtain ⟨h1, h2, h3, h4⟩ := hr
      have la : ∀ u v : V2 K, lerp2 u v 0 = u := by intro u v; unfold lerp2; ext <;> simp
      have lb : ∀ u v : V2 K, lerp2 u v 1 = v := by intro u v; unfold lerp2; ext <;> simp
      split at h
      · rename_i hs
        cases h
        refine ⟨Or.inl ⟨0, le_refl _, zero_le_one, (la _ _).symm⟩, s, t, -s, hcr, h1, h2, h3, h4, ?_, Or.inl ?_⟩
        · rw [abs_neg, abs_le]; exact ⟨h1, hs.le⟩
        · rw [add_neg_cancel, la]
      · split at h
        · rename_i hs
          cases h
          refine ⟨Or.inl ⟨1, zero_le_one, le_refl _, (lb _ _).symm⟩, s, t, 1 - s, hcr, h1, h2, h3, h4, ?_, Or.inl ?_⟩
          · rw [abs_le]; constructor <;> linarith
          · rw [add_sub_cancel, lb]
        · split at h
          · rename_i hs
            cases h
            refine ⟨Or.inr ⟨0, le_refl _, zero_le_one, (la _ _).symm⟩, s, t, -t, hcr, h1, h2, h3, h4, ?_, Or.inr ?_⟩
            · rw [abs_neg, abs_le]; exact ⟨h3, hs.le⟩
            · rw [add_neg_cancel, la]
          · split at h
            · rename_i hs
              cases h
              refine ⟨Or.inr ⟨1, zero_le_one, le_refl _, (lb _ _).symm⟩, s, t, 1 - t, hcr, h1, h2, h3, h4, ?_, Or.inr ?_⟩
              · rw [abs_le]; constructor <;> linarith
              · rw [add_sub_cancel, lb]
            · rename_i g1 g2 g3 g4
              rw [not_lt] at g1 g2 g3 g4
              have hp : p = lerp2 c d t := (Option.some.inj h).symm
              refine ⟨Or.inr ⟨t, by linarith, by linarith, hp⟩, s, t, 0, hcr, h1, h2, h3, h4, by simpa using ht0, Or.inr (by rw [add_zero]; exact hp)⟩
    · cases h

/-- C30. With zero tolerance the test is exact: for segments that are not parallel it reports a point exactly when the segments meet, and then the reported point is the
common point. -/
theorem C30_exact {a b c d : V2 K} (hk : cross2 (b - a) (d - c) ≠ 0) (p : V2 K) : segIntersect a b c d 0 = some p ↔ OnSeg a b p ∧ OnSeg c d p := by
  constructor
  · intro h
    obtain ⟨-, s, t, e, hst, h1, h2, h3, h4, he, hp⟩ := C30_sound_partial (le_refl _) zero_le_one h
    have he : e = 0 := abs_eq_zero.1 (le_antisymm he (abs_nonneg e))
    subst he
    rw [add_zero, add_zero] at hp
    rw [neg_zero] at h1 h3
    rw [add_zero] at h2 h4
    rcases hp with rfl | rfl
    · exact ⟨⟨s, h1, h2, rfl⟩, ⟨t, h3, h4, hst⟩⟩
    · exact ⟨⟨s, h1, h2, hst.symm⟩, ⟨t, h3, h4, rfl⟩⟩
  · rintro ⟨⟨s, h1, h2, rfl⟩, ⟨t, h3, h4, hst⟩⟩
    obtain ⟨e1, e2⟩ := crossing_unique hk hst
    unfold segIntersect
    dsimp only
    rw [if_neg hk, ← e1, ← e2, if_pos ⟨by linarith, by linarith, by linarith, by linarith⟩, if_neg (not_lt.2 h1), if_neg (by rw [sub_zero]; exact not_lt.2 h2),
      if_neg (not_lt.2 h3), if_neg (by rw [sub_zero]; exact not_lt.2 h4), hst]
    rfl

/-- C30 (complete). Whatever the tolerance, segments that are not parallel and meet are reported. -/
theorem C30_complete {a b c d p : V2 K} (hk : cross2 (b - a) (d - c) ≠ 0) {tol : K} (ht : 0 ≤ tol) (h1 : OnSeg a b p) (h2 : OnSeg c d p) :
    ∃ q, segIntersect a b c d tol = some q := by
  obtain ⟨s, h1, h2, rfl⟩ := h1
  obtain ⟨t, h3, h4, hst⟩ := h2
  obtain ⟨e1, e2⟩ := crossing_unique hk hst
  unfold segIntersect
  dsimp only
  rw [if_neg hk, ← e1, ← e2, if_pos ⟨by linarith, by linarith, by linarith, by linarith⟩]
  split
  · exact ⟨_, rfl⟩
  split
  · exact ⟨_, rfl⟩
  split
  · exact ⟨_, rfl⟩
  split
  · exact ⟨_, rfl⟩
  · exact ⟨_, rfl⟩

/-- Parallel segments, overlapping or not, are never reported. -/
theorem C30_parallel {a b c d : V2 K} (hk : cross2 (b - a) (d - c) = 0) (tol : K) : segIntersect a b c d tol = none := by
  unfold segIntersect; dsimp only; rw [if_pos hk]

/-- C30 is false of the code for every positive tolerance: it reports an intersection of segments that do not meet. -/
theorem C30_near_miss_fails {tol : K} (ht : 0 < tol) : ∃ a b c d p : V2 K, segIntersect a b c d tol = some p ∧ ¬ ∃ q, OnSeg a b q ∧ OnSeg c d q := by
  refine ⟨⟨0, 0⟩, ⟨1, 0⟩, ⟨1 + tol, -1⟩, ⟨1 + tol, 1⟩, ⟨1, 0⟩, ?_, ?_⟩
  · unfold segIntersect
    dsimp only
    have e1 : cross2 ((⟨1, 0⟩ : V2 K) - ⟨0, 0⟩) (⟨1 + tol, 1⟩ - ⟨1 + tol, -1⟩) = 2 := by simp only [cross2, V2.sub_x, V2.sub_y]; ring
    have e2 : cross2 ((⟨1 + tol, -1⟩ : V2 K) - ⟨0, 0⟩) (⟨1 + tol, 1⟩ - ⟨1 + tol, -1⟩) = 2 * (1 + tol) := by simp only [cross2, V2.sub_x, V2.sub_y]; ring
    have e3 : cross2 ((⟨1 + tol, -1⟩ : V2 K) - ⟨0, 0⟩) (⟨1, 0⟩ - ⟨0, 0⟩) = 1 := by simp only [cross2, V2.sub_x, V2.sub_y]; ring
    rw [e1, e2, e3, mul_div_cancel_left₀ _ (by norm_num)]
    rw [if_neg (by norm_num), if_pos ⟨by linarith, le_refl _, by linarith [show (0 : K) < 1 / 2 by norm_num], by linarith [show (1 : K) / 2 < 1 by norm_num]⟩,
      if_neg (by linarith), if_pos (by linarith)]
  · rintro ⟨q, ⟨s, -, hs, e⟩, ⟨t, -, -, e'⟩⟩
    have h1 := congrArg V2.x e
    have h2 := congrArg V2.x e'
    simp only [lerp2] at h1 h2
    have : 1 + tol = s := by linear_combination h1 - h2
    linarith

example : segIntersect (⟨0, 0⟩ : V2 ℚ) ⟨2, 2⟩ ⟨0, 2⟩ ⟨2, 0⟩ (1 / 10 ^ 8) = some ⟨1, 1⟩ := by decide +kernel
example : cross2 ((⟨2, 2⟩ : V2 ℚ) - ⟨0, 0⟩) (⟨2, 0⟩ - ⟨0, 2⟩) ≠ 0 := by decide +kernel

/-! ### C55 -/

/-- C55 (partial). Every point that `intersect` appends is the reported intersection with some facet of the boundary, the points already in the list stay, and the count is
the number of points appended. -/
theorem C55_sound_partial {dbg : Bool} {n : Nat} {verts : List K} {p1 p2 : V2 K} {tol : K} {plc : PLC} (hg : GoodFacets n verts (allFacets plc)) (result : List K) :
    ∃ (N : Nat) (Q : List (V2 K)), intersect dbg n verts p1 p2 tol plc result = .ok (N, result ++ Q.flatMap fun q => [q.x, q.y]) ∧ N = Q.length ∧
      ∀ q ∈ Q, ∃ f ∈ allFacets plc, segIntersect p1 p2 (segA verts f) (segB verts f) tol = some q := by
  have loop : ∀ (fs : List (List Int)) (k : Nat) (res : List K), (∀ f ∈ fs, f ∈ allFacets plc) →
      ∃ Q : List (V2 K), intersectLoop dbg n verts p1 p2 tol fs (k, res) = .ok (k + Q.length, res ++ Q.flatMap fun q => [q.x, q.y]) ∧
        ∀ q ∈ Q, ∃ f ∈ allFacets plc, segIntersect p1 p2 (segA verts f) (segB verts f) tol = some q := by
    intro fs
    induction fs with
    | nil => intro k res _; exact ⟨[], by simp [intersectLoop], by simp⟩
    | cons f fs ih =>
      intro k res hsub
      rw [intersectLoop]
      simp only [Res.bind_eq]
      rw [facetEnds_ok hg (hsub f (by simp)), Res.bind_ok]
      dsimp only
      split
      · exact ih k res fun g hgm => hsub g (List.mem_cons_of_mem _ hgm)
      · rename_i q hq
        split
        · obtain ⟨Q, e, hQ⟩ := ih (k + 1) (res ++ [q.x, q.y]) fun g hgm => hsub g (List.mem_cons_of_mem _ hgm)
          refine ⟨q :: Q, ?_, ?_⟩
          · rw [e]; simp only [List.length_cons, List.flatMap_cons, List.append_assoc]
            congr 2; omega
          · intro q' hq'
            rcases List.mem_cons.1 hq' with rfl | hq'
            · exact ⟨f, hsub f (by simp), hq⟩
            · exact hQ q' hq'
        · exact ih k res fun g hgm => hsub g (List.mem_cons_of_mem _ hgm)
  have holes : ∀ (hs : List (List (List Int))) (k : Nat) (res : List K), (∀ f ∈ hs.flatten, f ∈ allFacets plc) →
      ∃ Q : List (V2 K), intersectHoles dbg n verts p1 p2 tol hs (k, res) = .ok (k + Q.length, res ++ Q.flatMap fun q => [q.x, q.y]) ∧
        ∀ q ∈ Q, ∃ f ∈ allFacets plc, segIntersect p1 p2 (segA verts f) (segB verts f) tol = some q := by
    intro hs
    induction hs with
    | nil => intro k res _; exact ⟨[], by simp [intersectHoles], by simp⟩
    | cons h hs ih =>
      intro k res hsub
      obtain ⟨Q1, e1, hQ1⟩ := loop h 0 res fun f hf => hsub f (by rw [List.flatten_cons]; exact List.mem_append_left _ hf)
      obtain ⟨Q2, e2, hQ2⟩ := ih (k + Q1.length) (res ++ Q1.flatMap fun q => [q.x, q.y]) fun f hf => hsub f (by rw [List.flatten_cons]; exact List.mem_append_right _ hf)
      refine ⟨Q1 ++ Q2, ?_, ?_⟩
      · rw [intersectHoles]
        simp only [Res.bind_eq]
        rw [e1, Res.bind_ok]
        simp only [Nat.zero_add]
        rw [e2]; simp only [List.length_append, List.flatMap_append, List.append_assoc]
        congr 2; omega
      · intro q hq
        rcases List.mem_append.1 hq with hq | hq
        · exact hQ1 q hq
        · exact hQ2 q hq
  obtain ⟨Q1, e1, hQ1⟩ := loop plc.facets 0 result fun f hf => List.mem_append_left _ hf
  obtain ⟨Q2, e2, hQ2⟩ := holes plc.holes Q1.length (result ++ Q1.flatMap fun q => [q.x, q.y]) fun f hf => List.mem_append_right _ hf
  refine ⟨(Q1 ++ Q2).length, Q1 ++ Q2, ?_, rfl, ?_⟩
  · rw [intersect]
    simp only [Res.bind_eq]
    rw [e1, Res.bind_ok, Nat.zero_add, e2]
    simp only [List.length_append, List.flatMap_append, List.append_assoc]
  · intro q hq
    rcases List.mem_append.1 hq with hq | hq
    · exact hQ1 q hq
    · exact hQ2 q hq

theorem segIntersect_horizontal {a b c d q : V2 K} {tol : K} (hh : a.y = b.y) (hc : tol * |d.y - c.y| < |a.y - c.y|) (hd : tol * |d.y - c.y| < |a.y - d.y|)
    (h : segIntersect a b c d tol = some q) : q.y = a.y := by
  unfold segIntersect at h
  dsimp only at h
  split at h
  · cases h
  · rename_i hk
    have hr1 : (b - a).x ≠ 0 := by
      intro h0; apply hk; simp only [cross2, h0, V2.sub_y, hh, sub_self, zero_mul]
    have hr2 : d.y - c.y ≠ 0 := by
      intro h0; apply hk; simp only [cross2, V2.sub_y, hh, sub_self, zero_mul, h0, mul_zero]
    have ep2 : cross2 (c - a) (b - a) / cross2 (b - a) (d - c) = (a.y - c.y) / (d.y - c.y) := by
      rw [div_eq_div_iff hk hr2]
      simp only [cross2, V2.sub_x, V2.sub_y, hh] at *
      ring
    rw [ep2] at h
    have hpos : 0 < |d.y - c.y| := abs_pos.2 hr2
    split at h
    · rename_i hr
      obtain ⟨h1, h2, h3, h4⟩ := hr
      split at h
      · cases h; rfl
      split at h
      · cases h; exact hh.symm
      split at h
      · rename_i hlt
        exfalso
        have : |(a.y - c.y) / (d.y - c.y)| ≤ tol := abs_le.2 ⟨h3, hlt.le⟩
        rw [abs_div, div_le_iff₀ hpos] at this
        exact absurd hc (not_lt.2 this)
      split at h
      · rename_i hlt
        exfalso
        have e : (a.y - c.y) / (d.y - c.y) = 1 + (a.y - d.y) / (d.y - c.y) := by field_simp; ring
        rw [e] at hlt h4
        have : |(a.y - d.y) / (d.y - c.y)| ≤ tol := abs_le.2 ⟨by linarith, by linarith⟩
        rw [abs_div, div_le_iff₀ hpos] at this
        exact absurd hd (not_lt.2 this)
      · rw [← Option.some.inj h]
        simp only [V2.sub_y]
        field_simp
        ring
    · cases h

/-- C55 is false of the code: along a horizontal segment at most one intersection with the outer boundary is ever counted, however many facets it crosses (away from their
ends): the second point has the same height as the first and is taken for a repetition. -/
theorem C55_horizontal_fails {dbg : Bool} {n : Nat} {verts : List K} {p1 p2 : V2 K} {tol : K} {fs : List (List Int)} (hg : GoodFacets n verts fs) (hh : p1.y = p2.y)
    (hoff : ∀ f ∈ fs, tol * |(segB verts f).y - (segA verts f).y| < |p1.y - (segA verts f).y| ∧ tol * |(segB verts f).y - (segA verts f).y| < |p1.y - (segB verts f).y|)
    (result : List K) : ∃ N r, intersect dbg n verts p1 p2 tol { facets := fs } result = .ok (N, r) ∧ N ≤ 1 := by
  have loop : ∀ (gs : List (List Int)) (k : Nat) (res : List K), (∀ f ∈ gs, f ∈ fs) → (k = 0 ∨ k = 1 ∧ res.getLastD 0 = p1.y) →
      ∃ N r, intersectLoop dbg n verts p1 p2 tol gs (k, res) = .ok (N, r) ∧ N ≤ 1 := by
    intro gs
    induction gs with
    | nil => intro k res _ hk; exact ⟨k, res, rfl, by omega⟩
    | cons f gs ih =>
      intro k res hsub hk
      have hf := hsub f (by simp)
      have hsub' : ∀ g ∈ gs, g ∈ fs := fun g hgm => hsub g (List.mem_cons_of_mem _ hgm)
      rw [intersectLoop]
      simp only [Res.bind_eq]
      rw [facetEnds_ok hg hf, Res.bind_ok]
      dsimp only
      split
      · exact ih k res hsub' hk
      · rename_i q hq
        have hy := segIntersect_horizontal hh (hoff f hf).1 (hoff f hf).2 hq
        rcases hk with rfl | ⟨rfl, hl⟩
        · rw [if_pos (Or.inl rfl)]
          refine ih 1 _ hsub' (Or.inr ⟨rfl, ?_⟩)
          rw [← hy]
          simp [List.getLastD_eq_getLast?]
        · rw [if_neg]
          · exact ih 1 res hsub' (Or.inr ⟨rfl, hl⟩)
          · rintro (h | ⟨-, h⟩)
            · cases h
            · exact h (by rw [hy, hl])
  obtain ⟨N, r, e, hN⟩ := loop fs 0 result (fun _ h => h) (Or.inl rfl)
  refine ⟨N, r, ?_, hN⟩
  rw [intersect]
  simp only [Res.bind_eq]
  rw [e, Res.bind_ok]
  rfl
end

/-- A horizontal line through a box crosses two of its sides, but one intersection is counted; a slanted one gets both. -/
example : intersect true 4 [0, 0, 1, 0, 1, 1, 0, 1] (⟨-1, 1/2⟩ : V2 ℚ) ⟨2, 1/2⟩ (1 / 10 ^ 8) squareFacets [] = .ok (1, [1, 1/2]) := by decide +kernel
example : intersect true 4 [0, 0, 1, 0, 1, 1, 0, 1] (⟨-1, 1/4⟩ : V2 ℚ) ⟨2, 3/4⟩ (1 / 10 ^ 8) squareFacets [] = .ok (2, [1, 7/12, 0, 5/12]) := by decide +kernel
example : GoodFacets 4 ([0, 0, 1, 0, 1, 1, 0, 1] : List ℚ) squareFacets.facets := ⟨rfl, by decide⟩

/-! ### C56 -/

/-- The coordinates of point `i`. -/
def cpt {R : Type} (D : Nat) (pts : List R) (i : Nat) : List R := (pts.drop (D * i)).take D

theorem cloudLoop_spec {R : Type} {D n : Nat} {test : List R → List R → List R → Bool} {pts : List R} (hl : pts.length = D * n) : ∀ {fuel i : Nat}, i ≤ n → n < i + fuel →
    cloudLoop D n test pts i fuel = .ok (decide (∀ j, i ≤ j → j < n → test (cpt D pts 0) (cpt D pts 1) (cpt D pts j) = true))
  | 0, i, h, hf => absurd hf (by omega)
  | fuel + 1, i, h, hf => by
    rw [cloudLoop]
    by_cases hi : i = n
    · rw [if_pos hi]; congr 1; symm; rw [decide_eq_true_iff]; intro j h1 h2; omega
    · have hlt : i < n := by omega
      have hle : D * i + D ≤ pts.length := by rw [hl]; calc D * i + D = D * (i + 1) := by ring
        _ ≤ D * n := Nat.mul_le_mul_left D hlt
      rw [if_neg hi, if_neg (by omega)]
      have e0 : (pts.drop 0).take D = cpt D pts 0 := by simp [cpt]
      have e1 : (pts.drop D).take D = cpt D pts 1 := by simp [cpt]
      have e2 : (pts.drop (D * i)).take D = cpt D pts i := rfl
      rw [e0, e1, e2]
      by_cases ht : test (cpt D pts 0) (cpt D pts 1) (cpt D pts i) = true
      · rw [if_pos ht, cloudLoop_spec hl (by omega) (by omega)]
        congr 1
        rw [decide_eq_decide]
        constructor
        · intro h' j hj1 hj2
          rcases Nat.eq_or_lt_of_le hj1 with rfl | hj
          · exact ht
          · exact h' j hj hj2
        · intro h' j hj1 hj2; exact h' j (by omega) hj2
      · rw [if_neg ht]
        congr 1; symm
        rw [decide_eq_false_iff_not]
        intro h'; exact ht (h' i (le_refl _) hlt)

/-- C56 (partial). In `D` dimensions, for at least `D` points, the test looks at the points `D, D+1, …`: all of them in 2D. -/
theorem C56_cloud_partial {R : Type} {dbg : Bool} {D n : Nat} (hD : 0 < D) (test : List R → List R → List R → Bool) {pts : List R} (hl : pts.length = D * n) (hn : D ≤ n) :
    ∃ r, cloudCollinear dbg D test pts = .ok r ∧ (r = true ↔ (1 < n → ∀ j, D ≤ j → j < n → test (cpt D pts 0) (cpt D pts 1) (cpt D pts j) = true)) := by
  rw [cloudCollinear]
  simp only [Res.bind_eq]
  have e : pts.length / D = n := by rw [hl, Nat.mul_div_cancel_left n hD]
  rw [Res.assert_true dbg (by rw [hl]; exact Nat.mul_mod_right D n), Res.bind_ok, e]
  by_cases h1 : 1 < n
  · have : n ≤ D * n := Nat.le_mul_of_pos_left n hD
    rw [if_pos h1, cloudLoop_spec hl hn (by omega)]
    exact ⟨_, rfl, by rw [decide_eq_true_iff]; exact ⟨fun h _ => h, fun h => h h1⟩⟩
  · rw [if_neg h1]; exact ⟨true, rfl, by simp [h1]⟩

/-- C56. In 2D the answer for any cloud of at least two points is whether every further point passes the test with the first two. -/
theorem C56_cloud_2d {R : Type} {dbg : Bool} {n : Nat} (test : List R → List R → List R → Bool) {pts : List R} (hl : pts.length = 2 * n) (hn : 2 ≤ n) :
    ∃ r, cloudCollinear dbg 2 test pts = .ok r ∧ (r = true ↔ ∀ j, 2 ≤ j → j < n → test (cpt 2 pts 0) (cpt 2 pts 1) (cpt 2 pts j) = true) := by
  obtain ⟨r, e, h⟩ := C56_cloud_partial (dbg := dbg) (by decide) test hl hn
  exact ⟨r, e, h.trans ⟨fun h => h (by omega), fun h _ => h⟩⟩

/-- C56 is false of the code in 3D: any three points are reported collinear, whatever the three-point test says. -/
theorem C56_three_points_fails {R : Type} {dbg : Bool} (test : List R → List R → List R → Bool) {pts : List R} (hl : pts.length = 9) : cloudCollinear dbg 3 test pts = .ok true := by
  obtain ⟨r, e, h⟩ := C56_cloud_partial (dbg := dbg) (n := 3) (by decide) test hl (le_refl _)
  rw [e, h.2 fun _ j h1 h2 => absurd h2 (by omega)]

/-- C56 is false of the code in 3D: two points make it read past the end of the array. -/
theorem C56_two_points_fails {R : Type} {dbg : Bool} (test : List R → List R → List R → Bool) {pts : List R} (hl : pts.length = 6) : cloudCollinear dbg 3 test pts = .ub := by
  rw [cloudCollinear]
  simp only [Res.bind_eq]
  rw [Res.assert_true dbg (by rw [hl]), Res.bind_ok, hl, if_pos (by decide), cloudLoop, if_neg (by decide), if_pos (by rw [hl]; decide)]

example : cloudCollinear true 2 (fun a b c => decide ((a.getD 0 0 : ℤ) = b.getD 0 0 ∧ a.getD 0 0 = c.getD 0 0)) [0, 0, 0, 1, 0, 2, 5, 5] = .ok false := by decide

/-! ### C57 -/
section
variable {K : Type} [Field K] [LinearOrder K] [IsStrictOrderedRing K]

/-- C57. A point of a segment that is longer than the square root of the (positive) tolerance is between its ends. -/
theorem C57_complete_partial {a b : V3 K} {tol t : K} (ht : 0 < tol) (h0 : 0 ≤ t) (h1 : t ≤ 1) (hlong : tol < sq3 a b) : between3 a b (lerp3 a b t) tol = true := by
  have e1 : dot3 (b - a) (b - a) = sq3 a b := by simp only [dot3, sq3, V3.sub_x, V3.sub_y, V3.sub_z]; ring
  have e2 : dot3 (lerp3 a b t - a) (lerp3 a b t - a) = t ^ 2 * sq3 a b := by simp only [dot3, sq3, lerp3, V3.sub_x, V3.sub_y, V3.sub_z]; ring
  have e3 : dot3 (b - a) (lerp3 a b t - a) = t * sq3 a b := by simp only [dot3, sq3, lerp3, V3.sub_x, V3.sub_y, V3.sub_z]; ring
  unfold between3 betweenTest
  rw [e1, e2, e3]
  generalize dot3 (lerp3 a b t - b) (lerp3 a b t - b) = bc2
  generalize sq3 a b = L at *
  have hL : 0 < L := ht.trans hlong
  by_cases hm : min (t ^ 2 * L) bc2 ≤ tol * L
  · rw [if_pos hm]
  · rw [if_neg hm, if_neg (not_le.2 hlong)]
    have ht0 : 0 < t := by
      rcases eq_or_lt_of_le h0 with rfl | h
      · exfalso; apply hm; refine (min_le_left _ _).trans ?_; rw [zero_pow (by norm_num), zero_mul]; positivity
      · exact h
    have h2 : t ^ 2 * L ≤ L := by
      have : t ^ 2 ≤ 1 := by nlinarith
      nlinarith
    have h3 : |t * L * (t * L) - L * (t ^ 2 * L)| < tol * L := by
      rw [show t * L * (t * L) - L * (t ^ 2 * L) = 0 by ring, abs_zero]; positivity
    simp [h2, h3, ht0, hL]

/-- C57. A point reported to be between the ends is close to the segment: its squared distance from some point of the segment is at most `tol` times the larger of one and
the squared length. -/
theorem C57_sound {a b c : V3 K} {tol : K} (ht : 0 ≤ tol) (h : between3 a b c tol = true) : ∃ t, 0 ≤ t ∧ t ≤ 1 ∧ sq3 c (lerp3 a b t) ≤ tol * max 1 (sq3 a b) := by
  have e1 : dot3 (b - a) (b - a) = sq3 a b := by simp only [dot3, sq3, V3.sub_x, V3.sub_y, V3.sub_z]; ring
  unfold between3 betweenTest at h
  rw [e1] at h
  have hmax : tol * sq3 a b ≤ tol * max 1 (sq3 a b) := mul_le_mul_of_nonneg_left (le_max_right _ _) ht
  split at h
  · rename_i hm
    rcases min_le_iff.1 hm with hm | hm
    · refine ⟨0, le_refl _, zero_le_one, le_trans (le_of_eq ?_) (hm.trans hmax)⟩
      simp only [dot3, sq3, lerp3, V3.sub_x, V3.sub_y, V3.sub_z]; ring
    · refine ⟨1, zero_le_one, le_refl _, le_trans (le_of_eq ?_) (hm.trans hmax)⟩
      simp only [dot3, sq3, lerp3, V3.sub_x, V3.sub_y, V3.sub_z]; ring
  split at h
  · cases h
  · rename_i hlong
    rw [not_le] at hlong
    simp only [Bool.and_eq_true, decide_eq_true_eq] at h
    obtain ⟨⟨h1, h2⟩, h3⟩ := h
    have hL : 0 < sq3 a b := lt_of_le_of_lt ht hlong
    have hcs : dot3 (b - a) (c - a) * dot3 (b - a) (c - a) ≤ sq3 a b * dot3 (c - a) (c - a) := by
      rw [← e1]
      simp only [dot3]
      nlinarith [sq_nonneg ((b - a).x * (c - a).y - (b - a).y * (c - a).x), sq_nonneg ((b - a).x * (c - a).z - (b - a).z * (c - a).x),
        sq_nonneg ((b - a).y * (c - a).z - (b - a).z * (c - a).y)]
    refine ⟨dot3 (b - a) (c - a) / sq3 a b, div_nonneg h1.le hL.le, ?_, ?_⟩
    · rw [div_le_one hL]
      refine le_of_sq_le_sq ?_ hL.le
      rw [sq, sq]
      exact hcs.trans (mul_le_mul_of_nonneg_left h3 hL.le)
    · have e4 : sq3 c (lerp3 a b (dot3 (b - a) (c - a) / sq3 a b)) = dot3 (c - a) (c - a) - dot3 (b - a) (c - a) * dot3 (b - a) (c - a) / sq3 a b := by
        have : ∀ t, sq3 c (lerp3 a b t) = dot3 (c - a) (c - a) - 2 * t * dot3 (b - a) (c - a) + t ^ 2 * sq3 a b := by
          intro t; simp only [dot3, sq3, lerp3, V3.sub_x, V3.sub_y, V3.sub_z]; ring
        rw [this]; field_simp; ring
      rw [e4]
      have h2' : -(tol * sq3 a b) < dot3 (b - a) (c - a) * dot3 (b - a) (c - a) - sq3 a b * dot3 (c - a) (c - a) := (abs_lt.1 h2).1
      have h5 : dot3 (c - a) (c - a) - dot3 (b - a) (c - a) * dot3 (b - a) (c - a) / sq3 a b ≤ tol := by
        rw [sub_le_iff_le_add, ← sub_le_iff_le_add', le_div_iff₀ hL]
        linarith
      have h6 : tol * 1 ≤ tol * max 1 (sq3 a b) := mul_le_mul_of_nonneg_left (le_max_left _ _) ht
      linarith

/-- C57 is false of the code for short segments: the midpoint of any segment not longer than the square root of the tolerance is not between its ends. -/
theorem C57_short_fails {a b : V3 K} {tol : K} (ht : tol < 1 / 4) (hne : 0 < sq3 a b) (hshort : sq3 a b ≤ tol) : between3 a b (lerp3 a b (1 / 2)) tol = false := by
  have e1 : dot3 (b - a) (b - a) = sq3 a b := by simp only [dot3, sq3, V3.sub_x, V3.sub_y, V3.sub_z]; ring
  have e2 : dot3 (lerp3 a b (1 / 2) - a) (lerp3 a b (1 / 2) - a) = 1 / 4 * sq3 a b := by simp only [dot3, sq3, lerp3, V3.sub_x, V3.sub_y, V3.sub_z]; ring
  have e3 : dot3 (lerp3 a b (1 / 2) - b) (lerp3 a b (1 / 2) - b) = 1 / 4 * sq3 a b := by simp only [dot3, sq3, lerp3, V3.sub_x, V3.sub_y, V3.sub_z]; ring
  unfold between3 betweenTest
  rw [e1, e2, e3, min_self, if_neg (not_le.2 (mul_lt_mul_of_pos_right ht hne)), if_pos hshort]
end

section
variable {K : Type} [Field K] [LinearOrder K] [IsStrictOrderedRing K]

/-- The plane at height 0. -/
def flatten2 (p : V2 K) : V3 K := ⟨p.x, p.y, 0⟩

theorem between2_eq (a b c : V2 K) (tol : K) : between2 a b c tol = between3 (flatten2 a) (flatten2 b) (flatten2 c) tol := by
  simp [between2, between3, dot2, dot3, flatten2]

theorem sq2_eq (a b : V2 K) : sq2 a b = sq3 (flatten2 a) (flatten2 b) := by simp [sq2, sq3, flatten2]

theorem lerp2_eq (a b : V2 K) (t : K) : flatten2 (lerp2 a b t) = lerp3 (flatten2 a) (flatten2 b) t := by simp [lerp2, lerp3, flatten2]

/-- C57 in 2D. -/
theorem C57_complete2_partial {a b : V2 K} {tol t : K} (ht : 0 < tol) (h0 : 0 ≤ t) (h1 : t ≤ 1) (hlong : tol < sq2 a b) : between2 a b (lerp2 a b t) tol = true := by
  rw [between2_eq, lerp2_eq]; rw [sq2_eq] at hlong; exact C57_complete_partial ht h0 h1 hlong

/-- C57 in 2D: a point reported to be between the ends is close to the segment. -/
theorem C57_sound2 {a b c : V2 K} {tol : K} (ht : 0 ≤ tol) (h : between2 a b c tol = true) : ∃ t, 0 ≤ t ∧ t ≤ 1 ∧ sq2 c (lerp2 a b t) ≤ tol * max 1 (sq2 a b) := by
  rw [between2_eq] at h
  obtain ⟨t, h0, h1, h2⟩ := C57_sound ht h
  exact ⟨t, h0, h1, by rw [sq2_eq, sq2_eq, lerp2_eq]; exact h2⟩

/-- C57 is false of the code for short segments in 2D too. -/
theorem C57_short2_fails {a b : V2 K} {tol : K} (ht : tol < 1 / 4) (hne : 0 < sq2 a b) (hshort : sq2 a b ≤ tol) : between2 a b (lerp2 a b (1 / 2)) tol = false := by
  rw [between2_eq, lerp2_eq]; rw [sq2_eq] at hne hshort; exact C57_short_fails ht hne hshort
end

example : between2 (⟨0, 0⟩ : V2 ℚ) ⟨2, 2⟩ (lerp2 ⟨0, 0⟩ ⟨2, 2⟩ (1 / 3)) (1 / 10 ^ 8) = true := C57_complete2_partial (by norm_num) (by norm_num) (by norm_num) (by norm_num [sq2])
example : between2 (⟨0, 0⟩ : V2 ℚ) ⟨1 / 10, 0⟩ (lerp2 ⟨0, 0⟩ ⟨1 / 10, 0⟩ (1 / 2)) (1 / 100) = false := C57_short2_fails (by norm_num) (by norm_num [sq2]) (by norm_num [sq2])
example : between3 (⟨0, 0, 0⟩ : V3 ℚ) ⟨2, 2, 2⟩ (lerp3 ⟨0, 0, 0⟩ ⟨2, 2, 2⟩ (1 / 3)) (1 / 10 ^ 8) = true := by decide +kernel
example : between3 (⟨0, 0, 0⟩ : V3 ℚ) ⟨2, 2, 2⟩ ⟨1, 1, 2⟩ (1 / 10 ^ 8) = false := by decide +kernel

end Verif.Geom
