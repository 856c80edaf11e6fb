import Verif.Proofs.CannedSphere
/- C79, C88: the convex hull in space when hashes agree, and the spheres and cylinders that are built with it. -/
namespace Verif.Hull3
open Verif Verif.Geom Verif.Hash

/-- C79 fails: if two points have the same hash, the last point is not a corner of any facet. So if it is outside the convex hull of the others, what the call returns is not the convex hull. -/
theorem C79_collision_fails (plat : Points.Key → Nat → Points.Key) (dbg : Bool) {big eps dx : ℝ} (he : 0 < eps) {procs : List (List (V3 ℝ))} {points : List (V3 ℝ)} (hp : points ∈ procs)
    (hr : InRange3 big procs.flatten) {b : HBox3} (hb : IsBox3 procs.flatten b) (hd : ¬ points.Pairwise fun p q => hashOf plat eps dx b p ≠ hashOf plat eps dx b q)
    {q : V3 ℝ} (hl : points.getLast? = some q) (hq : coords q ∉ convexHull ℝ {x | ∃ p ∈ points.dropLast, x = coords p}) :
    ∀ plc, convexHull3 (Points.wrapping plat) dbg big eps dx procs points = .ok plc → (∀ f ∈ plc.facets, ∀ i ∈ f, i + 1 < (points.length : Int)) ∧ ¬ IsHull3 points plc.facets := by
  intro plc h
  rw [List.pairwise_iff_getElem] at hd
  push Not at hd
  obtain ⟨m, n, hm, hn, hmn, hh⟩ := hd
  have hall := collision_corners he hp hr hb hmn (List.getElem?_eq_getElem hm) (List.getElem?_eq_getElem hn) hh h
  refine ⟨fun f hf i hi => (hall f hf i hi).2, fun hhull => hq ?_⟩
  have hmem : q ∈ points := List.mem_of_getLast? hl
  have hin : coords q ∈ convexHull ℝ {x | ∃ r ∈ points, x = coords r} := subset_convexHull ℝ _ ⟨q, hmem, rfl⟩
  rw [← hhull.used] at hin
  refine convexHull_mono ?_ hin
  rintro _ ⟨f, hf, i, hi, rfl⟩
  obtain ⟨i0, i1⟩ := hall f hf i hi
  obtain ⟨k, rfl⟩ := Int.eq_ofNat_of_zero_le i0
  have hk : k < points.dropLast.length := by rw [List.length_dropLast]; omega
  refine ⟨_, ?_, rfl⟩
  have hk' : k < points.length := by omega
  have e : posOf points (k : Int) = points.dropLast[k] := by
    unfold posOf
    rw [Int.toNat_natCast, ← List.getElem_eq_getD (h := hk'), List.getElem_dropLast]
  rw [e]
  exact List.getElem_mem hk

theorem not_pairwise {α β : Type} {f : α → β} {l : List α} {p q : α} (hp : p ∈ l) (hq : q ∈ l) (hne : p ≠ q) (h : f p = f q) : ¬ l.Pairwise fun p q => f p ≠ f q := by
  intro hpw
  obtain ⟨i, hi, rfl⟩ := List.getElem_of_mem hp
  obtain ⟨j, hj, rfl⟩ := List.getElem_of_mem hq
  rcases Nat.lt_trichotomy i j with hlt | rfl | hgt
  · exact List.pairwise_iff_getElem.1 hpw i j hi hj hlt h
  · exact hne rfl
  · exact List.pairwise_iff_getElem.1 hpw j i hj hi hgt h.symm
end Verif.Hull3

namespace Verif.Canned
open Verif Verif.Geom Verif.Hull3 Verif.Hash

/-! ### Cylinders -/

theorem plcCylinder_eq {A : Points.Arith} {dbg : Bool} {big eps : ℝ} {c : V3 ℝ} {radius length : ℝ} {ncirc : Nat} (hn : 3 ≤ ncirc) :
    plcCylinder A dbg big eps c radius length ncirc =
      (convexHull3 A dbg big eps (length / 2 ^ 21) [cylinderPoints c radius length ncirc] (cylinderPoints c radius length ncirc) >>= fun hull =>
        .ok { points := flat3 (cylinderPoints c radius length ncirc), facets := hull.facets }) := by
  unfold plcCylinder
  rw [Res.assert_true dbg (by simpa using hn), Res.ok_bind]
  rfl

/-- C88, cylinders: on a platform with wrapping shifts, `plc_cylinder` with not too many points returns the convex hull of two rings of points, which contains the cylinder with the radius
`radius * cos (π/ncirc)` and is inside the cylinder with the given radius. Missing: the points must have different hashes (`C88_cylinder_collision_fails`), and by the language standard the call is
undefined (`C88_undefined_fails`). -/
theorem C88_cylinder_partial (plat : Points.Key → Nat → Points.Key) (dbg : Bool) {big eps : ℝ} (he : 0 < eps) {c : V3 ℝ} {radius length : ℝ} (hr : 0 < radius) (hl : 0 < length) {ncirc : Nat}
    (hn : 3 ≤ ncirc) (hx : |c.x| + radius ≤ big) (hy : |c.y| + radius ≤ big) (hz : |c.z| + length / 2 ≤ big)
    (hfew : (ncirc : ℝ) ^ 4 * max (1 / 10 ^ 100) (4 * radius ^ 2 + length ^ 2) ≤ 16 * 10 ^ 8 * (radius ^ 2 * length)) {b : HBox3} (hb : IsBox3 (cylinderPoints c radius length ncirc) b)
    (hd : (cylinderPoints c radius length ncirc).Pairwise fun p q => hashOf plat eps (length / 2 ^ 21) b p ≠ hashOf plat eps (length / 2 ^ 21) b q) :
    ∃ plc, plcCylinder (Points.wrapping plat) dbg big eps c radius length ncirc = .ok plc ∧ plc.points = flat3 (cylinderPoints c radius length ncirc) ∧ plc.holes = [] ∧
      IsHull3 (cylinderPoints c radius length ncirc) plc.facets ∧
      cylinder c (radius * Real.cos (Real.pi / ncirc)) length ⊆ solid (cylinderPoints c radius length ncirc) plc.facets ∧
      solid (cylinderPoints c radius length ncirc) plc.facets ⊆ cylinder c radius length := by
  have hflat : [cylinderPoints c radius length ncirc].flatten = cylinderPoints c radius length ncirc := by simp
  obtain ⟨facets, h1, h2⟩ := C79_partial plat dbg (dx := length / 2 ^ 21) he (procs := [cylinderPoints c radius length ncirc]) (points := cylinderPoints c radius length ncirc) (by simp)
    (by rw [hflat]; exact cylinder_range hr.le hl.le hx hy hz) (by rw [hflat]; exact hb) (cylinder_notFlat hr hl hn) (cylinder_separated hl.le (by omega) hfew) hd
  refine ⟨{ points := flat3 (cylinderPoints c radius length ncirc), facets := facets }, ?_, rfl, rfl, h2, fun x hx => inner_of_support h2 fun v => cylinder_support hr.le (by omega) hx v,
    outer_of_convex h2 (cylinder_convex c radius length) (cylinder_points hl.le)⟩
  rw [plcCylinder_eq hn, h1]
  rfl

/-- C88 fails for cylinders if two points have the same hash: what is returned is not the convex hull of the points. -/
theorem C88_cylinder_collision_fails (plat : Points.Key → Nat → Points.Key) (dbg : Bool) {big eps : ℝ} (he : 0 < eps) {c : V3 ℝ} {radius length : ℝ} (hr : 0 < radius) (hl : 0 < length) {ncirc : Nat}
    (hn : 3 ≤ ncirc) (hx : |c.x| + radius ≤ big) (hy : |c.y| + radius ≤ big) (hz : |c.z| + length / 2 ≤ big) {b : HBox3} (hb : IsBox3 (cylinderPoints c radius length ncirc) b)
    (hd : ¬ (cylinderPoints c radius length ncirc).Pairwise fun p q => hashOf plat eps (length / 2 ^ 21) b p ≠ hashOf plat eps (length / 2 ^ 21) b q) :
    ∀ plc, plcCylinder (Points.wrapping plat) dbg big eps c radius length ncirc = .ok plc → ¬ IsHull3 (cylinderPoints c radius length ncirc) plc.facets := by
  intro plc h
  have hflat : [cylinderPoints c radius length ncirc].flatten = cylinderPoints c radius length ncirc := by simp
  obtain ⟨q, hq1, hq2⟩ := cylinder_last (c := c) hr hl (n := ncirc) (by omega)
  rw [plcCylinder_eq hn] at h
  cases hc : convexHull3 (Points.wrapping plat) dbg big eps (length / 2 ^ 21) [cylinderPoints c radius length ncirc] (cylinderPoints c radius length ncirc) with
  | ub => rw [hc] at h; cases h
  | abort => rw [hc] at h; cases h
  | ok hull =>
    rw [hc] at h
    cases h
    exact (C79_collision_fails plat dbg he (by simp) (by rw [hflat]; exact cylinder_range hr.le hl.le hx hy hz) (by rw [hflat]; exact hb) hd hq1 hq2 hull hc).2

/-- C88 fails for all cylinders on a platform where nothing is left of a number that is shifted by 42 bits: points above each other have the same hash. -/
theorem C88_cylinder_noshift_fails (plat : Points.Key → Nat → Points.Key) (hplat : ∀ k k', plat k 42 = plat k' 42) (dbg : Bool) {big eps : ℝ} (he : 0 < eps) {c : V3 ℝ} {radius length : ℝ} (hr : 0 < radius)
    (hl : 0 < length) {ncirc : Nat} (hn : 3 ≤ ncirc) (hx : |c.x| + radius ≤ big) (hy : |c.y| + radius ≤ big) (hz : |c.z| + length / 2 ≤ big) :
    ∀ plc, plcCylinder (Points.wrapping plat) dbg big eps c radius length ncirc = .ok plc → ¬ IsHull3 (cylinderPoints c radius length ncirc) plc.facets := by
  have hflat : [cylinderPoints c radius length ncirc].flatten = cylinderPoints c radius length ncirc := by simp
  have h1 := mem_cylinderPoints (c := c) (radius := radius) (length := length) |>.2 ⟨0, (by omega : 0 < ncirc), Or.inl rfl⟩
  have h2 := mem_cylinderPoints (c := c) (radius := radius) (length := length) |>.2 ⟨0, (by omega : 0 < ncirc), Or.inr rfl⟩
  obtain ⟨bx, by', bz, _, hb⟩ := box_ok true (procs := [cylinderPoints c radius length ncirc]) (by rw [hflat]; exact cylinder_range hr.le hl.le hx hy hz) (by rw [hflat]; exact List.ne_nil_of_mem h1)
  rw [hflat] at hb
  refine C88_cylinder_collision_fails plat dbg he hr hl hn hx hy hz hb (not_pairwise h1 h2 ?_ ?_)
  · intro h
    have := congrArg V3.z h
    simp only at this
    linarith
  · unfold hashOf
    simp only
    rw [hplat]

/-! ### Spheres -/

theorem plcSphere_eq {A : Points.Arith} {dbg : Bool} {big eps : ℝ} {c : V3 ℝ} {radius : ℝ} {nphi : Nat} (hn : 1 ≤ nphi) {pts : List (V3 ℝ)} (hp : spherePoints c radius nphi (List.range nphi) = .ok pts) :
    plcSphere A dbg big eps c radius nphi = (convexHull3 A dbg big eps (radius / 2 ^ 21) [pts] pts >>= fun hull => .ok { points := flat3 pts, facets := hull.facets }) := by
  unfold plcSphere
  rw [Res.assert_true dbg (show nphi > 0 from hn), Res.ok_bind, hp]
  rfl

theorem sphere_all {c : V3 ℝ} {radius : ℝ} (hr : radius ≠ 0) {nphi : Nat} (hn : nphi < 2 ^ 31) : spherePoints c radius nphi (List.range nphi) = .ok (sphereList c radius nphi) :=
  spherePoints_ok hr hn fun _ => List.mem_range.1

/-- C88: the points of spheres with a radius other than zero are defined, and on the sphere. -/
theorem C88_sphere_points (c : V3 ℝ) {radius : ℝ} (hr : radius ≠ 0) {nphi : Nat} (hn0 : 1 ≤ nphi) (hn : nphi < 2 ^ 31) :
    ∃ pts, spherePoints c radius nphi (List.range nphi) = .ok pts ∧ pts ≠ [] ∧ ∀ p ∈ pts, (p.x - c.x) ^ 2 + (p.y - c.y) ^ 2 + (p.z - c.z) ^ 2 = radius ^ 2 :=
  ⟨_, sphere_all hr hn, List.ne_nil_of_mem (mem_sphereList.2 ⟨0, hn0, 0, ringN_pos nphi 0, rfl⟩), fun _ => sphere_on⟩

/-- C88, spheres: on a platform with wrapping shifts, `plc_sphere` returns the convex hull of points of the sphere, which is inside the ball and contains the ball with the radius
`radius * (1 - 7 / nphi²)`. Missing: the points must have different hashes (`C88_sphere_collision_fails`) and must be in the planes of others or some distance away from them, and by the language
standard the call is undefined (`C88_undefined_fails`). -/
theorem C88_sphere_partial (plat : Points.Key → Nat → Points.Key) (dbg : Bool) {big eps : ℝ} (he : 0 < eps) {c : V3 ℝ} {radius : ℝ} (hr : 0 < radius) {nphi : Nat} (hn2 : 2 ≤ nphi) (hn : nphi < 2 ^ 31)
    (hx : |c.x| + radius ≤ big) (hy : |c.y| + radius ≤ big) (hz : |c.z| + radius ≤ big) {pts : List (V3 ℝ)} (hp : spherePoints c radius nphi (List.range nphi) = .ok pts)
    (hs : Separated ((pts.length : ℝ) / 10 ^ 8) pts) {b : HBox3} (hb : IsBox3 pts b) (hd : pts.Pairwise fun p q => hashOf plat eps (radius / 2 ^ 21) b p ≠ hashOf plat eps (radius / 2 ^ 21) b q) :
    ∃ plc, plcSphere (Points.wrapping plat) dbg big eps c radius nphi = .ok plc ∧ plc.points = flat3 pts ∧ plc.holes = [] ∧ IsHull3 pts plc.facets ∧ solid pts plc.facets ⊆ ball c radius ∧
      (3 ≤ nphi → ball c (radius * (1 - 7 / nphi ^ 2)) ⊆ solid pts plc.facets) := by
  have hpts : sphereList c radius nphi = pts := Res.ok.inj ((sphere_all hr.ne' hn).symm.trans hp)
  subst hpts
  have hflat : [sphereList c radius nphi].flatten = sphereList c radius nphi := by simp
  obtain ⟨facets, h1, h2⟩ := C79_partial plat dbg (dx := radius / 2 ^ 21) he (procs := [sphereList c radius nphi]) (points := sphereList c radius nphi) (by simp)
    (by rw [hflat]; exact sphere_range hr.le hx hy hz) (by rw [hflat]; exact hb) (sphere_notFlat hr.ne' hn2) hs hd
  refine ⟨{ points := flat3 (sphereList c radius nphi), facets := facets }, ?_, rfl, rfl, h2, outer_of_convex h2 (ball_convex c radius) fun p hp => (sphere_on hp).le,
    fun h3 x hx => inner_of_support h2 fun v => sphere_support hr.le h3 hx v⟩
  rw [plcSphere_eq (by omega) hp, h1]
  rfl

/-- C88 fails for spheres if two points have the same hash: what is returned is not the convex hull of the points. -/
theorem C88_sphere_collision_fails (plat : Points.Key → Nat → Points.Key) (dbg : Bool) {big eps : ℝ} (he : 0 < eps) {c : V3 ℝ} {radius : ℝ} (hr : 0 < radius) {nphi : Nat} (hn2 : 1 ≤ nphi) (hn : nphi < 2 ^ 31)
    (hx : |c.x| + radius ≤ big) (hy : |c.y| + radius ≤ big) (hz : |c.z| + radius ≤ big) {pts : List (V3 ℝ)} (hp : spherePoints c radius nphi (List.range nphi) = .ok pts)
    {b : HBox3} (hb : IsBox3 pts b) (hd : ¬ pts.Pairwise fun p q => hashOf plat eps (radius / 2 ^ 21) b p ≠ hashOf plat eps (radius / 2 ^ 21) b q) :
    ∀ plc, plcSphere (Points.wrapping plat) dbg big eps c radius nphi = .ok plc → ¬ IsHull3 pts plc.facets := by
  intro plc h
  have hpts : sphereList c radius nphi = pts := Res.ok.inj ((sphere_all hr.ne' hn).symm.trans hp)
  subst hpts
  have hflat : [sphereList c radius nphi].flatten = sphereList c radius nphi := by simp
  obtain ⟨q, hq1, hq2⟩ := sphere_last (c := c) hr.ne' hn2
  rw [plcSphere_eq hn2 hp] at h
  cases hc : convexHull3 (Points.wrapping plat) dbg big eps (radius / 2 ^ 21) [sphereList c radius nphi] (sphereList c radius nphi) with
  | ub => rw [hc] at h; cases h
  | abort => rw [hc] at h; cases h
  | ok hull =>
    rw [hc] at h
    cases h
    exact (C79_collision_fails plat dbg he (by simp) (by rw [hflat]; exact sphere_range hr.le hx hy hz) (by rw [hflat]; exact hb) hd hq1 hq2 hull hc).2

theorem polar_last {n : Nat} (hn : 1 ≤ n) : polar n (n - 1) = Real.pi - polar n 0 := by
  have hn0 : (0 : ℝ) < n := by exact_mod_cast hn
  unfold polar
  rw [Nat.cast_sub hn]
  push_cast
  field_simp
  ring

/-- C88 fails for all spheres on a platform where nothing is left of a number that is shifted by 42 bits: the points of the first ring have the hashes of the points of the last. -/
theorem C88_sphere_noshift_fails (plat : Points.Key → Nat → Points.Key) (hplat : ∀ k k', plat k 42 = plat k' 42) (dbg : Bool) {big eps : ℝ} (he : 0 < eps) {c : V3 ℝ} {radius : ℝ} (hr : 0 < radius)
    {nphi : Nat} (hn2 : 2 ≤ nphi) (hn : nphi < 2 ^ 31) (hx : |c.x| + radius ≤ big) (hy : |c.y| + radius ≤ big) (hz : |c.z| + radius ≤ big)
    {pts : List (V3 ℝ)} (hp : spherePoints c radius nphi (List.range nphi) = .ok pts) :
    ∀ plc, plcSphere (Points.wrapping plat) dbg big eps c radius nphi = .ok plc → ¬ IsHull3 pts plc.facets := by
  have hpts : sphereList c radius nphi = pts := Res.ok.inj ((sphere_all hr.ne' hn).symm.trans hp)
  subst hpts
  have hn0 : (0 : ℝ) < nphi := by exact_mod_cast (by omega : 0 < nphi)
  have hflat : [sphereList c radius nphi].flatten = sphereList c radius nphi := by simp
  have h1 := mem_sphereList (c := c) (radius := radius) |>.2 ⟨0, (by omega : 0 < nphi), 0, ringN_pos nphi 0, rfl⟩
  have h2 := mem_sphereList (c := c) (radius := radius) |>.2 ⟨nphi - 1, (by omega : nphi - 1 < nphi), 0, ringN_pos nphi _, rfl⟩
  have hlast := polar_last (by omega : 1 ≤ nphi)
  have hring : ringN nphi (nphi - 1) = ringN nphi 0 := by
    unfold ringN; rw [hlast, Real.sin_pi_sub]
  obtain ⟨bx, by', bz, _, hb⟩ := box_ok true (procs := [sphereList c radius nphi]) (by rw [hflat]; exact sphere_range hr.le hx hy hz) (by rw [hflat]; exact List.ne_nil_of_mem h1)
  rw [hflat] at hb
  refine C88_sphere_collision_fails plat dbg he hr (by omega) hn hx hy hz hp hb (not_pairwise h1 h2 ?_ ?_)
  · intro h
    have h := congrArg V3.z h
    simp only [hlast, Real.cos_pi_sub] at h
    have hpos : 0 < Real.cos (polar nphi 0) := by
      apply Real.cos_pos_of_mem_Ioo
      have hpi := Real.pi_pos
      refine ⟨by linarith [polar_pos (j := 0) (by omega : 0 < nphi)], ?_⟩
      have hn2' : (2 : ℝ) ≤ nphi := by exact_mod_cast hn2
      unfold polar
      rw [Nat.cast_zero, zero_add, one_div_mul_eq_div, div_div, div_lt_div_iff_of_pos_left hpi (by positivity) (by norm_num)]
      linarith
    have := mul_pos hr hpos
    linarith
  · unfold hashOf
    simp only [hlast, Real.sin_pi_sub, hring]
    rw [hplat]

/-- C88 fails with assertions: a sphere of one ring consists of two points. -/
theorem C88_one_ring_fails (A : Points.Arith) {big eps : ℝ} {c : V3 ℝ} {radius : ℝ} (hr : 0 < radius) (hx : |c.x| + radius ≤ big) (hy : |c.y| + radius ≤ big) (hz : |c.z| + radius ≤ big) :
    plcSphere A true big eps c radius 1 = .abort := by
  have hp := sphere_all (c := c) hr.ne' (nphi := 1) (by norm_num)
  have hflat : [sphereList c radius 1].flatten = sphereList c radius 1 := by simp
  have h1 := mem_sphereList (c := c) (radius := radius) |>.2 ⟨0, (by omega : 0 < 1), 0, ringN_pos 1 0, rfl⟩
  have h0 := List.ne_nil_of_mem h1
  have hrange := sphere_range (n := 1) hr.le hx hy hz
  obtain ⟨bx, by', bz, _, hb⟩ := box_ok true (procs := [sphereList c radius 1]) (by rw [hflat]; exact hrange) (by rw [hflat]; exact h0)
  rw [plcSphere_eq (le_refl 1) hp, convexHull3_eq (by rw [hflat]; exact hrange) hb]
  rw [hflat] at hb
  have hflatz : ∀ p ∈ sphereList c radius 1, p.z = c.z := by
    intro p hp
    obtain ⟨j, hj, i, _, rfl⟩ := mem_sphereList.1 hp
    obtain rfl : j = 0 := by omega
    have : polar 1 0 = Real.pi / 2 := by unfold polar; push_cast; ring
    simp only [this, Real.cos_pi_div_two, mul_zero, add_zero]
  have hnn : ¬ nested3 ⟨⟨bx.1, by'.1, bz.1⟩, ⟨bx.2, by'.2, bz.2⟩⟩ ⟨⟨bx.1, by'.1, bz.1⟩, ⟨bx.2, by'.2, bz.2⟩⟩ := by
    rintro ⟨_, _, _, _, hlt⟩
    obtain ⟨_, _, p, hp, e⟩ := hb.low
    obtain ⟨_, _, q, hq, e'⟩ := hb.high
    rw [hflatz p hp] at e
    rw [hflatz q hq] at e'
    simp only at e e' hlt
    linarith
  have : uniquePoints3 A true eps (radius / 2 ^ 21) ⟨⟨bx.1, by'.1, bz.1⟩, ⟨bx.2, by'.2, bz.2⟩⟩ (sphereList c radius 1) = .abort := by
    obtain ⟨p, ps, e⟩ := List.exists_cons_of_ne_nil h0
    rw [e]
    unfold uniquePoints3 uniqueLoop hashPosition3
    have : ∀ d, @Res.assert true (nested3 ⟨⟨bx.1, by'.1, bz.1⟩, ⟨bx.2, by'.2, bz.2⟩⟩ ⟨⟨bx.1, by'.1, bz.1⟩, ⟨bx.2, by'.2, bz.2⟩⟩) d = .abort := by intro d; unfold Res.assert; simp [hnn]
    rw [this]; rfl
  rw [this]
  rfl

/-- C88 fails by the language standard: all cylinders and spheres are undefined. -/
theorem C88_undefined_fails (dbg : Bool) {big eps : ℝ} (he : 0 < eps) {c : V3 ℝ} {radius : ℝ} (hr : 0 < radius) (hx : |c.x| + radius ≤ big) (hy : |c.y| + radius ≤ big) :
    (∀ {length : ℝ} {ncirc : Nat}, 0 < length → 3 ≤ ncirc → |c.z| + length / 2 ≤ big → plcCylinder Points.standard dbg big eps c radius length ncirc = .ub) ∧
    (∀ {nphi : Nat}, 2 ≤ nphi → nphi < 2 ^ 31 → |c.z| + radius ≤ big → plcSphere Points.standard dbg big eps c radius nphi = .ub) := by
  constructor
  · intro length ncirc hl hn hz
    have hflat : [cylinderPoints c radius length ncirc].flatten = cylinderPoints c radius length ncirc := by simp
    rw [plcCylinder_eq hn, C79_undefined_fails dbg he (by simp) (by rw [hflat]; exact cylinder_range hr.le hl.le hx hy hz) (cylinder_notFlat hr hl hn)]
    rfl
  · intro nphi hn2 hn hz
    have hflat : [sphereList c radius nphi].flatten = sphereList c radius nphi := by simp
    rw [plcSphere_eq (by omega) (sphere_all hr.ne' hn), C79_undefined_fails dbg he (by simp) (by rw [hflat]; exact sphere_range hr.le hx hy hz) (sphere_notFlat hr.ne' hn2)]
    rfl

/-- C88 fails for a sphere with the radius zero: the number of points of a ring is undefined. -/
theorem C88_zero_radius_fails (A : Points.Arith) (dbg : Bool) (big eps : ℝ) (c : V3 ℝ) {nphi : Nat} (hn : 1 ≤ nphi) : plcSphere A dbg big eps c 0 nphi = .ub := by
  obtain ⟨n, rfl⟩ : ∃ n, nphi = n + 1 := ⟨nphi - 1, by omega⟩
  unfold plcSphere
  rw [Res.assert_true dbg (by simp), Res.ok_bind, List.range_succ_eq_map, spherePoints]
  simp only [ringSize, zero_mul, if_true]
  rfl

/-! ### Examples -/

/-- A platform on which shifts are taken modulo the number of bits. -/
def x86 : Points.Key → Nat → Points.Key := fun k n => k <<< (n % 32)

theorem cell_lo (eps tol lo hi : ℝ) : cellIx max3 eps tol lo hi lo = 0 := by
  unfold cellIx; rw [sub_self, zero_div, Int.floor_zero]

theorem width_eq {eps tol lo hi : ℝ} (ht : tol ≤ (hi - lo) / 2097151) (he : eps ≤ (hi - lo) / 2097151) : width max3 eps tol lo hi = (hi - lo) / 2097151 := by
  unfold width max3
  rw [max_eq_left]
  · norm_num
  · rw [max_le_iff]; norm_num; exact ⟨ht, he⟩

theorem cell_hi {eps tol lo hi : ℝ} (h : lo < hi) (ht : tol ≤ (hi - lo) / 2097151) (he : eps ≤ (hi - lo) / 2097151) : cellIx max3 eps tol lo hi hi = 2097151 := by
  unfold cellIx
  rw [width_eq ht he, div_div_cancel₀ (by linarith : hi - lo ≠ 0)]
  norm_num

theorem cell_mid {eps tol lo hi : ℝ} (h : lo < hi) (ht : tol ≤ (hi - lo) / 2097151) (he : eps ≤ (hi - lo) / 2097151) {x : ℝ} (hx : x - lo = (hi - lo) / 2) : cellIx max3 eps tol lo hi x = 1048575 := by
  unfold cellIx
  have hne : hi - lo ≠ 0 := by linarith
  have : (hi - lo) / 2 / ((hi - lo) / 2097151) = 2097151 / 2 := by field_simp
  rw [width_eq ht he, hx, this, Int.floor_eq_iff]
  norm_num

/-- A cylinder of eight points: a cube. -/
theorem cube_points : cylinderPoints 0 (Real.sqrt 2) 2 4 = [⟨1, 1, 1⟩, ⟨1, 1, -1⟩, ⟨-1, 1, 1⟩, ⟨-1, 1, -1⟩, ⟨-1, -1, 1⟩, ⟨-1, -1, -1⟩, ⟨1, -1, 1⟩, ⟨1, -1, -1⟩] := by
  have h2 : Real.sqrt 2 * (Real.sqrt 2 / 2) = 1 := by
    have := Real.mul_self_sqrt (show (0 : ℝ) ≤ 2 by norm_num)
    linarith
  have a0 : angle 4 0 = Real.pi / 4 := by unfold angle; push_cast; ring
  have a1 : angle 4 1 = Real.pi - Real.pi / 4 := by unfold angle; push_cast; ring
  have a2 : angle 4 2 = Real.pi / 4 + Real.pi := by unfold angle; push_cast; ring
  have a3 : angle 4 3 = -(Real.pi / 4) + 2 * Real.pi := by unfold angle; push_cast; ring
  have z : ((0 : V3 ℝ).x = 0 ∧ (0 : V3 ℝ).y = 0) ∧ (0 : V3 ℝ).z = 0 := ⟨⟨rfl, rfl⟩, rfl⟩
  simp only [cylinderPoints, List.range, List.range.loop, List.flatMap_cons, List.flatMap_nil, List.cons_append, List.nil_append, a0, a1, a2, a3, Real.cos_pi_sub, Real.sin_pi_sub, Real.cos_add_pi, Real.sin_add_pi,
    Real.cos_add_two_pi, Real.sin_add_two_pi, Real.cos_neg, Real.sin_neg, Real.cos_pi_div_four, Real.sin_pi_div_four, mul_neg, h2, z.1.1, z.1.2, z.2]
  norm_num

theorem cube_box : IsBox3 (cylinderPoints 0 (Real.sqrt 2) 2 4) ⟨⟨-1, -1, -1⟩, ⟨1, 1, 1⟩⟩ := by
  rw [cube_points]
  refine ⟨fun p hp => ?_, ⟨⟨⟨-1, -1, -1⟩, by simp, rfl⟩, ⟨⟨-1, -1, -1⟩, by simp, rfl⟩, ⟨⟨-1, -1, -1⟩, by simp, rfl⟩⟩, ⟨⟨1, 1, 1⟩, by simp, rfl⟩, ⟨⟨1, 1, 1⟩, by simp, rfl⟩, ⟨⟨1, 1, 1⟩, by simp, rfl⟩⟩
  simp only [List.mem_cons, List.not_mem_nil, or_false] at hp
  rcases hp with rfl | rfl | rfl | rfl | rfl | rfl | rfl | rfl <;> simp only [inBox3] <;> norm_num

theorem cube_hash : (cylinderPoints 0 (Real.sqrt 2) 2 4).Pairwise fun p q =>
    hashOf x86 (1 / 10 ^ 16) (2 / 2 ^ 21) ⟨⟨-1, -1, -1⟩, ⟨1, 1, 1⟩⟩ p ≠ hashOf x86 (1 / 10 ^ 16) (2 / 2 ^ 21) ⟨⟨-1, -1, -1⟩, ⟨1, 1, 1⟩⟩ q := by
  have c0 := cell_lo (1 / 10 ^ 16) (2 / 2 ^ 21) (-1) 1
  have c1 : cellIx max3 (1 / 10 ^ 16) (2 / 2 ^ 21) (-1) 1 1 = 2097151 := cell_hi (by norm_num) (by norm_num) (by norm_num)
  rw [cube_points]
  simp only [hashOf, x86, List.pairwise_cons, List.mem_cons, List.not_mem_nil, or_false, forall_eq_or_imp, forall_eq, c0, c1]
  simp only [List.Pairwise.nil, and_true, false_imp_iff, implies_true]
  decide +kernel

theorem sqrt2_le : Real.sqrt 2 ≤ 2 := by rw [Real.sqrt_le_left (by norm_num)]; norm_num

example (dbg : Bool) : ∃ plc, plcCylinder (Points.wrapping x86) dbg 10 (1 / 10 ^ 16) 0 (Real.sqrt 2) 2 4 = .ok plc ∧ plc.points = flat3 (cylinderPoints 0 (Real.sqrt 2) 2 4) ∧ plc.holes = [] ∧
      IsHull3 (cylinderPoints 0 (Real.sqrt 2) 2 4) plc.facets ∧ cylinder 0 (Real.sqrt 2 * Real.cos (Real.pi / (4 : ℕ))) 2 ⊆ solid (cylinderPoints 0 (Real.sqrt 2) 2 4) plc.facets ∧
      solid (cylinderPoints 0 (Real.sqrt 2) 2 4) plc.facets ⊆ cylinder 0 (Real.sqrt 2) 2 := by
  have h := sqrt2_le
  have e : Real.sqrt 2 ^ 2 = 2 := Real.sq_sqrt (by norm_num)
  refine C88_cylinder_partial x86 dbg (by norm_num) (Real.sqrt_pos.2 (by norm_num)) (by norm_num) (by norm_num) ?_ ?_ ?_ ?_ cube_box cube_hash
  · change |(0 : ℝ)| + _ ≤ _; rw [abs_zero]; linarith
  · change |(0 : ℝ)| + _ ≤ _; rw [abs_zero]; linarith
  · change |(0 : ℝ)| + _ ≤ _; rw [abs_zero]; norm_num
  · rw [e, max_eq_right] <;> norm_num

/-- The same cylinder on a platform where nothing is left of the shifted number is wrong, and so are all the others. -/
example (dbg : Bool) : ∀ plc, plcCylinder (Points.wrapping noShift) dbg 10 (1 / 10 ^ 16) 0 (Real.sqrt 2) 2 4 = .ok plc → ¬ IsHull3 (cylinderPoints 0 (Real.sqrt 2) 2 4) plc.facets := by
  have h := sqrt2_le
  refine C88_cylinder_noshift_fails noShift (fun _ _ => rfl) dbg (by norm_num) (Real.sqrt_pos.2 (by norm_num)) (by norm_num) (by norm_num) ?_ ?_ ?_
  · change |(0 : ℝ)| + _ ≤ _; rw [abs_zero]; linarith
  · change |(0 : ℝ)| + _ ≤ _; rw [abs_zero]; linarith
  · change |(0 : ℝ)| + _ ≤ _; rw [abs_zero]; norm_num

/-- A sphere of six points: a prism. -/
theorem prism_points : spherePoints 0 (Real.sqrt 2) 2 (List.range 2) = .ok [⟨1 / 2, Real.sqrt 3 / 2, 1⟩, ⟨-1, 0, 1⟩, ⟨1 / 2, -(Real.sqrt 3 / 2), 1⟩, ⟨1 / 2, Real.sqrt 3 / 2, -1⟩, ⟨-1, 0, -1⟩, ⟨1 / 2, -(Real.sqrt 3 / 2), -1⟩] := by
  have hs := Real.mul_self_sqrt (show (0 : ℝ) ≤ 2 by norm_num)
  have hs0 := Real.sqrt_nonneg 2
  have h2 : Real.sqrt 2 * (Real.sqrt 2 / 2) = 1 := by linarith
  have p0 : polar 2 0 = Real.pi / 4 := by unfold polar; push_cast; ring
  have p1 : polar 2 1 = Real.pi - Real.pi / 4 := by unfold polar; push_cast; ring
  have hfl : ⌊2 * ((2 : ℕ) : ℝ) * (Real.sqrt 2 / 2) + 1 / 2⌋ = 3 := by
    rw [Int.floor_eq_iff]; push_cast; constructor <;> nlinarith
  have r0 : ringN 2 0 = 3 := by unfold ringN; rw [p0, Real.sin_pi_div_four, hfl]; rfl
  have r1 : ringN 2 1 = 3 := by unfold ringN; rw [p1, Real.sin_pi_sub, Real.sin_pi_div_four, hfl]; rfl
  have a0 : angle 3 0 = Real.pi / 3 := by unfold angle; push_cast; ring
  have a1 : angle 3 1 = Real.pi := by unfold angle; push_cast; ring
  have a2 : angle 3 2 = -(Real.pi / 3) + 2 * Real.pi := by unfold angle; push_cast; ring
  have z : ((0 : V3 ℝ).x = 0 ∧ (0 : V3 ℝ).y = 0) ∧ (0 : V3 ℝ).z = 0 := ⟨⟨rfl, rfl⟩, rfl⟩
  rw [sphere_all (by positivity) (by norm_num)]
  congr 1
  have e1 : ∀ t : ℝ, Real.sqrt 2 * t * (Real.sqrt 2 / 2) = t := by
    intro t
    calc Real.sqrt 2 * t * (Real.sqrt 2 / 2) = t * (Real.sqrt 2 * (Real.sqrt 2 / 2)) := by ring
      _ = t := by rw [h2, mul_one]
  simp only [sphereList, ringPoints, List.range, List.range.loop, List.flatMap_cons, List.flatMap_nil, List.map_cons, List.map_nil, List.cons_append, List.nil_append, List.append_nil, r0, r1, a0, a1, a2, p0, p1,
    Real.cos_pi_sub, Real.sin_pi_sub, Real.cos_add_two_pi, Real.sin_add_two_pi, Real.cos_neg, Real.sin_neg, Real.cos_pi_div_four, Real.sin_pi_div_four, Real.cos_pi_div_three, Real.sin_pi_div_three,
    Real.cos_pi, Real.sin_pi, e1, h2, mul_neg, z.1.1, z.1.2, z.2, zero_add]

/-- The points of the prism. -/
noncomputable def prism : List (V3 ℝ) := [⟨1 / 2, Real.sqrt 3 / 2, 1⟩, ⟨-1, 0, 1⟩, ⟨1 / 2, -(Real.sqrt 3 / 2), 1⟩, ⟨1 / 2, Real.sqrt 3 / 2, -1⟩, ⟨-1, 0, -1⟩, ⟨1 / 2, -(Real.sqrt 3 / 2), -1⟩]

theorem sqrt3 : 1 ≤ Real.sqrt 3 ∧ Real.sqrt 3 ≤ 2 := by
  constructor
  · rw [Real.one_le_sqrt]; norm_num
  · rw [Real.sqrt_le_left (by norm_num)]; norm_num

theorem prism_sep : Separated ((prism.length : ℝ) / 10 ^ 8) prism := by
  obtain ⟨s1, s2⟩ := sqrt3
  have hmem : ∀ p ∈ prism, ∃ i j k : Int, p = ⟨i / 2, j * (Real.sqrt 3 / 2), k⟩ ∧ |i| ≤ 2 ∧ |j| ≤ 1 ∧ |k| ≤ 1 := by
    intro p hp
    simp only [prism, List.mem_cons, List.not_mem_nil, or_false] at hp
    rcases hp with rfl | rfl | rfl | rfl | rfl | rfl
    · exact ⟨1, 1, 1, by norm_num, by decide, by decide, by decide⟩
    · exact ⟨-2, 0, 1, by norm_num, by decide, by decide, by decide⟩
    · exact ⟨1, -1, 1, by norm_num, by decide, by decide, by decide⟩
    · exact ⟨1, 1, -1, by norm_num, by decide, by decide, by decide⟩
    · exact ⟨-2, 0, -1, by norm_num, by decide, by decide, by decide⟩
    · exact ⟨1, -1, -1, by norm_num, by decide, by decide, by decide⟩
  have hbd : ∀ p ∈ prism, |p.x| ≤ 1 ∧ |p.y| ≤ 1 ∧ |p.z| ≤ 1 := by
    intro p hp
    simp only [prism, List.mem_cons, List.not_mem_nil, or_false] at hp
    rcases hp with rfl | rfl | rfl | rfl | rfl | rfl <;> simp only [abs_le] <;> refine ⟨⟨?_, ?_⟩, ⟨?_, ?_⟩, ?_, ?_⟩ <;> linarith
  intro a ha b hb c hc p hp
  have hcross : len3 (cross3 (b - a) (c - a)) ≤ 14 := by
    obtain ⟨a1, a2, a3⟩ := hbd a ha
    obtain ⟨b1, b2, b3⟩ := hbd b hb
    obtain ⟨c1, c2, c3⟩ := hbd c hc
    have diff : ∀ {s t : ℝ}, |s| ≤ 1 → |t| ≤ 1 → |s - t| ≤ 2 := fun {s t} h1 h2 => (abs_sub s t).trans (by linarith)
    have prod : ∀ {s t u v : ℝ}, |s| ≤ 2 → |t| ≤ 2 → |u| ≤ 2 → |v| ≤ 2 → (s * t - u * v) * (s * t - u * v) ≤ 64 := by
      intro s t u v hs ht hu hv
      have h1 : |s * t| ≤ 2 * 2 := by rw [abs_mul]; exact mul_le_mul hs ht (abs_nonneg _) (by norm_num)
      have h2 : |u * v| ≤ 2 * 2 := by rw [abs_mul]; exact mul_le_mul hu hv (abs_nonneg _) (by norm_num)
      have h3 : |s * t - u * v| ≤ 8 := (abs_sub _ _).trans (by linarith)
      rw [← abs_mul_abs_self]
      nlinarith [abs_nonneg (s * t - u * v)]
    unfold len3
    rw [Real.sqrt_le_left (by norm_num)]
    have e1 := prod (diff b2 a2) (diff c3 a3) (diff b3 a3) (diff c2 a2)
    have e2 := prod (diff b3 a3) (diff c1 a1) (diff b1 a1) (diff c3 a3)
    have e3 := prod (diff b1 a1) (diff c2 a2) (diff b2 a2) (diff c1 a1)
    simp only [dot3, cross3, V3.sub_x, V3.sub_y, V3.sub_z]
    linarith
  obtain ⟨ai, aj, ak, rfl, _⟩ := hmem a ha
  obtain ⟨bi, bj, bk, rfl, _⟩ := hmem b hb
  obtain ⟨ci, cj, ck, rfl, _⟩ := hmem c hc
  obtain ⟨pi, pj, pk, rfl, _⟩ := hmem p hp
  set V : Int := (bi - ai) * ((cj - aj) * (pk - ak) - (ck - ak) * (pj - aj)) - (bj - aj) * ((ci - ai) * (pk - ak) - (ck - ak) * (pi - ai)) + (bk - ak) * ((ci - ai) * (pj - aj) - (cj - aj) * (pi - ai)) with hV
  have hv : vol6 (⟨ai / 2, aj * (Real.sqrt 3 / 2), ak⟩ : V3 ℝ) ⟨bi / 2, bj * (Real.sqrt 3 / 2), bk⟩ ⟨ci / 2, cj * (Real.sqrt 3 / 2), ck⟩ ⟨pi / 2, pj * (Real.sqrt 3 / 2), pk⟩ = Real.sqrt 3 / 4 * (V : ℝ) := by
    rw [hV]; push_cast; unfold vol6; ring
  rw [hv]
  by_cases h0 : V = 0
  · left; rw [h0]; norm_num
  · right
    have hV1 : (1 : ℝ) ≤ |(V : ℝ)| := by
      rw [← Int.cast_abs]
      exact_mod_cast Int.one_le_abs h0
    rw [abs_mul, abs_of_pos (by positivity : (0 : ℝ) < Real.sqrt 3 / 4)]
    have hm : max (1 / 10 ^ 100) (len3 (cross3 ((⟨bi / 2, bj * (Real.sqrt 3 / 2), bk⟩ : V3 ℝ) - ⟨ai / 2, aj * (Real.sqrt 3 / 2), ak⟩) ((⟨ci / 2, cj * (Real.sqrt 3 / 2), ck⟩ : V3 ℝ) - ⟨ai / 2, aj * (Real.sqrt 3 / 2), ak⟩))) ≤ 14 :=
      max_le (by norm_num) hcross
    have hlen : (prism.length : ℝ) = 6 := by simp [prism]
    rw [hlen]
    have : (6 : ℝ) / 10 ^ 8 * 14 ≤ 1 / 4 := by norm_num
    nlinarith

theorem prism_box : IsBox3 prism ⟨⟨-1, -(Real.sqrt 3 / 2), -1⟩, ⟨1 / 2, Real.sqrt 3 / 2, 1⟩⟩ := by
  obtain ⟨s1, s2⟩ := sqrt3
  refine ⟨fun p hp => ?_, ⟨⟨⟨-1, 0, 1⟩, by simp [prism], rfl⟩, ⟨⟨1 / 2, -(Real.sqrt 3 / 2), 1⟩, by simp [prism], rfl⟩, ⟨⟨-1, 0, -1⟩, by simp [prism], rfl⟩⟩,
    ⟨⟨1 / 2, Real.sqrt 3 / 2, 1⟩, by simp [prism], rfl⟩, ⟨⟨1 / 2, Real.sqrt 3 / 2, 1⟩, by simp [prism], rfl⟩, ⟨⟨1 / 2, Real.sqrt 3 / 2, 1⟩, by simp [prism], rfl⟩⟩
  simp only [prism, List.mem_cons, List.not_mem_nil, or_false] at hp
  rcases hp with rfl | rfl | rfl | rfl | rfl | rfl <;> simp only [inBox3] <;> refine ⟨⟨?_, ?_⟩, ⟨?_, ?_⟩, ?_, ?_⟩ <;> linarith

theorem prism_hash : prism.Pairwise fun p q => hashOf x86 (1 / 10 ^ 16) (Real.sqrt 2 / 2 ^ 21) ⟨⟨-1, -(Real.sqrt 3 / 2), -1⟩, ⟨1 / 2, Real.sqrt 3 / 2, 1⟩⟩ p ≠
    hashOf x86 (1 / 10 ^ 16) (Real.sqrt 2 / 2 ^ 21) ⟨⟨-1, -(Real.sqrt 3 / 2), -1⟩, ⟨1 / 2, Real.sqrt 3 / 2, 1⟩⟩ q := by
  obtain ⟨s1, s2⟩ := sqrt3
  have h3 : 1.7 ≤ Real.sqrt 3 := by exact Real.le_sqrt_of_sq_le (by norm_num)
  have h2 : Real.sqrt 2 ≤ 1.45 := by rw [Real.sqrt_le_left (by norm_num)]; norm_num
  have t : ∀ {w : ℝ}, 1.5 ≤ w → Real.sqrt 2 / 2 ^ 21 ≤ w / 2097151 ∧ (1 / 10 ^ 16 : ℝ) ≤ w / 2097151 := by
    intro w hw
    constructor
    · rw [div_le_div_iff₀ (by norm_num) (by norm_num)]; nlinarith
    · rw [le_div_iff₀ (by norm_num)]; norm_num; linarith
  have x1 := t (w := 1 / 2 - -1) (by norm_num)
  have y1 := t (w := Real.sqrt 3 / 2 - -(Real.sqrt 3 / 2)) (by linarith)
  have z1 := t (w := 1 - -1) (by norm_num)
  have cx := cell_hi (by norm_num : (-1 : ℝ) < 1 / 2) x1.1 x1.2
  have cy := cell_hi (by linarith : -(Real.sqrt 3 / 2) < Real.sqrt 3 / 2) y1.1 y1.2
  have cm := cell_mid (by linarith : -(Real.sqrt 3 / 2) < Real.sqrt 3 / 2) y1.1 y1.2 (x := 0) (by linarith)
  have cz := cell_hi (by norm_num : (-1 : ℝ) < 1) z1.1 z1.2
  simp only [prism, hashOf, x86, List.pairwise_cons, List.mem_cons, List.not_mem_nil, or_false, forall_eq_or_imp, forall_eq, cell_lo, cx, cy, cm, cz]
  simp only [List.Pairwise.nil, and_true, false_imp_iff, implies_true]
  decide +kernel

example (dbg : Bool) : ∃ plc, plcSphere (Points.wrapping x86) dbg 10 (1 / 10 ^ 16) 0 (Real.sqrt 2) 2 = .ok plc ∧ plc.points = flat3 prism ∧ plc.holes = [] ∧ IsHull3 prism plc.facets ∧
    solid prism plc.facets ⊆ ball 0 (Real.sqrt 2) ∧ (3 ≤ 2 → ball 0 (Real.sqrt 2 * (1 - 7 / (2 : ℕ) ^ 2)) ⊆ solid prism plc.facets) := by
  have h := sqrt2_le
  refine C88_sphere_partial x86 dbg (by norm_num) (Real.sqrt_pos.2 (by norm_num)) (by norm_num) (by norm_num) ?_ ?_ ?_ prism_points prism_sep prism_box prism_hash
  all_goals change |(0 : ℝ)| + _ ≤ _; rw [abs_zero]; linarith

example (dbg : Bool) : ∀ plc, plcSphere (Points.wrapping noShift) dbg 10 (1 / 10 ^ 16) 0 (Real.sqrt 2) 2 = .ok plc → ¬ IsHull3 prism plc.facets := by
  have h := sqrt2_le
  refine C88_sphere_noshift_fails noShift (fun _ _ => rfl) dbg (by norm_num) (Real.sqrt_pos.2 (by norm_num)) (by norm_num) (by norm_num) ?_ ?_ ?_ prism_points
  all_goals change |(0 : ℝ)| + _ ≤ _; rw [abs_zero]; linarith

example : plcSphere Points.standard true 10 (1 / 10 ^ 16) 0 1 1 = .abort :=
  C88_one_ring_fails _ one_pos (by change |(0 : ℝ)| + _ ≤ _; norm_num) (by change |(0 : ℝ)| + _ ≤ _; norm_num) (by change |(0 : ℝ)| + _ ≤ _; norm_num)

example (dbg : Bool) : plcCylinder Points.standard dbg 10 (1 / 10 ^ 16) 0 1 2 5 = .ub :=
  (C88_undefined_fails dbg (by norm_num) one_pos (by change |(0 : ℝ)| + _ ≤ _; norm_num) (by change |(0 : ℝ)| + _ ≤ _; norm_num)).1 (by norm_num) (by norm_num) (by change |(0 : ℝ)| + _ ≤ _; norm_num)

end Verif.Canned
