import Verif.Proofs.Hull3
import Verif.Spec.Hull3
import Verif.Props.Unique
import Verif.Props.Box
import Mathlib.Analysis.LocallyConvex.Separation
import Mathlib.Analysis.Convex.Topology
import Mathlib.Analysis.Normed.Module.Convex
/- C79: the convex hull of points of space. -/
namespace Verif.Hull3
open Verif Verif.Geom Verif.Mesh Verif.Hash
open scoped Classical

theorem realNum_ok : realNum.Ok where
  tiny_pos := by unfold realNum; positivity
  tol_pos := by unfold realNum; positivity
  small := by
    unfold realNum
    simp only
    norm_num
  nonneg := Real.sqrt_nonneg
  sq x hx := Real.mul_self_sqrt hx

/-! ### The convex hull -/

theorem point_mem {pts : List (V3 ℝ)} {w : Nat} (hw : w < pts.length) : point pts w ∈ pts := by
  rw [point, ← List.getElem_eq_getD (h := hw)]
  exact List.getElem_mem hw

theorem mem_point {pts : List (V3 ℝ)} {q : V3 ℝ} (hq : q ∈ pts) : ∃ i < pts.length, q = point pts i := by
  obtain ⟨i, hi, rfl⟩ := List.getElem_of_mem hq
  exact ⟨i, hi, List.getElem_eq_getD _⟩

theorem coords_inj {a b : V3 ℝ} (h : coords a = coords b) : a = b := by
  unfold coords at h
  simp only [Prod.mk.injEq] at h
  ext
  · exact h.1
  · exact h.2.1
  · exact h.2.2

/-- The positions below all facets of a closed convex surface are the convex hull of any points that are below it and contain its corners. -/
theorem region_eq {p : Nat → V3 ℝ} {o : V3 ℝ} {fs : List Face} (hg : Good p o fs) (h0 : fs ≠ []) {pts : List (V3 ℝ)} (hin : ∀ w, Used fs w → p w ∈ pts) (hlow : ∀ q ∈ pts, ∀ f ∈ fs, height p f q ≤ 0) :
    coords '' {x | ∀ f ∈ fs, height p f x ≤ 0} = convexHull ℝ {x | ∃ p ∈ pts, x = coords p} := by
  apply Set.Subset.antisymm
  · rintro _ ⟨x, hx, rfl⟩
    by_contra hn
    have hfin : {x | ∃ p ∈ pts, x = coords p}.Finite := by
      have : {x | ∃ p ∈ pts, x = coords p} = coords '' {p | p ∈ pts} := by
        ext y; constructor
        · rintro ⟨p, hp, rfl⟩; exact ⟨p, hp, rfl⟩
        · rintro ⟨p, hp, rfl⟩; exact ⟨p, hp, rfl⟩
      rw [this]
      exact (List.finite_toSet pts).image _
    obtain ⟨f, u, hu, hux⟩ := geometric_hahn_banach_closed_point (convex_convexHull ℝ _) (hfin.isClosed_convexHull ℝ) hn
    have hf : ∀ q : V3 ℝ, f (coords q) = dot3 ⟨f (1, 0, 0), f (0, 1, 0), f (0, 0, 1)⟩ q := by
      intro q
      have : coords q = q.x • ((1, 0, 0) : ℝ × ℝ × ℝ) + q.y • ((0, 1, 0) : ℝ × ℝ × ℝ) + q.z • ((0, 0, 1) : ℝ × ℝ × ℝ) := by
        simp [coords]
      rw [this, map_add, map_add, map_smul, map_smul, map_smul]
      simp only [dot3, smul_eq_mul]; ring
    obtain ⟨w, hw, hle⟩ := hg.exact h0 hx ⟨f (1, 0, 0), f (0, 1, 0), f (0, 0, 1)⟩
    rw [← hf, ← hf] at hle
    have := hu (coords (p w)) (subset_convexHull ℝ _ ⟨p w, hin w hw, rfl⟩)
    linarith
  · refine convexHull_min ?_ ?_
    · rintro _ ⟨q, hq, rfl⟩
      exact ⟨q, fun f hf => hlow q hq f hf, rfl⟩
    · rintro _ ⟨x, hx, rfl⟩ _ ⟨y, hy, rfl⟩ a b ha hb hab
      refine ⟨⟨a * x.x + b * y.x, a * x.y + b * y.y, a * x.z + b * y.z⟩, fun f hf => ?_, rfl⟩
      have : height p f ⟨a * x.x + b * y.x, a * x.y + b * y.y, a * x.z + b * y.z⟩ = a * height p f x + b * height p f y := by
        have hb' : b = 1 - a := by linarith
        subst hb'
        unfold height vol6; ring
      rw [this]
      have h1 := mul_nonpos_of_nonneg_of_nonpos ha (hx f hf)
      have h2 := mul_nonpos_of_nonneg_of_nonpos hb (hy f hf)
      linarith

/-- The facets as they are written. -/
def rowOf (f : Face) : List Int := [(f.1 : Int), (f.2.1 : Int), (f.2.2 : Int)]

theorem dirSides_rowOf (f : Face) : dirSides (rowOf f) = (fedges f).map fun e => ((e.1 : Int), (e.2 : Int)) := rfl

theorem sides_rows (fs : List Face) : (fs.map rowOf).flatMap dirSides = (edgesOf fs).map fun e => ((e.1 : Int), (e.2 : Int)) := by
  induction fs with
  | nil => rfl
  | cons f fs ih => rw [List.map_cons, List.flatMap_cons, ih, dirSides_rowOf, edgesOf, edgesOf, List.flatMap_cons, List.map_append]

theorem rowOf_inj {f : Face} {i j k : Int} (h : rowOf f = [i, j, k]) : i = f.1 ∧ j = f.2.1 ∧ k = f.2.2 := by
  simp only [rowOf, List.cons.injEq, and_true] at h
  exact ⟨h.1.symm, h.2.1.symm, h.2.2.symm⟩

theorem isHull_of {pts : List (V3 ℝ)} {o : V3 ℝ} {fs : List (Tri ℝ)} (hh : Hull realNum pts o fs) (hlow : ∀ i < pts.length, ∀ t ∈ fs, height (point pts) t.face (point pts i) ≤ 0) (h0 : fs ≠ []) :
    IsHull3 pts (fs.map fun t => rowOf t.face) := by
  have hg := hh.good
  have hmap : fs.map (fun t => rowOf t.face) = (fs.map Tri.face).map rowOf := by rw [List.map_map]; rfl
  have h0' : fs.map Tri.face ≠ [] := by simpa using h0
  have hlt : ∀ {w}, Used (fs.map Tri.face) w → w < pts.length := by
    rintro w ⟨f, hf, h⟩
    obtain ⟨t, ht, rfl⟩ := List.mem_map.1 hf
    obtain ⟨h1, h2, h3⟩ := hh.inb t ht
    rcases h with rfl | rfl | rfl
    · exact h1
    · exact h2
    · exact h3
  have hmem : ∀ {w}, w < pts.length → point pts w ∈ pts := point_mem
  have hpt : ∀ q ∈ pts, ∃ i < pts.length, q = point pts i := fun _ => mem_point
  have hlow' : ∀ q ∈ pts, ∀ f ∈ fs.map Tri.face, height (point pts) f q ≤ 0 := by
    intro q hq f hf
    obtain ⟨i, hi, rfl⟩ := hpt q hq
    obtain ⟨t, ht, rfl⟩ := List.mem_map.1 hf
    exact hlow i hi t ht
  have hfac : ∀ {i j k : Int}, [i, j, k] ∈ (fs.map Tri.face).map rowOf ↔ ∃ f ∈ fs.map Tri.face, i = f.1 ∧ j = f.2.1 ∧ k = f.2.2 := by
    intro i j k
    rw [List.mem_map]
    constructor
    · rintro ⟨f, hf, e⟩; exact ⟨f, hf, rowOf_inj e⟩
    · rintro ⟨f, hf, rfl, rfl, rfl⟩; exact ⟨f, hf, rfl⟩
  have hpos : ∀ (i : Nat), posOf pts (i : Int) = point pts i := fun i => rfl
  rw [hmap]
  refine ⟨?_, ?_, ?_, ?_, ?_, ?_⟩
  · intro f hf
    obtain ⟨g, hgm, rfl⟩ := List.mem_map.1 hf
    obtain ⟨t, ht, rfl⟩ := List.mem_map.1 hgm
    obtain ⟨h1, h2, h3⟩ := hh.inb t ht
    exact ⟨_, _, _, rfl, h1, h2, h3⟩
  · rw [sides_rows]
    refine List.Nodup.map ?_ hg.nodup
    rintro ⟨a, b⟩ ⟨a', b'⟩ h
    simp only [Prod.mk.injEq, Nat.cast_inj] at h
    rw [h.1, h.2]
  · intro u v h
    rw [sides_rows] at h ⊢
    obtain ⟨⟨a, b⟩, hab, e⟩ := List.mem_map.1 h
    simp only [Prod.mk.injEq] at e
    obtain ⟨rfl, rfl⟩ := e
    exact List.mem_map.2 ⟨(b, a), hg.rev a b hab, rfl⟩
  · intro i j k h
    obtain ⟨f, hf, rfl, rfl, rfl⟩ := hfac.1 h
    rw [hpos, hpos, hpos]
    have hl : cross3 (point pts f.2.1 - point pts f.1) (point pts f.2.2 - point pts f.1) ≠ 0 := by
      intro h
      have := hg.inner f hf
      rw [height, vol6_dot, h] at this
      simp [dot3] at this
    obtain ⟨w, hw, hne⟩ := hg.not_flat h0' hl (dot3 (cross3 (point pts f.2.1 - point pts f.1) (point pts f.2.2 - point pts f.1)) (point pts f.1))
    refine ⟨point pts w, hmem (hlt hw), lt_of_le_of_ne (hg.below f hf w hw) ?_⟩
    intro e
    apply hne
    change vol6 _ _ _ _ = 0 at e
    rw [vol6_dot] at e
    simp only [dot3, V3.sub_x, V3.sub_y, V3.sub_z] at e ⊢
    linarith
  · rw [← region_eq hg h0' (fun w hw => hmem (hlt hw)) hlow']
    congr 1
    ext x
    constructor
    · intro h f hf
      exact h f.1 f.2.1 f.2.2 (hfac.2 ⟨f, hf, rfl, rfl, rfl⟩)
    · intro h i j k hijk
      obtain ⟨f, hf, rfl, rfl, rfl⟩ := hfac.1 hijk
      exact h f hf
  · have := region_eq hg h0' (pts := (fs.map Tri.face).flatMap fun f => [point pts f.1, point pts f.2.1, point pts f.2.2])
      (by
        rintro w ⟨f, hf, h⟩
        refine List.mem_flatMap.2 ⟨f, hf, ?_⟩
        rcases h with rfl | rfl | rfl <;> simp)
      (by
        intro q hq
        obtain ⟨f, hf, h⟩ := List.mem_flatMap.1 hq
        refine hlow' q ?_
        simp only [List.mem_cons, List.not_mem_nil, or_false] at h
        rcases h with rfl | rfl | rfl
        · exact hmem (hlt ⟨f, hf, Or.inl rfl⟩)
        · exact hmem (hlt ⟨f, hf, Or.inr (Or.inl rfl)⟩)
        · exact hmem (hlt ⟨f, hf, Or.inr (Or.inr rfl)⟩))
    rw [← region_eq hg h0' (fun w hw => hmem (hlt hw)) hlow', this]
    congr 1
    ext x
    constructor
    · rintro ⟨r, hr, i, hi, rfl⟩
      obtain ⟨f, hf, rfl⟩ := List.mem_map.1 hr
      refine ⟨_, List.mem_flatMap.2 ⟨f, hf, ?_⟩, rfl⟩
      simp only [rowOf, List.mem_cons, List.not_mem_nil, or_false] at hi
      rcases hi with rfl | rfl | rfl <;> simp [hpos]
    · rintro ⟨q, hq, rfl⟩
      obtain ⟨f, hf, h⟩ := List.mem_flatMap.1 hq
      simp only [List.mem_cons, List.not_mem_nil, or_false] at h
      refine ⟨rowOf f, List.mem_map_of_mem hf, ?_⟩
      rcases h with rfl | rfl | rfl
      · exact ⟨f.1, by simp [rowOf], rfl⟩
      · exact ⟨f.2.1, by simp [rowOf], rfl⟩
      · exact ⟨f.2.2, by simp [rowOf], rfl⟩

theorem gap_of {pts : List (V3 ℝ)} (h : Separated ((pts.length : ℝ) / 10 ^ 8) pts) : Gap realNum pts := by
  have hmem : ∀ {w}, w < pts.length → point pts w ∈ pts := point_mem
  intro i j k l hi hj hk hl
  rcases h _ (hmem hi) _ (hmem hj) _ (hmem hk) _ (hmem hl) with h | h
  · exact Or.inl h
  · right
    have e : (pts.length : ℝ) * realNum.tol * mag realNum (nrm pts (i, j, k)) = (pts.length : ℝ) / 10 ^ 8 * max (1 / 10 ^ 100) (len3 (cross3 (point pts j - point pts i) (point pts k - point pts i))) := by
      unfold realNum mag nrm len3 dot3
      simp only
      rw [mul_one_div]
    rw [e]
    exact h

theorem solid_of {pts : List (V3 ℝ)} (h : NotFlat pts) : Solid pts := by
  have hpt : ∀ q ∈ pts, ∃ i < pts.length, q = point pts i := fun _ => mem_point
  obtain ⟨a, ha, b, hb, c, hc, d, hd, hv⟩ := h
  obtain ⟨i, hi, rfl⟩ := hpt a ha
  obtain ⟨j, hj, rfl⟩ := hpt b hb
  obtain ⟨k, hk, rfl⟩ := hpt c hc
  obtain ⟨l, hl, rfl⟩ := hpt d hd
  exact ⟨i, j, k, l, hi, hj, hk, hl, hv⟩

/-! ### The unique points -/

theorem hash3_ok (big : Points.Key → Nat → Points.Key) (dbg : Bool) {eps tol : ℝ} (he : 0 < eps) {b : HBox3} (hb : dbg = true → nested3 b b) {p : V3 ℝ} (hp : inBox3 b p) :
    hashPosition3 (Points.wrapping big) dbg eps tol b b p = .ok (hashOf big eps tol b p) := by
  unfold hashPosition3
  have hb' : Res.assert dbg (nested3 b b) = .ok () := by
    cases dbg with
    | false => rfl
    | true => exact Res.assert_true true (hb rfl)
  rw [hb', Res.ok_bind, Res.assert_true dbg hp, Res.ok_bind]
  simp only [not_not.mpr hp, if_false]
  rw [quantCoord_ok (by decide) (by decide) he hp.1.1 hp.1.2, Res.ok_bind, quantCoord_ok (by decide) (by decide) he hp.2.1.1 hp.2.1.2, Res.ok_bind, quantCoord_ok (by decide) (by decide) he hp.2.2.1 hp.2.2.2, Res.ok_bind]
  unfold hash3 Points.wrapping hashOf
  simp only [show 21 < 32 by decide, if_true, show ¬ 42 < 32 by decide, if_false]
  have z : ∀ x : Points.Key, 0 + x = x := BitVec.zero_add
  rw [Res.ok_bind, Res.ok_bind, Res.ok_bind, Res.ok_bind, z]

theorem unique3_ok (big : Points.Key → Nat → Points.Key) (dbg : Bool) {eps tol : ℝ} (he : 0 < eps) {b : HBox3} (hb : dbg = true → nested3 b b) {points : List (V3 ℝ)} (hp : ∀ p ∈ points, inBox3 b p) :
    ∃ uniq ix, uniquePoints3 (Points.wrapping big) dbg eps tol b points = .ok (uniq, ix) ∧ FirstOf (fun p q => hashOf big eps tol b p = hashOf big eps tol b q) points uniq ix :=
  uniqueLoop_spec (key := hashOf big eps tol b) points [] [] [] (fun p hpm => ⟨hash3_ok big dbg he hb (hp p hpm), rfl⟩) (FirstOf.nil _)

/-- The point that brings in entry `k` has `k` points before it, or more. -/
theorem FirstOf.late {α : Type} {same : α → α → Prop} {points uniq : List α} {ix : List Nat} (h : FirstOf same points uniq ix) :
    ∀ (k : Nat) (r : α), uniq[k]? = some r → ∃ i : Nat, k ≤ i ∧ points[i]? = some r ∧ ix[i]? = some k ∧ ∀ j < i, ∃ k' < k, ix[j]? = some k'
  | 0, r, hr => by
    obtain ⟨i, h1, h2, h3⟩ := h.first 0 r hr
    exact ⟨i, Nat.zero_le _, h1, h2, h3⟩
  | k + 1, r, hr => by
    have hk : k < uniq.length := by have := (List.getElem?_eq_some_iff.1 hr).1; omega
    obtain ⟨i, h1, h2, h3⟩ := h.first (k + 1) r hr
    obtain ⟨j, g0, g1, g2, g3⟩ := FirstOf.late h k _ (List.getElem?_eq_getElem hk)
    refine ⟨i, ?_, h1, h2, h3⟩
    rcases Nat.lt_trichotomy i j with hlt | heq | hgt
    · obtain ⟨k', hk', e⟩ := g3 i hlt
      rw [h2] at e
      have := Option.some.inj e; omega
    · subst heq; rw [h2] at g2; have := Option.some.inj g2; omega
    · omega

theorem FirstOf.length_le {α : Type} {same : α → α → Prop} {points uniq : List α} {ix : List Nat} (h : FirstOf same points uniq ix) : uniq.length ≤ points.length := by
  by_contra hc
  obtain ⟨i, h1, h2, _⟩ := FirstOf.late h points.length _ (List.getElem?_eq_getElem (not_le.1 hc))
  have := (List.getElem?_eq_some_iff.1 h2).1
  omega

/-! ### The box -/

theorem flat3_length (ps : List (V3 ℝ)) : (flat3 ps).length = 3 * ps.length := by
  induction ps with
  | nil => rfl
  | cons p ps ih =>
    rw [flat3, List.flatMap_cons, List.length_append]
    change 3 + (flat3 ps).length = _
    rw [ih, List.length_cons]; ring

theorem pointsOf_flat3 : ∀ ps : List (V3 ℝ), pointsOf 3 (flat3 ps) = ps.map fun p => [p.x, p.y, p.z]
  | [] => rfl
  | p :: ps => by
    have ih := pointsOf_flat3 ps
    unfold pointsOf at ih ⊢
    rw [flat3_length, Nat.mul_div_cancel_left _ (by norm_num)] at ih ⊢
    rw [List.length_cons, List.range_succ_eq_map, List.map_cons, List.map_cons, List.map_map, ← ih]
    congr 1

theorem flat3_mem {ps : List (V3 ℝ)} {v : ℝ} (h : v ∈ flat3 ps) : ∃ p ∈ ps, v = p.x ∨ v = p.y ∨ v = p.z := by
  obtain ⟨p, hp, hv⟩ := List.mem_flatMap.1 h
  simp only [List.mem_cons, List.not_mem_nil, or_false] at hv
  exact ⟨p, hp, hv⟩

theorem box_ok (dbg : Bool) {big : ℝ} {procs : List (List (V3 ℝ))} (hr : InRange3 big procs.flatten) (h0 : procs.flatten ≠ []) :
    ∃ bx by' bz, globalBox dbg big 3 (procs.map flat3) = .ok [bx, by', bz] ∧ IsBox3 procs.flatten ⟨⟨bx.1, by'.1, bz.1⟩, ⟨bx.2, by'.2, bz.2⟩⟩ := by
  obtain ⟨p0, hp0⟩ := List.exists_mem_of_ne_nil _ h0
  obtain ⟨pr, hpr, hp0⟩ := List.mem_flatten.1 hp0
  obtain ⟨box, h1, h2, h3⟩ := C35_global dbg (big := big) (d := 3) (procs := procs.map flat3) (by norm_num)
    (by
      intro pos hpos
      obtain ⟨ps, _, rfl⟩ := List.mem_map.1 hpos
      rw [flat3_length]; exact dvd_mul_right _ _)
    ⟨flat3 pr, List.mem_map_of_mem hpr, by
      intro h
      have := flat3_length pr
      rw [h, List.length_nil] at this
      have := List.length_pos_of_mem hp0
      omega⟩
    (by
      intro pos hpos v hv
      obtain ⟨ps, hps, rfl⟩ := List.mem_map.1 hpos
      obtain ⟨p, hp, hv⟩ := flat3_mem hv
      obtain ⟨r1, r2, r3⟩ := hr p (List.mem_flatten.2 ⟨ps, hps, hp⟩)
      rcases hv with rfl | rfl | rfl
      · exact abs_le.1 r1
      · exact abs_le.1 r2
      · exact abs_le.1 r3)
  have hpts : (procs.map flat3).flatMap (pointsOf 3) = procs.flatten.map fun p => [p.x, p.y, p.z] := by
    rw [List.flatMap_map, List.map_flatten, List.flatMap]
    congr 1
    exact List.map_congr_left fun ps _ => pointsOf_flat3 ps
  rw [hpts] at h2 h3
  obtain ⟨hlen, h2⟩ := h2
  match box, hlen with
  | [bx, by', bz], _ =>
    refine ⟨bx, by', bz, h1, fun p hp => ?_, ?_, ?_⟩
    · have := fun j b x => h2 [p.x, p.y, p.z] (List.mem_map_of_mem (f := fun p : V3 ℝ => [p.x, p.y, p.z]) hp) j b x
      exact ⟨this 0 bx p.x rfl rfl, this 1 by' p.y rfl rfl, this 2 bz p.z rfl rfl⟩
    · obtain ⟨⟨q0, m0, e0⟩, _⟩ := h3 0 bx rfl
      obtain ⟨⟨q1, m1, e1⟩, _⟩ := h3 1 by' rfl
      obtain ⟨⟨q2, m2, e2⟩, _⟩ := h3 2 bz rfl
      obtain ⟨p0, n0, rfl⟩ := List.mem_map.1 m0
      obtain ⟨p1, n1, rfl⟩ := List.mem_map.1 m1
      obtain ⟨p2, n2, rfl⟩ := List.mem_map.1 m2
      exact ⟨⟨p0, n0, Option.some.inj e0⟩, ⟨p1, n1, Option.some.inj e1⟩, ⟨p2, n2, Option.some.inj e2⟩⟩
    · obtain ⟨_, ⟨q0, m0, e0⟩⟩ := h3 0 bx rfl
      obtain ⟨_, ⟨q1, m1, e1⟩⟩ := h3 1 by' rfl
      obtain ⟨_, ⟨q2, m2, e2⟩⟩ := h3 2 bz rfl
      obtain ⟨p0, n0, rfl⟩ := List.mem_map.1 m0
      obtain ⟨p1, n1, rfl⟩ := List.mem_map.1 m1
      obtain ⟨p2, n2, rfl⟩ := List.mem_map.1 m2
      exact ⟨⟨p0, n0, Option.some.inj e0⟩, ⟨p1, n1, Option.some.inj e1⟩, ⟨p2, n2, Option.some.inj e2⟩⟩

theorem isBox3_unique {pts : List (V3 ℝ)} {b b' : HBox3} (h : IsBox3 pts b) (h' : IsBox3 pts b') : b = b' := by
  have key : ∀ {a a' : ℝ} (g : V3 ℝ → ℝ), (∃ p ∈ pts, g p = a) → (∀ p ∈ pts, a ≤ g p) → (∃ p ∈ pts, g p = a') → (∀ p ∈ pts, a' ≤ g p) → a = a' := by
    rintro a a' g ⟨p, hp, rfl⟩ h1 ⟨q, hq, rfl⟩ h2
    exact le_antisymm (h1 q hq) (h2 p hp)
  have key' : ∀ {a a' : ℝ} (g : V3 ℝ → ℝ), (∃ p ∈ pts, g p = a) → (∀ p ∈ pts, g p ≤ a) → (∃ p ∈ pts, g p = a') → (∀ p ∈ pts, g p ≤ a') → a = a' := by
    rintro a a' g ⟨p, hp, rfl⟩ h1 ⟨q, hq, rfl⟩ h2
    exact le_antisymm (h2 p hp) (h1 q hq)
  obtain ⟨⟨lx, ly, lz⟩, ⟨hx, hy, hz⟩⟩ := b
  obtain ⟨⟨lx', ly', lz'⟩, ⟨hx', hy', hz'⟩⟩ := b'
  obtain rfl := key V3.x h.low.1 (fun p hp => (h.inside p hp).1.1) h'.low.1 (fun p hp => (h'.inside p hp).1.1)
  obtain rfl := key V3.y h.low.2.1 (fun p hp => (h.inside p hp).2.1.1) h'.low.2.1 (fun p hp => (h'.inside p hp).2.1.1)
  obtain rfl := key V3.z h.low.2.2 (fun p hp => (h.inside p hp).2.2.1) h'.low.2.2 (fun p hp => (h'.inside p hp).2.2.1)
  obtain rfl := key' V3.x h.high.1 (fun p hp => (h.inside p hp).1.2) h'.high.1 (fun p hp => (h'.inside p hp).1.2)
  obtain rfl := key' V3.y h.high.2.1 (fun p hp => (h.inside p hp).2.1.2) h'.high.2.1 (fun p hp => (h'.inside p hp).2.1.2)
  obtain rfl := key' V3.z h.high.2.2 (fun p hp => (h.inside p hp).2.2.2) h'.high.2.2 (fun p hp => (h'.inside p hp).2.2.2)
  rfl

/-- The box of points that are not in one plane has positive extents. -/
theorem nested_of {pts : List (V3 ℝ)} {b : HBox3} (h : IsBox3 pts b) (hn : NotFlat pts) : nested3 b b := by
  obtain ⟨p, hp, q, hq, r, hr, s, hs, hv⟩ := hn
  have i1 := h.inside p hp
  have i2 := h.inside q hq
  have i3 := h.inside r hr
  have i4 := h.inside s hs
  refine ⟨⟨le_refl _, le_refl _, le_refl _⟩, ⟨le_refl _, le_refl _, le_refl _⟩, ?_, ?_, ?_⟩
  · by_contra hc
    have e : ∀ {p : V3 ℝ}, inBox3 b p → p.x = b.lo.x := fun {p} hp => le_antisymm (hp.1.2.trans (not_lt.1 hc)) hp.1.1
    apply hv
    unfold vol6
    rw [e i1, e i2, e i3, e i4]; ring
  · by_contra hc
    have e : ∀ {p : V3 ℝ}, inBox3 b p → p.y = b.lo.y := fun {p} hp => le_antisymm (hp.2.1.2.trans (not_lt.1 hc)) hp.2.1.1
    apply hv
    unfold vol6
    rw [e i1, e i2, e i3, e i4]; ring
  · by_contra hc
    have e : ∀ {p : V3 ℝ}, inBox3 b p → p.z = b.lo.z := fun {p} hp => le_antisymm (hp.2.2.2.trans (not_lt.1 hc)) hp.2.2.1
    apply hv
    unfold vol6
    rw [e i1, e i2, e i3, e i4]; ring

/-! ### The theorems -/

/-- The call in terms of the unique points. -/
theorem convexHull3_eq {A : Points.Arith} {dbg : Bool} {big eps dx : ℝ} {procs : List (List (V3 ℝ))} {points : List (V3 ℝ)} (hr : InRange3 big procs.flatten) {b : HBox3} (hb : IsBox3 procs.flatten b) :
    convexHull3 A dbg big eps dx procs points = (uniquePoints3 A dbg eps dx b points >>= fun u => hullFacets realNum dbg u.1 >>= fun fs => fs.mapM (outFacet u.2) >>= fun facets => pure ⟨facets, []⟩) := by
  have h0 : procs.flatten ≠ [] := by
    obtain ⟨p, hp, _⟩ := hb.low.1
    exact List.ne_nil_of_mem hp
  obtain ⟨bx, by', bz, h1, h2⟩ := box_ok dbg hr h0
  have := isBox3_unique h2 hb
  subst this
  unfold convexHull3
  rw [h1]
  rfl

theorem outFacet_range {n : Nat} {t : Tri ℝ} (h1 : t.i < n) (h2 : t.j < n) (h3 : t.k < n) : outFacet (List.range n) t = .ok (rowOf t.face) := by
  unfold outFacet
  rw [rd_lt (by rw [List.length_range]; exact h1), rd_lt (by rw [List.length_range]; exact h2), rd_lt (by rw [List.length_range]; exact h3)]
  simp only [List.getElem_range]
  rfl

/-- C79: on a platform with wrapping shifts `convexHull` in 3D returns the convex hull of points that are not in one plane. Missing: the points must have different hashes (`C79_repeats_fails`), and
each one must be in the plane of any three others or some distance away from it; by the language standard the call is undefined (`C79_undefined_fails`). -/
theorem C79_partial (plat : Points.Key → Nat → Points.Key) (dbg : Bool) {big eps dx : ℝ} (he : 0 < eps) {procs : List (List (V3 ℝ))} {points : List (V3 ℝ)} (hp : points ∈ procs)
    (hr : InRange3 big procs.flatten) {b : HBox3} (hb : IsBox3 procs.flatten b) (hn : NotFlat points) (hs : Separated ((points.length : ℝ) / 10 ^ 8) points)
    (hd : points.Pairwise fun p q => hashOf plat eps dx b p ≠ hashOf plat eps dx b q) :
    ∃ facets, convexHull3 (Points.wrapping plat) dbg big eps dx procs points = .ok ⟨facets, []⟩ ∧ IsHull3 points facets := by
  have hsub : ∀ p ∈ points, p ∈ procs.flatten := fun p h => List.mem_flatten.2 ⟨points, hp, h⟩
  have hn' : NotFlat procs.flatten := by
    obtain ⟨p, hp, q, hq, r, hr, s, hs, hv⟩ := hn
    exact ⟨p, hsub p hp, q, hsub q hq, r, hsub r hr, s, hsub s hs, hv⟩
  obtain ⟨uniq, ix, h1, h2⟩ := unique3_ok plat dbg (tol := dx) he (fun _ => nested_of hb hn') (points := points) fun p h => hb.inside p (hsub p h)
  obtain ⟨rfl, rfl⟩ := h2.unchanged (fun a b h => h.symm) (fun a => rfl) hd
  obtain ⟨o, fs, h3, h4, h5, h6⟩ := hullFacets_spec realNum_ok (gap_of hs) (solid_of hn) dbg
  refine ⟨fs.map fun t => rowOf t.face, ?_, isHull_of h4 h5 h6⟩
  rw [convexHull3_eq hr hb, h1, Res.ok_bind, h3, Res.ok_bind]
  rw [mapM_ok (f := fun t => rowOf t.face) fs fun t ht => outFacet_range (h4.inb t ht).1 (h4.inb t ht).2.1 (h4.inb t ht).2.2]
  rfl

/-- C79, termination and memory safety: on a platform with wrapping shifts the call with at least one point, whatever the points, ends with a result or a failed assertion. -/
theorem C79_defined (plat : Points.Key → Nat → Points.Key) (dbg : Bool) {big eps dx : ℝ} (he : 0 < eps) {procs : List (List (V3 ℝ))} {points : List (V3 ℝ)} (hp : points ∈ procs)
    (hr : InRange3 big procs.flatten) (h0 : points ≠ []) : convexHull3 (Points.wrapping plat) dbg big eps dx procs points ≠ .ub := by
  have hsub : ∀ p ∈ points, p ∈ procs.flatten := fun p h => List.mem_flatten.2 ⟨points, hp, h⟩
  have h0' : procs.flatten ≠ [] := by
    obtain ⟨p, hpm⟩ := List.exists_mem_of_ne_nil _ h0
    exact List.ne_nil_of_mem (hsub p hpm)
  obtain ⟨bx, by', bz, _, hb⟩ := box_ok true hr h0'
  set b : HBox3 := ⟨⟨bx.1, by'.1, bz.1⟩, ⟨bx.2, by'.2, bz.2⟩⟩
  rw [convexHull3_eq hr hb]
  by_cases hcase : dbg = true ∧ ¬ nested3 b b
  · obtain ⟨rfl, hnn⟩ := hcase
    have : uniquePoints3 (Points.wrapping plat) true eps dx b points = .abort := by
      obtain ⟨p, ps, rfl⟩ := List.exists_cons_of_ne_nil h0
      unfold uniquePoints3 uniqueLoop hashPosition3
      have : Res.assert true (nested3 b b) = .abort := by unfold Res.assert; simp [hnn]
      rw [this]; rfl
    rw [this]
    intro h; cases h
  · obtain ⟨uniq, ix, h1, h2⟩ := unique3_ok plat dbg (tol := dx) he (fun hd => not_not.1 fun h => hcase ⟨hd, h⟩) (points := points) fun p h => hb.inside p (hsub p h)
    rw [h1, Res.ok_bind]
    have hu : uniq ≠ [] := by
      obtain ⟨p, ps, rfl⟩ := List.exists_cons_of_ne_nil h0
      obtain ⟨k, r, _, hk, _⟩ := h2.maps 0 p rfl
      rintro rfl
      cases hk
    cases hf : hullFacets realNum dbg uniq with
    | ub => exact absurd hf (hullFacets_defined realNum_ok dbg hu)
    | abort => intro h; cases h
    | ok fs =>
      rw [Res.ok_bind]
      have hlen : uniq.length ≤ ix.length := by rw [h2.length]; exact FirstOf.length_le h2
      refine bind_defined (mapM_defined _ fun t ht => ?_) fun _ => pure_defined _
      obtain ⟨b1, b2, b3⟩ := hullFacets_inb hf t ht
      have b1 : t.i < ix.length := lt_of_lt_of_le b1 hlen
      have b2 : t.j < ix.length := lt_of_lt_of_le b2 hlen
      have b3 : t.k < ix.length := lt_of_lt_of_le b3 hlen
      unfold outFacet
      rw [rd_lt b1, rd_lt b2, rd_lt b3]
      intro h; cases h

/-! ### Repeated points -/

/-- A repeated first point leaves the unique points as they are. -/
theorem FirstOf.again {α : Type} {same : α → α → Prop} {p : α} {rest uniq : List α} {ix : List Nat} (h : FirstOf same (p :: p :: rest) uniq ix) (hsymm : ∀ a b, same a b → same b a) (hrefl : ∀ a, same a a) :
    ∃ ix', ix = 0 :: ix' ∧ FirstOf same (p :: rest) uniq ix' := by
  match ix, h with
  | [], h => exact absurd h.length (by simp)
  | k0 :: ix', h =>
    have hu : ∀ {k k' : Nat} {r r' : α}, uniq[k]? = some r → uniq[k']? = some r' → same r r' → k = k' := by
      intro k k' r r' e e' hs
      obtain ⟨l, rfl⟩ := List.getElem?_eq_some_iff.1 e
      obtain ⟨l', rfl⟩ := List.getElem?_eq_some_iff.1 e'
      rcases Nat.lt_trichotomy k k' with hlt | heq | hgt
      · exact absurd hs (List.pairwise_iff_getElem.1 h.distinct k k' l l' hlt)
      · exact heq
      · exact absurd (hsymm _ _ hs) (List.pairwise_iff_getElem.1 h.distinct k' k l' l hgt)
    obtain ⟨k, r, e1, e2, e3⟩ := h.maps 0 p rfl
    obtain ⟨k', r', e1', e2', e3'⟩ := h.maps 1 p rfl
    have hk0 : k0 = k := Option.some.inj e1
    subst hk0
    have h00 : k0 = 0 := by
      by_contra hne
      obtain ⟨i, _, g1, g2⟩ := h.first 0 _ (List.getElem?_eq_getElem (l := uniq) (i := 0) (by have := (List.getElem?_eq_some_iff.1 e2).1; omega))
      rcases Nat.eq_zero_or_pos i with rfl | hi
      · exact hne (Option.some.inj g1)
      · obtain ⟨k', hk', _⟩ := g2 0 hi
        omega
    refine ⟨ix', by rw [h00], ?_, ?_, h.distinct, ?_⟩
    · have := h.length
      simpa using this
    · intro i q hq
      cases i with
      | zero => exact ⟨k', r', e1', e2', by rw [show q = p from (Option.some.inj hq).symm]; exact e3'⟩
      | succ i => exact h.maps (i + 2) q hq
    · intro m s hs
      obtain ⟨i, g1, g2, g3⟩ := h.first m s hs
      cases i with
      | zero =>
        have hp : s = p := (Option.some.inj g1).symm
        subst hp
        have hm : m = k' := hu hs e2' (hsymm _ _ e3')
        subst hm
        exact ⟨0, rfl, e1', fun j hj => absurd hj (Nat.not_lt_zero _)⟩
      | succ i =>
        refine ⟨i, ?_, g2, fun j hj => g3 (j + 1) (by omega)⟩
        cases i with
        | zero => exact g1
        | succ i => exact g1

theorem outFacet_again {n : Nat} {t : Tri ℝ} (h1 : t.i < n + 1) (h2 : t.j < n + 1) (h3 : t.k < n + 1) : outFacet (0 :: List.range n) t = .ok (rowOf (t.i - 1, t.j - 1, t.k - 1)) := by
  have key : ∀ {i : Nat}, i < n + 1 → rd (0 :: List.range n) i = .ok (i - 1) := by
    intro i hi
    rw [rd_lt (by simpa using hi)]
    cases i with
    | zero => rfl
    | succ i => simp
  unfold outFacet
  rw [key h1, key h2, key h3]
  rfl

/-- C79 fails: if the first point is given twice and the other points are as in `C79_partial`, the last point is not a corner of any facet. So if it is outside the convex hull of the others, the call
does not return the convex hull. (The numbers of unique points are taken for numbers of points.) -/
theorem C79_repeats_fails (plat : Points.Key → Nat → Points.Key) (dbg : Bool) {big eps dx : ℝ} (he : 0 < eps) {procs : List (List (V3 ℝ))} {p q : V3 ℝ} {mid : List (V3 ℝ)}
    (hp : p :: p :: (mid ++ [q]) ∈ procs) (hr : InRange3 big procs.flatten) {b : HBox3} (hb : IsBox3 procs.flatten b) (hn : NotFlat (p :: (mid ++ [q])))
    (hs : Separated (((p :: (mid ++ [q])).length : ℝ) / 10 ^ 8) (p :: (mid ++ [q]))) (hd : (p :: (mid ++ [q])).Pairwise fun p q => hashOf plat eps dx b p ≠ hashOf plat eps dx b q)
    (hq : coords q ∉ convexHull ℝ {x | ∃ r ∈ p :: mid, x = coords r}) :
    ∃ facets, convexHull3 (Points.wrapping plat) dbg big eps dx procs (p :: p :: (mid ++ [q])) = .ok ⟨facets, []⟩ ∧ (∀ f ∈ facets, ∀ i ∈ f, i ≤ (mid.length : Int)) ∧
      ¬ IsHull3 (p :: p :: (mid ++ [q])) facets := by
  have hsub : ∀ r ∈ p :: p :: (mid ++ [q]), r ∈ procs.flatten := fun r h => List.mem_flatten.2 ⟨_, hp, h⟩
  have hn' : NotFlat procs.flatten := by
    obtain ⟨a1, m1, a2, m2, a3, m3, a4, m4, hv⟩ := hn
    exact ⟨a1, hsub _ (List.mem_cons_of_mem _ m1), a2, hsub _ (List.mem_cons_of_mem _ m2), a3, hsub _ (List.mem_cons_of_mem _ m3), a4, hsub _ (List.mem_cons_of_mem _ m4), hv⟩
  obtain ⟨uniq, ix, h1, h2⟩ := unique3_ok plat dbg (tol := dx) he (fun _ => nested_of hb hn') (points := p :: p :: (mid ++ [q])) fun p h => hb.inside p (hsub p h)
  obtain ⟨ix', rfl, h2'⟩ := FirstOf.again h2 (fun a b h => h.symm) (fun a => rfl)
  obtain ⟨rfl, rfl⟩ := h2'.unchanged (fun a b h => h.symm) (fun a => rfl) hd
  obtain ⟨o, fs, h3, h4, h5, h6⟩ := hullFacets_spec realNum_ok (gap_of hs) (solid_of hn) dbg
  have hlen : (p :: (mid ++ [q])).length = mid.length + 2 := by simp
  have hall : ∀ f ∈ fs.map (fun t => rowOf (t.i - 1, t.j - 1, t.k - 1)), ∀ i ∈ f, 0 ≤ i ∧ i ≤ (mid.length : Int) := by
    intro f hf i hi
    obtain ⟨t, ht, rfl⟩ := List.mem_map.1 hf
    obtain ⟨g1, g2, g3⟩ := h4.inb t ht
    rw [hlen] at g1 g2 g3
    have g1 : t.i < mid.length + 2 := g1
    have g2 : t.j < mid.length + 2 := g2
    have g3 : t.k < mid.length + 2 := g3
    simp only [rowOf, List.mem_cons, List.not_mem_nil, or_false] at hi
    rcases hi with rfl | rfl | rfl
    · omega
    · omega
    · omega
  refine ⟨fs.map fun t => rowOf (t.i - 1, t.j - 1, t.k - 1), ?_, fun f hf i hi => (hall f hf i hi).2, ?_⟩
  · rw [convexHull3_eq hr hb, h1, Res.ok_bind, h3, Res.ok_bind]
    rw [mapM_ok (f := fun t => rowOf (t.i - 1, t.j - 1, t.k - 1)) fs fun t ht => outFacet_again (Nat.lt_succ_of_lt (h4.inb t ht).1) (Nat.lt_succ_of_lt (h4.inb t ht).2.1) (Nat.lt_succ_of_lt (h4.inb t ht).2.2)]
    rfl
  · intro hh
    apply hq
    have hm : coords q ∈ convexHull ℝ {x | ∃ r ∈ p :: p :: (mid ++ [q]), x = coords r} := subset_convexHull ℝ _ ⟨q, by simp, rfl⟩
    rw [← hh.used] at hm
    refine convexHull_mono ?_ hm
    rintro _ ⟨f, hf, i, hi, rfl⟩
    obtain ⟨i0, i1⟩ := hall f hf i hi
    refine ⟨_, ?_, rfl⟩
    obtain ⟨n, rfl⟩ := Int.eq_ofNat_of_zero_le i0
    have i1 : n ≤ mid.length := by omega
    change (p :: p :: (mid ++ [q])).getD n 0 ∈ _
    match n with
    | 0 => simp
    | 1 => simp
    | m + 2 =>
      have hm : m < mid.length := by omega
      rw [List.getD_cons_succ, List.getD_cons_succ, List.getD_eq_getElem?_getD, List.getElem?_append_left hm, List.getElem?_eq_getElem hm]
      exact List.mem_cons_of_mem _ (List.getElem_mem _)

/-- C79 fails by the language standard: a 32-bit number is shifted by 42 bits in the hash of the first point. -/
theorem C79_undefined_fails (dbg : Bool) {big eps dx : ℝ} (he : 0 < eps) {procs : List (List (V3 ℝ))} {points : List (V3 ℝ)} (hp : points ∈ procs) (hr : InRange3 big procs.flatten) (hn : NotFlat points) :
    convexHull3 Points.standard dbg big eps dx procs points = .ub := by
  have hsub : ∀ p ∈ points, p ∈ procs.flatten := fun p h => List.mem_flatten.2 ⟨points, hp, h⟩
  have hn' : NotFlat procs.flatten := by
    obtain ⟨p, hp, q, hq, r, hr, s, hs, hv⟩ := hn
    exact ⟨p, hsub p hp, q, hsub q hq, r, hsub r hr, s, hsub s hs, hv⟩
  obtain ⟨p, hpm, _⟩ := hn
  obtain ⟨bx, by', bz, _, hb⟩ := box_ok true hr (List.ne_nil_of_mem (hsub p hpm))
  rw [convexHull3_eq hr hb]
  obtain ⟨p0, ps, rfl⟩ := List.exists_cons_of_ne_nil (List.ne_nil_of_mem hpm)
  have : uniquePoints3 Points.standard dbg eps dx ⟨⟨bx.1, by'.1, bz.1⟩, ⟨bx.2, by'.2, bz.2⟩⟩ (p0 :: ps) = .ub := by
    unfold uniquePoints3 uniqueLoop
    rw [C37_3d_undefined_fails he (hb.inside p0 (hsub p0 List.mem_cons_self)) dbg (nested_of hb hn')]
    rfl
  rw [this]
  rfl

/-! ### Points with integer coordinates -/

/-- Points with integer coordinates are separated if there are not too many of them in too large a box. -/
theorem separated_int {pts : List (V3 ℝ)} {B : Nat} (h : ∀ p ∈ pts, ∃ x y z : Int, p = ⟨x, y, z⟩ ∧ |x| ≤ B ∧ |y| ≤ B ∧ |z| ≤ B) (hB : 14 * B ^ 2 * pts.length ≤ 10 ^ 8) :
    Separated ((pts.length : ℝ) / 10 ^ 8) pts := by
  intro a ha b hb c hc p hp
  have hpos : 0 < pts.length := List.length_pos_of_mem ha
  obtain ⟨ax, ay, az, rfl, a1, a2, a3⟩ := h a ha
  obtain ⟨bx, by', bz, rfl, b1, b2, b3⟩ := h b hb
  obtain ⟨cx, cy, cz, rfl, c1, c2, c3⟩ := h c hc
  obtain ⟨px, py, pz, rfl, p1, p2, p3⟩ := h p hp
  set V : Int := (bx - ax) * ((cy - ay) * (pz - az) - (cz - az) * (py - ay)) - (by' - ay) * ((cx - ax) * (pz - az) - (cz - az) * (px - ax)) + (bz - az) * ((cx - ax) * (py - ay) - (cy - ay) * (px - ax)) with hV
  have hv : vol6 (⟨ax, ay, az⟩ : V3 ℝ) ⟨bx, by', bz⟩ ⟨cx, cy, cz⟩ ⟨px, py, pz⟩ = (V : ℝ) := by
    rw [hV]; push_cast; unfold vol6; ring
  rw [hv]
  by_cases h0 : V = 0
  · left; rw [h0]; norm_num
  · right
    have hV1 : (1 : ℝ) ≤ |(V : ℝ)| := by
      rw [← Int.cast_abs]
      exact_mod_cast Int.one_le_abs h0
    refine le_trans ?_ hV1
    rcases Nat.eq_zero_or_pos B with rfl | hBpos
    · exfalso
      apply h0
      simp only [Nat.cast_zero, abs_nonpos_iff] at a1 a2 a3 b1 b2 b3 c1 c2 c3
      rw [hV, a1, a2, a3, b1, b2, b3, c1, c2, c3]; ring
    have hB1 : (1 : ℝ) ≤ B := by exact_mod_cast hBpos
    have diff : ∀ {s t : Int}, |s| ≤ B → |t| ≤ B → |(s : ℝ) - t| ≤ 2 * B := by
      intro s t hs ht
      have hs : |(s : ℝ)| ≤ B := by rw [← Int.cast_abs]; exact_mod_cast hs
      have ht : |(t : ℝ)| ≤ B := by rw [← Int.cast_abs]; exact_mod_cast ht
      have := abs_sub (s : ℝ) t
      linarith
    have prod : ∀ {s t u v : ℝ}, |s| ≤ 2 * B → |t| ≤ 2 * B → |u| ≤ 2 * B → |v| ≤ 2 * B → (s * t - u * v) * (s * t - u * v) ≤ 64 * (B : ℝ) ^ 4 := by
      intro s t u v hs ht hu hv
      have h1 : |s * t| ≤ 2 * B * (2 * B) := by rw [abs_mul]; exact mul_le_mul hs ht (abs_nonneg _) (by linarith)
      have h2 : |u * v| ≤ 2 * B * (2 * B) := by rw [abs_mul]; exact mul_le_mul hu hv (abs_nonneg _) (by linarith)
      have h3 : |s * t - u * v| ≤ 8 * (B : ℝ) ^ 2 := by
        have := abs_sub (s * t) (u * v)
        nlinarith
      rw [← abs_mul_abs_self]
      have := mul_le_mul h3 h3 (abs_nonneg _) (by positivity)
      calc _ ≤ _ := this
        _ = 64 * (B : ℝ) ^ 4 := by ring
    have hlen : len3 (cross3 ((⟨bx, by', bz⟩ : V3 ℝ) - ⟨ax, ay, az⟩) ((⟨cx, cy, cz⟩ : V3 ℝ) - ⟨ax, ay, az⟩)) ≤ 14 * (B : ℝ) ^ 2 := by
      unfold len3
      rw [Real.sqrt_le_left (by positivity)]
      have e1 := prod (diff b2 a2) (diff c3 a3) (diff b3 a3) (diff c2 a2)
      have e2 := prod (diff b3 a3) (diff c1 a1) (diff b1 a1) (diff c3 a3)
      have e3 := prod (diff b1 a1) (diff c2 a2) (diff b2 a2) (diff c1 a1)
      have hB4 : 0 ≤ (B : ℝ) ^ 4 := by positivity
      simp only [dot3, cross3, V3.sub_x, V3.sub_y, V3.sub_z]
      nlinarith
    have hmax : max (1 / 10 ^ 100) (len3 (cross3 ((⟨bx, by', bz⟩ : V3 ℝ) - ⟨ax, ay, az⟩) ((⟨cx, cy, cz⟩ : V3 ℝ) - ⟨ax, ay, az⟩))) ≤ 14 * (B : ℝ) ^ 2 := by
      refine max_le ?_ hlen
      have : (1 : ℝ) / 10 ^ 100 ≤ 1 := by norm_num
      nlinarith
    have hB' : 14 * (B : ℝ) ^ 2 * pts.length ≤ 10 ^ 8 := by exact_mod_cast hB
    calc _ ≤ (pts.length : ℝ) / 10 ^ 8 * (14 * (B : ℝ) ^ 2) := mul_le_mul_of_nonneg_left hmax (by positivity)
      _ = (14 * (B : ℝ) ^ 2 * pts.length) / 10 ^ 8 := by ring
      _ ≤ 1 := by rw [div_le_one (by positivity)]; exact hB'

/-! ### Examples -/

/-- Five points, one of them inside the hull. -/
def five : List (V3 ℝ) := [⟨0, 0, 0⟩, ⟨1, 4, 0⟩, ⟨2, 0, 4⟩, ⟨3, 3, 3⟩, ⟨4, 4, 4⟩]

/-- The box of the points. -/
def fiveBox : HBox3 := ⟨⟨0, 0, 0⟩, ⟨4, 4, 4⟩⟩

theorem five_box {pts : List (V3 ℝ)} (h : ∀ p, p ∈ pts ↔ p ∈ five) : IsBox3 pts fiveBox := by
  have m1 : (⟨0, 0, 0⟩ : V3 ℝ) ∈ pts := (h _).2 (by simp [five])
  have m2 : (⟨4, 4, 4⟩ : V3 ℝ) ∈ pts := (h _).2 (by simp [five])
  refine ⟨fun p hp => ?_, ⟨⟨_, m1, rfl⟩, ⟨_, m1, rfl⟩, ⟨_, m1, rfl⟩⟩, ⟨⟨_, m2, rfl⟩, ⟨_, m2, rfl⟩, ⟨_, m2, rfl⟩⟩⟩
  have := (h p).1 hp
  simp only [five, List.mem_cons, List.not_mem_nil, or_false] at this
  rcases this with rfl | rfl | rfl | rfl | rfl <;> simp only [inBox3, fiveBox] <;> norm_num

theorem five_range {pts : List (V3 ℝ)} (h : ∀ p, p ∈ pts ↔ p ∈ five) : InRange3 10 pts := by
  intro p hp
  have := (h p).1 hp
  simp only [five, List.mem_cons, List.not_mem_nil, or_false] at this
  rcases this with rfl | rfl | rfl | rfl | rfl <;> simp only [abs_le] <;> norm_num

theorem five_flat : NotFlat five := by
  refine ⟨⟨0, 0, 0⟩, by simp [five], ⟨1, 4, 0⟩, by simp [five], ⟨2, 0, 4⟩, by simp [five], ⟨4, 4, 4⟩, by simp [five], ?_⟩
  unfold vol6; norm_num

theorem five_sep : Separated ((five.length : ℝ) / 10 ^ 8) five := by
  refine separated_int (B := 4) (fun p hp => ?_) (by decide)
  simp only [five, List.mem_cons, List.not_mem_nil, or_false] at hp
  rcases hp with rfl | rfl | rfl | rfl | rfl
  · exact ⟨0, 0, 0, by norm_num, by decide, by decide, by decide⟩
  · exact ⟨1, 4, 0, by norm_num, by decide, by decide, by decide⟩
  · exact ⟨2, 0, 4, by norm_num, by decide, by decide, by decide⟩
  · exact ⟨3, 3, 3, by norm_num, by decide, by decide, by decide⟩
  · exact ⟨4, 4, 4, by norm_num, by decide, by decide, by decide⟩

theorem five_cell {v : ℝ} {n : Int} (h1 : (n : ℝ) ≤ v * 2097151 / 4) (h2 : v * 2097151 / 4 < n + 1) : cellIx max3 (1 / 10 ^ 16) (1 / 10 ^ 10) 0 4 v = n := by
  have hw : width max3 (1 / 10 ^ 16) (1 / 10 ^ 10) 0 4 = 4 / 2097151 := by
    unfold width max3
    rw [max_eq_left (a := (1 / 10 ^ 10 : ℝ)) (by norm_num), max_eq_left]
    · norm_num
    · norm_num
  unfold cellIx
  rw [hw, Int.floor_eq_iff]
  constructor
  · rw [sub_zero, div_div_eq_mul_div]; exact h1
  · rw [sub_zero, div_div_eq_mul_div]; exact h2

/-- A platform on which a shift by 42 leaves nothing. -/
def noShift : Points.Key → Nat → Points.Key := fun _ _ => 0

theorem five_hash : five.Pairwise fun p q => hashOf noShift (1 / 10 ^ 16) (1 / 10 ^ 10) fiveBox p ≠ hashOf noShift (1 / 10 ^ 16) (1 / 10 ^ 10) fiveBox q := by
  have c0 : cellIx max3 (1 / 10 ^ 16) (1 / 10 ^ 10) 0 4 0 = 0 := five_cell (by norm_num) (by norm_num)
  have c1 : cellIx max3 (1 / 10 ^ 16) (1 / 10 ^ 10) 0 4 1 = 524287 := five_cell (by norm_num) (by norm_num)
  have c2 : cellIx max3 (1 / 10 ^ 16) (1 / 10 ^ 10) 0 4 2 = 1048575 := five_cell (by norm_num) (by norm_num)
  have c3 : cellIx max3 (1 / 10 ^ 16) (1 / 10 ^ 10) 0 4 3 = 1572863 := five_cell (by norm_num) (by norm_num)
  have c4 : cellIx max3 (1 / 10 ^ 16) (1 / 10 ^ 10) 0 4 4 = 2097151 := five_cell (by norm_num) (by norm_num)
  simp only [five, hashOf, fiveBox, noShift, List.pairwise_cons, List.mem_cons, List.not_mem_nil, or_false, forall_eq_or_imp, forall_eq, c0, c1, c2, c3, c4]
  simp only [List.Pairwise.nil, and_true, false_imp_iff, implies_true]
  decide +kernel

example (dbg : Bool) : ∃ facets, convexHull3 (Points.wrapping noShift) dbg 10 (1 / 10 ^ 16) (1 / 10 ^ 10) [five] five = .ok ⟨facets, []⟩ ∧ IsHull3 five facets :=
  C79_partial noShift dbg (by norm_num) (by simp) (five_range (by simp)) (five_box (by simp)) five_flat five_sep five_hash

example (dbg : Bool) : convexHull3 Points.standard dbg 10 (1 / 10 ^ 16) (1 / 10 ^ 10) [five] five = .ub := C79_undefined_fails dbg (by norm_num) (by simp) (five_range (by simp)) five_flat

example (dbg : Bool) : convexHull3 (Points.wrapping noShift) dbg 10 (1 / 10 ^ 16) (1 / 10 ^ 10) [five] five ≠ .ub :=
  C79_defined noShift dbg (by norm_num) (by simp) (five_range (by simp)) (by simp [five])

example (dbg : Bool) : ∃ facets, convexHull3 (Points.wrapping noShift) dbg 10 (1 / 10 ^ 16) (1 / 10 ^ 10) [⟨0, 0, 0⟩ :: five] (⟨0, 0, 0⟩ :: five) = .ok ⟨facets, []⟩ ∧
    (∀ f ∈ facets, ∀ i ∈ f, i ≤ 3) ∧ ¬ IsHull3 (⟨0, 0, 0⟩ :: five) facets := by
  have hm : ∀ p, p ∈ [⟨0, 0, 0⟩ :: five].flatten ↔ p ∈ five := by
    intro p
    simp only [List.flatten_cons, List.flatten_nil, List.append_nil, five, List.mem_cons]
    tauto
  exact C79_repeats_fails noShift dbg (p := ⟨0, 0, 0⟩) (q := ⟨4, 4, 4⟩) (mid := [⟨1, 4, 0⟩, ⟨2, 0, 4⟩, ⟨3, 3, 3⟩]) (by norm_num) (by simp [five]) (five_range hm) (five_box hm) five_flat five_sep five_hash (by
    intro h
    have : convexHull ℝ {x | ∃ r ∈ ([⟨0, 0, 0⟩, ⟨1, 4, 0⟩, ⟨2, 0, 4⟩, ⟨3, 3, 3⟩] : List (V3 ℝ)), x = coords r} ⊆ {x : ℝ × ℝ × ℝ | x.1 ≤ 3} := by
      refine convexHull_min ?_ ?_
      · rintro _ ⟨r, hr, rfl⟩
        simp only [List.mem_cons, List.not_mem_nil, or_false] at hr
        rcases hr with rfl | rfl | rfl | rfl <;> simp [coords] <;> norm_num
      · intro x hx y hy a b ha hb hab
        simp only [Set.mem_setOf_eq, Prod.fst_add, Prod.smul_fst, smul_eq_mul] at *
        nlinarith
    have := this h
    simp only [coords, Set.mem_setOf_eq] at this
    norm_num at this)
end Verif.Hull3
