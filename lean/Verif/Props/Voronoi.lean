import Verif.Proofs.TriVoronoi
import Verif.Proofs.TriMissing
import Verif.Model.Driver
import Verif.Props.Box
import Verif.Props.Snap
import Verif.Props.Mesh
/- C70, C71: what `tessellate` of the triangle tessellator returns without a boundary. -/
namespace Verif.Tri
open Verif Verif.Mesh Verif.Internal Verif.Geom Verif.Readout Verif.Driver

theorem flat_length (ps : List (ℝ × ℝ)) : (flat ps).length = 2 * ps.length := by
  induction ps with
  | nil => rfl
  | cons p ps ih => simp only [flat, List.flatMap_cons, List.length_append, List.length_cons, List.length_nil] at ih ⊢; omega

theorem flat_get : ∀ (ps : List (ℝ × ℝ)) (i : Nat) (hi : i < ps.length), List.take 2 (List.drop (2 * i) (flat ps)) = [ps[i].1, ps[i].2]
  | [], i, hi => by simp at hi
  | p :: ps, 0, _ => by simp [flat, List.flatMap_cons]
  | p :: ps, i + 1, hi => by
    have := flat_get ps i (by simpa using hi)
    simp only [List.getElem_cons_succ]
    rw [← this, Nat.mul_succ]
    simp only [flat, List.flatMap_cons]
    simp

theorem pointsOf_flat (ps : List (ℝ × ℝ)) : pointsOf 2 (flat ps) = ps.map fun p => [p.1, p.2] := by
  unfold pointsOf
  rw [flat_length, Nat.mul_div_cancel_left _ (by omega)]
  apply List.ext_getElem
  · simp
  · intro i h1 h2
    simp only [List.getElem_map, List.getElem_range]
    exact flat_get ps i (by simpa using h2)

/-- A coordinate that stands for `x` is the grid coordinate below it. -/
theorem grid_floor {length xmin x : ℝ} {k : Int} (hl : 0 < length) (h0 : 0 ≤ x - dequantize1 cmin2 cmax2 length xmin k) (h1 : x - dequantize1 cmin2 cmax2 length xmin k < length / 2147483647) :
    dequantize1 cmin2 cmax2 length xmin k = xmin + length / 2147483647 * ⌊(x - xmin) / (length / 2147483647)⌋ := by
  have q0 := quantum_pos grid2 hl
  unfold dequantize1 at h0 h1 ⊢
  rw [quantum2] at q0 h0 h1 ⊢
  have : ⌊(x - xmin) / (length / 2147483647)⌋ = k - cmin2 := by
    rw [Int.floor_eq_iff]
    constructor
    · rw [le_div_iff₀ q0]; linarith
    · rw [div_lt_iff₀ q0]; linarith
  rw [this]; ring

theorem flatMap_frame (q : QT) (n : Nat) : (guardGens n).map (dequantize2 q) = frame q.xmin q.ymin (q.length / 2147483647) := by
  have d0 : ∀ o, dequantize1 cmin2 cmax2 q.length o cmin2 = o := by intro o; simp [dequantize1]
  have d1 : ∀ o, dequantize1 cmin2 cmax2 q.length o cmax2 = o + q.length / 2147483647 * 2147483647 := by
    intro o; unfold dequantize1; rw [quantum2, show ((cmax2 - cmin2 : Int) : ℝ) = 2147483647 by norm_num [cmin2, cmax2]]; ring
  have d2 : ∀ o, dequantize1 cmin2 cmax2 q.length o (cmin2 + 1073741823) = o + q.length / 2147483647 * 1073741823 := by
    intro o; unfold dequantize1; rw [quantum2, show ((cmin2 + 1073741823 - cmin2 : Int) : ℝ) = 1073741823 by norm_num [cmin2]]; ring
  have d3 : ∀ o, dequantize1 cmin2 cmax2 q.length o (cmax2 - 1) = o + q.length / 2147483647 * 2147483646 := by
    intro o; unfold dequantize1; rw [quantum2, show ((cmax2 - 1 - cmin2 : Int) : ℝ) = 2147483646 by norm_num [cmin2, cmax2]]; ring
  unfold guardGens frame
  simp only [show List.range 3 = [0, 1, 2] from rfl, List.flatMap_cons, List.flatMap_nil, List.map_append, List.map_cons, List.map_nil, dequantize2,
    show guardCoord 0 = cmin2 by decide, show guardCoord 1 = cmin2 + 1073741823 by decide, show guardCoord 2 = cmax2 - 1 by decide, d0, d1, d2, d3, mul_zero, add_zero]

/-- The bounding box of the points of all processes. -/
theorem global_box (dbg : Bool) {big : ℝ} {procs : List (List (ℝ × ℝ))} {points : List (ℝ × ℝ)} (hmem : points ∈ procs) (hne : points ≠ [])
    (hbig : ∀ ps ∈ procs, ∀ p ∈ ps, (-big ≤ p.1 ∧ p.1 ≤ big) ∧ -big ≤ p.2 ∧ p.2 ≤ big) {bx : List (ℝ × ℝ)} (hbox : IsBox 2 (procs.flatten.map fun p => [p.1, p.2]) bx) :
    globalBox dbg big 2 (procs.map flat) = .ok bx := by
  have hflat : ∀ ps v, v ∈ flat ps → ∃ p ∈ ps, v = p.1 ∨ v = p.2 := by
    intro ps v hv
    obtain ⟨p, hp, hv⟩ := List.mem_flatMap.1 hv
    exact ⟨p, hp, by simpa using hv⟩
  obtain ⟨box, eb, hb⟩ := C35_global dbg (big := big) (d := 2) (procs := procs.map flat) (by omega)
    (by
      intro pos hp
      obtain ⟨ps, _, rfl⟩ := List.mem_map.1 hp
      exact ⟨_, flat_length ps⟩)
    ⟨flat points, List.mem_map_of_mem hmem, by cases points with
      | nil => exact absurd rfl hne
      | cons p ps => simp [flat]⟩
    (by
      intro pos hp v hv
      obtain ⟨ps, hps, rfl⟩ := List.mem_map.1 hp
      obtain ⟨p, hp, h | h⟩ := hflat ps v hv
      · rw [h]; exact (hbig ps hps p hp).1
      · rw [h]; exact (hbig ps hps p hp).2)
  have hpts : (procs.map flat).flatMap (pointsOf 2) = procs.flatten.map fun p => [p.1, p.2] := by
    rw [List.flatMap_map, List.map_flatten, List.flatMap_def]
    congr 1
    exact List.map_congr_left fun ps _ => pointsOf_flat ps
  rw [hpts] at hb
  rw [Snap.boxOnly hb hbox] at eb
  exact eb

/-- What the quantized mesh is made from. -/
theorem boundary_framed (dbg : Bool) {big : ℝ} {procs : List (List (ℝ × ℝ))} {points : List (ℝ × ℝ)} (hmem : points ∈ procs) (hne : points ≠ [])
    (hbig : ∀ ps ∈ procs, ∀ p ∈ ps, (-big ≤ p.1 ∧ p.1 ≤ big) ∧ -big ≤ p.2 ∧ p.2 ≤ big) {lx hx ly hy L : ℝ} (hbox : IsBox 2 (procs.flatten.map fun p => [p.1, p.2]) [(lx, hx), (ly, hy)])
    (hL : L = max (hx - lx) (hy - ly)) (hL0 : 0 < L) :
    ∃ q, boundaryQT dbg big (procs.map flat) points = .ok q ∧ Framed q ∧ q.generators.length = points.length ∧ q.length = 5 * L ∧ q.xmin = lx - 2 * L ∧ q.ymin = ly - 2 * L ∧
      sites q = framedSites (lx - 2 * L) (ly - 2 * L) (5 * L / 2147483647) points := by
  have eb := global_box dbg hmem hne hbig hbox
  have hin : ∀ p ∈ points, lx ≤ p.1 ∧ p.1 ≤ hx ∧ ly ≤ p.2 ∧ p.2 ≤ hy := by
    intro p hp
    have hm : [p.1, p.2] ∈ procs.flatten.map fun p => [p.1, p.2] := List.mem_map.2 ⟨p, List.mem_flatten.2 ⟨points, hmem, hp⟩, rfl⟩
    have h1 := hbox.1.2 _ hm 0 (lx, hx) p.1 rfl rfl
    have h2 := hbox.1.2 _ hm 1 (ly, hy) p.2 rfl rfl
    exact ⟨h1.1, h1.2, h2.1, h2.2⟩
  obtain ⟨p0, hp0⟩ := List.exists_mem_of_ne_nil points hne
  obtain ⟨b1, b2, b3, b4⟩ := hin p0 hp0
  have L1 : hx - lx ≤ L := hL ▸ le_max_left _ _
  have L2 : hy - ly ≤ L := hL ▸ le_max_right _ _
  have hext : lx < hx ∨ ly < hy := by
    rcases max_choice (hx - lx) (hy - ly) with h | h
    · left; rw [h] at hL; linarith
    · right; rw [h] at hL; linarith
  obtain ⟨q, eq, hlen, hxm, hym, hg, hgl, hst⟩ := C36_boundary dbg (points := points) eb hext (by dsimp only; linarith) (by dsimp only; linarith) hin
  simp only [← hL] at hlen hxm hym
  have S0 : 0 < q.length := by rw [hlen]; linarith
  have hgen : ∀ (k : Nat) (g : IPt), q.generators[k]? = some g → ∃ p, points[k]? = some p ∧ Stands q p k g := by
    intro k g hk
    have : k < points.length := by rw [← hgl]; exact (List.getElem?_eq_some_iff.1 hk).1
    exact ⟨_, List.getElem?_eq_getElem this, hst k _ g (List.getElem?_eq_getElem this) hk⟩
  refine ⟨q, eq, ⟨S0, ⟨_, hg⟩, ?_, ?_⟩, hgl, hlen, hxm, hym, ?_⟩
  · intro g hg'
    obtain ⟨k, hk⟩ := List.getElem?_of_mem hg'
    obtain ⟨p, _, _, c1, c2, c3, c4, _⟩ := hgen k g hk
    exact ⟨⟨c1, c2⟩, c3, c4⟩
  · intro g hg'
    obtain ⟨k, hk⟩ := List.getElem?_of_mem hg'
    obtain ⟨p, hp, _, _, _, _, _, s1, s2, s3, s4⟩ := hgen k g hk
    obtain ⟨i1, i2, i3, i4⟩ := hin p (List.mem_of_getElem? hp)
    have e1 : (dequantize2 q g).x = dequantize1 cmin2 cmax2 q.length q.xmin g.x := rfl
    have e2 : (dequantize2 q g).y = dequantize1 cmin2 cmax2 q.length q.ymin g.y := rfl
    rw [e1, e2]
    rw [hlen] at s1 s2 s3 s4 ⊢
    rw [hxm] at s1 s2 ⊢
    rw [hym] at s3 s4 ⊢
    refine ⟨⟨?_, ?_⟩, ?_, ?_⟩ <;> linarith
  · unfold sites framedSites
    rw [List.map_append, hg, flatMap_frame, hxm, hym, hlen]
    congr 1
    apply List.ext_getElem
    · simpa using hgl
    · intro i h1 h2
      rw [List.getElem_map, List.getElem_map]
      have i1 : i < q.generators.length := by simpa using h1
      have i2 : i < points.length := by simpa using h2
      obtain ⟨_, _, _, _, _, s1, s2, s3, s4⟩ := hst i _ _ (List.getElem?_eq_getElem i2) (List.getElem?_eq_getElem i1)
      have f1 := grid_floor S0 s1 s2
      have f2 := grid_floor S0 s3 s4
      exact V2.ext (f1.trans (by rw [hlen, hxm]; rfl)) (f2.trans (by rw [hlen, hym]; rfl))

/-- C70, for generators that are not all at one place and of which the triangulation leaves none out: without a boundary, `tessellate` of the triangle tessellator returns the Voronoi mesh of its generators, on every process, given that the library Triangle triangulates as it should. The
generators are rounded down to a grid with `2147483647` steps to five times the larger side of the bounding box of all the generators on all processes and set in a frame of guards on the sides of a square of
that size. The mesh is consistent, its boundary is listed exactly, and all its nodes are inside the frame. -/
theorem C70_tessellate_partial (delaunay : List (V2 ℝ) → List (Nat × Nat × Nat)) (dbg : Bool) {big : ℝ} {procs : List (List (ℝ × ℝ))} {points : List (ℝ × ℝ)} (hmem : points ∈ procs) (hne : points ≠ [])
    (hbig : ∀ ps ∈ procs, ∀ p ∈ ps, (-big ≤ p.1 ∧ p.1 ≤ big) ∧ -big ≤ p.2 ∧ p.2 ≤ big) {lx hx ly hy L : ℝ} (hbox : IsBox 2 (procs.flatten.map fun p => [p.1, p.2]) [(lx, hx), (ly, hy)])
    (hL : L = max (hx - lx) (hy - ly)) (hL0 : 0 < L) {S : List (V2 ℝ)} (hS : S = framedSites (lx - 2 * L) (ly - 2 * L) (5 * L / 2147483647) points) (hdel : IsDelaunay S points.length (delaunay S)) :
    ∃ m V, tessellateFree (triangleTess delaunay dbg) dbg big procs points = .ok m ∧ Consistent 2 m ∧ BoundaryExact m ∧ VoronoiMesh S points.length (5 * L / 2147483647) V m ∧
      ∀ k, k < numNodes 2 m → (lx - 2 * L ≤ (V k).x ∧ (V k).x ≤ lx + 3 * L) ∧ ly - 2 * L ≤ (V k).y ∧ (V k).y ≤ ly + 3 * L := by
  obtain ⟨q, eq, hfr, hgl, hlen, hxm, hym, hs⟩ := boundary_framed dbg hmem hne hbig hbox hL hL0
  rw [← hS] at hs
  have hn : 0 < points.length := List.length_pos_iff.2 hne
  rw [← hs, ← hgl] at hdel
  obtain ⟨q', m, V, e1, e2, hc, hv, hb⟩ := voronoi_core delaunay dbg hfr (by omega) hdel
  obtain ⟨bf, bn, e3, _, _, h1, h2⟩ := C12_boundary_exact dbg 2 (by omega) m hc hb
  rw [hs, hgl, quantum2, hlen] at hv
  refine ⟨{ m with boundaryFaces := bf, boundaryNodes := bn }, V, ?_, ?_, ⟨h1, h2⟩, ?_, ?_⟩
  · unfold tessellateFree
    rw [Res.assert_true dbg hn, Res.ok_bind, eq, Res.ok_bind, e1, Res.ok_bind, e2, Res.ok_bind, e3]; rfl
  · exact ⟨hc.dim_pos, hc.nodes_dvd, hc.faces_lt, hc.cells_lt, hc.faceCells_len, hc.faceCells_size, hc.faceCells_lt, hc.inverse⟩
  · exact ⟨hv.cells_len, hv.near, hv.vertex, hv.loop, hv.region⟩
  · intro k hk
    obtain ⟨A, _, _, hA, _, _, _, _, _, hN, _⟩ := hv.vertex k hk
    rw [← hs, ← hgl] at hA
    unfold sites at hA
    rw [List.map_append, List.take_append_of_le_length (by simp), List.take_of_length_le (by simp)] at hA
    obtain ⟨g, hg, rfl⟩ := List.mem_map.1 hA
    rw [← hs] at hN
    obtain ⟨⟨f1, f2⟩, f3, f4⟩ := frame_fits hfr hg hN
    rw [hxm, hym, hlen] at *
    exact ⟨⟨f1, by linarith⟩, f3, by linarith⟩

/-! Two generators, one bounding box length apart. -/

def pairZ : List (Int × Int) := [(858993458, 858993458), (1288490188, 858993458), (0, 0), (0, 2147483647), (0, 0), (2147483647, 0), (1073741823, 0), (1073741823, 2147483647), (0, 1073741823), (2147483647, 1073741823),
  (2147483646, 0), (2147483646, 2147483647), (0, 2147483646), (2147483647, 2147483646)]

def pairTris : List (Nat × Nat × Nat) := [(0, 6, 1), (0, 1, 7), (0, 2, 6), (0, 8, 2), (0, 7, 8), (1, 6, 10), (1, 9, 7), (1, 10, 9)]

theorem pair_sites : framedSites (0 - 2 * 2147483647) (0 - 2 * 2147483647) (5 * 2147483647 / 2147483647) [(0, 0), (2147483647, 0)] = pairZ.map (onGrid (0 - 2 * 2147483647) (0 - 2 * 2147483647) 5) := by
  have f1 : ⌊((0 : ℝ) - (0 - 2 * 2147483647)) / (5 * 2147483647 / 2147483647)⌋ = 858993458 := by rw [Int.floor_eq_iff]; norm_num
  have f2 : ⌊((2147483647 : ℝ) - (0 - 2 * 2147483647)) / (5 * 2147483647 / 2147483647)⌋ = 1288490188 := by rw [Int.floor_eq_iff]; norm_num
  simp only [framedSites, frame, gridPoint, pairZ, onGrid, List.map_cons, List.map_nil, List.flatMap_cons, List.flatMap_nil, List.cons_append, List.nil_append, List.append_nil, f1, f2]
  norm_num

theorem pair_delaunay : IsDelaunay (framedSites (0 - 2 * 2147483647) (0 - 2 * 2147483647) (5 * 2147483647 / 2147483647) [(0, 0), (2147483647, 0)]) 2 pairTris := by
  rw [pair_sites]
  refine delaunay_of_check (by norm_num) (by decide +kernel) (by decide +kernel) (fun p => if p = 0 then ([0, 1, 4, 3, 2], [6, 1, 7, 8, 2]) else ([0, 5, 7, 6, 1], [0, 6, 10, 9, 7])) ?_
  decide +kernel

theorem pair_box : IsBox 2 ([[((0 : ℝ), (0 : ℝ)), (2147483647, 0)]].flatten.map fun p => [p.1, p.2]) [(0, 2147483647), (0, 0)] := by
  refine ⟨⟨rfl, ?_⟩, ?_⟩
  · intro p hp j b x hb hx
    simp only [List.flatten_cons, List.flatten_nil, List.append_nil, List.map_cons, List.map_nil, List.mem_cons, List.not_mem_nil, or_false] at hp
    have hj : j = 0 ∨ j = 1 := by
      have := (List.getElem?_eq_some_iff.1 hb).1
      simp only [List.length_cons, List.length_nil] at this; omega
    rcases hp with rfl | rfl <;> rcases hj with rfl | rfl <;> (injection hb with hb; injection hx with hx; subst hb; subst hx; norm_num)
  · intro j b hb
    have hj : j = 0 ∨ j = 1 := by
      have := (List.getElem?_eq_some_iff.1 hb).1
      simp only [List.length_cons, List.length_nil] at this; omega
    rcases hj with rfl | rfl <;> (injection hb with hb; subst hb)
    · exact ⟨⟨[0, 0], by simp, rfl⟩, ⟨[2147483647, 0], by simp, rfl⟩⟩
    · exact ⟨⟨[0, 0], by simp, rfl⟩, ⟨[0, 0], by simp, rfl⟩⟩

example : ∃ m, tessellateFree (triangleTess (fun _ => pairTris) true) true 1e10 [[(0, 0), (2147483647, 0)]] [(0, 0), (2147483647, 0)] = .ok m ∧ m.cells.length = 2 :=
  let ⟨m, _, h1, _, _, h2, _⟩ := C70_tessellate_partial (fun _ => pairTris) true (big := 1e10) (procs := [[(0, 0), (2147483647, 0)]]) (points := [(0, 0), (2147483647, 0)]) (by simp) (by simp) (by norm_num; rintro a b (⟨rfl, rfl⟩ | ⟨rfl, rfl⟩) <;> norm_num) pair_box
    (L := 2147483647) (by norm_num) (by norm_num) rfl pair_delaunay
  ⟨m, h1, h2.cells_len⟩

/-- C70 fails: generators that are all at the same place, such as a single one, should give a mesh too. But then the grid has no size, and the conversion of the first generator is undefined behaviour. -/
theorem C70_one_place_fails (quantized : QT → Res QT) (dbg : Bool) {big : ℝ} {procs : List (List (ℝ × ℝ))} {points : List (ℝ × ℝ)} (hmem : points ∈ procs) (hne : points ≠ []) {p : ℝ × ℝ}
    (hall : ∀ ps ∈ procs, ∀ x ∈ ps, x = p) (hbig : (-big ≤ p.1 ∧ p.1 ≤ big) ∧ -big ≤ p.2 ∧ p.2 ≤ big) : tessellateFree quantized dbg big procs points = .ub := by
  have hp : p ∈ procs.flatten := by
    obtain ⟨x, hx⟩ := List.exists_mem_of_ne_nil points hne
    have := hall points hmem x hx
    subst this
    exact List.mem_flatten.2 ⟨points, hmem, hx⟩
  have hbox : IsBox 2 (procs.flatten.map fun p => [p.1, p.2]) [(p.1, p.1), (p.2, p.2)] := by
    refine ⟨⟨rfl, ?_⟩, ?_⟩
    · intro y hy j b x hb hx
      obtain ⟨z, hz, rfl⟩ := List.mem_map.1 hy
      obtain ⟨ps, hps, hz⟩ := List.mem_flatten.1 hz
      rw [hall ps hps z hz] at hx
      have hj : j = 0 ∨ j = 1 := by
        have := (List.getElem?_eq_some_iff.1 hb).1
        simp only [List.length_cons, List.length_nil] at this; omega
      rcases hj with rfl | rfl <;> (injection hb with hb; injection hx with hx; subst hb; subst hx; exact ⟨le_refl _, le_refl _⟩)
    · intro j b hb
      have hm : [p.1, p.2] ∈ procs.flatten.map fun p => [p.1, p.2] := List.mem_map.2 ⟨p, hp, rfl⟩
      have hj : j = 0 ∨ j = 1 := by
        have := (List.getElem?_eq_some_iff.1 hb).1
        simp only [List.length_cons, List.length_nil] at this; omega
      rcases hj with rfl | rfl <;> (injection hb with hb; subst hb; exact ⟨⟨_, hm, rfl⟩, ⟨_, hm, rfl⟩⟩)
  have eb := global_box dbg hmem hne (fun ps hps x hx => by rw [hall ps hps x hx]; exact hbig) hbox
  have hl : 0 < points.length := List.length_pos_iff.2 hne
  unfold tessellateFree
  rw [Res.assert_true dbg hl, Res.ok_bind]
  unfold boundaryQT
  rw [eb, Res.ok_bind]
  simp only [show rd [(p.1, p.1), (p.2, p.2)] 0 = .ok (p.1, p.1) from rfl, show rd [(p.1, p.1), (p.2, p.2)] 1 = .ok (p.2, p.2) from rfl, Res.ok_bind, sub_self, max_self, zero_mul]
  cases points with
  | nil => exact absurd rfl hne
  | cons x ps =>
    have : quantize1 cmin2 cmax2 0 (p.1 - 2 * 0) x.1 = .ub := by simp [quantize1, divToInt, quantum]
    unfold constructQT
    rw [quantizeAll, this]; rfl

example : tessellateFree (triangleTess (fun _ => [])  true) true 10 [[(1, 2)]] [(1, 2)] = .ub := C70_one_place_fails _ true (by simp) (by simp) (p := (1, 2)) (by simp) (by norm_num)

/-- C70 fails: when the triangulation leaves a generator out, as Triangle does with a generator that is at the same grid point as another one, a debug build stops, and a release build returns a mesh in which
the generator has an empty cell. -/
theorem C70_left_out_fails (delaunay : List (V2 ℝ) → List (Nat × Nat × Nat)) (dbg : Bool) {big : ℝ} {procs : List (List (ℝ × ℝ))} {points : List (ℝ × ℝ)} (hmem : points ∈ procs) (hne : points ≠ [])
    (hbig : ∀ ps ∈ procs, ∀ p ∈ ps, (-big ≤ p.1 ∧ p.1 ≤ big) ∧ -big ≤ p.2 ∧ p.2 ≤ big) {lx hx ly hy L : ℝ} (hbox : IsBox 2 (procs.flatten.map fun p => [p.1, p.2]) [(lx, hx), (ly, hy)])
    (hL : L = max (hx - lx) (hy - ly)) (hL0 : 0 < L) {p : Nat} (hp : p < points.length) (hno : ∀ t ∈ delaunay (framedSites (lx - 2 * L) (ly - 2 * L) (5 * L / 2147483647) points), p ∉ corners t) {m : Tess ℝ}
    (h : tessellateFree (triangleTess delaunay dbg) dbg big procs points = .ok m) : dbg = false ∧ Mesh.cell m p = [] := by
  obtain ⟨q, eq, _, hgl, _, _, _, hs⟩ := boundary_framed dbg hmem hne hbig hbox hL hL0
  unfold tessellateFree at h
  rw [Res.assert_true dbg (List.length_pos_iff.2 hne), Res.ok_bind, eq, Res.ok_bind] at h
  obtain ⟨r, e1, h⟩ := Res.bind_eq_ok.1 h
  obtain ⟨m1, e2, h⟩ := Res.bind_eq_ok.1 h
  obtain ⟨b, _, h⟩ := Res.bind_eq_ok.1 h
  injection h with h; subst h
  rw [← hs] at hno
  obtain ⟨d, hc⟩ := missing_core (by omega) hno e1
  refine ⟨d, ?_⟩
  have : m1.cells = r.cellEdges := by
    unfold fillTess at e2
    obtain ⟨_, _, e2⟩ := Res.bind_eq_ok.1 e2
    split at e2
    · exact absurd e2 (by intro h; cases h)
    obtain ⟨_, _, e2⟩ := Res.bind_eq_ok.1 e2
    injection e2 with e2; subst e2; rfl
  unfold Mesh.cell
  dsimp only
  rw [this]; exact hc

/-- Generator 2 is where generator 0 is; the triangulation is the one of the other two. -/
example (m : Tess ℝ) : tessellateFree (triangleTess (fun _ => [(0, 7, 1), (0, 1, 8), (0, 3, 7), (0, 9, 3), (0, 8, 9), (1, 7, 11), (1, 10, 8), (1, 11, 10)]) true) true 10 [[(0, 0), (1, 0), (0, 0)]] [(0, 0), (1, 0), (0, 0)] ≠ .ok m := by
  intro h
  have hbox : IsBox 2 (([[(0, 0), (1, 0), (0, 0)]] : List (List (ℝ × ℝ))).flatten.map fun p => [p.1, p.2]) [(0, 1), (0, 0)] := by
    refine ⟨⟨rfl, ?_⟩, ?_⟩
    · intro y hy j b x hb hx
      have hj : j = 0 ∨ j = 1 := by
        have := (List.getElem?_eq_some_iff.1 hb).1
        simp only [List.length_cons, List.length_nil] at this; omega
      simp only [List.flatten_cons, List.flatten_nil, List.append_nil, List.map_cons, List.map_nil, List.mem_cons, List.not_mem_nil, or_false] at hy
      rcases hj with rfl | rfl <;> rcases hy with rfl | rfl | rfl <;> (injection hb with hb; injection hx with hx; subst hb; subst hx; norm_num)
    · intro j b hb
      have hj : j = 0 ∨ j = 1 := by
        have := (List.getElem?_eq_some_iff.1 hb).1
        simp only [List.length_cons, List.length_nil] at this; omega
      rcases hj with rfl | rfl <;> (injection hb with hb; subst hb; simp)
  have := (C70_left_out_fails _ true (by simp) (by simp) (by norm_num; rintro a b (⟨rfl, rfl⟩ | ⟨rfl, rfl⟩ | ⟨rfl, rfl⟩) <;> norm_num) hbox (L := 1) (by norm_num) (by norm_num) (p := 2) (by simp) (by intro t ht; simp [corners] at *; rcases ht with rfl | rfl | rfl | rfl | rfl | rfl | rfl | rfl <;> simp) h).1
  simp at this

/-- C71: inside the bounding box of the generators the guards do not matter. The cells cover the box, and a place in the box is in the cell of a generator if and only if no other generator is nearer to it
(generators rounded to the grid, nodes at their exact places). -/
theorem C71_box (delaunay : List (V2 ℝ) → List (Nat × Nat × Nat)) (dbg : Bool) {big : ℝ} {procs : List (List (ℝ × ℝ))} {points : List (ℝ × ℝ)} (hmem : points ∈ procs) (hne : points ≠ [])
    (hbig : ∀ ps ∈ procs, ∀ p ∈ ps, (-big ≤ p.1 ∧ p.1 ≤ big) ∧ -big ≤ p.2 ∧ p.2 ≤ big) {lx hx ly hy L : ℝ} (hbox : IsBox 2 (procs.flatten.map fun p => [p.1, p.2]) [(lx, hx), (ly, hy)])
    (hL : L = max (hx - lx) (hy - ly)) (hL0 : 0 < L) {S : List (V2 ℝ)} (hS : S = framedSites (lx - 2 * L) (ly - 2 * L) (5 * L / 2147483647) points) (hdel : IsDelaunay S points.length (delaunay S)) :
    ∃ (m : Tess ℝ) (V : Nat → V2 ℝ), tessellateFree (triangleTess delaunay dbg) dbg big procs points = .ok m ∧ m.cells.length = points.length ∧
      (∀ k, k < numNodes 2 m → ∃ N : V2 ℝ, node 2 m k = [N.x, N.y] ∧ Near (5 * L / 2147483647) N (V k)) ∧
      ∀ G : List (V2 ℝ), G = points.map (gridPoint (lx - 2 * L) (ly - 2 * L) (5 * L / 2147483647)) →
        ∀ Y : V2 ℝ, lx ≤ Y.x → Y.x ≤ hx → ly ≤ Y.y → Y.y ≤ hy →
          (∃ p < points.length, ∃ P, G[p]? = some P ∧ ∃ s ∈ Mesh.cell m p, ∃ a b, face m (posID s) = [a, b] ∧ InTri P (V a) (V b) Y) ∧
          ∀ p < points.length, ∀ P, G[p]? = some P → (Nearest G P Y ↔ ∃ s ∈ Mesh.cell m p, ∃ a b, face m (posID s) = [a, b] ∧ InTri P (V a) (V b) Y) := by
  obtain ⟨m, V, e, _, _, hv, _⟩ := C70_tessellate_partial delaunay dbg hmem hne hbig hbox hL hL0 hS hdel
  refine ⟨m, V, e, hv.cells_len, hv.near, ?_⟩
  rintro G rfl Y y1 y2 y3 y4
  set x0 := lx - 2 * L with hx0
  set y0 := ly - 2 * L with hy0
  set u := 5 * L / 2147483647 with hu
  have hu0 : 0 < u := by positivity
  have L1 : hx - lx ≤ L := hL ▸ le_max_left _ _
  have L2 : hy - ly ≤ L := hL ▸ le_max_right _ _
  have hgp : ∀ P ∈ points.map (gridPoint x0 y0 u), (lx - u ≤ P.x ∧ P.x ≤ hx) ∧ ly - u ≤ P.y ∧ P.y ≤ hy := by
    intro P hP
    obtain ⟨p, hp, rfl⟩ := List.mem_map.1 hP
    have hm : [p.1, p.2] ∈ procs.flatten.map fun p => [p.1, p.2] := List.mem_map.2 ⟨p, List.mem_flatten.2 ⟨points, hmem, hp⟩, rfl⟩
    have h1 := hbox.1.2 _ hm 0 (lx, hx) p.1 rfl rfl
    have h2 := hbox.1.2 _ hm 1 (ly, hy) p.2 rfl rfl
    have fl : ∀ z : ℝ, u * ⌊z / u⌋ ≤ z ∧ z < u * ⌊z / u⌋ + u := by
      intro z
      have a := Int.floor_le (z / u)
      have b := Int.lt_floor_add_one (z / u)
      rw [le_div_iff₀ hu0] at a
      rw [div_lt_iff₀ hu0] at b
      constructor <;> linarith
    have f1 := fl (p.1 - x0)
    have f2 := fl (p.2 - y0)
    dsimp only at h1 h2
    unfold gridPoint
    refine ⟨⟨?_, ?_⟩, ?_, ?_⟩ <;> dsimp only <;> linarith [h1.1, h1.2, h2.1, h2.2, f1.1, f1.2, f2.1, f2.2]
  have hframe : ∀ P ∈ points.map (gridPoint x0 y0 u), ∀ Q ∈ frame x0 y0 u, sq2 Y P ≤ sq2 Y Q := by
    intro P hP Q hQ
    obtain ⟨⟨p1, p2⟩, p3, p4⟩ := hgp P hP
    have hsmall : u ≤ 0.01 * L := by rw [hu, div_le_iff₀ (by norm_num)]; linarith
    have hs : u * 2147483647 = 5 * L := by rw [hu]; field_simp
    have hP' : sq2 Y P ≤ 4 * L ^ 2 := by
      unfold sq2
      have a1 : (Y.x - P.x) ^ 2 ≤ (1.01 * L) ^ 2 := by rw [sq_le_sq, abs_of_nonneg (show (0:ℝ) ≤ 1.01 * L by positivity), abs_le]; constructor <;> linarith
      have a2 : (Y.y - P.y) ^ 2 ≤ (1.01 * L) ^ 2 := by rw [sq_le_sq, abs_of_nonneg (show (0:ℝ) ≤ 1.01 * L by positivity), abs_le]; constructor <;> linarith
      nlinarith [sq_nonneg L]
    have far : 2 * L ≤ |Y.x - Q.x| ∨ 2 * L ≤ |Y.y - Q.y| := by
      unfold frame at hQ
      obtain ⟨k, _, hQ⟩ := List.mem_flatMap.1 hQ
      simp only [List.mem_cons, List.not_mem_nil, or_false] at hQ
      rcases hQ with rfl | rfl | rfl | rfl
      · right; dsimp only; rw [le_abs]; left; linarith
      · right; dsimp only; rw [le_abs]; right; linarith
      · left; dsimp only; rw [le_abs]; left; linarith
      · left; dsimp only; rw [le_abs]; right; linarith
    have hQ' : 4 * L ^ 2 ≤ sq2 Y Q := by
      unfold sq2
      rw [← sq_abs (Y.x - Q.x), ← sq_abs (Y.y - Q.y)]
      rcases far with h | h <;> nlinarith [sq_nonneg |Y.x - Q.x|, sq_nonneg |Y.y - Q.y|]
    linarith
  have hiff : ∀ p < points.length, ∀ P, (points.map (gridPoint x0 y0 u))[p]? = some P → (Nearest (points.map (gridPoint x0 y0 u)) P Y ↔ ∃ s ∈ Mesh.cell m p, ∃ a b, face m (posID s) = [a, b] ∧ InTri P (V a) (V b) Y) := by
    intro p hp P hP
    obtain ⟨P', hP', hreg⟩ := hv.region p hp
    have hsub : S[p]? = (points.map (gridPoint x0 y0 u))[p]? := by
      rw [hS]; unfold framedSites
      rw [List.getElem?_append_left (by simpa using hp)]
    rw [hsub, hP] at hP'
    injection hP' with hP'; subst hP'
    rw [← hreg Y, hS]
    unfold framedSites Nearest
    constructor
    · intro h Q hQ
      rcases List.mem_append.1 hQ with hQ | hQ
      · exact h Q hQ
      · exact hframe P (List.mem_of_getElem? hP) Q hQ
    · intro h Q hQ
      exact h Q (List.mem_append_left _ hQ)
  refine ⟨?_, hiff⟩
  obtain ⟨p, hp, hmin⟩ := Finset.exists_min_image (Finset.range points.length) (fun k => sq2 Y (((points.map (gridPoint x0 y0 u))[k]?).getD ⟨0, 0⟩)) ⟨0, Finset.mem_range.2 (List.length_pos_iff.2 hne)⟩
  rw [Finset.mem_range] at hp
  have hp' : p < (points.map (gridPoint x0 y0 u)).length := by simpa using hp
  refine ⟨p, hp, _, List.getElem?_eq_getElem hp', (hiff p hp _ (List.getElem?_eq_getElem hp')).1 fun Q hQ => ?_⟩
  obtain ⟨k, hk⟩ := List.getElem?_of_mem hQ
  have hkl : k < points.length := by have := (List.getElem?_eq_some_iff.1 hk).1; simpa using this
  have := hmin k (Finset.mem_range.2 hkl)
  simp only [hk, List.getElem?_eq_getElem hp', Option.getD_some] at this
  exact this

example : ∃ m, tessellateFree (triangleTess (fun _ => pairTris) false) false 1e10 [[(0, 0), (2147483647, 0)]] [(0, 0), (2147483647, 0)] = .ok m ∧ m.cells.length = 2 :=
  let ⟨m, _, h1, h2, _⟩ := C71_box (fun _ => pairTris) false (big := 1e10) (procs := [[(0, 0), (2147483647, 0)]]) (points := [(0, 0), (2147483647, 0)]) (by simp) (by simp)
    (by norm_num; rintro a b (⟨rfl, rfl⟩ | ⟨rfl, rfl⟩) <;> norm_num) pair_box (L := 2147483647) (by norm_num) (by norm_num) rfl pair_delaunay
  ⟨m, h1, h2⟩
end Verif.Tri
