import Verif.Proofs.CellPLC
import Verif.Props.Mesh
import Mathlib.Algebra.Order.Field.Rat
import Mathlib.Algebra.Order.Ring.Unbundled.Rat
/- Properties C22 (reduced PLCs), C23 (boxes), C24 (circles), C25 (one cell as a PLC). -/
namespace Verif.Geom
open Verif Verif.Mesh Verif.Editor
variable {R : Type}

/-! ### C22 -/

/-- C22, for the facets: the constructor succeeds for in-range facets; every facet keeps its vertex coordinates in order; two vertices are the same point of the
result exactly if they were the same point before (`ids` lists the old ids); every stored point is used. The holes are not covered. -/
theorem C22_facets_partial (D : Nat) (hD : 0 < D) (plc : PLC) (all : List R) (h : InRange (all.length / D) plc.facets) :
    ∃ r, reducedPLC D plc all = .ok r ∧
      r.facets.map (facetCoords D r.points) = plc.facets.map (facetCoords D all) ∧
      D ∣ r.points.length ∧ InRange (r.points.length / D) r.facets ∧ AllUsed (r.points.length / D) r.facets ∧ r.holes = plc.holes ∧
      ∃ ids : List Int, ids.Nodup ∧ ids.length = r.points.length / D ∧ r.facets.map (·.map fun i => ids.getD i.toNat 0) = plc.facets ∧
        (∀ k (hk : k < ids.length), pt D r.points (k : Int) = pt D all ids[k]) := reducedPLC_spec hD h

/-- C22: a facet id that does not name a point makes the constructor read out of bounds. -/
theorem C22_out_of_range (D : Nat) (plc : PLC) (all : List R) {f : List Int} (hf : f ∈ plc.facets) {i : Int} (hi : i ∈ f)
    (hbad : ¬ (0 ≤ i ∧ D * (i.toNat + 1) ≤ all.length)) : reducedPLC D plc all = .ub := by
  unfold reducedPLC
  dsimp only
  rw [copyPoints_ub (ids_mem.2 ⟨f, hf, hi⟩) hbad]
  rfl

/-- C22 fails for holes, in general: whenever a hole has a vertex at a position that no facet vertex has, that hole has different vertex coordinates in
the result (its ids still refer to the original point list). -/
theorem C22_holes_fails (D : Nat) (hD : 0 < D) (plc : PLC) (all : List R) (h : InRange (all.length / D) plc.facets)
    {H : List (List Int)} (_hH : H ∈ plc.holes) (hr : InRange (all.length / D) H) {f : List Int} (hf : f ∈ H) {i : Int} (hi : i ∈ f)
    (hne : ∀ g ∈ plc.facets, ∀ j ∈ g, pt D all j ≠ pt D all i) :
    ∃ r, reducedPLC D plc all = .ok r ∧ r.holes = plc.holes ∧ facetCoords D r.points f ≠ facetCoords D all f := by
  refine ⟨_, reducedPLC_ok h, rfl, fun e => ?_⟩
  have := reducedPLC_hole h (reducedPLC_ok h) (hr f hf i hi).1 (hr f hf i hi).2 hD hne
  exact this (List.map_inj_left.1 e i hi)

/-- C22, when the facets use all the points: then nothing is renumbered and the holes keep their coordinates too. -/
theorem C22_all_used_partial (D : Nat) (hD : 0 < D) (plc : PLC) (all : List R) (hdvd : D ∣ all.length) (h : InRange (all.length / D) plc.facets)
    (hu : AllUsed (all.length / D) plc.facets) : reducedPLC D plc all = .ok { facets := plc.facets, holes := plc.holes, points := all } := by
  have hids : setAddAll [] plc.facets.flatten = (List.range (all.length / D)).map fun k : Nat => (k : Int) := by
    refine List.Pairwise.eq_of_mem_iff (r := (· < ·)) (sorted_setAddAll _ _ List.Pairwise.nil) ?_ ?_
    · rw [List.pairwise_map]
      exact List.pairwise_lt_range.imp fun h => by omega
    · intro i
      rw [ids_mem, List.mem_map]
      constructor
      · rintro ⟨f, hf, hi⟩
        have := h f hf i hi
        exact ⟨i.toNat, List.mem_range.2 (by omega), by omega⟩
      · rintro ⟨k, hk, rfl⟩
        exact hu k (List.mem_range.1 hk)
  have hnew : ∀ k : Nat, k < all.length / D → newID ((List.range (all.length / D)).map fun k : Nat => (k : Int)) (k : Int) = k := by
    intro k hk
    have hm : (k : Int) ∈ (List.range (all.length / D)).map fun k : Nat => (k : Int) := List.mem_map.2 ⟨k, List.mem_range.2 hk, rfl⟩
    obtain ⟨j, hj, hl, e⟩ := newID_spec hm
    rw [hj]; simpa using e
  rw [reducedPLC_ok h, hids]
  congr 2
  · conv_rhs => rw [← List.map_id plc.facets]
    refine List.map_congr_left fun f hf => ?_
    conv_rhs => rw [id, ← List.map_id f]
    refine List.map_congr_left fun i hi => ?_
    have := h f hf i hi
    obtain ⟨k, rfl⟩ := Int.eq_ofNat_of_zero_le this.1
    exact hnew k (by omega)
  · obtain ⟨n, hn⟩ := hdvd
    rw [hn, Nat.mul_div_cancel_left _ hD, List.flatMap_map]
    have : ∀ (n : Nat) (l : List R), l.length = D * n → (List.range n).flatMap (fun a : Nat => pt D l (a : Int)) = l := by
      intro n
      induction n with
      | zero => intro l hl; simp at hl; simp [hl]
      | succ n ih =>
        intro l hl
        rw [List.range_succ_eq_map, List.flatMap_cons, List.flatMap_map]
        have := ih (l.drop D) (by rw [List.length_drop, hl, Nat.mul_succ]; omega)
        conv_rhs => rw [← List.take_append_drop D l, ← this]
        congr 1
        · congr 1
          funext a
          simp only [pt, Int.toNat_natCast, List.drop_drop, Nat.succ_eq_add_one]
          congr 2; ring
    exact this n all hn

/-- A square hole (points 0-3) in a square (points 4-7). -/
def holedPLC : PLC := { facets := [[4, 5], [5, 6], [6, 7], [7, 4]], holes := [[[0, 1], [1, 2], [2, 3], [3, 0]]] }
def holedPoints : List Int := [1,1, 1,2, 2,2, 2,1, 0,0, 3,0, 3,3, 0,3]

-- The hypotheses of C22_facets_partial and C22_holes_fails hold, and the hole moves onto the outer square.
example : InRange (holedPoints.length / 2) holedPLC.facets ∧ (∀ H ∈ holedPLC.holes, InRange (holedPoints.length / 2) H) ∧
    (∀ g ∈ holedPLC.facets, ∀ j ∈ g, pt 2 holedPoints j ≠ pt 2 holedPoints 0) := by
  refine ⟨?_, ?_, ?_⟩
  · unfold InRange; decide +kernel
  · unfold InRange; decide +kernel
  · decide +kernel
example : reducedPLC 2 holedPLC holedPoints = .ok { facets := [[0, 1], [1, 2], [2, 3], [3, 0]], holes := holedPLC.holes, points := [0,0, 3,0, 3,3, 0,3] } := by
  decide +kernel
-- C22_all_used_partial applies to the same hole listed inside facets that use all points.
example : reducedPLC 2 { facets := [[2, 0], [0, 1], [1, 2]], holes := [[[0, 2]]] } [(5 : Int), 5, 6, 6, 7, 5]
    = .ok { facets := [[2, 0], [0, 1], [1, 2]], holes := [[[0, 2]]], points := [5, 5, 6, 6, 7, 5] } := by decide +kernel
-- An unused point is dropped.
example : reducedPLC 2 { facets := [[3, 1], [1, 2], [2, 3]] } [(9 : Int), 9, 5, 5, 6, 6, 7, 5]
    = .ok { facets := [[2, 0], [0, 1], [1, 2]], points := [5, 5, 6, 6, 7, 5] } := by decide +kernel

/-! ### C23 -/

section
variable {K : Type} [Field K] [LinearOrder K] [IsStrictOrderedRing K]

/-- C23, 2D: the box of `plc_box` is valid, its points are the four corners, its facets are one closed loop, every point is on or to the left of every facet
(so the box is convex and counter-clockwise), and it encloses the product of the side lengths, which is positive. -/
theorem C23_box2 (x1 y1 x2 y2 : K) (hx : x1 < x2) (hy : y1 < y2) :
    let b := plcBox2 x1 y1 x2 y2
    valid 2 b.facets b.holes = true ∧ b.holes = [] ∧ b.points.length = 2 * 4 ∧ (∀ x ∈ [x1, x2], ∀ y ∈ [y1, y2], ∃ k : Nat, k < 4 ∧ pt 2 b.points (k : Int) = [x, y]) ∧
    OneLoop 4 b.facets ∧ (∀ f ∈ b.facets, ∀ q : Nat, q < 4 → 0 ≤ side2 b.points (f.getD 0 0) (f.getD 1 0) (q : Int)) ∧
    signedArea b.points b.facets = (x2 - x1) * (y2 - y1) ∧ 0 < signedArea b.points b.facets := by
  have harea : signedArea (plcBox2 x1 y1 x2 y2).points (plcBox2 x1 y1 x2 y2).facets = (x2 - x1) * (y2 - y1) := by
    simp [signedArea, plcBox2, crd]; ring
  have hd : 0 ≤ (x2 - x1) * (y2 - y1) := mul_nonneg (by linarith) (by linarith)
  refine ⟨rfl, rfl, rfl, ?_, ?_, ?_, harea, ?_⟩
  · intro x hxm y hym
    simp only [List.mem_cons, List.not_mem_nil, or_false] at hxm hym
    rcases hxm with rfl | rfl <;> rcases hym with rfl | rfl
    · exact ⟨0, by omega, rfl⟩
    · exact ⟨3, by omega, rfl⟩
    · exact ⟨1, by omega, rfl⟩
    · exact ⟨2, by omega, rfl⟩
  · have := chainFacets_oneLoop 4
    exact this
  · intro f hf q hq
    have hq' : q = 0 ∨ q = 1 ∨ q = 2 ∨ q = 3 := by omega
    simp only [plcBox2, List.mem_cons, List.not_mem_nil, or_false] at hf
    rcases hf with rfl | rfl | rfl | rfl <;> rcases hq' with rfl | rfl | rfl | rfl <;> simp [plcBox2, side2, crd] <;> nlinarith
  · rw [harea]
    exact mul_pos (by linarith) (by linarith)

omit [LinearOrder K] [IsStrictOrderedRing K] in
theorem side3_eq (pts : List K) (a b c q : Int) : side3 pts (a, b, c) q =
    (crd 3 pts q 0 - crd 3 pts a 0) * ((crd 3 pts b 1 - crd 3 pts a 1) * (crd 3 pts c 2 - crd 3 pts a 2) - (crd 3 pts b 2 - crd 3 pts a 2) * (crd 3 pts c 1 - crd 3 pts a 1))
    + (crd 3 pts q 1 - crd 3 pts a 1) * ((crd 3 pts b 2 - crd 3 pts a 2) * (crd 3 pts c 0 - crd 3 pts a 0) - (crd 3 pts b 0 - crd 3 pts a 0) * (crd 3 pts c 2 - crd 3 pts a 2))
    + (crd 3 pts q 2 - crd 3 pts a 2) * ((crd 3 pts b 0 - crd 3 pts a 0) * (crd 3 pts c 1 - crd 3 pts a 1) - (crd 3 pts b 1 - crd 3 pts a 1) * (crd 3 pts c 0 - crd 3 pts a 0)) := by
  simp only [side3, det3]; ring

omit [LinearOrder K] [IsStrictOrderedRing K] in
set_option maxHeartbeats 2000000 in
theorem box3_side (x1 y1 z1 x2 y2 z2 : K) : ∀ f ∈ (plcBox3 x1 y1 z1 x2 y2 z2).facets, ∀ t ∈ fan f, ∀ q : Nat, q < 8 →
    side3 (plcBox3 x1 y1 z1 x2 y2 z2).points t q = 0 ∨ side3 (plcBox3 x1 y1 z1 x2 y2 z2).points t q = -((x2 - x1) * (y2 - y1) * (z2 - z1)) := by
  intro f hf t ht q hq
  have hq' : q = 0 ∨ q = 1 ∨ q = 2 ∨ q = 3 ∨ q = 4 ∨ q = 5 ∨ q = 6 ∨ q = 7 := by omega
  simp only [plcBox3, List.mem_cons, List.not_mem_nil, or_false] at hf
  rcases hf with rfl | rfl | rfl | rfl | rfl | rfl <;>
    · simp only [fan, List.tail_cons, List.zip_cons_cons, List.zip_nil_right, List.map_cons, List.map_nil, List.mem_cons, List.not_mem_nil, or_false] at ht
      rcases ht with rfl | rfl <;> rcases hq' with rfl | rfl | rfl | rfl | rfl | rfl | rfl | rfl <;> rw [side3_eq] <;> simp [plcBox3, crd] <;>
        first
        | done
        | (right; ring; done)
        | (left; ring; done)

/-- C23, 3D: the box of `plc_box` is valid, its points are the eight corners, its facets form a closed surface with every point on the inner side of (or on) every
triangle of every facet, and it encloses the product of the side lengths, which is positive. -/
theorem C23_box3 (x1 y1 z1 x2 y2 z2 : K) (hx : x1 < x2) (hy : y1 < y2) (hz : z1 < z2) :
    let b := plcBox3 x1 y1 z1 x2 y2 z2
    valid 3 b.facets b.holes = true ∧ b.holes = [] ∧ b.points.length = 3 * 8 ∧
    (∀ x ∈ [x1, x2], ∀ y ∈ [y1, y2], ∀ z ∈ [z1, z2], ∃ k : Nat, k < 8 ∧ pt 3 b.points (k : Int) = [x, y, z]) ∧
    InRange 8 b.facets ∧ ClosedSurface b.facets ∧ (∀ f ∈ b.facets, ∀ t ∈ fan f, ∀ q : Nat, q < 8 → side3 b.points t (q : Int) ≤ 0) ∧
    signedVolume b.points b.facets = (x2 - x1) * (y2 - y1) * (z2 - z1) ∧ 0 < signedVolume b.points b.facets := by
  have hvol : signedVolume (plcBox3 x1 y1 z1 x2 y2 z2).points (plcBox3 x1 y1 z1 x2 y2 z2).facets = (x2 - x1) * (y2 - y1) * (z2 - z1) := by
    simp [signedVolume, plcBox3, crd, fan, det3]; ring
  have hd : 0 < (x2 - x1) * (y2 - y1) * (z2 - z1) := mul_pos (mul_pos (by linarith) (by linarith)) (by linarith)
  refine ⟨rfl, rfl, rfl, ?_, ?_, ?_, ?_, hvol, by rw [hvol]; exact hd⟩
  · intro x hxm y hym z hzm
    simp only [List.mem_cons, List.not_mem_nil, or_false] at hxm hym hzm
    rcases hxm with rfl | rfl <;> rcases hym with rfl | rfl <;> rcases hzm with rfl | rfl
    · exact ⟨4, by omega, rfl⟩
    · exact ⟨0, by omega, rfl⟩
    · exact ⟨6, by omega, rfl⟩
    · exact ⟨2, by omega, rfl⟩
    · exact ⟨5, by omega, rfl⟩
    · exact ⟨1, by omega, rfl⟩
    · exact ⟨7, by omega, rfl⟩
    · exact ⟨3, by omega, rfl⟩
  · change InRange 8 [[0, 4, 5, 1], [2, 3, 7, 6], [0, 2, 6, 4], [1, 5, 7, 3], [0, 1, 3, 2], [5, 4, 6, 7]]
    unfold InRange; decide
  · change ClosedSurface [[0, 4, 5, 1], [2, 3, 7, 6], [0, 2, 6, 4], [1, 5, 7, 3], [0, 1, 3, 2], [5, 4, 6, 7]]
    unfold ClosedSurface; decide +kernel
  · intro f hf t ht q hq
    have key := box3_side x1 y1 z1 x2 y2 z2 f hf t ht q hq
    rcases key with h | h <;> rw [h]
    linarith

omit [Field K] [LinearOrder K] [IsStrictOrderedRing K] in
/-- C23, `makeBoxPLC` in 2D, for any result object that holds segments before the call: the same box; holes already present stay (the property needs there to be none). -/
theorem C23_makeBox2_partial (r : RPLC K) (hr : ∀ f ∈ r.facets, f.length = 2) (x1 y1 x2 y2 : K) :
    makeBoxPLC2 r x1 y1 x2 y2 = .ok { plcBox2 x1 y1 x2 y2 with holes := r.holes } := makeBox2_ok hr

omit [Field K] [LinearOrder K] [IsStrictOrderedRing K] in
/-- C23 fails for `makeBoxPLC` in 3D: it is not implemented. A debug build aborts, a release build returns whatever the result object held. -/
theorem C23_makeBox3_fails (r : RPLC K) : makeBoxPLC3 true r = .abort ∧ makeBoxPLC3 false r = .ok r := by
  constructor
  · unfold makeBoxPLC3; rw [Res.assert_debug_false (by simp)]; rfl
  · unfold makeBoxPLC3; rw [Res.assert_release]; rfl
end

example : ((-1 : ℚ) < 2) ∧ ((0 : ℚ) < 1/2) ∧ ((3 : ℚ) < 5) := by norm_num
example : signedVolume (plcBox3 (-1 : ℚ) 0 3 2 (1/2) 5).points (plcBox3 (-1 : ℚ) 0 3 2 (1/2) 5).facets = 3 := by decide +kernel
example : ∀ f ∈ (plcBox2 (7 : ℚ) 7 8 9).facets, f.length = 2 := by decide
-- Holes and stale facets survive `makeBoxPLC`.
example : makeBoxPLC2 { facets := [[9, 9]], holes := [[[1, 2]]], points := [] } (0 : ℚ) 0 1 1
    = .ok { facets := [[0, 1], [1, 2], [2, 3], [3, 0]], holes := [[[1, 2]]], points := [0, 0, 1, 0, 1, 1, 0, 1] } := by decide +kernel

/-! ### C24 -/

/-- C24: with more than two segments the circle is built, in either build, as a valid PLC; its facets are one closed loop visiting every point once; every point is
at exactly the requested distance from the centre. -/
theorem C24_circle (dbg : Bool) (cx cy radius : ℝ) (n : Nat) (hn : 2 < n) : ∃ r, plcCircle dbg cx cy radius n = .ok r ∧
    valid 2 r.facets r.holes = true ∧ r.points.length = 2 * n ∧ OneLoop n r.facets ∧
    (∀ k : Nat, k < n → ∃ x y, pt 2 r.points (k : Int) = [x, y] ∧ (x - cx) ^ 2 + (y - cy) ^ 2 = radius ^ 2) := by
  refine ⟨_, by unfold plcCircle; rw [Res.assert_true dbg (by exact hn)]; rfl, ?_, ?_, chainFacets_oneLoop n, ?_⟩
  · simp [valid]
  · rw [length_flatMap_const (D := 2) (fun _ _ => rfl), List.length_range]
  · intro k hk
    refine ⟨_, _, pt_flatMap (D := 2) (fun _ _ => rfl) k (by simpa using hk), ?_⟩
    have := Real.sin_sq_add_cos_sq (((k : ℝ) + 1 / 2) * (2 * Real.pi / n))
    simp only [List.getElem_range]
    calc _ = radius ^ 2 * (Real.sin (((k : ℝ) + 1 / 2) * (2 * Real.pi / n)) ^ 2 + Real.cos (((k : ℝ) + 1 / 2) * (2 * Real.pi / n)) ^ 2) := by ring
      _ = _ := by rw [this, mul_one]

/-- C24: the circle encloses the area of the regular polygon with `n` sides, so it is counter-clockwise. -/
theorem C24_circle_area (dbg : Bool) (cx cy radius : ℝ) (hr : radius ≠ 0) (n : Nat) (hn : 2 < n) : ∃ r, plcCircle dbg cx cy radius n = .ok r ∧
    signedArea r.points r.facets = n / 2 * radius ^ 2 * Real.sin (2 * Real.pi / n) ∧ 0 < signedArea r.points r.facets := by
  obtain ⟨r, h, -⟩ := C24_circle dbg cx cy radius n hn
  have ha := circle_area dbg cx cy radius n hn r h
  refine ⟨r, h, ha, ?_⟩
  rw [ha]
  have hn' : (2 : ℝ) < n := by exact_mod_cast hn
  have : 0 < Real.sin (2 * Real.pi / n) := by
    apply Real.sin_pos_of_pos_of_lt_pi
    · have := Real.pi_pos; positivity
    · rw [div_lt_iff₀ (by linarith)]
      nlinarith [Real.pi_pos]
  positivity

/-- C24: a debug build refuses fewer than three segments. -/
theorem C24_too_few (cx cy radius : ℝ) (n : Nat) (hn : n ≤ 2) : plcCircle true cx cy radius n = .abort := by
  unfold plcCircle; rw [Res.assert_debug_false (by omega)]; rfl

example : (2 : Nat) < 5 ∧ ((3 : ℝ) ≠ 0) := by norm_num

/-! ### C25 -/

/-- C25, 2D: for a consistent mesh of segments, a cell of at least three faces listed as a closed loop becomes a PLC without holes whose facets are one closed loop through all
of its points, and are the cell's oriented faces with the same coordinates, starting from the second face. -/
theorem C25_cell2 (dbg : Bool) (m : Tess R) (hc : Consistent 2 m) (hp : ∀ F ∈ m.faces, F.length = 2) (c : Nat) (hlt : c < m.cells.length)
    (h3 : 3 ≤ (cell m c).length) (hloop : ClosedLoop m (cell m c)) : ∃ r, cellToPLC2 dbg m c = .ok r ∧
      r.facets.map (facetCoords 2 r.points) = ((cell m c).map (orientedCoords 2 m)).rotate 1 ∧
      r.points.length = 2 * (cell m c).length ∧ OneLoop (cell m c).length r.facets ∧ r.holes = [] :=
  cellToPLC2_spec dbg m hc hp c hlt h3 hloop

/-- C25, 3D: for a consistent mesh every cell becomes a PLC without holes whose facets are the cell's oriented faces, in order and with the same coordinates; nodes shared
between faces stay shared (`keys` lists the mesh nodes behind the new points) and no unused point is stored. -/
theorem C25_cell3 (dbg : Bool) (m : Tess R) (hc : Consistent 3 m) (c : Nat) (hlt : c < m.cells.length) : ∃ r, cellToPLC3 dbg m c = .ok r ∧
      r.facets.map (facetCoords 3 r.points) = (cell m c).map (orientedCoords 3 m) ∧
      3 ∣ r.points.length ∧ InRange (r.points.length / 3) r.facets ∧ AllUsed (r.points.length / 3) r.facets ∧ r.holes = [] ∧
      ∃ keys : List Nat, keys.Nodup ∧ keys.length = r.points.length / 3 ∧
        r.facets.map (·.map fun i => keys.getD i.toNat 0) = (cell m c).map (fun s => if 0 ≤ s then face m (posID s) else (face m (posID s)).reverse) :=
  cellToPLC3_spec dbg m hc c hlt

-- The second square of `twoSquares` uses the shared face backwards.
example : Consistent 2 twoSquares ∧ (∀ F ∈ twoSquares.faces, F.length = 2) ∧ 3 ≤ (cell twoSquares 1).length ∧ ClosedLoop twoSquares (cell twoSquares 1) :=
  ⟨twoSquares_consistent, by decide, by decide, 1, rfl, rfl, rfl, rfl, rfl⟩
example : cellToPLC2 true twoSquares 1 = .ok { facets := [[0, 1], [1, 2], [2, 3], [3, 0]], points := [2,0, 2,1, 1,1, 1,0] } := by decide +kernel

/-- Two tetrahedra sharing a triangle. -/
def twoTets : Tess Int where
  nodes := [0,0,0, 1,0,0, 0,1,0, 0,0,1, 0,0,-1]
  cells := [[0, 1, 2, 3], [-1, 4, 5, 6]]
  faces := [[0,2,1], [0,1,3], [1,2,3], [2,0,3], [1,0,4], [2,1,4], [0,2,4]]
  boundaryNodes := []
  boundaryFaces := []
  faceCells := [[0, -2], [0], [0], [0], [1], [1], [1]]
  convexHull := {}
  neighborDomains := []
  sharedNodes := []
  sharedFaces := []

theorem twoTets_consistent : Consistent 3 twoTets where
  dim_pos := by decide
  nodes_dvd := by decide
  faces_lt := by decide
  cells_lt := by decide
  faceCells_len := by decide
  faceCells_size := by decide
  faceCells_lt := by decide
  inverse := by decide

example : cellToPLC3 true twoTets 1 = .ok { facets := [[0, 1, 2], [0, 2, 3], [1, 0, 3], [2, 1, 3]], points := [1,0,0, 0,1,0, 0,0,0, 0,0,-1] } := by decide +kernel

/-- C61: `valid` says exactly that every facet, of the boundary and of every hole, has two vertices in 2D and at least three in 3D. -/
theorem C61_valid2 {facets : List (List Int)} {holes : List (List (List Int))} :
    valid 2 facets holes = true ↔ (∀ f ∈ facets, f.length = 2) ∧ ∀ h ∈ holes, ∀ f ∈ h, f.length = 2 := by
  simp [valid]

theorem C61_valid3 {facets : List (List Int)} {holes : List (List (List Int))} :
    valid 3 facets holes = true ↔ (∀ f ∈ facets, 3 ≤ f.length) ∧ ∀ h ∈ holes, ∀ f ∈ h, 3 ≤ f.length := by
  simp [valid]

/-- `empty` says that there is neither a facet nor a hole. -/
theorem C61_empty {p : PLC} : emptyPLC p = true ↔ p.facets = [] ∧ p.holes = [] := by
  simp [emptyPLC]

example : valid 2 [[0, 1], [1, 2], [2, 0]] [[[3, 4], [4, 5], [5]]] = false ∧ valid 3 [[0, 1]] [] = false := by decide

end Verif.Geom
