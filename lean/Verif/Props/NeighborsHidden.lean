import Verif.Proofs.NeighborsEx
/- C77: processes with touching cells need not become neighbours. -/
namespace Verif.Nbr.Ex
open Verif Verif.Mesh Verif.Geom Verif.Nbr

theorem local_shows : ShowsVoronoi localMesh (pts2 gens0) Square where
  consistent := localMesh_consistent
  segments := by decide
  cells_len := by decide +kernel
  loop := by
    have h : ∀ i, i < 7 → ∃ a, a < 20 ∧ Editor.Path localMesh a (cell localMesh i) a := by
      intro i hi
      refine ⟨((cell localMesh i).map (Editor.tail localMesh)).headD 0, ?_, ?_⟩
      · revert i; decide
      · interval_cases i <;> exact ⟨rfl, rfl, rfl, by repeat' constructor⟩
    intro i hi
    obtain ⟨a, _, h⟩ := h i (by simpa [pts2_length, gens0] using hi)
    exact ⟨a, h⟩
  shape := by
    intro i P hP
    have hi : i < 7 := by
      have := (List.getElem?_eq_some_iff.1 hP).1
      simpa [pts2_length, gens0] using this
    refine ⟨localPolys.getD i [], local_convex _ ((by decide +kernel : ∀ i, i < 7 → localPolys.getD i [] ∈ localPolys) i hi), local_shape i hi, fun x => ?_⟩
    rw [local_region i hi x]
    simp [List.getD, hP]

theorem hull_square {S : List (V2 ℚ)} (h : ∀ v ∈ S, Square v) {x : V2 ℚ} (hx : Hull2 S x) : Square x := by
  induction hx with
  | pt hm => exact h _ hm
  | seg _ _ h0 h1 ih1 ih2 =>
    obtain ⟨a1, a2, a3, a4⟩ := ih1
    obtain ⟨b1, b2, b3, b4⟩ := ih2
    simp only [Square, lerp2]
    refine ⟨?_, ?_, ?_, ?_⟩ <;> nlinarith

theorem local_inside : ShowsInside localMesh (pts2 gens0) (Hull2 (pts2 gens0)) where
  consistent := local_shows.consistent
  segments := local_shows.segments
  cells_len := local_shows.cells_len
  loop := local_shows.loop
  shape := by
    intro i P hP
    obtain ⟨A, hA, hc, h⟩ := local_shows.shape i P hP
    refine ⟨A, hA, hc, fun x hx => ?_⟩
    have : Square x := hull_square (by unfold Square; decide +kernel) hx
    rw [h]; exact ⟨fun h => h.2, fun h => ⟨this, h⟩⟩

theorem visible_shows : ShowsVoronoi visibleMesh sites Square where
  consistent := visibleMesh_consistent
  segments := by decide
  cells_len := by decide +kernel
  loop := by
    have h : ∀ i, i < 9 → ∃ a, a < 20 ∧ Editor.Path visibleMesh a (cell visibleMesh i) a := by
      intro i hi
      refine ⟨((cell visibleMesh i).map (Editor.tail visibleMesh)).headD 0, ?_, ?_⟩
      · revert i; decide
      · interval_cases i <;> exact ⟨rfl, rfl, rfl, by repeat' constructor⟩
    intro i hi
    obtain ⟨a, _, h⟩ := h i (by simpa [sites] using hi)
    exact ⟨a, h⟩
  shape := by
    intro i P hP
    obtain ⟨hi, rfl⟩ := sites_get hP
    exact ⟨visiblePolys.getD i [], visible_convex _ (by clear hP; revert i; decide +kernel), visible_shape i hi, fun x => visible_region i hi x⟩

/-- The hulls of the three processes with their visible points. -/
def hullsEx : List (RPLC ℚ) := [hull0, { facets := [[0, 0]], points := gens1 }, { facets := [[0, 1]], points := gens2 }]

theorem hulls_run (dbg : Bool) : gens.mapM (visibleHull dbg hullEx serialEx) = .ok hullsEx := by
  cases dbg <;> decide +kernel

theorem hull0_polygon : IsPolygon hull0 hexagon where
  even := by decide
  points := by
    have : pts2 hull0.points = hexagon := by decide +kernel
    intro v; rw [this]
  ids := by decide
  sides := by
    have : (hull0.facets.map fun f => (segA hull0.points f, segB hull0.points f)) = dirSides hexagon := by decide +kernel
    intro e
    rw [← this, List.mem_map]

theorem setupEx (dbg : Bool) : Setup dbg hullEx serialEx allEx gens Square where
  few := by decide
  even := by decide
  some := by decide
  distinct := by decide +kernel
  hull_ok := by
    intro l hl
    simp only [gens, List.mem_cons, List.not_mem_nil, or_false] at hl
    rcases hl with rfl | rfl | rfl
    · refine ⟨hull0, rfl, HullOf.polygon hexagon ?_ hull0_polygon (by decide +kernel) (by decide +kernel) ?_⟩
      · exact convexCCW_of (by decide) (by decide +kernel)
      · unfold InPoly; decide +kernel
    · exact ⟨_, rfl, HullOf.flat 0 0 rfl (by decide) (by decide +kernel) (by decide) (by decide +kernel) (by decide +kernel)⟩
    · exact ⟨_, rfl, HullOf.flat 0 1 rfl (by decide) (by decide +kernel) (by decide) (by decide +kernel) (by decide +kernel)⟩
  serial_ok := by
    intro l hl
    simp only [gens, List.mem_cons, List.not_mem_nil, or_false] at hl
    rcases hl with rfl | rfl | rfl
    · exact ⟨localMesh, rfl, fun _ => local_inside⟩
    · exact ⟨visibleMesh, by decide +kernel, fun h => absurd h (by decide +kernel)⟩
    · exact ⟨visibleMesh, by decide +kernel, fun h => absurd h (by decide +kernel)⟩
  all_ok := by
    intro hulls h
    rw [hulls_run] at h
    cases h
    have e : pts2 (hullsEx.flatMap (·.points)) = sites := by decide +kernel
    refine ⟨visibleMesh, rfl, visibleMesh_consistent, by decide +kernel, ?_⟩
    rw [e]
    exact visible_adjacent

/-- C77. Processes whose cells have a whole side in common need not become neighbours, although all hulls and meshes are right: in the example above, the cell of the last point of process 0 and that
of the point of process 1 have the side from `x` to `y` in common, but neither process is in the other's list. As a consequence, the place `z` is in a cell of both: it is nearer to a point of
process 0 than to any other of the points that process 0 and its neighbour have, and likewise for process 1. -/
theorem C77_hidden_fails (dbg : Bool) : ∃ (hull : List ℚ → Res (RPLC ℚ)) (serial all : List ℚ → Res (Tess ℚ)) (points : List (List ℚ)) (Dom : V2 ℚ → Prop),
    Setup dbg hull serial all points Dom ∧
    (∀ hulls m, points.mapM (visibleHull dbg hull serial) = .ok hulls → all (hulls.flatMap (·.points)) = .ok m → ShowsVoronoi m (pts2 (hulls.flatMap (·.points))) Dom) ∧
    (∃ g ∈ own points 0, ∃ h ∈ own points 1, (∃ x y, x ≠ y ∧ Dom x ∧ Dom y ∧ Closest (allPts points) g x ∧ Closest (allPts points) h x ∧ Closest (allPts points) g y ∧ Closest (allPts points) h y) ∧
      ∃ z, Dom z ∧ (∀ v ∈ own points 0 ++ own points 2, v ≠ g → sq2 z g < sq2 z v) ∧ ∀ v ∈ own points 1 ++ own points 2, v ≠ h → sq2 z h < sq2 z v) ∧
    domainNeighbors dbg hull serial all points 0 = .ok [2] ∧ domainNeighbors dbg hull serial all points 1 = .ok [2] ∧ domainNeighbors dbg hull serial all points 2 = .ok [0, 1] := by
  refine ⟨hullEx, serialEx, allEx, gens, Square, setupEx dbg, ?_, ⟨⟨0, 6⟩, by decide +kernel, ⟨0, -2⟩, by decide +kernel, ⟨⟨1 / 3, 2⟩, ⟨-1 / 3, 2⟩, ?_⟩, ⟨0, 19 / 10⟩, ?_⟩, ?_⟩
  · intro hulls m h hm
    rw [hulls_run] at h
    cases h
    cases hm
    have e : pts2 (hullsEx.flatMap (·.points)) = sites := by decide +kernel
    rw [e]
    exact visible_shows
  · unfold Square Closest; decide +kernel
  · unfold Square; decide +kernel
  · cases dbg <;> decide +kernel

/-- The generator in the middle is hidden, as it has to be by `C77_adjacent_partial`. -/
theorem middle_hidden : Hidden (own gens 0) ⟨0, 6⟩ := by
  refine hidden_of_shape (A := localPolys.getD 6 []) (B := hexagon) (by decide +kernel) (convexCCW_of (by decide) (by decide +kernel)) (by decide +kernel) (by unfold InPoly; decide +kernel) ?_ ?_
  · intro x hx
    have : Square x := hull_square (by unfold Square; decide +kernel) hx
    rw [local_region 6 (by decide) x]
    exact ⟨fun h => h.2, fun h => ⟨this, h⟩⟩
  · intro x this
    simp only [localPolys, InPoly, dirSides, area2, List.getD_cons_zero, List.getD_cons_succ, List.rotate_cons_succ, List.rotate_zero, List.cons_append, List.nil_append, List.zip_cons_cons, List.zip_nil_left, List.forall_mem_cons] at this
    casesm* _ ∧ _
    simp only [hexagon, StrictlyIn, dirSides, area2, List.rotate_cons_succ, List.rotate_zero, List.cons_append, List.nil_append, List.zip_cons_cons, List.zip_nil_left, List.forall_mem_cons]
    and_intros <;> first | linarith | simp

/-- Processes 0 and 2 become neighbours, as `C77_adjacent_partial` says: the first point of process 0 and the first of process 2 are visible and nearest to the same place. -/
example : ∃ l, domainNeighbors true hullEx serialEx allEx gens 0 = .ok l ∧ 2 ∈ l := by
  have hv0 : ¬ Hidden (own gens 0) ⟨-5, 0⟩ := by
    rintro ⟨B, hB, hsub, _, hin⟩
    have h : StrictlyIn B (⟨-20, -20⟩ : V2 ℚ) := hin _ (by unfold Closest; decide +kernel)
    have h' : Hull2 (own gens 0) (⟨-20, -20⟩ : V2 ℚ) := hull2_mono hsub ((inPoly_hull hB).1 fun e he => (h e he).le)
    have := hull2_nonneg (S := own gens 0) (a := (⟨-5, 0⟩ : V2 ℚ)) (b := ⟨5, 0⟩) (by decide +kernel) h'
    revert this; decide +kernel
  have hv2 : ¬ Hidden (own gens 2) ⟨-3, -1⟩ := by
    rintro ⟨B, hB, hsub, _⟩
    obtain ⟨u, hu, v, hv, w, hw, h⟩ := polygon_noncol hB hsub
    exact h ((by decide +kernel : ∀ u ∈ own gens 2, ∀ v ∈ own gens 2, ∀ w ∈ own gens 2, area2 u v w = 0) u hu v hv w hw)
  exact C77_adjacent_partial (setupEx true) (by decide) (by decide) (by decide) (g := ⟨-5, 0⟩) (h := ⟨-3, -1⟩) (x := ⟨-5, -5/2⟩) (by unfold Square; decide +kernel) (by decide +kernel) (by decide +kernel)
    (by unfold Closest; decide +kernel) (by unfold Closest; decide +kernel) (by simp only [hv0, hv2])

/-- The lists of the example are symmetric, as `C77_symmetric` says. -/
example : ∃ nb : Nat → List Nat, ∀ p, p < 3 → domainNeighbors true hullEx serialEx allEx gens p = .ok (nb p) ∧ (nb p).Pairwise (· < ·) ∧ ∀ q ∈ nb p, q < 3 ∧ q ≠ p ∧ p ∈ nb q :=
  C77_symmetric (setupEx true)

/-- The hulls and the mesh of the example meet the hypotheses of `C77_exact`. -/
example : (∀ h ∈ hullsEx, GoodHull h) ∧ Consistent 2 visibleMesh ∧ visibleMesh.cells.length = (hullsEx.map fun h => h.points.length / 2).sum := by
  refine ⟨?_, visibleMesh_consistent, by decide +kernel⟩
  intro h hh
  exact ⟨by revert h; decide, by revert h; decide, by revert h; decide⟩

/-! Two processes with one point each, in a rectangle of two squares. -/

def pairMesh : Tess ℚ where
  nodes := [-2,-1, 0,-1, 2,-1, 2,1, 0,1, -2,1]
  cells := [[0, 1, 2, 3], [4, 5, 6, -2]]
  faces := [[0, 1], [1, 4], [4, 5], [5, 0], [1, 2], [2, 3], [3, 4]]
  boundaryNodes := []
  boundaryFaces := []
  faceCells := [[0], [0, -2], [0], [0], [1], [1], [1]]
  convexHull := {}
  neighborDomains := []
  sharedNodes := []
  sharedFaces := []
def pairPoints : List (List ℚ) := [[-1, 0], [1, 0]]
def pairHull (l : List ℚ) : Res (RPLC ℚ) := .ok { facets := [[0, 0]], points := l }
def pairTess (_ : List ℚ) : Res (Tess ℚ) := .ok pairMesh
def Rect (x : V2 ℚ) : Prop := -2 ≤ x.x ∧ x.x ≤ 2 ∧ -1 ≤ x.y ∧ x.y ≤ 1

theorem pts2_pair (a b : ℚ) : pts2 [a, b] = [⟨a, b⟩] := by
  simp [pts2, corners, vtx]

theorem area2_self (u : V2 ℚ) : area2 u u u = 0 := by unfold area2; ring

theorem pairSetup (dbg : Bool) : Setup dbg pairHull pairTess pairTess pairPoints Rect where
  few := by simp [pairPoints]
  even := by simp [pairPoints]
  some := by simp [pairPoints]
  distinct := by
    simp only [allPts, pairPoints, List.flatMap_cons, List.flatMap_nil, pts2_pair]
    norm_num
  hull_ok := by
    intro l hl
    simp only [pairPoints, List.mem_cons, List.not_mem_nil, or_false] at hl
    rcases hl with rfl | rfl
    all_goals
      refine ⟨_, rfl, HullOf.flat 0 0 rfl (by simp) (by simp [pts2_pair]) (by simp) (by simp [pts2_pair]) ?_⟩
      simp [pts2_pair, area2_self]
  serial_ok := by
    intro l hl
    simp only [pairPoints, List.mem_cons, List.not_mem_nil, or_false] at hl
    rcases hl with rfl | rfl
    all_goals
      refine ⟨_, rfl, fun h => absurd h ?_⟩
      simp [pts2_pair, area2_self]
  all_ok := by
    intro hulls h
    have h0 : ∀ l : List ℚ, l ≠ [] → visibleHull dbg pairHull pairTess l = .ok { facets := [[0, 0]], points := l } := by
      intro l hl
      unfold visibleHull
      rw [Res.assert_true dbg hl]
      simp only [pairHull, pairTess, hullDim, Res.ok_bind]
      cases dbg <;> rfl
    have : pairPoints.mapM (visibleHull dbg pairHull pairTess) = .ok [{ facets := [[0, 0]], points := [-1, 0] }, { facets := [[0, 0]], points := [1, 0] }] := by
      simp only [pairPoints, List.mapM_cons, List.mapM_nil]
      rw [h0 _ (by simp), h0 _ (by simp)]
      rfl
    rw [this] at h
    cases h
    refine ⟨pairMesh, rfl, ⟨by decide, by decide, by decide, by decide, by decide, by decide, by decide, by decide⟩, by simp [pairMesh], ?_⟩
    have e : pts2 [(-1 : ℚ), 0, 1, 0] = [⟨-1, 0⟩, ⟨1, 0⟩] := rfl
    intro i j P Q x hi hj _ _ _
    have hi' : i < 2 := (List.getElem?_eq_some_iff.1 hi).1
    have hj' : j < 2 := (List.getElem?_eq_some_iff.1 hj).1
    refine ⟨1, ?_, ?_⟩
    · exact (by decide : ∀ i, i < 2 → ∃ s ∈ cell pairMesh i, 1 ∈ face pairMesh (posID s)) i hi'
    · exact (by decide : ∀ i, i < 2 → ∃ s ∈ cell pairMesh i, 1 ∈ face pairMesh (posID s)) j hj'

example : ∃ l, domainNeighbors true pairHull pairTess pairTess pairPoints 1 = .ok l ∧ l ≠ [] := by
  refine C77_some (pairSetup true) ?_ ?_ (by simp [pairPoints]) (by simp [pairPoints])
  · simp only [allPts, pairPoints, List.flatMap_cons, List.flatMap_nil, pts2_pair, Rect]
    norm_num
  · rintro u v t ⟨a1, a2, a3, a4⟩ ⟨b1, b2, b3, b4⟩ h0 h1
    simp only [Rect, lerp2]
    refine ⟨?_, ?_, ?_, ?_⟩ <;> nlinarith
end Verif.Nbr.Ex
