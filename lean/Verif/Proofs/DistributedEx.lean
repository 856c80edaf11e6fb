import Verif.Props.NeighborsHidden
import Verif.Props.Distributed
/- Meshes for the examples of C78. -/
namespace Verif.Nbr.Ex
open Verif Verif.Mesh Verif.Geom Verif.Nbr

/-- A mesh that has the polygons `Ps` as cells, checked by computation, is good if the polygons are right. -/
theorem goodMesh_of {m : Tess ℚ} {S : List (V2 ℚ)} {Dom : V2 ℚ → Prop} {Ps : List (List (V2 ℚ))} (hc : Consistent 2 m) (h2 : ∀ F ∈ m.faces, F.length = 2) (hl : m.cells.length = S.length)
    (hloop : ∀ i, i < S.length → Editor.ClosedLoop m (cell m i))
    (hconv : ∀ A ∈ Ps, 3 ≤ A.length ∧ ∀ t ∈ A.sublistsLen 3, turns t = true) (hPs : Ps.length = S.length) (hshape : ∀ i, i < S.length → CellIs m i (Ps.getD i []))
    (hn : ((List.range (numNodes 2 m)).map (node 2 m)).Nodup) (hf : ∀ e, e < m.faces.length → ∀ f, f < m.faces.length → (∀ n ∈ face m e, n ∈ face m f) → e = f)
    (hsn : m.sharedNodes = []) (hsf : m.sharedFaces = []) (hreg : ∀ i, i < S.length → ∀ x : V2 ℚ, InPoly (Ps.getD i []) x ↔ Dom x ∧ Closest S (S.getD i ⟨0, 0⟩) x) : GoodMesh m S Dom := by
  refine ⟨⟨hc, h2, hl, hloop, fun i P hP => ?_⟩, ?_, fun e f he hf' h => hf e he f hf' fun n hn => (h n).1 hn, hsn, hsf⟩
  · have hi := (List.getElem?_eq_some_iff.1 hP).1
    have hm : Ps.getD i [] ∈ Ps := by
      have : i < Ps.length := by omega
      simp [List.getD, this]
    refine ⟨Ps.getD i [], convexCCW_of (hconv _ hm).1 (hconv _ hm).2, hshape i hi, fun x => ?_⟩
    rw [hreg i hi]
    simp [List.getD, hP]
  · intro a b ha hb e
    have := List.inj_on_of_nodup_map hn (List.mem_range.2 ha) (List.mem_range.2 hb)
    exact this e

/-- A check of paths. -/
def pathB (m : Tess ℚ) : Nat → List Int → Nat → Bool
  | a, [], b => decide (a = b)
  | a, s :: C, b => decide (Editor.tail m s = a) && pathB m (Editor.head m s) C b

theorem loop_of {m : Tess ℚ} {C : List Int} (h : pathB m ((C.map (Editor.tail m)).headD 0) C ((C.map (Editor.tail m)).headD 0) = true) : Editor.ClosedLoop m C := by
  have key : ∀ (C : List Int) a b, pathB m a C b = true → Editor.Path m a C b := by
    intro C
    induction C with
    | nil => intro a b h; exact (by simpa [pathB] using h : a = b)
    | cons s C ih =>
      intro a b h
      simp only [pathB, Bool.and_eq_true, decide_eq_true_eq] at h
      exact ⟨h.1, ih _ _ h.2⟩
  exact ⟨_, key _ _ _ h⟩

/-- The Voronoi mesh of the points of processes 0 and 2 in the square. -/
def firstMesh : Tess ℚ where
  nodes := [-20,-20, -55/4,-20, -79/34,97/34, -4,17/4, -20,-15/4, 55/4,-20, 20,-20, 20,-15/4, 4,17/4, 79/34,97/34, 20,63/4, 4,31/4, 20,20, 0,20, 0,133/12, -20,20, -20,63/4, -4,31/4, 0,13/7, 0,-20]
  cells := [[0, 1, 2, 3, 4], [5, 6, 7, 8, 9], [10, 11, 12, -8], [13, 14, 15, 16, -12], [17, 18, 19, 20, -16], [21, -4, 22, -20], [-3, 23, 24, -9, -13, -17, -21, -23], [25, 26, -24, -2], [27, -10, -25, -27]]
  faces := [[0, 1], [1, 2], [2, 3], [3, 4], [4, 0], [5, 6], [6, 7], [7, 8], [8, 9], [9, 5], [7, 10], [10, 11], [11, 8], [10, 12], [12, 13], [13, 14], [14, 11], [13, 15], [15, 16], [16, 17], [17, 14], [16, 4], [3, 17], [2, 18], [18, 9], [1, 19], [19, 18], [19, 5]]
  boundaryNodes := []
  boundaryFaces := []
  faceCells := [[0], [0, -8], [0, -7], [0, -6], [0], [1], [1], [1, -3], [1, -7], [1, -9], [2], [2, -4], [2, -7], [3], [3], [3, -5], [3, -7], [4], [4], [4, -6], [4, -7], [5], [5, -7], [6, -8], [6, -9], [7], [7, -9], [8]]
  convexHull := {}
  neighborDomains := []
  sharedNodes := []
  sharedFaces := []
def firstPolys : List (List (V2 ℚ)) :=
   [[⟨-20, -20⟩, ⟨-55/4, -20⟩, ⟨-79/34, 97/34⟩, ⟨-4, 17/4⟩, ⟨-20, -15/4⟩],
    [⟨55/4, -20⟩, ⟨20, -20⟩, ⟨20, -15/4⟩, ⟨4, 17/4⟩, ⟨79/34, 97/34⟩],
    [⟨20, -15/4⟩, ⟨20, 63/4⟩, ⟨4, 31/4⟩, ⟨4, 17/4⟩],
    [⟨20, 63/4⟩, ⟨20, 20⟩, ⟨0, 20⟩, ⟨0, 133/12⟩, ⟨4, 31/4⟩],
    [⟨0, 20⟩, ⟨-20, 20⟩, ⟨-20, 63/4⟩, ⟨-4, 31/4⟩, ⟨0, 133/12⟩],
    [⟨-20, 63/4⟩, ⟨-20, -15/4⟩, ⟨-4, 17/4⟩, ⟨-4, 31/4⟩],
    [⟨-4, 17/4⟩, ⟨-79/34, 97/34⟩, ⟨0, 13/7⟩, ⟨79/34, 97/34⟩, ⟨4, 17/4⟩, ⟨4, 31/4⟩, ⟨0, 133/12⟩, ⟨-4, 31/4⟩],
    [⟨-55/4, -20⟩, ⟨0, -20⟩, ⟨0, 13/7⟩, ⟨-79/34, 97/34⟩],
    [⟨0, -20⟩, ⟨55/4, -20⟩, ⟨79/34, 97/34⟩, ⟨0, 13/7⟩]]
def firstSites : List (V2 ℚ) := [⟨-5, 0⟩, ⟨5, 0⟩, ⟨8, 6⟩, ⟨5, 12⟩, ⟨-5, 12⟩, ⟨-8, 6⟩, ⟨0, 6⟩, ⟨-3, -1⟩, ⟨3, -1⟩]

set_option maxHeartbeats 2000000 in
theorem first_region : ∀ i, i < 9 → ∀ x : V2 ℚ, InPoly (firstPolys.getD i []) x ↔ Square x ∧ Closest firstSites (firstSites.getD i ⟨0, 0⟩) x := by
  intro i hi x
  interval_cases i <;> simp only [firstPolys, firstSites, InPoly, dirSides, Square, Closest, sq2_le, area2, List.getD_cons_zero, List.getD_cons_succ, List.rotate_cons_succ, List.rotate_zero, List.cons_append, List.nil_append, List.zip_cons_cons, List.zip_nil_left, List.forall_mem_cons] <;> constructor <;> intro h <;> casesm* _ ∧ _ <;> and_intros <;> first | linarith | simp

theorem first_good : GoodMesh firstMesh firstSites Square :=
  goodMesh_of (Ps := firstPolys) ⟨by decide, by decide, by decide, by decide, by decide, by decide, by decide, by decide +kernel⟩ (by decide) (by decide)
    (fun i hi => loop_of ((by decide +kernel : ∀ i, i < 9 → pathB firstMesh (((cell firstMesh i).map (Editor.tail firstMesh)).headD 0) (cell firstMesh i) (((cell firstMesh i).map (Editor.tail firstMesh)).headD 0) = true) i hi))
    (by decide +kernel) (by decide) (by unfold CellIs; decide +kernel) (by decide +kernel) (by decide +kernel) rfl rfl first_region

/-- The Voronoi mesh of the points of processes 1 and 2 in the square. -/
def secondMesh : Tess ℚ where
  nodes := [-23/3,-20, 23/3,-20, 0,3, -20,-20, 0,20, -20,20, 20,-20, 20,20]
  cells := [[0, 1, 2], [3, -3, 4, 5, 6], [7, 8, 9, -5, -2]]
  faces := [[0, 1], [1, 2], [2, 0], [3, 0], [2, 4], [4, 5], [5, 3], [1, 6], [6, 7], [7, 4]]
  boundaryNodes := []
  boundaryFaces := []
  faceCells := [[0], [0, -3], [0, -2], [1], [1, -3], [1], [1], [2], [2], [2]]
  convexHull := {}
  neighborDomains := []
  sharedNodes := []
  sharedFaces := []
def secondPolys : List (List (V2 ℚ)) :=
   [[⟨-23/3, -20⟩, ⟨23/3, -20⟩, ⟨0, 3⟩],
    [⟨-20, -20⟩, ⟨-23/3, -20⟩, ⟨0, 3⟩, ⟨0, 20⟩, ⟨-20, 20⟩],
    [⟨23/3, -20⟩, ⟨20, -20⟩, ⟨20, 20⟩, ⟨0, 20⟩, ⟨0, 3⟩]]
def secondSites : List (V2 ℚ) := [⟨0, -2⟩, ⟨-3, -1⟩, ⟨3, -1⟩]

set_option maxHeartbeats 2000000 in
theorem second_region : ∀ i, i < 3 → ∀ x : V2 ℚ, InPoly (secondPolys.getD i []) x ↔ Square x ∧ Closest secondSites (secondSites.getD i ⟨0, 0⟩) x := by
  intro i hi x
  interval_cases i <;> simp only [secondPolys, secondSites, InPoly, dirSides, Square, Closest, sq2_le, area2, List.getD_cons_zero, List.getD_cons_succ, List.rotate_cons_succ, List.rotate_zero, List.cons_append, List.nil_append, List.zip_cons_cons, List.zip_nil_left, List.forall_mem_cons] <;> constructor <;> intro h <;> casesm* _ ∧ _ <;> and_intros <;> first | linarith | simp

theorem second_good : GoodMesh secondMesh secondSites Square :=
  goodMesh_of (Ps := secondPolys) ⟨by decide, by decide, by decide, by decide, by decide, by decide, by decide, by decide +kernel⟩ (by decide) (by decide)
    (fun i hi => loop_of ((by decide +kernel : ∀ i, i < 3 → pathB secondMesh (((cell secondMesh i).map (Editor.tail secondMesh)).headD 0) (cell secondMesh i) (((cell secondMesh i).map (Editor.tail secondMesh)).headD 0) = true) i hi))
    (by decide +kernel) (by decide) (by unfold CellIs; decide +kernel) (by decide +kernel) (by decide +kernel) rfl rfl second_region

/-- The Voronoi mesh of all the points in the square, in the order in which process 2 has them. -/
def thirdMesh : Tess ℚ where
  nodes := [-55/4,-20, -23/3,-20, -1/3,2, -79/34,97/34, 23/3,-20, 55/4,-20, 79/34,97/34, 1/3,2, -20,-20, -4,17/4, -20,-15/4, 20,-20, 20,-15/4, 4,17/4, 20,63/4, 4,31/4, 20,20, 0,20, 0,133/12, -20,20, -20,63/4, -4,31/4]
  cells := [[0, 1, 2, 3], [4, 5, 6, 7], [8, -4, 9, 10, 11], [12, 13, 14, 15, -6], [16, 17, 18, -15], [19, 20, 21, 22, -18], [23, 24, 25, 26, -22], [27, -11, 28, -26], [-10, -3, 29, -7, -16, -19, -23, -27, -29], [30, -8, -30, -2]]
  faces := [[0, 1], [1, 2], [2, 3], [3, 0], [4, 5], [5, 6], [6, 7], [7, 4], [8, 0], [3, 9], [9, 10], [10, 8], [5, 11], [11, 12], [12, 13], [13, 6], [12, 14], [14, 15], [15, 13], [14, 16], [16, 17], [17, 18], [18, 15], [17, 19], [19, 20], [20, 21], [21, 18], [20, 10], [9, 21], [2, 7], [1, 4]]
  boundaryNodes := []
  boundaryFaces := []
  faceCells := [[0], [0, -10], [0, -9], [0, -3], [1], [1, -4], [1, -9], [1, -10], [2], [2, -9], [2, -8], [2], [3], [3], [3, -5], [3, -9], [4], [4, -6], [4, -9], [5], [5], [5, -7], [5, -9], [6], [6], [6, -8], [6, -9], [7], [7, -9], [8, -10], [9]]
  convexHull := {}
  neighborDomains := []
  sharedNodes := []
  sharedFaces := []
def thirdPolys : List (List (V2 ℚ)) :=
   [[⟨-55/4, -20⟩, ⟨-23/3, -20⟩, ⟨-1/3, 2⟩, ⟨-79/34, 97/34⟩],
    [⟨23/3, -20⟩, ⟨55/4, -20⟩, ⟨79/34, 97/34⟩, ⟨1/3, 2⟩],
    [⟨-20, -20⟩, ⟨-55/4, -20⟩, ⟨-79/34, 97/34⟩, ⟨-4, 17/4⟩, ⟨-20, -15/4⟩],
    [⟨55/4, -20⟩, ⟨20, -20⟩, ⟨20, -15/4⟩, ⟨4, 17/4⟩, ⟨79/34, 97/34⟩],
    [⟨20, -15/4⟩, ⟨20, 63/4⟩, ⟨4, 31/4⟩, ⟨4, 17/4⟩],
    [⟨20, 63/4⟩, ⟨20, 20⟩, ⟨0, 20⟩, ⟨0, 133/12⟩, ⟨4, 31/4⟩],
    [⟨0, 20⟩, ⟨-20, 20⟩, ⟨-20, 63/4⟩, ⟨-4, 31/4⟩, ⟨0, 133/12⟩],
    [⟨-20, 63/4⟩, ⟨-20, -15/4⟩, ⟨-4, 17/4⟩, ⟨-4, 31/4⟩],
    [⟨-4, 17/4⟩, ⟨-79/34, 97/34⟩, ⟨-1/3, 2⟩, ⟨1/3, 2⟩, ⟨79/34, 97/34⟩, ⟨4, 17/4⟩, ⟨4, 31/4⟩, ⟨0, 133/12⟩, ⟨-4, 31/4⟩],
    [⟨-23/3, -20⟩, ⟨23/3, -20⟩, ⟨1/3, 2⟩, ⟨-1/3, 2⟩]]
def thirdSites : List (V2 ℚ) := [⟨-3, -1⟩, ⟨3, -1⟩, ⟨-5, 0⟩, ⟨5, 0⟩, ⟨8, 6⟩, ⟨5, 12⟩, ⟨-5, 12⟩, ⟨-8, 6⟩, ⟨0, 6⟩, ⟨0, -2⟩]

set_option maxHeartbeats 2000000 in
theorem third_region : ∀ i, i < 10 → ∀ x : V2 ℚ, InPoly (thirdPolys.getD i []) x ↔ Square x ∧ Closest thirdSites (thirdSites.getD i ⟨0, 0⟩) x := by
  intro i hi x
  interval_cases i <;> simp only [thirdPolys, thirdSites, InPoly, dirSides, Square, Closest, sq2_le, area2, List.getD_cons_zero, List.getD_cons_succ, List.rotate_cons_succ, List.rotate_zero, List.cons_append, List.nil_append, List.zip_cons_cons, List.zip_nil_left, List.forall_mem_cons] <;> constructor <;> intro h <;> casesm* _ ∧ _ <;> and_intros <;> first | linarith | simp

theorem third_good : GoodMesh thirdMesh thirdSites Square :=
  goodMesh_of (Ps := thirdPolys) ⟨by decide, by decide, by decide, by decide, by decide, by decide, by decide, by decide +kernel⟩ (by decide) (by decide)
    (fun i hi => loop_of ((by decide +kernel : ∀ i, i < 10 → pathB thirdMesh (((cell thirdMesh i).map (Editor.tail thirdMesh)).headD 0) (cell thirdMesh i) (((cell thirdMesh i).map (Editor.tail thirdMesh)).headD 0) = true) i hi))
    (by decide +kernel) (by decide) (by unfold CellIs; decide +kernel) (by decide +kernel) (by decide +kernel) rfl rfl third_region

/-- Two points in a rectangle. -/
def leftMesh : Tess ℚ where
  nodes := [-2,-1, 0,-1, 0,1, -2,1, 2,-1, 2,1]
  cells := [[0, 1, 2, 3], [4, 5, 6, -2]]
  faces := [[0, 1], [1, 2], [2, 3], [3, 0], [1, 4], [4, 5], [5, 2]]
  boundaryNodes := []
  boundaryFaces := []
  faceCells := [[0], [0, -2], [0], [0], [1], [1], [1]]
  convexHull := {}
  neighborDomains := []
  sharedNodes := []
  sharedFaces := []
def leftPolys : List (List (V2 ℚ)) :=
   [[⟨-2, -1⟩, ⟨0, -1⟩, ⟨0, 1⟩, ⟨-2, 1⟩],
    [⟨0, -1⟩, ⟨2, -1⟩, ⟨2, 1⟩, ⟨0, 1⟩]]
def leftSites : List (V2 ℚ) := [⟨-1, 0⟩, ⟨1, 0⟩]

set_option maxHeartbeats 2000000 in
theorem left_region : ∀ i, i < 2 → ∀ x : V2 ℚ, InPoly (leftPolys.getD i []) x ↔ Rect x ∧ Closest leftSites (leftSites.getD i ⟨0, 0⟩) x := by
  intro i hi x
  interval_cases i <;> simp only [leftPolys, leftSites, InPoly, dirSides, Rect, Closest, sq2_le, area2, List.getD_cons_zero, List.getD_cons_succ, List.rotate_cons_succ, List.rotate_zero, List.cons_append, List.nil_append, List.zip_cons_cons, List.zip_nil_left, List.forall_mem_cons] <;> constructor <;> intro h <;> casesm* _ ∧ _ <;> and_intros <;> first | linarith | simp

theorem left_good : GoodMesh leftMesh leftSites Rect :=
  goodMesh_of (Ps := leftPolys) ⟨by decide, by decide, by decide, by decide, by decide, by decide, by decide, by decide +kernel⟩ (by decide) (by decide)
    (fun i hi => loop_of ((by decide +kernel : ∀ i, i < 2 → pathB leftMesh (((cell leftMesh i).map (Editor.tail leftMesh)).headD 0) (cell leftMesh i) (((cell leftMesh i).map (Editor.tail leftMesh)).headD 0) = true) i hi))
    (by decide +kernel) (by decide) (by unfold CellIs; decide +kernel) (by decide +kernel) (by decide +kernel) rfl rfl left_region

/-- The same in the other order. -/
def rightMesh : Tess ℚ where
  nodes := [0,-1, 2,-1, 2,1, 0,1, -2,-1, -2,1]
  cells := [[0, 1, 2, 3], [4, -4, 5, 6]]
  faces := [[0, 1], [1, 2], [2, 3], [3, 0], [4, 0], [3, 5], [5, 4]]
  boundaryNodes := []
  boundaryFaces := []
  faceCells := [[0], [0], [0], [0, -2], [1], [1], [1]]
  convexHull := {}
  neighborDomains := []
  sharedNodes := []
  sharedFaces := []
def rightPolys : List (List (V2 ℚ)) :=
   [[⟨0, -1⟩, ⟨2, -1⟩, ⟨2, 1⟩, ⟨0, 1⟩],
    [⟨-2, -1⟩, ⟨0, -1⟩, ⟨0, 1⟩, ⟨-2, 1⟩]]
def rightSites : List (V2 ℚ) := [⟨1, 0⟩, ⟨-1, 0⟩]

set_option maxHeartbeats 2000000 in
theorem right_region : ∀ i, i < 2 → ∀ x : V2 ℚ, InPoly (rightPolys.getD i []) x ↔ Rect x ∧ Closest rightSites (rightSites.getD i ⟨0, 0⟩) x := by
  intro i hi x
  interval_cases i <;> simp only [rightPolys, rightSites, InPoly, dirSides, Rect, Closest, sq2_le, area2, List.getD_cons_zero, List.getD_cons_succ, List.rotate_cons_succ, List.rotate_zero, List.cons_append, List.nil_append, List.zip_cons_cons, List.zip_nil_left, List.forall_mem_cons] <;> constructor <;> intro h <;> casesm* _ ∧ _ <;> and_intros <;> first | linarith | simp

theorem right_good : GoodMesh rightMesh rightSites Rect :=
  goodMesh_of (Ps := rightPolys) ⟨by decide, by decide, by decide, by decide, by decide, by decide, by decide, by decide +kernel⟩ (by decide) (by decide)
    (fun i hi => loop_of ((by decide +kernel : ∀ i, i < 2 → pathB rightMesh (((cell rightMesh i).map (Editor.tail rightMesh)).headD 0) (cell rightMesh i) (((cell rightMesh i).map (Editor.tail rightMesh)).headD 0) = true) i hi))
    (by decide +kernel) (by decide) (by unfold CellIs; decide +kernel) (by decide +kernel) (by decide +kernel) rfl rfl right_region
end Verif.Nbr.Ex
