import Verif.Props.Neighbors
import Mathlib.Tactic.Linarith
import Mathlib.Tactic.IntervalCases
/-
C77: a run in which two processes with touching cells do not become neighbours. Process 0 has six points on its hull and one in the middle, process 1 one point below, and process 2 one point on
each side of the latter. The cell of the middle point and that of process 1 have a side in common. The cell of the middle point among the points of process 0 is inside their hull, so that the
other processes do not get to know it, and without it processes 0 and 1 have no cells that touch.
-/
namespace Verif.Nbr.Ex
open Verif Verif.Mesh Verif.Geom Verif.Nbr

/-- The Voronoi mesh of the points of process 0 in a square. -/
def localMesh : Tess ℚ where
  nodes := [-20,-20, 0,-20, 0,11/12, -4,17/4, -20,-15/4, 20,-20, 20,-15/4, 4,17/4, 20,63/4, 4,31/4, 20,20, 0,20, 0,133/12, -20,20, -20,63/4, -4,31/4]
  cells := [[0, 1, 2, 3, 4], [5, 6, 7, 8, -2], [9, 10, 11, -8], [12, 13, 14, 15, -11], [16, 17, 18, 19, -15], [20, -4, 21, -19], [-3, -9, -12, -16, -20, -22]]
  faces := [[0, 1], [1, 2], [2, 3], [3, 4], [4, 0], [1, 5], [5, 6], [6, 7], [7, 2], [6, 8], [8, 9], [9, 7], [8, 10], [10, 11], [11, 12], [12, 9], [11, 13], [13, 14], [14, 15], [15, 12], [14, 4], [3, 15]]
  boundaryNodes := []
  boundaryFaces := []
  faceCells := [[0], [0, -2], [0, -7], [0, -6], [0], [1], [1], [1, -3], [1, -7], [2], [2, -4], [2, -7], [3], [3], [3, -5], [3, -7], [4], [4], [4, -6], [4, -7], [5], [5, -7]]
  convexHull := {}
  neighborDomains := []
  sharedNodes := []
  sharedFaces := []
def localPolys : List (List (V2 ℚ)) :=
   [[⟨-20, -20⟩, ⟨0, -20⟩, ⟨0, 11/12⟩, ⟨-4, 17/4⟩, ⟨-20, -15/4⟩],
    [⟨0, -20⟩, ⟨20, -20⟩, ⟨20, -15/4⟩, ⟨4, 17/4⟩, ⟨0, 11/12⟩],
    [⟨20, -15/4⟩, ⟨20, 63/4⟩, ⟨4, 31/4⟩, ⟨4, 17/4⟩],
    [⟨20, 63/4⟩, ⟨20, 20⟩, ⟨0, 20⟩, ⟨0, 133/12⟩, ⟨4, 31/4⟩],
    [⟨0, 20⟩, ⟨-20, 20⟩, ⟨-20, 63/4⟩, ⟨-4, 31/4⟩, ⟨0, 133/12⟩],
    [⟨-20, 63/4⟩, ⟨-20, -15/4⟩, ⟨-4, 17/4⟩, ⟨-4, 31/4⟩],
    [⟨-4, 17/4⟩, ⟨0, 11/12⟩, ⟨4, 17/4⟩, ⟨4, 31/4⟩, ⟨0, 133/12⟩, ⟨-4, 31/4⟩]]

/-- The Voronoi mesh of the visible points of all processes in the square. -/
def visibleMesh : Tess ℚ where
  nodes := [-20,-20, -55/4,-20, -5/6,35/6, -20,-15/4, 55/4,-20, 20,-20, 20,-15/4, 5/6,35/6, 20,63/4, 19/34,205/34, 20,20, 0,20, 0,159/26, -20,20, -20,63/4, -19/34,205/34, -23/3,-20, 23/3,-20, 0,3]
  cells := [[0, 1, 2, 3], [4, 5, 6, 7], [8, 9, 10, -7], [11, 12, 13, 14, -10], [15, 16, 17, 18, -14], [19, -3, 20, -18], [21, 22, 23], [24, -24, 25, -19, -21, -2], [26, -8, -11, -15, -26, -23]]
  faces := [[0, 1], [1, 2], [2, 3], [3, 0], [4, 5], [5, 6], [6, 7], [7, 4], [6, 8], [8, 9], [9, 7], [8, 10], [10, 11], [11, 12], [12, 9], [11, 13], [13, 14], [14, 15], [15, 12], [14, 3], [2, 15], [16, 17], [17, 18], [18, 16], [1, 16], [18, 12], [17, 4]]
  boundaryNodes := []
  boundaryFaces := []
  faceCells := [[0], [0, -8], [0, -6], [0], [1], [1], [1, -3], [1, -9], [2], [2, -4], [2, -9], [3], [3], [3, -5], [3, -9], [4], [4], [4, -6], [4, -8], [5], [5, -8], [6], [6, -9], [6, -8], [7], [7, -9], [8]]
  convexHull := {}
  neighborDomains := []
  sharedNodes := []
  sharedFaces := []
def visiblePolys : List (List (V2 ℚ)) :=
   [[⟨-20, -20⟩, ⟨-55/4, -20⟩, ⟨-5/6, 35/6⟩, ⟨-20, -15/4⟩],
    [⟨55/4, -20⟩, ⟨20, -20⟩, ⟨20, -15/4⟩, ⟨5/6, 35/6⟩],
    [⟨20, -15/4⟩, ⟨20, 63/4⟩, ⟨19/34, 205/34⟩, ⟨5/6, 35/6⟩],
    [⟨20, 63/4⟩, ⟨20, 20⟩, ⟨0, 20⟩, ⟨0, 159/26⟩, ⟨19/34, 205/34⟩],
    [⟨0, 20⟩, ⟨-20, 20⟩, ⟨-20, 63/4⟩, ⟨-19/34, 205/34⟩, ⟨0, 159/26⟩],
    [⟨-20, 63/4⟩, ⟨-20, -15/4⟩, ⟨-5/6, 35/6⟩, ⟨-19/34, 205/34⟩],
    [⟨-23/3, -20⟩, ⟨23/3, -20⟩, ⟨0, 3⟩],
    [⟨-55/4, -20⟩, ⟨-23/3, -20⟩, ⟨0, 3⟩, ⟨0, 159/26⟩, ⟨-19/34, 205/34⟩, ⟨-5/6, 35/6⟩],
    [⟨23/3, -20⟩, ⟨55/4, -20⟩, ⟨5/6, 35/6⟩, ⟨19/34, 205/34⟩, ⟨0, 159/26⟩, ⟨0, 3⟩]]

/-- The square. -/
def Square (x : V2 ℚ) : Prop := -20 ≤ x.x ∧ x.x ≤ 20 ∧ -20 ≤ x.y ∧ x.y ≤ 20

def gens0 : List ℚ := [-5,0, 5,0, 8,6, 5,12, -5,12, -8,6, 0,6]
def gens1 : List ℚ := [0,-2]
def gens2 : List ℚ := [-3,-1, 3,-1]
def gens : List (List ℚ) := [gens0, gens1, gens2]
def hexagon : List (V2 ℚ) := [⟨-5, 0⟩, ⟨5, 0⟩, ⟨8, 6⟩, ⟨5, 12⟩, ⟨-5, 12⟩, ⟨-8, 6⟩]
def sites : List (V2 ℚ) := [⟨-5, 0⟩, ⟨5, 0⟩, ⟨8, 6⟩, ⟨5, 12⟩, ⟨-5, 12⟩, ⟨-8, 6⟩, ⟨0, -2⟩, ⟨-3, -1⟩, ⟨3, -1⟩]

def hull0 : RPLC ℚ := { facets := [[0, 1], [1, 2], [2, 3], [3, 4], [4, 5], [5, 0]], points := [-5,0, 5,0, 8,6, 5,12, -5,12, -8,6] }
def hullEx (l : List ℚ) : Res (RPLC ℚ) := if l = gens0 then .ok hull0 else if l = gens1 then .ok { facets := [[0, 0]], points := gens1 } else .ok { facets := [[0, 1]], points := gens2 }
def serialEx (l : List ℚ) : Res (Tess ℚ) := if l = gens0 then .ok localMesh else .ok visibleMesh
def allEx (_ : List ℚ) : Res (Tess ℚ) := .ok visibleMesh

/-- A check of all triples. -/
def turns (t : List (V2 ℚ)) : Bool := match t with | [a, b, c] => decide (0 < area2 a b c) | _ => true

theorem convexCCW_of {vs : List (V2 ℚ)} (h3 : 3 ≤ vs.length) (h : ∀ t ∈ vs.sublistsLen 3, turns t = true) : ConvexCCW vs :=
  ⟨h3, fun a b c hs => by simpa [turns] using h [a, b, c] (List.mem_sublistsLen.2 ⟨hs, rfl⟩)⟩

theorem sq2_le {x P Q : V2 ℚ} : sq2 x P ≤ sq2 x Q ↔ 2 * (Q.x - P.x) * x.x + 2 * (Q.y - P.y) * x.y ≤ Q.x ^ 2 + Q.y ^ 2 - P.x ^ 2 - P.y ^ 2 := by
  unfold sq2
  constructor <;> intro h <;> nlinarith


theorem localMesh_consistent : Consistent 2 localMesh := by
  refine ⟨by decide, by decide, by decide, by decide, by decide, by decide, by decide, by decide +kernel⟩
theorem visibleMesh_consistent : Consistent 2 visibleMesh := by
  refine ⟨by decide, by decide, by decide, by decide, by decide, by decide, by decide, by decide +kernel⟩

theorem local_convex : ∀ A ∈ localPolys, ConvexCCW A := by
  have : ∀ A ∈ localPolys, 3 ≤ A.length ∧ ∀ t ∈ A.sublistsLen 3, turns t = true := by decide +kernel
  exact fun A hA => convexCCW_of (this A hA).1 (this A hA).2

theorem local_shape : ∀ i, i < 7 → CellIs localMesh i (localPolys.getD i []) := by
  unfold CellIs
  decide +kernel

theorem gens0_pts : pts2 gens0 = [⟨-5, 0⟩, ⟨5, 0⟩, ⟨8, 6⟩, ⟨5, 12⟩, ⟨-5, 12⟩, ⟨-8, 6⟩, ⟨0, 6⟩] := by decide +kernel

theorem local_region : ∀ i, i < 7 → ∀ x : V2 ℚ, InPoly (localPolys.getD i []) x ↔ Square x ∧ Closest (pts2 gens0) ((pts2 gens0).getD i ⟨0, 0⟩) x := by
  rw [gens0_pts]
  intro i hi x
  interval_cases i <;> simp only [localPolys, InPoly, dirSides, Square, Closest, sq2_le, area2, List.getD_cons_zero, List.getD_cons_succ, List.rotate_cons_succ, List.rotate_zero, List.cons_append, List.nil_append, List.zip_cons_cons, List.zip_nil_left, List.forall_mem_cons] <;> constructor <;> intro h <;> casesm* _ ∧ _ <;> and_intros <;> first | linarith | simp

theorem visible_convex : ∀ A ∈ visiblePolys, ConvexCCW A := by
  have : ∀ A ∈ visiblePolys, 3 ≤ A.length ∧ ∀ t ∈ A.sublistsLen 3, turns t = true := by decide +kernel
  exact fun A hA => convexCCW_of (this A hA).1 (this A hA).2

theorem visible_shape : ∀ i, i < 9 → CellIs visibleMesh i (visiblePolys.getD i []) := by
  unfold CellIs
  decide +kernel

set_option maxHeartbeats 2000000 in
theorem visible_region : ∀ i, i < 9 → ∀ x : V2 ℚ, InPoly (visiblePolys.getD i []) x ↔ Square x ∧ Closest sites (sites.getD i ⟨0, 0⟩) x := by
  intro i hi x
  interval_cases i <;> simp only [visiblePolys, sites, InPoly, dirSides, Square, Closest, sq2_le, area2, List.getD_cons_zero, List.getD_cons_succ, List.rotate_cons_succ, List.rotate_zero, List.cons_append, List.nil_append, List.zip_cons_cons, List.zip_nil_left, List.forall_mem_cons] <;> constructor <;> intro h <;> casesm* _ ∧ _ <;> and_intros <;> first | linarith | simp

/-- Whether two cells have a node in common. -/
def shareB (i j : Nat) : Bool := (List.range 19).any fun n => ((cell visibleMesh i).any fun s => (face visibleMesh (posID s)).contains n) && (cell visibleMesh j).any fun s => (face visibleMesh (posID s)).contains n

theorem share_of {i j : Nat} (h : shareB i j = true) : ShareNode visibleMesh i j := by
  obtain ⟨n, _, hn⟩ := List.any_eq_true.1 h
  obtain ⟨h1, h2⟩ := Bool.and_eq_true_iff.1 hn
  obtain ⟨s, hs, hs'⟩ := List.any_eq_true.1 h1
  obtain ⟨t, ht, ht'⟩ := List.any_eq_true.1 h2
  exact ⟨n, ⟨s, hs, List.contains_iff_mem.1 hs'⟩, ⟨t, ht, List.contains_iff_mem.1 ht'⟩⟩

set_option maxHeartbeats 2000000 in
theorem visible_apart : ∀ j, j < 9 → ∀ i, i < j → ∀ x : V2 ℚ, InPoly (visiblePolys.getD i []) x → InPoly (visiblePolys.getD j []) x → shareB i j = true := by
  intro j hj i hi x h1 h2
  by_contra hs
  interval_cases j <;> interval_cases i <;> first
    | exact hs (by decide +kernel)
    | (simp only [visiblePolys, InPoly, dirSides, area2, List.getD_cons_zero, List.getD_cons_succ, List.rotate_cons_succ, List.rotate_zero, List.cons_append, List.nil_append, List.zip_cons_cons, List.zip_nil_left, List.forall_mem_cons] at h1 h2
       casesm* _ ∧ _
       linarith)

theorem sites_get {i : Nat} {P : V2 ℚ} (h : sites[i]? = some P) : i < 9 ∧ sites.getD i ⟨0, 0⟩ = P :=
  ⟨(List.getElem?_eq_some_iff.1 h).1, by simp [List.getD, h]⟩

theorem visible_adjacent : Adjacent visibleMesh sites Square := by
  intro i j P Q x hi hj hx hP hQ
  obtain ⟨hi9, rfl⟩ := sites_get hi
  obtain ⟨hj9, rfl⟩ := sites_get hj
  have h1 := (visible_region i hi9 x).2 ⟨hx, hP⟩
  have h2 := (visible_region j hj9 x).2 ⟨hx, hQ⟩
  rcases Nat.lt_trichotomy i j with h | rfl | h
  · exact share_of (visible_apart j hj9 i h x h1 h2)
  · exact share_of ((by decide +kernel : ∀ i, i < 9 → shareB i i = true) i hi9)
  · obtain ⟨n, a, b⟩ := share_of (visible_apart i hi9 j h x h2 h1)
    exact ⟨n, b, a⟩
end Verif.Nbr.Ex
