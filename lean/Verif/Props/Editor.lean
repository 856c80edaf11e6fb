import Verif.Proofs.EditorLoops
import Verif.Props.Mesh
import Mathlib.Algebra.Order.Field.Rat
import Mathlib.Algebra.Order.Ring.Unbundled.Rat
/-
Properties C10 (`MeshEditor::deleteCells`), C51 and C53 (`MeshEditor::cleanEdges` on 2D meshes, one process).
-/
namespace Verif.Editor
open Verif Verif.Mesh
variable {R K : Type}

/-! ### C10 -/

/-- The cells that remain after the cells `ids` have been removed, in order. -/
def remaining (m : Tess R) (ids : List Nat) : List Nat := (List.range m.cells.length).filter fun c => decide (c ∉ ids)

theorem keptCells_maskOf (m : Tess R) (ids : List Nat) : keptCells (maskOf m.cells.length ids) = remaining m ids := by
  unfold keptCells remaining
  rw [show (maskOf m.cells.length ids).length = m.cells.length by simp [maskOf]]
  apply List.filter_congr
  intro c hc
  have := @maskOf_get m.cells.length ids c
  simp only [List.mem_range] at hc
  simp only [this, hc, true_and]

/-- C10, what holds: when all removed cells come after all remaining ones, the result is the restriction of the mesh to the remaining cells, and
(as for the free function) it is consistent, with well-formed communication lists, and every remaining cell has its old geometry.
Missing: all other sets of cells, see `C10_delete_cells_fails`. -/
theorem C10_delete_cells_partial (dbg : Bool) (D : Nat) (m : Tess R) (ids : List Nat) (hc : Consistent D m) (hs : CommOK D m)
    (hne : ids ≠ []) (hid : ∀ c ∈ ids, c < m.cells.length) (hfaces : 0 < m.faces.length) (hnodes : 0 < numNodes D m)
    (hkeep : ∃ c, c < m.cells.length ∧ c ∉ ids)
    (htail : ∀ d ∈ ids, ∀ c, c < m.cells.length → c ∉ ids → c < d) :
    ∃ m' kn kf, deleteCells dbg D m ids = .ok m' ∧ Restricts D m kn kf (remaining m ids) m' ∧ Consistent D m' ∧ CommOK D m' ∧
      m'.cells.map (cellGeom D m') = (remaining m ids).map (fun c => cellGeom D m (cell m c)) := by
  obtain ⟨m', kn, kf, e, h, _⟩ := deleteCells_spec dbg D m ids hc hs hne hid hfaces hnodes hkeep htail
  rw [keptCells_maskOf] at h
  exact ⟨m', kn, kf, e, h, h.consistent hc, h.commOK hc hs, h.cells_geom hc⟩

example : ∃ m' kn kf, deleteCells true 2 twoSquares [1] = .ok m' ∧ Restricts 2 twoSquares kn kf [0] m' ∧ Consistent 2 m' ∧ CommOK 2 m' ∧
    m'.cells.map (cellGeom 2 m') = [[(true, [[0,0],[1,0]]), (true, [[1,0],[1,1]]), (true, [[1,1],[0,1]]), (true, [[0,1],[0,0]])]] := by
  obtain ⟨m', kn, kf, h1, h2, h3, h4, h5⟩ := C10_delete_cells_partial true 2 twoSquares [1] twoSquares_consistent twoSquares_comm
    (by decide) (by decide) (by decide) (by decide) ⟨0, by decide, by decide⟩ (by intro d hd c hc hn; simp [twoSquares] at hd hc hn; omega)
  exact ⟨m', kn, kf, h1, h2, h3, h4, h5.trans (by decide)⟩

/-- C10 is false of the code: whenever a removed cell comes before a remaining one, the call writes past the end of the new cell table, in
debug and release builds alike. -/
theorem C10_delete_cells_fails (dbg : Bool) (D : Nat) (m : Tess R) (ids : List Nat) (hc : Consistent D m)
    (hid : ∀ c ∈ ids, c < m.cells.length) (hnodes : 0 < numNodes D m) (hface : ∀ C ∈ m.cells, C ≠ [])
    (hbad : ∃ d ∈ ids, ∃ c, d < c ∧ c < m.cells.length ∧ c ∉ ids) :
    deleteCells dbg D m ids = .ub :=
  deleteCells_ub dbg D m ids hc hid hnodes hface hbad

example : deleteCells false 2 twoSquares [0] = .ub :=
  C10_delete_cells_fails false 2 twoSquares [0] twoSquares_consistent (by decide) (by decide) (by decide)
    ⟨0, by decide, 1, by decide, by decide, by decide⟩

/-- C10: an id that is not a cell makes a debug build abort. -/
theorem C10_bad_id_aborts (D : Nat) (m : Tess R) (c : Nat) (hc : m.cells.length ≤ c) :
    deleteCells true D m [c] = .abort := by
  unfold deleteCells
  simp only [Res.bind_eq, maskOut, List.length_replicate, Res.assert_true true (by simp : [c] ≠ []), Res.bind_ok,
    Res.assert_debug_false (by omega : ¬ c < m.cells.length), Res.bind_abort]

example : deleteCells true 2 twoSquares [2] = .abort := C10_bad_id_aborts 2 twoSquares 2 (by decide)

/-! ### C51, C53: examples -/

/-- A distance for the examples (the theorems hold for every symmetric non-negative one). -/
def manhattan (p q : List Int) : ℚ := ((p.getD 0 0 - q.getD 0 0).natAbs + (p.getD 1 0 - q.getD 1 0).natAbs : Nat)
/-- An exact collinearity test for the examples. -/
def onLine (p q r : List Int) : Bool :=
  (q.getD 0 0 - p.getD 0 0) * (r.getD 1 0 - p.getD 1 0) == (q.getD 1 0 - p.getD 1 0) * (r.getD 0 0 - p.getD 0 0)

theorem manhattan_symm (p q : List Int) : manhattan p q = manhattan q p := by
  unfold manhattan
  congr 2 <;> rw [← Int.natAbs_neg, Int.neg_sub]
theorem manhattan_nonneg (p q : List Int) : 0 ≤ manhattan p q := Nat.cast_nonneg _
theorem onLine_symm (p q r : List Int) : onLine p q r = onLine p r q := by
  unfold onLine
  rw [Bool.eq_iff_iff, beq_iff_eq, beq_iff_eq]
  constructor <;> intro h <;> rw [Int.mul_comm, ← h, Int.mul_comm]

/-- Two long rectangles side by side: the face between them is short. -/
def strip : Tess Int := { twoSquares with nodes := [0,0, 10,0, 20,0, 0,1, 10,1, 20,1] }
theorem strip_consistent : Consistent 2 strip := by
  refine ⟨by decide, by decide, by decide, by decide, by decide, by decide, by decide, by decide⟩
theorem strip_comm : CommOK 2 strip := by
  refine ⟨by decide, by decide, by decide⟩

theorem planar_of (m : Tess Int) (h : ∀ F ∈ m.faces, F.length = 2 ∧ F.getD 0 0 ≠ F.getD 1 0) : Planar m := by
  intro F hF
  obtain ⟨h1, h2⟩ := h F hF
  obtain ⟨a, b, rfl⟩ := List.length_eq_two.1 h1
  exact ⟨a, b, rfl, by simpa using h2⟩

theorem closedBoundary_of (m : Tess Int) (h : ∀ f, f < m.faces.length → (cellsOf m f).length = 1 → ∀ n ∈ face m f, (boundaryFacesAt m n).length = 2) :
    ClosedBoundary m := fun f hf => h f hf.1 hf.2

theorem strip_planar : Planar strip := planar_of _ (by decide)
theorem strip_boundary : ClosedBoundary strip := closedBoundary_of _ (by decide)

/-- Three triangles fanning out from one node over a straight side; the middle one is thin. -/
def fan : Tess Int where
  nodes := [0,0, 10,0, 11,0, 20,0, 10,10]
  cells := [[0, 1, 2], [3, 4, -2], [5, 6, -5]]
  faces := [[0,1], [1,4], [4,0], [1,2], [2,4], [2,3], [3,4]]
  boundaryNodes := [0, 1, 2, 3, 4]
  boundaryFaces := [0, 2, 3, 5, 6]
  faceCells := [[0], [0, -2], [0], [1], [1, -3], [2], [2]]
  convexHull := {}
  neighborDomains := []
  sharedNodes := []
  sharedFaces := []
theorem fan_consistent : Consistent 2 fan := by
  refine ⟨by decide, by decide, by decide, by decide, by decide, by decide, by decide, by decide⟩
theorem fan_comm : CommOK 2 fan := by
  refine ⟨by decide, by decide, by decide⟩
theorem fan_planar : Planar fan := planar_of _ (by decide)
theorem fan_boundary : ClosedBoundary fan := closedBoundary_of _ (by decide)

/-! ### C51 -/

section
variable [Field K] [LinearOrder K] [IsStrictOrderedRing K]

/-- C51. Cleaning the edges of a valid 2D mesh never fails, and the nodes it merges form a matching along short edges away from the corners: each node
takes part in at most one merge (a node that moves goes to one that stays, and no node receives two), every merge is along an edge shorter than `tol`
times another edge of one of its cells, and no mergeable edge is forgotten. The result is the mesh with these merges carried out. -/
theorem C51_matching (dbg : Bool) (m : Tess R) (dist : List R → List R → K) (collin : List R → List R → List R → Bool) (tol : K)
    (hc : Consistent 2 m) (hcm : CommOK 2 m) (hp : Planar m) (hb : ClosedBoundary m) (hsym : ∀ p q, dist p q = dist q p) (hnn : ∀ p q, 0 ≤ dist p q)
    (hcol : ∀ p q r, collin p q r = collin p r q) (ht : 0 < tol) :
    ∃ m' tgt kn kf, cleanEdges dbg 2 m dist collin tol = .ok m' ∧ Matching m dist collin tol tgt ∧ Merged 2 m kn kf tgt m' := by
  obtain ⟨m', tgt, kn, kf, e, h1, h2, _⟩ := cleanEdges_spec dbg hc hcm hp hb hsym hnn hcol ht
  exact ⟨m', tgt, kn, kf, e, h1, h2⟩

/-- C51: every face that disappears joins the same two nodes as a short face whose ends are not corners. -/
theorem C51_removed_are_short (dbg : Bool) (m : Tess R) (dist : List R → List R → K) (collin : List R → List R → List R → Bool) (tol : K)
    (hc : Consistent 2 m) (hcm : CommOK 2 m) (hp : Planar m) (hb : ClosedBoundary m) (hsym : ∀ p q, dist p q = dist q p) (hnn : ∀ p q, 0 ≤ dist p q)
    (hcol : ∀ p q r, collin p q r = collin p r q) (ht : 0 < tol) :
    ∃ m' tgt kn kf, cleanEdges dbg 2 m dist collin tol = .ok m' ∧ Merged 2 m kn kf tgt m' ∧
      ∀ f, f < m.faces.length → f ∉ kf → ∃ g a b, g < m.faces.length ∧ JoinsNodes m f a b ∧ JoinsNodes m g a b ∧ Short m dist tol g ∧
        ¬ Corner m collin a ∧ ¬ Corner m collin b := by
  obtain ⟨m', tgt, kn, kf, e, h1, h2, _⟩ := cleanEdges_spec dbg hc hcm hp hb hsym hnn hcol ht
  refine ⟨m', tgt, kn, kf, e, h2, fun f hf hn => ?_⟩
  obtain ⟨a, b, hab, hne⟩ := hp.face hf
  have hmem := hc.faces_lt _ (face_mem hf)
  rw [hab] at hmem
  have ha := hmem a (by simp)
  have hb' := hmem b (by simp)
  have heq : tgt a = tgt b := by
    by_contra hcon
    refine hn ((h2.kf_iff f).2 ⟨hf, fun x y hxy => ?_⟩)
    rw [hab] at hxy
    simp only [List.cons.injEq, and_true] at hxy
    rw [← hxy.1, ← hxy.2]; exact hcon
  by_cases fa : tgt a = a
  · obtain ⟨g, g1, g2, g3, g4, g5⟩ := h1.edge b hb' (by rw [← heq, fa]; exact hne)
    rw [← heq, fa] at g2 g5
    exact ⟨g, b, a, g1, Or.inr hab, g2, g3, g4, g5⟩
  · have fb : tgt b = b := by
      by_contra hcon
      exact hne (h1.once a b ha hb' fa hcon heq)
    obtain ⟨g, g1, g2, g3, g4, g5⟩ := h1.edge a ha fa
    rw [heq, fb] at g2 g5
    exact ⟨g, a, b, g1, Or.inl hab, g2, g3, g4, g5⟩

/-- C51: a mesh with no short edge away from the corners is left exactly as it was. -/
theorem C51_clean_mesh_unchanged (dbg : Bool) (m : Tess R) (dist : List R → List R → K) (collin : List R → List R → List R → Bool) (tol : K)
    (hc : Consistent 2 m) (hcm : CommOK 2 m) (hp : Planar m) (hb : ClosedBoundary m) (hsym : ∀ p q, dist p q = dist q p) (hnn : ∀ p q, 0 ≤ dist p q)
    (hcol : ∀ p q r, collin p q r = collin p r q) (ht : 0 < tol)
    (hno : ∀ f a b, f < m.faces.length → JoinsNodes m f a b → Short m dist tol f → Corner m collin a ∨ Corner m collin b) :
    cleanEdges dbg 2 m dist collin tol = .ok m := by
  obtain ⟨m', tgt, kn, kf, e, h1, h2, h3, _⟩ := cleanEdges_spec dbg hc hcm hp hb hsym hnn hcol ht
  rw [e, h3]
  intro n hn
  by_contra hcon
  obtain ⟨f, f1, f2, f3, f4, f5⟩ := h1.edge n hn hcon
  rcases hno f n _ f1 f2 f3 with h | h
  · exact f4 h
  · exact f5 h

example : ∃ m' tgt kn kf, cleanEdges true 2 strip manhattan onLine (1/5) = .ok m' ∧ Matching strip manhattan onLine (1/5) tgt ∧ Merged 2 strip kn kf tgt m' ∧
    m'.faces = [[0,1], [1,3], [3,0], [1,2], [2,4], [4,1]] := by
  obtain ⟨m', tgt, kn, kf, e, h1, h2⟩ := C51_matching true strip manhattan onLine (1/5) strip_consistent strip_comm strip_planar strip_boundary manhattan_symm
    manhattan_nonneg onLine_symm (by decide +kernel)
  refine ⟨m', tgt, kn, kf, e, h1, h2, ?_⟩
  have : (match cleanEdges true 2 strip manhattan onLine (1/5) with | .ok x => x.faces | _ => []) = [[0,1], [1,3], [3,0], [1,2], [2,4], [4,1]] := by decide +kernel
  rw [e] at this
  exact this

example : cleanEdges true 2 strip manhattan onLine (1/100) = .ok strip := by
  refine C51_clean_mesh_unchanged true strip manhattan onLine (1/100) strip_consistent strip_comm strip_planar strip_boundary manhattan_symm
    manhattan_nonneg onLine_symm (by decide +kernel) ?_
  rintro f a b hf - ⟨c, hc, s, hs, rfl, t, ht, l, l', hl, hl', hlt⟩
  exfalso
  rw [lengthIs_elen strip_planar manhattan_symm hf] at hl
  rw [lengthIs_elen strip_planar manhattan_symm (strip_consistent.cells_lt _ (cell_mem hc) t ht)] at hl'
  rw [hl, hl'] at hlt
  revert hlt
  have key : ∀ f < 7, ∀ g < 7, ¬ elen 2 strip manhattan (fk strip f) < 1/100 * elen 2 strip manhattan (fk strip g) := by decide +kernel
  exact key _ hf _ (strip_consistent.cells_lt _ (cell_mem hc) t ht)

/-! ### C53 -/

/-- C53, what holds: the result is consistent, its faces are proper edges, its communication lists are well formed, all cells are still there, every cell that
was a closed loop still is one, and a cell whose sides were all different keeps at least half of them. Missing: at least three sides per cell
(`C53_three_sides_fails`) and a boundary made of closed curves (`C53_again_fails`). -/
theorem C53_valid_mesh_partial (dbg : Bool) (m : Tess R) (dist : List R → List R → K) (collin : List R → List R → List R → Bool) (tol : K)
    (hc : Consistent 2 m) (hcm : CommOK 2 m) (hp : Planar m) (hb : ClosedBoundary m) (hsym : ∀ p q, dist p q = dist q p) (hnn : ∀ p q, 0 ≤ dist p q)
    (hcol : ∀ p q r, collin p q r = collin p r q) (ht : 0 < tol) :
    ∃ m', cleanEdges dbg 2 m dist collin tol = .ok m' ∧ Consistent 2 m' ∧ CommOK 2 m' ∧ Planar m' ∧ m'.cells.length = m.cells.length ∧
      (∀ c, c < m.cells.length → ClosedLoop m (cell m c) → ClosedLoop m' (cell m' c)) ∧
      (∀ c, c < m.cells.length → ClosedLoop m (cell m c) → DistinctSides m (cell m c) → (cell m c).length ≤ 2 * (cell m' c).length) := by
  obtain ⟨m', tgt, kn, kf, e, h1, h2, _⟩ := cleanEdges_spec dbg hc hcm hp hb hsym hnn hcol ht
  exact ⟨m', e, h2.consistent hc, h2.commOK hc hcm, h2.planar hp, h2.cells_length, fun c hcl hL => h2.closedLoop hc hp hcl hL,
    fun c hcl hL hd => h2.half hc hp h1.once hcl hL hd⟩

example : ∃ m', cleanEdges true 2 fan manhattan onLine (1/5) = .ok m' ∧ Consistent 2 m' ∧ ClosedLoop m' (cell m' 1) ∧ 3 ≤ 2 * (cell m' 1).length := by
  obtain ⟨m', e, h1, _, _, _, h2, h3⟩ := C53_valid_mesh_partial true fan manhattan onLine (1/5) fan_consistent fan_comm fan_planar fan_boundary manhattan_symm
    manhattan_nonneg onLine_symm (by decide +kernel)
  have hL : ClosedLoop fan (cell fan 1) := ⟨1, rfl, rfl, rfl, rfl⟩
  refine ⟨m', e, h1, h2 1 (by decide) hL, h3 1 (by decide) hL ?_⟩
  have : ∀ s ∈ cell fan 1, ∀ t ∈ cell fan 1, posID s ≠ posID t → ¬ fk fan (posID s) = fk fan (posID t) := by decide
  have hpw : (cell fan 1).Pairwise fun s t => posID s ≠ posID t := by decide
  refine hpw.imp_of_mem fun hs ht hne => ?_
  rintro ⟨a, b, j1, j2⟩
  exact this _ hs _ ht hne (by rw [fk_of_joins j1, fk_of_joins j2])

end

/-- C53 is false of the code: a thin triangle is left with two sides. -/
theorem C53_three_sides_fails : ∃ m' : Tess Int, cleanEdges true 2 fan manhattan onLine (1/5) = .ok m' ∧
    (∀ c, c < fan.cells.length → 3 ≤ (cell fan c).length) ∧ (cell m' 1).length = 2 := by
  obtain ⟨m', tgt, kn, kf, e, h1, h2⟩ := C51_matching true fan manhattan onLine (1/5) fan_consistent fan_comm fan_planar fan_boundary manhattan_symm
    manhattan_nonneg onLine_symm (by decide +kernel)
  refine ⟨m', e, by decide, ?_⟩
  have : (match cleanEdges true 2 fan manhattan onLine (1/5) with | .ok x => (cell x 1).length | _ => 0) = 2 := by decide +kernel
  rw [e] at this
  exact this

/-- C53 is false of the code: merging the two ends of a face inside the mesh can pinch the boundary, and then the next call to `cleanEdges` fails an
assertion. -/
theorem C53_again_fails : ∃ m' : Tess Int, cleanEdges true 2 strip manhattan onLine (1/5) = .ok m' ∧ ¬ ClosedBoundary m' ∧
    cleanEdges true 2 m' manhattan onLine (1/5) = .abort := by
  obtain ⟨m', tgt, kn, kf, e, h1, h2⟩ := C51_matching true strip manhattan onLine (1/5) strip_consistent strip_comm strip_planar strip_boundary manhattan_symm
    manhattan_nonneg onLine_symm (by decide +kernel)
  have k1 : (match cleanEdges true 2 strip manhattan onLine (1/5) with
    | .ok x => decide (1 ∈ face x 0 ∧ 0 < x.faces.length ∧ (cellsOf x 0).length = 1 ∧ (boundaryFacesAt x 1).length ≠ 2) | _ => false) = true := by decide +kernel
  have k2 : (match cleanEdges true 2 strip manhattan onLine (1/5) with
    | .ok x => (match cleanEdges true 2 x manhattan onLine (1/5) with | .abort => true | _ => false) | _ => false) = true := by decide +kernel
  rw [e] at k1 k2
  refine ⟨m', e, ?_, ?_⟩
  · simp only [decide_eq_true_eq] at k1
    intro hb
    exact k1.2.2.2 (hb 0 ⟨k1.2.1, k1.2.2.1⟩ 1 k1.1)
  · dsimp only at k2
    cases hr : cleanEdges true 2 m' manhattan onLine (1/5) with
    | abort => rfl
    | ok x => rw [hr] at k2; simp at k2
    | ub => rw [hr] at k2; simp at k2

end Verif.Editor
