import Verif.Proofs.Volume
import Verif.Props.Mesh
/- C27, C28, C54: areas, volumes and centroids of cells. -/
namespace Verif.Geom
open Verif Verif.Mesh Verif.Editor
section
variable {K : Type} [Field K] [LinearOrder K] [IsStrictOrderedRing K]

/-! ### C28 in 2D -/

/-- C28. The signed area and centroid computed for a cell that is a closed loop are those of the polygon: for every reference point `o`, twice the area is the sum of the
signed triangles over `o`, and the centroid is their area-weighted mean centroid. The area must be larger than the tolerance in debug builds. -/
theorem C28_polygon {dbg : Bool} {m : Tess K} (hc : Consistent 2 m) (hp : Planar m) {c : Nat} (hlt : c < m.cells.length) (hl : ClosedLoop m (cell m c)) {tol : K}
    (o : V2 K) (hbig : dbg = true → tol < |fanArea2 m o (cell m c)|) :
    ∃ A g, centroidAndArea dbg m c tol = .ok (A, g) ∧ 2 * A = fanArea2 m o (cell m c) ∧
      (A ≠ 0 → 6 * A * g.x = fanMomentX m o (cell m c) ∧ 6 * A * g.y = fanMomentY m o (cell m c)) := by
  rw [centroidAndArea_eq hc hp hlt, fanMomentX_eq hl, fanMomentY_eq hl]
  rw [fanArea_eq hl] at hbig ⊢
  have ha : Res.assert dbg (|((cell m c).map (dSide m)).sum| > tol) = .ok () := by
    cases dbg
    · exact Res.assert_release
    · exact Res.assert_true true (hbig rfl)
  rw [ha, Res.bind_ok]
  refine ⟨_, _, rfl, by ring, fun h0 => ⟨?_, ?_⟩⟩
  · dsimp only
    rw [mul_div_cancel₀]
    exact mul_ne_zero (by norm_num) h0
  · dsimp only
    rw [mul_div_cancel₀]
    exact mul_ne_zero (by norm_num) h0

theorem planar_two {R : Type} {m : Tess R} (hp : Planar m) : ∀ F ∈ m.faces, F.length = 2 := by
  intro F hF
  obtain ⟨a, b, e, -⟩ := hp F hF
  rw [e]; rfl

omit [LinearOrder K] [IsStrictOrderedRing K] in
theorem moved_cell {v : V2 K} {m m' : Tess K} (h : Moved2 v m m') (c : Nat) : cell m' c = cell m c := by simp [cell, h.cells]
omit [LinearOrder K] [IsStrictOrderedRing K] in
theorem moved_tail {v : V2 K} {m m' : Tess K} (h : Moved2 v m m') (s : Int) : tail m' s = tail m s := by simp [tail, face, h.faces]
omit [LinearOrder K] [IsStrictOrderedRing K] in
theorem moved_head {v : V2 K} {m m' : Tess K} (h : Moved2 v m m') (s : Int) : head m' s = head m s := by simp [head, face, h.faces]
omit [Field K] [LinearOrder K] [IsStrictOrderedRing K] in
theorem path_congr {R R' : Type} {m : Tess R} {m' : Tess R'} (h : m'.faces = m.faces) : ∀ {C : List Int} {a b : Nat}, Path m a C b → Path m' a C b
  | [], _, _, hp => hp
  | s :: C, a, b, hp => by
    have ht : tail m' s = tail m s := by simp [tail, face, h]
    have hh : head m' s = head m s := by simp [head, face, h]
    exact ⟨by rw [ht]; exact hp.1, by rw [hh]; exact path_congr h hp.2⟩
omit [LinearOrder K] [IsStrictOrderedRing K] in
theorem moved_fan {v : V2 K} {m m' : Tess K} (hc : Consistent 2 m) (hp : Planar m) (h : Moved2 v m m') {C : List Int} (hin : ∀ s ∈ C, posID s < m.faces.length) (o : V2 K) :
    fanArea2 m' (o + v) C = fanArea2 m o C ∧ fanMomentX m' (o + v) C = fanMomentX m o C + 3 * v.x * fanArea2 m o C ∧
      fanMomentY m' (o + v) C = fanMomentY m o C + 3 * v.y * fanArea2 m o C := by
  have e : ∀ s ∈ C, pos2 m' (tail m' s) = pos2 m (tail m s) + v ∧ pos2 m' (head m' s) = pos2 m (head m s) + v := by
    intro s hs
    rw [moved_tail h, moved_head h]
    exact ⟨h.pos _ (tail_lt hc hp (hin s hs)), h.pos _ (head_lt hc (planar_two hp) (hin s hs))⟩
  induction C with
  | nil => simp [fanArea2, fanMomentX, fanMomentY]
  | cons s C ih =>
    obtain ⟨i1, i2, i3⟩ := ih (fun t ht => hin t (by simp [ht])) fun t ht => e t (by simp [ht])
    obtain ⟨e1, e2⟩ := e s (by simp)
    simp only [fanArea2, fanMomentX, fanMomentY] at i1 i2 i3 ⊢
    simp only [List.map_cons, List.sum_cons]
    rw [i1, i2, i3, e1, e2]
    simp only [area2, V2.add_x, V2.add_y]
    refine ⟨by ring, by ring, by ring⟩

omit [IsStrictOrderedRing K] in
theorem moved_consistent2 {v : V2 K} {m m' : Tess K} (hc : Consistent 2 m) (h : Moved2 v m m') (hfc : m'.faceCells = m.faceCells) : Consistent 2 m' where
  dim_pos := by decide
  nodes_dvd := by rw [h.len]; exact hc.nodes_dvd
  faces_lt := by
    have := hc.faces_lt
    simpa [numNodes, h.len, h.faces] using this
  cells_lt := by have := hc.cells_lt; simpa [h.cells, h.faces] using this
  faceCells_len := by have := hc.faceCells_len; simpa [hfc, h.faces] using this
  faceCells_size := by have := hc.faceCells_size; simpa [hfc] using this
  faceCells_lt := by have := hc.faceCells_lt; simpa [hfc, h.cells] using this
  inverse := by have := hc.inverse; simpa [cell, cellsOf, face, hfc, h.cells, h.faces] using this

/-- C28. Translating the mesh leaves the signed area of a closed cell unchanged and moves its centroid by the same vector, in both builds (the area must not be zero: the
code divides by it, and not below the tolerance in debug builds). -/
theorem C28_translate {dbg : Bool} {v : V2 K} {m m' : Tess K} (hc : Consistent 2 m) (hp : Planar m) (hmv : Moved2 v m m') (hfc : m'.faceCells = m.faceCells)
    {c : Nat} (hlt : c < m.cells.length) (hl : ClosedLoop m (cell m c)) {tol : K} {A : K} {g : V2 K} (hA : A ≠ 0) (h : centroidAndArea dbg m c tol = .ok (A, g)) :
    centroidAndArea dbg m' c tol = .ok (A, g + v) := by
  have hc' := moved_consistent2 hc hmv hfc
  have hp' : Planar m' := by unfold Planar; rw [hmv.faces]; exact hp
  have hl' : ClosedLoop m' (cell m' c) := by
    obtain ⟨a, ha⟩ := hl
    rw [moved_cell hmv]
    exact ⟨a, path_congr hmv.faces ha⟩
  have hlt' : c < m'.cells.length := by rw [hmv.cells]; exact hlt
  have hin : ∀ s ∈ cell m c, posID s < m.faces.length := hc.cells_lt _ (cell_mem hlt)
  rw [centroidAndArea_eq hc hp hlt, ← fanArea_eq hl 0, ← fanMomentX_eq hl 0, ← fanMomentY_eq hl 0] at h
  rw [centroidAndArea_eq hc' hp' hlt', ← fanArea_eq hl' (0 + v), ← fanMomentX_eq hl' (0 + v), ← fanMomentY_eq hl' (0 + v), moved_cell hmv]
  obtain ⟨e1, e2, e3⟩ := moved_fan hc hp hmv hin 0
  rw [e1, e2, e3]
  obtain ⟨u, hu, h⟩ := Res.bind_eq_ok.1 h
  rw [hu, Res.bind_ok]
  have h := Res.ok.inj h
  have h1 : fanArea2 m 0 (cell m c) / 2 = A := congrArg Prod.fst h
  have hF : fanArea2 m 0 (cell m c) = 2 * A := by rw [← h1]; ring
  rw [hF] at h ⊢
  have hgx : fanMomentX m 0 (cell m c) / (6 * (2 * A / 2)) = g.x := congrArg (fun r : K × V2 K => r.2.x) h
  have hgy : fanMomentY m 0 (cell m c) / (6 * (2 * A / 2)) = g.y := congrArg (fun r : K × V2 K => r.2.y) h
  congr 1
  ext
  · dsimp only; ring
  · dsimp only [V2.add_x]; rw [← hgx]; field_simp; ring
  · dsimp only [V2.add_y]; rw [← hgy]; field_simp; ring

/-- C28. The faces of the cell may be listed in any order (in particular from any starting face): area and centroid are the same. -/
theorem C28_listing {dbg : Bool} {m m' : Tess K} (hc : Consistent 2 m) (hp : Planar m) (hc' : Consistent 2 m') (hn : m'.nodes = m.nodes) (hf : m'.faces = m.faces)
    {c : Nat} (hlt : c < m.cells.length) (hlt' : c < m'.cells.length) (hperm : (cell m' c).Perm (cell m c)) (tol : K) :
    centroidAndArea dbg m' c tol = centroidAndArea dbg m c tol := by
  have hp' : Planar m' := by unfold Planar; rw [hf]; exact hp
  have ht : tail m' = tail m := by funext s; simp [tail, face, hf]
  have hh : head m' = head m := by funext s; simp [head, face, hf]
  have hpos : pos2 m' = pos2 m := by funext n; simp [pos2, hn]
  have hd : dSide m' = dSide m := by funext s; simp [dSide, ht, hh, hpos]
  rw [centroidAndArea_eq hc hp hlt, centroidAndArea_eq hc' hp' hlt', hd, ht, hh, hpos, (hperm.map _).sum_eq, (hperm.map _).sum_eq, (hperm.map _).sum_eq]

/-! ### C27 -/

/-- C27. For every consistent 2D mesh with closed cells whose interior faces are used in opposite directions, the signed areas computed for the cells add up to the signed
area inside the boundary faces, measured from any reference point. -/
theorem C27_area {dbg : Bool} {m : Tess K} (hc : Consistent 2 m) (hp : Planar m) (hop : Opposed m) (hl : ∀ c, c < m.cells.length → ClosedLoop m (cell m c)) {tol : K}
    {A : Nat → K} {g : Nat → V2 K} (h : ∀ c, c < m.cells.length → centroidAndArea dbg m c tol = .ok (A c, g c)) (o : V2 K) :
    2 * ((List.range m.cells.length).map A).sum = fanArea2 m o (boundarySides m) := by
  have hA : ∀ c ∈ List.range m.cells.length, 2 * A c = ((cell m c).map fun s => if 0 ≤ s then area2 o (pos2 m (tail m (posID s : Int))) (pos2 m (head m (posID s : Int)))
      else - area2 o (pos2 m (tail m (posID s : Int))) (pos2 m (head m (posID s : Int)))).sum := by
    intro c hcm
    have hlt := List.mem_range.1 hcm
    have hin : ∀ s ∈ cell m c, posID s < m.faces.length := hc.cells_lt _ (cell_mem hlt)
    have h := h c hlt
    rw [centroidAndArea_eq hc hp hlt, ← fanArea_eq (hl c hlt) o] at h
    obtain ⟨u, hu, h⟩ := Res.bind_eq_ok.1 h
    have h1 : fanArea2 m o (cell m c) / 2 = A c := congrArg Prod.fst (Res.ok.inj h)
    rw [← h1, mul_div_cancel₀ _ (by norm_num)]
    unfold fanArea2
    congr 1
    refine List.map_congr_left fun s hs => ?_
    exact area_signed m hp o (hin s hs)
  rw [← List.sum_map_mul_left, List.map_congr_left hA, interior_cancels hc hop fun f => area2 o (pos2 m (tail m (f : Int))) (pos2 m (head m (f : Int)))]
  unfold fanArea2
  congr 1
  refine List.map_congr_left fun s hs => ?_
  exact (area_signed m hp o (boundarySides_lt hs)).symm

end


/-! ### 3D -/

/-- C28. The signed volume and centroid computed for a closed cell with proper faces are those of the polyhedron bounded by its faces (each cut into triangles around the
average of its nodes): for every reference point `o`, six times the volume is the sum of the signed tetrahedra over `o`, and the centroid is their volume-weighted mean
centroid. The volume must not be zero in debug builds. -/
theorem C28_polyhedron {dbg : Bool} {m : Tess ℝ} (hc : Consistent 3 m) {c : Nat} (hlt : c < m.cells.length) (hne : cell m c ≠ []) (hcl : ClosedCell m (cell m c))
    (hp : ∀ s ∈ cell m c, ProperFace m (face m (posID s))) (o : V3 ℝ) (hbig : dbg = true → fanVolume6 m o (cell m c) ≠ 0) :
    ∃ V g, centroidAndVolume dbg m c = .ok (V, g) ∧ 6 * V = fanVolume6 m o (cell m c) ∧
      (V ≠ 0 → 6 * V * g.x = fanMoment6 V3.x m o (cell m c) ∧ 6 * V * g.y = fanMoment6 V3.y m o (cell m c) ∧ 6 * V * g.z = fanMoment6 V3.z m o (cell m c)) := by
  obtain ⟨q, h⟩ := centroidAndVolume_eq (dbg := dbg) hc hlt hne hp
  have e0 : fanVolume6 m q (cell m c) = fanVolume6 m o (cell m c) := by rw [fanVolume_indep m hcl, fanVolume_indep m hcl]
  have e1 : fanMoment6 V3.x m q (cell m c) = fanMoment6 V3.x m o (cell m c) := by rw [moment_x, moment_x, fanMoment_indep _ _ _ m hcl, fanMoment_indep _ _ _ m hcl]
  have e2 : fanMoment6 V3.y m q (cell m c) = fanMoment6 V3.y m o (cell m c) := by rw [moment_y, moment_y, fanMoment_indep _ _ _ m hcl, fanMoment_indep _ _ _ m hcl]
  have e3 : fanMoment6 V3.z m q (cell m c) = fanMoment6 V3.z m o (cell m c) := by rw [moment_z, moment_z, fanMoment_indep _ _ _ m hcl, fanMoment_indep _ _ _ m hcl]
  rw [e0, e1, e2, e3] at h
  have ha : Res.assert dbg (fanVolume6 m o (cell m c) ≠ 0) = .ok () := by
    cases dbg
    · exact Res.assert_release
    · exact Res.assert_true true (hbig rfl)
  rw [ha, Res.bind_ok] at h
  refine ⟨_, _, h, by ring, fun h0 => ?_⟩
  have h0 : fanVolume6 m o (cell m c) ≠ 0 := fun hh => h0 (by rw [hh, zero_div])
  simp only [V3.div]
  refine ⟨?_, ?_, ?_⟩ <;> field_simp

/-- The converse reading of `C28_polyhedron`: whatever was computed is the volume and the centroid. -/
theorem C28_polyhedron_result {dbg : Bool} {m : Tess ℝ} (hc : Consistent 3 m) {c : Nat} (hlt : c < m.cells.length) (hne : cell m c ≠ []) (hcl : ClosedCell m (cell m c))
    (hp : ∀ s ∈ cell m c, ProperFace m (face m (posID s))) (o : V3 ℝ) {V : ℝ} {g : V3 ℝ} (h : centroidAndVolume dbg m c = .ok (V, g)) :
    6 * V = fanVolume6 m o (cell m c) ∧
      (V ≠ 0 → 6 * V * g.x = fanMoment6 V3.x m o (cell m c) ∧ 6 * V * g.y = fanMoment6 V3.y m o (cell m c) ∧ 6 * V * g.z = fanMoment6 V3.z m o (cell m c)) := by
  by_cases hb : dbg = true → fanVolume6 m o (cell m c) ≠ 0
  · obtain ⟨V', g', h', r⟩ := C28_polyhedron hc hlt hne hcl hp o hb
    rw [h] at h'
    obtain ⟨rfl, rfl⟩ := Prod.mk.inj (Res.ok.inj h')
    exact r
  · obtain ⟨rfl, h0⟩ := Classical.not_imp.1 hb
    obtain ⟨q, e⟩ := centroidAndVolume_eq (dbg := true) hc hlt hne hp
    have e0 : fanVolume6 m q (cell m c) = fanVolume6 m o (cell m c) := by rw [fanVolume_indep m hcl, fanVolume_indep m hcl]
    rw [e0, Res.assert_debug_false h0] at e
    rw [e] at h
    cases h

theorem moved3_fan {K : Type} [Field K] [CharZero K] {v : V3 K} {m m' : Tess K} (hc : Consistent 3 m) (h : Moved3 v m m') {C : List Int} (hin : ∀ s ∈ C, posID s < m.faces.length)
    (hne : ∀ s ∈ C, face m (posID s) ≠ []) (o : V3 K) :
    fanVolume6 m' (o + v) C = fanVolume6 m o C ∧ fanMoment6 V3.x m' (o + v) C = fanMoment6 V3.x m o C + v.x * fanVolume6 m o C ∧
      fanMoment6 V3.y m' (o + v) C = fanMoment6 V3.y m o C + v.y * fanVolume6 m o C ∧ fanMoment6 V3.z m' (o + v) C = fanMoment6 V3.z m o C + v.z * fanVolume6 m o C := by
  have e : ∀ s ∈ C, ∀ n ∈ face m (posID s), pos3 m' n = pos3 m n + v := fun s hs n hn => h.pos n (hc.faces_lt _ (face_mem (hin s hs)) n hn)
  have ef : ∀ s, face m' (posID s) = face m (posID s) := by intro s; simp [face, h.faces]
  have eo : ∀ s, orientedNodes m' s = orientedNodes m s := by intro s; simp [orientedNodes, ef]
  have key : ∀ (E : List (Nat × Nat)) (f : V3 K), (∀ d ∈ E, pos3 m' d.1 = pos3 m d.1 + v ∧ pos3 m' d.2 = pos3 m d.2 + v) →
      (E.map fun d => vol6 (o + v) (pos3 m' d.1) (pos3 m' d.2) (f + v)).sum = (E.map fun d => vol6 o (pos3 m d.1) (pos3 m d.2) f).sum ∧
      ∀ π : V3 K → K, (∀ a b, π (a + b) = π a + π b) →
      (E.map fun d => vol6 (o + v) (pos3 m' d.1) (pos3 m' d.2) (f + v) * ((π (o + v) + π (pos3 m' d.1) + π (pos3 m' d.2) + π (f + v)) / 4)).sum =
        (E.map fun d => vol6 o (pos3 m d.1) (pos3 m d.2) f * ((π o + π (pos3 m d.1) + π (pos3 m d.2) + π f) / 4)).sum + π v * (E.map fun d => vol6 o (pos3 m d.1) (pos3 m d.2) f).sum := by
    intro E f hE
    induction E with
    | nil => simp
    | cons d E ih =>
      obtain ⟨i1, i2⟩ := ih fun t ht => hE t (by simp [ht])
      obtain ⟨d1, d2⟩ := hE d (by simp)
      have ev : vol6 (o + v) (pos3 m d.1 + v) (pos3 m d.2 + v) (f + v) = vol6 o (pos3 m d.1) (pos3 m d.2) f := by
        simp only [vol6, V3.add_x, V3.add_y, V3.add_z]; ring
      refine ⟨?_, fun π hπ => ?_⟩
      · rw [List.map_cons, List.sum_cons, i1, d1, d2, ev, List.map_cons, List.sum_cons]
      · rw [List.map_cons, List.sum_cons, i2 π hπ, d1, d2, ev]
        simp only [List.map_cons, List.sum_cons, hπ]
        have h4 : (4 : K) ≠ 0 := by norm_num
        field_simp; ring
  have hmom : ∀ π : V3 K → K, (∀ a b, π (a + b) = π a + π b) → fanVolume6 m' (o + v) C = fanVolume6 m o C ∧ fanMoment6 π m' (o + v) C = fanMoment6 π m o C + π v * fanVolume6 m o C := by
    intro π hπ
    induction C with
    | nil => simp [fanVolume6, fanMoment6]
    | cons s C ih =>
      obtain ⟨i1, i2⟩ := ih (fun t ht => hin t (by simp [ht])) (fun t ht => hne t (by simp [ht])) fun t ht => e t (by simp [ht])
      have hs := mean3_moved (hne s (by simp)) (e s (by simp))
      obtain ⟨k1, k2⟩ := key (dirSides (orientedNodes m s)) (mean3 m (face m (posID s))) (by
        intro d hd
        obtain ⟨h1, h2⟩ := dirSides_mem hd
        exact ⟨e s (by simp) _ (orientedNodes_mem.1 h1), e s (by simp) _ (orientedNodes_mem.1 h2)⟩)
      simp only [fanVolume6, fanMoment6] at i1 i2 ⊢
      simp only [List.map_cons, List.sum_cons]
      rw [i1, i2, eo, ef, hs, k1, k2 π hπ]
      exact ⟨rfl, by ring⟩
  exact ⟨(hmom V3.x fun _ _ => rfl).1, (hmom V3.x fun _ _ => rfl).2, (hmom V3.y fun _ _ => rfl).2, (hmom V3.z fun _ _ => rfl).2⟩

theorem moved_consistent3 {K : Type} [Field K] {v : V3 K} {m m' : Tess K} (hc : Consistent 3 m) (h : Moved3 v m m') (hfc : m'.faceCells = m.faceCells) : Consistent 3 m' where
  dim_pos := by decide
  nodes_dvd := by rw [h.len]; exact hc.nodes_dvd
  faces_lt := by
    have := hc.faces_lt
    simpa [numNodes, h.len, h.faces] using this
  cells_lt := by have := hc.cells_lt; simpa [h.cells, h.faces] using this
  faceCells_len := by have := hc.faceCells_len; simpa [hfc, h.faces] using this
  faceCells_size := by have := hc.faceCells_size; simpa [hfc] using this
  faceCells_lt := by have := hc.faceCells_lt; simpa [hfc, h.cells] using this
  inverse := by have := hc.inverse; simpa [cell, cellsOf, face, hfc, h.cells, h.faces] using this

theorem collinear3_move (a b c v : V3 ℝ) (tol : ℝ) : collinear3 (a + v) (b + v) (c + v) tol = collinear3 a b c tol := by
  have e : ∀ p q : V3 ℝ, p + v - (q + v) = p - q := by intro p q; ext <;> simp
  simp only [collinear3, e]

theorem proper_moved {v : V3 ℝ} {m m' : Tess ℝ} (hc : Consistent 3 m) (h : Moved3 v m m') {F : List Nat} (hF : F ∈ m.faces) (hp : ProperFace m F) : ProperFace m' F := by
  obtain ⟨a, b, r, e, n, hn, hcol⟩ := hp
  have hl := hc.faces_lt _ hF
  rw [e] at hl
  refine ⟨a, b, r, e, n, hn, ?_⟩
  rw [h.pos a (hl a (by simp)), h.pos b (hl b (by simp)), h.pos n (hl n (by simp [hn])), collinear3_move]
  exact hcol

/-- C28. Translating the mesh leaves the signed volume of a closed 3D cell unchanged and moves its centroid by the same vector. -/
theorem C28_translate3 {dbg : Bool} {v : V3 ℝ} {m m' : Tess ℝ} (hc : Consistent 3 m) (hmv : Moved3 v m m') (hfc : m'.faceCells = m.faceCells) {c : Nat}
    (hlt : c < m.cells.length) (hne : cell m c ≠ []) (hcl : ClosedCell m (cell m c)) (hp : ∀ s ∈ cell m c, ProperFace m (face m (posID s))) {V : ℝ} {g : V3 ℝ} (hV : V ≠ 0)
    (h : centroidAndVolume dbg m c = .ok (V, g)) : centroidAndVolume dbg m' c = .ok (V, g + v) := by
  have hin : ∀ s ∈ cell m c, posID s < m.faces.length := hc.cells_lt _ (cell_mem hlt)
  have ef : ∀ s, face m' (posID s) = face m (posID s) := by intro s; simp [face, hmv.faces]
  have eo : ∀ s, orientedNodes m' s = orientedNodes m s := by intro s; simp [orientedNodes, ef]
  have ec : cell m' c = cell m c := by simp [cell, hmv.cells]
  have hnef : ∀ s ∈ cell m c, face m (posID s) ≠ [] := by
    intro s hs
    obtain ⟨a, b, r, e, -⟩ := hp s hs
    rw [e]; simp
  obtain ⟨r0, r1⟩ := C28_polyhedron_result hc hlt hne hcl hp 0 h
  obtain ⟨r1, r2, r3⟩ := r1 hV
  obtain ⟨f0, f1, f2, f3⟩ := moved3_fan hc hmv hin hnef 0
  have hcl' : ClosedCell m' (cell m' c) := by
    unfold ClosedCell; rw [ec]; simp only [eo]; exact hcl
  obtain ⟨V', g', h', q0, q1⟩ := C28_polyhedron (dbg := dbg) (moved_consistent3 hc hmv hfc) (c := c) (by rw [hmv.cells]; exact hlt) (by rw [ec]; exact hne) hcl'
    (by intro s hs; rw [ec] at hs; rw [ef]; exact proper_moved hc hmv (face_mem (hin s hs)) (hp s hs)) (0 + v) (by
      intro _; rw [ec, f0, ← r0]; exact mul_ne_zero (by norm_num) hV)
  rw [ec] at q0 q1
  rw [f0, ← r0] at q0
  have hVV : V' = V := by linarith
  subst hVV
  obtain ⟨q1, q2, q3⟩ := q1 hV
  rw [f1, ← r0, ← r1] at q1
  rw [f2, ← r0, ← r2] at q2
  rw [f3, ← r0, ← r3] at q3
  have h6 : 6 * V' ≠ 0 := mul_ne_zero (by norm_num) hV
  rw [h']
  congr 2
  ext
  · exact mul_left_cancel₀ h6 (by rw [q1, V3.add_x]; ring)
  · exact mul_left_cancel₀ h6 (by rw [q2, V3.add_y]; ring)
  · exact mul_left_cancel₀ h6 (by rw [q3, V3.add_z]; ring)

/-- C28. The faces of a closed 3D cell may be listed in any order: volume and centroid are the same. -/
theorem C28_listing3 {dbg : Bool} {m m' : Tess ℝ} (hc : Consistent 3 m) (hc' : Consistent 3 m') (hn : m'.nodes = m.nodes) (hf : m'.faces = m.faces)
    {c : Nat} (hlt : c < m.cells.length) (hlt' : c < m'.cells.length) (hne : cell m c ≠ []) (hperm : (cell m' c).Perm (cell m c)) (hcl : ClosedCell m (cell m c))
    (hp : ∀ s ∈ cell m c, ProperFace m (face m (posID s))) : centroidAndVolume dbg m' c = centroidAndVolume dbg m c := by
  have ef : ∀ s, face m' (posID s) = face m (posID s) := by intro s; simp [face, hf]
  have eo : ∀ s, orientedNodes m' s = orientedNodes m s := by intro s; simp [orientedNodes, ef]
  have ep : pos3 m' = pos3 m := by funext n; simp [pos3, hn]
  have em : mean3 m' = mean3 m := by funext F; simp [mean3, ep]
  have hcl' : ClosedCell m (cell m' c) := by
    unfold ClosedCell at *
    have := hperm.flatMap_right fun s => dirSides (orientedNodes m s)
    exact this.trans (hcl.trans (this.symm.map _))
  have hne' : cell m' c ≠ [] := by intro e; rw [e] at hperm; exact hne hperm.symm.eq_nil
  have hpp : ∀ s ∈ cell m' c, ProperFace m' (face m' (posID s)) := by
    intro s hs
    obtain ⟨a, b, r, e, n, hn, hcol⟩ := hp s (hperm.mem_iff.1 hs)
    rw [ef]
    exact ⟨a, b, r, e, n, hn, by rw [ep]; exact hcol⟩
  obtain ⟨q, h⟩ := centroidAndVolume_eq (dbg := dbg) hc hlt hne hp
  obtain ⟨q', h'⟩ := centroidAndVolume_eq (dbg := dbg) hc' hlt' hne' hpp
  have v0 : fanVolume6 m' q' (cell m' c) = fanVolume6 m q (cell m c) := by
    have : fanVolume6 m' q' (cell m' c) = fanVolume6 m q' (cell m' c) := by simp [fanVolume6, eo, ef, ep, em]
    rw [this, fanVolume_indep m hcl', fanVolume_indep m hcl]
    exact (hperm.map _).sum_eq
  have mm : ∀ α β γ, fanMoment6 (lin α β γ) m' q' (cell m' c) = fanMoment6 (lin α β γ) m q (cell m c) := by
    intro α β γ
    have : fanMoment6 (lin α β γ) m' q' (cell m' c) = fanMoment6 (lin α β γ) m q' (cell m' c) := by simp [fanMoment6, eo, ef, ep, em]
    rw [this, fanMoment_indep _ _ _ m hcl', fanMoment_indep _ _ _ m hcl]
    exact (hperm.map _).sum_eq
  rw [h, h', v0, moment_x m', moment_y m', moment_z m', mm, mm, mm, ← moment_x, ← moment_y, ← moment_z]

/-- C54. For every consistent 3D mesh with closed cells and proper faces whose interior faces are used in opposite directions, the signed volumes computed for the cells
add up to the signed volume inside the boundary faces, measured from any reference point. -/
theorem C54_volume {dbg : Bool} {m : Tess ℝ} (hc : Consistent 3 m) (hop : Opposed m) (hne : ∀ c, c < m.cells.length → cell m c ≠ [])
    (hcl : ∀ c, c < m.cells.length → ClosedCell m (cell m c)) (hp : ∀ F ∈ m.faces, ProperFace m F)
    {V : Nat → ℝ} {g : Nat → V3 ℝ} (h : ∀ c, c < m.cells.length → centroidAndVolume dbg m c = .ok (V c, g c)) (o : V3 ℝ) :
    6 * ((List.range m.cells.length).map V).sum = fanVolume6 m o (boundarySides m) := by
  have hV : ∀ c ∈ List.range m.cells.length, 6 * V c = ((cell m c).map fun s =>
      if 0 ≤ s then ((dirSides (face m (posID s))).map fun e => vol6 o (pos3 m e.1) (pos3 m e.2) (mean3 m (face m (posID s)))).sum
      else - ((dirSides (face m (posID s))).map fun e => vol6 o (pos3 m e.1) (pos3 m e.2) (mean3 m (face m (posID s)))).sum).sum := by
    intro c hcm
    have hlt := List.mem_range.1 hcm
    have hin : ∀ s ∈ cell m c, posID s < m.faces.length := hc.cells_lt _ (cell_mem hlt)
    rw [(C28_polyhedron_result hc hlt (hne c hlt) (hcl c hlt) (fun s hs => hp _ (face_mem (hin s hs))) o (h c hlt)).1]
    unfold fanVolume6
    congr 1
    exact List.map_congr_left fun s _ => vol_signed m o s
  rw [← List.sum_map_mul_left, List.map_congr_left hV,
    interior_cancels hc hop fun f => ((dirSides (face m f)).map fun e => vol6 o (pos3 m e.1) (pos3 m e.2) (mean3 m (face m f))).sum]
  unfold fanVolume6
  congr 1
  exact List.map_congr_left fun s _ => (vol_signed m o s).symm

/-- C54. A face whose later nodes are all collinear with its first two according to the test (in particular, any face whose first two nodes are closer than 1e-5) cannot be
handled: debug builds abort, release builds read past the end of the list of vertices. -/
theorem C54_degenerate_face_fails {m : Tess ℝ} (hc : Consistent 3 m) {f : Nat} (hf : f < m.faces.length) {a b : Nat} {r : List Nat} (hF : face m f = a :: b :: r)
    (hn : ∀ n ∈ r, collinear3 (pos3 m a) (pos3 m b) (pos3 m n) (1 / 10 ^ 10)) :
    faceCentroidAndNormal true m f = .abort ∧ faceCentroidAndNormal false m f = .ub := faceCentroid_bad hc hf hF hn

/-- C54. In particular a face whose first two nodes are closer than 1e-5. -/
theorem C54_short_edge_fails {m : Tess ℝ} (hc : Consistent 3 m) {f : Nat} (hf : f < m.faces.length) {a b : Nat} {r : List Nat} (hF : face m f = a :: b :: r)
    (hshort : sq3 (pos3 m a) (pos3 m b) < 1 / 10 ^ 10) : faceCentroidAndNormal true m f = .abort ∧ faceCentroidAndNormal false m f = .ub := by
  refine faceCentroid_bad hc hf hF fun n _ => Or.inl ?_
  have : dot3 (pos3 m b - pos3 m a) (pos3 m b - pos3 m a) = sq3 (pos3 m a) (pos3 m b) := by
    simp only [dot3, sq3, V3.sub_x, V3.sub_y, V3.sub_z]; ring
  rw [this]; exact hshort

/-! ### Examples -/

/-- Two unit squares side by side, rational coordinates. -/
def squaresQ : Tess ℚ where
  nodes := [0,0, 1,0, 2,0, 0,1, 1,1, 2,1]
  cells := [[0, 1, 2, 3], [4, 5, 6, -2]]
  faces := [[0,1], [1,4], [4,3], [3,0], [1,2], [2,5], [5,4]]
  boundaryNodes := []
  boundaryFaces := []
  faceCells := [[0], [0, -2], [0], [0], [1], [1], [1]]
  convexHull := {}
  neighborDomains := []
  sharedNodes := []
  sharedFaces := []

theorem squaresQ_consistent : Consistent 2 squaresQ := ⟨by decide, by decide, by decide, by decide, by decide, by decide, by decide, by decide⟩
theorem squaresQ_planar : Planar squaresQ := by
  intro F hF
  simp only [squaresQ, List.mem_cons, List.not_mem_nil, or_false] at hF
  rcases hF with rfl | rfl | rfl | rfl | rfl | rfl | rfl <;> exact ⟨_, _, rfl, by decide⟩
theorem squaresQ_opposed : Opposed squaresQ := by
  intro X hX h2
  simp only [squaresQ, List.mem_cons, List.not_mem_nil, or_false] at hX
  rcases hX with rfl | rfl | rfl | rfl | rfl | rfl | rfl <;> first | exact absurd h2 (by decide) | exact ⟨0, -2, Or.inl rfl, by decide, by decide⟩
theorem squaresQ_loops : ∀ c, c < squaresQ.cells.length → ClosedLoop squaresQ (cell squaresQ c) := by
  intro c hc
  have : c = 0 ∨ c = 1 := by simp [squaresQ] at hc; omega
  rcases this with rfl | rfl
  · exact ⟨0, by decide, by decide, by decide, by decide, rfl⟩
  · exact ⟨1, by decide, by decide, by decide, by decide, rfl⟩

example : centroidAndArea true squaresQ 0 (1 / 10 ^ 10) = .ok (1, ⟨1/2, 1/2⟩) := by decide +kernel
example : centroidAndArea true squaresQ 1 (1 / 10 ^ 10) = .ok (1, ⟨3/2, 1/2⟩) := by decide +kernel
example : boundarySides squaresQ = [0, 2, 3, 4, 5, 6] := by decide +kernel

/-- The hypotheses of C27 hold for the two squares, and the boundary encloses area 2. -/
example : (2 : ℚ) * (1 + 1) = fanArea2 squaresQ ⟨7, -3⟩ (boundarySides squaresQ) := by
  have h := C27_area (dbg := true) squaresQ_consistent squaresQ_planar squaresQ_opposed squaresQ_loops (tol := 1 / 10 ^ 10) (A := fun _ => 1)
    (g := fun c => if c = 0 then ⟨1/2, 1/2⟩ else ⟨3/2, 1/2⟩) (by
      intro c hc
      have : c = 0 ∨ c = 1 := by simp [squaresQ] at hc; omega
      rcases this with rfl | rfl <;> decide +kernel) ⟨7, -3⟩
  simpa [squaresQ] using h

/-- Two tetrahedra sharing a triangle, real coordinates. -/
noncomputable def tetsR : Tess ℝ where
  nodes := [0,0,0, 1,0,0, 0,1,0, 0,0,1, 0,0,-1]
  cells := [[0, 1, 2, 3], [-1, 4, 5, 6]]
  faces := [[0,2,1], [0,1,3], [1,2,3], [2,0,3], [1,0,4], [2,1,4], [0,2,4]]
  boundaryNodes := []
  boundaryFaces := []
  faceCells := [[0, -2], [0], [0], [0], [1], [1], [1]]
  convexHull := {}
  neighborDomains := []
  sharedNodes := []
  sharedFaces := []

theorem tetsR_consistent : Consistent 3 tetsR := ⟨by decide, by decide, by decide, by decide, by decide, by decide, by decide, by decide⟩
theorem tetsR_opposed : Opposed tetsR := by
  intro X hX h2
  simp only [tetsR, List.mem_cons, List.not_mem_nil, or_false] at hX
  rcases hX with rfl | rfl | rfl | rfl | rfl | rfl | rfl <;> first | exact absurd h2 (by decide) | exact ⟨0, -2, Or.inl rfl, by decide, by decide⟩
theorem tetsR_closed : ∀ c, c < tetsR.cells.length → cell tetsR c ≠ [] ∧ ClosedCell tetsR (cell tetsR c) := by
  intro c hc
  have : c = 0 ∨ c = 1 := by simp [tetsR] at hc; omega
  rcases this with rfl | rfl
  · exact ⟨by decide, by unfold ClosedCell; decide⟩
  · exact ⟨by decide, by unfold ClosedCell; decide⟩

theorem not_collinear_angle {a b c : V3 ℝ} (h1 : 1 ≤ dot3 (b - a) (b - a)) (h2 : 1 ≤ dot3 (c - a) (c - a))
    (h : 10 * dot3 (b - a) (c - a) ^ 2 ≤ 9 * (dot3 (b - a) (b - a) * dot3 (c - a) (c - a))) : ¬ collinear3 a b c (1 / 10 ^ 10) := by
  unfold collinear3
  generalize b - a = u at *
  generalize c - a = w at *
  have s1 : Real.sqrt (dot3 u u) ≠ 0 := (Real.sqrt_pos.2 (by linarith)).ne'
  have s2 : Real.sqrt (dot3 w w) ≠ 0 := (Real.sqrt_pos.2 (by linarith)).ne'
  have e : dot3 (u.div (Real.sqrt (dot3 u u))) (w.div (Real.sqrt (dot3 w w))) = dot3 u w / (Real.sqrt (dot3 u u) * Real.sqrt (dot3 w w)) := by
    simp only [dot3, V3.div]; field_simp
  rw [e]
  rintro (h0 | h0 | h0)
  · norm_num at h0; linarith
  · norm_num at h0; linarith
  · have hq : |dot3 u w / (Real.sqrt (dot3 u u) * Real.sqrt (dot3 w w))| ≤ 19 / 20 := by
      rw [← Real.sqrt_mul (by linarith), abs_div, abs_of_pos (Real.sqrt_pos.2 (by nlinarith)), div_le_iff₀ (Real.sqrt_pos.2 (by nlinarith))]
      refine abs_le_of_sq_le_sq ?_ (by positivity)
      rw [mul_pow, Real.sq_sqrt (by nlinarith)]
      nlinarith
    have := (abs_lt.1 h0).1
    norm_num at this
    linarith

theorem tetsR_proper : ∀ F ∈ tetsR.faces, ProperFace tetsR F := by
  intro F hF
  simp only [tetsR, List.mem_cons, List.not_mem_nil, or_false] at hF
  rcases hF with rfl | rfl | rfl | rfl | rfl | rfl | rfl <;>
    exact ⟨_, _, _, rfl, _, List.mem_singleton.2 rfl, not_collinear_angle (by norm_num [tetsR, pos3, dot3]) (by norm_num [tetsR, pos3, dot3]) (by norm_num [tetsR, pos3, dot3])⟩

/-- The hypotheses of the 3D theorems hold for the two tetrahedra. Each has volume 1/6. -/
example : ∃ g, centroidAndVolume true tetsR 1 = .ok (1 / 6, g) ∧ g.z = - 1 / 4 := by
  have c1 : cell tetsR 1 = [-1, 4, 5, 6] := rfl
  have n1 : dirSides (orientedNodes tetsR (-1)) = [(1, 2), (2, 0), (0, 1)] := by decide
  have n2 : dirSides (orientedNodes tetsR 4) = [(1, 0), (0, 4), (4, 1)] := by decide
  have n3 : dirSides (orientedNodes tetsR 5) = [(2, 1), (1, 4), (4, 2)] := by decide
  have n4 : dirSides (orientedNodes tetsR 6) = [(0, 2), (2, 4), (4, 0)] := by decide
  have f1 : face tetsR (posID (-1)) = [0, 2, 1] := by decide
  have f2 : face tetsR (posID 4) = [1, 0, 4] := by decide
  have f3 : face tetsR (posID 5) = [2, 1, 4] := by decide
  have f4 : face tetsR (posID 6) = [0, 2, 4] := by decide
  have p0 : pos3 tetsR 0 = ⟨0, 0, 0⟩ := rfl
  have p1 : pos3 tetsR 1 = ⟨1, 0, 0⟩ := rfl
  have p2 : pos3 tetsR 2 = ⟨0, 1, 0⟩ := rfl
  have p4 : pos3 tetsR 4 = ⟨0, 0, -1⟩ := rfl
  have hfan : fanVolume6 tetsR 0 (cell tetsR 1) = 1 := by
    norm_num [fanVolume6, c1, n1, n2, n3, n4, f1, f2, f3, f4, p0, p1, p2, p4, vol6, mean3]
  obtain ⟨V, g, h, h1, h2⟩ := C28_polyhedron (dbg := true) tetsR_consistent (c := 1) (by decide) (tetsR_closed 1 (by decide)).1 (tetsR_closed 1 (by decide)).2
    (fun s hs => tetsR_proper _ (face_mem (tetsR_consistent.cells_lt _ (cell_mem (by decide)) s hs))) 0 (by intro _; rw [hfan]; norm_num)
  have hV : V = 1 / 6 := by rw [hfan] at h1; linarith
  subst hV
  refine ⟨g, h, ?_⟩
  obtain ⟨-, -, h3⟩ := h2 (by norm_num)
  have : fanMoment6 V3.z tetsR 0 (cell tetsR 1) = - 1 / 4 := by
    norm_num [fanMoment6, c1, n1, n2, n3, n4, f1, f2, f3, f4, p0, p1, p2, p4, vol6, mean3]
  rw [this] at h3
  linarith

end Verif.Geom
