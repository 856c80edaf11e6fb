import Verif.Proofs.DistributedEx
/- C78: two runs of the distributed tessellation. -/
namespace Verif.Nbr.Ex
open Verif Verif.Mesh Verif.Geom Verif.Nbr Verif.Exch

/-! ### A run that goes wrong -/

def wrapEx (l : List ℚ) : Res (Tess ℚ) := if l = gens0 ++ gens2 then .ok firstMesh else if l = gens1 ++ gens2 then .ok secondMesh else .ok thirdMesh

theorem neighborsEx (dbg : Bool) : ∀ p, p < 3 → neighborsFor dbg hullEx serialEx allEx gens p = .ok ([[2], [2], [0, 1]].getD p []) := by
  cases dbg <;> decide +kernel

theorem runEx (dbg : Bool) : Run dbg hullEx serialEx allEx wrapEx gens Square where
  toSetup := setupEx dbg
  inside := by unfold Square; decide +kernel
  convex := by
    rintro u v t ⟨a1, a2, a3, a4⟩ ⟨b1, b2, b3, b4⟩ h0 h1
    simp only [Square, lerp2]
    refine ⟨?_, ?_, ?_, ?_⟩ <;> nlinarith
  wrap_ok := by
    intro p nb hp hnb
    have hp3 : p < 3 := hp
    rw [neighborsEx dbg p hp3] at hnb
    have := Res.ok.inj hnb
    subst this
    interval_cases p
    · refine ⟨firstMesh, by decide +kernel, ?_⟩
      rw [(by decide +kernel : pts2 (gensOf gens (0 :: [[2], [2], [0, 1]].getD 0 [])) = firstSites)]
      exact first_good
    · refine ⟨secondMesh, by decide +kernel, ?_⟩
      rw [(by decide +kernel : pts2 (gensOf gens (1 :: [[2], [2], [0, 1]].getD 1 [])) = secondSites)]
      exact second_good
    · refine ⟨thirdMesh, by decide +kernel, ?_⟩
      rw [(by decide +kernel : pts2 (gensOf gens (2 :: [[2], [2], [0, 1]].getD 2 [])) = thirdSites)]
      exact third_good

theorem strictly_congr {A B : List (V2 ℚ)} (hA : ConvexCCW A) (hB : ConvexCCW B) (h : ∀ x, InPoly A x ↔ InPoly B x) {x : V2 ℚ} (hx : StrictlyIn B x) : StrictlyIn A x := by
  rintro ⟨u, v⟩ he
  exact hx (u, v) ((side_iff hB).2 ((sideOf_congr h).1 ((side_iff hA).1 he)))

/-- C78. If a hidden cell touches a cell that is not hidden, the meshes of the processes need not fit together, although every tessellation that is computed is right: in this run the place `z` is
strictly inside a cell of process 0 and strictly inside a cell of process 1. -/
theorem C78_hidden_fails (dbg : Bool) : ∃ (hull : List ℚ → Res (RPLC ℚ)) (serial all wrap : List ℚ → Res (Tess ℚ)) (points : List (List ℚ)) (Dom : V2 ℚ → Prop),
    Run dbg hull serial all wrap points Dom ∧ ∀ {κ : Type} [LinearOrder κ] (key : List ℚ → κ) (mid : κ → κ → κ) (srt : List (κ × Nat) → List (κ × Nat)), Sorts srt →
      ∃ m0 m1 A0 A1 i0 i1 z, distributed dbg hull serial all wrap key (faceKey2 dbg key mid) srt points 0 = .ok m0 ∧
        distributed dbg hull serial all wrap key (faceKey2 dbg key mid) srt points 1 = .ok m1 ∧
        i0 < m0.cells.length ∧ ConvexCCW A0 ∧ CellIs m0 i0 A0 ∧ StrictlyIn A0 z ∧ i1 < m1.cells.length ∧ ConvexCCW A1 ∧ CellIs m1 i1 A1 ∧ StrictlyIn A1 z := by
  refine ⟨hullEx, serialEx, allEx, wrapEx, gens, Square, runEx dbg, ?_⟩
  intro κ _ key mid srt hs
  obtain ⟨nb0, m0, e0, d0, h0⟩ := C78_local (runEx dbg) key mid hs (p := 0) (by decide)
  obtain ⟨nb1, m1, e1, d1, h1⟩ := C78_local (runEx dbg) key mid hs (p := 1) (by decide)
  rw [neighborsEx dbg 0 (by decide)] at e0
  rw [neighborsEx dbg 1 (by decide)] at e1
  have := Res.ok.inj e0
  subst this
  have := Res.ok.inj e1
  subst this
  have t0 : (0 :: [[2], [2], [0, 1]].getD 0 []).flatMap (own gens) = firstSites := by decide +kernel
  have t1 : (1 :: [[2], [2], [0, 1]].getD 1 []).flatMap (own gens) = secondSites := by decide +kernel
  rw [t0] at h0
  rw [t1] at h1
  obtain ⟨A0, a1, a2, a3⟩ := h0.shape 6 ⟨0, 6⟩ (by decide +kernel)
  obtain ⟨A1, b1, b2, b3⟩ := h1.shape 0 ⟨0, -2⟩ (by decide +kernel)
  have cv0 : ∀ A ∈ firstPolys, 3 ≤ A.length ∧ ∀ t ∈ A.sublistsLen 3, turns t = true := by decide +kernel
  have cv1 : ∀ A ∈ secondPolys, 3 ≤ A.length ∧ ∀ t ∈ A.sublistsLen 3, turns t = true := by decide +kernel
  have m6 : firstPolys.getD 6 [] ∈ firstPolys := by decide +kernel
  have m0' : secondPolys.getD 0 [] ∈ secondPolys := by decide +kernel
  refine ⟨m0, m1, A0, A1, 6, 0, ⟨0, 19 / 10⟩, d0, d1, ?_, a1, a2, ?_, ?_, b1, b2, ?_⟩
  · rw [h0.cells_len]; decide +kernel
  · refine strictly_congr a1 (convexCCW_of (cv0 _ m6).1 (cv0 _ m6).2) (fun x => ?_) (by unfold StrictlyIn; decide +kernel)
    rw [a3, first_region 6 (by decide) x]
    rfl
  · rw [h1.cells_len]; decide +kernel
  · refine strictly_congr b1 (convexCCW_of (cv1 _ m0').1 (cv1 _ m0').2) (fun x => ?_) (by unfold StrictlyIn; decide +kernel)
    rw [b3, second_region 0 (by decide) x]
    rfl

/-! ### A run that does not -/

def wrapPair (l : List ℚ) : Res (Tess ℚ) := if l = [-1, 0, 1, 0] then .ok leftMesh else .ok rightMesh

theorem neighborsPair (dbg : Bool) : ∀ p, p < 2 → neighborsFor dbg pairHull pairTess pairTess pairPoints p = .ok ([[1], [0]].getD p []) := by
  cases dbg <;> decide +kernel

theorem runPair (dbg : Bool) : Run dbg pairHull pairTess pairTess wrapPair pairPoints Rect where
  toSetup := pairSetup dbg
  inside := by unfold Rect; decide +kernel
  convex := by
    rintro u v t ⟨a1, a2, a3, a4⟩ ⟨b1, b2, b3, b4⟩ h0 h1
    simp only [Rect, lerp2]
    refine ⟨?_, ?_, ?_, ?_⟩ <;> nlinarith
  wrap_ok := by
    intro p nb hp hnb
    have hp2 : p < 2 := hp
    rw [neighborsPair dbg p hp2] at hnb
    have := Res.ok.inj hnb
    subst this
    interval_cases p
    · refine ⟨leftMesh, by decide +kernel, ?_⟩
      rw [(by decide +kernel : pts2 (gensOf pairPoints (0 :: [[1], [0]].getD 0 [])) = leftSites)]
      exact left_good
    · refine ⟨rightMesh, by decide +kernel, ?_⟩
      rw [(by decide +kernel : pts2 (gensOf pairPoints (1 :: [[1], [0]].getD 1 [])) = rightSites)]
      exact right_good

theorem fairPair : Fair pairPoints Rect := by
  have h : ∀ p, p < 2 → ∀ P, ¬ Hidden (own pairPoints p) P := by
    rintro p hp P ⟨B, hB, hsub, _⟩
    obtain ⟨u, hu, v, hv, w, hw, h⟩ := polygon_noncol hB hsub
    exact h ((by decide +kernel : ∀ p, p < 2 → ∀ u ∈ own pairPoints p, ∀ v ∈ own pairPoints p, ∀ w ∈ own pairPoints p, area2 u v w = 0) p hp u hu v hv w hw)
  intro p q g h' x hp hq _ _ _ _ _ _
  exact ⟨fun hh => absurd hh (h p hp g), fun hh => absurd hh (h q hq h')⟩

def sortEx (l : List (ℚ × Nat)) : List (ℚ × Nat) := l.insertionSort fun a b => a.1 ≤ b.1
theorem sortEx_sorts : Sorts sortEx := by
  intro l
  have : Std.Total fun a b : ℚ × Nat => a.1 ≤ b.1 := ⟨fun a b => le_total _ _⟩
  have : IsTrans (ℚ × Nat) fun a b => a.1 ≤ b.1 := ⟨fun a b c => le_trans⟩
  exact ⟨List.perm_insertionSort _ _, List.pairwise_insertionSort _ _⟩

/-- A key that tells apart the corners here. -/
def keyEx (l : List ℚ) : ℚ := l.getD 0 0 + 10 * l.getD 1 0

theorem corner_pair {g u : V2 ℚ} (hg : g ∈ allPts pairPoints) (h : Extreme (InCell (allPts pairPoints) Rect g) u) : u ∈ leftPolys.flatten := by
  have e : allPts pairPoints = leftSites := by decide +kernel
  rw [e] at hg h
  have cv : ∀ A ∈ leftPolys, 3 ≤ A.length ∧ ∀ t ∈ A.sublistsLen 3, turns t = true := by decide +kernel
  have key : ∀ i, i < 2 → leftSites.getD i ⟨0, 0⟩ = g → u ∈ leftPolys.flatten := by
    intro i hi hgi
    have hm : leftPolys.getD i [] ∈ leftPolys := (by decide +kernel : ∀ i, i < 2 → leftPolys.getD i [] ∈ leftPolys) i hi
    rw [← hgi] at h
    exact List.mem_flatten.2 ⟨_, hm, (extreme_corner (convexCCW_of (cv _ hm).1 (cv _ hm).2)).1 ((extreme_congr fun x => left_region i hi x).2 h)⟩
  obtain ⟨i, hi, rfl⟩ := List.getElem_of_mem hg
  exact key i hi (by simp [List.getD, hi])

/-- The two processes of the example end up with the cells of a serial tessellation. -/
example (srt : List (ℚ × Nat) → List (ℚ × Nat)) (hs : Sorts srt) : ∃ m, distributed true pairHull pairTess pairTess wrapPair keyEx (faceKey2 true keyEx fun a b => a / 2 + b / 2) srt pairPoints 1 = .ok m ∧
    ∀ e, e ∈ (cell m 0).map (orientedCoords 2 m) ↔ e ∈ (cell leftMesh 1).map (orientedCoords 2 leftMesh) := by
  obtain ⟨m, e, h⟩ := C78_cells_partial (runPair true) fairPair keyEx (fun a b => a / 2 + b / 2) hs (p := 1) (by decide)
  have e' : allPts pairPoints = leftSites := by decide +kernel
  rw [e'] at h
  exact ⟨m, e, C78_serial h left_good.shows (P := ⟨1, 0⟩) (by decide +kernel) (by decide +kernel)⟩

theorem keyPair : ∀ g ∈ allPts pairPoints, ∀ h ∈ allPts pairPoints, ∀ u v, Extreme (InCell (allPts pairPoints) Rect g) u → Extreme (InCell (allPts pairPoints) Rect h) v →
    keyEx (coords u) = keyEx (coords v) → u = v := by
  intro g hg h hh u v hu hv e
  have := (by decide +kernel : ∀ u ∈ leftPolys.flatten, ∀ v ∈ leftPolys.flatten, keyEx (coords u) = keyEx (coords v) → u = v)
  exact this u (corner_pair hg hu) v (corner_pair hh hv) e

theorem smallPair (dbg : Bool) : ∀ p nb m, p < pairPoints.length → neighborsFor dbg pairHull pairTess pairTess pairPoints p = .ok nb → wrapPair (gensOf pairPoints (p :: nb)) = .ok m →
    2 * numNodes 2 m < 2 ^ 31 := by
  intro p nb m _ _ hm
  unfold wrapPair at hm
  split at hm <;> cases hm <;> decide +kernel

theorem side_pair {g u v : V2 ℚ} (hg : g ∈ allPts pairPoints) (h : SideOf (InCell (allPts pairPoints) Rect g) u v) : (u, v) ∈ leftPolys.flatMap dirSides := by
  have e : allPts pairPoints = leftSites := by decide +kernel
  rw [e] at hg h
  have cv : ∀ A ∈ leftPolys, 3 ≤ A.length ∧ ∀ t ∈ A.sublistsLen 3, turns t = true := by decide +kernel
  have key : ∀ i, i < 2 → leftSites.getD i ⟨0, 0⟩ = g → (u, v) ∈ leftPolys.flatMap dirSides := by
    intro i hi hgi
    have hm : leftPolys.getD i [] ∈ leftPolys := (by decide +kernel : ∀ i, i < 2 → leftPolys.getD i [] ∈ leftPolys) i hi
    rw [← hgi] at h
    exact List.mem_flatMap.2 ⟨_, hm, (side_iff (convexCCW_of (cv _ hm).1 (cv _ hm).2)).2 ((sideOf_congr fun x => left_region i hi x).2 h)⟩
  obtain ⟨i, hi, rfl⟩ := List.getElem_of_mem hg
  exact key i hi (by simp [List.getD, hi])

theorem midPair : ∀ g ∈ allPts pairPoints, ∀ h ∈ allPts pairPoints, ∀ u v u' v', SideOf (InCell (allPts pairPoints) Rect g) u v → SideOf (InCell (allPts pairPoints) Rect h) u' v' →
    keyEx (coords u) / 2 + keyEx (coords v) / 2 = keyEx (coords u') / 2 + keyEx (coords v') / 2 → (u = u' ∧ v = v') ∨ (u = v' ∧ v = u') := by
  intro g hg h hh u v u' v' hs hs' e
  have := (by decide +kernel : ∀ e ∈ leftPolys.flatMap dirSides, ∀ f ∈ leftPolys.flatMap dirSides,
    keyEx (coords e.1) / 2 + keyEx (coords e.2) / 2 = keyEx (coords f.1) / 2 + keyEx (coords f.2) / 2 → (e.1 = f.1 ∧ e.2 = f.2) ∨ (e.1 = f.2 ∧ e.2 = f.1))
  exact this _ (side_pair hg hs) _ (side_pair hh hs') e

/-- Their meshes fit together, and the exchange of node coordinates is safe. -/
example : ∃ mesh : Nat → Tess ℚ, (∀ p, p < 2 → distributed true pairHull pairTess pairTess wrapPair keyEx (faceKey2 true keyEx fun a b => a / 2 + b / 2) sortEx pairPoints p = .ok (mesh p) ∧
    (mesh p).neighborDomains ≠ []) ∧ Sharing 2 2 mesh (fun p a => node 2 (mesh p) a) ∧
    ∀ p q i j, p < 2 → (mesh p).neighborDomains[i]? = some q → (mesh q).neighborDomains[j]? = some p → ((mesh p).sharedFaces.getD i []).length = ((mesh q).sharedFaces.getD j []).length := by
  obtain ⟨mesh, h1, h2, h3⟩ := C78_sharing_partial (runPair true) fairPair (by decide) (mid := fun a b => a / 2 + b / 2) keyPair (fun _ _ => sortEx_sorts) (smallPair true)
  refine ⟨mesh, h1, h2, fun p q i j hp hi hj => ?_⟩
  have := congrArg List.length (h3 (fun a b => add_comm _ _) midPair p q i j hp hi hj)
  simpa using this
end Verif.Nbr.Ex
