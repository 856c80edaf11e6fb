import Verif.Props.Simplify3
import Mathlib.Data.List.TakeWhile
/- C89: where the 3D version of `simplifyPLCfacets` fails. -/
namespace Verif.Simplify3
open Verif Verif.Mesh Verif.Internal Verif.Geom Verif.Hash
open Verif.Simplify (Plc rdi number compact renumber)

/-- The entries of a facet are numbers of points. -/
theorem mapFacet_total {V : Type} {points pts : List V} {ix : List Nat} (hF : FirstOf (· = ·) points pts ix) {f : List Int} (hf : ∀ k ∈ f, 0 ≤ k ∧ k < points.length) :
    mapFacet pts.length ix f = .ok (f.map fun k => ix.getD k.toNat 0) := by
  unfold mapFacet
  refine Geom.mapM_ok f fun k hk => ?_
  obtain ⟨h0, h1⟩ := hf k hk
  obtain ⟨p, hp⟩ : ∃ p, points[k.toNat]? = some p := ⟨_, List.getElem?_eq_getElem (show k.toNat < points.length by omega)⟩
  obtain ⟨y, q, e1, e2, -⟩ := hF.maps k.toNat p hp
  rw [rdi, if_pos h0, rd_eq_ok.2 e1, Res.bind_eq, Res.bind_ok, if_pos (List.getElem?_eq_some_iff.1 e2).1, getD_of e1]
  rfl

theorem rdi_total {V : Type} [Zero V] {points : List V} {f : List Int} (hf : ∀ k ∈ f, 0 ≤ k ∧ k < points.length) : f.mapM (rdi points) = .ok (f.map fun k => points.getD k.toNat 0) := by
  refine Geom.mapM_ok f fun k hk => ?_
  obtain ⟨h0, h1⟩ := hf k hk
  rw [rdi, if_pos h0, rd_eq_ok]
  exact getD_lt (by omega) 0

theorem glueLoop_none {V : Type} {T : Tests V} {dbg : Bool} {points pts : List V} {mf : List (List Nat)} {nrm : List (Option (V × V × V))} (hn : ∀ i, nrm.getD i none = none) :
    ∀ (fs : List (List Int)) (i : Nat) (used : List Bool), glueLoop T dbg points pts mf nrm fs i used = .ok []
  | [], _, _ => rfl
  | f :: fs, i, used => by
    rw [glueLoop, hn i]
    rcases used.getD i true with _ | _ <;> exact glueLoop_none hn fs (i + 1) used

theorem number_unused : ∀ n k : Nat, number (List.replicate n (-1)) k = (List.replicate n (-1), k)
  | 0, _ => rfl
  | n + 1, k => by
    rw [List.replicate_succ, number, if_neg (by decide), number_unused n k]

theorem compact_unused {V : Type} {dbg : Bool} : ∀ (n i : Nat) (pts : List V), compact dbg (List.replicate n (-1)) i pts = .ok pts
  | 0, _, _ => rfl
  | n + 1, i, pts => by
    rw [List.replicate_succ, compact, if_neg (by decide)]
    exact compact_unused n (i + 1) pts

/-- C89 fails for a PLC of any shape whose points are closer to each other than the root of the tolerance: a debug build aborts, a release build returns an empty PLC. -/
theorem C89_tiny_fails (plat : Points.Key → Nat → Points.Key) (dbg : Bool) {eps tol : ℝ} (he : 0 < eps) {b : HBox3} (hb : nested3 b b) {plc : PLC} {points : List (V3 ℝ)}
    (hp : ∀ p ∈ points, inBox3 b p) (hsame : ∀ p ∈ points, ∀ q ∈ points, Hull3.hashOf plat eps tol b p = Hull3.hashOf plat eps tol b q → p = q)
    (hf : ∀ f ∈ plc.facets, 3 ≤ f.length ∧ ∀ k ∈ f, 0 ≤ k ∧ k < points.length) (htiny : ∀ p ∈ points, ∀ q ∈ points, sq3 p q < tol) :
    simplify3 (Points.wrapping plat) dbg eps tol b plc points = if dbg then .abort else .ok { } := by
  obtain ⟨pts, ix, u1, hF⟩ := unique_eq3 plat dbg he (fun _ => hb) hp hsame
  rw [simplify3, Res.bind_eq, u1, Res.bind_ok]
  unfold simplifyWith
  rw [Geom.mapM_ok plc.facets fun f h => mapFacet_total hF (hf f h).2, Res.bind_eq, Res.bind_ok]
  have hn : ∀ f ∈ plc.facets, facetNormal (realTests tol) dbg points f = .ok none := by
    intro f hfm
    obtain ⟨h3, hr⟩ := hf f hfm
    unfold facetNormal
    rw [Res.bind_eq, Res.assert_true dbg h3, Res.bind_ok, Res.bind_eq, rdi_total hr, Res.bind_ok]
    have hmem : ∀ q ∈ f.map (fun k => points.getD k.toNat 0), q ∈ points := by
      intro q hq
      obtain ⟨k, hk, rfl⟩ := List.mem_map.1 hq
      have := hr k hk
      rw [← List.getElem_eq_getD (h := show k.toNat < points.length by omega)]
      exact List.getElem_mem _
    rcases hc : f.map (fun k => points.getD k.toNat 0) with _ | ⟨p1, rest⟩
    · have := congrArg List.length hc
      simp only [List.length_map, List.length_nil] at this
      omega
    · rw [hc] at hmem
      simp only [hc]
      have hsub : (rest.dropWhile ((realTests tol).near p1)).Sublist rest := List.dropWhile_sublist _
      rcases hd : rest.dropWhile ((realTests tol).near p1) with _ | ⟨p2, rest'⟩
      · simp only [hd]; rfl
      · rw [hd] at hsub
        have hp2 : p2 ∈ points := hmem p2 (List.mem_cons_of_mem _ (hsub.subset List.mem_cons_self))
        have hall : rest'.dropWhile ((realTests tol).coll p1 p2) = [] := by
          rw [List.dropWhile_eq_nil_iff]
          intro p3 _
          simp only [realTests, decide_eq_true_eq]
          refine Or.inl ?_
          have := htiny p1 (hmem p1 List.mem_cons_self) p2 hp2
          have e : sq3 p1 p2 = dot3 (p2 - p1) (p2 - p1) := by simp only [sq3, dot3, V3.sub_x, V3.sub_y, V3.sub_z]; ring
          rw [← e]
          exact this
        simp only [hd, hall]
        rfl
  rw [Geom.mapM_ok (f := fun _ => none) plc.facets hn, Res.bind_eq, Res.bind_ok]
  rw [glueLoop_none (fun i => by rw [List.getD_eq_getElem?_getD, List.getElem?_map]; cases plc.facets[i]? <;> rfl), Res.bind_eq, Res.bind_ok]
  cases dbg with
  | true => rw [Res.bind_eq, Res.assert_debug_false (by simp)]; rfl
  | false =>
    have e : useMask pts.length [] = .ok (List.replicate pts.length (-1)) := rfl
    rw [Res.bind_eq, Res.assert_release, Res.bind_ok, Res.bind_eq, e, Res.bind_ok, number_unused, Res.bind_eq, compact_unused, Res.bind_ok]
    simp

/-- C89 fails for a closed surface whose facets are all so small that the product of the lengths of two normals is less than half the tolerance, if they all touch the first of them: they are
taken for parallel, whatever their directions, and nothing is left as an outline. A debug build aborts, a release build reads the first of no edges. -/
theorem C89_small_fails (plat : Points.Key → Nat → Points.Key) (dbg : Bool) {eps tol : ℝ} (he : 0 < eps) (ht : 0 < tol) {b : HBox3} (hb : nested3 b b) {plc : PLC} {points : List (V3 ℝ)}
    (hp : ∀ p ∈ points, inBox3 b p) (hsame : ∀ p ∈ points, ∀ q ∈ points, Hull3.hashOf plat eps tol b p = Hull3.hashOf plat eps tol b q → p = q)
    (hf : ∀ f ∈ plc.facets, ∀ k ∈ f, 0 ≤ k ∧ k < points.length) (h0 : plc.facets ≠ []) (hproper : ∀ f ∈ plc.facets, Proper (corners points f)) (hlarge : Large tol (plc.facets.map (corners points)))
    (hclosed : ClosedSurface (plc.facets.map (corners points)))
    (htouch : ∀ f ∈ plc.facets, ∃ p ∈ corners points (plc.facets.headD []), p ∈ corners points f)
    (hsmall : ∀ f ∈ plc.facets, ∀ g ∈ plc.facets, 2 * (Real.sqrt (dot3 (firstNormal (corners points f)) (firstNormal (corners points f))) *
      Real.sqrt (dot3 (firstNormal (corners points g)) (firstNormal (corners points g)))) < tol) :
    simplify3 (Points.wrapping plat) dbg eps tol b plc points = if dbg then .abort else .ub := by
  obtain ⟨pts, ix, u1, hF⟩ := unique_eq3 plat dbg he (fun _ => hb) hp hsame
  rw [simplify3, Res.bind_eq, u1, Res.bind_ok]
  unfold simplifyWith
  rw [Geom.mapM_ok plc.facets fun f h => mapFacet_total hF (hf f h), Res.bind_eq, Res.bind_ok]
  rw [Geom.mapM_ok (f := fun f => some ((corners points f).getD 0 0, (corners points f).getD 1 0, (corners points f).getD 2 0)) plc.facets fun f h =>
    facetNormal_proper ht hlarge (List.mem_map_of_mem h) (hproper f h) (rdi_total (hf f h)) (by simpa [corners] using (hproper f h).three), Res.bind_eq, Res.bind_ok]
  set mf := plc.facets.map fun f => f.map fun k => ix.getD k.toNat 0 with hmf
  set nrm := plc.facets.map fun f => some ((corners points f).getD 0 0, (corners points f).getD 1 0, (corners points f).getD 2 0) with hnrm
  have hmfo : ∀ o, mf.getD o [] = (plc.facets.getD o []).map fun k => ix.getD k.toNat 0 := by
    intro o
    rw [hmf, List.getD_eq_getElem?_getD, List.getElem?_map, List.getD_eq_getElem?_getD]
    cases plc.facets[o]? <;> rfl
  have hmemf : ∀ o < plc.facets.length, plc.facets.getD o [] ∈ plc.facets := fun o ho => Setting.mem ho
  have hok : ∀ o, ((mf.getD o []).map (fun v => pts.getD v 0) = corners points (plc.facets.getD o [])) ∧ ∀ v ∈ mf.getD o [], v < pts.length := by
    intro o
    by_cases ho : o < plc.facets.length
    · have := mapFacet_ok hF (mapFacet_total hF (hf _ (hmemf o ho)))
      rw [hmfo]
      exact ⟨this.1, this.2.1⟩
    · rw [hmfo, List.getD_eq_getElem?_getD, List.getElem?_eq_none (by omega)]
      simp [corners]
  have hinj : ∀ a < pts.length, ∀ b < pts.length, pts.getD a 0 = pts.getD b 0 → a = b := by
    intro a ha b hb h
    rw [← List.getElem_eq_getD (h := ha), ← List.getElem_eq_getD (h := hb)] at h
    exact (List.Nodup.getElem_inj_iff (hF.distinct.imp fun h => h)).1 h
  obtain ⟨f0, fs, hfs⟩ := List.exists_cons_of_ne_nil h0
  have hn0 : nrm.getD 0 none = some ((corners points f0).getD 0 0, (corners points f0).getD 1 0, (corners points f0).getD 2 0) := by
    rw [hnrm, hfs]; rfl
  have hu0 : (nrm.map Option.isNone).getD 0 true = false := by
    rw [hnrm, hfs]; rfl
  set ni := ((corners points f0).getD 0 0, (corners points f0).getD 1 0, (corners points f0).getD 2 0) with hni
  have hfo : ∀ o < plc.facets.length, nrm.getD o none = some ((corners points (plc.facets.getD o [])).getD 0 0, (corners points (plc.facets.getD o [])).getD 1 0, (corners points (plc.facets.getD o [])).getD 2 0) := by
    intro o ho
    refine getD_of ?_ _
    rw [hnrm, List.getElem?_map, getD_lt ho []]
    rfl
  -- everything is parallel
  have hpar : ∀ o < plc.facets.length, ParTo (realTests tol) nrm ni o := by
    intro o ho
    refine ⟨_, hfo o ho, ?_⟩
    simp only [realTests, decide_eq_true_eq]
    change |dot3 (firstNormal (corners points f0)) (firstNormal (corners points (plc.facets.getD o []))) - _| < tol
    have hs := hsmall f0 (by rw [hfs]; simp) _ (hmemf o ho)
    have hl := lagrange (firstNormal (corners points f0)) (firstNormal (corners points (plc.facets.getD o [])))
    have hc := Hull3.dot_self_nonneg (cross3 (firstNormal (corners points f0)) (firstNormal (corners points (plc.facets.getD o []))))
    change |_ - Real.sqrt (dot3 (firstNormal (corners points f0)) (firstNormal (corners points f0))) *
      Real.sqrt (dot3 (firstNormal (corners points (plc.facets.getD o []))) (firstNormal (corners points (plc.facets.getD o []))))| < tol
    have hA := Hull3.dot_self_nonneg (firstNormal (corners points f0))
    rw [← Real.sqrt_mul hA] at hs ⊢
    have hB := Hull3.dot_self_nonneg (firstNormal (corners points (plc.facets.getD o [])))
    have hle : |dot3 (firstNormal (corners points f0)) (firstNormal (corners points (plc.facets.getD o [])))| ≤
        Real.sqrt (dot3 (firstNormal (corners points f0)) (firstNormal (corners points f0)) * dot3 (firstNormal (corners points (plc.facets.getD o []))) (firstNormal (corners points (plc.facets.getD o [])))) :=
      Real.abs_le_sqrt (by linarith)
    rw [abs_le] at hle
    rw [abs_lt]
    constructor <;> linarith [hle.1, hle.2]
  have hg := gather_inv (T := realTests tol) (mf := mf) (n := pts.length) hu0 hn0
  set G := gather (realTests tol) mf nrm pts.length 0 ni (nrm.map Option.isNone) with hG
  have hlen : mf.length = plc.facets.length := by rw [hmf, List.length_map]
  have hunused : ∀ o < plc.facets.length, (nrm.map Option.isNone).getD o true = false := by
    intro o ho
    refine getD_of ?_ _
    rw [hnrm, List.map_map, List.getElem?_map, getD_lt ho []]
    rfl
  have hin : ∀ o < plc.facets.length, o ∈ G.old := by
    intro o ho
    obtain ⟨p, hp1, hp2⟩ := htouch _ (hmemf o ho)
    have e0 : plc.facets.headD [] = plc.facets.getD 0 [] := by rw [hfs]; rfl
    rw [e0, ← (hok 0).1] at hp1
    rw [← (hok o).1] at hp2
    obtain ⟨v, hv, rfl⟩ := List.mem_map.1 hp1
    obtain ⟨v', hv', e⟩ := List.mem_map.1 hp2
    have := hinj _ ((hok o).2 _ hv') _ ((hok 0).2 _ hv) e
    subst this
    rcases (hg.used_iff o).1 (gather_complete hv ((hok 0).2 _ hv) (by rw [hlen]; exact ho) hv' (hpar o ho)) with h | h
    · rw [hunused o ho] at h; cases h
    · exact h
  have hlt : ∀ o ∈ G.old, o < plc.facets.length := by
    intro o ho
    by_contra hc
    have := hg.fresh o ho
    rw [List.getD_eq_getElem?_getD, List.getElem?_eq_none (by rw [hnrm]; simp; omega)] at this
    cases this
  have hperm : G.old.Perm (List.range plc.facets.length) :=
    (List.perm_ext_iff_of_nodup hg.nodup List.nodup_range).2 fun o => ⟨fun h => List.mem_range.2 (hlt o h), fun h => hin o (List.mem_range.1 h)⟩
  -- the sides
  set P : Nat → V3 ℝ := fun v => pts.getD v 0 with hP
  have hnoloop : ∀ o < plc.facets.length, ∀ d ∈ dirSides (mf.getD o []), d.1 ≠ d.2 := by
    intro o ho d hd e
    refine hclosed.ends _ (List.mem_map_of_mem (hmemf o ho)) (P d.1, P d.2) ?_ (by dsimp only; rw [e])
    rw [← (hok o).1, dirSides_map]
    exact List.mem_map.2 ⟨d, hd, rfl⟩
  have hedges : ∀ o ∈ G.old, hashedEdges dbg (mf.getD o []) = .ok ((dirSides (mf.getD o [])).map hash) := by
    intro o ho
    unfold hashedEdges
    rw [dirSides_range (mf.getD o []) 0, List.map_map]
    refine Geom.mapM_ok _ fun j hj => ?_
    have hj := List.mem_range.1 hj
    have hj' : (j + 1) % (mf.getD o []).length < (mf.getD o []).length := Nat.mod_lt _ (by omega)
    rw [rd_eq_ok.2 (getD_lt hj 0), Res.bind_eq, Res.bind_ok, rd_eq_ok.2 (getD_lt hj' 0), Res.bind_eq, Res.bind_ok, hashEdge]
    have hd := hnoloop o (hlt o ho) ((mf.getD o []).getD j 0, (mf.getD o []).getD ((j + 1) % (mf.getD o []).length) 0) (by
      rw [dirSides_range (mf.getD o []) 0]
      exact List.mem_map.2 ⟨j, List.mem_range.2 hj, rfl⟩)
    rw [Res.bind_eq, Res.assert_true dbg (by simpa using hd), Res.bind_ok]
    rfl
  have honce : onceEdges ((G.old.map fun o => (dirSides (mf.getD o [])).map hash).flatten) = [] := by
    rw [List.eq_nil_iff_forall_not_mem]
    intro e hm
    rw [once_mem] at hm
    have e1 : (G.old.map fun o => (dirSides (mf.getD o [])).map hash).flatten = (sidesOf mf G.old).map hash := by
      rw [sidesOf, List.map_flatMap, List.flatMap_def]
    rw [e1] at hm
    obtain ⟨d, hd, rfl⟩ := List.mem_map.1 (List.count_pos_iff.1 (by rw [hm]; omega))
    obtain ⟨o, ho, hdo⟩ := List.mem_flatMap.1 hd
    rw [count_hash (hnoloop o (hlt o ho) d hdo)] at hm
    have e2 : (sidesOf mf G.old).Perm (sidesOf mf (List.range plc.facets.length)) := List.Perm.flatMap_right _ hperm
    rw [e2.count_eq, e2.count_eq] at hm
    have hj : joins ((List.range plc.facets.length).map fun o => mf.getD o []) d.1 d.2 = 1 := by
      rw [joins, List.flatMap_map]
      exact hm
    have hb1 := (hok o).2 _ (List.of_mem_zip hdo).1
    have hb2 := (hok o).2 _ (List.mem_rotate.1 (List.of_mem_zip hdo).2)
    have e3 : ((List.range plc.facets.length).map fun o => mf.getD o []).map (List.map P) = plc.facets.map (corners points) := by
      rw [List.map_map]
      refine List.ext_getElem (by simp) fun i h1 h2 => ?_
      have : i < plc.facets.length := by simpa using h2
      simp only [List.getElem_map, List.getElem_range, Function.comp]
      rw [(hok i).1, List.getElem_eq_getD (fallback := [])]
    rw [← joins_map hinj (F := P) (L := (List.range plc.facets.length).map fun o => mf.getD o []) (by
      intro l hl v hv
      obtain ⟨o, -, rfl⟩ := List.mem_map.1 hl
      exact (hok o).2 v hv) hb1 hb2, e3] at hj
    rcases hclosed.two (P d.1) (P d.2) with h | h <;> omega
  have hglue : glue (realTests tol) dbg points pts mf f0 G.old = if dbg then .abort else .ub := by
    unfold glue
    rw [Geom.mapM_ok G.old hedges, Res.bind_eq, Res.bind_ok, honce]
    cases dbg with
    | true => rw [Res.bind_eq, Res.assert_debug_false (by simp)]; rfl
    | false =>
      rw [Res.bind_eq, Res.assert_release, Res.bind_ok]
      have e : computeSortedFaceEdges false [] = .ub := by decide +kernel
      rw [e]
      rfl
  rw [hfs, glueLoop, hu0, hn0]
  simp only [Res.bind_eq]
  simp only [← hG, hglue]
  cases dbg <;> rfl
end Verif.Simplify3
