import Verif.Proofs.Simplify3Volume
import Verif.Proofs.Simplify3Map
import Verif.Props.Hull3
import Verif.Proofs.SimplifyAll
/- C89: the 3D version of `simplifyPLCfacets`. -/
namespace Verif.Simplify3
open Verif Verif.Mesh Verif.Internal Verif.Geom Verif.Hash
open Verif.Simplify (Plc rdi number compact renumber)

theorem unique_eq3 (plat : Points.Key → Nat → Points.Key) (dbg : Bool) {eps tol : ℝ} (he : 0 < eps) {b : HBox3} (hb : dbg = true → nested3 b b) {points : List (V3 ℝ)} (hp : ∀ p ∈ points, inBox3 b p)
    (hsame : ∀ p ∈ points, ∀ q ∈ points, Hull3.hashOf plat eps tol b p = Hull3.hashOf plat eps tol b q → p = q) :
    ∃ uniq ix, uniquePoints3 (Points.wrapping plat) dbg eps tol b points = .ok (uniq, ix) ∧ FirstOf (· = ·) points uniq ix := by
  obtain ⟨u, ix, h1, h2⟩ := Hull3.unique3_ok plat dbg (tol := tol) he hb hp
  refine ⟨u, ix, h1, h2.congr ?_⟩
  intro p hpm q hqm
  refine ⟨hsame p hpm q hqm, ?_⟩
  rintro rfl
  rfl

theorem setting_of {tol : ℝ} (ht : 0 < tol) {points pts : List (V3 ℝ)} {ix : List Nat} {facets : List (List Int)} {mf : List (List Nat)} {nrm : List (Option (V3 ℝ × V3 ℝ × V3 ℝ))}
    (hF : FirstOf (· = ·) points pts ix) (hproper : ∀ f ∈ facets, Proper (corners points f)) (hres : Resolved3 tol (facets.map (corners points)))
    (hsides : ((facets.map (corners points)).flatMap dirSides).Nodup) {dbg : Bool} (h1 : facets.mapM (mapFacet pts.length ix) = .ok mf)
    (h2 : facets.mapM (facetNormal (realTests tol) dbg points) = .ok nrm) : Setting tol points pts facets mf nrm := by
  have hm := mapM_forall h1
  have hn := mapM_forall h2
  have hget : ∀ o, ((mf.getD o []).map (fun v => pts.getD v 0) = corners points (facets.getD o [])) ∧ ∀ v ∈ mf.getD o [], v < pts.length := by
    intro o
    by_cases ho : o < facets.length
    · have ho' : o < mf.length := by rw [← hm.length_eq]; exact ho
      have := List.forall₂_iff_get.1 hm |>.2 o ho ho'
      simp only [List.get_eq_getElem] at this
      have k := mapFacet_ok hF this
      rw [← List.getElem_eq_getD (h := ho), ← List.getElem_eq_getD (h := ho')]
      exact ⟨k.1, k.2.1⟩
    · rw [List.getD_eq_getElem?_getD, List.getD_eq_getElem?_getD, List.getElem?_eq_none (by rw [← hm.length_eq]; omega), List.getElem?_eq_none (by omega)]
      simp [corners]
  refine ⟨ht, hF.distinct.imp fun h => h, hm.length_eq.symm, fun o => (hget o).1, fun o => (hget o).2, ?_, hproper, hres, hsides⟩
  refine forall₂_map hn ?_
  intro f no hf h
  obtain ⟨m, hfm⟩ : ∃ m, mapFacet pts.length ix f = .ok m := by
    obtain ⟨i, hi, rfl⟩ := List.getElem_of_mem hf
    have := List.forall₂_iff_get.1 hm |>.2 i hi (by rw [← hm.length_eq]; exact hi)
    exact ⟨_, this⟩
  obtain ⟨-, -, k3, -⟩ := mapFacet_ok hF hfm
  have h3 := (hproper f hf).three
  rw [facetNormal_proper ht hres.toLarge (List.mem_map_of_mem hf) (hproper f hf) k3 (by simpa [corners] using h3)] at h
  cases h
  rfl

/-- C89: what the 3D version of `simplifyPLCfacets` has done when a debug build returns, for convex facets that are large and whose angles are sharp enough for the tolerance. The facets of the PLC fall
into groups. Each group lies in one plane and faces in one direction, and there is one new facet for it: its corners are those at which the outline of the group turns. It has the vector area of
the group, with the sign if the outline is convex; if all of them are, the volume inside is the same. Whatever touches the first facet of a group and faces in the same direction belongs to the group or to one before it. The points are those in use, in their
old order, each once. Missing: the call may abort, and a facet may be turned over if the outline is not convex; the holes are lost; facets in one plane may stay apart (see the theorems below). -/
theorem C89_simplify3_partial (plat : Points.Key → Nat → Points.Key) {eps tol : ℝ} (he : 0 < eps) (ht : 0 < tol) {b : HBox3} (hb : nested3 b b) {plc : PLC} {points : List (V3 ℝ)}
    (hp : ∀ p ∈ points, inBox3 b p) (hsame : ∀ p ∈ points, ∀ q ∈ points, Hull3.hashOf plat eps tol b p = Hull3.hashOf plat eps tol b q → p = q)
    (hproper : ∀ f ∈ plc.facets, Proper (corners points f)) (hres : Resolved3 tol (plc.facets.map (corners points))) (hsides : ((plc.facets.map (corners points)).flatMap dirSides).Nodup)
    {r : Plc (V3 ℝ)} (h : simplify3 (Points.wrapping plat) true eps tol b plc points = .ok r) :
    4 ≤ r.facets.length ∧ r.holes = [] ∧ r.points.Sublist points ∧ r.points.Nodup ∧ (∀ f ∈ r.facets, ∀ k ∈ f, 0 ≤ k ∧ k < r.points.length) ∧ (∀ p ∈ r.points, ∃ f ∈ r.facets, p ∈ corners r.points f) ∧
      ∃ groups : List (List Nat × List (V3 ℝ)), (groups.map Prod.fst).flatten.Perm (List.range plc.facets.length) ∧
        List.Forall₂ (fun G f => Replaces (G.1.map fun i => corners points (plc.facets.getD i [])) G.2 (corners r.points f)) groups r.facets ∧
        ((∀ G ∈ groups, G.2.Nodup ∧ Proper (turns G.2)) → volume6 (r.facets.map (corners r.points)) = volume6 (plc.facets.map (corners points))) ∧
        ∀ k G, groups[k]? = some G → ∀ i, G.1.head? = some i → ∀ o < plc.facets.length, (∃ p ∈ corners points (plc.facets.getD i []), p ∈ corners points (plc.facets.getD o [])) →
          SameDir (firstNormal (corners points (plc.facets.getD i []))) (firstNormal (corners points (plc.facets.getD o []))) → o ∈ ((groups.take (k + 1)).map Prod.fst).flatten := by
  obtain ⟨pts, ix, u1, hF⟩ := unique_eq3 plat true he (fun _ => hb) hp hsame
  rw [simplify3, Res.bind_eq, u1, Res.bind_ok] at h
  unfold simplifyWith at h
  rw [Res.bind_eq] at h
  obtain ⟨mf, h1, h⟩ := Res.bind_eq_ok.1 h
  rw [Res.bind_eq] at h
  obtain ⟨nrm, h2, h⟩ := Res.bind_eq_ok.1 h
  rw [Res.bind_eq] at h
  obtain ⟨new, h3, h⟩ := Res.bind_eq_ok.1 h
  rw [Res.bind_eq] at h
  obtain ⟨_, h4, h⟩ := Res.bind_eq_ok.1 h
  have h4' := Res.assert_eq_ok.1 h4 rfl
  have S := setting_of ht hF hproper hres hsides h1 h2
  obtain ⟨groups, g1, g2, g3, g4, g5⟩ := glueLoop_ok (0 : V3 ℝ) (facets := plc.facets) (i := 0) (by simp) h3
  have hused : ∀ o < plc.facets.length, (nrm.map Option.isNone).getD o true = false ∧ (nrm.getD o none).isSome := by
    intro o ho
    have e : nrm[o]? = some (some ((corners points (plc.facets.getD o [])).getD 0 0, (corners points (plc.facets.getD o [])).getD 1 0, (corners points (plc.facets.getD o [])).getD 2 0)) := by
      rw [S.normals, List.getElem?_map, getD_lt ho []]
      rfl
    refine ⟨getD_of (by rw [List.getElem?_map, e]; rfl) _, by rw [getD_of e]; rfl⟩
  have hbound : ∀ k ∈ new.flatten, 0 ≤ k ∧ k < pts.length := by
    intro k hk
    obtain ⟨nf, hnf, hk⟩ := List.mem_flatten.1 hk
    obtain ⟨j, hj, rfl⟩ := List.getElem_of_mem hnf
    have hj' : j < groups.length := by rw [g1.length_eq]; exact hj
    obtain ⟨i, ni, w, hG, hg⟩ := (List.forall₂_iff_get.1 g1).2 j hj' hj
    simp only [List.get_eq_getElem] at hg
    have hd := hg.dir
    have hmem : ∃ v ∈ w, k = Int.ofNat v := by
      set kk := keptBy (fun a b c => (realTests tol).turn (pts.getD a 0) (pts.getD b 0) (pts.getD b 0) (pts.getD c 0)) w with hkk
      have : k ∈ kk.map Int.ofNat := by
        rw [hd] at hk
        split at hk
        · exact List.mem_reverse.1 hk
        · exact hk
      obtain ⟨v, hv, rfl⟩ := List.mem_map.1 this
      refine ⟨v, ?_, rfl⟩
      rw [hkk, keptBy] at hv
      obtain ⟨x, hx, he⟩ := List.mem_filterMap.1 hv
      split at he
      · cases he
        exact List.mem_rotate.1 (List.of_mem_zip (List.of_mem_zip hx).2).1
      · cases he
    obtain ⟨v, hv, rfl⟩ := hmem
    exact ⟨Int.natCast_nonneg v, Int.ofNat_lt.2 (hg.bound v hv)⟩
  obtain ⟨p1, p2, p3, p4, p5⟩ := pack_ok (0 : V3 ℝ) hbound h
  have hcz : ∀ (P : List (V3 ℝ)) (f : List Int), cornersZ 0 P f = corners P f := fun _ _ => rfl
  have hlen : r.facets.length = new.length := by simpa using congrArg List.length p4
  -- the outlines
  have hall : ∀ {groups : List (List Nat)} {new : List (List Int)},
      List.Forall₂ (fun G nf => ∃ i ni w, GroupOf (realTests tol) mf nrm i ni G ∧ Glued (realTests tol) 0 points pts mf (plc.facets.getD i []) G w nf) groups new → (∀ G ∈ groups, G.Nodup) →
      ∃ gs : List (List Nat × List (V3 ℝ)), gs.map Prod.fst = groups ∧
        List.Forall₂ (fun G nf => Replaces (G.1.map fun i => corners points (plc.facets.getD i [])) G.2 (corners pts nf)) gs new := by
    intro groups new g hnd
    induction g with
    | nil => exact ⟨[], rfl, .nil⟩
    | cons hx _ ih =>
      obtain ⟨i, ni, w, hG, hg⟩ := hx
      obtain ⟨gs, e1, e2⟩ := ih fun G hG => hnd G (List.mem_cons_of_mem _ hG)
      exact ⟨(_, w.map fun v => pts.getD v 0) :: gs, by rw [List.map_cons, e1], .cons (S.replaces (hnd _ List.mem_cons_self) hG hg) e2⟩
  obtain ⟨gs, hgs, hall⟩ := hall g1 fun G hG => (List.nodup_flatten.1 g2).1 G hG
  have hperm : (gs.map Prod.fst).flatten.Perm (List.range plc.facets.length) := by
    rw [hgs]
    refine (List.perm_ext_iff_of_nodup g2 List.nodup_range).2 fun o => ?_
    rw [List.mem_range]
    constructor
    · intro ho
      obtain ⟨x, hx⟩ := Option.isSome_iff_exists.1 (g3 o ho).2
      exact (S.normal_some hx).1
    · intro ho
      exact g4 o (by omega) ho (hused o ho).1 (hused o ho).2
  have hrep : List.Forall₂ (fun (G : List Nat × List (V3 ℝ)) f => Replaces (G.1.map fun i => corners points (plc.facets.getD i [])) G.2 (corners r.points f)) gs r.facets := by
    rw [List.forall₂_iff_get]
    refine ⟨by rw [hall.length_eq, hlen], fun j hj1 hj2 => ?_⟩
    have hj3 : j < new.length := by rw [← hlen]; exact hj2
    have := (List.forall₂_iff_get.1 hall).2 j hj1 hj3
    have e : corners r.points (r.facets.get ⟨j, hj2⟩) = corners pts (new.get ⟨j, hj3⟩) := by
      have := congrArg (·[j]?) p4
      simp only [List.getElem?_map, List.getElem?_eq_getElem hj2, List.getElem?_eq_getElem hj3, Option.map_some, Option.some.injEq, hcz] at this
      exact this
    rw [e]
    exact this
  refine ⟨by rw [hlen]; exact h4', p1, ?_, ?_, p3, ?_, gs, hperm, hrep, ?_, ?_⟩
  · exact p2.trans (Simplify.firstOf_sublist hF)
  · exact p2.nodup S.nodup
  · intro p hpm
    obtain ⟨f, hf, hm⟩ := p5 p hpm
    have : cornersZ 0 pts f ∈ r.facets.map (cornersZ 0 r.points) := by rw [p4]; exact List.mem_map_of_mem hf
    obtain ⟨f', hf', e⟩ := List.mem_map.1 this
    exact ⟨f', hf', by rw [← hcz, e]; exact hm⟩
  · intro hok
    rw [volume_eq hperm hrep hok]
    congr 1
    refine List.ext_getElem (by simp) fun i h1 h2 => ?_
    have : i < plc.facets.length := by simpa using h2
    simp [this]
  · intro k G hk i hi o ho hpt hdir
    obtain ⟨p, hp1, hp2⟩ := hpt
    rw [← S.same] at hp1 hp2
    obtain ⟨v, hv, rfl⟩ := List.mem_map.1 hp1
    obtain ⟨v', hv', e⟩ := List.mem_map.1 hp2
    have := S.inj _ (S.bound _ _ hv') _ (S.bound _ _ hv) e
    subst this
    have hG : groups[k]? = some G.1 := by rw [← hgs, List.getElem?_map, hk]; rfl
    have hiG : i ∈ groups.flatten := List.mem_flatten.2 ⟨G.1, List.mem_of_getElem? hG, List.mem_of_mem_head? (by rw [hi]; rfl)⟩
    obtain ⟨ni, hni⟩ := Option.isSome_iff_exists.1 (g3 i hiG).2
    rcases g5 k G.1 hG i ni hi hni v' hv (S.bound _ _ hv) o (by rw [S.len]; exact ho) hv' ((S.par_iff' hni ho).2 hdir) with hx | hx
    · rw [(hused o ho).1] at hx; cases hx
    · rw [List.map_take, hgs]; exact hx
end Verif.Simplify3
