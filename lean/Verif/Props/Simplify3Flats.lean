import Verif.Props.Simplify3Ex
import Verif.Proofs.Simplify3Flats
/- C89: surfaces on which the 3D version of `simplifyPLCfacets` returns, and what it returns. -/
namespace Verif.Simplify3
open Verif Verif.Mesh Verif.Internal Verif.Geom Verif.Hash
open Verif.Simplify (Plc rdi number compact renumber keep rank maskOf compact_spec renumber_eq)

theorem uniqueLoop_congr {α : Type} {h h' : α → Res Points.Key} {check : Points.Key → Res Unit} : ∀ (ps : List α) (m : List (Points.Key × Nat)) (u : List α) (ix : List Nat), (∀ p ∈ ps, h p = h' p) →
    uniqueLoop h check ps m u ix = uniqueLoop h' check ps m u ix
  | [], _, _, _, _ => rfl
  | p :: ps, m, u, ix, he => by
    unfold uniqueLoop
    rw [he p (by simp)]
    congr 1
    funext k
    split
    · congr 1
      funext _
      exact uniqueLoop_congr ps _ _ _ fun q hq => he q (by simp [hq])
    · exact uniqueLoop_congr ps _ _ _ fun q hq => he q (by simp [hq])

theorem pack_total {V : Type} {pts : List V} {new : List (List Int)} (h : ∀ k ∈ new.flatten, 0 ≤ k ∧ k < pts.length) :
    ∃ r : Plc V, ∀ dbg, (do
      let mask ← useMask pts.length new
      let num := number mask 0
      let pts' ← compact dbg num.1 0 pts
      let fs ← new.mapM fun f : List Int => f.mapM (renumber dbg num.1)
      return ({ facets := fs, points := pts'.take num.2 } : Plc V)) = .ok r := by
  obtain ⟨bs, b1, b2, b3⟩ := useMask_ok h
  refine ⟨{ facets := new.map fun f => f.map fun k => ((rank bs k.toNat : Nat) : Int), points := keep pts bs }, fun dbg => ?_⟩
  obtain ⟨pts', c1, c2⟩ := compact_spec dbg bs 0 0 pts le_rfl (by omega)
  simp only [List.take_zero, List.nil_append, List.drop_zero] at c2
  simp only [Res.bind_eq, b3, Res.bind_ok, c1]
  have hm : new.mapM (fun f => f.mapM (renumber dbg (number (maskOf bs) 0).1)) = .ok (new.map fun f => f.map fun k => ((rank bs k.toNat : Nat) : Int)) := by
    refine Geom.mapM_ok (f := fun f : List Int => f.map fun k => ((rank bs k.toNat : Nat) : Int)) new fun f hf => ?_
    refine Geom.mapM_ok (f := fun k : Int => ((rank bs k.toNat : Nat) : Int)) f fun k hk => ?_
    have hk' : k ∈ new.flatten := List.mem_flatten.2 ⟨f, hf, hk⟩
    have e : ((k.toNat : Nat) : Int) = k := by have := (h k hk').1; omega
    have := renumber_eq dbg ((b2 k.toNat).2 (by rwa [e]))
    rwa [e] at this
  rw [hm, Res.bind_ok, Res.pure_eq, c2]

/-- C89: the 3D version of `simplifyPLCfacets` returns, the same in debug and release builds, on a closed surface of convex facets that are large and whose angles are sharp enough for the
tolerance, if it falls into four flat parts or more, such that in each part all the facets touch the first one, that touching facets of different parts face in different directions, and that
the outline of each part is convex. There is one facet for each part, in the order of the parts: its corners are those at which the outline turns, and it has the vector area of the
part. The volume inside is the same. The points are those in use, in their old order, each once. -/
theorem C89_flats (plat : Points.Key → Nat → Points.Key) {eps tol : ℝ} (he : 0 < eps) (ht : 0 < tol) {b : HBox3} (hb : nested3 b b) {plc : PLC} {points : List (V3 ℝ)}
    (hp : ∀ p ∈ points, inBox3 b p) (hsame : ∀ p ∈ points, ∀ q ∈ points, Hull3.hashOf plat eps tol b p = Hull3.hashOf plat eps tol b q → p = q)
    (hgood : Good3 tol plc.facets points) {groups : List (List Nat × List (V3 ℝ))} (hflat : Flats (plc.facets.map (corners points)) groups) :
    ∃ r : Plc (V3 ℝ), (∀ dbg, simplify3 (Points.wrapping plat) dbg eps tol b plc points = .ok r) ∧
      List.Forall₂ (fun G f => ∃ w, (w.IsRotated G.2 ∨ w.IsRotated G.2.reverse) ∧ Replaces (G.1.map fun i => corners points (plc.facets.getD i [])) w (corners r.points f) ∧
        ∀ u, areaAlong u (corners r.points f) = (G.1.map fun i => areaAlong u (corners points (plc.facets.getD i []))).sum) groups r.facets ∧
      volume6 (r.facets.map (corners r.points)) = volume6 (plc.facets.map (corners points)) ∧
      r.points.Sublist points ∧ r.points.Nodup ∧ (∀ f ∈ r.facets, ∀ k ∈ f, 0 ≤ k ∧ k < r.points.length) ∧ ∀ p ∈ r.points, ∃ f ∈ r.facets, p ∈ corners r.points f := by
  obtain ⟨pts, ix, u1, hF⟩ := unique_eq3 plat true he (fun _ => hb) hp hsame
  have hu : ∀ dbg, uniquePoints3 (Points.wrapping plat) dbg eps tol b points = .ok (pts, ix) := by
    intro dbg
    rw [← u1]
    refine uniqueLoop_congr _ _ _ _ fun p hpm => ?_
    rw [Hull3.hash3_ok plat dbg he (fun _ => hb) (hp p hpm), Hull3.hash3_ok plat true he (fun _ => hb) (hp p hpm)]
  have h1 : plc.facets.mapM (mapFacet pts.length ix) = .ok (plc.facets.map fun f => f.map fun k => ix.getD k.toNat 0) :=
    Geom.mapM_ok _ fun f hf => mapFacet_total hF (hgood.inside f hf)
  have h2 : ∀ dbg, plc.facets.mapM (facetNormal (realTests tol) dbg points) =
      .ok (plc.facets.map fun f => some ((corners points f).getD 0 0, (corners points f).getD 1 0, (corners points f).getD 2 0)) := by
    intro dbg
    refine Geom.mapM_ok (f := fun f => some ((corners points f).getD 0 0, (corners points f).getD 1 0, (corners points f).getD 2 0)) _ fun f hf => ?_
    refine facetNormal_proper ht hgood.resolved.toLarge (List.mem_map_of_mem hf) (hgood.proper f hf) (rdi_total (hgood.inside f hf)) ?_
    have := (hgood.proper f hf).three
    simpa [corners] using this
  have S := setting_of ht hF hgood.proper hgood.resolved hgood.sides h1 (h2 true)
  obtain ⟨new, hnew, hdone⟩ := S.loop_flat hgood.inside hgood.closed hflat (fs := plc.facets) (i := 0)
    (used := (plc.facets.map fun f => some ((corners points f).getD 0 0, (corners points f).getD 1 0, (corners points f).getD 2 0)).map Option.isNone) (pre := []) (suf := groups) (by simp) (by simp) (by
      intro o ho
      rw [getD_of (a := false) (by rw [List.getElem?_map, List.getElem?_map, getD_lt ho []]; rfl)]
      simp) (by simp)
  have hbound : ∀ k ∈ new.flatten, 0 ≤ k ∧ k < pts.length := by
    intro k hk
    obtain ⟨nf, hnf, hk⟩ := List.mem_flatten.1 hk
    obtain ⟨j, hj, rfl⟩ := List.getElem_of_mem hnf
    obtain ⟨i, ni, G', w, -, -, hg, -⟩ := (List.forall₂_iff_get.1 hdone).2 j (by rw [hdone.length_eq]; exact hj) hj
    simp only [List.get_eq_getElem] at hg
    have hd := hg.dir
    set kk := keptBy (fun a b c => (realTests tol).turn (pts.getD a 0) (pts.getD b 0) (pts.getD b 0) (pts.getD c 0)) w with hkk
    have : k ∈ kk.map Int.ofNat := by
      rw [hd] at hk
      split at hk
      · exact List.mem_reverse.1 hk
      · exact hk
    obtain ⟨v, hv, rfl⟩ := List.mem_map.1 this
    rw [hkk, keptBy] at hv
    obtain ⟨x, hx, he⟩ := List.mem_filterMap.1 hv
    split at he
    · cases he
      have := hg.bound _ (List.mem_rotate.1 (List.of_mem_zip (List.of_mem_zip hx).2).1)
      exact ⟨Int.natCast_nonneg _, Int.ofNat_lt.2 this⟩
    · cases he
  obtain ⟨r, hr⟩ := pack_total hbound
  have hrun : ∀ dbg, simplify3 (Points.wrapping plat) dbg eps tol b plc points = .ok r := by
    intro dbg
    rw [simplify3, Res.bind_eq, hu dbg, Res.bind_ok]
    unfold simplifyWith
    rw [Res.bind_eq, h1, Res.bind_ok, Res.bind_eq, h2 dbg, Res.bind_ok, Res.bind_eq, hnew dbg, Res.bind_ok, Res.bind_eq, Res.assert_true dbg (by rw [← hdone.length_eq]; exact hflat.four), Res.bind_ok]
    exact hr dbg
  obtain ⟨-, p2, p3, p4, -⟩ := pack_ok (0 : V3 ℝ) hbound (hr true)
  have hlen : r.facets.length = new.length := by simpa using congrArg List.length p4
  obtain ⟨-, -, q1, q2, q3, q4, -⟩ := C89_simplify3_partial plat he ht hb hp hsame hgood.proper hgood.resolved hgood.sides (hrun true)
  have hrep : List.Forall₂ (fun (G : List Nat × List (V3 ℝ)) f => ∃ w, (w.IsRotated G.2 ∨ w.IsRotated G.2.reverse) ∧
      Replaces (G.1.map fun i => corners points (plc.facets.getD i [])) w (corners r.points f)) groups r.facets := by
    rw [List.forall₂_iff_get]
    refine ⟨by rw [hdone.length_eq, hlen], fun j hj1 hj2 => ?_⟩
    have hj3 : j < new.length := by rw [← hlen]; exact hj2
    obtain ⟨i, ni, G', w, hperm, hG, hg, hrot⟩ := (List.forall₂_iff_get.1 hdone).2 j hj1 hj3
    have e : corners r.points (r.facets.get ⟨j, hj2⟩) = corners pts (new.get ⟨j, hj3⟩) := by
      have := congrArg (·[j]?) p4
      simp only [List.getElem?_map, List.getElem?_eq_getElem hj2, List.getElem?_eq_getElem hj3, Option.map_some, Option.some.injEq] at this
      exact this
    have hn : G'.Nodup := by
      rw [hperm.nodup_iff]
      exact (List.nodup_flatten.1 (hflat.parts.nodup_iff.2 List.nodup_range)).1 _ (List.mem_map_of_mem (List.get_mem _ _))
    refine ⟨_, hrot, ?_⟩
    rw [e]
    exact (S.replaces hn hG hg).perm (hperm.map _)
  have hwn : ∀ G ∈ groups, ∀ w : List (V3 ℝ), w.IsRotated G.2 ∨ w.IsRotated G.2.reverse → w.Nodup ∧ Proper (turns w) := by
    intro G hG w h
    obtain ⟨-, hnd, hconv⟩ := hflat.outline G hG
    refine ⟨?_, hconv w h⟩
    rcases h with h | h
    · exact h.nodup_iff.2 hnd
    · exact h.nodup_iff.2 (List.nodup_reverse.2 hnd)
  have hvol : volume6 (r.facets.map (corners r.points)) = volume6 (plc.facets.map (corners points)) := by
    obtain ⟨gs, e1, e2, e3⟩ : ∃ gs : List (List Nat × List (V3 ℝ)), gs.map Prod.fst = groups.map Prod.fst ∧
        List.Forall₂ (fun G f => Replaces (G.1.map fun i => corners points (plc.facets.getD i [])) G.2 (corners r.points f)) gs r.facets ∧ ∀ G ∈ gs, G.2.Nodup ∧ Proper (turns G.2) := by
      have : ∀ {groups : List (List Nat × List (V3 ℝ))} {fs : List (List Int)}, List.Forall₂ (fun (G : List Nat × List (V3 ℝ)) f => ∃ w, (w.IsRotated G.2 ∨ w.IsRotated G.2.reverse) ∧
          Replaces (G.1.map fun i => corners points (plc.facets.getD i [])) w (corners r.points f)) groups fs →
          (∀ G ∈ groups, ∀ w : List (V3 ℝ), w.IsRotated G.2 ∨ w.IsRotated G.2.reverse → w.Nodup ∧ Proper (turns w)) →
          ∃ gs : List (List Nat × List (V3 ℝ)), gs.map Prod.fst = groups.map Prod.fst ∧
            List.Forall₂ (fun G f => Replaces (G.1.map fun i => corners points (plc.facets.getD i [])) G.2 (corners r.points f)) gs fs ∧ ∀ G ∈ gs, G.2.Nodup ∧ Proper (turns G.2) := by
        intro groups fs h hw
        induction h with
        | nil => exact ⟨[], rfl, .nil, by simp⟩
        | @cons G f _ _ hx _ ih =>
          obtain ⟨w, h1, h2⟩ := hx
          obtain ⟨gs, e1, e2, e3⟩ := ih fun H hH => hw H (List.mem_cons_of_mem _ hH)
          refine ⟨(G.1, w) :: gs, by rw [List.map_cons, List.map_cons, e1], .cons h2 e2, ?_⟩
          intro H hH
          rcases List.mem_cons.1 hH with rfl | hH
          · exact hw G List.mem_cons_self w h1
          · exact e3 H hH
      exact this hrep hwn
    have hperm : (gs.map Prod.fst).flatten.Perm (List.range plc.facets.length) := by
      rw [e1]
      simpa using hflat.parts
    rw [volume_eq hperm e2 e3]
    congr 1
    refine List.ext_getElem (by simp) fun i h1 h2 => ?_
    have : i < plc.facets.length := by simpa using h2
    simp [this]
  refine ⟨r, hrun, ?_, hvol, q1, q2, q3, q4⟩
  rw [List.forall₂_iff_get] at hrep ⊢
  refine ⟨hrep.1, fun j hj1 hj2 => ?_⟩
  obtain ⟨w, hw, hR⟩ := hrep.2 j hj1 hj2
  obtain ⟨a, b⟩ := hwn _ (List.get_mem _ _) w hw
  refine ⟨w, hw, hR, fun u => ?_⟩
  rw [hR.area a b u, List.map_map]
  rfl

/-! ### A case -/

instance (m n : V3 ℚ) : Decidable (SameDir m n) := inferInstanceAs (Decidable (_ ∧ _))

/-- `Flats`, for a calculation. -/
def RatFlats (L : List (List (V3 ℚ))) (groups : List (List Nat × List (V3 ℚ))) : Prop :=
  4 ≤ groups.length ∧ (groups.map Prod.fst).flatten.Perm (List.range L.length) ∧
  (∀ G ∈ groups, G.1 ≠ [] ∧ ∀ o ∈ G.1, G.1.headD 0 ≤ o ∧ SameDir (firstNormal (L.getD (G.1.headD 0) [])) (firstNormal (L.getD o [])) ∧ ∃ p ∈ L.getD (G.1.headD 0) [], p ∈ L.getD o []) ∧
  (groups.Pairwise fun G H => G.1.headD 0 < H.1.headD 0) ∧
  (groups.Pairwise fun G H => ∀ i ∈ G.1, ∀ o ∈ H.1, (∃ p ∈ L.getD i [], p ∈ L.getD o []) → ¬ SameDir (firstNormal (L.getD i [])) (firstNormal (L.getD o []))) ∧
  ∀ G ∈ groups, (∀ s ∈ allSides (G.2 :: G.1.map fun i => L.getD i []), joins [G.2] s.1 s.2 = if joins (G.1.map fun i => L.getD i []) s.1 s.2 = 1 then 1 else 0) ∧ G.2.Nodup ∧
    ∀ n < G.2.length + 1, RatProper (turns (G.2.rotate n)) ∧ RatProper (turns (G.2.reverse.rotate n))
instance (L : List (List (V3 ℚ))) (groups : List (List Nat × List (V3 ℚ))) : Decidable (RatFlats L groups) := inferInstanceAs (Decidable (_ ∧ _))

theorem sameDir_real (m n : V3 ℚ) : SameDir (real3 m) (real3 n) ↔ SameDir m n := by
  unfold SameDir
  rw [real3_cross, real3_eq_zero, real3_dot]
  norm_cast

theorem turns_real (w : List (V3 ℚ)) : turns (w.map real3) = (turns w).map real3 := by
  rw [turns_eq, turns_eq]
  refine kept_map fun a b c => ?_
  rw [real3_sub, real3_sub, real3_cross]
  refine decide_eq_decide.2 ?_
  rw [Ne, Ne, real3_eq_zero]

theorem getD_realL (L : List (List (V3 ℚ))) (i : Nat) : (L.map (List.map real3)).getD i [] = (L.getD i []).map real3 := by
  rw [List.getD_eq_getElem?_getD, List.getElem?_map, List.getD_eq_getElem?_getD]
  cases L[i]? <;> rfl

theorem share_real (l m : List (V3 ℚ)) : (∃ p ∈ l.map real3, p ∈ m.map real3) ↔ ∃ p ∈ l, p ∈ m := by
  constructor
  · rintro ⟨p, h1, h2⟩
    obtain ⟨a, ha, rfl⟩ := List.mem_map.1 h1
    obtain ⟨b, hb, e⟩ := List.mem_map.1 h2
    rw [real3_inj e] at hb
    exact ⟨a, ha, hb⟩
  · rintro ⟨p, h1, h2⟩
    exact ⟨_, List.mem_map_of_mem h1, List.mem_map_of_mem h2⟩

theorem RatFlats.real {L : List (List (V3 ℚ))} {groups : List (List Nat × List (V3 ℚ))} (h : RatFlats L groups) : Flats (L.map (List.map real3)) (groups.map fun G => (G.1, G.2.map real3)) := by
  obtain ⟨h1, h2, h3, h4, h5, h6⟩ := h
  refine ⟨by simpa using h1, ?_, ?_, ?_, ?_, ?_⟩
  · rw [List.map_map, List.length_map]
    exact h2
  · intro G hG
    obtain ⟨G, hm, rfl⟩ := List.mem_map.1 hG
    obtain ⟨a, b⟩ := h3 G hm
    obtain ⟨i, l, e⟩ := List.exists_cons_of_ne_nil a
    refine ⟨i, by simp [e], fun o ho => ?_⟩
    have := b o ho
    rw [e] at this
    simp only [List.headD_cons] at this
    rw [getD_realL, getD_realL, firstNormal_real, firstNormal_real, sameDir_real, share_real]
    exact this
  · rw [List.pairwise_map]
    exact h4
  · rw [List.pairwise_map]
    refine h5.imp fun {G H} h i hi o ho => ?_
    rw [getD_realL, getD_realL, firstNormal_real, firstNormal_real, sameDir_real, share_real]
    exact h i hi o ho
  · intro G hG
    obtain ⟨G, hm, rfl⟩ := List.mem_map.1 hG
    obtain ⟨a, b, c⟩ := h6 G hm
    refine ⟨?_, b.map fun _ _ => real3_inj, ?_⟩
    · have e : (G.1.map fun i => (L.map (List.map real3)).getD i []) = (G.1.map fun i => L.getD i []).map (List.map real3) := by
        rw [List.map_map]
        exact List.map_congr_left fun i _ => getD_realL L i
      intro p q
      dsimp only
      rw [e]
      by_cases hj : joins ((G.2 :: G.1.map fun i => L.getD i []).map (List.map real3)) p q = 0
      · have : joins [G.2.map real3] p q = 0 ∧ joins ((G.1.map fun i => L.getD i []).map (List.map real3)) p q = 0 := by
          simp only [joins, List.map_cons, List.flatMap_cons, List.count_append, List.flatMap_nil, List.append_nil] at hj ⊢
          omega
        rw [this.1, this.2]
        rfl
      · obtain ⟨s, hs, rfl, rfl⟩ := joins_real hj
        have := a s hs
        rw [← joins_real_eq, ← joins_real_eq] at this
        exact this
    · intro w hw
      rcases hw with hw | hw
      · obtain ⟨n, hn, rfl⟩ := List.isRotated_iff_mod.1 hw.symm
        dsimp only at hn ⊢
        rw [List.length_map] at hn
        rw [← List.map_rotate, turns_real]
        exact (c n (by omega)).1.real
      · obtain ⟨n, hn, rfl⟩ := List.isRotated_iff_mod.1 hw.symm
        dsimp only at hn ⊢
        rw [List.length_reverse, List.length_map] at hn
        rw [← List.map_reverse, ← List.map_rotate, turns_real]
        exact (c n (by omega)).2.real

/-- The surface of a box as a hull gives it: each side is in two triangles. -/
def cutPts : List (Nat × Nat × Nat) := [(0, 0, 0), (32, 0, 0), (32, 32, 0), (0, 32, 0), (0, 0, 32), (32, 0, 32), (32, 32, 32), (0, 32, 32)]
def cutFacets : List (List Int) := [[0, 2, 1], [0, 3, 2], [4, 5, 6], [4, 6, 7], [0, 1, 5], [1, 2, 6], [2, 3, 7], [3, 0, 4], [0, 5, 4], [1, 6, 5], [2, 7, 6], [3, 4, 7]]
def cutGroups : List (List Nat × List Int) := [([0, 1], [0, 1, 2, 3]), ([2, 3], [4, 5, 6, 7]), ([4, 8], [0, 1, 5, 4]), ([5, 9], [1, 2, 6, 5]), ([6, 10], [2, 3, 7, 6]), ([7, 11], [3, 0, 4, 7])]

theorem cut_good : RatGood cutFacets cutPts := by decide +kernel
theorem cut_flats : RatFlats (cutFacets.map (corners (cutPts.map pt))) (cutGroups.map fun G => (G.1, corners (cutPts.map pt) G.2)) := by decide +kernel

/-- The hypotheses of `C89_flats` are met: of the twelve triangles there remain the six sides, with the same volume inside. -/
example : ∃ r : Plc (V3 ℝ), (∀ dbg, simplify3 (Points.wrapping ten) dbg (1 / 100) (1 / 64) box4 ⟨cutFacets, []⟩ (pts16 cutPts) = .ok r) ∧ r.facets.length = 6 ∧
    volume6 (r.facets.map (corners r.points)) = volume6 (cutFacets.map (corners (pts16 cutPts))) := by
  have hf := cut_flats.real
  rw [← cor16] at hf
  obtain ⟨r, h1, h2, h3, -⟩ := C89_flats ten (by norm_num) (by norm_num) nested4 cut_good.1.box cut_good.1.same (plc := ⟨cutFacets, []⟩) cut_good.good hf
  refine ⟨r, h1, ?_, h3⟩
  have := h2.length_eq
  simpa [cutGroups] using this.symm
end Verif.Simplify3
