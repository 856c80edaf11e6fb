import Verif.Proofs.Simplify3Main
/- The new facets of the 3D version of `simplifyPLCfacets`. -/
namespace Verif.Simplify3
open Verif Verif.Mesh Verif.Internal Verif.Geom Verif.Hash

theorem dot_comm3 (a b : V3 ℝ) : dot3 a b = dot3 b a := by simp only [dot3]; ring

theorem SameDir.trans {n a b : V3 ℝ} (ha : SameDir n a) (hb : SameDir n b) : SameDir a b := by
  refine ⟨cross_trans ha.ne (cross_comm_zero ha.1) (cross_comm_zero hb.1), ?_⟩
  rw [same_direction ha.ne ha.1 b]
  exact mul_pos (div_pos ha.2 (dot_pos ha.ne)) hb.2

theorem SameDir.rfl' {n : V3 ℝ} (h : n ≠ 0) : SameDir n n := ⟨cross_zero_iff.2 ⟨by ring, by ring, by ring⟩, dot_pos h⟩

/-- Parallel vectors see the same planes. -/
theorem SameDir.level {n m p q : V3 ℝ} (h : SameDir n m) (hq : dot3 n p = dot3 n q) : dot3 m p = dot3 m q := by
  rw [same_direction h.ne h.1 p, same_direction h.ne h.1 q, hq]

theorem areaAlong_map {F : Nat → V3 ℝ} (u : V3 ℝ) (l : List Nat) : areaAlong u (l.map F) = ((dirSides l).map fun d => dot3 u (cross3 (F d.1) (F d.2))).sum := by
  rw [areaAlong, dirSides_map, List.map_map]
  rfl

/-- What the loop knows about the facets. -/
structure Setting (tol : ℝ) (points pts : List (V3 ℝ)) (facets : List (List Int)) (mf : List (List Nat)) (nrm : List (Option (V3 ℝ × V3 ℝ × V3 ℝ))) : Prop where
  tol_pos : 0 < tol
  nodup : pts.Nodup
  len : mf.length = facets.length
  same : ∀ o, (mf.getD o []).map (fun v => pts.getD v 0) = corners points (facets.getD o [])
  bound : ∀ o, ∀ v ∈ mf.getD o [], v < pts.length
  normals : nrm = facets.map fun f => some ((corners points f).getD 0 0, (corners points f).getD 1 0, (corners points f).getD 2 0)
  proper : ∀ f ∈ facets, Proper (corners points f)
  resolved : Resolved3 tol (facets.map (corners points))
  sides : ((facets.map (corners points)).flatMap dirSides).Nodup

namespace Setting
variable {tol : ℝ} {points pts : List (V3 ℝ)} {facets : List (List Int)} {mf : List (List Nat)} {nrm : List (Option (V3 ℝ × V3 ℝ × V3 ℝ))}

theorem inj (S : Setting tol points pts facets mf nrm) : ∀ a < pts.length, ∀ b < pts.length, pts.getD a 0 = pts.getD b 0 → a = b := by
  intro a ha b hb h
  rw [← List.getElem_eq_getD (h := ha), ← List.getElem_eq_getD (h := hb)] at h
  exact (S.nodup.getElem_inj_iff).1 h

theorem normal_some (S : Setting tol points pts facets mf nrm) {o : Nat} {no : V3 ℝ × V3 ℝ × V3 ℝ} (h : nrm.getD o none = some no) :
    o < facets.length ∧ normal no = firstNormal (corners points (facets.getD o [])) := by
  rw [S.normals] at h
  have hlt : o < facets.length := by
    by_contra hc
    rw [List.getD_eq_getElem?_getD, List.getElem?_eq_none (by simpa using hc)] at h
    cases h
  refine ⟨hlt, ?_⟩
  have e : (facets.map fun f => some ((corners points f).getD 0 0, (corners points f).getD 1 0, (corners points f).getD 2 0))[o]? =
      some (some ((corners points (facets.getD o [])).getD 0 0, (corners points (facets.getD o [])).getD 1 0, (corners points (facets.getD o [])).getD 2 0)) := by
    rw [List.getElem?_map, getD_lt hlt []]
    rfl
  rw [getD_of e] at h
  cases h
  rfl

theorem mem {o : Nat} (h : o < facets.length) : facets.getD o [] ∈ facets := by
  rw [← List.getElem_eq_getD (h := h)]
  exact List.getElem_mem h

theorem par_iff' (S : Setting tol points pts facets mf nrm) {i o : Nat} {ni : V3 ℝ × V3 ℝ × V3 ℝ} (hi : nrm.getD i none = some ni) (ho : o < facets.length) :
    ParTo (realTests tol) nrm ni o ↔ SameDir (firstNormal (corners points (facets.getD i []))) (firstNormal (corners points (facets.getD o []))) := by
  obtain ⟨hil, en⟩ := S.normal_some hi
  have hpi := S.proper _ (mem hil)
  have hpo := S.proper _ (mem ho)
  have hm := par_iff S.tol_pos hpi.bent hpo.bent (S.resolved.tilted _ (List.mem_map_of_mem (mem hil)) _ (List.mem_map_of_mem (mem ho)))
  have hs : ∃ no, nrm.getD o none = some no := by
    rw [S.normals]
    refine ⟨((corners points (facets.getD o [])).getD 0 0, (corners points (facets.getD o [])).getD 1 0, (corners points (facets.getD o [])).getD 2 0), getD_of ?_ none⟩
    rw [List.getElem?_map, getD_lt ho []]
    rfl
  obtain ⟨no, hno⟩ := hs
  obtain ⟨-, eo⟩ := S.normal_some hno
  rw [← hm, ← en, ← eo]
  constructor
  · rintro ⟨no', h1, h2⟩
    rw [hno] at h1
    cases h1
    simpa [realTests] using h2
  · intro h
    exact ⟨no, hno, by simpa [realTests] using h⟩

/-- A group lies in one plane. -/
theorem plane (S : Setting tol points pts facets mf nrm) {i : Nat} {ni : V3 ℝ × V3 ℝ × V3 ℝ} {G : List Nat} (hG : GroupOf (realTests tol) mf nrm i ni G) : ∀ o ∈ G, o < facets.length ∧
    SameDir (firstNormal (corners points (facets.getD i []))) (firstNormal (corners points (facets.getD o []))) ∧
    ∀ p ∈ corners points (facets.getD o []), dot3 (firstNormal (corners points (facets.getD i []))) p =
      dot3 (firstNormal (corners points (facets.getD i []))) ((corners points (facets.getD i [])).headD 0) := by
  obtain ⟨hil, -⟩ := S.normal_some hG.normal
  have hpi := S.proper _ (mem hil)
  refine hG.chain _ ⟨hil, .rfl' hpi.bent, hpi.flat⟩ ?_
  rintro o o' v ⟨h1, h2, h3⟩ hv hv' hpar
  obtain ⟨no, hno, -⟩ := id hpar
  have ho' := (S.normal_some hno).1
  have hd := (S.par_iff' hG.normal ho').1 hpar
  refine ⟨ho', hd, fun p hp => ?_⟩
  have m1 : pts.getD v 0 ∈ corners points (facets.getD o []) := by
    rw [← S.same]; exact List.mem_map_of_mem hv
  have m2 : pts.getD v 0 ∈ corners points (facets.getD o' []) := by
    rw [← S.same]; exact List.mem_map_of_mem hv'
  have hpo := S.proper _ (mem ho')
  rw [← h3 _ m1]
  exact hd.symm.level ((hpo.flat p hp).trans (hpo.flat _ m2).symm)

theorem joined (S : Setting tol points pts facets mf nrm) {G w : List Nat} (hG : ∀ o ∈ G, o < facets.length) 
    (hrim : ((dirSides w).map hash).Perm (onceEdges ((sidesOf mf G).map hash))) {d : Nat × Nat} (hd : d ∈ dirSides w) :
    joins (facets.map (corners points)) (pts.getD d.1 0) (pts.getD d.2 0) ≠ 0 := by
  have h1 : hash d ∈ onceEdges ((sidesOf mf G).map hash) := hrim.mem_iff.1 (List.mem_map_of_mem hd)
  rw [once_mem] at h1
  obtain ⟨e, he, h⟩ := List.mem_map.1 (List.count_pos_iff.1 (by omega : 0 < ((sidesOf mf G).map hash).count (hash d)))
  obtain ⟨o, ho, he⟩ := List.mem_flatMap.1 he
  have hm : (pts.getD e.1 0, pts.getD e.2 0) ∈ (facets.map (corners points)).flatMap dirSides := by
    refine List.mem_flatMap.2 ⟨corners points (facets.getD o []), List.mem_map_of_mem (mem (hG o ho)), ?_⟩
    rw [← S.same, dirSides_map]
    exact List.mem_map.2 ⟨e, he, rfl⟩
  have := List.count_pos_iff.2 hm
  unfold joins
  rcases hash_eq.1 h with rfl | rfl
  · omega
  · simp only [Prod.fst_swap, Prod.snd_swap] at this; omega

theorem sides_nodup (S : Setting tol points pts facets mf nrm) {G : List Nat} (hn : G.Nodup) (hG : ∀ o ∈ G, o < facets.length) : (sidesOf mf G).Nodup := by
  refine List.Nodup.of_map (fun d : Nat × Nat => (pts.getD d.1 0, pts.getD d.2 0)) ?_
  have e : (sidesOf mf G).map (fun d : Nat × Nat => (pts.getD d.1 0, pts.getD d.2 0)) = G.flatMap fun o => dirSides (corners points (facets.getD o [])) := by
    rw [sidesOf, List.map_flatMap]
    congr 1
    funext o
    rw [← S.same, dirSides_map]
  have e2 : (facets.map (corners points)).flatMap dirSides = (List.range facets.length).flatMap fun o => dirSides (corners points (facets.getD o [])) := by
    have : facets = (List.range facets.length).map fun o => facets.getD o [] := by
      refine List.ext_getElem (by simp) fun i h1 h2 => ?_
      simp [h1]
    conv_lhs => rw [this, List.map_map, List.flatMap_map]
    rfl
  have h := S.sides
  rw [e2, List.nodup_flatMap] at h
  rw [e, List.nodup_flatMap]
  refine ⟨fun o ho => h.1 o (List.mem_range.2 (hG o ho)), ?_⟩
  have hp : ∀ a < facets.length, ∀ b < facets.length, a ≠ b →
      List.Disjoint (dirSides (corners points (facets.getD a []))) (dirSides (corners points (facets.getD b []))) := by
    have h2 := List.pairwise_iff_getElem.1 h.2
    intro a ha b hb hab
    rcases Nat.lt_or_gt_of_ne hab with hl | hl
    · have := h2 a b (by simpa using ha) (by simpa using hb) hl
      simpa [Function.onFun] using this
    · have := h2 b a (by simpa using hb) (by simpa using ha) hl
      simp only [List.getElem_range, Function.onFun] at this
      exact this.symm
  refine List.Pairwise.imp_of_mem ?_ hn
  intro a b ha hb hab
  exact hp a (hG a ha) b (hG b hb) hab

theorem replaces (S : Setting tol points pts facets mf nrm) {i : Nat} {ni : V3 ℝ × V3 ℝ × V3 ℝ} {G w : List Nat} {nf : List Int} (hn : G.Nodup) (hG : GroupOf (realTests tol) mf nrm i ni G)
    (hg : Glued (realTests tol) 0 points pts mf (facets.getD i []) G w nf) :
    Replaces (G.map fun o => corners points (facets.getD o [])) (w.map fun v => pts.getD v 0) (corners pts nf) := by
  have hpl := S.plane hG
  have hlt : ∀ o ∈ G, o < facets.length := fun o ho => (hpl o ho).1
  have hiG : i ∈ G := List.mem_of_mem_head? (by rw [hG.head]; rfl)
  have hil := hlt i hiG
  have hpi := S.proper _ (mem hil)
  set P : Nat → V3 ℝ := fun v => pts.getD v 0 with hP
  set C : Nat → List (V3 ℝ) := fun o => corners points (facets.getD o []) with hC
  have hCm : (G.map C) = (G.map fun o => mf.getD o []).map (List.map P) := by
    rw [List.map_map]
    exact List.map_congr_left fun o _ => (S.same o).symm
  -- the corners of the outline
  have hturn : ∀ x ∈ triples w, (realTests tol).turn (P x.1) (P x.2.1) (P x.2.1) (P x.2.2) = decide (cross3 (P x.2.1 - P x.1) (P x.2.2 - P x.2.1) ≠ 0) := by
    intro x hx
    obtain ⟨h1, h2⟩ := triples_sides hx
    have := turn_iff S.tol_pos (S.resolved.turned _ _ _ (S.joined hlt hg.rim h1) (S.joined hlt hg.rim h2))
    simp only [realTests]
    exact decide_eq_decide.2 this
  have hk : turns (w.map P) = (keptBy (fun a b c => (realTests tol).turn (P a) (P b) (P b) (P c)) w).map P := by
    rw [turns_eq]
    exact keptBy_congr hturn
  set k := keptBy (fun a b c => (realTests tol).turn (P a) (P b) (P b) (P c)) w with hkd
  have hk3 : 3 ≤ k.length := hg.kept
  have hofn : corners pts (k.map Int.ofNat) = turns (w.map P) := by
    rw [hk, corners, List.map_map]
    rfl
  have hfirst : ∀ j < k.length, P (k.getD j 0) = (turns (w.map P)).getD j 0 := by
    intro j hj
    rw [hk]
    symm
    refine getD_of ?_ _
    rw [List.getElem?_map, getD_lt hj 0]
    rfl
  have hold : ∀ j < 3, points.getD ((facets.getD i []).getD j 0).toNat 0 = (C i).getD j 0 := by
    intro j hj
    have hj' : j < (facets.getD i []).length := by
      have := hpi.three
      simp only [corners, List.length_map] at this
      omega
    symm
    refine getD_of ?_ _
    simp only [hC, corners]
    rw [List.getElem?_map, getD_lt hj' 0]
    rfl
  have hdir : corners pts nf = if dot3 (firstNormal (C i)) (firstNormal (turns (w.map P))) < 0 then (turns (w.map P)).reverse else turns (w.map P) := by
    have hd := hg.dir
    change nf = (if (realTests tol).neg _ _ _ (P (k.getD 0 0)) (P (k.getD 1 0)) (P (k.getD 2 0)) then (k.map Int.ofNat).reverse else k.map Int.ofNat) at hd
    rw [hold 0 (by omega), hold 1 (by omega), hold 2 (by omega), hfirst 0 (by omega), hfirst 1 (by omega), hfirst 2 (by omega)] at hd
    simp only [realTests, decide_eq_true_eq] at hd
    change nf = (if dot3 (firstNormal (C i)) (firstNormal (turns (w.map P))) < 0 then (k.map Int.ofNat).reverse else k.map Int.ofNat) at hd
    rw [hd]
    split
    · rw [← hofn, corners, corners, List.map_reverse]
    · exact hofn
  -- areas
  have hne : ∀ x ∈ dirSides (w.map P), x.1 ≠ x.2 := by
    rw [dirSides_map]
    intro x hx
    obtain ⟨d, hd, rfl⟩ := List.mem_map.1 hx
    intro e
    have hm := List.of_mem_zip hd
    exact rim_ne hg.noloop hg.rim hd (S.inj _ (hg.bound _ hm.1) _ (hg.bound _ (List.mem_rotate.1 hm.2)) e)
  have harea : ∀ u, areaAlong u (turns (w.map P)) = areaAlong u (w.map P) := by
    intro u
    rw [turns_eq]
    refine keptBy_area u (fun x _ h => ?_) hne ?_ (by rw [List.length_map]; have := hg.three; omega)
    · simpa using h
    · rw [← turns_eq, hk]
      intro e
      rw [List.map_eq_nil_iff] at e
      rw [e] at hk3
      simp at hk3
  have hsum : (w.map P).Nodup → (∀ u, areaAlong u (w.map P) = ((G.map C).map (areaAlong u)).sum) ∨ ∀ u, areaAlong u (w.map P) = - ((G.map C).map (areaAlong u)).sum := by
    intro hw
    have hL := S.sides_nodup hn hlt
    have hold : ∀ u, ((G.map C).map (areaAlong u)).sum = (G.map fun o => ((dirSides (mf.getD o [])).map fun d => dot3 u (cross3 (P d.1) (P d.2))).sum).sum := by
      intro u
      rw [hCm, List.map_map, List.map_map]
      congr 1
      refine List.map_congr_left fun o _ => ?_
      exact areaAlong_map u _
    have hanti : ∀ u : V3 ℝ, ∀ d : Nat × Nat, dot3 u (cross3 (P d.swap.1) (P d.swap.2)) = - dot3 u (cross3 (P d.1) (P d.2)) := by
      intro u d
      simp only [Prod.fst_swap, Prod.snd_swap, dot3, cross3]
      ring
    rcases rim_sum (M := ℝ) (hw.of_map _) hg.three hL hg.noloop hg.rim with h | h
    · left
      intro u
      rw [areaAlong_map, h _ (hanti u), hold]
    · right
      intro u
      rw [areaAlong_map, h _ (hanti u), hold]
  have hsigned : (w.map P).Nodup → (∀ u, areaAlong u (corners pts nf) = ((G.map C).map (areaAlong u)).sum) ∨ ∀ u, areaAlong u (corners pts nf) = - ((G.map C).map (areaAlong u)).sum := by
    intro hw
    rw [hdir]
    split
    · simp only [areaAlong_reverse, harea]
      rcases hsum hw with h | h
      · right; intro u; rw [h]
      · left; intro u; rw [h, neg_neg]
    · simp only [harea]
      exact hsum hw
  have hcor : corners pts nf = turns (w.map P) ∨ corners pts nf = (turns (w.map P)).reverse := by
    rw [hdir]
    split
    · exact .inr rfl
    · exact .inl rfl
  refine ⟨?_, ?_, ?_, ?_, hcor, hsigned, ?_⟩
  · intro e
    rw [List.map_eq_nil_iff] at e
    rw [e] at hiG
    simp at hiG
  · intro l hl l' hl'
    obtain ⟨o, ho, rfl⟩ := List.mem_map.1 hl
    obtain ⟨o', ho', rfl⟩ := List.mem_map.1 hl'
    obtain ⟨-, d1, f1⟩ := hpl o ho
    obtain ⟨-, d2, f2⟩ := hpl o' ho'
    refine ⟨d1.trans d2, fun p hp => ?_⟩
    refine d2.level ?_
    have hh : (C o').headD 0 ∈ C o' := by
      have h3 := (S.proper _ (mem (hlt o' ho'))).three
      rcases hx : C o' with _ | ⟨a, l⟩
      · simp only [hC] at hx
        rw [hx] at h3
        simp at h3
      · simp
    rw [f1 p hp, f2 _ hh]
  · rw [hCm]
    refine outline_map S.inj ?_ hg.bound (outline_of hg)
    intro l hl v hv
    obtain ⟨o, _, rfl⟩ := List.mem_map.1 hl
    exact S.bound o v hv
  · have : (turns (w.map P)).length = k.length := by rw [hk, List.length_map]
    rcases hcor with h | h
    · rw [h, this]; exact hk3
    · rw [h, List.length_reverse, this]; exact hk3
  · intro hw hpr u
    -- all the corners are in the plane of facet `i`
    have hin : ∀ p ∈ w.map P, dot3 (firstNormal (C i)) p = dot3 (firstNormal (C i)) ((C i).headD 0) := by
      intro p hp
      obtain ⟨v, hv, rfl⟩ := List.mem_map.1 hp
      obtain ⟨j, hj, rfl⟩ := List.getElem_of_mem hv
      have hd : (w.getD j 0, w.getD ((j + 1) % w.length) 0) ∈ dirSides w := by
        rw [dirSides_range w 0]
        exact List.mem_map.2 ⟨j, List.mem_range.2 hj, rfl⟩
      have h1 : hash (w.getD j 0, w.getD ((j + 1) % w.length) 0) ∈ onceEdges ((sidesOf mf G).map hash) := hg.rim.mem_iff.1 (List.mem_map_of_mem hd)
      rw [once_mem] at h1
      obtain ⟨e, he, h⟩ := List.mem_map.1 (List.count_pos_iff.1 (by rw [h1]; omega))
      obtain ⟨o, ho, he⟩ := List.mem_flatMap.1 he
      have hm := List.of_mem_zip he
      have hvo : w.getD j 0 ∈ mf.getD o [] := by
        rcases hash_eq.1 h with e' | e'
        · rw [e'] at hm; exact hm.1
        · rw [e'] at hm; exact List.mem_rotate.1 hm.2
      rw [List.getElem_eq_getD (fallback := 0)]
      refine (hpl o ho).2.2 _ ?_
      rw [← S.same]
      exact List.mem_map_of_mem hvo
    have hint : ∀ p ∈ turns (w.map P), dot3 (firstNormal (C i)) p = dot3 (firstNormal (C i)) ((C i).headD 0) := fun p hp => hin p (mem_turns hp)
    have hget : ∀ j < 3, (turns (w.map P)).getD j 0 ∈ turns (w.map P) := by
      intro j hj
      have : j < (turns (w.map P)).length := by have := hpr.three; omega
      rw [← List.getElem_eq_getD (h := this)]
      exact List.getElem_mem this
    have hpar : cross3 (firstNormal (C i)) (firstNormal (turns (w.map P))) = 0 := by
      refine cross_in_plane ?_ ?_
      · rw [dot_sub, hint _ (hget 1 (by omega)), hint _ (hget 0 (by omega)), sub_self]
      · rw [dot_sub, hint _ (hget 2 (by omega)), hint _ (hget 0 (by omega)), sub_self]
    have hpos := proper_area hpr
    rw [areaAlong_scale (same_direction hpi.bent hpar), harea] at hpos
    have hgpos : 0 < ((G.map C).map (areaAlong (firstNormal (C i)))).sum := by
      refine List.sum_pos _ ?_ ?_
      · intro x hx
        rw [List.map_map] at hx
        obtain ⟨o, ho, rfl⟩ := List.mem_map.1 hx
        obtain ⟨ho', d, -⟩ := hpl o ho
        have hs := d.symm
        simp only [Function.comp]
        rw [areaAlong_scale (same_direction hs.ne hs.1)]
        exact mul_pos (div_pos hs.2 (dot_pos hs.ne)) (proper_area (S.proper _ (mem ho')))
      · intro e
        rw [List.map_eq_nil_iff, List.map_eq_nil_iff] at e
        rw [e] at hiG
        simp at hiG
    have hnn := dot_pos hpi.bent
    rw [hdir]
    rcases hsum hw with h | h
    · rw [h] at hpos
      have hs : 0 < dot3 (firstNormal (C i)) (firstNormal (turns (w.map P))) := by
        by_contra hc
        have := div_nonpos_of_nonpos_of_nonneg (not_lt.1 hc) hnn.le
        nlinarith
      rw [if_neg (not_lt.2 hs.le), harea, h]
    · rw [h] at hpos
      have hs : dot3 (firstNormal (C i)) (firstNormal (turns (w.map P))) < 0 := by
        by_contra hc
        have := div_nonneg (not_lt.1 hc) hnn.le
        nlinarith
      rw [if_pos hs, areaAlong_reverse, harea, h, neg_neg]
end Setting
end Verif.Simplify3
