import Verif.Proofs.Simplify3Total
/- The groups of a run on a surface that falls into flat parts. -/
namespace Verif.Simplify3
open Verif Verif.Mesh Verif.Internal Verif.Geom
open Verif.Simplify (rdi)

theorem joins_perm {P : Type} [DecidableEq P] {L M : List (List P)} (h : L.Perm M) (p q : P) : joins L p q = joins M p q := by
  unfold joins
  rw [(h.flatMap_right _).count_eq, (h.flatMap_right _).count_eq]

theorem Outline.perm {P : Type} [DecidableEq P] {L M : List (List P)} {w : List P} (h : Outline L w) (hp : L.Perm M) : Outline M w := by
  intro p q
  rw [h p q, joins_perm hp]

theorem SameDir.symm' {m n : V3 ℝ} (h : SameDir m n) : SameDir n m := ⟨cross_comm_zero h.1, by rw [dot_comm3]; exact h.2⟩

theorem Replaces.perm {old old' : List (List (V3 ℝ))} {w new : List (V3 ℝ)} (h : Replaces old w new) (hp : old.Perm old') : Replaces old' w new := by
  have hs : ∀ u, (old'.map (areaAlong u)).sum = (old.map (areaAlong u)).sum := fun u => ((hp.map _).sum_eq).symm
  refine ⟨?_, ?_, h.outline.perm hp, h.three, h.corners, ?_, ?_⟩
  · intro e
    rw [e] at hp
    exact h.some hp.eq_nil
  · intro l hl l' hl'
    exact h.plane l (hp.mem_iff.2 hl) l' (hp.mem_iff.2 hl')
  · simp only [hs]; exact h.signed
  · simp only [hs]; exact h.area

/-- A walk along the outline has the edges that were walked once. -/
theorem rim_of {mf : List (List Nat)} {old w : List Nat} (hnl : ∀ d ∈ sidesOf mf old, d.1 ≠ d.2) (h : Outline (old.map fun o => mf.getD o []) w) :
    ((dirSides w).map hash).Perm (onceEdges ((sidesOf mf old).map hash)) := by
  have e : (old.map fun o => mf.getD o []).flatMap dirSides = sidesOf mf old := by
    rw [sidesOf, List.flatMap_map]
  have hne : ∀ d ∈ dirSides w, d.1 ≠ d.2 := by
    intro d hd hc
    have := h d.1 d.1
    rw [joins_one] at this
    have hm : (d.1, d.1) ∈ dirSides w := by
      have : (d.1, d.1) = d := Prod.ext rfl hc
      rw [this]; exact hd
    have := List.count_pos_iff.2 hm
    split at * <;> omega
  rw [List.perm_iff_count]
  intro x
  by_cases hx : ∃ d : Nat × Nat, d.1 ≠ d.2 ∧ hash d = x
  · obtain ⟨d, hd, rfl⟩ := hx
    have := h d.1 d.2
    rw [joins_one, joins, e] at this
    have h1 := count_hash (L := dirSides w) hd
    have h2 := count_hash (L := sidesOf mf old) hd
    rw [once_count, h1, h2]
    exact this
  · rw [List.count_eq_zero.2, List.count_eq_zero.2]
    · intro hm
      rw [once_mem] at hm
      obtain ⟨d, hd, rfl⟩ := List.mem_map.1 (List.count_pos_iff.1 (by omega : 0 < ((sidesOf mf old).map hash).count x))
      exact hx ⟨d, hnl d hd, rfl⟩
    · intro hm
      obtain ⟨d, hd, rfl⟩ := List.mem_map.1 hm
      exact hx ⟨d, hne d hd, rfl⟩

/-- The points of an outline have positions, and the positions make an outline. -/
theorem outline_lift {P : Type} [DecidableEq P] {F : Nat → P} {n : Nat} (hinj : ∀ a < n, ∀ b < n, F a = F b → a = b) {L : List (List Nat)} (hL : ∀ l ∈ L, ∀ v ∈ l, v < n) {w : List P}
    (h : Outline (L.map (List.map F)) w) : ∃ W : List Nat, W.map F = w ∧ (∀ v ∈ W, v < n) ∧ Outline L W := by
  have hex : ∀ p ∈ w, ∃ v, v < n ∧ F v = p := by
    intro p hp
    obtain ⟨l, hl, hm⟩ := h.mem hp
    obtain ⟨m, hm', rfl⟩ := List.mem_map.1 hl
    obtain ⟨v, hv, rfl⟩ := List.mem_map.1 hm
    exact ⟨v, hL m hm' v hv, rfl⟩
  choose! g hg using hex
  have hW : (w.map g).map F = w := by
    rw [List.map_map]
    conv_rhs => rw [← List.map_id w]
    exact List.map_congr_left fun p hp => (hg p hp).2
  have hb : ∀ v ∈ w.map g, v < n := by
    intro v hv
    obtain ⟨p, hp, rfl⟩ := List.mem_map.1 hv
    exact (hg p hp).1
  refine ⟨w.map g, hW, hb, ?_⟩
  intro a b
  by_cases hab : a < n ∧ b < n
  · have := h (F a) (F b)
    rw [joins_map hinj hL hab.1 hab.2] at this
    rw [← this, ← joins_map hinj (L := [w.map g]) (by simpa using hb) hab.1 hab.2]
    simp only [List.map_cons, List.map_nil, hW]
  · have z : ∀ M : List (List Nat), (∀ l ∈ M, ∀ v ∈ l, v < n) → joins M a b = 0 := by
      intro M hM
      by_contra hc
      obtain ⟨l, hl, h1, h2⟩ := joins_mem hc
      exact hab ⟨hM l hl a h1, hM l hl b h2⟩
    rw [z L hL, z [w.map g] (by simpa using hb)]
    rfl

namespace Setting
variable {tol : ℝ} {points pts : List (V3 ℝ)} {facets : List (List Int)} {mf : List (List Nat)} {nrm : List (Option (V3 ℝ × V3 ℝ × V3 ℝ))}

theorem getL (o : Nat) : (facets.map (corners points)).getD o [] = corners points (facets.getD o []) := by
  rw [List.getD_eq_getElem?_getD, List.getElem?_map, List.getD_eq_getElem?_getD]
  cases facets[o]? <;> rfl

theorem turns_kept (S : Setting tol points pts facets mf nrm) {G w : List Nat} (hG : ∀ o ∈ G, o < facets.length)
    (hrim : ((dirSides w).map hash).Perm (onceEdges ((sidesOf mf G).map hash))) :
    turns (w.map fun v => pts.getD v 0) =
      (keptBy (fun a b c => (realTests tol).turn (pts.getD a 0) (pts.getD b 0) (pts.getD b 0) (pts.getD c 0)) w).map fun v => pts.getD v 0 := by
  rw [turns_eq]
  refine keptBy_congr (F := fun v => pts.getD v 0) fun x hx => ?_
  obtain ⟨h1, h2⟩ := triples_sides hx
  have := turn_iff S.tol_pos (S.resolved.turned _ _ _ (S.joined hG hrim h1) (S.joined hG hrim h2))
  simp only [realTests]
  exact decide_eq_decide.2 this

theorem noloop (S : Setting tol points pts facets mf nrm) (hc : ClosedSurface (facets.map (corners points))) (G : List Nat) (hG : ∀ o ∈ G, o < facets.length) : ∀ d ∈ sidesOf mf G, d.1 ≠ d.2 := by
  intro d hd e
  obtain ⟨o, ho, hd⟩ := List.mem_flatMap.1 hd
  refine hc.ends _ (List.mem_map_of_mem (mem (hG o ho))) (pts.getD d.1 0, pts.getD d.2 0) ?_ (by rw [e])
  rw [← S.same, dirSides_map]
  exact List.mem_map.2 ⟨d, hd, rfl⟩

/-- The facets gathered for the first facet of a flat part are those of the part. -/
theorem gather_flat (S : Setting tol points pts facets mf nrm) {groups : List (List Nat × List (V3 ℝ))} (hF : Flats (facets.map (corners points)) groups) {G : List Nat × List (V3 ℝ)} (hG : G ∈ groups) {i : Nat}
    {ni : V3 ℝ × V3 ℝ × V3 ℝ} (hi : G.1.head? = some i) (hn : nrm.getD i none = some ni) {used : List Bool} (hu : ∀ o ∈ G.1, used.getD o true = false) :
    (gather (realTests tol) mf nrm pts.length i ni used).old.Perm G.1 := by
  obtain ⟨j, hj, hf⟩ := hF.first G hG
  rw [hi] at hj
  cases hj
  simp only [getL] at hf
  have hiG : i ∈ G.1 := List.mem_of_mem_head? (by rw [hi]; rfl)
  have hfl : ∀ o, o < facets.length ↔ ∃ H ∈ groups, o ∈ H.1 := by
    intro o
    have := hF.parts.mem_iff (a := o)
    rw [List.length_map, List.mem_range] at this
    rw [← this, List.mem_flatten]
    constructor
    · rintro ⟨l, hl, ho⟩
      obtain ⟨H, hH, rfl⟩ := List.mem_map.1 hl
      exact ⟨H, hH, ho⟩
    · rintro ⟨H, hH, ho⟩
      exact ⟨H.1, List.mem_map_of_mem hH, ho⟩
  have hnd := List.nodup_flatten.1 (hF.parts.nodup_iff.2 List.nodup_range)
  have hg := gather_inv (T := realTests tol) (mf := mf) (n := pts.length) (hu i hiG) hn
  have hap : ∀ H ∈ groups, G ≠ H → ∀ i ∈ G.1, ∀ o ∈ H.1, (∃ p ∈ corners points (facets.getD i []), p ∈ corners points (facets.getD o [])) →
      ¬ SameDir (firstNormal (corners points (facets.getD i []))) (firstNormal (corners points (facets.getD o []))) := by
    have hap := hF.apart
    simp only [getL] at hap
    rw [List.pairwise_iff_getElem] at hap
    intro H hH hne i hi o ho ⟨p, h1, h2⟩ hd
    obtain ⟨a, ha, rfl⟩ := List.getElem_of_mem hG
    obtain ⟨b, hb, rfl⟩ := List.getElem_of_mem hH
    rcases Nat.lt_trichotomy a b with h | h | h
    · exact hap a b ha hb h i hi o ho ⟨p, h1, h2⟩ hd
    · subst h; exact hne rfl
    · exact hap b a hb ha h o ho i hi ⟨p, h2, h1⟩ hd.symm'
  refine (List.perm_ext_iff_of_nodup hg.nodup (hnd.1 _ (List.mem_map_of_mem hG))).2 fun o => ⟨fun ho => ?_, fun ho => ?_⟩
  · refine hg.group.chain (fun o => o ∈ G.1) hiG (fun o o' v ho h1 h2 hp => ?_) o ho
    obtain ⟨no, hno, -⟩ := id hp
    have ho' := (S.normal_some hno).1
    have hd := (S.par_iff' hn ho').1 hp
    obtain ⟨H, hH, hoH⟩ := (hfl o').1 ho'
    by_cases e : G = H
    · rw [e]; exact hoH
    · exfalso
      refine hap H hH e o ho o' hoH ⟨pts.getD v 0, ?_, ?_⟩ ((hf o ho).2.1.trans hd)
      · rw [← S.same]; exact List.mem_map_of_mem h1
      · rw [← S.same]; exact List.mem_map_of_mem h2
  · obtain ⟨-, hd, p, hp1, hp2⟩ := hf o ho
    have hol := (hfl o).2 ⟨G, hG, ho⟩
    rw [← S.same] at hp1 hp2
    obtain ⟨v, hv, rfl⟩ := List.mem_map.1 hp1
    obtain ⟨v', hv', e⟩ := List.mem_map.1 hp2
    have := S.inj _ (S.bound _ _ hv') _ (S.bound _ _ hv) e
    subst this
    rcases (hg.used_iff o).1 (gather_complete hv (S.bound _ _ hv) (by rw [S.len]; exact hol) hv' ((S.par_iff' hn hol).2 hd)) with h | h
    · rw [hu o ho] at h; cases h
    · exact h

/-- What the loop makes of a flat part. -/
def Done (tol : ℝ) (points pts : List (V3 ℝ)) (facets : List (List Int)) (mf : List (List Nat)) (nrm : List (Option (V3 ℝ × V3 ℝ × V3 ℝ))) (G : List Nat × List (V3 ℝ)) (nf : List Int) : Prop :=
  ∃ i ni G' w, G'.Perm G.1 ∧ GroupOf (realTests tol) mf nrm i ni G' ∧ Glued (realTests tol) 0 points pts mf (facets.getD i []) G' w nf ∧
    ((w.map fun v => pts.getD v 0).IsRotated G.2 ∨ (w.map fun v => pts.getD v 0).IsRotated G.2.reverse)

theorem glue_flat (S : Setting tol points pts facets mf nrm) (hin : ∀ f ∈ facets, ∀ k ∈ f, 0 ≤ k ∧ k < points.length) (hc : ClosedSurface (facets.map (corners points)))
    {groups : List (List Nat × List (V3 ℝ))} (hF : Flats (facets.map (corners points)) groups) {G : List Nat × List (V3 ℝ)} (hG : G ∈ groups) {i : Nat} {G' : List Nat} (hi : i < facets.length) (hp : G'.Perm G.1) :
    ∃ nf, (∀ dbg, glue (realTests tol) dbg points pts mf (facets.getD i []) G' = .ok nf) ∧
      ∃ w, Glued (realTests tol) 0 points pts mf (facets.getD i []) G' w nf ∧ ((w.map fun v => pts.getD v 0).IsRotated G.2 ∨ (w.map fun v => pts.getD v 0).IsRotated G.2.reverse) := by
  have hlt : ∀ o ∈ G', o < facets.length := by
    intro o ho
    have := hF.parts.mem_iff (a := o)
    rw [List.length_map, List.mem_range] at this
    exact this.1 (List.mem_flatten.2 ⟨G.1, List.mem_map_of_mem hG, hp.mem_iff.1 ho⟩)
  have hnl := S.noloop hc G' hlt
  obtain ⟨hout, hnd, hconv⟩ := hF.outline G hG
  have hout' : Outline ((G'.map fun o => mf.getD o []).map (List.map fun v => pts.getD v 0)) G.2 := by
    have e : (G'.map fun o => mf.getD o []).map (List.map fun v => pts.getD v 0) = G'.map fun o => (facets.map (corners points)).getD o [] := by
      rw [List.map_map]
      refine List.map_congr_left fun o _ => ?_
      rw [getL]
      exact S.same o
    rw [e]
    exact hout.perm (hp.symm.map _)
  obtain ⟨W, hW, hWb, hWo⟩ := outline_lift S.inj (by
    intro l hl v hv
    obtain ⟨o, _, rfl⟩ := List.mem_map.1 hl
    exact S.bound o v hv) hout'
  have hrim := rim_of hnl hWo
  have hlen : 3 ≤ W.length := by
    have h3 := (hconv G.2 (.inl (List.IsRotated.refl _))).three
    have : (turns G.2).length ≤ G.2.length := by
      unfold turns
      refine (List.length_filterMap_le _ _).trans ?_
      simp
    have e : W.length = G.2.length := by rw [← hW, List.length_map]
    omega
  have hrot : ∀ {w : List Nat}, w.IsRotated W ∨ w.IsRotated W.reverse → (w.map fun v => pts.getD v 0).IsRotated G.2 ∨ (w.map fun v => pts.getD v 0).IsRotated G.2.reverse := by
    intro w h
    rw [← hW, ← List.map_reverse]
    rcases h with h | h
    · exact .inl (h.map _)
    · exact .inr (h.map _)
  have hnW : W.Nodup := by rw [← hW] at hnd; exact hnd.of_map _
  obtain ⟨nf, h1, w, h2, h3⟩ := glue_total (T := realTests tol) (z := (0 : V3 ℝ)) (points := points) (pts := pts) (f := facets.getD i []) hnl hnW hlen hWb hrim (by
    intro w hw hr
    have := (hconv _ (hrot hw)).three
    rw [S.turns_kept hlt hr, List.length_map] at this
    exact this) (by
    have := (S.proper _ (mem hi)).three
    simpa [corners] using this) (hin _ (mem hi))
  exact ⟨nf, h1, w, h3, hrot h2⟩

theorem loop_flat (S : Setting tol points pts facets mf nrm) (hin : ∀ f ∈ facets, ∀ k ∈ f, 0 ≤ k ∧ k < points.length) (hc : ClosedSurface (facets.map (corners points)))
    {groups : List (List Nat × List (V3 ℝ))} (hF : Flats (facets.map (corners points)) groups) :
    ∀ {fs : List (List Int)} {i : Nat} {used : List Bool} {pre suf : List (List Nat × List (V3 ℝ))}, fs = facets.drop i → groups = pre ++ suf →
      (∀ o < facets.length, used.getD o true = true ↔ o ∈ (pre.map Prod.fst).flatten) → (∀ G ∈ suf, i ≤ G.1.headD 0) →
      ∃ new, (∀ dbg, glueLoop (realTests tol) dbg points pts mf nrm fs i used = .ok new) ∧ List.Forall₂ (Done tol points pts facets mf nrm) suf new
  | [], i, used, pre, suf, hd, hg, hu, hs => by
    have hlen : facets.length ≤ i := by
      have := congrArg List.length hd
      simp only [List.length_nil, List.length_drop] at this
      omega
    have : suf = [] := by
      rcases suf with _ | ⟨G, suf⟩
      · rfl
      · exfalso
        have hG : G ∈ groups := by rw [hg]; simp
        obtain ⟨j, hj, -⟩ := hF.first G hG
        have hjG : j ∈ G.1 := List.mem_of_mem_head? (by rw [hj]; rfl)
        have hj' := hF.parts.mem_iff (a := j)
        rw [List.length_map, List.mem_range] at hj'
        have := hj'.1 (List.mem_flatten.2 ⟨G.1, List.mem_map_of_mem hG, hjG⟩)
        have h2 := hs G (by simp)
        rw [List.headD_eq_head?_getD, hj] at h2
        simp only [Option.getD_some] at h2
        omega
    subst this
    exact ⟨[], fun dbg => rfl, .nil⟩
  | f :: fs, i, used, pre, suf, hd, hg, hu, hs => by
    have hif : facets[i]? = some f := by
      have := congrArg (·[0]?) hd
      simpa using this.symm
    have hi : i < facets.length := (List.getElem?_eq_some_iff.1 hif).1
    have hd' : fs = facets.drop (i + 1) := by
      have := congrArg List.tail hd
      simpa using this
    have hnd := hF.parts.nodup_iff.2 List.nodup_range
    have hall : ∀ o, o < facets.length ↔ o ∈ (pre.map Prod.fst).flatten ∨ o ∈ (suf.map Prod.fst).flatten := by
      intro o
      have := hF.parts.mem_iff (a := o)
      rw [List.length_map, List.mem_range, hg, List.map_append, List.flatten_append, List.mem_append] at this
      exact this.symm
    rw [hg, List.map_append, List.flatten_append, List.nodup_append] at hnd
    obtain ⟨-, hnd2, hdis⟩ := hnd
    rcases hui : used.getD i true with _ | _
    · -- the first facet of a part
      have hni : i ∉ (pre.map Prod.fst).flatten := fun h => by
        rw [(hu i hi).2 h] at hui; cases hui
      have hsuf := ((hall i).1 hi).resolve_left hni
      rcases suf with _ | ⟨G, suf⟩
      · simp at hsuf
      have hGg : G ∈ groups := by rw [hg]; simp
      have hord := hF.order
      rw [hg, List.pairwise_append] at hord
      have hord := List.pairwise_cons.1 hord.2.1
      obtain ⟨j, hj, hf⟩ := hF.first G hGg
      have hjh : G.1.headD 0 = j := by rw [List.headD_eq_head?_getD, hj]; rfl
      have hji : j = i := by
        obtain ⟨l, hl, hil⟩ := List.mem_flatten.1 hsuf
        obtain ⟨H, hH, rfl⟩ := List.mem_map.1 hl
        have h0 := hs G (by simp)
        rcases List.mem_cons.1 hH with rfl | hH
        · have := (hf i hil).1; omega
        · have h1 := hord.1 H hH
          obtain ⟨k, hk, hfk⟩ := hF.first H (by rw [hg]; simp [hH])
          have h2 := (hfk i hil).1
          rw [hjh, List.headD_eq_head?_getD, hk] at h1
          simp only [Option.getD_some] at h1
          omega
      subst hji
      have hnrm : nrm.getD j none = some ((corners points f).getD 0 0, (corners points f).getD 1 0, (corners points f).getD 2 0) := by
        refine getD_of ?_ _
        rw [S.normals, List.getElem?_map, hif]
        rfl
      have huG : ∀ o ∈ G.1, used.getD o true = false := by
        intro o ho
        have hof : o ∈ ((G :: suf).map Prod.fst).flatten := List.mem_flatten.2 ⟨G.1, by simp, ho⟩
        rcases hx : used.getD o true with _ | _
        · rfl
        · exact absurd rfl (hdis o ((hu o ((hall o).2 (.inr hof))).1 hx) o hof)
      have hperm := S.gather_flat hF hGg hj hnrm huG
      have hgi := gather_inv (T := realTests tol) (mf := mf) (n := pts.length) hui hnrm
      obtain ⟨nf, hnf, w, hw, hrot⟩ := S.glue_flat hin hc hF hGg hi hperm
      rw [getD_of hif] at hnf
      obtain ⟨new, hnew, hdone⟩ := loop_flat S hin hc hF (fs := fs) (i := j + 1) (used := (gather (realTests tol) mf nrm pts.length j _ used).used) (pre := pre ++ [G]) (suf := suf) hd' (by rw [hg]; simp) (by
        intro o ho
        rw [hgi.used_iff, hu o ho, hperm.mem_iff, List.map_append, List.flatten_append, List.mem_append]
        simp) (by
        intro H hH
        have := hord.1 H hH
        omega)
      refine ⟨nf :: new, fun dbg => ?_, .cons ⟨j, _, _, w, hperm, hgi.group, hw, hrot⟩ hdone⟩
      rw [glueLoop, hui, hnrm]
      simp only [Res.bind_eq]
      rw [hnf dbg, Res.bind_ok, hnew dbg, Res.bind_ok]
      rfl
    · obtain ⟨new, hnew, hdone⟩ := loop_flat S hin hc hF (fs := fs) (i := i + 1) (used := used) (pre := pre) (suf := suf) hd' hg hu (by
        intro G hG
        have h0 := hs G hG
        rcases Nat.lt_or_eq_of_le h0 with h | h
        · exact h
        · exfalso
          obtain ⟨j, hj, -⟩ := hF.first G (by rw [hg]; simp [hG])
          rw [List.headD_eq_head?_getD, hj] at h
          simp only [Option.getD_some] at h
          subst h
          have hjG := List.mem_of_mem_head? (a := i) (l := G.1) (by rw [hj]; rfl)
          exact hdis i ((hu i hi).1 hui) i (List.mem_flatten.2 ⟨G.1, List.mem_map_of_mem hG, hjG⟩) rfl)
      refine ⟨new, fun dbg => ?_, hdone⟩
      rw [glueLoop, hui]
      exact hnew dbg
end Setting
end Verif.Simplify3
