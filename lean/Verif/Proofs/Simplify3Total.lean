import Verif.Proofs.Simplify3Cycle
import Verif.Proofs.Simplify3Volume
import Verif.Proofs.Box
/- When the 3D version of `simplifyPLCfacets` returns. -/
namespace Verif.Simplify3
open Verif Verif.Mesh Verif.Internal Verif.Geom
open Verif.Simplify (rdi)

section
variable {V : Type} {T : Tests V}

theorem rdi_lt {l : List V} {k : Int} (h0 : 0 ≤ k) (h1 : k < l.length) (z : V) : rdi l k = .ok (l.getD k.toNat z) := by
  rw [rdi, if_pos h0]
  exact rd_eq_ok.2 (getD_lt (by omega) z)

theorem hashedEdges_eq (dbg : Bool) {f : List Nat} (h : ∀ d ∈ dirSides f, d.1 ≠ d.2) : hashedEdges dbg f = .ok ((dirSides f).map hash) := by
  unfold hashedEdges
  rw [dirSides_range f 0, List.map_map]
  refine Geom.mapM_ok _ fun j hj => ?_
  rw [List.mem_range] at hj
  have hm := Nat.mod_lt (j + 1) (show 0 < f.length by omega)
  have hne := h (f.getD j 0, f.getD ((j + 1) % f.length) 0) (by rw [dirSides_range f 0]; exact List.mem_map.2 ⟨j, List.mem_range.2 hj, rfl⟩)
  rw [Res.bind_eq, rd_eq_ok.2 (getD_lt hj 0), Res.bind_ok, Res.bind_eq, rd_eq_ok.2 (getD_lt hm 0), Res.bind_ok]
  unfold hashEdge
  rw [Res.bind_eq, Res.assert_true dbg (by intro e; exact hne (Int.ofNat_inj.1 e)), Res.bind_ok]
  rfl

theorem polygon_of {edges : List Edge} {W : List Nat} (hn : edges.Nodup) (hW : W.Nodup) (h3 : 3 ≤ W.length) (hrim : ((dirSides W).map hash).Perm edges) : Internal.IsPolygon edges := by
  have hl : edges.length = W.length := by
    rw [← hrim.length_eq, List.length_map, dirSides_range W 0, List.length_map, List.length_range]
  have hW0 : 0 < W.length := by omega
  let side := fun k => hash (W.getD k 0, W.getD ((k + 1) % W.length) 0)
  have hmem : ∀ k < W.length, side k ∈ edges := by
    intro k hk
    refine hrim.mem_iff.1 (List.mem_map_of_mem ?_)
    rw [dirSides_range W 0]
    exact List.mem_map.2 ⟨k, List.mem_range.2 hk, rfl⟩
  have hget : ∀ i < W.length, ∀ j < W.length, W.getD i 0 = W.getD j 0 → i = j := by
    intro i hi j hj e
    rw [← List.getElem_eq_getD (h := hi), ← List.getElem_eq_getD (h := hj)] at e
    exact (hW.getElem_inj_iff).1 e
  have hinj : ∀ i < W.length, ∀ j < W.length, side i = side j → i = j := by
    intro i hi j hj e
    have nd : ((List.range W.length).map side).Nodup := by
      have := hrim.nodup_iff.2 hn
      rw [dirSides_range W 0, List.map_map] at this
      exact this
    have := List.inj_on_of_nodup_map nd (List.mem_range.2 hi) (List.mem_range.2 hj) e
    exact this
  refine ⟨by omega, fun k => W.getD k 0, fun k => edges.idxOf (side k), ?_, ?_, ?_⟩
  · intro i hi j hj e
    exact hget i (by omega) j (by omega) (Int.ofNat_inj.1 e)
  · intro i hi j hj e
    have a := hmem i (by omega)
    have b := hmem j (by omega)
    refine hinj i (by omega) j (by omega) ?_
    rw [← List.getElem_idxOf (List.idxOf_lt_length_of_mem a), ← List.getElem_idxOf (List.idxOf_lt_length_of_mem b)]
    simp only [e]
  · intro k hk
    have a := hmem k (by omega)
    refine ⟨side k, ?_, ?_⟩
    · rw [List.getElem?_eq_getElem (List.idxOf_lt_length_of_mem a), List.getElem_idxOf]
    · simp only [side, hash, Internal.Joins, hl]
      split
      · left; rfl
      · right; rfl

theorem sorted_total {edges : List Edge} (h : Internal.IsPolygon edges) : ∃ order, ∀ dbg, computeSortedFaceEdges dbg edges = .ok (false, edges, order) := by
  obtain ⟨v, p, hc⟩ := h.cyc
  obtain ⟨v, p, h, hp0, he0⟩ := hc.normal
  exact ⟨_, fun dbg => h.closed_loop dbg hp0 he0⟩

theorem corner_total {pts : List V} {edges : List Edge} {order : List Int} (hb : ∀ e ∈ edges, (0 ≤ e.1 ∧ e.1 < pts.length) ∧ 0 ≤ e.2 ∧ e.2 < pts.length)
    (hperm : (order.map posID).Perm (List.range edges.length)) (hl : order.length = edges.length)
    (hend : ∀ j < edges.length, (dirOf edges (order.getD j 0)).2 = (dirOf edges (order.getD ((j + 1) % edges.length) 0)).1) {j : Nat} (hj : j < edges.length) :
    ∃ c, ∀ dbg, corner T dbg pts edges order j = .ok c := by
  have hk : (j + 1) % edges.length < edges.length := Nat.mod_lt _ (by omega)
  have hpos : ∀ i < edges.length, posID (order.getD i 0) < edges.length := by
    intro i hi
    have : posID (order.getD i 0) ∈ order.map posID := by
      rw [← List.getElem_eq_getD (h := by omega)]
      exact List.mem_map_of_mem (List.getElem_mem _)
    simpa using hperm.subset this
  rcases hz : edges with _ | ⟨z0, _⟩
  · rw [hz] at hj; simp at hj
  rw [← hz]
  have hin : ∀ i < edges.length, edges.getD i (0, 0) ∈ edges := by
    intro i hi
    rw [← List.getElem_eq_getD (h := hi)]
    exact List.getElem_mem hi
  obtain ⟨⟨a1, a2⟩, a3, a4⟩ := hb _ (hin _ (hpos j hj))
  obtain ⟨⟨b1, b2⟩, b3, b4⟩ := hb _ (hin _ (hpos _ hk))
  have z : V := pts[0]'(by omega)
  have he := hend j hj
  unfold corner
  rw [rd_eq_ok.2 (getD_lt (show j < order.length by omega) 0), rd_eq_ok.2 (getD_lt (show (j + 1) % edges.length < order.length by omega) 0)]
  simp only [Res.bind_eq, Res.bind_ok]
  rw [rd_eq_ok.2 (getD_lt (hpos j hj) (0, 0)), rd_eq_ok.2 (getD_lt (hpos _ hk) (0, 0))]
  simp only [Res.bind_ok]
  rw [rdi_lt a1 a2 z, rdi_lt a3 a4 z, rdi_lt b1 b2 z, rdi_lt b3 b4 z]
  simp only [Res.bind_ok]
  have hp : (if order.getD j 0 < 0 then (edges.getD (posID (order.getD j 0)) (0, 0)).1 else (edges.getD (posID (order.getD j 0)) (0, 0)).2) =
      (if order.getD ((j + 1) % edges.length) 0 < 0 then (edges.getD (posID (order.getD ((j + 1) % edges.length) 0)) (0, 0)).2 else (edges.getD (posID (order.getD ((j + 1) % edges.length) 0)) (0, 0)).1) := by
    unfold dirOf at he
    split_ifs at he ⊢ <;> exact he
  apply Exists.intro
  intro dbg
  rw [Res.assert_true dbg hp, Res.bind_ok]
  rfl

theorem glue_total (z : V) {points pts : List V} {mf : List (List Nat)} {f : List Int} {old W : List Nat} (hnl : ∀ d ∈ sidesOf mf old, d.1 ≠ d.2) (hW : W.Nodup) (h3 : 3 ≤ W.length)
    (hb : ∀ v ∈ W, v < pts.length) (hrim : ((dirSides W).map hash).Perm (onceEdges ((sidesOf mf old).map hash)))
    (hkept : ∀ w, w.IsRotated W ∨ w.IsRotated W.reverse → ((dirSides w).map hash).Perm (onceEdges ((sidesOf mf old).map hash)) →
      3 ≤ (keptBy (fun a b c => T.turn (pts.getD a z) (pts.getD b z) (pts.getD b z) (pts.getD c z)) w).length)
    (hf3 : 3 ≤ f.length) (hf : ∀ k ∈ f, 0 ≤ k ∧ k < points.length) :
    ∃ nf, (∀ dbg, glue T dbg points pts mf f old = .ok nf) ∧ ∃ w, (w.IsRotated W ∨ w.IsRotated W.reverse) ∧ Glued T z points pts mf f old w nf := by
  have hes : ∀ dbg, (old.mapM fun o => hashedEdges dbg (mf.getD o [])) = .ok (old.map fun o => (dirSides (mf.getD o [])).map hash) := by
    intro dbg
    refine Geom.mapM_ok _ fun o ho => hashedEdges_eq dbg fun d hd => hnl d ?_
    exact List.mem_flatMap.2 ⟨o, ho, hd⟩
  have hflat : (old.map fun o => (dirSides (mf.getD o [])).map hash).flatten = (sidesOf mf old).map hash := by
    rw [sidesOf, List.map_flatMap]
    rfl
  set E := onceEdges ((sidesOf mf old).map hash) with hE
  have hEn : E.Nodup := once_nodup _
  have hEl : E.length = W.length := by rw [← hrim.length_eq, List.length_map, dirSides_range W 0, List.length_map, List.length_range]
  obtain ⟨order, hord⟩ := sorted_total (polygon_of hEn hW h3 hrim)
  have hEmem : ∀ e ∈ E, ∃ d ∈ dirSides W, e = hash d := by
    intro e he
    obtain ⟨d, hd, rfl⟩ := List.mem_map.1 (hrim.mem_iff.2 he)
    exact ⟨d, hd, rfl⟩
  have hne : ∀ e ∈ E, e.1 ≠ e.2 := by
    intro e he
    obtain ⟨d, hd, rfl⟩ := hEmem e he
    have := rim_ne hnl hrim hd
    unfold hash
    split <;> dsimp only <;> omega
  have hEb : ∀ e ∈ E, (0 ≤ e.1 ∧ e.1 < pts.length) ∧ 0 ≤ e.2 ∧ e.2 < pts.length := by
    intro e he
    obtain ⟨d, hd, rfl⟩ := hEmem e he
    have hm := List.of_mem_zip hd
    have := hb _ hm.1
    have := hb _ (List.mem_rotate.1 hm.2)
    unfold hash
    split <;> dsimp only <;> omega
  obtain ⟨-, s1, s2, s3⟩ := sorted_ok hne (hord true)
  have hc : ∃ new, ∀ dbg, (List.range E.length).mapM (corner T dbg pts E order) = .ok new := by
    have : ∀ j ∈ List.range E.length, ∃ c, ∀ dbg, corner T dbg pts E order j = .ok c := fun j hj => corner_total hEb s1 s2 s3 (List.mem_range.1 hj)
    choose! g hg using this
    exact ⟨(List.range E.length).map g, fun dbg => Geom.mapM_ok _ fun j hj => hg j hj dbg⟩
  obtain ⟨new, hnew⟩ := hc
  have uniq : ∀ {w : List Nat}, ((dirSides w).map hash).Perm E → w.IsRotated W ∨ w.IsRotated W.reverse := fun h => cycle_unique hW h3 (h.trans hrim.symm)
  obtain ⟨w, w1, w2, w3, w4, w5⟩ := walk_ok z (hes true) (by rw [hflat, ← hE]; omega) (by rw [hflat]; exact hord true) (hnew true)
  have hk := hkept w (uniq w4) w4
  set K := keptBy (fun a b c => T.turn (pts.getD a z) (pts.getD b z) (pts.getD b z) (pts.getD c z)) w with hK
  have hKb : ∀ k ∈ K.map Int.ofNat, 0 ≤ k ∧ k < pts.length := by
    intro k hk
    obtain ⟨v, hv, rfl⟩ := List.mem_map.1 hk
    rw [hK, keptBy] at hv
    obtain ⟨x, hx, he⟩ := List.mem_filterMap.1 hv
    split at he
    · cases he
      have := w2 _ (List.mem_rotate.1 (List.of_mem_zip (List.of_mem_zip hx).2).1)
      exact ⟨Int.natCast_nonneg _, Int.ofNat_lt.2 this⟩
    · cases he
  have hrd : ∀ {l : List Int} {q : List V}, (∀ k ∈ l, 0 ≤ k ∧ k < q.length) → ∀ {i : Nat}, i < l.length → ∃ p, (rd l i >>= rdi q) = .ok p := by
    intro l q hl i hi
    have hm := hl _ (List.getElem_mem hi)
    refine ⟨q.getD l[i].toNat z, ?_⟩
    rw [Res.bind_eq, rd_lt hi, Res.bind_ok, rdi_lt hm.1 hm.2 z]
  obtain ⟨a0, g1⟩ := hrd hf (show 0 < f.length by omega)
  obtain ⟨b0, g2⟩ := hrd hf (show 1 < f.length by omega)
  obtain ⟨c0, g3⟩ := hrd hf (show 2 < f.length by omega)
  have hKl : (K.map Int.ofNat).length = K.length := List.length_map _
  obtain ⟨a1, g4⟩ := hrd hKb (show 0 < (K.map Int.ofNat).length by omega)
  obtain ⟨b1, g5⟩ := hrd hKb (show 1 < (K.map Int.ofNat).length by omega)
  obtain ⟨c1, g6⟩ := hrd hKb (show 2 < (K.map Int.ofNat).length by omega)
  have hglue : ∀ dbg, glue T dbg points pts mf f old = .ok (if T.neg a0 b0 c0 a1 b1 c1 then (K.map Int.ofNat).reverse else K.map Int.ofNat) := by
    intro dbg
    unfold glue
    simp only [Res.bind_eq]
    rw [hes dbg, Res.bind_ok, hflat, ← hE, Res.assert_true dbg (by omega), Res.bind_ok, hord dbg, Res.bind_ok]
    dsimp only
    rw [Res.assert_true dbg rfl, Res.bind_ok, hnew dbg, Res.bind_ok, w5]
    unfold orient
    rw [Res.bind_eq, Res.assert_true dbg (by omega), Res.bind_ok, g1, g2, g3, g4, g5, g6]
    rfl
  refine ⟨_, hglue, ?_⟩
  obtain ⟨w', hw'⟩ := glue_ok z (hglue true)
  exact ⟨w', uniq hw'.rim, hw'⟩
end
end Verif.Simplify3
