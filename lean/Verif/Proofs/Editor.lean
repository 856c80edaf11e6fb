import Verif.Model.Editor
import Verif.Proofs.Restrict
/- Closed forms of the loops of `MeshEditor::cleanMesh` and `MeshEditor::deleteCells`. -/
namespace Verif.Editor
open Verif Verif.Mesh
variable {R : Type}

theorem rd_old {k : List Nat} {i : Nat} (h : i < k.length) : rd k i = .ok (old k i) := by
  rw [rd_lt h, old_lt h]

theorem mapFace_spec (nodeMap : List Nat) : ∀ ns : List Nat, (∀ n ∈ ns, n < nodeMap.length) →
    mapFace nodeMap ns = .ok (ns.map (old nodeMap))
  | [], _ => rfl
  | n :: ns, h => by
    simp [mapFace, Res.bind_eq, Res.pure_eq, rd_old (h n (by simp)), mapFace_spec nodeMap ns (fun k hk => h k (by simp [hk]))]

theorem signed_old (k : List Nat) (c : Int) : (if c < 0 then flip (old k (posID c)) else (old k (posID c) : Int)) = oldS k c := by
  by_cases h : 0 ≤ c
  · simp [oldS, h, not_lt.2 h]
  · simp [oldS, h, not_le.1 h]

/-- A cell id is kept by the mask. -/
def keeps (cellMask : List Nat) (s : Int) : Bool := decide (cellMask[posID s]? = some 1)

theorem mapFaceCell_spec (cellMask cellMap : List Nat) (c : Int) (h1 : posID c < cellMask.length) (h2 : posID c < cellMap.length) :
    mapFaceCell cellMask cellMap c = .ok (([c].filter (keeps cellMask)).map (oldS cellMap)) := by
  simp only [mapFaceCell, Res.bind_eq, Res.pure_eq, rd_lt h1, Res.bind_ok, rd_old h2, signed_old]
  by_cases h : cellMask[posID c] = 1
  · simp [keeps, h, h1]
  · simp [keeps, h, h1]

theorem mapFaceCells_spec (dbg : Bool) (cellMask cellMap : List Nat) (fc : List Int) (hs : fc.length = 1 ∨ fc.length = 2)
    (h1 : ∀ s ∈ fc, posID s < cellMask.length) (h2 : ∀ s ∈ fc, posID s < cellMap.length) (hk : ∃ s ∈ fc, keeps cellMask s = true) :
    mapFaceCells dbg cellMask cellMap fc = .ok ((fc.filter (keeps cellMask)).map (oldS cellMap)) := by
  have hpos : 0 < ((fc.filter (keeps cellMask)).map (oldS cellMap)).length := by
    obtain ⟨s, a, b⟩ := hk
    rw [List.length_map]
    exact List.length_pos_of_mem (List.mem_filter.2 ⟨a, b⟩)
  have hle : ((fc.filter (keeps cellMask)).map (oldS cellMap)).length ≤ fc.length := by
    rw [List.length_map]; exact List.length_filter_le _ _
  have hl : ((fc.filter (keeps cellMask)).map (oldS cellMap)).length = 1 ∨ ((fc.filter (keeps cellMask)).map (oldS cellMap)).length = 2 := by omega
  unfold mapFaceCells
  rw [Res.bind_eq, Res.assert_true dbg hs, Res.bind_ok]
  match fc, hs with
  | [a], _ =>
    have ha := mapFaceCell_spec cellMask cellMap a (h1 a (by simp)) (h2 a (by simp))
    simp only [Res.bind_eq, Res.pure_eq, rd_lt (show 0 < [a].length by simp), List.getElem_cons_zero, ha, Res.bind_ok, List.length_singleton,
      show ¬ (1 = 2) by decide, if_false, List.append_nil]
    rw [Res.assert_true dbg hl, Res.bind_ok]
  | [a, b], _ =>
    have ha := mapFaceCell_spec cellMask cellMap a (h1 a (by simp)) (h2 a (by simp))
    have hb := mapFaceCell_spec cellMask cellMap b (h1 b (by simp)) (h2 b (by simp))
    have e : ([a].filter (keeps cellMask)).map (oldS cellMap) ++ ([b].filter (keeps cellMask)).map (oldS cellMap) =
        ([a, b].filter (keeps cellMask)).map (oldS cellMap) := by
      rw [← List.map_append, ← List.filter_append]; rfl
    simp only [Res.bind_eq, Res.pure_eq, rd_lt (show 0 < [a, b].length by simp), rd_lt (show 1 < [a, b].length by simp),
      List.getElem_cons_zero, List.getElem_cons_succ, ha, hb, Res.bind_ok, List.length_cons, List.length_nil, Nat.zero_add, Nat.reduceAdd, if_true]
    simp only [e]
    rw [Res.assert_true dbg hl, Res.bind_ok]

theorem cleanFaces_spec (dbg : Bool) (m : Tess R) (cellMask cellMap nodeMap : List Nat) : ∀ (fm : List Bool) (i : Nat),
    i + fm.length ≤ m.faces.length → m.faceCells.length = m.faces.length →
    (∀ f ∈ keptFrom i fm, ∀ n ∈ face m f, n < nodeMap.length) →
    (∀ f ∈ keptFrom i fm, (cellsOf m f).length = 1 ∨ (cellsOf m f).length = 2) →
    (∀ f ∈ keptFrom i fm, ∀ s ∈ cellsOf m f, posID s < cellMask.length ∧ posID s < cellMap.length) →
    (∀ f ∈ keptFrom i fm, ∃ s ∈ cellsOf m f, keeps cellMask s = true) →
    cleanFaces dbg m cellMask cellMap nodeMap i fm = .ok ((keptFrom i fm).map (fun f => (face m f).map (old nodeMap)),
      (keptFrom i fm).map (fun f => ((cellsOf m f).filter (keeps cellMask)).map (oldS cellMap)))
  | [], i, _, _, _, _, _, _ => by simp [cleanFaces, keptFrom]
  | b :: bs, i, hl, hfc, h1, h2, h3, h4 => by
    simp only [List.length_cons] at hl
    cases b
    · have ih := cleanFaces_spec dbg m cellMask cellMap nodeMap bs (i + 1) (by omega) hfc
        (by simpa [keptFrom] using h1) (by simpa [keptFrom] using h2) (by simpa [keptFrom] using h3) (by simpa [keptFrom] using h4)
      simpa [cleanFaces, keptFrom] using ih
    · simp only [keptFrom, if_true, List.mem_cons, forall_eq_or_imp] at h1 h2 h3 h4
      have ih := cleanFaces_spec dbg m cellMask cellMap nodeMap bs (i + 1) (by omega) hfc h1.2 h2.2 h3.2 h4.2
      have e1 : rd m.faces i = .ok (face m i) := by rw [rd_lt (by omega : i < m.faces.length)]; simp [face, (by omega : i < m.faces.length)]
      have e2 : rd m.faceCells i = .ok (cellsOf m i) := by
        rw [rd_lt (by omega : i < m.faceCells.length)]; simp [cellsOf, (by omega : i < m.faceCells.length)]
      have e3 := mapFaceCells_spec dbg cellMask cellMap (cellsOf m i) h2.1 (fun s hs => (h3.1 s hs).1) (fun s hs => (h3.1 s hs).2) h4.1
      simp [cleanFaces, keptFrom, Res.bind_eq, Res.pure_eq, e1, e2, mapFace_spec nodeMap _ h1.1, e3, ih]

/-- The faces of a cell that survive, renumbered. -/
def liveFaces (fm : List Bool) (faceMap : List Nat) (C : List Int) : List Int :=
  (C.filter fun s => decide (posID s ∈ kept fm)).map (oldS faceMap)

theorem pushFaces_spec (fm : List Bool) (faceMap : List Nat) (hfm : faceMap.length = fm.length) (i : Nat) : ∀ (C : List Int) (nc : List (List Int)),
    (∀ s ∈ C, posID s < fm.length) → i < nc.length →
    pushFaces fm faceMap i C nc = .ok (nc.set i (nc.getD i [] ++ liveFaces fm faceMap C))
  | [], nc, _, hi => by
    simp only [pushFaces, liveFaces, List.filter_nil, List.map_nil, List.append_nil]
    congr 1
    apply List.ext_getElem <;> simp [hi]
  | s :: C, nc, h, hi => by
    have hs := h s (by simp)
    have hC : ∀ t ∈ C, posID t < fm.length := fun k hk => h k (by simp [hk])
    by_cases hb : fm[posID s] = true
    · have hk : posID s ∈ kept fm := mem_kept.2 (by simp [hs, hb])
      have ih := pushFaces_spec fm faceMap hfm i C (nc.set i (nc[i] ++ [oldS faceMap s])) hC (by simpa using hi)
      simp only [pushFaces, Res.bind_eq, rd_lt hs, Res.bind_ok, hb, if_true, rd_old (hfm ▸ hs : posID s < faceMap.length), rd_lt hi, signed_old]
      rw [wr_lt hi, Res.bind_ok, ih]
      simp [liveFaces, hk, hi]
    · have hk : posID s ∉ kept fm := by rw [mem_kept]; simp [hs, hb]
      have ih := pushFaces_spec fm faceMap hfm i C nc hC hi
      simp only [pushFaces, Res.bind_eq, rd_lt hs, Res.bind_ok, hb]
      rw [if_neg (by decide), ih]
      simp [liveFaces, hk]

theorem pushFaces_ub (fm : List Bool) (faceMap : List Nat) (hfm : faceMap.length = fm.length) (i : Nat) : ∀ (C : List Int) (nc : List (List Int)),
    (∀ s ∈ C, posID s < fm.length) → nc.length ≤ i →
    pushFaces fm faceMap i C nc = if liveFaces fm faceMap C = [] then .ok nc else .ub
  | [], nc, _, hi => by simp [pushFaces, liveFaces]
  | s :: C, nc, h, hi => by
    have hs := h s (by simp)
    have hC : ∀ t ∈ C, posID t < fm.length := fun k hk => h k (by simp [hk])
    by_cases hb : fm[posID s] = true
    · have hk : posID s ∈ kept fm := mem_kept.2 (by simp [hs, hb])
      simp [pushFaces, Res.bind_eq, rd_lt hs, hb, rd_old (hfm ▸ hs : posID s < faceMap.length), rd_ge hi, liveFaces, hk]
    · have hk : posID s ∉ kept fm := by rw [mem_kept]; simp [hs, hb]
      have ih := pushFaces_ub fm faceMap hfm i C nc hC hi
      simp only [pushFaces, Res.bind_eq, rd_lt hs, Res.bind_ok, hb]
      rw [if_neg (by decide), ih]
      simp [liveFaces, hk]

theorem cleanCells_spec (cellMask : List Nat) (fm : List Bool) (faceMap : List Nat) (hfm : faceMap.length = fm.length) :
    ∀ (cs : List (List Int)) (i : Nat) (nc : List (List Int)), i + cs.length ≤ cellMask.length →
    (∀ C ∈ cs, ∀ s ∈ C, posID s < fm.length) →
    (∀ c, c < cs.length → cellMask[i + c]? = some 1 → i + c < nc.length) →
    ∃ r, cleanCells cellMask fm faceMap i cs nc = .ok r ∧ r.length = nc.length ∧
      ∀ j : Nat, r.getD j [] = nc.getD j [] ++
        (if i ≤ j ∧ j < i + cs.length ∧ cellMask[j]? = some 1 then liveFaces fm faceMap (cs.getD (j - i) []) else [])
  | [], i, nc, _, _, _ => ⟨nc, rfl, rfl, fun j => by rw [if_neg (by simp; omega)]; simp⟩
  | c :: cs, i, nc, hl, hC, hk => by
    simp only [List.length_cons] at hl
    have hi : i < cellMask.length := by omega
    have key : ∃ nc1, (if cellMask[i] = 1 then pushFaces fm faceMap i c nc else .ok nc) = Res.ok nc1 ∧ nc1.length = nc.length ∧
        ∀ j : Nat, nc1.getD j [] = nc.getD j [] ++ (if j = i ∧ cellMask[i] = 1 then liveFaces fm faceMap c else []) := by
      by_cases h1 : cellMask[i] = 1
      · have h2 : i < nc.length := by
          have := hk 0 (by simp) (by simp [hi, h1]); simpa using this
        refine ⟨_, by rw [if_pos h1, pushFaces_spec fm faceMap hfm i c nc (hC c (by simp)) h2], by simp, ?_⟩
        intro j
        by_cases hj : j = i
        · subst hj; simp [h2, h1]
        · simp [hj, List.getElem?_set_ne (Ne.symm hj)]
      · exact ⟨nc, by rw [if_neg h1], rfl, fun j => by simp [h1]⟩
    obtain ⟨nc1, e1, l1, g1⟩ := key
    obtain ⟨r, e2, l2, g2⟩ := cleanCells_spec cellMask fm faceMap hfm cs (i + 1) nc1 (by omega) (fun C h => hC C (by simp [h]))
      (fun d hd h => by
        have := hk (d + 1) (by simpa using hd) (by rw [← h]; congr 1; omega)
        omega)
    refine ⟨r, ?_, by omega, ?_⟩
    · simp only [cleanCells, Res.bind_eq, rd_lt hi, Res.bind_ok]
      split at e1
      · rename_i h; rw [if_pos h, e1, Res.bind_ok, e2]
      · rename_i h; rw [if_neg h]; cases e1; exact e2
    · intro j
      rw [g2, g1, List.append_assoc]
      congr 1
      by_cases hj : j = i
      · subst hj
        simp [hi]
      · rw [if_neg (by simp [hj]), List.nil_append]
        by_cases h2 : i + 1 ≤ j
        · have e : j - i = (j - (i + 1)) + 1 := by omega
          rw [e, List.getD_cons_succ]
          simp only [List.length_cons]
          congr 1
          exact propext ⟨fun ⟨a, b, c⟩ => ⟨by omega, by omega, c⟩, fun ⟨a, b, c⟩ => ⟨by omega, by omega, c⟩⟩
        · rw [if_neg (by omega), if_neg (by omega)]

/-- If some kept cell has a surviving face and an index that is not smaller than the number of slots, the loop writes out of bounds. -/
theorem cleanCells_ub (cellMask : List Nat) (fm : List Bool) (faceMap : List Nat) (hfm : faceMap.length = fm.length) :
    ∀ (cs : List (List Int)) (i : Nat) (nc : List (List Int)), i + cs.length ≤ cellMask.length →
    (∀ C ∈ cs, ∀ s ∈ C, posID s < fm.length) →
    (∃ c, c < cs.length ∧ cellMask[i + c]? = some 1 ∧ nc.length ≤ i + c ∧ liveFaces fm faceMap (cs.getD c []) ≠ []) →
    cleanCells cellMask fm faceMap i cs nc = .ub
  | [], i, nc, _, _, ⟨c, h, _⟩ => by simp at h
  | C :: cs, i, nc, hl, hC, ⟨c, hc, h1, h2, h3⟩ => by
    simp only [List.length_cons] at hl
    have hi : i < cellMask.length := by omega
    cases c with
    | zero =>
      have hk : cellMask[i] = 1 := by simpa [hi] using h1
      simp only [List.getD_cons_zero] at h3
      simp [cleanCells, Res.bind_eq, rd_lt hi, hk, pushFaces_ub fm faceMap hfm i C nc (hC C (by simp)) (by simpa using h2), h3]
    | succ c =>
      have rest : ∀ nc' : List (List Int), nc'.length = nc.length → cleanCells cellMask fm faceMap (i + 1) cs nc' = .ub := by
        intro nc' hnc
        refine cleanCells_ub cellMask fm faceMap hfm cs (i + 1) nc' (by omega) (fun C h => hC C (by simp [h])) ⟨c, by simpa using hc, ?_, by omega, ?_⟩
        · rw [← h1]; congr 1; omega
        · simpa using h3
      simp only [cleanCells, Res.bind_eq, rd_lt hi, Res.bind_ok]
      by_cases hk : cellMask[i] = 1
      · rw [if_pos hk]
        by_cases hin : i < nc.length
        · rw [pushFaces_spec fm faceMap hfm i C nc (hC C (by simp)) hin, Res.bind_ok, rest _ (by simp)]
        · rw [pushFaces_ub fm faceMap hfm i C nc (hC C (by simp)) (by omega)]
          split
          · rw [Res.bind_ok, rest _ rfl]
          · rfl
      · rw [if_neg hk, rest _ rfl]

theorem mapShared_spec (mask : List Bool) (map : List Nat) (hm : map.length = mask.length) : ∀ l : List Nat, (∀ n ∈ l, n < mask.length) →
    mapShared mask map l = .ok ((l.filter fun n => decide (n ∈ kept mask)).map (old map))
  | [], _ => rfl
  | n :: l, h => by
    have hn := h n (by simp)
    have ih := mapShared_spec mask map hm l (fun k hk => h k (by simp [hk]))
    by_cases hb : mask[n] = true
    · have hk : n ∈ kept mask := mem_kept.2 (by simp [hn, hb])
      simp [mapShared, Res.bind_eq, Res.pure_eq, rd_lt hn, hb, rd_old (hm ▸ hn : n < map.length), ih, hk]
    · have hk : n ∉ kept mask := by rw [mem_kept]; simp [hn, hb]
      simp [mapShared, Res.bind_eq, rd_lt hn, hb, ih, hk]

theorem mapSharedAll_spec (mask : List Bool) (map : List Nat) (hm : map.length = mask.length) : ∀ ls : List (List Nat),
    (∀ l ∈ ls, ∀ n ∈ l, n < mask.length) →
    mapSharedAll mask map ls = .ok (ls.map fun l => (l.filter fun n => decide (n ∈ kept mask)).map (old map))
  | [], _ => rfl
  | l :: ls, h => by
    simp [mapSharedAll, Res.bind_eq, Res.pure_eq, mapShared_spec mask map hm l (h l (by simp)),
      mapSharedAll_spec mask map hm ls (fun k hk => h k (by simp [hk]))]

/-! ### `cleanMesh` as a whole -/

theorem sum_eq_count : ∀ {mask : List Nat}, (∀ k ∈ mask, k = 0 ∨ k = 1) → mask.sum = (mask.countP (· = 1))
  | [], _ => rfl
  | k :: mask, h => by
    have ih := sum_eq_count (mask := mask) (fun x hx => h x (by simp [hx]))
    rcases h k (by simp) with rfl | rfl
    · simp [ih]
    · simp [ih]; omega

/-- What the maps must satisfy for `cleanMesh` to run on a consistent mesh. -/
structure MapsOK (D : Nat) (m : Tess R) (cellMask : List Nat) (fm nm : List Bool) (cellMap faceMap nodeMap : List Nat) : Prop where
  cellMask_len : cellMask.length = m.cells.length
  bits : ∀ k ∈ cellMask, k = 0 ∨ k = 1
  fm_len : fm.length = m.faces.length
  nm_len : nm.length = numNodes D m
  cellMap_len : cellMap.length = m.cells.length
  faceMap_len : faceMap.length = m.faces.length
  nodeMap_len : nodeMap.length = numNodes D m
  cells_pos : 0 < m.cells.length
  faces_pos : 0 < m.faces.length
  nodes_pos : 0 < numNodes D m
  used : ∀ f ∈ kept fm, ∃ s ∈ cellsOf m f, keeps cellMask s = true

theorem countP_one (mask : List Nat) : mask.countP (· = 1) = (keptCells mask).length := by
  rw [← keptCells_eq, kept, keptFrom_length, cellBits, List.countP_map]
  have : mask = (List.range mask.length).map (fun i => mask[i]?.getD 0) := by
    apply List.ext_getElem
    · simp
    · intro i h1 h2; simp [h1]
  conv_lhs => rw [this, List.countP_map]
  apply List.countP_congr
  intro i hi
  simp at hi
  simp [hi]

theorem mem_keptCells {mask : List Nat} {c : Nat} : c ∈ keptCells mask ↔ mask[c]? = some 1 := by
  rw [← keptCells_eq, mem_kept, cellBits_iff rfl]

section
variable {D : Nat} {m : Tess R} {cellMask : List Nat} {fm nm : List Bool} {cellMap faceMap nodeMap : List Nat}

theorem MapsOK.nonempty (h : MapsOK D m cellMask fm nm cellMap faceMap nodeMap) : cellMask ≠ [] ∧ fm ≠ [] ∧ nm ≠ [] :=
  ⟨List.ne_nil_of_length_pos (by rw [h.cellMask_len]; exact h.cells_pos), List.ne_nil_of_length_pos (by rw [h.fm_len]; exact h.faces_pos),
    List.ne_nil_of_length_pos (by rw [h.nm_len]; exact h.nodes_pos)⟩

theorem facesPart (dbg : Bool) (hc : Consistent D m) (h : MapsOK D m cellMask fm nm cellMap faceMap nodeMap) :
    cleanFaces dbg m cellMask cellMap nodeMap 0 fm = .ok ((kept fm).map (fun f => (face m f).map (old nodeMap)),
      (kept fm).map (fun f => ((cellsOf m f).filter (keeps cellMask)).map (oldS cellMap))) := by
  have hlt : ∀ f ∈ keptFrom 0 fm, f < m.faces.length := by
    intro f hf
    have := (List.getElem?_eq_some_iff.1 (mem_kept.1 hf)).1
    rw [← h.fm_len]; exact this
  have hfc : ∀ f ∈ keptFrom 0 fm, cellsOf m f ∈ m.faceCells := fun f hf => cellsOf_mem (by rw [hc.faceCells_len]; exact hlt f hf)
  exact cleanFaces_spec dbg m cellMask cellMap nodeMap fm 0 (by rw [h.fm_len]; omega) hc.faceCells_len
    (fun f hf n hn => by rw [h.nodeMap_len]; exact hc.faces_lt _ (face_mem (hlt f hf)) n hn)
    (fun f hf => hc.faceCells_size _ (hfc f hf))
    (fun f hf s hs => by rw [h.cellMask_len, h.cellMap_len]; exact ⟨hc.faceCells_lt _ (hfc f hf) s hs, hc.faceCells_lt _ (hfc f hf) s hs⟩)
    h.used

theorem cleanMesh_ub (dbg : Bool) (hc : Consistent D m) (h : MapsOK D m cellMask fm nm cellMap faceMap nodeMap)
    (hbad : ∃ c, cellMask[c]? = some 1 ∧ (keptCells cellMask).length ≤ c ∧ liveFaces fm faceMap (cell m c) ≠ []) :
    cleanMesh dbg D m cellMask fm nm cellMap faceMap nodeMap = .ub := by
  have e2 := facesPart dbg hc h
  obtain ⟨c, h1, h2, h3⟩ := hbad
  have e3 := cleanCells_ub cellMask fm faceMap (by rw [h.faceMap_len, h.fm_len]) m.cells 0 (List.replicate cellMask.sum [])
    (by rw [h.cellMask_len]; omega) (by rw [h.fm_len]; exact hc.cells_lt)
    ⟨c, by rw [← h.cellMask_len]; exact (List.getElem?_eq_some_iff.1 h1).1, by simpa using h1,
      by simpa [sum_eq_count h.bits, countP_one] using h2, h3⟩
  have a0 := h.nonempty
  unfold cleanMesh
  rw [Res.bind_eq, Res.assert_true dbg a0, Res.bind_ok]
  simp only [Res.bind_eq, e2, Res.bind_ok, e3, Res.bind_ub]

theorem cleanMesh_ok (dbg : Bool) (hc : Consistent D m) (hs : CommOK D m) (h : MapsOK D m cellMask fm nm cellMap faceMap nodeMap)
    (hgood : ∀ c : Nat, cellMask[c]? = some 1 → c < (keptCells cellMask).length) :
    ∃ m', cleanMesh dbg D m cellMask fm nm cellMap faceMap nodeMap = .ok m' ∧
      m'.nodes = (kept nm).flatMap (node D m) ∧
      m'.faces = (kept fm).map (fun f => (face m f).map (old nodeMap)) ∧
      m'.faceCells = (kept fm).map (fun f => ((cellsOf m f).filter (keeps cellMask)).map (oldS cellMap)) ∧
      m'.cells = (List.range (keptCells cellMask).length).map (fun c => liveFaces fm faceMap (if cellMask[c]? = some 1 then cell m c else [])) ∧
      m'.sharedNodes = m.sharedNodes.map (fun l => (l.filter fun n => decide (n ∈ kept nm)).map (old nodeMap)) ∧
      m'.sharedFaces = m.sharedFaces.map (fun l => (l.filter fun n => decide (n ∈ kept fm)).map (old faceMap)) ∧
      m'.neighborDomains = m.neighborDomains ∧ m'.boundaryNodes = m.boundaryNodes ∧ m'.boundaryFaces = m.boundaryFaces ∧
      m'.convexHull = {} := by
  have e2 := facesPart dbg hc h
  obtain ⟨r, e3, l3, g3⟩ := cleanCells_spec cellMask fm faceMap (by rw [h.faceMap_len, h.fm_len]) m.cells 0 (List.replicate cellMask.sum [])
    (by rw [h.cellMask_len]; omega) (by rw [h.fm_len]; exact hc.cells_lt)
    (by intro c hcl hk; simpa [sum_eq_count h.bits, countP_one] using hgood c (by simpa using hk))
  have e4 := mapSharedAll_spec nm nodeMap (by rw [h.nodeMap_len, h.nm_len]) m.sharedNodes (by rw [h.nm_len]; exact hs.nodes_lt)
  have e5 := mapSharedAll_spec fm faceMap (by rw [h.faceMap_len, h.fm_len]) m.sharedFaces (by rw [h.fm_len]; exact hs.faces_lt)
  have a0 := h.nonempty
  have kn_lt : ∀ n ∈ kept nm, n < numNodes D m := by
    intro n hn
    have := (List.getElem?_eq_some_iff.1 (mem_kept.1 hn)).1
    rw [← h.nm_len]; exact this
  have a2 : (keepNodes D m 0 nm).length = D * nm.countP id := by
    rw [keepNodes_spec]; exact (flatMap_node_length D m (kept nm) kn_lt hc.dim_pos hc.nodes_dvd).trans (by rw [kept, keptFrom_length])
  have a3 : ((kept fm).map (fun f => (face m f).map (old nodeMap))).length = fm.countP id := by
    rw [List.length_map, kept, keptFrom_length]
  have a4 : ((kept fm).map (fun f => ((cellsOf m f).filter (keeps cellMask)).map (oldS cellMap))).length = fm.countP id := by
    rw [List.length_map, kept, keptFrom_length]
  have a5 : r.length = cellMask.sum := by simpa using l3
  have hsl := hs.len
  refine ⟨{ m with nodes := keepNodes D m 0 nm, cells := r, faces := _, faceCells := _, sharedNodes := _, sharedFaces := _, convexHull := {} }, ?_,
    keepNodes_spec D m nm 0, rfl, rfl, ?_, rfl, rfl, rfl, rfl, rfl, rfl⟩
  · unfold cleanMesh
    rw [Res.bind_eq, Res.assert_true dbg a0, Res.bind_ok]
    simp only [Res.bind_eq, Res.pure_eq, e2, Res.bind_ok, e3, Res.assert_true dbg hsl]
    rw [if_neg (by omega)]
    simp only [e4, e5, Res.bind_ok, Res.assert_true dbg a2, Res.assert_true dbg a3, Res.assert_true dbg a4, Res.assert_true dbg a5]
  · have hn : cellMask.sum = (keptCells cellMask).length := by rw [sum_eq_count h.bits, countP_one]
    have hrl : r.length = (keptCells cellMask).length := a5.trans hn
    show r = _
    apply List.ext_getElem
    · simp [hrl]
    · intro j hj1 hj2
      have := g3 j
      have hj3 : j < cellMask.sum := by omega
      simp only [List.getD_eq_getElem?_getD, List.getElem?_replicate, hj3, List.getElem?_eq_getElem hj1, Option.getD_some, if_true,
        List.nil_append, Nat.zero_le, true_and, Nat.zero_add, Nat.sub_zero] at this
      rw [this]
      simp only [List.getElem_map, List.getElem_range, cell, List.getD_eq_getElem?_getD]
      by_cases hk : cellMask[j]? = some 1
      · rw [if_pos ⟨by rw [← h.cellMask_len]; exact (List.getElem?_eq_some_iff.1 hk).1, hk⟩, if_pos hk]
      · rw [if_neg (fun x => hk x.2), if_neg hk]; rfl

end

/-! ### the renumbering arrays -/

theorem rankMap_length : ∀ (bs : List Bool) (k : Nat), (rankMap bs k).length = bs.length
  | [], _ => rfl
  | b :: bs, k => by simp [rankMap, rankMap_length bs]

theorem rankMap_spec : ∀ (bs : List Bool) (i k j : Nat), bs[j]? = some true →
    ∃ v, (rankMap bs k)[j]? = some (k + v) ∧ (keptFrom i bs)[v]? = some (i + j)
  | [], i, k, j, h => by simp at h
  | b :: bs, i, k, 0, h => by
    simp at h; subst h
    exact ⟨0, by simp [rankMap], by simp [keptFrom]⟩
  | b :: bs, i, k, j + 1, h => by
    cases b
    · obtain ⟨v, h1, h2⟩ := rankMap_spec bs (i + 1) k j (by simpa using h)
      exact ⟨v, by simpa [rankMap] using h1, by simp [keptFrom, h2]; omega⟩
    · obtain ⟨v, h1, h2⟩ := rankMap_spec bs (i + 1) (k + 1) j (by simpa using h)
      exact ⟨v + 1, by simp [rankMap, h1]; omega, by simp [keptFrom, h2]; omega⟩

theorem old_of_getElem? {k : List Nat} {i v : Nat} (h : k[i]? = some v) : old k i = v ∧ i < k.length :=
  ⟨by simp [old, h], (List.getElem?_eq_some_iff.1 h).1⟩

/-- The rank of a kept entry is its position among the kept entries. -/
theorem old_rankMap {bs : List Bool} {j : Nat} (h : j ∈ kept bs) :
    old (kept bs) (old (rankMap bs 0) j) = j ∧ old (rankMap bs 0) j < (kept bs).length := by
  obtain ⟨v, h1, h2⟩ := rankMap_spec bs 0 0 j (mem_kept.1 h)
  rw [Nat.zero_add] at h1 h2
  rw [(old_of_getElem? h1).1]
  exact old_of_getElem? h2

theorem cellMapOf_length : ∀ (bs : List Nat) (k : Nat), (cellMapOf bs k).length = bs.length
  | [], _ => rfl
  | b :: bs, k => by by_cases h : b = 1 <;> simp [cellMapOf, cellMapOf_length bs, h]

theorem cellMapOf_spec : ∀ (bs : List Nat) (i k j : Nat), bs[j]? = some 1 →
    ∃ v, (cellMapOf bs k)[j]? = some (k + v) ∧ (keptFrom i (bs.map (· == 1)))[v]? = some (i + j)
  | [], i, k, j, h => by simp at h
  | b :: bs, i, k, 0, h => by
    simp at h; subst h
    exact ⟨0, by simp [cellMapOf], by simp [keptFrom]⟩
  | b :: bs, i, k, j + 1, h => by
    by_cases hb : b = 1
    · obtain ⟨v, h1, h2⟩ := cellMapOf_spec bs (i + 1) (k + 1) j (by simpa using h)
      exact ⟨v + 1, by simp [cellMapOf, h1, hb]; omega, by simp [keptFrom, h2, hb]; omega⟩
    · obtain ⟨v, h1, h2⟩ := cellMapOf_spec bs (i + 1) k j (by simpa using h)
      exact ⟨v, by simpa [cellMapOf, hb] using h1, by simp [keptFrom, h2, hb]; omega⟩

theorem keptFrom_bits (mask : List Nat) : kept (mask.map (· == 1)) = keptCells mask :=
  sorted_ext (keptFrom_sorted _ _) (by rw [← keptCells_eq]; exact keptFrom_sorted _ _) (fun c => by
    rw [mem_kept, mem_keptCells]; simp)

theorem old_cellMapOf {mask : List Nat} {j : Nat} (h : j ∈ keptCells mask) :
    old (keptCells mask) (old (cellMapOf mask 0) j) = j ∧ old (cellMapOf mask 0) j < (keptCells mask).length := by
  obtain ⟨v, h1, h2⟩ := cellMapOf_spec mask 0 0 j (mem_keptCells.1 h)
  rw [Nat.zero_add] at h1 h2
  rw [(old_of_getElem? h1).1, ← keptFrom_bits]
  exact old_of_getElem? h2

/-! ### `deleteCells` -/

theorem maskOut_spec (dbg : Bool) : ∀ (ids mask : List Nat), (∀ c ∈ ids, c < mask.length) →
    maskOut dbg ids mask = .ok ((List.range mask.length).map fun c => if c ∈ ids then 0 else mask.getD c 0)
  | [], mask, _ => by
    simp only [maskOut, List.not_mem_nil, if_false]
    congr 1
    apply List.ext_getElem
    · simp
    · intro i h1 h2; simp [h1]
  | c :: ids, mask, h => by
    have hc := h c (by simp)
    have ih := maskOut_spec dbg ids (mask.set c 0) (by simpa using fun k hk => h k (by simp [hk]))
    simp only [maskOut, Res.bind_eq, Res.assert_true dbg hc, Res.bind_ok, wr_lt hc, ih]
    congr 1
    apply List.ext_getElem
    · simp
    · intro i h1 h2
      simp at h2
      simp only [List.getElem_map, List.getElem_range, List.mem_cons]
      by_cases hi : i ∈ ids
      · simp [hi]
      · by_cases e : i = c
        · subst e; simp [hc]
        · simp [hi, e, Ne.symm e]

/-- The 0/1 cell mask of a list of ids to delete. -/
def maskOf (n : Nat) (ids : List Nat) : List Nat := (List.range n).map fun c => if c ∈ ids then 0 else 1

theorem maskOut_ones (dbg : Bool) (n : Nat) (ids : List Nat) (h : ∀ c ∈ ids, c < n) :
    maskOut dbg ids (List.replicate n 1) = .ok (maskOf n ids) := by
  rw [maskOut_spec dbg ids _ (by simpa using h)]
  congr 1
  apply List.ext_getElem
  · simp [maskOf]
  · intro i h1 h2
    simp [maskOf] at h2 ⊢
    simp [h2]

theorem maskOf_get {n : Nat} {ids : List Nat} {c : Nat} : (maskOf n ids)[c]? = some 1 ↔ c < n ∧ c ∉ ids := by
  by_cases hc : c < n
  · by_cases h : c ∈ ids <;> simp [maskOf, hc, h]
  · simp [maskOf, hc]

theorem maskOf_good {m : Tess R} {ids : List Nat} (h : m.cells.length = 0 ∨ ∃ c, c < m.cells.length ∧ c ∉ ids) :
    GoodMask m (maskOf m.cells.length ids) where
  len := by simp [maskOf]
  bits := by
    intro k hk
    simp only [maskOf, List.mem_map] at hk
    obtain ⟨c, _, rfl⟩ := hk
    split <;> simp
  some := by
    rcases h with h | ⟨c, h1, h2⟩
    · exact Or.inl h
    · right
      exact List.mem_of_getElem? (maskOf_get.2 ⟨h1, h2⟩)

theorem mem_keptCells_maskOf {n : Nat} {ids : List Nat} {c : Nat} : c ∈ keptCells (maskOf n ids) ↔ c < n ∧ c ∉ ids := by
  rw [mem_keptCells, maskOf_get]

/-- The marking loop on a consistent mesh. -/
theorem masks_spec (dbg : Bool) (D : Nat) (m : Tess R) (mask : List Nat) (hc : Consistent D m) (hm : GoodMask m mask)
    (hcells : 0 < m.cells.length) (hfaces : 0 < m.faces.length) (hnodes : 0 < numNodes D m) :
    ∃ nm fm, computeFaceAndNodeMasks dbg D m mask = .ok (nm, fm) ∧ nm.length = numNodes D m ∧ fm.length = m.faces.length ∧
      (∀ f, f ∈ kept fm ↔ ∃ c ∈ keptCells mask, ∃ s ∈ cell m c, posID s = f) ∧
      (∀ n, n ∈ kept nm ↔ ∃ f ∈ kept fm, n ∈ face m f) := by
  have hlen := hm.len
  obtain ⟨⟨nm, fm⟩, e1, l1, l2, i1, i2⟩ := markCells_spec dbg (numNodes D m) m.faces mask hc.faces_lt m.cells 0
    (List.replicate (numNodes D m) false, List.replicate m.faces.length false) (by simp) (by simp) (by omega) hc.cells_lt
  simp only [Nat.zero_add] at i1 i2
  simp only at l1 l2
  have hkc_lt : ∀ c ∈ keptCells mask, c < m.cells.length := by
    intro c h
    rw [← hlen]
    exact (List.getElem?_eq_some_iff.1 (mem_keptCells.1 h)).1
  have rep : ∀ (n j : Nat), ¬ (List.replicate n false)[j]? = some true := by
    intro n j h
    obtain ⟨h1, h2⟩ := List.getElem?_eq_some_iff.1 h
    simp at h2
  have ifm : ∀ f, f ∈ kept fm ↔ ∃ c ∈ keptCells mask, ∃ s ∈ cell m c, posID s = f := by
    intro f
    rw [mem_kept, i2]
    constructor
    · rintro (h | ⟨c, h1, h2, h3⟩)
      · exact absurd h (rep _ _)
      · exact ⟨c, mem_keptCells.2 h2, h3⟩
    · rintro ⟨c, h1, h2⟩
      exact Or.inr ⟨c, hkc_lt c h1, mem_keptCells.1 h1, h2⟩
  refine ⟨nm, fm, ?_, l1, l2, ifm, ?_⟩
  · have a0 : mask ≠ [] := List.ne_nil_of_length_pos (by omega)
    have a1 : m.cells.length = 0 ∨ mask.max? = some 1 := by
      rcases hm.some with h | h
      · exact Or.inl h
      · right
        rw [List.max?_eq_some_iff]
        exact ⟨h, fun b hb => by rcases hm.bits b hb with h | h <;> omega⟩
    have a2 : fm ≠ [] ∧ nm ≠ [] := ⟨List.ne_nil_of_length_pos (by omega), List.ne_nil_of_length_pos (by omega)⟩
    have eN : m.nodes.length / D = numNodes D m := rfl
    unfold computeFaceAndNodeMasks
    simp only [Res.bind_eq, Res.pure_eq, Res.assert_true dbg a0, Res.assert_true dbg hlen, Res.assert_true dbg a1, Res.bind_ok, eN, e1]
    rw [Res.assert_true dbg (by exact a2), Res.bind_ok]
  · intro n
    rw [mem_kept, i1]
    constructor
    · rintro (h | ⟨c, h1, h2, s, h3, h4⟩)
      · exact absurd h (rep _ _)
      · exact ⟨posID s, (ifm _).2 ⟨c, mem_keptCells.2 h2, s, h3, rfl⟩, h4⟩
    · rintro ⟨f, h1, h2⟩
      obtain ⟨c, h3, s, h4, rfl⟩ := (ifm f).1 h1
      exact Or.inr ⟨c, hkc_lt c h3, mem_keptCells.1 h3, s, h4, h2⟩

theorem keeps_iff {mask : List Nat} {s : Int} : keeps mask s = true ↔ posID s ∈ keptCells mask := by
  simp [keeps, mem_keptCells]

section
variable {D : Nat} {m : Tess R} {mask : List Nat} {nm fm : List Bool}

theorem mapsOK (hc : Consistent D m) (hm : GoodMask m mask)
    (hcells : 0 < m.cells.length) (hfaces : 0 < m.faces.length) (hnodes : 0 < numNodes D m)
    (l1 : nm.length = numNodes D m) (l2 : fm.length = m.faces.length)
    (ifm : ∀ f, f ∈ kept fm ↔ ∃ c ∈ keptCells mask, ∃ s ∈ cell m c, posID s = f) :
    MapsOK D m mask fm nm (cellMapOf mask 0) (rankMap fm 0) (rankMap nm 0) where
  cellMask_len := hm.len
  bits := hm.bits
  fm_len := l2
  nm_len := l1
  cellMap_len := by rw [cellMapOf_length, hm.len]
  faceMap_len := by rw [rankMap_length, l2]
  nodeMap_len := by rw [rankMap_length, l1]
  cells_pos := hcells
  faces_pos := hfaces
  nodes_pos := hnodes
  used := by
    intro f hf
    obtain ⟨c, h3, s, h4, h5⟩ := (ifm f).1 hf
    have hcl : c < m.cells.length := by
      rw [← hm.len]; exact (List.getElem?_eq_some_iff.1 (mem_keptCells.1 h3)).1
    have hfl : f < m.faces.length := by
      rw [← l2]; exact (List.getElem?_eq_some_iff.1 (mem_kept.1 hf)).1
    have hinv := hc.inverse f hfl c hcl
    rcases posID_eq_iff.1 h5 with rfl | rfl
    · have : 0 < (cell m c).count (f : Int) := List.count_pos_iff.2 h4
      rw [← hinv.1] at this
      exact ⟨(c : Int), List.count_pos_iff.1 this, by rw [keeps_iff]; simpa using h3⟩
    · have : 0 < (cell m c).count (flip f) := List.count_pos_iff.2 h4
      rw [← hinv.2] at this
      exact ⟨flip (c : Int), List.count_pos_iff.1 this, by rw [keeps_iff]; simpa using h3⟩

theorem map_old_rank {k map l : List Nat} (h : ∀ n ∈ l, old k (old map n) = n) : (l.map (old map)).map (old k) = l := by
  rw [List.map_map]
  conv_rhs => rw [← List.map_id l]
  exact List.map_congr_left h

theorem oldS_oldS {k map : List Nat} {s : Int} (h : old k (old map (posID s)) = posID s) : oldS k (oldS map s) = s := by
  by_cases h0 : 0 ≤ s
  · rw [oldS, if_pos ((nonneg_oldS map s).2 h0), posID_oldS, h]; exact (eq_of_nonneg h0).symm
  · rw [oldS, if_neg (fun e => h0 ((nonneg_oldS map s).1 e)), posID_oldS, h]; exact (eq_flip_of_neg h0).symm

theorem map_oldS_rank {k map : List Nat} {l : List Int} (h : ∀ s ∈ l, old k (old map (posID s)) = posID s) :
    (l.map (oldS map)).map (oldS k) = l := by
  rw [List.map_map]
  conv_rhs => rw [← List.map_id l]
  exact List.map_congr_left (fun s hs => oldS_oldS (h s hs))

end

/-- With a trailing set of deleted cells the kept cells are `0 .. k-1`. -/
theorem kept_prefix {mask : List Nat} (h : ∀ c : Nat, mask[c]? = some 1 → c < (keptCells mask).length) :
    keptCells mask = List.range (keptCells mask).length := by
  apply sorted_ext (by rw [← keptCells_eq]; exact keptFrom_sorted _ _) List.pairwise_lt_range
  have hs : (keptCells mask).Pairwise (· < ·) := by rw [← keptCells_eq]; exact keptFrom_sorted _ _
  intro c
  have sub : ∀ x ∈ keptCells mask, x ∈ List.range (keptCells mask).length := fun x hx => List.mem_range.2 (h x (mem_keptCells.1 hx))
  refine ⟨sub c, fun hx => ?_⟩
  have nd : (keptCells mask).Nodup := hs.imp (fun h => Nat.ne_of_lt h)
  have p := (List.subperm_of_subset nd sub).perm_of_length_le (by simp)
  exact p.mem_iff.2 hx

theorem deleteCells_spec (dbg : Bool) (D : Nat) (m : Tess R) (ids : List Nat) (hc : Consistent D m) (hs : CommOK D m)
    (hne : ids ≠ []) (hid : ∀ c ∈ ids, c < m.cells.length) (hfaces : 0 < m.faces.length) (hnodes : 0 < numNodes D m)
    (hkeep : ∃ c, c < m.cells.length ∧ c ∉ ids)
    (htail : ∀ d ∈ ids, ∀ c, c < m.cells.length → c ∉ ids → c < d) :
    ∃ m' kn kf, deleteCells dbg D m ids = .ok m' ∧ Restricts D m kn kf (keptCells (maskOf m.cells.length ids)) m' ∧
      m'.boundaryNodes = m.boundaryNodes ∧ m'.boundaryFaces = m.boundaryFaces ∧ m'.convexHull = {} := by
  obtain ⟨c0, hc0, hc0'⟩ := hkeep
  have hcells : 0 < m.cells.length := by omega
  have hm : GoodMask m (maskOf m.cells.length ids) := maskOf_good (Or.inr ⟨c0, hc0, hc0'⟩)
  obtain ⟨nm, fm, e1, l1, l2, ifm, inm⟩ := masks_spec dbg D m _ hc hm hcells hfaces hnodes
  have hmaps := mapsOK hc hm hcells hfaces hnodes l1 l2 ifm
  generalize hmask : maskOf m.cells.length ids = mask at *
  have hsort : (keptCells mask).Pairwise (· < ·) := by rw [← keptCells_eq]; exact keptFrom_sorted _ _
  have hgood : ∀ c : Nat, mask[c]? = some 1 → c < (keptCells mask).length := by
    intro c h
    have h' : c < m.cells.length ∧ c ∉ ids := by rw [← hmask] at h; exact maskOf_get.1 h
    have sub : List.range (c + 1) ⊆ keptCells mask := by
      intro x hx
      rw [List.mem_range] at hx
      rw [mem_keptCells, ← hmask, maskOf_get]
      refine ⟨by omega, fun hxi => ?_⟩
      have := htail x hxi c h'.1 h'.2
      omega
    have := (List.subperm_of_subset List.nodup_range sub).length_le
    simp at this; omega
  obtain ⟨m', e2, f1, f2, f3, f4, f5, f6, f7, f8, f9, f10⟩ := cleanMesh_ok dbg hc hs hmaps hgood
  have kn_old : ∀ n ∈ kept nm, old (kept nm) (old (rankMap nm 0) n) = n := fun n hn => (old_rankMap hn).1
  have kn_lt : ∀ n ∈ kept nm, old (rankMap nm 0) n < (kept nm).length := fun n hn => (old_rankMap hn).2
  have kf_old : ∀ n ∈ kept fm, old (kept fm) (old (rankMap fm 0) n) = n := fun n hn => (old_rankMap hn).1
  have kf_lt : ∀ n ∈ kept fm, old (rankMap fm 0) n < (kept fm).length := fun n hn => (old_rankMap hn).2
  have face_kept : ∀ f ∈ kept fm, ∀ n ∈ face m f, n ∈ kept nm := fun f hf n hn => (inm n).2 ⟨f, hf, hn⟩
  have cell_kept : ∀ c ∈ keptCells mask, ∀ s ∈ cell m c, posID s ∈ kept fm := fun c hc s hs => (ifm _).2 ⟨c, hc, s, hs, rfl⟩
  have cells_eq : m'.cells = (keptCells mask).map (fun c => (cell m c).map (oldS (rankMap fm 0))) := by
    have hp := kept_prefix hgood
    rw [f4]
    conv_rhs => rw [hp]
    apply List.map_congr_left
    intro c hcr
    have hck : c ∈ keptCells mask := by rw [hp]; exact hcr
    rw [if_pos (mem_keptCells.1 hck), liveFaces]
    congr 1
    apply List.filter_eq_self.2
    intro s hs
    simpa using cell_kept c hck s hs
  refine ⟨m', kept nm, kept fm, ?_, ?_, f8, f9, f10⟩
  · unfold deleteCells
    rw [Res.bind_eq, Res.assert_true dbg hne, Res.bind_ok, Res.bind_eq, maskOut_ones dbg _ ids hid, Res.bind_ok, hmask, Res.bind_eq, e1, Res.bind_ok]
    unfold cleanMeshMasks
    rw [Res.bind_eq, Res.assert_true dbg (by exact hmaps.nonempty), Res.bind_ok]
    exact e2
  · exact {
      kc_sorted := hsort
      kf_sorted := keptFrom_sorted _ _
      kn_sorted := keptFrom_sorted _ _
      kc_lt := fun c h => by rw [← hm.len]; exact (List.getElem?_eq_some_iff.1 (mem_keptCells.1 h)).1
      kf_iff := ifm
      kn_iff := inm
      nodes := f1
      faces := by
        rw [f2, List.map_map]
        apply List.map_congr_left
        intro f hf
        exact map_old_rank (fun n hn => kn_old n (face_kept f hf n hn))
      faces_lt := by
        rw [f2]
        intro F hF n hn
        obtain ⟨f, hf, rfl⟩ := List.mem_map.1 hF
        obtain ⟨k, hk, rfl⟩ := List.mem_map.1 hn
        exact kn_lt k (face_kept f hf k hk)
      cells := by
        rw [cells_eq, List.map_map]
        apply List.map_congr_left
        intro c hcc
        exact map_oldS_rank (fun s hs => kf_old _ (cell_kept c hcc s hs))
      cells_lt := by
        rw [cells_eq]
        intro C hC s hs
        obtain ⟨c, hcc, rfl⟩ := List.mem_map.1 hC
        obtain ⟨t, ht, rfl⟩ := List.mem_map.1 hs
        rw [posID_oldS]
        exact kf_lt _ (cell_kept c hcc t ht)
      faceCells := by
        rw [f3, List.map_map]
        apply List.map_congr_left
        intro f hf
        have e : (cellsOf m f).filter (keeps mask) = (cellsOf m f).filter (fun s => decide (posID s ∈ keptCells mask)) := by
          apply List.filter_congr; intro s _; simp only [keeps, mem_keptCells]
        simp only [Function.comp_def, e]
        exact map_oldS_rank (fun s hs => (old_cellMapOf (by simpa using (List.mem_filter.1 hs).2)).1)
      faceCells_lt := by
        rw [f3]
        intro X hX s hs
        obtain ⟨f, hf, rfl⟩ := List.mem_map.1 hX
        obtain ⟨t, ht, rfl⟩ := List.mem_map.1 hs
        rw [posID_oldS]
        exact (old_cellMapOf (keeps_iff.1 (List.mem_filter.1 ht).2)).2
      sharedNodes := by
        rw [f5, List.map_map]
        apply List.map_congr_left
        intro l hl
        exact map_old_rank (fun n hn => kn_old n (by simpa using (List.mem_filter.1 hn).2))
      sharedNodes_lt := by
        rw [f5]
        intro l hl n hn
        obtain ⟨l', hl', rfl⟩ := List.mem_map.1 hl
        obtain ⟨k, hk, rfl⟩ := List.mem_map.1 hn
        exact kn_lt k (by simpa using (List.mem_filter.1 hk).2)
      sharedFaces := by
        rw [f6, List.map_map]
        apply List.map_congr_left
        intro l hl
        exact map_old_rank (fun n hn => kf_old n (by simpa using (List.mem_filter.1 hn).2))
      sharedFaces_lt := by
        rw [f6]
        intro l hl n hn
        obtain ⟨l', hl', rfl⟩ := List.mem_map.1 hl
        obtain ⟨k, hk, rfl⟩ := List.mem_map.1 hn
        exact kf_lt k (by simpa using (List.mem_filter.1 hk).2)
      neighborDomains := f7 }

theorem deleteCells_ub (dbg : Bool) (D : Nat) (m : Tess R) (ids : List Nat) (hc : Consistent D m)
    (hid : ∀ c ∈ ids, c < m.cells.length) (hnodes : 0 < numNodes D m) (hface : ∀ C ∈ m.cells, C ≠ [])
    (hbad : ∃ d ∈ ids, ∃ c, d < c ∧ c < m.cells.length ∧ c ∉ ids) :
    deleteCells dbg D m ids = .ub := by
  obtain ⟨d, hd, c, hdc, hcl, hci⟩ := hbad
  have hcells : 0 < m.cells.length := by omega
  have hm : GoodMask m (maskOf m.cells.length ids) := maskOf_good (Or.inr ⟨c, hcl, hci⟩)
  have hfaces : 0 < m.faces.length := by
    have h1 := hface _ (cell_mem hcl)
    obtain ⟨s, hs⟩ := List.exists_mem_of_ne_nil _ h1
    have := hc.cells_lt _ (cell_mem hcl) s hs
    omega
  obtain ⟨nm, fm, e1, l1, l2, ifm, inm⟩ := masks_spec dbg D m _ hc hm hcells hfaces hnodes
  have hmaps := mapsOK hc hm hcells hfaces hnodes l1 l2 ifm
  have hne : ids ≠ [] := List.ne_nil_of_mem hd
  unfold deleteCells
  rw [Res.bind_eq, Res.assert_true dbg hne, Res.bind_ok, Res.bind_eq, maskOut_ones dbg _ ids hid, Res.bind_ok, Res.bind_eq, e1, Res.bind_ok]
  unfold cleanMeshMasks
  rw [Res.bind_eq, Res.assert_true dbg (by exact hmaps.nonempty), Res.bind_ok]
  apply cleanMesh_ub dbg hc hmaps
  -- some kept cell has an index not smaller than the number of kept cells
  have hbig : ∃ x ∈ keptCells (maskOf m.cells.length ids), (keptCells (maskOf m.cells.length ids)).length ≤ x := by
    by_contra hcon
    push Not at hcon
    have hp := kept_prefix (mask := maskOf m.cells.length ids) (fun x hx => hcon x (mem_keptCells.2 hx))
    have h1 : c ∈ keptCells (maskOf m.cells.length ids) := mem_keptCells_maskOf.2 ⟨hcl, hci⟩
    have h2 : c < (keptCells (maskOf m.cells.length ids)).length := hcon c h1
    have h3 : d ∈ keptCells (maskOf m.cells.length ids) := by rw [hp, List.mem_range]; omega
    exact (mem_keptCells_maskOf.1 h3).2 hd
  obtain ⟨x, hx, hx2⟩ := hbig
  refine ⟨x, mem_keptCells.1 hx, hx2, ?_⟩
  have hxl := (mem_keptCells_maskOf.1 hx).1
  obtain ⟨s, hs⟩ := List.exists_mem_of_ne_nil _ (hface _ (cell_mem hxl))
  have : s ∈ (cell m x).filter (fun s => decide (posID s ∈ kept fm)) :=
    List.mem_filter.2 ⟨hs, by simpa using (ifm _).2 ⟨x, hx, s, hs, rfl⟩⟩
  intro e
  rw [liveFaces, List.map_eq_nil_iff] at e
  rw [e] at this
  simp at this

end Verif.Editor
