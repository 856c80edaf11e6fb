import Verif.Model.Comm
import Verif.Spec.Comm
import Verif.Spec.Exchange
import Verif.Proofs.Exchange
import Verif.Proofs.Parallel2
/- What one process makes of its halo mesh. -/
namespace Verif.Exch
open Verif Verif.Mesh Verif.Par
variable {R κ : Type}

/-! ### Removal of neighbours -/

/-- The mesh with the given communication info. -/
def setComm (m : Tess R) (t : List (Nat × List Nat × List Nat)) : Tess R :=
  { m with neighborDomains := t.map (·.1), sharedNodes := t.map (·.2.1), sharedFaces := t.map (·.2.2) }

theorem dropLoop_setComm (m : Tess R) : ∀ (i : Nat) (t : List (Nat × List Nat × List Nat)), i ≤ t.length →
    dropLoop i (setComm m t) = .ok (setComm m ((t.take i).filter (fun e => decide (e.2.1 ≠ [] ∨ e.2.2 ≠ [])) ++ t.drop i))
  | 0, t, _ => by simp [dropLoop]
  | i + 1, t, h => by
    have hi : i < t.length := h
    have e1 : rd (setComm m t).sharedNodes i = .ok t[i].2.1 := by rw [rd_lt (by simpa [setComm] using hi)]; simp [setComm]
    have e2 : rd (setComm m t).sharedFaces i = .ok t[i].2.2 := by rw [rd_lt (by simpa [setComm] using hi)]; simp [setComm]
    have e3 : rd (setComm m t).neighborDomains i = .ok t[i].1 := by rw [rd_lt (by simpa [setComm] using hi)]; simp [setComm]
    have keep : (t[i].2.1 ≠ [] ∨ t[i].2.2 ≠ []) → dropLoop i (setComm m t) = .ok (setComm m ((t.take (i + 1)).filter (fun e => decide (e.2.1 ≠ [] ∨ e.2.2 ≠ [])) ++ t.drop (i + 1))) := by
      intro hk
      rw [dropLoop_setComm m i t (by omega), List.take_succ_eq_append_getElem hi, List.filter_append, List.append_assoc, List.drop_eq_getElem_cons hi,
        List.filter_cons_of_pos (by simpa using hk)]
      rfl
    have er : ({ setComm m t with
        neighborDomains := (setComm m t).neighborDomains.eraseIdx i
        sharedNodes := (setComm m t).sharedNodes.eraseIdx i
        sharedFaces := (setComm m t).sharedFaces.eraseIdx i } : Tess R) = setComm m (t.eraseIdx i) := by
      simp [setComm, List.eraseIdx_map]
    simp only [dropLoop, e1, e2, e3, er, Res.bind_eq, Res.bind_ok, List.length_eq_zero_iff]
    by_cases h1 : t[i].2.1 = []
    · by_cases h2 : t[i].2.2 = []
      · have hl : i ≤ (t.eraseIdx i).length := by rw [List.length_eraseIdx]; split <;> omega
        have htk : (t.eraseIdx i).take i = t.take i := by
          rw [List.eraseIdx_eq_take_drop_succ, List.take_left' (by simp; omega)]
        have hdr : (t.eraseIdx i).drop i = t.drop (i + 1) := by
          rw [List.eraseIdx_eq_take_drop_succ, List.drop_left' (by simp; omega)]
        rw [if_pos h1, if_pos h2, dropLoop_setComm m i _ hl, htk, hdr, List.take_succ_eq_append_getElem hi, List.filter_append,
          List.filter_cons_of_neg (by simp [h1, h2])]
        simp
      · rw [if_pos h1, if_neg h2]; exact keep (Or.inr h2)
    · rw [if_neg h1]; exact keep (Or.inl h1)

theorem comm_setComm (m : Tess R) (t : List (Nat × List Nat × List Nat)) : comm (setComm m t) = t := by
  simp only [comm, setComm, List.zip_map', List.map_id']

theorem dropEmpty_spec {m : Tess R} (hn : m.sharedNodes.length = m.neighborDomains.length) (hf : m.sharedFaces.length = m.neighborDomains.length) :
    dropEmpty m = .ok (setComm m ((comm m).filter fun e => decide (e.2.1 ≠ [] ∨ e.2.2 ≠ []))) := by
  have hl : (comm m).length = m.neighborDomains.length := by simp [comm, hn, hf]
  have hm : setComm m (comm m) = m := by
    unfold setComm comm
    have a1 : (m.neighborDomains.zip (m.sharedNodes.zip m.sharedFaces)).map (·.1) = m.neighborDomains := List.map_fst_zip (by simp [hn, hf])
    have a0 : (m.neighborDomains.zip (m.sharedNodes.zip m.sharedFaces)).map (·.2) = m.sharedNodes.zip m.sharedFaces := List.map_snd_zip (by simp [hn, hf])
    have a2 : (m.neighborDomains.zip (m.sharedNodes.zip m.sharedFaces)).map (·.2.1) = m.sharedNodes := by
      have := congrArg (List.map Prod.fst) a0
      rw [List.map_map, List.map_fst_zip (by omega)] at this
      exact this
    have a3 : (m.neighborDomains.zip (m.sharedNodes.zip m.sharedFaces)).map (·.2.2) = m.sharedFaces := by
      have := congrArg (List.map Prod.snd) a0
      rw [List.map_map, List.map_snd_zip (by omega)] at this
      exact this
    rw [a1, a2, a3]
  have h := dropLoop_setComm m m.neighborDomains.length (comm m) (by omega)
  rw [hm] at h
  unfold dropEmpty
  rw [h, List.take_of_length_le (by omega), List.drop_of_length_le (by omega), List.append_nil]

/-! ### Building the lists -/

theorem mem_cellsBy {g2d : List Nat} {q c : Nat} : c ∈ cellsBy g2d q ↔ g2d[c]? = some q := by
  simp only [cellsBy, List.mem_filter, List.mem_range, decide_eq_true_eq]
  exact ⟨fun h => h.2, fun h => ⟨(List.getElem?_eq_some_iff.1 h).1, h⟩⟩

theorem cellsBy_own {D rank nlocal : Nat} {g2d : List Nat} {m : Tess R} (h : Halo D rank nlocal g2d m) : cellsBy g2d rank = List.range nlocal := by
  refine sorted_ext (filter_range_sorted _ _) List.pairwise_lt_range fun c => ?_
  rw [mem_cellsBy, List.mem_range]
  constructor
  · intro hc; exact (h.own c _ hc).2 rfl
  · intro hc
    have : c < g2d.length := lt_of_lt_of_le hc h.le
    have e : g2d[c]? = some g2d[c] := List.getElem?_eq_getElem this
    rw [e, (h.own c _ e).1 hc]

theorem offsetOf_eq {nd : List Nat} (h : nd.Nodup) {j q : Nat} (hj : nd[j]? = some q) : offsetOf nd q = j := by
  have : ((List.range nd.length).filter fun i => nd[i]? = some q) = [j] := by
    refine sorted_ext (filter_range_sorted _ _) (by simp) fun a => ?_
    simp only [List.mem_filter, List.mem_range, decide_eq_true_eq, List.mem_singleton]
    constructor
    · rintro ⟨ha, he⟩
      obtain ⟨h1, h2⟩ := List.getElem?_eq_some_iff.1 hj
      obtain ⟨h3, h4⟩ := List.getElem?_eq_some_iff.1 he
      exact (List.Nodup.getElem_inj_iff h).1 (h4.trans h2.symm)
    · rintro rfl; exact ⟨(List.getElem?_eq_some_iff.1 hj).1, hj⟩
  simp [offsetOf, this]

theorem file_spec (dbg : Bool) {rank : Nat} {nd : List Nat} (hn : nd.Nodup) (hr : rank ∉ nd) {q : Nat} (hq : q = rank ∨ q ∈ nd) (i : Nat) (t : List (List Nat))
    (ht : t.length = nd.length) : ∃ t', file dbg rank nd q i t = .ok t' ∧ t'.length = nd.length ∧
      ∀ j, j < nd.length → t'.getD j [] = t.getD j [] ++ (if nd.getD j 0 = q then [i] else []) := by
  unfold file
  by_cases h : q = rank
  · rw [if_neg (by simpa using h)]
    refine ⟨t, rfl, ht, ?_⟩
    intro j hj
    rw [if_neg, List.append_nil]
    intro he
    exact hr (by rw [← h, ← he]; exact getD_mem' hj 0)
  · have hq' := hq.resolve_left h
    obtain ⟨j0, hj0, he⟩ := List.getElem_of_mem hq'
    have ho : offsetOf nd q = j0 := offsetOf_eq hn (by rw [List.getElem?_eq_getElem hj0, he])
    rw [if_pos h, ho, Res.assert_true dbg hq', Res.bind_eq, Res.bind_ok, rd_getD' (show j0 < t.length by omega) [], Res.bind_eq, Res.bind_ok, wr_lt (by omega)]
    refine ⟨_, rfl, by simpa using ht, ?_⟩
    intro j hj
    by_cases hjj : j = j0
    · subst hjj
      have : j < t.length := by omega
      rw [if_pos (by simp [hj, he])]
      simp [this]
    · rw [if_neg]
      · simp [List.getElem?_set_ne (fun e => hjj e.symm)]
      · intro e
        have : nd[j] = nd[j0] := by rw [he, ← e]; simp [hj]
        exact hjj ((List.Nodup.getElem_inj_iff hn).1 this)

section
variable {D rank nlocal : Nat} {g2d : List Nat} {m : Tess R}

theorem commNodes_spec (dbg : Bool) (h : Halo D rank nlocal g2d m) :
    ∃ sn, commNodes dbg D rank g2d m = .ok sn ∧ sn.length = m.neighborDomains.length ∧
      ∀ j, j < m.neighborDomains.length → uniq ((sn.getD j []).mergeSort (· ≤ ·)) = nodesOf D m (cellsBy g2d (m.neighborDomains.getD j 0)) := by
  have hc := h.consistent
  obtain ⟨nc, e1, h1, _, h2⟩ := computeNodeCells_spec dbg D m hc.faces_lt hc.cells_lt
  obtain ⟨sn, e, hl, hg⟩ := foldlM_app (N := m.neighborDomains.length) (g := fun t i => do
      let cells ← rd nc i
      cells.foldlM (fun t c => do
        Res.assert dbg (c < g2d.length)
        let q ← rd g2d c
        file dbg rank m.neighborDomains q i t) t)
    (X := fun i j => (nc.getD i []).flatMap fun c => if m.neighborDomains.getD j 0 = g2d.getD c 0 then [i] else []) (List.range nc.length) (by
      intro i hi t ht
      have hi' : i < nc.length := List.mem_range.1 hi
      have e : rd nc i = .ok (nc.getD i []) := rd_getD' hi' []
      simp only [e, Res.bind_eq, Res.bind_ok]
      refine foldlM_app (N := m.neighborDomains.length) (X := fun c j => if m.neighborDomains.getD j 0 = g2d.getD c 0 then [i] else []) (nc.getD i []) ?_ t ht
      intro c hcm t ht
      have hcl : c < g2d.length := by rw [← h.cells]; exact ((h2 i c).1 hcm).1
      simp only [Res.assert_true dbg hcl, Res.bind_ok, rd_getD' hcl 0]
      exact file_spec dbg h.nodup h.self (h.nbr _ (getD_mem' hcl 0)) i t ht)
    (Serialize.resize m.sharedNodes m.neighborDomains.length []) (by simp [Serialize.resize, h.sn])
  refine ⟨sn, by unfold commNodes; rw [e1]; exact e, hl, ?_⟩
  intro j hj
  refine sorted_ext (uniq_sorted _ (mergeSort_le _)) (filter_range_sorted _ _) fun n => ?_
  rw [uniq_mem, List.mem_mergeSort, hg j hj]
  have h0 : (Serialize.resize m.sharedNodes m.neighborDomains.length []).getD j [] = [] := by simp [Serialize.resize, h.sn, hj]
  rw [h0, List.nil_append]
  simp only [nodesOf, List.mem_flatMap, List.mem_range, List.mem_filter, decide_eq_true_eq]
  constructor
  · rintro ⟨i, hi, c, hcm, hm⟩
    split at hm
    · rename_i he
      rw [List.mem_singleton] at hm
      subst hm
      obtain ⟨g1, g2⟩ := (h2 n c).1 hcm
      have hcl : c < g2d.length := by rw [← h.cells]; exact g1
      refine ⟨by omega, c, ?_, g2⟩
      rw [mem_cellsBy, he]; simp [hcl]
    · simp at hm
  · rintro ⟨hn, c, hcm, g2⟩
    rw [mem_cellsBy] at hcm
    obtain ⟨hcl, he⟩ := List.getElem?_eq_some_iff.1 hcm
    refine ⟨n, by omega, c, (h2 n c).2 ⟨by rw [h.cells]; exact hcl, g2⟩, ?_⟩
    rw [if_pos]
    · simp
    · simp only [List.getD_eq_getElem?_getD, hcm, Option.getD_some] at he ⊢

/-- The other cell of face `s` of cell `c` is in `K`. -/
def AcrossTo (m : Tess R) (K : List Nat) (c : Nat) (s : Int) : Prop := (cellsOf m (posID s)).length = 2 ∧ otherCell m (posID s) c ∈ K

instance (m : Tess R) (K : List Nat) (c : Nat) (s : Int) : Decidable (AcrossTo m K c s) := by unfold AcrossTo; infer_instance

/-- Two cells of `L`, or one cell twice, never see the same face across the border to `K`. -/
theorem acrossTo_unique (hc : Consistent D m) {L K : List Nat} (hL : ∀ c ∈ L, c < m.cells.length) (hdis : ∀ x, x ∈ L → ¬ x ∈ K)
    {c c' : Nat} (hco : c ∈ L) (hco' : c' ∈ L) {s s' : Int}
    (hs : s ∈ cell m c) (hs' : s' ∈ cell m c') (he : posID s = posID s') (ha : AcrossTo m K c s) : c = c' ∧ s = s' ∧ (cell m c).count s ≤ 1 := by
  have hcl : c < m.cells.length := hL c hco
  have hcl' : c' < m.cells.length := hL c' hco'
  have hfl : posID s < m.faces.length := hc.cells_lt _ (cell_mem hcl) s hs
  obtain ⟨t, ht, htc⟩ := (cell_face_iff hc hcl hfl).1 ⟨s, hs, rfl⟩
  obtain ⟨t', ht', htc'⟩ := (cell_face_iff hc hcl' hfl).1 ⟨s', hs', he.symm⟩
  obtain ⟨hl, ho⟩ := ha
  have hinv := hc.inverse _ hfl _ hcl
  unfold otherCell at ho
  obtain ⟨f, hf⟩ : ∃ f, f = posID s := ⟨_, rfl⟩
  rw [← hf] at he ht ht' hl ho hinv
  generalize cellsOf m f = X at *
  obtain ⟨a, b, rfl⟩ := List.length_eq_two.1 hl
  simp only [List.getD_cons_zero, List.getD_cons_succ] at ho
  simp only [List.mem_cons, List.not_mem_nil, or_false] at ht ht'
  have key : c = c' := by
    split at ho
    · rename_i e1
      rcases ht' with rfl | rfl
      · omega
      · exact absurd (by rw [htc']; exact hco') (fun hx => hdis _ hx ho)
    · rename_i e1
      have : t = b := by rcases ht with rfl | rfl; · exact absurd htc e1
                         · rfl
      subst this
      rcases ht' with rfl | rfl
      · exact absurd (by rw [htc']; exact hco') (fun hx => hdis _ hx ho)
      · omega
  refine ⟨key, ?_⟩
  subst key
  have hcnt : (cell m c).count (f : Int) + (cell m c).count (flip f) ≤ 1 := by
    rw [← hinv.1, ← hinv.2]
    have hx : ∀ x : Int, posID x ≠ c → ([x].count (c : Int) = 0 ∧ [x].count (flip c) = 0) := by
      intro x hx
      constructor
      · rw [List.count_eq_zero]; intro hm; rw [List.mem_singleton] at hm; apply hx; rw [← hm]; simp
      · rw [List.count_eq_zero]; intro hm; rw [List.mem_singleton] at hm; apply hx; rw [← hm]; simp
    have hone : ∀ x : Int, [x].count (c : Int) + [x].count (flip c) ≤ 1 := by
      intro x
      have hne : (c : Int) ≠ flip c := by simp only [flip]; omega
      by_cases h1 : x = c
      · subst h1; rw [List.count_singleton, List.count_singleton]; simp [hne]
      · have : ([x].count (c : Int)) = 0 := by rw [List.count_eq_zero]; simp [Ne.symm h1]
        have := List.count_le_length (a := flip c) (l := [x])
        simp only [List.length_singleton] at this
        omega
    have split2 : ∀ y : Int, ([a, b] : List Int).count y = [a].count y + [b].count y := fun y => List.count_append (l₁ := [a]) (l₂ := [b])
    rw [split2, split2]
    split at ho
    · have := hx b (by intro e; rw [e] at ho; exact hdis _ hco ho)
      have := hone a; omega
    · rename_i e1
      have := hx a e1
      have := hone b; omega
  have h1 := posID_eq_iff.1 hf.symm
  have h2 := posID_eq_iff.1 he.symm
  have p1 : 0 < (cell m c).count s := List.count_pos_iff.2 hs
  have p2 : 0 < (cell m c).count s' := List.count_pos_iff.2 hs'
  rcases h1 with rfl | rfl <;> rcases h2 with rfl | rfl
  · exact ⟨rfl, by omega⟩
  · omega
  · omega
  · exact ⟨rfl, by omega⟩

theorem otherCell_mem {f c : Nat} (hl : (cellsOf m f).length = 2) : ∃ x ∈ cellsOf m f, posID x = otherCell m f c := by
  unfold otherCell
  split
  · exact ⟨_, getD_mem' (by omega) 0, rfl⟩
  · exact ⟨_, getD_mem' (by omega) 0, rfl⟩

theorem commFace_spec (dbg : Bool) (h : Halo D rank nlocal g2d m) {c : Nat} (hco : c < nlocal) {s : Int} (hs : s ∈ cell m c) (t : List (List Nat))
    (ht : t.length = m.neighborDomains.length) :
    ∃ t', commFace dbg rank g2d m c t s = .ok t' ∧ t'.length = m.neighborDomains.length ∧
      ∀ j, j < m.neighborDomains.length → t'.getD j [] = t.getD j [] ++ (if AcrossTo m (cellsBy g2d (m.neighborDomains.getD j 0)) c s then [posID s] else []) := by
  have hc := h.consistent
  have hcl : c < m.cells.length := by rw [h.cells]; exact lt_of_lt_of_le hco h.le
  have hfl : posID s < m.faces.length := hc.cells_lt _ (cell_mem hcl) s hs
  have hfl' : posID s < m.faceCells.length := by rw [hc.faceCells_len]; exact hfl
  have hmem : cellsOf m (posID s) ∈ m.faceCells := cellsOf_mem hfl'
  obtain ⟨u, hu, huc⟩ := (cell_face_iff hc hcl hfl).1 ⟨s, hs, rfl⟩
  have hlt := hc.faceCells_lt _ hmem
  have e0 : rd m.faceCells (posID s) = .ok (cellsOf m (posID s)) := rd_getD' hfl' []
  have hsz := hc.faceCells_size _ hmem
  unfold commFace
  simp only [e0, Res.bind_eq, Res.bind_ok, Res.assert_true dbg hsz]
  by_cases h2 : (cellsOf m (posID s)).length = 2
  · have r0 : rd (cellsOf m (posID s)) 0 = .ok ((cellsOf m (posID s)).getD 0 0) := rd_getD' (by omega) 0
    have r1 : rd (cellsOf m (posID s)) 1 = .ok ((cellsOf m (posID s)).getD 1 0) := rd_getD' (by omega) 0
    have hor : posID ((cellsOf m (posID s)).getD 0 0) = c ∨ posID ((cellsOf m (posID s)).getD 1 0) = c := by
      generalize cellsOf m (posID s) = X at *
      obtain ⟨a, b, rfl⟩ := List.length_eq_two.1 h2
      simp only [List.mem_cons, List.not_mem_nil, or_false] at hu
      rcases hu with rfl | rfl
      · left; exact huc
      · right; exact huc
    rw [if_pos h2]
    simp only [r0, r1, Res.bind_ok, Res.assert_true dbg hor]
    obtain ⟨x, hx, hxo⟩ := otherCell_mem (c := c) h2
    have hol : otherCell m (posID s) c < g2d.length := by rw [← hxo, ← h.cells]; exact hlt x hx
    have hoc : (if posID ((cellsOf m (posID s)).getD 0 0) = c then posID ((cellsOf m (posID s)).getD 1 0) else posID ((cellsOf m (posID s)).getD 0 0)) =
      otherCell m (posID s) c := rfl
    rw [hoc, Res.assert_true dbg hol, Res.bind_ok, rd_getD' hol 0, Res.bind_ok]
    obtain ⟨t', e, hl, hg⟩ := file_spec dbg h.nodup h.self (h.nbr _ (getD_mem' hol 0)) (posID s) t ht
    refine ⟨t', e, hl, fun j hj => ?_⟩
    rw [hg j hj]
    have : m.neighborDomains.getD j 0 = g2d.getD (otherCell m (posID s) c) 0 ↔ AcrossTo m (cellsBy g2d (m.neighborDomains.getD j 0)) c s := by
      unfold AcrossTo
      rw [mem_cellsBy]
      simp only [h2, true_and, List.getD_eq_getElem?_getD, List.getElem?_eq_getElem hol, Option.getD_some, Option.some.injEq]
      exact eq_comm
    simp only [this]
  · rw [if_neg h2]
    refine ⟨t, rfl, ht, fun j hj => ?_⟩
    rw [if_neg (fun hx => h2 hx.1), List.append_nil]

theorem nbr_ne (h : Halo D rank nlocal g2d m) {j : Nat} (hj : j < m.neighborDomains.length) : m.neighborDomains.getD j 0 ≠ rank := by
  intro e
  exact h.self (by rw [← e]; exact getD_mem' hj 0)

theorem commFaces_spec (dbg : Bool) (h : Halo D rank nlocal g2d m) :
    ∃ sf, commFaces dbg rank nlocal g2d m = .ok sf ∧ sf.length = m.neighborDomains.length ∧
      ∀ j, j < m.neighborDomains.length → (sf.getD j []).Perm (facesBetween m (cellsBy g2d rank) (cellsBy g2d (m.neighborDomains.getD j 0))) := by
  have hc := h.consistent
  have hown := cellsBy_own h
  obtain ⟨sf, e, hl, hg⟩ := foldlM_app (N := m.neighborDomains.length) (g := fun t icell => do
      let C ← rd m.cells icell
      C.foldlM (commFace dbg rank g2d m icell) t)
    (X := fun c j => (cell m c).flatMap fun s => if AcrossTo m (cellsBy g2d (m.neighborDomains.getD j 0)) c s then [posID s] else []) (List.range nlocal) (by
      intro c hco t ht
      have hco' : c < nlocal := List.mem_range.1 hco
      have hcl : c < m.cells.length := by rw [h.cells]; exact lt_of_lt_of_le hco' h.le
      have e : rd m.cells c = .ok (cell m c) := rd_getD' hcl []
      simp only [e, Res.bind_eq, Res.bind_ok]
      exact foldlM_app (N := m.neighborDomains.length) (X := fun s j => if AcrossTo m (cellsBy g2d (m.neighborDomains.getD j 0)) c s then [posID s] else []) (cell m c)
        (fun s hs t ht => commFace_spec dbg h hco' hs t ht) t ht)
    (Serialize.resize m.sharedFaces m.neighborDomains.length []) (by simp [Serialize.resize, h.sf])
  refine ⟨sf, e, hl, fun j hj => ?_⟩
  have hg' := hg j hj
  have h0 : (Serialize.resize m.sharedFaces m.neighborDomains.length []).getD j [] = [] := by simp [Serialize.resize, h.sf, hj]
  rw [h0, List.nil_append, ← hown] at hg'
  obtain ⟨q, hq⟩ : ∃ q, q = m.neighborDomains.getD j 0 := ⟨_, rfl⟩
  have hqr : q ≠ rank := hq ▸ nbr_ne h hj
  rw [← hq] at hg' ⊢
  have hcb : ∀ r c, c ∈ cellsBy g2d r → c < m.cells.length := fun r c hcm => by
    rw [h.cells]; exact (List.getElem?_eq_some_iff.1 (mem_cellsBy.1 hcm)).1
  have hdis : ∀ x, x ∈ cellsBy g2d rank → ¬ x ∈ cellsBy g2d q := by
    intro x h1 h2
    rw [mem_cellsBy] at h1 h2
    rw [h1] at h2
    exact hqr (Option.some.inj h2).symm
  have hnodup : (sf.getD j []).Nodup := by
    rw [hg', List.nodup_flatMap]
    constructor
    · intro c hco
      rw [List.nodup_iff_count_le_one]
      intro f
      by_cases hx : ∃ s ∈ cell m c, posID s = f ∧ AcrossTo m (cellsBy g2d q) c s
      · obtain ⟨s0, hs0, hf0, ha0⟩ := hx
        have hcnt := (acrossTo_unique hc (hcb rank) hdis hco hco hs0 hs0 rfl ha0).2.2
        refine le_trans ?_ hcnt
        apply count_flatMap_le
        · intro s hs
          split
          · by_cases hss : posID s = f
            · have := (acrossTo_unique hc (hcb rank) hdis hco hco hs0 hs (hf0.trans hss.symm) ha0).2.1
              rw [if_pos this.symm]
              exact List.count_le_length
            · have h0 : List.count f [posID s] = 0 := by rw [List.count_eq_zero]; simp [Ne.symm hss]
              rw [h0]; omega
          · simp
      · have : List.count f ((cell m c).flatMap fun s => if AcrossTo m (cellsBy g2d q) c s then [posID s] else []) = 0 := by
          rw [List.count_eq_zero, List.mem_flatMap]
          rintro ⟨s, hs, hm⟩
          split at hm
          · rename_i ha
            rw [List.mem_singleton] at hm
            exact hx ⟨s, hs, hm.symm, ha⟩
          · simp at hm
        omega
    · have hpl : (cellsBy g2d rank).Nodup := by rw [hown]; exact List.nodup_range
      refine List.Pairwise.imp_of_mem ?_ hpl
      intro c c' hco hco' hcc
      simp only [Function.onFun]
      rw [List.disjoint_left]
      intro f hf hf'
      simp only [List.mem_flatMap] at hf hf'
      obtain ⟨s, hs, hm⟩ := hf
      obtain ⟨s', hs', hm'⟩ := hf'
      split at hm
      · rename_i ha
        split at hm'
        · rw [List.mem_singleton] at hm hm'
          exact hcc (acrossTo_unique hc (hcb rank) hdis hco hco' hs hs' (hm.symm.trans hm') ha).1
        · simp at hm'
      · simp at hm
  refine (List.perm_ext_iff_of_nodup hnodup (List.Nodup.filter _ List.nodup_range)).2 fun f => ?_
  rw [hg']
  simp only [List.mem_filter, List.mem_range, decide_eq_true_eq, List.mem_flatMap]
  constructor
  · rintro ⟨c, hco, s, hs, hm⟩
    split at hm
    · rename_i ha
      rw [List.mem_singleton] at hm
      subst hm
      have hfl : posID s < m.faces.length := hc.cells_lt _ (cell_mem (hcb _ _ hco)) s hs
      refine ⟨hfl, ⟨c, hco, s, hs, rfl⟩, ?_⟩
      obtain ⟨hl2, ho⟩ := ha
      obtain ⟨s', h1, h2⟩ := (cell_face_iff hc (hcb _ _ ho) hfl).2 (otherCell_mem hl2)
      exact ⟨_, ho, s', h1, h2⟩
    · simp at hm
  · rintro ⟨hfl, ⟨c, hco, s, hs, rfl⟩, ⟨c', hco', s', hs', he⟩⟩
    refine ⟨c, hco, s, hs, ?_⟩
    have hne' : c ≠ c' := fun e => hdis c hco (e ▸ hco')
    obtain ⟨t, ht, htc⟩ := (cell_face_iff hc (hcb _ _ hco) hfl).1 ⟨s, hs, rfl⟩
    obtain ⟨t', ht', htc'⟩ := (cell_face_iff hc (hcb _ _ hco') hfl).1 ⟨s', hs', he⟩
    have hsz := hc.faceCells_size _ (cellsOf_mem (show posID s < m.faceCells.length by rw [hc.faceCells_len]; exact hfl))
    rw [if_pos, List.mem_singleton]
    have key : (cellsOf m (posID s)).length = 2 ∧ otherCell m (posID s) c = c' := by
      unfold otherCell
      generalize cellsOf m (posID s) = X at *
      rcases hsz with hsz | hsz
      · obtain ⟨a, rfl⟩ := List.length_eq_one_iff.1 hsz
        rw [List.mem_singleton] at ht ht'
        subst ht; subst ht'; exact absurd (htc.symm.trans htc') hne'
      · obtain ⟨a, b, rfl⟩ := List.length_eq_two.1 hsz
        refine ⟨rfl, ?_⟩
        simp only [List.getD_cons_zero, List.getD_cons_succ]
        simp only [List.mem_cons, List.not_mem_nil, or_false] at ht ht'
        rcases ht with rfl | rfl <;> rcases ht' with rfl | rfl
        · exact absurd (htc.symm.trans htc') hne'
        · rw [if_pos htc]; exact htc'
        · rw [if_neg (fun e => hne' (e.symm.trans htc'))]; exact htc'
        · exact absurd (htc.symm.trans htc') hne'
    exact ⟨key.1, key.2 ▸ hco'⟩

theorem sorts_by [LinearOrder κ] {srt : List (κ × Nat) → List (κ × Nat)} (hs : Sorts srt) (k : Nat → κ) (l : List Nat) :
    ((srt (l.map fun i => (k i, i))).map Prod.snd).Perm l ∧ ((srt (l.map fun i => (k i, i))).map Prod.snd).Pairwise fun a b => k a ≤ k b := by
  obtain ⟨h1, h2⟩ := hs (l.map fun i => (k i, i))
  constructor
  · have := h1.map Prod.snd
    rw [List.map_map] at this
    simpa [Function.comp_def] using this
  · rw [List.pairwise_map]
    have he : ∀ e ∈ srt (l.map fun i => (k i, i)), e.1 = k e.2 := by
      intro e he
      obtain ⟨i, _, rfl⟩ := List.mem_map.1 (h1.mem_iff.1 he)
      rfl
    refine List.Pairwise.imp_of_mem ?_ h2
    intro a b ha hb hab
    rw [← he a ha, ← he b hb]; exact hab

theorem sortNodes_spec (key : List R → κ) (srt : List (κ × Nat) → List (κ × Nat)) {l : List Nat} (hl : ∀ i ∈ l, i < numNodes D m) :
    sortNodes D key srt m l = .ok ((srt (l.map fun i => (key (node D m i), i))).map Prod.snd) := by
  unfold sortNodes
  rw [mapM_pure (f := fun i => (key (node D m i), i)) l]
  · rfl
  · intro i hi
    rw [mapM_rd (hl i hi)]
    rfl

theorem sortFaces_spec {fkey : Tess R → Nat → Res κ} {fk : List (List R) → κ} (srt : List (κ × Nat) → List (κ × Nat))
    (hk : ∀ f, f < m.faces.length → fkey m f = .ok (fk (faceCoords D m f))) {l : List Nat} (hl : ∀ i ∈ l, i < m.faces.length) :
    sortFaces fkey srt m l = .ok ((srt (l.map fun i => (fk (faceCoords D m i), i))).map Prod.snd) := by
  unfold sortFaces
  rw [mapM_pure (f := fun i => (fk (faceCoords D m i), i)) l]
  · rfl
  · intro i hi
    rw [hk i (hl i hi)]
    rfl

theorem buildComm_spec [LinearOrder κ] (dbg : Bool) (h : Halo D rank nlocal g2d m) {key : List R → κ} {fkey : Tess R → Nat → Res κ} {fk : List (List R) → κ}
    (hk : ∀ f, f < m.faces.length → fkey m f = .ok (fk (faceCoords D m f))) {srt : List (κ × Nat) → List (κ × Nat)} (hs : Sorts srt) :
    ∃ sn sf, buildComm dbg D rank nlocal g2d key fkey srt m = .ok { m with sharedNodes := sn, sharedFaces := sf } ∧
      sn.length = m.neighborDomains.length ∧ sf.length = m.neighborDomains.length ∧
      ∀ j, j < m.neighborDomains.length →
        ((sn.getD j []).Perm (nodesOf D m (cellsBy g2d (m.neighborDomains.getD j 0))) ∧ (sn.getD j []).Pairwise fun a b => key (node D m a) ≤ key (node D m b)) ∧
        ((sf.getD j []).Perm (facesBetween m (cellsBy g2d rank) (cellsBy g2d (m.neighborDomains.getD j 0))) ∧
          (sf.getD j []).Pairwise fun a b => fk (faceCoords D m a) ≤ fk (faceCoords D m b)) := by
  obtain ⟨sf, e1, l1, g1⟩ := commFaces_spec dbg h
  obtain ⟨sn, e2, l2, g2⟩ := commNodes_spec dbg h
  have a1 : (sn.map fun l => uniq (l.mergeSort (· ≤ ·))).mapM (sortNodes D key srt m) =
      .ok ((sn.map fun l => uniq (l.mergeSort (· ≤ ·))).map fun l => (srt (l.map fun i => (key (node D m i), i))).map Prod.snd) := by
    refine mapM_pure _ fun l hl => sortNodes_spec key srt fun i hi => ?_
    obtain ⟨l0, hl0, rfl⟩ := List.mem_map.1 hl
    obtain ⟨j, hj, rfl⟩ := List.getElem_of_mem hl0
    have := g2 j (by omega)
    have hj2 : sn.getD j [] = sn[j] := by simp [hj]
    rw [hj2] at this
    rw [this] at hi
    exact List.mem_range.1 (List.mem_filter.1 hi).1
  have a2 : sf.mapM (sortFaces fkey srt m) = .ok (sf.map fun l => (srt (l.map fun i => (fk (faceCoords D m i), i))).map Prod.snd) := by
    refine mapM_pure _ fun l hl => sortFaces_spec srt hk fun i hi => ?_
    obtain ⟨j, hj, rfl⟩ := List.getElem_of_mem hl
    have := g1 j (by omega)
    have hj2 : sf.getD j [] = sf[j] := by simp [hj]
    rw [hj2] at this
    exact List.mem_range.1 (List.mem_filter.1 (this.mem_iff.1 hi)).1
  refine ⟨(sn.map fun l => uniq (l.mergeSort (· ≤ ·))).map fun l => (srt (l.map fun i => (key (node D m i), i))).map Prod.snd,
    sf.map fun l => (srt (l.map fun i => (fk (faceCoords D m i), i))).map Prod.snd, ?_, ?_, ?_, ?_⟩
  · unfold buildComm
    rw [Res.assert_true dbg h.nodup, e1, e2]
    simp only [Res.bind_eq, Res.bind_ok]
    rw [a1]
    simp only [Res.bind_ok]
    rw [a2]
    rfl
  · simp [l2]
  · simp [l1]
  · intro j hj
    have hj1 : j < sn.length := by omega
    have hj2 : j < sf.length := by omega
    have s1 := sorts_by hs (fun i => key (node D m i)) (uniq ((sn.getD j []).mergeSort (· ≤ ·)))
    have s2 := sorts_by hs (fun i => fk (faceCoords D m i)) (sf.getD j [])
    rw [g2 j hj] at s1
    have t1 : ((sn.map fun l => uniq (l.mergeSort (· ≤ ·))).map fun l => (srt (l.map fun i => (key (node D m i), i))).map Prod.snd).getD j [] =
        (srt ((nodesOf D m (cellsBy g2d (m.neighborDomains.getD j 0))).map fun i => (key (node D m i), i))).map Prod.snd := by
      rw [← g2 j hj]; simp [hj1]
    have t2 : (sf.map fun l => (srt (l.map fun i => (fk (faceCoords D m i), i))).map Prod.snd).getD j [] =
        (srt ((sf.getD j []).map fun i => (fk (faceCoords D m i), i))).map Prod.snd := by
      simp [hj2]
    rw [t1, t2]
    exact ⟨s1, s2.1.trans (g1 j hj), s2.2⟩

theorem keptCells_local (a b : Nat) : keptCells (List.replicate a 1 ++ List.replicate b 0) = List.range a := by
  refine sorted_ext (filter_range_sorted _ _) List.pairwise_lt_range fun c => ?_
  simp only [keptCells, List.mem_filter, List.mem_range, List.length_append, List.length_replicate, decide_eq_true_eq, List.getElem?_append, List.getElem?_replicate]
  constructor
  · rintro ⟨_, h⟩
    by_contra hc
    rw [if_neg hc] at h
    split at h <;> simp at h
  · intro h; exact ⟨by omega, by simp [h]⟩

/-- What is recorded about one neighbour. -/
structure Entry [LinearOrder κ] (D rank : Nat) (g2d : List Nat) (key : List R → κ) (fk : List (List R) → κ) (m m' : Tess R) (e : Nat × List Nat × List Nat) : Prop where
  nlt : ∀ a ∈ e.2.1, a < numNodes D m'
  flt : ∀ a ∈ e.2.2, a < m'.faces.length
  nperm : (e.2.1.map (old (nodesOf D m (cellsBy g2d rank)))).Perm (nodesBetween D m (cellsBy g2d rank) (cellsBy g2d e.1))
  npair : e.2.1.Pairwise fun a b => key (node D m' a) ≤ key (node D m' b)
  fperm : (e.2.2.map (old (facesOf m (cellsBy g2d rank)))).Perm (facesBetween m (cellsBy g2d rank) (cellsBy g2d e.1))
  fpair : e.2.2.Pairwise fun a b => fk (faceCoords D m' a) ≤ fk (faceCoords D m' b)

theorem Entry.drop [LinearOrder κ] {key : List R → κ} {fk : List (List R) → κ} {m' : Tess R} {e : Nat × List Nat × List Nat} (h : Halo D rank nlocal g2d m)
    (he : Entry D rank g2d key fk m m' e) : (e.2.1 ≠ [] ∨ e.2.2 ≠ []) ↔ nodesBetween D m (cellsBy g2d rank) (cellsBy g2d e.1) ≠ [] := by
  have h1 : e.2.1 ≠ [] ↔ nodesBetween D m (cellsBy g2d rank) (cellsBy g2d e.1) ≠ [] := by
    have := he.nperm.length_eq
    rw [List.length_map] at this
    rw [← List.length_pos_iff, ← List.length_pos_iff, this]
  rw [h1, or_iff_left_iff_imp]
  intro h2
  have h3 : facesBetween m (cellsBy g2d rank) (cellsBy g2d e.1) ≠ [] := by
    have := he.fperm.length_eq
    rw [List.length_map] at this
    rw [← List.length_pos_iff] at h2 ⊢
    omega
  obtain ⟨f, hf⟩ := List.exists_mem_of_ne_nil _ h3
  simp only [facesBetween, List.mem_filter, List.mem_range, decide_eq_true_eq] at hf
  obtain ⟨hfl, ⟨c, hc, s, hs, hsf⟩, ⟨c', hc', s', hs', hsf'⟩⟩ := hf
  obtain ⟨n, hn⟩ := List.exists_mem_of_ne_nil _ (h.faces_ne _ (face_mem hfl))
  refine List.ne_nil_of_mem (a := n) ?_
  simp only [nodesBetween, List.mem_filter, List.mem_range, decide_eq_true_eq]
  exact ⟨h.consistent.faces_lt _ (face_mem hfl) n hn, ⟨c, hc, s, hs, by rw [hsf]; exact hn⟩, ⟨c', hc', s', hs', by rw [hsf']; exact hn⟩⟩

theorem localMesh_spec [LinearOrder κ] (dbg : Bool) (h : Halo D rank nlocal g2d m) {key : List R → κ} {fkey : Tess R → Nat → Res κ} {fk : List (List R) → κ}
    (hk : ∀ f, f < m.faces.length → fkey m f = .ok (fk (faceCoords D m f))) {srt : List (κ × Nat) → List (κ × Nat)} (hs : Sorts srt)
    (hpos : dbg = true → 0 < nlocal) :
    ∃ m', localMesh dbg D rank nlocal g2d true key fkey srt m = .ok m' ∧ LocalPart D rank g2d key fk m m' := by
  have hc := h.consistent
  obtain ⟨sn, sf, e1, l1, l2, g⟩ := buildComm_spec dbg h (key := key) hk hs
  have hown := cellsBy_own h
  have hcb : ∀ r c, c ∈ cellsBy g2d r → c < m.cells.length := fun r c hcm => by
    rw [h.cells]; exact (List.getElem?_eq_some_iff.1 (mem_cellsBy.1 hcm)).1
  obtain ⟨m1, hm1⟩ : ∃ m1, m1 = { m with sharedNodes := sn, sharedFaces := sf } := ⟨_, rfl⟩
  have hc1 : Consistent D m1 := by
    subst hm1
    exact ⟨hc.dim_pos, hc.nodes_dvd, hc.faces_lt, hc.cells_lt, hc.faceCells_len, hc.faceCells_size, hc.faceCells_lt, hc.inverse⟩
  have hcomm : CommOK D m1 := by
    subst hm1
    refine ⟨by simp only; omega, ?_, ?_⟩
    · intro l hl n hn
      obtain ⟨j, hj, rfl⟩ := List.getElem_of_mem hl
      have := (g j (by simp only at hj; omega)).1.1
      have hj2 : sn.getD j [] = sn[j] := by simp only at hj; simp [hj]
      rw [hj2] at this
      exact List.mem_range.1 (List.mem_filter.1 (this.mem_iff.1 hn)).1
    · intro l hl n hn
      obtain ⟨j, hj, rfl⟩ := List.getElem_of_mem hl
      have := (g j (by simp only at hj; omega)).2.1
      have hj2 : sf.getD j [] = sf[j] := by simp only at hj; simp [hj]
      rw [hj2] at this
      exact List.mem_range.1 (List.mem_filter.1 (this.mem_iff.1 hn)).1
  have hcl : m1.cells.length = g2d.length := by subst hm1; exact h.cells
  have hle : nlocal ≤ m1.cells.length := by rw [hcl]; exact h.le
  obtain ⟨m2, kn, kf, e2, hR, -, -, -⟩ := deleteCells_spec' dbg D m1 (List.replicate nlocal 1 ++ List.replicate (m1.cells.length - nlocal) 0) hc1 hcomm
    (by simp; omega) (by
      intro k hk
      rcases List.mem_append.1 hk with hk | hk
      · exact Or.inr (List.eq_of_mem_replicate hk)
      · exact Or.inl (List.eq_of_mem_replicate hk)) (by
      intro hd
      right
      exact List.mem_append_left _ (List.mem_replicate.2 ⟨by have := hpos hd; omega, rfl⟩))
  rw [keptCells_local, ← hown] at hR
  have hkf : kf = facesOf m (cellsBy g2d rank) := by
    refine sorted_ext hR.kf_sorted (filter_range_sorted _ _) fun f => ?_
    simp only [facesOf, List.mem_filter, List.mem_range, decide_eq_true_eq]
    have hiff : f ∈ kf ↔ FaceUsed m (cellsBy g2d rank) f := by rw [hR.kf_iff]; subst hm1; rfl
    rw [hiff]
    exact ⟨fun hf => ⟨faceUsed_lt hc hf (hcb rank), hf⟩, fun hf => hf.2⟩
  have hkn : kn = nodesOf D m (cellsBy g2d rank) := by
    refine sorted_ext hR.kn_sorted (filter_range_sorted _ _) fun n => ?_
    simp only [nodesOf, List.mem_filter, List.mem_range, decide_eq_true_eq]
    have hiff : n ∈ kn ↔ NodeUsed m (cellsBy g2d rank) n := by
      rw [hR.kn_iff]
      constructor
      · rintro ⟨f, hf, hn⟩
        rw [hR.kf_iff] at hf
        obtain ⟨c, h1, s, h2, h3⟩ := hf
        subst hm1
        exact ⟨c, h1, s, h2, by rw [h3]; exact hn⟩
      · rintro ⟨c, h1, s, h2, h3⟩
        subst hm1
        exact ⟨posID s, (hR.kf_iff _).2 ⟨c, h1, s, h2, rfl⟩, h3⟩
    rw [hiff]
    exact ⟨fun hf => ⟨nodeUsed_lt hc hf (hcb rank), hf⟩, fun hf => hf.2⟩
  have hnd2 : m2.neighborDomains = m.neighborDomains := by rw [hR.neighborDomains]; subst hm1; rfl
  have hsn2 : m2.sharedNodes.length = m2.neighborDomains.length := by
    have := congrArg List.length hR.sharedNodes
    simp only [List.length_map] at this
    rw [this, hnd2]; subst hm1; exact l1
  have hsf2 : m2.sharedFaces.length = m2.neighborDomains.length := by
    have := congrArg List.length hR.sharedFaces
    simp only [List.length_map] at this
    rw [this, hnd2]; subst hm1; exact l2
  have hnn : numNodes D m2 = kn.length := hR.numNodes_eq hc1
  have hff : m2.faces.length = kf.length := hR.faces_length
  have hent : ∀ e ∈ comm m2, Entry D rank g2d key fk m m2 e := by
    intro e he
    obtain ⟨j, hj, rfl⟩ := List.getElem_of_mem he
    have hjl : j < m.neighborDomains.length := by
      have : (comm m2).length = m.neighborDomains.length := by simp [comm, hsn2, hsf2, hnd2]
      omega
    have hj1 : j < m2.sharedNodes.length := by rw [hsn2, hnd2]; exact hjl
    have hj2 : j < m2.sharedFaces.length := by rw [hsf2, hnd2]; exact hjl
    have hej : (comm m2)[j] = (m.neighborDomains.getD j 0, m2.sharedNodes.getD j [], m2.sharedFaces.getD j []) := by
      simp only [comm, List.getElem_zip]
      simp [hj1, hj2, hjl, hnd2]
    rw [hej]
    obtain ⟨⟨p1, p2⟩, p3, p4⟩ := g j hjl
    have q1 : (m2.sharedNodes.getD j []).map (old kn) = (sn.getD j []).filter fun n => decide (n ∈ kn) := by
      have hjs : j < sn.length := by omega
      have := congrArg (fun l => l[j]?) hR.sharedNodes
      simp only [List.getElem?_map] at this
      subst hm1
      simp only [List.getElem?_eq_getElem hjs, List.getElem?_eq_getElem hj1, Option.map_some, Option.some.injEq] at this
      simpa [hjs, hj1] using this
    have q2 : (m2.sharedFaces.getD j []).map (old kf) = (sf.getD j []).filter fun n => decide (n ∈ kf) := by
      have hjs : j < sf.length := by omega
      have := congrArg (fun l => l[j]?) hR.sharedFaces
      simp only [List.getElem?_map] at this
      subst hm1
      simp only [List.getElem?_eq_getElem hjs, List.getElem?_eq_getElem hj2, Option.map_some, Option.some.injEq] at this
      simpa [hjs, hj2] using this
    have nlt : ∀ a ∈ m2.sharedNodes.getD j [], a < kn.length := fun a ha => hR.sharedNodes_lt _ (getD_mem_list hj1 []) a ha
    have flt : ∀ a ∈ m2.sharedFaces.getD j [], a < kf.length := fun a ha => hR.sharedFaces_lt _ (getD_mem_list hj2 []) a ha
    refine ⟨by rw [hnn]; exact nlt, by rw [hff]; exact flt, ?_, ?_, ?_, ?_⟩
    · simp only
      rw [← hkn, q1]
      refine (p1.filter _).trans ?_
      have : ((nodesOf D m (cellsBy g2d (m.neighborDomains.getD j 0))).filter fun n => decide (n ∈ kn)) =
          nodesBetween D m (cellsBy g2d rank) (cellsBy g2d (m.neighborDomains.getD j 0)) := by
        rw [hkn]
        refine sorted_ext (List.Pairwise.filter _ (filter_range_sorted _ _)) (filter_range_sorted _ _) fun n => ?_
        simp only [nodesOf, nodesBetween, List.mem_filter, List.mem_range, decide_eq_true_eq]
        exact ⟨fun ⟨⟨h1, h2⟩, _, h3⟩ => ⟨h1, h3, h2⟩, fun ⟨h1, h2, h3⟩ => ⟨⟨h1, h3⟩, h1, h2⟩⟩
      rw [this]
    · have : ((m2.sharedNodes.getD j []).map (old kn)).Pairwise fun a b => key (node D m a) ≤ key (node D m b) := by
        rw [q1]; exact p2.filter _
      rw [List.pairwise_map] at this
      refine List.Pairwise.imp_of_mem ?_ this
      intro a b ha hb hab
      rw [hR.node_eq hc1 (nlt a ha), hR.node_eq hc1 (nlt b hb)]
      subst hm1; exact hab
    · simp only
      rw [← hkf, q2]
      refine (p3.filter _).trans ?_
      have : ((facesBetween m (cellsBy g2d rank) (cellsBy g2d (m.neighborDomains.getD j 0))).filter fun n => decide (n ∈ kf)) =
          facesBetween m (cellsBy g2d rank) (cellsBy g2d (m.neighborDomains.getD j 0)) := by
        rw [List.filter_eq_self]
        intro f hf
        rw [hkf]
        simp only [facesBetween, facesOf, List.mem_filter, List.mem_range, decide_eq_true_eq] at hf ⊢
        exact ⟨hf.1, hf.2.1⟩
      rw [this]
    · have : ((m2.sharedFaces.getD j []).map (old kf)).Pairwise fun a b => fk (faceCoords D m a) ≤ fk (faceCoords D m b) := by
        rw [q2]; exact p4.filter _
      rw [List.pairwise_map] at this
      refine List.Pairwise.imp_of_mem ?_ this
      intro a b ha hb hab
      have hfc : ∀ a, a < kf.length → faceCoords D m2 a = faceCoords D m (old kf a) := by
        intro a ha
        have := congrArg Prod.snd (hR.faceGeom_eq hc1 (s := (a : Int)) (by simpa using ha))
        simp only [faceGeom, posID_oldS] at this
        subst hm1
        rw [posID_natCast] at this
        exact this
      rw [hfc a (flt a ha), hfc b (flt b hb)]
      exact hab
  have hfin := dropEmpty_spec hsn2 hsf2
  refine ⟨setComm m2 ((comm m2).filter fun e => decide (e.2.1 ≠ [] ∨ e.2.2 ≠ [])), ?_, ?_⟩
  · unfold localMesh
    rw [if_pos rfl, e1, Res.bind_eq, Res.bind_ok, ← hm1]
    dsimp only
    rw [if_neg (by omega), e2, Res.bind_eq, Res.bind_ok]
    exact hfin
  · obtain ⟨t, ht⟩ : ∃ t, t = (comm m2).filter fun e => decide (e.2.1 ≠ [] ∨ e.2.2 ≠ []) := ⟨_, rfl⟩
    rw [← ht]
    have hte : ∀ e ∈ t, Entry D rank g2d key fk m m2 e := fun e he => hent e (List.mem_filter.1 (ht ▸ he)).1
    have hget : ∀ i q, (setComm m2 t).neighborDomains[i]? = some q → ∃ e ∈ t, e.1 = q ∧ (setComm m2 t).sharedNodes.getD i [] = e.2.1 ∧
        (setComm m2 t).sharedFaces.getD i [] = e.2.2 := by
      intro i q hq
      simp only [setComm, List.getElem?_map, Option.map_eq_some_iff] at hq
      obtain ⟨e, he, heq⟩ := hq
      refine ⟨e, List.mem_of_getElem? he, heq, ?_, ?_⟩ <;> simp [setComm, he]
    refine ⟨?_, ?_, by simp [setComm], by simp [setComm], ?_, ?_, ?_, ?_⟩
    · rw [← hkn, ← hkf]
      subst hm1
      exact ⟨hR.kc_sorted, hR.kf_sorted, hR.kn_sorted, hR.kc_lt, hR.kf_iff, hR.kn_iff, hR.nodes, hR.faces, hR.faces_lt, hR.cells, hR.cells_lt, hR.faceCells,
        hR.faceCells_lt, by simp [h.sn], by simp, by simp [h.sf], by simp, rfl⟩
    · have a1 : (comm m2).map (·.1) = m.neighborDomains := by
        rw [← hnd2]; exact List.map_fst_zip (by simp [hsn2, hsf2])
      have a2 : t = (comm m2).filter fun e => decide (nodesBetween D m (cellsBy g2d rank) (cellsBy g2d e.1) ≠ []) := by
        rw [ht]
        refine List.filter_congr fun e he => ?_
        have := (hent e he).drop h
        simp only [this]
      simp only [setComm, a2]
      rw [← a1, List.filter_map]
      rfl
    · intro l hl a ha
      obtain ⟨e, he, rfl⟩ := List.mem_map.1 hl
      exact (hte e he).nlt a ha
    · intro l hl a ha
      obtain ⟨e, he, rfl⟩ := List.mem_map.1 hl
      exact (hte e he).flt a ha
    · intro i q hq
      obtain ⟨e, he, rfl, e2, e3⟩ := hget i q hq
      rw [e2]
      exact ⟨(hte e he).nperm, (hte e he).npair⟩
    · intro i q hq
      obtain ⟨e, he, rfl, e2, e3⟩ := hget i q hq
      rw [e3]
      exact ⟨(hte e he).fperm, (hte e he).fpair⟩
end
end Verif.Exch
