import Verif.Proofs.Parallel
/- What one process of the serial distributed tessellator ends up with. -/
namespace Verif.Par
open Verif Verif.Mesh
variable {R : Type}

theorem mergeSort_le (l : List Nat) : (l.mergeSort (· ≤ ·)).Pairwise (· ≤ ·) := by
  have := List.pairwise_mergeSort (le := fun a b : Nat => decide (a ≤ b)) (by intro a b c; simp; omega) (by intro a b; simp; omega) l
  simpa using this

theorem mergeSort_lt {l : List Nat} (h : l.Nodup) : (l.mergeSort (· ≤ ·)).Pairwise (· < ·) := by
  have h1 := mergeSort_le l
  have h2 : (l.mergeSort (· ≤ ·)).Nodup := (List.mergeSort_perm l _).nodup_iff.2 h
  exact (h1.and h2).imp fun ⟨a, b⟩ => lt_of_le_of_ne a b

theorem filter_range_sorted (n : Nat) (p : Nat → Bool) : ((List.range n).filter p).Pairwise (· < ·) := List.pairwise_lt_range.sublist List.filter_sublist

theorem nodeUsed_lt {D : Nat} {m : Tess R} (hc : Consistent D m) {kc : List Nat} {n : Nat} (h : NodeUsed m kc n) (hk : ∀ c ∈ kc, c < m.cells.length) : n < numNodes D m := by
  obtain ⟨c, h1, s, h2, h3⟩ := h
  exact hc.faces_lt _ (face_mem (hc.cells_lt _ (cell_mem (hk c h1)) s h2)) n h3

theorem faceUsed_lt {D : Nat} {m : Tess R} (hc : Consistent D m) {kc : List Nat} {f : Nat} (h : FaceUsed m kc f) (hk : ∀ c ∈ kc, c < m.cells.length) : f < m.faces.length := by
  obtain ⟨c, h1, s, h2, rfl⟩ := h
  exact hc.cells_lt _ (cell_mem (hk c h1)) s h2

theorem cell_face_iff {D : Nat} {m : Tess R} (hc : Consistent D m) {c f : Nat} (h1 : c < m.cells.length) (h2 : f < m.faces.length) :
    (∃ s ∈ cell m c, posID s = f) ↔ ∃ s ∈ cellsOf m f, posID s = c := by
  have hinv := hc.inverse f h2 c h1
  constructor
  · rintro ⟨s, hs, he⟩
    rcases posID_eq_iff.1 he with rfl | rfl
    · have : 0 < (cell m c).count (f : Int) := List.count_pos_iff.2 hs
      rw [← hinv.1] at this
      exact ⟨(c : Int), List.count_pos_iff.1 this, by simp⟩
    · have : 0 < (cell m c).count (flip f) := List.count_pos_iff.2 hs
      rw [← hinv.2] at this
      exact ⟨flip c, List.count_pos_iff.1 this, by simp⟩
  · rintro ⟨s, hs, he⟩
    rcases posID_eq_iff.1 he with rfl | rfl
    · have : 0 < (cellsOf m f).count (c : Int) := List.count_pos_iff.2 hs
      rw [hinv.1] at this
      exact ⟨(f : Int), List.count_pos_iff.1 this, by simp⟩
    · have : 0 < (cellsOf m f).count (flip c) := List.count_pos_iff.2 hs
      rw [hinv.2] at this
      exact ⟨flip f, List.count_pos_iff.1 this, by simp⟩

/-- Processes that share a node with `rank`. -/
structure Neighbors (np : Nat) (offs : List Nat) (m : Tess R) (rank : Nat) (nd : List Nat) : Prop where
  sorted : nd.Pairwise (· < ·)
  mem : ∀ k, k ∈ nd ↔ k ≠ rank ∧ k < np ∧ ∃ n, NodeUsed m (own offs rank) n ∧ NodeUsed m (own offs k) n

theorem shareNodes_spec (dbg : Bool) {np D : Nat} {offs : List Nat} (h : Offs np offs) (m : Tess R) (hm : Serial D m)
    (hcells : m.cells.length = offs.getD np 0) (rank : Nat) (hr : rank < np) :
    ∃ nd, shareNodes dbg D rank offs m = .ok { m with neighborDomains := nd, sharedNodes := nd.map fun k => nodesBetween D m (own offs rank) (own offs k) } ∧
      Neighbors np offs m rank nd := by
  have hc := hm.consistent
  obtain ⟨nc, e1, h1, _, h2⟩ := computeNodeCells_spec dbg D m hc.faces_lt hc.cells_lt
  obtain ⟨s, e2, g, h3⟩ := shareLoop_spec dbg h m hc hcells rank hr nc h1 h2
  have hsort : (s.map (·.1)).mergeSort (· ≤ ·) = s.map (·.1) :=
    sorted_ext (mergeSort_lt (g.sorted.imp fun h => Nat.ne_of_lt h)) g.sorted (fun a => List.mem_mergeSort)
  refine ⟨s.map (·.1), ?_, g.sorted, ?_⟩
  · unfold shareNodes
    simp only [e1, ownCells_spec h hr, Res.bind_eq, Res.bind_ok, e2, Res.pure_eq, hm.nd, hm.sn, List.nil_append, hsort]
    congr 2
    apply List.map_congr_left
    intro k hk
    apply sorted_ext (uniq_sorted _ (mergeSort_le _)) (filter_range_sorted _ _)
    intro n
    rw [uniq_mem, List.mem_mergeSort, h3]
    simp only [nodesBetween, List.mem_filter, List.mem_range, decide_eq_true_eq]
    constructor
    · rintro ⟨_, _, h4, h5⟩
      exact ⟨nodeUsed_lt hc h4 (fun c hcm => by rw [hcells]; exact h.own_lt hr hcm), h4, h5⟩
    · rintro ⟨_, h4, h5⟩
      obtain ⟨n', hn'⟩ := List.exists_mem_of_ne_nil _ ((g.ne k).1 hk)
      obtain ⟨h6, h7, _⟩ := (h3 k n').1 hn'
      exact ⟨h6, h7, h4, h5⟩
  · intro k
    rw [g.ne]
    constructor
    · intro hk
      obtain ⟨n', hn'⟩ := List.exists_mem_of_ne_nil _ hk
      obtain ⟨h6, h7, h8⟩ := (h3 k n').1 hn'
      exact ⟨h6, h7, n', h8⟩
    · rintro ⟨h6, h7, n', h8⟩ he
      have := (h3 k n').2 ⟨h6, h7, h8⟩
      rw [he] at this; simp at this

/-! ### Shared faces -/

/-- The other cell of face `f` as the code picks it. -/
def otherCell (m : Tess R) (f c : Nat) : Nat :=
  if posID ((cellsOf m f).getD 0 0) = c then posID ((cellsOf m f).getD 1 0) else posID ((cellsOf m f).getD 0 0)

theorem foldlM_app {α : Type} {g : List (List Nat) → α → Res (List (List Nat))} {X : α → Nat → List Nat} {N : Nat} : ∀ (l : List α),
    (∀ a ∈ l, ∀ sf : List (List Nat), sf.length = N → ∃ sf', g sf a = .ok sf' ∧ sf'.length = N ∧ ∀ j, j < N → sf'.getD j [] = sf.getD j [] ++ X a j) →
    ∀ sf : List (List Nat), sf.length = N →
      ∃ sf', l.foldlM g sf = .ok sf' ∧ sf'.length = N ∧ ∀ j, j < N → sf'.getD j [] = sf.getD j [] ++ l.flatMap (fun a => X a j)
  | [], _, sf, hs => ⟨sf, rfl, hs, by simp⟩
  | a :: l, h, sf, hs => by
    obtain ⟨s1, e1, g1, a1⟩ := h a (by simp) sf hs
    obtain ⟨s2, e2, g2, a2⟩ := foldlM_app l (fun b hb => h b (by simp [hb])) s1 g1
    refine ⟨s2, by simp [List.foldlM_cons, e1, e2], g2, ?_⟩
    intro j hj
    rw [a2 j hj, a1 j hj, List.flatMap_cons, List.append_assoc]

theorem lowerBound_eq {nd : List Nat} (h : nd.Pairwise (· < ·)) {j : Nat} (hj : j < nd.length) : lowerBound nd nd[j] = j := by
  refine takeWhile_len (by omega) ?_ ?_
  · intro i hi hi'
    have := (List.pairwise_iff_getElem.1 h) i j hi' hj hi
    simpa using this
  · intro hk; simp

/-- Process `q` owns the other cell of face `s` of cell `c`. -/
def Across (m : Tess R) (offs : List Nat) (q c : Nat) (s : Int) : Prop := (cellsOf m (posID s)).length = 2 ∧ otherCell m (posID s) c ∈ own offs q

instance (m : Tess R) (offs : List Nat) (q c : Nat) (s : Int) : Decidable (Across m offs q c s) := by unfold Across; infer_instance

theorem shareFace_spec (dbg : Bool) {np D : Nat} {offs : List Nat} (h : Offs np offs) (m : Tess R) (hc : Consistent D m) (hne : ∀ F ∈ m.faces, F ≠ [])
    (hcells : m.cells.length = offs.getD np 0) (rank : Nat) (hr : rank < np) (nd : List Nat) (hnd : m.neighborDomains = nd)
    (hn : Neighbors np offs m rank nd) (c : Nat) (hco : c ∈ own offs rank) (s : Int) (hs : s ∈ cell m c) (sf : List (List Nat)) (hsf : sf.length = nd.length) :
    ∃ sf', shareFace dbg rank offs m c sf s = .ok sf' ∧ sf'.length = nd.length ∧
      ∀ j, j < nd.length → sf'.getD j [] = sf.getD j [] ++ (if Across m offs (nd.getD j 0) c s then [posID s] else []) := by
  have hcl : c < m.cells.length := by rw [hcells]; exact h.own_lt hr hco
  have hfl : posID s < m.faces.length := hc.cells_lt _ (cell_mem hcl) s hs
  have hfl' : posID s < m.faceCells.length := by rw [hc.faceCells_len]; exact hfl
  have hmem : cellsOf m (posID s) ∈ m.faceCells := cellsOf_mem hfl'
  obtain ⟨t, ht, htc⟩ := (cell_face_iff hc hcl hfl).1 ⟨s, hs, rfl⟩
  have hlt := hc.faceCells_lt _ hmem
  have e0 : rd m.faceCells (posID s) = .ok (cellsOf m (posID s)) := rd_getD' hfl' []
  have hsz := hc.faceCells_size _ hmem
  have hface : ∃ n, n ∈ face m (posID s) := List.exists_mem_of_ne_nil _ (hne _ (face_mem hfl))
  unfold shareFace
  simp only [e0, Res.bind_eq, Res.bind_ok, Res.assert_true dbg hsz]
  have hA : ∀ q, Across m offs q c s ↔ (cellsOf m (posID s)).length = 2 ∧ otherCell m (posID s) c ∈ own offs q := fun q => Iff.rfl
  have hoc : otherCell m (posID s) c =
      if posID ((cellsOf m (posID s)).getD 0 0) = c then posID ((cellsOf m (posID s)).getD 1 0) else posID ((cellsOf m (posID s)).getD 0 0) := rfl
  have hcf : ∀ x ∈ cellsOf m (posID s), ∀ n ∈ face m (posID s), ∀ q, posID x ∈ own offs q → NodeUsed m (own offs q) n := by
    intro x hx n hn q hq
    obtain ⟨s', h1, h2⟩ := (cell_face_iff hc (hlt x hx) hfl).2 ⟨x, hx, rfl⟩
    exact ⟨posID x, hq, s', h1, by rw [h2]; exact hn⟩
  generalize cellsOf m (posID s) = X at *
  rcases hsz with hsz | hsz
  · obtain ⟨a, rfl⟩ := List.length_eq_one_iff.1 hsz
    simp only [List.mem_singleton] at ht
    subst ht
    have as : Res.assert dbg (Option.map posID ([t] : List Int).head? = some c ∨ ([t] : List Int).length = 2 ∧ Option.map posID ([t] : List Int)[1]? = some c) = .ok () :=
      Res.assert_true dbg (Or.inl (by simp [htc]))
    simp only [as, Res.bind_ok]
    refine ⟨sf, by simp, hsf, ?_⟩
    intro j hj
    rw [if_neg (by rw [hA]; simp)]; simp
  · obtain ⟨a, b, rfl⟩ := List.length_eq_two.1 hsz
    have as : Res.assert dbg (Option.map posID ([a, b] : List Int).head? = some c ∨ ([a, b] : List Int).length = 2 ∧ Option.map posID ([a, b] : List Int)[1]? = some c) = .ok () := by
      apply Res.assert_true
      rcases List.mem_cons.1 ht with rfl | ht
      · left; simp [htc]
      · rw [List.mem_singleton] at ht; subst ht; right; simp [htc]
    simp only [as, Res.bind_ok]
    have r0 : rd [a, b] 0 = .ok a := rfl
    have r1 : rd [a, b] 1 = .ok b := rfl
    simp only [hsz, if_true, r0, r1, Res.bind_ok]
    simp only [List.getD_cons_zero, List.getD_cons_succ] at hoc
    rw [← hoc]
    have hol : otherCell m (posID s) c < m.cells.length := by
      rw [hoc]; split
      · exact hlt b (by simp)
      · exact hlt a (by simp)
    obtain ⟨q, hq, hqo⟩ := h.exists_own np (le_refl _) (by rw [← hcells]; exact hol)
    simp only [ownerRank_spec dbg h hq hqo, Res.bind_ok]
    by_cases hqr : q = rank
    · simp only [hqr, ne_eq, not_true_eq_false, if_false, Res.pure_eq]
      refine ⟨sf, rfl, hsf, ?_⟩
      intro j hj
      rw [if_neg, List.append_nil]
      rintro ⟨_, hx⟩
      have hk := (hn.mem (nd.getD j 0)).1 (getD_mem' hj 0)
      exact hk.1 ((h.own_disjoint hk.2.1 hq hx hqo).trans hqr)
    · simp only [ne_eq, hqr, not_false_eq_true, if_true, hnd]
      obtain ⟨n, hnf⟩ := hface
      have hu : NodeUsed m (own offs q) n := by
        rw [hoc] at hqo
        split at hqo
        · exact hcf b (by simp) n hnf q hqo
        · exact hcf a (by simp) n hnf q hqo
      have hqm : q ∈ nd := (hn.mem q).2 ⟨hqr, hq, n, ⟨c, hco, s, hs, hnf⟩, hu⟩
      obtain ⟨j0, hj0, hj0e⟩ := List.getElem_of_mem hqm
      have hlb : lowerBound nd q = j0 := by rw [← hj0e]; exact lowerBound_eq hn.sorted hj0
      rw [hlb, Res.assert_true dbg hj0, Res.bind_ok, rd_getD' (show j0 < sf.length by omega) [], Res.bind_ok, wr_lt (by omega)]
      refine ⟨_, rfl, by simpa using hsf, ?_⟩
      intro j hj
      have hgj : nd.getD j 0 = nd[j] := by simp [hj]
      by_cases hjj : j = j0
      · subst hjj
        rw [if_pos]
        · have : j < sf.length := by omega
          simp [this]
        · refine (hA _).2 ⟨hsz, ?_⟩
          rw [hgj, hj0e]; exact hqo
      · rw [if_neg]
        · simp [List.getElem?_set_ne (fun e => hjj e.symm)]
        · rintro ⟨_, hx⟩
          have hk := (hn.mem (nd.getD j 0)).1 (getD_mem' hj 0)
          have hqe := h.own_disjoint hk.2.1 hq hx hqo
          rw [hgj, ← hj0e] at hqe
          have hnodup : nd.Nodup := hn.sorted.imp fun h => Nat.ne_of_lt h
          exact hjj ((List.Nodup.getElem_inj_iff hnodup).1 hqe)

theorem count_flatMap_le {f : Nat} {g : Int → List Nat} {s0 : Int} : ∀ (l : List Int), (∀ s ∈ l, (g s).count f ≤ if s = s0 then 1 else 0) →
    (l.flatMap g).count f ≤ l.count s0
  | [], _ => by simp
  | a :: l, h => by
    have h1 := h a (by simp)
    have h2 := count_flatMap_le l (fun s hs => h s (by simp [hs]))
    rw [List.flatMap_cons, List.count_append, List.count_cons]
    by_cases ha : a = s0
    · simp only [ha, if_true] at h1; simp only [ha, beq_self_eq_true, if_true]; omega
    · simp only [ha, if_false] at h1; omega

theorem uniq_of_sorted : ∀ {l : List Nat}, l.Pairwise (· < ·) → uniq l = l
  | [], _ => rfl
  | [a], _ => rfl
  | a :: b :: l, h => by
    have h1 := List.pairwise_cons.1 h
    have : a ≠ b := Nat.ne_of_lt (h1.1 b (by simp))
    rw [uniq, if_neg this, uniq_of_sorted h1.2]

/-- Two own cells, or one cell twice, never see the same face across the border. -/
theorem across_unique {D np : Nat} {offs : List Nat} (h : Offs np offs) {m : Tess R} (hc : Consistent D m) (hcells : m.cells.length = offs.getD np 0)
    {rank q : Nat} (hr : rank < np) (hq : q < np) (hqr : q ≠ rank) {c c' : Nat} (hco : c ∈ own offs rank) (hco' : c' ∈ own offs rank) {s s' : Int}
    (hs : s ∈ cell m c) (hs' : s' ∈ cell m c') (he : posID s = posID s') (ha : Across m offs q c s) : c = c' ∧ s = s' ∧ (cell m c).count s ≤ 1 := by
  have hcl : c < m.cells.length := by rw [hcells]; exact h.own_lt hr hco
  have hcl' : c' < m.cells.length := by rw [hcells]; exact h.own_lt hr hco'
  have hfl : posID s < m.faces.length := hc.cells_lt _ (cell_mem hcl) s hs
  obtain ⟨t, ht, htc⟩ := (cell_face_iff hc hcl hfl).1 ⟨s, hs, rfl⟩
  obtain ⟨t', ht', htc'⟩ := (cell_face_iff hc hcl' hfl).1 ⟨s', hs', he.symm⟩
  obtain ⟨hl, ho⟩ := ha
  have hinv := hc.inverse _ hfl _ hcl
  unfold otherCell at ho
  have hdis : ∀ x, x ∈ own offs rank → ¬ x ∈ own offs q := fun x h1 h2 => hqr (h.own_disjoint hq hr h2 h1)
  obtain ⟨f, hf⟩ : ∃ f, f = posID s := ⟨_, rfl⟩
  rw [← hf] at he ht ht' hl ho hinv
  generalize cellsOf m f = X at *
  obtain ⟨a, b, rfl⟩ := List.length_eq_two.1 hl
  simp only [List.getD_cons_zero, List.getD_cons_succ] at ho
  simp only [List.mem_cons, List.not_mem_nil, or_false] at ht ht'
  -- exactly one of `a`, `b` is the cell `c`; the other belongs to `q`
  have key : c = c' := by
    split at ho
    · rename_i e1
      rcases ht' with rfl | rfl
      · omega
      · exact absurd (by rw [htc']; exact hco') (fun hx => hdis _ hx ho)
    · rename_i e1
      have : t = b := by rcases ht with rfl | rfl; · exact absurd htc e1
                         · rfl
      subst this
      rcases ht' with rfl | rfl
      · exact absurd (by rw [htc']; exact hco') (fun hx => hdis _ hx ho)
      · omega
  refine ⟨key, ?_⟩
  subst key
  -- the face occurs once in the cell
  have hcnt : (cell m c).count (f : Int) + (cell m c).count (flip f) ≤ 1 := by
    rw [← hinv.1, ← hinv.2]
    have hx : ∀ x : Int, posID x ≠ c → ([x].count (c : Int) = 0 ∧ [x].count (flip c) = 0) := by
      intro x hx
      constructor
      · rw [List.count_eq_zero]; intro hm; rw [List.mem_singleton] at hm; apply hx; rw [← hm]; simp
      · rw [List.count_eq_zero]; intro hm; rw [List.mem_singleton] at hm; apply hx; rw [← hm]; simp
    have hone : ∀ x : Int, [x].count (c : Int) + [x].count (flip c) ≤ 1 := by
      intro x
      have hne : (c : Int) ≠ flip c := by simp only [flip]; omega
      by_cases h1 : x = c
      · subst h1; rw [List.count_singleton, List.count_singleton]; simp [hne]
      · have : ([x].count (c : Int)) = 0 := by rw [List.count_eq_zero]; simp [Ne.symm h1]
        have := List.count_le_length (a := flip c) (l := [x])
        simp only [List.length_singleton] at this
        omega
    have split2 : ∀ y : Int, ([a, b] : List Int).count y = [a].count y + [b].count y := fun y => List.count_append (l₁ := [a]) (l₂ := [b])
    rw [split2, split2]
    split at ho
    · have := hx b (by intro e; rw [e] at ho; exact hdis _ hco ho)
      have := hone a; omega
    · rename_i e1
      have := hx a e1
      have := hone b; omega
  have h1 := posID_eq_iff.1 hf.symm
  have h2 := posID_eq_iff.1 he.symm
  have p1 : 0 < (cell m c).count s := List.count_pos_iff.2 hs
  have p2 : 0 < (cell m c).count s' := List.count_pos_iff.2 hs'
  rcases h1 with rfl | rfl <;> rcases h2 with rfl | rfl
  · exact ⟨rfl, by omega⟩
  · omega
  · omega
  · exact ⟨rfl, by omega⟩

theorem shareFaces_spec (dbg : Bool) {np D : Nat} {offs : List Nat} (h : Offs np offs) (m : Tess R) (hc : Consistent D m) (hne : ∀ F ∈ m.faces, F ≠ [])
    (hcells : m.cells.length = offs.getD np 0) (rank : Nat) (hr : rank < np) (hsf : m.sharedFaces = []) (hn : Neighbors np offs m rank m.neighborDomains) :
    shareFaces dbg rank offs m = .ok { m with sharedFaces := m.neighborDomains.map fun k => facesBetween m (own offs rank) (own offs k) } := by
  have hlt : ∀ k, k < np → ∀ c ∈ own offs k, c < m.cells.length := fun k hk c hcm => by rw [hcells]; exact h.own_lt hk hcm
  obtain ⟨nd, hnd⟩ : ∃ nd, m.neighborDomains = nd := ⟨_, rfl⟩
  rw [hnd] at hn
  have hnp : ∀ j, j < nd.length → nd.getD j 0 ≠ rank ∧ nd.getD j 0 < np := fun j hj =>
    ⟨((hn.mem _).1 (getD_mem' hj 0)).1, ((hn.mem _).1 (getD_mem' hj 0)).2.1⟩
  obtain ⟨sf, e, hl, hg⟩ := foldlM_app (N := nd.length) (g := fun sf icell => do
      let C ← rd m.cells icell
      C.foldlM (shareFace dbg rank offs m icell) sf)
    (X := fun c j => (cell m c).flatMap fun s => if Across m offs (nd.getD j 0) c s then [posID s] else []) (own offs rank) (by
      intro c hco sf hl
      have hcl := hlt rank hr c hco
      have e : rd m.cells c = .ok (cell m c) := rd_getD' hcl []
      simp only [e, Res.bind_eq, Res.bind_ok]
      exact foldlM_app (N := nd.length) (X := fun s j => if Across m offs (nd.getD j 0) c s then [posID s] else []) (cell m c)
        (fun s hs sf hl => shareFace_spec dbg h m hc hne hcells rank hr nd hnd hn c hco s hs sf hl) sf hl)
    (Serialize.resize m.sharedFaces nd.length []) (by simp [Serialize.resize, hsf])
  have hg' : ∀ j, j < nd.length → sf.getD j [] = (own offs rank).flatMap fun c => (cell m c).flatMap fun s => if Across m offs (nd.getD j 0) c s then [posID s] else [] := by
    intro j hj
    rw [hg j hj]
    have : (Serialize.resize m.sharedFaces nd.length []).getD j [] = [] := by simp [Serialize.resize, hsf, hj]
    rw [this, List.nil_append]
  have hnodup : ∀ j, j < nd.length → (sf.getD j []).Nodup := by
    intro j hj
    obtain ⟨hq1, hq2⟩ := hnp j hj
    rw [hg' j hj, List.nodup_flatMap]
    constructor
    · intro c hco
      rw [List.nodup_iff_count_le_one]
      intro f
      by_cases hx : ∃ s ∈ cell m c, posID s = f ∧ Across m offs (nd.getD j 0) c s
      · obtain ⟨s0, hs0, hf0, ha0⟩ := hx
        have hcnt := (across_unique h hc hcells hr hq2 hq1 hco hco hs0 hs0 rfl ha0).2.2
        refine le_trans ?_ hcnt
        apply count_flatMap_le
        · intro s hs
          split
          · by_cases hss : posID s = f
            · have := (across_unique h hc hcells hr hq2 hq1 hco hco hs0 hs (hf0.trans hss.symm) ha0).2.1
              rw [if_pos this.symm]
              exact List.count_le_length
            · have h0 : List.count f [posID s] = 0 := by rw [List.count_eq_zero]; simp [Ne.symm hss]
              rw [h0]; omega
          · simp
      · have : List.count f ((cell m c).flatMap fun s => if Across m offs (nd.getD j 0) c s then [posID s] else []) = 0 := by
          rw [List.count_eq_zero, List.mem_flatMap]
          rintro ⟨s, hs, hm⟩
          split at hm
          · rename_i ha
            rw [List.mem_singleton] at hm
            exact hx ⟨s, hs, hm.symm, ha⟩
          · simp at hm
        omega
    · have hpl : (own offs rank).Nodup := List.nodup_range'
      refine List.Pairwise.imp_of_mem ?_ hpl
      intro c c' hco hco' hcc
      simp only [Function.onFun]
      rw [List.disjoint_left]
      intro f hf hf'
      simp only [List.mem_flatMap] at hf hf'
      obtain ⟨s, hs, hm⟩ := hf
      obtain ⟨s', hs', hm'⟩ := hf'
      split at hm
      · rename_i ha
        split at hm'
        · rw [List.mem_singleton] at hm hm'
          exact hcc (across_unique h hc hcells hr hq2 hq1 hco hco' hs hs' (hm.symm.trans hm') ha).1
        · simp at hm'
      · simp at hm
  have hfin : sf.map (·.mergeSort (· ≤ ·)) = nd.map fun k => facesBetween m (own offs rank) (own offs k) := by
    apply List.ext_getElem
    · simp [hl]
    · intro j hj hj'
      simp only [List.length_map] at hj hj'
      have hj2 : sf[j] = sf.getD j [] := by simp [hj]
      have hj3 : nd[j] = nd.getD j 0 := by simp [hj']
      obtain ⟨hq1, hq2⟩ := hnp j hj'
      simp only [List.getElem_map, hj2, hj3]
      apply sorted_ext (mergeSort_lt (hnodup j hj')) (filter_range_sorted _ _)
      intro f
      rw [List.mem_mergeSort, hg' j hj']
      simp only [facesBetween, List.mem_filter, List.mem_range, decide_eq_true_eq, List.mem_flatMap]
      constructor
      · rintro ⟨c, hco, s, hs, hm⟩
        split at hm
        · rename_i ha
          rw [List.mem_singleton] at hm
          subst hm
          have hcl := hlt rank hr c hco
          have hfl : posID s < m.faces.length := hc.cells_lt _ (cell_mem hcl) s hs
          refine ⟨hfl, ⟨c, hco, s, hs, rfl⟩, ?_⟩
          obtain ⟨hl2, ho⟩ := ha
          have hmem : ∃ x ∈ cellsOf m (posID s), posID x = otherCell m (posID s) c := by
            unfold otherCell
            split
            · exact ⟨_, getD_mem' (by omega) 0, rfl⟩
            · exact ⟨_, getD_mem' (by omega) 0, rfl⟩
          obtain ⟨s', h1, h2⟩ := (cell_face_iff hc (hlt _ hq2 _ ho) hfl).2 hmem
          exact ⟨_, ho, s', h1, h2⟩
        · simp at hm
      · rintro ⟨hfl, ⟨c, hco, s, hs, rfl⟩, ⟨c', hco', s', hs', he⟩⟩
        refine ⟨c, hco, s, hs, ?_⟩
        have hne' : c ≠ c' := fun e => hq1 (h.own_disjoint hq2 hr hco' (e ▸ hco))
        obtain ⟨t, ht, htc⟩ := (cell_face_iff hc (hlt _ hr _ hco) hfl).1 ⟨s, hs, rfl⟩
        obtain ⟨t', ht', htc'⟩ := (cell_face_iff hc (hlt _ hq2 _ hco') hfl).1 ⟨s', hs', he⟩
        have hsz := hc.faceCells_size _ (cellsOf_mem (show posID s < m.faceCells.length by rw [hc.faceCells_len]; exact hfl))
        rw [if_pos, List.mem_singleton]
        have key : (cellsOf m (posID s)).length = 2 ∧ otherCell m (posID s) c = c' := by
          unfold otherCell
          generalize cellsOf m (posID s) = X at *
          rcases hsz with hsz | hsz
          · obtain ⟨a, rfl⟩ := List.length_eq_one_iff.1 hsz
            rw [List.mem_singleton] at ht ht'
            subst ht; subst ht'; exact absurd (htc.symm.trans htc') hne'
          · obtain ⟨a, b, rfl⟩ := List.length_eq_two.1 hsz
            refine ⟨rfl, ?_⟩
            simp only [List.getD_cons_zero, List.getD_cons_succ]
            simp only [List.mem_cons, List.not_mem_nil, or_false] at ht ht'
            rcases ht with rfl | rfl <;> rcases ht' with rfl | rfl
            · exact absurd (htc.symm.trans htc') hne'
            · rw [if_pos htc]; exact htc'
            · rw [if_neg (by rw [htc']; exact Ne.symm hne')]; exact htc'
            · exact absurd (htc.symm.trans htc') hne'
        exact ⟨key.1, by rw [key.2]; exact hco'⟩
  unfold shareFaces
  rw [hnd]
  have ea : ∀ l ∈ sf.map (fun x => x.mergeSort (fun x1 x2 => decide (x1 ≤ x2))), uniq l = l := by
    rw [hfin]
    intro l hl
    obtain ⟨k, _, rfl⟩ := List.mem_map.1 hl
    exact uniq_of_sorted (filter_range_sorted _ _)
  simp only [ownCells_spec h hr, Res.bind_eq, Res.bind_ok]
  simp only [Res.bind_eq] at e
  rw [e, Res.bind_ok, Res.assert_true dbg ea, Res.bind_ok, hfin]
  rfl

theorem ownMask_spec {np : Nat} {offs : List Nat} (h : Offs np offs) {rank : Nat} (hr : rank < np) :
    ∃ mask, ownMask rank offs (offs.getD np 0) = .ok mask ∧ mask.length = offs.getD np 0 ∧ (∀ k ∈ mask, k = 0 ∨ k = 1) ∧ keptCells mask = own offs rank := by
  have := h.len
  have hle := h.mono' (i := rank + 1) (j := np) (by omega) (by omega)
  have hle2 := h.mono rank hr
  refine ⟨(List.range (offs.getD np 0)).map fun i => if offs.getD rank 0 ≤ i ∧ i < offs.getD (rank + 1) 0 then 1 else 0, ?_, by simp, ?_, ?_⟩
  · simp only [ownMask, Res.bind_eq, Res.pure_eq, rd_getD' (show rank < offs.length by omega) 0, rd_getD' (show rank + 1 < offs.length by omega) 0, Res.bind_ok]
    rw [if_pos hle]
  · intro k hk
    obtain ⟨i, _, rfl⟩ := List.mem_map.1 hk
    split <;> simp
  · apply sorted_ext
    · exact filter_range_sorted _ _
    · exact List.pairwise_lt_range'
    · intro c
      rw [mem_own]
      simp only [keptCells, List.mem_filter, List.mem_range, List.length_map, List.length_range, decide_eq_true_eq]
      constructor
      · rintro ⟨h1, h2⟩
        simp only [List.getElem?_map, List.getElem?_range h1, Option.map_some, Option.some.injEq] at h2
        split at h2
        · assumption
        · omega
      · rintro ⟨h1, h2⟩
        have h3 : c < offs.getD np 0 := by omega
        refine ⟨h3, ?_⟩
        simp only [List.getElem?_map, List.getElem?_range h3, Option.map_some, Option.some.injEq]
        rw [if_pos ⟨h1, h2⟩]

/-- The mesh of the process before the other cells are deleted. -/
def withComm (D : Nat) (offs : List Nat) (m : Tess R) (rank : Nat) (nd : List Nat) : Tess R :=
  { m with neighborDomains := nd, sharedNodes := nd.map fun k => nodesBetween D m (own offs rank) (own offs k),
           sharedFaces := nd.map fun k => facesBetween m (own offs rank) (own offs k) }

theorem compute_spec (dbg : Bool) {np D : Nat} {offs : List Nat} (h : Offs np offs) (m : Tess R) (hm : Serial D m) (hcells : m.cells.length = offs.getD np 0)
    (rank : Nat) (hr : rank < np) (hd : dbg = true → m.cells.length = 0 ∨ own offs rank ≠ []) :
    ∃ m' nd, compute dbg D rank offs m = .ok m' ∧ Neighbors np offs m rank nd ∧
      Restricts D (withComm D offs m rank nd) (nodesOf D m (own offs rank)) (facesOf m (own offs rank)) (own offs rank) m' := by
  obtain ⟨nd, e1, hn⟩ := shareNodes_spec dbg h m hm hcells rank hr
  have hc := hm.consistent
  have hc1 : Consistent D { m with neighborDomains := nd, sharedNodes := nd.map fun k => nodesBetween D m (own offs rank) (own offs k) } :=
    ⟨hc.dim_pos, hc.nodes_dvd, hc.faces_lt, hc.cells_lt, hc.faceCells_len, hc.faceCells_size, hc.faceCells_lt, hc.inverse⟩
  have e2 := shareFaces_spec dbg h { m with neighborDomains := nd, sharedNodes := nd.map fun k => nodesBetween D m (own offs rank) (own offs k) } hc1
    hm.faces_ne hcells rank hr hm.sf ⟨hn.sorted, hn.mem⟩
  obtain ⟨mask, e3, hl, hb, hk⟩ := ownMask_spec h hr
  have hc2 : Consistent D (withComm D offs m rank nd) :=
    ⟨hc.dim_pos, hc.nodes_dvd, hc.faces_lt, hc.cells_lt, hc.faceCells_len, hc.faceCells_size, hc.faceCells_lt, hc.inverse⟩
  have hcm : CommOK D (withComm D offs m rank nd) := by
    refine ⟨by simp [withComm], ?_, ?_⟩
    · intro l hl n hnl
      obtain ⟨k, _, rfl⟩ := List.mem_map.1 hl
      simp only [nodesBetween, List.mem_filter, List.mem_range] at hnl
      exact hnl.1
    · intro l hl n hnl
      obtain ⟨k, _, rfl⟩ := List.mem_map.1 hl
      simp only [facesBetween, List.mem_filter, List.mem_range] at hnl
      exact hnl.1
  obtain ⟨m', kn, kf, e4, hR, _⟩ := deleteCells_spec' dbg D (withComm D offs m rank nd) mask hc2 hcm (by rw [hl]; exact hcells.symm) hb (by
    intro hdt
    rcases hd hdt with h0 | h0
    · exact Or.inl h0
    · right
      rw [← hk] at h0
      obtain ⟨c, hcm⟩ := List.exists_mem_of_ne_nil _ h0
      simp only [keptCells, List.mem_filter, decide_eq_true_eq] at hcm
      exact List.mem_of_getElem? hcm.2)
  rw [hk] at hR
  have hlt : ∀ c ∈ own offs rank, c < m.cells.length := fun c hcm => by rw [hcells]; exact h.own_lt hr hcm
  have hkf : kf = facesOf m (own offs rank) := by
    apply sorted_ext hR.kf_sorted (filter_range_sorted _ _)
    intro f
    rw [hR.kf_iff]
    simp only [facesOf, List.mem_filter, List.mem_range, decide_eq_true_eq]
    constructor
    · intro hf; exact ⟨faceUsed_lt hc hf hlt, hf⟩
    · intro hf; exact hf.2
  have hkn : kn = nodesOf D m (own offs rank) := by
    apply sorted_ext hR.kn_sorted (filter_range_sorted _ _)
    intro n
    rw [hR.kn_iff]
    simp only [nodesOf, List.mem_filter, List.mem_range, decide_eq_true_eq]
    have : (∃ f ∈ kf, n ∈ face (withComm D offs m rank nd) f) ↔ NodeUsed m (own offs rank) n := by
      constructor
      · rintro ⟨f, hf, hnf⟩
        obtain ⟨c, h1, s, h2, rfl⟩ := (hR.kf_iff f).1 hf
        exact ⟨c, h1, s, h2, hnf⟩
      · rintro ⟨c, h1, s, h2, hnf⟩
        exact ⟨posID s, (hR.kf_iff _).2 ⟨c, h1, s, h2, rfl⟩, hnf⟩
    rw [this]
    constructor
    · intro hu; exact ⟨nodeUsed_lt hc hu hlt, hu⟩
    · intro hu; exact hu.2
  subst hkf; subst hkn
  refine ⟨m', nd, ?_, hn, hR⟩
  unfold compute
  rw [← hcells] at e3
  simp only [e1, Res.bind_eq, Res.bind_ok, e2, e3]
  exact e4
end Verif.Par
