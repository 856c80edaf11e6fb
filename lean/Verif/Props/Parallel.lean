import Verif.Proofs.Parallel2
import Verif.Proofs.Gather
/-
Properties C46 and C47: what the processes of `SerialDistributedTessellator` own and share. `tess` is the serial tessellator, any function of the generators
whose result is a consistent mesh with one cell per generator (C17-C30 are about that part).
-/
namespace Verif.Par
open Verif Verif.Mesh

/-- The serial tessellator returns the mesh `m`, consistent, without communication data, one cell per generator. -/
structure SerialResult (D : Nat) (procs : List (List (BitVec 64))) (tess : List (BitVec 64) → Res (Tess (BitVec 64))) (m : Tess (BitVec 64)) : Prop where
  run : tess procs.flatten = .ok m
  mesh : Serial D m
  cells : m.cells.length = procs.flatten.length / D

theorem cells_eq {D : Nat} {procs : List (List (BitVec 64))} (h : GoodInput D procs) {m : Tess (BitVec 64)} (hm : m.cells.length = procs.flatten.length / D) :
    m.cells.length = firstCell D procs procs.length := by
  have := flatten_take_length h.whole procs.length
  rw [List.take_length] at this
  rw [hm, this, Nat.mul_div_cancel_left _ h.dim]

/-! ### C46 -/

/-- C46, ownership: after the exchange of the generators every process holds all of them, in the order of the processes, and the owner looked up for a cell is
the process that supplied the generator of that cell. Some processes may have no generators. -/
theorem C46_owner (dbg : Bool) {D : Nat} {procs : List (List (BitVec 64))} (h : GoodInput D procs) :
    ∃ offs, gather dbg D procs = .ok (procs.flatten, offs) ∧
      (∀ r, r < procs.length → ∀ c ∈ cellsOfProc D procs r, ownerRank dbg c offs = .ok r) ∧
      (∀ c, c < procs.flatten.length / D → ∃ r, r < procs.length ∧ c ∈ cellsOfProc D procs r) ∧
      ∀ r, r < procs.length → ∀ j, j < (procs.getD r []).length / D →
        (procs.flatten.drop (D * (firstCell D procs r + j))).take D = ((procs.getD r []).drop (D * j)).take D := by
  obtain ⟨offs, e, ho, hf⟩ := gather_spec dbg h
  refine ⟨offs, e, ?_, ?_, ?_⟩
  · intro r hr c hc
    rw [← own_eq hf hr] at hc
    exact ownerRank_spec dbg ho hr hc
  · intro c hc
    have hl := flatten_take_length h.whole procs.length
    rw [List.take_length] at hl
    rw [hl, Nat.mul_div_cancel_left _ h.dim, ← hf _ (le_refl _)] at hc
    obtain ⟨r, hr, hm⟩ := ho.exists_own _ (le_refl _) hc
    exact ⟨r, hr, by rw [← own_eq hf hr]; exact hm⟩
  · intro r hr j hj
    have hsp : procs.flatten = (procs.take r).flatten ++ (procs[r] ++ (procs.drop (r + 1)).flatten) := by
      conv_lhs => rw [← List.take_append_drop r procs, List.flatten_append, List.drop_eq_getElem_cons hr, List.flatten_cons]
    have hl := flatten_take_length h.whole r
    have hg : procs.getD r [] = procs[r] := by simp [hr]
    rw [hg] at hj ⊢
    have hlen : D * j + D ≤ procs[r].length := by
      obtain ⟨q, hq⟩ := h.whole procs[r] (List.getElem_mem hr)
      rw [hq, Nat.mul_div_cancel_left _ h.dim] at hj
      rw [hq]; calc D * j + D = D * (j + 1) := (Nat.mul_succ D j).symm
        _ ≤ D * q := Nat.mul_le_mul_left _ hj
    rw [hsp, Nat.mul_add, ← hl, List.drop_append]
    rw [List.drop_eq_nil_of_le (by omega), List.nil_append, Nat.add_sub_cancel_left, List.drop_append, List.take_append]
    rw [List.length_drop, show D - (procs[r].length - D * j) = 0 by omega, List.take_zero, List.append_nil]

/-- C46, the meshes: every process returns a mesh whose cells are, in order, exactly the cells of its own generators with unchanged geometry, so that the meshes
of all processes together are the cells of the serial tessellation, each once. In a debug build every process must have a generator (see
`C46_empty_process_fails`). -/
theorem C46_partition_partial (dbg : Bool) {D : Nat} {procs : List (List (BitVec 64))} (h : GoodInput D procs) {tess : List (BitVec 64) → Res (Tess (BitVec 64))}
    {m : Tess (BitVec 64)} (hm : SerialResult D procs tess m) (hd : dbg = true → ∀ p ∈ procs, p ≠ []) :
    ∃ res : Nat → Tess (BitVec 64),
      (∀ r, r < procs.length → computeAll dbg D tess procs r = .ok (res r) ∧ Consistent D (res r) ∧ CommOK D (res r) ∧
        (res r).cells.map (cellGeom D (res r)) = (cellsOfProc D procs r).map fun c => cellGeom D m (cell m c)) ∧
      (List.range procs.length).flatMap (fun r => (res r).cells.map (cellGeom D (res r))) = m.cells.map (cellGeom D m) := by
  obtain ⟨offs, e, ho, hf⟩ := gather_spec dbg h
  have hcells : m.cells.length = offs.getD procs.length 0 := by rw [cells_eq h hm.cells, hf _ (le_refl _)]
  have key : ∀ r, r < procs.length → ∃ m', computeAll dbg D tess procs r = .ok m' ∧ Consistent D m' ∧ CommOK D m' ∧
      m'.cells.map (cellGeom D m') = (cellsOfProc D procs r).map fun c => cellGeom D m (cell m c) := by
    intro r hr
    obtain ⟨m', nd, e1, hn, hR⟩ := compute_spec dbg ho m hm.mesh hcells r hr (by
      intro hdt
      right
      rw [own_eq hf hr, cellsOfProc]
      have hne := hd hdt procs[r] (List.getElem_mem hr)
      obtain ⟨q, hq⟩ := h.whole procs[r] (List.getElem_mem hr)
      have hg : procs.getD r [] = procs[r] := by simp [hr]
      have : (procs.getD r []).length / D ≠ 0 := by
        rw [hg, hq, Nat.mul_div_cancel_left _ h.dim]
        rintro rfl
        rw [Nat.mul_zero] at hq
        exact hne (List.eq_nil_of_length_eq_zero hq)
      simpa using this)
    have hc := hm.mesh.consistent
    have hc2 : Consistent D (withComm D offs m r nd) :=
      ⟨hc.dim_pos, hc.nodes_dvd, hc.faces_lt, hc.cells_lt, hc.faceCells_len, hc.faceCells_size, hc.faceCells_lt, hc.inverse⟩
    have hcm : CommOK D (withComm D offs m r nd) := by
      refine ⟨by simp [withComm], ?_, ?_⟩
      · intro l hl n hnl
        obtain ⟨k, _, rfl⟩ := List.mem_map.1 hl
        exact List.mem_range.1 (List.mem_filter.1 hnl).1
      · intro l hl n hnl
        obtain ⟨k, _, rfl⟩ := List.mem_map.1 hl
        exact List.mem_range.1 (List.mem_filter.1 hnl).1
    refine ⟨m', ?_, hR.consistent hc2, hR.commOK hc2 hcm, ?_⟩
    · simp only [computeAll, e, Res.bind_eq, Res.bind_ok, hm.run, e1]
    · rw [← own_eq hf hr]; exact hR.cells_geom (m := withComm D offs m r nd) hc2
  haveI : Nonempty (Tess (BitVec 64)) := ⟨m⟩
  choose! res hres using key
  refine ⟨res, hres, ?_⟩
  have hall : (List.range procs.length).flatMap (fun r => (res r).cells.map (cellGeom D (res r))) =
      ((List.range procs.length).flatMap (cellsOfProc D procs)).map fun c => cellGeom D m (cell m c) := by
    rw [List.map_flatMap]
    apply List.flatMap_congr
    intro r hr
    exact (hres r (List.mem_range.1 hr)).2.2.2
  have hrange : ∀ k, k ≤ procs.length → (List.range k).flatMap (cellsOfProc D procs) = List.range (firstCell D procs k) := by
    intro k
    induction k with
    | zero => intro _; simp [firstCell]
    | succ k ih =>
      intro hk
      rw [List.range_succ, List.flatMap_append, ih (by omega), firstCell_succ D procs k (by omega), List.range_add]
      simp [cellsOfProc, List.range'_eq_map_range]
  rw [hall, hrange _ (le_refl _), ← cells_eq h hm.cells]
  apply List.ext_getElem
  · simp
  · intro i h1 h2
    simp only [List.length_map, List.length_range] at h1
    simp [cell, h1]

/-- C46 fails in debug builds: a process without generators aborts whenever any other process has some (`deleteCells` insists on keeping a cell). -/
theorem C46_empty_process_fails {D : Nat} {procs : List (List (BitVec 64))} (h : GoodInput D procs) {tess : List (BitVec 64) → Res (Tess (BitVec 64))}
    {m : Tess (BitVec 64)} (hm : SerialResult D procs tess m) (hpos : procs.flatten ≠ []) {r : Nat} (hr : r < procs.length) (he : procs.getD r [] = []) :
    computeAll true D tess procs r = .abort := by
  obtain ⟨offs, e, ho, hf⟩ := gather_spec true h
  have hcells : m.cells.length = offs.getD procs.length 0 := by rw [cells_eq h hm.cells, hf _ (le_refl _)]
  obtain ⟨nd, e1, hn⟩ := shareNodes_spec true ho m hm.mesh hcells r hr
  have hc := hm.mesh.consistent
  have hc1 : Consistent D { m with neighborDomains := nd, sharedNodes := nd.map fun k => nodesBetween D m (own offs r) (own offs k) } :=
    ⟨hc.dim_pos, hc.nodes_dvd, hc.faces_lt, hc.cells_lt, hc.faceCells_len, hc.faceCells_size, hc.faceCells_lt, hc.inverse⟩
  have e2 := shareFaces_spec true ho { m with neighborDomains := nd, sharedNodes := nd.map fun k => nodesBetween D m (own offs r) (own offs k) } hc1
    hm.mesh.faces_ne hcells r hr hm.mesh.sf ⟨hn.sorted, hn.mem⟩
  obtain ⟨mask, e3, hl, hb, hk⟩ := ownMask_spec ho hr
  rw [← hcells] at e3
  have hempty : own offs r = [] := by rw [own_eq hf hr, cellsOfProc, he]; simp
  have hno : 1 ∉ mask := by
    intro h1
    obtain ⟨i, hi, hi1⟩ := List.getElem_of_mem h1
    have : i ∈ keptCells mask := by
      simp only [keptCells, List.mem_filter, List.mem_range, decide_eq_true_eq]
      exact ⟨hi, by rw [List.getElem?_eq_getElem hi, hi1]⟩
    rw [hk, hempty] at this
    simp at this
  have hne : m.cells.length ≠ 0 := by
    rw [hm.cells]
    have hl := flatten_take_length h.whole procs.length
    rw [List.take_length] at hl
    rw [hl, Nat.mul_div_cancel_left _ h.dim]
    intro h0
    rw [h0, Nat.mul_zero] at hl
    exact hpos (List.eq_nil_of_length_eq_zero hl)
  simp only [computeAll, e, Res.bind_eq, Res.bind_ok, hm.run, compute, e1, e2, e3]
  unfold deleteCells
  have hlen : mask.length = m.cells.length := by rw [hl, hcells]
  simp only [Res.bind_eq, Res.assert_true true hlen, Res.bind_ok]
  rw [Res.assert_debug_false]
  · rfl
  · rintro (h0 | h0)
    · exact hne h0
    · exact hno (List.max?_mem h0)

/-! ### C47 -/

theorem between_comm (D : Nat) (m : Tess R) (kp kq : List Nat) : nodesBetween D m kp kq = nodesBetween D m kq kp := by
  unfold nodesBetween; apply List.filter_congr; intro n _; rw [decide_eq_decide]; exact and_comm

theorem facesBetween_comm (m : Tess R) (kp kq : List Nat) : facesBetween m kp kq = facesBetween m kq kp := by
  unfold facesBetween; apply List.filter_congr; intro n _; rw [decide_eq_decide]; exact and_comm

/-- What process `p` records about process `q`: local node `i` stands for node `(nodesOf …)[i]` of the serial mesh, and likewise for faces. -/
structure Records (D : Nat) (m : Tess R) (kp kq : List Nat) (m' : Tess R) (i : Nat) : Prop where
  nodes : (m'.sharedNodes.getD i []).map (old (nodesOf D m kp)) = nodesBetween D m kp kq
  faces : (m'.sharedFaces.getD i []).map (old (facesOf m kp)) = facesBetween m kp kq
  nodeCoords : (m'.sharedNodes.getD i []).map (node D m') = (nodesBetween D m kp kq).map (node D m)
  faceCoords : (m'.sharedFaces.getD i []).map (faceCoords D m') = (facesBetween m kp kq).map (faceCoords D m)

theorem records_spec {D : Nat} {offs : List Nat} {m m' : Tess R} (hm : Serial D m) {p : Nat} {nd : List Nat}
    (hR : Restricts D (withComm D offs m p nd) (nodesOf D m (own offs p)) (facesOf m (own offs p)) (own offs p) m') :
    m'.neighborDomains = nd ∧ m'.sharedNodes.length = nd.length ∧ ∀ i q, nd[i]? = some q → Records D m (own offs p) (own offs q) m' i := by
  have hc := hm.consistent
  have hc2 : Consistent D (withComm D offs m p nd) :=
    ⟨hc.dim_pos, hc.nodes_dvd, hc.faces_lt, hc.cells_lt, hc.faceCells_len, hc.faceCells_size, hc.faceCells_lt, hc.inverse⟩
  refine ⟨hR.neighborDomains, ?_, ?_⟩
  · have := congrArg List.length hR.sharedNodes
    simpa [withComm] using this
  intro i q hi
  obtain ⟨hil, hiq⟩ := List.getElem?_eq_some_iff.1 hi
  have hsubN : ∀ k, (nodesBetween D m (own offs p) (own offs k)).filter (fun n => decide (n ∈ nodesOf D m (own offs p))) = nodesBetween D m (own offs p) (own offs k) := by
    intro k
    rw [List.filter_eq_self]
    intro n hn
    simp only [nodesBetween, List.mem_filter, List.mem_range, decide_eq_true_eq] at hn
    simp only [nodesOf, List.mem_filter, List.mem_range, decide_eq_true_eq]
    exact ⟨hn.1, hn.2.1⟩
  have hsubF : ∀ k, (facesBetween m (own offs p) (own offs k)).filter (fun n => decide (n ∈ facesOf m (own offs p))) = facesBetween m (own offs p) (own offs k) := by
    intro k
    rw [List.filter_eq_self]
    intro n hn
    simp only [facesBetween, List.mem_filter, List.mem_range, decide_eq_true_eq] at hn
    simp only [facesOf, List.mem_filter, List.mem_range, decide_eq_true_eq]
    exact ⟨hn.1, hn.2.1⟩
  have hsn : m'.sharedNodes.map (·.map (old (nodesOf D m (own offs p)))) = nd.map fun k => nodesBetween D m (own offs p) (own offs k) := by
    rw [hR.sharedNodes]
    show (nd.map fun k => nodesBetween D m (own offs p) (own offs k)).map _ = _
    rw [List.map_map]
    exact List.map_congr_left fun k _ => hsubN k
  have hsf : m'.sharedFaces.map (·.map (old (facesOf m (own offs p)))) = nd.map fun k => facesBetween m (own offs p) (own offs k) := by
    rw [hR.sharedFaces]
    show (nd.map fun k => facesBetween m (own offs p) (own offs k)).map _ = _
    rw [List.map_map]
    exact List.map_congr_left fun k _ => hsubF k
  have hoq : old nd i = q := by rw [old_lt hil, hiq]
  have h1 : (m'.sharedNodes.getD i []).map (old (nodesOf D m (own offs p))) = nodesBetween D m (own offs p) (own offs q) := by
    have := map_eq_map_getD (g := List.map (old (nodesOf D m (own offs p)))) hsn hil
    rw [hoq] at this; exact this
  have h2 : (m'.sharedFaces.getD i []).map (old (facesOf m (own offs p))) = facesBetween m (own offs p) (own offs q) := by
    have := map_eq_map_getD (g := List.map (old (facesOf m (own offs p)))) hsf hil
    rw [hoq] at this; exact this
  have hln : m'.sharedNodes.length = nd.length := by have := congrArg List.length hsn; simpa using this
  have hlf : m'.sharedFaces.length = nd.length := by have := congrArg List.length hsf; simpa using this
  refine ⟨h1, h2, ?_, ?_⟩
  · rw [← h1, List.map_map]
    apply List.map_congr_left
    intro n hn
    exact hR.node_eq hc2 (hR.sharedNodes_lt _ (getD_mem' (by omega) []) n hn)
  · rw [← h2, List.map_map]
    apply List.map_congr_left
    intro f hf
    have hfl := hR.sharedFaces_lt _ (getD_mem' (by omega) []) f hf
    simp only [Function.comp, Mesh.faceCoords]
    have := hR.face_eq hfl
    show _ = List.map (node D m) (face (withComm D offs m p nd) (old (facesOf m (own offs p)) f))
    rw [← this, List.map_map]
    apply List.map_congr_left
    intro n hn
    exact hR.node_eq hc2 (hR.face_lt hfl hn)

/-- What a successful run returns, in terms of the serial mesh. -/
theorem computeAll_ok (dbg : Bool) {D : Nat} {procs : List (List (BitVec 64))} (h : GoodInput D procs) {tess : List (BitVec 64) → Res (Tess (BitVec 64))}
    {m : Tess (BitVec 64)} (hm : SerialResult D procs tess m) :
    ∃ offs, Offs procs.length offs ∧ (∀ r, r < procs.length → own offs r = cellsOfProc D procs r) ∧ m.cells.length = offs.getD procs.length 0 ∧
      ∀ r, r < procs.length → ∀ mr, computeAll dbg D tess procs r = .ok mr →
        ∃ nd, Neighbors procs.length offs m r nd ∧
          Restricts D (withComm D offs m r nd) (nodesOf D m (own offs r)) (facesOf m (own offs r)) (own offs r) mr := by
  obtain ⟨offs, e, ho, hf⟩ := gather_spec dbg h
  have hcells : m.cells.length = offs.getD procs.length 0 := by rw [cells_eq h hm.cells, hf _ (le_refl _)]
  have key : ∀ r, r < procs.length → ∀ mr, computeAll dbg D tess procs r = .ok mr →
      ∃ nd, Neighbors procs.length offs m r nd ∧
        Restricts D (withComm D offs m r nd) (nodesOf D m (own offs r)) (facesOf m (own offs r)) (own offs r) mr := by
    intro r hr mr er
    obtain ⟨m', nd, e1, hn, hR⟩ := compute_spec dbg ho m hm.mesh hcells r hr (by
      intro hdt
      by_contra hx
      rw [not_or, not_not] at hx
      obtain ⟨hx1, hx2⟩ := hx
      subst hdt
      have hab := C46_empty_process_fails h hm (r := r) (by
          intro h0
          apply hx1
          rw [hm.cells, h0]; simp) hr (by
          rw [own_eq hf hr, cellsOfProc] at hx2
          have hl : (procs.getD r []).length / D = 0 := by simpa using congrArg List.length hx2
          have hg : procs.getD r [] = procs[r] := by simp [hr]
          obtain ⟨k, hk⟩ := h.whole procs[r] (List.getElem_mem hr)
          rw [hg] at hl ⊢
          rw [hk, Nat.mul_div_cancel_left _ h.dim] at hl
          subst hl
          exact List.eq_nil_of_length_eq_zero (by rw [hk, Nat.mul_zero]))
      rw [hab] at er; cases er)
    have : computeAll dbg D tess procs r = .ok m' := by simp only [computeAll, e, Res.bind_eq, Res.bind_ok, hm.run, e1]
    rw [er] at this; cases this
    exact ⟨nd, hn, hR⟩
  exact ⟨offs, ho, fun r hr => own_eq hf hr, hcells, key⟩

/-- C47. Any two processes list each other as neighbours or neither does, and they do exactly when they have a node in common; then their lists of shared nodes
name the same nodes of the serial mesh in the same order (all the common ones, each once), with the same coordinates, and likewise the lists of shared faces. -/
theorem C47_agree (dbg : Bool) {D : Nat} {procs : List (List (BitVec 64))} (h : GoodInput D procs) {tess : List (BitVec 64) → Res (Tess (BitVec 64))}
    {m : Tess (BitVec 64)} (hm : SerialResult D procs tess m) {p q : Nat} (hp : p < procs.length) (hq : q < procs.length) (hpq : p ≠ q)
    {mp mq : Tess (BitVec 64)} (ep : computeAll dbg D tess procs p = .ok mp) (eq : computeAll dbg D tess procs q = .ok mq) :
    (q ∈ mp.neighborDomains ↔ p ∈ mq.neighborDomains) ∧
    (q ∈ mp.neighborDomains ↔ nodesBetween D m (cellsOfProc D procs p) (cellsOfProc D procs q) ≠ []) ∧
    ∀ i j, mp.neighborDomains[i]? = some q → mq.neighborDomains[j]? = some p →
      Records D m (cellsOfProc D procs p) (cellsOfProc D procs q) mp i ∧ Records D m (cellsOfProc D procs q) (cellsOfProc D procs p) mq j ∧
      (mp.sharedNodes.getD i []).map (node D mp) = (mq.sharedNodes.getD j []).map (node D mq) ∧
      (mp.sharedFaces.getD i []).map (faceCoords D mp) = (mq.sharedFaces.getD j []).map (faceCoords D mq) := by
  obtain ⟨offs, ho, hoc, hcells, key⟩ := computeAll_ok dbg h hm
  obtain ⟨ndp, hnp, hRp⟩ := key p hp mp ep
  obtain ⟨ndq, hnq, hRq⟩ := key q hq mq eq
  obtain ⟨h1, -, h2⟩ := records_spec hm.mesh hRp
  obtain ⟨h3, -, h4⟩ := records_spec hm.mesh hRq
  have hlt : ∀ k, k < procs.length → ∀ c ∈ own offs k, c < m.cells.length := fun k hk c hcm => by rw [hcells]; exact ho.own_lt hk hcm
  rw [h1, h3, hnp.mem, hnq.mem, ← hoc p hp, ← hoc q hq]
  refine ⟨?_, ?_, ?_⟩
  · constructor
    · rintro ⟨_, _, n, h5, h6⟩; exact ⟨hpq, hp, n, h6, h5⟩
    · rintro ⟨_, _, n, h5, h6⟩; exact ⟨Ne.symm hpq, hq, n, h6, h5⟩
  · constructor
    · rintro ⟨_, _, n, h5, h6⟩ h0
      have : n ∈ nodesBetween D m (own offs p) (own offs q) := by
        simp only [nodesBetween, List.mem_filter, List.mem_range, decide_eq_true_eq]
        exact ⟨nodeUsed_lt hm.mesh.consistent h5 (hlt p hp), h5, h6⟩
      rw [h0] at this; simp at this
    · intro h0
      obtain ⟨n, hn⟩ := List.exists_mem_of_ne_nil _ h0
      simp only [nodesBetween, List.mem_filter, List.mem_range, decide_eq_true_eq] at hn
      exact ⟨Ne.symm hpq, hq, n, hn.2⟩
  · intro i j hi hj
    have r1 := h2 i q hi
    have r2 := h4 j p hj
    refine ⟨r1, r2, ?_, ?_⟩
    · rw [r1.nodeCoords, r2.nodeCoords, between_comm]
    · rw [r1.faceCoords, r2.faceCoords, facesBetween_comm]

/-! ### The hypotheses are met: three processes, the middle one without generators, and the tessellation of the other two generators by two unit squares
(the coordinates of the model are bit patterns, here small numbers). -/

def exProcs : List (List (BitVec 64)) := [[5, 5], [], [15, 5]]
def exMesh : Tess (BitVec 64) where
  nodes := [0,0, 10,0, 20,0, 0,10, 10,10, 20,10]
  cells := [[0, 1, 2, 3], [4, 5, 6, -2]]
  faces := [[0,1], [1,4], [4,3], [3,0], [1,2], [2,5], [5,4]]
  boundaryNodes := [0, 1, 2, 3, 4, 5]
  boundaryFaces := [0, 2, 3, 4, 5, 6]
  faceCells := [[0], [0, -2], [0], [0], [1], [1], [1]]
  convexHull := {}

theorem exProcs_good : GoodInput 2 exProcs := by
  refine ⟨by decide, by decide, ?_, by decide, by decide⟩
  intro p hp
  simp only [exProcs, List.mem_cons, List.not_mem_nil, or_false] at hp
  rcases hp with rfl | rfl | rfl <;> decide
theorem exMesh_serial : SerialResult 2 exProcs (fun _ => .ok exMesh) exMesh := by
  refine ⟨rfl, ⟨?_, by decide, rfl, rfl, rfl⟩, by decide⟩
  exact ⟨by decide, by decide, by decide, by decide, by decide, by decide, by decide, by decide⟩

example : ∃ offs, gather true 2 exProcs = .ok ([5, 5, 15, 5], offs) ∧ ∀ c ∈ cellsOfProc 2 exProcs 2, ownerRank true c offs = .ok 2 := by
  obtain ⟨offs, h1, h2, _⟩ := C46_owner true exProcs_good
  exact ⟨offs, h1, h2 2 (by decide)⟩
example : cellsOfProc 2 exProcs 2 = [1] := by decide
example := C46_partition_partial false exProcs_good exMesh_serial (by simp)
example : computeAll true 2 (fun _ => .ok exMesh) exProcs 1 = .abort := C46_empty_process_fails exProcs_good exMesh_serial (by decide) (by decide) (by decide)
example : nodesBetween 2 exMesh (cellsOfProc 2 exProcs 0) (cellsOfProc 2 exProcs 2) = [1, 4] := by decide
example : facesBetween exMesh (cellsOfProc 2 exProcs 0) (cellsOfProc 2 exProcs 2) = [1] := by decide
example {mp mq : Tess (BitVec 64)} (ep : computeAll true 2 (fun _ => .ok exMesh) exProcs 0 = .ok mp) (eq : computeAll true 2 (fun _ => .ok exMesh) exProcs 2 = .ok mq) :=
  C47_agree true exProcs_good exMesh_serial (by decide) (by decide) (by decide) ep eq
end Verif.Par
