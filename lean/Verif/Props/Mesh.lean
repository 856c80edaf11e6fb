import Verif.Proofs.MeshQueries
/-
Properties C04-C09 and C11-C13: editing and querying tessellations.
`R` is any coordinate type and `D` any dimension; nothing in these algorithms does arithmetic on coordinates.
-/
namespace Verif.Mesh
open Verif
variable {R : Type}

/-- The mesh used to show that hypotheses can be met: two unit squares side by side, sharing face 1, with communication lists for two
neighbours and exact boundary lists. -/
def twoSquares : Tess Int where
  nodes := [0,0, 1,0, 2,0, 0,1, 1,1, 2,1]
  cells := [[0, 1, 2, 3], [4, 5, 6, -2]]
  faces := [[0,1], [1,4], [4,3], [3,0], [1,2], [2,5], [5,4]]
  boundaryNodes := [0, 1, 2, 3, 4, 5]
  boundaryFaces := [0, 2, 3, 4, 5, 6]
  faceCells := [[0], [0, -2], [0], [0], [1], [1], [1]]
  convexHull := {}
  neighborDomains := [3, 8]
  sharedNodes := [[5, 0], [4, 1]]
  sharedFaces := [[5], [1, 0]]

theorem twoSquares_consistent : Consistent 2 twoSquares := by
  refine ⟨by decide, by decide, by decide, by decide, by decide, by decide, by decide, by decide⟩
theorem twoSquares_comm : CommOK 2 twoSquares := by
  refine ⟨by decide, by decide, by decide⟩
theorem twoSquares_mask : GoodMask twoSquares [0, 1] := by
  refine ⟨by decide, by decide, by decide⟩
theorem twoSquares_mask' : GoodMask twoSquares [1, 0] := by
  refine ⟨by decide, by decide, by decide⟩
theorem twoSquares_boundary : BoundaryExact twoSquares := by
  constructor
  · intro f
    by_cases h : f < 7
    · revert f; decide
    · simp [twoSquares]; omega
  · intro n
    by_cases h : n < 6
    · have : (∃ f, f < 7 ∧ (cellsOf twoSquares f).length = 1 ∧ n ∈ face twoSquares f) ↔
          n ∈ twoSquares.boundaryNodes := by revert n; decide
      exact this.symm
    · constructor
      · intro h1; simp [twoSquares] at h1; omega
      · rintro ⟨f, h1, _, h3⟩
        have := twoSquares_consistent.faces_lt _ (face_mem h1) n h3
        simp [numNodes, twoSquares] at this; omega

/-! ### C04 -/

/-- C04. `deleteCells` on a consistent mesh with a good mask runs without an assertion failure or undefined behaviour, in debug and
release builds, and leaves a consistent mesh with well-formed communication lists. -/
theorem C04_delete_consistent (dbg : Bool) (D : Nat) (m : Tess R) (mask : List Nat) (hc : Consistent D m) (hs : CommOK D m)
    (hm : GoodMask m mask) :
    ∃ m', deleteCells dbg D m mask = .ok m' ∧ Consistent D m' ∧ CommOK D m' := by
  obtain ⟨m', kn, kf, e, h, _⟩ := deleteCells_spec dbg D m mask hc hs hm
  exact ⟨m', e, h.consistent hc, h.commOK hc hs⟩

example : ∃ m', deleteCells true 2 twoSquares [0, 1] = .ok m' ∧ Consistent 2 m' ∧ CommOK 2 m' :=
  C04_delete_consistent true 2 _ _ twoSquares_consistent twoSquares_comm twoSquares_mask

/-- C04: the number of remaining cells is the number of ones in the mask. -/
theorem C04_result_shape (dbg : Bool) (D : Nat) (m : Tess R) (mask : List Nat) (hc : Consistent D m) (hs : CommOK D m)
    (hm : GoodMask m mask) (m' : Tess R) (e : deleteCells dbg D m mask = .ok m') :
    m'.cells.length = mask.count 1 := by
  obtain ⟨m₁, kn, kf, e₁, h, _⟩ := deleteCells_spec dbg D m mask hc hs hm
  rw [e] at e₁; cases e₁
  rw [h.cells_length, ← keptCells_eq, kept, keptFrom_length, cellBits, List.countP_map]
  have : mask = (List.range mask.length).map (fun i => mask[i]?.getD 0) := by
    apply List.ext_getElem
    · simp
    · intro i h1 h2; simp [h1]
  conv_rhs => rw [this, List.count, List.countP_map]
  apply List.countP_congr
  intro i hi
  simp at hi
  simp [hi]

example : ∃ m', deleteCells true 2 twoSquares [0, 1] = .ok m' ∧ m'.cells.length = 1 := by
  obtain ⟨m', e, _⟩ := C04_delete_consistent true 2 _ _ twoSquares_consistent twoSquares_comm twoSquares_mask
  exact ⟨m', e, C04_result_shape true 2 _ _ twoSquares_consistent twoSquares_comm twoSquares_mask m' e⟩

/-! ### C05 -/

/-- C05. The cells of the result are, in order, exactly the kept cells, and each has the same list of (orientation, node coordinates)
as before. -/
theorem C05_survivors_unchanged (dbg : Bool) (D : Nat) (m : Tess R) (mask : List Nat) (hc : Consistent D m) (hs : CommOK D m)
    (hm : GoodMask m mask) :
    ∃ m', deleteCells dbg D m mask = .ok m' ∧
      m'.cells.map (cellGeom D m') = (keptCells mask).map (fun c => cellGeom D m (cell m c)) := by
  obtain ⟨m', kn, kf, e, h, _⟩ := deleteCells_spec dbg D m mask hc hs hm
  exact ⟨m', e, h.cells_geom hc⟩

/-- C05, neighbours: two surviving cells that shared a face still share it, and no new adjacency appears: for every remaining face the
list of its cells, as geometry, is the old list with the deleted cells dropped. -/
theorem C05_adjacency_unchanged (dbg : Bool) (D : Nat) (m : Tess R) (mask : List Nat) (hc : Consistent D m) (hs : CommOK D m)
    (hm : GoodMask m mask) :
    ∃ m', deleteCells dbg D m mask = .ok m' ∧
      ∀ i j, i < (keptCells mask).length → j < (keptCells mask).length →
        ((∃ s ∈ cell m' i, ∃ t ∈ cell m' j, posID s = posID t) ↔
         (∃ s ∈ cell m (old (keptCells mask) i), ∃ t ∈ cell m (old (keptCells mask) j), posID s = posID t)) := by
  obtain ⟨m', kn, kf, e, h, _⟩ := deleteCells_spec dbg D m mask hc hs hm
  refine ⟨m', e, ?_⟩
  intro i j hi hj
  rw [← h.cell_eq hi, ← h.cell_eq hj]
  simp only [List.mem_map, exists_exists_and_eq_and, posID_oldS]
  constructor
  · rintro ⟨s, hs, t, ht, e⟩; exact ⟨s, hs, t, ht, by rw [e]⟩
  · rintro ⟨s, hs, t, ht, e⟩
    exact ⟨s, hs, t, ht, old_inj h.kf_sorted (h.cell_lt hi hs) (h.cell_lt hj ht) e⟩

example : ∃ m', deleteCells true 2 twoSquares [0, 1] = .ok m' ∧
    m'.cells.map (cellGeom 2 m') =
      [[(true, [[1,0],[2,0]]), (true, [[2,0],[2,1]]), (true, [[2,1],[1,1]]), (false, [[1,0],[1,1]])]] := by
  obtain ⟨m', e, h⟩ := C05_survivors_unchanged true 2 _ _ twoSquares_consistent twoSquares_comm twoSquares_mask
  exact ⟨m', e, h.trans (by decide)⟩

/-! ### C06 -/

/-- C06. Every remaining face belongs to a remaining cell and every remaining node to a remaining face; the remaining faces and nodes are
exactly the old ones used by kept cells, in their old order, with unchanged coordinates. -/
theorem C06_no_orphans (dbg : Bool) (D : Nat) (m : Tess R) (mask : List Nat) (hc : Consistent D m) (hs : CommOK D m)
    (hm : GoodMask m mask) :
    ∃ m', deleteCells dbg D m mask = .ok m' ∧
      (∀ f, f < m'.faces.length → ∃ c, c < m'.cells.length ∧ ∃ s ∈ cell m' c, posID s = f) ∧
      (∀ n, n < numNodes D m' → ∃ f, f < m'.faces.length ∧ n ∈ face m' f) ∧
      (∃ kf : List Nat, kf.Pairwise (· < ·) ∧ (∀ f, f ∈ kf ↔ FaceUsed m (keptCells mask) f) ∧
        (List.range m'.faces.length).map (faceCoords D m') = kf.map (faceCoords D m)) ∧
      (∃ kn : List Nat, kn.Pairwise (· < ·) ∧ (∀ n, n ∈ kn ↔ NodeUsed m (keptCells mask) n) ∧
        (List.range (numNodes D m')).map (node D m') = kn.map (node D m)) := by
  obtain ⟨m', kn, kf, e, h, _⟩ := deleteCells_spec dbg D m mask hc hs hm
  refine ⟨m', e, ?_, ?_, ⟨kf, h.kf_sorted, h.kf_iff, ?_⟩, ⟨kn, h.kn_sorted, ?_, ?_⟩⟩
  · rw [h.faces_length, h.cells_length]; intro f hf; exact h.face_used hf
  · rw [h.numNodes_eq hc, h.faces_length]; intro n hn; exact h.node_used hn
  · apply List.ext_getElem
    · simp [h.faces_length]
    · intro i h1 h2
      simp only [List.length_map] at h2
      simp only [List.getElem_map, List.getElem_range, faceCoords]
      rw [← old_lt h2, ← h.face_eq h2, List.map_map]
      apply List.map_congr_left
      intro n hn
      exact h.node_eq hc (h.face_lt h2 hn)
  · intro n
    rw [h.kn_iff]
    constructor
    · rintro ⟨f, hf, hn⟩
      obtain ⟨c, hcm, s, hs, rfl⟩ := (h.kf_iff f).1 hf
      exact ⟨c, hcm, s, hs, hn⟩
    · rintro ⟨c, hcm, s, hs, hn⟩
      exact ⟨posID s, (h.kf_iff _).2 ⟨c, hcm, s, hs, rfl⟩, hn⟩
  · apply List.ext_getElem
    · simp [h.numNodes_eq hc]
    · intro i h1 h2
      simp only [List.length_map] at h2
      simp only [List.getElem_map, List.getElem_range]
      rw [← old_lt h2]
      exact h.node_eq hc h2

example : ∃ m', deleteCells false 2 twoSquares [1, 0] = .ok m' ∧
    (∀ n, n < numNodes 2 m' → ∃ f, f < m'.faces.length ∧ n ∈ face m' f) := by
  obtain ⟨m', e, _, h, _⟩ := C06_no_orphans false 2 _ _ twoSquares_consistent twoSquares_comm twoSquares_mask'
  exact ⟨m', e, h⟩

/-! ### C07 -/

/-- C07. Deleting with mask `a` and then, in the renumbered mesh, with mask `b`, equals deleting once with a mask `ab` that keeps exactly the
cells kept by both: cell `c` is kept iff it is the `i`-th cell kept by `a` and `b` keeps `i`. -/
theorem C07_two_step (dbg : Bool) (D : Nat) (m m₁ : Tess R) (a b ab : List Nat) (hc : Consistent D m) (hs : CommOK D m)
    (ha : GoodMask m a) (e₁ : deleteCells dbg D m a = .ok m₁) (hb : GoodMask m₁ b)
    (hlen : ab.length = m.cells.length) (hbits : ∀ k ∈ ab, k = 0 ∨ k = 1)
    (hab : ∀ c : Nat, ab[c]? = some 1 ↔ ∃ i : Nat, (keptCells a)[i]? = some c ∧ b[i]? = some 1) :
    deleteCells dbg D m ab = deleteCells dbg D m₁ b := by
  obtain ⟨m₁', kn, kf, e, h, b1, b2, b3⟩ := deleteCells_spec dbg D m a hc hs ha
  rw [e₁] at e; cases e
  obtain ⟨m₂, kn₂, kf₂, e₂, h₂, b4, b5, b6⟩ := deleteCells_spec dbg D m₁ b (h.consistent hc) (h.commOK hc hs) hb
  have memK : ∀ (mask : List Nat) c, c ∈ keptCells mask ↔ mask[c]? = some 1 := by
    intro mask c; rw [← keptCells_eq, mem_kept, cellBits_iff rfl]
  have hk : keptCells ab = (keptCells b).map (old (keptCells a)) := by
    apply sorted_ext
    · rw [← keptCells_eq]; exact keptFrom_sorted _ _
    · exact map_old_sorted h.kc_sorted h₂.kc_sorted (fun i hi => by rw [← h.cells_length]; exact h₂.kc_lt i hi)
    · intro c
      rw [memK, hab, List.mem_map]
      constructor
      · rintro ⟨i, h1, h2⟩
        refine ⟨i, (memK b i).2 h2, ?_⟩
        simp [old, List.getD, h1]
      · rintro ⟨i, h1, h2⟩
        refine ⟨i, ?_, (memK b i).1 h1⟩
        have hi : i < (keptCells a).length := by rw [← h.cells_length]; exact h₂.kc_lt i h1
        rw [← h2, old_lt hi]; simp [hi]
  have hgood : GoodMask m ab := by
    refine ⟨hlen, hbits, ?_⟩
    rcases hb.some with h0 | h1
    · left
      rcases ha.some with h1 | h1
      · exact h1
      · exfalso
        rw [h.cells_length] at h0
        obtain ⟨i, hi, hi'⟩ := List.getElem_of_mem h1
        have : i ∈ keptCells a := (memK a i).2 (by simp [hi, hi'])
        rw [List.length_eq_zero_iff.1 h0] at this
        simp at this
    · right
      obtain ⟨i, hi, hi'⟩ := List.getElem_of_mem h1
      have hik : i ∈ keptCells b := (memK b i).2 (by simp [hi, hi'])
      have hi2 : i < (keptCells a).length := by rw [← h.cells_length]; exact h₂.kc_lt i hik
      have := (hab (keptCells a)[i]).2 ⟨i, by simp [hi2], by simp [hi, hi']⟩
      exact List.mem_of_getElem? this
  obtain ⟨m₃, kn₃, kf₃, e₃, h₃, b7, b8, b9⟩ := deleteCells_spec dbg D m ab hc hs hgood
  rw [hk] at h₃
  obtain ⟨_, _, u1, u2, u3, u4, u5, u6, u7⟩ := (h.comp hc h₂).unique h₃
  rw [e₂, e₃]
  congr 1
  cases m₂; cases m₃
  simp_all

/-- A three-cell strip, so that both steps delete something. -/
def threeSquares : Tess Int where
  nodes := [0,0, 1,0, 2,0, 3,0, 0,1, 1,1, 2,1, 3,1]
  cells := [[0, 1, 2, 3], [4, 5, 6, -2], [7, 8, 9, -6]]
  faces := [[0,1], [1,5], [5,4], [4,0], [1,2], [2,6], [6,5], [2,3], [3,7], [7,6]]
  boundaryNodes := []
  boundaryFaces := []
  faceCells := [[0], [0, -2], [0], [0], [1], [1, -3], [1], [2], [2], [2]]
  convexHull := {}
  neighborDomains := [1]
  sharedNodes := [[7, 0, 6]]
  sharedFaces := [[8, 1]]

theorem threeSquares_consistent : Consistent 2 threeSquares := by
  refine ⟨by decide, by decide, by decide, by decide, by decide, by decide, by decide, by decide⟩

example : ∃ m₁, deleteCells true 2 threeSquares [0, 1, 1] = .ok m₁ ∧ m₁.cells.length = 2 ∧
    deleteCells true 2 threeSquares [0, 0, 1] = deleteCells true 2 m₁ [0, 1] := by
  have hcomm : CommOK 2 threeSquares := by refine ⟨by decide, by decide, by decide⟩
  have hmask : GoodMask threeSquares [0, 1, 1] := by refine ⟨by decide, by decide, by decide⟩
  obtain ⟨m₁, e, _⟩ := C04_delete_consistent true 2 _ _ threeSquares_consistent hcomm hmask
  have hl := C04_result_shape true 2 _ _ threeSquares_consistent hcomm hmask m₁ e
  refine ⟨m₁, e, hl, ?_⟩
  refine C07_two_step true 2 _ m₁ [0, 1, 1] [0, 1] [0, 0, 1] threeSquares_consistent hcomm hmask e
    ⟨hl.symm, by decide, Or.inr (by decide)⟩ rfl (by decide) ?_
  intro c
  have hk : keptCells [0, 1, 1] = [1, 2] := by decide
  rw [hk]
  constructor
  · intro h
    match c, h with
    | 2, _ => exact ⟨1, rfl, rfl⟩
    | 0, h => simp at h
    | 1, h => simp at h
    | c + 3, h => simp at h
  · rintro ⟨i, h1, h2⟩
    match i, h1, h2 with
    | 0, _, h2 => simp at h2
    | 1, h1, _ => simp at h1; subst h1; rfl
    | i + 2, h1, _ => simp at h1

/-! ### C08 -/

/-- C08. For every neighbour the new shared node (face) list is the old list restricted to the nodes (faces) that still exist, in the same
order and with the same coordinates; the list of neighbours is unchanged. -/
theorem C08_shared_lists (dbg : Bool) (D : Nat) (m : Tess R) (mask : List Nat) (hc : Consistent D m) (hs : CommOK D m)
    (hm : GoodMask m mask) :
    ∃ m', deleteCells dbg D m mask = .ok m' ∧ m'.neighborDomains = m.neighborDomains ∧
      (∃ kn : List Nat, (∀ n, n ∈ kn ↔ NodeUsed m (keptCells mask) n) ∧
        m'.sharedNodes.map (·.map (node D m')) = m.sharedNodes.map (fun l => (l.filter fun n => decide (n ∈ kn)).map (node D m))) ∧
      (∃ kf : List Nat, (∀ f, f ∈ kf ↔ FaceUsed m (keptCells mask) f) ∧
        m'.sharedFaces.map (·.map (faceCoords D m')) =
          m.sharedFaces.map (fun l => (l.filter fun f => decide (f ∈ kf)).map (faceCoords D m))) := by
  obtain ⟨m', kn, kf, e, h, _⟩ := deleteCells_spec dbg D m mask hc hs hm
  refine ⟨m', e, h.neighborDomains, ⟨kn, ?_, ?_⟩, ⟨kf, h.kf_iff, ?_⟩⟩
  · intro n
    rw [h.kn_iff]
    constructor
    · rintro ⟨f, hf, hn⟩
      obtain ⟨c, hcm, s, hs, rfl⟩ := (h.kf_iff f).1 hf
      exact ⟨c, hcm, s, hs, hn⟩
    · rintro ⟨c, hcm, s, hs, hn⟩
      exact ⟨posID s, (h.kf_iff _).2 ⟨c, hcm, s, hs, rfl⟩, hn⟩
  · have e : m'.sharedNodes.map (·.map (node D m')) = (m'.sharedNodes.map (·.map (old kn))).map (·.map (node D m)) := by
      rw [List.map_map]
      apply List.map_congr_left
      intro l hl
      simp only [Function.comp, List.map_map]
      apply List.map_congr_left
      intro n hn
      exact h.node_eq hc (h.sharedNodes_lt l hl n hn)
    rw [e, h.sharedNodes, List.map_map]
    rfl
  · have e : m'.sharedFaces.map (·.map (faceCoords D m')) =
        (m'.sharedFaces.map (·.map (old kf))).map (·.map (faceCoords D m)) := by
      rw [List.map_map]
      apply List.map_congr_left
      intro l hl
      simp only [Function.comp, List.map_map]
      apply List.map_congr_left
      intro f hf
      have hfl := h.sharedFaces_lt l hl f hf
      simp only [faceCoords, Function.comp]
      rw [← h.face_eq hfl, List.map_map]
      apply List.map_congr_left
      intro n hn
      exact h.node_eq hc (h.face_lt hfl hn)
    rw [e, h.sharedFaces, List.map_map]
    rfl

example : ∃ m', deleteCells true 2 twoSquares [0, 1] = .ok m' ∧
    m'.sharedNodes.map (·.map (node 2 m')) = [[[2, 1]], [[1, 1], [1, 0]]] := by
  obtain ⟨m', e, _, ⟨kn, hk, h⟩, _⟩ := C08_shared_lists true 2 _ _ twoSquares_consistent twoSquares_comm twoSquares_mask
  refine ⟨m', e, h.trans ?_⟩
  have hU : ∀ n, n ∈ kn ↔ n ∈ [1, 2, 4, 5] := by
    intro n; rw [hk, (by decide : keptCells [0, 1] = [1])]
    simp [NodeUsed, cell, face, twoSquares, posID, Verif.flip]; omega
  simp [twoSquares, hU, node]

theorem zip_filter_agree {α : Type} {p q : Nat → Bool} {u v : Nat → α} : ∀ {l l' : List Nat}, l.map u = l'.map v →
    (∀ (i : Nat) a b, l[i]? = some a → l'[i]? = some b → p a = q b) → (l.filter p).map u = (l'.filter q).map v
  | [], [], _, _ => rfl
  | a :: l, b :: l', h, hp => by
    simp only [List.map_cons, List.cons.injEq] at h
    have ih := zip_filter_agree h.2 (fun i x y hx hy => hp (i + 1) x y (by simpa using hx) (by simpa using hy))
    have h0 := hp 0 a b rfl rfl
    simp only [List.filter_cons, h0]
    split <;> simp [ih, h.1]
  | [], _ :: _, h, _ => by simp at h
  | _ :: _, [], h, _ => by simp at h

/-- C08, two processes: if domain A's shared list for B and domain B's list for A name the same positions in the same order, and each
pair of corresponding nodes survives on both or on neither, then after each side deletes its cells the lists still name the same positions
in the same order. -/
theorem C08_domains_still_agree (dbg : Bool) (D : Nat) (mA mB : Tess R) (maskA maskB : List Nat) (hA : Consistent D mA)
    (hB : Consistent D mB) (sA : CommOK D mA) (sB : CommOK D mB) (gA : GoodMask mA maskA) (gB : GoodMask mB maskB) (i j : Nat)
    (hi : i < mA.sharedNodes.length) (hj : j < mB.sharedNodes.length)
    (hagree : (mA.sharedNodes.getD i []).map (node D mA) = (mB.sharedNodes.getD j []).map (node D mB))
    (hsurv : ∀ (t : Nat) a b, (mA.sharedNodes.getD i [])[t]? = some a → (mB.sharedNodes.getD j [])[t]? = some b →
      (NodeUsed mA (keptCells maskA) a ↔ NodeUsed mB (keptCells maskB) b)) :
    ∃ mA' mB', deleteCells dbg D mA maskA = .ok mA' ∧ deleteCells dbg D mB maskB = .ok mB' ∧
      (mA'.sharedNodes.getD i []).map (node D mA') = (mB'.sharedNodes.getD j []).map (node D mB') := by
  obtain ⟨mA', eA, _, ⟨kA, hkA, hA'⟩, _⟩ := C08_shared_lists dbg D mA maskA hA sA gA
  obtain ⟨mB', eB, _, ⟨kB, hkB, hB'⟩, _⟩ := C08_shared_lists dbg D mB maskB hB sB gB
  refine ⟨mA', mB', eA, eB, ?_⟩
  have get : ∀ {x y : List (List Nat)} {g h : List Nat → List (List R)} {i : Nat}, x.map g = y.map h → i < y.length →
      g (x.getD i []) = h (y.getD i []) := by
    intro x y g h i e hi
    have hl : x.length = y.length := by have := congrArg List.length e; simpa using this
    have := congrArg (fun l => l[i]?) e
    simpa [hl, hi] using this
  rw [get (g := fun l => l.map (node D mA')) hA' hi, get (g := fun l => l.map (node D mB')) hB' hj]
  apply zip_filter_agree hagree
  intro t a b ha hb
  rw [decide_eq_decide, hkA, hkB]
  exact hsurv t a b ha hb

example : ∃ mA' mB', deleteCells true 2 twoSquares [0, 1] = .ok mA' ∧ deleteCells true 2 twoSquares [0, 1] = .ok mB' ∧
    (mA'.sharedNodes.getD 0 []).map (node 2 mA') = (mB'.sharedNodes.getD 0 []).map (node 2 mB') :=
  C08_domains_still_agree true 2 twoSquares twoSquares [0, 1] [0, 1] twoSquares_consistent twoSquares_consistent twoSquares_comm
    twoSquares_comm twoSquares_mask twoSquares_mask 0 0 (by decide) (by decide) rfl
    (by intro t a b ha hb; rw [ha] at hb; cases hb; rfl)

/-! ### C09 -/

/-- C09 fails: the boundary lists are not updated. Deleting one of the two squares leaves lists that name faces and nodes
that no longer exist and miss the newly exposed face. -/
theorem C09_boundary_lists_fails :
    ¬ ∀ (dbg : Bool) (m m' : Tess Int) (mask : List Nat), Consistent 2 m → CommOK 2 m → GoodMask m mask → BoundaryExact m →
      deleteCells dbg 2 m mask = .ok m' → BoundaryExact m' := by
  intro h
  have e : ∃ m', deleteCells true 2 twoSquares [1, 0] = .ok m' ∧ m'.faces.length = 4 ∧ 6 ∈ m'.boundaryFaces := by
    refine ⟨_, rfl, by decide, by decide⟩
  obtain ⟨m', e, h1, h2⟩ := e
  have := (h true _ m' _ twoSquares_consistent twoSquares_comm twoSquares_mask' twoSquares_boundary e).faces 6
  have := (this.1 h2).1
  omega

/-- C09, exact behaviour: the two boundary lists come through every `deleteCells` unchanged. -/
theorem C09_boundary_lists_untouched (dbg : Bool) (D : Nat) (m : Tess R) (mask : List Nat) (hc : Consistent D m) (hs : CommOK D m)
    (hm : GoodMask m mask) :
    ∃ m', deleteCells dbg D m mask = .ok m' ∧ m'.boundaryFaces = m.boundaryFaces ∧ m'.boundaryNodes = m.boundaryNodes := by
  obtain ⟨m', kn, kf, e, h, b1, b2, _⟩ := deleteCells_spec dbg D m mask hc hs hm
  exact ⟨m', e, b2, b1⟩

/-- C09, the part that holds: when every cell is kept and every node lies on a face, exact boundary lists stay exact
(nothing is renumbered). Missing: any call that actually deletes a cell. -/
theorem C09_boundary_lists_partial (dbg : Bool) (D : Nat) (m : Tess R) (mask : List Nat) (hc : Consistent D m) (hs : CommOK D m)
    (hm : GoodMask m mask) (hall : ∀ k ∈ mask, k = 1) (hn : ∀ n, n < numNodes D m → ∃ f, f < m.faces.length ∧ n ∈ face m f)
    (hb : BoundaryExact m) :
    ∃ m', deleteCells dbg D m mask = .ok m' ∧ BoundaryExact m' ∧ m' = { m with convexHull := {} } := by
  obtain ⟨m', kn, kf, e, h, b1, b2, b3⟩ := deleteCells_spec dbg D m mask hc hs hm
  have hkc : ∀ c, c ∈ keptCells mask ↔ c < m.cells.length := by
    intro c
    rw [← keptCells_eq, mem_kept, cellBits_iff rfl, ← hm.len]
    constructor
    · intro h; exact (List.getElem?_eq_some_iff.1 h).1
    · intro h; simp [h, hall _ (List.getElem_mem h)]
  have ekc : keptCells mask = List.range m.cells.length :=
    sorted_ext h.kc_sorted List.pairwise_lt_range (fun c => by rw [hkc]; simp)
  have ekf : kf = List.range m.faces.length := by
    refine sorted_ext h.kf_sorted List.pairwise_lt_range (fun f => ?_)
    constructor
    · intro hf; simpa using h.kf_lt hc f hf
    · intro hf
      have hf : f < m.faces.length := by simpa using hf
      have hX := cellsOf_mem (m := m) (f := f) (by rw [hc.faceCells_len]; exact hf)
      have hsz := hc.faceCells_size _ hX
      obtain ⟨s, hs⟩ := List.exists_mem_of_ne_nil (cellsOf m f) (by intro h; rw [h] at hsz; simp at hsz)
      have hcl := hc.faceCells_lt _ hX s hs
      have hinv := hc.inverse f hf _ hcl
      rw [h.kf_iff]
      refine ⟨posID s, (hkc _).2 hcl, ?_⟩
      by_cases h0 : 0 ≤ s
      · have h1 : 0 < (cellsOf m f).count (posID s : Int) := List.count_pos_iff.2 (by rw [← eq_of_nonneg h0]; exact hs)
        rw [hinv.1] at h1
        exact ⟨_, List.count_pos_iff.1 h1, by simp⟩
      · have h1 : 0 < (cellsOf m f).count (flip (posID s)) := List.count_pos_iff.2 (by rw [← eq_flip_of_neg h0]; exact hs)
        rw [hinv.2] at h1
        exact ⟨_, List.count_pos_iff.1 h1, by simp⟩
  have ekn : kn = List.range (numNodes D m) := by
    refine sorted_ext h.kn_sorted List.pairwise_lt_range (fun n => ?_)
    constructor
    · intro hf; simpa using h.kn_lt hc n hf
    · intro hf
      obtain ⟨f, h1, h2⟩ := hn n (by simpa using hf)
      exact (h.kn_iff n).2 ⟨f, by rw [ekf]; simpa using h1, h2⟩
  have oldr : ∀ {n i}, i < n → old (List.range n) i = i := by intro n i h; simp [old, h]
  have oldrS : ∀ {n} {s : Int}, posID s < n → oldS (List.range n) s = s := by
    intro n s h
    by_cases h0 : 0 ≤ s
    · simp only [oldS, h0, if_true, oldr h]; exact (eq_of_nonneg h0).symm
    · simp only [oldS, h0, if_false, oldr h]; exact (eq_flip_of_neg h0).symm
  have hR : Restricts D m kn kf (keptCells mask) { m with convexHull := {} } := by
    rw [ekn, ekf, ekc]
    have tab : ∀ {α : Type} (l : List (List α)) (g : List α → List α), (∀ x ∈ l, g x = x) →
        l.map g = (List.range l.length).map (fun i => l.getD i []) := by
      intro α l g hg
      apply List.ext_getElem
      · simp
      · intro i h1 h2
        simp only [List.length_map] at h1
        simp [h1, hg _ (List.getElem_mem h1)]
    refine { kc_sorted := List.pairwise_lt_range, kf_sorted := List.pairwise_lt_range, kn_sorted := List.pairwise_lt_range,
             kc_lt := by simp, kf_iff := ?_, kn_iff := ?_, nodes := ?_, faces := ?_, faces_lt := ?_, cells := ?_, cells_lt := ?_,
             faceCells := ?_, faceCells_lt := ?_, sharedNodes := ?_, sharedNodes_lt := ?_, sharedFaces := ?_, sharedFaces_lt := ?_,
             neighborDomains := rfl }
    · rw [← ekf, ← ekc]; exact h.kf_iff
    · rw [← ekn, ← ekf]; exact h.kn_iff
    · have h1 := h.nodes
      obtain ⟨q, hq⟩ := hc.nodes_dvd
      have hnn : numNodes D m = q := by rw [numNodes, hq, Nat.mul_div_cancel_left _ hc.dim_pos]
      rw [hnn]
      have key : ∀ q (l : List R), l.length = D * q → (List.range q).flatMap (fun i => (l.drop (D * i)).take D) = l := by
        intro q
        induction q with
        | zero => intro l hl; simp at hl; simp [hl]
        | succ q ih =>
          intro l hl
          rw [List.range_succ_eq_map, List.flatMap_cons, List.flatMap_map]
          have := ih (l.drop D) (by rw [List.length_drop, hl, Nat.mul_succ]; omega)
          have e2 : (List.range q).flatMap (fun a => (l.drop (D * a.succ)).take D) =
              (List.range q).flatMap (fun i => ((l.drop D).drop (D * i)).take D) := by
            apply List.flatMap_congr
            intro i _
            rw [List.drop_drop]; congr 2; rw [Nat.mul_succ, Nat.add_comm]
          rw [e2, this]
          simp
      exact (key q m.nodes hq).symm
    · exact tab m.faces _ (fun F hF => by
        conv_rhs => rw [← List.map_id F]
        exact List.map_congr_left (fun n hn => oldr (hc.faces_lt F hF n hn)))
    · simpa using hc.faces_lt
    · exact tab m.cells _ (fun F hF => by
        conv_rhs => rw [← List.map_id F]
        exact List.map_congr_left (fun n hn => oldrS (hc.cells_lt F hF n hn)))
    · simpa using hc.cells_lt
    · rw [← hc.faceCells_len, tab m.faceCells _ (fun F hF => by
        conv_rhs => rw [← List.map_id F]
        exact List.map_congr_left (fun n hn => oldrS (hc.faceCells_lt F hF n hn)))]
      apply List.map_congr_left
      intro f hf
      have hf : f < m.faceCells.length := by simpa using hf
      symm
      apply List.filter_eq_self.2
      intro s hs
      simpa using hc.faceCells_lt _ (cellsOf_mem hf) s hs
    · simpa using hc.faceCells_lt
    · apply List.map_congr_left
      intro l hl
      rw [List.filter_eq_self.2 (by intro n hn; simpa using hs.nodes_lt l hl n hn)]
      conv_rhs => rw [← List.map_id l]
      exact List.map_congr_left (fun n hn => oldr (hs.nodes_lt l hl n hn))
    · simpa using hs.nodes_lt
    · apply List.map_congr_left
      intro l hl
      rw [List.filter_eq_self.2 (by intro n hn; simpa using hs.faces_lt l hl n hn)]
      conv_rhs => rw [← List.map_id l]
      exact List.map_congr_left (fun n hn => oldr (hs.faces_lt l hl n hn))
    · simpa using hs.faces_lt
  obtain ⟨_, _, u1, u2, u3, u4, u5, u6, u7⟩ := h.unique hR
  have em : m' = { m with convexHull := {} } := by
    cases m'; cases m
    simp_all
  refine ⟨m', e, ?_, em⟩
  rw [em]
  exact ⟨hb.faces, hb.nodes⟩

example : ∃ m', deleteCells true 2 twoSquares [1, 1] = .ok m' ∧ BoundaryExact m' := by
  obtain ⟨m', e, h, _⟩ := C09_boundary_lists_partial true 2 twoSquares [1, 1] twoSquares_consistent twoSquares_comm
    (by refine ⟨by decide, by decide, by decide⟩) (by decide)
    (by intro n hn; have : n < 6 := hn; revert n; decide) twoSquares_boundary
  exact ⟨m', e, h⟩

/-! ### C11 -/

/-- C11. `computeNodeCells` reports cell `c` for node `n` exactly when a face of `c` contains `n`, without repeats. -/
theorem C11_nodeCells (dbg : Bool) (D : Nat) (m : Tess R) (hc : Consistent D m) :
    ∃ r, computeNodeCells dbg D m = .ok r ∧ r.length = numNodes D m ∧ (∀ s ∈ r, s.Nodup) ∧
      ∀ n c, c ∈ r.getD n [] ↔ c < m.cells.length ∧ ∃ s ∈ cell m c, n ∈ face m (posID s) :=
  computeNodeCells_spec dbg D m hc.faces_lt hc.cells_lt

/-- C11. `computeCellToNodes` reports node `n` for cell `c` exactly when a face of `c` contains `n`, without repeats. -/
theorem C11_cellToNodes (dbg : Bool) (D : Nat) (m : Tess R) (hc : Consistent D m) :
    ∃ r, computeCellToNodes dbg m = .ok r ∧ r.length = m.cells.length ∧ (∀ s ∈ r, s.Nodup) ∧
      ∀ n c, n ∈ r.getD c [] ↔ c < m.cells.length ∧ ∃ s ∈ cell m c, n ∈ face m (posID s) :=
  computeCellToNodes_spec dbg D m hc.faces_lt hc.cells_lt hc.faceCells_len

/-- C11. The two queries are converse relations. -/
theorem C11_converse (dbg : Bool) (D : Nat) (m : Tess R) (hc : Consistent D m) :
    ∃ r q, computeNodeCells dbg D m = .ok r ∧ computeCellToNodes dbg m = .ok q ∧
      ∀ n c, c ∈ r.getD n [] ↔ n ∈ q.getD c [] := by
  obtain ⟨r, e1, _, _, h1⟩ := C11_nodeCells dbg D m hc
  obtain ⟨q, e2, _, _, h2⟩ := C11_cellToNodes dbg D m hc
  exact ⟨r, q, e1, e2, fun n c => by rw [h1, h2]⟩

example : computeNodeCells true 2 twoSquares = .ok [[0], [0, 1], [1], [0], [0, 1], [1]] := by decide
example : ∃ r q, computeNodeCells true 2 twoSquares = .ok r ∧ computeCellToNodes true twoSquares = .ok q ∧
    ∀ n c, c ∈ r.getD n [] ↔ n ∈ q.getD c [] := C11_converse true 2 _ twoSquares_consistent

/-! ### C12 -/

/-- C12. On a consistent mesh (two or three dimensional) with at least one boundary face, `findBoundaryElements` lists exactly the faces
with one cell and exactly the nodes on them, each once in increasing order. -/
theorem C12_boundary_exact (dbg : Bool) (D : Nat) (hD : 2 ≤ D) (m : Tess R) (hc : Consistent D m)
    (hb : ∃ f, f < m.faces.length ∧ (cellsOf m f).length = 1 ∧ face m f ≠ []) :
    ∃ bf bn, findBoundaryElements dbg m = .ok (bf, bn) ∧ bf.Pairwise (· < ·) ∧ bn.Pairwise (· < ·) ∧
      (∀ f, f ∈ bf ↔ f < m.faces.length ∧ (cellsOf m f).length = 1) ∧
      (∀ n, n ∈ bn ↔ ∃ f, f < m.faces.length ∧ (cellsOf m f).length = 1 ∧ n ∈ face m f) :=
  findBoundaryElements_spec dbg D hD m hc.faces_lt hc.faceCells_len hc.faceCells_size hb

/-- C12 with C09: running `findBoundaryElements` after `deleteCells` restores exact boundary lists. -/
theorem C12_after_delete (dbg : Bool) (D : Nat) (hD : 2 ≤ D) (m : Tess R) (mask : List Nat) (hc : Consistent D m) (hs : CommOK D m)
    (hm : GoodMask m mask) :
    ∃ m', deleteCells dbg D m mask = .ok m' ∧
      ((∃ f, f < m'.faces.length ∧ (cellsOf m' f).length = 1 ∧ face m' f ≠ []) →
        ∃ bf bn, findBoundaryElements dbg m' = .ok (bf, bn) ∧ BoundaryExact { m' with boundaryFaces := bf, boundaryNodes := bn }) := by
  obtain ⟨m', e, h, _⟩ := C04_delete_consistent dbg D m mask hc hs hm
  refine ⟨m', e, fun hb => ?_⟩
  obtain ⟨bf, bn, e2, _, _, h1, h2⟩ := C12_boundary_exact dbg D hD m' h hb
  exact ⟨bf, bn, e2, h1, h2⟩

example : ∃ bf bn, findBoundaryElements true twoSquares = .ok (bf, bn) ∧
    (∀ f, f ∈ bf ↔ f < 7 ∧ (cellsOf twoSquares f).length = 1) := by
  obtain ⟨bf, bn, e, _, _, h, _⟩ := C12_boundary_exact true 2 (by decide) twoSquares twoSquares_consistent
    ⟨0, by decide, by decide, by decide⟩
  exact ⟨bf, bn, e, h⟩

/-! ### C13 -/

/-- The default-constructed tessellation. -/
def freshTess : Tess R :=
  { nodes := [], cells := [], faces := [], boundaryNodes := [], boundaryFaces := [], faceCells := [], convexHull := { facets := [], holes := [] },
    neighborDomains := [], sharedNodes := [], sharedFaces := [] }

/-- C13. `clear()` gives, from any state, the default-constructed tessellation, and `empty()` is true of it. -/
theorem C13_clear (m : Tess R) : clear m = freshTess ∧ empty (clear m) = true := by
  constructor
  · rfl
  · simp [empty, clear]

/-- C13. `empty()` is true exactly when nodes, cells, faces, boundary lists, faceCells and hull are all empty. -/
theorem C13_empty_iff (m : Tess R) : empty m = true ↔
    m.nodes = [] ∧ m.cells = [] ∧ m.faces = [] ∧ m.boundaryNodes = [] ∧ m.boundaryFaces = [] ∧ m.faceCells = [] ∧
    m.convexHull.facets = [] ∧ m.convexHull.holes = [] := by
  simp [empty, and_assoc]

/-- C13: `empty()` does not look at the communication lists, so an "empty" tessellation can differ from a new one. -/
theorem C13_empty_ignores_comm : ∃ m : Tess Int, empty m = true ∧ m ≠ freshTess :=
  ⟨{ (freshTess : Tess Int) with neighborDomains := [1], sharedNodes := [[0]], sharedFaces := [[]] }, by decide,
    fun h => by
      have := congrArg Tess.neighborDomains h
      simp [freshTess] at this⟩

example : empty twoSquares = false ∧ empty (clear twoSquares) = true := ⟨by decide, (C13_clear _).2⟩

end Verif.Mesh
