import Verif.Model.Quant
import Verif.Spec.Mesh
import Verif.Proofs.Polygon
import Mathlib.Tactic.Linarith
import Mathlib.Tactic.Common
/- C39: reading a quantized tessellation out into a mesh. -/
namespace Verif.Geom
open Verif Verif.Mesh

/-- Cell `c`, signed, for every use of face `f` in the face list `C` of the cell. -/
def usesIn (f c : Nat) (C : List Int) : List Int := C.filterMap fun k => if k = (f : Int) then some (c : Int) else if k = flip f then some (flip c) else none

/-- The same over the first `n` cells, in order. -/
def usesOf (cells : List (List Int)) (f n : Nat) : List Int := (List.range n).flatMap fun c => usesIn f c (cells.getD c [])

theorem fillCell_spec (dbg : Bool) {i : Nat} : ∀ (ks : List Int) (fc : List (List Int)), (∀ k ∈ ks, posID k < fc.length) →
    ∃ fc', fillCell dbg fc.length i ks fc = .ok fc' ∧ fc'.length = fc.length ∧ ∀ f, f < fc.length → fc'.getD f [] = fc.getD f [] ++ usesIn f i ks
  | [], fc, _ => ⟨fc, rfl, rfl, by simp [usesIn]⟩
  | k :: ks, fc, h => by
    have hk := h k (by simp)
    have step : ∀ (a : Nat) (v : Int), a < fc.length → posID k = a → (∀ f, f < fc.length → usesIn f i (k :: ks) = (if f = a then [v] else []) ++ usesIn f i ks) →
        ∃ fc', fillCell dbg fc.length i ks (fc.set a (fc.getD a [] ++ [v])) = .ok fc' ∧ fc'.length = fc.length ∧ ∀ f, f < fc.length → fc'.getD f [] = fc.getD f [] ++ usesIn f i (k :: ks) := by
      intro a v ha hka hu
      obtain ⟨fc', e, hl, hf⟩ := fillCell_spec dbg (i := i) ks (fc.set a (fc.getD a [] ++ [v])) (by simpa using fun k hk => h k (by simp [hk]))
      rw [List.length_set] at e hl
      refine ⟨fc', e, hl, fun f hfl => ?_⟩
      rw [hf f (by simpa using hfl), hu f hfl]
      by_cases hfa : f = a
      · subst hfa; simp [List.getD, hfl]
      · have : (fc.set a (fc.getD a [] ++ [v])).getD f [] = fc.getD f [] := by simp [List.getD, List.getElem?_set_ne (Ne.symm hfa)]
        rw [this]; simp [hfa]
    unfold fillCell
    by_cases hneg : k < 0
    · have hp : posID k = (flip k).toNat := by unfold posID; rw [if_neg (by omega)]
      rw [if_pos hneg]
      have hl : (flip k).toNat < fc.length := by rw [← hp]; exact hk
      rw [Res.assert_true dbg hl, Res.ok_bind, rd_lt hl, Res.ok_bind, wr_lt hl, Res.ok_bind]
      have e0 : fc[(flip k).toNat] = fc.getD (flip k).toNat [] := by simp [List.getD, hl]
      rw [e0]
      refine step _ _ hl hp fun f hf => ?_
      unfold usesIn
      rw [List.filterMap_cons]
      have h1 : ¬ k = (f : Int) := by omega
      by_cases h2 : f = (flip k).toNat
      · have h3 : k = flip f := by unfold flip at *; omega
        rw [if_neg h1, if_pos h3, if_pos h2]; rfl
      · have h3 : ¬ k = flip f := by unfold flip at *; omega
        simp [h1, h3, h2]
    · have hp : posID k = k.toNat := by unfold posID; rw [if_pos (by omega)]
      rw [if_neg hneg]
      have hl : k.toNat < fc.length := by rw [← hp]; exact hk
      rw [Res.assert_true dbg hl, Res.ok_bind, rd_lt hl, Res.ok_bind, wr_lt hl, Res.ok_bind]
      have e0 : fc[k.toNat] = fc.getD k.toNat [] := by simp [List.getD, hl]
      rw [e0]
      refine step _ _ hl hp fun f hf => ?_
      unfold usesIn
      rw [List.filterMap_cons]
      by_cases h2 : f = k.toNat
      · have h3 : k = (f : Int) := by omega
        rw [if_pos h3, if_pos h2]; rfl
      · have h3 : ¬ k = (f : Int) := by omega
        have h4 : ¬ k = flip f := by unfold flip; omega
        simp [h3, h4, h2]

theorem fillCells_spec (dbg : Bool) {cells : List (List Int)} : ∀ (todo i : Nat) (fc : List (List Int)), i + todo ≤ cells.length → (∀ C ∈ cells, ∀ k ∈ C, posID k < fc.length) →
    ∃ fc', fillCells dbg fc.length cells i todo fc = .ok fc' ∧ fc'.length = fc.length ∧
      ∀ f, f < fc.length → fc'.getD f [] = fc.getD f [] ++ (List.range' i todo).flatMap fun c => usesIn f c (cells.getD c [])
  | 0, i, fc, _, _ => ⟨fc, rfl, rfl, by simp⟩
  | todo + 1, i, fc, hi, h => by
    have hl : i < cells.length := by omega
    obtain ⟨fc1, e1, l1, f1⟩ := fillCell_spec dbg (i := i) cells[i] fc (h _ (List.getElem_mem _))
    obtain ⟨fc2, e2, l2, f2⟩ := fillCells_spec dbg (cells := cells) todo (i + 1) fc1 (by omega) (by rw [l1]; exact h)
    refine ⟨fc2, ?_, l2.trans l1, fun f hf => ?_⟩
    · unfold fillCells
      rw [rd_lt hl, Res.ok_bind, e1, Res.ok_bind, ← l1]; exact e2
    · rw [f2 f (by omega), f1 f hf, List.range'_succ, List.flatMap_cons]
      have : cells.getD i [] = cells[i] := by simp [List.getD, hl]
      rw [this, List.append_assoc]

theorem count_usesIn {f c : Nat} {C : List Int} {c' : Nat} : (usesIn f c C).count (c' : Int) = (if c = c' then C.count (f : Int) else 0) ∧
    (usesIn f c C).count (flip c') = (if c = c' then C.count (flip f) else 0) := by
  induction C with
  | nil => simp [usesIn]
  | cons k C ih =>
    obtain ⟨i1, i2⟩ := ih
    unfold usesIn at *
    rw [List.filterMap_cons]
    have ff : (f : Int) ≠ flip f := by unfold flip; omega
    have cc : (c : Int) ≠ flip c' := by unfold flip; omega
    have cc' : flip c ≠ (c' : Int) := by unfold flip; omega
    have inj : flip c = flip c' ↔ c = c' := by unfold flip; omega
    have inj' : (c : Int) = c' ↔ c = c' := by omega
    by_cases h1 : k = (f : Int)
    · subst h1
      simp only [if_pos]
      rw [List.count_cons, List.count_cons, List.count_cons, List.count_cons, i1, i2]
      by_cases h : c = c'
      · simp [h, ff, cc]
        intro h'; unfold flip at h'; omega
      · have : ¬ (c : Int) = c' := by omega
        simp [h, cc, this]
    · by_cases h2 : k = flip f
      · subst h2
        rw [if_neg (Ne.symm ff), if_pos rfl]
        dsimp only
        rw [List.count_cons, List.count_cons, List.count_cons, List.count_cons, i1, i2]
        by_cases h : c = c'
        · subst h; simp [cc', Ne.symm ff]
        · have : ¬ flip (c : Int) = flip c' := by unfold flip; omega
          simp [h, cc', this]
      · rw [if_neg h1, if_neg h2]
        dsimp only
        rw [List.count_cons, List.count_cons, i1, i2]
        simp [h1, h2]

theorem count_usesOf {cells : List (List Int)} {f n c : Nat} : (usesOf cells f n).count (c : Int) = (if c < n then (cells.getD c []).count (f : Int) else 0) ∧
    (usesOf cells f n).count (flip c) = (if c < n then (cells.getD c []).count (flip f) else 0) := by
  induction n with
  | zero => simp [usesOf]
  | succ n ih =>
    have e : usesOf cells f (n + 1) = usesOf cells f n ++ usesIn f n (cells.getD n []) := by simp [usesOf, List.range_succ]
    rw [e, List.count_append, List.count_append, ih.1, ih.2, count_usesIn.1, count_usesIn.2]
    rcases lt_trichotomy c n with h | h | h
    · simp only [h, Nat.lt_succ_of_lt h, Nat.ne_of_gt h, if_true, if_false, Nat.add_zero, and_self]
    · subst h; simp
    · have h2 : ¬ c < n := by omega
      have h3 : ¬ c < n + 1 := by omega
      simp only [h2, h3, Nat.ne_of_lt h, if_false, Nat.add_zero, and_self]

theorem length_usesIn {f c : Nat} {C : List Int} : ((usesIn f c C).filter fun s => decide (0 ≤ s)).length = C.count (f : Int) ∧
    ((usesIn f c C).filter fun s => decide (s < 0)).length = C.count (flip f) := by
  have ff : (f : Int) ≠ flip f := by unfold flip; omega
  have hc : ¬ (c : Int) < 0 := by omega
  have hc' : flip (c : Int) < 0 := by unfold flip; omega
  have hc'' : ¬ 0 ≤ flip (c : Int) := by unfold flip; omega
  induction C with
  | nil => simp [usesIn]
  | cons k C ih =>
    obtain ⟨i1, i2⟩ := ih
    unfold usesIn at *
    rw [List.filterMap_cons]
    by_cases h1 : k = (f : Int)
    · subst h1
      simp only [if_pos, List.filter_cons, List.count_cons]
      simp [i1, i2, ff, hc]
    · by_cases h2 : k = flip f
      · subst h2
        rw [if_neg (Ne.symm ff), if_pos rfl]
        simp only [List.filter_cons, List.count_cons]
        simp [i1, i2, Ne.symm ff, hc', hc'']
      · rw [if_neg h1, if_neg h2]
        simp only [List.count_cons]
        simp [i1, i2, h1, h2]

theorem length_usesOf {cells : List (List Int)} {f n : Nat} (hn : n ≤ cells.length) :
    ((usesOf cells f n).filter fun s => decide (0 ≤ s)).length = ((cells.take n).flatten).count (f : Int) ∧
    ((usesOf cells f n).filter fun s => decide (s < 0)).length = ((cells.take n).flatten).count (flip f) := by
  induction n with
  | zero => simp [usesOf]
  | succ n ih =>
    have hl : n < cells.length := by omega
    have e : usesOf cells f (n + 1) = usesOf cells f n ++ usesIn f n cells[n] := by simp [usesOf, List.range_succ, List.getD, hl]
    obtain ⟨i1, i2⟩ := ih (by omega)
    rw [e, List.filter_append, List.filter_append, List.length_append, List.length_append, i1, i2, length_usesIn.1, length_usesIn.2, List.take_succ_eq_append_getElem hl,
      List.flatten_append, List.count_append, List.count_append]
    simp only [List.flatten_cons, List.flatten_nil, List.append_nil, and_self]

theorem split_length (l : List Int) : l.length = (l.filter fun s => decide (0 ≤ s)).length + (l.filter fun s => decide (s < 0)).length := by
  induction l with
  | nil => rfl
  | cons a l ih =>
    simp only [List.filter_cons, List.length_cons]
    by_cases h : 0 ≤ a
    · have : ¬ a < 0 := by omega
      simp [h, this]; omega
    · have : a < 0 := by omega
      simp [h, this]; omega

/-- What a quantized tessellation must look like: edge lists and cells with ids in range, one cell per generator. -/
structure QTOK (q : QT) : Prop where
  cells_len : q.cellEdges.length = q.generators.length
  cells_lt : ∀ C ∈ q.cellEdges, ∀ k ∈ C, posID k < q.edges.length
  edges_lt : ∀ e ∈ q.edges, 0 ≤ e.1 ∧ e.1 < q.nodes.length ∧ 0 ≤ e.2 ∧ e.2 < q.nodes.length

/-- The result of filling an empty mesh. -/
theorem fill_empty (dbg : Bool) {q : QT} (h : QTOK q) : ∃ m, fillTess dbg q {} = .ok m ∧ m.cells = q.cellEdges ∧ m.faces = q.edges.map (fun e => [e.1.toNat, e.2.toNat]) ∧
    m.nodes = q.nodes.flatMap (fun p => [dequantize1 cmin2 cmax2 q.length q.xmin p.x, dequantize1 cmin2 cmax2 q.length q.ymin p.y]) ∧
    m.faceCells.length = q.edges.length ∧ ∀ f, f < q.edges.length → cellsOf m f = usesOf q.cellEdges f q.cellEdges.length := by
  have r1 : resizeTo ([] : List (List Nat)) q.edges.length [0, 0] = List.replicate q.edges.length [0, 0] := by simp [resizeTo]
  have r2 : resizeTo ([] : List (List Int)) q.edges.length [] = List.replicate q.edges.length [] := by simp [resizeTo]
  obtain ⟨fc, e, hl, hf⟩ := fillCells_spec dbg (cells := q.cellEdges) q.generators.length 0 (List.replicate q.edges.length []) (by rw [h.cells_len]; omega) (by simpa using h.cells_lt)
  rw [List.length_replicate] at e hl hf
  have hz : List.zipWith (fun (F : List Nat) (e : Int × Int) => e.1.toNat :: e.2.toNat :: F.drop 2) (List.replicate q.edges.length [0, 0]) q.edges = q.edges.map fun e => [e.1.toNat, e.2.toNat] := by
    generalize q.edges = es
    induction es with
    | nil => rfl
    | cons a es ih => simp [List.replicate_succ, ih]
  refine ⟨{ nodes := q.nodes.flatMap fun p => [dequantize1 cmin2 cmax2 q.length q.xmin p.x, dequantize1 cmin2 cmax2 q.length q.ymin p.y]
            faces := List.zipWith (fun (F : List Nat) (e : Int × Int) => e.1.toNat :: e.2.toNat :: F.drop 2) (List.replicate q.edges.length [0, 0]) q.edges
            faceCells := fc, cells := q.cellEdges }, ?_, rfl, hz, rfl, hl, ?_⟩
  · unfold fillTess
    simp only [r1, r2]
    rw [Res.assert_true dbg (by simp), Res.ok_bind, if_neg (by simp), e]; rfl
  · intro f hfl
    show fc.getD f [] = _
    rw [hf f hfl, ← h.cells_len, List.range_eq_range'.symm]
    simp [List.getD, hfl, usesOf]

/-- C39: filling an empty mesh gives the dequantized nodes, the edges as faces, the edge lists as cells, and face cells that are exactly the signed inverse of the cells. -/
theorem C39_fill (dbg : Bool) {q : QT} (h : QTOK q) : ∃ m, fillTess dbg q {} = .ok m ∧ m.cells = q.cellEdges ∧ m.faces = q.edges.map (fun e => [e.1.toNat, e.2.toNat]) ∧
    (∀ (i : Nat) (p : IPt), q.nodes[i]? = some p → node 2 m i = [dequantize1 cmin2 cmax2 q.length q.xmin p.x, dequantize1 cmin2 cmax2 q.length q.ymin p.y]) ∧
    numNodes 2 m = q.nodes.length ∧ m.faceCells.length = m.faces.length ∧
    (∀ f, f < m.faces.length → (∀ s ∈ cellsOf m f, posID s < m.cells.length) ∧ ∀ c, c < m.cells.length →
      (cellsOf m f).count (c : Int) = (cell m c).count (f : Int) ∧ (cellsOf m f).count (flip c) = (cell m c).count (flip f)) := by
  obtain ⟨m, e, h1, h2, h3, h4, h5⟩ := fill_empty dbg h
  have hlen : m.faces.length = q.edges.length := by rw [h2]; simp
  refine ⟨m, e, h1, h2, ?_, ?_, by rw [h4, hlen], ?_⟩
  · intro i p hp
    unfold node
    rw [h3]
    clear h1 h2 h3 h4 h5 e hlen h
    generalize q.nodes = ns at hp
    induction ns generalizing i with
    | nil => simp at hp
    | cons a ns ih =>
      cases i with
      | zero => simp only [List.getElem?_cons_zero, Option.some.injEq] at hp; subst hp; simp
      | succ i =>
        simp only [List.getElem?_cons_succ] at hp
        rw [← ih i hp]
        rw [Nat.mul_succ]
        simp [List.flatMap_cons]
  · unfold numNodes
    rw [h3]
    have : (q.nodes.flatMap fun p => [dequantize1 cmin2 cmax2 q.length q.xmin p.x, dequantize1 cmin2 cmax2 q.length q.ymin p.y]).length = 2 * q.nodes.length := by
      simp; omega
    rw [this]; omega
  · intro f hf
    rw [hlen] at hf
    rw [h5 f hf, h1]
    refine ⟨fun s hs => ?_, fun c hc => ?_⟩
    · unfold usesOf at hs
      obtain ⟨c, hc, hs⟩ := List.mem_flatMap.mp hs
      have hc := List.mem_range.mp hc
      unfold usesIn at hs
      obtain ⟨k, _, hk⟩ := List.mem_filterMap.mp hs
      split at hk
      · injection hk with hk; subst hk; unfold posID; rw [if_pos (by omega)]; omega
      · split at hk
        · injection hk with hk; subst hk; unfold posID flip; rw [if_neg (by omega)]; omega
        · cases hk
    · have := count_usesOf (cells := q.cellEdges) (f := f) (n := q.cellEdges.length) (c := c)
      rw [if_pos hc, if_pos hc] at this
      have hcell : cell m c = q.cellEdges.getD c [] := by unfold cell; rw [h1]
      rw [hcell]; exact this

/-- If every edge is used, once or twice in all, the mesh is consistent; the cells that use a face in its direction and against it are counted apart. -/
theorem C39_uses (dbg : Bool) {q : QT} (h : QTOK q) (huse : ∀ f, f < q.edges.length → 1 ≤ (q.cellEdges.flatten).count (f : Int) + (q.cellEdges.flatten).count (flip f) ∧
    (q.cellEdges.flatten).count (f : Int) + (q.cellEdges.flatten).count (flip f) ≤ 2) :
    ∃ m, fillTess dbg q {} = .ok m ∧ Consistent 2 m ∧ ∀ f, f < m.faces.length → ((cellsOf m f).filter fun s => decide (0 ≤ s)).length = (q.cellEdges.flatten).count (f : Int) ∧
      ((cellsOf m f).filter fun s => decide (s < 0)).length = (q.cellEdges.flatten).count (flip f) := by
  obtain ⟨m, e, h1, h2, hn, hnn, hfc, hinv⟩ := C39_fill dbg h
  obtain ⟨m', e', g1, g2, g3, g4, g5⟩ := fill_empty dbg h
  rw [e] at e'; injection e' with e'; subst e'
  have hlen : m.faces.length = q.edges.length := by rw [h2]; simp
  have split : ∀ f, f < m.faces.length → ((cellsOf m f).filter fun s => decide (0 ≤ s)).length = (q.cellEdges.flatten).count (f : Int) ∧
      ((cellsOf m f).filter fun s => decide (s < 0)).length = (q.cellEdges.flatten).count (flip f) := by
    intro f hf
    rw [hlen] at hf
    rw [g5 f hf]
    have := length_usesOf (cells := q.cellEdges) (f := f) (le_refl _)
    rwa [List.take_length] at this
  refine ⟨m, e, ⟨by omega, ?_, ?_, ?_, hfc, ?_, ?_, fun f hf c hc => (hinv f hf).2 c hc⟩, split⟩
  · rw [g3]; simp
  · intro F hF n hnF
    rw [h2] at hF
    obtain ⟨ed, hed, rfl⟩ := List.mem_map.mp hF
    obtain ⟨a1, a2, a3, a4⟩ := h.edges_lt ed hed
    rw [hnn]
    simp only [List.mem_cons, List.not_mem_nil, or_false] at hnF
    rcases hnF with rfl | rfl <;> omega
  · rw [h1, hlen]; exact h.cells_lt
  · intro X hX
    obtain ⟨f, hf, rfl⟩ := List.getElem_of_mem hX
    have ex : m.faceCells[f] = cellsOf m f := by simp [cellsOf, List.getD, hf]
    rw [hfc] at hf
    rw [ex, split_length, (split f hf).1, (split f hf).2]
    have := huse f (by omega)
    omega
  · intro X hX
    obtain ⟨f, hf, rfl⟩ := List.getElem_of_mem hX
    have ex : m.faceCells[f] = cellsOf m f := by simp [cellsOf, List.getD, hf]
    rw [hfc] at hf
    rw [ex]; exact (hinv f hf).1

/-- C39: if every edge is used, at most once in each direction, the mesh is consistent and every face has one cell or two of opposite sign. -/
theorem C39_consistent (dbg : Bool) {q : QT} (h : QTOK q) (huse : ∀ f, f < q.edges.length → (q.cellEdges.flatten).count (f : Int) ≤ 1 ∧ (q.cellEdges.flatten).count (flip f) ≤ 1 ∧
    1 ≤ (q.cellEdges.flatten).count (f : Int) + (q.cellEdges.flatten).count (flip f)) :
    ∃ m, fillTess dbg q {} = .ok m ∧ Consistent 2 m ∧ ∀ f, f < m.faces.length → ((cellsOf m f).filter fun s => decide (0 ≤ s)).length ≤ 1 ∧ ((cellsOf m f).filter fun s => decide (s < 0)).length ≤ 1 := by
  obtain ⟨m, e, hc, hs⟩ := C39_uses dbg h fun f hf => by have := huse f hf; omega
  obtain ⟨m', e', h2⟩ := C39_fill dbg h
  rw [e] at e'; injection e' with e'; subst e'
  have hlen : m.faces.length = q.edges.length := by rw [h2.2.1]; simp
  refine ⟨m, e, hc, fun f hf => ?_⟩
  rw [(hs f hf).1, (hs f hf).2]
  have := huse f (by omega)
  omega

/-- Two triangles that share an edge. -/
def twoTri : QT :=
  { xmin := 0, ymin := 0, length := 1, generators := [⟨1, 1, 0⟩, ⟨3, 3, 1⟩], nodes := [⟨0, 0, 0⟩, ⟨4, 0, 1⟩, ⟨0, 4, 2⟩, ⟨4, 4, 3⟩],
    edges := [(0, 1), (1, 2), (2, 0), (1, 3), (3, 2)], cellEdges := [[0, 1, 2], [3, 4, flip 1]] }

example : QTOK twoTri ∧ ∀ f, f < twoTri.edges.length → (twoTri.cellEdges.flatten).count (f : Int) ≤ 1 ∧ (twoTri.cellEdges.flatten).count (flip f) ≤ 1 ∧
    1 ≤ (twoTri.cellEdges.flatten).count (f : Int) + (twoTri.cellEdges.flatten).count (flip f) := by
  have h1 : twoTri.cellEdges = [[0, 1, 2], [3, 4, -2]] := rfl
  have h2 : twoTri.edges = [(0, 1), (1, 2), (2, 0), (1, 3), (3, 2)] := rfl
  have h3 : twoTri.nodes.length = 4 := rfl
  refine ⟨⟨rfl, by rw [h1, h2]; decide, by rw [h2, h3]; decide⟩, ?_⟩
  rw [h1, h2]; decide

/-- Filling a mesh that is not empty appends to the face cells that are there: filling the same mesh twice doubles them all. -/
theorem C39_refill_fails (dbg : Bool) {q : QT} (h : QTOK q) : ∃ m m', fillTess dbg q {} = .ok m ∧ fillTess dbg q m = .ok m' ∧
    ∀ f, f < q.edges.length → cellsOf m' f = cellsOf m f ++ cellsOf m f := by
  obtain ⟨m, e, h1, h2, h3, h4, h5⟩ := fill_empty dbg h
  have hl : m.faces.length = q.edges.length := by rw [h2]; simp
  have r1 : resizeTo m.faces q.edges.length [0, 0] = m.faces := by unfold resizeTo; rw [← hl]; simp
  have r2 : resizeTo m.faceCells q.edges.length [] = m.faceCells := by unfold resizeTo; rw [← h4]; simp
  have two : ∀ F ∈ m.faces, F.length = 2 := by
    rw [h2]; intro F hF; obtain ⟨ed, _, rfl⟩ := List.mem_map.mp hF; rfl
  obtain ⟨fc, e2, hl2, hf⟩ := fillCells_spec dbg (cells := q.cellEdges) q.generators.length 0 m.faceCells (by rw [h.cells_len]; omega) (by rw [h4]; exact h.cells_lt)
  rw [h4] at e2 hl2 hf
  refine ⟨m, { m with
            nodes := q.nodes.flatMap fun p => [dequantize1 cmin2 cmax2 q.length q.xmin p.x, dequantize1 cmin2 cmax2 q.length q.ymin p.y]
            faces := List.zipWith (fun (F : List Nat) (e : Int × Int) => e.1.toNat :: e.2.toNat :: F.drop 2) m.faces q.edges
            faceCells := fc, cells := q.cellEdges }, e, ?_, ?_⟩
  · unfold fillTess
    simp only [r1, r2]
    rw [Res.assert_true dbg two, Res.ok_bind, if_neg (by rintro ⟨F, hF, h⟩; rw [two F hF] at h; omega), e2]; rfl
  · intro f hfl
    show fc.getD f [] = _
    rw [hf f hfl, ← h.cells_len, List.range_eq_range'.symm]
    rw [h5 f hfl]
    have : m.faceCells.getD f [] = usesOf q.cellEdges f q.cellEdges.length := h5 f hfl
    rw [this]; rfl
end Verif.Geom
