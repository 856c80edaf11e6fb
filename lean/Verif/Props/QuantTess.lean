import Verif.Proofs.QuantTess
import Verif.Spec.QuantTess
import Mathlib.Tactic.Ring
import Mathlib.Data.Fintype.Basic
import Mathlib.Tactic.FinCases
import Mathlib.Tactic.NormNum
import Mathlib.Data.Fin.VecNotation
/-
C104: the intermediate mesh `internal::QuantTessellation`.
-/
namespace Verif.Props
open Verif Verif.QuantTess Verif.Internal

variable {P : Type} [DecidableEq P]

/-- Any sequence of calls that add nodes, edges and faces to an empty mesh runs to its end. Every call returns the index of its
element. No point and no edge is stored twice, no two stored faces have the same edges, nothing is stored that was not added, and
the stored face is the first one that was added with its edges. -/
theorem C104_add (dbg : Bool) (ops : List (Op P)) : ∃ ids q, run dbg ops {} = .ok (ids, q) ∧ ids.length = ops.length ∧
    (∀ (i : Nat) p, ops[i]? = some (.node p) → ∃ n : Nat, ids[i]? = some n ∧ q.points[n]? = some p) ∧
    (∀ (i : Nat) e, ops[i]? = some (.edge e) → ∃ n : Nat, ids[i]? = some n ∧ q.edges[n]? = some e) ∧
    (∀ (i : Nat) f, ops[i]? = some (.face f) → ∃ (n : Nat) (g : List Int), ids[i]? = some n ∧ q.faces[n]? = some g ∧ SameEdges g f) ∧
    q.points.Nodup ∧ q.edges.Nodup ∧ q.faces.Pairwise (fun f g => ¬ SameEdges f g) ∧
    (∀ p ∈ q.points, .node p ∈ ops) ∧ (∀ e ∈ q.edges, .edge e ∈ ops) ∧
    (∀ g ∈ q.faces, ∃ a b, ops = a ++ .face g :: b ∧ ∀ f, .face f ∈ a → ¬ SameEdges f g) := by
  have h0 : Tabs ({} : QMesh P) := ⟨⟨rfl, by simp⟩, ⟨rfl, by simp⟩, ⟨rfl, by simp⟩⟩
  obtain ⟨ids, q, e, r⟩ := run_spec dbg ops {} h0
  refine ⟨ids, q, e, r.length, r.nodeAt, r.edgeAt, ?_, ?_, ?_, ?_, ?_, ?_, ?_⟩
  · intro i f hi
    obtain ⟨n, g, h1, h2, h3⟩ := r.faceAt i f hi
    exact ⟨n, g, h1, h2, faceHash_eq.1 h3⟩
  · simpa using r.tabs.node.nodup
  · simpa using r.tabs.edge.nodup
  · have := r.tabs.face.nodup
    rw [List.Nodup, List.pairwise_map] at this
    exact this.imp fun h hs => h (faceHash_eq.2 hs)
  · intro p hp
    rcases r.nodeOf p hp with h | h
    · simp at h
    · exact h
  · intro p hp
    rcases r.edgeOf p hp with h | h
    · simp at h
    · exact h
  · intro g hg
    rcases r.faceOf g hg with h | ⟨a, b, h, h'⟩
    · simp at h
    · exact ⟨a, b, h, fun f hf hs => h' f hf (faceHash_eq.2 hs)⟩

/-- Two calls get the same id exactly when they add the same thing. -/
theorem C104_same_id (dbg : Bool) (ops : List (Op P)) {ids : List Nat} {q : QMesh P} (h : run dbg ops {} = .ok (ids, q)) (i j : Nat) :
    (∀ p p', ops[i]? = some (.node p) → ops[j]? = some (.node p') → (ids[i]? = ids[j]? ↔ p = p')) ∧
    (∀ e e', ops[i]? = some (.edge e) → ops[j]? = some (.edge e') → (ids[i]? = ids[j]? ↔ e = e')) ∧
    (∀ f f', ops[i]? = some (.face f) → ops[j]? = some (.face f') → (ids[i]? = ids[j]? ↔ SameEdges f f')) := by
  obtain ⟨ids', q', e, _, h1, h2, h3, n1, n2, n3, _⟩ := C104_add dbg ops
  rw [h] at e
  obtain ⟨rfl, rfl⟩ : ids = ids' ∧ q = q' := by simpa using e
  refine ⟨fun p p' hi hj => ?_, fun p p' hi hj => ?_, fun f f' hi hj => ?_⟩
  · obtain ⟨a, ha, ha'⟩ := h1 i p hi
    obtain ⟨b, hb, hb'⟩ := h1 j p' hj
    rw [ha, hb]; constructor
    · intro e; cases e; exact Option.some.inj (ha'.symm.trans hb')
    · rintro rfl
      exact congrArg some ((List.getElem?_inj (List.getElem?_eq_some_iff.1 ha').1 n1).1 (ha'.trans hb'.symm))
  · obtain ⟨a, ha, ha'⟩ := h2 i p hi
    obtain ⟨b, hb, hb'⟩ := h2 j p' hj
    rw [ha, hb]; constructor
    · intro e; cases e; exact Option.some.inj (ha'.symm.trans hb')
    · rintro rfl
      exact congrArg some ((List.getElem?_inj (List.getElem?_eq_some_iff.1 ha').1 n2).1 (ha'.trans hb'.symm))
  · obtain ⟨a, g, ha, ha', sa⟩ := h3 i f hi
    obtain ⟨b, g', hb, hb', sb⟩ := h3 j f' hj
    rw [ha, hb]; constructor
    · intro e; cases e
      obtain rfl := Option.some.inj (ha'.symm.trans hb')
      exact sa.symm.trans sb
    · intro s
      obtain ⟨la, ea⟩ := List.getElem?_eq_some_iff.1 ha'
      obtain ⟨lb, eb⟩ := List.getElem?_eq_some_iff.1 hb'
      have hs : SameEdges g g' := (sa.trans s).trans sb.symm
      rcases Nat.lt_trichotomy a b with hlt | rfl | hlt
      · exact absurd hs (by rw [← ea, ← eb]; exact List.pairwise_iff_getElem.1 n3 a b la lb hlt)
      · rfl
      · exact absurd hs.symm (by rw [← ea, ← eb]; exact List.pairwise_iff_getElem.1 n3 b a lb la hlt)

/-- A sequence of calls with a repeated point, a repeated edge and a face that comes back turned round. -/
example : run true [.node 'a', .node 'b', .node 'a', .edge (0, 1), .edge (1, 2), .edge (0, 2), .edge (0, 1), .face [0, 1, -3], .face [2, -2, -1]] {} =
    .ok ([0, 1, 0, 0, 1, 2, 0, 0, 0],
      { point2id := [('a', 0), ('b', 1)]
        edge2id := [((0, 1), 0), ((1, 2), 1), ((0, 2), 2)]
        face2id := [([0, 1, 2], 0)]
        points := ['a', 'b']
        edges := [(0, 1), (1, 2), (0, 2)]
        faces := [[0, 1, -3]] }) := by decide +kernel

/-- `nodeEdges`: an edge is in the list of a node once for every end of it that is that node. -/
theorem C104_nodeEdges (dbg : Bool) (q : QMesh P) (h : ∀ e ∈ q.edges, (0 ≤ e.1 ∧ e.1 < q.points.length) ∧ 0 ≤ e.2 ∧ e.2 < q.points.length) :
    ∃ r, nodeEdges dbg q = .ok r ∧ r.length = q.points.length ∧
      (∀ (node : Nat) l, r[node]? = some l → ∀ (k : Nat) e, q.edges[k]? = some e →
        l.count k = (if e.1 = node then 1 else 0) + (if e.2 = node then 1 else 0)) ∧
      ∀ l ∈ r, ∀ k ∈ l, k < q.edges.length := by
  obtain ⟨r, e, l, c⟩ := nodeEdgesLoop_spec dbg q.points.length q.edges 0 (List.replicate q.points.length []) (by simp) h
  have z : ∀ k v, ((List.replicate q.points.length ([] : List Nat)).getD k []).count v = 0 := by
    intro k v
    rw [List.getD_eq_getElem?_getD, List.getElem?_replicate]; split <;> simp
  refine ⟨r, e, l, ?_, ?_⟩
  · intro node ln hn k e he
    have := c node k
    rw [show r.getD node [] = ln by simp [List.getD_eq_getElem?_getD, hn], z, if_pos (Nat.zero_le _), Nat.sub_zero, he, Nat.zero_add] at this
    exact this
  · intro ln hln k hk
    obtain ⟨node, hn⟩ := List.getElem?_of_mem hln
    have := c node k
    rw [show r.getD node [] = ln by simp [List.getD_eq_getElem?_getD, hn], z, if_pos (Nat.zero_le _), Nat.sub_zero, Nat.zero_add] at this
    have hp := List.count_pos_iff.2 hk
    by_contra hlt
    rw [List.getElem?_eq_none (by omega)] at this
    change List.count k ln = 0 at this
    omega

/-- `edgeFaces` is the inverse of the lists of edges of the faces: direction and multiplicity included. -/
theorem C104_edgeFaces (dbg : Bool) (q : QMesh P) (h : ∀ f ∈ q.faces, ∀ s ∈ f, index s < q.edges.length) :
    ∃ r, edgeFaces dbg q = .ok r ∧ r.length = q.edges.length ∧ Mirrors q.faces r :=
  invert_spec dbg q.edges.length q.faces h

/-- `faceCells` is the inverse of the lists of faces of the cells: direction and multiplicity included. -/
theorem C104_faceCells (dbg : Bool) (q : QMesh P) (h : ∀ c ∈ q.cells, ∀ s ∈ c, index s < q.faces.length) :
    ∃ r, faceCells dbg q = .ok r ∧ r.length = q.faces.length ∧ Mirrors q.cells r :=
  invert_spec dbg q.faces.length q.cells h

/-- A tetrahedron, made of four triangles. -/
def tetrahedron : QMesh Nat where
  point2id := [(10, 0), (11, 1), (12, 2), (13, 3)]
  edge2id := [((0, 1), 0), ((0, 2), 1), ((0, 3), 2), ((1, 2), 3), ((1, 3), 4), ((2, 3), 5)]
  face2id := [([0, 1, 3], 0), ([0, 2, 4], 1), ([1, 2, 5], 2), ([3, 4, 5], 3)]
  points := [10, 11, 12, 13]
  edges := [(0, 1), (0, 2), (0, 3), (1, 2), (1, 3), (2, 3)]
  faces := [[0, 3, -2], [2, -5, -1], [1, 5, -3], [4, -6, -4]]
  cells := [[-1, 1, -3, 3]]
  generators := 1

example : nodeEdges true tetrahedron = .ok [[0, 1, 2], [0, 3, 4], [1, 3, 5], [2, 4, 5]] := by decide +kernel
example : edgeFaces true tetrahedron = .ok [[0, -2], [-1, 2], [1, -3], [0, -4], [-2, 3], [2, -4]] := by decide +kernel
example : faceCells true tetrahedron = .ok [[-1], [0], [-1], [0]] := by decide +kernel
example : (∀ e ∈ tetrahedron.edges, (0 ≤ e.1 ∧ e.1 < tetrahedron.points.length) ∧ 0 ≤ e.2 ∧ e.2 < tetrahedron.points.length) ∧
    (∀ f ∈ tetrahedron.faces, ∀ s ∈ f, index s < tetrahedron.edges.length) ∧ ∀ c ∈ tetrahedron.cells, ∀ s ∈ c, index s < tetrahedron.faces.length := by
  decide +kernel

/-- The conversion gives every face that is a closed loop of edges the corners of that loop, in order, and a face of one edge the
two ends of that edge, if the face names it forwards. -/
theorem C104_faces_partial (dbg : Bool) (n : Nat) (edges : List (Int × Int)) (faces : List (List Int))
    (h : ∀ f ∈ faces, ClosedLoop n edges f ∨ ∃ k : Nat, f = [(k : Int)] ∧ k < edges.length) :
    ∃ out, meshFaces dbg n edges faces = .ok out ∧ out.length = faces.length ∧ ∀ (i : Nat) f, faces[i]? = some f → ∃ ns, out[i]? = some ns ∧
      (ClosedLoop n edges f → Corners edges f ns) ∧ ∀ k : Nat, f = [(k : Int)] → ∃ e, edges[k]? = some e ∧ ns = [e.1, e.2] := by
  have one : ∀ f, (ClosedLoop n edges f ∨ ∃ k : Nat, f = [(k : Int)] ∧ k < edges.length) → ∃ ns, faceNodes dbg n edges f = .ok ns ∧
      (ClosedLoop n edges f → Corners edges f ns) ∧ ∀ k : Nat, f = [(k : Int)] → ∃ e, edges[k]? = some e ∧ ns = [e.1, e.2] := by
    rintro f (hc | ⟨k, rfl, hk⟩)
    · obtain ⟨h2, hl⟩ := hc
      obtain ⟨ns, e, l, c⟩ := faceNodesLoop_spec dbg n edges f (by
        intro s hs
        obtain ⟨j, hj⟩ := List.getElem?_of_mem hs
        obtain ⟨s₁, s₂, a, b, c, g1, _, g3, _, g5, g6⟩ := hl j (List.getElem?_eq_some_iff.1 hj).1
        obtain rfl := Option.some.inj (hj.symm.trans g1)
        exact ⟨a, b, g3, g5, g6⟩)
      refine ⟨ns, ?_, fun _ => ⟨l, ?_⟩, ?_⟩
      · rw [← e]
        match f, h2 with
        | [], h2 => simp at h2
        | [_], h2 => simp at h2
        | _ :: _ :: _, _ => rfl
      · intro j s hj
        obtain ⟨s₁, s₂, a, b, d, g1, g2, g3, g4, _⟩ := hl j (List.getElem?_eq_some_iff.1 hj).1
        obtain rfl := Option.some.inj (hj.symm.trans g1)
        obtain ⟨a', b', k1, k2⟩ := c j s hj
        obtain ⟨a'', b'', k3, k4⟩ := c _ s₂ g2
        rw [g3] at k1; rw [g4] at k3
        cases k1; cases k3
        exact ⟨a, b, k2, by rw [l]; exact k4, g3⟩
      · rintro k rfl; simp at h2
    · refine ⟨[edges[k].1, edges[k].2], ?_, ?_, ?_⟩
      · simp [faceNodes, hk]
      · intro hc; have := hc.1; simp at this
      · intro k' hk'
        have : k' = k := by simpa using hk'.symm
        subst this
        exact ⟨edges[k'], by simp [hk], rfl⟩
  induction faces with
  | nil => exact ⟨[], rfl, rfl, by simp⟩
  | cons f fs ih =>
    obtain ⟨ns, e1, c1⟩ := one f (h f (by simp))
    obtain ⟨out, e2, l2, c2⟩ := ih (fun g hg => h g (by simp [hg]))
    refine ⟨ns :: out, by simp [meshFaces, e1, e2], by simp [l2], ?_⟩
    intro i g hg
    cases i with
    | zero => simp at hg; subst hg; exact ⟨ns, rfl, c1⟩
    | succ i => simpa using c2 i g (by simpa using hg)

example : meshFaces true 4 tetrahedron.edges tetrahedron.faces = .ok [[0, 1, 2], [0, 3, 1], [0, 2, 3], [1, 3, 2]] := by decide +kernel
example : ClosedLoop 4 tetrahedron.edges [0, 3, -2] := by
  refine ⟨by simp, ?_⟩
  intro j hj
  match j, hj with
  | 0, _ => exact ⟨0, 3, 0, 1, 2, rfl, rfl, rfl, rfl, by omega, by omega⟩
  | 1, _ => exact ⟨3, -2, 1, 2, 0, rfl, rfl, rfl, rfl, by omega, by omega⟩
  | 2, _ => exact ⟨-2, 0, 2, 0, 1, rfl, rfl, rfl, rfl, by omega, by omega⟩

/-- A face of one edge that is named backwards is undefined behaviour: the edges are indexed with a negative number. -/
theorem C104_backwards_fails (dbg : Bool) (n : Nat) (edges : List (Int × Int)) (fs : List (List Int)) (k : Nat) :
    meshFaces dbg n edges ([-(k : Int) - 1] :: fs) = .ub := by
  have : (-(k : Int) - 1 < 0) := by omega
  simp [meshFaces, faceNodes, this]

section
variable {K : Type} [Field K] [LinearOrder K] [IsStrictOrderedRing K]

/-- The conversion maps normalised coordinates in `[0, 1]` into the box of the generators, if the box is not flat in `x` or `y`:
the map is the affine one that takes 0 to the low end and 1 to the high end. -/
theorem C104_position_partial {d : Nat} (low high u : Fin (d + 2) → K) (hlh : ∀ j, low j ≤ high j) (h0 : low 0 ≠ high 0) (h1 : low 1 ≠ high 1)
    (hu : ∀ j, 0 ≤ u j ∧ u j ≤ 1) (j : Fin (d + 2)) :
    labPosition low high u j = (1 - u j) * low j + u j * high j ∧ low j ≤ labPosition low high u j ∧ labPosition low high u j ≤ high j := by
  have e : labPosition low high u j = (1 - u j) * low j + u j * high j := by
    simp [labPosition, h0, h1, labCoord]; ring
  have a := mul_nonneg (hu j).1 (sub_nonneg.2 (hlh j))
  have b := mul_nonneg (sub_nonneg.2 (hu j).2) (sub_nonneg.2 (hlh j))
  refine ⟨e, ?_, ?_⟩ <;> rw [e] <;> linarith

/-- In a box that is flat in `x` or `y`, every coordinate in which it is flat is moved by the whole normalised coordinate, off the
box unless that coordinate is 0. -/
theorem C104_position_flat_fails {d : Nat} (low high u : Fin (d + 2) → K) (h : low 0 = high 0 ∨ low 1 = high 1) (j : Fin (d + 2)) (hj : low j = high j)
    (hu : 0 < u j) : labPosition low high u j = low j + u j ∧ high j < labPosition low high u j := by
  have e : labPosition low high u j = low j + u j := by
    simp [labPosition, h, labCoordCollinear, hj]; ring
  exact ⟨e, by rw [e, hj]; linarith⟩

/-- A box that is flat in `z` only keeps that coordinate. -/
theorem C104_position_flat_z (low high u : Fin 3 → K) (h0 : low 0 ≠ high 0) (h1 : low 1 ≠ high 1) (h2 : low 2 = high 2) :
    labPosition (d := 1) low high u 2 = low 2 := by
  simp [labPosition, h0, h1, labCoord, h2]
end

example : labPosition (K := ℚ) (d := 0) ![0, 5] ![4, 5] ![1 / 2, 1 / 2] = ![2, 11 / 2] := by
  ext j; fin_cases j <;> norm_num [labPosition, labCoordCollinear]
example : labPosition (K := ℚ) (d := 0) ![0, 5] ![4, 7] ![1 / 2, 1 / 2] = ![2, 6] := by
  ext j; fin_cases j <;> norm_num [labPosition, labCoord]

theorem ne_ub_bind {α β : Type} {x : Res α} {f : α → Res β} (hx : x ≠ .ub) (hf : ∀ a, x = .ok a → f a ≠ .ub) : x.bind f ≠ .ub := by
  cases x with
  | ok a => exact hf a rfl
  | abort => simp
  | ub => exact absurd rfl hx

theorem forRange_ne_ub {f : Nat → Res Unit} : ∀ {n : Nat}, (∀ i < n, f i ≠ .ub) → forRange f n ≠ .ub
  | 0, _ => by simp [forRange]
  | n + 1, h => ne_ub_bind (forRange_ne_ub fun i hi => h i (by omega)) fun _ _ => h n (by omega)

theorem ne_ub_assert {β : Type} {p : Prop} [Decidable p] {f : Unit → Res β} (hf : p → f () ≠ .ub) : (Res.assert true p).bind f ≠ .ub :=
  ne_ub_bind Res.assert_ne_ub fun u hu => hf (by simpa using Res.assert_eq_ok.1 hu)

theorem ne_ub_rd {α β : Type} {l : List α} {i : Nat} {f : α → Res β} (hi : i < l.length) (hf : f l[i] ≠ .ub) : (rd l i).bind f ≠ .ub := by
  rw [rd_lt hi]; exact hf

/-- With assertions compiled in, the check `assertValid` accepts no mesh that has a face or a generator: it counts a face among
the faces of its cell over an empty range. -/
theorem C104_assertValid_fails (q : QMesh P) (h : assertValid true q = .ok ()) : q.faces = [] ∧ q.cells = [] ∧ q.generators = 0 := by
  simp only [assertValid, if_true, Res.bind_eq] at h
  obtain ⟨ne, _, h⟩ := Res.bind_eq_ok.1 h
  obtain ⟨ef, _, h⟩ := Res.bind_eq_ok.1 h
  obtain ⟨fc, hfc, h⟩ := Res.bind_eq_ok.1 h
  obtain ⟨_, _, h⟩ := Res.bind_eq_ok.1 h
  obtain ⟨_, _, h⟩ := Res.bind_eq_ok.1 h
  obtain ⟨_, _, h⟩ := Res.bind_eq_ok.1 h
  obtain ⟨_, hcg, h⟩ := Res.bind_eq_ok.1 h
  obtain ⟨_, _, h⟩ := Res.bind_eq_ok.1 h
  obtain ⟨_, _, h⟩ := Res.bind_eq_ok.1 h
  obtain ⟨_, _, h⟩ := Res.bind_eq_ok.1 h
  obtain ⟨_, _, h⟩ := Res.bind_eq_ok.1 h
  obtain ⟨_, _, h⟩ := Res.bind_eq_ok.1 h
  obtain ⟨_, hf, hc⟩ := Res.bind_eq_ok.1 h
  have hcells : q.cells.length = q.generators := by simpa using Res.assert_eq_ok.1 hcg
  have hfaces : q.faces = [] := by
    by_contra hne
    have h0 : 0 < q.faces.length := List.length_pos_iff.2 hne
    have := forRange_ok hf 0 h0
    simp only [validFace, Res.bind_eq] at this
    obtain ⟨f, _, this⟩ := Res.bind_eq_ok.1 this
    obtain ⟨_, _, this⟩ := Res.bind_eq_ok.1 this
    obtain ⟨_, _, this⟩ := Res.bind_eq_ok.1 this
    obtain ⟨l, _, this⟩ := Res.bind_eq_ok.1 this
    obtain ⟨_, hl, this⟩ := Res.bind_eq_ok.1 this
    have hl' : l.length = 1 ∨ l.length = 2 := by simpa using Res.assert_eq_ok.1 hl
    have := forRange_ok this 0 (by omega)
    obtain ⟨_, _, this⟩ := Res.bind_eq_ok.1 this
    obtain ⟨_, _, this⟩ := Res.bind_eq_ok.1 this
    obtain ⟨_, _, this⟩ := Res.bind_eq_ok.1 this
    have := Res.assert_eq_ok.1 this
    simp [countFromBeginToBegin] at this
  have hgen : q.generators = 0 := by
    by_contra hne
    have := forRange_ok hc 0 (by omega)
    simp only [validCell, Res.bind_eq] at this
    obtain ⟨c, _, this⟩ := Res.bind_eq_ok.1 this
    obtain ⟨_, hl, this⟩ := Res.bind_eq_ok.1 this
    have hl' : 4 ≤ c.length := by simpa using Res.assert_eq_ok.1 hl
    have := forRange_ok this 0 (by omega)
    obtain ⟨_, _, this⟩ := Res.bind_eq_ok.1 this
    obtain ⟨_, hl, this⟩ := Res.bind_eq_ok.1 this
    have := Res.assert_eq_ok.1 hl
    simp [hfaces] at this
  exact ⟨hfaces, List.length_eq_zero_iff.1 (by omega), hgen⟩

/-- On a mesh whose ids are all in range it is the assertion that ends the program, not a bad access. -/
theorem C104_assertValid_aborts_fails (q : QMesh P) (hne : q.faces ≠ [])
    (he : ∀ e ∈ q.edges, (0 ≤ e.1 ∧ e.1 < q.points.length) ∧ 0 ≤ e.2 ∧ e.2 < q.points.length)
    (hf : ∀ f ∈ q.faces, ∀ s ∈ f, index s < q.edges.length) (hc : ∀ c ∈ q.cells, ∀ s ∈ c, index s < q.faces.length) :
    assertValid true q = .abort := by
  have hub : assertValid true q ≠ .ub := by
    obtain ⟨ne, e1, l1, _, b1⟩ := C104_nodeEdges true q he
    obtain ⟨ef, e2, l2, _, b2⟩ := C104_edgeFaces true q hf
    obtain ⟨fc, e3, l3, _, b3⟩ := C104_faceCells true q hc
    simp only [assertValid, if_true, Res.bind_eq, e1, e2, e3, Res.bind_ok]
    refine ne_ub_assert fun _ => ne_ub_assert fun _ => ne_ub_assert fun _ => ne_ub_assert fun hcg => ne_ub_assert fun _ => ne_ub_assert fun _ => ne_ub_assert fun _ =>
      ne_ub_bind (forRange_ne_ub fun i hi => ?_) fun _ _ => ne_ub_bind (forRange_ne_ub fun i hi => ?_) fun _ _ =>
      ne_ub_bind (forRange_ne_ub fun i hi => ?_) fun _ _ => forRange_ne_ub fun i hi => ?_
    · refine ne_ub_rd (by omega) (forRange_ne_ub fun j hj => ne_ub_rd hj (ne_ub_rd ?_ Res.assert_ne_ub))
      exact b1 _ (List.getElem_mem _) _ (List.getElem_mem _)
    · refine ne_ub_rd hi ?_
      have := he _ (List.getElem_mem hi)
      refine ne_ub_assert fun _ => ne_ub_assert fun _ => ne_ub_rd (by omega) (ne_ub_assert fun _ => ne_ub_rd (by omega) (ne_ub_assert fun _ =>
        ne_ub_rd (by omega) (forRange_ne_ub fun j hj => ne_ub_rd hj (ne_ub_assert fun h => ne_ub_rd h Res.assert_ne_ub))))
    · refine ne_ub_rd hi (ne_ub_assert fun h3 => ne_ub_bind (forRange_ne_ub fun j hj => ?_) fun _ _ => ne_ub_rd (by omega) (ne_ub_assert fun _ =>
        forRange_ne_ub fun j hj => ne_ub_rd hj (ne_ub_assert fun h => ne_ub_rd (by omega) Res.assert_ne_ub)))
      exact ne_ub_rd hj (ne_ub_rd (Nat.mod_lt _ (by omega)) (ne_ub_assert fun h => ne_ub_assert fun h' => ne_ub_rd h (ne_ub_rd h' (ne_ub_assert fun _ =>
        ne_ub_rd (by omega) Res.assert_ne_ub))))
    · refine ne_ub_rd (by omega) (ne_ub_assert fun _ => forRange_ne_ub fun j hj => ne_ub_rd hj (ne_ub_assert fun h => ne_ub_rd (by omega) Res.assert_ne_ub))
  cases h : assertValid true q with
  | ok u => exact absurd (C104_assertValid_fails q h).1 hne
  | abort => rfl
  | ub => exact absurd h hub

example : assertValid true tetrahedron = .abort := by decide +kernel
example : assertValid true ({} : QMesh Nat) = .ok () := by decide +kernel

end Verif.Props
