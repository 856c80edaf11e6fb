import Verif.Proofs.ReadoutLoops
import Verif.Props.Fill
/- C38: reading cells out of a Voronoi diagram. C40: compaction after clipping. -/
namespace Verif.Readout
open Verif Verif.Mesh Verif.Internal Verif.PointMap

/-! ### Signed edges and sides -/

theorem side_parts {α : Type} {nodes : List α} {edges : List (Int × Int)} (h : ∀ e ∈ edges, 0 ≤ e.1 ∧ e.1 < e.2 ∧ e.2 < nodes.length) {k : Int} (hk : posID k < edges.length) :
    ∃ (h1 : edges[posID k].1.toNat < nodes.length) (h2 : edges[posID k].2.toNat < nodes.length),
      side nodes edges k = some (if 0 ≤ k then (nodes[edges[posID k].1.toNat], nodes[edges[posID k].2.toNat]) else (nodes[edges[posID k].2.toNat], nodes[edges[posID k].1.toNat])) := by
  obtain ⟨a1, a2, a3⟩ := h _ (List.getElem_mem hk)
  refine ⟨by omega, by omega, ?_⟩
  have hd := directed_lt hk
  by_cases hk0 : 0 ≤ k
  · rw [if_pos hk0] at hd ⊢
    exact side_eq (a := edges[posID k].1) (b := edges[posID k].2) hd ⟨by omega, by omega⟩ ⟨by omega, by omega⟩
  · rw [if_neg hk0] at hd ⊢
    exact side_eq (a := edges[posID k].2) (b := edges[posID k].1) hd ⟨by omega, by omega⟩ ⟨by omega, by omega⟩

theorem posID_same {k k' : Int} (h : posID k = posID k') (hs : 0 ≤ k ↔ 0 ≤ k') : k = k' := by
  unfold posID flip at h
  by_cases hk : 0 ≤ k
  · rw [if_pos hk, if_pos (hs.mp hk)] at h; have := hs.mp hk; omega
  · rw [if_neg hk, if_neg (mt hs.mpr hk)] at h; have := mt hs.mpr hk; omega

theorem posID_other {k k' : Int} (h : posID k = posID k') (hs : 0 ≤ k ↔ ¬ 0 ≤ k') : k' = flip k := by
  unfold posID flip at h
  unfold flip
  by_cases hk : 0 ≤ k
  · rw [if_pos hk, if_neg (hs.mp hk)] at h; have := hs.mp hk; omega
  · have h' : 0 ≤ k' := by omega
    rw [if_neg hk, if_pos h'] at h; omega

/-- With every node and edge once, a side determines the signed edge. -/
theorem side_inj {α : Type} {nodes : List α} {edges : List (Int × Int)} (h : Numbered nodes edges) {k k' : Int} (hk : posID k < edges.length) (hk' : posID k' < edges.length) :
    (side nodes edges k = side nodes edges k' → k = k') ∧ (∀ t, side nodes edges k = some t → side nodes edges k' = some t.swap → k' = flip k) := by
  obtain ⟨a1, a2, ea⟩ := side_parts h.ends hk
  obtain ⟨b1, b2, eb⟩ := side_parts h.ends hk'
  obtain ⟨c1, c2, c3⟩ := h.ends _ (List.getElem_mem hk)
  obtain ⟨d1, d2, d3⟩ := h.ends _ (List.getElem_mem hk')
  have inj : ∀ {i j : Nat} (hi : i < nodes.length) (hj : j < nodes.length), nodes[i] = nodes[j] → i = j := fun hi hj e => (h.nodes_once.getElem_inj_iff).mp e
  have einj : edges[posID k] = edges[posID k'] → posID k = posID k' := fun e => (h.edges_once.getElem_inj_iff).mp e
  rw [ea, eb]
  refine ⟨fun e => ?_, fun t e e' => ?_⟩
  · simp only [Option.some.injEq] at e
    split at e <;> split at e
    · simp only [Prod.mk.injEq] at e
      have := inj _ _ e.1; have := inj _ _ e.2
      have := einj (Prod.ext (by omega) (by omega))
      exact posID_same this (by omega)
    · simp only [Prod.mk.injEq] at e
      have := inj _ _ e.1; have := inj _ _ e.2
      omega
    · simp only [Prod.mk.injEq] at e
      have := inj _ _ e.1; have := inj _ _ e.2
      omega
    · simp only [Prod.mk.injEq] at e
      have := inj _ _ e.1; have := inj _ _ e.2
      have := einj (Prod.ext (by omega) (by omega))
      exact posID_same this (by omega)
  · simp only [Option.some.injEq] at e e'
    subst e
    split at e' <;> split at e'
    · simp only [Prod.swap_prod_mk, Prod.mk.injEq] at e'
      have := inj _ _ e'.1; have := inj _ _ e'.2
      omega
    · simp only [Prod.swap_prod_mk, Prod.mk.injEq] at e'
      have := inj _ _ e'.1; have := inj _ _ e'.2
      have := einj (Prod.ext (by omega) (by omega))
      exact posID_other this (by omega)
    · simp only [Prod.swap_prod_mk, Prod.mk.injEq] at e'
      have := inj _ _ e'.1; have := inj _ _ e'.2
      have := einj (Prod.ext (by omega) (by omega))
      exact posID_other this (by omega)
    · simp only [Prod.swap_prod_mk, Prod.mk.injEq] at e'
      have := inj _ _ e'.1; have := inj _ _ e'.2
      omega

theorem posID_eq_iff {k : Int} {f : Nat} : posID k = f ↔ k = (f : Int) ∨ k = -(f : Int) - 1 := by
  unfold posID flip; split <;> omega

/-! ### C40 -/

theorem rank_surj {α : Type} {l : List α} {del : List Nat} {g : Nat} (hg : g < (without l del).length) : ∃ i, i < l.length ∧ i ∉ del ∧ rank del i = g := by
  have hm : without l del = (keptBelow del l.length).filterMap fun i => l[i]? := rfl
  have mem : ∀ i ∈ keptBelow del l.length, i < l.length ∧ i ∉ del := by
    intro i hi
    unfold keptBelow at hi
    simpa using hi
  have hlen : ∀ ks : List Nat, (∀ i ∈ ks, i < l.length) → (ks.filterMap fun i => l[i]?).length = ks.length := by
    intro ks
    induction ks with
    | nil => simp
    | cons a ks ih =>
      intro h
      have ha := h a (by simp)
      rw [List.filterMap_cons, List.getElem?_eq_getElem ha]
      simp [ih fun i hi => h i (by simp [hi])]
  rw [hm, hlen _ fun i hi => (mem i hi).1] at hg
  obtain ⟨m1, m2⟩ := mem _ (List.getElem_mem hg)
  refine ⟨_, m1, m2, ?_⟩
  obtain ⟨h1, h2⟩ := keptBelow_rank m1 m2
  have nd : (keptBelow del l.length).Nodup := by unfold keptBelow; exact List.nodup_range.filter _
  exact (nd.getElem_inj_iff).mp h2

theorem rank_inj {del : List Nat} {i j : Nat} (hi : i ∉ del) (hj : j ∉ del) (h : rank del i = rank del j) : i = j := by
  rcases Nat.lt_trichotomy i j with hlt | he | hlt
  · have := rank_lt hlt hi; omega
  · exact he
  · have := rank_lt hlt hj; omega

/-- The edge lists have ids in range. -/
structure InRange {α : Type} (nodes : List α) (edges : List (Int × Int)) (cells : List (List Int)) : Prop where
  cells : ∀ C ∈ cells, ∀ k ∈ C, posID k < edges.length
  edges : ∀ e ∈ edges, (0 ≤ e.1 ∧ e.1 < nodes.length) ∧ 0 ≤ e.2 ∧ e.2 < nodes.length

theorem Compacted.result {α : Type} {nodes : List α} {edges : List (Int × Int)} {cells : List (List Int)} {D M : List Nat} {r : List α × List (Int × Int) × List (List Int)}
    (c : Compacted nodes edges cells D M r) (h : InRange nodes edges cells) :
    InRange r.1 r.2.1 r.2.2 ∧ AllUsed r.1 r.2.1 r.2.2 ∧ r.1.Sublist nodes ∧ r.2.2.map (fun C => C.map (side r.1 r.2.1)) = cells.map (fun C => C.map (side nodes edges)) ∧
    (Numbered nodes edges → Numbered r.1 r.2.1) := by
  have keep : ∀ C ∈ cells, ∀ k ∈ C, _ := fun C hC k hk => c.side_keep h.edges (List.mem_flatten.mpr ⟨C, hC, hk⟩) (h.cells C hC k hk)
  have ends : ∀ e ∈ without edges D, ∃ f, f ∉ D ∧ edges[f]? = some e ∧ ((0 ≤ e.1 ∧ e.1 < nodes.length) ∧ 0 ≤ e.2 ∧ e.2 < nodes.length) ∧ e.1.toNat ∉ M ∧ e.2.toNat ∉ M := by
    intro e he
    obtain ⟨f, hf, hfe⟩ := mem_without.mp he
    have hr := h.edges e (List.mem_of_getElem? hfe)
    exact ⟨f, hf, hfe, hr, (c.dropped_nodes _ (by omega)).mpr ⟨e, he, Or.inl (by omega)⟩, (c.dropped_nodes _ (by omega)).mpr ⟨e, he, Or.inr (by omega)⟩⟩
  have rk : ∀ a, a < nodes.length → a ∉ M → rank M a < r.1.length := by
    intro a ha hm
    have := c.node_at a ha hm
    rw [← c.nodes_eq, List.getElem?_eq_getElem ha] at this
    exact (List.getElem?_eq_some_iff.mp this).1
  refine ⟨⟨?_, ?_⟩, ⟨?_, ?_⟩, ?_, ?_, ?_⟩
  · intro C hC k hk
    rw [c.cells_eq] at hC
    obtain ⟨C', hC', rfl⟩ := List.mem_map.mp hC
    obtain ⟨k', hk', rfl⟩ := List.mem_map.mp hk
    exact (keep C' hC' k' hk').1
  · intro e he
    rw [c.edges_eq] at he
    obtain ⟨e', he', rfl⟩ := List.mem_map.mp he
    obtain ⟨f, _, _, hr, m1, m2⟩ := ends e' he'
    have := rk _ (by omega) m1
    have := rk _ (by omega) m2
    dsimp only; omega
  · intro g hg
    rw [c.edges_eq, List.length_map] at hg
    obtain ⟨f, hf, hfD, rfl⟩ := rank_surj hg
    obtain ⟨k, hk, hkf⟩ := (c.dropped_edges f hf).mp hfD
    obtain ⟨C, hC, hkC⟩ := List.mem_flatten.mp hk
    refine ⟨_, by rw [c.cells_eq]; exact List.mem_map_of_mem hC, ?_⟩
    rcases posID_eq_iff.mp hkf with rfl | rfl
    · left
      refine List.mem_map.mpr ⟨_, hkC, ?_⟩
      rw [if_neg (by omega)]; simp
    · right
      refine List.mem_map.mpr ⟨_, hkC, ?_⟩
      rw [if_pos (by omega)]
      have : (flip (-(f : Int) - 1)).toNat = f := by unfold flip; omega
      rw [this]; unfold flip; omega
  · intro b hb
    rw [c.nodes_eq] at hb
    obtain ⟨a, ha, haM, rfl⟩ := rank_surj hb
    obtain ⟨e, he, hea⟩ := (c.dropped_nodes a ha).mp haM
    refine ⟨_, by rw [c.edges_eq]; exact List.mem_map_of_mem he, ?_⟩
    rcases hea with hea | hea
    · left; rw [hea]; simp
    · right; rw [hea]; simp
  · rw [c.nodes_eq]; exact without_sublist _ _
  · rw [c.cells_eq, List.map_map]
    refine List.map_congr_left fun C hC => ?_
    simp only [Function.comp_apply, List.map_map]
    exact List.map_congr_left fun k hk => (keep C hC k hk).2.1
  · intro hn
    refine ⟨by rw [c.nodes_eq]; exact without_nodup hn.nodes_once, ?_, ?_⟩
    · rw [c.edges_eq]
      refine (List.nodup_map_iff_inj_on (without_nodup hn.edges_once)).mpr ?_
      intro x hx y hy hxy
      simp only [Prod.mk.injEq] at hxy
      obtain ⟨_, _, _, hx', x1, x2⟩ := ends x hx
      obtain ⟨_, _, _, hy', y1, y2⟩ := ends y hy
      have := rank_inj x1 y1 (by omega)
      have := rank_inj x2 y2 (by omega)
      exact Prod.ext (by omega) (by omega)
    · intro e he
      rw [c.edges_eq] at he
      obtain ⟨e', he', rfl⟩ := List.mem_map.mp he
      obtain ⟨f, _, hfe, hr, m1, m2⟩ := ends e' he'
      have h3 := hn.ends e' (List.mem_of_getElem? hfe)
      have := rk _ (by omega) m2
      have := rank_lt (i := e'.1.toNat) (j := e'.2.toNat) (by omega) m1
      dsimp only; omega

/-- C40: compaction leaves every cell with the same sides in the same order and direction, drops every edge and node that is not used and renumbers the rest within
range; nodes keep their order, and nodes and edges stay distinct. The debug build also requires that no edge is used more than twice. -/
theorem C40_compact {α : Type} (dbg : Bool) {nodes : List α} {edges : List (Int × Int)} {cells : List (List Int)} (h : InRange nodes edges cells)
    (h2 : dbg = true → ∀ f : Nat, (cells.flatten.filter fun k => decide (posID k = f)).length ≤ 2) :
    ∃ nodes' edges' cells', compact dbg nodes edges cells = .ok (nodes', edges', cells') ∧
      cells'.map (fun C => C.map (side nodes' edges')) = cells.map (fun C => C.map (side nodes edges)) ∧
      InRange nodes' edges' cells' ∧ AllUsed nodes' edges' cells' ∧ nodes'.Sublist nodes ∧ (Numbered nodes edges → Numbered nodes' edges') := by
  rcases compact_spec dbg h.cells h.edges with ⟨r, D, M, e, c⟩ | ⟨hd, e, f, hf, hlt⟩
  · obtain ⟨g1, g2, g3, g4, g5⟩ := c.result h
    exact ⟨r.1, r.2.1, r.2.2, e, g4, g1, g2, g3, g5⟩
  · have := h2 hd f; omega

/-- C40: the nodes and edges that stay are exactly those in use: as positions, the sides of the edges before and after. -/
theorem C40_keeps_used {α : Type} {nodes : List α} {edges : List (Int × Int)} {cells : List (List Int)} (h : InRange nodes edges cells) :
    ∃ nodes' edges' cells', compact false nodes edges cells = .ok (nodes', edges', cells') ∧
      (∀ p, p ∈ nodes' ↔ ∃ C ∈ cells, ∃ k ∈ C, ∃ t, side nodes edges k = some t ∧ (p = t.1 ∨ p = t.2)) ∧ cells'.map List.length = cells.map List.length := by
  obtain ⟨nodes', edges', cells', e, g1, g2, g3, g4, g5⟩ := C40_compact false h (by simp)
  have hside : ∀ {α : Type} {nodes : List α} {edges : List (Int × Int)} {cells : List (List Int)}, InRange nodes edges cells → ∀ C ∈ cells, ∀ k ∈ C, ∃ (h0 : posID k < edges.length) (h1 : edges[posID k].1.toNat < nodes.length) (h2 : edges[posID k].2.toNat < nodes.length),
      side nodes edges k = some (if 0 ≤ k then (nodes[edges[posID k].1.toNat], nodes[edges[posID k].2.toNat]) else (nodes[edges[posID k].2.toNat], nodes[edges[posID k].1.toNat])) := by
    intro α nodes edges cells h C hC k hk
    have hl := h.cells C hC k hk
    obtain ⟨a1, a2⟩ := h.edges _ (List.getElem_mem hl)
    refine ⟨hl, by omega, by omega, ?_⟩
    have hd := directed_lt hl
    by_cases hk0 : 0 ≤ k
    · rw [if_pos hk0] at hd ⊢
      exact side_eq (a := edges[posID k].1) (b := edges[posID k].2) hd ⟨by omega, by omega⟩ ⟨by omega, by omega⟩
    · rw [if_neg hk0] at hd ⊢
      exact side_eq (a := edges[posID k].2) (b := edges[posID k].1) hd ⟨by omega, by omega⟩ ⟨by omega, by omega⟩
  refine ⟨nodes', edges', cells', e, fun p => ⟨fun hp => ?_, ?_⟩, ?_⟩
  · obtain ⟨a, ha, rfl⟩ := List.getElem_of_mem hp
    obtain ⟨ed, hed, hea⟩ := g3.nodes_used a ha
    obtain ⟨f, hf, rfl⟩ := List.getElem_of_mem hed
    obtain ⟨C, hC, hk0⟩ := g3.edges_used f hf
    have : ∃ k ∈ C, posID k = f := by
      rcases hk0 with hk | hk
      · exact ⟨_, hk, posID_eq_iff.mpr (Or.inl rfl)⟩
      · exact ⟨_, hk, posID_eq_iff.mpr (Or.inr rfl)⟩
    obtain ⟨k, hk, rfl⟩ := this
    obtain ⟨s0, s1, s2, hs⟩ := hside g2 C hC k hk
    obtain ⟨i, hi, rfl⟩ := List.getElem_of_mem hC
    obtain ⟨j, hj, rfl⟩ := List.getElem_of_mem hk
    have hl : i < cells.length := by have := congrArg List.length g1; simp at this; omega
    have hrow := congrArg (fun l => l[i]?) g1
    simp only [List.getElem?_map, List.getElem?_eq_getElem hi, List.getElem?_eq_getElem hl, Option.map_some, Option.some.injEq] at hrow
    have hlj : j < cells[i].length := by have := congrArg List.length hrow; simp at this; omega
    have hent := congrArg (fun l => l[j]?) hrow
    simp only [List.getElem?_map, List.getElem?_eq_getElem hj, List.getElem?_eq_getElem hlj, Option.map_some, Option.some.injEq] at hent
    refine ⟨_, List.getElem_mem hl, _, List.getElem_mem hlj, _, hent.symm.trans hs, ?_⟩
    have e1 : edges'[posID cells'[i][j]].1 = (a : Int) → nodes'[edges'[posID cells'[i][j]].1.toNat] = nodes'[a] := by intro h; simp only [h, Int.toNat_natCast]
    have e2 : edges'[posID cells'[i][j]].2 = (a : Int) → nodes'[edges'[posID cells'[i][j]].2.toNat] = nodes'[a] := by intro h; simp only [h, Int.toNat_natCast]
    split
    · exact hea.imp (fun h => (e1 h).symm) fun h => (e2 h).symm
    · exact (hea.imp (fun h => (e1 h).symm) fun h => (e2 h).symm).symm
  · rintro ⟨C, hC, k, hk, t, ht, hp⟩
    obtain ⟨i, hi, rfl⟩ := List.getElem_of_mem hC
    obtain ⟨j, hj, rfl⟩ := List.getElem_of_mem hk
    have hl : i < cells'.length := by have := congrArg List.length g1; simp at this; omega
    have hrow := congrArg (fun l => l[i]?) g1
    simp only [List.getElem?_map, List.getElem?_eq_getElem hi, List.getElem?_eq_getElem hl, Option.map_some, Option.some.injEq] at hrow
    have hlj : j < cells'[i].length := by have := congrArg List.length hrow; simp at this; omega
    have hent := congrArg (fun l => l[j]?) hrow
    simp only [List.getElem?_map, List.getElem?_eq_getElem hj, List.getElem?_eq_getElem hlj, Option.map_some, Option.some.injEq] at hent
    obtain ⟨s0, s1, s2, hs⟩ := hside g2 _ (List.getElem_mem hl) _ (List.getElem_mem hlj)
    rw [ht, hs] at hent
    injection hent with hent
    subst hent
    split at hp
    · rcases hp with rfl | rfl <;> exact List.getElem_mem _
    · rcases hp with rfl | rfl <;> exact List.getElem_mem _
  · have := congrArg (List.map List.length) g1
    simpa [List.map_map, Function.comp_def] using this

/-- C40: the debug build stops exactly when some edge is used more than twice. -/
theorem C40_abort_iff {α : Type} {nodes : List α} {edges : List (Int × Int)} {cells : List (List Int)} (h : InRange nodes edges cells) :
    compact true nodes edges cells = .abort ↔ ∃ f : Nat, 2 < (cells.flatten.filter fun k => decide (posID k = f)).length := by
  constructor
  · intro e
    rcases compact_spec true h.cells h.edges with ⟨r, D, M, e', c⟩ | ⟨hd, e, f, hf, hlt⟩
    · rw [e] at e'; cases e'
    · exact ⟨f, hlt⟩
  · rintro ⟨f, hf⟩
    obtain ⟨u, eu, lu, fu⟩ := countUses_spec true cells.flatten (List.replicate edges.length 0) (by
      intro k hk; obtain ⟨C, hC, hk⟩ := List.mem_flatten.mp hk; simpa using h.cells C hC k hk)
    simp only [List.length_replicate] at eu lu fu
    have hfl : f < edges.length := by
      obtain ⟨k, hk⟩ := List.exists_mem_of_ne_nil _ (List.ne_nil_of_length_pos (Nat.lt_of_le_of_lt (Nat.zero_le _) hf))
      simp only [List.mem_filter, decide_eq_true_eq] at hk
      obtain ⟨hk, rfl⟩ := hk
      obtain ⟨C, hC, hk⟩ := List.mem_flatten.mp hk
      exact h.cells C hC k hk
    unfold compact
    rw [eu, Res.ok_bind, Res.assert_debug_false]
    · rfl
    · intro hall
      have := hall (u[f]'(by omega)) (List.getElem_mem _)
      have h3 := fu f hfl
      simp only [List.getD, List.getElem?_eq_getElem (lu ▸ hfl : f < u.length), List.getElem?_replicate, hfl, if_true, Option.getD_some] at h3
      omega

/-- Four nodes and five edges of which cell lists use two triangles' worth; node 4 and edge 5 are not used. -/
example : InRange [(0, 0), (9, 9), (4, 0), (0, 4), (4, 4)] [(0, 2), (1, 4), (2, 3), (0, 3), (2, 4), (3, 4)] [[0, 2, -4], [4, -6, -3]] ∧
    (∀ f : Nat, (([[0, 2, -4], [4, -6, -3]] : List (List Int)).flatten.filter fun k => decide (posID k = f)).length ≤ 2) ∧
    compact true [((0 : Int), (0 : Int)), (9, 9), (4, 0), (0, 4), (4, 4)] [(0, 2), (1, 4), (2, 3), (0, 3), (2, 4), (3, 4)] [[0, 2, -4], [4, -6, -3]] =
      .ok ([(0, 0), (4, 0), (0, 4), (4, 4)], [(0, 1), (1, 2), (0, 2), (1, 3), (2, 3)], [[0, 1, -3], [3, -5, -2]]) := by
  refine ⟨⟨by decide, by decide⟩, fun f => ?_, by decide +kernel⟩
  have : ∀ k : Int, k ∈ ([[0, 2, -4], [4, -6, -3]] : List (List Int)).flatten → posID k < 6 := by decide
  rcases Nat.lt_or_ge f 6 with h | h
  · have := (by decide : ∀ f, f < 6 → (([[0, 2, -4], [4, -6, -3]] : List (List Int)).flatten.filter fun k => decide (posID k = f)).length ≤ 2)
    exact this f h
  · rw [List.filter_eq_nil_iff.mpr]
    · simp
    · intro k hk; have := this k hk; simp; omega

/-! ### C38: Boost -/

theorem Inv.inRange {σ : Type} {R : P2 → P2 → Bool} {I : σ → List P2 → Prop} {s : RO σ} {sides : List (P2 × P2)} {rings : List (List (P2 × P2))} (h : Inv R I s sides rings) : InRange s.nodes s.edges s.cells :=
  ⟨h.cells_range, fun e he => by have := h.edges_range e he; omega⟩

theorem Inv.numbered {σ : Type} {R : P2 → P2 → Bool} {I : σ → List P2 → Prop} {s : RO σ} {sides : List (P2 × P2)} {rings : List (List (P2 × P2))} (h : Inv R I s sides rings) (hr : ∀ p, R p p = true) : Numbered s.nodes s.edges := by
  refine ⟨?_, ?_, h.edges_range⟩
  · refine h.apart.imp ?_
    rintro a b hab rfl
    rw [hr] at hab; cases hab
  · rw [← h.emap]; exact h.numbers.nodup

/-- If every side is a side of some cell, every edge is used. -/
theorem Inv.edge_used {σ : Type} {R : P2 → P2 → Bool} {I : σ → List P2 → Prop} {s : RO σ} {sides : List (P2 × P2)} {rings : List (List (P2 × P2))} (h : Inv R I s sides rings) (hr : ∀ p, R p p = true)
    (hall : ∀ t ∈ sides, ∃ r ∈ rings, t ∈ r) {f : Nat} (hf : f < s.edges.length) : ∃ C ∈ s.cells, (f : Int) ∈ C ∨ (-(f : Int) - 1) ∈ C := by
  obtain ⟨t, ht, hne, he⟩ := h.edges_from _ (List.getElem_mem hf)
  obtain ⟨r, hrr, htr⟩ := hall t ht
  obtain ⟨i, hi, rfl⟩ := List.getElem_of_mem hrr
  have hil : i < s.cells.length := by rw [h.cells_len]; exact hi
  have hd := h.cells i _ _ (List.getElem?_eq_getElem hil) (List.getElem?_eq_getElem hi)
  have hm : some (((idOf R s.nodes t.1 : Nat) : Int), ((idOf R s.nodes t.2 : Nat) : Int)) ∈ s.cells[i].map (directed s.edges) := by
    rw [hd]
    refine List.mem_map_of_mem (List.mem_filter.mpr ⟨List.mem_map_of_mem htr, ?_⟩)
    simpa using hne
  obtain ⟨k, hk, hkd⟩ := List.mem_map.mp hm
  have hkl := h.cells_range _ (List.getElem_mem hil) k hk
  rw [directed_lt hkl] at hkd
  refine ⟨_, List.getElem_mem hil, ?_⟩
  have hpk : posID k = f := by
    refine ((h.numbered hr).edges_once.getElem_inj_iff (hi := hkl) (hj := hf)).mp ?_
    have hs := h.edges_range _ (List.getElem_mem hkl)
    rw [he]
    simp only [Option.some.injEq] at hkd
    split at hkd
    · rw [hkd] at hs ⊢; dsimp only at hs ⊢
      rw [Nat.min_eq_left (by omega), Nat.max_eq_right (by omega)]
    · have : s.edges[posID k] = (((idOf R s.nodes t.2 : Nat) : Int), ((idOf R s.nodes t.1 : Nat) : Int)) := by
        rw [← Prod.swap_swap s.edges[posID k], hkd]; rfl
      rw [this] at hs ⊢; dsimp only at hs ⊢
      rw [Nat.min_eq_right (by omega), Nat.max_eq_left (by omega)]
  rcases posID_eq_iff.mp hpk with h | h
  · left; rw [← h]; exact hk
  · right; rw [← h]; exact hk

/-- The sides of the cell of generator `i`. -/
def ringOf (cells : List VCell) (i : Nat) : List (P2 × P2) := (cells.filter fun c => decide (c.point = true ∧ c.index = i)).flatMap VCell.ring

/-- The cells of the generators below `n` are bounded: they have edges, with two vertices each. -/
def Bounded (n : Nat) (cells : List VCell) : Prop := ∀ c ∈ cells, c.point = true → c.index < n → c.edges ≠ [] ∧ ∀ e ∈ c.edges, e.1.isSome ∧ e.2.isSome

/-- C38: for a diagram whose cells are bounded, the tessellator numbers every vertex once and every edge once, and gives every generator an edge list that traverses
exactly the sides of its cell, in order and in their direction, except those with two equal ends. Nodes are exactly the vertices of these cells, and every edge
is used. -/
theorem C38_boost (dbg : Bool) {n : Nat} {cells : List VCell} (hb : Bounded n cells) :
    ∃ s, boostRead dbg n cells = .ok s ∧ Numbered s.nodes s.edges ∧ InRange s.nodes s.edges s.cells ∧ s.cells.length = n ∧
      (∀ i, i < n → (s.cells.getD i []).map (side s.nodes s.edges) = (proper (ringOf cells i)).map some) ∧
      (∀ p, p ∈ s.nodes ↔ ∃ i t, i < n ∧ t ∈ ringOf cells i ∧ (p = t.1 ∨ p = t.2)) ∧
      (∀ f : Nat, f < s.edges.length → ∃ C ∈ s.cells, (f : Int) ∈ C ∨ (-(f : Int) - 1) ∈ C) := by
  obtain ⟨s, rings, e, h, hl, hg⟩ := boostCells_spec dbg cells (n := n) (rings := List.replicate n []) (by simp) (fun c hc hm => hb c hc hm.1 hm.2)
    (inv_start (n := n) (R := fun p q => decide (p = q)) (I := fun (m : KMap P2) nodes => Numbers m nodes ∧ m.map Prod.fst = nodes) ⟨numbers_nil, rfl⟩)
  have hr : ∀ p : P2, (fun p q : P2 => decide (p = q)) p p = true := by simp
  have hring : ∀ i, i < n → rings[i]? = some (ringOf cells i) := by
    intro i hi
    have := hg i hi
    have hir : i < rings.length := by omega
    simp only [List.getD, List.getElem?_eq_getElem hir, Option.getD_some, List.getElem?_replicate, hi, if_true, List.nil_append] at this
    rw [List.getElem?_eq_getElem hir, this]; rfl
  have hpos : ∀ p, (∃ t ∈ ([] ++ (cells.filter fun c => decide (c.Mine n)).flatMap VCell.ring), p = t.1 ∨ p = t.2) → posOf (fun p q => decide (p = q)) s.nodes p = p := by
    rintro p ⟨t, ht, htp⟩
    have hf := h.found t ht
    have : s.nodes.findIdx ((fun p q : P2 => decide (p = q)) p) < s.nodes.length := by rcases htp with rfl | rfl; exacts [hf.1, hf.2]
    have := (posOf_spec (R := fun p q => decide (p = q)) this).2.1
    simp only [decide_eq_true_eq] at this
    exact this.symm
  have hmem : ∀ t, t ∈ (cells.filter fun c => decide (c.Mine n)).flatMap VCell.ring ↔ ∃ i, i < n ∧ t ∈ ringOf cells i := by
    intro t
    unfold ringOf
    simp only [List.mem_flatMap, List.mem_filter, decide_eq_true_eq]
    constructor
    · rintro ⟨c, ⟨hc, hm⟩, ht⟩; exact ⟨c.index, hm.2, c, ⟨hc, hm.1, rfl⟩, ht⟩
    · rintro ⟨i, hi, c, ⟨hc, hp, rfl⟩, ht⟩; exact ⟨c, ⟨hc, hp, hi⟩, ht⟩
  refine ⟨s, e, h.numbered hr, h.inRange, h.cells_len.trans hl, fun i hi => ?_, fun p => ⟨fun hp => ?_, ?_⟩, fun f hf => h.edge_used hr ?_ hf⟩
  · have hic : i < s.cells.length := by rw [h.cells_len]; omega
    have e1 : s.cells.getD i [] = s.cells[i] := by simp [List.getD, hic]
    rw [e1, h.sides_of_cell hr (List.getElem?_eq_getElem hic) (hring i hi)]
    unfold proper
    congr 2
    refine (List.map_congr_left (g := id) fun t ht => ?_).trans (List.map_id _)
    have hts : t ∈ ([] ++ (cells.filter fun c => decide (c.Mine n)).flatMap VCell.ring) := by rw [List.nil_append]; exact (hmem t).mpr ⟨i, hi, ht⟩
    rw [hpos t.1 ⟨t, hts, Or.inl rfl⟩, hpos t.2 ⟨t, hts, Or.inr rfl⟩]; rfl
  · obtain ⟨t, ht, htp⟩ := h.nodes_from p hp
    rw [List.nil_append] at ht
    obtain ⟨i, hi, ht⟩ := (hmem t).mp ht
    exact ⟨i, t, hi, ht, htp⟩
  · rintro ⟨i, t, hi, ht, htp⟩
    have hts : t ∈ ([] ++ (cells.filter fun c => decide (c.Mine n)).flatMap VCell.ring) := by rw [List.nil_append]; exact (hmem t).mpr ⟨i, hi, ht⟩
    have hf := h.found t hts
    have hlt : s.nodes.findIdx ((fun p q : P2 => decide (p = q)) p) < s.nodes.length := by rcases htp with rfl | rfl; exacts [hf.1, hf.2]
    have := (posOf_spec (R := fun p q => decide (p = q)) hlt).1
    rwa [hpos p ⟨t, hts, htp⟩] at this
  · intro t ht
    rw [List.nil_append] at ht
    obtain ⟨i, hi, ht⟩ := (hmem t).mp ht
    exact ⟨_, List.mem_of_getElem? (hring i hi), ht⟩

/-- C38: a cell whose sides close on themselves is read out as an edge list that closes on itself. -/
theorem C38_boost_closed (dbg : Bool) {n : Nat} {cells : List VCell} (hb : Bounded n cells) :
    ∃ s, boostRead dbg n cells = .ok s ∧ ∀ i, i < n → ClosedWalk (ringOf cells i) → ∃ w, (s.cells.getD i []).map (side s.nodes s.edges) = w.map some ∧ ClosedWalk w := by
  obtain ⟨s, e, _, _, _, h, _⟩ := C38_boost dbg hb
  exact ⟨s, e, fun i hi ⟨a, ha⟩ => ⟨_, h i hi, a, ha.filter⟩⟩

/-- C38: two cells that have a side in common, in opposite directions, share the edge, with opposite signs. -/
theorem C38_boost_shared (dbg : Bool) {n : Nat} {cells : List VCell} (hb : Bounded n cells) :
    ∃ s, boostRead dbg n cells = .ok s ∧ ∀ i j p q, i < n → j < n → p ≠ q → (p, q) ∈ ringOf cells i → (q, p) ∈ ringOf cells j →
      ∃ k, k ∈ s.cells.getD i [] ∧ flip k ∈ s.cells.getD j [] ∧ side s.nodes s.edges k = some (p, q) := by
  obtain ⟨s, e, hn, hir, hl, h, _⟩ := C38_boost dbg hb
  refine ⟨s, e, fun i j p q hi hj hpq h1 h2 => ?_⟩
  have get : ∀ i t, i < n → t.1 ≠ t.2 → t ∈ ringOf cells i → ∃ k ∈ s.cells.getD i [], side s.nodes s.edges k = some t := by
    intro i t hi hne ht
    have : some t ∈ (s.cells.getD i []).map (side s.nodes s.edges) := by
      rw [h i hi]; exact List.mem_map_of_mem (List.mem_filter.mpr ⟨ht, by simpa using hne⟩)
    obtain ⟨k, hk, hs⟩ := List.mem_map.mp this
    exact ⟨k, hk, hs⟩
  have rng : ∀ i k, i < n → k ∈ s.cells.getD i [] → posID k < s.edges.length := by
    intro i k hi hk
    have hic : i < s.cells.length := by omega
    rw [show s.cells.getD i [] = s.cells[i] by simp [List.getD, hic]] at hk
    exact hir.cells _ (List.getElem_mem hic) k hk
  obtain ⟨k, hk, hs⟩ := get i (p, q) hi hpq h1
  obtain ⟨k', hk', hs'⟩ := get j (q, p) hj (Ne.symm hpq) h2
  have := (side_inj hn (rng i k hi hk) (rng j k' hj hk')).2 _ hs hs'
  exact ⟨k, hk, this ▸ hk', hs⟩

/-- C38 with C39: if no side, taken with its direction, occurs twice in the cells, then the mesh filled from the result is consistent, and every face has one cell or two
of opposite sign. -/
theorem C38_boost_mesh (dbg : Bool) {n : Nat} {cells : List VCell} (hb : Bounded n cells) (hone : ∀ t : P2 × P2, t.1 ≠ t.2 → ((List.range n).flatMap (ringOf cells)).count t ≤ 1)
    {q : Verif.Geom.QT} (hq : q.generators.length = n) :
    ∃ s m, boostRead dbg n cells = .ok s ∧ Verif.Geom.fillTess dbg (boostQT q s) {} = .ok m ∧ Consistent 2 m ∧
      ∀ f, f < m.faces.length → ((cellsOf m f).filter fun c => decide (0 ≤ c)).length ≤ 1 ∧ ((cellsOf m f).filter fun c => decide (c < 0)).length ≤ 1 := by
  obtain ⟨s, e, hn, hir, hl, h, _, hu⟩ := C38_boost dbg hb
  have hflat : s.cells.flatten.map (side s.nodes s.edges) = (proper ((List.range n).flatMap (ringOf cells))).map some := by
    have hc : s.cells = (List.range n).map fun i => s.cells.getD i [] := by
      refine List.ext_getElem (by simp [hl]) fun i h1 h2 => ?_
      simp [List.getD, h1]
    have : ∀ l : List Nat, (∀ i ∈ l, i < n) → ((l.map fun i => s.cells.getD i []).flatten).map (side s.nodes s.edges) = (proper (l.flatMap (ringOf cells))).map some := by
      intro l
      induction l with
      | nil => intro _; rfl
      | cons a l ih =>
        intro hl
        simp only [List.map_cons, List.flatten_cons, List.map_append, List.flatMap_cons, proper, List.filter_append]
        rw [ih fun i hi => hl i (by simp [hi]), h a (hl a (by simp))]; rfl
    have := this (List.range n) (by simp)
    rwa [← hc] at this
  have hcount : ∀ k, posID k < s.edges.length → s.cells.flatten.count k ≤ 1 := by
    intro k hk
    obtain ⟨h1, h2, hs⟩ := side_parts hn.ends hk
    refine (List.count_le_count_map (f := side s.nodes s.edges) (x := k)).trans ?_
    rw [hflat, hs, List.count_map_of_injective _ _ (Option.some_injective _)]
    refine (List.Sublist.count_le _ List.filter_sublist).trans (hone _ ?_)
    obtain ⟨c1, c2, c3⟩ := hn.ends _ (List.getElem_mem hk)
    split
    · intro he; have := (hn.nodes_once.getElem_inj_iff).mp he; omega
    · intro he; have := (hn.nodes_once.getElem_inj_iff).mp he; omega
  obtain ⟨m, e', h1, h2⟩ := Verif.Geom.C39_consistent dbg (q := boostQT q s) ⟨by show s.cells.length = q.generators.length; omega, hir.cells, fun ed hed => by
      have := hn.ends ed hed
      have hlen : (boostQT q s).nodes.length = s.nodes.length := by simp [boostQT]
      rw [hlen]; omega⟩ (by
    intro f hf
    have hf : f < s.edges.length := hf
    refine ⟨hcount f (by rw [posID_eq_iff.mpr (Or.inl rfl)]; exact hf), hcount (flip f) (by rw [posID_eq_iff (f := f) |>.mpr (Or.inr (by unfold flip; omega))]; exact hf), ?_⟩
    obtain ⟨C, hC, hk⟩ := hu f hf
    show 1 ≤ s.cells.flatten.count (f : Int) + s.cells.flatten.count (flip f)
    rcases hk with hk | hk
    · have : 0 < s.cells.flatten.count (f : Int) := List.count_pos_iff.mpr (List.mem_flatten.mpr ⟨C, hC, hk⟩)
      omega
    · have : 0 < s.cells.flatten.count (flip f) := List.count_pos_iff.mpr (List.mem_flatten.mpr ⟨C, hC, by
        have : flip (f : Int) = -(f : Int) - 1 := by unfold flip; omega
        rw [this]; exact hk⟩)
      omega)
  exact ⟨s, m, e, e', h1, h2⟩

/-- Two unit squares side by side; the first ring has a repeated vertex, and there is a guard cell. -/
def twoSquares : List VCell :=
  [{ index := 0, edges := [(some (0, 0), some (1, 0)), (some (1, 0), some (1, 0)), (some (1, 0), some (1, 1)), (some (1, 1), some (0, 1)), (some (0, 1), some (0, 0))] },
   { index := 2, edges := [(none, none)] },
   { index := 1, edges := [(some (1, 0), some (2, 0)), (some (2, 0), some (2, 1)), (some (2, 1), some (1, 1)), (some (1, 1), some (1, 0))] }]

example : Bounded 2 twoSquares ∧ ClosedWalk (ringOf twoSquares 0) ∧ (∀ t : P2 × P2, t.1 ≠ t.2 → ((List.range 2).flatMap (ringOf twoSquares)).count t ≤ 1) ∧
    ((1, 0), (1, 1)) ∈ ringOf twoSquares 0 ∧ ((1, 1), (1, 0)) ∈ ringOf twoSquares 1 := by
  have h0 : ringOf twoSquares 0 = [((0, 0), (1, 0)), ((1, 0), (1, 0)), ((1, 0), (1, 1)), ((1, 1), (0, 1)), ((0, 1), (0, 0))] := by decide
  have h1 : (List.range 2).flatMap (ringOf twoSquares) =
    [((0, 0), (1, 0)), ((1, 0), (1, 0)), ((1, 0), (1, 1)), ((1, 1), (0, 1)), ((0, 1), (0, 0)), ((1, 0), (2, 0)), ((2, 0), (2, 1)), ((2, 1), (1, 1)), ((1, 1), (1, 0))] := by decide
  refine ⟨by unfold Bounded twoSquares; decide, ⟨(0, 0), by rw [h0]; simp [Walk]⟩, fun t _ => ?_, by decide, by decide⟩
  rw [h1]
  exact List.nodup_iff_count_le_one.mp (by decide) t

example : (match boostRead true 2 twoSquares with
    | .ok s => decide (s.nodes = [(0, 0), (1, 0), (1, 1), (0, 1), (2, 0), (2, 1)] ∧ s.edges = [(0, 1), (1, 2), (2, 3), (0, 3), (1, 4), (4, 5), (2, 5)] ∧ s.cells = [[0, 1, 2, -4], [4, 5, -7, -2]])
    | _ => false) = true := by decide +kernel

/-- An unbounded cell is not read out: where both ends of a half edge are missing a null pointer is dereferenced in any build; where one is missing the debug build
stops and the release build dereferences a null pointer. -/
theorem C38_unbounded_fails (dbg : Bool) {n : Nat} {c : VCell} {pre post : List VCell} (hp : c.point = true) (hi : c.index < n) (hb : Bounded n pre) {e : VEdge} (he : e ∈ c.edges) (hinf : e.1 = none ∨ e.2 = none) :
    boostRead dbg n (pre ++ c :: post) = .ub ∨ (dbg = true ∧ boostRead dbg n (pre ++ c :: post) = .abort) := by
  have hcell : ∀ (es : List VEdge) (s : RO (KMap P2)) (sides : List (P2 × P2)) (rings : List (List (P2 × P2))), e ∈ es → c.index < rings.length →
      Inv (fun p q => decide (p = q)) (fun m nodes => Numbers m nodes ∧ m.map Prod.fst = nodes) s sides rings →
      boostCell dbg c.index es s = .ub ∨ (dbg = true ∧ boostCell dbg c.index es s = .abort) := by
    intro es
    induction es with
    | nil => intro s _ _ he; simp at he
    | cons a es ih =>
      intro s sides rings he hil h
      match a with
      | (some p, some q) =>
        have he : e ∈ es := by
          rcases List.mem_cons.mp he with rfl | he
          · rcases hinf with h | h <;> cases h
          · exact he
        simp only [boostCell, finite, Res.ok_bind]
        rcases roEdge_spec dbg (looks_boost dbg) h (List.getElem?_eq_getElem hil) p q with ⟨s', e1, h'⟩ | ⟨e1, p, nodes, hb, _⟩
        · rw [e1, Res.ok_bind]
          exact ih s' _ _ he (by simpa using hil) h'
        · exact absurd hb not_false
      | (none, none) => left; rfl
      | (none, some q) => cases dbg; (left; rfl); (right; exact ⟨rfl, rfl⟩)
      | (some p, none) => cases dbg; (left; rfl); (right; exact ⟨rfl, rfl⟩)
  have happ : ∀ (pre : List VCell) (s s' : RO (KMap P2)), boostCells dbg n pre s = .ok s' → boostCells dbg n (pre ++ c :: post) s = boostCells dbg n (c :: post) s' := by
    intro pre
    induction pre with
    | nil => intro s s' h; injection h with h; rw [h]; rfl
    | cons a pre ih =>
      intro s s' h
      simp only [List.cons_append, boostCells] at h ⊢
      split
      · rw [if_pos ‹_›] at h
        split
        · rw [if_pos ‹_›] at h; cases h
        · rw [if_neg ‹_›] at h
          obtain ⟨s1, h1, h2⟩ := Res.bind_eq_ok.mp h
          rw [h1, Res.ok_bind, ih s1 s' h2]; rfl
      · rw [if_neg ‹_›] at h
        rw [ih s s' h]; rfl
  obtain ⟨s, rings, e1, h, hl, hg⟩ := boostCells_spec dbg pre (n := n) (rings := List.replicate n []) (by simp) (fun c hc hm => hb c hc hm.1 hm.2)
    (inv_start (n := n) (R := fun p q => decide (p = q)) (I := fun (m : KMap P2) nodes => Numbers m nodes ∧ m.map Prod.fst = nodes) ⟨numbers_nil, rfl⟩)
  unfold boostRead
  rw [happ _ _ _ e1]
  simp only [boostCells]
  rw [if_pos ⟨hp, hi⟩, if_neg (List.ne_nil_of_mem he)]
  rcases hcell c.edges s _ rings he (by omega) h with h | ⟨h1, h⟩
  · left; rw [h]; rfl
  · right; rw [h]; exact ⟨h1, rfl⟩

example : (match boostRead false 1 [{ index := 0, edges := [(some (0, 0), some (1, 0)), (some (1, 0), none)] }] with | .ub => true | _ => false) = true := by decide +kernel

/-! ### C38: clipping -/

/-- All sides that are read: those of the cells, and those of the rebuilt cells. -/
def allSides (rings : List (List P2)) (again : List (Nat × List P2)) : List (P2 × P2) := rings.flatMap openSides ++ again.flatMap fun c => closedSides c.2

/-- The sides of every cell in the end. -/
def finalRings (rings : List (List P2)) (again : List (Nat × List P2)) : List (List (P2 × P2)) := rebuild (rings.map openSides) again

/-- Every vertex moves by at most 2, to a vertex. -/
def Snaps (f : P2 → P2) (sides : List (P2 × P2)) : Prop := ∀ p, IsEnd sides p → Within2 p (f p) ∧ IsEnd sides (f p)

/-- What makes the debug build stop: a vertex close to two nodes that are not close to each other, or an edge that is used more than twice after snapping. -/
inductive ClipStops (rings : List (List P2)) (again : List (Nat × List P2)) : Prop
  | ambiguous (p q q' : P2) : IsEnd (allSides rings again) p → IsEnd (allSides rings again) q → IsEnd (allSides rings again) q' → Within2 p q → Within2 p q' → ¬ Within2 q q' → ClipStops rings again
  | thrice (f : P2 → P2) (a b : P2) : Snaps f (allSides rings again) → a ≠ b →
      2 < ((finalRings rings again).flatten.filter fun t => decide ((f t.1, f t.2) = (a, b) ∨ (f t.1, f t.2) = (b, a))).length → ClipStops rings again

theorem rebuild_len : ∀ (again : List (Nat × List P2)) (R : List (List (P2 × P2))), (rebuild R again).length = R.length
  | [], R => rfl
  | c :: again, R => by
    show (rebuild (R.set c.1 (closedSides c.2)) again).length = _
    rw [rebuild_len again]; simp

theorem rebuild_mem : ∀ (again : List (Nat × List P2)) (R : List (List (P2 × P2))) (r : List (P2 × P2)), r ∈ rebuild R again → r ∈ R ∨ ∃ c ∈ again, r = closedSides c.2
  | [], R, r, h => Or.inl h
  | c :: again, R, r, h => by
    rcases rebuild_mem again (R.set c.1 (closedSides c.2)) r h with h | ⟨d, hd, rfl⟩
    · rcases List.mem_or_eq_of_mem_set h with h | rfl
      · exact Or.inl h
      · exact Or.inr ⟨c, by simp, rfl⟩
    · exact Or.inr ⟨d, by simp [hd], rfl⟩

/-- C38: clipping numbers the vertices of the clipped cells up to a distance of 2: every vertex moves to a node at most 2 away, nodes are more than 2 apart, edges are
numbered once, and every cell traverses its ring, moved in this way, in order and closed, without sides that have become points. Every edge is used; with orphans every node is.
Missing: the ring is kept only up to the distance 2, and cells are rebuilt around orphans only after `removeCollinearPoints`, which is left out here (see `C38_orphans_fails`). -/
theorem C38_clip_partial (dbg : Bool) {rings : List (List P2)} {orphans : Nat} {again : List (Nat × List P2)} (hr : ∀ r ∈ rings, 3 < r.length ∧ r.head? = r.getLast?)
    (ha : ∀ c ∈ again, c.1 < rings.length ∧ c.2 ≠ []) (ho : orphans = 0 → again = []) :
    (dbg = true ∧ clipRead dbg rings orphans again = .abort ∧ ClipStops rings again) ∨
    ∃ (nodes : List P2) (edges : List (Int × Int)) (cells : List (List Int)) (f : P2 → P2), clipRead dbg rings orphans again = .ok (nodes, edges, cells) ∧ Numbered nodes edges ∧ InRange nodes edges cells ∧ cells.length = rings.length ∧
      Snaps f (allSides rings again) ∧ (nodes.Pairwise fun p q => ¬ Within2 p q) ∧ (∀ p ∈ nodes, IsEnd (allSides rings again) p) ∧
      (∀ (i : Nat) (r : List (P2 × P2)), (finalRings rings again)[i]? = some r → (cells.getD i []).map (side nodes edges) = (proper (r.map fun t => (f t.1, f t.2))).map some ∧ ClosedWalk (proper (r.map fun t => (f t.1, f t.2)))) ∧
      (∀ e : Nat, e < edges.length → ∃ C ∈ cells, (e : Int) ∈ C ∨ (-(e : Int) - 1) ∈ C) ∧ (0 < orphans → AllUsed nodes edges cells) := by
  have hL := looks_clip dbg
  have hrefl : ∀ p : P2, (fun p q : P2 => decide (Within2 p q)) p p = true := hL.refl
  have amb : ∀ sides, (∀ t ∈ sides, t ∈ allSides rings again) →
      BadIn (fun p nodes => dbg = true ∧ ∃ (j k : Nat) (q q' : P2), j ≠ k ∧ nodes[j]? = some q ∧ nodes[k]? = some q' ∧ Within2 p q ∧ Within2 p q') (fun p q => decide (Within2 p q)) sides →
      dbg = true ∧ ClipStops rings again := by
    rintro sides hs ⟨p, nodes, ⟨hd, j, k, q, q', hjk, hj, hk, w1, w2⟩, hap, hn, hp⟩
    have up : ∀ p, IsEnd sides p → IsEnd (allSides rings again) p := fun p ⟨t, ht, h⟩ => ⟨t, hs t ht, h⟩
    refine ⟨hd, .ambiguous p q q' (up p hp) (up q (hn q (List.mem_of_getElem? hj))) (up q' (hn q' (List.mem_of_getElem? hk))) w1 w2 ?_⟩
    obtain ⟨lj, rfl⟩ := List.getElem?_eq_some_iff.mp hj
    obtain ⟨lk, rfl⟩ := List.getElem?_eq_some_iff.mp hk
    rcases Nat.lt_or_gt_of_ne hjk with h | h
    · have := List.pairwise_iff_getElem.mp hap _ _ lj lk h
      simp only [decide_eq_false_iff_not] at this
      exact fun h => this h.symm
    · have := List.pairwise_iff_getElem.mp hap _ _ lk lj h
      simpa using this
  have hstart := inv_start (n := rings.length) (R := fun p q => decide (Within2 p q)) (I := fun (m : PMap) nodes => Holds 2 m (nodes.map fun p => [p.1, p.2]) ∧ m.tol = 2) (m := new 2 2) ⟨holds_new _ _, rfl⟩
  unfold clipRead
  rcases clipCells_spec dbg hL rings (i := 0) (by simp) (by intro j _ hj; simp at hj; simp [hj]) hr hstart with ⟨s1, e1, h1⟩ | ⟨e1, hb⟩
  · rw [List.take_zero, List.nil_append, List.nil_append] at h1
    rcases clipAgain_spec dbg hL again (fun c hc => by simpa using (ha c hc).1) h1 with ⟨s2, e2, h2⟩ | ⟨e2, hb⟩
    · rw [e1, Res.ok_bind, e2, Res.ok_bind]
      -- the state after reading
      set f := posOf (fun p q => decide (Within2 p q)) s2.nodes with hf
      have hsnap : Snaps f (allSides rings again) := by
        rintro p ⟨t, ht, htp⟩
        have hfd := h2.found t ht
        have hlt : s2.nodes.findIdx ((fun p q : P2 => decide (Within2 p q)) p) < s2.nodes.length := by rcases htp with rfl | rfl; exacts [hfd.1, hfd.2]
        have hp := posOf_spec (R := fun p q => decide (Within2 p q)) hlt
        refine ⟨by simpa using hp.2.1, ?_⟩
        obtain ⟨t', ht', h⟩ := h2.nodes_from _ hp.1
        exact ⟨t', ht', h⟩
      have hpw : s2.nodes.Pairwise fun p q => ¬ Within2 p q := h2.apart.imp fun {a b} h => by
        simp only [decide_eq_false_iff_not] at h; exact fun hw => h hw.symm
      have hends : ∀ p ∈ s2.nodes, IsEnd (allSides rings again) p := fun p hp => h2.nodes_from p hp
      have hlen : s2.cells.length = rings.length := by rw [h2.cells_len, rebuild_len]; simp
      have hcells : ∀ (i : Nat) (r : List (P2 × P2)), (finalRings rings again)[i]? = some r → (s2.cells.getD i []).map (side s2.nodes s2.edges) = (proper (r.map fun t => (f t.1, f t.2))).map some := by
        intro i r hi
        have hil : i < s2.cells.length := by rw [h2.cells_len]; exact (List.getElem?_eq_some_iff.mp hi).1
        rw [show s2.cells.getD i [] = s2.cells[i] by simp [List.getD, hil]]
        exact h2.sides_of_cell hrefl (List.getElem?_eq_getElem hil) hi
      have hclosed : ∀ (i : Nat) (r : List (P2 × P2)), (finalRings rings again)[i]? = some r → ClosedWalk (proper (r.map fun t => (f t.1, f t.2))) := by
        intro i r hi
        have : ClosedWalk r := by
          rcases rebuild_mem again _ r (List.mem_of_getElem? hi) with h | ⟨c, hc, rfl⟩
          · obtain ⟨q, hq, rfl⟩ := List.mem_map.mp h
            refine closed_open ?_ (hr q hq).2
            rintro rfl; have := (hr _ hq).1; simp at this
          · exact closed_closed _ (ha c hc).2
        obtain ⟨a, hw⟩ := this
        exact ⟨f a, (hw.map (f := f)).filter⟩
      have hnum := h2.numbered hrefl
      rcases Nat.eq_zero_or_pos orphans with h0 | h0
      · right
        have hag := ho h0
        refine ⟨s2.nodes, s2.edges, s2.cells, f, ?_, hnum, h2.inRange, hlen, hsnap, hpw, hends, fun i r hi => ⟨hcells i r hi, hclosed i r hi⟩, fun e he => h2.edge_used hrefl ?_ he, fun h => absurd h (by omega)⟩
        · rw [if_neg (by omega)]; rfl
        · intro t ht
          subst hag
          simp only [List.flatMap_nil, List.append_nil] at ht
          obtain ⟨q, hq, ht⟩ := List.mem_flatMap.mp ht
          exact ⟨_, List.mem_map_of_mem hq, ht⟩
      · rw [if_pos h0]
        rcases compact_spec dbg h2.inRange.cells h2.inRange.edges with ⟨r, D, M, e3, c⟩ | ⟨hd, e3, k, hk, hlt⟩
        · right
          obtain ⟨g1, g2, g3, g4, g5⟩ := c.result h2.inRange
          have glen : r.2.2.length = s2.cells.length := by have := congrArg List.length g4; simpa using this
          refine ⟨r.1, r.2.1, r.2.2, f, e3, g5 hnum, g1, glen.trans hlen, hsnap, hpw.sublist g3, fun p hp => hends p (g3.subset hp), fun i q hi => ⟨?_, hclosed i q hi⟩, g2.edges_used, fun _ => g2⟩
          rw [← hcells i q hi]
          have hil : i < s2.cells.length := by rw [h2.cells_len]; exact (List.getElem?_eq_some_iff.mp hi).1
          have := congrArg (fun l => l[i]?) g4
          simp only [List.getElem?_map, List.getElem?_eq_getElem hil, List.getElem?_eq_getElem (glen ▸ hil : i < r.2.2.length), Option.map_some, Option.some.injEq] at this
          simpa [List.getD, hil, glen ▸ hil] using this
        · left
          refine ⟨hd, e3, .thrice f s2.nodes[s2.edges[k].1.toNat]! s2.nodes[s2.edges[k].2.toNat]! hsnap ?_ ?_⟩
          · obtain ⟨b1, b2, b3⟩ := hnum.ends _ (List.getElem_mem hk)
            rw [getElem!_pos _ _ (by omega), getElem!_pos _ _ (by omega)]
            intro he; have := (hnum.nodes_once.getElem_inj_iff).mp he; omega
          · refine Nat.lt_of_lt_of_le hlt ?_
            have hflat : s2.cells.flatten.map (side s2.nodes s2.edges) = (((finalRings rings again).flatten.map fun t => (f t.1, f t.2)).filter fun t => decide (t.1 ≠ t.2)).map some := by
              have hall : ∀ i (h1 : i < s2.cells.length) (h2 : i < (finalRings rings again).length), s2.cells[i].map (side s2.nodes s2.edges) = (proper ((finalRings rings again)[i].map fun t => (f t.1, f t.2))).map some := by
                intro i h1 h2
                rw [← hcells i _ (List.getElem?_eq_getElem h2)]; simp [List.getD, h1]
              have hl2 : s2.cells.length = (finalRings rings again).length := h2.cells_len
              have gen : ∀ (cs : List (List Int)) (rs : List (List (P2 × P2))), cs.length = rs.length → (∀ i (h1 : i < cs.length) (h2 : i < rs.length), cs[i].map (side s2.nodes s2.edges) = (proper (rs[i].map fun t => (f t.1, f t.2))).map some) →
                  cs.flatten.map (side s2.nodes s2.edges) = ((rs.flatten.map fun t => (f t.1, f t.2)).filter fun t => decide (t.1 ≠ t.2)).map some := by
                intro cs
                induction cs with
                | nil => intro rs hl _; cases rs with
                  | nil => rfl
                  | cons => simp at hl
                | cons c cs ih =>
                  intro rs hl h
                  cases rs with
                  | nil => simp at hl
                  | cons q rs =>
                    simp only [List.flatten_cons, List.map_append, List.filter_append]
                    rw [ih rs (by simpa using hl) fun i h1 h2 => h (i + 1) (Nat.succ_lt_succ h1) (Nat.succ_lt_succ h2)]
                    have := h 0 (by simp) (by simp)
                    simp only [List.getElem_cons_zero] at this
                    rw [this]; rfl
              exact gen _ _ hl2 hall
            set A := s2.nodes[s2.edges[k].1.toNat]! with hA
            set B := s2.nodes[s2.edges[k].2.toNat]! with hB
            have step1 : (s2.cells.flatten.filter fun j => decide (posID j = k)).length ≤ ((s2.cells.flatten.map (side s2.nodes s2.edges)).filter fun o => decide (o = some (A, B) ∨ o = some (B, A))).length := by
              rw [List.filter_map, List.length_map]
              refine (List.monotone_filter_right _ ?_).length_le
              intro j hj
              simp only [decide_eq_true_eq] at hj
              have hjl : posID j < s2.edges.length := by rw [hj]; exact hk
              obtain ⟨p1, p2, hs⟩ := side_parts hnum.ends hjl
              simp only [Function.comp_apply, decide_eq_true_eq, hs, Option.some.injEq]
              simp only [hj] at p1 p2 ⊢
              have eA : A = s2.nodes[s2.edges[k].1.toNat] := getElem!_pos s2.nodes _ p1
              have eB : B = s2.nodes[s2.edges[k].2.toNat] := getElem!_pos s2.nodes _ p2
              rw [eA, eB]
              split
              · left; rfl
              · right; rfl
            refine step1.trans ?_
            rw [hflat, List.filter_map, List.length_map, List.filter_filter]
            rw [List.filter_map, List.length_map]
            refine (List.monotone_filter_right _ ?_).length_le
            intro t ht
            simp only [Function.comp_apply, Bool.and_eq_true, decide_eq_true_eq, Option.some.injEq] at ht ⊢
            exact ht.1
    · obtain ⟨hd, hs⟩ := amb _ (fun t ht => ht) hb
      exact Or.inl ⟨hd, by rw [e1, Res.ok_bind, e2]; rfl, hs⟩
  · obtain ⟨hd, hs⟩ := amb _ (fun t ht => by simp only [List.nil_append] at ht; exact List.mem_append_left _ ht) hb
    exact Or.inl ⟨hd, by rw [e1]; rfl, hs⟩

/-- Without orphans the code does what `clipRead` does. -/
theorem clipCode_eq (dbg : Bool) (rings : List (List P2)) (orphans : Nat) : clipCode dbg rings orphans [] = clipRead dbg rings orphans [] := rfl

theorem removeCollinear_ub (dbg : Bool) {poly : List P2} (h : poly.length ≠ 1) : removeCollinear dbg poly = .ub := by
  unfold removeCollinear
  cases poly with
  | nil => rfl
  | cons a poly =>
    cases poly with
    | nil => simp at h
    | cons b poly =>
      rw [if_neg (by simp)]
      have : (a :: b :: poly).length - 1 = poly.length + 1 := by simp
      rw [this]
      unfold trimLoop atOffset
      have hm : (((0 : Nat) : Int) - 1).tmod ((a :: b :: poly).length : Nat) = -1 := by
        have : ((0 : Nat) : Int) - 1 = -1 := rfl
        rw [this, Int.neg_tmod, Int.tmod_eq_emod_of_nonneg (by omega), Int.emod_eq_of_lt (by omega) (by simp only [List.length_cons]; omega)]
      rw [hm, if_pos (by omega)]; rfl

/-- Whenever the boundary cuts a piece off a cell, so that cells are rebuilt around an orphan, the code reads before the begin of a polygon: index `(i-1)%n` is -1 at
`i = 0`. (A polygon of one vertex, which no intersection gives, is the only exception.) -/
theorem C38_orphans_fails (dbg : Bool) {rings : List (List P2)} {orphans : Nat} {c : Nat × List P2} {again : List (Nat × List P2)} (hr : ∀ r ∈ rings, 3 < r.length ∧ r.head? = r.getLast?) (hc : c.2.length ≠ 1) :
    clipCode dbg rings orphans (c :: again) = .ub ∨ (dbg = true ∧ clipCode dbg rings orphans (c :: again) = .abort) := by
  have hstart := inv_start (n := rings.length) (R := fun p q => decide (Within2 p q)) (I := fun (m : PMap) nodes => Holds 2 m (nodes.map fun p => [p.1, p.2]) ∧ m.tol = 2) (m := new 2 2) ⟨holds_new _ _, rfl⟩
  unfold clipCode
  rcases clipCells_spec dbg (looks_clip dbg) rings (i := 0) (by simp) (by intro j _ hj; simp at hj; simp [hj]) hr hstart with ⟨s1, e1, h1⟩ | ⟨e1, p, nodes, ⟨hd, _⟩, _⟩
  · left
    rw [e1, Res.ok_bind]
    unfold clipAgainCode
    rw [removeCollinear_ub dbg hc]; rfl
  · right; rw [e1]; exact ⟨hd, rfl⟩

/-- Two squares whose common corners differ by 1, and a vertex that is repeated. -/
def clipTwo : List (List P2) := [[(0, 0), (10, 0), (10, 10), (0, 10), (0, 0)], [(11, 0), (20, 0), (20, 1), (20, 10), (11, 11), (11, 0)]]

example : (∀ r ∈ clipTwo, 3 < r.length ∧ r.head? = r.getLast?) ∧
    clipRead true clipTwo 0 [] = .ok ([(0, 0), (10, 0), (10, 10), (0, 10), (20, 0), (20, 10)], [(0, 1), (1, 2), (2, 3), (0, 3), (1, 4), (4, 5), (2, 5)], [[0, 1, 2, -4], [4, 5, -7, -2]]) := by
  refine ⟨by decide, by decide +kernel⟩

/-- The second cell rebuilt: one of its old nodes and its old edges go. -/
example : (∀ c ∈ [((1 : Nat), [((11 : Int), (0 : Int)), (30, 5), (11, 11)])], c.1 < clipTwo.length ∧ c.2 ≠ []) ∧
    clipRead true clipTwo 1 [(1, [(11, 0), (30, 5), (11, 11)])] = .ok ([(0, 0), (10, 0), (10, 10), (0, 10), (30, 5)], [(0, 1), (1, 2), (2, 3), (0, 3), (1, 4), (2, 4)], [[0, 1, 2, -4], [4, -6, -2]]) := by
  refine ⟨by decide, by decide +kernel⟩

end Verif.Readout
