import Verif.Props.Triangle
/- C69: the direction and the length of the sides of the cells that are read out of a triangulation. -/
namespace Verif.Tri
open Verif Verif.Mesh Verif.Internal Verif.Geom Verif.Readout

/-- The cell of a generator with the triangles 0 and 1, one behind the other, comes from node 0 to node 1. -/
theorem zero_one {T : List (Nat × Nat × Nat)} {n : Nat} {edges : List (Int × Int)} {cells : List (List Int)} (hD : Dual T n edges cells) {p : Nat} (hp : p < n) {ts gs : List Nat} (hF : Fan T p ts gs)
    (hA : Across T p 0 1) : ∃ s : Nat, (s : Int) ∈ cells.getD p [] ∧ edges[s]? = some (0, 1) := by
  obtain ⟨us, hus, hlow, hm⟩ := hD.around p hp ts gs hF
  have h3 := hF.three
  have hperm : us.Perm ts := by
    rcases hus with h | h
    · exact h.perm.symm
    · exact h.perm.symm.trans (List.reverse_perm ts)
  have hn : us.Nodup := hperm.nodup_iff.2 hF.once
  have hlen : us.length = ts.length := hperm.length_eq
  have h0 : 0 < us.length := by omega
  have get : ∀ {j}, j < us.length → us.getD j 0 = cyc us (j : Int) := fun h => (cyc_nat h).symm
  obtain ⟨l1, l2⟩ := hlow
  have hmem : ∀ {k}, p ∈ cornersOf T k → k ∈ us := fun h => hperm.mem_iff.2 ((hF.all _).2 h)
  have hlast : us.getD (us.length - 1) 0 = 0 := by
    obtain ⟨_, g, _, ha, _⟩ := hA
    have := l1 0 (hmem ha)
    omega
  have hside : ((0 : Nat), (1 : Nat)) ∈ loopSides us := by
    have : ∃ s ∈ cells.getD p [], directed edges s = some (((0 : Nat) : Int), ((1 : Nat) : Int)) ∨ directed edges s = some (((1 : Nat) : Int), ((0 : Nat) : Int)) := (hD.sides p hp 0 1).2 hA
    obtain ⟨s, hs, hd⟩ := this
    have hs' : directed edges s ∈ (cells.getD p []).map (directed edges) := List.mem_map_of_mem hs
    rw [hm] at hs'
    obtain ⟨x, hx, he⟩ := List.mem_map.1 hs'
    rcases hd with hd | hd
    · rw [hd] at he
      have : x = (0, 1) := by
        simp only [Option.some.injEq, Prod.mk.injEq] at he
        exact Prod.ext (by omega) (by omega)
      rwa [this] at hx
    · rw [hd] at he
      have : x = (1, 0) := by
        simp only [Option.some.injEq, Prod.mk.injEq] at he
        exact Prod.ext (by omega) (by omega)
      rw [this] at hx
      exfalso
      obtain ⟨k, k1, k2⟩ := (mem_loop h0).1 hx
      have e1 : cyc us (k + 1) = cyc us ((us.length - 1 : Nat) : Int) := by rw [← k2, ← get (by omega), hlast]
      have e2 : cyc us k = cyc us ((us.length - 2 : Nat) : Int) := by
        rw [cyc_inj hn h0] at e1 ⊢
        rwa [show k - ((us.length - 2 : Nat) : Int) = k + 1 - ((us.length - 1 : Nat) : Int) by omega]
      rw [← k1, ← get (by omega)] at e2
      rw [← e2] at l2
      have e3 : cyc us ((0 : Nat) : Int) = cyc us ((us.length - 1 : Nat) : Int) := by rw [← get (by omega), ← get (by omega)]; omega
      rw [cyc_inj hn h0] at e3
      have := dvd_small e3 (by omega) (by omega)
      omega
  have : some (((0 : Nat) : Int), ((1 : Nat) : Int)) ∈ (cells.getD p []).map (directed edges) := by
    rw [hm]; exact List.mem_map.2 ⟨_, hside, rfl⟩
  obtain ⟨s, hs, hd⟩ := List.mem_map.1 this
  unfold directed at hd
  split at hd
  · rename_i h
    exact ⟨s.toNat, by rw [Int.toNat_of_nonneg h]; exact hs, hd⟩
  · exfalso
    obtain ⟨e, he, hsw⟩ := Option.map_eq_some_iff.1 hd
    have := hD.ends e (List.mem_of_getElem? he)
    have h1 : e.1 = 1 := by have := congrArg Prod.snd hsw; simpa using this
    have h2 : e.2 = 0 := by have := congrArg Prod.fst hsw; simpa using this
    omega

/-- C69 fails: the cells on the two sides of a face should have it in opposite directions. But if the first two triangles with a generator have an edge between two generators in common, both cells have
the face across it in the same direction. -/
theorem C69_direction_fails (delaunay : List (V2 ℝ) → List (Nat × Nat × Nat)) (dbg : Bool) {q : QT} {tris : List (Nat × Nat × Nat)} (hd : delaunay ((q.generators ++ q.guards).map (dequantize2 q)) = tris)
    (h : Triangulates q tris) (hF : ∀ p, p < q.generators.length → ∃ ts gs, Fan tris p ts gs) (h2 : dbg = true → TwoPerEdge tris)
    {t u : Nat × Nat × Nat} {rest : List (Nat × Nat × Nat)} (ht : (tris.filter fun t => decide (Touches q t)) = t :: u :: rest) {a b : Nat} (hab : a ≠ b) (ha : a < q.generators.length) (hb : b < q.generators.length)
    (hat : a ∈ corners t) (hau : a ∈ corners u) (hbt : b ∈ corners t) (hbu : b ∈ corners u) :
    ∃ q' m, triangleTess delaunay dbg q = .ok q' ∧ fillTess dbg q' {} = .ok m ∧ ∃ f : Nat, f < m.faces.length ∧ (f : Int) ∈ cell m a ∧ (f : Int) ∈ cell m b ∧ (cellsOf m f).Perm [(a : Int), (b : Int)] := by
  obtain ⟨nodes, edges, cells, m, e, e1, hD, hN, hc, g1, g2, g3, g4, g5⟩ := mesh_spec delaunay dbg hd h hF h2
  have hF' : ∀ p, p < q.generators.length → ∃ ts gs, Fan (tris.filter fun t => decide (Touches q t)) p ts gs := by
    intro p hp
    obtain ⟨ts, gs, hf⟩ := hF p hp
    exact ⟨_, gs, fan_filter (fun t _ hpt => by simpa using ⟨p, hpt, hp⟩) hf⟩
  rw [ht] at hD hF'
  have c0 : cornersOf (t :: u :: rest) 0 = corners t := rfl
  have c1 : cornersOf (t :: u :: rest) 1 = corners u := rfl
  obtain ⟨_, _, f1⟩ := hF' a ha
  obtain ⟨_, _, f2⟩ := hF' b hb
  obtain ⟨s, s1, s2⟩ := zero_one hD ha f1 ⟨by omega, b, hab.symm, by rw [c0]; exact hat, by rw [c1]; exact hau, by rw [c0]; exact hbt, by rw [c1]; exact hbu⟩
  obtain ⟨s', s1', s2'⟩ := zero_one hD hb f2 ⟨by omega, a, hab, by rw [c0]; exact hbt, by rw [c1]; exact hbu, by rw [c0]; exact hat, by rw [c1]; exact hau⟩
  obtain ⟨k1, v1⟩ := List.getElem?_eq_some_iff.1 s2
  obtain ⟨k2, v2⟩ := List.getElem?_eq_some_iff.1 s2'
  have : s = s' := (hD.edges_once.getElem_inj_iff).1 (v1.trans v2.symm)
  subst this
  have hlt : s < m.faces.length := by rw [g2]; simpa using k1
  have ca : (s : Int) ∈ cell m a := by unfold Mesh.cell; rw [g1]; exact s1
  have cb : (s : Int) ∈ cell m b := by unfold Mesh.cell; rw [g1]; exact s1'
  refine ⟨_, m, e, e1, s, hlt, ca, cb, ?_⟩
  have hmc : m.cells.length = q.generators.length := by rw [g1]; exact hD.cells_len
  have ia := List.count_pos_iff.2 ca
  have ib := List.count_pos_iff.2 cb
  rw [← (hc.inverse s hlt a (by omega)).1] at ia
  rw [← (hc.inverse s hlt b (by omega)).1] at ib
  have hl : (cellsOf m s).length ≤ 2 := by
    have : cellsOf m s ∈ m.faceCells := by
      have : s < m.faceCells.length := by rw [hc.faceCells_len]; exact hlt
      unfold cellsOf
      simp [List.getD, this]
    rcases hc.faceCells_size _ this with h | h <;> omega
  have ha' := List.count_pos_iff.1 ia
  have hb' := List.count_pos_iff.1 ib
  have hsub : [(a : Int), (b : Int)].Subperm (cellsOf m s) := List.subperm_of_subset (by simp; omega) (by intro x hx; simp only [List.mem_cons, List.not_mem_nil, or_false] at hx; rcases hx with rfl | rfl <;> assumption)
  exact (hsub.perm_of_length_le (by simpa using hl)).symm

/-- C69, what holds: a cell is listed as one loop, each side starting where the one before it ended, and starts at its lowest-numbered node towards the lower-numbered one of the neighbours of that
node. -/
theorem C69_direction_partial (delaunay : List (V2 ℝ) → List (Nat × Nat × Nat)) (dbg : Bool) {q : QT} {tris : List (Nat × Nat × Nat)} (hd : delaunay ((q.generators ++ q.guards).map (dequantize2 q)) = tris)
    (h : Triangulates q tris) (hF : ∀ p, p < q.generators.length → ∃ ts gs, Fan tris p ts gs) (h2 : dbg = true → TwoPerEdge tris) :
    ∃ q' m, triangleTess delaunay dbg q = .ok q' ∧ fillTess dbg q' {} = .ok m ∧ ∀ p, p < q.generators.length → ∃ us : List Nat, 3 ≤ us.length ∧ us.Nodup ∧ EndsLow us ∧
      (cell m p).map (fun s => if 0 ≤ s then face m (posID s) else (face m (posID s)).reverse) = (loopSides us).map fun x => [x.1, x.2] := by
  obtain ⟨nodes, edges, cells, m, e, e1, hD, hN, hc, g1, g2, g3, g4, g5⟩ := mesh_spec delaunay dbg hd h hF h2
  refine ⟨_, m, e, e1, fun p hp => ?_⟩
  obtain ⟨ts, gs, hf⟩ := hF p hp
  have hf' := fan_filter (P := fun t => decide (Touches q t)) (fun t _ hpt => by simpa using ⟨p, hpt, hp⟩) hf
  obtain ⟨us, hus, hlow, hm⟩ := hD.around p hp _ gs hf'
  have hperm : us.Perm (ts.map (rank (fun t => decide (Touches q t)) tris)) := by
    rcases hus with h | h
    · exact h.perm.symm
    · exact h.perm.symm.trans (List.reverse_perm _)
  refine ⟨us, by rw [hperm.length_eq]; exact hf'.three, hperm.nodup_iff.2 hf'.once, hlow, ?_⟩
  have key : ∀ s, ∀ x : Nat × Nat, directed edges s = some ((x.1 : Int), (x.2 : Int)) → (if 0 ≤ s then face m (posID s) else (face m (posID s)).reverse) = [x.1, x.2] := by
    intro s x hs
    unfold directed at hs
    split at hs
    · rename_i h0
      obtain ⟨k, v⟩ := List.getElem?_eq_some_iff.1 hs
      rw [if_pos h0, show posID s = s.toNat by unfold posID; rw [if_pos h0]]
      unfold face; rw [g2]
      simp [List.getD, k, v]
    · rename_i h0
      obtain ⟨y, hy, hsw⟩ := Option.map_eq_some_iff.1 hs
      obtain ⟨k, v⟩ := List.getElem?_eq_some_iff.1 hy
      have a1 := congrArg Prod.fst hsw
      have a2 := congrArg Prod.snd hsw
      simp only [Prod.fst_swap, Prod.snd_swap] at a1 a2
      rw [if_neg h0, show posID s = (-s - 1).toNat by unfold posID flip; rw [if_neg h0]]
      unfold face; rw [g2]
      generalize (-s - 1).toNat = i at k v ⊢
      simp [List.getD, k, v, a1, a2]
  have hcell : cell m p = cells.getD p [] := by unfold Mesh.cell; rw [g1]
  rw [hcell]
  apply List.ext_getElem
  · have := congrArg List.length hm
    simpa using this
  · intro i i1 i2
    have j1 : i < (cells.getD p []).length := by simpa using i1
    have j2 : i < (loopSides us).length := by simpa using i2
    have : ((cells.getD p []).map (directed edges))[i]'(by simpa using j1) = ((loopSides us).map fun x => some ((x.1 : Int), (x.2 : Int)))[i]'(by simpa using j2) := by
      simp only [hm]
    rw [List.getElem_map, List.getElem_map] at this ⊢
    exact key _ _ this

example : ∃ t u rest, (twoTris.filter fun t => decide (Touches twoGens t)) = t :: u :: rest ∧ 0 ∈ corners t ∧ 0 ∈ corners u ∧ 1 ∈ corners t ∧ 1 ∈ corners u ∧ twoGens.generators.length = 2 := by
  refine ⟨(0, 1, 2), (1, 0, 3), [(0, 2, 4), (0, 4, 3), (1, 5, 2), (1, 3, 5)], ?_, by decide, by decide, by decide, by decide, rfl⟩
  simp [twoTris, Touches, corners, twoGens]

/-- C69 fails: the two ends of a face should be different points. But if two triangles with an edge at a generator in common have the same centre, the face across that edge joins two nodes at the same
place. -/
theorem C69_length_fails (delaunay : List (V2 ℝ) → List (Nat × Nat × Nat)) (dbg : Bool) {q : QT} {tris : List (Nat × Nat × Nat)} (hd : delaunay ((q.generators ++ q.guards).map (dequantize2 q)) = tris)
    (h : Triangulates q tris) (hF : ∀ p, p < q.generators.length → ∃ ts gs, Fan tris p ts gs) (h2 : dbg = true → TwoPerEdge tris)
    {a b p : Nat} {t u : Nat × Nat × Nat} (hp : p < q.generators.length) (ha : (tris.filter fun t => decide (Touches q t))[a]? = some t) (hb : (tris.filter fun t => decide (Touches q t))[b]? = some u)
    (hab : Across (tris.filter fun t => decide (Touches q t)) p a b) {X : V2 ℝ} (hX : Equidistant q t X) (hX' : Equidistant q u X) :
    ∃ q' m, triangleTess delaunay dbg q = .ok q' ∧ fillTess dbg q' {} = .ok m ∧ ∃ s ∈ cell m p, ∃ i j, face m (posID s) = [i, j] ∧ i ≠ j ∧ i < numNodes 2 m ∧ j < numNodes 2 m ∧ node 2 m i = node 2 m j := by
  obtain ⟨nodes, edges, cells, m, e, e1, hD, hN, hc, g1, g2, g3, g4, g5⟩ := mesh_spec delaunay dbg hd h hF h2
  refine ⟨_, m, e, e1, ?_⟩
  obtain ⟨s, hs, hdir⟩ := (hD.sides p hp a b).2 hab
  obtain ⟨la, lb⟩ := across_lt hab
  have hnl := hN.length_eq
  have na : a < nodes.length := by omega
  have nb : b < nodes.length := by omega
  have pa := (List.forall₂_iff_get.1 hN).2 a la na
  have pb := (List.forall₂_iff_get.1 hN).2 b lb nb
  rw [List.get_eq_getElem, List.get_eq_getElem] at pa pb
  rw [List.getElem?_eq_getElem la] at ha
  rw [List.getElem?_eq_getElem lb] at hb
  injection ha with ha; injection hb with hb
  simp only [ha] at pa
  simp only [hb] at pb
  obtain ⟨Xa, _, ua, qa, _⟩ := pa
  obtain ⟨Xb, _, ub, qb, _⟩ := pb
  rw [← ua X hX] at qa
  rw [← ub X hX', qa] at qb
  injection qb with qb
  injection qb with qx qy
  have hpos : ∀ i, i = a ∨ i = b → i < nodes.length ∧ node 2 m i = [(dequantize2 q nodes[a]).x, (dequantize2 q nodes[a]).y] := by
    rintro i (rfl | rfl)
    · exact ⟨na, g3 _ _ (List.getElem?_eq_getElem na)⟩
    · refine ⟨nb, ?_⟩
      rw [g3 _ _ (List.getElem?_eq_getElem nb)]
      unfold dequantize2
      rw [qx, qy]
  have hmem : s ∈ cell m p := by unfold Mesh.cell; rw [g1]; exact hs
  have hps : posID s = index s := by unfold posID index flip; split <;> omega
  have hne : a ≠ b := hab.1
  refine ⟨s, hmem, ?_⟩
  have fin : ∀ x : Int × Int, edges[index s]? = some x → (x = ((a : Int), (b : Int)) ∨ x = ((b : Int), (a : Int))) → ∃ i j, face m (posID s) = [i, j] ∧ i ≠ j ∧ i < numNodes 2 m ∧ j < numNodes 2 m ∧ node 2 m i = node 2 m j := by
    intro x hx hxx
    obtain ⟨k, v⟩ := List.getElem?_eq_some_iff.1 hx
    have : face m (posID s) = [x.1.toNat, x.2.toNat] := by
      rw [hps]; unfold face; rw [g2]; simp [List.getD, k, v]
    rw [g4]
    rcases hxx with rfl | rfl
    · exact ⟨a, b, by simpa using this, hne, na, nb, by rw [(hpos a (Or.inl rfl)).2, (hpos b (Or.inr rfl)).2]⟩
    · exact ⟨b, a, by simpa using this, hne.symm, nb, na, by rw [(hpos a (Or.inl rfl)).2, (hpos b (Or.inr rfl)).2]⟩
  rcases hdir with hdir | hdir
  · rcases directed_index hdir with hx | hx
    · exact fin _ hx (Or.inl rfl)
    · exact fin _ hx (Or.inr rfl)
  · rcases directed_index hdir with hx | hx
    · exact fin _ hx (Or.inr rfl)
    · exact fin _ hx (Or.inl rfl)

/-- A generator at (100, 100) and guards at (200, 100), (200, 200), (100, 200), (0, 100) and (100, 0): the first four points are the corners of a square. -/
noncomputable def squareGens : QT where
  xmin := 0
  ymin := 0
  length := 2147483647
  generators := [⟨cmin2 + 100, cmin2 + 100, 0⟩]
  guards := [⟨cmin2 + 200, cmin2 + 100, 1⟩, ⟨cmin2 + 200, cmin2 + 200, 2⟩, ⟨cmin2 + 100, cmin2 + 200, 3⟩, ⟨cmin2 + 0, cmin2 + 100, 4⟩, ⟨cmin2 + 100, cmin2 + 0, 5⟩]

def squareTris : List (Nat × Nat × Nat) := [(0, 1, 2), (0, 2, 3), (0, 3, 4), (0, 4, 5), (0, 5, 1)]

theorem squareGens_pt (k : Nat) : ptAt squareGens k = ([(100, 100), (200, 100), (200, 200), (100, 200), (0, 100), (100, 0)] : List (Int × Int))[k]?.map (onGrid 0 0 1) := by
  rw [ptAt_grid]
  have hq : quantum cmin2 cmax2 (2147483647 : ℝ) = 1 := by unfold quantum; norm_num [cmin2, cmax2]
  show Option.map (fun p : IPt => onGrid 0 0 (quantum cmin2 cmax2 2147483647) (p.x - cmin2, p.y - cmin2)) _ = _
  rw [hq, ← List.getElem?_map, ← List.getElem?_map]
  simp [squareGens]

theorem square_ok : Triangulates squareGens squareTris := by
  refine ⟨by simp [squareGens], ?_, by simp [squareTris], ?_, ?_⟩
  · simp [squareGens, cmin2, cmax2]
  · intro t ht
    simp only [squareGens_pt]
    simp only [squareTris, List.mem_cons, List.not_mem_nil, or_false] at ht
    rcases ht with rfl | rfl | rfl | rfl | rfl <;> exact ⟨_, _, _, rfl, rfl, rfl, by norm_num [area2, onGrid]⟩
  · rintro t ht _ X ⟨A, B, C, hA, hB, hC, h1, h2⟩
    simp only [squareGens_pt] at hA hB hC
    simp only [squareTris, List.mem_cons, List.not_mem_nil, or_false] at ht
    unfold Fits
    rcases ht with rfl | rfl | rfl | rfl | rfl <;>
    · injection hA with hA; injection hB with hB; injection hC with hC
      subst hA; subst hB; subst hC
      norm_num [onGrid, sq2] at h1 h2
      simp only [squareGens]
      refine ⟨?_, ?_, ?_, ?_⟩ <;> linarith

theorem square_fans : ∀ p, p < squareGens.generators.length → ∃ ts gs, Fan squareTris p ts gs := by
  intro p hp
  have : p = 0 := by simp [squareGens] at hp; omega
  subst this
  exact ⟨[0, 1, 2, 3, 4], [1, 2, 3, 4, 5], fan_of_check (by decide +kernel)⟩

example : ∃ t u X, Triangulates squareGens squareTris ∧ (∀ p, p < squareGens.generators.length → ∃ ts gs, Fan squareTris p ts gs) ∧ TwoPerEdge squareTris ∧ 0 < squareGens.generators.length ∧
    (squareTris.filter fun t => decide (Touches squareGens t))[0]? = some t ∧ (squareTris.filter fun t => decide (Touches squareGens t))[1]? = some u ∧
    Across (squareTris.filter fun t => decide (Touches squareGens t)) 0 0 1 ∧ Equidistant squareGens t X ∧ Equidistant squareGens u X := by
  have e : (squareTris.filter fun t => decide (Touches squareGens t)) = squareTris := by simp [squareTris, Touches, corners, squareGens]
  rw [e]
  refine ⟨(0, 1, 2), (0, 2, 3), ⟨150, 150⟩, square_ok, square_fans, two_of_check (by decide +kernel), by simp [squareGens], rfl, rfl, ⟨by omega, 2, by omega, by decide, by decide, by decide, by decide⟩, ?_, ?_⟩
  · unfold Equidistant
    simp only [squareGens_pt]
    exact ⟨_, _, _, rfl, rfl, rfl, by norm_num [sq2, onGrid], by norm_num [sq2, onGrid]⟩
  · unfold Equidistant
    simp only [squareGens_pt]
    exact ⟨_, _, _, rfl, rfl, rfl, by norm_num [sq2, onGrid], by norm_num [sq2, onGrid]⟩
end Verif.Tri
