import Verif.Spec.Python
import Verif.Props.SiloC
import Verif.Props.Mesh
import Verif.Props.Hull
/-
C99: the Python properties of a tessellation. C100: the arguments of the Python functions.
-/
namespace Verif
namespace Py
open Mesh Silo Geom

section views
variable {R : Type} {m : Tess R}

theorem component_ok {D k : Nat} (hk : k < D) (m : Tess R) :
    ∃ a, component D k m = .ok a ∧ a.length = numNodes D m ∧ ∀ i < numNodes D m, a[i]? = m.nodes[D * i + k]? := by
  obtain ⟨r, e, hl, hr⟩ := Nbr.mapM_exists (g := fun i => rd m.nodes (D * i + k)) (P := fun i b => m.nodes[D * i + k]? = some b)
    (List.range (m.nodes.length / D)) (by
      intro i hi
      rw [List.mem_range] at hi
      have h1 : (i + 1) * D ≤ m.nodes.length := (Nat.mul_le_mul_right _ hi).trans (Nat.div_mul_le_self _ _)
      have : D * i + k < m.nodes.length := by nlinarith
      exact ⟨_, rd_lt this, by simp [this]⟩)
  rw [List.length_range] at hl
  refine ⟨r, e, hl, fun i hi => ?_⟩
  have hi2 : i < m.nodes.length / D := hi
  have hi' : i < r.length := by omega
  rw [hr i i r[i] (by simp [hi2]) (by simp [hi'])]
  simp [hi']

/-- C99. In 2D `xnodes` and `ynodes` have one entry per node, and entry `i` of the two is node `i`. -/
theorem C99_coords2 (m : Tess R) :
    ∃ xs ys, xnodes 2 m = .ok xs ∧ ynodes 2 m = .ok ys ∧ xs.length = numNodes 2 m ∧ ys.length = numNodes 2 m ∧
      ∀ i < numNodes 2 m, ∃ x y, xs[i]? = some x ∧ ys[i]? = some y ∧ node 2 m i = [x, y] := by
  obtain ⟨xs, ex, lx, hx⟩ := component_ok (D := 2) (k := 0) (by omega) m
  obtain ⟨ys, ey, ly, hy⟩ := component_ok (D := 2) (k := 1) (by omega) m
  refine ⟨xs, ys, ex, ey, lx, ly, fun i hi => ?_⟩
  have h1 : 2 * i + 1 < m.nodes.length := by
    have : (i + 1) * 2 ≤ m.nodes.length := (Nat.mul_le_mul_right _ hi).trans (Nat.div_mul_le_self _ _)
    omega
  refine ⟨m.nodes[2 * i], m.nodes[2 * i + 1], ?_, ?_, ?_⟩
  · rw [hx i hi]; simp [show 2 * i < m.nodes.length by omega]
  · rw [hy i hi]; simp [h1]
  · rw [node, List.drop_eq_getElem_cons (show 2 * i < m.nodes.length by omega), List.drop_eq_getElem_cons h1]
    rfl

/-- C99. In 3D the same with `znodes`. -/
theorem C99_coords3 (m : Tess R) :
    ∃ xs ys zs, xnodes 3 m = .ok xs ∧ ynodes 3 m = .ok ys ∧ znodes 3 m = some (.ok zs) ∧ xs.length = numNodes 3 m ∧ ys.length = numNodes 3 m ∧
      zs.length = numNodes 3 m ∧ ∀ i < numNodes 3 m, ∃ x y z, xs[i]? = some x ∧ ys[i]? = some y ∧ zs[i]? = some z ∧ node 3 m i = [x, y, z] := by
  obtain ⟨xs, ex, lx, hx⟩ := component_ok (D := 3) (k := 0) (by omega) m
  obtain ⟨ys, ey, ly, hy⟩ := component_ok (D := 3) (k := 1) (by omega) m
  obtain ⟨zs, ez, lz, hz⟩ := component_ok (D := 3) (k := 2) (by omega) m
  refine ⟨xs, ys, zs, ex, ey, ?_, lx, ly, lz, fun i hi => ?_⟩
  · rw [znodes, if_neg (by simp), ez]
  have h1 : 3 * i + 2 < m.nodes.length := by
    have : (i + 1) * 3 ≤ m.nodes.length := (Nat.mul_le_mul_right _ hi).trans (Nat.div_mul_le_self _ _)
    omega
  refine ⟨m.nodes[3 * i], m.nodes[3 * i + 1], m.nodes[3 * i + 2], ?_, ?_, ?_, ?_⟩
  · rw [hx i hi]; simp [show 3 * i < m.nodes.length by omega]
  · rw [hy i hi]; simp [show 3 * i + 1 < m.nodes.length by omega]
  · rw [hz i hi]; simp [h1]
  · rw [node, List.drop_eq_getElem_cons (show 3 * i < m.nodes.length by omega), List.drop_eq_getElem_cons (show 3 * i + 1 < m.nodes.length by omega),
      List.drop_eq_getElem_cons h1]
    rfl

/-- C99. In 2D `znodes` raises an exception. -/
theorem C99_z2 (m : Tess R) : znodes 2 m = none := by simp [znodes]

theorem asInt_eq {n : Nat} (h : n < 2 ^ 31) : asInt n = n := by
  have hm : (BitVec.ofNat 32 n).toNat = n := by rw [BitVec.toNat_ofNat]; exact Nat.mod_eq_of_lt (by omega)
  rw [asInt, BitVec.toInt_eq_toNat_cond, hm, if_pos (by omega)]

theorem asInt_neg {n : Nat} (h : 2 ^ 31 ≤ n) (h' : n < 2 ^ 32) : asInt n = (n : Int) - 2 ^ 32 := by
  have hm : (BitVec.ofNat 32 n).toNat = n := by rw [BitVec.toNat_ofNat]; exact Nat.mod_eq_of_lt (by omega)
  rw [asInt, BitVec.toInt_eq_toNat_cond, hm, if_neg (by omega)]
  norm_num

/-- C99. With fewer than 2^31 nodes `facesAsInts` holds the faces. -/
theorem C99_faces_partial (h : ∀ f ∈ m.faces, ∀ n ∈ f, n < 2 ^ 31) : (facesAsInts m).map (fun f => f.map Int.toNat) = m.faces ∧ ∀ f ∈ facesAsInts m, ∀ n ∈ f, 0 ≤ n := by
  constructor
  · rw [facesAsInts, List.map_map]
    conv_rhs => rw [← List.map_id m.faces]
    refine List.map_congr_left fun f hf => ?_
    simp only [Function.comp, List.map_map, id]
    conv_rhs => rw [← List.map_id f]
    refine List.map_congr_left fun n hn => ?_
    simp only [Function.comp, id]
    rw [asInt_eq (h f hf n hn)]
    rfl
  · intro f hf n hn
    rw [facesAsInts, List.mem_map] at hf
    obtain ⟨g, hg, rfl⟩ := hf
    rw [List.mem_map] at hn
    obtain ⟨k, hk, rfl⟩ := hn
    rw [asInt_eq (h g hg k hk)]
    omega

/-- Beyond that a node of a face comes out negative. -/
theorem C99_faces_fails {f : List Nat} {n : Nat} (hf : f ∈ m.faces) (hn : n ∈ f) (h : 2 ^ 31 ≤ n) (h' : n < 2 ^ 32) : ∃ g ∈ facesAsInts m, ∃ k ∈ g, k < 0 :=
  ⟨f.map asInt, List.mem_map.2 ⟨f, hf, rfl⟩, asInt n, List.mem_map.2 ⟨n, hn, rfl⟩, by rw [asInt_neg h h']; omega⟩

theorem startNode_eq (faces : List (List Nat)) (k : Int) : startNode faces k = firstNode faces k := by
  rw [startNode, firstNode]
  by_cases h : k < 0
  · rw [if_pos h, if_neg (by omega)]
  · rw [if_neg h, if_pos (by omega), posID, if_pos (by omega)]

/-- C99. In 2D `zoneNodes` holds for each cell its ring of nodes: as many as the cell has faces, and entry `j` and the one after it (after the last the first)
are the ends of face `j` of the cell, in the direction in which the cell uses the face. -/
theorem C99_zone2 (h : Polygonal m) (hn : numNodes 2 m ≤ 2 ^ 31) :
    ∃ z, zoneNodes2 m = .ok z ∧ z.length = m.cells.length ∧ ∀ (i : Nat) c, m.cells[i]? = some c → ∃ r, z[i]? = some r ∧ r.length = c.length ∧
      ∀ (j : Nat) k, c[j]? = some k → ∃ a b, ends m.faces k = [a, b] ∧ r[j]? = some (a : Int) ∧ r[(j + 1) % c.length]? = some (b : Int) := by
  have hn' : m.nodes.length / 2 ≤ 2 ^ 31 := hn
  obtain ⟨z, e, hl, hz⟩ := Nbr.mapM_exists (g := fun c => (do let ns ← c.mapM (startNode m.faces); pure (ns.map asInt) : Res (List Int)))
    (P := fun c r => r.length = c.length ∧
      ∀ (j : Nat) k, c[j]? = some k → ∃ a b, ends m.faces k = [a, b] ∧ r[j]? = some (a : Int) ∧ r[(j + 1) % c.length]? = some (b : Int)) m.cells (by
    intro c hc
    have hl0 : 0 < c.length := List.length_pos_iff.2 (h.nonempty c hc)
    obtain ⟨ns, e, hl, hr⟩ := Nbr.mapM_exists (g := startNode m.faces) (P := fun k a => (ends m.faces k)[0]? = some a ∧ a < m.nodes.length / 2) c (by
      intro k hk
      obtain ⟨a, b, e1, e2, e3⟩ := ends_pair h (h.range c hc k hk)
      exact ⟨a, by rw [startNode_eq, e3], by simp [e1], e2⟩)
    refine ⟨ns.map asInt, by rw [e]; rfl, by simp [hl], fun j k hj => ?_⟩
    have hjc : j < c.length := (List.getElem?_eq_some_iff.1 hj).1
    obtain ⟨a, b, e1, -, -⟩ := ends_pair h (h.range c hc k (List.mem_of_getElem? hj))
    refine ⟨a, b, e1, ?_, ?_⟩
    · obtain ⟨h1, h2⟩ := hr j k ns[j] hj (by simp)
      rw [e1] at h1
      simp only [List.getElem?_cons_zero, Option.some.injEq] at h1
      rw [List.getElem?_map, List.getElem?_eq_getElem (by omega), Option.map_some, asInt_eq (by omega), h1]
    · have hm : (j + 1) % c.length < c.length := Nat.mod_lt _ hl0
      have h1 := h.loop c hc j k c[(j + 1) % c.length] hj (by simp [hm])
      obtain ⟨h2, h3⟩ := hr ((j + 1) % c.length) c[(j + 1) % c.length] ns[(j + 1) % c.length] (by simp [hm]) (by simp)
      rw [← h1, e1] at h2
      simp only [List.getElem?_cons_succ, List.getElem?_cons_zero, Option.some.injEq] at h2
      rw [List.getElem?_map, List.getElem?_eq_getElem (by omega), Option.map_some, asInt_eq (by omega), h2])
  refine ⟨z, e, hl, fun i c hi => ?_⟩
  have hi' : i < z.length := by rw [hl]; exact (List.getElem?_eq_some_iff.1 hi).1
  exact ⟨z[i], by simp, hz i c z[i] hi (by simp)⟩

theorem mem_unique : ∀ {l : List Int} {x : Int}, x ∈ unique l ↔ x ∈ l
  | [], _ => Iff.rfl
  | [_], _ => Iff.rfl
  | a :: b :: l, x => by
    rw [unique]
    split
    · next h =>
      rw [mem_unique, h]
      simp
    · rw [List.mem_cons, mem_unique, List.mem_cons (a := x) (b := a)]

theorem sorted_unique : ∀ {l : List Int}, l.Pairwise (· ≤ ·) → (unique l).Pairwise (· < ·)
  | [], _ => List.Pairwise.nil
  | [_], _ => List.pairwise_singleton _ _
  | a :: b :: l, h => by
    rw [unique]
    rw [List.pairwise_cons] at h
    split
    · exact sorted_unique h.2
    · next hab =>
      rw [List.pairwise_cons]
      refine ⟨fun x hx => ?_, sorted_unique h.2⟩
      rw [mem_unique] at hx
      have h1 := h.1 b (by simp)
      rcases List.mem_cons.1 hx with rfl | hx
      · omega
      · have := (List.pairwise_cons.1 h.2).1 x hx
        omega

/-- C99. In 3D `zoneNodes` holds for each cell exactly the nodes of its faces, each once, in increasing order. -/
theorem C99_zone3 (hc : Consistent 3 m) (hn : numNodes 3 m ≤ 2 ^ 31) :
    ∃ z, zoneNodes3 m = .ok z ∧ z.length = m.cells.length ∧ ∀ (i : Nat) c, m.cells[i]? = some c → ∃ r, z[i]? = some r ∧ r.Pairwise (· < ·) ∧
      ∀ v : Int, v ∈ r ↔ ∃ n : Nat, v = n ∧ ∃ k ∈ c, n ∈ face m (posID k) := by
  obtain ⟨z, e, hl, hz⟩ := Nbr.mapM_exists (g := zone3 m.faces)
    (P := fun c r => r.Pairwise (· < ·) ∧ ∀ v : Int, v ∈ r ↔ ∃ n : Nat, v = n ∧ ∃ k ∈ c, n ∈ face m (posID k)) m.cells (by
    intro c hcm
    have e := Geom.mapM_ok (g := fun k => rd m.faces (posID k)) (f := fun k => face m (posID k)) c (by
      intro k hk
      have := hc.cells_lt c hcm k hk
      rw [rd_lt this, face, List.getElem_eq_getD (fallback := [])])
    refine ⟨_, by rw [zone3, e]; rfl, sorted_unique (List.pairwise_insertionSort _ _), fun v => ?_⟩
    rw [mem_unique, List.mem_insertionSort, List.mem_map]
    constructor
    · rintro ⟨n, hnm, rfl⟩
      rw [List.mem_flatten] at hnm
      obtain ⟨F, hF, hnF⟩ := hnm
      obtain ⟨k, hk, rfl⟩ := List.mem_map.1 hF
      have hk' := hc.cells_lt c hcm k hk
      have : n < numNodes 3 m := hc.faces_lt (face m (posID k)) (by rw [face, ← List.getElem_eq_getD (h := hk')]; exact List.getElem_mem _) n hnF
      exact ⟨n, asInt_eq (by omega), k, hk, hnF⟩
    · rintro ⟨n, rfl, k, hk, hnF⟩
      have hk' := hc.cells_lt c hcm k hk
      have : n < numNodes 3 m := hc.faces_lt (face m (posID k)) (by rw [face, ← List.getElem_eq_getD (h := hk')]; exact List.getElem_mem _) n hnF
      exact ⟨n, List.mem_flatten.2 ⟨_, List.mem_map.2 ⟨k, hk, rfl⟩, hnF⟩, asInt_eq (by omega)⟩)
  refine ⟨z, e, hl, fun i c hi => ?_⟩
  have hi' : i < z.length := by rw [hl]; exact (List.getElem?_eq_some_iff.1 hi).1
  exact ⟨z[i], by simp, hz i c z[i] hi (by simp)⟩

/-- C99. They are the nodes that `computeCellToNodes` gives. -/
theorem C99_cellToNodes (dbg : Bool) (hc : Consistent 3 m) (hn : numNodes 3 m ≤ 2 ^ 31) :
    ∃ z q, zoneNodes3 m = .ok z ∧ computeCellToNodes dbg m = .ok q ∧ z.length = q.length ∧ ∀ c n : Nat, (n : Int) ∈ z.getD c [] ↔ n ∈ q.getD c [] := by
  obtain ⟨z, e, hl, hz⟩ := C99_zone3 hc hn
  obtain ⟨q, e', hl', -, hq⟩ := C11_cellToNodes dbg 3 m hc
  refine ⟨z, q, e, e', by omega, fun c n => ?_⟩
  rw [hq]
  rcases Nat.lt_or_ge c m.cells.length with h | h
  · obtain ⟨r, hr, -, hv⟩ := hz c m.cells[c] (by simp [h])
    rw [List.getD_eq_getElem?_getD, hr, Option.getD_some, hv, Mesh.cell, ← List.getElem_eq_getD (h := h)]
    constructor
    · rintro ⟨n', e, hk⟩
      rw [Int.natCast_inj.1 e]
      exact ⟨h, hk⟩
    · rintro ⟨-, hk⟩
      exact ⟨n, rfl, hk⟩
  · rw [List.getD_eq_getElem?_getD, List.getElem?_eq_none (by omega)]
    constructor
    · intro h; cases h
    · rintro ⟨h', -⟩; omega

end views

/-! ### Conversions -/

section conv
variable {R : Type}

/-- C100. A list of tuples with `D` coordinates each becomes the flat array of these points. -/
theorem C100_coords_partial (dbg : Bool) {D : Nat} {ts : List (List R)} (h : ∀ t ∈ ts, t.length = D) :
    ∃ flat, copyCoords dbg D ts = .ok flat ∧ HoldsPoints D ts flat := by
  have hl : ∀ l : List (List R), (∀ t ∈ l, t.length = D) → l.flatten.length = D * l.length := by
    intro l
    induction l with
    | nil => simp
    | cons a l ih =>
      intro h
      rw [List.flatten_cons, List.length_append, ih fun t ht => h t (by simp [ht]), h a (by simp), List.length_cons]
      ring
  refine ⟨ts.flatten, ?_, hl ts h, ?_⟩
  · rw [copyCoords, Res.assert_true dbg (by rw [hl ts h, Nat.mul_mod_right]), Res.ok_bind]
    rfl
  · intro i p hp
    obtain ⟨l, r, e, hll⟩ : ∃ l r, ts = l ++ p :: r ∧ l.length = i := by
      obtain ⟨hi, e⟩ := List.getElem?_eq_some_iff.1 hp
      exact ⟨ts.take i, ts.drop (i + 1), by rw [← e, ← List.drop_eq_getElem_cons hi, List.take_append_drop], by simp; omega⟩
    have h1 : l.flatten.length = D * i := by rw [hl l fun t ht => h t (by rw [e]; simp [ht]), hll]
    rw [e, List.flatten_append, ← h1, List.drop_left, List.flatten_cons, ← h p (by rw [e]; simp), List.take_left]

/-- With a tuple of another length the array does not hold the points, yet nothing is said about it: with assertions if the total number of coordinates
happens to be a multiple of `D`, without them always. -/
theorem C100_coords_fails (dbg : Bool) {D : Nat} {ts : List (List R)} {t : List R} (ht : t ∈ ts) (hD : t.length ≠ D) (hd : dbg = false ∨ D ∣ ts.flatten.length) :
    ∃ flat, copyCoords dbg D ts = .ok flat ∧ ¬ HoldsPoints D ts flat := by
  refine ⟨ts.flatten, ?_, ?_⟩
  · rw [copyCoords]
    rcases hd with rfl | hd
    · rfl
    · rw [Res.assert_true dbg (Nat.mod_eq_zero_of_dvd hd), Res.ok_bind]
      rfl
  · rintro ⟨hl, hp⟩
    have hle : ∀ p ∈ ts, p.length ≤ D := by
      intro p hm
      obtain ⟨i, hi, rfl⟩ := List.getElem_of_mem hm
      rw [← hp i ts[i] (by simp)]
      exact List.length_take_le _ _
    have gen : ∀ l : List (List R), (∀ p ∈ l, p.length ≤ D) → l.flatten.length ≤ D * l.length ∧ (t ∈ l → l.flatten.length < D * l.length) := by
      intro l
      induction l with
      | nil => simp
      | cons a l ih =>
        intro h
        obtain ⟨h1, h2⟩ := ih fun p hp => h p (by simp [hp])
        have ha := h a (by simp)
        rw [List.flatten_cons, List.length_append, List.length_cons, Nat.mul_succ]
        refine ⟨by omega, fun hm => ?_⟩
        rcases List.mem_cons.1 hm with rfl | hm
        · omega
        · have := h2 hm
          omega
    have := (gen ts hle).2 ht
    omega

theorem entries_eq {D : Nat} {t : List R} (h : D ≤ t.length) : entries D t = some (t.take D) := by
  have gen : ∀ n, n ≤ t.length → (List.range n).mapM (fun i => t[i]?) = some (t.take n) := by
    intro n
    induction n with
    | zero => intro _; rfl
    | succ n ih =>
      intro hn
      rw [List.range_succ, List.mapM_append, ih (by omega)]
      have : t[n]? = some t[n] := List.getElem?_eq_getElem (by omega)
      rw [List.take_add_one, this]
      simp [this]
  exact gen D h

theorem entries_short {D : Nat} {t : List R} (h : t.length < D) : entries D t = none := by
  have gen : ∀ n, t.length < n → (List.range n).mapM (fun i => t[i]?) = none := by
    intro n
    induction n with
    | zero => intro h; omega
    | succ n ih =>
      intro hn
      rw [List.range_succ, List.mapM_append]
      rcases Nat.lt_or_ge t.length n with h | h
      · rw [ih h]; rfl
      · have : t[n]? = none := List.getElem?_eq_none (by omega)
        simp [this]
  exact gen D h

/-- C100. `tessellateBox` tessellates in the box with the corners given. -/
theorem C100_box_partial {α : Type} {D : Nat} (tess : List R → List R → α) {low high : List R} (hl : low.length = D) (hh : high.length = D) :
    tessellateBox D tess low high = some (tess low high) := by
  rw [tessellateBox, entries_eq hl.ge, entries_eq hh.ge, List.take_of_length_le hl.le, List.take_of_length_le hh.le]
  rfl

/-- C100. A corner with too few coordinates raises an exception. -/
theorem C100_box_short {α : Type} {D : Nat} (tess : List R → List R → α) {low high : List R} (h : low.length < D ∨ high.length < D) : tessellateBox D tess low high = none := by
  rw [tessellateBox]
  rcases h with h | h
  · rw [entries_short h]; rfl
  · rw [entries_short h]
    cases entries D low <;> rfl

/-- Further coordinates of a corner are ignored without a word. -/
theorem C100_box_long_fails {α : Type} {D : Nat} (tess : List R → List R → α) {low high low' high' : List R} (hl : low.length = D) (hh : high.length = D) :
    tessellateBox D tess (low ++ low') (high ++ high') = tessellateBox D tess low high := by
  rw [C100_box_partial tess hl hh, tessellateBox, entries_eq (by simp; omega), entries_eq (by simp; omega), ← hl, List.take_left, hl, ← hh, List.take_left]
  rfl

theorem pairs_flatten : ∀ {ps : List (V2 R)}, pairs (ps.map fun p => [p.x, p.y]).flatten = ps
  | [] => rfl
  | p :: ps => by
    simp only [List.map_cons, List.flatten_cons, List.cons_append, List.nil_append, pairs, pairs_flatten]

/-- C100. `convexHull2d` takes the hull of the points given, from the low corner given. -/
theorem C100_hull_partial (dbg : Bool) (ps : List (V2 ℝ)) (low : V2 ℝ) (dx : ℝ) :
    hull2d dbg (ps.map fun p => [p.x, p.y]) [low.x, low.y] dx = some (convexHull2 dbg ps low dx) := by
  have e : copyCoords dbg 2 (ps.map fun p => [p.x, p.y]) = .ok (ps.map fun p => [p.x, p.y]).flatten := by
    have hlen : (ps.map fun p => [p.x, p.y]).flatten.length % 2 = 0 := by
      induction ps with
      | nil => rfl
      | cons p ps ih =>
        rw [List.map_cons, List.flatten_cons, List.length_append]
        simp only [List.length_cons, List.length_nil]
        omega
    rw [copyCoords, Res.assert_true dbg hlen, Res.ok_bind]
    rfl
  rw [hull2d, entries_eq (by simp), e]
  simp only [List.take, Res.ok_bind, pairs_flatten]
  rfl

end conv

/-! ### Files -/

section files
variable {R : Type}

theorem pointers_ok {d : List (String × List R)} (h : ∀ f ∈ d, f.2 ≠ []) : pointers d = .ok d := by
  have := Geom.mapM_ok (g := fun e : String × List R => if e.2 = [] then (.ub : Res (String × List R)) else pure e) (f := id) d fun f hf => by rw [if_neg (h f hf)]; rfl
  rw [pointers, this, List.map_id]

theorem mapM_none {α β : Type} {f : α → Res β} {l : List α} {a : α} (ha : a ∈ l) (h : ∀ b, f a ≠ .ok b) (r : List β) : l.mapM f ≠ .ok r := by
  induction l generalizing r with
  | nil => cases ha
  | cons c l ih =>
    intro he
    rw [List.mapM_cons] at he
    obtain ⟨x, h1, he⟩ := Res.bind_eq_ok.1 he
    obtain ⟨y, h2, -⟩ := Res.bind_eq_ok.1 he
    rcases List.mem_cons.1 ha with rfl | ha
    · exact h x h1
    · exact ih ha y h2

theorem extras_ok {a : Dicts R} (hk : a.Keys) (hf : a.Filled) : ∃ x, extras a = .ok x ∧ Same a x := by
  have key : ∀ d ∈ a.all, pointers (copyDictToMap d) = .ok (mapOf d) ∧ (mapOf d).Perm d ∧ ((mapOf d).map Prod.fst).Pairwise (· < ·) := by
    intro d hd
    have hl := mapOf_last d
    exact ⟨pointers_ok fun f hm => hf d hd f (hl.sub hm), hl.perm (hk d hd), hl.sorted⟩
  obtain ⟨e1, h1⟩ := key a.nodeFields (by simp [Dicts.all])
  obtain ⟨e2, h2⟩ := key a.edgeFields (by simp [Dicts.all])
  obtain ⟨e3, h3⟩ := key a.faceFields (by simp [Dicts.all])
  obtain ⟨e4, h4⟩ := key a.cellFields (by simp [Dicts.all])
  exact ⟨_, by rw [extras, e1, Res.ok_bind, e2, Res.ok_bind, e3, Res.ok_bind, e4, Res.ok_bind]; rfl, h1, h2, h3, h4, rfl, rfl, rfl, rfl⟩

theorem Same.fit {dim e : Nat} {m : Tess R} {a : Dicts R} {x : Extras R} (h : Same a x) (hf : a.Fit dim e m) : Silo.Fit dim e m x :=
  ⟨fun f hm => hf.node f (h.node.1.mem_iff.1 hm), fun f hm => hf.edge f (h.edge.1.mem_iff.1 hm), fun f hm => hf.face f (h.face.1.mem_iff.1 hm),
    fun f hm => hf.cell f (h.cell.1.mem_iff.1 hm)⟩

/-- C100. `writeTessellation2d` writes a file that describes the mesh and holds the fields of the dictionaries, if each is a non-empty list with one value per
node, face or cell. -/
theorem C100_write2_partial (dbg : Bool) {m : Tess R} {a : Dicts R} (h : Polygonal m) (hk : a.Keys) (hne : a.Filled) (hf : a.Fit 2 m.faces.length m) :
    ∃ x f, Same a x ∧ write2d dbg m a = .ok f ∧ Describes2 m x f := by
  obtain ⟨x, ex, hx⟩ := extras_ok hk hne
  obtain ⟨f, ef, hd⟩ := C80_2d_partial dbg h (hx.fit hf)
  exact ⟨x, f, hx, by rw [write2d, ex, Res.ok_bind, ef], hd⟩

/-- C100. The same for `writeTessellation3d`. -/
theorem C100_write3_partial (dbg : Bool) {m : Tess R} {a : Dicts R} {e : Nat} (h : Polyhedral m) (he : m.faces.length ≤ e) (hk : a.Keys) (hne : a.Filled)
    (hf : a.Fit 3 e m) : ∃ x f, Same a x ∧ write3d dbg m a = .ok f ∧ Describes3 m x f := by
  obtain ⟨x, ex, hx⟩ := extras_ok hk hne
  obtain ⟨f, ef, hd⟩ := C80_3d_partial dbg h he (hx.fit hf)
  exact ⟨x, f, hx, by rw [write3d, ex, Res.ok_bind, ef], hd⟩

/-- A field that is an empty list: the first entry of an empty vector is asked for, whatever the mesh. -/
theorem C100_empty_fails (dbg : Bool) (m : Tess R) {a : Dicts R} (hk : a.Keys) {d : List (String × List R)} (hd : d ∈ a.all) {k : String} (h : (k, []) ∈ d) :
    (∀ f, write2d dbg m a ≠ .ok f) ∧ ∀ f, write3d dbg m a ≠ .ok f := by
  have hno : ∀ r, pointers (copyDictToMap d) ≠ .ok r := by
    intro r
    refine mapM_none (a := (k, [])) (((mapOf_last d).perm (hk d hd)).mem_iff.2 h) ?_ r
    intro b hb
    rw [if_pos rfl] at hb
    cases hb
  have hx : ∀ x, extras a ≠ .ok x := by
    intro x hx
    rw [extras] at hx
    obtain ⟨x1, h1, hx⟩ := Res.bind_eq_ok.1 hx
    obtain ⟨x2, h2, hx⟩ := Res.bind_eq_ok.1 hx
    obtain ⟨x3, h3, hx⟩ := Res.bind_eq_ok.1 hx
    obtain ⟨x4, h4, hx⟩ := Res.bind_eq_ok.1 hx
    simp only [Dicts.all, List.mem_cons, List.not_mem_nil, or_false] at hd
    rcases hd with rfl | rfl | rfl | rfl
    · exact hno _ h1
    · exact hno _ h2
    · exact hno _ h3
    · exact hno _ h4
  constructor
  · intro f hf
    obtain ⟨x, h1, -⟩ := Res.bind_eq_ok.1 hf
    exact hx x h1
  · intro f hf
    obtain ⟨x, h1, -⟩ := Res.bind_eq_ok.1 hf
    exact hx x h1

/-- A field that is too short: the writer reads past its end. -/
theorem C100_short_fails (dbg : Bool) {m : Tess R} {a : Dicts R} (hk : a.Keys) (hne : a.Filled) {k : String} {v : List R} (D : Nat)
    (h : (k, v) ∈ a.nodeFields ∧ v.length < numNodes D m ∨ (k, v) ∈ a.faceFields ∧ v.length < m.faces.length ∨ (k, v) ∈ a.cellFields ∧ v.length < m.cells.length) :
    (D = 2 → ∀ f, write2d dbg m a ≠ .ok f) ∧ (D = 3 → ∀ f, write3d dbg m a ≠ .ok f) := by
  obtain ⟨x, ex, hx⟩ := extras_ok hk hne
  have hv : ∀ {n : Nat} {fs : List (String × List R)}, (k, v) ∈ fs → v.length < n → ∀ r, vars n fs ≠ .ok r := by
    intro n fs hm hl r
    refine mapM_none hm (fun b hb => ?_) r
    simp only [readN] at hb
    rw [if_neg (by omega)] at hb
    cases hb
  have hc : ∀ rev c, common rev m (numNodes D m) x ≠ .ok c := by
    intro rev c hc
    rw [common] at hc
    obtain ⟨cn, -, hc⟩ := Res.bind_eq_ok.1 hc
    obtain ⟨v1, e1, hc⟩ := Res.bind_eq_ok.1 hc
    obtain ⟨v2, e2, hc⟩ := Res.bind_eq_ok.1 hc
    obtain ⟨v3, e3, hc⟩ := Res.bind_eq_ok.1 hc
    obtain ⟨v4, e4, hc⟩ := Res.bind_eq_ok.1 hc
    rcases h with ⟨h1, h2⟩ | ⟨h1, h2⟩ | ⟨h1, h2⟩
    · exact hv (hx.node.1.mem_iff.2 h1) h2 _ e1
    · exact hv (hx.face.1.mem_iff.2 h1) h2 _ e3
    · exact hv (hx.cell.1.mem_iff.2 h1) h2 _ e4
  constructor
  · rintro rfl f hf
    rw [write2d, ex, Res.ok_bind, write2] at hf
    obtain ⟨_, -, hf⟩ := Res.bind_eq_ok.1 hf
    obtain ⟨_, -, hf⟩ := Res.bind_eq_ok.1 hf
    obtain ⟨_, -, hf⟩ := Res.bind_eq_ok.1 hf
    obtain ⟨_, e, -⟩ := Res.bind_eq_ok.1 hf
    exact hc _ _ e
  · rintro rfl f hf
    rw [write3d, ex, Res.ok_bind, write3] at hf
    obtain ⟨_, -, hf⟩ := Res.bind_eq_ok.1 hf
    obtain ⟨_, -, hf⟩ := Res.bind_eq_ok.1 hf
    obtain ⟨_, e, -⟩ := Res.bind_eq_ok.1 hf
    exact hc _ _ e

end files

/-! ### Examples -/

theorem twoTriangles_polygonal : Polygonal twoTriangles := by
  refine ⟨by decide, by decide, by decide, by decide, by decide, ?_, by decide, by decide⟩
  intro c hc j k k' hk hk'
  have hj := (List.getElem?_eq_some_iff.1 hk).1
  have hl : c.length = 3 := by
    simp only [twoTriangles, List.mem_cons, List.not_mem_nil, or_false] at hc
    rcases hc with rfl | rfl <;> rfl
  rw [hl] at hj hk'
  simp only [twoTriangles, List.mem_cons, List.not_mem_nil, or_false] at hc
  rcases hc with rfl | rfl <;> interval_cases j <;> simp at hk hk' <;> subst hk hk' <;> decide

example : Polygonal twoTriangles ∧ numNodes 2 twoTriangles ≤ 2 ^ 31 := ⟨twoTriangles_polygonal, by decide⟩
example : xnodes 2 twoTriangles = .ok [0, 1, 0, 1] ∧ ynodes 2 twoTriangles = .ok [0, 0, 1, 1] ∧ zoneNodes2 twoTriangles = .ok [[0, 1, 2], [1, 3, 2]] := ⟨rfl, rfl, rfl⟩

/-- Two tetrahedra that share the face 0. -/
def twoTets : Tess Int :=
  { nodes := [0, 0, 0, 1, 0, 0, 0, 1, 0, 0, 0, 1, 0, 0, -1]
    faces := [[0, 2, 1], [0, 1, 3], [1, 2, 3], [2, 0, 3], [1, 0, 4], [2, 1, 4], [0, 2, 4]]
    cells := [[0, 1, 2, 3], [-1, 4, 5, 6]]
    faceCells := [[0, -2], [0], [0], [0], [1], [1], [1]] }
theorem twoTets_consistent : Consistent 3 twoTets := ⟨by decide, by decide, by decide, by decide, by decide, by decide, by decide, by decide⟩
example : Consistent 3 twoTets ∧ numNodes 3 twoTets ≤ 2 ^ 31 := ⟨twoTets_consistent, by decide⟩
example : znodes 3 twoTets = some (.ok [0, 0, 0, 1, -1]) ∧ zoneNodes3 twoTets = .ok [[0, 1, 2, 3], [0, 1, 2, 4]] := ⟨rfl, by decide⟩

/-- A face with a node number beyond the range of `int`. -/
example : facesAsInts ({ faces := [[0, 4294967295]] } : Tess Int) = [[0, -1]] := by decide

/-- Three points with two coordinates each; three tuples with 1, 2 and 3 coordinates pass as three points. -/
example : copyCoords true 2 [[1, 2], [3, 4], [5, 6]] = .ok [1, 2, 3, 4, 5, (6 : Int)] ∧ copyCoords true 2 [[1], [2, 3], [4, 5, (6 : Int)]] = .ok [1, 2, 3, 4, 5, 6] :=
  ⟨rfl, rfl⟩
example : ∃ flat, copyCoords true 2 [[1], [2, 3], [4, 5, (6 : Int)]] = .ok flat ∧ ¬ HoldsPoints 2 [[1], [2, 3], [4, 5, (6 : Int)]] flat :=
  C100_coords_fails true (t := [1]) (by simp) (by simp) (Or.inr (by decide))
example : tessellateBox 2 Prod.mk [0, (1 : Int)] [2, 3] = some ([0, 1], [2, 3]) ∧ tessellateBox 2 Prod.mk [(0 : Int)] [2, 3] = none := ⟨rfl, rfl⟩

/-- Two node fields and a cell field. -/
def someDicts : Dicts Int := { nodeFields := [("u", [1, 2, 3, 4]), ("t", [5, 6, 7, 8])], cellFields := [("rho", [10, 11])] }
example : someDicts.Keys ∧ someDicts.Filled ∧ someDicts.Fit 2 twoTriangles.faces.length twoTriangles :=
  ⟨by unfold Dicts.Keys; decide, by unfold Dicts.Filled; decide, by decide, by decide, by decide, by decide⟩
example : ∃ x f, Same someDicts x ∧ write2d true twoTriangles someDicts = .ok f ∧ Describes2 twoTriangles x f :=
  C100_write2_partial true twoTriangles_polygonal (by unfold Dicts.Keys; decide) (by unfold Dicts.Filled; decide) ⟨by decide, by decide, by decide, by decide⟩
example : Polyhedral tetrahedron ∧ ({ faceFields := [("f", [1, 2, 3, 4])] } : Dicts Int).Fit 3 6 tetrahedron :=
  ⟨⟨by decide, by decide, by decide, by decide⟩, ⟨by decide, by decide, by decide, by decide⟩⟩
example : ∀ f, write2d true twoTriangles { nodeFields := [("t", [])] } ≠ .ok f :=
  (C100_empty_fails true twoTriangles (a := { nodeFields := [("t", [])] }) (by unfold Dicts.Keys; decide) (d := [("t", [])]) (by decide) (k := "t") (by decide)).1
example : ∀ f, write2d false twoTriangles { cellFields := [("rho", [1])] } ≠ .ok f :=
  (C100_short_fails false (m := twoTriangles) (a := { cellFields := [("rho", [1])] }) (by unfold Dicts.Keys; decide) (by unfold Dicts.Filled; decide) (k := "rho") (v := [1]) 2
    (Or.inr (Or.inr ⟨by decide, by decide⟩))).1 rfl

end Py
end Verif
