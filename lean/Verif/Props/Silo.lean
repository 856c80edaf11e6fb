import Verif.Proofs.Silo
/-
C80: a Silo file describes the mesh, its fields and its tags.
-/
namespace Verif
namespace Silo
open Mesh

section two
variable {R : Type} {m : Tess R}

theorem ends_pair (h : Polygonal m) {k : Int} (hk : posID k < m.faces.length) : ∃ a b, ends m.faces k = [a, b] ∧ a < m.nodes.length / 2 ∧
    firstNode m.faces k = .ok a := by
  obtain ⟨h2, hn⟩ := h.face _ (List.getElem_mem hk)
  obtain ⟨a, b, e⟩ := List.length_eq_two.1 h2
  have hd : m.faces.getD (posID k) [] = [a, b] := by rw [← List.getElem_eq_getD (h := hk), e]
  have hr : rd m.faces (posID k) = .ok [a, b] := by rw [rd_lt hk, e]
  rw [e] at hn
  rw [ends, hd, firstNode, hr, Res.ok_bind]
  by_cases h0 : 0 ≤ k
  · rw [if_pos h0, if_pos h0]
    exact ⟨a, b, rfl, hn a (by simp), rfl⟩
  · rw [if_neg h0, if_neg h0]
    exact ⟨b, a, rfl, hn b (by simp), rfl⟩

/-- The ring of a cell. -/
theorem traverse_ok (dbg : Bool) (h : Polygonal m) {c : List Int} (hc : c ∈ m.cells) :
    ∃ r, traverseNodes dbg (m.nodes.length / 2) m.faces c = .ok r ∧ r.length = c.length + 1 ∧
      ∀ (j : Nat) k, c[j]? = some k → ∃ a b, ends m.faces k = [a, b] ∧ r[j]? = some (a : Int) ∧ r[j + 1]? = some (b : Int) := by
  have hne := h.nonempty c hc
  have hl0 : 0 < c.length := List.length_pos_iff.2 hne
  obtain ⟨ns, e, hl, hr⟩ := Nbr.mapM_exists (g := firstNode m.faces) (P := fun k a => (ends m.faces k)[0]? = some a ∧ a < m.nodes.length / 2) c (by
    intro k hk
    obtain ⟨a, b, e1, e2, e3⟩ := ends_pair h (h.range c hc k hk)
    exact ⟨a, e3, by simp [e1], e2⟩)
  have hns : 0 < ns.length := by omega
  refine ⟨(ns ++ [ns[0]]).map Int.ofNat, ?_, by simp [hl], ?_⟩
  · rw [traverseNodes, e, Res.ok_bind, rd_lt hns, Res.ok_bind]
    have hall : ∀ n ∈ ns ++ [ns[0]], n < m.nodes.length / 2 := by
      have h1 : ∀ n ∈ ns, n < m.nodes.length / 2 := by
        intro n hn
        obtain ⟨i, hi, rfl⟩ := List.getElem_of_mem hn
        exact (hr i c[i] ns[i] (by simp) (by simp)).2
      intro n hn
      rcases List.mem_append.1 hn with hn | hn
      · exact h1 n hn
      · rw [List.mem_singleton.1 hn]
        exact h1 _ (List.getElem_mem hns)
    simp only []
    rw [Res.assert_true dbg hall, Res.ok_bind]
    rfl
  · intro j k hj
    have hjc : j < c.length := (List.getElem?_eq_some_iff.1 hj).1
    obtain ⟨a, b, e1, -, -⟩ := ends_pair h (h.range c hc k (List.mem_of_getElem? hj))
    refine ⟨a, b, e1, ?_, ?_⟩
    · have := (hr j k ns[j] hj (by simp)).1
      rw [e1] at this
      simp only [List.getElem?_cons_zero, Option.some.injEq] at this
      rw [List.getElem?_map, List.getElem?_append_left (by omega), List.getElem?_eq_getElem (by omega), ← this]
      rfl
    · have hm : (j + 1) % c.length < c.length := Nat.mod_lt _ hl0
      have h1 := h.loop c hc j k c[(j + 1) % c.length] hj (by simp [hm])
      have h2 := (hr ((j + 1) % c.length) c[(j + 1) % c.length] ns[(j + 1) % c.length] (by simp [hm]) (by simp)).1
      rw [← h1, e1] at h2
      simp only [List.getElem?_cons_succ, List.getElem?_cons_zero, Option.some.injEq] at h2
      rw [List.getElem?_map]
      rcases Nat.lt_or_ge (j + 1) c.length with hlt | hge
      · rw [List.getElem?_append_left (by omega), List.getElem?_eq_getElem (by omega), h2]
        simp only [Nat.mod_eq_of_lt hlt]
        rfl
      · have : j + 1 = c.length := by omega
        rw [List.getElem?_append_right (by omega), h2]
        simp [this, hl]

theorem boundary_ok (h : Polygonal m) : m.boundaryFaces.mapM (boundaryPair m.faces) = .ok (m.boundaryFaces.map fun b => (m.faces.getD b []).map Int.ofNat) := by
  refine Geom.mapM_ok (f := fun b => (m.faces.getD b []).map Int.ofNat) _ fun b hb => ?_
  have hk := h.boundary b hb
  obtain ⟨h2, -⟩ := h.face _ (List.getElem_mem hk)
  obtain ⟨a, c, e⟩ := List.length_eq_two.1 h2
  rw [boundaryPair, rd_lt hk, e, ← List.getElem_eq_getD (h := hk), e]
  rfl

theorem common_ok {dim : Nat} (rev : Bool) (hs : ∀ s ∈ m.faceCells, s ≠ []) {x : Extras R} (hx : Fit dim m.faces.length m x) :
    ∃ c, common rev m (m.nodes.length / dim) x = .ok c ∧ connArray rev m = .ok c.conn ∧ c.convexhull = hullArray m ∧ HasFields x.nodeFields c.nodeVars ∧
      HasFields x.edgeFields c.edgeVars ∧ HasFields x.faceFields c.faceVars ∧ HasFields x.cellFields c.cellVars := by
  obtain ⟨v1, e1, h1⟩ := vars_ok hx.node
  obtain ⟨v2, e2, h2⟩ := vars_ok hx.edge
  obtain ⟨v3, e3, h3⟩ := vars_ok hx.face
  obtain ⟨v4, e4, h4⟩ := vars_ok hx.cell
  have hc := connArray_ok rev hs
  refine ⟨⟨_, hullArray m, tagArray x.nodeTags, tagArray x.edgeTags, tagArray x.faceTags, tagArray x.cellTags, v1, v2, v3, v4⟩, ?_, hc, rfl, h1, h2, h3, h4⟩
  rw [common, hc, Res.ok_bind, e1, Res.ok_bind, e2, Res.ok_bind, e3, Res.ok_bind, e4, Res.ok_bind]
  rfl

theorem write2_ok (dbg : Bool) (h : Polygonal m) {x : Extras R} (hx : Fit 2 m.faces.length m x) :
    ∃ f, write2 dbg m x = .ok f ∧ Describes2 m x f ∧ connArray false m = .ok f.common.conn := by
  obtain ⟨co, eco, hco⟩ := coordArrays_ok (dim := 2) (by omega) m
  obtain ⟨rs, ers, hl, hrs⟩ := Nbr.mapM_exists (g := traverseNodes dbg (m.nodes.length / 2) m.faces)
    (P := fun c r => r.length = c.length + 1 ∧ ∀ (j : Nat) k, c[j]? = some k → ∃ a b, ends m.faces k = [a, b] ∧ r[j]? = some (a : Int) ∧ r[j + 1]? = some (b : Int))
    m.cells fun c hc => traverse_ok dbg h hc
  obtain ⟨com, ecom, hconn, hhull, h1, h2, h3, h4⟩ := common_ok false h.side hx
  refine ⟨⟨co, m.nodes.length / 2, m.cells.length, (m.boundaryFaces.map fun b => (m.faces.getD b []).map Int.ofNat).flatten,
    rs.flatMap fun r => (r.length : Int) :: r, com⟩, ?_, ⟨rfl, rfl, hco, ?_, ?_, ?_, ?_, ?_, h1, h2, h3, h4⟩, hconn⟩
  · rw [write2, eco, Res.ok_bind, boundary_ok h, Res.ok_bind, ers, Res.ok_bind, ecom, Res.ok_bind]
    rfl
  · simp only []
    rw [← hl, zones_flatten]
  · intro i c hc
    have hi := (List.getElem?_eq_some_iff.1 hc).1
    have hi' : i < rs.length := by omega
    refine ⟨rs[i], ?_, hrs i c rs[i] hc (by simp)⟩
    simp only []
    rw [← hl, zones_flatten]
    simp
  · have hmap : (m.boundaryFaces.map fun _ => 2) = (m.boundaryFaces.map fun b => (m.faces.getD b []).map Int.ofNat).map List.length := by
      rw [List.map_map]
      refine List.map_congr_left fun b hb => ?_
      rw [Function.comp_apply, List.length_map, ← List.getElem_eq_getD (h := h.boundary b hb)]
      exact (h.face _ (List.getElem_mem (h.boundary b hb))).1.symm
    simp only []
    constructor
    · rw [List.length_flatten, ← hmap, List.map_const', List.sum_replicate_nat]
      ring
    · rw [hmap]
      exact cut_flatten' _
  · have hc := (connArray_ok false h.side).symm.trans hconn
    simp only [Res.ok.injEq] at hc
    simp only [← hc, Bool.false_eq_true, if_false, List.map_id', List.append_assoc]
    have hlen : m.cells.length = (m.cells.map fun c => (c.length : Int)).length := by simp
    rw [hlen, List.take_left, List.drop_left, lens_toNat, List.flatMap_id']
    exact cut_flatten _ _
  · rw [hhull]
    exact hullArray_ok m

end two

section three
variable {R : Type} {m : Tess R}

theorem flagFaces_ok (dbg : Bool) {nf : Nat} : ∀ (bs : List Nat) (fl : List Bool), fl.length = nf → (∀ b ∈ bs, b < nf) →
    ∃ fl', flagFaces dbg nf bs fl = .ok fl' ∧ fl'.length = nf ∧ ∀ i : Nat, fl'[i]? = some true ↔ fl[i]? = some true ∨ i ∈ bs
  | [], fl, hl, _ => ⟨fl, rfl, hl, by simp⟩
  | b :: bs, fl, hl, h => by
    have hb := h b (by simp)
    obtain ⟨fl', e, hl', hf⟩ := flagFaces_ok dbg bs (fl.set b true) (by simpa using hl) fun x hx => h x (by simp [hx])
    refine ⟨fl', ?_, hl', fun i => ?_⟩
    · rw [flagFaces, Res.assert_true dbg hb, Res.ok_bind, wr_lt (by omega), Res.ok_bind, e]
    · rw [hf i, List.getElem?_set, List.mem_cons]
      by_cases hi : b = i
      · subst hi
        simp [hl, hb]
      · rw [if_neg hi]
        have : ¬ i = b := fun h => hi h.symm
        tauto

/-- The common part when edge fields have any number of values that is at least the number of faces. -/
theorem common_ok' {dim e : Nat} (rev : Bool) (hs : ∀ s ∈ m.faceCells, s ≠ []) (he : m.faces.length ≤ e) {x : Extras R} (hx : Fit dim e m x) :
    ∃ c, common rev m (m.nodes.length / dim) x = .ok c ∧ connArray rev m = .ok c.conn ∧ c.convexhull = hullArray m ∧ HasFields x.nodeFields c.nodeVars ∧
      HasFields (x.edgeFields.map fun f => (f.1, f.2.take m.faces.length)) c.edgeVars ∧ HasFields x.faceFields c.faceVars ∧ HasFields x.cellFields c.cellVars := by
  obtain ⟨v1, e1, h1⟩ := vars_ok hx.node
  obtain ⟨v3, e3, h3⟩ := vars_ok hx.face
  obtain ⟨v4, e4, h4⟩ := vars_ok hx.cell
  have e2 : vars m.faces.length x.edgeFields = .ok (x.edgeFields.map fun f => (⟨f.1, f.2.take m.faces.length⟩ : Var R)) := by
    refine Geom.mapM_ok (f := fun f : String × List R => (⟨f.1, f.2.take m.faces.length⟩ : Var R)) _ fun f hf => ?_
    rw [readN, if_pos (by rw [hx.edge f hf]; exact he), Res.ok_bind]
    rfl
  have hc := connArray_ok rev hs
  refine ⟨⟨_, hullArray m, tagArray x.nodeTags, tagArray x.edgeTags, tagArray x.faceTags, tagArray x.cellTags, v1,
    x.edgeFields.map fun f => ⟨f.1, f.2.take m.faces.length⟩, v3, v4⟩, ?_, hc, rfl, h1, ?_, h3, h4⟩
  · rw [common, hc, Res.ok_bind, e1, Res.ok_bind, e2, Res.ok_bind, e3, Res.ok_bind, e4, Res.ok_bind]
    rfl
  · simp [HasFields]

theorem write3_ok (dbg : Bool) (h : Polyhedral m) {e : Nat} (he : m.faces.length ≤ e) {x : Extras R} (hx : Fit 3 e m x) :
    ∃ f, write3 dbg m x = .ok f ∧ Describes3 m x f ∧ connArray true m = .ok f.common.conn ∧
      HasFields (x.edgeFields.map fun f => (f.1, f.2.take m.faces.length)) f.common.edgeVars := by
  obtain ⟨co, eco, hco⟩ := coordArrays_ok (dim := 3) (by omega) m
  obtain ⟨fl, efl, hl, hfl⟩ := flagFaces_ok dbg (nf := m.faces.length) m.boundaryFaces (List.replicate m.faces.length false) (by simp) h.boundary
  obtain ⟨com, ecom, hconn, hhull, h1, h2, h3, h4⟩ := common_ok' true h.side he hx
  refine ⟨⟨co, m.nodes.length / 3, m.cells.length, m.faces.map fun f => (f.length : Int), m.faces.flatMap fun f => f.map Int.ofNat, fl,
    m.cells.map fun c => (c.length : Int), m.cells.flatMap fun c => c, com⟩, ?_, ⟨rfl, rfl, hco, ?_, ?_, ?_, hl, ?_, ?_, h1, h3, h4⟩, hconn, h2⟩
  · rw [write3, eco, Res.ok_bind, efl, Res.ok_bind, ecom, Res.ok_bind]
    rfl
  · simp only []
    rw [lens_toNat, List.map_flatMap]
    have : (m.faces.flatMap fun f => List.map Int.toNat (List.map Int.ofNat f)) = m.faces.flatten := by
      rw [← List.flatMap_id']
      congr 1
      funext f
      rw [List.map_map]
      exact List.map_id _
    rw [this]
    exact cut_flatten' _
  · intro n hn
    simp only [List.mem_flatMap, List.mem_map] at hn
    obtain ⟨f, -, a, -, rfl⟩ := hn
    exact Int.natCast_nonneg a
  · simp only []
    rw [lens_toNat, List.flatMap_id']
    exact cut_flatten' _
  · intro i
    rw [hfl i]
    simp [List.getElem?_replicate]
  · rw [hhull]
    exact hullArray_ok m

end three

/-! ### What the files hold -/

/-- C80 (2D). For every mesh whose cells are closed loops of faces, and all fields that have one value per node, face or cell, the writer succeeds, with and
without assertions, and the file describes the mesh. Missing: the cells of the faces, the lengths of the parts of `conn` and the names of the tags, see
`C80_conn_fails`, `C80_lengths_fails` and `C80_tags_fails`. -/
theorem C80_2d_partial {R : Type} (dbg : Bool) {m : Tess R} {x : Extras R} (h : Polygonal m) (hx : Fit 2 m.faces.length m x) :
    ∃ f, write2 dbg m x = .ok f ∧ Describes2 m x f := by
  obtain ⟨f, e, hf, -⟩ := write2_ok dbg h hx
  exact ⟨f, e, hf⟩

/-- C80 (3D). The same for the polyhedral writer, for any number `e` of edges that is not less than the number of faces. Missing: as in 2D, and the edge
fields (`C80_edge_fields_fails`). -/
theorem C80_3d_partial {R : Type} (dbg : Bool) {m : Tess R} {x : Extras R} {e : Nat} (h : Polyhedral m) (he : m.faces.length ≤ e) (hx : Fit 3 e m x) :
    ∃ f, write3 dbg m x = .ok f ∧ Describes3 m x f := by
  obtain ⟨f, e, hf, -⟩ := write3_ok dbg h he hx
  exact ⟨f, e, hf⟩

theorem nodes_same {R : Type} {dim : Nat} (hd : 0 < dim) {m m' : Tess R} {co : List (List R)} (h : HasNodes dim m co) (h' : HasNodes dim m' co)
    (hl : m.nodes.length / dim = m'.nodes.length / dim) (e : dim ∣ m.nodes.length) (e' : dim ∣ m'.nodes.length) : m.nodes = m'.nodes := by
  have hlen : m.nodes.length = m'.nodes.length := by
    rw [← Nat.div_mul_cancel e, ← Nat.div_mul_cancel e', hl]
  refine List.ext_getElem? fun i => ?_
  rcases Nat.lt_or_ge i m.nodes.length with hi | hi
  · have h1 : i % dim < dim := Nat.mod_lt _ hd
    have h2 : i / dim < m.nodes.length / dim := by
      rw [Nat.div_lt_iff_lt_mul hd, Nat.div_mul_cancel e]
      exact hi
    rw [← Nat.div_add_mod i dim, ← h.2.2 _ _ h1 h2, ← h'.2.2 _ _ h1 (hl ▸ h2)]
  · rw [List.getElem?_eq_none hi, List.getElem?_eq_none (hlen ▸ hi)]

/-- From the 2D file the mesh can be rebuilt: if two meshes, each with every face used by some cell, are written to the same file, they have the same
nodes, faces, cells and hull facets, and their boundary faces have the same nodes. -/
theorem C80_same_file_2d {R : Type} (dbg : Bool) {m m' : Tess R} {x x' : Extras R} (h : Polygonal m) (hx : Fit 2 m.faces.length m x) (h' : Polygonal m')
    (hx' : Fit 2 m'.faces.length m' x') (hu : ∀ i < m.faces.length, ∃ c ∈ m.cells, ∃ k ∈ c, posID k = i) (hw : write2 dbg m x = write2 dbg m' x') :
    m.nodes = m'.nodes ∧ m.faces = m'.faces ∧ m.cells = m'.cells ∧ m.convexHull.facets = m'.convexHull.facets ∧
      (m.boundaryFaces.map fun b => m.faces.getD b []) = m'.boundaryFaces.map fun b => m'.faces.getD b [] := by
  obtain ⟨f, e, hf, hc⟩ := write2_ok dbg h hx
  obtain ⟨f', e', hf', hc'⟩ := write2_ok dbg h' hx'
  have hff : f = f' := by
    rw [e, e'] at hw
    exact Res.ok.inj hw
  subst hff
  have hcells : m.cells = m'.cells := hf.cells.symm.trans hf'.cells
  have hnf : m.faces.length = m'.faces.length := by
    rw [connArray_ok false h.side] at hc
    rw [connArray_ok false h'.side] at hc'
    have := congrArg Compound.elemLengths ((Res.ok.inj hc).trans (Res.ok.inj hc').symm)
    simp only [List.cons.injEq] at this
    have h1 := this.1
    have h2 := this.2.1
    omega
  have hfaces : m.faces = m'.faces := by
    refine List.ext_getElem hnf fun i hi hi' => ?_
    obtain ⟨c, hcm, k, hk, rfl⟩ := hu i hi
    obtain ⟨n, hn, rfl⟩ := List.getElem_of_mem hcm
    obtain ⟨j, hj, rfl⟩ := List.getElem_of_mem hk
    obtain ⟨r, hr, -, hr2⟩ := hf.ring n m.cells[n] (by simp)
    obtain ⟨r', hr', -, hr2'⟩ := hf'.ring n m.cells[n] (by rw [← hcells]; simp)
    obtain ⟨a, b, e1, e2, e3⟩ := hr2 j _ (List.getElem?_eq_getElem hj)
    obtain ⟨a', b', e1', e2', e3'⟩ := hr2' j _ (List.getElem?_eq_getElem hj)
    rw [hr] at hr'
    obtain rfl := Option.some.inj hr'
    rw [e2] at e2'
    rw [e3] at e3'
    have ha : a = a' := by
      have := Option.some.inj e2'
      exact_mod_cast this
    have hb : b = b' := by
      have := Option.some.inj e3'
      exact_mod_cast this
    subst ha hb
    have hee := e1.trans e1'.symm
    refine (List.getElem_eq_getD (h := hi) []).trans (Eq.trans ?_ (List.getElem_eq_getD (h := hi') []).symm)
    unfold ends at hee
    split at hee
    · exact hee
    · exact List.reverse_injective hee
  refine ⟨nodes_same (by omega) hf.nodes hf'.nodes (hf.numNodes.symm.trans hf'.numNodes) h.even h'.even, hfaces, hcells, ?_, ?_⟩
  · exact hf.hull.2.2.2.2.symm.trans hf'.hull.2.2.2.2
  · have hn : m.boundaryFaces.length = m'.boundaryFaces.length := by
      have := hf.boundary.1.symm.trans hf'.boundary.1
      omega
    have h1 := hf.boundary.2
    have h2 := hf'.boundary.2
    rw [List.map_const', ← hn, ← List.map_const' (l := m.boundaryFaces), h1] at h2
    have inj : Function.Injective (List.map Int.ofNat) := List.map_injective_iff.2 fun a b hab => Int.ofNat.inj hab
    refine List.map_injective_iff.2 inj ?_
    rw [List.map_map, List.map_map]
    exact h2

/-- From the 3D file the mesh can be rebuilt: nodes, faces, cells, hull facets and the set of boundary faces. -/
theorem C80_same_file_3d {R : Type} (dbg : Bool) {m m' : Tess R} {x x' : Extras R} {e e' : Nat} (h : Polyhedral m) (he : m.faces.length ≤ e) (hx : Fit 3 e m x)
    (h' : Polyhedral m') (he' : m'.faces.length ≤ e') (hx' : Fit 3 e' m' x') (hw : write3 dbg m x = write3 dbg m' x') :
    m.nodes = m'.nodes ∧ m.faces = m'.faces ∧ m.cells = m'.cells ∧ m.convexHull.facets = m'.convexHull.facets ∧
      ∀ i, i ∈ m.boundaryFaces ↔ i ∈ m'.boundaryFaces := by
  obtain ⟨f, e, hf⟩ := C80_3d_partial dbg h he hx
  obtain ⟨f', e', hf'⟩ := C80_3d_partial dbg h' he' hx'
  have hff : f = f' := by
    rw [e, e'] at hw
    exact Res.ok.inj hw
  subst hff
  refine ⟨nodes_same (by omega) hf.nodes hf'.nodes (hf.numNodes.symm.trans hf'.numNodes) h.triple h'.triple, hf.faces.symm.trans hf'.faces,
    hf.cells.symm.trans hf'.cells, hf.hull.2.2.2.2.symm.trans hf'.hull.2.2.2.2, fun i => ?_⟩
  rw [← hf.flag i, hf'.flag i]

/-! ### What they do not hold -/

/-- Neither file holds the second cell of a face: changing it anywhere leaves the result of the writers as it is. -/
theorem C80_facecells_fails {R : Type} (dbg : Bool) (m : Tess R) (x : Extras R) (s : List (List Int)) (hs : s.map List.head? = m.faceCells.map List.head?) :
    write2 dbg { m with faceCells := s } x = write2 dbg m x ∧ write3 dbg { m with faceCells := s } x = write3 dbg m x := by
  have key : ∀ l l' : List (List Int), l.map List.head? = l'.map List.head? → l.mapM (fun c => rd c 0) = l'.mapM fun c => rd c 0 := by
    intro l
    induction l with
    | nil =>
      intro l' hl
      rw [List.map_nil, eq_comm, List.map_eq_nil_iff] at hl
      rw [hl]
    | cons a l ih =>
      intro l' hl
      cases l' with
      | nil => cases hl
      | cons b l' =>
        rw [List.map_cons, List.map_cons, List.cons.injEq] at hl
        have hab : rd a 0 = rd b 0 := by
          rw [rd, rd, ← List.head?_eq_getElem?, ← List.head?_eq_getElem?, hl.1]
        rw [List.mapM_cons, List.mapM_cons, ih l' hl.2, hab]
  have hc : ∀ rev, connArray rev { m with faceCells := s } = connArray rev m := by
    intro rev
    unfold connArray
    simp only [key s m.faceCells hs]
  have hco : ∀ rev n, common rev { m with faceCells := s } n x = common rev m n x := by
    intro rev n
    unfold common
    simp only [hc rev]
    rfl
  constructor
  · unfold write2
    simp only [hco]
    rfl
  · unfold write3
    simp only [hco]
    rfl

/-- In both dimensions the `conn` array is wrong for every mesh in which some face has two different cells on its sides. -/
theorem C80_conn_fails {R : Type} (rev : Bool) {m : Tess R} (hp : ∀ s ∈ m.faceCells, s.length = 2) {a b : Int} (hab : a ≠ b) (hs : [a, b] ∈ m.faceCells) :
    ∃ c, connArray rev m = .ok c ∧ ¬ ConnRight m c := by
  have hne : ∀ s ∈ m.faceCells, s ≠ [] := fun s hs h => by simpa [h] using hp s hs
  refine ⟨_, connArray_ok rev hne, fun h => ?_⟩
  have hs1 := h.sides
  have hflat : (m.faceCells.flatMap fun s => [s.headD 0, s.headD 0]) = (m.faceCells.map fun s => [s.headD 0, s.headD 0]).flatten := rfl
  have hlens : (m.faceCells.map fun s => [s.headD 0, s.headD 0]).map List.length = m.faceCells.map List.length := by
    rw [List.map_map]
    exact List.map_congr_left fun s hs => (hp s hs).symm
  simp only [List.flatMap_id'] at hs1
  -- the third part, as long as the pairs of cells, is the end of the array
  have hT : m.faceCells.flatten = m.faceCells.flatMap fun s => [s.headD 0, s.headD 0] := by
    simp only [Compound.elem, cut, List.map_cons, List.map_nil, List.getD_eq_getElem?_getD, List.getElem?_cons_succ, List.getElem?_cons_zero, Option.getD_some,
      List.drop_drop] at hs1
    rw [List.take_of_length_le] at hs1
    · have h1 : m.faceCells.flatten <:+ _ := hs1 ▸ List.drop_suffix _ _
      have h2 := (List.suffix_append (m.cells.map (fun c => (c.length : Int)) ++ m.cells.flatMap (fun c => c.map fun j => if rev then (posID j : Int) else j))
        (m.faceCells.flatMap fun s => [s.headD 0, s.headD 0]))
      have hl : m.faceCells.flatten.length = (m.faceCells.flatMap fun s => [s.headD 0, s.headD 0]).length := by
        rw [hflat, List.length_flatten, List.length_flatten, hlens]
      exact (List.suffix_of_suffix_length_le h1 h2 hl.le).eq_of_length hl
    · have hlen : (m.faceCells.flatMap fun s => [s.headD 0, s.headD 0]).length = 2 * m.faceCells.length := by
        rw [hflat, List.length_flatten, hlens, List.map_congr_left (g := fun _ => 2) fun s hs => hp s hs, List.map_const', List.sum_replicate_nat]
        ring
      have hlen' : (m.cells.flatMap fun c => c.map fun j => if rev then (posID j : Int) else j).length = m.cells.flatten.length := by
        generalize m.cells = L
        induction L with
        | nil => rfl
        | cons a l ih => rw [List.flatMap_cons, List.length_append, ih]; simp
      rw [List.length_drop, List.length_append, List.length_append, hlen, hlen', List.length_map]
      omega
  have : m.faceCells = m.faceCells.map fun s => [s.headD 0, s.headD 0] := by
    have h1 := cut_flatten' m.faceCells
    rw [hT, hflat, ← hlens, cut_flatten'] at h1
    exact h1.symm
  rw [this] at hs
  obtain ⟨t, -, ht⟩ := List.mem_map.1 hs
  simp only [List.cons.injEq, and_true] at ht
  exact hab (ht.1.symm.trans ht.2)

/-- The lengths of the three parts are right only if the number of cells and of their faces is, together, twice the number of faces. -/
theorem C80_lengths_fails {R : Type} (rev : Bool) {m : Tess R} (hs : m.faceCells.length = m.faces.length) (hp : ∀ s ∈ m.faceCells, s ≠ []) :
    ∃ c, connArray rev m = .ok c ∧
      (c.elemLengths = [(m.cells.length : Int), (m.cells.map List.length).sum, 2 * m.faces.length] ↔
        m.cells.length + (m.cells.map List.length).sum = 2 * m.faces.length) := by
  refine ⟨_, connArray_ok rev hp, ?_⟩
  simp only [List.flatMap_id', List.length_flatten, hs, List.cons.injEq, and_true, true_and]
  omega

/-- Neither file holds the names of the tags: other names with the same values give the same result. -/
theorem C80_tags_fails {R : Type} (dbg : Bool) (m : Tess R) (x : Extras R) (nt et ft ct : List (String × List Int))
    (hn : nt.map Prod.snd = x.nodeTags.map Prod.snd) (he : et.map Prod.snd = x.edgeTags.map Prod.snd) (hf : ft.map Prod.snd = x.faceTags.map Prod.snd)
    (hc : ct.map Prod.snd = x.cellTags.map Prod.snd) :
    write2 dbg m { x with nodeTags := nt, edgeTags := et, faceTags := ft, cellTags := ct } = write2 dbg m x ∧
    write3 dbg m { x with nodeTags := nt, edgeTags := et, faceTags := ft, cellTags := ct } = write3 dbg m x := by
  have key : ∀ t t' : List (String × List Int), t.map Prod.snd = t'.map Prod.snd → tagArray t = tagArray t' := by
    have gen : ∀ t : List (String × List Int), tagArray t = if t.map Prod.snd = [] then none else some
        { elemNames := (t.map Prod.snd).map fun _ => "", elemLengths := (t.map Prod.snd).map fun v => (v.length : Int), data := (t.map Prod.snd).flatten } := by
      intro t
      rw [tagArray, List.map_map, List.map_map]
      simp only [List.map_eq_nil_iff]
      rfl
    intro t t' h
    rw [gen, gen, h]
  have hco : ∀ rev n, common rev m n { x with nodeTags := nt, edgeTags := et, faceTags := ft, cellTags := ct } = common rev m n x := by
    intro rev n
    unfold common
    simp only [key _ _ hn, key _ _ he, key _ _ hf, key _ _ hc]
  constructor
  · unfold write2
    simp only [hco]
  · unfold write3
    simp only [hco]

/-- Edge fields of a 3D mesh are wrong whenever the mesh has not as many edges as faces: with fewer edges the writer reads past their end, with more it
leaves values out. -/
theorem C80_edge_fields_fails {R : Type} (dbg : Bool) {m : Tess R} {x : Extras R} {e : Nat} (h : Polyhedral m) (hx : Fit 3 e m x) (hne : x.edgeFields ≠ [])
    (he : e ≠ m.faces.length) : (e < m.faces.length → write3 dbg m x = .ub) ∧
      (m.faces.length < e → ∃ f, write3 dbg m x = .ok f ∧ ¬ HasFields x.edgeFields f.common.edgeVars) := by
  obtain ⟨a, l, hal⟩ := List.exists_cons_of_ne_nil hne
  have ha : a.2.length = e := hx.edge a (by simp [hal])
  constructor
  · intro hlt
    obtain ⟨co, eco, -⟩ := coordArrays_ok (dim := 3) (by omega) m
    obtain ⟨fl, efl, -, -⟩ := flagFaces_ok dbg (nf := m.faces.length) m.boundaryFaces (List.replicate m.faces.length false) (by simp) h.boundary
    obtain ⟨v1, e1, -⟩ := vars_ok hx.node
    have e2 : vars m.faces.length x.edgeFields = .ub := by
      rw [hal, vars, List.mapM_cons, readN, if_neg (by omega)]
      rfl
    rw [write3, eco, Res.ok_bind, efl, Res.ok_bind, common, connArray_ok true h.side, Res.ok_bind, e1, Res.ok_bind, e2]
    rfl
  · intro hlt
    obtain ⟨f, e, -, -, hf⟩ := write3_ok dbg h hlt.le hx
    refine ⟨f, e, fun hf' => ?_⟩
    rw [HasFields] at hf hf'
    rw [hf, hal] at hf'
    simp only [List.map_cons, List.cons.injEq] at hf'
    have := congrArg (fun p => p.2.length) hf'.1
    simp only [List.length_take, ha] at this
    omega

/-- A cell without faces: the 2D writer asks an empty vector for its first entry. -/
theorem C80_empty_cell_fails {R : Type} (dbg : Bool) {m : Tess R} {x : Extras R} (h : [] ∈ m.cells) (f : File2 R) : write2 dbg m x ≠ .ok f := by
  intro hw
  rw [write2] at hw
  obtain ⟨co, -, hw⟩ := Res.bind_eq_ok.1 hw
  obtain ⟨bd, -, hw⟩ := Res.bind_eq_ok.1 hw
  obtain ⟨rs, hr, -⟩ := Res.bind_eq_ok.1 hw
  have gen : ∀ (l : List (List Int)) rs, [] ∈ l → l.mapM (traverseNodes dbg (m.nodes.length / 2) m.faces) ≠ .ok rs := by
    intro l
    induction l with
    | nil => intro rs h; cases h
    | cons c l ih =>
      intro rs hm he
      rw [List.mapM_cons] at he
      obtain ⟨r, h1, he⟩ := Res.bind_eq_ok.1 he
      obtain ⟨rs', h2, -⟩ := Res.bind_eq_ok.1 he
      rcases List.mem_cons.1 hm with rfl | hm
      · cases h1
      · exact ih rs' hm h2
  exact gen _ _ h hr

/-! ### Examples -/

/-- Two triangles `0 1 2` and `1 3 2` that share the face from 1 to 2. -/
def twoTriangles : Tess Int :=
  { nodes := [0, 0, 1, 0, 0, 1, 1, 1]
    faces := [[0, 1], [1, 2], [2, 0], [1, 3], [3, 2]]
    cells := [[0, 1, 2], [3, 4, -2]]
    boundaryFaces := [0, 2, 3, 4]
    faceCells := [[0, -1], [0, -2], [0, -1], [1, -1], [1, -1]]
    convexHull := { facets := [[0, 1], [1, 3], [3, 2], [2, 0]] } }

/-- A field on every kind of element. -/
def someFields : Extras Int :=
  { nodeFields := [("t", [1, 2, 3, 4])], edgeFields := [("e", [5, 6, 7, 8, 9])], faceFields := [("f", [5, 6, 7, 8, 9])], cellFields := [("rho", [10, 11])]
    cellTags := [("left", [0]), ("right", [1])] }

example : Polygonal twoTriangles ∧ Fit 2 twoTriangles.faces.length twoTriangles someFields ∧
    (∀ i < twoTriangles.faces.length, ∃ c ∈ twoTriangles.cells, ∃ k ∈ c, posID k = i) := by
  refine ⟨⟨by decide, by decide, by decide, by decide, by decide, ?_, by decide, by decide⟩, ⟨by decide, by decide, by decide, by decide⟩, by decide⟩
  intro c hc j k k' hk hk'
  have hj := (List.getElem?_eq_some_iff.1 hk).1
  have hl : c.length = 3 := by
    simp only [twoTriangles, List.mem_cons, List.not_mem_nil, or_false] at hc
    rcases hc with rfl | rfl <;> rfl
  rw [hl] at hj hk'
  simp only [twoTriangles, List.mem_cons, List.not_mem_nil, or_false] at hc
  rcases hc with rfl | rfl <;> interval_cases j <;> simp at hk hk' <;> subst hk hk' <;> decide

/-- What is in the file: the second ring of the zone list, and `conn` with its wrong lengths 2, 8, 8 (for 2, 6, 10) and doubled cells. -/
example : ∃ f, write2 true twoTriangles someFields = .ok f ∧ zones 2 f.nodeList = [[0, 1, 2, 0], [1, 3, 2, 1]] ∧
    f.common.conn.elemLengths = [2, 8, 8] ∧ f.common.conn.data = [3, 3, 0, 1, 2, 3, 4, -2, 0, 0, 0, 0, 0, 0, 1, 1, 1, 1] ∧
    f.common.cellTags = some { elemNames := ["", ""], elemLengths := [1, 1], data := [0, 1] } := ⟨_, rfl, by decide, by decide, by decide, by decide⟩

/-- A tetrahedron: 4 nodes, 4 faces, 6 edges. -/
def tetrahedron : Tess Int :=
  { nodes := [0, 0, 0, 1, 0, 0, 0, 1, 0, 0, 0, 1]
    faces := [[0, 2, 1], [0, 1, 3], [1, 2, 3], [2, 0, 3]]
    cells := [[0, 1, 2, 3]]
    boundaryFaces := [0, 1, 2, 3]
    faceCells := [[0, -1], [0, -1], [0, -1], [0, -1]]
    convexHull := { facets := [[0, 2, 1], [0, 1, 3], [1, 2, 3], [2, 0, 3]] } }

example : Polyhedral tetrahedron ∧ Fit 3 6 tetrahedron { edgeFields := [("length", [1, 2, 3, 4, 5, 6])] } ∧ tetrahedron.faces.length ≤ 6 :=
  ⟨⟨by decide, by decide, by decide, by decide⟩, ⟨by decide, by decide, by decide, by decide⟩, by decide⟩

example : ∃ f, write3 true tetrahedron { edgeFields := [("length", [1, 2, 3, 4, 5, 6])] } = .ok f ∧
    f.common.edgeVars = [{ name := "length", data := [1, 2, 3, 4] }] := ⟨_, rfl, rfl⟩

end Silo
end Verif
