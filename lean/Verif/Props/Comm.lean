import Verif.Props.Exchange
import Mathlib.Data.List.Sort
/-
Property C66: the lists of shared nodes and faces that each process derives from its own halo mesh fit together. Also the rest of C49.
-/
namespace Verif.Exch
open Verif Verif.Mesh Verif.Mpi
variable {R κ : Type} [LinearOrder κ]

/-! ### C49 -/

/-- C49 fails with the default arguments (no communication info): whatever the halo mesh, a process that has a neighbour indexes an empty table. -/
theorem C49_default_fails (dbg : Bool) {D rank nlocal : Nat} {g2d : List Nat} {m : Tess R} (h : Halo D rank nlocal g2d m) (key : List R → κ) (fkey : Tess R → Nat → Res κ)
    (srt : List (κ × Nat) → List (κ × Nat)) (hpos : dbg = true → 0 < nlocal) (hn : m.neighborDomains ≠ []) :
    localMesh dbg D rank nlocal g2d false key fkey srt m = .ub := by
  have hle : nlocal ≤ m.cells.length := by rw [h.cells]; exact h.le
  obtain ⟨m2, kn, kf, e2, hR, -, -, -⟩ := deleteCells_spec' dbg D m (List.replicate nlocal 1 ++ List.replicate (m.cells.length - nlocal) 0) h.consistent
    ⟨by rw [h.sn, h.sf], by rw [h.sn]; simp, by rw [h.sf]; simp⟩ (by simp; omega) (by
      intro k hk
      rcases List.mem_append.1 hk with hk | hk
      · exact Or.inr (List.eq_of_mem_replicate hk)
      · exact Or.inl (List.eq_of_mem_replicate hk)) (by
      intro hd
      right
      exact List.mem_append_left _ (List.mem_replicate.2 ⟨by have := hpos hd; omega, rfl⟩))
  have h1 : m2.sharedNodes = [] := by
    have := congrArg List.length hR.sharedNodes
    simp only [List.length_map, h.sn, List.length_nil] at this
    exact List.length_eq_zero_iff.1 this
  unfold localMesh
  simp only [Bool.false_eq_true, if_false, Res.bind_eq, Res.bind_ok]
  rw [if_neg (by omega), e2, Res.bind_ok]
  exact dropEmpty_ub (by rw [hR.neighborDomains]; exact hn) h1

/-! ### C66 -/

/-- C66, one process: the lists are built without error, and are what they should be. Also the rest of C49: with communication info every access is to an existing entry. -/
theorem C66_lists (dbg : Bool) {D rank nlocal : Nat} {g2d : List Nat} {m : Tess R} (h : Halo D rank nlocal g2d m) {key : List R → κ} {fkey : Tess R → Nat → Res κ}
    {fk : List (List R) → κ} (hk : ∀ f, f < m.faces.length → fkey m f = .ok (fk (faceCoords D m f))) {srt : List (κ × Nat) → List (κ × Nat)} (hs : Sorts srt)
    (hpos : dbg = true → 0 < nlocal) :
    ∃ m', localMesh dbg D rank nlocal g2d true key fkey srt m = .ok m' ∧ LocalPart D rank g2d key fk m m' := localMesh_spec dbg h hk hs hpos

theorem keys_agree {k1 k2 : Nat → κ} {l1 l2 : List Nat} (h1 : l1.Pairwise fun a b => k1 a ≤ k1 b) (h2 : l2.Pairwise fun a b => k2 a ≤ k2 b) (n1 : l1.Nodup) (n2 : l2.Nodup)
    (i1 : ∀ a ∈ l1, ∀ b ∈ l1, k1 a = k1 b → a = b) (i2 : ∀ a ∈ l2, ∀ b ∈ l2, k2 a = k2 b → a = b) (he : ∀ k, (∃ a ∈ l1, k1 a = k) ↔ ∃ b ∈ l2, k2 b = k) :
    l1.map k1 = l2.map k2 := by
  have strict : ∀ {k : Nat → κ} {l : List Nat}, (l.Pairwise fun a b => k a ≤ k b) → l.Nodup → (∀ a ∈ l, ∀ b ∈ l, k a = k b → a = b) → (l.map k).Pairwise (· < ·) := by
    intro k l h n i
    rw [List.pairwise_map]
    refine List.Pairwise.imp_of_mem ?_ (h.and n)
    intro a b ha hb hab
    exact lt_of_le_of_ne hab.1 fun e => hab.2 (i a ha b hb e)
  refine (strict h1 n1 i1).eq_of_mem_iff (strict h2 n2 i2) fun k => ?_
  rw [List.mem_map, List.mem_map]
  exact he k

section
variable {D n : Nat} {g2d : Nat → List Nat} {halo mesh : Nat → Tess R} {key : List R → κ} {fk : List (List R) → κ}

/-- The nodes of the cells that process `p` owns, in its halo mesh. -/
abbrev ownNodesOf (D : Nat) (g2d : Nat → List Nat) (halo : Nat → Tess R) (p : Nat) : List Nat := Par.nodesOf D (halo p) (cellsBy (g2d p) p)

/-- The faces of the cells that process `p` owns, in its halo mesh. -/
abbrev ownFacesOf (g2d : Nat → List Nat) (halo : Nat → Tess R) (p : Nat) : List Nat := Par.facesOf (halo p) (cellsBy (g2d p) p)

theorem LocalPart.numNodes {rank : Nat} {g : List Nat} {m m' : Tess R} (hc : Consistent D m) (h : LocalPart D rank g key fk m m') :
    numNodes D m' = (Par.nodesOf D m (cellsBy g rank)).length := by
  have := h.part.numNodes_eq hc
  exact this

theorem LocalPart.node {rank : Nat} {g : List Nat} {m m' : Tess R} (hc : Consistent D m) (h : LocalPart D rank g key fk m m') {a : Nat} (ha : a < Mesh.numNodes D m') :
    Mesh.node D m' a = Mesh.node D m (old (Par.nodesOf D m (cellsBy g rank)) a) :=
  h.part.node_eq hc (by rw [h.numNodes hc] at ha; exact ha)

theorem LocalPart.faceCoords {rank : Nat} {g : List Nat} {m m' : Tess R} (hc : Consistent D m) (h : LocalPart D rank g key fk m m') {a : Nat} (ha : a < m'.faces.length) :
    Mesh.faceCoords D m' a = Mesh.faceCoords D m (old (Par.facesOf m (cellsBy g rank)) a) := by
  have hl : m'.faces.length = (Par.facesOf m (cellsBy g rank)).length := h.part.faces_length
  have := congrArg Prod.snd (h.part.faceGeom_eq hc (s := (a : Int)) (by rw [posID_natCast]; omega))
  simp only [faceGeom, posID_oldS] at this
  rw [posID_natCast] at this
  exact this

theorem mem_nodesOf {m : Tess R} (hc : Consistent D m) {g : List Nat} {p a : Nat} (hg : m.cells.length = g.length) :
    a ∈ Par.nodesOf D m (cellsBy g p) ↔ NodeUsed m (cellsBy g p) a := by
  simp only [Par.nodesOf, List.mem_filter, List.mem_range, decide_eq_true_eq]
  refine ⟨fun h => h.2, fun h => ⟨Par.nodeUsed_lt hc h fun c hcm => ?_, h⟩⟩
  rw [hg]; exact (List.getElem?_eq_some_iff.1 (mem_cellsBy.1 hcm)).1

theorem mem_facesOf {m : Tess R} (hc : Consistent D m) {g : List Nat} {p a : Nat} (hg : m.cells.length = g.length) :
    a ∈ Par.facesOf m (cellsBy g p) ↔ FaceUsed m (cellsBy g p) a := by
  simp only [Par.facesOf, List.mem_filter, List.mem_range, decide_eq_true_eq]
  refine ⟨fun h => h.2, fun h => ⟨Par.faceUsed_lt hc h fun c hcm => ?_, h⟩⟩
  rw [hg]; exact (List.getElem?_eq_some_iff.1 (mem_cellsBy.1 hcm)).1

/-- The halo meshes fit together: keys tell the nodes of a process apart, and a node of process `p` has a counterpart on `q` (a node of its cells with the same key)
exactly if in the halo mesh of `p` it belongs to a cell of `q`. -/
structure HalosAgree (D n : Nat) (g2d : Nat → List Nat) (halo : Nat → Tess R) (key : List R → κ) : Prop where
  lt : ∀ p, p < n → ∀ q ∈ (halo p).neighborDomains, q < n
  inj : ∀ p, p < n → ∀ a b, NodeUsed (halo p) (cellsBy (g2d p) p) a → NodeUsed (halo p) (cellsBy (g2d p) p) b →
    key (node D (halo p) a) = key (node D (halo p) b) → a = b
  agree : ∀ p q, p < n → q < n → p ≠ q → ∀ a, NodeUsed (halo p) (cellsBy (g2d p) p) a →
    ((∃ b, NodeUsed (halo q) (cellsBy (g2d q) q) b ∧ key (node D (halo q) b) = key (node D (halo p) a)) ↔ NodeUsed (halo p) (cellsBy (g2d p) q) a)

/-- The same for faces. -/
structure FacesAgree (D n : Nat) (g2d : Nat → List Nat) (halo : Nat → Tess R) (fk : List (List R) → κ) : Prop where
  inj : ∀ p, p < n → ∀ a b, FaceUsed (halo p) (cellsBy (g2d p) p) a → FaceUsed (halo p) (cellsBy (g2d p) p) b →
    fk (faceCoords D (halo p) a) = fk (faceCoords D (halo p) b) → a = b
  agree : ∀ p q, p < n → q < n → p ≠ q → ∀ a, FaceUsed (halo p) (cellsBy (g2d p) p) a →
    ((∃ b, FaceUsed (halo q) (cellsBy (g2d q) q) b ∧ fk (faceCoords D (halo q) b) = fk (faceCoords D (halo p) a)) ↔ FaceUsed (halo p) (cellsBy (g2d p) q) a)

theorem sharing_of_parts {nloc : Nat → Nat} (hH : ∀ p, p < n → Halo D p (nloc p) (g2d p) (halo p)) (hA : HalosAgree D n g2d halo key)
    (hsm : ∀ p, p < n → D * numNodes D (halo p) < 2 ^ 31) (hL : ∀ p, p < n → LocalPart D p (g2d p) key fk (halo p) (mesh p)) (hD : 0 < D) :
    Sharing D n mesh fun p a => key (node D (mesh p) a) := by
  have hc := fun p hp => (hH p hp).consistent
  have hsort : ∀ p, (ownNodesOf D g2d halo p).Pairwise (· < ·) := fun p => Par.filter_range_sorted _ _
  have hmem : ∀ p, p < n → ∀ a, a ∈ ownNodesOf D g2d halo p ↔ NodeUsed (halo p) (cellsBy (g2d p) p) a := fun p hp a => mem_nodesOf (hc p hp) (hH p hp).cells
  have hnn := fun p hp => (hL p hp).numNodes (hc p hp)
  have hused : ∀ p, p < n → ∀ a, a < numNodes D (mesh p) → NodeUsed (halo p) (cellsBy (g2d p) p) (old (ownNodesOf D g2d halo p) a) := by
    intro p hp a ha
    rw [← hmem p hp]; exact old_mem (by rw [hnn p hp] at ha; exact ha)
  have hkey : ∀ p, p < n → ∀ a, a < numNodes D (mesh p) → node D (mesh p) a = node D (halo p) (old (ownNodesOf D g2d halo p) a) :=
    fun p hp a ha => (hL p hp).node (hc p hp) ha
  have hbt : ∀ p, p < n → ∀ q a, a ∈ Par.nodesBetween D (halo p) (cellsBy (g2d p) p) (cellsBy (g2d p) q) ↔
      NodeUsed (halo p) (cellsBy (g2d p) p) a ∧ NodeUsed (halo p) (cellsBy (g2d p) q) a := by
    intro p hp q a
    simp only [Par.nodesBetween, List.mem_filter, List.mem_range, decide_eq_true_eq]
    refine ⟨fun h => h.2, fun h => ⟨?_, h⟩⟩
    have := (hmem p hp a).2 h.1
    simp only [ownNodesOf, Par.nodesOf, List.mem_filter, List.mem_range] at this
    exact this.1
  have hnd : ∀ p, p < n → ∀ q, q ∈ (mesh p).neighborDomains ↔ q ≠ p ∧ q < n ∧
      ∃ a, NodeUsed (halo p) (cellsBy (g2d p) p) a ∧ NodeUsed (halo p) (cellsBy (g2d p) q) a := by
    intro p hp q
    rw [(hL p hp).nbrs, List.mem_filter, decide_eq_true_eq]
    constructor
    · rintro ⟨h1, h2⟩
      refine ⟨fun e => (hH p hp).self (e ▸ h1), hA.lt p hp q h1, ?_⟩
      obtain ⟨a, ha⟩ := List.exists_mem_of_ne_nil _ h2
      exact ⟨a, (hbt p hp q a).1 ha⟩
    · rintro ⟨h1, h2, a, h3, h4⟩
      refine ⟨?_, List.ne_nil_of_mem ((hbt p hp q a).2 ⟨h3, h4⟩)⟩
      obtain ⟨c, hcm, -⟩ := h4
      have := List.mem_of_getElem? (mem_cellsBy.1 hcm)
      exact ((hH p hp).nbr q this).resolve_left h1
  have hperm := fun p hp i q (hi : (mesh p).neighborDomains[i]? = some q) => ((hL p hp).nodes i q hi)
  have hlt : ∀ p, p < n → ∀ (i q : Nat), (mesh p).neighborDomains[i]? = some q → ∀ a ∈ (mesh p).sharedNodes.getD i [], a < numNodes D (mesh p) := by
    intro p hp i q hi a ha
    have hil : i < (mesh p).sharedNodes.length := by rw [(hL p hp).lenN]; exact (List.getElem?_eq_some_iff.1 hi).1
    exact (hL p hp).nodes_lt _ (getD_mem_list hil []) a ha
  have hmemS : ∀ p, p < n → ∀ (i q : Nat), (mesh p).neighborDomains[i]? = some q → ∀ a, a < numNodes D (mesh p) →
      (a ∈ (mesh p).sharedNodes.getD i [] ↔ NodeUsed (halo p) (cellsBy (g2d p) q) (old (ownNodesOf D g2d halo p) a)) := by
    intro p hp i q hi a ha
    have h1 := (hperm p hp i q hi).1
    constructor
    · intro hm
      exact ((hbt p hp q _).1 (h1.mem_iff.1 (List.mem_map.2 ⟨a, hm, rfl⟩))).2
    · intro hu
      obtain ⟨a', ha', hee⟩ := List.mem_map.1 (h1.mem_iff.2 ((hbt p hp q _).2 ⟨hused p hp a ha, hu⟩))
      have hal := hlt p hp i q hi a' ha'
      rw [hnn p hp] at hal ha
      rwa [← old_inj (hsort p) hal ha hee]
  have hinj : ∀ p, p < n → ∀ a b, a < numNodes D (mesh p) → b < numNodes D (mesh p) → key (node D (mesh p) a) = key (node D (mesh p) b) → a = b := by
    intro p hp a b ha hb h
    rw [hkey p hp a ha, hkey p hp b hb] at h
    have := hA.inj p hp _ _ (hused p hp a ha) (hused p hp b hb) h
    rw [hnn p hp] at ha hb
    exact old_inj (hsort p) ha hb this
  -- the keys listed for each other
  have hkeys : ∀ p q, p < n → q < n → ∀ (i j : Nat), (mesh p).neighborDomains[i]? = some q → ∀ k, (∃ a ∈ (mesh p).sharedNodes.getD i [], key (node D (mesh p) a) = k) ↔
      (∃ a, NodeUsed (halo p) (cellsBy (g2d p) p) a ∧ key (node D (halo p) a) = k) ∧ ∃ b, NodeUsed (halo q) (cellsBy (g2d q) q) b ∧ key (node D (halo q) b) = k := by
    intro p q hp hq i j hi k
    have hqp := ((hnd p hp q).1 (List.mem_of_getElem? hi)).1
    constructor
    · rintro ⟨a, ha, rfl⟩
      have hal := hlt p hp i q hi a ha
      rw [hkey p hp a hal]
      exact ⟨⟨_, hused p hp a hal, rfl⟩, (hA.agree p q hp hq (Ne.symm hqp) _ (hused p hp a hal)).2 ((hmemS p hp i q hi a hal).1 ha)⟩
    · rintro ⟨⟨a, ha, rfl⟩, hb⟩
      have hu := (hA.agree p q hp hq (Ne.symm hqp) a ha).1 hb
      obtain ⟨a', ha', rfl⟩ := old_surj ((hmem p hp a).2 ha)
      rw [← hnn p hp] at ha'
      exact ⟨a', (hmemS p hp i q hi a' ha').2 hu, by rw [hkey p hp a' ha']⟩
  refine ⟨hD, ?_, ?_, ?_, fun p hp => (hL p hp).lenN, fun p hp => (hL p hp).nodes_lt, hinj, ?_, ?_, ?_⟩
  · intro p hp q hq
    have := (hnd p hp q).1 hq
    exact ⟨this.2.1, this.1⟩
  · intro p hp
    rw [(hL p hp).nbrs]
    exact (hH p hp).nodup.filter _
  · intro p hp q hq
    obtain ⟨h1, h2, a, h3, h4⟩ := (hnd p hp q).1 hq
    obtain ⟨b, h5, h6⟩ := (hA.agree p q hp h2 (Ne.symm h1) a h3).2 h4
    exact (hnd q h2 p).2 ⟨Ne.symm h1, hp, b, h5, (hA.agree q p h2 hp h1 b h5).1 ⟨a, h3, h6.symm⟩⟩
  · intro p hp i q j hi hj
    have hq := ((hnd p hp q).1 (List.mem_of_getElem? hi)).2.1
    have nodup : ∀ p, p < n → ∀ (i q : Nat), (mesh p).neighborDomains[i]? = some q → ((mesh p).sharedNodes.getD i []).Nodup := by
      intro p hp i q hi
      have h1 := (hperm p hp i q hi).1
      exact List.Nodup.of_map _ (h1.nodup_iff.2 (List.nodup_range.filter _))
    refine keys_agree (hperm p hp i q hi).2 (hperm q hq j p hj).2 (nodup p hp i q hi) (nodup q hq j p hj)
      (fun a ha b hb => hinj p hp a b (hlt p hp i q hi a ha) (hlt p hp i q hi b hb)) (fun a ha b hb => hinj q hq a b (hlt q hq j p hj a ha) (hlt q hq j p hj b hb)) fun k => ?_
    rw [hkeys p q hp hq i j hi k, hkeys q p hq hp j i hj k]
    exact and_comm
  · intro p q hp hq hpq a b ha hb h
    rw [hkey p hp a ha, hkey q hq b hb] at h
    have hu := (hA.agree p q hp hq hpq _ (hused p hp a ha)).1 ⟨_, hused q hq b hb, h.symm⟩
    have hqm : q ∈ (mesh p).neighborDomains := (hnd p hp q).2 ⟨Ne.symm hpq, hq, _, hused p hp a ha, hu⟩
    obtain ⟨i, hi, hiq⟩ := List.getElem_of_mem hqm
    have hi' : (mesh p).neighborDomains[i]? = some q := by rw [List.getElem?_eq_getElem hi, hiq]
    exact ⟨i, hi', (hmemS p hp i q hi' a ha).2 hu⟩
  · intro p hp l hl
    obtain ⟨i, hi, rfl⟩ := List.getElem_of_mem hl
    have hi2 : i < (mesh p).neighborDomains.length := by rw [← (hL p hp).lenN]; exact hi
    have h1 := ((hperm p hp i _ (List.getElem?_eq_getElem hi2)).1).length_eq
    rw [List.length_map] at h1
    have h2 : (mesh p).sharedNodes.getD i [] = (mesh p).sharedNodes[i] := by simp [hi]
    rw [h2] at h1
    have h3 : (Par.nodesBetween D (halo p) (cellsBy (g2d p) p) (cellsBy (g2d p) (mesh p).neighborDomains[i])).length ≤ numNodes D (halo p) := by
      refine le_trans (List.length_filter_le _ _) ?_
      rw [List.length_range]
    exact lt_of_le_of_lt (Nat.mul_le_mul_left _ (by omega)) (hsm p hp)

/-- C66, all processes: if their halo meshes fit together, then the meshes they end up with share consistently (C48's hypothesis): neighbour relations are symmetric,
two processes list the same physical nodes for each other in the same order, and every node present on both is listed. A physical node is identified by its key. -/
theorem C66_sharing (dbg : Bool) {nloc : Nat → Nat} (hH : ∀ p, p < n → Halo D p (nloc p) (g2d p) (halo p)) (hA : HalosAgree D n g2d halo key)
    {fkey : Tess R → Nat → Res κ} (hk : ∀ p, p < n → ∀ f, f < (halo p).faces.length → fkey (halo p) f = .ok (fk (faceCoords D (halo p) f)))
    {srt : Nat → List (κ × Nat) → List (κ × Nat)} (hs : ∀ p, p < n → Sorts (srt p)) (hpos : dbg = true → ∀ p, p < n → 0 < nloc p) (hD : 0 < D)
    (hsm : ∀ p, p < n → D * numNodes D (halo p) < 2 ^ 31) :
    ∃ mesh : Nat → Tess R, (∀ p, p < n → localMesh dbg D p (nloc p) (g2d p) true key fkey (srt p) (halo p) = .ok (mesh p)) ∧
      Sharing D n mesh fun p a => key (node D (mesh p) a) := by
  have : Nonempty (Tess R) := ⟨{}⟩
  choose! mesh h1 h2 using fun p (hp : p < n) => localMesh_spec dbg (hH p hp) (key := key) (hk p hp) (hs p hp) fun hd => hpos hd p hp
  exact ⟨mesh, h1, sharing_of_parts hH hA hsm h2 hD⟩

/-- C66, faces: two neighbours list the same faces for each other, in the same order. -/
theorem C66_faces (dbg : Bool) {nloc : Nat → Nat} (hH : ∀ p, p < n → Halo D p (nloc p) (g2d p) (halo p)) (hA : HalosAgree D n g2d halo key)
    (hF : FacesAgree D n g2d halo fk)
    {fkey : Tess R → Nat → Res κ} (hk : ∀ p, p < n → ∀ f, f < (halo p).faces.length → fkey (halo p) f = .ok (fk (faceCoords D (halo p) f)))
    {srt : Nat → List (κ × Nat) → List (κ × Nat)} (hs : ∀ p, p < n → Sorts (srt p)) (hpos : dbg = true → ∀ p, p < n → 0 < nloc p)
    (hm : ∀ p, p < n → localMesh dbg D p (nloc p) (g2d p) true key fkey (srt p) (halo p) = .ok (mesh p)) {p q i j : Nat} (hp : p < n)
    (hi : (mesh p).neighborDomains[i]? = some q) (hj : (mesh q).neighborDomains[j]? = some p) :
    ((mesh p).sharedFaces.getD i []).map (fun f => fk (faceCoords D (mesh p) f)) = ((mesh q).sharedFaces.getD j []).map fun f => fk (faceCoords D (mesh q) f) := by
  have hL : ∀ p, p < n → LocalPart D p (g2d p) key fk (halo p) (mesh p) := by
    intro p hp
    obtain ⟨m', h1, h2⟩ := localMesh_spec dbg (hH p hp) (key := key) (hk p hp) (hs p hp) fun hd => hpos hd p hp
    rw [hm p hp] at h1
    cases h1
    exact h2
  have hc := fun p hp => (hH p hp).consistent
  have hsort : ∀ p, (ownFacesOf g2d halo p).Pairwise (· < ·) := fun p => Par.filter_range_sorted _ _
  have hqm : q ∈ (halo p).neighborDomains := by
    have := List.mem_of_getElem? hi
    rw [(hL p hp).nbrs] at this
    exact (List.mem_filter.1 this).1
  have hq : q < n := hA.lt p hp q hqm
  have hpq : p ≠ q := fun e => (hH p hp).self (e ▸ hqm)
  have hmem : ∀ p, p < n → ∀ a, a ∈ ownFacesOf g2d halo p ↔ FaceUsed (halo p) (cellsBy (g2d p) p) a := fun p hp a => mem_facesOf (hc p hp) (hH p hp).cells
  have hff : ∀ p, p < n → (mesh p).faces.length = (ownFacesOf g2d halo p).length := fun p hp => (hL p hp).part.faces_length
  have hused : ∀ p, p < n → ∀ a, a < (mesh p).faces.length → FaceUsed (halo p) (cellsBy (g2d p) p) (old (ownFacesOf g2d halo p) a) := by
    intro p hp a ha
    rw [← hmem p hp]; exact old_mem (by rw [hff p hp] at ha; exact ha)
  have hkey : ∀ p, p < n → ∀ a, a < (mesh p).faces.length → faceCoords D (mesh p) a = faceCoords D (halo p) (old (ownFacesOf g2d halo p) a) :=
    fun p hp a ha => (hL p hp).faceCoords (hc p hp) ha
  have hlt : ∀ p, p < n → ∀ (i q : Nat), (mesh p).neighborDomains[i]? = some q → ∀ a ∈ (mesh p).sharedFaces.getD i [], a < (mesh p).faces.length := by
    intro p hp i q hi a ha
    have hil : i < (mesh p).sharedFaces.length := by rw [(hL p hp).lenF]; exact (List.getElem?_eq_some_iff.1 hi).1
    exact (hL p hp).faces_lt _ (getD_mem_list hil []) a ha
  have hinj : ∀ p, p < n → ∀ a b, a < (mesh p).faces.length → b < (mesh p).faces.length → fk (faceCoords D (mesh p) a) = fk (faceCoords D (mesh p) b) → a = b := by
    intro p hp a b ha hb h
    rw [hkey p hp a ha, hkey p hp b hb] at h
    have := hF.inj p hp _ _ (hused p hp a ha) (hused p hp b hb) h
    rw [hff p hp] at ha hb
    exact old_inj (hsort p) ha hb this
  have hbt : ∀ p, p < n → ∀ q a, a ∈ Par.facesBetween (halo p) (cellsBy (g2d p) p) (cellsBy (g2d p) q) ↔
      FaceUsed (halo p) (cellsBy (g2d p) p) a ∧ FaceUsed (halo p) (cellsBy (g2d p) q) a := by
    intro p hp q a
    simp only [Par.facesBetween, List.mem_filter, List.mem_range, decide_eq_true_eq]
    refine ⟨fun h => h.2, fun h => ⟨?_, h⟩⟩
    have := (hmem p hp a).2 h.1
    simp only [ownFacesOf, Par.facesOf, List.mem_filter, List.mem_range] at this
    exact this.1
  have hkeys : ∀ p q, p < n → q < n → p ≠ q → ∀ (i : Nat), (mesh p).neighborDomains[i]? = some q → ∀ k,
      (∃ a ∈ (mesh p).sharedFaces.getD i [], fk (faceCoords D (mesh p) a) = k) ↔
      (∃ a, FaceUsed (halo p) (cellsBy (g2d p) p) a ∧ fk (faceCoords D (halo p) a) = k) ∧ ∃ b, FaceUsed (halo q) (cellsBy (g2d q) q) b ∧ fk (faceCoords D (halo q) b) = k := by
    intro p q hp hq hpq i hi k
    have h1 := ((hL p hp).faces i q hi).1
    constructor
    · rintro ⟨a, ha, rfl⟩
      have hal := hlt p hp i q hi a ha
      rw [hkey p hp a hal]
      refine ⟨⟨_, hused p hp a hal, rfl⟩, (hF.agree p q hp hq hpq _ (hused p hp a hal)).2 ?_⟩
      exact ((hbt p hp q _).1 (h1.mem_iff.1 (List.mem_map.2 ⟨a, ha, rfl⟩))).2
    · rintro ⟨⟨a, ha, rfl⟩, hb⟩
      have hu := (hF.agree p q hp hq hpq a ha).1 hb
      obtain ⟨a', ha', hee⟩ := List.mem_map.1 (h1.mem_iff.2 ((hbt p hp q _).2 ⟨ha, hu⟩))
      exact ⟨a', ha', by rw [hkey p hp a' (hlt p hp i q hi a' ha'), hee]⟩
  have nodup : ∀ p, p < n → ∀ (i q : Nat), (mesh p).neighborDomains[i]? = some q → ((mesh p).sharedFaces.getD i []).Nodup := by
    intro p hp i q hi
    exact List.Nodup.of_map _ (((hL p hp).faces i q hi).1.nodup_iff.2 (List.nodup_range.filter _))
  refine keys_agree ((hL p hp).faces i q hi).2 ((hL q hq).faces j p hj).2 (nodup p hp i q hi) (nodup q hq j p hj)
    (fun a ha b hb => hinj p hp a b (hlt p hp i q hi a ha) (hlt p hp i q hi b hb)) (fun a ha b hb => hinj q hq a b (hlt q hq j p hj a ha) (hlt q hq j p hj b hb)) fun k => ?_
  rw [hkeys p q hp hq hpq i hi k, hkeys q p hq hp (Ne.symm hpq) j hj k]
  exact and_comm
end

omit [LinearOrder κ] in
/-- What the exchange of generators records (C65) is what a halo mesh needs: a consistent tessellation of the generators received, with one cell for each of them in
their order, is a `Halo`. -/
theorem C66_after_C65 {D p : Nat} {nb : List Nat} {num : Nat → Nat} {m : Tess R} (hc : Consistent D m) (hf : ∀ F ∈ m.faces, F ≠ []) (hsn : m.sharedNodes = [])
    (hsf : m.sharedFaces = []) (hnb : m.neighborDomains = nb) (hnd : nb.Nodup) (hself : p ∉ nb)
    (hlen : m.cells.length = ((p :: nb).flatMap fun q => List.replicate (num q) q).length) :
    Halo D p (num p) ((p :: nb).flatMap fun q => List.replicate (num q) q) m := by
  have hr : ∀ q, q ∈ nb.flatMap (fun q => List.replicate (num q) q) → q ∈ nb := by
    intro q hq
    obtain ⟨r, hr, hq⟩ := List.mem_flatMap.1 hq
    rw [List.eq_of_mem_replicate hq]
    exact hr
  subst hnb
  refine ⟨hc, hf, hsn, hsf, hnd, hself, hlen, ?_, ?_, ?_⟩
  · rw [List.flatMap_cons, List.length_append, List.length_replicate]; omega
  · intro c q h
    rw [List.flatMap_cons] at h
    by_cases hcn : c < num p
    · rw [List.getElem?_append_left (by simpa using hcn), List.getElem?_replicate, if_pos hcn] at h
      cases h
      simp [hcn]
    · rw [List.getElem?_append_right (by simpa using hcn)] at h
      have := hr q (List.mem_of_getElem? h)
      exact ⟨fun h => absurd h hcn, fun e => absurd (e ▸ this) hself⟩
  · intro q hq
    rw [List.flatMap_cons] at hq
    rcases List.mem_append.1 hq with hq | hq
    · exact Or.inl (List.eq_of_mem_replicate hq)
    · exact Or.inr (hr q hq)

omit [LinearOrder κ] in
/-- The quantised centroid of a face in two dimensions is a function of the coordinates of its nodes, as `C66_lists` and `C66_sharing` suppose. -/
theorem C66_key2 (dbg : Bool) (key : List R → κ) (mid : κ → κ → κ) {m : Tess R} (hc : Consistent 2 m) (h2 : ∀ F ∈ m.faces, F.length = 2) :
    ∀ f, f < m.faces.length → faceKey2 dbg key mid m f = .ok (mid (key ((faceCoords 2 m f).getD 0 [])) (key ((faceCoords 2 m f).getD 1 []))) := by
  intro f hf
  have hF := face_mem hf
  have e : rd m.faces f = .ok (face m f) := rdG hf []
  have hl := h2 _ hF
  have hn := hc.faces_lt _ hF
  obtain ⟨a, b, hab⟩ := List.length_eq_two.1 hl
  have ha : a < m.nodes.length / 2 := hn a (by rw [hab]; simp)
  have hb : b < m.nodes.length / 2 := hn b (by rw [hab]; simp)
  unfold faceKey2
  rw [Res.assert_true dbg hf, e]
  simp only [Res.bind_eq, Res.bind_ok, Res.assert_true dbg hl]
  have r0 : rd (face m f) 0 = .ok a := by rw [hab]; rfl
  have r1 : rd (face m f) 1 = .ok b := by rw [hab]; rfl
  rw [r0, r1]
  simp only [Res.bind_ok, Res.assert_true dbg ha, Res.assert_true dbg hb]
  rw [mapM_rd ha, mapM_rd hb]
  simp only [faceCoords, hab, List.map_cons, List.map_nil, List.getD_cons_zero, List.getD_cons_succ]
  rfl

omit [LinearOrder κ] in
/-- C66 fails in three dimensions: the centroid of a face is computed by indexing the face with its own node numbers, so any face with a node whose number is not
smaller than the number of nodes of the face is read past its end. -/
theorem C66_key3_fails {dbg : Bool} (zero : R) (add : R → R → R) (fin : Nat → List R → κ) {m : Tess R} {f : Nat} (hf : f < m.faces.length) (h3 : 3 ≤ (face m f).length)
    (hn : ∀ i ∈ face m f, i < numNodes 3 m) {k : Nat} (hk : k ∈ face m f) (hkl : (face m f).length ≤ k) : faceKey3 dbg zero add fin m f = .ub := by
  have e : rd m.faces f = .ok (face m f) := rdG hf []
  unfold faceKey3
  rw [Res.assert_true dbg hf, e]
  simp only [Res.bind_eq, Res.bind_ok, Res.assert_true dbg h3]
  have key : ∀ (l : List Nat) (s : List R), k ∈ l → l.foldlM (fun s i => (rd (face m f) i).bind fun ni =>
      ((List.range 3).mapM fun k => rd m.nodes (3 * ni + k)).bind fun c => (Res.ok (List.zipWith add s c) : Res (List R))) s = .ub := by
    intro l
    induction l with
    | nil => intro s h; simp at h
    | cons i l ih =>
      intro s h
      rw [List.foldlM_cons]
      by_cases hi : i < (face m f).length
      · rw [rdG hi 0, Res.bind_ok]
        have : (face m f).getD i 0 < m.nodes.length / 3 := hn _ (getD_mem_list hi 0)
        rw [mapM_rd this, Res.bind_ok, Res.bind_eq, Res.bind_ok]
        rcases List.mem_cons.1 h with rfl | h
        · omega
        · exact ih _ h
      · rw [rd_ge (by omega)]; rfl
  have := key (face m f) [zero, zero, zero] hk
  simp only [Res.pure_eq]
  rw [this]
  rfl

/-- C66 fails if two shared nodes have the same key: the result of `std::sort` then depends on how the processes number them. Two processes that have the same two
nodes, in different order, list them in different order. -/
theorem C66_ties_fails {D : Nat} (key : List R → κ) {x y : List R} (hx : x.length = D) (hy : y.length = D) (hxy : x ≠ y) (hD : 0 < D) (hk : key x = key y) :
    ∃ srt : List (κ × Nat) → List (κ × Nat), Sorts srt ∧ ∃ m1 m2 : Tess R, m1.nodes = x ++ y ∧ m2.nodes = y ++ x ∧ ∃ l1 l2, sortNodes D key srt m1 [0, 1] = .ok l1 ∧
      sortNodes D key srt m2 [0, 1] = .ok l2 ∧ l1.map (node D m1) ≠ l2.map (node D m2) := by
  refine ⟨fun l => l.insertionSort fun a b => a.1 ≤ b.1, ?_, { nodes := x ++ y }, { nodes := y ++ x }, rfl, rfl, ?_⟩
  · intro l
    have : Std.Total fun a b : κ × Nat => a.1 ≤ b.1 := ⟨fun a b => le_total _ _⟩
    have : IsTrans (κ × Nat) fun a b => a.1 ≤ b.1 := ⟨fun a b c => le_trans⟩
    exact ⟨List.perm_insertionSort _ _, List.pairwise_insertionSort _ _⟩
  · have key0 : ∀ u v : List R, u.length = D → v.length = D → node D ({ nodes := u ++ v } : Tess R) 0 = u ∧ node D ({ nodes := u ++ v } : Tess R) 1 = v := by
      intro u v hu hv
      constructor
      · simp [node, ← hu]
      · simp only [node, Nat.mul_one, ← hu, List.drop_left]
        rw [hu, ← hv, List.take_length]
    have hnn : ∀ u v : List R, u.length = D → v.length = D → numNodes D ({ nodes := u ++ v } : Tess R) = 2 := by
      intro u v hu hv
      simp only [numNodes, List.length_append, hu, hv]
      rw [← Nat.two_mul, Nat.mul_div_cancel _ hD]
    have hsrt : ∀ u v : List R, u.length = D → v.length = D → key u = key v →
        sortNodes D key (fun l => l.insertionSort fun a b => a.1 ≤ b.1) ({ nodes := u ++ v } : Tess R) [0, 1] = .ok [0, 1] := by
      intro u v hu hv huv
      rw [sortNodes_spec key _ (by
        intro i hi
        rw [hnn u v hu hv]
        simp only [List.mem_cons, List.not_mem_nil, or_false] at hi
        omega)]
      simp only [List.map_cons, List.map_nil, (key0 u v hu hv).1, (key0 u v hu hv).2]
      simp [List.insertionSort, List.orderedInsert, huv]
    refine ⟨[0, 1], [0, 1], hsrt x y hx hy hk, hsrt y x hy hx hk.symm, ?_⟩
    simp only [List.map_cons, List.map_nil, (key0 x y hx hy).1, (key0 x y hx hy).2, (key0 y x hy hx).1, (key0 y x hy hx).2]
    intro h
    simp only [List.cons.injEq] at h
    exact hxy h.1

/-! ### A case that meets the hypotheses -/

/-- Two unit squares side by side; the left one belongs to process 0 and the right one to process 1. The two processes number everything differently. -/
def exHalo (p : Nat) : Tess Int :=
  if p = 0 then
    { nodes := [0, 0, 1, 0, 2, 0, 2, 1, 1, 1, 0, 1], faces := [[0, 1], [1, 4], [4, 5], [5, 0], [1, 2], [2, 3], [3, 4]],
      cells := [[0, 1, 2, 3], [4, 5, 6, -2]], faceCells := [[0], [0, -2], [0], [0], [1], [1], [1]], neighborDomains := [1] }
  else
    { nodes := [2, 1, 1, 1, 1, 0, 2, 0, 0, 1, 0, 0], faces := [[2, 3], [3, 0], [0, 1], [1, 2], [5, 2], [1, 4], [4, 5]],
      cells := [[0, 1, 2, 3], [4, -4, 5, 6]], faceCells := [[0], [0], [0], [0, -2], [1], [1], [1]], neighborDomains := [0] }

/-- The owners of the cells. -/
def exOwn (p : Nat) : List Nat := [p, 1 - p]

/-- A key that orders points by their first coordinate, then the second. -/
def exKey (c : List Int) : Int := 10 * c.getD 0 0 + c.getD 1 0

/-- The key of a face. -/
def exFk (c : List (List Int)) : Int := exKey (c.getD 0 []) + exKey (c.getD 1 [])

theorem exHalo_halo : ∀ p, p < 2 → Halo 2 p 1 (exOwn p) (exHalo p) := by
  have own : ∀ p, p < 2 → ∀ (c q : Nat), (exOwn p)[c]? = some q → (c < 1 ↔ q = p) := by
    intro p hp c q h
    rcases c with _ | _ | c <;> simp only [exOwn, List.getElem?_cons_zero, List.getElem?_cons_succ, List.getElem?_nil, Option.some.injEq, reduceCtorEq] at h <;> omega
  intro p hp
  refine ⟨?_, ?_, ?_, ?_, ?_, ?_, ?_, ?_, own p hp, ?_⟩
  · have : p = 0 ∨ p = 1 := by omega
    rcases this with rfl | rfl
    · exact ⟨by decide, by decide, by decide, by decide, by decide, by decide, by decide, by decide⟩
    · exact ⟨by decide, by decide, by decide, by decide, by decide, by decide, by decide, by decide⟩
  all_goals revert p; decide

theorem exHalo_agree : HalosAgree 2 2 exOwn exHalo exKey := by
  have hc := fun p hp => (exHalo_halo p hp).consistent
  have hl := fun p hp => (exHalo_halo p hp).cells
  refine ⟨by decide, ?_, ?_⟩
  · intro p hp a b ha hb
    rw [← mem_nodesOf (hc p hp) (hl p hp)] at ha hb
    have : ∀ p, p < 2 → ∀ a ∈ Par.nodesOf 2 (exHalo p) (cellsBy (exOwn p) p), ∀ b ∈ Par.nodesOf 2 (exHalo p) (cellsBy (exOwn p) p),
        exKey (node 2 (exHalo p) a) = exKey (node 2 (exHalo p) b) → a = b := by decide +kernel
    exact this p hp a ha b hb
  · intro p q hp hq hpq a ha
    rw [← mem_nodesOf (hc p hp) (hl p hp)] at ha
    simp only [← mem_nodesOf (hc q hq) (hl q hq)]
    have : ∀ p, p < 2 → ∀ q, q < 2 → p ≠ q → ∀ a ∈ Par.nodesOf 2 (exHalo p) (cellsBy (exOwn p) p),
        ((∃ b ∈ Par.nodesOf 2 (exHalo q) (cellsBy (exOwn q) q), exKey (node 2 (exHalo q) b) = exKey (node 2 (exHalo p) a)) ↔
          a ∈ Par.nodesOf 2 (exHalo p) (cellsBy (exOwn p) q)) := by decide +kernel
    rw [← mem_nodesOf (hc p hp) (hl p hp)]
    exact this p hp q hq hpq a ha

theorem exHalo_faces : FacesAgree 2 2 exOwn exHalo exFk := by
  have hc := fun p hp => (exHalo_halo p hp).consistent
  have hl := fun p hp => (exHalo_halo p hp).cells
  refine ⟨?_, ?_⟩
  · intro p hp a b ha hb
    rw [← mem_facesOf (hc p hp) (hl p hp)] at ha hb
    have : ∀ p, p < 2 → ∀ a ∈ Par.facesOf (exHalo p) (cellsBy (exOwn p) p), ∀ b ∈ Par.facesOf (exHalo p) (cellsBy (exOwn p) p),
        exFk (faceCoords 2 (exHalo p) a) = exFk (faceCoords 2 (exHalo p) b) → a = b := by decide +kernel
    exact this p hp a ha b hb
  · intro p q hp hq hpq a ha
    rw [← mem_facesOf (hc p hp) (hl p hp)] at ha
    simp only [← mem_facesOf (hc q hq) (hl q hq)]
    have : ∀ p, p < 2 → ∀ q, q < 2 → p ≠ q → ∀ a ∈ Par.facesOf (exHalo p) (cellsBy (exOwn p) p),
        ((∃ b ∈ Par.facesOf (exHalo q) (cellsBy (exOwn q) q), exFk (faceCoords 2 (exHalo q) b) = exFk (faceCoords 2 (exHalo p) a)) ↔
          a ∈ Par.facesOf (exHalo p) (cellsBy (exOwn p) q)) := by decide +kernel
    rw [← mem_facesOf (hc p hp) (hl p hp)]
    exact this p hp q hq hpq a ha

/-- Sorting by insertion meets `Sorts`. -/
theorem insertionSort_sorts : Sorts fun l : List (κ × Nat) => l.insertionSort fun a b => a.1 ≤ b.1 := by
  intro l
  have : Std.Total fun a b : κ × Nat => a.1 ≤ b.1 := ⟨fun a b => le_total _ _⟩
  have : IsTrans (κ × Nat) fun a b => a.1 ≤ b.1 := ⟨fun a b c => le_trans⟩
  exact ⟨List.perm_insertionSort _ _, List.pairwise_insertionSort _ _⟩

theorem exHalo_key : ∀ p, p < 2 → ∀ f, f < (exHalo p).faces.length → faceKey2 true exKey (· + ·) (exHalo p) f = .ok (exFk (faceCoords 2 (exHalo p) f)) := by
  have h2 : ∀ p, p < 2 → ∀ F ∈ (exHalo p).faces, F.length = 2 := by decide
  exact fun p hp f hf => C66_key2 true exKey (· + ·) (exHalo_halo p hp).consistent (h2 p hp) f hf

/-- All the steps one after the other: the two processes cut out their squares, exchange nodes, and whatever the order of steps end with the same coordinates for
nodes at the same place. -/
example : ∃ mesh : Nat → Tess Int, (∀ p, p < 2 → localMesh true 2 p 1 (exOwn p) true exKey (faceKey2 true exKey (· + ·)) (fun l => l.insertionSort fun a b => a.1 ≤ b.1)
    (exHalo p) = .ok (mesh p)) ∧ Sharing 2 2 mesh fun p a => exKey (node 2 (mesh p) a) :=
  C66_sharing true exHalo_halo exHalo_agree exHalo_key (srt := fun _ l => l.insertionSort fun a b => a.1 ≤ b.1) (fun _ _ => insertionSort_sorts) (by decide) (by decide) (by decide)

example (mesh : Nat → Tess Int) (hm : ∀ p, p < 2 → localMesh true 2 p 1 (exOwn p) true exKey (faceKey2 true exKey (· + ·)) (fun l => l.insertionSort fun a b => a.1 ≤ b.1)
    (exHalo p) = .ok (mesh p)) (h0 : (mesh 0).neighborDomains[0]? = some 1) (h1 : (mesh 1).neighborDomains[0]? = some 0) :
    ((mesh 0).sharedFaces.getD 0 []).map (fun f => exFk (faceCoords 2 (mesh 0) f)) = ((mesh 1).sharedFaces.getD 0 []).map fun f => exFk (faceCoords 2 (mesh 1) f) :=
  C66_faces true exHalo_halo exHalo_agree exHalo_faces exHalo_key (srt := fun _ l => l.insertionSort fun a b => a.1 ≤ b.1) (fun _ _ => insertionSort_sorts) (by decide) hm
    (by decide) h0 h1

example : Halo 2 0 1 [0, 1] (exHalo 0) :=
  C66_after_C65 (nb := [1]) (num := fun _ => 1) (exHalo_halo 0 (by decide)).consistent (exHalo_halo 0 (by decide)).faces_ne rfl rfl rfl (by decide) (by decide) (by decide)

/-- A tetrahedron with three of its faces listed: its second face has the node 3. -/
example : faceKey3 true (0 : Int) (· + ·) (fun _ c => c) { nodes := [0, 0, 0, 1, 0, 0, 0, 1, 0, 0, 0, 1], faces := [[0, 1, 2], [0, 1, 3]] } 1 = .ub :=
  C66_key3_fails 0 (· + ·) (fun _ c => c) (by decide) (by decide) (by decide) (k := 3) (by decide) (by decide)

example : ∃ srt : List (Int × Nat) → List (Int × Nat), Sorts srt ∧ ∃ m1 m2 : Tess Int, m1.nodes = [3, 4] ++ [5, 4] ∧ m2.nodes = [5, 4] ++ [3, 4] ∧ ∃ l1 l2,
    sortNodes 2 (fun c => c.getD 0 0 / 3) srt m1 [0, 1] = .ok l1 ∧ sortNodes 2 (fun c => c.getD 0 0 / 3) srt m2 [0, 1] = .ok l2 ∧
    l1.map (node 2 m1) ≠ l2.map (node 2 m2) := C66_ties_fails _ rfl rfl (by decide) (by decide) (by decide)

example : localMesh true 2 0 1 (exOwn 0) false exKey (faceKey2 true exKey (· + ·)) (fun l => l) (exHalo 0) = .ub :=
  C49_default_fails true (exHalo_halo 0 (by decide)) _ _ _ (by decide) (by decide)

end Verif.Exch
