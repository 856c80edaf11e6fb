import Verif.Model.Distributed
import Verif.Proofs.VoronoiGeom
import Verif.Props.Comm
import Verif.Props.Neighbors
/- Cells, nodes and faces of meshes that show Voronoi cells, and how the meshes of different processes fit together. -/
namespace Verif.Nbr
open Verif Verif.Mesh Verif.Geom Verif.Exch
section
variable {K κ : Type} [Field K] [LinearOrder K] [IsStrictOrderedRing K]

/-! ### Lists of generators -/

omit [LinearOrder K] [IsStrictOrderedRing K] in
theorem pts2_gensOf {points : List (List K)} (he : ∀ l ∈ points, l.length % 2 = 0) (ps : List Nat) : pts2 (gensOf points ps) = ps.flatMap fun q => pts2 (points.getD q []) := by
  have he' : ∀ q, (points.getD q []).length % 2 = 0 := by
    intro q
    by_cases hq : q < points.length
    · simp only [List.getD, List.getElem?_eq_getElem hq, Option.getD_some]
      exact he _ (List.getElem_mem hq)
    · simp [List.getD, List.getElem?_eq_none (not_lt.1 hq)]
  induction ps with
  | nil => simp [gensOf, pts2, corners]
  | cons q ps ih =>
    have : gensOf points (q :: ps) = points.getD q [] ++ gensOf points ps := rfl
    rw [this, pts2_append (he' q), ih, List.flatMap_cons]

/-- Numbers, owners and values in parts of a list put one after the other. -/
theorem owner_value {α : Type} {f : Nat → List α} : ∀ {ps : List Nat} {c q : Nat}, (ps.flatMap fun q => List.replicate (f q).length q)[c]? = some q →
    q ∈ ps ∧ ∃ P ∈ f q, (ps.flatMap f)[c]? = some P
  | [], c, q, h => by simp at h
  | r :: ps, c, q, h => by
    rw [List.flatMap_cons] at h ⊢
    by_cases hc : c < (f r).length
    · rw [List.getElem?_append_left (by simpa using hc), List.getElem?_replicate, if_pos hc] at h
      cases h
      refine ⟨by simp, (f r)[c], List.getElem_mem hc, ?_⟩
      rw [List.getElem?_append_left hc, List.getElem?_eq_getElem hc]
    · rw [List.getElem?_append_right (by simpa using hc), List.length_replicate] at h
      obtain ⟨h1, P, h2, h3⟩ := owner_value h
      exact ⟨by simp [h1], P, h2, by rw [List.getElem?_append_right (not_lt.1 hc)]; exact h3⟩

theorem value_owner {α : Type} {f : Nat → List α} : ∀ {ps : List Nat} {q : Nat} {P : α}, q ∈ ps → P ∈ f q →
    ∃ c : Nat, (ps.flatMap fun q => List.replicate (f q).length q)[c]? = some q ∧ (ps.flatMap f)[c]? = some P
  | r :: ps, q, P, hq, hP => by
    rw [List.flatMap_cons, List.flatMap_cons]
    by_cases h : q = r
    · subst h
      obtain ⟨c, hc, rfl⟩ := List.mem_iff_getElem.1 hP
      exact ⟨c, by rw [List.getElem?_append_left (by simpa using hc), List.getElem?_replicate, if_pos hc], by rw [List.getElem?_append_left hc, List.getElem?_eq_getElem hc]⟩
    · obtain ⟨c, h1, h2⟩ := value_owner (List.mem_of_ne_of_mem h hq) hP
      refine ⟨(f r).length + c, ?_, ?_⟩
      · rw [List.getElem?_append_right (by simp), List.length_replicate, Nat.add_sub_cancel_left]; exact h1
      · rw [List.getElem?_append_right (by simp), Nat.add_sub_cancel_left]; exact h2

/-! ### Nodes and faces of a mesh that shows Voronoi cells -/

omit [IsStrictOrderedRing K] [LinearOrder K] in
theorem coords_inj {u v : V2 K} (h : coords u = coords v) : u = v := by
  unfold coords at h
  simp only [List.cons.injEq, and_true] at h
  exact V2.ext h.1 h.2

omit [IsStrictOrderedRing K] [LinearOrder K] in
theorem mem_oriented {m : Tess K} {s : Int} {c : List K} : c ∈ orientedCoords 2 m s ↔ ∃ n ∈ face m (posID s), node 2 m n = c := by
  unfold orientedCoords
  simp only
  split <;> simp

omit [IsStrictOrderedRing K] [LinearOrder K] in
/-- The nodes of a cell are at the corners. -/
theorem cell_node {m : Tess K} {i : Nat} {A : List (V2 K)} (h : CellIs m i A) {s : Int} (hs : s ∈ cell m i) {n : Nat} (hn : n ∈ face m (posID s)) : ∃ v ∈ A, node 2 m n = coords v := by
  have h1 : orientedCoords 2 m s ∈ (dirSides A).map fun e => [[e.1.x, e.1.y], [e.2.x, e.2.y]] := by rw [← h]; exact List.mem_map.2 ⟨s, hs, rfl⟩
  obtain ⟨⟨u, v⟩, he, hee⟩ := List.mem_map.1 h1
  have h2 : node 2 m n ∈ orientedCoords 2 m s := mem_oriented.2 ⟨n, hn, rfl⟩
  rw [← hee] at h2
  rcases List.mem_pair.1 h2 with h2 | h2
  · exact ⟨u, fst_mem_of_dirSides he, h2⟩
  · exact ⟨v, snd_mem_of_dirSides he, h2⟩

omit [IsStrictOrderedRing K] [LinearOrder K] in
theorem cell_corner {m : Tess K} {i : Nat} {A : List (V2 K)} (h : CellIs m i A) {v : V2 K} (hv : v ∈ A) : ∃ s ∈ cell m i, ∃ n ∈ face m (posID s), node 2 m n = coords v := by
  obtain ⟨u, hu⟩ := exists_side_from hv
  have h1 : [[v.x, v.y], [u.x, u.y]] ∈ (cell m i).map (orientedCoords 2 m) := by rw [h]; exact List.mem_map.2 ⟨(v, u), hu, rfl⟩
  obtain ⟨s, hs, e⟩ := List.mem_map.1 h1
  have h2 : coords v ∈ orientedCoords 2 m s := by rw [e]; simp [coords]
  exact ⟨s, hs, mem_oriented.1 h2⟩

theorem cell_extreme {m : Tess K} {S : List (V2 K)} {Dom : V2 K → Prop} (hm : ShowsVoronoi m S Dom) {c : Nat} {P : V2 K} (hP : S[c]? = some P) {s : Int} (hs : s ∈ cell m c) {n : Nat}
    (hn : n ∈ face m (posID s)) : ∃ v, Extreme (InCell S Dom P) v ∧ node 2 m n = coords v := by
  obtain ⟨A, hA, hc, hx⟩ := hm.shape c P hP
  obtain ⟨v, hv, e⟩ := cell_node hc hs hn
  exact ⟨v, (extreme_congr hx).1 ((extreme_corner hA).2 hv), e⟩

theorem extreme_cell {m : Tess K} {S : List (V2 K)} {Dom : V2 K → Prop} (hm : ShowsVoronoi m S Dom) {c : Nat} {P : V2 K} (hP : S[c]? = some P) {v : V2 K}
    (hv : Extreme (InCell S Dom P) v) : ∃ s ∈ cell m c, ∃ n ∈ face m (posID s), node 2 m n = coords v := by
  obtain ⟨A, hA, hc, hx⟩ := hm.shape c P hP
  exact cell_corner hc ((extreme_corner hA).1 ((extreme_congr hx).2 hv))

theorem face_lt_of_cell {m : Tess K} (hc : Consistent 2 m) {c : Nat} {s : Int} (hs : s ∈ cell m c) : posID s < m.faces.length := by
  have hcl : c < m.cells.length := by
    by_contra h
    simp [cell, List.getD, List.getElem?_eq_none (not_lt.1 h)] at hs
  exact hc.cells_lt _ (cell_mem hcl) s hs

theorem node_lt_of_cell {m : Tess K} (hc : Consistent 2 m) {c : Nat} {s : Int} (hs : s ∈ cell m c) {n : Nat} (hn : n ∈ face m (posID s)) : n < numNodes 2 m :=
  hc.faces_lt _ (face_mem (face_lt_of_cell hc hs)) n hn

/-- Which nodes the cells of a process have. -/
theorem nodeUsed_iff {m : Tess K} {S : List (V2 K)} {Dom : V2 K → Prop} (hm : GoodMesh m S Dom) {g2d : List Nat} (hlen : S.length = g2d.length) {q a : Nat} :
    NodeUsed m (cellsBy g2d q) a ↔ a < numNodes 2 m ∧ ∃ (c : Nat) (P v : V2 K), g2d[c]? = some q ∧ S[c]? = some P ∧ Extreme (InCell S Dom P) v ∧ node 2 m a = coords v := by
  constructor
  · rintro ⟨c, hc, s, hs, hn⟩
    have hcg := mem_cellsBy.1 hc
    have hlt : c < S.length := by rw [hlen]; exact (List.getElem?_eq_some_iff.1 hcg).1
    obtain ⟨v, h1, h2⟩ := cell_extreme hm.shows (List.getElem?_eq_getElem hlt) hs hn
    exact ⟨node_lt_of_cell hm.shows.consistent hs hn, c, _, v, hcg, List.getElem?_eq_getElem hlt, h1, h2⟩
  · rintro ⟨hlt, c, P, v, h1, h2, h3, h4⟩
    obtain ⟨s, hs, n, hn, e⟩ := extreme_cell hm.shows h2 h3
    have := hm.nodes n a (node_lt_of_cell hm.shows.consistent hs hn) hlt (by rw [e, h4])
    exact ⟨c, mem_cellsBy.2 h1, s, hs, this ▸ hn⟩

/-- The ends of a face, in one order or the other. -/
def HasEnds (m : Tess K) (f : Nat) (u v : V2 K) : Prop := faceCoords 2 m f = [coords u, coords v] ∨ faceCoords 2 m f = [coords v, coords u]

theorem oriented_ends {m : Tess K} {s : Int} {u v : V2 K} (h : orientedCoords 2 m s = [coords u, coords v]) : HasEnds m (posID s) u v := by
  unfold orientedCoords at h
  unfold HasEnds faceCoords
  simp only at h
  split at h
  · exact Or.inl h
  · right
    have := congrArg List.reverse h
    simpa using this

omit [LinearOrder K] [IsStrictOrderedRing K] in
theorem HasEnds.symm {m : Tess K} {f : Nat} {u v : V2 K} (h : HasEnds m f u v) : HasEnds m f v u := Or.symm h

omit [LinearOrder K] [IsStrictOrderedRing K] in
theorem HasEnds.same {m : Tess K} {f : Nat} {u v u' v' : V2 K} (h : HasEnds m f u v) (h' : HasEnds m f u' v') : (u = u' ∧ v = v') ∨ (u = v' ∧ v = u') := by
  unfold HasEnds at h h'
  have key : ∀ {a b c d : V2 K}, [coords a, coords b] = [coords c, coords d] → a = c ∧ b = d := by
    intro a b c d e
    simp only [List.cons.injEq, and_true] at e
    exact ⟨coords_inj e.1, coords_inj e.2⟩
  rcases h with h | h <;> rcases h' with h' | h' <;> rw [h] at h' <;> have := key h'
  · exact Or.inl this
  · exact Or.inr this
  · exact Or.inr ⟨this.2, this.1⟩
  · exact Or.inl ⟨this.2, this.1⟩

/-- No two faces have the same ends. -/
theorem ends_unique {m : Tess K} {S : List (V2 K)} {Dom : V2 K → Prop} (hm : GoodMesh m S Dom) {e f : Nat} (he : e < m.faces.length) (hf : f < m.faces.length) {u v : V2 K} (h : HasEnds m e u v)
    (h' : HasEnds m f u v) : e = f := by
  have hc := hm.shows.consistent
  have key : ∀ g, g < m.faces.length → HasEnds m g u v → ∀ n, n ∈ face m g ↔ n < numNodes 2 m ∧ (node 2 m n = coords u ∨ node 2 m n = coords v) := by
    intro g hg hge n
    have hlt : ∀ k ∈ face m g, k < numNodes 2 m := hc.faces_lt _ (face_mem hg)
    have hmem : ∀ x, x ∈ faceCoords 2 m g ↔ x = coords u ∨ x = coords v := by
      intro x
      rcases hge with h | h <;> rw [h]
      · simp
      · simp [or_comm]
    constructor
    · intro hn
      exact ⟨hlt n hn, (hmem _).1 (List.mem_map.2 ⟨n, hn, rfl⟩)⟩
    · rintro ⟨h7, h8⟩
      obtain ⟨k, hk, e⟩ := List.mem_map.1 ((hmem _).2 h8)
      rwa [← hm.nodes k n (hlt k hk) h7 e]
  exact hm.faces _ _ he hf fun n => by rw [key _ he h, key f hf h']

theorem side_face {m : Tess K} {S : List (V2 K)} {Dom : V2 K → Prop} (hm : ShowsVoronoi m S Dom) {c : Nat} {P : V2 K} (hP : S[c]? = some P) {u v : V2 K}
    (h : SideOf (InCell S Dom P) u v) : ∃ s ∈ cell m c, HasEnds m (posID s) u v := by
  obtain ⟨A, hA, hcA, hx⟩ := hm.shape c P hP
  have he := (side_iff hA).2 ((sideOf_congr hx).2 h)
  have h5 : [coords u, coords v] ∈ (cell m c).map (orientedCoords 2 m) := by rw [hcA]; exact List.mem_map.2 ⟨(u, v), he, rfl⟩
  obtain ⟨s, hs, e⟩ := List.mem_map.1 h5
  exact ⟨s, hs, oriented_ends e⟩

/-- Which faces the cells of a process have. -/
theorem faceUsed_iff {m : Tess K} {S : List (V2 K)} {Dom : V2 K → Prop} (hm : GoodMesh m S Dom) {g2d : List Nat} (hlen : S.length = g2d.length) {q f : Nat} :
    FaceUsed m (cellsBy g2d q) f ↔ f < m.faces.length ∧ ∃ (c : Nat) (P u v : V2 K), g2d[c]? = some q ∧ S[c]? = some P ∧ SideOf (InCell S Dom P) u v ∧ HasEnds m f u v := by
  have hc := hm.shows.consistent
  constructor
  · rintro ⟨c, hcm, s, hs, rfl⟩
    have hcg := mem_cellsBy.1 hcm
    have hlt : c < S.length := by rw [hlen]; exact (List.getElem?_eq_some_iff.1 hcg).1
    have hP : S[c]? = some S[c] := List.getElem?_eq_getElem hlt
    obtain ⟨A, hA, hcA, hx⟩ := hm.shows.shape c _ hP
    have h1 : orientedCoords 2 m s ∈ (dirSides A).map fun e => [[e.1.x, e.1.y], [e.2.x, e.2.y]] := by rw [← hcA]; exact List.mem_map.2 ⟨s, hs, rfl⟩
    obtain ⟨⟨u, v⟩, he, hee⟩ := List.mem_map.1 h1
    exact ⟨face_lt_of_cell hc hs, c, _, u, v, hcg, hP, (sideOf_congr hx).1 ((side_iff hA).1 he), oriented_ends hee.symm⟩
  · rintro ⟨hf, c, P, u, v, h1, h2, h3, h4⟩
    obtain ⟨s, hs, h6⟩ := side_face hm.shows h2 h3
    exact ⟨c, mem_cellsBy.2 h1, s, hs, ends_unique hm (face_lt_of_cell hc hs) hf h6 h4⟩

/-! ### Part of a mesh -/

omit [Field K] [LinearOrder K] [IsStrictOrderedRing K] in
theorem restricts_oriented {m m' : Tess K} {kn kf kc : List Nat} (hc : Consistent 2 m) (h : Restricts 2 m kn kf kc m') {s : Int} (hs : posID s < kf.length) :
    orientedCoords 2 m' s = orientedCoords 2 m (oldS kf s) := by
  have := congrArg Prod.snd (h.faceGeom_eq hc hs)
  simp only [faceGeom] at this
  unfold orientedCoords
  simp only [nonneg_oldS, this]

omit [LinearOrder K] [IsStrictOrderedRing K] in
theorem restricts_cellIs {m m' : Tess K} {kn kf kc : List Nat} (hc : Consistent 2 m) (h : Restricts 2 m kn kf kc m') {c : Nat} (hcl : c < kc.length) {A : List (V2 K)}
    (hA : CellIs m (old kc c) A) : CellIs m' c A := by
  unfold CellIs at *
  rw [← hA, ← h.cell_eq hcl, List.map_map]
  exact List.map_congr_left fun s hs => restricts_oriented hc h (h.cell_lt hcl hs)

omit [Field K] [LinearOrder K] [IsStrictOrderedRing K] in
theorem restricts_loop {m m' : Tess K} {kn kf kc : List Nat} (hc : Consistent 2 m) (h : Restricts 2 m kn kf kc m') (h2 : ∀ F ∈ m.faces, F.length = 2) {c : Nat} (hcl : c < kc.length)
    (hl : Editor.ClosedLoop m (cell m (old kc c))) : Editor.ClosedLoop m' (cell m' c) := by
  have hlen : ∀ f, f < kf.length → (face m' f).length = 2 := by
    intro f hf
    have := congrArg List.length (h.face_eq hf)
    rw [List.length_map, h2 _ (face_mem (h.kf_lt hc _ (old_mem hf)))] at this
    exact this
  have hend : ∀ (s : Int), posID s < kf.length → ∀ k, k < 2 → (face m' (posID s)).getD k 0 < kn.length ∧ (face m (posID (oldS kf s))).getD k 0 = old kn ((face m' (posID s)).getD k 0) := by
    intro s hs k hk
    have hk' : k < (face m' (posID s)).length := by rw [hlen _ hs]; exact hk
    refine ⟨h.face_lt hs (getD_mem_list hk' 0), ?_⟩
    rw [posID_oldS, ← h.face_eq hs]
    simp [List.getD, hk']
  have htl : ∀ (s : Int), posID s < kf.length → Editor.tail m' s < kn.length ∧ Editor.tail m (oldS kf s) = old kn (Editor.tail m' s) := by
    intro s hs
    unfold Editor.tail
    simp only [nonneg_oldS]
    split
    · exact hend s hs 0 (by omega)
    · exact hend s hs 1 (by omega)
  have hhd : ∀ (s : Int), posID s < kf.length → Editor.head m' s < kn.length ∧ Editor.head m (oldS kf s) = old kn (Editor.head m' s) := by
    intro s hs
    unfold Editor.head
    simp only [nonneg_oldS]
    split
    · exact hend s hs 1 (by omega)
    · exact hend s hs 0 (by omega)
  have key : ∀ (C : List Int) a b, (∀ s ∈ C, posID s < kf.length) → a < kn.length → b < kn.length → Editor.Path m (old kn a) (C.map (oldS kf)) (old kn b) → Editor.Path m' a C b := by
    intro C
    induction C with
    | nil => intro a b _ ha hb hp; exact old_inj h.kn_sorted ha hb hp
    | cons s C ih =>
      rintro a b hC ha hb ⟨h3, h4⟩
      have hs := hC s (by simp)
      rw [(htl s hs).2] at h3
      refine ⟨old_inj h.kn_sorted (htl s hs).1 ha h3, ih _ _ (fun t ht => hC t (by simp [ht])) (hhd s hs).1 hb ?_⟩
      rw [← (hhd s hs).2]; exact h4
  rw [← h.cell_eq hcl] at hl
  have hC := fun s (hs : s ∈ cell m' c) => h.cell_lt hcl hs
  obtain ⟨a, ha⟩ := hl
  generalize cell m' c = C at ha hC
  cases C with
  | nil => exact ⟨0, rfl⟩
  | cons s C =>
    have hs := hC s (by simp)
    have := ha.1
    rw [(htl s hs).2] at this
    subst this
    exact ⟨_, key _ _ _ hC (htl s hs).1 (htl s hs).1 ha⟩

omit [IsStrictOrderedRing K] in
/-- The part of a good mesh that has the first cells. -/
theorem restricts_part {m m' : Tess K} {S own : List (V2 K)} {Dom : V2 K → Prop} {kn kf kc : List Nat} (hm : GoodMesh m S Dom) (h : Restricts 2 m kn kf kc m')
    (hkc : kc = List.range own.length) (hS : ∀ (i : Nat) P, own[i]? = some P → S[i]? = some P) : ShowsPart m' own S Dom := by
  have hc := hm.shows.consistent
  have hcl : kc.length = own.length := by rw [hkc, List.length_range]
  have hold : ∀ i, i < own.length → old kc i = i := by
    intro i hi
    rw [old_lt (by omega)]; simp [hkc]
  have hSlt : ∀ i, i < own.length → i < S.length := fun i hi => (List.getElem?_eq_some_iff.1 (hS i _ (List.getElem?_eq_getElem hi))).1
  refine ⟨h.consistent hc, ?_, by rw [h.cells_length, hcl], ?_, ?_, ?_, ?_⟩
  · intro F hF
    obtain ⟨f, hf, rfl⟩ := List.getElem_of_mem hF
    have hf' : f < kf.length := by rw [← h.faces_length]; exact hf
    have := congrArg List.length (h.face_eq hf')
    rw [List.length_map, hm.shows.segments _ (face_mem (h.kf_lt hc _ (old_mem hf')))] at this
    simpa [face, hf] using this
  · intro i hi
    refine restricts_loop hc h hm.shows.segments (by omega) ?_
    rw [hold i hi]
    exact hm.shows.loop i (hSlt i hi)
  · intro i P hP
    have hi := (List.getElem?_eq_some_iff.1 hP).1
    obtain ⟨A, hA, hA2, hA3⟩ := hm.shows.shape i P (hS i P hP)
    exact ⟨A, hA, restricts_cellIs hc h (by omega) (by rw [hold i hi]; exact hA2), hA3⟩
  · intro a b ha hb hab
    rw [h.numNodes_eq hc] at ha hb
    rw [h.node_eq hc ha, h.node_eq hc hb] at hab
    exact old_inj h.kn_sorted ha hb (hm.nodes _ _ (h.kn_lt hc _ (old_mem ha)) (h.kn_lt hc _ (old_mem hb)) hab)
  · intro e f he hf hef
    rw [h.faces_length] at he hf
    refine old_inj h.kf_sorted he hf (hm.faces _ _ (h.kf_lt hc _ (old_mem he)) (h.kf_lt hc _ (old_mem hf)) fun n => ?_)
    rw [← h.face_eq he, ← h.face_eq hf]
    simp only [List.mem_map, hef]
end
end Verif.Nbr
