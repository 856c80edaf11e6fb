import Verif.Proofs.DeleteCells
import Mathlib.Data.List.Sort
/- Consequences of `Restricts`, independent of how the restriction was computed. -/
namespace Verif.Mesh
open Verif
variable {R : Type}

theorem old_lt {k : List Nat} {i : Nat} (h : i < k.length) : old k i = k[i] := by simp [old, h]
theorem old_mem {k : List Nat} {i : Nat} (h : i < k.length) : old k i ∈ k := by rw [old_lt h]; exact List.getElem_mem h
theorem old_inj {k : List Nat} (hk : k.Pairwise (· < ·)) {i j : Nat} (hi : i < k.length) (hj : j < k.length) (h : old k i = old k j) :
    i = j := by
  rw [old_lt hi, old_lt hj] at h
  rcases Nat.lt_trichotomy i j with hl | hl | hl
  · have := List.pairwise_iff_getElem.1 hk i j hi hj hl; omega
  · exact hl
  · have := List.pairwise_iff_getElem.1 hk j i hj hi hl; omega
theorem old_surj {k : List Nat} {n : Nat} (h : n ∈ k) : ∃ i, i < k.length ∧ old k i = n := by
  obtain ⟨i, hi, rfl⟩ := List.getElem_of_mem h
  exact ⟨i, hi, old_lt hi⟩
theorem old_mono {k : List Nat} (hk : k.Pairwise (· < ·)) {i j : Nat} (hj : j < k.length) (h : i < j) : old k i < old k j := by
  have hi : i < k.length := by omega
  rw [old_lt hi, old_lt hj]
  exact List.pairwise_iff_getElem.1 hk i j hi hj h
theorem old_map {k : List Nat} {g : Nat → Nat} {i : Nat} (h : i < k.length) : old (k.map g) i = g (old k i) := by
  simp [old, h]

@[simp] theorem posID_oldS (k : List Nat) (s : Int) : posID (oldS k s) = old k (posID s) := by
  by_cases h : 0 ≤ s <;> simp [oldS, h]
theorem nonneg_oldS (k : List Nat) (s : Int) : 0 ≤ oldS k s ↔ 0 ≤ s := by
  by_cases h : 0 ≤ s
  · simp [oldS, h]
  · simp [oldS, h, not_nonneg_flip]
theorem oldS_inj {k : List Nat} (hk : k.Pairwise (· < ·)) {s t : Int} (hs : posID s < k.length) (ht : posID t < k.length)
    (h : oldS k s = oldS k t) : s = t := by
  have h1 : posID s = posID t := old_inj hk hs ht (by rw [← posID_oldS, ← posID_oldS, h])
  have h2 : 0 ≤ s ↔ 0 ≤ t := by rw [← nonneg_oldS k s, ← nonneg_oldS k t, h]
  by_cases h0 : 0 ≤ s
  · rw [eq_of_nonneg h0, eq_of_nonneg (h2.1 h0), h1]
  · rw [eq_flip_of_neg h0, eq_flip_of_neg (fun h => h0 (h2.2 h)), h1]

theorem map_inj_on {α β : Type} {f : α → β} : ∀ {l l' : List α}, (∀ a ∈ l, ∀ b ∈ l', f a = f b → a = b) → l.map f = l'.map f → l = l'
  | [], [], _, _ => rfl
  | a :: l, b :: l', h, e => by
    simp only [List.map_cons, List.cons.injEq] at e
    rw [h a (by simp) b (by simp) e.1, map_inj_on (fun x hx y hy => h x (by simp [hx]) y (by simp [hy])) e.2]
  | [], _ :: _, _, e => by simp at e
  | _ :: _, [], _, e => by simp at e

theorem count_map_on {α β : Type} [BEq α] [LawfulBEq α] [BEq β] [LawfulBEq β] {f : α → β} {a : α} : ∀ {l : List α},
    (∀ x ∈ l, f x = f a → x = a) → (l.map f).count (f a) = l.count a
  | [], _ => rfl
  | b :: l, h => by
    have ih := count_map_on (l := l) (fun x hx => h x (by simp [hx]))
    by_cases hb : b = a
    · subst hb; simp [ih]
    · have : f b ≠ f a := fun e => hb (h b (by simp) e)
      simp [List.count_cons, hb, this, ih]

theorem sorted_ext {l l' : List Nat} (h : l.Pairwise (· < ·)) (h' : l'.Pairwise (· < ·)) (he : ∀ a, a ∈ l ↔ a ∈ l') : l = l' :=
  h.eq_of_mem_iff h' he

/-! ### reading the tables of the restriction -/

theorem node_length {D : Nat} {m : Tess R} {n : Nat} (hn : n < numNodes D m) : (node D m n).length = D := by
  have hD : 0 < D := by
    rcases Nat.eq_zero_or_pos D with h | h
    · subst h; simp [numNodes] at hn
    · exact h
  have h1 : D * numNodes D m ≤ m.nodes.length := Nat.mul_div_le _ _
  have : D * n + D ≤ D * numNodes D m := by
    calc D * n + D = D * (n + 1) := by rw [Nat.mul_succ]
      _ ≤ _ := Nat.mul_le_mul_left _ hn
  simp [node]; omega

theorem take_drop_flatMap {D : Nat} {g : Nat → List R} : ∀ {k : List Nat}, (∀ n ∈ k, (g n).length = D) → ∀ j (hj : j < k.length),
    ((k.flatMap g).drop (D * j)).take D = g k[j]
  | n :: k, h, 0, _ => by
    have := h n (by simp)
    simp [this]
  | n :: k, h, j + 1, hj => by
    have := h n (by simp)
    have e : D * (j + 1) = (g n).length + D * j := by rw [this, Nat.mul_succ, Nat.add_comm]
    rw [List.flatMap_cons, e, List.drop_append]
    simp only [List.getElem_cons_succ]
    rw [List.drop_eq_nil_of_le (by omega), List.nil_append]
    have := take_drop_flatMap (k := k) (fun n hn => h n (by simp [hn])) j (by simpa using hj)
    rw [← this]; congr 2; omega

section
variable {D : Nat} {m m' : Tess R} {kn kf kc : List Nat}

theorem Restricts.kf_lt (hc : Consistent D m) (h : Restricts D m kn kf kc m') : ∀ f ∈ kf, f < m.faces.length := by
  intro f hf
  obtain ⟨c, h3, s, h4, rfl⟩ := (h.kf_iff f).1 hf
  have hcl := h.kc_lt c h3
  have : cell m c = m.cells[c] := by simp [cell, hcl]
  rw [this] at h4
  exact hc.cells_lt _ (List.getElem_mem hcl) s h4

theorem face_mem {f : Nat} (h : f < m.faces.length) : face m f ∈ m.faces := by
  have : face m f = m.faces[f] := by simp [face, h]
  rw [this]; exact List.getElem_mem h
theorem cell_mem {f : Nat} (h : f < m.cells.length) : cell m f ∈ m.cells := by
  have : cell m f = m.cells[f] := by simp [cell, h]
  rw [this]; exact List.getElem_mem h
theorem cellsOf_mem {f : Nat} (h : f < m.faceCells.length) : cellsOf m f ∈ m.faceCells := by
  have : cellsOf m f = m.faceCells[f] := by simp [cellsOf, h]
  rw [this]; exact List.getElem_mem h

theorem Restricts.kn_lt (hc : Consistent D m) (h : Restricts D m kn kf kc m') : ∀ n ∈ kn, n < numNodes D m := by
  intro n hn
  obtain ⟨f, hf, hn⟩ := (h.kn_iff n).1 hn
  exact hc.faces_lt _ (face_mem (h.kf_lt hc f hf)) n hn

theorem Restricts.nodes_length (hc : Consistent D m) (h : Restricts D m kn kf kc m') : m'.nodes.length = D * kn.length := by
  rw [h.nodes]; exact flatMap_node_length D m kn (h.kn_lt hc) hc.dim_pos hc.nodes_dvd

theorem Restricts.numNodes_eq (hc : Consistent D m) (h : Restricts D m kn kf kc m') : numNodes D m' = kn.length := by
  rw [numNodes, h.nodes_length hc, Nat.mul_div_cancel_left _ hc.dim_pos]

theorem Restricts.node_eq (hc : Consistent D m) (h : Restricts D m kn kf kc m') {j : Nat} (hj : j < kn.length) :
    node D m' j = node D m (old kn j) := by
  rw [node, h.nodes, take_drop_flatMap (fun n hn => node_length (h.kn_lt hc n hn)) j hj, old_lt hj]

theorem Restricts.faces_length (h : Restricts D m kn kf kc m') : m'.faces.length = kf.length := by
  have := congrArg List.length h.faces; simpa using this
theorem Restricts.cells_length (h : Restricts D m kn kf kc m') : m'.cells.length = kc.length := by
  have := congrArg List.length h.cells; simpa using this
theorem Restricts.faceCells_length (h : Restricts D m kn kf kc m') : m'.faceCells.length = kf.length := by
  have := congrArg List.length h.faceCells; simpa using this

theorem map_eq_map_getD {α β : Type} {l : List (List α)} {k : List Nat} {g : List α → β} {f : Nat → β} (h : l.map g = k.map f)
    {i : Nat} (hi : i < k.length) : g (l.getD i []) = f (old k i) := by
  have hl : l.length = k.length := by have := congrArg List.length h; simpa using this
  have h1 : (l.map g)[i]'(by simpa using (by omega : i < l.length)) = (k.map f)[i]'(by simpa using hi) := by
    simp [h]
  simp only [List.getElem_map] at h1
  rw [old_lt hi, ← h1]
  simp [hl, hi]

theorem Restricts.face_eq (h : Restricts D m kn kf kc m') {f : Nat} (hf : f < kf.length) :
    (face m' f).map (old kn) = face m (old kf f) := map_eq_map_getD (g := List.map (old kn)) h.faces hf
theorem Restricts.cell_eq (h : Restricts D m kn kf kc m') {c : Nat} (hc : c < kc.length) :
    (cell m' c).map (oldS kf) = cell m (old kc c) := map_eq_map_getD (g := List.map (oldS kf)) h.cells hc
theorem Restricts.cellsOf_eq (h : Restricts D m kn kf kc m') {f : Nat} (hf : f < kf.length) :
    (cellsOf m' f).map (oldS kc) = (cellsOf m (old kf f)).filter fun s => decide (posID s ∈ kc) :=
  map_eq_map_getD (g := List.map (oldS kc)) h.faceCells hf

theorem Restricts.face_lt (h : Restricts D m kn kf kc m') {f n : Nat} (hf : f < kf.length) (hn : n ∈ face m' f) : n < kn.length :=
  h.faces_lt _ (face_mem (by rw [h.faces_length]; exact hf)) n hn
theorem Restricts.cell_lt (h : Restricts D m kn kf kc m') {c : Nat} {s : Int} (hf : c < kc.length) (hn : s ∈ cell m' c) :
    posID s < kf.length :=
  h.cells_lt _ (cell_mem (by rw [h.cells_length]; exact hf)) s hn
theorem Restricts.cellsOf_lt (h : Restricts D m kn kf kc m') {f : Nat} {s : Int} (hf : f < kf.length) (hn : s ∈ cellsOf m' f) :
    posID s < kc.length :=
  h.faceCells_lt _ (cellsOf_mem (by rw [h.faceCells_length]; exact hf)) s hn

/-! ### C04 -/

theorem Restricts.consistent (hc : Consistent D m) (h : Restricts D m kn kf kc m') : Consistent D m' where
  dim_pos := hc.dim_pos
  nodes_dvd := by rw [h.nodes_length hc]; exact Nat.dvd_mul_right _ _
  faces_lt := by rw [h.numNodes_eq hc]; exact h.faces_lt
  cells_lt := by rw [h.faces_length]; exact h.cells_lt
  faceCells_len := by rw [h.faces_length, h.faceCells_length]
  faceCells_size := by
    intro X hX
    obtain ⟨f, hf, rfl⟩ := List.getElem_of_mem hX
    have hf' : f < kf.length := by rw [← h.faceCells_length]; exact hf
    have e : cellsOf m' f = m'.faceCells[f] := by simp [cellsOf, hf]
    rw [← e]
    have hlen := congrArg List.length (h.cellsOf_eq hf')
    rw [List.length_map] at hlen
    rw [hlen]
    have hF := h.kf_lt hc _ (old_mem hf')
    have h2 := List.length_filter_le (fun s => decide (posID s ∈ kc)) (cellsOf m (old kf f))
    have h3 := hc.faceCells_size _ (cellsOf_mem (m := m) (f := old kf f) (by rw [hc.faceCells_len]; exact hF))
    have h4 : 0 < ((cellsOf m (old kf f)).filter fun s => decide (posID s ∈ kc)).length := by
      obtain ⟨c, hcm, s, hs, hp⟩ := (h.kf_iff _).1 (old_mem hf')
      have hinv := hc.inverse _ hF c (h.kc_lt c hcm)
      rcases posID_eq_iff.1 hp with rfl | rfl
      · have : 0 < (cell m c).count (old kf f : Int) := List.count_pos_iff.2 hs
        rw [← hinv.1] at this
        exact List.length_pos_of_mem (List.mem_filter.2 ⟨List.count_pos_iff.1 this, by simpa using hcm⟩)
      · have : 0 < (cell m c).count (flip (old kf f)) := List.count_pos_iff.2 hs
        rw [← hinv.2] at this
        exact List.length_pos_of_mem (List.mem_filter.2 ⟨List.count_pos_iff.1 this, by simpa using hcm⟩)
    omega
  faceCells_lt := by rw [h.cells_length]; exact h.faceCells_lt
  inverse := by
    intro f hf c hcl
    rw [h.faces_length] at hf
    rw [h.cells_length] at hcl
    have hinv := hc.inverse _ (h.kf_lt hc _ (old_mem hf)) _ (h.kc_lt _ (old_mem hcl))
    have a1 : ∀ t : Int, posID t = c → (cellsOf m' f).count t = (cellsOf m (old kf f)).count (oldS kc t) := by
      intro t ht
      rw [← count_map_on (f := oldS kc) (a := t) (l := cellsOf m' f)
        (fun x hx e => oldS_inj h.kc_sorted (h.cellsOf_lt hf hx) (by omega) e), h.cellsOf_eq hf, List.count_filter]
      simp [ht, old_mem hcl]
    have a2 : ∀ t : Int, posID t = f → (cell m' c).count t = (cell m (old kc c)).count (oldS kf t) := by
      intro t ht
      rw [← count_map_on (f := oldS kf) (a := t) (l := cell m' c)
        (fun x hx e => oldS_inj h.kf_sorted (h.cell_lt hcl hx) (by omega) e), h.cell_eq hcl]
    rw [a1 c (by simp), a1 (flip c) (by simp), a2 f (by simp), a2 (flip f) (by simp)]
    simpa [oldS_natCast, oldS_flip] using hinv

theorem Restricts.commOK (hc : Consistent D m) (hs : CommOK D m) (h : Restricts D m kn kf kc m') : CommOK D m' where
  len := by
    have h1 := congrArg List.length h.sharedNodes
    have h2 := congrArg List.length h.sharedFaces
    have h3 := hs.len
    simp at h1 h2; omega
  nodes_lt := by rw [h.numNodes_eq hc]; exact h.sharedNodes_lt
  faces_lt := by rw [h.faces_length]; exact h.sharedFaces_lt

/-! ### C05 -/

theorem Restricts.faceGeom_eq (hc : Consistent D m) (h : Restricts D m kn kf kc m') {s : Int} (hs : posID s < kf.length) :
    faceGeom D m' s = faceGeom D m (oldS kf s) := by
  simp only [faceGeom, nonneg_oldS, posID_oldS, ← h.face_eq hs, List.map_map]
  congr 1
  apply List.map_congr_left
  intro n hn
  exact h.node_eq hc (h.face_lt hs hn)

theorem Restricts.cells_geom (hc : Consistent D m) (h : Restricts D m kn kf kc m') :
    m'.cells.map (cellGeom D m') = kc.map fun c => cellGeom D m (cell m c) := by
  have e : m'.cells.map (cellGeom D m') = (m'.cells.map (·.map (oldS kf))).map (cellGeom D m) := by
    rw [List.map_map]
    apply List.map_congr_left
    intro C hC
    simp only [cellGeom, Function.comp, List.map_map]
    apply List.map_congr_left
    intro s hs
    exact h.faceGeom_eq hc (h.cells_lt C hC s hs)
  rw [e, h.cells, List.map_map]
  rfl

/-! ### C06 -/

theorem Restricts.face_used (h : Restricts D m kn kf kc m') {f : Nat} (hf : f < kf.length) :
    ∃ c, c < kc.length ∧ ∃ s ∈ cell m' c, posID s = f := by
  obtain ⟨c, hcm, s, hs, hp⟩ := (h.kf_iff _).1 (old_mem hf)
  obtain ⟨i, hi, rfl⟩ := old_surj hcm
  rw [← h.cell_eq hi] at hs
  obtain ⟨t, ht, rfl⟩ := List.mem_map.1 hs
  refine ⟨i, hi, t, ht, ?_⟩
  rw [posID_oldS] at hp
  exact old_inj h.kf_sorted (h.cell_lt hi ht) hf hp

theorem Restricts.node_used (h : Restricts D m kn kf kc m') {n : Nat} (hn : n < kn.length) :
    ∃ f, f < kf.length ∧ n ∈ face m' f := by
  obtain ⟨F, hF, hs⟩ := (h.kn_iff _).1 (old_mem hn)
  obtain ⟨i, hi, rfl⟩ := old_surj hF
  rw [← h.face_eq hi] at hs
  obtain ⟨t, ht, e⟩ := List.mem_map.1 hs
  rw [old_inj h.kn_sorted (h.face_lt hi ht) hn e] at ht
  exact ⟨i, hi, ht⟩

/-! ### C07 -/

theorem Restricts.unique {m₁ m₂ : Tess R} {kn' kf' : List Nat} (h₁ : Restricts D m kn kf kc m₁) (h₂ : Restricts D m kn' kf' kc m₂) :
    kn = kn' ∧ kf = kf' ∧ m₁.nodes = m₂.nodes ∧ m₁.faces = m₂.faces ∧ m₁.cells = m₂.cells ∧ m₁.faceCells = m₂.faceCells ∧
    m₁.sharedNodes = m₂.sharedNodes ∧ m₁.sharedFaces = m₂.sharedFaces ∧ m₁.neighborDomains = m₂.neighborDomains := by
  have ef : kf = kf' := sorted_ext h₁.kf_sorted h₂.kf_sorted (fun f => by rw [h₁.kf_iff, h₂.kf_iff])
  subst ef
  have en : kn = kn' := sorted_ext h₁.kn_sorted h₂.kn_sorted (fun f => by rw [h₁.kn_iff, h₂.kn_iff])
  subst en
  have lift : ∀ {k : List Nat} {a b : List (List Nat)}, k.Pairwise (· < ·) → (∀ l ∈ a, ∀ n ∈ l, n < k.length) →
      (∀ l ∈ b, ∀ n ∈ l, n < k.length) → a.map (·.map (old k)) = b.map (·.map (old k)) → a = b := by
    intro k a b hk ha hb e
    exact map_inj_on (fun x hx y hy e' => map_inj_on (fun p hp q hq e'' => old_inj hk (ha x hx p hp) (hb y hy q hq) e'') e') e
  have liftS : ∀ {k : List Nat} {a b : List (List Int)}, k.Pairwise (· < ·) → (∀ l ∈ a, ∀ n ∈ l, posID n < k.length) →
      (∀ l ∈ b, ∀ n ∈ l, posID n < k.length) → a.map (·.map (oldS k)) = b.map (·.map (oldS k)) → a = b := by
    intro k a b hk ha hb e
    exact map_inj_on (fun x hx y hy e' => map_inj_on (fun p hp q hq e'' => oldS_inj hk (ha x hx p hp) (hb y hy q hq) e'') e') e
  refine ⟨rfl, rfl, by rw [h₁.nodes, h₂.nodes], ?_, ?_, ?_, ?_, ?_, by rw [h₁.neighborDomains, h₂.neighborDomains]⟩
  · exact lift h₁.kn_sorted h₁.faces_lt h₂.faces_lt (h₁.faces.trans h₂.faces.symm)
  · exact liftS h₁.kf_sorted h₁.cells_lt h₂.cells_lt (h₁.cells.trans h₂.cells.symm)
  · exact liftS h₁.kc_sorted h₁.faceCells_lt h₂.faceCells_lt (h₁.faceCells.trans h₂.faceCells.symm)
  · exact lift h₁.kn_sorted h₁.sharedNodes_lt h₂.sharedNodes_lt (h₁.sharedNodes.trans h₂.sharedNodes.symm)
  · exact lift h₁.kf_sorted h₁.sharedFaces_lt h₂.sharedFaces_lt (h₁.sharedFaces.trans h₂.sharedFaces.symm)

theorem map_old_sorted {k k₂ : List Nat} (hk : k.Pairwise (· < ·)) (hk₂ : k₂.Pairwise (· < ·)) (hlt : ∀ i ∈ k₂, i < k.length) :
    (k₂.map (old k)).Pairwise (· < ·) := by
  rw [List.pairwise_map]
  refine List.Pairwise.imp_of_mem ?_ hk₂
  intro a b _ hb hab
  exact old_mono hk (hlt b hb) hab

theorem oldS_comp {k k₂ : List Nat} {s : Int} (hs : posID s < k₂.length) : oldS (k₂.map (old k)) s = oldS k (oldS k₂ s) := by
  by_cases h : 0 ≤ s
  · simp [oldS, h, old_map hs]
  · simp [oldS, h, old_map hs, not_nonneg_flip]

theorem mem_map_old {k k₂ : List Nat} (hk : k.Pairwise (· < ·)) (hlt : ∀ i ∈ k₂, i < k.length) {i : Nat} (hi : i < k.length) :
    old k i ∈ k₂.map (old k) ↔ i ∈ k₂ := by
  rw [List.mem_map]
  constructor
  · rintro ⟨j, hj, e⟩
    rw [← old_inj hk (hlt j hj) hi e]; exact hj
  · intro h; exact ⟨i, h, rfl⟩

theorem Restricts.comp {m₂ : Tess R} {kn₂ kf₂ kc₂ : List Nat} (hc : Consistent D m) (h : Restricts D m kn kf kc m')
    (h₂ : Restricts D m' kn₂ kf₂ kc₂ m₂) :
    Restricts D m (kn₂.map (old kn)) (kf₂.map (old kf)) (kc₂.map (old kc)) m₂ := by
  have hc' := h.consistent hc
  have lc : ∀ i ∈ kc₂, i < kc.length := fun i hi => by rw [← h.cells_length]; exact h₂.kc_lt i hi
  have lf : ∀ i ∈ kf₂, i < kf.length := fun i hi => by rw [← h.faces_length]; exact h₂.kf_lt hc' i hi
  have ln : ∀ i ∈ kn₂, i < kn.length := fun i hi => by rw [← h.numNodes_eq hc]; exact h₂.kn_lt hc' i hi
  have memS : ∀ (k k₂ : List Nat) (_ : k.Pairwise (· < ·)) (_ : ∀ i ∈ k₂, i < k.length) (l : List Int) (l' : List Int),
      l'.map (oldS k) = l.filter (fun s => decide (posID s ∈ k)) → (∀ s ∈ l', posID s < k.length) →
      (l'.filter fun s => decide (posID s ∈ k₂)).map (oldS k) = l.filter fun s => decide (posID s ∈ k₂.map (old k)) := by
    intro k k₂ hk hlt l l' e hl'
    have e1 : (l'.filter fun s => decide (posID s ∈ k₂)) =
        l'.filter ((fun s => decide (posID s ∈ k₂.map (old k))) ∘ oldS k) := by
      apply List.filter_congr
      intro s hs
      simp only [Function.comp, posID_oldS, decide_eq_decide]
      exact (mem_map_old hk hlt (hl' s hs)).symm
    rw [e1, ← List.filter_map, e, List.filter_filter]
    apply List.filter_congr
    intro s _
    by_cases hs : posID s ∈ k₂.map (old k)
    · have : posID s ∈ k := by
        obtain ⟨i, hi, e⟩ := List.mem_map.1 hs
        rw [← e]; exact old_mem (hlt i hi)
      simp only [hs, this, decide_true, Bool.and_self]
    · simp only [hs, decide_false, Bool.false_and]
  have memN : ∀ (k k₂ : List Nat) (_ : k.Pairwise (· < ·)) (_ : ∀ i ∈ k₂, i < k.length) (l : List Nat) (l' : List Nat),
      l'.map (old k) = l.filter (fun s => decide (s ∈ k)) → (∀ s ∈ l', s < k.length) →
      (l'.filter fun s => decide (s ∈ k₂)).map (old k) = l.filter fun s => decide (s ∈ k₂.map (old k)) := by
    intro k k₂ hk hlt l l' e hl'
    have e1 : (l'.filter fun s => decide (s ∈ k₂)) =
        l'.filter ((fun s => decide (s ∈ k₂.map (old k))) ∘ old k) := by
      apply List.filter_congr
      intro s hs
      simp only [Function.comp, decide_eq_decide]
      exact (mem_map_old hk hlt (hl' s hs)).symm
    rw [e1, ← List.filter_map, e, List.filter_filter]
    apply List.filter_congr
    intro s _
    by_cases hs : s ∈ k₂.map (old k)
    · have : s ∈ k := by
        obtain ⟨i, hi, e⟩ := List.mem_map.1 hs
        rw [← e]; exact old_mem (hlt i hi)
      simp only [hs, this, decide_true, Bool.and_self]
    · simp only [hs, decide_false, Bool.false_and]
  have shared : ∀ (k k₂ : List Nat) (_ : k.Pairwise (· < ·)) (_ : ∀ i ∈ k₂, i < k.length) (a b c : List (List Nat)),
      b.map (·.map (old k)) = a.map (·.filter fun n => decide (n ∈ k)) → (∀ l ∈ b, ∀ n ∈ l, n < k.length) →
      c.map (·.map (old k₂)) = b.map (·.filter fun n => decide (n ∈ k₂)) → (∀ l ∈ c, ∀ n ∈ l, n < k₂.length) →
      c.map (·.map (old (k₂.map (old k)))) = a.map (·.filter fun n => decide (n ∈ k₂.map (old k))) := by
    intro k k₂ hk hlt a b c e1 hb e2 hcl
    have e3 : c.map (·.map (old (k₂.map (old k)))) = (c.map (·.map (old k₂))).map (·.map (old k)) := by
      rw [List.map_map]
      apply List.map_congr_left
      intro l hl
      simp only [Function.comp, List.map_map]
      apply List.map_congr_left
      intro n hn
      exact old_map (hcl l hl n hn)
    rw [e3, e2, List.map_map]
    have hlen : b.length = a.length := by have := congrArg List.length e1; simpa using this
    apply List.ext_getElem
    · simp [hlen]
    · intro i h1 h2
      simp only [List.length_map] at h1 h2
      simp only [List.getElem_map, Function.comp]
      apply memN k k₂ hk hlt _ _ _ (hb _ (List.getElem_mem _))
      have := congrArg (fun l => l[i]?) e1
      simpa [h1, h2] using this
  exact {
    kc_sorted := map_old_sorted h.kc_sorted h₂.kc_sorted lc
    kf_sorted := map_old_sorted h.kf_sorted h₂.kf_sorted lf
    kn_sorted := map_old_sorted h.kn_sorted h₂.kn_sorted ln
    kc_lt := by
      intro c hcm
      obtain ⟨i, hi, rfl⟩ := List.mem_map.1 hcm
      exact h.kc_lt _ (old_mem (lc i hi))
    kf_iff := by
      intro f
      rw [List.mem_map]
      constructor
      · rintro ⟨i, hi, rfl⟩
        obtain ⟨c, hcm, s, hs, rfl⟩ := (h₂.kf_iff i).1 hi
        refine ⟨old kc c, List.mem_map.2 ⟨c, hcm, rfl⟩, oldS kf s, ?_, by simp⟩
        rw [← h.cell_eq (lc c hcm)]
        exact List.mem_map.2 ⟨s, hs, rfl⟩
      · rintro ⟨c, hcm, s, hs, rfl⟩
        obtain ⟨i, hi, rfl⟩ := List.mem_map.1 hcm
        rw [← h.cell_eq (lc i hi)] at hs
        obtain ⟨t, ht, rfl⟩ := List.mem_map.1 hs
        exact ⟨posID t, (h₂.kf_iff _).2 ⟨i, hi, t, ht, rfl⟩, by simp⟩
    kn_iff := by
      intro n
      rw [List.mem_map]
      constructor
      · rintro ⟨i, hi, rfl⟩
        obtain ⟨f, hf, hn⟩ := (h₂.kn_iff i).1 hi
        refine ⟨old kf f, List.mem_map.2 ⟨f, hf, rfl⟩, ?_⟩
        rw [← h.face_eq (lf f hf)]
        exact List.mem_map.2 ⟨i, hn, rfl⟩
      · rintro ⟨f, hf, hn⟩
        obtain ⟨i, hi, rfl⟩ := List.mem_map.1 hf
        rw [← h.face_eq (lf i hi)] at hn
        obtain ⟨t, ht, rfl⟩ := List.mem_map.1 hn
        exact ⟨t, (h₂.kn_iff _).2 ⟨i, hi, ht⟩, rfl⟩
    nodes := by
      rw [h₂.nodes, List.flatMap_map]
      apply List.flatMap_congr
      intro n hn
      exact h.node_eq hc (ln n hn)
    faces := by
      have e3 : m₂.faces.map (·.map (old (kn₂.map (old kn)))) = (m₂.faces.map (·.map (old kn₂))).map (·.map (old kn)) := by
        rw [List.map_map]
        apply List.map_congr_left
        intro l hl
        simp only [Function.comp, List.map_map]
        apply List.map_congr_left
        intro n hn
        exact old_map (h₂.faces_lt l hl n hn)
      rw [e3, h₂.faces, List.map_map, List.map_map]
      apply List.map_congr_left
      intro f hf
      exact h.face_eq (lf f hf)
    faces_lt := by simpa using h₂.faces_lt
    cells := by
      have e3 : m₂.cells.map (·.map (oldS (kf₂.map (old kf)))) = (m₂.cells.map (·.map (oldS kf₂))).map (·.map (oldS kf)) := by
        rw [List.map_map]
        apply List.map_congr_left
        intro l hl
        simp only [Function.comp, List.map_map]
        apply List.map_congr_left
        intro n hn
        exact oldS_comp (h₂.cells_lt l hl n hn)
      rw [e3, h₂.cells, List.map_map, List.map_map]
      apply List.map_congr_left
      intro f hf
      exact h.cell_eq (lc f hf)
    cells_lt := by simpa using h₂.cells_lt
    faceCells := by
      have e3 : m₂.faceCells.map (·.map (oldS (kc₂.map (old kc)))) = (m₂.faceCells.map (·.map (oldS kc₂))).map (·.map (oldS kc)) := by
        rw [List.map_map]
        apply List.map_congr_left
        intro l hl
        simp only [Function.comp, List.map_map]
        apply List.map_congr_left
        intro n hn
        exact oldS_comp (h₂.faceCells_lt l hl n hn)
      rw [e3, h₂.faceCells, List.map_map, List.map_map]
      apply List.map_congr_left
      intro f hf
      exact memS kc kc₂ h.kc_sorted lc _ _ (h.cellsOf_eq (lf f hf)) (fun s hs => h.cellsOf_lt (lf f hf) hs)
    faceCells_lt := by simpa using h₂.faceCells_lt
    sharedNodes := shared kn kn₂ h.kn_sorted ln _ _ _ h.sharedNodes h.sharedNodes_lt h₂.sharedNodes h₂.sharedNodes_lt
    sharedNodes_lt := by simpa using h₂.sharedNodes_lt
    sharedFaces := shared kf kf₂ h.kf_sorted lf _ _ _ h.sharedFaces h.sharedFaces_lt h₂.sharedFaces h₂.sharedFaces_lt
    sharedFaces_lt := by simpa using h₂.sharedFaces_lt
    neighborDomains := by rw [h₂.neighborDomains, h.neighborDomains] }

end

end Verif.Mesh
