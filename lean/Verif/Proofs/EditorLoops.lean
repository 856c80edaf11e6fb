import Verif.Proofs.EditorMerge
import Mathlib.Data.List.Chain
/- Consequences of `Merged`, independent of how the merge was computed. -/
namespace Verif.Editor
open Verif Verif.Mesh Verif.Internal
variable {R K : Type}

section
variable {D : Nat} {m m' : Tess R} {kn kf : List Nat} {tgt : Nat → Nat}

theorem Merged.kf_lt (h : Merged D m kn kf tgt m') : ∀ f ∈ kf, f < m.faces.length := fun f hf => ((h.kf_iff f).1 hf).1
theorem Merged.numNodes_eq (hc : Consistent D m) (h : Merged D m kn kf tgt m') : numNodes D m' = kn.length := by
  rw [numNodes, h.nodes, flatMap_node_length D m kn h.kn_lt hc.dim_pos hc.nodes_dvd, Nat.mul_div_cancel_left _ hc.dim_pos]
theorem Merged.node_eq (h : Merged D m kn kf tgt m') {j : Nat} (hj : j < kn.length) : node D m' j = node D m (old kn j) := by
  rw [node, h.nodes, take_drop_flatMap (fun n hn => node_length (h.kn_lt n hn)) j hj, old_lt hj]
theorem Merged.faces_length (h : Merged D m kn kf tgt m') : m'.faces.length = kf.length := by
  have := congrArg List.length h.faces; simpa using this
theorem Merged.cells_length (h : Merged D m kn kf tgt m') : m'.cells.length = m.cells.length := by
  have := congrArg List.length h.cells; simpa using this
theorem Merged.face_eq (h : Merged D m kn kf tgt m') {j : Nat} (hj : j < kf.length) : (face m' j).map (old kn) = (face m (old kf j)).map tgt := by
  have hj' : j < m'.faces.length := by rw [h.faces_length]; exact hj
  have := congrArg (fun l => l[j]?) h.faces
  simpa [hj, hj', face, old_lt hj] using this
theorem Merged.cell_eq (h : Merged D m kn kf tgt m') {c : Nat} (hc : c < m.cells.length) :
    (cell m' c).map (oldS kf) = (cell m c).filter fun s => decide (posID s ∈ kf) := by
  have hc' : c < m'.cells.length := by rw [h.cells_length]; exact hc
  have := congrArg (fun l => l[c]?) h.cells
  simpa [hc, hc', cell] using this
theorem Merged.cellsOf_eq (h : Merged D m kn kf tgt m') {j : Nat} (hj : j < kf.length) : cellsOf m' j = cellsOf m (old kf j) := by
  simp [cellsOf, h.faceCells, hj, old_lt hj]

theorem Merged.consistent (hc : Consistent D m) (h : Merged D m kn kf tgt m') : Consistent D m' := by
  have hfl := h.faces_length
  refine ⟨hc.dim_pos, ?_, ?_, ?_, ?_, ?_, ?_, ?_⟩
  · rw [h.nodes, flatMap_node_length D m kn h.kn_lt hc.dim_pos hc.nodes_dvd]; exact Nat.dvd_mul_right _ _
  · rw [h.numNodes_eq hc]; exact h.faces_lt
  · rw [hfl]; exact h.cells_lt
  · rw [hfl, h.faceCells, List.length_map]
  · rw [h.faceCells]
    intro X hX
    obtain ⟨f, hf, rfl⟩ := List.mem_map.1 hX
    exact hc.faceCells_size _ (cellsOf_mem (by rw [hc.faceCells_len]; exact h.kf_lt f hf))
  · rw [h.faceCells, h.cells_length]
    intro X hX
    obtain ⟨f, hf, rfl⟩ := List.mem_map.1 hX
    exact hc.faceCells_lt _ (cellsOf_mem (by rw [hc.faceCells_len]; exact h.kf_lt f hf))
  · intro f hf c hcl
    rw [hfl] at hf
    rw [h.cells_length] at hcl
    rw [h.cellsOf_eq hf]
    have hfo := h.kf_lt _ (old_mem hf)
    obtain ⟨i1, i2⟩ := hc.inverse _ hfo c hcl
    have hlt : ∀ s ∈ cell m' c, posID s < kf.length := h.cells_lt _ (cell_mem (by rw [h.cells_length]; exact hcl))
    have key : ∀ t : Int, posID t = f → (cell m' c).count t = (cell m c).count (oldS kf t) := by
      intro t ht
      rw [← count_map_on (f := oldS kf) (a := t) (fun x hx e => oldS_inj h.kf_sorted (hlt x hx) (by omega) e), h.cell_eq hcl, List.count_filter]
      simp [ht, old_mem hf]
    constructor
    · rw [key (f : Int) (by simp [posID]), i1]
      simp [oldS, posID]
    · rw [key (flip f) (by simp), i2]
      have : ¬ (0 : Int) ≤ flip f := not_nonneg_flip _
      simp [oldS, this]

theorem Merged.commOK (hc : Consistent D m) (hs : CommOK D m) (h : Merged D m kn kf tgt m') : CommOK D m' := by
  refine ⟨?_, ?_, ?_⟩
  · have h1 := congrArg List.length h.sharedNodes
    have h2 := congrArg List.length h.sharedFaces
    simp only [List.length_map] at h1 h2
    rw [h1, h2]; exact hs.len
  · rw [h.numNodes_eq hc]; exact h.sharedNodes_lt
  · rw [h.faces_length]; exact h.sharedFaces_lt

theorem Merged.planar (hp : Planar m) (h : Merged D m kn kf tgt m') : Planar m' := by
  intro F hF
  obtain ⟨f, hf, rfl⟩ := List.getElem_of_mem hF
  have hf' : f < kf.length := by rw [← h.faces_length]; exact hf
  have hk := old_mem hf'
  obtain ⟨a, b, hab, _⟩ := hp.face (h.kf_lt _ hk)
  have he := h.face_eq hf'
  have hFe : face m' f = m'.faces[f] := by simp [face, hf]
  rw [hab, hFe] at he
  simp only [List.map_cons, List.map_nil] at he
  obtain ⟨x, l, e1, e2, e3⟩ := List.map_eq_cons_iff.1 he
  obtain ⟨y, l', e4, e5, e6⟩ := List.map_eq_cons_iff.1 e3
  rw [List.map_eq_nil_iff] at e6
  refine ⟨x, y, by rw [e1, e4, e6], fun hxy => ?_⟩
  exact ((h.kf_iff _).1 hk).2 a b hab (by rw [← e2, ← e5, hxy])

/-! ### loops -/

theorem tail_mem (hp : Planar m) {s : Int} (hs : posID s < m.faces.length) :
    (face m (posID s) = [tail m s, head m s] ∨ face m (posID s) = [head m s, tail m s]) ∧ tail m s ≠ head m s := by
  obtain ⟨a, b, hab, hne⟩ := hp.face hs
  by_cases h0 : 0 ≤ s
  · simp [tail, head, hab, h0, hne]
  · simp [tail, head, hab, h0, Ne.symm hne]

theorem Merged.tail_eq (hp : Planar m) (h : Merged D m kn kf tgt m') {s : Int} (hs : posID s < kf.length) :
    old kn (tail m' s) = tgt (tail m (oldS kf s)) ∧ old kn (head m' s) = tgt (head m (oldS kf s)) := by
  have he := h.face_eq hs
  obtain ⟨a, b, hab, _⟩ := hp.face (h.kf_lt _ (old_mem hs))
  obtain ⟨x, y, hxy, _⟩ := (h.planar hp).face (by rw [h.faces_length]; exact hs)
  rw [hab, hxy] at he
  simp only [List.map_cons, List.map_nil, List.cons.injEq, and_true] at he
  have hn := nonneg_oldS kf s
  by_cases h0 : 0 ≤ s
  · simp [tail, head, posID_oldS, hab, hxy, hn, h0, he]
  · simp [tail, head, posID_oldS, hab, hxy, hn, h0, he]

theorem Merged.removed (hp : Planar m) (h : Merged D m kn kf tgt m') {s : Int} (hs : posID s < m.faces.length) :
    posID s ∉ kf ↔ tgt (tail m s) = tgt (head m s) := by
  rw [h.kf_iff]
  obtain ⟨hj, _⟩ := tail_mem hp hs
  constructor
  · intro hn
    by_contra hcon
    refine hn ⟨hs, fun a b hab => ?_⟩
    rcases hj with e | e <;> rw [hab] at e <;> simp only [List.cons.injEq, and_true] at e <;> rw [e.1, e.2]
    · exact hcon
    · exact Ne.symm hcon
  · rintro he ⟨_, hn⟩
    rcases hj with e | e
    · exact hn _ _ e he
    · exact hn _ _ e he.symm

theorem Merged.path (hp : Planar m) (h : Merged D m kn kf tgt m') : ∀ (C C' : List Int) (a b x : Nat), Path m a C b →
    (∀ s ∈ C, posID s < m.faces.length) → (∀ s ∈ C', posID s < kf.length) → C'.map (oldS kf) = C.filter (fun s => decide (posID s ∈ kf)) → x < kn.length → old kn x = tgt a →
    ∃ y, y < kn.length ∧ old kn y = tgt b ∧ Path m' x C' y
  | [], C', a, b, x, hP, _, _, he, hx, hxa => by
    simp only [List.filter_nil, List.map_eq_nil_iff] at he
    subst he
    have hab : a = b := hP
    exact ⟨x, hx, hab ▸ hxa, rfl⟩
  | s :: C, C', a, b, x, hP, hl, hl', he, hx, hxa => by
    obtain ⟨hta, hP'⟩ := hP
    have hs := hl s (by simp)
    have hl2 : ∀ t ∈ C, posID t < m.faces.length := fun t ht => hl t (by simp [ht])
    by_cases hk : posID s ∈ kf
    · rw [List.filter_cons_of_pos (by simpa using hk)] at he
      obtain ⟨s', C'', rfl, e2, e3⟩ := List.map_eq_cons_iff.1 he
      have hs' := hl' s' (by simp)
      obtain ⟨t1, t2⟩ := h.tail_eq hp hs'
      rw [e2] at t1 t2
      have hj := (h.planar hp).face (by rw [h.faces_length]; exact hs' : posID s' < m'.faces.length)
      have hlt := h.faces_lt _ (face_mem (by rw [h.faces_length]; exact hs' : posID s' < m'.faces.length))
      have hm := (tail_mem (h.planar hp) (by rw [h.faces_length]; exact hs' : posID s' < m'.faces.length)).1
      have htl : tail m' s' < kn.length := hlt _ (by rcases hm with e | e <;> rw [e] <;> simp)
      have hhl : head m' s' < kn.length := hlt _ (by rcases hm with e | e <;> rw [e] <;> simp)
      obtain ⟨y, y1, y2, y3⟩ := Merged.path hp h C C'' (head m s) b (head m' s') hP' hl2 (fun t ht => hl' t (by simp [ht])) e3 hhl t2
      refine ⟨y, y1, y2, ?_, y3⟩
      exact old_inj h.kn_sorted htl hx (by rw [t1, hta, hxa])
    · rw [List.filter_cons_of_neg (by simpa using hk)] at he
      have := (h.removed hp hs).1 hk
      exact Merged.path hp h C C' (head m s) b x hP' hl2 hl' he hx (by rw [hxa, ← this, hta])

theorem Path.start_lt (hc : Consistent D m) (hp : Planar m) {C : List Int} {a b : Nat} (h : Path m a C b) (hne : C ≠ []) (hl : ∀ s ∈ C, posID s < m.faces.length) :
    a < numNodes D m := by
  cases C with
  | nil => exact absurd rfl hne
  | cons s C =>
    obtain ⟨h1, _⟩ := h
    have hs := hl s (by simp)
    refine hc.faces_lt _ (face_mem hs) a ?_
    rcases (tail_mem hp hs).1 with e | e <;> rw [e, h1] <;> simp

theorem Merged.closedLoop (hc : Consistent D m) (hp : Planar m) (h : Merged D m kn kf tgt m') {c : Nat} (hcl : c < m.cells.length) (hL : ClosedLoop m (cell m c)) :
    ClosedLoop m' (cell m' c) := by
  obtain ⟨a, hP⟩ := hL
  have hl := hc.cells_lt _ (cell_mem hcl)
  by_cases hne : cell m c = []
  · have := h.cell_eq hcl
    rw [hne] at this
    simp only [List.filter_nil, List.map_eq_nil_iff] at this
    rw [this]
    exact ⟨0, rfl⟩
  · have ha := Path.start_lt hc hp hP hne hl
    obtain ⟨x, hx, hxa⟩ := old_surj (h.tgt_mem a ha)
    obtain ⟨y, hy, hya, hP'⟩ := h.path hp (cell m c) (cell m' c) a a x hP hl (h.cells_lt _ (cell_mem (by rw [h.cells_length]; exact hcl))) (h.cell_eq hcl) hx hxa
    have : y = x := old_inj h.kn_sorted hy hx (by rw [hya, hxa])
    subst this
    exact ⟨y, hP'⟩

/-! ### at least half of the sides remain -/

theorem half_of_last {α : Type} (p : α → Bool) : ∀ (L : List α), L.IsChain (fun a b => ¬ (p a = true ∧ p b = true)) → (∀ a ∈ L.getLast?, p a = false) →
    L.length ≤ 2 * L.countP (fun a => !p a)
  | [], _, _ => by simp
  | [a], _, h2 => by
    have := h2 a (by simp)
    simp [this]
  | a :: b :: L, h1, h2 => by
    rw [List.isChain_cons_cons] at h1
    by_cases ha : p a = true
    · have hb : p b = false := by
        have := h1.1; simp only [ha, true_and] at this; simpa using this
      cases L with
      | nil => simp [ha, hb]
      | cons c L =>
        have ih := half_of_last p (c :: L) (List.isChain_cons_cons.1 h1.2).2 (by intro x hx; exact h2 x (by simpa using hx))
        simp only [List.length_cons, List.countP_cons, ha, hb] at ih ⊢
        simp at ih ⊢
        omega
    · have ih := half_of_last p (b :: L) h1.2 (by intro x hx; exact h2 x (by simpa using hx))
      have ha' : p a = false := by simpa using ha
      simp only [List.length_cons, List.countP_cons, ha'] at ih ⊢
      simp at ih ⊢
      omega

theorem half_of_head {α : Type} (p : α → Bool) (L : List α) (h1 : L.IsChain (fun a b => ¬ (p a = true ∧ p b = true))) (h2 : ∀ a ∈ L.head?, p a = false) :
    L.length ≤ 2 * L.countP (fun a => !p a) := by
  have := half_of_last p L.reverse (by
    rw [List.isChain_reverse]
    exact h1.imp fun a b hab h => hab ⟨h.2, h.1⟩) (by intro a ha; rw [List.getLast?_reverse] at ha; exact h2 a ha)
  simpa using this

/-- Two removed sides that follow each other join the same two nodes. -/
theorem Merged.two_removed (hc : Consistent 2 m) (hp : Planar m) (h : Merged 2 m kn kf tgt m')
    (once : ∀ n n', n < numNodes 2 m → n' < numNodes 2 m → tgt n ≠ n → tgt n' ≠ n' → tgt n = tgt n' → n = n')
    {s t : Int} (hs : posID s < m.faces.length) (ht : posID t < m.faces.length) (hst : head m s = tail m t) (rs : posID s ∉ kf) (rt : posID t ∉ kf) :
    ∃ a b, JoinsNodes m (posID s) a b ∧ JoinsNodes m (posID t) a b := by
  have e1 := (h.removed hp hs).1 rs
  have e2 := (h.removed hp ht).1 rt
  obtain ⟨j1, n1⟩ := tail_mem hp hs
  obtain ⟨j2, n2⟩ := tail_mem hp ht
  have lt1 : tail m s < numNodes 2 m := hc.faces_lt _ (face_mem hs) _ (by rcases j1 with e | e <;> rw [e] <;> simp)
  have lt2 : head m t < numNodes 2 m := hc.faces_lt _ (face_mem ht) _ (by rcases j2 with e | e <;> rw [e] <;> simp)
  have lt3 : tail m t < numNodes 2 m := hc.faces_lt _ (face_mem ht) _ (by rcases j2 with e | e <;> rw [e] <;> simp)
  have idem : ∀ n, n < numNodes 2 m → tgt (tgt n) = tgt n := fun n hn => h.tgt_self _ (h.tgt_mem n hn)
  have hsame : tail m s = head m t := by
    rw [hst] at e1 n1
    by_cases f1 : tgt (tail m t) = tail m t
    · -- both others move
      have g1 : tgt (tail m s) ≠ tail m s := by rw [e1, f1]; exact Ne.symm n1
      have g2 : tgt (head m t) ≠ head m t := by rw [← e2, f1]; exact n2
      exact once _ _ lt1 lt2 g1 g2 (by rw [e1, e2])
    · have g1 : tgt (tail m s) = tail m s := by
        by_contra hcon
        exact n1 (once _ _ lt1 lt3 hcon f1 e1)
      have g2 : tgt (head m t) = head m t := by
        by_contra hcon
        exact n2 (once _ _ lt3 lt2 f1 hcon e2)
      rw [← g1, ← g2, e1, e2]
  refine ⟨tail m s, head m s, j1, ?_⟩
  rw [hsame, hst]
  exact j2.symm

theorem path_chain : ∀ {C : List Int} {a b : Nat}, Path m a C b → C.IsChain fun s t => head m s = tail m t
  | [], _, _, _ => by simp
  | [s], _, _, _ => by simp
  | s :: t :: C, a, b, h => by
    obtain ⟨h1, h2, h3⟩ := h
    rw [List.isChain_cons_cons]
    exact ⟨h2.symm, path_chain (C := t :: C) (a := head m s) (b := b) ⟨h2, h3⟩⟩

theorem path_last : ∀ {C : List Int} {a b : Nat}, Path m a C b → ∀ s ∈ C.getLast?, head m s = b
  | [], _, _, _, s, hs => by simp at hs
  | [t], _, _, h, s, hs => by
    simp only [List.getLast?_singleton, Option.mem_def, Option.some.injEq] at hs
    subst hs; exact h.2
  | s :: t :: C, a, b, h, u, hu => path_last (C := t :: C) h.2 u (by simpa using hu)

theorem Merged.half (hc : Consistent 2 m) (hp : Planar m) (h : Merged 2 m kn kf tgt m')
    (once : ∀ n n', n < numNodes 2 m → n' < numNodes 2 m → tgt n ≠ n → tgt n' ≠ n' → tgt n = tgt n' → n = n')
    {c : Nat} (hcl : c < m.cells.length) (hL : ClosedLoop m (cell m c)) (hd : DistinctSides m (cell m c)) :
    (cell m c).length ≤ 2 * (cell m' c).length := by
  obtain ⟨a, hP⟩ := hL
  have hl := hc.cells_lt _ (cell_mem hcl)
  have hlen : (cell m' c).length = (cell m c).countP fun s => !decide (posID s ∉ kf) := by
    have := congrArg List.length (h.cell_eq hcl)
    rw [List.length_map, ← List.countP_eq_length_filter] at this
    rw [this]
    apply List.countP_congr
    intro s _
    simp
  rw [hlen]
  generalize hC : cell m c = C at *
  have chain : C.IsChain fun s t => ¬ (decide (posID s ∉ kf) = true ∧ decide (posID t ∉ kf) = true) := by
    have h1 := path_chain hP
    have h2 : C.IsChain fun s t => ¬ ∃ a b, JoinsNodes m (posID s) a b ∧ JoinsNodes m (posID t) a b := hd.isChain
    rw [List.isChain_iff_getElem] at h1 h2 ⊢
    intro i hi
    simp only [decide_eq_true_eq]
    rintro ⟨r1, r2⟩
    exact h2 i hi (h.two_removed hc hp once (hl _ (List.getElem_mem _)) (hl _ (List.getElem_mem _)) (h1 i hi) r1 r2)
  cases C with
  | nil => simp
  | cons s0 C =>
    by_cases r0 : posID s0 ∈ kf
    · exact half_of_head _ _ chain (by simp [r0])
    · refine half_of_last _ _ chain ?_
      intro s hs
      simp only [decide_eq_false_iff_not, not_not]
      by_contra rs
      have hms : s ∈ s0 :: C := List.mem_of_getLast? hs
      have hhd : head m s = tail m s0 := by rw [path_last hP s hs]; exact hP.1.symm
      obtain ⟨x, y, jx, jy⟩ := h.two_removed hc hp once (hl s hms) (hl s0 (by simp)) hhd rs r0
      cases C with
      | nil =>
        simp only [List.getLast?_singleton, Option.mem_def, Option.some.injEq] at hs
        subst hs
        exact (tail_mem hp (hl _ (by simp))).2 hhd.symm
      | cons t C =>
        have hst : s ∈ t :: C := List.mem_of_getLast? (by simpa using hs)
        exact (List.pairwise_cons.1 hd).1 s hst ⟨x, y, jy, jx⟩

end
end Verif.Editor
