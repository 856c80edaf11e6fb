import Verif.Proofs.EditorScan
import Mathlib.Tactic.Common
import Mathlib.Order.MinMax
/- The corner test, the longest-edge table and the flagging loop of `MeshEditor::flagEdgesForCleaning`. -/
namespace Verif.Editor
open Verif Verif.Mesh Verif.Internal
variable {R K : Type}

theorem old_set {l : List Nat} {i v : Nat} (hi : i < l.length) (j : Nat) : old (l.set i v) j = if j = i then v else old l j := by
  unfold old
  by_cases h : j = i
  · subst h; simp [hi]
  · simp [h, List.getElem?_set_ne (Ne.symm h)]

/-! ### corners -/

theorem borderFacesOf_eq {m : Tess R} (hp : Planar m) (n : Nat) : ∀ L : List Int, (∀ s ∈ L, posID s < m.faces.length) →
    borderFacesOf (L.flatMap fun s => pushes m (posID s)) n =
      (L.map posID).filter fun f => decide ((cellsOf m f).length = 1) && decide (n ∈ face m f)
  | [], _ => rfl
  | s :: L, h => by
    have ih := borderFacesOf_eq hp n L (fun t ht => h t (by simp [ht]))
    obtain ⟨a, b, hF, hab⟩ := hp.face (h s (by simp))
    unfold borderFacesOf at ih ⊢
    rw [List.flatMap_cons, List.filter_append, List.map_append, ih, List.map_cons, List.filter_cons]
    by_cases hb : (cellsOf m (posID s)).length = 1
    · by_cases h1 : n = a
      · subst h1
        have : (b == n) = false := by simpa using Ne.symm hab
        simp [pushes, hb, hF, this]
      · by_cases h2 : n = b
        · subst h2
          have : (a == n) = false := by simpa using hab
          simp [pushes, hb, hF, this]
        · have e1 : (a == n) = false := by simpa using Ne.symm h1
          have e2 : (b == n) = false := by simpa using Ne.symm h2
          simp [pushes, hb, hF, e1, e2, h1, h2]
    · simp [pushes, hb]

section
variable {D : Nat} {m : Tess R}

/-- All (node, face) pairs pushed during the scan. -/
def allPushes (m : Tess R) : List (Nat × Nat) := m.cells.flatten.flatMap fun s => pushes m (posID s)

theorem flatten_lt (hc : Consistent D m) : ∀ s ∈ m.cells.flatten, posID s < m.faces.length := by
  intro s hs
  obtain ⟨C, h1, h2⟩ := List.mem_flatten.1 hs
  exact hc.cells_lt C h1 s h2

theorem borderFaces_perm (hc : Consistent D m) (hp : Planar m) (n : Nat) :
    (borderFacesOf (allPushes m) n).Perm (boundaryFacesAt m n) := by
  unfold allPushes
  rw [borderFacesOf_eq hp n _ (flatten_lt hc)]
  rw [List.perm_ext_iff_of_nodup]
  · intro f
    simp only [boundaryFacesAt, List.mem_filter, List.mem_range, List.mem_map, Bool.and_eq_true, decide_eq_true_eq]
    constructor
    · rintro ⟨⟨s, h1, rfl⟩, h2⟩
      exact ⟨flatten_lt hc s h1, h2⟩
    · rintro ⟨h1, h2⟩
      obtain ⟨s, h3, h4⟩ := face_in_cell hc h1
      exact ⟨⟨s, h3, h4⟩, h2⟩
  · rw [List.nodup_iff_count_le_one]
    intro f
    by_cases hf : f ∈ (m.cells.flatten.map posID).filter fun f => decide ((cellsOf m f).length = 1) && decide (n ∈ face m f)
    · have h1 := List.mem_filter.1 hf
      simp only [Bool.and_eq_true, decide_eq_true_eq] at h1
      obtain ⟨s, h2, h3⟩ := List.mem_map.1 h1.1
      have hlt : f < m.faces.length := h3 ▸ flatten_lt hc s h2
      rw [List.count_filter (by simpa using h1.2), count_flatten_cells hc hlt, h1.2.1]
    · rw [List.count_eq_zero_of_not_mem hf]; omega
  · exact List.nodup_range.filter _

theorem border_mem (hc : Consistent D m) (n : Nat) :
    n ∈ (allPushes m).map Prod.fst ↔ ∃ f, OnBoundary m f ∧ n ∈ face m f := by
  simp only [allPushes, List.mem_map, List.mem_flatMap]
  constructor
  · rintro ⟨p, ⟨s, h1, h2⟩, rfl⟩
    unfold pushes at h2
    split at h2
    · obtain ⟨k, h3, rfl⟩ := List.mem_map.1 h2
      exact ⟨posID s, ⟨flatten_lt hc s h1, by assumption⟩, h3⟩
    · simp at h2
  · rintro ⟨f, ⟨h1, h2⟩, h3⟩
    obtain ⟨s, h4, h5⟩ := face_in_cell hc h1
    exact ⟨(n, f), ⟨s, h4, by rw [h5, pushes, if_pos h2]; exact List.mem_map.2 ⟨n, h3, rfl⟩⟩, rfl⟩

theorem isBorder_iff (hc : Consistent D m) (n : Nat) : isBorder (allPushes m) n = true ↔ ∃ f, OnBoundary m f ∧ n ∈ face m f := by
  rw [isBorder, List.contains_iff_mem, border_mem hc]

/-- The other end of a face. -/
def otherEnd (m : Tess R) (n f : Nat) : Nat := if (face m f).getD 0 0 = n then (face m f).getD 1 0 else (face m f).getD 0 0

theorem joins_otherEnd (hp : Planar m) {n f : Nat} (hf : f < m.faces.length) (hn : n ∈ face m f) : JoinsNodes m f n (otherEnd m n f) := by
  obtain ⟨a, b, hF, hab⟩ := hp.face hf
  rw [hF] at hn
  simp only [List.mem_cons, List.not_mem_nil, or_false] at hn
  rcases hn with rfl | rfl
  · left; simp [otherEnd, hF]
  · right; simp [otherEnd, hF, hab]

theorem otherEnd_unique (hp : Planar m) {n f a : Nat} (hf : f < m.faces.length) (h : JoinsNodes m f n a) : a = otherEnd m n f := by
  obtain ⟨x, y, hF, hxy⟩ := hp.face hf
  rcases h with h | h
  · simp [otherEnd, h]
  · rw [h] at hF
    simp only [List.cons.injEq, and_true] at hF
    have : a ≠ n := by rw [hF.1, hF.2]; exact hxy
    simp [otherEnd, h, this]

theorem otherNodes_spec (dbg : Bool) (hc : Consistent D m) (hp : Planar m) (n : Nat) : ∀ fs : List Nat, (∀ f ∈ fs, OnBoundary m f) →
    otherNodes dbg m n fs = .ok (fs.map (otherEnd m n))
  | [], _ => rfl
  | f :: fs, h => by
    have ih := otherNodes_spec dbg hc hp n fs (fun t ht => h t (by simp [ht]))
    obtain ⟨hf, h1⟩ := h f (by simp)
    obtain ⟨a, b, hF, hab⟩ := hp.face hf
    have hfcl : f < m.faceCells.length := by rw [hc.faceCells_len]; exact hf
    have e1 : rd m.faces f = .ok [a, b] := by rw [rd_lt hf, ← hF]; simp [face, hf]
    have e2 : rd m.faceCells f = .ok (cellsOf m f) := by rw [rd_lt hfcl]; simp [cellsOf, hfcl]
    unfold otherNodes
    simp only [Res.bind_eq, Res.assert_true dbg hf, Res.bind_ok, e1, e2, Res.assert_true dbg h1]
    rw [Res.assert_true dbg (by rfl)]
    by_cases ha : a = n
    · subst ha; simp [rd, ih, otherEnd, hF]
    · simp [rd, ih, otherEnd, hF, ha]

theorem corners_spec (dbg : Bool) (hc : Consistent 2 m) (hp : Planar m) (hb : ClosedBoundary m) (collin : List R → List R → List R → Bool)
    (hcol : ∀ p q r, collin p q r = collin p r q) :
    ∀ ns : List Nat, (∀ n ∈ ns, ∃ f, OnBoundary m f ∧ n ∈ face m f) →
    ∃ r, corners dbg 2 m collin (allPushes m) ns = .ok r ∧ ∀ n, n ∈ r ↔ n ∈ ns ∧ Corner m collin n
  | [], _ => ⟨[], rfl, by simp⟩
  | n :: ns, h => by
    obtain ⟨r, e, hr⟩ := corners_spec dbg hc hp hb collin hcol ns (fun t ht => h t (by simp [ht]))
    obtain ⟨f0, hf0, hnf0⟩ := h n (by simp)
    have hn : n < m.nodes.length / 2 := hc.faces_lt _ (face_mem hf0.1) n hnf0
    have hperm := borderFaces_perm hc hp n
    have hlen : (borderFacesOf (allPushes m) n).length = 2 := by rw [hperm.length_eq]; exact hb f0 hf0 n hnf0
    have hnd : (borderFacesOf (allPushes m) n).Nodup := hperm.nodup_iff.2 (List.nodup_range.filter _)
    have hmem : ∀ f, f ∈ borderFacesOf (allPushes m) n ↔ OnBoundary m f ∧ n ∈ face m f := by
      intro f
      rw [hperm.mem_iff]
      simp [boundaryFacesAt, OnBoundary, and_assoc]
    have eo := otherNodes_spec dbg hc hp n (borderFacesOf (allPushes m) n) (fun f hf => ((hmem f).1 hf).1)
    obtain ⟨f, g, hfg⟩ : ∃ f g, borderFacesOf (allPushes m) n = [f, g] := List.length_eq_two.1 hlen
    rw [hfg] at eo hnd hmem
    simp only [List.map_cons, List.map_nil] at eo
    have hne : f ≠ g := by simpa using hnd
    have hF := (hmem f).1 (by simp)
    have hG := (hmem g).1 (by simp)
    have hcorner : Corner m collin n ↔ collin (node 2 m n) (node 2 m (otherEnd m n f)) (node 2 m (otherEnd m n g)) = false := by
      constructor
      · rintro ⟨f', g', a, b, hne', hf', hg', ja, jb, hcf⟩
        have ha := otherEnd_unique hp hf'.1 ja
        have hb' := otherEnd_unique hp hg'.1 jb
        have m1 : f' ∈ [f, g] := (hmem f').2 ⟨hf', by rcases ja with j | j <;> simp [j]⟩
        have m2 : g' ∈ [f, g] := (hmem g').2 ⟨hg', by rcases jb with j | j <;> simp [j]⟩
        simp only [List.mem_cons, List.not_mem_nil, or_false] at m1 m2
        subst ha hb'
        rcases m1 with rfl | rfl <;> rcases m2 with rfl | rfl
        · exact absurd rfl hne'
        · exact hcf
        · rw [hcol]; exact hcf
        · exact absurd rfl hne'
      · intro hcf
        exact ⟨f, g, _, _, hne, hF.1, hG.1, joins_otherEnd hp hF.1.1 hF.2, joins_otherEnd hp hG.1.1 hG.2, hcf⟩
    have hl2 : (borderFacesOf (allPushes m) n).length = 2 := by rw [hfg]; rfl
    refine ⟨if collin (node 2 m n) (node 2 m (otherEnd m n f)) (node 2 m (otherEnd m n g)) then r else n :: r, ?_, ?_⟩
    · unfold corners
      simp only [Res.bind_eq, Res.assert_true dbg hn, Res.bind_ok]
      rw [Res.assert_true dbg hl2, Res.bind_ok, hfg, eo, Res.bind_ok, Res.assert_true dbg (by rfl), Res.bind_ok]
      simp only [rd, List.getElem?_cons_zero, List.getElem?_cons_succ, Res.bind_ok, e, Res.pure_eq]
      rfl
    · intro k
      cases hcc : collin (node 2 m n) (node 2 m (otherEnd m n f)) (node 2 m (otherEnd m n g)) with
      | true =>
        simp only [if_true, hr, List.mem_cons]
        constructor
        · rintro ⟨h1, h2⟩; exact ⟨Or.inr h1, h2⟩
        · rintro ⟨rfl | h1, h2⟩
          · rw [hcorner, hcc] at h2; simp at h2
          · exact ⟨h1, h2⟩
      | false =>
        simp only [Bool.false_eq_true, if_false, List.mem_cons, hr]
        constructor
        · rintro (rfl | ⟨h1, h2⟩)
          · exact ⟨Or.inl rfl, hcorner.2 hcc⟩
          · exact ⟨Or.inr h1, h2⟩
        · rintro ⟨rfl | h1, h2⟩
          · exact Or.inl rfl
          · exact Or.inr ⟨h1, h2⟩

end

/-! ### the longest edge of the cells around an edge -/

section
variable [LinearOrder K] [Zero K]

/-- Element of a list of lengths (0 out of range). -/
def valAt (l : List K) (i : Nat) : K := l.getD i 0

omit [LinearOrder K] in
theorem rd_valAt {l : List K} {i : Nat} (h : i < l.length) : rd l i = .ok (valAt l i) := by rw [rd_lt h]; simp [valAt, h]

omit [LinearOrder K] in
theorem valAt_set {l : List K} {i : Nat} {v : K} (hi : i < l.length) (j : Nat) : valAt (l.set i v) j = if j = i then v else valAt l j := by
  unfold valAt
  by_cases h : j = i
  · subst h; simp [hi]
  · simp [h, List.getElem?_set_ne (Ne.symm h)]

theorem maxLen_spec (len : List K) : ∀ (es : List Nat) (acc : K), (∀ e ∈ es, e < len.length) →
    ∃ v, maxLen len es acc = .ok v ∧ acc ≤ v ∧ (∀ e ∈ es, valAt len e ≤ v) ∧ (v = acc ∨ ∃ e ∈ es, v = valAt len e)
  | [], acc, _ => ⟨acc, rfl, le_refl _, by simp, Or.inl rfl⟩
  | e :: es, acc, h => by
    obtain ⟨v, h1, h2, h3, h4⟩ := maxLen_spec len es (max acc (valAt len e)) (fun t ht => h t (by simp [ht]))
    refine ⟨v, ?_, le_trans (le_max_left _ _) h2, ?_, ?_⟩
    · simp [maxLen, Res.bind_eq, rd_valAt (h e (by simp)), h1]
    · intro t ht
      rcases List.mem_cons.1 ht with rfl | ht
      · exact le_trans (le_max_right _ _) h2
      · exact h3 t ht
    · rcases h4 with rfl | ⟨t, ht, rfl⟩
      · rcases max_choice acc (valAt len e) with hm | hm
        · left; exact hm
        · right; exact ⟨e, by simp, hm⟩
      · right; exact ⟨t, by simp [ht], rfl⟩

theorem raiseMax_spec (v : K) : ∀ (es : List Nat) (mx : List K), (∀ e ∈ es, e < mx.length) →
    ∃ mx', raiseMax v es mx = .ok mx' ∧ mx'.length = mx.length ∧ ∀ j, valAt mx' j = if j ∈ es then max (valAt mx j) v else valAt mx j
  | [], mx, _ => ⟨mx, rfl, rfl, by simp⟩
  | e :: es, mx, h => by
    have he := h e (by simp)
    obtain ⟨mx', h1, h2, h3⟩ := raiseMax_spec v es (mx.set e (max (valAt mx e) v)) (by simpa using fun t ht => h t (by simp [ht]))
    refine ⟨mx', ?_, by simpa using h2, ?_⟩
    · simp [raiseMax, Res.bind_eq, rd_valAt he, wr_lt he, h1]
    · intro j
      rw [h3, valAt_set he]
      by_cases hj : j = e
      · subst hj; simp
      · simp [hj]

/-- `mx` is, for every edge, the largest length among the cells around it (at least 0). -/
theorem maxLens_spec (len : List K) : ∀ (css : List (List Nat)) (mx : List K), mx.length = len.length → (∀ es ∈ css, ∀ e ∈ es, e < len.length) →
    ∃ mx', maxLens len css mx = .ok mx' ∧ mx'.length = len.length ∧
      (∀ j, valAt mx j ≤ valAt mx' j) ∧
      (∀ es ∈ css, ∀ j ∈ es, 0 ≤ valAt mx' j ∧ ∀ e ∈ es, valAt len e ≤ valAt mx' j) ∧
      (∀ j, valAt mx' j = valAt mx j ∨ valAt mx' j = 0 ∨ ∃ es ∈ css, j ∈ es ∧ ∃ e ∈ es, valAt mx' j = valAt len e)
  | [], mx, hl, _ => ⟨mx, rfl, hl, fun _ => le_refl _, by simp, fun _ => Or.inl rfl⟩
  | es :: css, mx, hl, h => by
    obtain ⟨v, a1, a2, a3, a4⟩ := maxLen_spec len es 0 (h es (by simp))
    obtain ⟨mx1, b1, b2, b3⟩ := raiseMax_spec v es mx (by rw [hl]; exact h es (by simp))
    obtain ⟨mx', c1, c2, c3, c4, c5⟩ := maxLens_spec len css mx1 (by omega) (fun t ht => h t (by simp [ht]))
    refine ⟨mx', ?_, c2, ?_, ?_, ?_⟩
    · simp [maxLens, Res.bind_eq, a1, b1, c1]
    · intro j
      refine le_trans ?_ (c3 j)
      rw [b3]
      split
      · exact le_max_left _ _
      · exact le_refl _
    · intro fs hfs j hj
      rcases List.mem_cons.1 hfs with rfl | hfs
      · have : v ≤ valAt mx' j := by
          refine le_trans ?_ (c3 j)
          rw [b3, if_pos hj]; exact le_max_right _ _
        exact ⟨le_trans a2 this, fun e he => le_trans (a3 e he) this⟩
      · exact c4 fs hfs j hj
    · intro j
      rcases c5 j with e | e | ⟨fs, hfs, hj, e, he, hv⟩
      · rw [b3] at e
        split at e
        · rename_i hj
          rcases max_choice (valAt mx j) v with hm | hm
          · left; rw [e, hm]
          · rw [hm] at e
            rcases a4 with rfl | ⟨t, ht, rfl⟩
            · right; left; exact e
            · right; right; exact ⟨es, by simp, hj, t, ht, e⟩
        · left; exact e
      · right; left; exact e
      · right; right; exact ⟨fs, by simp [hfs], hj, e, he, hv⟩

end

/-! ### the flagging loop -/

/-- The `k`th edge. -/
def edgeAt (idx : List Edge) (k : Nat) : Edge := idx.getD k (0, 0)

/-- Invariant of the flagging loop after the first `i` edges; `good k` says that edge `k` is short and away from the corners. -/
structure FlagInv (idx : List Edge) (good : Nat → Prop) (N i : Nat) (s : Flags) : Prop where
  emask_len : s.emask.length = idx.length
  nmask_len : s.nmask.length = N
  coll_len : s.coll.length = N
  edges : ∀ k, k < idx.length → old s.emask k = 1 ∨ (old s.emask k = 0 ∧ k < i ∧ good k ∧
    ∃ d p, (edgeAt idx k = (d, p) ∨ edgeAt idx k = (p, d)) ∧ old s.nmask d = 0 ∧ old s.nmask p = 2 ∧ old s.coll d = p)
  bits : ∀ n, n < N → old s.nmask n = 0 ∨ old s.nmask n = 1 ∨ old s.nmask n = 2
  kept_self : ∀ n, n < N → old s.nmask n ≠ 0 → old s.coll n = n
  gone : ∀ n, n < N → old s.nmask n = 0 → ∃ k, k < idx.length ∧ old s.emask k = 0 ∧
    (edgeAt idx k = (n, old s.coll n) ∨ edgeAt idx k = (old s.coll n, n)) ∧ old s.nmask (old s.coll n) = 2 ∧ old s.coll n < N
  target : ∀ n, n < N → old s.nmask n = 2 → ∃ d, d < N ∧ d ≠ n ∧ old s.coll d = n
  matching : ∀ k k', k < idx.length → k' < idx.length → old s.emask k = 0 → old s.emask k' = 0 →
    (∃ n, (n = (edgeAt idx k).1 ∨ n = (edgeAt idx k).2) ∧ (n = (edgeAt idx k').1 ∨ n = (edgeAt idx k').2)) → k = k'
  clean : s.clean = true ↔ ∀ k, k < idx.length → old s.emask k ≠ 0
  maximal : ∀ k, k < i → k < idx.length → good k → old s.emask k = 0 ∨ old s.nmask (edgeAt idx k).1 ≠ 1 ∨ old s.nmask (edgeAt idx k).2 ≠ 1

theorem old_replicate {n k v : Nat} (h : k < n) : old (List.replicate n v) k = v := by simp [old, h]
theorem old_range {n k : Nat} (h : k < n) : old (List.range n) k = k := by simp [old, h]

theorem flagInv_init (idx : List Edge) (good : Nat → Prop) (N : Nat) : FlagInv idx good N 0 (Flags.init idx.length N) where
  emask_len := by simp [Flags.init]
  nmask_len := by simp [Flags.init]
  coll_len := by simp [Flags.init]
  edges := fun k hk => Or.inl (old_replicate hk)
  bits := fun n hn => Or.inr (Or.inl (old_replicate hn))
  kept_self := fun n hn _ => old_range hn
  gone := fun n hn h => by simp only [Flags.init, old_replicate hn] at h; omega
  target := fun n hn h => by simp only [Flags.init, old_replicate hn] at h; omega
  matching := fun k k' hk hk' h h' _ => by simp only [Flags.init, old_replicate hk] at h; omega
  clean := by
    simp only [Flags.init, true_iff]
    intro k hk
    rw [old_replicate hk]; omega
  maximal := by intro k hk; omega

/-- A flagged edge joins its ends in place of the unordered pair. -/
theorem flag_update {idx : List Edge} {good : Nat → Prop} {N i : Nat} {s : Flags} (h : FlagInv idx good N i s) (hi : i < idx.length)
    (hgood : good i) {d p : Nat} (hdp : d ≠ p) (he : edgeAt idx i = (d, p) ∨ edgeAt idx i = (p, d)) (hd : d < N) (hp : p < N)
    (md : old s.nmask d = 1) (mp : old s.nmask p = 1) :
    FlagInv idx good N (i + 1) { emask := s.emask.set i 0, nmask := (s.nmask.set p 2).set d 0, coll := s.coll.set d p, clean := false } := by
  have hE : ∀ k, old (s.emask.set i 0) k = if k = i then 0 else old s.emask k := old_set (by rw [h.emask_len]; exact hi)
  have hM : ∀ k, old ((s.nmask.set p 2).set d 0) k = if k = d then 0 else if k = p then 2 else old s.nmask k := by
    intro k
    rw [old_set (by rw [List.length_set, h.nmask_len]; exact hd), old_set (by rw [h.nmask_len]; exact hp)]
  have hC : ∀ k, old (s.coll.set d p) k = if k = d then p else old s.coll k := old_set (by rw [h.coll_len]; exact hd)
  have ends : ∀ n, (n = (edgeAt idx i).1 ∨ n = (edgeAt idx i).2) ↔ n = d ∨ n = p := by
    intro n
    rcases he with e | e <;> rw [e]
    exact Or.comm
  -- ends of a flagged edge are not `d` or `p`
  have fresh : ∀ k, k < idx.length → old s.emask k = 0 → ∀ n, (n = (edgeAt idx k).1 ∨ n = (edgeAt idx k).2) → n ≠ d ∧ n ≠ p := by
    intro k hk h0 n hn
    rcases h.edges k hk with h1 | ⟨_, _, _, d', p', he', hd', hp', _⟩
    · omega
    · have : n = d' ∨ n = p' := by
        rcases he' with e | e <;> rw [e] at hn
        · exact hn
        · exact hn.symm
      have hne : old s.nmask n ≠ 1 := by rcases this with rfl | rfl <;> omega
      exact ⟨fun e => hne (e ▸ md), fun e => hne (e ▸ mp)⟩
  refine ⟨by simpa using h.emask_len, by simpa using h.nmask_len, by simpa using h.coll_len, ?_, ?_, ?_, ?_, ?_, ?_, ?_, ?_⟩
  · intro k hk
    simp only [hE, hM, hC]
    by_cases hki : k = i
    · subst hki
      right
      refine ⟨by simp, by omega, hgood, d, p, he, by simp, by simp [Ne.symm hdp], by simp⟩
    · rw [if_neg hki]
      rcases h.edges k hk with h1 | ⟨h0, h1, h2, d', p', he', hd', hp', hc'⟩
      · left; exact h1
      · right
        refine ⟨h0, by omega, h2, d', p', he', ?_, ?_, ?_⟩
        · rw [if_neg (fun e => by subst e; omega), if_neg (fun e => by subst e; omega)]; exact hd'
        · rw [if_neg (fun e => by subst e; omega), if_neg (fun e => by subst e; omega)]; exact hp'
        · rw [if_neg (fun e => by subst e; omega)]; exact hc'
  · intro n hn
    simp only [hM]
    by_cases h1 : n = d
    · left; simp [h1]
    · by_cases h2 : n = p
      · right; right; simp [h2, Ne.symm hdp]
      · simpa [h1, h2] using h.bits n hn
  · intro n hn hne
    simp only [hM, hC] at hne ⊢
    by_cases h1 : n = d
    · simp [h1] at hne
    · rw [if_neg h1] at hne ⊢
      by_cases h2 : n = p
      · subst h2; exact h.kept_self n hn (by omega)
      · rw [if_neg h2] at hne; exact h.kept_self n hn hne
  · intro n hn h0
    simp only [hM, hC, hE] at h0 ⊢
    by_cases h1 : n = d
    · subst h1
      refine ⟨i, hi, by simp, by simpa using he, by simp [Ne.symm hdp], by simpa using hp⟩
    · rw [if_neg h1] at h0 ⊢
      by_cases h2 : n = p
      · rw [if_pos h2] at h0; omega
      · rw [if_neg h2] at h0
        obtain ⟨k, hk, e0, e1, e2, e3⟩ := h.gone n hn h0
        refine ⟨k, hk, ?_, e1, ?_, e3⟩
        · split
          · rfl
          · exact e0
        · rw [if_neg (fun e => by rw [e] at e2; omega), if_neg (fun e => by rw [e] at e2; omega)]; exact e2
  · intro n hn h2
    simp only [hM, hC] at h2 ⊢
    by_cases h1 : n = d
    · rw [if_pos h1] at h2; omega
    · rw [if_neg h1] at h2
      by_cases hnp : n = p
      · exact ⟨d, hd, Ne.symm h1, by simp [hnp]⟩
      · rw [if_neg hnp] at h2
        obtain ⟨d', e1, e2, e3⟩ := h.target n hn h2
        refine ⟨d', e1, e2, ?_⟩
        rw [if_neg (fun e => by subst e; have := h.kept_self d' hd (by omega); omega)]
        exact e3
  · intro k k' hk hk' h0 h0' hsh
    simp only [hE] at h0 h0'
    by_cases h1 : k = i
    · by_cases h2 : k' = i
      · omega
      · rw [if_neg h2] at h0'
        obtain ⟨n, hn, hn'⟩ := hsh
        subst h1
        have := fresh k' hk' h0' n hn'
        rcases (ends n).1 hn with e | e
        · exact absurd e this.1
        · exact absurd e this.2
    · rw [if_neg h1] at h0
      by_cases h2 : k' = i
      · obtain ⟨n, hn, hn'⟩ := hsh
        subst h2
        have := fresh k hk h0 n hn
        rcases (ends n).1 hn' with e | e
        · exact absurd e this.1
        · exact absurd e this.2
      · rw [if_neg h2] at h0'
        exact h.matching k k' hk hk' h0 h0' hsh
  · simp only [Bool.false_eq_true, false_iff]
    intro hcon
    exact hcon i hi (by rw [hE]; simp)
  · intro k hk hkl hg
    simp only [hE, hM]
    by_cases h1 : k = i
    · left; simp [h1]
    · rw [if_neg h1]
      rcases h.maximal k (by omega) hkl hg with a | a | a
      · left; exact a
      · right; left
        split
        · omega
        · split
          · omega
          · exact a
      · right; right
        split
        · omega
        · split
          · omega
          · exact a

section
variable [LinearOrder K] [Mul K] [Zero K]

/-- Edge `k` is short and not at a corner. -/
def GoodEdge (tol : K) (len mx : List K) (corner : List Nat) (idx : List Edge) (k : Nat) : Prop :=
  valAt len k < tol * valAt mx k ∧ (edgeAt idx k).1 ∉ corner ∧ (edgeAt idx k).2 ∉ corner

theorem flagStep_spec {tol : K} {len mx : List K} {border : List (Nat × Nat)} {corner : List Nat} {idx : List Edge} {N i : Nat} {s : Flags}
    (hlen : len.length = idx.length) (hmx : mx.length = idx.length)
    (hidx : ∀ k, k < idx.length → (edgeAt idx k).1 ≠ (edgeAt idx k).2 ∧ (edgeAt idx k).1 < N ∧ (edgeAt idx k).2 < N)
    (hi : i < idx.length) (h : FlagInv idx (GoodEdge tol len mx corner idx) N i s) :
    ∃ s', flagStep tol len mx border corner idx i s = .ok s' ∧ FlagInv idx (GoodEdge tol len mx corner idx) N (i + 1) s' := by
  obtain ⟨hne, h1, h2⟩ := hidx i hi
  have e0 : rd idx i = .ok (edgeAt idx i) := by rw [rd_lt hi]; simp [edgeAt, hi]
  unfold flagStep
  simp only [Res.bind_eq, Res.pure_eq, e0, Res.bind_ok, rd_valAt (hlen ▸ hi : i < len.length), rd_valAt (hmx ▸ hi : i < mx.length),
    rd_old (h.nmask_len ▸ h1 : (edgeAt idx i).1 < s.nmask.length), rd_old (h.nmask_len ▸ h2 : (edgeAt idx i).2 < s.nmask.length)]
  split
  · rename_i hcond
    obtain ⟨c1, c2, c3, c4⟩ := hcond
    have hg : GoodEdge tol len mx corner idx i := ⟨c1, fun x => c4 (Or.inl x), fun x => c4 (Or.inr x)⟩
    have wE : wr s.emask i 0 = .ok (s.emask.set i 0) := wr_lt (h.emask_len ▸ hi)
    cases hk : (decide ((edgeAt idx i).2 ∈ corner) || (isBorder border (edgeAt idx i).2 && !isBorder border (edgeAt idx i).1)) with
    | true =>
      have w1 : wr s.nmask (edgeAt idx i).2 2 = .ok (s.nmask.set (edgeAt idx i).2 2) := wr_lt (h.nmask_len ▸ h2)
      have w2 : wr (s.nmask.set (edgeAt idx i).2 2) (edgeAt idx i).1 0 = .ok ((s.nmask.set (edgeAt idx i).2 2).set (edgeAt idx i).1 0) :=
        wr_lt (by rw [List.length_set, h.nmask_len]; exact h1)
      have w3 : wr s.coll (edgeAt idx i).1 (edgeAt idx i).2 = .ok (s.coll.set (edgeAt idx i).1 (edgeAt idx i).2) := wr_lt (h.coll_len ▸ h1)
      refine ⟨_, by simp only [wE, Res.bind_ok, if_true, w1, w2, w3]; rfl, ?_⟩
      exact flag_update h hi hg hne (Or.inl rfl) h1 h2 c2 c3
    | false =>
      have w1 : wr s.nmask (edgeAt idx i).1 2 = .ok (s.nmask.set (edgeAt idx i).1 2) := wr_lt (h.nmask_len ▸ h1)
      have w2 : wr (s.nmask.set (edgeAt idx i).1 2) (edgeAt idx i).2 0 = .ok ((s.nmask.set (edgeAt idx i).1 2).set (edgeAt idx i).2 0) :=
        wr_lt (by rw [List.length_set, h.nmask_len]; exact h2)
      have w3 : wr s.coll (edgeAt idx i).2 (edgeAt idx i).1 = .ok (s.coll.set (edgeAt idx i).2 (edgeAt idx i).1) := wr_lt (h.coll_len ▸ h2)
      refine ⟨_, by simp only [wE, Res.bind_ok, Bool.false_eq_true, if_false, w1, w2, w3]; rfl, ?_⟩
      exact flag_update h hi hg (Ne.symm hne) (Or.inr rfl) h2 h1 c3 c2
  · rename_i hcond
    refine ⟨s, rfl, { h with edges := ?_, maximal := ?_ }⟩
    · intro k hk
      rcases h.edges k hk with a | ⟨a, b, c⟩
      · left; exact a
      · right; exact ⟨a, by omega, c⟩
    · intro k hk hkl hg
      by_cases hki : k = i
      · subst hki
        right
        by_contra hcon
        push Not at hcon
        exact hcond ⟨hg.1, hcon.1, hcon.2, fun x => by rcases x with x | x; exact hg.2.1 x; exact hg.2.2 x⟩
      · exact h.maximal k (by omega) hkl hg

theorem flagLoop_spec {tol : K} {len mx : List K} {border : List (Nat × Nat)} {corner : List Nat} {idx : List Edge} {N : Nat}
    (hlen : len.length = idx.length) (hmx : mx.length = idx.length)
    (hidx : ∀ k, k < idx.length → (edgeAt idx k).1 ≠ (edgeAt idx k).2 ∧ (edgeAt idx k).1 < N ∧ (edgeAt idx k).2 < N) :
    ∀ (n i : Nat) (s : Flags), i + n = idx.length → FlagInv idx (GoodEdge tol len mx corner idx) N i s →
    ∃ s', flagLoop tol len mx border corner idx i n s = .ok s' ∧ FlagInv idx (GoodEdge tol len mx corner idx) N idx.length s'
  | 0, i, s, hi, h => ⟨s, rfl, by rw [← hi]; exact h⟩
  | n + 1, i, s, hi, h => by
    obtain ⟨s1, e1, h1⟩ := flagStep_spec (border := border) hlen hmx hidx (by omega) h
    obtain ⟨s2, e2, h2⟩ := flagLoop_spec (border := border) hlen hmx hidx n (i + 1) s1 (by omega) h1
    exact ⟨s2, by simp [flagLoop, Res.bind_eq, e1, e2], h2⟩

end

/-! ### the face mask and the node map -/

theorem composeMap_spec (coll rank : List Nat) (hl : coll.length = rank.length) (hlt : ∀ n, n < coll.length → old coll n < coll.length)
    (hid : ∀ n, n < coll.length → old coll (old coll n) = old coll n) :
    ∀ (n i : Nat) (map : List Nat), i + n = coll.length → map.length = rank.length →
    (∀ j, j < coll.length → old map j = if j < i then old rank (old coll j) else old rank j) →
    ∃ map', composeMap coll i n map = .ok map' ∧ map'.length = rank.length ∧ ∀ j, j < coll.length → old map' j = old rank (old coll j)
  | 0, i, map, hi, hm, h => ⟨map, rfl, hm, fun j hj => by rw [h j hj, if_pos (by omega)]⟩
  | n + 1, i, map, hi, hm, h => by
    have hi' : i < coll.length := by omega
    have hci := hlt i hi'
    have hv : old map (old coll i) = old rank (old coll i) := by
      rw [h _ hci]
      split
      · rw [hid i hi']
      · rfl
    obtain ⟨map', e, l, g⟩ := composeMap_spec coll rank hl hlt hid n (i + 1) (map.set i (old rank (old coll i))) (by omega) (by simpa using hm) (by
      intro j hj
      rw [old_set (by omega)]
      by_cases hji : j = i
      · subst hji; simp
      · rw [if_neg hji, h j hj]
        by_cases h1 : j < i
        · rw [if_pos h1, if_pos (by omega)]
        · rw [if_neg h1, if_neg (by omega)])
    refine ⟨map', ?_, l, g⟩
    simp [composeMap, Res.bind_eq, rd_old hi', rd_old (by omega : old coll i < map.length), hv, wr_lt (by omega : i < map.length), e]

theorem findKey_of_mem {keys : KMap Edge} {ks : List Edge} (hn : Numbers keys ks) {k : Edge} {i : Nat} (h : (k, i) ∈ keys) : findKey k keys = some i :=
  (lookup_eq_some_iff' hn.nodup).2 h

theorem faceMask_spec (dbg : Bool) {keys : KMap Edge} {ks : List Edge} (hn : Numbers keys ks) (emask : List Nat) (he : emask.length = keys.length)
    (hbit : ∀ k, k < emask.length → old emask k = 0 ∨ old emask k = 1) : ∀ Fs : List (List Nat),
    (∀ F ∈ Fs, ∃ a b, F = [a, b] ∧ a ≠ b ∧ edgeKey a b ∈ ks) →
    ∃ fm, faceMask dbg 1 keys emask Fs = .ok fm ∧ List.Forall₂ (fun F b => ∃ a c i, F = [a, c] ∧ (edgeKey a c, i) ∈ keys ∧ b = decide (old emask i ≠ 0)) Fs fm
  | [], _ => ⟨[], rfl, .nil⟩
  | F :: Fs, h => by
    obtain ⟨fm, e, hf⟩ := faceMask_spec dbg hn emask he hbit Fs (fun t ht => h t (by simp [ht]))
    obtain ⟨a, b, rfl, hab, hk⟩ := h F (by simp)
    obtain ⟨⟨k, i⟩, hm, rfl⟩ := List.mem_map.1 ((hn.keys _).2 hk)
    have hi : i < emask.length := by
      have : i ∈ keys.map Prod.snd := List.mem_map.2 ⟨_, hm, rfl⟩
      rw [hn.ids, List.mem_range] at this
      omega
    refine ⟨decide (old emask i ≠ 0) :: fm, ?_, .cons ⟨a, b, i, rfl, hm, rfl⟩ hf⟩
    unfold faceMask
    simp only [faceEdges_pair, activeEdges, Res.bind_eq, Res.pure_eq, Res.assert_true dbg hab, Res.bind_ok, findKey_of_mem hn hm, rd_old hi, e]
    rcases hbit i hi with h0 | h0 <;> simp [h0]

end Verif.Editor
