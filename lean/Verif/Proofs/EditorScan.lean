import Verif.Model.EditorEdges
import Verif.Spec.Editor
import Verif.Proofs.Editor
import Verif.Proofs.Internal
import Mathlib.Data.List.Forall2
/- The scan of the cells in `MeshEditor::flagEdgesForCleaning`: edge numbering, edge lengths and border faces. -/
namespace Verif.Editor
open Verif Verif.Mesh Verif.Internal
variable {R K : Type}

theorem hashEdge_natCast (dbg : Bool) {a b : Nat} (h : a ≠ b) : hashEdge dbg (a : Int) (b : Int) = .ok (((edgeKey a b).1 : Int), ((edgeKey a b).2 : Int)) := by
  have : (a : Int) ≠ b := by omega
  simp only [hashEdge, Res.bind_eq, Res.assert_true dbg this, Res.bind_ok, Res.pure_eq, edgeKey]
  by_cases h1 : a < b <;> simp [h1]

theorem edgeKey_symm (a b : Nat) : edgeKey a b = edgeKey b a := by
  unfold edgeKey
  rcases Nat.lt_trichotomy a b with h | h | h
  · rw [if_pos h, if_neg (by omega)]
  · subst h; rfl
  · rw [if_neg (by omega), if_pos h]

theorem edgeKey_cases (a b : Nat) : edgeKey a b = (a, b) ∨ edgeKey a b = (b, a) := by
  unfold edgeKey; split <;> simp

theorem edgeKey_eq_iff {a b c d : Nat} : edgeKey a b = edgeKey c d ↔ (a = c ∧ b = d) ∨ (a = d ∧ b = c) := by
  unfold edgeKey
  split <;> split <;> simp only [Prod.mk.injEq] <;> omega

theorem addKey_new [DecidableEq κ] {m : KMap κ} {ks : List κ} (h : Numbers m ks) {k : κ} (hk : (addKey k m).1 = m.length) :
    (addKey k m).2 = m ++ [(k, m.length)] := by
  unfold addKey at hk ⊢
  cases hl : m.lookup k with
  | none => rfl
  | some v =>
    rw [hl] at hk
    simp only at hk
    have hm := (lookup_eq_some_iff' h.nodup).1 hl
    have : v ∈ m.map Prod.snd := List.mem_map.2 ⟨_, hm, rfl⟩
    rw [h.ids, List.mem_range] at this
    omega

theorem addKey_old [DecidableEq κ] {m : KMap κ} {k : κ} (hk : ¬ (addKey k m).1 = m.length) : (addKey k m).2 = m := by
  unfold addKey at hk ⊢
  cases hl : m.lookup k with
  | none => rw [hl] at hk; simp at hk
  | some v => rfl

/-- The edge key of a face of a planar mesh. -/
def fk (m : Tess R) (f : Nat) : Edge := edgeKey ((face m f).getD 0 0) ((face m f).getD 1 0)

theorem fk_of {m : Tess R} {f a b : Nat} (h : face m f = [a, b]) : fk m f = edgeKey a b := by simp [fk, h]

theorem Planar.face {m : Tess R} (h : Planar m) {f : Nat} (hf : f < m.faces.length) : ∃ a b, face m f = [a, b] ∧ a ≠ b := h _ (face_mem hf)

section
variable {D : Nat} {m : Tess R} {dist : List R → List R → K}

/-- The length of an edge key. -/
def elen (D : Nat) (m : Tess R) (dist : List R → List R → K) (e : Edge) : K := dist (node D m e.1) (node D m e.2)

/-- The scan state after the keys `ks` have been seen. -/
structure ScanOK (D : Nat) (m : Tess R) (dist : List R → List R → K) (st : Scan K) (ks : List Edge) : Prop where
  nums : Numbers st.keys ks
  idx : st.idx = st.keys.map Prod.fst
  len : st.len = st.idx.map (elen D m dist)

theorem scanEdge_spec (dbg : Bool) (hsym : ∀ p q, dist p q = dist q p) {st : Scan K} {ks : List Edge} (h : ScanOK D m dist st ks)
    {a b : Nat} (hab : a ≠ b) (ha : a < numNodes D m) (hb : b < numNodes D m) :
    ∃ i st', scanEdge dbg D m dist st (a, b) = .ok (i, st') ∧ ScanOK D m dist st' (ks ++ [edgeKey a b]) ∧
      (edgeKey a b, i) ∈ st'.keys ∧ (∀ p ∈ st.keys, p ∈ st'.keys) ∧ st'.border = st.border := by
  have hN : a < m.nodes.length / D ∧ b < m.nodes.length / D := ⟨ha, hb⟩
  obtain ⟨n1, n2, n3, n4⟩ := addKey_spec h.nums (edgeKey a b)
  unfold scanEdge
  simp only [Res.bind_eq, Res.assert_true dbg hab, Res.assert_true dbg hN, Res.bind_ok, Res.pure_eq, if_pos hN]
  by_cases hk : (addKey (edgeKey a b) st.keys).1 = st.keys.length
  · rw [if_pos hk]
    refine ⟨_, _, rfl, ⟨n1, ?_, ?_⟩, n2, n3, rfl⟩
    · have hnew := addKey_new h.nums hk
      simp [hnew, h.idx]
    · simp only [List.map_append, List.map_cons, List.map_nil, h.len]
      congr 2
      rcases edgeKey_cases a b with e | e
      · rw [e, elen]
      · rw [e, elen]; exact hsym _ _
  · rw [if_neg hk]
    have hold := addKey_old hk
    refine ⟨_, _, rfl, ⟨n1, ?_, h.len⟩, n2, n3, rfl⟩
    rw [hold]; exact h.idx

theorem faceEdges_pair (a b : Nat) : faceEdges [a, b] = [(a, b)] := by simp [faceEdges]

/-- The (node, face) pairs pushed for a face. -/
def pushes (m : Tess R) (f : Nat) : List (Nat × Nat) := if (cellsOf m f).length = 1 then (face m f).map fun n => (n, f) else []

theorem scanFace_spec (dbg : Bool) (hc : Consistent D m) (hp : Planar m) (hsym : ∀ p q, dist p q = dist q p) {st : Scan K} {ks : List Edge}
    (h : ScanOK D m dist st ks) {s : Int} (hs : posID s < m.faces.length) :
    ∃ i st', scanFace dbg D m dist st s = .ok ([i], st') ∧ ScanOK D m dist st' (ks ++ [fk m (posID s)]) ∧
      (fk m (posID s), i) ∈ st'.keys ∧ (∀ p ∈ st.keys, p ∈ st'.keys) ∧ st'.border = st.border ++ pushes m (posID s) := by
  obtain ⟨a, b, hF, hab⟩ := hp.face hs
  have e1 : rd m.faces (posID s) = .ok [a, b] := by rw [rd_lt hs, ← hF]; simp [face, hs]
  have hfcl : posID s < m.faceCells.length := by rw [hc.faceCells_len]; exact hs
  have e2 : rd m.faceCells (posID s) = .ok (cellsOf m (posID s)) := by rw [rd_lt hfcl]; simp [cellsOf, hfcl]
  have hsz := hc.faceCells_size _ (cellsOf_mem hfcl)
  have hmem := hc.faces_lt _ (face_mem hs)
  rw [hF] at hmem
  have ha := hmem a (by simp)
  have hb := hmem b (by simp)
  have hst1 : ScanOK D m dist (if (cellsOf m (posID s)).length = 1 then { st with border := st.border ++ [a, b].map fun n => (n, posID s) } else st) ks := by
    split
    · exact ⟨h.nums, h.idx, h.len⟩
    · exact h
  obtain ⟨i, st', q1, q2, q3, q4, q5⟩ := scanEdge_spec dbg hsym hst1 hab ha hb
  refine ⟨i, st', ?_, by rw [fk_of hF]; exact q2, by rw [fk_of hF]; exact q3, ?_, ?_⟩
  · unfold scanFace
    simp only [Res.bind_eq, Res.assert_true dbg hs, Res.bind_ok, e1, e2, Res.assert_true dbg hsz]
    rw [Res.assert_true dbg (by simp), Res.bind_ok, faceEdges_pair]
    simp only [scanEdges, Res.bind_eq, Res.pure_eq, q1, Res.bind_ok]
  · intro p hp
    apply q4
    split <;> exact hp
  · rw [q5, pushes, hF]
    split <;> simp

theorem scanCell_spec (dbg : Bool) (hc : Consistent D m) (hp : Planar m) (hsym : ∀ p q, dist p q = dist q p) : ∀ (C : List Int) (st : Scan K) (ks : List Edge),
    ScanOK D m dist st ks → (∀ s ∈ C, posID s < m.faces.length) →
    ∃ ids st', scanCell dbg D m dist C st = .ok (ids, st') ∧ ScanOK D m dist st' (ks ++ C.map fun s => fk m (posID s)) ∧
      List.Forall₂ (fun s i => (fk m (posID s), i) ∈ st'.keys) C ids ∧ (∀ p ∈ st.keys, p ∈ st'.keys) ∧
      st'.border = st.border ++ C.flatMap fun s => pushes m (posID s)
  | [], st, ks, h, _ => ⟨[], st, rfl, by simpa using h, .nil, fun p hp => hp, by simp⟩
  | s :: C, st, ks, h, hC => by
    obtain ⟨i, st1, q1, q2, q3, q4, q5⟩ := scanFace_spec dbg hc hp hsym h (hC s (by simp))
    obtain ⟨ids, st2, r1, r2, r3, r4, r5⟩ := scanCell_spec dbg hc hp hsym C st1 _ q2 (fun t ht => hC t (by simp [ht]))
    refine ⟨i :: ids, st2, ?_, by simpa using r2, .cons (r4 _ q3) r3, fun p hp => r4 p (q4 p hp), ?_⟩
    · simp [scanCell, Res.bind_eq, Res.pure_eq, q1, r1]
    · rw [r5, q5]; simp

theorem scanCells_spec (dbg : Bool) (hc : Consistent D m) (hp : Planar m) (hsym : ∀ p q, dist p q = dist q p) : ∀ (cs : List (List Int)) (st : Scan K) (ks : List Edge),
    ScanOK D m dist st ks → (∀ C ∈ cs, ∀ s ∈ C, posID s < m.faces.length) →
    ∃ ids st', scanCells dbg D m dist cs st = .ok (ids, st') ∧ ScanOK D m dist st' (ks ++ cs.flatten.map fun s => fk m (posID s)) ∧
      List.Forall₂ (List.Forall₂ (fun s i => (fk m (posID s), i) ∈ st'.keys)) cs ids ∧ (∀ p ∈ st.keys, p ∈ st'.keys) ∧
      st'.border = st.border ++ cs.flatten.flatMap fun s => pushes m (posID s)
  | [], st, ks, h, _ => ⟨[], st, rfl, by simpa using h, .nil, fun p hp => hp, by simp⟩
  | C :: cs, st, ks, h, hC => by
    obtain ⟨i, st1, q1, q2, q3, q4, q5⟩ := scanCell_spec dbg hc hp hsym C st ks h (hC C (by simp))
    obtain ⟨ids, st2, r1, r2, r3, r4, r5⟩ := scanCells_spec dbg hc hp hsym cs st1 _ q2 (fun t ht => hC t (by simp [ht]))
    refine ⟨i :: ids, st2, ?_, by simpa using r2, .cons (q3.imp fun s i h => r4 _ h) r3, fun p hp => r4 p (q4 p hp), ?_⟩
    · simp [scanCells, Res.bind_eq, Res.pure_eq, q1, r1]
    · rw [r5, q5]; simp

end

/-! ### how often a face occurs in the cells -/

theorem count_posID (C : List Int) (f : Nat) : (C.map posID).count f = C.count (f : Int) + C.count (flip f) := by
  induction C with
  | nil => rfl
  | cons s C ih =>
    simp only [List.map_cons, List.count_cons, ih]
    have hne : (f : Int) ≠ flip f := by simp only [flip]; omega
    by_cases h1 : s = (f : Int)
    · subst h1
      have : ((f : Int) == flip f) = false := by simpa using hne
      simp [this]; omega
    · by_cases h2 : s = flip f
      · subst h2; simp [h1]; omega
      · have : posID s ≠ f := fun h => by rcases posID_eq_iff.1 h with h | h <;> contradiction
        simp [h1, h2, this]

theorem sum_count (X : List Int) (n : Nat) (h : ∀ s ∈ X, posID s < n) :
    ((List.range n).map fun c : Nat => X.count (c : Int) + X.count (flip (c : Int))).sum = X.length := by
  induction X with
  | nil => simp
  | cons s X ih =>
    have ih' := ih (fun t ht => h t (by simp [ht]))
    have hs := h s (by simp)
    have e : ∀ c : Nat, (s :: X).count (c : Int) + (s :: X).count (flip (c : Int)) =
        (X.count (c : Int) + X.count (flip (c : Int))) + (if c = posID s then 1 else 0) := by
      intro c
      have := count_posID (s :: X) c
      rw [List.map_cons, List.count_cons, count_posID] at this
      by_cases hc : c = posID s
      · subst hc; simp at this ⊢; omega
      · have hb : (posID s == c) = false := by simpa using fun h => hc h.symm
        simp [hb] at this
        simp [hc]; omega
    simp only [e]
    have sumadd : ∀ (l : List Nat) (g k : Nat → Nat), (l.map fun c => g c + k c).sum = (l.map g).sum + (l.map k).sum := by
      intro l g k
      induction l with
      | nil => rfl
      | cons a l ihl => simp [ihl]; omega
    rw [sumadd, ih']
    have one : ∀ (l : List Nat), l.Nodup → posID s ∈ l → (l.map fun c => if c = posID s then 1 else 0).sum = 1 := by
      intro l hn hm
      induction l with
      | nil => simp at hm
      | cons a l ihl =>
        simp only [List.nodup_cons] at hn
        by_cases ha : a = posID s
        · subst ha
          have z : (l.map fun c => if c = posID s then 1 else 0).sum = 0 := by
            rw [List.sum_eq_zero_iff_forall_eq_nat]
            intro x hx
            obtain ⟨y, hy, rfl⟩ := List.mem_map.1 hx
            rw [if_neg]; rintro rfl; exact hn.1 hy
          simp [z]
        · simp only [List.mem_cons] at hm
          rcases hm with h | h
          · exact absurd h.symm ha
          · simp [ha, ihl hn.2 h]
    rw [one _ List.nodup_range (List.mem_range.2 hs)]
    simp

theorem count_flatten_cells {D : Nat} {m : Tess R} (hc : Consistent D m) {f : Nat} (hf : f < m.faces.length) :
    (m.cells.flatten.map posID).count f = (cellsOf m f).length := by
  have hfl : f < m.faceCells.length := by rw [hc.faceCells_len]; exact hf
  rw [← sum_count (cellsOf m f) m.cells.length (hc.faceCells_lt _ (cellsOf_mem hfl)), List.map_flatten, List.count_flatten]
  congr 1
  apply List.ext_getElem
  · simp
  · intro c h1 h2
    simp only [List.length_map] at h1
    simp only [List.getElem_map, List.getElem_range]
    have hcl : m.cells[c] = cell m c := by simp [cell, h1]
    rw [count_posID, hcl, (hc.inverse f hf c h1).1, (hc.inverse f hf c h1).2]

/-- Every face belongs to a cell. -/
theorem face_in_cell {D : Nat} {m : Tess R} (hc : Consistent D m) {f : Nat} (hf : f < m.faces.length) :
    ∃ s ∈ m.cells.flatten, posID s = f := by
  have h := count_flatten_cells hc hf
  have hfl : f < m.faceCells.length := by rw [hc.faceCells_len]; exact hf
  have hsz := hc.faceCells_size _ (cellsOf_mem hfl)
  have : 0 < (m.cells.flatten.map posID).count f := by omega
  exact List.mem_map.1 (List.count_pos_iff.1 this)

end Verif.Editor
