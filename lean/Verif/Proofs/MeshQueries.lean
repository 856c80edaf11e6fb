import Verif.Proofs.Restrict
import Mathlib.Data.List.Nodup
namespace Verif.Mesh
open Verif
variable {R : Type}

theorem mem_setInsert {s : List Nat} {x y : Nat} : y ∈ setInsert s x ↔ y ∈ s ∨ y = x := by
  unfold setInsert
  split
  · constructor
    · exact Or.inl
    · rintro (h | rfl)
      · exact h
      · assumption
  · simp

theorem nodup_setInsert {s : List Nat} {x : Nat} (h : s.Nodup) : (setInsert s x).Nodup := by
  unfold setInsert
  split
  · exact h
  · rw [List.nodup_append]
    refine ⟨h, by simp, ?_⟩
    intro a ha b hb
    simp at hb; subst hb
    intro e; subst e; contradiction

/-- State of the node→cells table: right length, entries without duplicates. -/
def TableOK (nn : Nat) (r : List (List Nat)) : Prop := r.length = nn ∧ ∀ s ∈ r, s.Nodup

theorem nodeCellsFace_spec (dbg : Bool) (i nn : Nat) : ∀ (ns : List Nat) (r : List (List Nat)), TableOK nn r → (∀ n ∈ ns, n < nn) →
    ∃ r', nodeCellsFace dbg i ns r = .ok r' ∧ TableOK nn r' ∧
      ∀ n c, c ∈ r'.getD n [] ↔ c ∈ r.getD n [] ∨ (c = i ∧ n ∈ ns)
  | [], r, h, _ => ⟨r, by simp [nodeCellsFace], h, by simp⟩
  | n :: ns, r, h, hn => by
    have hl : n < r.length := by rw [h.1]; exact hn n (by simp)
    have hT : TableOK nn (r.set n (setInsert r[n] i)) := by
      refine ⟨by simpa using h.1, ?_⟩
      intro s hs
      rcases List.mem_or_eq_of_mem_set hs with hs | rfl
      · exact h.2 s hs
      · exact nodup_setInsert (h.2 _ (List.getElem_mem hl))
    obtain ⟨r', e, h1, h2⟩ := nodeCellsFace_spec dbg i nn ns _ hT (fun k hk => hn k (by simp [hk]))
    refine ⟨r', ?_, h1, ?_⟩
    · simp [nodeCellsFace, hl, e]
    · intro k c
      rw [h2]
      by_cases hk : k = n
      · subst hk
        simp [hl, mem_setInsert]
        tauto
      · have hk' : n ≠ k := fun e => hk e.symm
        simp [List.getElem?_set_ne hk', hk]

theorem nodeCellsCell_spec (dbg : Bool) (faces : List (List Nat)) (i nn : Nat) (hF : ∀ F ∈ faces, ∀ n ∈ F, n < nn) :
    ∀ (fs : List Int) (r : List (List Nat)), TableOK nn r → (∀ f ∈ fs, posID f < faces.length) →
    ∃ r', nodeCellsCell dbg faces i fs r = .ok r' ∧ TableOK nn r' ∧
      ∀ n c, c ∈ r'.getD n [] ↔ c ∈ r.getD n [] ∨ (c = i ∧ ∃ f ∈ fs, n ∈ faces.getD (posID f) [])
  | [], r, h, _ => ⟨r, by simp [nodeCellsCell], h, by simp⟩
  | f :: fs, r, h, hf => by
    have hl : posID f < faces.length := hf f (by simp)
    obtain ⟨r1, e1, t1, i1⟩ := nodeCellsFace_spec dbg i nn faces[posID f] r h (hF _ (List.getElem_mem hl))
    obtain ⟨r2, e2, t2, i2⟩ := nodeCellsCell_spec dbg faces i nn hF fs r1 t1 (fun k hk => hf k (by simp [hk]))
    refine ⟨r2, by simp [nodeCellsCell, hl, e1, e2], t2, ?_⟩
    intro n c
    rw [i2, i1]
    simp [hl]
    tauto

theorem nodeCellsLoop_spec (dbg : Bool) (faces : List (List Nat)) (nn : Nat) (hF : ∀ F ∈ faces, ∀ n ∈ F, n < nn) :
    ∀ (cs : List (List Int)) (i : Nat) (r : List (List Nat)), TableOK nn r → (∀ C ∈ cs, ∀ f ∈ C, posID f < faces.length) →
    ∃ r', nodeCellsLoop dbg faces i cs r = .ok r' ∧ TableOK nn r' ∧
      ∀ n c, c ∈ r'.getD n [] ↔ c ∈ r.getD n [] ∨ ∃ j, j < cs.length ∧ c = i + j ∧ ∃ f ∈ cs.getD j [], n ∈ faces.getD (posID f) []
  | [], i, r, h, _ => ⟨r, by simp [nodeCellsLoop], h, by simp⟩
  | C :: cs, i, r, h, hC => by
    obtain ⟨r1, e1, t1, i1⟩ := nodeCellsCell_spec dbg faces i nn hF C r h (hC C (by simp))
    obtain ⟨r2, e2, t2, i2⟩ := nodeCellsLoop_spec dbg faces nn hF cs (i + 1) r1 t1 (fun k hk => hC k (by simp [hk]))
    refine ⟨r2, by simp [nodeCellsLoop, e1, e2], t2, ?_⟩
    intro n c
    rw [i2, i1, or_assoc]
    apply or_congr_right
    constructor
    · rintro (⟨rfl, h⟩ | ⟨j, h1, h2, h3⟩)
      · exact ⟨0, by simp, by simp, by simpa using h⟩
      · exact ⟨j + 1, by simpa using h1, by omega, by simpa using h3⟩
    · rintro ⟨j, h1, h2, h3⟩
      cases j with
      | zero => left; exact ⟨by simpa using h2, by simpa using h3⟩
      | succ j => right; exact ⟨j, by simpa using h1, by omega, by simpa using h3⟩

theorem computeNodeCells_spec (dbg : Bool) (D : Nat) (m : Tess R) (hF : ∀ F ∈ m.faces, ∀ n ∈ F, n < numNodes D m)
    (hC : ∀ C ∈ m.cells, ∀ s ∈ C, posID s < m.faces.length) :
    ∃ r, computeNodeCells dbg D m = .ok r ∧ r.length = numNodes D m ∧ (∀ s ∈ r, s.Nodup) ∧
      ∀ n c, c ∈ r.getD n [] ↔ c < m.cells.length ∧ ∃ s ∈ cell m c, n ∈ face m (posID s) := by
  obtain ⟨r, e, t, i⟩ := nodeCellsLoop_spec dbg m.faces (numNodes D m) hF m.cells 0 (List.replicate (numNodes D m) [])
    ⟨by simp, by intro s hs; rw [List.eq_of_mem_replicate hs]; simp⟩ hC
  refine ⟨r, e, t.1, t.2, ?_⟩
  intro n c
  rw [i]
  have : ¬ c ∈ (List.replicate (numNodes D m) ([] : List Nat)).getD n [] := by
    by_cases hn : n < numNodes D m <;> simp [hn]
  constructor
  · rintro (h | ⟨j, h1, h2, h3⟩)
    · exact absurd h this
    · simp at h2; subst h2; exact ⟨h1, h3⟩
  · rintro ⟨h1, h2⟩
    exact Or.inr ⟨c, h1, by simp, h2⟩

theorem cellNodesFace_spec (dbg : Bool) (nf : Nat) : ∀ (ns s : List Nat), (∀ n ∈ ns, n < nf) → s.Nodup →
    ∃ s', cellNodesFace dbg nf ns s = .ok s' ∧ s'.Nodup ∧ ∀ n, n ∈ s' ↔ n ∈ s ∨ n ∈ ns
  | [], s, _, h => ⟨s, by simp [cellNodesFace], h, by simp⟩
  | n :: ns, s, hn, h => by
    obtain ⟨s', e, h1, h2⟩ := cellNodesFace_spec dbg nf ns (setInsert s n) (fun k hk => hn k (by simp [hk])) (nodup_setInsert h)
    refine ⟨s', ?_, h1, ?_⟩
    · simp [cellNodesFace, hn n (by simp), e]
    · intro k; rw [h2, mem_setInsert]; simp [or_assoc]

theorem cellNodesCell_spec (dbg : Bool) (m : Tess R) (hF : ∀ F ∈ m.faces, ∀ n ∈ F, n < m.nodes.length)
    (hl : m.faceCells.length = m.faces.length) : ∀ (fs : List Int) (s : List Nat), (∀ f ∈ fs, posID f < m.faces.length) → s.Nodup →
    ∃ s', cellNodesCell dbg m fs s = .ok s' ∧ s'.Nodup ∧ ∀ n, n ∈ s' ↔ n ∈ s ∨ ∃ f ∈ fs, n ∈ face m (posID f)
  | [], s, _, h => ⟨s, by simp [cellNodesCell], h, by simp⟩
  | f :: fs, s, hf, h => by
    have hlf : posID f < m.faces.length := hf f (by simp)
    obtain ⟨s1, e1, t1, i1⟩ := cellNodesFace_spec dbg m.nodes.length m.faces[posID f] s (hF _ (List.getElem_mem hlf)) h
    obtain ⟨s2, e2, t2, i2⟩ := cellNodesCell_spec dbg m hF hl fs s1 (fun k hk => hf k (by simp [hk])) t1
    refine ⟨s2, ?_, t2, ?_⟩
    · have : posID f < m.faceCells.length := by omega
      simp [cellNodesCell, this, hlf, e1, e2]
    · intro n
      rw [i2, i1]
      simp [face, hlf, or_assoc]

theorem mapM_spec {α β : Type} {g : α → Res β} {P : α → β → Prop} : ∀ (l : List α), (∀ a ∈ l, ∃ b, g a = .ok b ∧ P a b) →
    ∃ r, l.mapM g = .ok r ∧ r.length = l.length ∧ ∀ i (h : i < l.length) (h' : i < r.length), P l[i] r[i]
  | [], _ => ⟨[], by simp, rfl, by simp⟩
  | a :: l, h => by
    obtain ⟨b, hb, hp⟩ := h a (by simp)
    obtain ⟨r, e, hl, hi⟩ := mapM_spec l (fun x hx => h x (by simp [hx]))
    refine ⟨b :: r, ?_, by simp [hl], ?_⟩
    · rw [List.mapM_cons, hb, e]; rfl
    · intro i h1 h2
      cases i with
      | zero => simpa using hp
      | succ i => simpa using hi i (by simpa using h1) (by simpa using h2)

theorem computeCellToNodes_spec (dbg : Bool) (D : Nat) (m : Tess R) (hF : ∀ F ∈ m.faces, ∀ n ∈ F, n < numNodes D m)
    (hC : ∀ C ∈ m.cells, ∀ s ∈ C, posID s < m.faces.length) (hl : m.faceCells.length = m.faces.length) :
    ∃ r, computeCellToNodes dbg m = .ok r ∧ r.length = m.cells.length ∧ (∀ s ∈ r, s.Nodup) ∧
      ∀ n c, n ∈ r.getD c [] ↔ c < m.cells.length ∧ ∃ s ∈ cell m c, n ∈ face m (posID s) := by
  have hF' : ∀ F ∈ m.faces, ∀ n ∈ F, n < m.nodes.length := by
    intro F h1 n h2
    have := hF F h1 n h2
    have h3 : numNodes D m ≤ m.nodes.length := Nat.div_le_self _ _
    omega
  obtain ⟨r, e, h1, h2⟩ := mapM_spec (g := fun c => cellNodesCell dbg m c [])
    (P := fun C s => s.Nodup ∧ ∀ n, n ∈ s ↔ ∃ f ∈ C, n ∈ face m (posID f)) m.cells (by
      intro C hCm
      obtain ⟨s, e, t, i⟩ := cellNodesCell_spec dbg m hF' hl C [] (hC C hCm) (by simp)
      exact ⟨s, e, t, by simpa using i⟩)
  refine ⟨r, e, h1, ?_, ?_⟩
  · intro s hs
    obtain ⟨i, hi, rfl⟩ := List.getElem_of_mem hs
    exact (h2 i (by omega) hi).1
  · intro n c
    by_cases hc : c < m.cells.length
    · have := (h2 c hc (by omega)).2 n
      have hr : c < r.length := by omega
      simpa [hr, hc, cell] using this
    · have hr : ¬ c < r.length := by omega
      simp [hr, hc]

/-! ### findBoundaryElements -/

theorem uniq_mem : ∀ (l : List Nat) (x : Nat), x ∈ uniq l ↔ x ∈ l
  | [], _ => by simp [uniq]
  | [a], _ => by simp [uniq]
  | a :: b :: l, x => by
    have ih := uniq_mem (b :: l) x
    unfold uniq
    split
    · rename_i h; subst h; rw [ih]; simp
    · rw [List.mem_cons, ih]; simp

theorem uniq_sorted : ∀ (l : List Nat), l.Pairwise (· ≤ ·) → (uniq l).Pairwise (· < ·)
  | [], _ => by simp [uniq]
  | [a], _ => by simp [uniq]
  | a :: b :: l, h => by
    rw [List.pairwise_cons] at h
    have ih := uniq_sorted (b :: l) h.2
    unfold uniq
    split
    · exact ih
    · rename_i hab
      rw [List.pairwise_cons]
      refine ⟨?_, ih⟩
      intro x hx
      rw [uniq_mem] at hx
      have h1 := h.1 b (by simp)
      have h3 : b ≤ x := by
        rcases List.mem_cons.1 hx with rfl | hx
        · exact Nat.le_refl _
        · exact (List.pairwise_cons.1 h.2).1 x hx
      omega

theorem boundaryLoop_spec (dbg : Bool) (m : Tess R) : ∀ (Fs : List (List Nat)) (i : Nat), i + Fs.length ≤ m.faceCells.length →
    (∀ f, i ≤ f → f < i + Fs.length → (cellsOf m f).length = 1 ∨ (cellsOf m f).length = 2) →
    ∃ r, boundaryLoop dbg m i Fs = .ok r ∧ r.1.Pairwise (· < ·) ∧
      (∀ f, f ∈ r.1 ↔ i ≤ f ∧ f < i + Fs.length ∧ (cellsOf m f).length = 1) ∧
      (∀ n, n ∈ r.2 ↔ ∃ f ∈ r.1, n ∈ Fs.getD (f - i) [])
  | [], i, _, _ => ⟨([], []), by simp [boundaryLoop], by simp, by intro f; simp; omega, by simp⟩
  | F :: Fs, i, hl, hs => by
    obtain ⟨r, e, s, m1, m2⟩ := boundaryLoop_spec dbg m Fs (i + 1) (by simp at hl; omega)
      (fun f h1 h2 => hs f (by omega) (by simp; omega))
    have hi : i < m.faceCells.length := by simp at hl; omega
    have ec : cellsOf m i = m.faceCells[i] := by simp [cellsOf, hi]
    have hsi := hs i (by omega) (by simp)
    rw [ec] at hsi
    have sh : ∀ f ∈ r.1, (F :: Fs).getD (f - i) [] = Fs.getD (f - (i + 1)) [] := by
      intro f hf
      have := ((m1 f).1 hf).1
      have e : f - i = (f - (i + 1)) + 1 := by omega
      rw [e]; simp
    by_cases h1 : m.faceCells[i].length = 1
    · refine ⟨(i :: r.1, F ++ r.2), by simp [boundaryLoop, hi, e, h1], ?_, ?_, ?_⟩
      · rw [List.pairwise_cons]
        refine ⟨?_, s⟩
        intro f hf
        have := ((m1 f).1 hf).1; omega
      · intro f
        rw [List.mem_cons, m1]
        constructor
        · rintro (rfl | ⟨h2, h3, h4⟩)
          · exact ⟨by omega, by simp, by rw [ec]; exact h1⟩
          · exact ⟨by omega, by simp; omega, h4⟩
        · rintro ⟨h2, h3, h4⟩
          by_cases hf : f = i
          · exact Or.inl hf
          · right; exact ⟨by omega, by simp at h3; omega, h4⟩
      · intro n
        rw [List.mem_append, m2]
        constructor
        · rintro (h | ⟨f, hf, hn⟩)
          · exact ⟨i, by simp, by simpa using h⟩
          · exact ⟨f, by simp [hf], by rw [sh f hf]; exact hn⟩
        · rintro ⟨f, hf, hn⟩
          rcases List.mem_cons.1 hf with rfl | hf
          · left; simpa using hn
          · right; exact ⟨f, hf, by rw [← sh f hf]; exact hn⟩
    · have h2 : m.faceCells[i].length = 2 := by omega
      refine ⟨r, by simp [boundaryLoop, hi, e, h2], s, ?_, ?_⟩
      · intro f
        rw [m1]
        constructor
        · rintro ⟨h2, h3, h4⟩
          exact ⟨by omega, by simp; omega, h4⟩
        · rintro ⟨h2, h3, h4⟩
          have : f ≠ i := by rintro rfl; rw [ec] at h4; exact h1 h4
          exact ⟨by omega, by simp at h3; omega, h4⟩
      · intro n
        rw [m2]
        constructor
        · rintro ⟨f, hf, hn⟩; exact ⟨f, hf, by rw [sh f hf]; exact hn⟩
        · rintro ⟨f, hf, hn⟩; exact ⟨f, hf, by rw [← sh f hf]; exact hn⟩

theorem sorted_length_le {l : List Nat} {n : Nat} (h : l.Pairwise (· < ·)) (hb : ∀ x ∈ l, x < n) : l.length ≤ n := by
  have hn : l.Nodup := h.imp (fun h => by omega)
  have : l.length ≤ (List.range n).length := (List.subperm_of_subset hn (fun x hx => by simpa using hb x hx)).length_le
  simpa using this

theorem findBoundaryElements_spec (dbg : Bool) (D : Nat) (hD : 2 ≤ D) (m : Tess R) (hF : ∀ F ∈ m.faces, ∀ n ∈ F, n < numNodes D m)
    (hl : m.faceCells.length = m.faces.length) (hs : ∀ X ∈ m.faceCells, X.length = 1 ∨ X.length = 2)
    (hb : ∃ f, f < m.faces.length ∧ (cellsOf m f).length = 1 ∧ face m f ≠ []) :
    ∃ bf bn, findBoundaryElements dbg m = .ok (bf, bn) ∧ bf.Pairwise (· < ·) ∧ bn.Pairwise (· < ·) ∧
      (∀ f, f ∈ bf ↔ f < m.faces.length ∧ (cellsOf m f).length = 1) ∧
      (∀ n, n ∈ bn ↔ ∃ f, f < m.faces.length ∧ (cellsOf m f).length = 1 ∧ n ∈ face m f) := by
  obtain ⟨⟨bf, ns⟩, e, s, m1, m2⟩ := boundaryLoop_spec dbg m m.faces 0 (by omega)
    (fun f _ h2 => hs _ (cellsOf_mem (by omega)))
  simp only [Nat.zero_le, true_and, Nat.zero_add, Nat.sub_zero] at s m1 m2
  have hbn : ∀ n, n ∈ uniq (ns.mergeSort (· ≤ ·)) ↔ ∃ f, f < m.faces.length ∧ (cellsOf m f).length = 1 ∧ n ∈ face m f := by
    intro n
    rw [uniq_mem, List.mem_mergeSort, m2]
    constructor
    · rintro ⟨f, hf, hn⟩; exact ⟨f, ((m1 f).1 hf).1, ((m1 f).1 hf).2, hn⟩
    · rintro ⟨f, h1, h2, h3⟩; exact ⟨f, (m1 f).2 ⟨h1, h2⟩, h3⟩
  have hsort : (uniq (ns.mergeSort (· ≤ ·))).Pairwise (· < ·) := by
    apply uniq_sorted
    have := List.pairwise_mergeSort (le := fun a b : Nat => decide (a ≤ b)) (by intro a b c; simp; omega) (by intro a b; simp; omega) ns
    simpa using this
  have hlt : ∀ n ∈ uniq (ns.mergeSort (· ≤ ·)), n < numNodes D m := by
    intro n hn
    obtain ⟨f, h1, _, h3⟩ := (hbn n).1 hn
    exact hF _ (face_mem h1) n h3
  have hpos : (uniq (ns.mergeSort (· ≤ ·))).length > 0 := by
    obtain ⟨f, h1, h2, h3⟩ := hb
    obtain ⟨n, hn⟩ := List.exists_mem_of_ne_nil _ h3
    exact List.length_pos_of_mem ((hbn n).2 ⟨f, h1, h2, hn⟩)
  have hle : (uniq (ns.mergeSort (· ≤ ·))).length ≤ m.nodes.length / 2 :=
    Nat.le_trans (sorted_length_le hsort hlt) (Nat.div_le_div_left hD (by omega))
  refine ⟨bf, uniq (ns.mergeSort (· ≤ ·)), ?_, s, hsort, m1, hbn⟩
  simp only [findBoundaryElements, e, Res.bind_eq, Res.bind_ok, Res.pure_eq]
  rw [Res.assert_true dbg hpos, Res.bind_ok, Res.assert_true dbg hle, Res.bind_ok]

end Verif.Mesh
