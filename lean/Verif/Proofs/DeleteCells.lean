import Verif.Spec.Mesh
import Mathlib.Tactic.Common
namespace Verif.Mesh
open Verif

/-! ### signed ids -/

@[simp] theorem posID_natCast (n : Nat) : posID (n : Int) = n := by simp [posID]
@[simp] theorem posID_flip (n : Nat) : posID (flip n) = n := by
  have h : ¬ (0 ≤ flip (n : Int)) := by simp only [flip]; omega
  simp only [posID, h, if_false]; simp only [flip]; omega
@[simp] theorem flip_flip (x : Int) : flip (flip x) = x := by simp only [flip]; omega
theorem flip_neg_iff (n : Nat) : flip (n : Int) < 0 := by simp only [flip]; omega
theorem not_nonneg_flip (n : Nat) : ¬ (0 ≤ flip (n : Int)) := by simp only [flip]; omega

theorem eq_of_nonneg {s : Int} (h : 0 ≤ s) : s = (posID s : Int) := by simp only [posID, h, if_true]; omega
theorem eq_flip_of_neg {s : Int} (h : ¬ 0 ≤ s) : s = flip (posID s : Int) := by
  simp only [posID, h, if_false, flip]; omega

theorem posID_eq_iff {s : Int} {n : Nat} : posID s = n ↔ s = (n : Int) ∨ s = flip n := by
  constructor
  · intro h
    by_cases hs : 0 ≤ s
    · left; rw [eq_of_nonneg hs, h]
    · right; rw [eq_flip_of_neg hs, h]
  · rintro (rfl | rfl) <;> simp

/-! ### renumbering -/

/-- Indices (offset by `i`) of the true entries. -/
def keptFrom : Nat → List Bool → List Nat
  | _, [] => []
  | i, b :: bs => if b then i :: keptFrom (i + 1) bs else keptFrom (i + 1) bs

theorem mem_keptFrom : ∀ {bs : List Bool} {i n : Nat}, n ∈ keptFrom i bs ↔ i ≤ n ∧ bs[n - i]? = some true
  | [], i, n => by simp [keptFrom]
  | b :: bs, i, n => by
    have ih := @mem_keptFrom bs (i + 1) n
    by_cases hn : n = i
    · subst hn
      have ih' : ¬ n ∈ keptFrom (n + 1) bs := by rw [ih]; omega
      cases b <;> simp [keptFrom, ih']
    · have key : (i ≤ n ∧ (b :: bs)[n - i]? = some true) ↔ (i + 1 ≤ n ∧ bs[n - (i + 1)]? = some true) := by
        constructor
        · rintro ⟨h1, h2⟩
          have : n - i = (n - (i + 1)) + 1 := by omega
          rw [this] at h2
          exact ⟨by omega, by simpa using h2⟩
        · rintro ⟨h1, h2⟩
          have : n - i = (n - (i + 1)) + 1 := by omega
          rw [this]
          exact ⟨by omega, by simpa using h2⟩
      rw [key, ← ih]
      cases b <;> simp [keptFrom, hn]

theorem keptFrom_sorted : ∀ (bs : List Bool) (i : Nat), (keptFrom i bs).Pairwise (· < ·)
  | [], _ => by simp [keptFrom]
  | b :: bs, i => by
    have ih := keptFrom_sorted bs (i + 1)
    cases b
    · simpa [keptFrom] using ih
    · simp only [keptFrom, if_true, List.pairwise_cons]
      refine ⟨?_, ih⟩
      intro n hn
      have := (mem_keptFrom.1 hn).1
      omega

theorem keptFrom_length : ∀ (bs : List Bool) (i : Nat), (keptFrom i bs).length = bs.countP id
  | [], _ => by simp [keptFrom]
  | b :: bs, i => by
    have ih := keptFrom_length bs (i + 1)
    cases b <;> simp [keptFrom, ih]

/-- The true entries' indices. -/
def kept (bs : List Bool) : List Nat := keptFrom 0 bs

theorem mem_kept {bs : List Bool} {n : Nat} : n ∈ kept bs ↔ bs[n]? = some true := by
  simp [kept, mem_keptFrom]

theorem renum_length : ∀ (bs : List Bool) (k : Nat), (renum bs k).length = bs.length
  | [], _ => rfl
  | true :: bs, k => by simp [renum, renum_length bs]
  | false :: bs, k => by simp [renum, renum_length bs]

theorem renum_spec : ∀ (bs : List Bool) (i k j : Nat), bs[j]? = some true →
    ∃ v, (renum bs k)[j]? = some (some (k + v)) ∧ (keptFrom i bs)[v]? = some (i + j)
  | [], i, k, j, h => by simp at h
  | b :: bs, i, k, 0, h => by
    simp at h; subst h
    exact ⟨0, by simp [renum], by simp [keptFrom]⟩
  | b :: bs, i, k, j + 1, h => by
    simp at h
    cases b
    · obtain ⟨v, h1, h2⟩ := renum_spec bs (i + 1) k j h
      exact ⟨v, by simpa [renum] using h1, by simp [keptFrom, h2]; omega⟩
    · obtain ⟨v, h1, h2⟩ := renum_spec bs (i + 1) (k + 1) j h
      refine ⟨v + 1, ?_, ?_⟩
      · simp [renum, h1]; omega
      · simp [keptFrom, h2]; omega

theorem renum_false : ∀ (bs : List Bool) (k j : Nat), bs[j]? ≠ some true → ((renum bs k)[j]?.join) = none
  | [], k, j, _ => by simp [renum]
  | b :: bs, k, 0, h => by
    cases b
    · simp [renum]
    · simp at h
  | b :: bs, k, j + 1, h => by
    cases b
    · simpa [renum] using renum_false bs k j (by simpa using h)
    · simpa [renum] using renum_false bs (k + 1) j (by simpa using h)

theorem look_kept {bs : List Bool} {j : Nat} (h : bs[j]? = some true) :
    (kept bs)[look (renum bs 0) j]? = some j ∧ found (renum bs 0) j = true := by
  obtain ⟨v, h1, h2⟩ := renum_spec bs 0 0 j h
  simp [look, found, h1, kept, h2]

theorem found_iff {bs : List Bool} {j : Nat} : found (renum bs 0) j = true ↔ bs[j]? = some true := by
  constructor
  · intro h
    by_cases hb : bs[j]? = some true
    · exact hb
    · rw [found, renum_false bs 0 j hb] at h; simp at h
  · intro h; exact (look_kept h).2

theorem old_look {bs : List Bool} {j : Nat} (h : bs[j]? = some true) :
    old (kept bs) (look (renum bs 0) j) = j ∧ look (renum bs 0) j < (kept bs).length := by
  have h1 := (look_kept h).1
  refine ⟨by simp [old, List.getD, h1], ?_⟩
  by_contra hc
  rw [List.getElem?_eq_none (by omega)] at h1
  simp at h1

/-! ### marking -/

theorem set_true_iff {l : List Bool} {i : Nat} (hi : i < l.length) (j : Nat) :
    (l.set i true)[j]? = some true ↔ l[j]? = some true ∨ j = i := by
  by_cases h : i = j
  · subst h; simp [hi]
  · rw [List.getElem?_set_ne h]
    constructor
    · exact Or.inl
    · rintro (h1 | h1)
      · exact h1
      · exact absurd h1.symm h

theorem markNodes_spec (dbg : Bool) (nn : Nat) : ∀ (ns : List Nat) (nm : List Bool), nm.length = nn → (∀ n ∈ ns, n < nn) →
    ∃ nm', markNodes dbg nn ns nm = .ok nm' ∧ nm'.length = nn ∧
      ∀ j, nm'[j]? = some true ↔ nm[j]? = some true ∨ j ∈ ns
  | [], nm, hl, _ => ⟨nm, by simp [markNodes], hl, by simp⟩
  | n :: ns, nm, hl, h => by
    have hn : n < nn := h n (by simp)
    obtain ⟨nm', h1, h2, h3⟩ := markNodes_spec dbg nn ns (nm.set n true) (by simpa using hl)
      (fun k hk => h k (by simp [hk]))
    refine ⟨nm', ?_, h2, ?_⟩
    · simp [markNodes, hn, hl, h1]
    · intro j
      rw [h3, set_true_iff (by omega)]
      simp [or_assoc]

theorem markFaces_spec (dbg : Bool) (nn : Nat) (faces : List (List Nat)) (hF : ∀ F ∈ faces, ∀ n ∈ F, n < nn) :
    ∀ (fs : List Int) (s : List Bool × List Bool), s.1.length = nn → s.2.length = faces.length →
    (∀ f ∈ fs, posID f < faces.length) →
    ∃ s', markFaces dbg nn faces fs s = .ok s' ∧ s'.1.length = nn ∧ s'.2.length = faces.length ∧
      (∀ j, s'.1[j]? = some true ↔ s.1[j]? = some true ∨ ∃ f ∈ fs, j ∈ faces.getD (posID f) []) ∧
      (∀ j, s'.2[j]? = some true ↔ s.2[j]? = some true ∨ ∃ f ∈ fs, posID f = j)
  | [], s, h1, h2, _ => ⟨s, by simp [markFaces], h1, h2, by simp, by simp⟩
  | f :: fs, s, h1, h2, h => by
    have hf : posID f < faces.length := h f (by simp)
    obtain ⟨nm', e1, l1, i1⟩ := markNodes_spec dbg nn faces[posID f] s.1 h1 (hF _ (List.getElem_mem hf))
    obtain ⟨s', e2, l2, l3, i2, i3⟩ := markFaces_spec dbg nn faces hF fs (nm', s.2.set (posID f) true) l1 (by simpa using h2)
      (fun k hk => h k (by simp [hk]))
    have hf' : posID f < s.2.length := by omega
    refine ⟨s', ?_, l2, l3, ?_, ?_⟩
    · simp [markFaces, hf, hf', e1, e2]
    · intro j
      rw [i2, i1]
      simp [or_assoc, hf]
    · intro j
      rw [i3, set_true_iff (by omega)]
      simp [or_assoc, eq_comm]

theorem markCells_spec (dbg : Bool) (nn : Nat) (faces : List (List Nat)) (mask : List Nat) (hF : ∀ F ∈ faces, ∀ n ∈ F, n < nn) :
    ∀ (cs : List (List Int)) (i : Nat) (s : List Bool × List Bool), s.1.length = nn → s.2.length = faces.length →
    i + cs.length ≤ mask.length → (∀ C ∈ cs, ∀ f ∈ C, posID f < faces.length) →
    ∃ s', markCells dbg nn faces mask i cs s = .ok s' ∧ s'.1.length = nn ∧ s'.2.length = faces.length ∧
      (∀ j, s'.1[j]? = some true ↔ s.1[j]? = some true ∨
        ∃ c, c < cs.length ∧ mask[i + c]? = some 1 ∧ ∃ f ∈ cs.getD c [], j ∈ faces.getD (posID f) []) ∧
      (∀ j, s'.2[j]? = some true ↔ s.2[j]? = some true ∨
        ∃ c, c < cs.length ∧ mask[i + c]? = some 1 ∧ ∃ f ∈ cs.getD c [], posID f = j)
  | [], i, s, h1, h2, _, _ => ⟨s, by simp [markCells], h1, h2, by simp, by simp⟩
  | C :: cs, i, s, h1, h2, hm, h => by
    have hi : i < mask.length := by simp at hm; omega
    have shift : ∀ P : Nat → List Int → Prop,
        (∃ c, c < (C :: cs).length ∧ mask[i + c]? = some 1 ∧ P c ((C :: cs).getD c [])) ↔
        (mask[i]? = some 1 ∧ P 0 C) ∨ ∃ c, c < cs.length ∧ mask[i + 1 + c]? = some 1 ∧ P (c + 1) (cs.getD c []) := by
      intro P
      constructor
      · rintro ⟨c, hc, hk, hp⟩
        cases c with
        | zero => left; exact ⟨by simpa using hk, by simpa using hp⟩
        | succ c =>
          right
          exact ⟨c, by simpa using hc, by rw [← hk]; congr 1; omega, by simpa using hp⟩
      · rintro (⟨hk, hp⟩ | ⟨c, hc, hk, hp⟩)
        · exact ⟨0, by simp, by simpa using hk, by simpa using hp⟩
        · exact ⟨c + 1, by simpa using hc, by rw [← hk]; congr 1; omega, by simpa using hp⟩
    by_cases hk : mask[i] = 1
    · obtain ⟨s1, e1, l1, l2, i1, i2⟩ := markFaces_spec dbg nn faces hF C s h1 h2 (h C (by simp))
      obtain ⟨s2, e2, l3, l4, i3, i4⟩ := markCells_spec dbg nn faces mask hF cs (i + 1) s1 l1 l2 (by simp at hm; omega)
        (fun D hD => h D (by simp [hD]))
      have hk' : mask[i]? = some 1 := by simp [hi, hk]
      refine ⟨s2, ?_, l3, l4, ?_, ?_⟩
      · simp [markCells, hi, hk, e1, e2]
      · intro j
        rw [i3, i1, shift (fun _ D => ∃ f ∈ D, j ∈ faces.getD (posID f) [])]
        simp [hk', or_assoc]
      · intro j
        rw [i4, i2, shift (fun _ D => ∃ f ∈ D, posID f = j)]
        simp [hk', or_assoc]
    · obtain ⟨s2, e2, l3, l4, i3, i4⟩ := markCells_spec dbg nn faces mask hF cs (i + 1) s h1 h2 (by simp at hm; omega)
        (fun D hD => h D (by simp [hD]))
      have hk' : ¬ mask[i]? = some 1 := by simp [hi, hk]
      refine ⟨s2, ?_, l3, l4, ?_, ?_⟩
      · simp [markCells, hi, hk, e2]
      · intro j
        rw [i3, shift (fun _ D => ∃ f ∈ D, j ∈ faces.getD (posID f) [])]
        simp [hk']
      · intro j
        rw [i4, shift (fun _ D => ∃ f ∈ D, posID f = j)]
        simp [hk']

/-! ### rebuilding the tables -/

theorem keepNodes_spec (D : Nat) (m : Tess R) : ∀ (bs : List Bool) (i : Nat),
    keepNodes D m i bs = (keptFrom i bs).flatMap (node D m)
  | [], _ => by simp [keepNodes, keptFrom]
  | b :: bs, i => by cases b <;> simp [keepNodes, keptFrom, keepNodes_spec D m bs]

theorem renumFace_spec (dbg : Bool) (nm : List Bool) : ∀ ns : List Nat, (∀ n ∈ ns, nm[n]? = some true) →
    ∃ F, renumFace dbg (renum nm 0) ns = .ok F ∧ F.map (old (kept nm)) = ns ∧ ∀ n ∈ F, n < (kept nm).length
  | [], _ => ⟨[], by simp [renumFace]⟩
  | n :: ns, h => by
    obtain ⟨F, h1, h2, h3⟩ := renumFace_spec dbg nm ns (fun k hk => h k (by simp [hk]))
    have hn := h n (by simp)
    refine ⟨look (renum nm 0) n :: F, ?_, ?_, ?_⟩
    · simp [renumFace, (look_kept hn).2, h1]
    · simp [h2, (old_look hn).1]
    · intro k hk
      rcases List.mem_cons.1 hk with rfl | hk
      · exact (old_look hn).2
      · exact h3 k hk

theorem oldS_natCast (k : List Nat) (n : Nat) : oldS k (n : Int) = (old k n : Int) := by simp [oldS]
theorem oldS_flip (k : List Nat) (n : Nat) : oldS k (flip n) = flip (old k n) := by
  simp [oldS, not_nonneg_flip]

theorem renumCell_spec (dbg : Bool) (fm : List Bool) : ∀ C : List Int, (∀ s ∈ C, fm[posID s]? = some true) →
    ∃ C', renumCell dbg (renum fm 0) C = .ok C' ∧ C'.map (oldS (kept fm)) = C ∧ ∀ s ∈ C', posID s < (kept fm).length
  | [], _ => ⟨[], by simp [renumCell]⟩
  | s :: C, h => by
    obtain ⟨C', h1, h2, h3⟩ := renumCell_spec dbg fm C (fun k hk => h k (by simp [hk]))
    have hs := h s (by simp)
    refine ⟨(if 0 ≤ s then (look (renum fm 0) (posID s) : Int) else flip (look (renum fm 0) (posID s))) :: C', ?_, ?_, ?_⟩
    · simp [renumCell, (look_kept hs).2, h1]
    · simp only [List.map_cons, h2]
      congr 1
      by_cases h0 : 0 ≤ s
      · simp only [h0, if_true, oldS_natCast, (old_look hs).1]; exact (eq_of_nonneg h0).symm
      · simp only [h0, if_false, oldS_flip, (old_look hs).1]; exact (eq_flip_of_neg h0).symm
    · intro k hk
      rcases List.mem_cons.1 hk with rfl | hk
      · by_cases h0 : 0 ≤ s <;> simp [h0, (old_look hs).2]
      · exact h3 k hk

/-- The mask of cells as booleans. -/
def cellBits (mask : List Nat) (n : Nat) : List Bool := (List.range n).map fun i => mask[i]? == some 1

theorem cellBits_iff {mask : List Nat} {n j : Nat} (hn : n = mask.length) :
    (cellBits mask n)[j]? = some true ↔ mask[j]? = some 1 := by
  subst hn
  unfold cellBits
  by_cases hj : j < mask.length
  · simp [hj]
  · simp [hj]

theorem renumFaceCell_spec (mask : List Nat) (n : Nat) (hn : n = mask.length) (c : Int) (hc : posID c < mask.length) :
    ∃ r, renumFaceCell mask (renum (cellBits mask n) 0) c = .ok r ∧
      r.map (oldS (kept (cellBits mask n))) = [c].filter (fun s => decide (posID s ∈ kept (cellBits mask n))) ∧
      ∀ s ∈ r, posID s < (kept (cellBits mask n)).length := by
  have hm : posID c ∈ kept (cellBits mask n) ↔ mask[posID c] = 1 := by
    rw [mem_kept, cellBits_iff hn]; simp [hc]
  by_cases hk : mask[posID c] = 1
  · have hb : (cellBits mask n)[posID c]? = some true := by rw [cellBits_iff hn]; simp [hc, hk]
    refine ⟨[if c < 0 then flip (look (renum (cellBits mask n) 0) (posID c)) else (look (renum (cellBits mask n) 0) (posID c) : Int)], ?_, ?_, ?_⟩
    · simp [renumFaceCell, hc, hk]
    · simp only [List.map_cons, List.map_nil, List.filter_cons, hm, hk, decide_true, if_true, List.filter_nil]
      congr 1
      by_cases h0 : 0 ≤ c
      · simp only [Int.not_lt.2 h0, if_false, oldS_natCast, (old_look hb).1]; exact (eq_of_nonneg h0).symm
      · simp only [Int.not_le.1 h0, if_true, oldS_flip, (old_look hb).1]; exact (eq_flip_of_neg h0).symm
    · intro s hs
      simp only [List.mem_singleton] at hs
      subst hs
      by_cases h0 : c < 0 <;> simp [h0, (old_look hb).2]
  · exact ⟨[], by simp [renumFaceCell, hc, hk], by simp [hm, hk], by simp⟩

theorem renumFaceCells_spec (dbg : Bool) (mask : List Nat) (n : Nat) (hn : n = mask.length) (fc : List Int)
    (hs : fc.length = 1 ∨ fc.length = 2) (hc : ∀ s ∈ fc, posID s < mask.length) (hk : ∃ s ∈ fc, posID s ∈ kept (cellBits mask n)) :
    ∃ r, renumFaceCells dbg mask (renum (cellBits mask n) 0) fc = .ok r ∧
      r.map (oldS (kept (cellBits mask n))) = fc.filter (fun s => decide (posID s ∈ kept (cellBits mask n))) ∧
      ∀ s ∈ r, posID s < (kept (cellBits mask n)).length := by
  have hlen : ∀ (r : List Int), r.map (oldS (kept (cellBits mask n))) = fc.filter (fun s => decide (posID s ∈ kept (cellBits mask n))) →
      r.length = 1 ∨ r.length = 2 := by
    intro r hr
    have h1 : r.length = (fc.filter (fun s => decide (posID s ∈ kept (cellBits mask n)))).length := by rw [← hr]; simp
    have h2 := List.length_filter_le (fun s => decide (posID s ∈ kept (cellBits mask n))) fc
    have h3 : 0 < (fc.filter (fun s => decide (posID s ∈ kept (cellBits mask n)))).length := by
      obtain ⟨s, hs1, hs2⟩ := hk
      exact List.length_pos_of_mem (List.mem_filter.2 ⟨hs1, by simpa using hs2⟩)
    omega
  match fc, hs, hc, hk, hlen with
  | [a], _, hc, _, hlen =>
    obtain ⟨r, h1, h2, h3⟩ := renumFaceCell_spec mask n hn a (hc a (by simp))
    refine ⟨r, ?_, h2, h3⟩
    have := hlen r h2
    simp [renumFaceCells, rd, h1, this]
  | [a, b], _, hc, _, hlen =>
    obtain ⟨r, h1, h2, h3⟩ := renumFaceCell_spec mask n hn a (hc a (by simp))
    obtain ⟨q, g1, g2, g3⟩ := renumFaceCell_spec mask n hn b (hc b (by simp))
    have hr : (r ++ q).map (oldS (kept (cellBits mask n))) = [a, b].filter (fun s => decide (posID s ∈ kept (cellBits mask n))) := by
      rw [List.map_append, h2, g2, ← List.filter_append]; rfl
    refine ⟨r ++ q, ?_, hr, ?_⟩
    · have := hlen _ hr
      simp only [List.length_append] at this
      simp [renumFaceCells, h1, g1, this]
    · intro s hs
      rcases List.mem_append.1 hs with hs | hs
      · exact h3 s hs
      · exact g3 s hs
  | [], hs, _, _, _ => simp at hs
  | _ :: _ :: _ :: _, hs, _, _, _ => simp at hs

theorem keepFaces_spec (dbg : Bool) (m : Tess R) (mask : List Nat) (nm : List Bool) (n : Nat) (hn : n = mask.length) :
    ∀ (fm : List Bool) (i : Nat), i + fm.length ≤ m.faces.length → m.faceCells.length = m.faces.length →
    (∀ f ∈ keptFrom i fm, ∀ k ∈ face m f, nm[k]? = some true) →
    (∀ f ∈ keptFrom i fm, (cellsOf m f).length = 1 ∨ (cellsOf m f).length = 2) →
    (∀ f ∈ keptFrom i fm, ∀ s ∈ cellsOf m f, posID s < mask.length) →
    (∀ f ∈ keptFrom i fm, ∃ s ∈ cellsOf m f, posID s ∈ kept (cellBits mask n)) →
    ∃ r, keepFaces dbg m mask (renum nm 0) (renum (cellBits mask n) 0) i fm = .ok r ∧
      r.1.map (·.map (old (kept nm))) = (keptFrom i fm).map (face m) ∧
      (∀ F ∈ r.1, ∀ k ∈ F, k < (kept nm).length) ∧
      r.2.map (·.map (oldS (kept (cellBits mask n)))) =
        (keptFrom i fm).map (fun f => (cellsOf m f).filter fun s => decide (posID s ∈ kept (cellBits mask n))) ∧
      (∀ X ∈ r.2, ∀ s ∈ X, posID s < (kept (cellBits mask n)).length)
  | [], i, _, _, _, _, _, _ => ⟨([], []), by simp [keepFaces, keptFrom]⟩
  | false :: fm, i, h0, hl, h1, h2, h3, h4 => by
    simp only [keptFrom] at h1 h2 h3 h4
    have := keepFaces_spec dbg m mask nm n hn fm (i + 1) (by simp at h0; omega) hl
      (by simpa using h1) (by simpa using h2) (by simpa using h3) (by simpa using h4)
    simpa [keepFaces, keptFrom] using this
  | true :: fm, i, h0, hl, h1, h2, h3, h4 => by
    simp only [keptFrom, if_true, List.mem_cons, forall_eq_or_imp] at h1 h2 h3 h4
    obtain ⟨r, e, r1, r2, r3, r4⟩ := keepFaces_spec dbg m mask nm n hn fm (i + 1) (by simp at h0; omega) hl
      h1.2 h2.2 h3.2 h4.2
    have hi : i < m.faces.length := by simp at h0; omega
    have hi' : i < m.faceCells.length := by omega
    have ef : face m i = m.faces[i] := by simp [face, hi]
    have ec : cellsOf m i = m.faceCells[i] := by simp [cellsOf, hi']
    obtain ⟨F, f1, f2, f3⟩ := renumFace_spec dbg nm (face m i) h1.1
    obtain ⟨X, x1, x2, x3⟩ := renumFaceCells_spec dbg mask n hn (cellsOf m i) h2.1 h3.1 h4.1
    refine ⟨(F :: r.1, X :: r.2), ?_, ?_, ?_, ?_, ?_⟩
    · rw [ef] at f1; rw [ec] at x1
      simp [keepFaces, hi, hi', f1, x1, e]
    · simp [keptFrom, f2, r1]
    · simp only [List.mem_cons, forall_eq_or_imp]; exact ⟨f3, r2⟩
    · simp [keptFrom, x2, r3]
    · simp only [List.mem_cons, forall_eq_or_imp]; exact ⟨x3, r4⟩

theorem keepCells_spec (dbg : Bool) (mask : List Nat) (fm : List Bool) : ∀ (cs : List (List Int)) (i : Nat),
    i + cs.length ≤ mask.length →
    (∀ c, c < cs.length → mask[i + c]? = some 1 → ∀ s ∈ cs.getD c [], fm[posID s]? = some true) →
    ∃ r, keepCells dbg mask (renum fm 0) i cs = .ok r ∧
      r.map (·.map (oldS (kept fm))) =
        (keptFrom i ((List.range cs.length).map fun c => mask[i + c]? == some 1)).map (fun c => cs.getD (c - i) []) ∧
      (∀ C ∈ r, ∀ s ∈ C, posID s < (kept fm).length)
  | [], i, _, _ => ⟨[], by simp [keepCells, keptFrom]⟩
  | C :: cs, i, h0, h => by
    have hi : i < mask.length := by simp at h0; omega
    obtain ⟨r, e, r1, r2⟩ := keepCells_spec dbg mask fm cs (i + 1) (by simp at h0; omega)
      (by
        intro c hc hk s hs
        exact h (c + 1) (by simpa using hc) (by rw [← hk]; congr 1; omega) s (by simpa using hs))
    have eb : (List.range (C :: cs).length).map (fun c => mask[i + c]? == some 1) =
        (mask[i]? == some 1) :: (List.range cs.length).map (fun c => mask[i + 1 + c]? == some 1) := by
      simp only [List.length_cons, List.range_succ_eq_map, List.map_cons, List.map_map, Nat.add_zero]
      congr 2
      funext c
      have : i + (c + 1) = i + 1 + c := by omega
      simp [Function.comp, this]
    have em : (keptFrom (i + 1) ((List.range cs.length).map fun c => mask[i + 1 + c]? == some 1)).map
        (fun c => cs.getD (c - (i + 1)) []) =
        (keptFrom (i + 1) ((List.range cs.length).map fun c => mask[i + 1 + c]? == some 1)).map
        (fun c => (C :: cs).getD (c - i) []) := by
      apply List.map_congr_left
      intro c hc
      have hc' := (mem_keptFrom.1 hc).1
      have : c - i = (c - (i + 1)) + 1 := by omega
      rw [this]; simp
    rw [eb]
    by_cases hk : mask[i] = 1
    · have hk' : (mask[i]? == some 1) = true := by simp [hi, hk]
      obtain ⟨C', c1, c2, c3⟩ := renumCell_spec dbg fm C (by
        intro s hs
        exact h 0 (by simp) (by simp [hi, hk]) s (by simpa using hs))
      refine ⟨C' :: r, ?_, ?_, ?_⟩
      · simp [keepCells, hi, hk, c1, e]
      · rw [hk']
        simp only [keptFrom, if_true, List.map_cons, c2, r1, em]
        simp
      · simp only [List.mem_cons, forall_eq_or_imp]; exact ⟨c3, r2⟩
    · have hk' : (mask[i]? == some 1) = false := by simp [hi, hk]
      refine ⟨r, ?_, ?_, r2⟩
      · simp [keepCells, hi, hk, e]
      · rw [hk']
        simp only [keptFrom, r1, em]
        simp

theorem keepShared_spec (bs : List Bool) : ∀ l : List Nat, (∀ n ∈ l, n < bs.length) →
    ∃ r, keepShared bs (renum bs 0) l = .ok r ∧
      r.map (old (kept bs)) = l.filter (fun n => decide (n ∈ kept bs)) ∧ ∀ n ∈ r, n < (kept bs).length
  | [], _ => ⟨[], by simp [keepShared]⟩
  | n :: l, h => by
    obtain ⟨r, h1, h2, h3⟩ := keepShared_spec bs l (fun k hk => h k (by simp [hk]))
    have hn : n < bs.length := h n (by simp)
    cases hb : bs[n]
    · have hm : n ∉ kept bs := by rw [mem_kept]; simp [hn, hb]
      exact ⟨r, by simp [keepShared, hn, hb, h1], by simp [hm, h2], h3⟩
    · have hb' : bs[n]? = some true := by simp [hn, hb]
      have hm : n ∈ kept bs := mem_kept.2 hb'
      refine ⟨look (renum bs 0) n :: r, by simp [keepShared, hn, hb, h1], by simp [hm, h2, (old_look hb').1], ?_⟩
      simp only [List.mem_cons, forall_eq_or_imp]; exact ⟨(old_look hb').2, h3⟩

theorem keepSharedAll_spec (bs : List Bool) : ∀ ls : List (List Nat), (∀ l ∈ ls, ∀ n ∈ l, n < bs.length) →
    ∃ r, keepSharedAll bs (renum bs 0) ls = .ok r ∧
      r.map (·.map (old (kept bs))) = ls.map (·.filter fun n => decide (n ∈ kept bs)) ∧
      ∀ l ∈ r, ∀ n ∈ l, n < (kept bs).length
  | [], _ => ⟨[], by simp [keepSharedAll]⟩
  | l :: ls, h => by
    obtain ⟨r, h1, h2, h3⟩ := keepShared_spec bs l (h l (by simp))
    obtain ⟨q, g1, g2, g3⟩ := keepSharedAll_spec bs ls (fun k hk => h k (by simp [hk]))
    refine ⟨r :: q, by simp [keepSharedAll, h1, g1], by simp [h2, g2], ?_⟩
    simp only [List.mem_cons, forall_eq_or_imp]; exact ⟨h3, g3⟩

theorem flatMap_node_length (D : Nat) (m : Tess R) : ∀ (k : List Nat), (∀ n ∈ k, n < numNodes D m) → 0 < D → D ∣ m.nodes.length →
    (k.flatMap (node D m)).length = D * k.length
  | [], _, _, _ => by simp
  | n :: k, h, hD, hd => by
    have ih := flatMap_node_length D m k (fun j hj => h j (by simp [hj])) hD hd
    have hn := h n (by simp)
    have : (node D m n).length = D := by
      obtain ⟨q, hq⟩ := hd
      simp only [numNodes, hq, Nat.mul_div_cancel_left q hD] at hn
      have : D * n + D ≤ D * q := by
        calc D * n + D = D * (n + 1) := by rw [Nat.mul_succ]
          _ ≤ D * q := Nat.mul_le_mul_left _ hn
      simp [node, hq]; omega
    simp [this, ih, Nat.mul_add, Nat.add_comm]

theorem keptCells_eq (mask : List Nat) : kept (cellBits mask mask.length) = keptCells mask := by
  have key : ∀ (l : List Nat) (i : Nat), (∀ j, j < l.length → l[j]? = some (i + j)) →
      keptFrom i (l.map fun c => mask[c]? == some 1) = l.filter fun c => decide (mask[c]? = some 1) := by
    intro l
    induction l with
    | nil => intro i _; simp [keptFrom]
    | cons a l ih =>
      intro i h
      have ha : a = i := by simpa using h 0 (by simp)
      subst ha
      have := ih (a + 1) (by
        intro j hj
        have := h (j + 1) (by simpa using hj)
        rw [List.getElem?_cons_succ] at this
        rw [this]; congr 1; omega)
      by_cases hm : mask[a]? = some 1
      · simp only [List.map_cons, keptFrom, hm]
        rw [this]; simp [hm]
      · have hb : (mask[a]? == some 1) = false := by simpa using hm
        simp only [List.map_cons, keptFrom, hb]
        rw [this]; simp [hm]
  unfold kept cellBits keptCells
  apply key
  intro j hj
  simp at hj
  simp [hj]

/-- `deleteCells` succeeds on a consistent mesh, and its result is the restriction of the mesh to the kept cells. The boundary lists
are left alone. A release build also accepts a mask that keeps nothing. -/
theorem deleteCells_spec' (dbg : Bool) (D : Nat) (m : Tess R) (mask : List Nat) (hc : Consistent D m) (hs : CommOK D m)
    (hlen : mask.length = m.cells.length) (hmb : ∀ k ∈ mask, k = 0 ∨ k = 1) (hms : dbg = true → m.cells.length = 0 ∨ 1 ∈ mask) :
    ∃ m' kn kf, deleteCells dbg D m mask = .ok m' ∧ Restricts D m kn kf (keptCells mask) m' ∧
      m'.boundaryNodes = m.boundaryNodes ∧ m'.boundaryFaces = m.boundaryFaces ∧ m'.convexHull = {} := by
  obtain ⟨⟨nm, fm⟩, e1, l1, l2, i1, i2⟩ := markCells_spec dbg (numNodes D m) m.faces mask hc.faces_lt m.cells 0
    (List.replicate (numNodes D m) false, List.replicate m.faces.length false) (by simp) (by simp) (by omega) hc.cells_lt
  simp only [Nat.zero_add] at i1 i2
  simp only at l1 l2
  have hbits := keptCells_eq mask
  have hkc : ∀ c, c ∈ keptCells mask ↔ mask[c]? = some 1 := by
    intro c; rw [← hbits, mem_kept, cellBits_iff rfl]
  have hkc_lt : ∀ c ∈ keptCells mask, c < m.cells.length := by
    intro c h
    have := (hkc c).1 h
    rw [← hlen]
    exact (List.getElem?_eq_some_iff.1 this).1
  have rep : ∀ (n j : Nat), ¬ (List.replicate n false)[j]? = some true := by
    intro n j h
    obtain ⟨h1, h2⟩ := List.getElem?_eq_some_iff.1 h
    simp at h2
  have ifm : ∀ f, f ∈ kept fm ↔ ∃ c ∈ keptCells mask, ∃ s ∈ cell m c, posID s = f := by
    intro f
    rw [mem_kept, i2]
    constructor
    · rintro (h | ⟨c, h1, h2, h3⟩)
      · exact absurd h (rep _ _)
      · exact ⟨c, (hkc c).2 h2, h3⟩
    · rintro ⟨c, h1, h2⟩
      exact Or.inr ⟨c, hkc_lt c h1, (hkc c).1 h1, h2⟩
  have inm : ∀ n, n ∈ kept nm ↔ ∃ f ∈ kept fm, n ∈ face m f := by
    intro n
    rw [mem_kept, i1]
    constructor
    · rintro (h | ⟨c, h1, h2, s, h3, h4⟩)
      · exact absurd h (rep _ _)
      · exact ⟨posID s, (ifm _).2 ⟨c, (hkc c).2 h2, s, h3, rfl⟩, h4⟩
    · rintro ⟨f, h1, h2⟩
      obtain ⟨c, h3, s, h4, rfl⟩ := (ifm f).1 h1
      exact Or.inr ⟨c, hkc_lt c h3, (hkc c).1 h3, s, h4, h2⟩
  have kf_lt : ∀ f ∈ kept fm, f < m.faces.length := by
    intro f hf
    obtain ⟨c, h3, s, h4, rfl⟩ := (ifm f).1 hf
    have hcl := hkc_lt c h3
    have : cell m c = m.cells[c] := by simp [cell, hcl]
    rw [this] at h4
    exact hc.cells_lt _ (List.getElem_mem hcl) s h4
  have kn_lt : ∀ n ∈ kept nm, n < numNodes D m := by
    intro n hn
    have := mem_kept.1 hn
    have := (List.getElem?_eq_some_iff.1 this).1
    omega
  -- faces
  have efc : ∀ f ∈ kept fm, cellsOf m f ∈ m.faceCells := by
    intro f hf
    have h1 := kf_lt f hf
    have h2 : f < m.faceCells.length := by rw [hc.faceCells_len]; exact h1
    have : cellsOf m f = m.faceCells[f] := by simp [cellsOf, h2]
    rw [this]; exact List.getElem_mem h2
  obtain ⟨⟨nf, nfc⟩, e2, r1, r2, r3, r4⟩ := keepFaces_spec dbg m mask nm mask.length rfl fm 0 (by omega) hc.faceCells_len
    (fun f hf k hk => mem_kept.1 ((inm k).2 ⟨f, hf, hk⟩))
    (fun f hf => hc.faceCells_size _ (efc f hf))
    (fun f hf s hs => by rw [hlen]; exact hc.faceCells_lt _ (efc f hf) s hs)
    (fun f hf => by
      obtain ⟨c, h3, s, h4, h5⟩ := (ifm f).1 hf
      have hcl := hkc_lt c h3
      have hfl := kf_lt f hf
      have hinv := hc.inverse f hfl c hcl
      rw [hbits]
      rcases posID_eq_iff.1 h5 with rfl | rfl
      · have : 0 < (cell m c).count (f : Int) := List.count_pos_iff.2 h4
        rw [← hinv.1] at this
        exact ⟨(c : Int), List.count_pos_iff.1 this, by simpa using h3⟩
      · have : 0 < (cell m c).count (flip f) := List.count_pos_iff.2 h4
        rw [← hinv.2] at this
        exact ⟨flip (c : Int), List.count_pos_iff.1 this, by simpa using h3⟩)
  -- cells
  obtain ⟨nc, e3, c1, c2⟩ := keepCells_spec dbg mask fm m.cells 0 (by omega) (by
    intro c hcl hk s hs
    simp only [Nat.zero_add] at hk
    exact mem_kept.1 ((ifm _).2 ⟨c, (hkc c).2 hk, s, hs, rfl⟩))
  simp only [Nat.zero_add, Nat.sub_zero] at c1
  have ecb : keptFrom 0 ((List.range m.cells.length).map fun c => mask[c]? == some 1) = keptCells mask := by
    rw [← hbits, hlen]; rfl
  rw [ecb] at c1
  -- shared
  obtain ⟨sn, e4, s1, s2⟩ := keepSharedAll_spec nm m.sharedNodes (fun l hl n hn => by rw [l1]; exact hs.nodes_lt l hl n hn)
  obtain ⟨sf, e5, s3, s4⟩ := keepSharedAll_spec fm m.sharedFaces (fun l hl n hn => by rw [l2]; exact hs.faces_lt l hl n hn)
  rw [hbits] at r3 r4
  refine ⟨{ m with nodes := keepNodes D m 0 nm, cells := nc, faces := nf, faceCells := nfc, sharedNodes := sn, sharedFaces := sf, convexHull := {} },
    kept nm, kept fm, ?_, ?_, rfl, rfl, rfl⟩
  · -- the run
    have a1 : Res.assert dbg (m.cells.length = 0 ∨ mask.max? = some 1) = .ok () := by
      rw [Res.assert_eq_ok]
      intro hd
      rcases hms hd with h | h
      · exact Or.inl h
      · right
        rw [List.max?_eq_some_iff]
        exact ⟨h, fun b hb => by rcases hmb b hb with h | h <;> omega⟩
    have a2 : (keepNodes D m 0 nm).length = D * nm.countP id := by
      rw [keepNodes_spec]; exact (flatMap_node_length D m (kept nm) kn_lt hc.dim_pos hc.nodes_dvd).trans (by rw [kept, keptFrom_length])
    have a3 : nf.length = fm.countP id := by
      have := congrArg List.length r1
      simpa [keptFrom_length] using this
    have a4 : nfc.length = fm.countP id := by
      have := congrArg List.length r3
      simpa [keptFrom_length] using this
    have a5 : nc.length = mask.countP (· = 1) := by
      have := congrArg List.length c1
      simp only [List.length_map] at this
      rw [this, ← hbits, kept, keptFrom_length, cellBits, List.countP_map]
      have : mask = (List.range mask.length).map (fun i => mask[i]?.getD 0) := by
        apply List.ext_getElem
        · simp
        · intro i h1 h2; simp [h1]
      conv_rhs => rw [this, List.countP_map]
      apply List.countP_congr
      intro i hi
      simp at hi
      simp [hi]
    have eN : m.nodes.length / D = numNodes D m := rfl
    have eC : (List.range m.cells.length).map (fun i => mask[i]? == some 1) = cellBits mask mask.length := by
      rw [hlen]; rfl
    have hsl := hs.len
    unfold deleteCells
    simp only [Res.bind_eq, Res.pure_eq, Res.assert_true dbg hlen, a1, Res.bind_ok, eN, e1, eC, e2, e3,
      Res.assert_true dbg hsl, e4, e5, Res.assert_true dbg a2, Res.assert_true dbg a3, Res.assert_true dbg a4, Res.assert_true dbg a5]
    rw [if_neg (by omega)]
  · exact {
      kc_sorted := by rw [← hbits]; exact keptFrom_sorted _ _
      kf_sorted := keptFrom_sorted _ _
      kn_sorted := keptFrom_sorted _ _
      kc_lt := hkc_lt
      kf_iff := ifm
      kn_iff := inm
      nodes := keepNodes_spec D m nm 0
      faces := r1
      faces_lt := r2
      cells := c1
      cells_lt := c2
      faceCells := r3
      faceCells_lt := r4
      sharedNodes := s1
      sharedNodes_lt := s2
      sharedFaces := s3
      sharedFaces_lt := s4
      neighborDomains := rfl }

theorem deleteCells_spec (dbg : Bool) (D : Nat) (m : Tess R) (mask : List Nat) (hc : Consistent D m) (hs : CommOK D m)
    (hm : GoodMask m mask) :
    ∃ m' kn kf, deleteCells dbg D m mask = .ok m' ∧ Restricts D m kn kf (keptCells mask) m' ∧
      m'.boundaryNodes = m.boundaryNodes ∧ m'.boundaryFaces = m.boundaryFaces ∧ m'.convexHull = {} :=
  deleteCells_spec' dbg D m mask hc hs hm.len hm.bits fun _ => hm.some

end Verif.Mesh
