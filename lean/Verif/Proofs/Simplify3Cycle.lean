import Verif.Proofs.Simplify3Main
import Mathlib.Data.List.Rotate
import Mathlib.Data.Nat.ModEq
/- A closed walk is known by its sides, up to where it starts and to its direction. -/
namespace Verif.Simplify3
open Verif Verif.Mesh Verif.Internal Verif.Geom

theorem walk_eq {n : Nat} (hn : 3 ≤ n) {A B : Nat → Nat} (hA : ∀ i j, A i = A j ↔ i ≡ j [MOD n]) (hB : ∀ i j, B i = B j ↔ i ≡ j [MOD n])
    (hadj : ∀ i, ∃ j, (A i = B j ∧ A (i + 1) = B (j + 1)) ∨ (A i = B (j + 1) ∧ A (i + 1) = B j)) (h0 : A 0 = B 0) (h1 : A 1 = B 1) : ∀ i, A i = B i ∧ A (i + 1) = B (i + 1)
  | 0 => ⟨h0, h1⟩
  | i + 1 => by
    obtain ⟨e0, e1⟩ := walk_eq hn hA hB hadj h0 h1 i
    refine ⟨e1, ?_⟩
    obtain ⟨j, ⟨a, b⟩ | ⟨a, b⟩⟩ := hadj (i + 1)
    · rw [b, hB]
      rw [e1, hB] at a
      exact a.symm.add_right 1
    · exfalso
      rw [e1, hB] at a
      have a : i ≡ j [MOD n] := Nat.ModEq.add_right_cancel' 1 a
      have : A (i + 1 + 1) = A i := by rw [b, e0, hB]; exact a.symm
      rw [hA] at this
      have h2 : 2 ≡ 0 [MOD n] := by
        refine Nat.ModEq.add_left_cancel' i ?_
        simpa [Nat.add_assoc] using this
      have := Nat.ModEq.eq_of_lt_of_lt h2 (by omega) (by omega)
      omega

theorem ends_count (l : List Nat) (v : Nat) : ((dirSides l).flatMap fun d => [d.1, d.2]).count v = 2 * l.count v := by
  have key : ∀ L : List (Nat × Nat), (L.flatMap fun d => [d.1, d.2]).count v = (L.map Prod.fst).count v + (L.map Prod.snd).count v := by
    intro L
    induction L with
    | nil => rfl
    | cons d L ih =>
      rw [List.flatMap_cons, List.count_append, ih]
      simp only [List.map_cons, List.count_cons, List.count_nil]
      omega
  rw [key, dirSides, List.map_fst_zip (by simp), List.map_snd_zip (by simp), (List.rotate_perm l 1).count_eq]
  omega

theorem hash_ends (L : List (Nat × Nat)) (v : Nat) : ((L.map hash).flatMap fun e => [e.1, e.2]).count (v : Int) = (L.flatMap fun d => [d.1, d.2]).count v := by
  induction L with
  | nil => rfl
  | cons d L ih =>
    rw [List.map_cons, List.flatMap_cons, List.flatMap_cons, List.count_append, List.count_append, ih]
    congr 1
    unfold hash
    split <;> simp only [List.count_cons, List.count_nil, Int.natCast_inj, beq_iff_eq] <;> omega

/-- Closed walks along the same sides come by the same points. -/
theorem walks_perm {w W : List Nat} (h : ((dirSides w).map hash).Perm ((dirSides W).map hash)) : w.Perm W := by
  rw [List.perm_iff_count]
  intro v
  have h1 := (h.flatMap_right fun e : Edge => [e.1, e.2]).count_eq (v : Int)
  rw [hash_ends, hash_ends, ends_count, ends_count] at h1
  omega

theorem nodup_mod {w : List Nat} (hw : w.Nodup) (h0 : 0 < w.length) (s i j : Nat) : w.getD ((s + i) % w.length) 0 = w.getD ((s + j) % w.length) 0 ↔ i ≡ j [MOD w.length] := by
  have hi := Nat.mod_lt (s + i) h0
  have hj := Nat.mod_lt (s + j) h0
  rw [← List.getElem_eq_getD (h := hi), ← List.getElem_eq_getD (h := hj), hw.getElem_inj_iff]
  constructor
  · intro e; exact Nat.ModEq.add_left_cancel' s e
  · intro e; exact Nat.ModEq.add_left s e

theorem side_mod {w : List Nat} (h0 : 0 < w.length) (i : Nat) : (w.getD (i % w.length) 0, w.getD ((i + 1) % w.length) 0) ∈ dirSides w := by
  rw [dirSides_range w 0]
  refine List.mem_map.2 ⟨i % w.length, List.mem_range.2 (Nat.mod_lt _ h0), ?_⟩
  rw [Nat.mod_add_mod]

/-- Closed walks along the same sides, one of which comes by no point twice, differ in where they start and in direction. -/
theorem cycle_unique {w W : List Nat} (hW : W.Nodup) (h3 : 3 ≤ W.length) (h : ((dirSides w).map hash).Perm ((dirSides W).map hash)) : w.IsRotated W ∨ w.IsRotated W.reverse := by
  have hp := walks_perm h
  have hw := hp.nodup_iff.2 hW
  have hl := hp.length_eq
  set n := W.length with hn
  have hn0 : 0 < n := by omega
  have hw0 : 0 < w.length := by omega
  obtain ⟨s, hs, e0⟩ := List.getElem_of_mem (hp.mem_iff.2 (List.getElem_mem (show 0 < W.length by omega)))
  -- the walk from the first point of the other
  let A := fun i => w.getD ((s + i) % n) 0
  have hA : ∀ i j, A i = A j ↔ i ≡ j [MOD n] := by
    intro i j
    have := nodup_mod hw hw0 s i j
    rw [hl] at this
    exact this
  let B := fun i => W.getD ((0 + i) % n) 0
  have hB : ∀ i j, B i = B j ↔ i ≡ j [MOD n] := fun i j => nodup_mod hW hn0 0 i j
  let C := fun i => W.reverse.getD ((n - 1 + i) % n) 0
  have hC : ∀ i j, C i = C j ↔ i ≡ j [MOD n] := by
    intro i j
    have := nodup_mod (List.nodup_reverse.2 hW) (by rw [List.length_reverse]; exact hn0) (n - 1) i j
    rw [List.length_reverse] at this
    exact this
  have hBC : ∀ j, ∃ k, C k = B (j + 1) ∧ C (k + 1) = B j := by
    intro j
    have hj := Nat.mod_lt j hn0
    have hj1 := Nat.mod_lt (j + 1) hn0
    have rev : ∀ x < n, W.reverse.getD x 0 = W.getD (n - 1 - x) 0 := by
      intro x hx
      rw [List.getD_eq_getElem?_getD, List.getElem?_reverse hx, List.getD_eq_getElem?_getD]
    refine ⟨n - (j + 1) % n, ?_, ?_⟩
    · simp only [C, B, Nat.zero_add]
      have : (n - 1 + (n - (j + 1) % n)) % n = n - 1 - (j + 1) % n := by
        rw [show n - 1 + (n - (j + 1) % n) = (n - 1 - (j + 1) % n) + n by omega, Nat.add_mod_right, Nat.mod_eq_of_lt (by omega)]
      rw [this, rev _ (by omega)]
      congr 1
      omega
    · simp only [C, B, Nat.zero_add]
      have e : (j + 1) % n = if j % n + 1 = n then 0 else j % n + 1 := by
        rw [← Nat.mod_add_mod]
        split
        · next h => rw [h, Nat.mod_self]
        · exact Nat.mod_eq_of_lt (by omega)
      have : (n - 1 + (n - (j + 1) % n + 1)) % n = n - 1 - j % n := by
        rw [e]
        split
        · next h =>
          rw [show n - 1 + (n - 0 + 1) = 0 + n + n by omega, Nat.add_mod_right, Nat.add_mod_right, Nat.zero_mod]
          omega
        · rw [show n - 1 + (n - (j % n + 1) + 1) = (n - 1 - j % n) + n by omega, Nat.add_mod_right, Nat.mod_eq_of_lt (by omega)]
      rw [this, rev _ (by omega)]
      congr 1
      omega
  have hadj : ∀ i, ∃ j, (A i = B j ∧ A (i + 1) = B (j + 1)) ∨ (A i = B (j + 1) ∧ A (i + 1) = B j) := by
    intro i
    have hm := side_mod hw0 (s + i)
    rw [hl] at hm
    have hm : hash (A i, A (i + 1)) ∈ (dirSides W).map hash := h.mem_iff.1 (List.mem_map_of_mem hm)
    obtain ⟨d, hd, e⟩ := List.mem_map.1 hm
    rw [dirSides_range W 0] at hd
    obtain ⟨j, hj, rfl⟩ := List.mem_map.1 hd
    rw [List.mem_range] at hj
    refine ⟨j, ?_⟩
    have b1 : B j = W.getD j 0 := by simp only [B, Nat.zero_add, Nat.mod_eq_of_lt (hn ▸ hj)]
    have b2 : B (j + 1) = W.getD ((j + 1) % W.length) 0 := by simp only [B, Nat.zero_add, hn]
    rw [b1, b2]
    rcases hash_eq.1 e with e | e
    · left
      exact ⟨(congrArg Prod.fst e).symm, (congrArg Prod.snd e).symm⟩
    · right
      simp only [Prod.swap_prod_mk, Prod.mk.injEq] at e
      exact ⟨e.2.symm, e.1.symm⟩
  have hA0 : A 0 = B 0 := by
    simp only [A, B, Nat.add_zero, Nat.zero_mod]
    rw [Nat.mod_eq_of_lt (by omega), ← List.getElem_eq_getD (h := hs), e0, List.getElem_eq_getD]
  have hwA : w.rotate s = (List.range n).map A := by
    apply List.ext_getElem
    · simp [hl]
    · intro i h1 h2
      have hi := Nat.mod_lt (s + i) hn0
      simp only [List.getElem_rotate, List.getElem_map, List.getElem_range, A]
      rw [← List.getElem_eq_getD (h := by omega)]
      simp only [hl, Nat.add_comm]
  obtain ⟨j, hj⟩ := hadj 0
  have hj' : A 1 = B 1 ∨ A 1 = C 1 := by
    rcases hj with ⟨a, b⟩ | ⟨a, b⟩
    · left
      rw [hA0, hB] at a
      rw [b, hB]
      exact a.symm.add_right 1
    · right
      obtain ⟨k, k1, k2⟩ := hBC j
      have : C k = C 0 := by
        have c0 : C 0 = B 0 := by
          simp only [B, C, Nat.add_zero, Nat.zero_mod]
          rw [Nat.mod_eq_of_lt (by omega), List.getD_eq_getElem?_getD, List.getElem?_reverse (by omega), List.getD_eq_getElem?_getD]
          congr 2
          omega
        rw [k1, ← a, hA0, c0]
      rw [hC] at this
      rw [b, ← k2, hC]
      exact this.add_right 1
  rcases hj' with h1 | h1
  · left
    refine ⟨s, ?_⟩
    rw [hwA]
    apply List.ext_getElem
    · simp [hn]
    · intro i h1' h2'
      simp only [List.getElem_map, List.getElem_range]
      rw [(walk_eq h3 hA hB hadj hA0 h1 i).1]
      simp only [B, Nat.zero_add]
      rw [Nat.mod_eq_of_lt (by omega), ← List.getElem_eq_getD (h := h2')]
  · right
    have hadj' : ∀ i, ∃ j, (A i = C j ∧ A (i + 1) = C (j + 1)) ∨ (A i = C (j + 1) ∧ A (i + 1) = C j) := by
      intro i
      obtain ⟨j, h | h⟩ := hadj i
      · obtain ⟨k, k1, k2⟩ := hBC j
        exact ⟨k, .inr ⟨by rw [k2]; exact h.1, by rw [k1]; exact h.2⟩⟩
      · obtain ⟨k, k1, k2⟩ := hBC j
        exact ⟨k, .inl ⟨by rw [k1]; exact h.1, by rw [k2]; exact h.2⟩⟩
    have hC0 : A 0 = C 0 := by
      rw [hA0]
      simp only [B, C, Nat.add_zero, Nat.zero_mod]
      rw [Nat.mod_eq_of_lt (by omega), List.getD_eq_getElem?_getD, List.getD_eq_getElem?_getD, List.getElem?_reverse (by omega)]
      congr 2
      omega
    refine List.IsRotated.trans ⟨s, hwA⟩ (List.IsRotated.symm ⟨n - 1, ?_⟩)
    apply List.ext_getElem
    · simp [hn]
    · intro i h1' h2'
      have hi : (n - 1 + i) % n < W.reverse.length := by rw [List.length_reverse]; exact Nat.mod_lt _ hn0
      simp only [List.getElem_map, List.getElem_range, List.getElem_rotate]
      rw [(walk_eq h3 hA hC hadj' hC0 h1 i).1]
      simp only [C]
      rw [← List.getElem_eq_getD (h := hi)]
      simp only [List.length_reverse, hn, Nat.add_comm]
end Verif.Simplify3
