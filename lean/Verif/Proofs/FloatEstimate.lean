import Verif.Proofs.FloatLong
import Verif.Proofs.FloatFilter
import Verif.Proofs.FloatAdapt
/- `estimate` has the sign of the sum of an expansion whose components do not overlap. -/
namespace Verif.Float
open Verif Verif.Pred

variable {p : ℕ} {rnd : ℚ → ℚ}

theorem sameSign_add_right {x g : ℚ} (h : |x| < |g|) : SameSign (x + g) g := by
  unfold SameSign
  rcases abs_cases g with ⟨e, _⟩ | ⟨e, _⟩ <;> rw [e] at h <;> have h' := abs_lt.1 h <;> constructor <;> constructor <;> intro _ <;> linarith

theorem estimate_loop (hr : ToNearest p rnd) (hp : 27 ≤ p) : ∀ (es : List ℚ) (Q S : ℚ) (j : ℕ), j + es.length ≤ 24 → es.Pairwise Below → (∀ y ∈ es, y ≠ 0) →
    (∀ y ∈ es, ∃ k : ℤ, Grid k y ∧ |Q| ≤ (1 - ((1 / 2) ^ j - 2 * 2 ^ (-(p : ℤ)))) * 2 ^ k ∧ |S| ≤ (1 - (1 / 2) ^ j) * 2 ^ k) → SameSign Q S →
    SameSign (es.foldl (fun Q x => rnd (Q + x)) Q) (S + es.sum) := by
  have hε0 : (0 : ℚ) < 2 ^ (-(p : ℤ)) := two_pos' _
  have hε1 : (2 : ℚ) ^ (-(p : ℤ)) ≤ 1 / 2 ^ 27 := by
    have : (2 : ℚ) ^ (-(p : ℤ)) ≤ 2 ^ (-27 : ℤ) := pow_le (by omega)
    exact this.trans (by norm_num)
  have hp1 : 1 ≤ p := by omega
  intro es
  induction es with
  | nil => intro Q S j _ _ _ _ h; simpa using h
  | cons g es ih =>
    intro Q S j hj hb hnz hQ _
    have hb' := List.pairwise_cons.1 hb
    have hg := hnz g List.mem_cons_self
    obtain ⟨k, k1, k2, k3⟩ := hQ g List.mem_cons_self
    have hkg := k1.le_abs hg
    have hk0 := two_pos' k
    simp only [List.length_cons] at hj
    have hc : (1 : ℚ) / 2 ^ 24 ≤ (1 / 2) ^ j := by
      rw [← one_div_pow]
      exact pow_le_pow_of_le_one (by norm_num) (by norm_num) (by omega)
    have hc1 : ((1 : ℚ) / 2) ^ j ≤ 1 := pow_le_one₀ (by norm_num) (by norm_num)
    have hQg : |Q| ≤ (1 - ((1 / 2) ^ j - 2 * 2 ^ (-(p : ℤ)))) * |g| := k2.trans (mul_le_mul_of_nonneg_left hkg (by linarith))
    have hSg : |S| ≤ (1 - (1 / 2) ^ j) * |g| := k3.trans (mul_le_mul_of_nonneg_left hkg (by linarith))
    have hg0 : 0 < |g| := abs_pos.2 hg
    have s1 : SameSign (Q + g) g := sameSign_add_right (lt_of_le_of_lt hQg (by
      have : (1 - (((1 : ℚ) / 2) ^ j - 2 * 2 ^ (-(p : ℤ)))) * |g| < 1 * |g| := mul_lt_mul_of_pos_right (by
        have : (2 : ℚ) * (1 / 2 ^ 27) < 1 / 2 ^ 24 := by norm_num
        linarith) hg0
      linarith))
    have s2 : SameSign (S + g) g := sameSign_add_right (lt_of_le_of_lt hSg (by
      have : (1 - ((1 : ℚ) / 2) ^ j) * |g| < 1 * |g| := mul_lt_mul_of_pos_right (by
        have : (0 : ℚ) < 1 / 2 ^ 24 := by norm_num
        linarith) hg0
      linarith))
    have s3 : SameSign (rnd (Q + g)) (S + g) := by
      unfold SameSign at *
      rw [hr.pos_iff hp1, hr.neg_iff hp1, s1.1, s1.2, s2.1, s2.2]
      exact ⟨Iff.rfl, Iff.rfl⟩
    rw [List.foldl_cons, List.sum_cons, ← add_assoc]
    refine ih _ _ (j + 1) (by omega) hb'.2 (fun y hy => hnz y (List.mem_cons_of_mem _ hy)) (fun y hy => ?_) s3
    obtain ⟨t, t1, t2⟩ := hb'.1 y hy
    have ht0 := two_pos' t
    refine ⟨t + 1, t2, ?_, ?_⟩
    · have h1 : |Q + g| ≤ (2 - ((1 / 2) ^ j - 2 * 2 ^ (-(p : ℤ)))) * 2 ^ t := by
        have := abs_add_le Q g
        have h2 : (2 - (((1 : ℚ) / 2) ^ j - 2 * 2 ^ (-(p : ℤ)))) * |g| ≤ (2 - ((1 / 2) ^ j - 2 * 2 ^ (-(p : ℤ)))) * 2 ^ t := mul_le_mul_of_nonneg_left t1 (by linarith)
        linarith
      refine (abs_rnd_le hr hp1 h1).trans ?_
      rw [pow_succ', pow_succ, ← mul_assoc, ← mul_assoc]
      refine mul_le_mul_of_nonneg_right ?_ ht0.le
      nlinarith
    · have := abs_add_le S g
      have h2 : (2 - ((1 : ℚ) / 2) ^ j) * |g| ≤ (2 - (1 / 2) ^ j) * 2 ^ t := mul_le_mul_of_nonneg_left t1 (by linarith)
      rw [pow_succ', pow_succ]
      linarith

theorem estimate_sign (hr : ToNearest p rnd) (hp : 27 ≤ p) {l : List ℚ} (hl : Expansion p l) (hlen : l.length ≤ 24) : SameSign (estimate rnd l) l.sum := by
  obtain ⟨g, es, rfl⟩ := List.exists_cons_of_ne_nil hl.nonempty
  rcases hl.nonzero with h | h
  · rw [List.cons.injEq] at h
    obtain ⟨rfl, rfl⟩ := h
    simp [estimate, SameSign]
  have hb := List.pairwise_cons.1 hl.below
  rw [estimate, List.sum_cons]
  refine estimate_loop hr hp es g g 1 (by simp only [List.length_cons] at hlen; omega) hb.2 (fun y hy => h y (List.mem_cons_of_mem _ hy)) (fun y hy => ?_) (by simp [SameSign])
  obtain ⟨t, t1, t2⟩ := hb.1 y hy
  have := two_pos' t
  have hε0 : (0 : ℚ) < 2 ^ (-(p : ℤ)) := two_pos' _
  refine ⟨t + 1, t2, ?_, ?_⟩
  · rw [pow_succ']
    nlinarith
  · rw [pow_succ']
    linarith

end Verif.Float
