import Verif.Proofs.FloatFilter
/- What `exactinit` computes for the predicates in space, and the errors of the predicates that do not adapt. -/
namespace Verif.Float
open Verif.Pred
variable {p : ℕ} {rnd : ℚ → ℚ}

theorem exactinit3_eq (hr : ToEven p rnd) (hp : 10 ≤ p) {fuel : ℕ} (hf : p ≤ fuel) : exactinit3 rnd fuel = some (initialised3 p) := by
  have hp1 : 1 ≤ p := by omega
  have h := initLoop_eq hr (by omega) (p - 1) 0 (by omega) fuel (by omega)
  simp only [Nat.cast_zero, neg_zero, zpow_zero, if_true] at h
  norm_num at h
  have h' : initLoop rnd fuel 1 1 1 true = some (2 ^ (-(p : ℤ)), 2 ^ ((p + 1) / 2)) := by simpa using h
  simp only [exactinit3, h', Option.map_some]
  congr 1
  have hε1 := eps_le_1024 hp
  set ε : ℚ := 2 ^ (-(p : ℤ)) with hε
  have hε0 : 0 < ε := two_pos' _
  have gi : ∀ (n : ℕ) (e : ℤ), e ≤ 0 → Grid e (n : ℚ) := fun n e he => Grid.mono ⟨n, by simp⟩ he
  have gε : ∀ (n : ℕ) (j : ℕ), Grid (-(p : ℤ) + j) ((n : ℚ) * 2 ^ j * ε) := fun n j => ⟨n, by
    rw [hε, zpow_add₀ (by norm_num), zpow_natCast]; push_cast; ring⟩
  have top : ∀ j : ℕ, (2 : ℚ) ^ ((p : ℤ) + (-(p : ℤ) + j)) = 2 ^ j := fun j => by
    rw [← add_assoc, add_neg_cancel, zero_add, zpow_natCast]
  have key : ∀ (c n j : ℕ), (c : ℚ) + n * 2 ^ j * ε ≤ 2 ^ j → j ≤ p → IsFloat p ((c : ℚ) + n * 2 ^ j * ε) := by
    intro c n j hle hj
    refine isFloat_of_grid hp1 ((gi c (-(p : ℤ) + j) (by omega)).add (gε n j)) ?_
    rw [top, abs_of_nonneg (by positivity)]; exact hle
  have k1 : rnd (56 * ε) = 56 * ε := by
    have := hr.of_float (key 0 7 3 (by norm_num; linarith) (by omega)); norm_num at this; exact this
  have k2 : rnd (96 * ε) = 96 * ε := by
    have := hr.of_float (key 0 3 5 (by norm_num; linarith) (by omega)); norm_num at this; exact this
  have k3 : rnd (224 * ε) = 224 * ε := by
    have := hr.of_float (key 0 7 5 (by norm_num; linarith) (by omega)); norm_num at this; exact this
  have f1 : IsFloat p (7 + 56 * ε) := by
    have := key 7 7 3 (by norm_num; linarith) (by omega); norm_num at this; exact this
  have f2 : IsFloat p (10 + 96 * ε) := by
    have := key 10 3 5 (by norm_num; linarith) (by omega); norm_num at this; exact this
  have f3 : IsFloat p (16 + 224 * ε) := by
    have := key 16 7 5 (by norm_num; linarith) (by omega); norm_num at this; exact this
  simp only [initialised3, ← hε, k1, k2, k3, hr.of_float f1, hr.of_float f2, hr.of_float f3]
  have s1 : ∀ x, IsFloat p x → rnd (x * ε) = x * ε := fun x hx => hr.of_float (hx.scale _)
  rw [s1 _ f1, s1 _ f2, s1 _ f3]

/-- The error in terms of the sum of the absolute values. -/
theorem Approx.close {ε D x ξ P B : ℚ} {k : ℕ} (h0 : 0 ≤ ε) (h1 : ε ≤ 1 / 1024) (hk : k ≤ 17) (h : Approx ε k D x ξ) (h' : Approx ε k P ξ ξ)
    (hB : (k * ε + (k : ℚ) ^ 2 / 2 * ε ^ 2) * (51 / 50) ≤ B) : |x - D| ≤ B * P := by
  have g1 := pow_le_quad h0 h1 k (by omega)
  have g2 := h'.perm_le h0 h1 hk
  have g3 := h'.nonneg
  have g4 := mul_le_mul_of_nonneg_right (show (1 + ε) ^ k - 1 ≤ k * ε + (k : ℚ) ^ 2 / 2 * ε ^ 2 by linarith) g3
  have g5 := mul_le_mul_of_nonneg_left g2 (show 0 ≤ (k : ℚ) * ε + (k : ℚ) ^ 2 / 2 * ε ^ 2 by positivity)
  have g6 := mul_le_mul_of_nonneg_right hB (show 0 ≤ P by linarith)
  rw [abs_sub_comm]
  have := h.err
  linarith

theorem orient3dfast_close (hr : ToEven p rnd) (hp : 10 ≤ p) (a b c d : Pt3) :
    |orient3dfast rnd a b c d - orientation3 a b c d| ≤ 9 * 2 ^ (-(p : ℤ)) * volume3 a b c d := by
  have hp1 : 1 ≤ p := by omega
  have e := fun x => Approx.exact hr hp1 x
  have h := (approx_sum3 hr hp1 (n := 7) rfl (e (a.1 - d.1)) (e (b.1 - d.1)) (e (c.1 - d.1))
    (approx_minor hr hp1 (e (b.2.1 - d.2.1)) (e (c.2.2 - d.2.2)) (e (b.2.2 - d.2.2)) (e (c.2.1 - d.2.1)))
    (approx_minor hr hp1 (e (c.2.1 - d.2.1)) (e (a.2.2 - d.2.2)) (e (c.2.2 - d.2.2)) (e (a.2.1 - d.2.1)))
    (approx_minor hr hp1 (e (a.2.1 - d.2.1)) (e (b.2.2 - d.2.2)) (e (a.2.2 - d.2.2)) (e (b.2.1 - d.2.1)))).round hr hp1
  have h' := (approx_sum3 hr hp1 (n := 7) rfl (approx_abs hr hp1 (e (a.1 - d.1))) (approx_abs hr hp1 (e (b.1 - d.1))) (approx_abs hr hp1 (e (c.1 - d.1)))
    (approx_minorPlus hr hp1 (e (b.2.1 - d.2.1)) (e (c.2.2 - d.2.2)) (e (b.2.2 - d.2.2)) (e (c.2.1 - d.2.1)))
    (approx_minorPlus hr hp1 (e (c.2.1 - d.2.1)) (e (a.2.2 - d.2.2)) (e (c.2.2 - d.2.2)) (e (a.2.1 - d.2.1)))
    (approx_minorPlus hr hp1 (e (a.2.1 - d.2.1)) (e (b.2.2 - d.2.2)) (e (a.2.2 - d.2.2)) (e (b.2.1 - d.2.1)))).round hr hp1
  have he := eps_le_1024 hp
  have he0 := (two_pos' (-(p : ℤ))).le
  generalize hE : (2 : ℚ) ^ (-(p : ℤ)) = E at *
  have sq' : E ^ 2 ≤ E * (1 / 1024) := by rw [sq]; exact mul_le_mul_of_nonneg_left he he0
  refine Approx.close he0 he (by omega) (h.congr ?_) (h'.congr ?_) (by push_cast; linarith)
  · simp only [orientation3]; ring
  · simp only [volume3]; ring

theorem incirclefast_close (hr : ToEven p rnd) (hp : 10 ≤ p) (a b c d : ℚ × ℚ) :
    |incirclefast rnd a b c d - inCircleDet a b c d| ≤ 12 * 2 ^ (-(p : ℤ)) * size2 a b c d := by
  have hp1 : 1 ≤ p := by omega
  have e := fun x => Approx.exact hr hp1 x
  have la := approx_lift2 hr hp1 (e (a.1 - d.1)) (e (a.2 - d.2))
  have lb := approx_lift2 hr hp1 (e (b.1 - d.1)) (e (b.2 - d.2))
  have lc := approx_lift2 hr hp1 (e (c.1 - d.1)) (e (c.2 - d.2))
  have h := (approx_sum3 hr hp1 (n := 10) rfl la lb lc
    (approx_minor hr hp1 (e (b.1 - d.1)) (e (c.2 - d.2)) (e (c.1 - d.1)) (e (b.2 - d.2)))
    (approx_minor hr hp1 (e (c.1 - d.1)) (e (a.2 - d.2)) (e (a.1 - d.1)) (e (c.2 - d.2)))
    (approx_minor hr hp1 (e (a.1 - d.1)) (e (b.2 - d.2)) (e (b.1 - d.1)) (e (a.2 - d.2)))).round hr hp1
  have h' := (approx_sum3 hr hp1 (n := 10) rfl la lb lc
    (approx_minorPlus hr hp1 (e (b.1 - d.1)) (e (c.2 - d.2)) (e (c.1 - d.1)) (e (b.2 - d.2)))
    (approx_minorPlus hr hp1 (e (c.1 - d.1)) (e (a.2 - d.2)) (e (a.1 - d.1)) (e (c.2 - d.2)))
    (approx_minorPlus hr hp1 (e (a.1 - d.1)) (e (b.2 - d.2)) (e (b.1 - d.1)) (e (a.2 - d.2)))).round hr hp1
  have he := eps_le_1024 hp
  have he0 := (two_pos' (-(p : ℤ))).le
  generalize hE : (2 : ℚ) ^ (-(p : ℤ)) = E at *
  have sq' : E ^ 2 ≤ E * (1 / 1024) := by rw [sq]; exact mul_le_mul_of_nonneg_left he he0
  refine Approx.close he0 he (by omega) (h.congr ?_) (h'.congr ?_) (by push_cast; linarith)
  · simp only [inCircleDet]; ring
  · simp only [size2, dist2]; ring

theorem inspherefast_close (hr : ToEven p rnd) (hp : 10 ≤ p) (a b c d e : Pt3) :
    |inspherefast rnd a b c d e - inSphereDet a b c d e| ≤ 17 * 2 ^ (-(p : ℤ)) * size3 a b c d e := by
  have hp1 : 1 ≤ p := by omega
  have h := ((((ispDiff_approx hr hp1 a b c d e).sub (ispSum_approx hr hp1 d a b c e)).round hr hp1).add
    (((ispSum_approx hr hp1 c d a b e).sub (ispDiff_approx hr hp1 b c d a e)).round hr hp1)).round hr hp1
  have h' := ((((ispTerm_perm hr hp1 a b c d e).add (ispTerm_perm hr hp1 d a b c e)).round hr hp1).add
    (((ispTerm_perm hr hp1 c d a b e).add (ispTerm_perm hr hp1 b c d a e)).round hr hp1)).round hr hp1
  have he := eps_le_1024 hp
  have he0 := (two_pos' (-(p : ℤ))).le
  rw [inspherefast, insphereDet_eq]
  generalize hE : (2 : ℚ) ^ (-(p : ℤ)) = E at *
  have sq' : E ^ 2 ≤ E * (1 / 1024) := by rw [sq]; exact mul_le_mul_of_nonneg_left he he0
  refine Approx.close he0 he (by omega) h (h'.congr ?_) (by push_cast; linarith)
  simp only [size3]; ring

end Verif.Float
