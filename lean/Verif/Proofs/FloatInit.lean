import Verif.Proofs.FloatProd
/- What `exactinit` computes. -/
namespace Verif.Float
open Verif.Pred
variable {p : ℕ} {rnd : ℚ → ℚ}

theorem isFloat_one_add (hp : 1 ≤ p) {i : ℕ} (hi : i < p) : IsFloat p (1 + 2 ^ (-(i : ℤ))) := by
  have g : Grid (-(i : ℤ)) (1 + 2 ^ (-(i : ℤ))) := by
    have := (Grid.pow (e := 0) (f := -(i : ℤ)) (by omega)).add (Grid.pow (le_refl (-(i : ℤ))))
    rwa [zpow_zero] at this
  refine isFloat_of_grid hp g ?_
  have h1 : (2 : ℚ) ^ (-(i : ℤ)) ≤ 2 ^ (0 : ℤ) := pow_le (by omega)
  have h2 : (2 : ℚ) ^ (1 : ℤ) ≤ 2 ^ ((p : ℤ) + -(i : ℤ)) := pow_le (by omega)
  have h3 := two_pos' (-(i : ℤ))
  rw [abs_of_pos (by linarith)]
  norm_num at h1 h2 ⊢
  linarith

/-- In the middle between one and the next number, rounding goes to one. -/
theorem rnd_tie (hr : ToEven p rnd) (hp : 2 ≤ p) : rnd (1 + 2 ^ (-(p : ℤ))) = 1 := by
  have hp1 : 1 ≤ p := by omega
  have hε := two_pos' (-(p : ℤ))
  have f1 : IsFloat p 1 := by simpa using IsFloat.pow (p := p) hp1 0
  have f2 : IsFloat p (1 + 2 * 2 ^ (-(p : ℤ))) := by
    have := isFloat_one_add hp1 (show p - 1 < p by omega)
    rwa [show -((p - 1 : ℕ) : ℤ) = -(p : ℤ) + 1 by omega, pow_succ'] at this
  -- the rounded value is one of the two
  have h1 := hr.le_of_le f1 (show (1 : ℚ) ≤ 1 + 2 ^ (-(p : ℤ)) by linarith)
  have h2 := hr.ge_of_ge f2 (show 1 + 2 ^ (-(p : ℤ)) ≤ 1 + 2 * 2 ^ (-(p : ℤ)) by linarith)
  set r := rnd (1 + 2 ^ (-(p : ℤ))) with hrr
  have gr : Grid (-(p : ℤ) + 1) r := by
    have := (hr.float (1 + 2 ^ (-(p : ℤ)))).grid (k := 0) (by rw [zpow_zero]; exact le_trans h1 (le_abs_self _))
    exact this.mono (by omega)
  have g1 : Grid (-(p : ℤ) + 1) 1 := by simpa using Grid.pow (show -(p : ℤ) + 1 ≤ 0 by omega)
  have hor : r = 1 ∨ r = 1 + 2 * 2 ^ (-(p : ℤ)) := by
    rcases eq_or_lt_of_le h1 with h | h
    · exact Or.inl h.symm
    · right
      have := g1.room gr h
      rw [pow_succ'] at this
      linarith
  rcases hor with h | h
  · exact h
  exfalso
  obtain ⟨m, e, m1, m2, ⟨c, hc⟩, hm⟩ := hr.ties (1 + 2 ^ (-(p : ℤ))) 1 f1 (by rw [← hrr, h]; intro h'; linarith) (by
    rw [← hrr, h, show (1 : ℚ) - (1 + 2 ^ (-(p : ℤ))) = -2 ^ (-(p : ℤ)) by ring, abs_neg]
    congr 1; ring)
  rw [← hrr, h] at hm
  -- the exponent is that of one
  have hε2 : (2 : ℚ) ^ (-(p : ℤ)) ≤ 1 / 4 := by
    have : (2 : ℚ) ^ (-(p : ℤ)) ≤ 2 ^ (-2 : ℤ) := pow_le (by omega)
    refine this.trans (by norm_num)
  have e1 : |(m : ℚ)| * 2 ^ e = 1 + 2 * 2 ^ (-(p : ℤ)) := by
    have : |(m : ℚ) * 2 ^ e| = |1 + 2 * 2 ^ (-(p : ℤ))| := by rw [hm]
    rwa [abs_mul, abs_of_pos (two_pos' e), abs_of_pos (show (0 : ℚ) < 1 + 2 * 2 ^ (-(p : ℤ)) by linarith)] at this
  have m1' : (2 : ℚ) ^ ((p : ℤ) - 1) ≤ |(m : ℚ)| := by
    have : ((2 : ℤ) ^ (p - 1) : ℚ) ≤ |(m : ℚ)| := by exact_mod_cast m1
    have e2 : (2 : ℚ) ^ ((p : ℤ) - 1) = 2 ^ (p - 1) := by
      rw [show (p : ℤ) - 1 = ((p - 1 : ℕ) : ℤ) by omega, zpow_natCast]
    rw [e2]; exact_mod_cast this
  have m2' : |(m : ℚ)| < 2 ^ (p : ℤ) := by
    rw [zpow_natCast]; exact_mod_cast m2
  have hle : (2 : ℚ) ^ ((p : ℤ) - 1 + e) < 2 ^ (1 : ℤ) := by
    rw [zpow_add₀ (by norm_num)]
    have := mul_le_mul_of_nonneg_right m1' (two_pos' e).le
    norm_num
    linarith
  have hgt : (2 : ℚ) ^ (0 : ℤ) < 2 ^ ((p : ℤ) + e) := by
    rw [zpow_add₀ (by norm_num)]
    have := mul_lt_mul_of_pos_right m2' (two_pos' e)
    rw [zpow_zero]
    linarith
  have l1 := (zpow_lt_zpow_iff_right₀ (by norm_num : (1 : ℚ) < 2)).1 hle
  have l2 := (zpow_lt_zpow_iff_right₀ (by norm_num : (1 : ℚ) < 2)).1 hgt
  have he : e = -(p : ℤ) + 1 := by omega
  -- then `m` is odd
  rw [he, pow_succ', hc] at hm
  have e3 : (2 : ℚ) ^ (p - 1) * (2 * 2 ^ (-(p : ℤ))) = 1 := by
    rw [← pow_succ', ← zpow_natCast, ← zpow_add₀ (by norm_num), show ((p - 1 : ℕ) : ℤ) + (-(p : ℤ) + 1) = 0 by omega, zpow_zero]
  have hne : (2 : ℚ) * 2 ^ (-(p : ℤ)) ≠ 0 := by positivity
  have e4 : ((2 : ℚ) ^ (p - 1) + 1) * (2 * 2 ^ (-(p : ℤ))) = ((c + c : ℤ) : ℚ) * (2 * 2 ^ (-(p : ℤ))) := by
    rw [add_mul, e3, one_mul, hm]
  have e5 : (2 : ℚ) ^ (p - 1) + 1 = ((c + c : ℤ) : ℚ) := mul_right_cancel₀ hne e4
  have e6 : (2 : ℤ) ^ (p - 1) + 1 = c + c := by exact_mod_cast e5
  have e7 : (2 : ℤ) ^ (p - 1) = 2 * 2 ^ (p - 2) := by rw [← _root_.pow_succ', show p - 2 + 1 = p - 1 by omega]
  omega

/-- The loop of `exactinit`, from round `i` on. -/
theorem initLoop_eq (hr : ToEven p rnd) (hp : 2 ≤ p) : ∀ (n i : ℕ), i + n + 1 = p → ∀ fuel, n + 1 ≤ fuel →
    initLoop rnd fuel (2 ^ (-(i : ℤ))) (2 ^ ((i + 1) / 2)) (if i = 0 then 1 else 1 + 2 ^ (-(i : ℤ))) (i % 2 == 0) =
      some (2 ^ (-(p : ℤ)), 2 ^ ((p + 1) / 2)) := by
  have hp1 : 1 ≤ p := by omega
  intro n
  induction n with
  | zero =>
    intro i hi fuel hfuel
    obtain ⟨fuel, rfl⟩ : ∃ f, fuel = f + 1 := ⟨fuel - 1, by omega⟩
    have e1 : (2 : ℚ) ^ (-(i : ℤ)) * (1 / 2) = 2 ^ (-(p : ℤ)) := by
      rw [show -(i : ℤ) = -(p : ℤ) + 1 by omega, Float.pow_succ']; ring
    have e2 : (if (i % 2 == 0) = true then rnd ((2 : ℚ) ^ ((i + 1) / 2) * 2) else 2 ^ ((i + 1) / 2)) = 2 ^ ((p + 1) / 2) := by
      rcases Nat.mod_two_eq_zero_or_one i with h | h
      · rw [h]
        simp only [beq_self_eq_true, if_true]
        rw [← pow_succ, show (p + 1) / 2 = (i + 1) / 2 + 1 by omega, ← zpow_natCast, hr.of_float (.pow hp1 _)]
      · rw [h]
        simp only [show ((1 : ℕ) == 0) = false from rfl, Bool.false_eq_true, if_false]
        rw [show (p + 1) / 2 = (i + 1) / 2 by omega]
    simp only [initLoop, e1, hr.of_float (.pow hp1 _), e2, rnd_tie hr hp, ne_eq, not_true_eq_false, false_and, if_false]
  | succ n ih =>
    intro i hi fuel hfuel
    obtain ⟨fuel, rfl⟩ : ∃ f, fuel = f + 1 := ⟨fuel - 1, by omega⟩
    have e1 : (2 : ℚ) ^ (-(i : ℤ)) * (1 / 2) = 2 ^ (-((i + 1 : ℕ) : ℤ)) := by
      rw [show -(i : ℤ) = -((i + 1 : ℕ) : ℤ) + 1 by omega, Float.pow_succ']; ring
    have e2 : (if (i % 2 == 0) = true then rnd ((2 : ℚ) ^ ((i + 1) / 2) * 2) else 2 ^ ((i + 1) / 2)) = 2 ^ ((i + 1 + 1) / 2) := by
      rcases Nat.mod_two_eq_zero_or_one i with h | h
      · rw [h]
        simp only [beq_self_eq_true, if_true]
        rw [← pow_succ, show (i + 1 + 1) / 2 = (i + 1) / 2 + 1 by omega, ← zpow_natCast, hr.of_float (.pow hp1 _)]
      · rw [h]
        simp only [show ((1 : ℕ) == 0) = false from rfl, Bool.false_eq_true, if_false]
        rw [show (i + 1 + 1) / 2 = (i + 1) / 2 by omega]
    have e3 : (!(i % 2 == 0)) = ((i + 1) % 2 == 0) := by
      rcases Nat.mod_two_eq_zero_or_one i with h | h
      · rw [h, show (i + 1) % 2 = 1 by omega]; rfl
      · rw [h, show (i + 1) % 2 = 0 by omega]; rfl
    have hpos := two_pos' (-((i + 1 : ℕ) : ℤ))
    have c1 : (1 : ℚ) + 2 ^ (-((i + 1 : ℕ) : ℤ)) ≠ 1 := by intro h; linarith
    have c2 : (1 : ℚ) + 2 ^ (-((i + 1 : ℕ) : ℤ)) ≠ (if i = 0 then 1 else 1 + 2 ^ (-(i : ℤ))) := by
      split
      · exact c1
      · rw [show -(i : ℤ) = -((i + 1 : ℕ) : ℤ) + 1 by omega, Float.pow_succ']
        intro h; linarith
    have := ih (i + 1) (by omega) fuel (by omega)
    rw [if_neg (by omega : i + 1 ≠ 0)] at this
    simp only [initLoop]
    rw [e1, hr.of_float (.pow hp1 _), e2, hr.of_float (isFloat_one_add hp1 (by omega)), e3, if_pos ⟨c1, c2⟩]
    exact this

/-- The values after `exactinit`, for precision `p`. -/
def initialised (p : ℕ) : Statics :=
  let ε : ℚ := 2 ^ (-(p : ℤ))
  { splitter := 2 ^ ((p + 1) / 2) + 1
    epsilon := ε
    resulterrbound := (3 + 8 * ε) * ε
    ccwA := (3 + 16 * ε) * ε
    ccwB := (2 + 12 * ε) * ε
    ccwC := (9 + 64 * ε) * ε * ε }

theorem exactinit_eq (hr : ToEven p rnd) (hp : 6 ≤ p) {fuel : ℕ} (hf : p ≤ fuel) : exactinit rnd fuel = some (initialised p) := by
  have hp1 : 1 ≤ p := by omega
  have h := initLoop_eq hr (by omega) (p - 1) 0 (by omega) fuel (by omega)
  simp only [Nat.cast_zero, neg_zero, zpow_zero, if_true] at h
  norm_num at h
  have h' : initLoop rnd fuel 1 1 1 true = some (2 ^ (-(p : ℤ)), 2 ^ ((p + 1) / 2)) := by simpa using h
  simp only [exactinit, h', Option.map_some]
  congr 1
  set ε : ℚ := 2 ^ (-(p : ℤ)) with hε
  have hε0 : 0 < ε := two_pos' _
  have hε1 : ε ≤ 1 / 64 := by
    have : (2 : ℚ) ^ (-(p : ℤ)) ≤ 2 ^ (-6 : ℤ) := pow_le (by omega)
    refine this.trans (by norm_num)
  have gi : ∀ (n : ℕ) (e : ℤ), e ≤ 0 → Grid e (n : ℚ) := fun n e he => Grid.mono ⟨n, by simp⟩ he
  have gε : ∀ (n : ℕ) (j : ℕ), Grid (-(p : ℤ) + j) ((n : ℚ) * 2 ^ j * ε) := fun n j => ⟨n, by
    rw [hε, zpow_add₀ (by norm_num), zpow_natCast]; push_cast; ring⟩
  have top : ∀ j : ℕ, (2 : ℚ) ^ ((p : ℤ) + (-(p : ℤ) + j)) = 2 ^ j := fun j => by
    rw [← add_assoc, add_neg_cancel, zero_add, zpow_natCast]
  -- a constant `c + n * 2 ^ j * ε` is exact
  have key : ∀ (c n j : ℕ), (c : ℚ) + n * 2 ^ j * ε ≤ 2 ^ j → j ≤ p → IsFloat p ((c : ℚ) + n * 2 ^ j * ε) := by
    intro c n j hle hj
    refine isFloat_of_grid hp1 ((gi c (-(p : ℤ) + j) (by omega)).add (gε n j)) ?_
    rw [top, abs_of_nonneg (by positivity)]; exact hle
  have k8 : rnd (8 * ε) = 8 * ε := by
    have := hr.of_float (key 0 1 3 (by norm_num; linarith) (by omega)); norm_num at this; exact this
  have k16 : rnd (16 * ε) = 16 * ε := by
    have := hr.of_float (key 0 1 4 (by norm_num; linarith) (by omega)); norm_num at this; exact this
  have k12 : rnd (12 * ε) = 12 * ε := by
    have := hr.of_float (key 0 3 2 (by norm_num; linarith) (by omega)); norm_num at this; exact this
  have k64 : rnd (64 * ε) = 64 * ε := by
    have := hr.of_float (key 0 1 6 (by norm_num; linarith) (by omega)); norm_num at this; exact this
  have f8 : IsFloat p (3 + 8 * ε) := by
    have := key 3 1 3 (by norm_num; linarith) (by omega); norm_num at this; exact this
  have f16 : IsFloat p (3 + 16 * ε) := by
    have := key 3 1 4 (by norm_num; linarith) (by omega); norm_num at this; exact this
  have f12 : IsFloat p (2 + 12 * ε) := by
    have := key 2 3 2 (by norm_num; linarith) (by omega); norm_num at this; exact this
  have f64 : IsFloat p (9 + 64 * ε) := by
    have := key 9 1 6 (by norm_num; linarith) (by omega); norm_num at this; exact this
  have fs : rnd ((2 : ℚ) ^ ((p + 1) / 2) + 1) = 2 ^ ((p + 1) / 2) + 1 := by
    have g : Grid 0 ((2 : ℚ) ^ ((p + 1) / 2) + 1) := ⟨2 ^ ((p + 1) / 2) + 1, by push_cast; simp⟩
    refine hr.of_float (isFloat_of_grid hp1 g ?_)
    rw [abs_of_pos (by positivity), add_zero, zpow_natCast]
    have h1 : (2 : ℚ) ^ ((p + 1) / 2 + 1) ≤ 2 ^ p := pow_le_pow_right₀ (by norm_num) (by omega)
    have h2 : (1 : ℚ) ≤ 2 ^ ((p + 1) / 2) := one_le_pow₀ (by norm_num)
    rw [pow_succ] at h1
    linarith
  simp only [initialised, ← hε, k8, k16, k12, k64, fs, hr.of_float f8, hr.of_float f16, hr.of_float f12, hr.of_float f64]
  have s1 : ∀ x, IsFloat p x → rnd (x * ε) = x * ε := fun x hx => hr.of_float (hx.scale _)
  rw [s1 _ f8, s1 _ f16, s1 _ f12, s1 _ f64, s1 _ (f64.scale _)]

end Verif.Float
