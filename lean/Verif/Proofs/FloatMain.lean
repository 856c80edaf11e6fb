import Verif.Proofs.FloatAdapt
/- `orient2d`, put together. -/
namespace Verif.Float
open Verif.Pred
variable {p : ℕ} {rnd : ℚ → ℚ}

theorem or_iff_abs {d e : ℚ} : (d ≥ e ∨ -d ≥ e) ↔ |d| ≥ e := by
  rw [ge_iff_le, ge_iff_le, ge_iff_le, le_abs]

section
variable (hr : ToNearest p rnd) (hp : 10 ≤ p) {a b c : ℚ × ℚ}
include hr hp

/-- How `orient2dadapt` ends, after a failed first test: with the right sign and nonzero, or with all differences exact and
the right sign, or in the last stage. -/
theorem adapt_cases {s : ℚ} (past : Res ℚ)
    (ha : IsFloat p a.1 ∧ IsFloat p a.2) (hb : IsFloat p b.1 ∧ IsFloat p b.2) (hc : IsFloat p c.1 ∧ IsFloat p c.2)
    (hs : s = rnd (|rnd (rnd (a.1 - c.1) * rnd (b.2 - c.2))| + |rnd (rnd (a.2 - c.2) * rnd (b.1 - c.1))|))
    (hl : rnd (rnd (a.1 - c.1) * rnd (b.2 - c.2)) ≠ 0)
    (hA : |rnd (rnd (rnd (a.1 - c.1) * rnd (b.2 - c.2)) - rnd (rnd (a.2 - c.2) * rnd (b.1 - c.1)))| < rnd ((initialised p).ccwA * s)) :
    (∃ r, orient2dadapt rnd past (initialised p) a b c s = .ok r ∧ SameSign r (orientation a b c) ∧
      (r ≠ 0 ∨ (rnd (a.1 - c.1) = a.1 - c.1 ∧ rnd (a.2 - c.2) = a.2 - c.2 ∧ rnd (b.1 - c.1) = b.1 - c.1 ∧ rnd (b.2 - c.2) = b.2 - c.2))) ∨
    ¬ (rnd (a.1 - c.1) = a.1 - c.1 ∧ rnd (a.2 - c.2) = a.2 - c.2 ∧ rnd (b.1 - c.1) = b.1 - c.1 ∧ rnd (b.2 - c.2) = b.2 - c.2) ∧
    |orientation a b c| ≤ 29 * (2 ^ (-(p : ℤ))) ^ 2 * s ∧
    orient2dadapt rnd past (initialised p) a b c s = lastStage rnd past (initialised p)
      (diffOfProducts rnd (initialised p) (rnd (a.1 - c.1)) (rnd (b.2 - c.2)) (rnd (a.2 - c.2)) (rnd (b.1 - c.1)))
      (rnd (a.1 - c.1)) (rnd (a.2 - c.2)) (rnd (b.1 - c.1)) (rnd (b.2 - c.2))
      (a.1 - c.1 - rnd (a.1 - c.1)) (a.2 - c.2 - rnd (a.2 - c.2)) (b.1 - c.1 - rnd (b.1 - c.1)) (b.2 - c.2 - rnd (b.2 - c.2)) := by
  have hp1 : 1 ≤ p := by omega
  have hp3 : 3 ≤ p := by omega
  have hε0 : (0 : ℚ) < 2 ^ (-(p : ℤ)) := two_pos' _
  have P : Parts (2 ^ (-(p : ℤ))) (a.1 - c.1) (a.2 - c.2) (b.1 - c.1) (b.2 - c.2) (rnd (a.1 - c.1)) (rnd (a.2 - c.2)) (rnd (b.1 - c.1)) (rnd (b.2 - c.2))
      (rnd (rnd (a.1 - c.1) * rnd (b.2 - c.2))) (rnd (rnd (a.2 - c.2) * rnd (b.1 - c.1))) := by
    constructor <;> rw [abs_sub_comm] <;> exact hr.rel' hp1 _
  have t1 : twoDiffTail rnd a.1 c.1 (rnd (a.1 - c.1)) = a.1 - c.1 - rnd (a.1 - c.1) := twoDiffTail_eq hr hp3 ha.1 hc.1 (hr.near _)
  have t2 : twoDiffTail rnd a.2 c.2 (rnd (a.2 - c.2)) = a.2 - c.2 - rnd (a.2 - c.2) := twoDiffTail_eq hr hp3 ha.2 hc.2 (hr.near _)
  have t3 : twoDiffTail rnd b.1 c.1 (rnd (b.1 - c.1)) = b.1 - c.1 - rnd (b.1 - c.1) := twoDiffTail_eq hr hp3 hb.1 hc.1 (hr.near _)
  have t4 : twoDiffTail rnd b.2 c.2 (rnd (b.2 - c.2)) = b.2 - c.2 - rnd (b.2 - c.2) := twoDiffTail_eq hr hp3 hb.2 hc.2 (hr.near _)
  have f1 : IsFloat p (rnd (a.1 - c.1)) := hr.float _
  have f2 : IsFloat p (rnd (a.2 - c.2)) := hr.float _
  have f3 : IsFloat p (rnd (b.1 - c.1)) := hr.float _
  have f4 : IsFloat p (rnd (b.2 - c.2)) := hr.float _
  have horient : orientation a b c = (a.1 - c.1) * (b.2 - c.2) - (a.2 - c.2) * (b.1 - c.1) := rfl
  rw [horient]
  simp only [orient2dadapt, t1, t2, t3, t4]
  have z1 : a.1 - c.1 - rnd (a.1 - c.1) = 0 → rnd (a.1 - c.1) = a.1 - c.1 := fun h => by linarith
  have z2 : a.2 - c.2 - rnd (a.2 - c.2) = 0 → rnd (a.2 - c.2) = a.2 - c.2 := fun h => by linarith
  have z3 : b.1 - c.1 - rnd (b.1 - c.1) = 0 → rnd (b.1 - c.1) = b.1 - c.1 := fun h => by linarith
  have z4 : b.2 - c.2 - rnd (b.2 - c.2) = 0 → rnd (b.2 - c.2) = b.2 - c.2 := fun h => by linarith
  generalize hx : rnd (a.1 - c.1) = x at *
  generalize hy : rnd (a.2 - c.2) = y at *
  generalize hu : rnd (b.1 - c.1) = u at *
  generalize hw : rnd (b.2 - c.2) = w at *
  obtain ⟨m1, n1⟩ := twoProduct_eq hr (by omega) (st := initialised p) rfl f1 f4
  obtain ⟨m2, n2⟩ := twoProduct_eq hr (by omega) (st := initialised p) rfl f2 f3
  have r1 : |x * w - rnd (x * w)| ≤ 2 ^ (-(p : ℤ)) * |rnd (x * w)| := by rw [abs_sub_comm]; exact hr.rel' hp1 _
  have r2 : |y * u - rnd (y * u)| ≤ 2 ^ (-(p : ℤ)) * |rnd (y * u)| := by rw [abs_sub_comm]; exact hr.rel' hp1 _
  obtain ⟨x0, x1, x2, x3, hB, hest⟩ := estimate_close hr hp (hr.float (x * w)) n1 (hr.float (y * u)) n2 r1 r2 hl (close_of_not_stageA hr hp hs hA)
  have hB' : diffOfProducts rnd (initialised p) x w y u = [x0, x1, x2, x3] := by
    simp only [diffOfProducts, m1, m2, hB]
  rw [hB']
  rw [show rnd (x * w) + (x * w - rnd (x * w)) - rnd (y * u) - (y * u - rnd (y * u)) = x * w - y * u by ring] at hest
  generalize estimate rnd [x0, x1, x2, x3] = q at hest ⊢
  have hs0 : 0 < s := by rw [hs, hr.pos_iff hp1]; have := abs_pos.2 hl; have := abs_nonneg (rnd (y * u)); linarith
  split_ifs with c1 c2 c3
  · rw [or_iff_abs] at c1
    refine Or.inl ⟨q, rfl, stageB hr hp P hs hl hest c1, Or.inl ?_⟩
    rintro rfl
    have : 0 < rnd ((initialised p).ccwB * s) := (hr.pos_iff hp1).2 (by simp only [initialised]; positivity)
    rw [abs_zero] at c1; linarith
  · obtain ⟨k1, k2, k3, k4⟩ := c2
    refine Or.inl ⟨q, rfl, ?_, Or.inr ⟨z1 k1, z2 k2, z3 k3, z4 k4⟩⟩
    rw [← z1 k1, ← z2 k2, ← z3 k3, ← z4 k4]
    rcases eq_or_ne q 0 with h0 | h0
    · rw [h0, abs_zero, mul_zero] at hest
      have h1 := abs_eq_zero.1 (le_antisymm hest (abs_nonneg _))
      have h2 : x * w - y * u = 0 := by linarith
      rw [h0, h2]; exact ⟨Iff.rfl, Iff.rfl⟩
    · apply sameSign_of_close
      rw [abs_sub_comm]
      have := eps_le_1024 hp
      have h1 := abs_pos.2 h0
      have h2 := mul_le_mul_of_nonneg_right this h1.le
      linarith
  · rw [or_iff_abs] at c3
    refine Or.inl ⟨_, rfl, stageC hr hp P hs hl hest rfl c3, Or.inl ?_⟩
    intro h0
    have i1 : 0 < rnd ((initialised p).ccwC * s) := (hr.pos_iff hp1).2 (by simp only [initialised]; positivity)
    have i2 : 0 ≤ rnd ((initialised p).resulterrbound * |q|) := hr.le_of_le .zero (by simp only [initialised]; positivity)
    have i3 : 0 < rnd (rnd ((initialised p).ccwC * s) + rnd ((initialised p).resulterrbound * |q|)) := (hr.pos_iff hp1).2 (by linarith)
    rw [h0, abs_zero] at c3; linarith
  · rw [or_iff_abs, not_le] at c1 c3
    refine Or.inr ⟨fun ⟨k1, k2, k3, k4⟩ => c2 ⟨by linarith, by linarith, by linarith, by linarith⟩, not_stageC hr hp P hs hest rfl c1 c3, rfl⟩

/-- How `orient2d` ends after `exactinit`. -/
theorem orient2d_cases (past : Res ℚ) (ha : IsFloat p a.1 ∧ IsFloat p a.2) (hb : IsFloat p b.1 ∧ IsFloat p b.2) (hc : IsFloat p c.1 ∧ IsFloat p c.2) :
    (∃ r, orient2d rnd past (initialised p) a b c = .ok r ∧ SameSign r (orientation a b c) ∧
      (r ≠ 0 ∨ (a.1 - c.1) * (b.2 - c.2) = 0 ∨
        (rnd (a.1 - c.1) = a.1 - c.1 ∧ rnd (a.2 - c.2) = a.2 - c.2 ∧ rnd (b.1 - c.1) = b.1 - c.1 ∧ rnd (b.2 - c.2) = b.2 - c.2))) ∨
    ¬ (rnd (a.1 - c.1) = a.1 - c.1 ∧ rnd (a.2 - c.2) = a.2 - c.2 ∧ rnd (b.1 - c.1) = b.1 - c.1 ∧ rnd (b.2 - c.2) = b.2 - c.2) ∧
    |orientation a b c| ≤ 30 * (2 ^ (-(p : ℤ))) ^ 2 * (|(a.1 - c.1) * (b.2 - c.2)| + |(a.2 - c.2) * (b.1 - c.1)|) ∧
    orient2d rnd past (initialised p) a b c = lastStage rnd past (initialised p)
      (diffOfProducts rnd (initialised p) (rnd (a.1 - c.1)) (rnd (b.2 - c.2)) (rnd (a.2 - c.2)) (rnd (b.1 - c.1)))
      (rnd (a.1 - c.1)) (rnd (a.2 - c.2)) (rnd (b.1 - c.1)) (rnd (b.2 - c.2))
      (a.1 - c.1 - rnd (a.1 - c.1)) (a.2 - c.2 - rnd (a.2 - c.2)) (b.1 - c.1 - rnd (b.1 - c.1)) (b.2 - c.2 - rnd (b.2 - c.2)) := by
  have hp1 : 1 ≤ p := by omega
  have hε0 : (0 : ℚ) < 2 ^ (-(p : ℤ)) := two_pos' _
  have P : Parts (2 ^ (-(p : ℤ))) (a.1 - c.1) (a.2 - c.2) (b.1 - c.1) (b.2 - c.2) (rnd (a.1 - c.1)) (rnd (a.2 - c.2)) (rnd (b.1 - c.1)) (rnd (b.2 - c.2))
      (rnd (rnd (a.1 - c.1) * rnd (b.2 - c.2))) (rnd (rnd (a.2 - c.2) * rnd (b.1 - c.1))) := by
    constructor <;> rw [abs_sub_comm] <;> exact hr.rel' hp1 _
  have hA := fun s hs hl hA => adapt_cases hr hp (s := s) past ha hb hc hs hl hA
  -- the signs of the two products
  have sl : SameSign (rnd (rnd (a.1 - c.1) * rnd (b.2 - c.2))) ((a.1 - c.1) * (b.2 - c.2)) :=
    (SameSign.of_rnd hr hp1 _).trans ((SameSign.of_rnd hr hp1 _).mul (SameSign.of_rnd hr hp1 _))
  have sr : SameSign (rnd (rnd (a.2 - c.2) * rnd (b.1 - c.1))) ((a.2 - c.2) * (b.1 - c.1)) :=
    (SameSign.of_rnd hr hp1 _).trans ((SameSign.of_rnd hr hp1 _).mul (SameSign.of_rnd hr hp1 _))
  have horient : orientation a b c = (a.1 - c.1) * (b.2 - c.2) - (a.2 - c.2) * (b.1 - c.1) := rfl
  have big : ∀ s, s = rnd (|rnd (rnd (a.1 - c.1) * rnd (b.2 - c.2))| + |rnd (rnd (a.2 - c.2) * rnd (b.1 - c.1))|) →
      29 * ((2 : ℚ) ^ (-(p : ℤ))) ^ 2 * s ≤ 30 * (2 ^ (-(p : ℤ))) ^ 2 * (|(a.1 - c.1) * (b.2 - c.2)| + |(a.2 - c.2) * (b.1 - c.1)|) := by
    intro s hs
    have hε1 := eps_le_1024 hp
    have one : ∀ t : ℚ, |rnd t| ≤ (1 + 2 ^ (-(p : ℤ))) * |t| := fun t => abs_rnd_le hr hp1 le_rfl
    have prod : ∀ t v : ℚ, |rnd (rnd t * rnd v)| ≤ (1 + 2 ^ (-(p : ℤ))) ^ 3 * |t * v| := by
      intro t v
      refine (one _).trans ?_
      rw [abs_mul, abs_mul]
      have := mul_le_mul (one t) (one v) (abs_nonneg _) (by positivity)
      have := mul_le_mul_of_nonneg_left this (show (0 : ℚ) ≤ 1 + 2 ^ (-(p : ℤ)) by positivity)
      calc _ ≤ _ := this
        _ = _ := by ring
    have h1 := prod (a.1 - c.1) (b.2 - c.2)
    have h2 := prod (a.2 - c.2) (b.1 - c.1)
    have h3 : s ≤ (1 + 2 ^ (-(p : ℤ))) * (|rnd (rnd (a.1 - c.1) * rnd (b.2 - c.2))| + |rnd (rnd (a.2 - c.2) * rnd (b.1 - c.1))|) := by
      rw [hs]; exact rnd_le hr hp1 (by positivity)
    have h4 : s ≤ (1 + 2 ^ (-(p : ℤ))) ^ 4 * (|(a.1 - c.1) * (b.2 - c.2)| + |(a.2 - c.2) * (b.1 - c.1)|) := by
      have := mul_le_mul_of_nonneg_left (add_le_add h1 h2) (show (0 : ℚ) ≤ 1 + 2 ^ (-(p : ℤ)) by positivity)
      calc s ≤ _ := h3.trans this
        _ = _ := by ring
    have h5 : (1 + (2 : ℚ) ^ (-(p : ℤ))) ^ 4 ≤ 30 / 29 := by
      have := pow_le_pow_left₀ (by positivity) (show 1 + (2 : ℚ) ^ (-(p : ℤ)) ≤ 1025 / 1024 by linarith) 4
      have : ((1025 : ℚ) / 1024) ^ 4 ≤ 30 / 29 := by norm_num
      linarith
    have h6 := mul_le_mul_of_nonneg_right h5 (show 0 ≤ |(a.1 - c.1) * (b.2 - c.2)| + |(a.2 - c.2) * (b.1 - c.1)| by positivity)
    have h7 := mul_le_mul_of_nonneg_left (h4.trans h6) (show (0 : ℚ) ≤ 29 * (2 ^ (-(p : ℤ))) ^ 2 by positivity)
    calc _ ≤ _ := h7
      _ = _ := by ring
  simp only [orient2d, or_iff_abs]
  generalize hlg : rnd (rnd (a.1 - c.1) * rnd (b.2 - c.2)) = l at *
  generalize hrg : rnd (rnd (a.2 - c.2) * rnd (b.1 - c.1)) = r at *
  have step : ∀ s, s = rnd (|l| + |r|) → l ≠ 0 →
      (∃ v, (if |rnd (l - r)| ≥ rnd ((initialised p).ccwA * s) then Res.ok (rnd (l - r)) else orient2dadapt rnd past (initialised p) a b c s) = .ok v ∧
        SameSign v (orientation a b c) ∧ (v ≠ 0 ∨ (a.1 - c.1) * (b.2 - c.2) = 0 ∨
        (rnd (a.1 - c.1) = a.1 - c.1 ∧ rnd (a.2 - c.2) = a.2 - c.2 ∧ rnd (b.1 - c.1) = b.1 - c.1 ∧ rnd (b.2 - c.2) = b.2 - c.2))) ∨
      ¬ (rnd (a.1 - c.1) = a.1 - c.1 ∧ rnd (a.2 - c.2) = a.2 - c.2 ∧ rnd (b.1 - c.1) = b.1 - c.1 ∧ rnd (b.2 - c.2) = b.2 - c.2) ∧
      |orientation a b c| ≤ 30 * (2 ^ (-(p : ℤ))) ^ 2 * (|(a.1 - c.1) * (b.2 - c.2)| + |(a.2 - c.2) * (b.1 - c.1)|) ∧
      (if |rnd (l - r)| ≥ rnd ((initialised p).ccwA * s) then Res.ok (rnd (l - r)) else orient2dadapt rnd past (initialised p) a b c s) =
        lastStage rnd past (initialised p)
          (diffOfProducts rnd (initialised p) (rnd (a.1 - c.1)) (rnd (b.2 - c.2)) (rnd (a.2 - c.2)) (rnd (b.1 - c.1)))
          (rnd (a.1 - c.1)) (rnd (a.2 - c.2)) (rnd (b.1 - c.1)) (rnd (b.2 - c.2))
          (a.1 - c.1 - rnd (a.1 - c.1)) (a.2 - c.2 - rnd (a.2 - c.2)) (b.1 - c.1 - rnd (b.1 - c.1)) (b.2 - c.2 - rnd (b.2 - c.2)) := by
    intro s hs hl
    split_ifs with h1
    · refine Or.inl ⟨_, rfl, ?_, Or.inl ?_⟩
      · rw [horient]; exact stageA hr hp P hs hl h1
      · intro h0
        have hs0 : 0 < s := by rw [hs, hr.pos_iff hp1]; have := abs_pos.2 hl; have := abs_nonneg r; linarith
        have : 0 < rnd ((initialised p).ccwA * s) := (hr.pos_iff hp1).2 (by simp only [initialised]; positivity)
        rw [h0, abs_zero] at h1; linarith
    · rcases hA s hs hl (not_le.1 h1) with ⟨v, h2, h3, h4⟩ | ⟨h2, h3, h4⟩
      · exact Or.inl ⟨v, h2, h3, h4.imp id Or.inr⟩
      · exact Or.inr ⟨h2, h3.trans (big s hs), h4⟩
  split_ifs with h1 h2 h3 h4 h5 h6
  · -- positive and not positive
    refine Or.inl ⟨_, rfl, (SameSign.of_rnd hr hp1 _).trans ?_, Or.inl ((hr.pos_iff hp1).2 (by linarith)).ne'⟩
    rw [horient]
    have k1 := sl.1.1 h1
    have k2 : (a.2 - c.2) * (b.1 - c.1) ≤ 0 := by
      by_contra hcon; have := sr.1.2 (not_le.1 hcon); linarith
    exact ⟨⟨fun _ => by linarith, fun _ => by linarith⟩, ⟨fun _ => by linarith, fun _ => by linarith⟩⟩
  · have := step (rnd (l + r)) (by rw [abs_of_pos h1, abs_of_pos (not_le.1 h2)]) (ne_of_gt h1)
    rw [if_pos h3] at this; exact this
  · have := step (rnd (l + r)) (by rw [abs_of_pos h1, abs_of_pos (not_le.1 h2)]) (ne_of_gt h1)
    rw [if_neg h3] at this; exact this
  · refine Or.inl ⟨_, rfl, (SameSign.of_rnd hr hp1 _).trans ?_, Or.inl ((hr.neg_iff hp1).2 (by linarith)).ne⟩
    rw [horient]
    have k1 := sl.2.1 h4
    have k2 : 0 ≤ (a.2 - c.2) * (b.1 - c.1) := by
      by_contra hcon; have := sr.2.2 (not_le.1 hcon); linarith
    exact ⟨⟨fun _ => by linarith, fun _ => by linarith⟩, ⟨fun _ => by linarith, fun _ => by linarith⟩⟩
  · have := step (rnd (-l - r)) (by rw [abs_of_neg h4, abs_of_neg (not_le.1 h5), sub_eq_add_neg]) (ne_of_lt h4)
    rw [if_pos h6] at this; exact this
  · have := step (rnd (-l - r)) (by rw [abs_of_neg h4, abs_of_neg (not_le.1 h5), sub_eq_add_neg]) (ne_of_lt h4)
    rw [if_neg h6] at this; exact this
  · have h0 : l = 0 := le_antisymm (not_lt.1 h1) (not_lt.1 h4)
    have k1 := sl.eq_zero.1 h0
    refine Or.inl ⟨_, rfl, (SameSign.of_rnd hr hp1 _).trans ?_, Or.inr (Or.inl k1)⟩
    rw [horient, k1, h0, zero_sub, zero_sub]
    exact ⟨by rw [neg_pos, neg_pos]; exact sr.2, by rw [neg_lt_zero, neg_lt_zero]; exact sr.1⟩

end
end Verif.Float
