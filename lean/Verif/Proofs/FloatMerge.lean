import Verif.Proofs.FloatExpansion
/- The loop of `fast_expansion_sum_zeroelim`. -/
namespace Verif.Float
open Verif Verif.Pred

variable {p : ℕ} {rnd : ℚ → ℚ}

/-- The error of adding `g` is below whatever comes later from the other expansion. -/
theorem key (hr : ToNearest p rnd) (hp : 20 ≤ p) {g x Q H A B α β : ℚ} (hg : IsFloat p g) (hx : IsFloat p x) (hg0 : g ≠ 0) (hx0 : x ≠ 0) (hgx : |g| ≤ |x|) (hA0 : 0 ≤ A) (hB0 : 0 ≤ B)
    (hQ : |Q| ≤ A + B + H) (hH : H ≤ (A + B) / 2 ^ 15) (hA : A ≤ 2 * |g|) (hB : B ≤ 2 * |g|) (hα0 : 0 ≤ α) (hα : α ≤ 1 - 1 / 2 ^ 12) (hβ0 : 0 ≤ β) (hβ : β ≤ 1) (hαβ : α + β ≤ 3 / 2 - 1 / 2 ^ 12)
    (hl : ∃ l : ℤ, Grid l g ∧ A ≤ α * 2 ^ l) (hk : ∃ k : ℤ, Grid k x ∧ B ≤ β * 2 ^ k) : Below (Q + g - rnd (Q + g)) x := by
  have hp1 : 1 ≤ p := by omega
  obtain ⟨m, m1, m2⟩ := exists_binade hg0
  -- the unit of the last place of `g`
  obtain ⟨u, hu⟩ : ∃ u : ℚ, u = 2 ^ (m + 1 - p : ℤ) := ⟨_, rfl⟩
  have hu0 : 0 < u := hu ▸ two_pos' _
  have gx : Grid (m + 1 - p) x := hx.grid (m1.trans hgx)
  have gg : Grid (m + 1 - p) g := hg.grid m1
  have e2 : (2 : ℚ) ^ (m + 1) = 2 * 2 ^ m := pow_succ' m
  have e3 : (2 : ℚ) ^ (m + 2) = 4 * 2 ^ m := by rw [show m + 2 = m + 1 + 1 by ring, pow_succ', e2]; ring
  have e4 : (2 : ℚ) ^ (m + 4) = 16 * 2 ^ m := by rw [show m + 4 = m + 2 + 1 + 1 by ring, pow_succ', pow_succ', e3]; ring
  have eu : (2 : ℚ) ^ (m - p : ℤ) = u / 2 := by
    have : u = 2 * 2 ^ (m - p : ℤ) := by rw [hu, ← pow_succ']; congr 1; ring
    linarith
  have hm0 := two_pos' m
  have hum : u * 8 ≤ 2 ^ m := by
    have : u * 8 = 2 ^ (m + 4 - p : ℤ) := by
      rw [hu, show m + 4 - (p : ℤ) = m + 1 - p + 1 + 1 + 1 by ring, pow_succ', pow_succ', pow_succ']; ring
    rw [this]; exact pow_le (by omega)
  have hs : |Q + g| ≤ A + B + H + |g| := (abs_add_le _ _).trans (by linarith)
  -- a grid on which `g` leaves room
  obtain ⟨L, hL1, hL2, hL3⟩ : ∃ L : ℚ, u ≤ L ∧ |g| + L ≤ 2 ^ (m + 1) ∧ A ≤ α * L := by
    obtain ⟨l, h1, h2⟩ := hl
    have room : ∀ l : ℤ, l ≤ m → Grid l g → |g| + 2 ^ l ≤ 2 ^ (m + 1) := fun l hl h => h.abs.room (Grid.pow (by omega)) m2
    have hlm : l ≤ m := by
      by_contra hc
      push Not at hc
      have := h1.le_abs hg0
      have : (2 : ℚ) ^ (m + 1) ≤ 2 ^ l := pow_le (by omega)
      linarith
    rcases le_total l (m + 1 - p) with h | h
    · refine ⟨u, le_rfl, hu ▸ room _ (by omega) gg, h2.trans ?_⟩
      rw [hu]
      exact mul_le_mul_of_nonneg_left (pow_le h) hα0
    · exact ⟨2 ^ l, hu ▸ pow_le h, room l hlm h1, h2⟩
  obtain ⟨k, k1, k2⟩ := hk
  have hcomm : |Q + g - rnd (Q + g)| = |rnd (Q + g) - (Q + g)| := abs_sub_comm _ _
  have hαL : α * L ≤ (1 - 1 / 2 ^ 12) * L := mul_le_mul_of_nonneg_right hα (hu0.le.trans hL1)
  have hαu : α * u ≤ (1 - 1 / 2 ^ 12) * u := mul_le_mul_of_nonneg_right hα hu0.le
  rcases le_or_gt (m + 4 - p) k with hk4 | hk4
  · -- `x` has room for every error
    refine ⟨m + 3 - p, ?_, by rw [show m + 3 - (p : ℤ) + 1 = m + 4 - p by ring]; exact k1.mono hk4⟩
    have h16 : |Q + g| ≤ 2 ^ (m + 4) := by
      rw [e4]; linarith
    have := hr.err_le hp1 h16
    rw [hcomm]
    refine this.trans ?_
    rw [show m + 4 - (p : ℤ) = m + 3 - p + 1 by ring, pow_succ']
    linarith
  have hB4 : B ≤ 4 * u := by
    have : (2 : ℚ) ^ k ≤ 4 * u := by
      have : 4 * u = 2 ^ (m + 3 - p : ℤ) := by rw [hu, show m + 3 - (p : ℤ) = m + 1 - p + 1 + 1 by ring, pow_succ', pow_succ']; ring
      rw [this]; exact pow_le (by omega)
    have h2 := mul_le_mul hβ this (two_pos' k).le (by norm_num)
    linarith
  rcases le_or_gt (m + 2 - p) k with hk2 | hk2
  · refine ⟨m + 1 - p, ?_, by rw [show m + 1 - (p : ℤ) + 1 = m + 2 - p by ring]; exact k1.mono hk2⟩
    have h4 : |Q + g| ≤ 2 ^ (m + 2) := by
      rw [e2] at hL2
      rw [e3]
      have : 1 / 2 ^ 15 * (A + B) = (A + B) / 2 ^ 15 := by ring
      nlinarith
    have := hr.err_le hp1 h4
    rw [hcomm]
    refine this.trans ?_
    rw [show m + 2 - (p : ℤ) = m + 1 - p + 1 by ring, pow_succ']
    linarith
  -- the last place of `x` is that of `g`
  refine ⟨m - p, ?_, by rw [show m - (p : ℤ) + 1 = m + 1 - p by ring]; exact gx⟩
  have hBu : B ≤ β * u := by
    refine k2.trans (mul_le_mul_of_nonneg_left ?_ hβ0)
    rw [hu]; exact pow_le (by omega)
  have hαβu : (α + β) * u ≤ (3 / 2 - 1 / 2 ^ 12) * u := mul_le_mul_of_nonneg_right hαβ hu0.le
  have hd : 0 ≤ (L - u) * ((1 - 1 / 2 ^ 12) - α) := mul_nonneg (by linarith) (by linarith)
  have hbound : |Q + g| ≤ 2 ^ (m + 1) + u / 2 := by
    have hβu : β * u ≤ u := by nlinarith
    nlinarith
  rw [hcomm, eu]
  rcases le_total |Q + g| (2 ^ (m + 1)) with h | h
  · have := hr.err_le hp1 h
    rw [← hu] at this
    exact this
  · rcases le_total 0 (Q + g) with hpos | hneg
    · have := hr.nearest (Q + g) _ (IsFloat.pow hp1 (m + 1))
      rw [abs_of_nonneg hpos] at h hbound
      refine this.trans ?_
      rw [abs_le]; constructor <;> linarith
    · have := hr.nearest (Q + g) _ (IsFloat.pow hp1 (m + 1)).neg
      rw [abs_of_nonpos hneg] at h hbound
      refine this.trans ?_
      rw [abs_le]; constructor <;> linarith

/-- The sum of what has been used of an expansion, in absolute values, is below what is left of it. -/
structure Side (p : ℕ) (A c : ℚ) (l : List ℚ) : Prop where
  nonneg : 0 ≤ A
  float : ∀ x ∈ l, IsFloat p x
  grid : ∀ x ∈ l, x ≠ 0 → ∃ k : ℤ, Grid k x ∧ A ≤ c * 2 ^ k
  small : ∀ x ∈ l, x ≠ 0 → A ≤ 2 * |x|

theorem Below.le {a b : ℚ} (h : Below a b) (hb : b ≠ 0) : 2 * |a| ≤ |b| := by
  obtain ⟨t, h1, h2⟩ := h
  have := h2.le_abs hb
  rw [pow_succ'] at this
  linarith

theorem Side.tail {A c g : ℚ} {l : List ℚ} (h : Side p A c (g :: l)) : Side p A c l :=
  ⟨h.nonneg, fun x hx => h.float x (List.mem_cons_of_mem _ hx), fun x hx => h.grid x (List.mem_cons_of_mem _ hx), fun x hx => h.small x (List.mem_cons_of_mem _ hx)⟩

theorem Side.weak {A g : ℚ} {j : ℕ} {l : List ℚ} (h : Side p A (1 - (1 / 2) ^ j) (g :: l)) (hg : g ≠ 0) (hl : ∀ x ∈ l, Below g x) : Side p (A + |g|) (1 - (1 / 2) ^ (j + 1)) l := by
  obtain ⟨k, k1, k2⟩ := h.grid g List.mem_cons_self hg
  have hj : (0 : ℚ) < (1 / 2) ^ j := by positivity
  have hj1 : ((1 : ℚ) / 2) ^ j ≤ 1 := pow_le_one₀ (by norm_num) (by norm_num)
  have hA : A ≤ (1 - (1 / 2) ^ j) * |g| := k2.trans (mul_le_mul_of_nonneg_left (k1.le_abs hg) (by linarith))
  have ha := abs_nonneg g
  refine ⟨add_nonneg h.nonneg ha, h.tail.float, fun x hx _ => ?_, fun x hx hx0 => ?_⟩
  · obtain ⟨t, t1, t2⟩ := hl x hx
    refine ⟨t + 1, t2, ?_⟩
    rw [pow_succ', pow_succ]
    have := mul_le_mul_of_nonneg_left t1 (show (0 : ℚ) ≤ 2 - (1 / 2) ^ j by linarith)
    linarith
  · have := (hl x hx).le hx0
    nlinarith

theorem Side.strong {A g : ℚ} {l : List ℚ} (h : Side p A (1 / 2) (g :: l)) (hg : g ≠ 0) (hl : ∀ x ∈ l, Far g x) : Side p (A + |g|) (1 / 2) l := by
  obtain ⟨k, k1, k2⟩ := h.grid g List.mem_cons_self hg
  have hk := k1.le_abs hg
  have ha := abs_nonneg g
  refine ⟨add_nonneg h.nonneg ha, h.tail.float, fun x hx _ => ?_, fun x hx hx0 => ?_⟩
  · obtain ⟨t, t1, t2⟩ := hl x hx
    refine ⟨t + 1, t2, ?_⟩
    have hkt : k ≤ t := by
      by_contra hc
      push Not at hc
      have : (2 : ℚ) ^ t ≤ 2 ^ k := pow_le hc.le
      linarith
    have := k1.abs.room (Grid.pow hkt) t1
    have h0 := two_pos' k
    rw [pow_succ']
    linarith
  · have := (hl x hx).below.le hx0
    linarith

/-- The state of the loop. `n` is the number of steps so far and `A` the sum of what has been used, in absolute values. -/
structure State (p : ℕ) (Q H A : ℚ) (h rest : List ℚ) (n : ℕ) : Prop where
  float : IsFloat p Q
  size : |Q| ≤ A + H
  err0 : 0 ≤ H
  err : H ≤ 2 * n * 2 ^ (-(p : ℤ)) * A
  out : ∀ a ∈ h, IsFloat p a ∧ a ≠ 0
  order : h.Pairwise Below
  last : ∀ a ∈ h, Below a Q
  later : ∀ a ∈ h, ∀ x ∈ rest, Below a x

/-- One step of the loop, for a number that is not zero. -/
theorem State.step (hr : ToNearest p rnd) (hp : 20 ≤ p) {Q H A B α β g : ℚ} {h O X : List ℚ} {n : ℕ} (hs : State p Q H (A + B) h (g :: (O ++ X)) n) (hn : n ≤ 15) (hO : Side p A α (g :: O)) (hX : Side p B β X)
    (hg : g ≠ 0) (hα0 : 0 ≤ α) (hα : α ≤ 1 - 1 / 2 ^ 12) (hβ0 : 0 ≤ β) (hβ : β ≤ 1) (hαβ : α + β ≤ 3 / 2 - 1 / 2 ^ 12) (hB : B ≤ 2 * |g|) (hown : ∀ x ∈ O, Below g x) (hmin : ∀ x ∈ X, x ≠ 0 → |g| ≤ |x|) :
    ∃ H', State p (rnd (Q + g)) H' (A + |g| + B) (pushNz h (Q + g - rnd (Q + g))) (O ++ X) (n + 1) := by
  have hp1 : 1 ≤ p := by omega
  have fg : IsFloat p g := hO.float g List.mem_cons_self
  have hA0 := hO.nonneg
  have hB0 := hX.nonneg
  have hag := abs_nonneg g
  obtain ⟨δ, hδ⟩ : ∃ δ : ℚ, δ = 2 ^ (-(p : ℤ)) := ⟨_, rfl⟩
  have hδ0 : 0 < δ := hδ ▸ two_pos' _
  have hδ1 : δ ≤ 1 / 2 ^ 20 := by
    have : (2 : ℚ) ^ (-(p : ℤ)) ≤ 2 ^ (-20 : ℤ) := pow_le (by omega)
    rw [hδ]; exact this.trans (by norm_num)
  have hn' : (n : ℚ) ≤ 15 := by exact_mod_cast hn
  have hn0 : (0 : ℚ) ≤ n := Nat.cast_nonneg n
  have herr := hs.err
  rw [← hδ] at herr
  have hH15 : H ≤ (A + B) / 2 ^ 15 := by
    refine herr.trans ?_
    have h1 : 2 * (n : ℚ) * δ ≤ 30 * (1 / 2 ^ 20) := by nlinarith
    have := mul_le_mul_of_nonneg_right h1 (add_nonneg hA0 hB0)
    refine this.trans ?_
    linarith
  have hA2 : A ≤ 2 * |g| := hO.small g List.mem_cons_self hg
  have hsum : |Q + g| ≤ A + B + H + |g| := (abs_add_le _ _).trans (by have := hs.size; linarith)
  have hrel := hr.rel hp1 (Q + g)
  rw [← hδ] at hrel
  have hnew : ∀ x ∈ O ++ X, Below (Q + g - rnd (Q + g)) x := by
    intro x hx
    rcases List.mem_append.1 hx with hx | hx
    · obtain ⟨t, t1, t2⟩ := hown x hx
      refine ⟨t, ?_, t2⟩
      rw [abs_sub_comm]
      have h6 : |Q + g| ≤ 6 * |g| := by linarith
      nlinarith [abs_nonneg (Q + g)]
    · by_cases hx0 : x = 0
      · subst hx0
        obtain ⟨t, t1, -⟩ := err_below hr hp1 (Q + g)
        exact ⟨t, t1, Grid.zero _⟩
      · exact key hr hp fg (hX.float x hx) hg hx0 (hmin x hx hx0) hA0 hB0 hs.size hH15 hA2 hB hα0 hα hβ0 hβ hαβ (hO.grid g List.mem_cons_self hg) (hX.grid x hx hx0)
  refine ⟨H + δ * (A + B + H + |g|), ?_, ?_, ?_, ?_, ?_, ?_, ?_, ?_⟩
  · exact hr.float _
  · have h1 : |rnd (Q + g)| ≤ |Q + g| + |rnd (Q + g) - (Q + g)| := by
      have := abs_add_le (Q + g) (rnd (Q + g) - (Q + g))
      rwa [add_sub_cancel] at this
    have h2 : δ * |Q + g| ≤ δ * (A + B + H + |g|) := mul_le_mul_of_nonneg_left hsum hδ0.le
    linarith
  · have := hs.err0; positivity
  · rw [← hδ]
    push_cast
    have h1 : H * δ ≤ (2 * n * δ * (A + B)) * δ := mul_le_mul_of_nonneg_right herr hδ0.le
    have h2 : 2 * (n : ℚ) * δ ≤ 1 := by nlinarith
    have h3 : 2 * (n : ℚ) * δ * ((A + B) * δ) ≤ 1 * ((A + B) * δ) := mul_le_mul_of_nonneg_right h2 (mul_nonneg (add_nonneg hA0 hB0) hδ0.le)
    have h4 : 0 ≤ n * δ * |g| := by positivity
    have h5 : 0 ≤ δ * |g| := by positivity
    nlinarith
  · intro a ha
    unfold pushNz at ha
    split_ifs at ha with hz
    · rcases List.mem_append.1 ha with ha | ha
      · exact hs.out a ha
      · rw [List.mem_singleton] at ha
        subst ha
        exact ⟨float_err hr hp1 hs.float fg, hz⟩
    · exact hs.out a ha
  · unfold pushNz
    split_ifs with hz
    · refine List.pairwise_append.2 ⟨hs.order, List.pairwise_singleton _ _, fun a ha b hb => ?_⟩
      rw [List.mem_singleton] at hb
      subst hb
      exact ((hs.last a ha).round hr hp1 (hs.later a ha g List.mem_cons_self)).2
    · exact hs.order
  · intro a ha
    unfold pushNz at ha
    split_ifs at ha with hz
    · rcases List.mem_append.1 ha with ha | ha
      · exact ((hs.last a ha).round hr hp1 (hs.later a ha g List.mem_cons_self)).1
      · rw [List.mem_singleton] at ha
        subst ha
        exact err_below hr hp1 _
    · exact ((hs.last a ha).round hr hp1 (hs.later a ha g List.mem_cons_self)).1
  · intro a ha x hx
    unfold pushNz at ha
    split_ifs at ha with hz
    · rcases List.mem_append.1 ha with ha | ha
      · exact hs.later a ha x (List.mem_cons_of_mem _ hx)
      · rw [List.mem_singleton] at ha
        subst ha
        exact hnew x hx
    · exact hs.later a ha x (List.mem_cons_of_mem _ hx)
end Verif.Float
