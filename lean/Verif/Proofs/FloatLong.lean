import Verif.Proofs.FloatLast
/- `fast_expansion_sum_zeroelim` for the longer expansions of `orient3dadapt`: the lemmas of `FloatMerge` and `FloatLast` with other bounds. -/
namespace Verif.Float
open Verif Verif.Pred

variable {p : ℕ} {rnd : ℚ → ℚ}

/-- The error of adding `g` is below whatever comes later from the other expansion. -/
theorem key_long (hr : ToNearest p rnd) (hp : 25 ≤ p) {g x Q H A B α β : ℚ} (hg : IsFloat p g) (hx : IsFloat p x) (hg0 : g ≠ 0) (hx0 : x ≠ 0) (hgx : |g| ≤ |x|) (hA0 : 0 ≤ A) (hB0 : 0 ≤ B)
    (hQ : |Q| ≤ A + B + H) (hH : H ≤ (A + B) / 2 ^ 19) (hA : A ≤ 2 * |g|) (hB : B ≤ 2 * |g|) (hα0 : 0 ≤ α) (hα : α ≤ 1 - 1 / 2 ^ 16) (hβ0 : 0 ≤ β) (hβ : β ≤ 1) (hαβ : α + β ≤ 3 / 2 - 1 / 2 ^ 16)
    (hl : ∃ l : ℤ, Grid l g ∧ A ≤ α * 2 ^ l) (hk : ∃ k : ℤ, Grid k x ∧ B ≤ β * 2 ^ k) : Below (Q + g - rnd (Q + g)) x := by
  have hp1 : 1 ≤ p := by omega
  obtain ⟨m, m1, m2⟩ := exists_binade hg0
  -- the unit of the last place of `g`
  obtain ⟨u, hu⟩ : ∃ u : ℚ, u = 2 ^ (m + 1 - p : ℤ) := ⟨_, rfl⟩
  have hu0 : 0 < u := hu ▸ two_pos' _
  have gx : Grid (m + 1 - p) x := hx.grid (m1.trans hgx)
  have gg : Grid (m + 1 - p) g := hg.grid m1
  have e2 : (2 : ℚ) ^ (m + 1) = 2 * 2 ^ m := pow_succ' m
  have e3 : (2 : ℚ) ^ (m + 2) = 4 * 2 ^ m := by rw [show m + 2 = m + 1 + 1 by ring, pow_succ', e2]; ring
  have e4 : (2 : ℚ) ^ (m + 4) = 16 * 2 ^ m := by rw [show m + 4 = m + 2 + 1 + 1 by ring, pow_succ', pow_succ', e3]; ring
  have eu : (2 : ℚ) ^ (m - p : ℤ) = u / 2 := by
    have : u = 2 * 2 ^ (m - p : ℤ) := by rw [hu, ← pow_succ']; congr 1; ring
    linarith
  have hm0 := two_pos' m
  have hum : u * 8 ≤ 2 ^ m := by
    have : u * 8 = 2 ^ (m + 4 - p : ℤ) := by
      rw [hu, show m + 4 - (p : ℤ) = m + 1 - p + 1 + 1 + 1 by ring, pow_succ', pow_succ', pow_succ']; ring
    rw [this]; exact pow_le (by omega)
  have hs : |Q + g| ≤ A + B + H + |g| := (abs_add_le _ _).trans (by linarith)
  -- a grid on which `g` leaves room
  obtain ⟨L, hL1, hL2, hL3⟩ : ∃ L : ℚ, u ≤ L ∧ |g| + L ≤ 2 ^ (m + 1) ∧ A ≤ α * L := by
    obtain ⟨l, h1, h2⟩ := hl
    have room : ∀ l : ℤ, l ≤ m → Grid l g → |g| + 2 ^ l ≤ 2 ^ (m + 1) := fun l hl h => h.abs.room (Grid.pow (by omega)) m2
    have hlm : l ≤ m := by
      by_contra hc
      push Not at hc
      have := h1.le_abs hg0
      have : (2 : ℚ) ^ (m + 1) ≤ 2 ^ l := pow_le (by omega)
      linarith
    rcases le_total l (m + 1 - p) with h | h
    · refine ⟨u, le_rfl, hu ▸ room _ (by omega) gg, h2.trans ?_⟩
      rw [hu]
      exact mul_le_mul_of_nonneg_left (pow_le h) hα0
    · exact ⟨2 ^ l, hu ▸ pow_le h, room l hlm h1, h2⟩
  obtain ⟨k, k1, k2⟩ := hk
  have hcomm : |Q + g - rnd (Q + g)| = |rnd (Q + g) - (Q + g)| := abs_sub_comm _ _
  have hαL : α * L ≤ (1 - 1 / 2 ^ 16) * L := mul_le_mul_of_nonneg_right hα (hu0.le.trans hL1)
  have hαu : α * u ≤ (1 - 1 / 2 ^ 16) * u := mul_le_mul_of_nonneg_right hα hu0.le
  rcases le_or_gt (m + 4 - p) k with hk4 | hk4
  · -- `x` has room for every error
    refine ⟨m + 3 - p, ?_, by rw [show m + 3 - (p : ℤ) + 1 = m + 4 - p by ring]; exact k1.mono hk4⟩
    have h16 : |Q + g| ≤ 2 ^ (m + 4) := by
      rw [e4]; linarith
    have := hr.err_le hp1 h16
    rw [hcomm]
    refine this.trans ?_
    rw [show m + 4 - (p : ℤ) = m + 3 - p + 1 by ring, pow_succ']
    linarith
  have hB4 : B ≤ 4 * u := by
    have : (2 : ℚ) ^ k ≤ 4 * u := by
      have : 4 * u = 2 ^ (m + 3 - p : ℤ) := by rw [hu, show m + 3 - (p : ℤ) = m + 1 - p + 1 + 1 by ring, pow_succ', pow_succ']; ring
      rw [this]; exact pow_le (by omega)
    have h2 := mul_le_mul hβ this (two_pos' k).le (by norm_num)
    linarith
  rcases le_or_gt (m + 2 - p) k with hk2 | hk2
  · refine ⟨m + 1 - p, ?_, by rw [show m + 1 - (p : ℤ) + 1 = m + 2 - p by ring]; exact k1.mono hk2⟩
    have h4 : |Q + g| ≤ 2 ^ (m + 2) := by
      rw [e2] at hL2
      rw [e3]
      have : 1 / 2 ^ 19 * (A + B) = (A + B) / 2 ^ 19 := by ring
      nlinarith
    have := hr.err_le hp1 h4
    rw [hcomm]
    refine this.trans ?_
    rw [show m + 2 - (p : ℤ) = m + 1 - p + 1 by ring, pow_succ']
    linarith
  -- the last place of `x` is that of `g`
  refine ⟨m - p, ?_, by rw [show m - (p : ℤ) + 1 = m + 1 - p by ring]; exact gx⟩
  have hBu : B ≤ β * u := by
    refine k2.trans (mul_le_mul_of_nonneg_left ?_ hβ0)
    rw [hu]; exact pow_le (by omega)
  have hαβu : (α + β) * u ≤ (3 / 2 - 1 / 2 ^ 16) * u := mul_le_mul_of_nonneg_right hαβ hu0.le
  have hd : 0 ≤ (L - u) * ((1 - 1 / 2 ^ 16) - α) := mul_nonneg (by linarith) (by linarith)
  have hbound : |Q + g| ≤ 2 ^ (m + 1) + u / 2 := by
    have hβu : β * u ≤ u := by nlinarith
    nlinarith
  rw [hcomm, eu]
  rcases le_total |Q + g| (2 ^ (m + 1)) with h | h
  · have := hr.err_le hp1 h
    rw [← hu] at this
    exact this
  · rcases le_total 0 (Q + g) with hpos | hneg
    · have := hr.nearest (Q + g) _ (IsFloat.pow hp1 (m + 1))
      rw [abs_of_nonneg hpos] at h hbound
      refine this.trans ?_
      rw [abs_le]; constructor <;> linarith
    · have := hr.nearest (Q + g) _ (IsFloat.pow hp1 (m + 1)).neg
      rw [abs_of_nonpos hneg] at h hbound
      refine this.trans ?_
      rw [abs_le]; constructor <;> linarith

/-- One step of the loop, for a number that is not zero. -/
theorem stateStep (hr : ToNearest p rnd) (hp : 25 ≤ p) {Q H A B α β g : ℚ} {h O X : List ℚ} {n : ℕ} (hs : State p Q H (A + B) h (g :: (O ++ X)) n) (hn : n ≤ 23) (hO : Side p A α (g :: O)) (hX : Side p B β X)
    (hg : g ≠ 0) (hα0 : 0 ≤ α) (hα : α ≤ 1 - 1 / 2 ^ 16) (hβ0 : 0 ≤ β) (hβ : β ≤ 1) (hαβ : α + β ≤ 3 / 2 - 1 / 2 ^ 16) (hB : B ≤ 2 * |g|) (hown : ∀ x ∈ O, Below g x) (hmin : ∀ x ∈ X, x ≠ 0 → |g| ≤ |x|) :
    ∃ H', State p (rnd (Q + g)) H' (A + |g| + B) (pushNz h (Q + g - rnd (Q + g))) (O ++ X) (n + 1) := by
  have hp1 : 1 ≤ p := by omega
  have fg : IsFloat p g := hO.float g List.mem_cons_self
  have hA0 := hO.nonneg
  have hB0 := hX.nonneg
  have hag := abs_nonneg g
  obtain ⟨δ, hδ⟩ : ∃ δ : ℚ, δ = 2 ^ (-(p : ℤ)) := ⟨_, rfl⟩
  have hδ0 : 0 < δ := hδ ▸ two_pos' _
  have hδ1 : δ ≤ 1 / 2 ^ 25 := by
    have : (2 : ℚ) ^ (-(p : ℤ)) ≤ 2 ^ (-25 : ℤ) := pow_le (by omega)
    rw [hδ]; exact this.trans (by norm_num)
  have hn' : (n : ℚ) ≤ 23 := by exact_mod_cast hn
  have hn0 : (0 : ℚ) ≤ n := Nat.cast_nonneg n
  have herr := hs.err
  rw [← hδ] at herr
  have hH15 : H ≤ (A + B) / 2 ^ 19 := by
    refine herr.trans ?_
    have h1 : 2 * (n : ℚ) * δ ≤ 46 * (1 / 2 ^ 25) := by nlinarith
    have := mul_le_mul_of_nonneg_right h1 (add_nonneg hA0 hB0)
    refine this.trans ?_
    linarith
  have hA2 : A ≤ 2 * |g| := hO.small g List.mem_cons_self hg
  have hsum : |Q + g| ≤ A + B + H + |g| := (abs_add_le _ _).trans (by have := hs.size; linarith)
  have hrel := hr.rel hp1 (Q + g)
  rw [← hδ] at hrel
  have hnew : ∀ x ∈ O ++ X, Below (Q + g - rnd (Q + g)) x := by
    intro x hx
    rcases List.mem_append.1 hx with hx | hx
    · obtain ⟨t, t1, t2⟩ := hown x hx
      refine ⟨t, ?_, t2⟩
      rw [abs_sub_comm]
      have h6 : |Q + g| ≤ 6 * |g| := by linarith
      nlinarith [abs_nonneg (Q + g)]
    · by_cases hx0 : x = 0
      · subst hx0
        obtain ⟨t, t1, -⟩ := err_below hr hp1 (Q + g)
        exact ⟨t, t1, Grid.zero _⟩
      · exact key_long hr hp fg (hX.float x hx) hg hx0 (hmin x hx hx0) hA0 hB0 hs.size hH15 hA2 hB hα0 hα hβ0 hβ hαβ (hO.grid g List.mem_cons_self hg) (hX.grid x hx hx0)
  refine ⟨H + δ * (A + B + H + |g|), ?_, ?_, ?_, ?_, ?_, ?_, ?_, ?_⟩
  · exact hr.float _
  · have h1 : |rnd (Q + g)| ≤ |Q + g| + |rnd (Q + g) - (Q + g)| := by
      have := abs_add_le (Q + g) (rnd (Q + g) - (Q + g))
      rwa [add_sub_cancel] at this
    have h2 : δ * |Q + g| ≤ δ * (A + B + H + |g|) := mul_le_mul_of_nonneg_left hsum hδ0.le
    linarith
  · have := hs.err0; positivity
  · rw [← hδ]
    push_cast
    have h1 : H * δ ≤ (2 * n * δ * (A + B)) * δ := mul_le_mul_of_nonneg_right herr hδ0.le
    have h2 : 2 * (n : ℚ) * δ ≤ 1 := by nlinarith
    have h3 : 2 * (n : ℚ) * δ * ((A + B) * δ) ≤ 1 * ((A + B) * δ) := mul_le_mul_of_nonneg_right h2 (mul_nonneg (add_nonneg hA0 hB0) hδ0.le)
    have h4 : 0 ≤ n * δ * |g| := by positivity
    have h5 : 0 ≤ δ * |g| := by positivity
    nlinarith
  · intro a ha
    unfold pushNz at ha
    split_ifs at ha with hz
    · rcases List.mem_append.1 ha with ha | ha
      · exact hs.out a ha
      · rw [List.mem_singleton] at ha
        subst ha
        exact ⟨float_err hr hp1 hs.float fg, hz⟩
    · exact hs.out a ha
  · unfold pushNz
    split_ifs with hz
    · refine List.pairwise_append.2 ⟨hs.order, List.pairwise_singleton _ _, fun a ha b hb => ?_⟩
      rw [List.mem_singleton] at hb
      subst hb
      exact ((hs.last a ha).round hr hp1 (hs.later a ha g List.mem_cons_self)).2
    · exact hs.order
  · intro a ha
    unfold pushNz at ha
    split_ifs at ha with hz
    · rcases List.mem_append.1 ha with ha | ha
      · exact ((hs.last a ha).round hr hp1 (hs.later a ha g List.mem_cons_self)).1
      · rw [List.mem_singleton] at ha
        subst ha
        exact err_below hr hp1 _
    · exact ((hs.last a ha).round hr hp1 (hs.later a ha g List.mem_cons_self)).1
  · intro a ha x hx
    unfold pushNz at ha
    split_ifs at ha with hz
    · rcases List.mem_append.1 ha with ha | ha
      · exact hs.later a ha x (List.mem_cons_of_mem _ hx)
      · rw [List.mem_singleton] at ha
        subst ha
        exact hnew x hx
    · exact hs.later a ha x (List.mem_cons_of_mem _ hx)

theorem loopStepE (hr : ToNearest p rnd) (hp : 25 ≤ p) {Q g A B H : ℚ} {h e f : List ℚ} {j n : ℕ} (hl : Loop p Q h (g :: e) f j n A B H) (hj : j ≤ 15) (hn : n ≤ 23)
    (hmin : ∀ x ∈ f, x ≠ 0 → |g| ≤ |x|) : ∃ A' B' H', Loop p (rnd (Q + g)) (pushNz h (Q + g - rnd (Q + g))) e f (j + 1) (n + 1) A' B' H' := by
  have hb := List.pairwise_cons.1 hl.below
  by_cases hg : g = 0
  · subst hg
    rw [add_zero, hr.of_float hl.state.float, sub_self]
    refine ⟨A, B, H, ⟨hl.sideE.nonneg, hl.sideE.tail.float, fun x hx hx0 => ?_, hl.sideE.tail.small⟩, hl.sideF, hb.2, hl.far, fun x hx => hl.crossE x (List.mem_cons_of_mem _ hx), hl.crossF, ?_⟩
    · obtain ⟨k, k1, k2⟩ := hl.sideE.tail.grid x hx hx0
      refine ⟨k, k1, k2.trans (mul_le_mul_of_nonneg_right ?_ (two_pos' k).le)⟩
      have : ((1 : ℚ) / 2) ^ (j + 1) ≤ (1 / 2) ^ j := pow_le_pow_of_le_one (by norm_num) (by norm_num) (by omega)
      linarith
    · simp only [pushNz, ne_eq, not_true_eq_false, if_false]
      exact hl.state.congr (fun x hx => List.mem_cons_of_mem _ hx) (by omega) (add_nonneg hl.sideE.nonneg hl.sideF.nonneg)
  · have hα : (1 - (1 / 2) ^ j : ℚ) ≤ 1 - 1 / 2 ^ 16 := (half_le hj).trans (by norm_num)
    obtain ⟨H', hs⟩ := stateStep hr hp hl.state hn hl.sideE hl.sideF hg (half_nonneg j) hα (by norm_num) (by norm_num) (by linarith) (hl.crossE g List.mem_cons_self hg) hb.1 hmin
    have hA := hl.sideE.own (half_nonneg j) (by linarith) hg
    exact ⟨A + |g|, B, H', hl.sideE.weak hg hb.1, hl.sideF, hb.2, hl.far, fun x hx => hl.crossE x (List.mem_cons_of_mem _ hx), fun x hx hx0 => by have := hmin x hx hx0; linarith, hs⟩

theorem loopStepF (hr : ToNearest p rnd) (hp : 25 ≤ p) {Q g A B H : ℚ} {h e f : List ℚ} {j n : ℕ} (hl : Loop p Q h e (g :: f) j n A B H) (hj : j ≤ 16) (hn : n ≤ 23)
    (hmin : ∀ x ∈ e, x ≠ 0 → |g| ≤ |x|) : ∃ A' B' H', Loop p (rnd (Q + g)) (pushNz h (Q + g - rnd (Q + g))) e f j (n + 1) A' B' H' := by
  have hb := List.pairwise_cons.1 hl.far
  by_cases hg : g = 0
  · subst hg
    rw [add_zero, hr.of_float hl.state.float, sub_self]
    refine ⟨A, B, H, hl.sideE, hl.sideF.tail, hl.below, hb.2, hl.crossE, fun x hx => hl.crossF x (List.mem_cons_of_mem _ hx), ?_⟩
    simp only [pushNz, ne_eq, not_true_eq_false, if_false]
    refine hl.state.congr (fun x hx => ?_) (by omega) (add_nonneg hl.sideE.nonneg hl.sideF.nonneg)
    rcases List.mem_append.1 hx with hx | hx
    · exact List.mem_append_left _ hx
    · exact List.mem_append_right _ (List.mem_cons_of_mem _ hx)
  · have hβ : (1 - (1 / 2) ^ j : ℚ) ≤ 1 - 1 / 2 ^ 16 := half_le hj
    have hs0 : State p Q H (B + A) h (g :: (f ++ e)) n := by
      rw [add_comm B A]
      refine hl.state.congr (fun x hx => ?_) le_rfl (add_nonneg hl.sideE.nonneg hl.sideF.nonneg)
      simp only [List.mem_cons, List.mem_append] at hx ⊢
      tauto
    obtain ⟨H', hs⟩ := stateStep hr hp hs0 hn hl.sideF hl.sideE hg (by norm_num) (by norm_num) (half_nonneg j) (by linarith) (by linarith) (hl.crossF g List.mem_cons_self hg) (fun x hx => (hb.1 x hx).below) hmin
    have hA := hl.sideF.own (by norm_num) (by norm_num) hg
    refine ⟨A, B + |g|, H', hl.sideE, hl.sideF.strong hg hb.1, hl.below, hb.2, fun x hx hx0 => by have := hmin x hx hx0; linarith, fun x hx => hl.crossF x (List.mem_cons_of_mem _ hx), ?_⟩
    rw [add_comm A]
    refine hs.congr (fun x hx => ?_) le_rfl (add_nonneg (add_nonneg hl.sideF.nonneg (abs_nonneg g)) hl.sideE.nonneg)
    simp only [List.mem_append] at hx ⊢
    tauto

/-- The loop returns, with the exact sum in components that do not overlap. -/
theorem sumLoop_long (hr : ToNearest p rnd) (hp : 25 ≤ p) (v : ℚ) : ∀ (N : ℕ) (e f : List ℚ) (Q : ℚ) (h : List ℚ) (j n : ℕ) (A B H : ℚ), e.length + f.length = N → Loop p Q h e f j n A B H → j + e.length ≤ 16 → n + N ≤ 24 →
    ∃ Q' h', sumLoop rnd (.ok v) Q h e f = .ok (Q', h') ∧ Q' + h'.sum = Q + h.sum + (e.sum + f.sum) ∧ IsFloat p Q' ∧ (∀ a ∈ h', IsFloat p a ∧ a ≠ 0) ∧ h'.Pairwise Below ∧ (∀ a ∈ h', Below a Q') ∧
      h'.length ≤ h.length + N := by
  intro N
  induction N with
  | zero =>
    intro e f Q h j n A B H hN hl hj hn
    obtain rfl : e = [] := List.length_eq_zero_iff.1 (by omega)
    obtain rfl : f = [] := List.length_eq_zero_iff.1 (by omega)
    exact ⟨Q, h, by rw [sumLoop], by simp, hl.state.float, hl.state.out, hl.state.order, hl.state.last, by omega⟩
  | succ N ih =>
    intro e f Q h j n A B H hN hl hj hn
    have hadv : ∀ l : List ℚ, advance (.ok v) l = .ok () := fun l => by cases l <;> rfl
    have takeE_case : ∀ (x : ℚ) (e' : List ℚ), e = x :: e' → (∀ y ∈ f, y ≠ 0 → |x| ≤ |y|) →
        ∃ Q' h', sumLoop rnd (.ok v) (rnd (Q + x)) (pushNz h (Q + x - rnd (Q + x))) e' f = .ok (Q', h') ∧ Q' + h'.sum = Q + h.sum + (e.sum + f.sum) ∧ IsFloat p Q' ∧ (∀ a ∈ h', IsFloat p a ∧ a ≠ 0) ∧
          h'.Pairwise Below ∧ (∀ a ∈ h', Below a Q') ∧ h'.length ≤ h.length + (N + 1) := by
      rintro x e' rfl hm
      simp only [List.length_cons] at hN hj
      obtain ⟨A', B', H', hl'⟩ := loopStepE hr hp hl (by omega) (by omega) hm
      obtain ⟨Q', h', k1, k2, k3, k4, k5, k6, k7⟩ := ih e' f _ _ _ _ _ _ _ (by omega) hl' (by omega) (by omega)
      refine ⟨Q', h', k1, ?_, k3, k4, k5, k6, ?_⟩
      · rw [k2, pushNz_sum, List.sum_cons]; ring
      · have := pushNz_length h (Q + x - rnd (Q + x)); omega
    have takeF_case : ∀ (y : ℚ) (f' : List ℚ), f = y :: f' → (∀ x ∈ e, x ≠ 0 → |y| ≤ |x|) →
        ∃ Q' h', sumLoop rnd (.ok v) (rnd (Q + y)) (pushNz h (Q + y - rnd (Q + y))) e f' = .ok (Q', h') ∧ Q' + h'.sum = Q + h.sum + (e.sum + f.sum) ∧ IsFloat p Q' ∧ (∀ a ∈ h', IsFloat p a ∧ a ≠ 0) ∧
          h'.Pairwise Below ∧ (∀ a ∈ h', Below a Q') ∧ h'.length ≤ h.length + (N + 1) := by
      rintro y f' rfl hm
      simp only [List.length_cons] at hN
      obtain ⟨A', B', H', hl'⟩ := loopStepF hr hp hl (by omega) (by omega) hm
      obtain ⟨Q', h', k1, k2, k3, k4, k5, k6, k7⟩ := ih e f' _ _ _ _ _ _ _ (by omega) hl' (by omega) (by omega)
      refine ⟨Q', h', k1, ?_, k3, k4, k5, k6, ?_⟩
      · rw [k2, pushNz_sum, List.sum_cons]; ring
      · have := pushNz_length h (Q + y - rnd (Q + y)); omega
    rcases e with _ | ⟨x, e⟩ <;> rcases f with _ | ⟨y, f⟩
    · simp at hN
    · rw [sumLoop, twoSum_eq hr (by omega) hl.state.float (hl.sideF.float y List.mem_cons_self)]
      simp only [hadv]
      exact takeF_case y f rfl (by simp)
    · rw [sumLoop, twoSum_eq hr (by omega) hl.state.float (hl.sideE.float x List.mem_cons_self)]
      simp only [hadv]
      exact takeE_case x e rfl (by simp)
    · rw [sumLoop]
      by_cases ht : takeE x y = true
      · rw [if_pos ht, twoSum_eq hr (by omega) hl.state.float (hl.sideE.float x List.mem_cons_self)]
        simp only [hadv]
        exact takeE_case x e rfl (min_of (fun _ _ h => h.below) hl.far (takeE_le ht))
      · rw [if_neg ht, twoSum_eq hr (by omega) hl.state.float (hl.sideF.float y List.mem_cons_self)]
        simp only [hadv]
        exact takeF_case y f rfl (min_of (fun _ _ h => h) hl.below (not_takeE_le ht))

theorem fastExpansionSum_long (hr : ToNearest p rnd) (hp : 25 ≤ p) (v : ℚ) {e f : List ℚ} (he0 : e ≠ []) (hef : ∀ x ∈ e, IsFloat p x) (heb : e.Pairwise Below) (hf : Apart p f) (hf0 : f ≠ []) (he : e.length ≤ 16)
    (hl : e.length + f.length ≤ 24) :
    ∃ h, fastExpansionSum rnd (.ok v) e f = .ok h ∧ h.sum = e.sum + f.sum ∧ Expansion p h ∧ h.length ≤ e.length + f.length := by
  have hadv : ∀ l : List ℚ, advance (.ok v) l = .ok () := fun l => by cases l <;> rfl
  have hstart : Loop p 0 [] e f 0 0 0 0 0 := by
    refine ⟨⟨le_rfl, hef, fun x hx _ => ?_, fun x _ _ => by positivity⟩, ⟨le_rfl, hf.float, fun x hx _ => ?_, fun x _ _ => by positivity⟩, heb, hf.far, fun x _ _ => by positivity, fun x _ _ => by positivity, ?_⟩
    · obtain ⟨k, k1, -⟩ := (hef x hx).exists_grid
      exact ⟨k, k1, by simp⟩
    · obtain ⟨k, k1, -⟩ := (hf.float x hx).exists_grid
      exact ⟨k, k1, by have := two_pos' k; positivity⟩
    · exact ⟨.zero, by simp, le_rfl, by simp, by simp, .nil, by simp, by simp⟩
  obtain ⟨Q, h, k1, k2, k3, k4, k5, k6, k7⟩ := sumLoop_long hr hp v _ e f 0 [] 0 0 0 0 0 rfl hstart (by omega) (by omega)
  have hmain : fastExpansionSum rnd (.ok v) e f = .ok (if Q ≠ 0 ∨ h = [] then h ++ [Q] else h) ∧ h.length + 1 ≤ e.length + f.length := by
    rcases e with _ | ⟨x, e⟩
    · exact absurd rfl he0
    rcases f with _ | ⟨y, f⟩
    · exact absurd rfl hf0
    have fx := hef x List.mem_cons_self
    have fy := hf.float y List.mem_cons_self
    rw [sumLoop] at k1
    rw [fastExpansionSum]
    have hz : ∀ z, IsFloat p z → twoSum rnd 0 z = (z, 0) := fun z hz => by rw [twoSum_eq hr (by omega) .zero hz, zero_add, hr.of_float hz, sub_self]
    rw [hz x fx, hz y fy] at k1
    simp only [hadv, pushNz, ne_eq, not_true_eq_false, if_false] at k1 ⊢
    by_cases ht : takeE x y = true
    · rw [if_pos ht] at k1 ⊢
      have : sumSecond rnd (.ok v) x e (y :: f) = sumLoop rnd (.ok v) x [] e (y :: f) := by
        refine sumSecond_eq hr (by omega) fx (fun z hz => ⟨hef z (List.mem_cons_of_mem _ hz), fun h0 => ?_⟩) (fun z hz => ⟨hf.float z hz, min_of (fun _ _ h => h.below) hf.far (takeE_le ht) z hz⟩)
        exact min_of (fun _ _ h => h) heb (le_refl |x|) z (List.mem_cons_of_mem _ hz) h0
      simp only [Res.bind_ok] at k1 ⊢
      rw [this, k1]
      refine ⟨rfl, ?_⟩
      have := sumLoop_length v _ _ _ _ _ _ _ rfl k1
      simp only [List.length_cons, List.length_nil] at this ⊢
      omega
    · rw [if_neg ht] at k1 ⊢
      have : sumSecond rnd (.ok v) y (x :: e) f = sumLoop rnd (.ok v) y [] (x :: e) f := by
        refine sumSecond_eq hr (by omega) fy (fun z hz => ⟨hef z hz, min_of (fun _ _ h => h) heb (not_takeE_le ht) z hz⟩) (fun z hz => ⟨hf.float z (List.mem_cons_of_mem _ hz), fun h0 => ?_⟩)
        exact min_of (fun _ _ h => h.below) hf.far (le_refl |y|) z (List.mem_cons_of_mem _ hz) h0
      simp only [Res.bind_ok] at k1 ⊢
      rw [this, k1]
      refine ⟨rfl, ?_⟩
      have := sumLoop_length v _ _ _ _ _ _ _ rfl k1
      simp only [List.length_cons, List.length_nil] at this ⊢
      omega
  refine ⟨_, hmain.1, ?_, ?_, ?_⟩
  · simp only [List.sum_nil, add_zero, zero_add] at k2
    split_ifs with hc
    · rw [List.sum_append, List.sum_singleton, ← k2]; ring
    · push Not at hc
      rw [← k2, hc.1]; ring
  · split_ifs with hc
    · refine ⟨by simp, fun x hx => ?_, List.pairwise_append.2 ⟨k5, List.pairwise_singleton _ _, fun a ha b hb => ?_⟩, ?_⟩
      · rcases List.mem_append.1 hx with hx | hx
        · exact (k4 x hx).1
        · rw [List.mem_singleton] at hx; subst hx; exact k3
      · rw [List.mem_singleton] at hb; subst hb; exact k6 a ha
      · by_cases hQ : Q = 0
        · rcases hc with hc | hc
          · exact absurd hQ hc
          · left; rw [hc, hQ]; rfl
        · right
          intro x hx
          rcases List.mem_append.1 hx with hx | hx
          · exact (k4 x hx).2
          · rw [List.mem_singleton] at hx; subst hx; exact hQ
    · push Not at hc
      exact ⟨hc.2, fun x hx => (k4 x hx).1, k5, .inr fun x hx => (k4 x hx).2⟩
  · have := hmain.2
    split_ifs with hc
    · simpa using this
    · omega

end Verif.Float
