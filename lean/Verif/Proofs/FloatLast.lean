import Verif.Proofs.FloatMerge
/- `fast_expansion_sum_zeroelim` as a whole, and the last stage of `orient2dadapt`. -/
namespace Verif.Float
open Verif Verif.Pred

variable {p : ℕ} {rnd : ℚ → ℚ}

/-- What holds in the loop. `j` numbers of the first expansion and `n` of both have been used. -/
structure Loop (p : ℕ) (Q : ℚ) (h e f : List ℚ) (j n : ℕ) (A B H : ℚ) : Prop where
  sideE : Side p A (1 - (1 / 2) ^ j) e
  sideF : Side p B (1 / 2) f
  below : e.Pairwise Below
  far : f.Pairwise Far
  crossE : ∀ x ∈ e, x ≠ 0 → B ≤ 2 * |x|
  crossF : ∀ x ∈ f, x ≠ 0 → A ≤ 2 * |x|
  state : State p Q H (A + B) h (e ++ f) n

theorem State.congr {Q H A : ℚ} {h r r' : List ℚ} {n n' : ℕ} (hs : State p Q H A h r n) (hr : ∀ x ∈ r', x ∈ r) (hn : n ≤ n') (hA : 0 ≤ A) : State p Q H A h r' n' := by
  refine ⟨hs.float, hs.size, hs.err0, hs.err.trans ?_, hs.out, hs.order, hs.last, fun a ha x hx => hs.later a ha x (hr x hx)⟩
  have h1 : (n : ℚ) ≤ n' := by exact_mod_cast hn
  have h2 := two_pos' (-(p : ℤ))
  refine mul_le_mul_of_nonneg_right (mul_le_mul_of_nonneg_right ?_ h2.le) hA
  linarith

theorem half_le {j k : ℕ} (h : j ≤ k) : (1 - (1 / 2) ^ j : ℚ) ≤ 1 - 1 / 2 ^ k := by
  have : ((1 : ℚ) / 2) ^ k ≤ (1 / 2) ^ j := pow_le_pow_of_le_one (by norm_num) (by norm_num) h
  rw [one_div_pow] at this
  rw [one_div_pow] at this ⊢
  linarith

theorem half_nonneg (j : ℕ) : (0 : ℚ) ≤ 1 - (1 / 2) ^ j := by
  have : ((1 : ℚ) / 2) ^ j ≤ 1 := pow_le_one₀ (by norm_num) (by norm_num)
  linarith

theorem Side.own {A c g : ℚ} {l : List ℚ} (h : Side p A c (g :: l)) (hc0 : 0 ≤ c) (hc : c ≤ 1) (hg : g ≠ 0) : A ≤ |g| := by
  obtain ⟨k, k1, k2⟩ := h.grid g List.mem_cons_self hg
  have := k1.le_abs hg
  have h0 := two_pos' k
  nlinarith

theorem Loop.stepE (hr : ToNearest p rnd) (hp : 20 ≤ p) {Q g A B H : ℚ} {h e f : List ℚ} {j n : ℕ} (hl : Loop p Q h (g :: e) f j n A B H) (hj : j ≤ 11) (hn : n ≤ 15)
    (hmin : ∀ x ∈ f, x ≠ 0 → |g| ≤ |x|) : ∃ A' B' H', Loop p (rnd (Q + g)) (pushNz h (Q + g - rnd (Q + g))) e f (j + 1) (n + 1) A' B' H' := by
  have hb := List.pairwise_cons.1 hl.below
  by_cases hg : g = 0
  · subst hg
    rw [add_zero, hr.of_float hl.state.float, sub_self]
    refine ⟨A, B, H, ⟨hl.sideE.nonneg, hl.sideE.tail.float, fun x hx hx0 => ?_, hl.sideE.tail.small⟩, hl.sideF, hb.2, hl.far, fun x hx => hl.crossE x (List.mem_cons_of_mem _ hx), hl.crossF, ?_⟩
    · obtain ⟨k, k1, k2⟩ := hl.sideE.tail.grid x hx hx0
      refine ⟨k, k1, k2.trans (mul_le_mul_of_nonneg_right ?_ (two_pos' k).le)⟩
      have : ((1 : ℚ) / 2) ^ (j + 1) ≤ (1 / 2) ^ j := pow_le_pow_of_le_one (by norm_num) (by norm_num) (by omega)
      linarith
    · simp only [pushNz, ne_eq, not_true_eq_false, if_false]
      exact hl.state.congr (fun x hx => List.mem_cons_of_mem _ hx) (by omega) (add_nonneg hl.sideE.nonneg hl.sideF.nonneg)
  · have hα : (1 - (1 / 2) ^ j : ℚ) ≤ 1 - 1 / 2 ^ 12 := (half_le hj).trans (by norm_num)
    obtain ⟨H', hs⟩ := State.step hr hp hl.state hn hl.sideE hl.sideF hg (half_nonneg j) hα (by norm_num) (by norm_num) (by linarith) (hl.crossE g List.mem_cons_self hg) hb.1 hmin
    have hA := hl.sideE.own (half_nonneg j) (by linarith) hg
    exact ⟨A + |g|, B, H', hl.sideE.weak hg hb.1, hl.sideF, hb.2, hl.far, fun x hx => hl.crossE x (List.mem_cons_of_mem _ hx), fun x hx hx0 => by have := hmin x hx hx0; linarith, hs⟩

theorem Loop.stepF (hr : ToNearest p rnd) (hp : 20 ≤ p) {Q g A B H : ℚ} {h e f : List ℚ} {j n : ℕ} (hl : Loop p Q h e (g :: f) j n A B H) (hj : j ≤ 12) (hn : n ≤ 15)
    (hmin : ∀ x ∈ e, x ≠ 0 → |g| ≤ |x|) : ∃ A' B' H', Loop p (rnd (Q + g)) (pushNz h (Q + g - rnd (Q + g))) e f j (n + 1) A' B' H' := by
  have hb := List.pairwise_cons.1 hl.far
  by_cases hg : g = 0
  · subst hg
    rw [add_zero, hr.of_float hl.state.float, sub_self]
    refine ⟨A, B, H, hl.sideE, hl.sideF.tail, hl.below, hb.2, hl.crossE, fun x hx => hl.crossF x (List.mem_cons_of_mem _ hx), ?_⟩
    simp only [pushNz, ne_eq, not_true_eq_false, if_false]
    refine hl.state.congr (fun x hx => ?_) (by omega) (add_nonneg hl.sideE.nonneg hl.sideF.nonneg)
    rcases List.mem_append.1 hx with hx | hx
    · exact List.mem_append_left _ hx
    · exact List.mem_append_right _ (List.mem_cons_of_mem _ hx)
  · have hβ : (1 - (1 / 2) ^ j : ℚ) ≤ 1 - 1 / 2 ^ 12 := half_le hj
    have hs0 : State p Q H (B + A) h (g :: (f ++ e)) n := by
      rw [add_comm B A]
      refine hl.state.congr (fun x hx => ?_) le_rfl (add_nonneg hl.sideE.nonneg hl.sideF.nonneg)
      simp only [List.mem_cons, List.mem_append] at hx ⊢
      tauto
    obtain ⟨H', hs⟩ := State.step hr hp hs0 hn hl.sideF hl.sideE hg (by norm_num) (by norm_num) (half_nonneg j) (by linarith) (by linarith) (hl.crossF g List.mem_cons_self hg) (fun x hx => (hb.1 x hx).below) hmin
    have hA := hl.sideF.own (by norm_num) (by norm_num) hg
    refine ⟨A, B + |g|, H', hl.sideE, hl.sideF.strong hg hb.1, hl.below, hb.2, fun x hx hx0 => by have := hmin x hx hx0; linarith, fun x hx => hl.crossF x (List.mem_cons_of_mem _ hx), ?_⟩
    rw [add_comm A]
    refine hs.congr (fun x hx => ?_) le_rfl (add_nonneg (add_nonneg hl.sideF.nonneg (abs_nonneg g)) hl.sideE.nonneg)
    simp only [List.mem_append] at hx ⊢
    tauto

theorem takeE_le {x y : ℚ} (h : takeE x y = true) : |x| ≤ |y| := by
  unfold takeE at h
  simp only [gt_iff_lt, beq_iff_eq, decide_eq_decide] at h
  rcases lt_or_ge x y with hxy | hxy
  · have := h.1 hxy
    exact (abs_le.2 ⟨by linarith, by linarith⟩ : |x| ≤ y).trans (le_abs_self y)
  · have : ¬ -x < y := fun hc => absurd (h.2 hc) (not_lt.2 hxy)
    push Not at this
    exact (abs_le.2 ⟨by linarith, by linarith⟩ : |x| ≤ -y).trans (neg_le_abs y)

theorem not_takeE_le {x y : ℚ} (h : ¬ takeE x y = true) : |y| ≤ |x| := by
  unfold takeE at h
  simp only [gt_iff_lt, beq_iff_eq, decide_eq_decide] at h
  rcases le_or_gt |y| |x| with hc | hc
  · exact hc
  · exfalso
    apply h
    rcases abs_cases y with ⟨e, _⟩ | ⟨e, _⟩ <;> rw [e] at hc <;> rcases abs_lt.1 hc with ⟨h1, h2⟩ <;> constructor <;> intro _ <;> linarith

theorem min_of {R : ℚ → ℚ → Prop} (hR : ∀ a b, R a b → Below a b) {g y : ℚ} {l : List ℚ} (h : (y :: l).Pairwise R) (hg : |g| ≤ |y|) : ∀ x ∈ y :: l, x ≠ 0 → |g| ≤ |x| := by
  intro x hx hx0
  rcases List.mem_cons.1 hx with rfl | hx
  · exact hg
  · have := (hR _ _ ((List.pairwise_cons.1 h).1 x hx)).le hx0
    have h1 := abs_nonneg y
    linarith

theorem pushNz_sum (h : List ℚ) (x : ℚ) : (pushNz h x).sum = h.sum + x := by
  unfold pushNz
  split_ifs with hx
  · simp
  · push Not at hx
    simp [hx]

theorem pushNz_length (h : List ℚ) (x : ℚ) : (pushNz h x).length ≤ h.length + 1 := by
  unfold pushNz
  split_ifs <;> simp

/-- The loop returns, with the exact sum in components that do not overlap. -/
theorem sumLoop_ok (hr : ToNearest p rnd) (hp : 20 ≤ p) (v : ℚ) : ∀ (N : ℕ) (e f : List ℚ) (Q : ℚ) (h : List ℚ) (j n : ℕ) (A B H : ℚ), e.length + f.length = N → Loop p Q h e f j n A B H → j + e.length ≤ 12 → n + N ≤ 16 →
    ∃ Q' h', sumLoop rnd (.ok v) Q h e f = .ok (Q', h') ∧ Q' + h'.sum = Q + h.sum + (e.sum + f.sum) ∧ IsFloat p Q' ∧ (∀ a ∈ h', IsFloat p a ∧ a ≠ 0) ∧ h'.Pairwise Below ∧ (∀ a ∈ h', Below a Q') ∧
      h'.length ≤ h.length + N := by
  intro N
  induction N with
  | zero =>
    intro e f Q h j n A B H hN hl hj hn
    obtain rfl : e = [] := List.length_eq_zero_iff.1 (by omega)
    obtain rfl : f = [] := List.length_eq_zero_iff.1 (by omega)
    exact ⟨Q, h, by rw [sumLoop], by simp, hl.state.float, hl.state.out, hl.state.order, hl.state.last, by omega⟩
  | succ N ih =>
    intro e f Q h j n A B H hN hl hj hn
    have hadv : ∀ l : List ℚ, advance (.ok v) l = .ok () := fun l => by cases l <;> rfl
    have takeE_case : ∀ (x : ℚ) (e' : List ℚ), e = x :: e' → (∀ y ∈ f, y ≠ 0 → |x| ≤ |y|) →
        ∃ Q' h', sumLoop rnd (.ok v) (rnd (Q + x)) (pushNz h (Q + x - rnd (Q + x))) e' f = .ok (Q', h') ∧ Q' + h'.sum = Q + h.sum + (e.sum + f.sum) ∧ IsFloat p Q' ∧ (∀ a ∈ h', IsFloat p a ∧ a ≠ 0) ∧
          h'.Pairwise Below ∧ (∀ a ∈ h', Below a Q') ∧ h'.length ≤ h.length + (N + 1) := by
      rintro x e' rfl hm
      simp only [List.length_cons] at hN hj
      obtain ⟨A', B', H', hl'⟩ := hl.stepE hr hp (by omega) (by omega) hm
      obtain ⟨Q', h', k1, k2, k3, k4, k5, k6, k7⟩ := ih e' f _ _ _ _ _ _ _ (by omega) hl' (by omega) (by omega)
      refine ⟨Q', h', k1, ?_, k3, k4, k5, k6, ?_⟩
      · rw [k2, pushNz_sum, List.sum_cons]; ring
      · have := pushNz_length h (Q + x - rnd (Q + x)); omega
    have takeF_case : ∀ (y : ℚ) (f' : List ℚ), f = y :: f' → (∀ x ∈ e, x ≠ 0 → |y| ≤ |x|) →
        ∃ Q' h', sumLoop rnd (.ok v) (rnd (Q + y)) (pushNz h (Q + y - rnd (Q + y))) e f' = .ok (Q', h') ∧ Q' + h'.sum = Q + h.sum + (e.sum + f.sum) ∧ IsFloat p Q' ∧ (∀ a ∈ h', IsFloat p a ∧ a ≠ 0) ∧
          h'.Pairwise Below ∧ (∀ a ∈ h', Below a Q') ∧ h'.length ≤ h.length + (N + 1) := by
      rintro y f' rfl hm
      simp only [List.length_cons] at hN
      obtain ⟨A', B', H', hl'⟩ := hl.stepF hr hp (by omega) (by omega) hm
      obtain ⟨Q', h', k1, k2, k3, k4, k5, k6, k7⟩ := ih e f' _ _ _ _ _ _ _ (by omega) hl' (by omega) (by omega)
      refine ⟨Q', h', k1, ?_, k3, k4, k5, k6, ?_⟩
      · rw [k2, pushNz_sum, List.sum_cons]; ring
      · have := pushNz_length h (Q + y - rnd (Q + y)); omega
    rcases e with _ | ⟨x, e⟩ <;> rcases f with _ | ⟨y, f⟩
    · simp at hN
    · rw [sumLoop, twoSum_eq hr (by omega) hl.state.float (hl.sideF.float y List.mem_cons_self)]
      simp only [hadv]
      exact takeF_case y f rfl (by simp)
    · rw [sumLoop, twoSum_eq hr (by omega) hl.state.float (hl.sideE.float x List.mem_cons_self)]
      simp only [hadv]
      exact takeE_case x e rfl (by simp)
    · rw [sumLoop]
      by_cases ht : takeE x y = true
      · rw [if_pos ht, twoSum_eq hr (by omega) hl.state.float (hl.sideE.float x List.mem_cons_self)]
        simp only [hadv]
        exact takeE_case x e rfl (min_of (fun _ _ h => h.below) hl.far (takeE_le ht))
      · rw [if_neg ht, twoSum_eq hr (by omega) hl.state.float (hl.sideF.float y List.mem_cons_self)]
        simp only [hadv]
        exact takeF_case y f rfl (min_of (fun _ _ h => h) hl.below (not_takeE_le ht))

/-- Every step of the loop puts out one number at most. -/
theorem sumLoop_length {rnd : ℚ → ℚ} (v : ℚ) : ∀ (N : ℕ) (e f : List ℚ) (Q : ℚ) (h : List ℚ) (Q' : ℚ) (h' : List ℚ), e.length + f.length = N → sumLoop rnd (.ok v) Q h e f = .ok (Q', h') → h'.length ≤ h.length + N := by
  have hadv : ∀ l : List ℚ, advance (.ok v) l = .ok () := fun l => by cases l <;> rfl
  intro N
  induction N with
  | zero =>
    intro e f Q h Q' h' hN hl
    obtain rfl : e = [] := List.length_eq_zero_iff.1 (by omega)
    obtain rfl : f = [] := List.length_eq_zero_iff.1 (by omega)
    rw [sumLoop] at hl
    cases hl
    simp
  | succ N ih =>
    intro e f Q h Q' h' hN hl
    have hp := fun x => pushNz_length h x
    rcases e with _ | ⟨x, e⟩ <;> rcases f with _ | ⟨y, f⟩
    · simp at hN
    · rw [sumLoop] at hl
      simp only [hadv, Res.bind_ok] at hl
      have := ih _ _ _ _ _ _ (by simpa using hN) hl
      have := hp (twoSum rnd Q y).2
      omega
    · rw [sumLoop] at hl
      simp only [hadv, Res.bind_ok] at hl
      have := ih _ _ _ _ _ _ (by simpa using hN) hl
      have := hp (twoSum rnd Q x).2
      omega
    · rw [sumLoop] at hl
      simp only [hadv, Res.bind_ok] at hl
      simp only [List.length_cons] at hN
      split_ifs at hl
      · have := ih _ _ _ _ _ _ (by simp only [List.length_cons]; omega) hl
        have := hp (twoSum rnd Q x).2
        omega
      · have := ih _ _ _ _ _ _ (by simp only [List.length_cons]; omega) hl
        have := hp (twoSum rnd Q y).2
        omega

/-- `Fast_Two_Sum` is exact with a zero too. -/
theorem fastTwoSum_zero (hr : ToNearest p rnd) {b : ℚ} (hb : IsFloat p b) : fastTwoSum rnd 0 b = (rnd (0 + b), 0 + b - rnd (0 + b)) := by
  simp [fastTwoSum, hr.of_float hb, hr.zero]

theorem fastTwoSum_swap (hr : ToNearest p rnd) (hp : 3 ≤ p) {a b : ℚ} (ha : IsFloat p a) (hb : IsFloat p b) (h : a ≠ 0 → |b| ≤ |a|) : fastTwoSum rnd a b = twoSum rnd b a := by
  rw [twoSum_eq hr hp hb ha, add_comm b a]
  by_cases h0 : a = 0
  · subst h0; exact fastTwoSum_zero hr hb
  · exact fastTwoSum_eq hr (by omega) ha hb (h h0)

theorem sumSecond_eq (hr : ToNearest p rnd) (hp : 3 ≤ p) {past : Res ℚ} {Q : ℚ} {e f : List ℚ} (hQ : IsFloat p Q) (he : ∀ x ∈ e, IsFloat p x ∧ (x ≠ 0 → |Q| ≤ |x|)) (hf : ∀ x ∈ f, IsFloat p x ∧ (x ≠ 0 → |Q| ≤ |x|)) :
    sumSecond rnd past Q e f = sumLoop rnd past Q [] e f := by
  rcases e with _ | ⟨x, e⟩ <;> rcases f with _ | ⟨y, f⟩
  · rfl
  · rfl
  · rfl
  · rw [sumSecond, sumLoop, fastTwoSum_swap hr hp (he x List.mem_cons_self).1 hQ (he x List.mem_cons_self).2, fastTwoSum_swap hr hp (hf y List.mem_cons_self).1 hQ (hf y List.mem_cons_self).2]

/-- An expansion whose components do not overlap. -/
structure Expansion (p : ℕ) (l : List ℚ) : Prop where
  nonempty : l ≠ []
  float : ∀ x ∈ l, IsFloat p x
  below : l.Pairwise Below
  nonzero : l = [0] ∨ ∀ x ∈ l, x ≠ 0

theorem fastExpansionSum_ok (hr : ToNearest p rnd) (hp : 20 ≤ p) (v : ℚ) {e f : List ℚ} (he0 : e ≠ []) (hef : ∀ x ∈ e, IsFloat p x) (heb : e.Pairwise Below) (hf : Apart p f) (hf0 : f ≠ []) (he : e.length ≤ 12)
    (hl : e.length + f.length ≤ 16) :
    ∃ h, fastExpansionSum rnd (.ok v) e f = .ok h ∧ h.sum = e.sum + f.sum ∧ Expansion p h ∧ h.length ≤ e.length + f.length := by
  have hadv : ∀ l : List ℚ, advance (.ok v) l = .ok () := fun l => by cases l <;> rfl
  have hstart : Loop p 0 [] e f 0 0 0 0 0 := by
    refine ⟨⟨le_rfl, hef, fun x hx _ => ?_, fun x _ _ => by positivity⟩, ⟨le_rfl, hf.float, fun x hx _ => ?_, fun x _ _ => by positivity⟩, heb, hf.far, fun x _ _ => by positivity, fun x _ _ => by positivity, ?_⟩
    · obtain ⟨k, k1, -⟩ := (hef x hx).exists_grid
      exact ⟨k, k1, by simp⟩
    · obtain ⟨k, k1, -⟩ := (hf.float x hx).exists_grid
      exact ⟨k, k1, by have := two_pos' k; positivity⟩
    · exact ⟨.zero, by simp, le_rfl, by simp, by simp, .nil, by simp, by simp⟩
  obtain ⟨Q, h, k1, k2, k3, k4, k5, k6, k7⟩ := sumLoop_ok hr hp v _ e f 0 [] 0 0 0 0 0 rfl hstart (by omega) (by omega)
  have hmain : fastExpansionSum rnd (.ok v) e f = .ok (if Q ≠ 0 ∨ h = [] then h ++ [Q] else h) ∧ h.length + 1 ≤ e.length + f.length := by
    rcases e with _ | ⟨x, e⟩
    · exact absurd rfl he0
    rcases f with _ | ⟨y, f⟩
    · exact absurd rfl hf0
    have fx := hef x List.mem_cons_self
    have fy := hf.float y List.mem_cons_self
    rw [sumLoop] at k1
    rw [fastExpansionSum]
    have hz : ∀ z, IsFloat p z → twoSum rnd 0 z = (z, 0) := fun z hz => by rw [twoSum_eq hr (by omega) .zero hz, zero_add, hr.of_float hz, sub_self]
    rw [hz x fx, hz y fy] at k1
    simp only [hadv, pushNz, ne_eq, not_true_eq_false, if_false] at k1 ⊢
    by_cases ht : takeE x y = true
    · rw [if_pos ht] at k1 ⊢
      have : sumSecond rnd (.ok v) x e (y :: f) = sumLoop rnd (.ok v) x [] e (y :: f) := by
        refine sumSecond_eq hr (by omega) fx (fun z hz => ⟨hef z (List.mem_cons_of_mem _ hz), fun h0 => ?_⟩) (fun z hz => ⟨hf.float z hz, min_of (fun _ _ h => h.below) hf.far (takeE_le ht) z hz⟩)
        exact min_of (fun _ _ h => h) heb (le_refl |x|) z (List.mem_cons_of_mem _ hz) h0
      simp only [Res.bind_ok] at k1 ⊢
      rw [this, k1]
      refine ⟨rfl, ?_⟩
      have := sumLoop_length v _ _ _ _ _ _ _ rfl k1
      simp only [List.length_cons, List.length_nil] at this ⊢
      omega
    · rw [if_neg ht] at k1 ⊢
      have : sumSecond rnd (.ok v) y (x :: e) f = sumLoop rnd (.ok v) y [] (x :: e) f := by
        refine sumSecond_eq hr (by omega) fy (fun z hz => ⟨hef z hz, min_of (fun _ _ h => h) heb (not_takeE_le ht) z hz⟩) (fun z hz => ⟨hf.float z (List.mem_cons_of_mem _ hz), fun h0 => ?_⟩)
        exact min_of (fun _ _ h => h.below) hf.far (le_refl |y|) z (List.mem_cons_of_mem _ hz) h0
      simp only [Res.bind_ok] at k1 ⊢
      rw [this, k1]
      refine ⟨rfl, ?_⟩
      have := sumLoop_length v _ _ _ _ _ _ _ rfl k1
      simp only [List.length_cons, List.length_nil] at this ⊢
      omega
  refine ⟨_, hmain.1, ?_, ?_, ?_⟩
  · simp only [List.sum_nil, add_zero, zero_add] at k2
    split_ifs with hc
    · rw [List.sum_append, List.sum_singleton, ← k2]; ring
    · push Not at hc
      rw [← k2, hc.1]; ring
  · split_ifs with hc
    · refine ⟨by simp, fun x hx => ?_, List.pairwise_append.2 ⟨k5, List.pairwise_singleton _ _, fun a ha b hb => ?_⟩, ?_⟩
      · rcases List.mem_append.1 hx with hx | hx
        · exact (k4 x hx).1
        · rw [List.mem_singleton] at hx; subst hx; exact k3
      · rw [List.mem_singleton] at hb; subst hb; exact k6 a ha
      · by_cases hQ : Q = 0
        · rcases hc with hc | hc
          · exact absurd hQ hc
          · left; rw [hc, hQ]; rfl
        · right
          intro x hx
          rcases List.mem_append.1 hx with hx | hx
          · exact (k4 x hx).2
          · rw [List.mem_singleton] at hx; subst hx; exact hQ
    · push Not at hc
      exact ⟨hc.2, fun x hx => (k4 x hx).1, k5, .inr fun x hx => (k4 x hx).2⟩
  · have := hmain.2
    split_ifs with hc
    · simpa using this
    · omega

/-- The last component of an expansion has the sign of the sum. -/
theorem Expansion.sign {l : List ℚ} (h : Expansion p l) : ∃ x, last l = .ok x ∧ SameSign x l.sum := by
  rcases h.nonzero with rfl | hnz
  · exact ⟨0, rfl, by simp [SameSign]⟩
  have key : ∀ (l : List ℚ) (x : ℚ), (∀ y ∈ l, y ≠ 0) → (l ++ [x]).Pairwise Below → x ≠ 0 → |l.sum| < |x| := by
    intro l
    induction l using List.reverseRecOn with
    | nil => intro x _ _ hx; simpa using abs_pos.2 hx
    | append_singleton l y ih =>
      intro x hl hp hx
      have h1 := List.pairwise_append.1 hp
      have hy := hl y (by simp)
      have h2 := ih y (fun z hz => hl z (by simp [hz])) h1.1 hy
      have h3 := (h1.2.2 y (by simp) x (by simp)).le hx
      rw [List.sum_append, List.sum_singleton]
      have := abs_add_le l.sum y
      linarith
  rcases List.eq_nil_or_concat l with rfl | ⟨m, x, rfl⟩
  · exact absurd rfl h.nonempty
  simp only [List.concat_eq_append] at *
  have hx := hnz x (by simp)
  have := key m x (fun y hy => hnz y (by simp [hy])) h.below hx
  refine ⟨x, ?_, ?_⟩
  · simp [last, rd]
  · rw [List.sum_append, List.sum_singleton]
    rcases abs_lt.1 this with ⟨h1, h2⟩
    rcases lt_or_gt_of_ne hx with hneg | hpos
    · rw [abs_of_neg hneg] at h1 h2
      exact ⟨⟨fun h => by linarith, fun h => by linarith⟩, ⟨fun _ => by linarith, fun _ => hneg⟩⟩
    · rw [abs_of_pos hpos] at h1 h2
      exact ⟨⟨fun _ => by linarith, fun _ => hpos⟩, ⟨fun h => by linarith, fun h => by linarith⟩⟩

/-- The last stage returns a number with the sign of the determinant. -/
theorem lastStage_ok (hr : ToEven p rnd) (hp : 20 ≤ p) (v : ℚ) {st : Statics} (hst : st.splitter = 2 ^ ((p + 1) / 2) + 1) {x y u w xt yt ut wt : ℚ} (fx : IsFloat p x) (fy : IsFloat p y) (fu : IsFloat p u) (fw : IsFloat p w)
    (fxt : IsFloat p xt) (fyt : IsFloat p yt) (fut : IsFloat p ut) (fwt : IsFloat p wt) :
    ∃ r, lastStage rnd (.ok v) st (diffOfProducts rnd st x w y u) x y u w xt yt ut wt = .ok r ∧ SameSign r ((x + xt) * (w + wt) - (y + yt) * (u + ut)) := by
  have hn := hr.toToNearest
  have ne : ∀ {l : List ℚ}, l.length = 4 → l ≠ [] := fun h e => by rw [e] at h; cases h
  obtain ⟨l0, s0, a0⟩ := diffOfProducts_ok hr (by omega) hst fx fw fy fu
  obtain ⟨l1, s1, a1⟩ := diffOfProducts_ok hr (by omega) hst fxt fw fyt fu
  obtain ⟨l2, s2, a2⟩ := diffOfProducts_ok hr (by omega) hst fx fwt fy fut
  obtain ⟨l3, s3, a3⟩ := diffOfProducts_ok hr (by omega) hst fxt fwt fyt fut
  obtain ⟨C1, c1, c2, c3, c4⟩ := fastExpansionSum_ok hn hp v (ne l0) a0.float (a0.far.imp fun h => h.below) a1 (ne l1) (by omega) (by omega)
  obtain ⟨C2, d1, d2, d3, d4⟩ := fastExpansionSum_ok hn hp v c3.nonempty c3.float c3.below a2 (ne l2) (by omega) (by omega)
  obtain ⟨D, e1, e2, e3, e4⟩ := fastExpansionSum_ok hn hp v d3.nonempty d3.float d3.below a3 (ne l3) (by omega) (by omega)
  obtain ⟨r, r1, r2⟩ := e3.sign
  refine ⟨r, ?_, ?_⟩
  · rw [lastStage, c1, Res.bind_ok, d1, Res.bind_ok, e1, Res.bind_ok, r1]
  · rw [e2, d2, c2, s0, s1, s2, s3] at r2
    convert r2 using 1
    ring
end Verif.Float
