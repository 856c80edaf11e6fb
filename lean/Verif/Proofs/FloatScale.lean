import Verif.Model.PredicatesAdapt
import Verif.Proofs.FloatLast
/- `scale_expansion_zeroelim`: the product of an expansion and a number. -/
namespace Verif.Float
open Verif Verif.Pred

variable {p : ℕ} {rnd : ℚ → ℚ}

theorem Far.zero_left {x : ℚ} (h : IsFloat p x) : Far 0 x := by
  obtain ⟨e, h1, -⟩ := h.exists_grid
  exact ⟨e - 1, by rw [abs_zero]; exact two_pos' _, by rwa [sub_add_cancel]⟩

/-- What is above `a` in `y * 2 ^ β` is above it in the product with a multiple of `2 ^ β`, and in the parts of its rounding. -/
theorem Far.product (hr : ToNearest p rnd) (hp : 1 ≤ p) {a y b : ℚ} {β : ℤ} (h : Far a (y * 2 ^ β)) (hb : Grid β b) : Far a (rnd (y * b)) ∧ Far a (y * b - rnd (y * b)) := by
  obtain ⟨t, h1, h2⟩ := h
  obtain ⟨n, rfl⟩ := hb
  have g : Grid (t + 1) (y * (n * 2 ^ β)) := by
    obtain ⟨m, hm⟩ := h2
    exact ⟨n * m, by rw [show y * (↑n * 2 ^ β) = n * (y * 2 ^ β) by ring, hm]; push_cast; ring⟩
  exact ⟨⟨t, h1, hr.grid hp g⟩, ⟨t, h1, g.sub (hr.grid hp g)⟩⟩

/-- What holds in the loop. -/
structure Scale (p : ℕ) (b : ℚ) (β : ℤ) (Q : ℚ) (h e : List ℚ) : Prop where
  float : IsFloat p Q
  size : ∀ y ∈ e, y ≠ 0 → ∃ k : ℤ, Grid k y ∧ 2 * |Q| ≤ |b| * 2 ^ k
  out : ∀ a ∈ h, IsFloat p a ∧ a ≠ 0
  order : h.Pairwise Far
  last : ∀ a ∈ h, Far a Q
  later : ∀ a ∈ h, ∀ y ∈ e, Far a (y * 2 ^ β)

theorem mem_pushNz {h : List ℚ} {x a : ℚ} (ha : a ∈ pushNz h x) : a ∈ h ∨ (a = x ∧ x ≠ 0) := by
  unfold pushNz at ha
  split_ifs at ha with hx
  · rcases List.mem_append.1 ha with ha | ha
    · exact Or.inl ha
    · exact Or.inr ⟨List.mem_singleton.1 ha, hx⟩
  · exact Or.inl ha

theorem pairwise_pushNz {R : ℚ → ℚ → Prop} {h : List ℚ} {x : ℚ} (hh : h.Pairwise R) (hx : ∀ a ∈ h, R a x) : (pushNz h x).Pairwise R := by
  unfold pushNz
  split_ifs
  · exact List.pairwise_append.2 ⟨hh, List.pairwise_singleton _ _, fun a ha b hb => by rw [List.mem_singleton] at hb; subst hb; exact hx a ha⟩
  · exact hh

theorem abs_float {x : ℚ} (h : IsFloat p x) : IsFloat p |x| := by
  rcases abs_choice x with e | e <;> rw [e]
  · exact h
  · exact h.neg

/-- The difference of two numbers within a factor of two is a number. -/
theorem float_sub {x y : ℚ} (hp : 1 ≤ p) (hx : IsFloat p x) (hy : IsFloat p y) (h1 : y ≤ x) (h2 : x ≤ 2 * y) : IsFloat p (x - y) := by
  rcases eq_or_ne y 0 with rfl | hy0
  · simpa using hx
  have hy1 : 0 < y := by
    rcases lt_or_gt_of_ne hy0 with h | h
    · linarith
    · exact h
  obtain ⟨k, k1, k2⟩ := exists_binade hy0
  have gy := hy.grid k1
  have gx := hx.grid (k1.trans (by rw [abs_of_pos hy1, abs_of_pos (hy1.trans_le h1)]; exact h1))
  refine isFloat_of_grid hp (gx.sub gy) ?_
  rw [abs_of_nonneg (by linarith), show (p : ℤ) + (k + 1 - p) = k + 1 by ring]
  rw [abs_of_pos hy1] at k2
  linarith

/-- One step of the loop for a product that is not zero. -/
theorem Scale.step (hr : ToEven p rnd) (hp : 4 ≤ p) {b : ℚ} {β : ℤ} {Q y : ℚ} {h e : List ℚ} (hs : Scale p b β Q h (y :: e)) (hb : IsFloat p b) (hb1 : Grid β b) (hb2 : |b| < 2 ^ ((p : ℤ) + β))
    (hy : IsFloat p y) (he : ∀ z ∈ e, IsFloat p z) (hfar : ∀ z ∈ e, Far y z) (hyb : y * b ≠ 0) (ft : IsFloat p (y * b - rnd (y * b))) :
    |rnd (Q + (y * b - rnd (y * b)))| ≤ |rnd (y * b)| ∧
    Scale p b β (rnd (rnd (y * b) + rnd (Q + (y * b - rnd (y * b)))))
      (pushNz (pushNz h (Q + (y * b - rnd (y * b)) - rnd (Q + (y * b - rnd (y * b))))) (rnd (y * b) + rnd (Q + (y * b - rnd (y * b))) - rnd (rnd (y * b) + rnd (Q + (y * b - rnd (y * b)))))) e := by
  have hn := hr.toToNearest
  have hp1 : 1 ≤ p := by omega
  have hy0 : y ≠ 0 := left_ne_zero_of_mul hyb
  have hb0 : b ≠ 0 := right_ne_zero_of_mul hyb
  have hab : 0 < |b| := abs_pos.2 hb0
  obtain ⟨k, k1, k2⟩ := hs.size y List.mem_cons_self hy0
  have ky := k1.le_abs hy0
  have hk0 := two_pos' k
  set T := rnd (y * b) with hT
  set t := y * b - T with ht
  set q := rnd (Q + t) with hq
  have fT : IsFloat p T := hn.float _
  have fq : IsFloat p q := hn.float _
  have fM : ∀ s : ℤ, IsFloat p (|b| * 2 ^ s) := fun s => (abs_float hb).scale s
  have hT1 : |b| * 2 ^ k ≤ |T| := hn.le_abs (fM k) (by positivity) (by rw [abs_mul, mul_comm]; exact mul_le_mul_of_nonneg_right ky hab.le)
  have hT0 : 0 < |T| := lt_of_lt_of_le (by positivity) hT1
  obtain ⟨δ, hδ⟩ : ∃ δ : ℚ, δ = 2 ^ (-(p : ℤ)) := ⟨_, rfl⟩
  have hδ0 : 0 < δ := hδ ▸ two_pos' _
  have hδ1 : δ ≤ 1 / 16 := by
    have : (2 : ℚ) ^ (-(p : ℤ)) ≤ 2 ^ (-4 : ℤ) := pow_le (by omega)
    rw [hδ]; exact this.trans (by norm_num)
  have ht1 : |t| ≤ |T| / 8 := by
    have h1 := hn.rel hp1 (y * b)
    rw [← hδ, ← hT, abs_sub_comm, ← ht] at h1
    have h2 : |y * b| ≤ |T| + |t| := by
      have := abs_add_le T t
      rwa [ht, add_sub_cancel] at this
    nlinarith [abs_nonneg t, abs_nonneg (y * b)]
  -- either there is no error or there is room for it
  have hcase : (t = 0 ∧ 2 * |Q| ≤ |T|) ∨ 4 * |Q| ≤ |T| := by
    rcases eq_or_lt_of_le ky with h | h
    · left
      have : y * b = T := by
        refine (hn.of_float ?_).symm
        rcases abs_choice y with e | e
        · rw [show y = 2 ^ k by rw [h, e], mul_comm]; exact hb.scale k
        · rw [show y = -2 ^ k by rw [h, e, neg_neg], neg_mul, mul_comm]; exact (hb.scale k).neg
      exact ⟨by rw [ht, this, sub_self], by linarith⟩
    · right
      have h2 := (Grid.pow (le_refl k)).room k1.abs h
      have : |b| * 2 ^ (k + 1) ≤ |T| := hn.le_abs (fM _) (by have := two_pos' (k + 1); positivity) (by rw [abs_mul, mul_comm, pow_succ']; exact mul_le_mul_of_nonneg_right (by linarith) hab.le)
      rw [pow_succ'] at this
      linarith
  have hQt : |Q + t| ≤ |T| / 2 := by
    have := abs_add_le Q t
    rcases hcase with ⟨h1, h2⟩ | h2
    · rw [h1, add_zero]; linarith
    · linarith
  have hq2 : |q| ≤ |T| / 2 := hn.abs_le (by have := (abs_float fT).scale (-1); rwa [show |T| * 2 ^ (-1 : ℤ) = |T| / 2 by norm_num; ring] at this) hQt
  refine ⟨by linarith, ?_⟩
  -- the sizes
  have hsize : ∀ s : ℤ, |y| < 2 ^ s → |T| ≤ |b| * 2 ^ s ∧ |T + q| ≤ |b| * 2 ^ s := by
    intro s hys
    have hT2 : |T| ≤ |b| * 2 ^ s := hn.abs_le (fM s) (by rw [abs_mul, mul_comm]; exact mul_le_mul_of_nonneg_left hys.le hab.le)
    refine ⟨hT2, ?_⟩
    rcases le_total |T| (|b| * 2 ^ s / 2) with h | h
    · have := abs_add_le T q; linarith
    · have hks : k ≤ s := by
        by_contra hc
        push Not at hc
        have : (2 : ℚ) ^ s ≤ 2 ^ k := pow_le hc.le
        linarith
      have hroom := k1.abs.room (Grid.pow hks) hys
      have hyb2 : |y * b| + |Q| ≤ |b| * 2 ^ s := by
        rw [abs_mul]
        have := mul_le_mul_of_nonneg_right hroom hab.le
        nlinarith
      have hsum : |T + (Q + t)| ≤ |b| * 2 ^ s := by
        have : T + (Q + t) = y * b + Q := by rw [ht]; ring
        rw [this]
        exact (abs_add_le _ _).trans hyb2
      have fd : IsFloat p (|b| * 2 ^ s - |T|) := float_sub hp1 (fM s) (abs_float fT) hT2 (by linarith)
      rw [abs_le] at hsum hq2 ⊢
      rcases abs_choice T with e | e <;> rw [e] at fd hq2 h hT2
      · have := hn.ge_of_ge fd (x := Q + t) (by linarith)
        constructor <;> linarith
      · have := hn.le_of_le fd.neg (x := Q + t) (by linarith)
        constructor <;> linarith
  have hlow : ∀ {x : ℚ} {z : ℚ}, z ∈ e → (∀ s : ℤ, |y| < 2 ^ s → |x| ≤ |b| * 2 ^ s) → Far (x - rnd x) (z * 2 ^ β) := by
    intro x z hz hx
    obtain ⟨s, s1, s2⟩ := hfar z hz
    have h1 : |x| ≤ 2 ^ ((p : ℤ) + β + s) := by
      refine (hx s s1).trans ?_
      rw [zpow_add₀ (by norm_num) ((p : ℤ) + β) s]
      exact mul_le_mul_of_nonneg_right hb2.le (two_pos' s).le
    have h2 := hn.err_le hp1 h1
    rw [abs_sub_comm, show (p : ℤ) + β + s - p = β + s by ring] at h2
    refine ⟨β + s, ?_, ?_⟩
    · have := two_pos' (β + s); linarith
    · have := s2.mul (Grid.pow (le_refl β))
      rwa [show s + 1 + β = β + s + 1 by ring] at this
  -- the first error
  have far1q : Far (Q + t - q) q := err_far hr hp1 _
  have far1T : Far (Q + t - q) T := by
    rcases hcase with ⟨h1, -⟩ | h2
    · rw [hq, h1, add_zero, hn.of_float hs.float, sub_self]
      exact .zero_left fT
    · obtain ⟨m, m1, m2⟩ := exists_binade (abs_pos.1 hT0)
      have h3 : |Q + t| ≤ 2 ^ m := by
        have := abs_add_le Q t
        rw [pow_succ'] at m2
        linarith
      have h4 := hn.err_le hp1 h3
      rw [abs_sub_comm] at h4
      refine ⟨m - p, ?_, ?_⟩
      · have := two_pos' (m - p); linarith
      · have := fT.grid m1
        rwa [show m - (p : ℤ) + 1 = m + 1 - p by ring]
  have r1 := far1T.round hn hp1 far1q
  have far2 : Far (T + q - rnd (T + q)) (rnd (T + q)) := err_far hr hp1 _
  have old : ∀ a ∈ h, Far a (Q + t - q) ∧ Far a (rnd (T + q)) ∧ Far a (T + q - rnd (T + q)) := by
    intro a ha
    obtain ⟨c1, c2⟩ := (hs.later a ha y List.mem_cons_self).product hn hp1 hb1
    have c3 := (hs.last a ha).round hn hp1 c2
    have c4 := c1.round hn hp1 c3.1
    exact ⟨c3.2, c4⟩
  refine ⟨hn.float _, ?_, ?_, ?_, ?_, ?_⟩
  · intro z hz hz0
    obtain ⟨s, s1, s2⟩ := hfar z hz
    refine ⟨s + 1, s2, ?_⟩
    have := hn.abs_le (fM s) (hsize s s1).2
    rw [pow_succ']
    linarith
  · intro a ha
    rcases mem_pushNz ha with ha | ⟨rfl, h0⟩
    · rcases mem_pushNz ha with ha | ⟨rfl, h0⟩
      · exact hs.out a ha
      · exact ⟨float_err hn hp1 hs.float ft, h0⟩
    · exact ⟨float_err hn hp1 fT fq, h0⟩
  · refine pairwise_pushNz (pairwise_pushNz hs.order fun a ha => (old a ha).1) fun a ha => ?_
    rcases mem_pushNz ha with ha | ⟨rfl, h0⟩
    · exact (old a ha).2.2
    · exact r1.2
  · intro a ha
    rcases mem_pushNz ha with ha | ⟨rfl, h0⟩
    · rcases mem_pushNz ha with ha | ⟨rfl, h0⟩
      · exact (old a ha).2.1
      · exact r1.1
    · exact far2
  · intro a ha z hz
    rcases mem_pushNz ha with ha | ⟨rfl, h0⟩
    · rcases mem_pushNz ha with ha | ⟨rfl, h0⟩
      · exact hs.later a ha z (List.mem_cons_of_mem _ hz)
      · exact hlow hz fun s hs => by have := (hsize s hs).1; linarith
    · exact hlow hz fun s hs => (hsize s hs).2

/-- The loop returns the product in components that are far from each other. -/
theorem scaleLoop_ok (hr : ToEven p rnd) (hp : 4 ≤ p) {st : Statics} (hst : st.splitter = 2 ^ ((p + 1) / 2) + 1) {b : ℚ} {β : ℤ} (hb : IsFloat p b) (hb1 : Grid β b) (hb2 : |b| < 2 ^ ((p : ℤ) + β)) :
    ∀ (e : List ℚ) (Q : ℚ) (h : List ℚ), Apart p e → Scale p b β Q h e →
      ∃ Q' h', scaleLoop rnd st b Q h e = (Q', h') ∧ Q' + h'.sum = Q + h.sum + b * e.sum ∧ Scale p b β Q' h' [] ∧ h'.length ≤ h.length + 2 * e.length := by
  have hn := hr.toToNearest
  intro e
  induction e with
  | nil => intro Q h _ hs; exact ⟨Q, h, rfl, by simp, hs, by simp⟩
  | cons y e ih =>
    intro Q h ha hs
    have fy := ha.float y List.mem_cons_self
    have hfar := List.pairwise_cons.1 ha.far
    have hae : Apart p e := ⟨fun x hx => ha.float x (List.mem_cons_of_mem _ hx), hfar.2⟩
    obtain ⟨e1, f1⟩ := twoProduct_eq hn hp hst fy hb
    have e2 : twoSum rnd Q (y * b - rnd (y * b)) = _ := twoSum_eq hn (by omega) hs.float f1
    by_cases hyb : y * b = 0
    · have e3 : fastTwoSum rnd 0 Q = (Q, 0) := by rw [fastTwoSum_zero hn hs.float, zero_add, hn.of_float hs.float, sub_self]
      have h0 : scaleLoop rnd st b Q h (y :: e) = scaleLoop rnd st b Q h e := by
        rw [scaleLoop, e1]
        simp only [e2]
        rw [hyb, hn.zero, sub_zero, add_zero, hn.of_float hs.float, sub_self, e3]
        simp [pushNz]
      obtain ⟨Q', h', k1, k2, k3, k4⟩ := ih Q h hae ⟨hs.float, fun z hz => hs.size z (List.mem_cons_of_mem _ hz), hs.out, hs.order, hs.last, fun a ha z hz => hs.later a ha z (List.mem_cons_of_mem _ hz)⟩
      refine ⟨Q', h', h0.trans k1, ?_, k3, by simp only [List.length_cons]; omega⟩
      rw [k2, List.sum_cons, mul_add, mul_comm b y, hyb, zero_add]
    · obtain ⟨c1, c2⟩ := hs.step hr hp hb hb1 hb2 fy hae.float hfar.1 hyb f1
      have e3 := fastTwoSum_eq hn (by omega) (hn.float (y * b)) (hn.float (Q + (y * b - rnd (y * b)))) c1
      obtain ⟨Q', h', k1, k2, k3, k4⟩ := ih _ _ hae c2
      refine ⟨Q', h', ?_, ?_, k3, ?_⟩
      · rw [scaleLoop, e1]
        simp only [e2]
        rw [e3]
        exact k1
      · rw [k2, pushNz_sum, pushNz_sum, List.sum_cons]; ring
      · have l1 := pushNz_length h (Q + (y * b - rnd (y * b)) - rnd (Q + (y * b - rnd (y * b))))
        have l2 := pushNz_length (pushNz h (Q + (y * b - rnd (y * b)) - rnd (Q + (y * b - rnd (y * b))))) (rnd (y * b) + rnd (Q + (y * b - rnd (y * b))) - rnd (rnd (y * b) + rnd (Q + (y * b - rnd (y * b)))))
        simp only [List.length_cons]
        omega

/-- `scale_expansion_zeroelim`: the product, in components that are far from each other. -/
theorem scaleExpansion_ok (hr : ToEven p rnd) (hp : 4 ≤ p) {st : Statics} (hst : st.splitter = 2 ^ ((p + 1) / 2) + 1) {b : ℚ} (hb : IsFloat p b) {e : List ℚ} (he : e ≠ []) (ha : Apart p e) :
    ∃ h, scaleExpansion rnd st b e = .ok h ∧ h.sum = b * e.sum ∧ Apart p h ∧ h ≠ [] ∧ (h = [0] ∨ ∀ x ∈ h, x ≠ 0) ∧ h.length ≤ 2 * e.length := by
  have hn := hr.toToNearest
  obtain ⟨β, b1, b2⟩ := hb.exists_grid
  obtain ⟨x, e, rfl⟩ := List.exists_cons_of_ne_nil he
  have fx := ha.float x List.mem_cons_self
  have hfar := List.pairwise_cons.1 ha.far
  have hae : Apart p e := ⟨fun x hx => ha.float x (List.mem_cons_of_mem _ hx), hfar.2⟩
  obtain ⟨e1, f1⟩ := twoProduct_eq hn hp hst fx hb
  have hs0 : Scale p b β 0 [] (x :: e) := by
    refine ⟨.zero, fun y hy _ => ?_, by simp, .nil, by simp, by simp⟩
    obtain ⟨k, k1, -⟩ := (ha.float y hy).exists_grid
    exact ⟨k, k1, by have := two_pos' k; rw [abs_zero, mul_zero]; positivity⟩
  have hs1 : Scale p b β (rnd (x * b)) (pushNz [] (x * b - rnd (x * b))) e := by
    by_cases hxb : x * b = 0
    · rw [hxb, hn.zero, sub_zero]
      simp only [pushNz, ne_eq, not_true_eq_false, if_false]
      exact ⟨.zero, fun z hz => hs0.size z (List.mem_cons_of_mem _ hz), by simp, .nil, by simp, by simp⟩
    · have := (hs0.step hr hp hb b1 b2 fx hae.float hfar.1 hxb f1).2
      rw [zero_add, hn.of_float f1, sub_self, add_sub_cancel] at this
      simpa [pushNz] using this
  obtain ⟨Q, h, k1, k2, k3, k4⟩ := scaleLoop_ok hr hp hst hb b1 b2 e _ _ hae hs1
  refine ⟨if Q ≠ 0 ∨ h = [] then h ++ [Q] else h, ?_, ?_, ⟨?_, ?_⟩, ?_, ?_, ?_⟩
  · rw [scaleExpansion, e1]
    simp only [k1]
  · have : Q + h.sum = b * (x :: e).sum := by rw [k2, pushNz_sum, List.sum_cons, List.sum_nil]; ring
    rw [← this]
    split_ifs with hc
    · simp [add_comm]
    · push Not at hc
      rw [hc.1, zero_add]
  · intro a ha
    split_ifs at ha with hc
    · rcases List.mem_append.1 ha with ha | ha
      · exact (k3.out a ha).1
      · rw [List.mem_singleton] at ha; subst ha; exact k3.float
    · exact (k3.out a ha).1
  · split_ifs with hc
    · exact List.pairwise_append.2 ⟨k3.order, List.pairwise_singleton _ _, fun a ha c hc => by rw [List.mem_singleton] at hc; subst hc; exact k3.last a ha⟩
    · exact k3.order
  · split_ifs with hc
    · simp
    · push Not at hc; exact hc.2
  · split_ifs with hc
    · rcases hc with hc | hc
      · right
        intro a ha
        rcases List.mem_append.1 ha with ha | ha
        · exact (k3.out a ha).2
        · rw [List.mem_singleton] at ha; subst ha; exact hc
      · subst hc
        by_cases hQ : Q = 0
        · left; simp [hQ]
        · right; simpa using hQ
    · right; exact fun a ha => (k3.out a ha).2
  · have l1 := pushNz_length [] (x * b - rnd (x * b))
    simp only [List.length_nil] at l1
    split_ifs
    · simp only [List.length_append, List.length_cons, List.length_nil]; omega
    · simp only [List.length_cons]; omega

end Verif.Float
