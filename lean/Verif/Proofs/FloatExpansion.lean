import Verif.Proofs.FloatMain
/- Expansions: sums of numbers that do not overlap, and `fast_expansion_sum_zeroelim` on them. -/
namespace Verif.Float
open Verif Verif.Pred

variable {p : ℕ} {rnd : ℚ → ℚ}

theorem Far.below {a b : ℚ} (h : Far a b) : Below a b := by
  obtain ⟨t, h1, h2⟩ := h; exact ⟨t, h1.le, h2⟩

theorem Far.mono {a a' b : ℚ} (h : Far a b) (ha : |a'| ≤ |a|) : Far a' b := by
  obtain ⟨t, h1, h2⟩ := h; exact ⟨t, ha.trans_lt h1, h2⟩

theorem Below.add {a b c : ℚ} (hb : Below a b) (hc : Below a c) : ∃ t : ℤ, |a| ≤ 2 ^ t ∧ Grid (t + 1) (b + c) := by
  obtain ⟨t, h1, h2⟩ := hb
  obtain ⟨u, k1, k2⟩ := hc
  rcases le_total t u with h | h
  · exact ⟨t, h1, h2.add (k2.mono (by omega))⟩
  · exact ⟨u, k1, (h2.mono (by omega)).add k2⟩

theorem Far.add {a b c : ℚ} (hb : Far a b) (hc : Far a c) : ∃ t : ℤ, |a| < 2 ^ t ∧ Grid (t + 1) (b + c) := by
  obtain ⟨t, h1, h2⟩ := hb
  obtain ⟨u, k1, k2⟩ := hc
  rcases le_total t u with h | h
  · exact ⟨t, h1, h2.add (k2.mono (by omega))⟩
  · exact ⟨u, k1, (h2.mono (by omega)).add k2⟩

theorem Far.neg {a b : ℚ} (h : Far a b) : Far a (-b) := by
  obtain ⟨t, h1, h2⟩ := h; exact ⟨t, h1, h2.neg⟩

theorem Below.round (hr : ToNearest p rnd) (hp : 1 ≤ p) {a b c : ℚ} (hb : Below a b) (hc : Below a c) : Below a (rnd (b + c)) ∧ Below a (b + c - rnd (b + c)) := by
  obtain ⟨t, h1, h2⟩ := hb.add hc
  exact ⟨⟨t, h1, hr.grid hp h2⟩, ⟨t, h1, h2.sub (hr.grid hp h2)⟩⟩

theorem Far.round (hr : ToNearest p rnd) (hp : 1 ≤ p) {a b c : ℚ} (hb : Far a b) (hc : Far a c) : Far a (rnd (b + c)) ∧ Far a (b + c - rnd (b + c)) := by
  obtain ⟨t, h1, h2⟩ := hb.add hc
  exact ⟨⟨t, h1, hr.grid hp h2⟩, ⟨t, h1, h2.sub (hr.grid hp h2)⟩⟩

/-- The error of a rounding is at most half of a power of two that divides the result. -/
theorem err_below (hr : ToNearest p rnd) (hp : 1 ≤ p) (s : ℚ) : Below (s - rnd s) (rnd s) := by
  by_cases hs : s = 0
  · subst hs; rw [hr.zero]; exact ⟨0, by norm_num, Grid.zero _⟩
  obtain ⟨k, h1, h2⟩ := exists_binade hs
  have he := hr.err_le hp h2.le
  have hq := hr.le_abs (IsFloat.pow hp k) (two_pos' k).le h1
  refine ⟨k - p, ?_, ?_⟩
  · rw [abs_sub_comm]
    have : (2 : ℚ) ^ (k + 1 - p) = 2 * 2 ^ (k - p) := by rw [← pow_succ']; congr 1; ring
    rw [this] at he; linarith
  · have := (hr.float s).grid hq
    rwa [show k - p + 1 = k + 1 - (p : ℤ) by ring]

/-- With ties to even it is less than half of one. -/
theorem err_far (hr : ToEven p rnd) (hp : 1 ≤ p) (s : ℚ) : Far (s - rnd s) (rnd s) := by
  have hn := hr.toToNearest
  by_cases hs : s = 0
  · subst hs; rw [hn.zero]; exact ⟨0, by norm_num, Grid.zero _⟩
  obtain ⟨k, h1, h2⟩ := exists_binade hs
  have he := hn.err_le hp h2.le
  have hq := hn.le_abs (IsFloat.pow hp k) (two_pos' k).le h1
  have hq2 := hn.abs_le (IsFloat.pow hp (k + 1)) h2.le
  have g := (hn.float s).grid hq
  have e1 : (2 : ℚ) ^ (k + 1 - p) = 2 * 2 ^ (k - p) := by rw [← pow_succ']; congr 1; ring
  rw [e1] at he
  have he : |s - rnd s| ≤ 2 ^ (k - p) := by rw [abs_sub_comm]; linarith
  rcases lt_or_eq_of_le he with h | h
  · exact ⟨k - p, h, by rwa [show k - p + 1 = k + 1 - (p : ℤ) by ring]⟩
  -- a tie
  have hpos := two_pos' (k - p)
  have gf : Grid (k + 1 - p) (2 * s - rnd s) := by
    have : 2 * s - rnd s = rnd s + 2 * (s - rnd s) := by ring
    rw [this]
    refine g.add ?_
    rcases abs_choice (s - rnd s) with hc | hc
    · rw [← hc, h, ← e1]; exact Grid.pow le_rfl
    · have : 2 * (s - rnd s) = - (2 * |s - rnd s|) := by rw [hc]; ring
      rw [this, h, ← e1]; exact (Grid.pow le_rfl).neg
  have hf1 : |2 * s - rnd s| < 2 ^ (k + 1) + 2 * 2 ^ (k - p) := by
    have : 2 * s - rnd s = s + (s - rnd s) := by ring
    rw [this]
    have := abs_add_le s (s - rnd s)
    linarith
  have hf2 : |2 * s - rnd s| ≤ 2 ^ (k + 1) := by
    by_contra hc
    push Not at hc
    have := (Grid.pow (e := k + 1) (f := k + 1 - p) (by omega)).room gf.abs hc
    rw [e1] at this
    linarith
  have ff : IsFloat p (2 * s - rnd s) := isFloat_of_grid hp gf (by rwa [show (p : ℤ) + (k + 1 - p) = k + 1 by ring])
  have hne : 2 * s - rnd s ≠ rnd s := by
    intro e
    have : s - rnd s = 0 := by linarith
    rw [this, abs_zero] at h
    linarith
  obtain ⟨m, e, m1, m2, m3, m4⟩ := hr.ties s _ ff hne (by rw [abs_sub_comm (rnd s)]; congr 1; ring)
  have hk : k + 1 - (p : ℤ) ≤ e := by
    by_contra hc
    push Not at hc
    have : |rnd s| < 2 ^ k := by
      rw [m4, abs_mul, abs_of_pos (two_pos' e)]
      have h1 : |(m : ℚ)| < 2 ^ p := by exact_mod_cast m2
      calc |(m : ℚ)| * 2 ^ e < 2 ^ p * 2 ^ e := by exact mul_lt_mul_of_pos_right h1 (two_pos' e)
        _ = 2 ^ ((p : ℤ) + e) := (two_pow_p p e).symm
        _ ≤ 2 ^ k := pow_le (by omega)
    linarith
  obtain ⟨n, hn2⟩ := m3
  have ge : Grid (e + 1) (rnd s) := ⟨n, by rw [m4, pow_succ', hn2]; push_cast; ring⟩
  refine ⟨k + 1 - p, ?_, ge.mono (by omega)⟩
  rw [h, e1]; linarith

theorem err_le_left (hr : ToNearest p rnd) {a b : ℚ} (ha : IsFloat p a) : |a + b - rnd (a + b)| ≤ |b| := by
  rw [abs_sub_comm]
  refine (hr.nearest (a + b) a ha).trans ?_
  rw [abs_sub_comm]; simp

theorem err_le_right (hr : ToNearest p rnd) {a b : ℚ} (hb : IsFloat p b) : |a + b - rnd (a + b)| ≤ |a| := by
  rw [add_comm a b]
  exact err_le_left hr hb

theorem float_err (hr : ToNearest p rnd) (hp : 1 ≤ p) {a b : ℚ} (ha : IsFloat p a) (hb : IsFloat p b) : IsFloat p (a + b - rnd (a + b)) := by
  have := (hr.add_err hp ha hb).neg
  rwa [neg_sub] at this

/-- An expansion whose components are far from each other. -/
structure Apart (p : ℕ) (l : List ℚ) : Prop where
  float : ∀ x ∈ l, IsFloat p x
  far : l.Pairwise Far

/-- `Two_Two_Diff` of two pairs: four components far from each other, whose sum is the difference. -/
theorem twoTwoDiff_ok (hr : ToEven p rnd) (hp : 3 ≤ p) {a b : ℚ × ℚ} (ha1 : IsFloat p a.1) (ha2 : IsFloat p a.2) (hb1 : IsFloat p b.1) (hb2 : IsFloat p b.2) (ha : Far a.2 a.1) (hb : Far b.2 b.1) :
    ∃ x0 x1 x2 x3, twoTwoDiff rnd a b = (x0, x1, x2, x3) ∧ x0 + x1 + x2 + x3 = a.1 + a.2 - (b.1 + b.2) ∧ Apart p [x0, x1, x2, x3] := by
  have hn := hr.toToNearest
  have hp1 : 1 ≤ p := by omega
  obtain ⟨a1, a0⟩ := a
  obtain ⟨b1, b0⟩ := b
  dsimp only at *
  have nb0 := hb2.neg
  have nb1 := hb1.neg
  -- the first four operations
  set i := rnd (a0 + -b0) with hi
  set x0 := a0 + -b0 - i with hx0
  set j := rnd (a1 + i) with hj
  set c0 := a1 + i - j with hc0
  set i' := rnd (c0 + -b1) with hi'
  set x1 := c0 + -b1 - i' with hx1
  set x3 := rnd (j + i') with hx3
  set x2 := j + i' - x3 with hx2
  have fi : IsFloat p i := hn.float _
  have fj : IsFloat p j := hn.float _
  have fi' : IsFloat p i' := hn.float _
  have fc0 : IsFloat p c0 := float_err hn hp1 ha1 fi
  have fx0 : IsFloat p x0 := float_err hn hp1 ha2 nb0
  have fx1 : IsFloat p x1 := float_err hn hp1 fc0 nb1
  have fx2 : IsFloat p x2 := float_err hn hp1 fj fi'
  have fx3 : IsFloat p x3 := hn.float _
  refine ⟨x0, x1, x2, x3, ?_, by rw [hx2, hx1, hc0, hx0]; ring, ?_, ?_⟩
  · simp only [twoTwoDiff, twoOneDiff]
    rw [twoDiff_eq hn hp ha2 hb2]
    simp only [sub_eq_add_neg a0 b0, ← hi, ← hx0]
    rw [twoSum_eq hn hp ha1 fi]
    simp only [← hj, ← hc0]
    rw [twoDiff_eq hn hp fc0 hb1]
    simp only [sub_eq_add_neg c0 b1, ← hi', ← hx1]
    rw [twoSum_eq hn hp fj fi']
  · intro x hx
    simp only [List.mem_cons, List.not_mem_nil, or_false] at hx
    rcases hx with rfl | rfl | rfl | rfl <;> assumption
  · have r1 : Far x0 i := err_far hr hp1 _
    have r2 : Far x0 a1 := ha.mono (err_le_right hn nb0)
    have r3 : Far x0 (-b1) := (hb.mono (by have := err_le_left hn (b := -b0) ha2; rwa [abs_neg] at this)).neg
    have r4 := r2.round hn hp1 r1
    have r5 := r4.2.round hn hp1 r3
    have r6 := r4.1.round hn hp1 r5.1
    have q1 : Far c0 j := err_far hr hp1 _
    have q2 : Far x1 i' := err_far hr hp1 _
    have q3 : Far x1 j := q1.mono (err_le_right hn nb1)
    have q4 := q3.round hn hp1 q2
    have q5 : Far x2 x3 := err_far hr hp1 _
    simp only [List.pairwise_cons, List.mem_cons, List.not_mem_nil, or_false, forall_eq_or_imp, forall_eq, List.Pairwise.nil, and_true, false_imp_iff, implies_true]
    exact ⟨⟨r5.2, r6.2, r6.1⟩, ⟨q4.2, q4.1⟩, q5⟩

theorem diffOfProducts_ok (hr : ToEven p rnd) (hp : 4 ≤ p) {st : Statics} (hst : st.splitter = 2 ^ ((p + 1) / 2) + 1) {a b c d : ℚ} (ha : IsFloat p a) (hb : IsFloat p b) (hc : IsFloat p c) (hd : IsFloat p d) :
    (diffOfProducts rnd st a b c d).length = 4 ∧ (diffOfProducts rnd st a b c d).sum = a * b - c * d ∧ Apart p (diffOfProducts rnd st a b c d) := by
  have hn := hr.toToNearest
  obtain ⟨e1, f1⟩ := twoProduct_eq hn hp hst ha hb
  obtain ⟨e2, f2⟩ := twoProduct_eq hn hp hst hc hd
  obtain ⟨x0, x1, x2, x3, h1, h2, h3⟩ := twoTwoDiff_ok hr (by omega) (a := (rnd (a * b), a * b - rnd (a * b))) (b := (rnd (c * d), c * d - rnd (c * d)))
    (hn.float _) f1 (hn.float _) f2 (err_far hr (by omega) _) (err_far hr (by omega) _)
  rw [diffOfProducts, e1, e2, h1]
  refine ⟨rfl, ?_, h3⟩
  simp only [List.sum_cons, List.sum_nil]
  linarith
end Verif.Float
