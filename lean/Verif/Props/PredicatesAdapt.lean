import Verif.Proofs.FloatAdapt3
import Verif.Props.Predicates3
/-
C98, second part: `orient3d`, `incircle` and `insphere` with their own adaptive parts.

The numbers are any rationals and `rnd` is rounding to nearest, ties to even, in `p` bits; for IEEE doubles `p = 53`. `rest` is
what the adaptive parts do after the place where the model of them ends.
-/
namespace Verif.Props
open Verif Verif.Pred Verif.Float

variable {p : ℕ} {rnd : ℚ → ℚ}

/-- `scale_expansion_zeroelim`, after `exactinit`: the product of an expansion and a number is exact, has at most twice as many
components, and no components that are zero unless it is zero. -/
theorem C98_scale (hr : ToEven p rnd) (hp : 6 ≤ p) {fuel : ℕ} (hf : p ≤ fuel) :
    ∃ st, exactinit rnd fuel = some st ∧ ∀ (e : List ℚ) (b : ℚ), e ≠ [] → IsFloat p b → (∀ x ∈ e, IsFloat p x) → e.Pairwise Far →
      ∃ h, scaleExpansion rnd st b e = .ok h ∧ h.sum = b * e.sum ∧ (∀ x ∈ h, IsFloat p x) ∧ h.Pairwise Far ∧ (h = [0] ∨ ∀ x ∈ h, x ≠ 0) ∧ h.length ≤ 2 * e.length := by
  refine ⟨_, exactinit_eq hr hp hf, fun e b he hb h1 h2 => ?_⟩
  obtain ⟨h, g1, g2, g3, _, g5, g6⟩ := scaleExpansion_ok hr (by omega) (st := initialised p) rfl hb he ⟨h1, h2⟩
  exact ⟨h, g1, g2, g3.float, g3.far, g5, g6⟩

/-- The conditions of `C98_scale` are met: `1 + 2 ^ 60` times `3` in doubles. -/
example : ∃ st, exactinit (rne 53) 60 = some st ∧ ∃ h, scaleExpansion (rne 53) st 3 [1, 2 ^ 60] = .ok h ∧ h.sum = 3 * (1 + 2 ^ 60) := by
  obtain ⟨st, h1, h2⟩ := C98_scale (p := 53) (rne_toEven (by norm_num)) (by norm_num) (fuel := 60) (by norm_num)
  obtain ⟨h, g1, g2, _⟩ := h2 [1, 2 ^ 60] 3 (by simp) ⟨3, 0, by norm_num, by norm_num⟩
    (by rintro x hx; simp only [List.mem_cons, List.not_mem_nil, or_false] at hx
        rcases hx with rfl | rfl
        · exact ⟨1, 0, by norm_num, by norm_num⟩
        · exact ⟨1, 60, by norm_num, by norm_num⟩)
    (by simp only [List.pairwise_cons, List.mem_singleton, forall_eq, List.not_mem_nil, false_imp_iff, implies_true, List.Pairwise.nil, and_true]
        exact ⟨1, by norm_num, 2 ^ 58, by norm_num⟩)
  exact ⟨st, h1, h, g1, by rw [g2]; norm_num⟩

/-- After `exactinit`, for all points whose differences need no rounding: `orient3d` either has undefined behaviour, or returns a
number with the sign of the volume. Missing: points whose differences need rounding. -/
theorem C98_orient3d_exact_partial (hr : ToEven p rnd) (hp : 27 ≤ p) {fuel : ℕ} (hf : p ≤ fuel) :
    ∃ st st3, exactinit rnd fuel = some st ∧ exactinit3 rnd fuel = some st3 ∧ ∀ (stB : StaticsB) (rest : List ℚ → Res ℚ) (a b c d : Point3),
      FloatPt3 p a → FloatPt3 p b → FloatPt3 p c → FloatPt3 p d → ExactDiff p a d → ExactDiff p b d → ExactDiff p c d →
      orient3d rnd st3 (orient3dadapt rnd rest st stB a b c d) a b c d = .ub ∨
        ∃ v, orient3d rnd st3 (orient3dadapt rnd rest st stB a b c d) a b c d = .ok v ∧ SameSign v (orientation3 a b c d) := by
  refine ⟨_, _, exactinit_eq hr (by omega) hf, exactinit3_eq hr (by omega) hf, fun stB rest a b c d fa fb fc fd ha hb hc => ?_⟩
  rcases orient3d_cases hr (by omega) a b c d (orient3dadapt rnd rest (initialised p) stB a b c d) with ⟨r, h1, h2, _⟩ | ⟨q, h1, _⟩
  · exact Or.inr ⟨r, h1, h2⟩
  · rw [h1]
    obtain ⟨_, _, _, _, _, _, h⟩ := orient3dadapt_exact hr hp (st := initialised p) rfl stB rest fa fb fc fd ha hb hc q
    rcases h with ⟨_, h⟩ | ⟨_, h⟩
    · exact Or.inl h
    · exact Or.inr h

/-- After `exactinit`, for all points of a lattice with `2 ^ (p / 2)` steps in each direction, with any power of two as the step:
`orient3d` always returns, and the number has the sign of the volume. For doubles, integer coordinates up to `2 ^ 25`. Missing: the other
points (for which it fails). -/
theorem C98_orient3d_lattice_partial (hr : ToEven p rnd) (hp : 27 ≤ p) {fuel : ℕ} (hf : p ≤ fuel) :
    ∃ st st3, exactinit rnd fuel = some st ∧ exactinit3 rnd fuel = some st3 ∧ ∀ (stB : StaticsB) (rest : List ℚ → Res ℚ) (m : ℕ) (k : ℤ) (a b c d : Point3),
      2 * (m + 1) ≤ p → OnLattice m k a → OnLattice m k b → OnLattice m k c → OnLattice m k d →
      ∃ v, orient3d rnd st3 (orient3dadapt rnd rest st stB a b c d) a b c d = .ok v ∧ SameSign v (orientation3 a b c d) := by
  refine ⟨_, _, exactinit_eq hr (by omega) hf, exactinit3_eq hr (by omega) hf, fun stB rest m k a b c d hm ha hb hc hd => ?_⟩
  rcases orient3d_cases hr (by omega) a b c d (orient3dadapt rnd rest (initialised p) stB a b c d) with ⟨r, h1, h2, _⟩ | ⟨q, h1, _⟩
  · exact ⟨r, h1, h2⟩
  · rw [h1]
    exact orient3dadapt_lattice hr hp (st := initialised p) rfl stB rest hm ha hb hc hd q

/-- Four points of the lattice in one plane, in doubles: the result is zero. -/
example : ∃ st st3, exactinit (rne 53) 60 = some st ∧ exactinit3 (rne 53) 60 = some st3 ∧ ∀ stB rest,
    orient3d (rne 53) st3 (orient3dadapt (rne 53) rest st stB (1, 0, 5) (0, 1, 7) (1, 1, 12) (0, 0, 0)) (1, 0, 5) (0, 1, 7) (1, 1, 12) (0, 0, 0) = .ok 0 := by
  obtain ⟨st, st3, h1, h2, h3⟩ := C98_orient3d_lattice_partial (p := 53) (rne_toEven (by norm_num)) (by norm_num) (fuel := 60) (by norm_num)
  refine ⟨st, st3, h1, h2, fun stB rest => ?_⟩
  obtain ⟨v, g1, g2⟩ := h3 stB rest 25 0 (1, 0, 5) (0, 1, 7) (1, 1, 12) (0, 0, 0) (by norm_num) ⟨1, 0, 5, by norm_num, by norm_num, by norm_num, by norm_num⟩
    ⟨0, 1, 7, by norm_num, by norm_num, by norm_num, by norm_num⟩ ⟨1, 1, 12, by norm_num, by norm_num, by norm_num, by norm_num⟩ ⟨0, 0, 0, by norm_num, by norm_num, by norm_num, by norm_num⟩
  have e : orientation3 (1, 0, 5) (0, 1, 7) (1, 1, 12) (0, 0, 0) = 0 := by norm_num [orientation3]
  rw [e] at g2
  rw [g1, g2.eq_zero.2 rfl]

/-- The values of `exactinit` in doubles, as numbers. -/
theorem initialised_53 : initialised 53 = ⟨134217729, 1 / 2 ^ 53, (3 + 8 / 2 ^ 53) / 2 ^ 53, (3 + 16 / 2 ^ 53) / 2 ^ 53, (2 + 12 / 2 ^ 53) / 2 ^ 53, (9 + 64 / 2 ^ 53) / 2 ^ 106⟩ := by
  simp only [initialised, Statics.mk.injEq]
  norm_num

theorem initialised3_53 : initialised3 53 = ⟨(7 + 56 / 2 ^ 53) / 2 ^ 53, (10 + 96 / 2 ^ 53) / 2 ^ 53, (16 + 224 / 2 ^ 53) / 2 ^ 53⟩ := by
  simp only [initialised3, Statics3.mk.injEq]
  norm_num

/-- In general the claim fails, also for exact differences: there are doubles for which `orient3d` reads past the end of an array of
eight components that are all in use. Two of the four points are the same. -/
theorem C98_orient3d_full_fails : ∃ st st3 stB, exactinit (rne 53) 60 = some st ∧ exactinit3 (rne 53) 60 = some st3 ∧ exactinitB (rne 53) 60 = some stB ∧
    ∃ a b c d : Point3, (∀ x ∈ [a, b, c, d], FloatPt3 53 x) ∧ ExactDiff 53 a d ∧ ExactDiff 53 b d ∧ ExactDiff 53 c d ∧
      ∀ rest, orient3d (rne 53) st3 (orient3dadapt (rne 53) rest st stB a b c d) a b c d = .ub := by
  have hr := rne_toEven (p := 53) (by norm_num)
  have e1 := exactinit_eq hr (by norm_num) (fuel := 60) (by norm_num)
  have e2 := exactinit3_eq hr (by norm_num) (fuel := 60) (by norm_num)
  have e3 : exactinitB (rne 53) 60 = some ⟨(3 + 28 / 2 ^ 53) / 2 ^ 53, (26 + 288 / 2 ^ 53) / 2 ^ 106⟩ := by decide +kernel
  rw [initialised_53] at e1
  rw [initialised3_53] at e2
  have f1 : IsFloat 53 (4503599627370513 : ℚ) := ⟨4503599627370513, 0, by norm_num, by norm_num⟩
  have f2 : IsFloat 53 (4503599627370529 : ℚ) := ⟨4503599627370529, 0, by norm_num, by norm_num⟩
  have f3 : IsFloat 53 (4521191813414913 : ℚ) := ⟨4521191813414913, 0, by norm_num, by norm_num⟩
  have f4 : IsFloat 53 (4504699138998272 / 2 ^ 124 : ℚ) := ⟨4504699138998272, -124, by norm_num, by norm_num⟩
  have f5 : IsFloat 53 (4512395720392704 : ℚ) := ⟨4512395720392704, 0, by norm_num, by norm_num⟩
  have f0 : IsFloat 53 (0 : ℚ) := IsFloat.zero
  refine ⟨_, _, _, e1, e2, e3, (4503599627370513, 4503599627370529, 4521191813414913), (4503599627370513, 4503599627370529, 4521191813414913),
    (4504699138998272 / 2 ^ 124, 4512395720392704, 0), (0, 0, 0), ?_, ?_, ?_, ?_, fun rest => ?_⟩
  · simp only [List.mem_cons, List.not_mem_nil, or_false, forall_eq_or_imp, forall_eq]
    exact ⟨⟨f1, f2, f3⟩, ⟨f1, f2, f3⟩, ⟨f4, f5, f0⟩, f0, f0, f0⟩
  · simp only [ExactDiff, FloatPt3, sub_zero]; exact ⟨f1, f2, f3⟩
  · simp only [ExactDiff, FloatPt3, sub_zero]; exact ⟨f1, f2, f3⟩
  · simp only [ExactDiff, FloatPt3, sub_zero]; exact ⟨f4, f5, f0⟩
  · rw [show orient3dadapt (rne 53) rest _ _ _ _ _ _ = orient3dadapt (rne 53) (fun _ => .ok 0) _ _ _ _ _ _ from funext fun q => orient3dadapt_rest _ _ _ _ _ _ _ _ q]
    decide +kernel

/-- The last stage of `orient3d`, for differences that need rounding, reads a value that was never written: an example in doubles,
again with two points that are the same. -/
theorem C98_orient3d_last_fails : ∃ st st3 stB, exactinit (rne 53) 60 = some st ∧ exactinit3 (rne 53) 60 = some st3 ∧ exactinitB (rne 53) 60 = some stB ∧
    ∃ a b c d : Point3, (∀ x ∈ [a, b, c, d], FloatPt3 53 x) ∧ ∀ rest, orient3d (rne 53) st3 (orient3dadapt (rne 53) rest st stB a b c d) a b c d = .ub := by
  have hr := rne_toEven (p := 53) (by norm_num)
  have e1 := exactinit_eq hr (by norm_num) (fuel := 60) (by norm_num)
  have e2 := exactinit3_eq hr (by norm_num) (fuel := 60) (by norm_num)
  have e3 : exactinitB (rne 53) 60 = some ⟨(3 + 28 / 2 ^ 53) / 2 ^ 53, (26 + 288 / 2 ^ 53) / 2 ^ 106⟩ := by decide +kernel
  rw [initialised_53] at e1
  rw [initialised3_53] at e2
  refine ⟨_, _, _, e1, e2, e3, (1, 1, 1), (1, 1, 1), (1, 2, 4), (1 / 2 ^ 60, 0, 0), ?_, fun rest => ?_⟩
  · have f0 : IsFloat 53 (0 : ℚ) := IsFloat.zero
    have f1 : IsFloat 53 (1 : ℚ) := ⟨1, 0, by norm_num, by norm_num⟩
    simp only [List.mem_cons, List.not_mem_nil, or_false, forall_eq_or_imp, forall_eq]
    exact ⟨⟨f1, f1, f1⟩, ⟨f1, f1, f1⟩, ⟨f1, ⟨2, 0, by norm_num, by norm_num⟩, 4, 0, by norm_num, by norm_num⟩, ⟨1, -60, by norm_num, by norm_num⟩, f0, f0⟩
  · rw [show orient3dadapt (rne 53) rest _ _ _ _ _ _ = orient3dadapt (rne 53) (fun _ => .ok 0) _ _ _ _ _ _ from funext fun q => orient3dadapt_rest _ _ _ _ _ _ _ _ q]
    decide +kernel

/-- After `exactinit`, for all points: whenever `incircle` returns a number, its sign says on which side of the circle through the
first three points the fourth is. Missing: that it returns one. -/
theorem C98_incircle_own_partial (hr : ToEven p rnd) (hp : 10 ≤ p) {fuel : ℕ} (hf : p ≤ fuel) :
    ∃ st3, exactinit3 rnd fuel = some st3 ∧ ∀ (st : Statics) (rest : List ℚ → Res ℚ) (a b c d o : ℚ × ℚ) (r : ℚ),
      0 < orientation a b c → dist2 o a = r → dist2 o b = r → dist2 o c = r →
      ∀ v, incircle rnd st3 (fun _ => incircleadapt rnd rest st a b c d) a b c d = .ok v → SideOf v r (dist2 o d) := by
  obtain ⟨st3, h1, h2⟩ := C98_incircle_partial hr hp hf
  exact ⟨st3, h1, fun st rest a b c d o r ho ha hb hc => h2 a b c d o r _ ho ha hb hc (fun q v h => by rw [incircleadapt_ub] at h; cases h)⟩

/-- But it returns no number for any four points on one circle: it then sums two expansions in arrays whose other elements were
never written, and reads one of these. -/
theorem C98_incircle_on_circle_fails (hr : ToEven p rnd) (hp : 10 ≤ p) {fuel : ℕ} (hf : p ≤ fuel) :
    ∃ st3, exactinit3 rnd fuel = some st3 ∧ ∀ (st : Statics) (rest : List ℚ → Res ℚ) (a b c d o : ℚ × ℚ) (r : ℚ),
      dist2 o a = r → dist2 o b = r → dist2 o c = r → dist2 o d = r →
      incircle rnd st3 (fun _ => incircleadapt rnd rest st a b c d) a b c d = .ub := by
  refine ⟨_, exactinit3_eq hr hp hf, fun st rest a b c d o r ha hb hc hd => ?_⟩
  rcases incircle_cases hr hp a b c d (fun _ => incircleadapt rnd rest st a b c d) with ⟨w, _, g2, g3⟩ | ⟨q, g1, _⟩
  · rw [inCircleDet_eq ha hb hc, hd, sub_self, mul_zero] at g2
    exact absurd (g2.eq_zero.2 rfl) g3
  · rw [g1, incircleadapt_ub]

/-- The corners of a square in doubles. -/
example : ∃ st3, exactinit3 (rne 53) 60 = some st3 ∧ ∀ st rest,
    incircle (rne 53) st3 (fun _ => incircleadapt (rne 53) rest st (0, 0) (1, 0) (1, 1) (0, 1)) (0, 0) (1, 0) (1, 1) (0, 1) = .ub := by
  obtain ⟨st3, h1, h2⟩ := C98_incircle_on_circle_fails (p := 53) (rne_toEven (by norm_num)) (by norm_num) (fuel := 60) (by norm_num)
  exact ⟨st3, h1, fun st rest => h2 st rest (0, 0) (1, 0) (1, 1) (0, 1) (1 / 2, 1 / 2) (1 / 2) (by norm_num [dist2]) (by norm_num [dist2]) (by norm_num [dist2]) (by norm_num [dist2])⟩

/-- After `exactinit`, for all points: whenever `insphere` returns a number, its sign says on which side of the sphere through the
first four points the fifth is. Missing: that it returns one. -/
theorem C98_insphere_own_partial (hr : ToEven p rnd) (hp : 10 ≤ p) {fuel : ℕ} (hf : p ≤ fuel) :
    ∃ st3, exactinit3 rnd fuel = some st3 ∧ ∀ (st : Statics) (rest : List ℚ → Res ℚ) (a b c d e o : Point3) (r : ℚ),
      0 < orientation3 a b c d → dist3 o a = r → dist3 o b = r → dist3 o c = r → dist3 o d = r →
      ∀ v, insphere rnd st3 (fun _ => insphereadapt rnd rest st a b c d e) a b c d e = .ok v → SideOf v r (dist3 o e) := by
  obtain ⟨st3, h1, h2⟩ := C98_insphere_partial hr hp hf
  exact ⟨st3, h1, fun st rest a b c d e o r ho ha hb hc hd => h2 a b c d e o r _ ho ha hb hc hd (fun q v h => by rw [insphereadapt_ub] at h; cases h)⟩

/-- But it returns no number for any five points on one sphere. -/
theorem C98_insphere_on_sphere_fails (hr : ToEven p rnd) (hp : 10 ≤ p) {fuel : ℕ} (hf : p ≤ fuel) :
    ∃ st3, exactinit3 rnd fuel = some st3 ∧ ∀ (st : Statics) (rest : List ℚ → Res ℚ) (a b c d e o : Point3) (r : ℚ),
      dist3 o a = r → dist3 o b = r → dist3 o c = r → dist3 o d = r → dist3 o e = r →
      insphere rnd st3 (fun _ => insphereadapt rnd rest st a b c d e) a b c d e = .ub := by
  refine ⟨_, exactinit3_eq hr hp hf, fun st rest a b c d e o r ha hb hc hd he => ?_⟩
  rcases insphere_cases hr hp a b c d e (fun _ => insphereadapt rnd rest st a b c d e) with ⟨w, _, g2, g3⟩ | ⟨q, g1, _⟩
  · rw [inSphereDet_eq ha hb hc hd, he, sub_self, mul_zero] at g2
    exact absurd (g2.eq_zero.2 rfl) g3
  · rw [g1, insphereadapt_ub]

/-- Five corners of a cube in doubles. -/
example : ∃ st3, exactinit3 (rne 53) 60 = some st3 ∧ ∀ st rest,
    insphere (rne 53) st3 (fun _ => insphereadapt (rne 53) rest st (0, 0, 0) (1, 0, 0) (0, 1, 0) (0, 0, 1) (1, 1, 1)) (0, 0, 0) (1, 0, 0) (0, 1, 0) (0, 0, 1) (1, 1, 1) = .ub := by
  obtain ⟨st3, h1, h2⟩ := C98_insphere_on_sphere_fails (p := 53) (rne_toEven (by norm_num)) (by norm_num) (fuel := 60) (by norm_num)
  exact ⟨st3, h1, fun st rest => h2 st rest (0, 0, 0) (1, 0, 0) (0, 1, 0) (0, 0, 1) (1, 1, 1) (1 / 2, 1 / 2, 1 / 2) (3 / 4) (by norm_num [dist3]) (by norm_num [dist3])
    (by norm_num [dist3]) (by norm_num [dist3]) (by norm_num [dist3])⟩

end Verif.Props
