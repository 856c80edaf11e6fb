import Verif.Proofs.FloatFast
import Verif.Props.Predicates
/-
C98: `orient3d`, `incircle` and `insphere`: the sign of what the first stage returns, and how near the versions that do not
adapt are to the determinants.

The numbers are any rationals and `rnd` is rounding to nearest, ties to even, in `p` bits; for IEEE doubles `p = 53`. In this file `adapt` is
what the adaptive part returns; `Props/PredicatesAdapt` has the theorems for the adaptive parts of the code.
-/
namespace Verif.Props
open Verif.Pred Verif.Float

variable {p : ℕ} {rnd : ℚ → ℚ}

/-- What `exactinit` computes for the first stages, for every precision. -/
theorem C98_exactinit (hr : ToEven p rnd) (hp : 10 ≤ p) {fuel : ℕ} (hf : p ≤ fuel) :
    exactinit3 rnd fuel = some
      { o3dA := (7 + 56 * 2 ^ (-(p : ℤ))) * 2 ^ (-(p : ℤ))
        iccA := (10 + 96 * 2 ^ (-(p : ℤ))) * 2 ^ (-(p : ℤ))
        ispA := (16 + 224 * 2 ^ (-(p : ℤ))) * 2 ^ (-(p : ℤ)) } :=
  exactinit3_eq hr hp hf

/-- After `exactinit`, for all points: whenever `orient3d` returns a number, its sign is that of the volume of the four points,
if this is so of the numbers that `orient3dadapt` returns. Missing: the claim for `orient3dadapt` itself (see `Props/PredicatesAdapt`). -/
theorem C98_orient3d_partial (hr : ToEven p rnd) (hp : 10 ≤ p) {fuel : ℕ} (hf : p ≤ fuel) :
    ∃ st, exactinit3 rnd fuel = some st ∧ ∀ (a b c d : Point3) (adapt : ℚ → Res ℚ),
      (∀ q v, adapt q = .ok v → SameSign v (orientation3 a b c d)) →
      ∀ v, orient3d rnd st adapt a b c d = .ok v → SameSign v (orientation3 a b c d) := by
  refine ⟨_, exactinit3_eq hr hp hf, fun a b c d adapt ha v h => ?_⟩
  rcases orient3d_cases hr hp a b c d adapt with ⟨r, h1, h2, _⟩ | ⟨q, h1, _⟩
  · rw [h] at h1; cases h1; exact h2
  · exact ha q v (h1 ▸ h)

/-- After `exactinit` the first stage is enough for all points that are not nearly in one plane: with a volume of more than
`15 ε` of the sum of the six products it is made of. -/
theorem C98_orient3d_decides_partial (hr : ToEven p rnd) (hp : 10 ≤ p) {fuel : ℕ} (hf : p ≤ fuel) :
    ∃ st, exactinit3 rnd fuel = some st ∧ ∀ (a b c d : Point3) (adapt : ℚ → Res ℚ),
      15 * 2 ^ (-(p : ℤ)) * volume3 a b c d < |orientation3 a b c d| →
      ∃ v, orient3d rnd st adapt a b c d = .ok v ∧ SameSign v (orientation3 a b c d) := by
  refine ⟨_, exactinit3_eq hr hp hf, fun a b c d adapt ha => ?_⟩
  rcases orient3d_cases hr hp a b c d adapt with ⟨r, h1, h2, _⟩ | ⟨q, _, h⟩
  · exact ⟨r, h1, h2⟩
  · linarith

/-- What `incircle` returns says on which side of the circle with centre `o` and radius `√r` the point `d` is. -/
def SideOf (v r dist : ℚ) : Prop := (0 < v ↔ dist < r) ∧ (v < 0 ↔ r < dist)

theorem sideOf_iff {v r dist q : ℚ} (hq : 0 < q) : SameSign v (q * (r - dist)) ↔ SideOf v r dist := by
  unfold SameSign SideOf
  have : q * (r - dist) < 0 ↔ r - dist < 0 := ⟨fun h => by by_contra h0; push Not at h0; linarith [mul_nonneg hq.le h0], fun h => mul_neg_of_pos_of_neg hq h⟩
  rw [mul_pos_iff_of_pos_left hq, this, sub_pos, sub_neg]

/-- After `exactinit`, for all points `a`, `b`, `c` in counter-clockwise order on a circle and every point `d`: a number that
`incircle` returns is positive exactly if `d` is inside of the circle and negative exactly if it is outside, if this is so of
the numbers that `incircleadapt` returns. Missing: the model of `incircleadapt`. -/
theorem C98_incircle_partial (hr : ToEven p rnd) (hp : 10 ≤ p) {fuel : ℕ} (hf : p ≤ fuel) :
    ∃ st, exactinit3 rnd fuel = some st ∧ ∀ (a b c d o : ℚ × ℚ) (r : ℚ) (adapt : ℚ → Res ℚ),
      0 < orientation a b c → dist2 o a = r → dist2 o b = r → dist2 o c = r →
      (∀ q v, adapt q = .ok v → SideOf v r (dist2 o d)) →
      ∀ v, incircle rnd st adapt a b c d = .ok v → SideOf v r (dist2 o d) := by
  refine ⟨_, exactinit3_eq hr hp hf, fun a b c d o r adapt hor h1 h2 h3 ha v h => ?_⟩
  rcases incircle_cases hr hp a b c d adapt with ⟨w, g1, g2, _⟩ | ⟨q, g1, _⟩
  · rw [h] at g1; cases g1
    rw [inCircleDet_eq h1 h2 h3] at g2
    exact (sideOf_iff hor).1 g2
  · exact ha q v (g1 ▸ h)

/-- After `exactinit` the first stage of `incircle` is enough for all points `d` that are not nearly on the circle. -/
theorem C98_incircle_decides_partial (hr : ToEven p rnd) (hp : 10 ≤ p) {fuel : ℕ} (hf : p ≤ fuel) :
    ∃ st, exactinit3 rnd fuel = some st ∧ ∀ (a b c d o : ℚ × ℚ) (r : ℚ) (adapt : ℚ → Res ℚ),
      0 < orientation a b c → dist2 o a = r → dist2 o b = r → dist2 o c = r →
      21 * 2 ^ (-(p : ℤ)) * size2 a b c d < orientation a b c * |r - dist2 o d| →
      ∃ v, incircle rnd st adapt a b c d = .ok v ∧ SideOf v r (dist2 o d) := by
  refine ⟨_, exactinit3_eq hr hp hf, fun a b c d o r adapt hor h1 h2 h3 hd => ?_⟩
  rcases incircle_cases hr hp a b c d adapt with ⟨w, g1, g2, _⟩ | ⟨q, _, g2⟩
  · rw [inCircleDet_eq h1 h2 h3] at g2
    exact ⟨w, g1, (sideOf_iff hor).1 g2⟩
  · rw [inCircleDet_eq h1 h2 h3, abs_mul, abs_of_pos hor] at g2
    linarith

/-- After `exactinit`, for all points `a`, `b`, `c`, `d` of positive volume on a sphere and every point `e`: a number that
`insphere` returns is positive exactly if `e` is inside of the sphere and negative exactly if it is outside, if this is so of the
numbers that `insphereadapt` returns. Missing: the model of `insphereadapt`. -/
theorem C98_insphere_partial (hr : ToEven p rnd) (hp : 10 ≤ p) {fuel : ℕ} (hf : p ≤ fuel) :
    ∃ st, exactinit3 rnd fuel = some st ∧ ∀ (a b c d e o : Point3) (r : ℚ) (adapt : ℚ → Res ℚ),
      0 < orientation3 a b c d → dist3 o a = r → dist3 o b = r → dist3 o c = r → dist3 o d = r →
      (∀ q v, adapt q = .ok v → SideOf v r (dist3 o e)) →
      ∀ v, insphere rnd st adapt a b c d e = .ok v → SideOf v r (dist3 o e) := by
  refine ⟨_, exactinit3_eq hr hp hf, fun a b c d e o r adapt hor h1 h2 h3 h4 ha v h => ?_⟩
  rcases insphere_cases hr hp a b c d e adapt with ⟨w, g1, g2, _⟩ | ⟨q, g1, _⟩
  · rw [h] at g1; cases g1
    rw [inSphereDet_eq h1 h2 h3 h4] at g2
    exact (sideOf_iff hor).1 g2
  · exact ha q v (g1 ▸ h)

/-- After `exactinit` the first stage of `insphere` is enough for all points `e` that are not nearly on the sphere. -/
theorem C98_insphere_decides_partial (hr : ToEven p rnd) (hp : 10 ≤ p) {fuel : ℕ} (hf : p ≤ fuel) :
    ∃ st, exactinit3 rnd fuel = some st ∧ ∀ (a b c d e o : Point3) (r : ℚ) (adapt : ℚ → Res ℚ),
      0 < orientation3 a b c d → dist3 o a = r → dist3 o b = r → dist3 o c = r → dist3 o d = r →
      34 * 2 ^ (-(p : ℤ)) * size3 a b c d e < orientation3 a b c d * |r - dist3 o e| →
      ∃ v, insphere rnd st adapt a b c d e = .ok v ∧ SideOf v r (dist3 o e) := by
  refine ⟨_, exactinit3_eq hr hp hf, fun a b c d e o r adapt hor h1 h2 h3 h4 hd => ?_⟩
  rcases insphere_cases hr hp a b c d e adapt with ⟨w, g1, g2, _⟩ | ⟨q, _, g2⟩
  · rw [inSphereDet_eq h1 h2 h3 h4] at g2
    exact ⟨w, g1, (sideOf_iff hor).1 g2⟩
  · rw [inSphereDet_eq h1 h2 h3 h4, abs_mul, abs_of_pos hor] at g2
    linarith

/-- `orient3dfast`: six times the volume, but for `9 ε` of the sum of the products it is made of. -/
theorem C98_orient3dfast (hr : ToEven p rnd) (hp : 10 ≤ p) (a b c d : Point3) :
    |orient3dfast rnd a b c d - orientation3 a b c d| ≤ 9 * 2 ^ (-(p : ℤ)) * volume3 a b c d :=
  orient3dfast_close hr hp a b c d

/-- `incirclefast`: twice the area of the triangle times the power of the point, but for `12 ε` of the products. -/
theorem C98_incirclefast (hr : ToEven p rnd) (hp : 10 ≤ p) {a b c d o : ℚ × ℚ} {r : ℚ} (ha : dist2 o a = r) (hb : dist2 o b = r) (hc : dist2 o c = r) :
    |incirclefast rnd a b c d - orientation a b c * (r - dist2 o d)| ≤ 12 * 2 ^ (-(p : ℤ)) * size2 a b c d := by
  rw [← inCircleDet_eq ha hb hc]; exact incirclefast_close hr hp a b c d

/-- `inspherefast`: six times the volume times the power of the point, but for `17 ε` of the products. -/
theorem C98_inspherefast (hr : ToEven p rnd) (hp : 10 ≤ p) {a b c d e o : Point3} {r : ℚ} (ha : dist3 o a = r) (hb : dist3 o b = r) (hc : dist3 o c = r)
    (hd : dist3 o d = r) :
    |inspherefast rnd a b c d e - orientation3 a b c d * (r - dist3 o e)| ≤ 17 * 2 ^ (-(p : ℤ)) * size3 a b c d e := by
  rw [← inSphereDet_eq ha hb hc hd]; exact inspherefast_close hr hp a b c d e

/-- In the library, where nothing calls `exactinit`, the claim fails for every precision: there are points of negative volume
for which `orient3d` returns a positive number, whatever the adaptive part does. -/
theorem C98_uninitialised_fails (hr : ToNearest p rnd) (hp : 4 ≤ p) (adapt : ℚ → Res ℚ) :
    ∃ a b c d : Point3, (∀ x ∈ [a, b, c, d], IsFloat p x.1 ∧ IsFloat p x.2.1 ∧ IsFloat p x.2.2) ∧ orientation3 a b c d < 0 ∧
      ∃ v, orient3d rnd atStart3 adapt a b c d = .ok v ∧ 0 < v := by
  obtain ⟨a, b, c, ha, hb, hc, ho, r, h1, h2⟩ := C86_wrong_sign_fails hr hp .ub
  rw [C86_uninitialised_orient2d hr.zero] at h1
  cases h1
  have f1 : IsFloat p (1 : ℚ) := by simpa using IsFloat.pow (p := p) (by omega) 0
  have r1 : rnd 1 = 1 := hr.of_float f1
  have r0 := hr.zero
  refine ⟨(a.1, a.2, 0), (b.1, b.2, 0), (c.1, c.2, 1), (c.1, c.2, 0), ?_, ?_, _, ?_, h2⟩
  · simp only [List.mem_cons, List.not_mem_nil, or_false]
    rintro x (rfl | rfl | rfl | rfl)
    · exact ⟨ha.1, ha.2, .zero⟩
    · exact ⟨hb.1, hb.2, .zero⟩
    · exact ⟨hc.1, hc.2, f1⟩
    · exact ⟨hc.1, hc.2, .zero⟩
  · have e : orientation3 (a.1, a.2, 0) (b.1, b.2, 0) (c.1, c.2, 1) (c.1, c.2, 0) = orientation a b c := by
      simp only [orientation3, orientation]; ring
    rw [e]; exact ho
  · have rr : ∀ x, rnd (rnd x) = rnd x := fun x => hr.of_float (hr.float x)
    have e2 : rnd (rnd (rnd (a.1 - c.1) * rnd (b.2 - c.2)) - rnd (rnd (b.1 - c.1) * rnd (a.2 - c.2)))
        = rnd (rnd (rnd (a.1 - c.1) * rnd (b.2 - c.2)) - rnd (rnd (a.2 - c.2) * rnd (b.1 - c.1))) := by rw [mul_comm (rnd (b.1 - c.1))]
    simp only [orient3d, sum3, minor, minorPlus, decideOr, atStart3, sub_self, sub_zero, r0, r1, zero_mul, mul_zero, add_zero, zero_add, one_mul, rr, abs_zero, e2]
    rw [if_pos (Or.inl h2)]

/-! ### The hypotheses are met -/

/-- A tetrahedron in doubles: the first stage decides. -/
example : ∃ st, exactinit3 (rne 53) 60 = some st ∧ ∃ v, orient3d (rne 53) st (fun _ => .ub) (1, 0, 0) (0, 1, 0) (0, 0, 1) (0, 0, 0) = .ok v ∧ 0 < v := by
  obtain ⟨st, h1, h2⟩ := C98_orient3d_decides_partial (p := 53) (rne_toEven (by norm_num)) (by norm_num) (fuel := 60) (by norm_num)
  obtain ⟨v, h3, h4⟩ := h2 (1, 0, 0) (0, 1, 0) (0, 0, 1) (0, 0, 0) (fun _ => .ub) (by norm_num [orientation3, volume3])
  exact ⟨st, h1, v, h3, h4.1.2 (by norm_num [orientation3])⟩

/-- A point inside of the circle through three points. -/
example : ∃ st, exactinit3 (rne 53) 60 = some st ∧ ∃ v, incircle (rne 53) st (fun _ => .ub) (1, 0) (0, 1) (-1, 0) (1 / 2, 1 / 4) = .ok v ∧ 0 < v := by
  obtain ⟨st, h1, h2⟩ := C98_incircle_decides_partial (p := 53) (rne_toEven (by norm_num)) (by norm_num) (fuel := 60) (by norm_num)
  obtain ⟨v, h3, h4⟩ := h2 (1, 0) (0, 1) (-1, 0) (1 / 2, 1 / 4) (0, 0) 1 (fun _ => .ub) (by norm_num [orientation]) (by norm_num [dist2])
    (by norm_num [dist2]) (by norm_num [dist2]) (by norm_num [orientation, size2, dist2, abs_of_pos, abs_of_neg])
  exact ⟨st, h1, v, h3, h4.1.2 (by norm_num [dist2])⟩

/-- A point outside of the sphere through four points. -/
example : ∃ st, exactinit3 (rne 53) 60 = some st ∧ ∃ v, insphere (rne 53) st (fun _ => .ub) (1, 0, 0) (0, 1, 0) (0, 0, 1) (-1, 0, 0) (1, 1, 1) = .ok v ∧ v < 0 := by
  obtain ⟨st, h1, h2⟩ := C98_insphere_decides_partial (p := 53) (rne_toEven (by norm_num)) (by norm_num) (fuel := 60) (by norm_num)
  obtain ⟨v, h3, h4⟩ := h2 (1, 0, 0) (0, 1, 0) (0, 0, 1) (-1, 0, 0) (1, 1, 1) (0, 0, 0) 1 (fun _ => .ub) (by norm_num [orientation3]) (by norm_num [dist3])
    (by norm_num [dist3]) (by norm_num [dist3]) (by norm_num [dist3]) (by norm_num [orientation3, size3, volume3, dist3, abs_of_pos, abs_of_neg])
  exact ⟨st, h1, v, h3, h4.2.2 (by norm_num [dist3])⟩

/-- Four points in one plane in doubles: no first stage decides, and the right answer of the adaptive part is passed on. -/
example : ∃ st, exactinit3 (rne 53) 60 = some st ∧ ∀ v, orient3d (rne 53) st (fun _ => .ok 0) (1, 0, 0) (0, 1, 0) (1, 1, 0) (0, 0, 0) = .ok v → v = 0 := by
  obtain ⟨st, h1, h2⟩ := C98_orient3d_partial (p := 53) (rne_toEven (by norm_num)) (by norm_num) (fuel := 60) (by norm_num)
  have e : orientation3 (1, 0, 0) (0, 1, 0) (1, 1, 0) (0, 0, 0) = 0 := by norm_num [orientation3]
  refine ⟨st, h1, fun v hv => ?_⟩
  have := h2 (1, 0, 0) (0, 1, 0) (1, 1, 0) (0, 0, 0) (fun _ => .ok 0) (by rintro q v ⟨⟩; rw [e]; simp [SameSign]) v hv
  exact this.eq_zero.2 e

end Verif.Props
