import Verif.Proofs.Simplify3Geom
import Verif.Proofs.Simplify3Loop
/- The tests of the 3D version of `simplifyPLCfacets` are exact for polygons that are large enough for the tolerance. -/
namespace Verif.Simplify3
open Verif Verif.Mesh Verif.Internal Verif.Geom
open Verif.Simplify (rdi)

theorem lagrange (a b : V3 ℝ) : dot3 a b ^ 2 + dot3 (cross3 a b) (cross3 a b) = dot3 a a * dot3 b b := by
  simp only [dot3, cross3]; ring

theorem near_false {tol : ℝ} {p q : V3 ℝ} (h : tol ^ 2 ≤ sq3 p q) : ¬ distance3 p q < tol := by
  intro hl
  unfold distance3 at hl
  have e : (p.x - q.x) * (p.x - q.x) + (p.y - q.y) * (p.y - q.y) + (p.z - q.z) * (p.z - q.z) = sq3 p q := by simp only [sq3]; ring
  rw [e] at hl
  have h0 : 0 ≤ sq3 p q := by simp only [sq3]; positivity
  have h1 := Real.sq_sqrt h0
  have h2 := Real.sqrt_nonneg (sq3 p q)
  nlinarith

theorem norm_dot3 (u w : V3 ℝ) : |dot3 (u.div (Real.sqrt (dot3 u u))) (w.div (Real.sqrt (dot3 w w)))| = |dot3 u w| / Real.sqrt (dot3 u u * dot3 w w) := by
  have hu : 0 ≤ dot3 u u := Hull3.dot_self_nonneg u
  have e : dot3 (u.div (Real.sqrt (dot3 u u))) (w.div (Real.sqrt (dot3 w w))) = dot3 u w / (Real.sqrt (dot3 u u) * Real.sqrt (dot3 w w)) := by
    have : ∀ s t : ℝ, dot3 (u.div s) (w.div t) = dot3 u w / (s * t) := by
      intro s t
      simp only [dot3, V3.div, div_mul_div_comm, add_div]
    exact this _ _
  rw [e, ← Real.sqrt_mul hu, abs_div, abs_of_nonneg (Real.sqrt_nonneg _)]

theorem coll_false {a b c : V3 ℝ} {tol : ℝ} (h1 : tol ≤ dot3 (b - a) (b - a)) (h2 : tol ≤ dot3 (c - a) (c - a)) (hpos : 0 < tol)
    (h3 : 2 * tol * (dot3 (b - a) (b - a) * dot3 (c - a) (c - a)) ≤ dot3 (cross3 (b - a) (c - a)) (cross3 (b - a) (c - a))) : ¬ collinear3 a b c tol := by
  rintro (h | h | h)
  · linarith
  · linarith
  · rw [norm_dot3] at h
    have hm : 0 < dot3 (b - a) (b - a) * dot3 (c - a) (c - a) := mul_pos (by linarith) (by linarith)
    have hd := lagrange (b - a) (c - a)
    set m := dot3 (b - a) (b - a) * dot3 (c - a) (c - a)
    set d := dot3 (b - a) (c - a)
    have hs := Real.sqrt_pos.2 hm
    have hs2 := Real.sq_sqrt hm.le
    set s := Real.sqrt m
    have hc : (|d| / s) ^ 2 ≤ 1 - 2 * tol := by
      rw [div_pow, sq_abs, hs2, div_le_iff₀ hm]
      nlinarith
    have hc0 : 0 ≤ |d| / s := by positivity
    rw [abs_lt] at h
    nlinarith [h.1, h.2]

/-- Parallel vectors. -/
theorem parallel_abs {a b : V3 ℝ} (h : cross3 a b = 0) : |dot3 a b| = Real.sqrt (dot3 a a) * Real.sqrt (dot3 b b) := by
  have e := lagrange a b
  rw [h] at e
  rw [← Real.sqrt_mul (Hull3.dot_self_nonneg a), ← e]
  have : dot3 (0 : V3 ℝ) 0 = 0 := by simp [dot3]
  rw [this, add_zero, Real.sqrt_sq_eq_abs]

theorem par_iff {tol : ℝ} (ht : 0 < tol) {m n : V3 ℝ} (hm : m ≠ 0) (hn : n ≠ 0)
    (h : cross3 m n ≠ 0 ∨ dot3 m n < 0 → tol ≤ Real.sqrt (dot3 m m) * Real.sqrt (dot3 n n) - dot3 m n) :
    |dot3 m n - Real.sqrt (dot3 m m) * Real.sqrt (dot3 n n)| < tol ↔ SameDir m n := by
  constructor
  · intro hl
    rw [abs_lt] at hl
    by_cases hc : cross3 m n ≠ 0 ∨ dot3 m n < 0
    · have := h hc; linarith [hl.1]
    · push Not at hc
      refine ⟨hc.1, lt_of_le_of_ne hc.2 fun e => ?_⟩
      have h1 := parallel_abs hc.1
      rw [← e, abs_zero] at h1
      have := mul_pos (Real.sqrt_pos.2 (dot_pos hm)) (Real.sqrt_pos.2 (dot_pos hn))
      linarith
  · intro hs
    have h1 := parallel_abs hs.1
    rw [abs_of_pos hs.2] at h1
    rw [h1, sub_self, abs_zero]
    exact ht

theorem turn_iff {tol : ℝ} (ht : 0 < tol) {s t : V3 ℝ} (h : cross3 s t ≠ 0 → tol < Real.sqrt (dot3 s s) * Real.sqrt (dot3 t t) - |dot3 s t|) :
    tol < Real.sqrt (dot3 s s) * Real.sqrt (dot3 t t) - |dot3 s t| ↔ cross3 s t ≠ 0 := by
  refine ⟨fun hl hc => ?_, h⟩
  rw [parallel_abs hc, sub_self] at hl
  linarith

theorem SameDir.symm {K : Type} [Field K] [LinearOrder K] [IsStrictOrderedRing K] {m n : V3 K} (h : SameDir m n) : SameDir n m :=
  ⟨cross_comm_zero h.1, by have := h.2; simp only [dot3] at this ⊢; linarith⟩

theorem SameDir.ne {K : Type} [Field K] [LinearOrder K] {m n : V3 K} (h : SameDir m n) : m ≠ 0 := by
  rintro rfl
  have := h.2
  simp [dot3] at this

/-- The points at the start of a proper facet give its normal. -/
theorem facetNormal_proper {tol : ℝ} (ht : 0 < tol) {L : List (List (V3 ℝ))} (hres : Large tol L) {l : List (V3 ℝ)} (hl : l ∈ L) (hp : Proper l) {dbg : Bool} {points : List (V3 ℝ)} {f : List Int}
    (hf : f.mapM (rdi points) = .ok l) (h3 : 3 ≤ f.length) : facetNormal (realTests tol) dbg points f = .ok (some (l.getD 0 0, l.getD 1 0, l.getD 2 0)) := by
  rw [facetNormal, Res.bind_eq, Res.assert_true dbg h3, Res.bind_ok, Res.bind_eq, hf, Res.bind_ok]
  rcases l with _ | ⟨a, _ | ⟨b, _ | ⟨c, l⟩⟩⟩
  · have := hp.three; simp at this
  · have := hp.three; simp at this
  · have := hp.three; simp at this
  · have hb := hp.bent
    simp only [firstNormal, List.getD_cons_succ, List.getD_cons_zero] at hb
    have hab : a ≠ b := by
      rintro rfl
      exact hb (cross_zero_iff.2 (by simp))
    have hac : a ≠ c := by
      rintro rfl
      exact hb (cross_zero_iff.2 (by simp))
    have d1 := hres.apart _ hl a (by simp) b (by simp) hab
    have d2 := hres.apart _ hl a (by simp) c (by simp) hac
    have d3 := hres.bent _ hl a (by simp) b (by simp) c (by simp) hb
    have e : ∀ p q : V3 ℝ, sq3 p q = dot3 (q - p) (q - p) := fun p q => by simp only [sq3, dot3, V3.sub_x, V3.sub_y, V3.sub_z]; ring
    have n1 : (realTests tol).near a b = false := by
      simp only [realTests, decide_eq_false_iff_not]
      exact near_false d1.1
    have n2 : (realTests tol).coll a b c = false := by
      simp only [realTests, decide_eq_false_iff_not]
      exact coll_false (by rw [← e]; exact d1.2) (by rw [← e]; exact d2.2) ht d3
    simp [n1, n2]
end Verif.Simplify3
