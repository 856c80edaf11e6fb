import Verif.Model.Ray
import Verif.Spec.Ray
import Verif.Proofs.Polygon
import Mathlib.Tactic.Linarith
import Mathlib.Tactic.Ring
import Mathlib.Tactic.FieldSimp
import Mathlib.Tactic.Common
import Mathlib.Tactic.NormNum
/- C34: rays against planes, spheres, circles and boxes. -/
namespace Verif.Geom
open Verif Verif.Mesh
section
variable {K : Type} [Field K] [LinearOrder K] [IsStrictOrderedRing K]

/-- A ray that is not parallel to the plane: a hit is reported with a point of the ray on the plane exactly if there is one. -/
theorem C34_plane_partial {p n pp np : V3 K} {tol : K} (ht : 0 < tol) (hn : tol ≤ |dot3 n np|) :
    (∃ t, 0 ≤ t ∧ OnPlane pp np (along3 p n t) ∧ rayPlane p n pp np tol = some (along3 p n t)) ∨
    ((∀ t, 0 ≤ t → ¬ OnPlane pp np (along3 p n t)) ∧ rayPlane p n pp np tol = none) := by
  have h0 : dot3 n np ≠ 0 := by
    intro h; rw [h, abs_zero] at hn; linarith
  have key : ∀ t, OnPlane pp np (along3 p n t) ↔ t = dot3 (pp - p) np / dot3 n np := by
    intro t
    rw [eq_div_iff h0]
    simp only [OnPlane, along3, dot3, V3.sub_x, V3.sub_y, V3.sub_z]
    constructor <;> intro h <;> linear_combination h
  unfold rayPlane
  dsimp only
  rw [if_neg (not_lt.mpr hn)]
  by_cases hd : dot3 (pp - p) np / dot3 n np ≥ 0
  · left
    exact ⟨_, hd, (key _).mpr rfl, by rw [if_pos hd]; rfl⟩
  · right
    refine ⟨fun t h hp => ?_, by rw [if_neg hd]⟩
    rw [key] at hp
    rw [hp] at h
    exact hd h

/-- A ray from the coordinate origin parallel to any plane is reported as hitting it, at the origin, however far the plane is. -/
theorem C34_plane_parallel_fails {n pp np : V3 K} {tol : K} (ht : 0 < tol) (hn : dot3 n np = 0) : rayPlane 0 n pp np tol = some 0 := by
  unfold rayPlane
  dsimp only
  rw [hn, abs_zero, if_pos ht]
  rw [if_pos (by simp [dot3, ht])]

/-- And a ray that runs in the plane is reported as missing it if its origin has a large enough product with the offset of the plane's point. -/
theorem C34_plane_inside_fails {p n pp np : V3 K} {tol : K} (ht : 0 < tol) (hn : dot3 n np = 0) (hp : tol ≤ |dot3 p (pp - p)|) : rayPlane p n pp np tol = none := by
  unfold rayPlane
  dsimp only
  rw [hn, abs_zero, if_pos ht, if_neg (not_lt.mpr hp)]
end

/-- A ray in the plane `z = 1`, and a plane at distance 5 from a parallel ray. -/
example : dot3 (⟨1, 0, 0⟩ : V3 ℝ) ⟨0, 0, 1⟩ = 0 ∧ (1 / 10 : ℝ) ≤ |dot3 ⟨3, 0, 1⟩ ((⟨0, 0, 1⟩ : V3 ℝ) - ⟨3, 0, 1⟩)| ∧ OnPlane (⟨0, 0, 1⟩ : V3 ℝ) ⟨0, 0, 1⟩ (along3 ⟨3, 0, 1⟩ ⟨1, 0, 0⟩ 7) ∧
    ∀ t : ℝ, ¬ OnPlane (⟨0, 0, 5⟩ : V3 ℝ) ⟨0, 0, 1⟩ (along3 ⟨0, 0, 0⟩ ⟨1, 0, 0⟩ t) := by
  norm_num [dot3, OnPlane, along3, V3.sub_x, V3.sub_y, V3.sub_z]
example : (1 / 10 : ℝ) ≤ |dot3 (⟨0, 0, 1⟩ : V3 ℝ) ⟨0, 0, 1⟩| := by norm_num [dot3]

/-! ### Spheres and circles -/

theorem along_dist3_le {p q : V3 ℝ} {r : ℝ} (hr : 0 ≤ r) : distance3 p q ≤ r ↔ sq3 p q ≤ r ^ 2 := by
  have e : distance3 p q = Real.sqrt (sq3 p q) := by simp only [distance3, sq3, sq]
  rw [e, Real.sqrt_le_left hr]
theorem along_dist2_le {p q : V2 ℝ} {r : ℝ} (hr : 0 ≤ r) : distance2 p q ≤ r ↔ sq2 p q ≤ r ^ 2 := by
  have e : distance2 p q = Real.sqrt (sq2 p q) := by simp only [distance2, sq2, sq]
  rw [e, Real.sqrt_le_left hr]
theorem along_dist3_eq {p q : V3 ℝ} {r : ℝ} (hr : 0 ≤ r) (h : sq3 p q = r ^ 2) : distance3 p q = r := by
  have e : distance3 p q = Real.sqrt (sq3 p q) := by simp only [distance3, sq3, sq]
  rw [e, h, Real.sqrt_sq hr]

/-- A ray with unit direction from inside the sphere: the reported point is on the ray in its forward direction, and either on the sphere or the origin of the ray itself,
which then is on the sphere up to the tolerance. No assertion fails. -/
theorem C34_sphere (dbg : Bool) {p n ps : V3 ℝ} {r tol : ℝ} (hr : 0 ≤ r) (ht : 0 < tol) (hn : dot3 n n = 1) (hin : sq3 p ps ≤ r ^ 2) :
    ∃ t, 0 ≤ t ∧ raySphere dbg p n ps r tol = .ok (along3 p n t) ∧
      (sq3 (along3 p n t) ps = r ^ 2 ∨ (t = 0 ∧ r ^ 2 - sq3 p ps < tol / 4)) := by
  have hn' : n.x * n.x + n.y * n.y + n.z * n.z = 1 := hn
  unfold raySphere
  rw [Res.assert_true dbg ((along_dist3_le hr).mpr hin), Res.ok_bind, Res.assert_true dbg (by rw [hn']; norm_num), Res.ok_bind]
  dsimp only
  have hc : dot3 (p - ps) (p - ps) = sq3 p ps := by simp only [dot3, sq3, V3.sub_x, V3.sub_y, V3.sub_z]; ring
  rw [hc]
  set b := 2 * dot3 n (p - ps) with hb
  set c := sq3 p ps - r * r with hcd
  have hc0 : c ≤ 0 := by rw [hcd]; nlinarith
  have hd0 : 0 ≤ b * b - 4 * c := by nlinarith [mul_self_nonneg b]
  rw [Res.assert_true dbg (show b * b - 4 * c ≥ -tol by linarith), Res.ok_bind]
  by_cases hd : b * b - 4 * c < tol
  · rw [if_pos hd]
    refine ⟨0, le_refl _, ?_, Or.inr ⟨rfl, ?_⟩⟩
    · simp [along3]
    · nlinarith [mul_self_nonneg b]
  · rw [if_neg hd]
    have hs := Real.sq_sqrt hd0
    have hs0 := Real.sqrt_nonneg (b * b - 4 * c)
    set s := Real.sqrt (b * b - 4 * c) with hsd
    have hmax : max (-b - s) (-b + s) = -b + s := max_eq_right (by linarith)
    rw [hmax]
    have hbs : b ≤ s := by
      apply le_of_sq_le_sq _ hs0 |> fun h => h
      rw [hs]; nlinarith
    have ht0 : 0 ≤ 1 / 2 * (-b + s) := by linarith
    rw [Res.assert_true dbg ht0, Res.ok_bind]
    have hon : sq3 (along3 p n (1 / 2 * (-b + s))) ps = r ^ 2 := by
      have : sq3 (along3 p n (1 / 2 * (-b + s))) ps = sq3 p ps + (1 / 2 * (-b + s)) * b + (1 / 2 * (-b + s)) ^ 2 * dot3 n n := by
        rw [hb]; simp only [sq3, along3, dot3, V3.sub_x, V3.sub_y, V3.sub_z]; ring
      rw [this, hn]
      have hs' : s * s = b * b - 4 * (sq3 p ps - r * r) := by rw [← sq, hs, hcd]
      nlinarith
    rw [Res.assert_true dbg (by
      rw [show distance3 ⟨p.x + 1 / 2 * (-b + s) * n.x, p.y + 1 / 2 * (-b + s) * n.y, p.z + 1 / 2 * (-b + s) * n.z⟩ ps = r from along_dist3_eq hr hon]
      simpa using ht), Res.ok_bind]
    exact ⟨_, ht0, rfl, Or.inl hon⟩

/-- The same for circles. -/
theorem C34_circle (dbg : Bool) {p n pc : V2 ℝ} {r tol : ℝ} (hr : 0 ≤ r) (ht : 0 < tol) (hn : dot2 n n = 1) (hin : sq2 p pc ≤ r ^ 2) :
    ∃ t, 0 ≤ t ∧ rayCircle dbg p n pc r tol = .ok (along2 p n t) ∧
      (sq2 (along2 p n t) pc = r ^ 2 ∨ (t = 0 ∧ r ^ 2 - sq2 p pc < tol)) := by
  have hn' : n.x * n.x + n.y * n.y = 1 := hn
  unfold rayCircle
  rw [if_neg (not_lt.mpr ((along_dist2_le hr).mpr hin)), Res.assert_true dbg (by rw [hn']; norm_num), Res.ok_bind]
  dsimp only
  have hc : dot2 (p - pc) (p - pc) = sq2 p pc := by simp only [dot2, sq2, V2.sub_x, V2.sub_y]; ring
  rw [hc]
  set b := dot2 n (p - pc) with hb
  have hd0 : 0 ≤ b * b - sq2 p pc + r * r := by nlinarith [mul_self_nonneg b]
  rw [Res.assert_true dbg (show b * b - sq2 p pc + r * r ≥ -tol by linarith), Res.ok_bind]
  by_cases hd : b * b - sq2 p pc + r * r < tol
  · rw [if_pos hd]
    refine ⟨0, le_refl _, ?_, Or.inr ⟨rfl, ?_⟩⟩
    · simp [along2]
    · nlinarith [mul_self_nonneg b]
  · rw [if_neg hd]
    have hs := Real.sq_sqrt hd0
    have hs0 := Real.sqrt_nonneg (b * b - sq2 p pc + r * r)
    set s := Real.sqrt (b * b - sq2 p pc + r * r) with hsd
    have hmax : max (-b - s) (-b + s) = -b + s := max_eq_right (by linarith)
    rw [hmax]
    have hbs : b ≤ s := by
      apply le_of_sq_le_sq _ hs0 |> fun h => h
      rw [hs]; nlinarith
    have ht0 : 0 ≤ -b + s := by linarith
    rw [Res.assert_true dbg ht0, Res.ok_bind]
    refine ⟨_, ht0, rfl, Or.inl ?_⟩
    have : sq2 (along2 p n (-b + s)) pc = sq2 p pc + 2 * (-b + s) * b + (-b + s) ^ 2 * dot2 n n := by
      rw [hb]; simp only [sq2, along2, dot2, V2.sub_x, V2.sub_y]; ring
    rw [this, hn]
    have hs' : s * s = b * b - sq2 p pc + r * r := by rw [← sq, hs]
    nlinarith

/-- A ray that starts outside the circle is reported as hitting it, at its own origin, whatever its direction. -/
theorem C34_circle_outside_fails (dbg : Bool) {p n pc : V2 ℝ} {r tol : ℝ} (hr : 0 ≤ r) (hout : r ^ 2 < sq2 p pc) : rayCircle dbg p n pc r tol = .ok p := by
  unfold rayCircle
  rw [if_pos (not_le.mp fun h => absurd ((along_dist2_le hr).mp h) (not_le.mpr hout))]

example : dot3 (⟨2 / 3, 2 / 3, 1 / 3⟩ : V3 ℝ) ⟨2 / 3, 2 / 3, 1 / 3⟩ = 1 ∧ sq3 (⟨1, 0, 2⟩ : V3 ℝ) ⟨0, 0, 1⟩ ≤ 2 ^ 2 ∧ dot2 (⟨3 / 5, 4 / 5⟩ : V2 ℝ) ⟨3 / 5, 4 / 5⟩ = 1 ∧
    sq2 (⟨1, 1⟩ : V2 ℝ) ⟨0, 0⟩ ≤ 2 ^ 2 ∧ (1 : ℝ) ^ 2 < sq2 (⟨5, 5⟩ : V2 ℝ) ⟨0, 0⟩ := by norm_num [dot3, sq3, dot2, sq2]

/-! ### Boxes -/

/-- Candidate `(i, c)` is the reported one and no candidate of `hs` is nearer. -/
def Nearest (p : V3 ℝ) (hs : List (Int × Option (V3 ℝ))) (st : BoxHit) : Prop :=
  (∃ c, (st.iplane, some c) ∈ hs ∧ st.result = some c ∧ st.minDist = distance3 p c) ∧ ∀ i c, (i, some c) ∈ hs → st.minDist ≤ distance3 p c

theorem boxStep_nearest {p : V3 ℝ} {hs : List (Int × Option (V3 ℝ))} {st : BoxHit} {i : Int} {cand : Option (V3 ℝ)} (hi : i ≠ 0) {big : ℝ}
    (h : Nearest p hs st ∨ (st.minDist = big ∧ ∀ i c, (i, some c) ∈ hs → big ≤ distance3 p c)) :
    Nearest p (hs ++ [(i, cand)]) (boxStep p st i cand) ∨ ((boxStep p st i cand).minDist = big ∧ ∀ j c, (j, some c) ∈ hs ++ [(i, cand)] → big ≤ distance3 p c) := by
  unfold boxStep
  cases cand with
  | none =>
    rcases h with ⟨⟨c, h1, h2, h3⟩, h4⟩ | ⟨h1, h2⟩
    · left
      exact ⟨⟨c, by simp [h1], h2, h3⟩, fun j d hj => h4 j d (by simpa using hj)⟩
    · right
      exact ⟨h1, by simpa using h2⟩
  | some c =>
    dsimp only
    by_cases hd : distance3 p c < st.minDist
    · left
      rw [if_pos (Or.inr hd)]
      refine ⟨⟨c, by simp, rfl, rfl⟩, fun j d hj => ?_⟩
      rcases List.mem_append.mp hj with hj | hj
      · rcases h with h | ⟨h1, h2⟩
        · exact le_trans (le_of_lt hd) (h.2 j d hj)
        · exact le_trans (le_of_lt hd) (h1 ▸ h2 j d hj)
      · simp only [List.mem_singleton, Prod.mk.injEq, Option.some.injEq] at hj
        rw [hj.2]
    · rw [if_neg (by rintro (h' | h'); exacts [hi h', hd h'])]
      rcases h with ⟨⟨e, h1, h2, h3⟩, h4⟩ | ⟨h1, h2⟩
      · left
        refine ⟨⟨e, by simp [h1], h2, h3⟩, fun j d hj => ?_⟩
        rcases List.mem_append.mp hj with hj | hj
        · exact h4 j d hj
        · simp only [List.mem_singleton, Prod.mk.injEq, Option.some.injEq] at hj
          rw [hj.2]; exact not_lt.mp hd
      · right
        refine ⟨h1, fun j d hj => ?_⟩
        rcases List.mem_append.mp hj with hj | hj
        · exact h2 j d hj
        · simp only [List.mem_singleton, Prod.mk.injEq, Option.some.injEq] at hj
          rw [hj.2, ← h1]; exact not_lt.mp hd

/-- The six candidates. -/
noncomputable def sixHits (p n lo hi : V3 ℝ) (tol : ℝ) : List (Int × Option (V3 ℝ)) :=
  [(0, rayPlane p n lo ⟨1, 0, 0⟩ tol), (1, rayPlane p n hi ⟨1, 0, 0⟩ tol), (2, rayPlane p n lo ⟨0, 1, 0⟩ tol), (3, rayPlane p n hi ⟨0, 1, 0⟩ tol),
    (4, rayPlane p n lo ⟨0, 0, 1⟩ tol), (5, rayPlane p n hi ⟨0, 0, 1⟩ tol)]

theorem rayBox_spec {big : ℝ} {p n lo hi : V3 ℝ} {tol : ℝ} (hex : ∃ i c, (i, some c) ∈ sixHits p n lo hi tol ∧ distance3 p c < big) :
    ∃ i c, rayBox big p n lo hi tol = (i, some c) ∧ (i, some c) ∈ sixHits p n lo hi tol ∧ ∀ j d, (j, some d) ∈ sixHits p n lo hi tol → distance3 p c ≤ distance3 p d := by
  unfold rayBox
  dsimp only
  have h0 : Nearest p [(0, rayPlane p n lo ⟨1, 0, 0⟩ tol)] (boxStep p ⟨-1, big, none⟩ 0 (rayPlane p n lo ⟨1, 0, 0⟩ tol)) ∨
      ((boxStep p ⟨-1, big, none⟩ 0 (rayPlane p n lo ⟨1, 0, 0⟩ tol)).minDist = big ∧ ∀ i c, (i, some c) ∈ [((0 : Int), rayPlane p n lo ⟨1, 0, 0⟩ tol)] → big ≤ distance3 p c) := by
    unfold boxStep
    cases rayPlane p n lo ⟨1, 0, 0⟩ tol with
    | none => right; simp
    | some c =>
      left
      simp only [true_or, if_true]
      refine ⟨⟨c, by simp, rfl, rfl⟩, fun j d hj => ?_⟩
      simp only [List.mem_singleton, Prod.mk.injEq, Option.some.injEq] at hj
      rw [hj.2]
  have h1 := boxStep_nearest (i := 1) (cand := rayPlane p n hi ⟨1, 0, 0⟩ tol) (by decide) h0
  have h2 := boxStep_nearest (i := 2) (cand := rayPlane p n lo ⟨0, 1, 0⟩ tol) (by decide) h1
  have h3 := boxStep_nearest (i := 3) (cand := rayPlane p n hi ⟨0, 1, 0⟩ tol) (by decide) h2
  have h4 := boxStep_nearest (i := 4) (cand := rayPlane p n lo ⟨0, 0, 1⟩ tol) (by decide) h3
  have h5 := boxStep_nearest (i := 5) (cand := rayPlane p n hi ⟨0, 0, 1⟩ tol) (by decide) h4
  rcases h5 with ⟨⟨c, a1, a2, a3⟩, a4⟩ | ⟨_, a2⟩
  · refine ⟨_, c, by rw [a2], a1, fun j d hj => ?_⟩
    rw [← a3]; exact a4 j d hj
  · obtain ⟨i, c, h, hb⟩ := hex
    exact absurd (a2 i c h) (not_le.mpr hb)

/-- What `rayPlaneIntersection` says for a plane across an axis. -/
theorem axis_hit {p n pp np : V3 ℝ} {tol : ℝ} (hn : tol ≤ |dot3 n np|) {c : V3 ℝ} : rayPlane p n pp np tol = some c ↔
    0 ≤ dot3 (pp - p) np / dot3 n np ∧ c = along3 p n (dot3 (pp - p) np / dot3 n np) := by
  unfold rayPlane
  dsimp only
  rw [if_neg (not_lt.mpr hn)]
  split
  · rename_i h
    exact ⟨fun e => ⟨h, by injection e with e; exact e.symm⟩, fun e => by rw [e.2]; rfl⟩
  · rename_i h
    exact ⟨fun e => by simp at e, fun e => absurd e.1 h⟩

theorem dist_along {p n : V3 ℝ} {t : ℝ} (ht : 0 ≤ t) : distance3 p (along3 p n t) = t * Real.sqrt (dot3 n n) := by
  have : distance3 p (along3 p n t) = Real.sqrt (t ^ 2 * dot3 n n) := by
    unfold distance3 along3 dot3; congr 1; dsimp only; ring
  rw [this, Real.sqrt_mul (sq_nonneg _), Real.sqrt_sq ht]

/-- One coordinate of a ray that starts strictly between two bounds. -/
theorem one_axis {l h p n : ℝ} (hl : l < p) (hh : p < h) (hn : n ≠ 0) :
    ∃ t, 0 < t ∧ ((p + t * n = h ∧ (h - p) / n = t ∧ (l - p) / n < 0) ∨ (p + t * n = l ∧ (l - p) / n = t ∧ (h - p) / n < 0)) ∧
      (∀ s, 0 ≤ s → s < t → l < p + s * n ∧ p + s * n < h) ∧ (∀ s, 0 ≤ s → s ≤ t → l ≤ p + s * n ∧ p + s * n ≤ h) := by
  rcases lt_or_gt_of_ne hn with h0 | h0
  · refine ⟨(l - p) / n, div_pos_of_neg_of_neg (by linarith) h0, Or.inr ⟨by field_simp; ring, rfl, div_neg_of_pos_of_neg (by linarith) h0⟩, fun s hs hst => ?_, fun s hs hst => ?_⟩
    · have := (lt_div_iff_of_neg h0).mp hst
      exact ⟨by linarith, by nlinarith⟩
    · have := (le_div_iff_of_neg h0).mp hst
      exact ⟨by linarith, by nlinarith⟩
  · refine ⟨(h - p) / n, div_pos (by linarith) h0, Or.inl ⟨by field_simp; ring, rfl, div_neg_of_neg_of_pos (by linarith) h0⟩, fun s hs hst => ?_, fun s hs hst => ?_⟩
    · have := (lt_div_iff₀ h0).mp hst
      exact ⟨by nlinarith, by linarith⟩
    · have := (le_div_iff₀ h0).mp hst
      exact ⟨by nlinarith, by linarith⟩

/-- A ray that starts strictly inside the box and is not parallel to any side: the reported point is the point where the ray leaves the box, and the reported number is that of a side
it is on. -/
theorem C34_box_partial {big : ℝ} {p n lo hi : V3 ℝ} {tol : ℝ} (ht : 0 < tol) (hx : tol ≤ |n.x|) (hy : tol ≤ |n.y|) (hz : tol ≤ |n.z|) (hin : InsideBox lo hi p)
    (hbig : ∀ q, InBox lo hi q → distance3 p q < big) :
    ∃ k t, 0 < t ∧ rayBox big p n lo hi tol = (k, some (along3 p n t)) ∧ OnSide lo hi (along3 p n t) k ∧ ∀ s, 0 ≤ s → s < t → InsideBox lo hi (along3 p n s) := by
  obtain ⟨a1, a2, a3, a4, a5, a6⟩ := hin
  have nz : ∀ v : ℝ, tol ≤ |v| → v ≠ 0 := by
    intro v h h0; rw [h0, abs_zero] at h; linarith
  have dx : dot3 n ⟨1, 0, 0⟩ = n.x := by simp [dot3]
  have dy : dot3 n ⟨0, 1, 0⟩ = n.y := by simp [dot3]
  have dz : dot3 n ⟨0, 0, 1⟩ = n.z := by simp [dot3]
  have ex : ∀ q : V3 ℝ, dot3 (q - p) ⟨1, 0, 0⟩ = q.x - p.x := by intro q; simp [dot3, V3.sub_x]
  have ey : ∀ q : V3 ℝ, dot3 (q - p) ⟨0, 1, 0⟩ = q.y - p.y := by intro q; simp [dot3, V3.sub_y]
  have ez : ∀ q : V3 ℝ, dot3 (q - p) ⟨0, 0, 1⟩ = q.z - p.z := by intro q; simp [dot3, V3.sub_z]
  obtain ⟨tx, tx0, cx, ix, bx⟩ := one_axis a1 a2 (nz _ hx)
  obtain ⟨ty, ty0, cy, iy, by'⟩ := one_axis a3 a4 (nz _ hy)
  obtain ⟨tz, tz0, cz, iz, bz⟩ := one_axis a5 a6 (nz _ hz)
  have nn : 0 < Real.sqrt (dot3 n n) := Real.sqrt_pos.mpr (by
    have := mul_self_pos.mpr (nz _ hx)
    unfold dot3; nlinarith [mul_self_nonneg n.y, mul_self_nonneg n.z])
  -- membership of the six
  have hitx : ∀ pp c, rayPlane p n pp ⟨1, 0, 0⟩ tol = some c ↔ 0 ≤ (pp.x - p.x) / n.x ∧ c = along3 p n ((pp.x - p.x) / n.x) := by
    intro pp c; rw [axis_hit (by rw [dx]; exact hx), dx, ex]
  have hity : ∀ pp c, rayPlane p n pp ⟨0, 1, 0⟩ tol = some c ↔ 0 ≤ (pp.y - p.y) / n.y ∧ c = along3 p n ((pp.y - p.y) / n.y) := by
    intro pp c; rw [axis_hit (by rw [dy]; exact hy), dy, ey]
  have hitz : ∀ pp c, rayPlane p n pp ⟨0, 0, 1⟩ tol = some c ↔ 0 ≤ (pp.z - p.z) / n.z ∧ c = along3 p n ((pp.z - p.z) / n.z) := by
    intro pp c; rw [axis_hit (by rw [dz]; exact hz), dz, ez]
  have mem : ∀ i c, (i, some c) ∈ sixHits p n lo hi tol ↔
      (i = 0 ∧ rayPlane p n lo ⟨1, 0, 0⟩ tol = some c) ∨ (i = 1 ∧ rayPlane p n hi ⟨1, 0, 0⟩ tol = some c) ∨ (i = 2 ∧ rayPlane p n lo ⟨0, 1, 0⟩ tol = some c) ∨
      (i = 3 ∧ rayPlane p n hi ⟨0, 1, 0⟩ tol = some c) ∨ (i = 4 ∧ rayPlane p n lo ⟨0, 0, 1⟩ tol = some c) ∨ (i = 5 ∧ rayPlane p n hi ⟨0, 0, 1⟩ tol = some c) := by
    intro i c
    simp only [sixHits, List.mem_cons, Prod.mk.injEq, List.not_mem_nil, or_false, eq_comm (a := some c)]
  have memx : ∃ i, (i, some (along3 p n tx)) ∈ sixHits p n lo hi tol := by
    rcases cx with ⟨_, h2, _⟩ | ⟨_, h2, _⟩
    · exact ⟨1, (mem _ _).mpr (Or.inr (Or.inl ⟨rfl, (hitx _ _).mpr (by rw [h2]; exact ⟨tx0.le, rfl⟩)⟩))⟩
    · exact ⟨0, (mem _ _).mpr (Or.inl ⟨rfl, (hitx _ _).mpr (by rw [h2]; exact ⟨tx0.le, rfl⟩)⟩)⟩
  have memy : ∃ i, (i, some (along3 p n ty)) ∈ sixHits p n lo hi tol := by
    rcases cy with ⟨_, h2, _⟩ | ⟨_, h2, _⟩
    · exact ⟨3, (mem _ _).mpr (Or.inr (Or.inr (Or.inr (Or.inl ⟨rfl, (hity _ _).mpr (by rw [h2]; exact ⟨ty0.le, rfl⟩)⟩))))⟩
    · exact ⟨2, (mem _ _).mpr (Or.inr (Or.inr (Or.inl ⟨rfl, (hity _ _).mpr (by rw [h2]; exact ⟨ty0.le, rfl⟩)⟩)))⟩
  have memz : ∃ i, (i, some (along3 p n tz)) ∈ sixHits p n lo hi tol := by
    rcases cz with ⟨_, h2, _⟩ | ⟨_, h2, _⟩
    · exact ⟨5, (mem _ _).mpr (Or.inr (Or.inr (Or.inr (Or.inr (Or.inr ⟨rfl, (hitz _ _).mpr (by rw [h2]; exact ⟨tz0.le, rfl⟩)⟩)))))⟩
    · exact ⟨4, (mem _ _).mpr (Or.inr (Or.inr (Or.inr (Or.inr (Or.inl ⟨rfl, (hitz _ _).mpr (by rw [h2]; exact ⟨tz0.le, rfl⟩)⟩)))))⟩
  have inb : ∀ t, 0 ≤ t → t ≤ tx → t ≤ ty → t ≤ tz → InBox lo hi (along3 p n t) := fun t h0 h1 h2 h3 =>
    ⟨(bx t h0 h1).1, (bx t h0 h1).2, (by' t h0 h2).1, (by' t h0 h2).2, (bz t h0 h3).1, (bz t h0 h3).2⟩
  have inn : ∀ t, t ≤ tx → t ≤ ty → t ≤ tz → ∀ s, 0 ≤ s → s < t → InsideBox lo hi (along3 p n s) := fun t h1 h2 h3 s hs hst =>
    ⟨(ix s hs (by linarith)).1, (ix s hs (by linarith)).2, (iy s hs (by linarith)).1, (iy s hs (by linarith)).2, (iz s hs (by linarith)).1, (iz s hs (by linarith)).2⟩
  have hex : ∃ i c, (i, some c) ∈ sixHits p n lo hi tol ∧ distance3 p c < big := by
    rcases le_total tx ty with h1 | h1
    · rcases le_total tx tz with h2 | h2
      · exact ⟨_, _, memx.choose_spec, hbig _ (inb _ tx0.le (le_refl _) h1 h2)⟩
      · exact ⟨_, _, memz.choose_spec, hbig _ (inb _ tz0.le h2 (by linarith) (le_refl _))⟩
    · rcases le_total ty tz with h2 | h2
      · exact ⟨_, _, memy.choose_spec, hbig _ (inb _ ty0.le h1 (le_refl _) h2)⟩
      · exact ⟨_, _, memz.choose_spec, hbig _ (inb _ tz0.le (by linarith) h2 (le_refl _))⟩
  obtain ⟨i, c, e, hm, hmin⟩ := rayBox_spec hex
  -- the reported parameter is a least one
  have least : ∀ t, 0 < t → c = along3 p n t → t ≤ tx ∧ t ≤ ty ∧ t ≤ tz := by
    intro t t0 hc
    have f : ∀ t', 0 < t' → (∃ i, (i, some (along3 p n t')) ∈ sixHits p n lo hi tol) → t ≤ t' := by
      rintro t' t0' ⟨j, hj⟩
      have := hmin _ _ hj
      rw [hc, dist_along t0.le, dist_along t0'.le] at this
      exact le_of_mul_le_mul_right this nn
    exact ⟨f _ tx0 memx, f _ ty0 memy, f _ tz0 memz⟩
  have fin : ∀ t, 0 < t → c = along3 p n t → (InBox lo hi (along3 p n t) → OnSide lo hi (along3 p n t) i) →
      ∃ k t, 0 < t ∧ rayBox big p n lo hi tol = (k, some (along3 p n t)) ∧ OnSide lo hi (along3 p n t) k ∧ ∀ s, 0 ≤ s → s < t → InsideBox lo hi (along3 p n s) := by
    intro t t0 hc ho
    obtain ⟨l1, l2, l3⟩ := least t t0 hc
    exact ⟨i, t, t0, by rw [e, hc], ho (inb t t0.le l1 l2 l3), inn t l1 l2 l3⟩
  rcases (mem _ _).mp hm with ⟨hi', h⟩ | ⟨hi', h⟩ | ⟨hi', h⟩ | ⟨hi', h⟩ | ⟨hi', h⟩ | ⟨hi', h⟩
  · obtain ⟨h0, hc⟩ := (hitx _ _).mp h
    rcases cx with ⟨_, _, h3⟩ | ⟨h1, h2, _⟩
    · linarith
    · rw [h2] at hc
      exact fin tx tx0 hc fun hb => ⟨hb, Or.inl ⟨hi', h1⟩⟩
  · obtain ⟨h0, hc⟩ := (hitx _ _).mp h
    rcases cx with ⟨h1, h2, _⟩ | ⟨_, _, h3⟩
    · rw [h2] at hc
      exact fin tx tx0 hc fun hb => ⟨hb, Or.inr (Or.inl ⟨hi', h1⟩)⟩
    · linarith
  · obtain ⟨h0, hc⟩ := (hity _ _).mp h
    rcases cy with ⟨_, _, h3⟩ | ⟨h1, h2, _⟩
    · linarith
    · rw [h2] at hc
      exact fin ty ty0 hc fun hb => ⟨hb, Or.inr (Or.inr (Or.inl ⟨hi', h1⟩))⟩
  · obtain ⟨h0, hc⟩ := (hity _ _).mp h
    rcases cy with ⟨h1, h2, _⟩ | ⟨_, _, h3⟩
    · rw [h2] at hc
      exact fin ty ty0 hc fun hb => ⟨hb, Or.inr (Or.inr (Or.inr (Or.inl ⟨hi', h1⟩)))⟩
    · linarith
  · obtain ⟨h0, hc⟩ := (hitz _ _).mp h
    rcases cz with ⟨_, _, h3⟩ | ⟨h1, h2, _⟩
    · linarith
    · rw [h2] at hc
      exact fin tz tz0 hc fun hb => ⟨hb, Or.inr (Or.inr (Or.inr (Or.inr (Or.inl ⟨hi', h1⟩))))⟩
  · obtain ⟨h0, hc⟩ := (hitz _ _).mp h
    rcases cz with ⟨h1, h2, _⟩ | ⟨_, _, h3⟩
    · rw [h2] at hc
      exact fin tz tz0 hc fun hb => ⟨hb, Or.inr (Or.inr (Or.inr (Or.inr (Or.inr ⟨hi', h1⟩))))⟩
    · linarith

/-- The hypotheses hold for a ray from near a corner of the unit box. -/
example : InsideBox ⟨0, 0, 0⟩ ⟨1, 1, 1⟩ ⟨1 / 10, 1 / 5, 1 / 2⟩ ∧ (1 / 10 : ℝ) ≤ |(2 / 3 : ℝ)| ∧ (1 / 10 : ℝ) ≤ |(-1 / 3 : ℝ)| ∧
    ∀ q, InBox ⟨0, 0, 0⟩ ⟨1, 1, 1⟩ q → distance3 ⟨1 / 10, 1 / 5, 1 / 2⟩ q < 10 := by
  refine ⟨by norm_num [InsideBox], by norm_num [abs_of_pos], by norm_num [abs_div], ?_⟩
  rintro q ⟨h1, h2, h3, h4, h5, h6⟩
  refine lt_of_le_of_lt ((along_dist3_le (r := 3) (by norm_num)).mpr ?_) (by norm_num)
  simp only [sq3] at *
  nlinarith

/-- A ray along the x axis from the coordinate origin: wherever the box around it is, the reported point is the origin of the ray itself, on side 2, although it is strictly inside. -/
theorem C34_box_axis_fails {big : ℝ} {lo hi : V3 ℝ} {tol : ℝ} (ht : 0 < tol) (ht1 : tol ≤ 1) (hin : InsideBox lo hi ⟨0, 0, 0⟩) (hbig : hi.x < big) :
    rayBox big 0 ⟨1, 0, 0⟩ lo hi tol = (2, some 0) := by
  obtain ⟨a1, a2, a3, a4, a5, a6⟩ := hin
  have par : ∀ (pp np : V3 ℝ), np.x = 0 → rayPlane (0 : V3 ℝ) ⟨1, 0, 0⟩ pp np tol = some 0 := fun pp np h => C34_plane_parallel_fails ht (by simp [dot3, h])
  have l : rayPlane (0 : V3 ℝ) ⟨1, 0, 0⟩ lo ⟨1, 0, 0⟩ tol = none := by
    unfold rayPlane
    dsimp only at *
    have : ¬ (0 : ℝ) ≤ lo.x := not_le.mpr a1
    simp [dot3, this, not_lt.mpr ht1]
  have h : rayPlane (0 : V3 ℝ) ⟨1, 0, 0⟩ hi ⟨1, 0, 0⟩ tol = some ⟨hi.x, 0, 0⟩ := by
    unfold rayPlane
    dsimp only at *
    simp [dot3, a2.le, not_lt.mpr ht1]
  have d0 : distance3 (0 : V3 ℝ) 0 = 0 := by simp [distance3]
  have d1 : distance3 (0 : V3 ℝ) ⟨hi.x, 0, 0⟩ = hi.x := by
    dsimp only at a2
    simp [distance3, Real.sqrt_mul_self a2.le]
  unfold rayBox
  dsimp only
  rw [l, h, par _ _ rfl, par _ _ rfl, par _ _ rfl, par _ _ rfl]
  dsimp only at a2
  simp [boxStep, d0, d1, hbig, a2]

/-- Any ray that points forward in x from a point not beyond the lower x side is reported as hitting the box, wherever else the box is. -/
theorem C34_box_outside_fails {big : ℝ} {p n lo hi : V3 ℝ} {tol : ℝ} (hx : tol ≤ n.x) (hp : p.x ≤ lo.x) (ht : 0 < tol) : (rayBox big p n lo hi tol).1 ≠ -1 := by
  have h : ∃ c, rayPlane p n lo ⟨1, 0, 0⟩ tol = some c := by
    have hn : tol ≤ |dot3 n ⟨1, 0, 0⟩| := by
      rw [show dot3 n ⟨1, 0, 0⟩ = n.x by simp [dot3]]
      exact le_trans hx (le_abs_self _)
    refine ⟨_, (axis_hit hn).mpr ⟨?_, rfl⟩⟩
    have e1 : dot3 n ⟨1, 0, 0⟩ = n.x := by simp [dot3]
    have e2 : dot3 (lo - p) ⟨1, 0, 0⟩ = lo.x - p.x := by simp [dot3, V3.sub_x]
    rw [e1, e2]
    exact div_nonneg (by linarith) (by linarith)
  obtain ⟨c, h⟩ := h
  have step : ∀ (st : BoxHit) (i : Int) (cand : Option (V3 ℝ)), 0 ≤ st.iplane → 0 ≤ i → 0 ≤ (boxStep p st i cand).iplane := by
    intro st i cand h1 h2
    unfold boxStep
    cases cand with
    | none => exact h1
    | some c => dsimp only; split <;> assumption
  have h0 : 0 ≤ (boxStep p ⟨-1, big, none⟩ 0 (rayPlane p n lo ⟨1, 0, 0⟩ tol)).iplane := by rw [h]; simp [boxStep]
  have : 0 ≤ (rayBox big p n lo hi tol).1 := by
    unfold rayBox
    exact step _ _ _ (step _ _ _ (step _ _ _ (step _ _ _ (step _ _ _ h0 (by decide)) (by decide)) (by decide)) (by decide)) (by decide)
  omega

/-- A ray that meets these hypotheses and misses the box. -/
example : (1 / 10 : ℝ) ≤ (2 / 3 : ℝ) ∧ ∀ t : ℝ, 0 ≤ t → ¬ InBox ⟨1, 0, 0⟩ ⟨2, 1, 1⟩ (along3 ⟨0, 5, 5⟩ ⟨2 / 3, 2 / 3, 1 / 3⟩ t) := by
  refine ⟨by norm_num, fun t ht h => ?_⟩
  obtain ⟨_, _, _, h4, _⟩ := h
  simp only [along3] at h4
  linarith
end Verif.Geom
