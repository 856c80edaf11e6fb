import Verif.Model.PolygonClass
import Verif.Proofs.Crossing
/- The crossing counts of `Polygon::queryPoint`. -/
namespace Verif.Poly
open Verif Verif.Geom
variable {K : Type} [Field K] [LinearOrder K] [IsStrictOrderedRing K]

theorem right_toggles (p v v1 : V2 K) : rightCross (v - p) (v1 - p) = toggles p v v1 := by
  rw [toggles_passes]
  unfold rightCross
  have e1 : ∀ w : V2 K, decide ((w - p).y > 0) = decide (p.y < w.y) := fun w => by rw [decide_eq_decide]; simp [sub_pos]
  rw [e1, e1]
  by_cases hs : decide (p.y < v.y) = decide (p.y < v1.y)
  · simp [hs]
  · have hne : v1.y - v.y ≠ 0 := by
      intro e
      have : v1.y = v.y := by linear_combination e
      rw [this] at hs; exact hs rfl
    have : axis (v - p) (v1 - p) = (passes p v v1).x - p.x := by
      unfold axis passes
      have e2 : (v1 - p).y - (v - p).y = v1.y - v.y := by simp
      rw [e2]
      simp only [V2.sub_x, V2.sub_y]
      field_simp; ring
    rw [this]
    congr 1
    rw [decide_eq_decide, gt_iff_lt, sub_pos]

/-- Above `p`, or level with it and to its left. -/
def upLeft (p w : V2 K) : Bool := decide (p.y < w.y) || (decide (w.y = p.y) && decide (w.x < p.x))

open Classical in
/-- One side: the two counts differ by whether the point is on it, up to what cancels around the polygon. -/
theorem cross_side {p u v : V2 K} (hu : u ≠ p) (hv : v ≠ p) :
    (rightCross (v - p) (u - p) != leftCross (v - p) (u - p)) = (decide (OnSeg u v p) != (upLeft p u != upLeft p v)) := by
  have hyu : u.y = p.y → u.x ≠ p.x := fun h h' => hu (V2.ext h' h)
  have hyv : v.y = p.y → v.x ≠ p.x := fun h h' => hv (V2.ext h' h)
  have hax : v.y ≠ u.y → (u.y - v.y) * axis (v - p) (u - p) = area2 u v p * (-1) := by
    intro hne
    have h0 : u.y - v.y ≠ 0 := sub_ne_zero.2 (Ne.symm hne)
    unfold axis area2
    have e2 : (u - p).y - (v - p).y = u.y - v.y := by simp
    rw [e2]
    simp only [V2.sub_x, V2.sub_y]
    field_simp; ring
  -- `p` on the side
  have hon : ∀ a b : V2 K, a.y < b.y → (OnSeg a b p ↔ a.y ≤ p.y ∧ p.y ≤ b.y ∧ area2 a b p = 0) := by
    intro a b hab
    constructor
    · rintro ⟨t, t0, t1, e⟩
      have hx := congrArg V2.x e
      have hy := congrArg V2.y e
      unfold lerp2 at hx hy
      simp only at hx hy
      refine ⟨?_, ?_, ?_⟩
      · rw [hy]; have := mul_nonneg t0 (sub_nonneg.2 hab.le); linarith
      · rw [hy]; have := mul_le_mul_of_nonneg_right t1 (sub_nonneg.2 hab.le); linarith
      · unfold area2; rw [hx, hy]; ring
    · rintro ⟨h0, h1, h2⟩
      exact on_band hab h2 h0 h1
  have hsym : OnSeg u v p ↔ OnSeg v u p := by
    have : ∀ a b : V2 K, OnSeg a b p → OnSeg b a p := by
      rintro a b ⟨t, t0, t1, e⟩
      exact ⟨1 - t, by linarith, by linarith, by rw [e]; unfold lerp2; ext <;> simp only <;> ring⟩
    exact ⟨this _ _, this _ _⟩
  have dR : ∀ w : V2 K, decide ((w - p).y > 0) = decide (p.y < w.y) := fun w => by rw [decide_eq_decide]; simp [sub_pos]
  have dL : ∀ w : V2 K, decide ((w - p).y < 0) = decide (w.y < p.y) := fun w => by rw [decide_eq_decide]; simp
  unfold rightCross leftCross upLeft
  rw [dR, dR, dL, dL]
  rcases lt_trichotomy u.y p.y with h1 | h1 | h1 <;> rcases lt_trichotomy v.y p.y with h2 | h2 | h2
  · -- both below
    have : ¬ OnSeg u v p := by
      rintro ⟨t, t0, t1, e⟩
      have hy := congrArg V2.y e
      unfold lerp2 at hy; simp only at hy
      have e1 : p.y = (1 - t) * u.y + t * v.y := by rw [hy]; ring
      rcases t0.lt_or_eq with t0 | t0
      · have a1 := mul_le_mul_of_nonneg_left h1.le (sub_nonneg.2 t1)
        have a2 := mul_lt_mul_of_pos_left h2 t0
        linarith
      · rw [← t0] at e1; linarith
    simp [this, h1, h2, not_lt.2 h1.le, not_lt.2 h2.le, h1.ne, h2.ne]
  · -- u below, v level
    have hlt : u.y < v.y := by linarith
    have hA := hax hlt.ne'
    have hB : area2 u v p = (v.y - u.y) * (v.x - p.x) := by unfold area2; rw [h2]; ring
    have hx : axis (v - p) (u - p) = v.x - p.x := by
      have : u.y - v.y ≠ 0 := by linarith
      apply mul_left_cancel₀ this
      rw [hA, hB]; ring
    have hO : ¬ OnSeg u v p := by
      rw [hon u v hlt]
      rintro ⟨-, -, h⟩
      rw [hB] at h
      rcases mul_eq_zero.1 h with h | h
      · linarith
      · exact hyv h2 (by linear_combination h)
    rw [hx]
    rcases lt_or_gt_of_ne (hyv h2) with h3 | h3
    · simp [hO, h1, h2, not_lt.2 h1.le, h1.ne, h3]
    · simp [hO, h1, h2, not_lt.2 h1.le, h1.ne, h3, not_lt.2 h3.le]
  · -- u below, v above
    have hlt : u.y < v.y := by linarith
    have hA := hax hlt.ne'
    have hO := hon u v hlt
    have hneg : u.y - v.y < 0 := by linarith
    rcases lt_trichotomy (axis (v - p) (u - p)) 0 with h3 | h3 | h3
    · have : area2 u v p ≠ 0 := by
        have := mul_pos_of_neg_of_neg hneg h3
        intro h; rw [h] at hA; linarith
      simp [hO, h1, h2, not_lt.2 h1.le, not_lt.2 h2.le, h1.ne, h3, not_lt.2 h3.le, this]
    · have : area2 u v p = 0 := by rw [h3] at hA; linarith
      simp [hO, h1, h2, not_lt.2 h1.le, not_lt.2 h2.le, h1.ne, h1.le, h2.le, h3, this]
    · have : area2 u v p ≠ 0 := by
        have := mul_neg_of_neg_of_pos hneg h3
        intro h; rw [h] at hA; linarith
      simp [hO, h1, h2, not_lt.2 h1.le, not_lt.2 h2.le, h1.ne, h3, not_lt.2 h3.le, this]
  · -- u level, v below
    have hlt : v.y < u.y := by linarith
    have hA := hax hlt.ne
    have hB : area2 u v p = (v.y - u.y) * (u.x - p.x) := by unfold area2; rw [h1]; ring
    have hx : axis (v - p) (u - p) = u.x - p.x := by
      have : u.y - v.y ≠ 0 := by linarith
      apply mul_left_cancel₀ this
      rw [hA, hB]; ring
    have hO : ¬ OnSeg u v p := by
      rw [hsym, hon v u hlt]
      rintro ⟨-, -, h⟩
      have e : area2 v u p = -area2 u v p := by unfold area2; ring
      rw [e, hB] at h
      rcases mul_eq_zero.1 (neg_eq_zero.1 h) with h | h
      · linarith
      · exact hyu h1 (by linear_combination h)
    rw [hx]
    rcases lt_or_gt_of_ne (hyu h1) with h3 | h3
    · simp [hO, h1, h2, not_lt.2 h2.le, h2.ne, h3]
    · simp [hO, h1, h2, not_lt.2 h2.le, h2.ne, h3, not_lt.2 h3.le]
  · -- both level
    have hO : OnSeg u v p ↔ (u.x < p.x ↔ p.x < v.x) := by
      have flat : ∀ t : K, p.x = u.x + t * (v.x - u.x) → p = lerp2 u v t := by
        intro t ht
        unfold lerp2
        ext
        · exact ht
        · simp only; rw [h1, h2]; ring
      rcases lt_or_gt_of_ne (hyu h1) with a1 | a1 <;> rcases lt_or_gt_of_ne (hyv h2) with a2 | a2
      · simp only [a1, not_lt.2 a2.le, iff_false, not_true_eq_false]
        rintro ⟨t, t0, t1, e⟩
        have hx := congrArg V2.x e
        unfold lerp2 at hx; simp only at hx
        have e1 : p.x = (1 - t) * u.x + t * v.x := by rw [hx]; ring
        rcases t0.lt_or_eq with t0 | t0
        · have b1 := mul_le_mul_of_nonneg_left a1.le (sub_nonneg.2 t1)
          have b2 := mul_lt_mul_of_pos_left a2 t0
          linarith
        · rw [← t0] at e1; linarith
      · simp only [a1, true_iff, gt_iff_lt.1 a2, iff_true]
        have : 0 < v.x - u.x := by linarith
        exact ⟨(p.x - u.x) / (v.x - u.x), div_nonneg (by linarith) this.le, by rw [div_le_one this]; linarith, flat _ (by field_simp; ring)⟩
      · simp only [not_lt.2 a1.le, not_lt.2 a2.le, false_iff, not_false_eq_true, iff_true]
        have : v.x - u.x < 0 := by linarith
        have hne : v.x - u.x ≠ 0 := this.ne
        exact ⟨(p.x - u.x) / (v.x - u.x), div_nonneg_of_nonpos (by linarith) this.le, by rw [div_le_one_of_neg this]; linarith, flat _ (by field_simp; ring)⟩
      · simp only [not_lt.2 a1.le, gt_iff_lt.1 a2, iff_true, iff_false, not_true_eq_false]
        rintro ⟨t, t0, t1, e⟩
        have hx := congrArg V2.x e
        unfold lerp2 at hx; simp only at hx
        have e1 : p.x = (1 - t) * u.x + t * v.x := by rw [hx]; ring
        rcases t0.lt_or_eq with t0 | t0
        · have b1 := mul_le_mul_of_nonneg_left a1.le (sub_nonneg.2 t1)
          have b2 := mul_lt_mul_of_pos_left a2 t0
          linarith
        · rw [← t0] at e1; linarith
    rcases lt_or_gt_of_ne (hyu h1) with a1 | a1 <;> rcases lt_or_gt_of_ne (hyv h2) with a2 | a2
    · simp [hO, h1, h2, a1, a2, not_lt.2 a2.le]
    · simp [hO, h1, h2, a1, gt_iff_lt.1 a2, not_lt.2 a2.le]
    · simp [hO, h1, h2, not_lt.2 a1.le, not_lt.2 a2.le, a2]
    · simp [hO, h1, h2, not_lt.2 a1.le, gt_iff_lt.1 a2, not_lt.2 a2.le]
  · -- u level, v above
    have hlt : u.y < v.y := by linarith
    have hA := hax hlt.ne'
    have hB : area2 u v p = (v.y - u.y) * (u.x - p.x) := by unfold area2; rw [h1]; ring
    have hx : axis (v - p) (u - p) = u.x - p.x := by
      have : u.y - v.y ≠ 0 := by linarith
      apply mul_left_cancel₀ this
      rw [hA, hB]; ring
    have hO : ¬ OnSeg u v p := by
      rw [hon u v hlt]
      rintro ⟨-, -, h⟩
      rw [hB] at h
      rcases mul_eq_zero.1 h with h | h
      · linarith
      · exact hyu h1 (by linear_combination h)
    rw [hx]
    rcases lt_or_gt_of_ne (hyu h1) with h3 | h3
    · simp [hO, h1, h2, not_lt.2 h2.le, h2.ne', h3, not_lt.2 h3.le]
    · simp [hO, h1, h2, not_lt.2 h2.le, h2.ne', h3, not_lt.2 h3.le]
  · -- u above, v below
    have hlt : v.y < u.y := by linarith
    have hA := hax hlt.ne
    have hO := hon v u hlt
    have hr : area2 v u p = -area2 u v p := by unfold area2; ring
    rw [← hsym, hr] at hO
    have hpos : 0 < u.y - v.y := by linarith
    rcases lt_trichotomy (axis (v - p) (u - p)) 0 with h3 | h3 | h3
    · have : area2 u v p ≠ 0 := by
        have := mul_neg_of_pos_of_neg hpos h3
        intro h; rw [h] at hA; linarith
      simp [hO, h1, h2, not_lt.2 h1.le, not_lt.2 h2.le, h2.ne, h3, not_lt.2 h3.le, this]
    · have : area2 u v p = 0 := by rw [h3] at hA; linarith
      simp [hO, h1, h2, not_lt.2 h1.le, not_lt.2 h2.le, h2.ne, h1.le, h2.le, h3, this]
    · have : area2 u v p ≠ 0 := by
        have := mul_pos hpos h3
        intro h; rw [h] at hA; linarith
      simp [hO, h1, h2, not_lt.2 h1.le, not_lt.2 h2.le, h2.ne, h3, not_lt.2 h3.le, this]
  · -- u above, v level
    have hlt : v.y < u.y := by linarith
    have hA := hax hlt.ne
    have hB : area2 u v p = (v.y - u.y) * (v.x - p.x) := by unfold area2; rw [h2]; ring
    have hx : axis (v - p) (u - p) = v.x - p.x := by
      have : u.y - v.y ≠ 0 := by linarith
      apply mul_left_cancel₀ this
      rw [hA, hB]; ring
    have hO : ¬ OnSeg u v p := by
      rw [hsym, hon v u hlt]
      rintro ⟨-, -, h⟩
      have e : area2 v u p = -area2 u v p := by unfold area2; ring
      rw [e, hB] at h
      rcases mul_eq_zero.1 (neg_eq_zero.1 h) with h | h
      · linarith
      · exact hyv h2 (by linear_combination h)
    rw [hx]
    rcases lt_or_gt_of_ne (hyv h2) with h3 | h3
    · simp [hO, h1, h2, not_lt.2 h1.le, h1.ne', h3, not_lt.2 h3.le]
    · simp [hO, h1, h2, not_lt.2 h1.le, h1.ne', h3, not_lt.2 h3.le]
  · -- both above
    have : ¬ OnSeg u v p := by
      rintro ⟨t, t0, t1, e⟩
      have hy := congrArg V2.y e
      unfold lerp2 at hy; simp only at hy
      have e1 : p.y = (1 - t) * u.y + t * v.y := by rw [hy]; ring
      rcases t0.lt_or_eq with t0 | t0
      · have a1 := mul_le_mul_of_nonneg_left h1.le (sub_nonneg.2 t1)
        have a2 := mul_lt_mul_of_pos_left h2 t0
        linarith
      · rw [← t0] at e1; linarith
    simp [this, h1, h2, not_lt.2 h1.le, not_lt.2 h2.le]

/-- The end of `queryPoint` (L96-103) as a function of the two parities. -/
def verdict (r l : Bool) : Loc := if r ≠ l then .onEdge else if r = true then .inside else .outside

omit [IsStrictOrderedRing K] in
theorem queryLoop_vertex (p : V2 K) : ∀ (vs : List (V2 K)) (v1 : V2 K) (R L : Nat), p ∈ vs → queryLoop p v1 vs R L = .onVertex
  | [], _, _, _, h => by simp at h
  | v :: vs, v1, R, L, h => by
    unfold queryLoop
    by_cases hv : (v - p).x = 0 ∧ (v - p).y = 0
    · rw [if_pos hv]
    · rw [if_neg hv]
      refine queryLoop_vertex p vs v _ _ ?_
      rcases List.mem_cons.1 h with rfl | h
      · exact absurd ⟨by simp, by simp⟩ hv
      · exact h

omit [IsStrictOrderedRing K] in
theorem queryLoop_eq (p : V2 K) : ∀ (vs : List (V2 K)) (v1 : V2 K) (R L : Nat), p ∉ vs →
    queryLoop p v1 vs R L = verdict (decide (R % 2 = 1) != parity (fun e => rightCross (e.2 - p) (e.1 - p)) ((v1 :: vs).zip vs))
      (decide (L % 2 = 1) != parity (fun e => leftCross (e.2 - p) (e.1 - p)) ((v1 :: vs).zip vs))
  | [], v1, R, L, _ => by
    simp only [queryLoop, List.zip_nil_right, parity, Bool.bne_false, verdict, decide_eq_true_eq, ne_eq, decide_eq_decide]
    rcases Nat.mod_two_eq_zero_or_one R with h | h <;> rcases Nat.mod_two_eq_zero_or_one L with h' | h' <;> simp [h, h']
  | v :: vs, v1, R, L, h => by
    have hv : ¬((v - p).x = 0 ∧ (v - p).y = 0) := by
      rintro ⟨a, b⟩
      apply h
      have : p = v := by
        ext
        · simp only [V2.sub_x] at a; linear_combination -a
        · simp only [V2.sub_y] at b; linear_combination -b
      simp [this]
    rw [queryLoop, if_neg hv, queryLoop_eq p vs v _ _ fun hm => h (List.mem_cons_of_mem _ hm)]
    simp only [List.zip_cons_cons, parity]
    have flip : ∀ (n : Nat) (b c : Bool), (decide ((n + if b then 1 else 0) % 2 = 1) != c) = (decide (n % 2 = 1) != (b != c)) := by
      intro n b c
      rcases Nat.mod_two_eq_zero_or_one n with h | h <;> cases b <;> cases c <;> simp [h, Nat.add_mod]
    rw [flip, flip]

theorem query_eq {vs : List (V2 K)} {p : V2 K} (hv : p ∉ vs) :
    queryPoint vs p = if Odd (sidesAt vs p) then .onEdge else if pointInPolygon p vs = true then .inside else .outside := by
  classical
  by_cases hn : vs = []
  · subst hn; simp [queryPoint, sidesAt, dirSides, pointInPolygon, pipLoop]
  rw [queryPoint, if_neg hn, queryLoop_eq p vs _ _ _ hv]
  rw [parity_perm (zip_last_perm vs 0), parity_perm (zip_last_perm vs 0)]
  have e1 : parity (fun e => rightCross (e.2 - p) (e.1 - p)) (dirSides vs) = pointInPolygon p vs := by
    rw [pip_parity]
    exact parity_congr fun e _ => by rw [right_toggles, toggles_symm]
  have e2 : (parity (fun e => rightCross (e.2 - p) (e.1 - p)) (dirSides vs) != parity (fun e => leftCross (e.2 - p) (e.1 - p)) (dirSides vs))
      = decide (Odd (sidesAt vs p)) := by
    rw [← parity_bne]
    have : parity (fun e => (rightCross (e.2 - p) (e.1 - p) != leftCross (e.2 - p) (e.1 - p))) (dirSides vs)
        = parity (fun e => (decide (OnSeg e.1 e.2 p) != (upLeft p e.1 != upLeft p e.2))) (dirSides vs) := by
      apply parity_congr
      rintro ⟨u, v⟩ he
      refine cross_side ?_ ?_
      · rintro rfl; exact hv (fst_mem_of_dirSides he)
      · rintro rfl; exact hv (snd_mem_of_dirSides he)
    rw [this, parity_bne, parity_round, parity_odd]
    unfold sidesAt
    simp
  rw [e1] at e2 ⊢
  generalize parity (fun e => leftCross (e.2 - p) (e.1 - p)) (dirSides vs) = l at *
  by_cases ho : Odd (sidesAt vs p)
  · rw [decide_eq_true ho] at e2
    rw [if_pos ho]
    cases hp : pointInPolygon p vs <;> cases l <;> simp_all [verdict]
  · rw [decide_eq_false ho] at e2
    rw [if_neg ho]
    cases hp : pointInPolygon p vs <;> cases l <;> simp_all [verdict]
end Verif.Poly
