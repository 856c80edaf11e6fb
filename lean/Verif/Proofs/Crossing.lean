import Verif.Proofs.Polygon
import Verif.Spec.Crossing
/- The parity of the sides to the right of a point along a segment. -/
namespace Verif.Geom
open Verif Verif.Mesh
variable {K : Type} [Field K] [LinearOrder K] [IsStrictOrderedRing K]

theorem parity_bne {α : Type} (a b : α → Bool) : ∀ l : List α, parity (fun x => a x != b x) l = (parity a l != parity b l)
  | [] => rfl
  | x :: l => by
    simp only [parity, parity_bne a b l]
    cases a x <;> cases b x <;> cases parity a l <;> cases parity b l <;> rfl

theorem parity_congr {α : Type} {a b : α → Bool} {l : List α} (h : ∀ x ∈ l, a x = b x) : parity a l = parity b l := by
  induction l with
  | nil => rfl
  | cons x l ih => simp only [parity]; rw [h x (by simp), ih fun y hy => h y (by simp [hy])]

theorem parity_odd {α : Type} (a : α → Bool) : ∀ l : List α, parity a l = decide (Odd (l.countP a))
  | [] => by simp [parity]
  | x :: l => by
    simp only [parity, parity_odd a l, List.countP_cons]
    cases a x
    · simp
    · simp only [if_true, Nat.odd_add_one, decide_not, Bool.true_bne]

theorem parity_fst {α : Type} (r : α → Bool) (vs : List α) : parity (fun e => r e.1) (dirSides vs) = parity r vs := by
  rw [← parity_map r Prod.fst, dirSides, List.map_fst_zip (by simp)]

theorem parity_snd {α : Type} (r : α → Bool) (vs : List α) : parity (fun e => r e.2) (dirSides vs) = parity r vs := by
  rw [← parity_map r Prod.snd, dirSides, List.map_snd_zip (by simp)]
  exact parity_perm (List.rotate_perm _ _)

/-- Around a closed polygon a property of the corners changes an even number of times. -/
theorem parity_round {α : Type} (r : α → Bool) (vs : List α) : parity (fun e => r e.1 != r e.2) (dirSides vs) = false := by
  rw [parity_bne, parity_fst, parity_snd]; simp

/-- Where a side passes the height of `p`. -/
def passes (p u v : V2 K) : V2 K := ⟨u.x + (v.x - u.x) * (p.y - u.y) / (v.y - u.y), p.y⟩

theorem passes_on {p u v : V2 K} (h : decide (p.y < u.y) ≠ decide (p.y < v.y)) : OnSeg u v (passes p u v) := by
  have hne : v.y - u.y ≠ 0 := by
    intro e
    have : v.y = u.y := by linear_combination e
    rw [this] at h; exact h rfl
  refine ⟨(p.y - u.y) / (v.y - u.y), ?_, ?_, ?_⟩
  · by_cases h1 : p.y < u.y
    · by_cases h2 : p.y < v.y
      · simp [h1, h2] at h
      · exact div_nonneg_of_nonpos (by linarith) (by linarith)
    · by_cases h2 : p.y < v.y
      · exact div_nonneg (by linarith) (by linarith)
      · simp [h1, h2] at h
  · by_cases h1 : p.y < u.y
    · by_cases h2 : p.y < v.y
      · simp [h1, h2] at h
      · rw [div_le_one_of_neg (by linarith)]; linarith
    · by_cases h2 : p.y < v.y
      · rw [div_le_one (by linarith)]; linarith
      · simp [h1, h2] at h
  · unfold passes lerp2
    ext
    · simp only; ring
    · simp only; field_simp; ring

theorem seg_seg {u v a b x : V2 K} (ha : OnSeg u v a) (hb : OnSeg u v b) (hx : OnSeg a b x) : OnSeg u v x := by
  obtain ⟨s, s0, s1, rfl⟩ := ha
  obtain ⟨t, t0, t1, rfl⟩ := hb
  obtain ⟨w, w0, w1, rfl⟩ := hx
  refine ⟨s + w * (t - s), ?_, ?_, ?_⟩
  · have : s + w * (t - s) = (1 - w) * s + w * t := by ring
    rw [this]
    exact add_nonneg (mul_nonneg (by linarith) s0) (mul_nonneg w0 t0)
  · have : s + w * (t - s) = (1 - w) * s + w * t := by ring
    rw [this]
    have h1 : (1 - w) * s ≤ (1 - w) * 1 := mul_le_mul_of_nonneg_left s1 (by linarith)
    have h2 : w * t ≤ w * 1 := mul_le_mul_of_nonneg_left t1 w0
    linarith
  · unfold lerp2; ext <;> simp only <;> ring

omit [LinearOrder K] [IsStrictOrderedRing K] in
theorem area2_lerp (p q a b : V2 K) (t : K) : area2 p q (lerp2 a b t) = area2 p q a + t * (area2 p q b - area2 p q a) := by
  unfold area2 lerp2; simp only; ring

/-- A point of the line through `p` and `q` at a height between them is on the segment. -/
theorem on_band {p q x : V2 K} (hy : p.y < q.y) (h : area2 p q x = 0) (h0 : p.y ≤ x.y) (h1 : x.y ≤ q.y) : OnSeg p q x := by
  have hne : q.y - p.y ≠ 0 := by linarith
  refine ⟨(x.y - p.y) / (q.y - p.y), div_nonneg (by linarith) (by linarith), ?_, ?_⟩
  · rw [div_le_one (by linarith)]; linarith
  · unfold area2 at h
    unfold lerp2
    ext
    · simp only; field_simp; linear_combination -h
    · simp only; field_simp; ring

/-- The part of a side at heights between `p` and `q` is on one side of `pq` if it misses it. -/
theorem band_side {p q u v a b : V2 K} (hy : p.y < q.y) (hm : Misses p q (u, v)) (ha : OnSeg u v a) (hb : OnSeg u v b)
    (a0 : p.y ≤ a.y) (a1 : a.y ≤ q.y) (b0 : p.y ≤ b.y) (b1 : b.y ≤ q.y) (hs : area2 p q a < 0) : area2 p q b < 0 := by
  by_contra hn
  push Not at hn
  have hd : 0 < area2 p q b - area2 p q a := by linarith
  set t := -area2 p q a / (area2 p q b - area2 p q a) with ht
  have t0 : 0 ≤ t := div_nonneg (by linarith) hd.le
  have t1 : t ≤ 1 := by rw [ht, div_le_one hd]; linarith
  have hx : OnSeg a b (lerp2 a b t) := ⟨t, t0, t1, rfl⟩
  refine hm _ (on_band hy ?_ ?_ ?_) (seg_seg ha hb hx)
  · rw [area2_lerp, ht]; field_simp; ring
  · have : (lerp2 a b t).y = (1 - t) * a.y + t * b.y := by unfold lerp2; simp only; ring
    rw [this]
    have h1 : (1 - t) * p.y ≤ (1 - t) * a.y := mul_le_mul_of_nonneg_left a0 (by linarith)
    have h2 : t * p.y ≤ t * b.y := mul_le_mul_of_nonneg_left b0 t0
    linarith
  · have : (lerp2 a b t).y = (1 - t) * a.y + t * b.y := by unfold lerp2; simp only; ring
    rw [this]
    have h1 : (1 - t) * a.y ≤ (1 - t) * q.y := mul_le_mul_of_nonneg_left a1 (by linarith)
    have h2 : t * b.y ≤ t * q.y := mul_le_mul_of_nonneg_left b1 t0
    linarith

/-- `w` is at a height between `p` and `q` and to the right of `pq`. -/
def inBand (p q w : V2 K) : Bool := decide (p.y < w.y) && !decide (q.y < w.y) && decide (area2 p q w < 0)

theorem on_left {u v : V2 K} : OnSeg u v u := ⟨0, le_refl _, zero_le_one, by unfold lerp2; ext <;> simp⟩
theorem on_right {u v : V2 K} : OnSeg u v v := ⟨1, zero_le_one, le_refl _, by unfold lerp2; ext <;> simp⟩

theorem passes_low {p q u v : V2 K} (hy : p.y < q.y) : decide (p.x < (passes p u v).x) = decide (area2 p q (passes p u v) < 0) := by
  rw [decide_eq_decide]
  have : area2 p q (passes p u v) = -((q.y - p.y) * ((passes p u v).x - p.x)) := by
    unfold area2
    have : (passes p u v).y = p.y := rfl
    rw [this]; ring
  rw [this, neg_lt_zero, mul_pos_iff_of_pos_left (by linarith), sub_pos]

theorem passes_high {p q u v : V2 K} (hy : p.y < q.y) : decide (q.x < (passes q u v).x) = decide (area2 p q (passes q u v) < 0) := by
  rw [decide_eq_decide]
  have : area2 p q (passes q u v) = -((q.y - p.y) * ((passes q u v).x - q.x)) := by
    unfold area2
    have : (passes q u v).y = q.y := rfl
    rw [this]; ring
  rw [this, neg_lt_zero, mul_pos_iff_of_pos_left (by linarith), sub_pos]

omit [IsStrictOrderedRing K] in
theorem toggles_passes (p u v : V2 K) : toggles p u v = ((decide (p.y < u.y) != decide (p.y < v.y)) && decide (p.x < (passes p u v).x)) := rfl

/-- One side that misses the segment: what changes between the ends of the segment is what changes between the ends of the side. -/
theorem toggles_miss {p q u v : V2 K} (hy : p.y < q.y) (hm : Misses p q (u, v)) :
    (toggles p u v != toggles q u v) = (inBand p q u != inBand p q v) := by
  have hβ : ∃ β : Bool, ∀ a, OnSeg u v a → p.y ≤ a.y → a.y ≤ q.y → decide (area2 p q a < 0) = β := by
    by_cases h : ∃ a, OnSeg u v a ∧ p.y ≤ a.y ∧ a.y ≤ q.y ∧ area2 p q a < 0
    · obtain ⟨a, ha, a0, a1, hs⟩ := h
      exact ⟨true, fun b hb b0 b1 => by simpa using band_side hy hm ha hb a0 a1 b0 b1 hs⟩
    · push Not at h
      exact ⟨false, fun b hb b0 b1 => by simpa using h b hb b0 b1⟩
  obtain ⟨β, hβ⟩ := hβ
  have e1 : toggles p u v = ((decide (p.y < u.y) != decide (p.y < v.y)) && β) := by
    rw [toggles_passes, passes_low hy]
    by_cases h : decide (p.y < u.y) = decide (p.y < v.y)
    · simp [h]
    · rw [hβ _ (passes_on h) (le_refl _) hy.le]
  have e2 : toggles q u v = ((decide (q.y < u.y) != decide (q.y < v.y)) && β) := by
    rw [toggles_passes, passes_high hy]
    by_cases h : decide (q.y < u.y) = decide (q.y < v.y)
    · simp [h]
    · rw [hβ _ (passes_on h) hy.le (le_refl _)]
  have e3 : ∀ w, OnSeg u v w → inBand p q w = (decide (p.y < w.y) && !decide (q.y < w.y) && β) := by
    intro w hw
    unfold inBand
    by_cases h0 : p.y < w.y
    · by_cases h1 : q.y < w.y
      · simp [h1]
      · rw [hβ w hw h0.le (not_lt.1 h1)]
    · simp [h0]
  rw [e1, e2, e3 u on_left, e3 v on_right]
  have m1 : q.y < u.y → p.y < u.y := fun h => by linarith
  have m2 : q.y < v.y → p.y < v.y := fun h => by linarith
  have b1 : decide (q.y < u.y) = true → decide (p.y < u.y) = true := by simpa using m1
  have b2 : decide (q.y < v.y) = true → decide (p.y < v.y) = true := by simpa using m2
  generalize decide (q.y < u.y) = w1 at *
  generalize decide (p.y < u.y) = w2 at *
  generalize decide (q.y < v.y) = w3 at *
  generalize decide (p.y < v.y) = w4 at *
  clear e1 e2 e3 hβ m1 m2 hm
  revert w1 w2 w3 w4 β
  decide

/-- One side that crosses the segment. -/
theorem toggles_cross {p q u v : V2 K} (hy : p.y < q.y) (hc : Crosses p q (u, v)) :
    (toggles p u v != toggles q u v) = !(inBand p q u != inBand p q v) := by
  have key : ∀ u v : V2 K, Crosses p q (u, v) → area2 p q u < 0 → (toggles p u v != toggles q u v) = !(inBand p q u != inBand p q v) := by
    intro u v hc hu
    obtain ⟨h1, h2⟩ := hc
    simp only at h1 h2
    have hv : 0 < area2 p q v := by
      by_contra hn
      have := mul_nonneg_of_nonpos_of_nonpos hu.le (not_lt.1 hn)
      linarith
    -- the point of the side on the line through p and q
    set d := area2 p q v - area2 p q u with hd
    have hd0 : 0 < d := by linarith
    set t := -area2 p q u / d with ht
    have ht' : t * d = -area2 p q u := by rw [ht]; field_simp
    have t0 : 0 < t := div_pos (by linarith) hd0
    have t1 : t < 1 := by rw [ht, div_lt_one hd0]; linarith
    have hyv : (lerp2 u v t).y = u.y + t * (v.y - u.y) := rfl
    set X := lerp2 u v t with hX
    have hpq : area2 u v p - area2 u v q = d := by rw [hd]; unfold area2; ring
    -- its height is strictly between
    have hXy : X.y * d = p.y * d + area2 u v p * (q.y - p.y) := by
      rw [hyv, add_mul, mul_right_comm, ht', hd]; unfold area2; ring
    have hup : 0 < area2 u v p := by
      by_contra hn
      have : area2 u v q < 0 := by linarith
      have := mul_nonneg_of_nonpos_of_nonpos (not_lt.1 hn) this.le
      linarith
    have huq : area2 u v q < 0 := by
      by_contra hn
      have := mul_nonneg hup.le (not_lt.1 hn)
      linarith
    have x0 : p.y < X.y := by
      have : 0 < area2 u v p * (q.y - p.y) := mul_pos hup (by linarith)
      by_contra hn
      have := mul_le_mul_of_nonneg_right (not_lt.1 hn) hd0.le
      linarith
    have x1 : X.y < q.y := by
      have h3 : X.y * d = q.y * d + area2 u v q * (q.y - p.y) := by rw [hXy]; linear_combination (q.y - p.y) * hpq
      have : area2 u v q * (q.y - p.y) < 0 := mul_neg_of_neg_of_pos huq (by linarith)
      by_contra hn
      have := mul_le_mul_of_nonneg_right (not_lt.1 hn) hd0.le
      linarith
    -- left or right of pq along the side
    have side : ∀ a, OnSeg u v a → (a.y - X.y) * d = (area2 p q a) * (v.y - u.y) := by
      rintro a ⟨s, s0, s1, rfl⟩
      rw [area2_lerp, ← hd, hyv]
      have : (lerp2 u v s).y = u.y + s * (v.y - u.y) := rfl
      rw [this]
      linear_combination (-(v.y - u.y)) * ht'
    rcases lt_trichotomy u.y v.y with huv | huv | huv
    · have hlt : u.y < X.y := by rw [hyv]; nlinarith
      have hgt : X.y < v.y := by rw [hyv]; nlinarith
      have sg : ∀ a, OnSeg u v a → (area2 p q a < 0 ↔ a.y < X.y) := by
        intro a ha
        have h := side a ha
        constructor
        · intro hn
          have := mul_neg_of_neg_of_pos hn (sub_pos.2 huv)
          by_contra hc
          have := mul_nonneg (sub_nonneg.2 (not_lt.1 hc)) hd0.le
          linarith
        · intro hn
          have := mul_neg_of_neg_of_pos (sub_neg.2 hn) hd0
          by_contra hc
          have := mul_nonneg (not_lt.1 hc) (sub_pos.2 huv).le
          linarith
      have f1 : (decide (q.y < u.y)) = false := by simp; linarith
      have f2 : (decide (p.y < v.y)) = true := by simp; linarith
      have f3 : decide (area2 p q v < 0) = false := by simp [hv.le]
      have f4 : decide (area2 p q u < 0) = true := by simp [hu]
      unfold inBand
      rw [toggles_passes, toggles_passes, passes_low hy, passes_high hy, f1, f2, f3, f4]
      by_cases h1 : p.y < u.y
      · by_cases h2 : q.y < v.y
        · have hon : OnSeg u v (passes q u v) := passes_on (by rw [f1]; simp [h2])
          have : ¬ area2 p q (passes q u v) < 0 := fun h => by
            have := (sg _ hon).1 h
            have e : (passes q u v).y = q.y := rfl
            rw [e] at this; linarith
          simp [h1, this]
        · simp [h1, h2]
      · have hon : OnSeg u v (passes p u v) := passes_on (by rw [f2]; simp [not_lt.1 h1])
        have hp : area2 p q (passes p u v) < 0 := (sg _ hon).2 (by
          have e : (passes p u v).y = p.y := rfl
          rw [e]; exact x0)
        by_cases h2 : q.y < v.y
        · have hon : OnSeg u v (passes q u v) := passes_on (by rw [f1]; simp [h2])
          have : ¬ area2 p q (passes q u v) < 0 := fun h => by
            have := (sg _ hon).1 h
            have e : (passes q u v).y = q.y := rfl
            rw [e] at this; linarith
          simp [h1, hp, this]
        · simp [h1, hp, h2]
    · have hXu : X.y = u.y := by rw [hyv, huv]; ring
      have f1 : (decide (q.y < u.y)) = false := by simp; linarith
      have f2 : (decide (p.y < u.y)) = true := by simp; linarith
      have f3 : decide (area2 p q v < 0) = false := by simp [hv.le]
      have f4 : decide (area2 p q u < 0) = true := by simp [hu]
      unfold inBand
      rw [toggles_passes, toggles_passes, ← huv, f1, f2, f3, f4]
      simp
    · have hlt : X.y < u.y := by rw [hyv]; nlinarith
      have hgt : v.y < X.y := by rw [hyv]; nlinarith
      have sg : ∀ a, OnSeg u v a → (area2 p q a < 0 ↔ X.y < a.y) := by
        intro a ha
        have h := side a ha
        constructor
        · intro hn
          have := mul_pos_of_neg_of_neg hn (sub_neg.2 huv)
          by_contra hc
          have := mul_nonneg (sub_nonneg.2 (not_lt.1 hc)) hd0.le
          linarith
        · intro hn
          have := mul_pos (sub_pos.2 hn) hd0
          by_contra hc
          have := mul_nonneg (not_lt.1 hc) (sub_pos.2 huv).le
          linarith
      have f1 : (decide (q.y < v.y)) = false := by simp; linarith
      have f2 : (decide (p.y < u.y)) = true := by simp; linarith
      have f3 : decide (area2 p q v < 0) = false := by simp [hv.le]
      have f4 : decide (area2 p q u < 0) = true := by simp [hu]
      have hp : ¬ p.y < v.y → ¬ area2 p q (passes p u v) < 0 := fun h1 h => by
        have hon : OnSeg u v (passes p u v) := passes_on (by rw [f2]; simp [not_lt.1 h1])
        have := (sg _ hon).1 h
        have e : (passes p u v).y = p.y := rfl
        rw [e] at this; linarith
      have hq : q.y < u.y → area2 p q (passes q u v) < 0 := fun h2 => by
        have hon : OnSeg u v (passes q u v) := passes_on (by rw [f1]; simp [h2])
        exact (sg _ hon).2 (by
          have e : (passes q u v).y = q.y := rfl
          rw [e]; exact x1)
      unfold inBand
      rw [toggles_passes, toggles_passes, passes_low hy, passes_high hy, f1, f2, f3, f4]
      by_cases h1 : p.y < v.y <;> by_cases h2 : q.y < u.y
      · simp [h1, h2, hq h2]
      · simp [h1, h2]
      · simp [h1, h2, hq h2, hp h1]
      · simp [h1, h2, hp h1]
  rcases lt_trichotomy (area2 p q u) 0 with hu | hu | hu
  · exact key u v hc hu
  · have := hc.1; simp only [hu, zero_mul, lt_irrefl] at this
  · have hv : area2 p q v < 0 := by
      have h1 := hc.1
      simp only at h1
      by_contra hn
      have := mul_nonneg hu.le (not_lt.1 hn)
      linarith
    have hc' : Crosses p q (v, u) := by
      refine ⟨by have := hc.1; simp only at this ⊢; rwa [mul_comm], ?_⟩
      have := hc.2
      simp only at this ⊢
      have e : ∀ r, area2 v u r = -area2 u v r := fun r => by unfold area2; ring
      rw [e, e]; linarith
    have := key v u hc' hv
    rw [toggles_symm p u v, toggles_symm q u v, this]
    cases inBand p q u <;> cases inBand p q v <;> rfl

/-- Segments that cross have a point in common. -/
theorem cross_meets {p q : V2 K} {e : V2 K × V2 K} (h : Crosses p q e) : ¬ Misses p q e := by
  obtain ⟨u, v⟩ := e
  obtain ⟨h1, h2⟩ := h
  simp only at h1 h2
  intro hm
  have hpq : area2 u v p - area2 u v q = area2 p q v - area2 p q u := by unfold area2; ring
  have hd : area2 p q v - area2 p q u ≠ 0 := fun e => by
    have : area2 p q v = area2 p q u := by linear_combination e
    rw [this] at h1
    nlinarith [mul_self_nonneg (area2 p q u)]
  have par : ∀ a b : K, a * b < 0 → 0 ≤ a / (a - b) ∧ a / (a - b) ≤ 1 := by
    intro a b hab
    rcases lt_trichotomy a 0 with ha | ha | ha
    · have hb : 0 < b := by
        by_contra hn
        have := mul_nonneg_of_nonpos_of_nonpos ha.le (not_lt.1 hn)
        linarith
      exact ⟨div_nonneg_of_nonpos ha.le (by linarith), by rw [div_le_one_of_neg (by linarith)]; linarith⟩
    · rw [ha] at hab; simp at hab
    · have hb : b < 0 := by
        by_contra hn
        have := mul_nonneg ha.le (not_lt.1 hn)
        linarith
      exact ⟨div_nonneg ha.le (by linarith), by rw [div_le_one (by linarith)]; linarith⟩
  have e1 := par _ _ h1
  have e2 := par _ _ h2
  refine hm (lerp2 u v (area2 p q u / (area2 p q u - area2 p q v))) ⟨_, e2.1, e2.2, ?_⟩ ⟨_, e1.1, e1.2, rfl⟩
  have hd' : area2 p q u - area2 p q v ≠ 0 := fun e => hd (by linear_combination -e)
  have hd'' : area2 u v p - area2 u v q ≠ 0 := by rw [hpq]; exact hd
  unfold lerp2
  ext
  · simp only
    rw [hpq, ← neg_sub (area2 p q u) (area2 p q v)]
    field_simp
    unfold area2; ring
  · simp only
    rw [hpq, ← neg_sub (area2 p q u) (area2 p q v)]
    field_simp
    unfold area2; ring

/-- The level case. -/
theorem toggles_flat {p q u v : V2 K} (hy : p.y = q.y) (h : Misses p q (u, v) ∨ Crosses p q (u, v)) :
    (toggles p u v != toggles q u v) = decide (Crosses p q (u, v)) := by
  have hc : passes q u v = passes p u v := by unfold passes; rw [hy]
  rw [toggles_passes, toggles_passes, hc, ← hy]
  by_cases hs : decide (p.y < u.y) = decide (p.y < v.y)
  · have : ¬ Crosses p q (u, v) := by
      rintro ⟨h1, -⟩
      have e : ∀ w, area2 p q w = (q.x - p.x) * (w.y - p.y) := fun w => by unfold area2; rw [hy]; ring
      simp only [e] at h1
      have e2 : (q.x - p.x) * (u.y - p.y) * ((q.x - p.x) * (v.y - p.y)) = (q.x - p.x) ^ 2 * ((u.y - p.y) * (v.y - p.y)) := by ring
      rw [e2] at h1
      have : 0 ≤ (u.y - p.y) * (v.y - p.y) := by
        rw [decide_eq_decide] at hs
        by_cases h0 : p.y < u.y
        · exact mul_nonneg (by linarith) (by linarith [hs.1 h0])
        · exact mul_nonneg_of_nonpos_of_nonpos (by linarith) (by linarith [mt hs.2 h0])
      have := mul_nonneg (sq_nonneg (q.x - p.x)) this
      linarith
    simp [hs, this]
  · have hon := passes_on hs
    have hb : (decide (p.y < u.y) != decide (p.y < v.y)) = true := by simpa using hs
    rw [hb, Bool.true_and, Bool.true_and]
    have hne : v.y - u.y ≠ 0 := by
      intro e
      have : v.y = u.y := by linear_combination e
      rw [this] at hs; exact hs rfl
    rcases h with h | h
    · have hn : ¬ Crosses p q (u, v) := fun hx => cross_meets hx h
      rw [decide_eq_false hn]
      by_contra hne'
      have hx : ¬ OnSeg p q (passes p u v) := fun hx => h _ hx hon
      apply hx
      set c := (passes p u v).x with hcx
      have e0 : ∀ t : K, c = p.x + t * (q.x - p.x) → passes p u v = lerp2 p q t := by
        intro t ht
        ext
        · exact ht
        · show p.y = p.y + t * (q.y - p.y)
          rw [hy]; ring
      by_cases h1 : p.x < c
      · by_cases h2 : q.x < c
        · simp [h1, h2] at hne'
        · have : 0 < q.x - p.x := by linarith
          exact ⟨(c - p.x) / (q.x - p.x), div_nonneg (by linarith) this.le, by rw [div_le_one this]; linarith, e0 _ (by field_simp; ring)⟩
      · by_cases h2 : q.x < c
        · have : q.x - p.x < 0 := by linarith
          have hne2 : q.x - p.x ≠ 0 := this.ne
          exact ⟨(c - p.x) / (q.x - p.x), div_nonneg_of_nonpos (by linarith) this.le, by rw [div_le_one_of_neg this]; linarith, e0 _ (by field_simp; ring)⟩
        · simp [h1, h2] at hne'
    · rw [decide_eq_true h]
      have h2 := h.2
      simp only at h2
      have e1 : area2 u v p = (v.y - u.y) * ((passes p u v).x - p.x) := by unfold area2 passes; simp only; field_simp; ring
      have e2 : area2 u v q = (v.y - u.y) * ((passes p u v).x - q.x) := by rw [← hc]; unfold area2 passes; simp only; field_simp; ring
      rw [e1, e2] at h2
      set c := (passes p u v).x with hcx
      have e3 : (v.y - u.y) * (c - p.x) * ((v.y - u.y) * (c - q.x)) = (v.y - u.y) ^ 2 * ((c - p.x) * (c - q.x)) := by ring
      rw [e3] at h2
      have h3 : (c - p.x) * (c - q.x) < 0 := by
        by_contra hn
        have := mul_nonneg (sq_nonneg (v.y - u.y)) (not_lt.1 hn)
        linarith
      by_cases h4 : p.x < c
      · by_cases h5 : q.x < c
        · have := mul_pos (sub_pos.2 h4) (sub_pos.2 h5); linarith
        · simp [h4, h5]
      · by_cases h5 : q.x < c
        · simp [h4, h5]
        · have := mul_nonneg_of_nonpos_of_nonpos (sub_nonpos.2 (not_lt.1 h4)) (sub_nonpos.2 (not_lt.1 h5)); linarith

theorem misses_comm {p q : V2 K} {e : V2 K × V2 K} (h : Misses p q e) : Misses q p e := by
  rintro x ⟨t, t0, t1, rfl⟩
  exact h _ ⟨1 - t, by linarith, by linarith, by unfold lerp2; ext <;> simp only <;> ring⟩

omit [IsStrictOrderedRing K] in
theorem crosses_comm {p q : V2 K} {e : V2 K × V2 K} : Crosses q p e ↔ Crosses p q e := by
  unfold Crosses
  have e1 : ∀ r, area2 q p r = -area2 p q r := fun r => by unfold area2; ring
  rw [e1, e1, neg_mul_neg, mul_comm (area2 e.1 e.2 q)]

/-- The answers at the ends of a segment differ if the segment crosses an odd number of sides. -/
theorem pip_crossed {vs : List (V2 K)} {p q : V2 K} (h : ∀ e ∈ dirSides vs, Misses p q e ∨ Crosses p q e) :
    (pointInPolygon p vs != pointInPolygon q vs) = decide (Odd (crossed vs p q)) := by
  have up : ∀ p q : V2 K, p.y < q.y → (∀ e ∈ dirSides vs, Misses p q e ∨ Crosses p q e) →
      (pointInPolygon p vs != pointInPolygon q vs) = decide (Odd (crossed vs p q)) := by
    intro p q hy h
    unfold crossed
    rw [pip_parity, pip_parity, ← parity_bne, ← parity_odd]
    have : parity (fun e => (toggles p e.1 e.2 != toggles q e.1 e.2)) (dirSides vs)
        = parity (fun e => ((inBand p q e.1 != inBand p q e.2) != decide (Crosses p q e))) (dirSides vs) := by
      apply parity_congr
      intro e he
      by_cases hx : Crosses p q e
      · rw [toggles_cross hy hx, decide_eq_true hx]
        cases (inBand p q e.1 != inBand p q e.2) <;> rfl
      · rw [toggles_miss hy ((h e he).resolve_right hx), decide_eq_false hx]
        cases (inBand p q e.1 != inBand p q e.2) <;> rfl
    rw [this, parity_bne, parity_round]
    cases parity (fun e => decide (Crosses p q e)) (dirSides vs) <;> rfl
  rcases lt_trichotomy p.y q.y with hy | hy | hy
  · exact up p q hy h
  · unfold crossed
    rw [pip_parity, pip_parity, ← parity_bne, ← parity_odd]
    exact parity_congr fun e he => toggles_flat hy (h e he)
  · have := up q p hy fun e he => (h e he).imp misses_comm crosses_comm.2
    have e2 : crossed vs p q = crossed vs q p := by
      unfold crossed; congr 1; funext e; rw [decide_eq_decide]; exact crosses_comm.symm
    rw [e2, ← this]
    cases pointInPolygon p vs <;> cases pointInPolygon q vs <;> rfl

/-- Beyond all the corners the answer is no. -/
theorem pip_beyond {vs : List (V2 K)} {p : V2 K} (h : Beyond vs p) : pointInPolygon p vs = false := by
  rw [pip_parity]
  have none : ∀ r : V2 K → Bool, (∀ e ∈ dirSides vs, toggles p e.1 e.2 = (r e.1 != r e.2)) → parity (fun e => toggles p e.1 e.2) (dirSides vs) = false := by
    intro r hr
    rw [parity_congr (b := fun e => (r e.1 != r e.2)) hr]
    exact parity_round r vs
  have mem : ∀ e ∈ dirSides vs, e.1 ∈ vs ∧ e.2 ∈ vs := fun e he => ⟨fst_mem_of_dirSides (d := e.2) he, snd_mem_of_dirSides (c := e.1) he⟩
  have hull : ∀ u v x : V2 K, OnSeg u v x → (∃ t, 0 ≤ t ∧ t ≤ 1 ∧ x.x = (1 - t) * u.x + t * v.x) := by
    rintro u v x ⟨t, t0, t1, rfl⟩
    exact ⟨t, t0, t1, by unfold lerp2; simp only; ring⟩
  rcases h with h | h | h | h
  · refine none (fun _ => false) fun e he => ?_
    obtain ⟨m1, m2⟩ := mem e he
    rw [toggles_passes]
    by_cases hs : decide (p.y < e.1.y) = decide (p.y < e.2.y)
    · simp [hs]
    · obtain ⟨t, t0, t1, ht⟩ := hull _ _ _ (passes_on hs)
      have h1 := mul_le_mul_of_nonneg_left (h _ m1).le (sub_nonneg.2 t1)
      have h2 := mul_le_mul_of_nonneg_left (h _ m2).le t0
      have : ¬ p.x < (passes p e.1 e.2).x := by rw [ht]; linarith
      simp [this]
  · refine none (fun v => decide (p.y < v.y)) fun e he => ?_
    obtain ⟨m1, m2⟩ := mem e he
    rw [toggles_passes]
    by_cases hs : decide (p.y < e.1.y) = decide (p.y < e.2.y)
    · simp [hs]
    · obtain ⟨t, t0, t1, ht⟩ := hull _ _ _ (passes_on hs)
      have : p.x < (passes p e.1 e.2).x := by
        rw [ht]
        rcases t0.lt_or_eq with t0 | t0
        · have h1 := mul_le_mul_of_nonneg_left (h _ m1).le (sub_nonneg.2 t1)
          have h2 := mul_lt_mul_of_pos_left (h _ m2) t0
          linarith
        · rw [← t0]; linarith [h _ m1]
      simp [this]
  · refine none (fun _ => false) fun e he => ?_
    obtain ⟨m1, m2⟩ := mem e he
    simp [toggles, not_lt.2 (h _ m1).le, not_lt.2 (h _ m2).le]
  · refine none (fun _ => false) fun e he => ?_
    obtain ⟨m1, m2⟩ := mem e he
    simp [toggles, h _ m1, h _ m2]

theorem exists_above (l : List K) : ∃ m, ∀ x ∈ l, x < m := by
  induction l with
  | nil => exact ⟨0, by simp⟩
  | cons a l ih =>
    obtain ⟨m, hm⟩ := ih
    refine ⟨max m (a + 1), fun x hx => ?_⟩
    rcases List.mem_cons.1 hx with rfl | hx
    · exact lt_of_lt_of_le (by linarith) (le_max_right _ _)
    · exact lt_of_lt_of_le (hm x hx) (le_max_left _ _)

/-- Both ends strictly on one side: the segments do not meet. -/
theorem misses_of_same {p q u v : V2 K} (h : 0 < area2 p q u * area2 p q v) : Misses p q (u, v) := by
  rintro x ⟨s, -, -, rfl⟩ ⟨t, t0, t1, e⟩
  have h0 : area2 p q (lerp2 p q s) = 0 := by unfold area2 lerp2; simp only; ring
  rw [e, area2_lerp] at h0
  have e1 : (1 - t) * area2 p q u + t * area2 p q v = 0 := by linear_combination h0
  have e2 : (1 - t) * (area2 p q u * area2 p q u) + t * (area2 p q u * area2 p q v) = 0 := by linear_combination area2 p q u * e1
  have e3 : (1 - t) * (area2 p q u * area2 p q v) + t * (area2 p q v * area2 p q v) = 0 := by linear_combination area2 p q v * e1
  have a1 := mul_nonneg (sub_nonneg.2 t1) (mul_self_nonneg (area2 p q u))
  have a2 := mul_nonneg t0 (mul_self_nonneg (area2 p q v))
  rcases t0.lt_or_eq with t0 | t0
  · have := mul_pos t0 h; linarith
  · rw [← t0] at e3; linarith

/-- The same with the segments exchanged. -/
theorem misses_swap {p q u v : V2 K} (h : Misses u v (p, q)) : Misses p q (u, v) := fun x h1 h2 => h x h2 h1

/-- From a point that is not on the boundary there is a segment to a point beyond all the corners that properly crosses every side it meets. -/
theorem exists_far {vs : List (V2 K)} {p : V2 K} (h : ¬ OnBoundary vs p) : ∃ q, Beyond vs q ∧ ∀ e ∈ dirSides vs, Misses p q e ∨ Crosses p q e := by
  classical
  obtain ⟨m, hm⟩ := exists_above (p.x :: vs.map V2.x)
  have hmp : p.x < m := hm _ (by simp)
  have hmv : ∀ v ∈ vs, v.x < m := fun v hv => hm _ (by simp only [List.mem_cons, List.mem_map]; exact Or.inr ⟨v, hv, rfl⟩)
  have hpv : p ∉ vs := fun hp => by
    obtain ⟨u, hu⟩ := exists_side_from hp
    exact h ⟨_, hu, on_left⟩
  haveI : Infinite K := Infinite.of_injective (fun n : ℕ => (n : K)) Nat.cast_injective
  obtain ⟨y, hy⟩ := Infinite.exists_notMem_finset (vs.map fun w => p.y + (m - p.x) * (w.y - p.y) / (w.x - p.x)).toFinset
  have hline : ∀ w ∈ vs, area2 p ⟨m, y⟩ w ≠ 0 := by
    intro w hw e
    unfold area2 at e
    simp only at e
    by_cases hx : w.x = p.x
    · rw [hx, sub_self, mul_zero, sub_zero] at e
      rcases mul_eq_zero.1 e with e | e
      · linarith
      · exact hpv (by
          have : p = w := V2.ext hx.symm (by linear_combination -e)
          rw [this]; exact hw)
    · apply hy
      rw [List.mem_toFinset, List.mem_map]
      refine ⟨w, hw, ?_⟩
      have : w.x - p.x ≠ 0 := sub_ne_zero.2 hx
      field_simp
      linear_combination e
  refine ⟨⟨m, y⟩, Or.inl hmv, ?_⟩
  rintro ⟨u, v⟩ he
  have mu : u ∈ vs := fst_mem_of_dirSides he
  have mv : v ∈ vs := snd_mem_of_dirSides he
  set q : V2 K := ⟨m, y⟩ with hq
  rcases lt_trichotomy (area2 p q u * area2 p q v) 0 with h1 | h1 | h1
  · -- the line passes between u and v, at a point that is neither p nor q
    have hpq : area2 u v p - area2 u v q = area2 p q v - area2 p q u := by unfold area2; ring
    have hd : area2 p q u - area2 p q v ≠ 0 := fun e => by
      have : area2 p q v = area2 p q u := by linear_combination -e
      rw [this] at h1
      nlinarith [mul_self_nonneg (area2 p q u)]
    have t01 : 0 ≤ area2 p q u / (area2 p q u - area2 p q v) ∧ area2 p q u / (area2 p q u - area2 p q v) ≤ 1 := by
      rcases lt_trichotomy (area2 p q u) 0 with ha | ha | ha
      · have hb : 0 < area2 p q v := by
          by_contra hn
          have := mul_nonneg_of_nonpos_of_nonpos ha.le (not_lt.1 hn)
          linarith
        exact ⟨div_nonneg_of_nonpos ha.le (by linarith), by rw [div_le_one_of_neg (by linarith)]; linarith⟩
      · exact absurd ha (hline u mu)
      · have hb : area2 p q v < 0 := by
          by_contra hn
          have := mul_nonneg ha.le (not_lt.1 hn)
          linarith
        exact ⟨div_nonneg ha.le (by linarith), by rw [div_le_one (by linarith)]; linarith⟩
    have hX : OnSeg u v (lerp2 u v (area2 p q u / (area2 p q u - area2 p q v))) := ⟨_, t01.1, t01.2, rfl⟩
    set X := lerp2 u v (area2 p q u / (area2 p q u - area2 p q v)) with hXd
    have hd'' : area2 u v p - area2 u v q ≠ 0 := by rw [hpq]; exact fun e => hd (by linear_combination -e)
    have hXp : X = lerp2 p q (area2 u v p / (area2 u v p - area2 u v q)) := by
      rw [hXd, hpq, ← neg_sub (area2 p q u) (area2 p q v)]
      unfold lerp2
      ext
      · simp only
        field_simp
        unfold area2; ring
      · simp only
        field_simp
        unfold area2; ring
    have np : area2 u v p ≠ 0 := by
      intro e
      apply h
      refine ⟨(u, v), he, ?_⟩
      have : X = p := by
        rw [hXp, e]; unfold lerp2; ext <;> simp
      rw [← this]; exact hX
    have nq : area2 u v q ≠ 0 := by
      intro e
      have : X = q := by
        rw [hXp, e, sub_zero, div_self np]; unfold lerp2; ext <;> simp
      rw [this] at hX
      obtain ⟨t, t0, t1, ht⟩ := hX
      have hx := congrArg V2.x ht
      have e1 : m = (1 - t) * u.x + t * v.x := by
        have : q.x = u.x + t * (v.x - u.x) := hx
        have e0 : q.x = m := rfl
        rw [← e0, this]; ring
      rcases t0.lt_or_eq with t0 | t0
      · have b1 := mul_le_mul_of_nonneg_left (hmv u mu).le (sub_nonneg.2 t1)
        have b2 := mul_lt_mul_of_pos_left (hmv v mv) t0
        linarith
      · rw [← t0] at e1; linarith [hmv u mu]
    rcases lt_trichotomy (area2 u v p * area2 u v q) 0 with h2 | h2 | h2
    · exact Or.inr ⟨h1, h2⟩
    · exact absurd h2 (mul_ne_zero np nq)
    · exact Or.inl (misses_swap (misses_of_same h2))
  · exact absurd h1 (mul_ne_zero (hline u mu) (hline v mv))
  · exact Or.inl (misses_of_same h1)

end Verif.Geom
