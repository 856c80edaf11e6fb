import Verif.Proofs.SimplifyRing
/- The points on the new facets of `simplifyPLCfacets` are those on the old ones. -/
namespace Verif.Simplify
open Verif Verif.Mesh Verif.Internal Verif.Geom
section
variable {K : Type} [Field K] [LinearOrder K] [IsStrictOrderedRing K]

theorem dot2_pos {a b : V2 K} (h : a ≠ b) : 0 < dot2 (b - a) (b - a) := by
  simp only [dot2, V2.sub_x, V2.sub_y]
  by_cases hx : b.x - a.x = 0
  · have hy : b.y - a.y ≠ 0 := fun hy => h (V2.ext (sub_eq_zero.1 hx).symm (sub_eq_zero.1 hy).symm)
    have := mul_self_pos.2 hy
    rw [hx]; simpa using this
  · have := mul_self_pos.2 hx
    nlinarith [mul_self_nonneg (b.y - a.y)]

/-- The place of a point on the line through `a` and `b`. -/
def place (a b p : V2 K) : K := dot2 (p - a) (b - a) / dot2 (b - a) (b - a)

theorem place_spec {a b p : V2 K} (h : a ≠ b) (hp : area2 a b p = 0) : p = lerp2 a b (place a b p) := by
  have hd := dot2_pos h
  have hd' := hd.ne'
  simp only [dot2, V2.sub_x, V2.sub_y] at hd'
  simp only [area2] at hp
  have e : place a b p * dot2 (b - a) (b - a) = dot2 (p - a) (b - a) := div_mul_cancel₀ _ hd.ne'
  simp only [dot2, V2.sub_x, V2.sub_y] at e
  generalize place a b p = u at *
  apply V2.ext
  · refine mul_left_cancel₀ hd' ?_
    simp only [lerp2]
    linear_combination (-(b.y - a.y)) * hp - (b.x - a.x) * e
  · refine mul_left_cancel₀ hd' ?_
    simp only [lerp2]
    linear_combination (b.x - a.x) * hp - (b.y - a.y) * e

theorem onSeg_line {a b x : V2 K} {s t : K} (hst : s < t) : OnSeg (lerp2 a b s) (lerp2 a b t) x ↔ ∃ u, s ≤ u ∧ u ≤ t ∧ x = lerp2 a b u := by
  constructor
  · rintro ⟨r, h0, h1, rfl⟩
    refine ⟨s + r * (t - s), by nlinarith, by nlinarith, ?_⟩
    apply V2.ext <;> simp only [lerp2] <;> ring
  · rintro ⟨u, h0, h1, rfl⟩
    have hd : t - s ≠ 0 := by linarith [sub_pos.2 hst]
    refine ⟨(u - s) / (t - s), div_nonneg (by linarith) (by linarith), (div_le_one (by linarith)).2 (by linarith), ?_⟩
    apply V2.ext <;> simp only [lerp2] <;> field_simp <;> ring

theorem onSeg_symm {a b x : V2 K} (h : OnSeg a b x) : OnSeg b a x := by
  obtain ⟨t, h0, h1, rfl⟩ := h
  refine ⟨1 - t, by linarith, by linarith, ?_⟩
  apply V2.ext <;> simp only [lerp2] <;> ring

/-- Along a run without spikes the places grow. -/
theorem run_places {P : Int → V2 K} {w w' : Int} (hne : P w ≠ P (w + 1)) (hs : ∀ j, w ≤ j → j ≤ w' → Ring.Straight P w j)
    (hspike : ∀ j, w < j → j < w' → dot2 (P (j - 1) - P j) (P (j + 1) - P j) < 0) :
    ∀ d : Nat, w + d + 1 ≤ w' → place (P w) (P (w + 1)) (P (w + d)) < place (P w) (P (w + 1)) (P (w + d + 1))
  | 0, h => by
    have hd := (dot2_pos hne).ne'
    have e0 : place (P w) (P (w + 1)) (P w) = 0 := by simp [place, dot2]
    have e1 : place (P w) (P (w + 1)) (P (w + 1)) = 1 := div_self hd
    simp only [Nat.cast_zero, add_zero]
    rw [e0, e1]
    exact one_pos
  | d + 1, h => by
    have ih := run_places hne hs hspike d (by push_cast at h; omega)
    have hd := dot2_pos hne
    push_cast at h ⊢
    have q0 := place_spec hne (hs (w + d) (by omega) (by omega))
    have q1 := place_spec hne (hs (w + d + 1) (by omega) (by omega))
    have q2 := place_spec hne (hs (w + d + 1 + 1) (by omega) (by omega))
    have sp := hspike (w + d + 1) (by omega) (by omega)
    rw [show w + (d : Int) + 1 - 1 = w + d by omega] at sp
    rw [show w + ((d : Int) + 1) = w + d + 1 by omega]
    generalize place (P w) (P (w + 1)) (P (w + d)) = s0 at *
    generalize place (P w) (P (w + 1)) (P (w + d + 1)) = s1 at *
    generalize place (P w) (P (w + 1)) (P (w + d + 1 + 1)) = s2 at *
    have : dot2 (P (w + d) - P (w + d + 1)) (P (w + d + 1 + 1) - P (w + d + 1)) = (s0 - s1) * (s2 - s1) * dot2 (P (w + 1) - P w) (P (w + 1) - P w) := by
      rw [q0, q1, q2]
      simp only [dot2, lerp2, V2.sub_x, V2.sub_y]
      ring
    rw [this] at sp
    have h1 : (s0 - s1) * (s2 - s1) < 0 := by
      by_contra hc
      have := mul_nonneg (not_lt.1 hc) hd.le
      linarith
    by_contra hc
    have := mul_nonneg_of_nonpos_of_nonpos (show s0 - s1 ≤ 0 by linarith) (show s2 - s1 ≤ 0 by linarith)
    linarith

theorem run_seg {P : Int → V2 K} {w w' : Int} (hne : P w ≠ P (w + 1)) (hlt : w < w') (hs : ∀ j, w ≤ j → j ≤ w' → Ring.Straight P w j)
    (hspike : ∀ j, w < j → j < w' → dot2 (P (j - 1) - P j) (P (j + 1) - P j) < 0) (x : V2 K) :
    OnSeg (P w) (P w') x ↔ ∃ j, w ≤ j ∧ j < w' ∧ OnSeg (P j) (P (j + 1)) x := by
  have hpl := run_places hne hs hspike
  have hmono : ∀ e d : Nat, w + d + e ≤ w' → place (P w) (P (w + 1)) (P (w + d)) ≤ place (P w) (P (w + 1)) (P (w + d + e)) := by
    intro e
    induction e with
    | zero => intro d _; simp
    | succ e ih =>
      intro d h
      push_cast at h ⊢
      have h1 := ih d (by omega)
      have h2 := hpl (d + e) (by push_cast; omega)
      push_cast at h2
      rw [show w + ((d : Int) + e) = w + d + e by omega] at h2
      rw [show w + (d : Int) + (e + 1) = w + d + e + 1 by omega]
      linarith
  have at' : ∀ j, w ≤ j → j ≤ w' → P j = lerp2 (P w) (P (w + 1)) (place (P w) (P (w + 1)) (P j)) := fun j h1 h2 => place_spec hne (hs j h1 h2)
  have m : ∀ i j, w ≤ i → i ≤ j → j ≤ w' → place (P w) (P (w + 1)) (P i) ≤ place (P w) (P (w + 1)) (P j) := by
    intro i j h1 h2 h3
    have := hmono (j - i).toNat (i - w).toNat (by omega)
    rwa [show w + ((i - w).toNat : Int) = i by omega, show i + ((j - i).toNat : Int) = j by omega] at this
  have l : ∀ j, w ≤ j → j < w' → place (P w) (P (w + 1)) (P j) < place (P w) (P (w + 1)) (P (j + 1)) := by
    intro j h1 h2
    have := hpl (j - w).toNat (by omega)
    rwa [show w + ((j - w).toNat : Int) = j by omega] at this
  have seg : ∀ j, w ≤ j → j < w' → (OnSeg (P j) (P (j + 1)) x ↔ ∃ u, place (P w) (P (w + 1)) (P j) ≤ u ∧ u ≤ place (P w) (P (w + 1)) (P (j + 1)) ∧ x = lerp2 (P w) (P (w + 1)) u) := by
    intro j h1 h2
    rw [← onSeg_line (l j h1 h2), ← at' j h1 h2.le, ← at' (j + 1) (by omega) (by omega)]
  have whole : OnSeg (P w) (P w') x ↔ ∃ u, place (P w) (P (w + 1)) (P w) ≤ u ∧ u ≤ place (P w) (P (w + 1)) (P w') ∧ x = lerp2 (P w) (P (w + 1)) u := by
    rw [← onSeg_line (lt_of_lt_of_le (l w (le_refl _) hlt) (m (w + 1) w' (by omega) (by omega) (le_refl _))), ← at' w (le_refl _) hlt.le, ← at' w' hlt.le (le_refl _)]
  rw [whole]
  constructor
  · rintro ⟨u, h0, h1, hx⟩
    have find : ∀ d : Nat, w + d ≤ w' → u ≤ place (P w) (P (w + 1)) (P (w + d)) → 0 < d →
        ∃ j, w ≤ j ∧ j < w + d ∧ place (P w) (P (w + 1)) (P j) ≤ u ∧ u ≤ place (P w) (P (w + 1)) (P (j + 1)) := by
      intro d
      induction d with
      | zero => intro _ _ h; omega
      | succ d ih =>
        intro hd hu _
        push_cast at hd hu ⊢
        rcases le_or_gt u (place (P w) (P (w + 1)) (P (w + d))) with c | c
        · rcases Nat.eq_zero_or_pos d with rfl | hp
          · refine ⟨w, le_refl _, by omega, h0, ?_⟩
            simpa using hu
          · obtain ⟨j, j1, j2, j3, j4⟩ := ih (by omega) c hp
            exact ⟨j, j1, by omega, j3, j4⟩
        · refine ⟨w + d, by omega, by omega, c.le, ?_⟩
          rw [show w + (d : Int) + 1 = w + (d + 1) by omega]
          exact hu
    obtain ⟨j, j1, j2, j3, j4⟩ := find (w' - w).toNat (by omega) (by rw [show w + ((w' - w).toNat : Int) = w' by omega]; exact h1) (by omega)
    have j2' : j < w' := by omega
    exact ⟨j, j1, j2', (seg j j1 j2').2 ⟨u, j3, j4, hx⟩⟩
  · rintro ⟨j, j1, j2, hj⟩
    obtain ⟨u, u1, u2, hx⟩ := (seg j j1 j2).1 hj
    exact ⟨u, le_trans (m w j (le_refl _) j1 j2.le) u1, le_trans u2 (m (j + 1) w' (by omega) (by omega) (le_refl _)), hx⟩

theorem Tour.segs {n : Nat} {P : Int → V2 K} {v : Int → Int} {new : List Edge} {f : Nat → Int} (h : Tour n P v new f)
    (hspike : ∀ j, ¬ Ring.Turn P j → dot2 (P (j - 1) - P j) (P (j + 1) - P j) < 0) (x : V2 K) :
    (∃ t : Nat, t < new.length ∧ OnSeg (P (f t)) (P (f (t + 1))) x) ↔ ∃ j, OnSeg (P j) (P (j + 1)) x := by
  have hrun := fun (t : Nat) (ht : t < new.length) => run_seg (x := x) (h.ring.succ_ne (f t)) (h.kept.lt t ht) (h.kept.straight t ht)
    fun j h1 h2 => hspike j (h.kept.inner t ht j h1 h2)
  constructor
  · rintro ⟨t, ht, hx⟩
    obtain ⟨j, _, _, hj⟩ := (hrun t ht).1 hx
    exact ⟨j, hj⟩
  · rintro ⟨i, hi⟩
    have h3 := h.ring.three
    have e := Int.emod_add_mul_ediv (i - f 0) n
    have g1 := Int.emod_nonneg (i - f 0) (show (n : Int) ≠ 0 by omega)
    have g2 := Int.emod_lt_of_pos (i - f 0) (show (0 : Int) < n by omega)
    obtain ⟨t, t1, t2, t3⟩ := h.kept.cover new.length (le_refl _) (f 0 + (i - f 0) % n) (by omega) (by rw [h.once]; omega)
    refine ⟨t, t1, (hrun t t1).2 ⟨f 0 + (i - f 0) % n, t2, t3, ?_⟩⟩
    have hd : (n : Int) ∣ i - (f 0 + (i - f 0) % n) := ⟨(i - f 0) / n, by omega⟩
    rw [← (h.ring.inj i _).2 hd, ← (h.ring.inj (i + 1) (f 0 + (i - f 0) % n + 1)).2 (by rw [show i + 1 - (f 0 + (i - f 0) % n + 1) = i - (f 0 + (i - f 0) % n) by omega]; exact hd)]
    exact hi
end
end Verif.Simplify
