import Verif.Spec.Distributed
import Verif.Proofs.Visible
/- Geometry of Voronoi cells: corners, sides, and cells of a part of the generators. -/
namespace Verif.Nbr
open Verif Verif.Mesh Verif.Geom
section
variable {K : Type} [Field K] [LinearOrder K] [IsStrictOrderedRing K]

theorem sq2_nonneg (a b : V2 K) : 0 ≤ sq2 a b := by unfold sq2; positivity

theorem sq2_pos {a b : V2 K} (h : a ≠ b) : 0 < sq2 a b := by
  rcases (sq2_nonneg a b).lt_or_eq with h' | h'
  · exact h'
  · exfalso
    apply h
    unfold sq2 at h'
    have h1 : (a.x - b.x) ^ 2 = 0 := by nlinarith [sq_nonneg (a.x - b.x), sq_nonneg (a.y - b.y)]
    have h2 : (a.y - b.y) ^ 2 = 0 := by nlinarith [sq_nonneg (a.x - b.x), sq_nonneg (a.y - b.y)]
    have h1 := pow_eq_zero_iff (two_ne_zero) |>.1 h1
    have h2 := pow_eq_zero_iff (two_ne_zero) |>.1 h2
    exact V2.ext (by linarith) (by linarith)

/-- The difference of the squared distances to two points is linear along a segment. -/
theorem diff_lerp (P Q a b : V2 K) (t : K) : sq2 (lerp2 a b t) Q - sq2 (lerp2 a b t) P = (1 - t) * (sq2 a Q - sq2 a P) + t * (sq2 b Q - sq2 b P) := by
  unfold sq2 lerp2; ring

/-- If `S` has all the points whose cells touch that of `P`, the cell of `P` among `S` is its cell among all. -/
theorem closest_global {S T : List (V2 K)} {Dom : V2 K → Prop} (hsub : ∀ v ∈ S, v ∈ T) {P : V2 K} (hP : P ∈ S) (hdP : Dom P)
    (hconv : ∀ u v t, Dom u → Dom v → 0 ≤ t → t ≤ 1 → Dom (lerp2 u v t)) (htouch : ∀ Q ∈ T, ∀ x, Dom x → Closest T P x → Closest T Q x → Q ∈ S) {x : V2 K} (hx : Dom x) :
    Closest S P x ↔ Closest T P x := by
  refine ⟨fun h => ⟨hsub P hP, ?_⟩, fun h => ⟨hP, fun Q hQ => h.2 Q (hsub Q hQ)⟩⟩
  by_contra hn
  push Not at hn
  obtain ⟨Q0, hQ0, hlt0⟩ := hn
  let L := T.filter fun Q => decide (sq2 x Q < sq2 x P)
  obtain ⟨Q, hQ, hmin⟩ := exists_least (fun Q => sq2 P Q / (sq2 P Q - (sq2 x Q - sq2 x P))) L (List.ne_nil_of_mem (a := Q0) (List.mem_filter.2 ⟨hQ0, by simpa using hlt0⟩))
  obtain ⟨hQT, hlt⟩ := List.mem_filter.1 hQ
  simp only [decide_eq_true_eq] at hlt
  have hPP : sq2 P P = 0 := by unfold sq2; ring
  have hn1 : ∀ Q, sq2 x Q < sq2 x P → 0 < sq2 P Q - (sq2 x Q - sq2 x P) := fun Q h => by have := sq2_nonneg P Q; linarith
  have hd := hn1 Q hlt
  set t := sq2 P Q / (sq2 P Q - (sq2 x Q - sq2 x P)) with ht
  have h0 : 0 ≤ t := div_nonneg (sq2_nonneg P Q) hd.le
  have h1 : t ≤ 1 := (div_le_one hd).2 (by linarith)
  have hte : t * (sq2 P Q - (sq2 x Q - sq2 x P)) = sq2 P Q := div_mul_cancel₀ _ hd.ne'
  have hy : Closest T P (lerp2 P x t) := by
    refine ⟨hsub P hP, fun R hR => ?_⟩
    have e := diff_lerp P R P x t
    rw [hPP, sub_zero] at e
    have hPR := sq2_nonneg P R
    by_cases hR' : sq2 x R < sq2 x P
    · have := hmin R (List.mem_filter.2 ⟨hR, by simpa using hR'⟩)
      rw [le_div_iff₀ (hn1 R hR')] at this
      linarith
    · have := mul_nonneg (sub_nonneg.2 h1) hPR
      have := mul_nonneg h0 (sub_nonneg.2 (not_lt.1 hR'))
      linarith
  have hyQ : Closest T Q (lerp2 P x t) := by
    refine ⟨hQT, fun R hR => ?_⟩
    have e := diff_lerp P Q P x t
    rw [hPP, sub_zero] at e
    have := hy.2 R hR
    linarith
  have := h.2 Q (htouch Q hQT _ (hconv _ _ _ hdP hx h0 h1) hy hyQ)
  linarith

/-- A corner of one cell that is in another cell is a corner of that, too. -/
theorem extreme_other {S : List (V2 K)} {Dom : V2 K → Prop} {P Q v : V2 K} (h : Extreme (InCell S Dom P) v) (hQ : Closest S Q v) : Extreme (InCell S Dom Q) v := by
  obtain ⟨⟨hd, hP⟩, hv⟩ := h
  refine ⟨⟨hd, hQ⟩, fun a b ha hb e => ?_⟩
  have e1 := diff_lerp Q P a b (1 / 2)
  rw [← e] at e1
  have h1 := ha.2.2 P hP.1
  have h2 := hb.2.2 P hP.1
  have h3 := hP.2 Q hQ.1
  have h4 := hQ.2 P hP.1
  have ea : sq2 a P = sq2 a Q := by linarith
  have eb : sq2 b P = sq2 b Q := by linarith
  exact hv a b ⟨ha.1, hP.1, fun R hR => by rw [ea]; exact ha.2.2 R hR⟩ ⟨hb.1, hP.1, fun R hR => by rw [eb]; exact hb.2.2 R hR⟩ e

/-- The corners next to a corner. -/
theorem corner_next {A : List (V2 K)} (hA : ConvexCCW A) {v : V2 K} (hv : v ∈ A) : ∃ u w, (u, v) ∈ dirSides A ∧ (v, w) ∈ dirSides A ∧ 0 < area2 v w u := by
  obtain ⟨X, Y, rfl⟩ := List.append_of_mem hv
  have hr := convex_rotate hA X.length
  have e : (X ++ v :: Y).rotate X.length = v :: (Y ++ X) := by rw [List.rotate_append_length_eq]; rfl
  have hmem : ∀ s, s ∈ dirSides (X ++ v :: Y) ↔ s ∈ dirSides (v :: (Y ++ X)) := by
    intro s; rw [← e, dirSides_rotate, List.mem_rotate]
  rw [e] at hr
  have hl : 2 ≤ (Y ++ X).length := by have := hr.1; simp only [List.length_cons] at this; omega
  generalize Y ++ X = Z at hr hmem hl
  match Z, hl with
  | w :: z :: Z, _ =>
    rcases List.eq_nil_or_concat (z :: Z) with h | ⟨M, u, h⟩
    · exact absurd h (by simp)
    · rw [List.concat_eq_append] at h
      rw [h] at hr hmem
      refine ⟨u, w, (hmem _).2 ?_, (hmem _).2 (by simp [dirSides]), hr.2 v w u ?_⟩
      · rw [dirSides_pairs, show v :: (w :: (M ++ [u]) ++ [v]) = (v :: w :: M) ++ u :: v :: [] by simp, pairs_append]
        exact List.mem_append_right _ (by simp [pairs])
      · exact List.Sublist.cons_cons _ (List.Sublist.cons_cons _ (by simp))
  | [], h => exact absurd h (by simp)
  | [_], h => exact absurd h (by simp)

/-- The corners of a convex polygon are its extreme points. -/
theorem extreme_corner {A : List (V2 K)} (hA : ConvexCCW A) {v : V2 K} : Extreme (InPoly A) v ↔ v ∈ A := by
  constructor
  · rintro ⟨hv, hx⟩
    rw [inPoly_hull hA] at hv
    induction hv with
    | pt h => exact h
    | @seg p q t hp hq h0 h1 ih1 ih2 =>
      have key : p = q ∨ t = 0 ∨ t = 1 := by
        by_cases ht0 : t = 0
        · exact Or.inr (Or.inl ht0)
        by_cases ht1 : t = 1
        · exact Or.inr (Or.inr ht1)
        left
        have h0' : 0 < t := lt_of_le_of_ne h0 (Ne.symm ht0)
        have h1' : t < 1 := lt_of_le_of_ne h1 ht1
        obtain ⟨s, hs, hs1, hs2⟩ : ∃ s : K, 0 < s ∧ s ≤ t ∧ s ≤ 1 - t := ⟨min t (1 - t), lt_min h0' (by linarith), min_le_left _ _, min_le_right _ _⟩
        have ha : InPoly A (lerp2 p q (t - s)) := (inPoly_hull hA).2 (Hull2.seg hp hq (by linarith) (by linarith))
        have hb : InPoly A (lerp2 p q (t + s)) := (inPoly_hull hA).2 (Hull2.seg hp hq (by linarith) (by linarith))
        have := hx _ _ ha hb (by
          unfold lerp2
          simp only [V2.mk.injEq]
          constructor <;> ring)
        unfold lerp2 at this
        simp only [V2.mk.injEq] at this
        have e1 : s * (q.x - p.x) = 0 := by linarith [this.1]
        have e2 : s * (q.y - p.y) = 0 := by linarith [this.2]
        have e1 := (mul_eq_zero.1 e1).resolve_left hs.ne'
        have e2 := (mul_eq_zero.1 e2).resolve_left hs.ne'
        exact V2.ext (by linarith) (by linarith)
      rcases key with rfl | rfl | rfl
      · have e : lerp2 p p t = p := by unfold lerp2; apply V2.ext <;> simp
        rw [e] at hx ⊢; exact ih1 hx
      · have e : lerp2 p q 0 = p := by unfold lerp2; apply V2.ext <;> simp
        rw [e] at hx ⊢; exact ih1 hx
      · have e : lerp2 p q 1 = q := by unfold lerp2; apply V2.ext <;> simp
        rw [e] at hx ⊢; exact ih2 hx
  · intro hv
    refine ⟨(inPoly_hull hA).2 (Hull2.pt hv), fun a b ha hb e => ?_⟩
    obtain ⟨u, w, h1, h2, h3⟩ := corner_next hA hv
    have key : ∀ a b, InPoly A a → InPoly A b → v = lerp2 a b (1 / 2) → a = v := by
      intro a b ha hb e
      have a1 := ha _ h1
      have a2 := ha _ h2
      have b1 := hb _ h1
      have b2 := hb _ h2
      have s1 : area2 u v a + area2 u v b = 2 * area2 u v (lerp2 a b (1 / 2)) := by unfold area2 lerp2; ring
      have s2 : area2 v w a + area2 v w b = 2 * area2 v w (lerp2 a b (1 / 2)) := by unfold area2 lerp2; ring
      rw [← e] at s1 s2
      have z1 : area2 u v v = 0 := by unfold area2; ring
      have z2 : area2 v w v = 0 := by unfold area2; ring
      rw [z1] at s1
      rw [z2] at s2
      simp only at a1 a2 b1 b2
      have c1 : area2 u v a = 0 := by linarith
      have c2 : area2 v w a = 0 := by linarith
      have x1 : (a.x - v.x) * area2 v w u = 0 := by
        have : (a.x - v.x) * area2 v w u = (u.x - v.x) * area2 v w a + (w.x - v.x) * area2 u v a := by unfold area2; ring
        rw [this, c1, c2]; ring
      have x2 : (a.y - v.y) * area2 v w u = 0 := by
        have : (a.y - v.y) * area2 v w u = (u.y - v.y) * area2 v w a + (w.y - v.y) * area2 u v a := by unfold area2; ring
        rw [this, c1, c2]; ring
      have y1 := (mul_eq_zero.1 x1).resolve_right h3.ne'
      have y2 := (mul_eq_zero.1 x2).resolve_right h3.ne'
      exact V2.ext (by linarith) (by linarith)
    rw [key a b ha hb e, key b a hb ha (by rw [e]; unfold lerp2; apply V2.ext <;> simp <;> ring)]

/-- Every other corner is strictly to the left of a side. -/
theorem side_pos {A : List (V2 K)} (hA : ConvexCCW A) {u v w : V2 K} (h : (u, v) ∈ dirSides A) (hw : w ∈ A) (hu : w ≠ u) (hv : w ≠ v) : 0 < area2 u v w := by
  rcases mem_dirSides h with ⟨X, Y, e⟩ | ⟨M, e⟩ | ⟨e, e'⟩
  · rw [e] at hw
    rcases List.mem_append.mp hw with hw | hw
    · have : List.Sublist [w, u, v] A := by
        rw [e]
        exact List.Sublist.append (List.singleton_sublist.mpr hw) (by simp : List.Sublist [u, v] (u :: v :: Y))
      have := hA.2 _ _ _ this
      rwa [area2_cyc] at this
    · have hw : w ∈ Y := by simpa [hu, hv] using hw
      have : List.Sublist [u, v, w] A := by
        rw [e]
        exact List.Sublist.trans (by simpa using hw) (List.sublist_append_right X _)
      exact hA.2 _ _ _ this
  · rw [e] at hw
    have hw : w ∈ M := by simpa [hu, hv] using hw
    have : List.Sublist [v, w, u] A := by
      rw [e]
      exact List.Sublist.cons_cons _ (List.Sublist.append (l₁ := [w]) (List.singleton_sublist.mpr hw) (List.Sublist.refl [u]))
    have := hA.2 _ _ _ this
    rwa [← area2_cyc] at this
  · have := hA.1
    rw [e] at this
    simp at this

theorem side_ne {A : List (V2 K)} (hA : ConvexCCW A) {u v : V2 K} (h : (u, v) ∈ dirSides A) : u ≠ v := by
  rintro rfl
  have hA' := hA
  obtain ⟨hl, ht⟩ := hA
  have z : ∀ x y : V2 K, area2 x x y = 0 := fun x y => by unfold area2; ring
  rcases mem_dirSides h with ⟨X, Y, e⟩ | ⟨M, e⟩ | ⟨e, _⟩
  · match X, Y with
    | x :: X, Y =>
      have := ht x u u (by rw [e]; exact List.Sublist.cons_cons _ ((by simp : List.Sublist [u, u] (u :: u :: Y)).trans (List.sublist_append_right X _)))
      rw [area2_cyc, z] at this; exact lt_irrefl _ this
    | [], y :: Y =>
      have := ht u u y (by rw [e]; simp)
      rw [z] at this; exact lt_irrefl _ this
    | [], [] => rw [e] at hl; simp at hl
  · match M with
    | m :: M =>
      have := ht u m u (by rw [e]; exact List.Sublist.cons_cons _ (List.Sublist.cons_cons _ (List.sublist_append_right M _)))
      rw [← area2_cyc, z] at this; exact lt_irrefl _ this
    | [] => rw [e] at hl; simp at hl
  · rw [e] at hl; simp at hl

/-- The sides of a convex polygon can be recognised from the region it covers. -/
theorem side_iff {A : List (V2 K)} (hA : ConvexCCW A) {u v : V2 K} : (u, v) ∈ dirSides A ↔ SideOf (InPoly A) u v := by
  unfold SideOf
  rw [extreme_corner hA, extreme_corner hA]
  constructor
  · intro h
    exact ⟨fst_mem_of_dirSides h, snd_mem_of_dirSides h, side_ne hA h, fun x hx => hx _ h⟩
  · rintro ⟨hu, hv, hne, hl⟩
    obtain ⟨w, hw⟩ := exists_side_from hu
    by_cases hwv : w = v
    · rwa [hwv] at hw
    · have h1 := side_pos hA hw hv (Ne.symm hne) (Ne.symm hwv)
      have h2 := hl w ((inPoly_hull hA).2 (Hull2.pt (snd_mem_of_dirSides hw)))
      have e : area2 u v w = -area2 u w v := by unfold area2; ring
      linarith

theorem extreme_congr {C D : V2 K → Prop} (h : ∀ x, C x ↔ D x) {v : V2 K} : Extreme C v ↔ Extreme D v := by
  have : C = D := funext fun x => propext (h x)
  rw [this]

theorem sideOf_congr {C D : V2 K → Prop} (h : ∀ x, C x ↔ D x) {u v : V2 K} : SideOf C u v ↔ SideOf D u v := by
  have : C = D := funext fun x => propext (h x)
  rw [this]

/-- A side of one cell whose ends are in another cell is a side of that, in the opposite direction. -/
theorem sideOf_other {S : List (V2 K)} {Dom : V2 K → Prop} {P Q u v : V2 K} (hPQ : P ≠ Q) (hdP : Dom P) (h : SideOf (InCell S Dom P) u v) (hu : Closest S Q u) (hv : Closest S Q v) :
    SideOf (InCell S Dom Q) v u := by
  obtain ⟨h1, h2, h3, h4⟩ := h
  refine ⟨extreme_other h2 hv, extreme_other h1 hu, h3.symm, fun x hx => ?_⟩
  have eu : sq2 u Q = sq2 u P := le_antisymm (hu.2 P h1.1.2.1) (h1.1.2.2 Q hu.1)
  have ev : sq2 v Q = sq2 v P := le_antisymm (hv.2 P h1.1.2.1) (h2.1.2.2 Q hu.1)
  -- the difference of the distances is a multiple of the height over the side
  have key : ∀ y : V2 K, sq2 u v * (sq2 y Q - sq2 y P) = 2 * area2 u v y * ((v.x - u.x) * (P.y - Q.y) - (v.y - u.y) * (P.x - Q.x)) := by
    intro y
    have e1 : sq2 u Q - sq2 u P - (sq2 v Q - sq2 v P) = 2 * ((v.x - u.x) * (Q.x - P.x) + (v.y - u.y) * (Q.y - P.y)) := by unfold sq2; ring
    rw [eu, ev] at e1
    have e2 : (v.x - u.x) * (Q.x - P.x) + (v.y - u.y) * (Q.y - P.y) = 0 := by linarith
    have e3 : sq2 y Q - sq2 y P = (sq2 u Q - sq2 u P) + 2 * ((y.x - u.x) * (P.x - Q.x) + (y.y - u.y) * (P.y - Q.y)) := by unfold sq2; ring
    rw [e3, eu]
    unfold area2 sq2
    linear_combination (-2 * ((y.x - u.x) * (v.x - u.x) + (y.y - u.y) * (v.y - u.y))) * e2
  have hP : InCell S Dom P P := ⟨hdP, closest_self h1.1.2.1⟩
  have k1 := key P
  have k2 := key x
  have z : sq2 P P = 0 := by unfold sq2; ring
  have p1 := sq2_pos h3
  have p2 := sq2_pos hPQ
  have p3 := h4 P hP
  have p4 := hx.2.2 P h1.1.2.1
  rw [z, sub_zero] at k1
  have e : area2 v u x = -area2 u v x := by unfold area2; ring
  rw [e]
  by_contra hn
  have hpos : 0 < area2 u v x := by linarith
  set c := (v.x - u.x) * (P.y - Q.y) - (v.y - u.y) * (P.x - Q.x)
  have m1 : 0 < sq2 u v * sq2 P Q := mul_pos p1 p2
  have hc : 0 < c := by
    by_contra hc
    have := mul_nonneg p3 (neg_nonneg.2 (not_lt.1 hc))
    linarith
  have m2 : 0 < 2 * area2 u v x * c := mul_pos (by linarith) hc
  have m3 := mul_nonneg p1.le (sub_nonneg.2 p4)
  linarith
end
end Verif.Nbr
