import Verif.Model.Convex
import Verif.Spec.Convex
import Verif.Proofs.Polygon
import Verif.Proofs.Query
import Mathlib.Analysis.Convex.Radon
import Mathlib.LinearAlgebra.Dimension.Constructions
/- Half-plane tests of clouds, hulls of convex polygons, and separation by sides. -/
namespace Verif.Geom
open Verif Verif.Mesh
section
variable {K : Type} [Field K] [LinearOrder K] [IsStrictOrderedRing K]

theorem cloudSideLoop_spec {P : Type} {read : Nat → Res P} {side : P → Int} {v : Nat → P} {result : Int} :
    ∀ {fuel i : Nat}, (∀ k, i ≤ k → k < i + fuel → read k = .ok (v k)) →
    ∃ s, cloudSideLoop read side result i fuel = .ok s ∧ ((∀ k, i ≤ k → k < i + fuel → side (v k) = result) ∧ s = result ∨ (∃ k, i ≤ k ∧ k < i + fuel ∧ side (v k) ≠ result) ∧ s = 0)
  | 0, i, _ => ⟨result, rfl, Or.inl ⟨fun k h1 h2 => by omega, rfl⟩⟩
  | fuel + 1, i, h => by
    simp only [cloudSideLoop]
    rw [h i (le_refl _) (by omega), Res.ok_bind]
    by_cases hs : result = side (v i)
    · rw [if_pos hs]
      obtain ⟨s, h1, h2⟩ := cloudSideLoop_spec (side := side) (result := result) (fuel := fuel) (i := i + 1) (fun k hk1 hk2 => h k (by omega) (by omega))
      refine ⟨s, h1, ?_⟩
      rcases h2 with ⟨ha, e⟩ | ⟨⟨k, hk1, hk2, hk⟩, e⟩
      · refine Or.inl ⟨fun k hk1 hk2 => ?_, e⟩
        rcases Nat.eq_or_lt_of_le hk1 with rfl | hlt
        · exact hs.symm
        · exact ha k hlt (by omega)
      · exact Or.inr ⟨⟨k, by omega, by omega, hk⟩, e⟩
    · rw [if_neg hs]
      exact ⟨0, rfl, Or.inr ⟨⟨i, le_refl _, by omega, Ne.symm hs⟩, rfl⟩⟩

omit [LinearOrder K] [IsStrictOrderedRing K] in
theorem rdV2_vtx {l : List K} {k : Nat} (h : k < l.length / 2) : rdV2 l k = .ok (vtx l (k : Int)) := by
  unfold rdV2
  rw [rd_getD (by omega) 0, rd_getD (by omega) 0]
  rfl

omit [LinearOrder K] [IsStrictOrderedRing K] in
theorem mem_pts2 {l : List K} {v : V2 K} : v ∈ pts2 l ↔ ∃ k, k < l.length / 2 ∧ vtx l (k : Int) = v := by
  simp [pts2, corners]

omit [IsStrictOrderedRing K] in
theorem aboveBelow2_eq (a b p : V2 K) : aboveBelow2 a b p = if area2 a b p < 0 then 1 else if 0 < area2 a b p then -1 else 0 := by
  unfold aboveBelow2 area2
  dsimp only
  split
  · rfl
  · split <;> rfl

omit [IsStrictOrderedRing K] in
theorem aboveBelow2_neg {a b p : V2 K} : aboveBelow2 a b p = -1 ↔ 0 < area2 a b p := by
  rw [aboveBelow2_eq]
  split
  · rename_i h; simp [not_lt.mpr h.le]
  · split <;> simp [*]

omit [IsStrictOrderedRing K] in
theorem aboveBelow2_pos {a b p : V2 K} : aboveBelow2 a b p = 1 ↔ area2 a b p < 0 := by
  rw [aboveBelow2_eq]
  split
  · simp [*]
  · split <;> simp [*]

omit [IsStrictOrderedRing K] in
theorem cloudSide2_spec {dbg : Bool} {l : List K} (he : l.length % 2 = 0) (h0 : 0 < l.length) (a b : V2 K) :
    ∃ s, cloudSide2 dbg a b l = .ok s ∧ (s = -1 ↔ ∀ v ∈ pts2 l, 0 < area2 a b v) ∧ (s = 1 ↔ ∀ v ∈ pts2 l, area2 a b v < 0) := by
  unfold cloudSide2
  rw [Res.assert_true dbg he, Res.ok_bind, Res.assert_true dbg (by omega), Res.ok_bind]
  dsimp only
  rw [rdV2_vtx (k := 0) (by omega), Res.ok_bind]
  obtain ⟨s, h1, h2⟩ := cloudSideLoop_spec (read := rdV2 l) (side := aboveBelow2 a b) (v := fun k => vtx l (k : Int)) (result := aboveBelow2 a b (vtx l ((0 : Nat) : Int)))
    (fuel := l.length / 2 - 1) (i := 1) (fun k hk1 hk2 => rdV2_vtx (by omega))
  refine ⟨s, h1, ?_⟩
  have gen : ∀ w : Int, w ≠ 0 → (s = w ↔ ∀ v ∈ pts2 l, aboveBelow2 a b v = w) := by
    intro w hw
    rcases h2 with ⟨ha, e⟩ | ⟨⟨k, hk1, hk2, hk⟩, e⟩
    · rw [e]
      constructor
      · intro h v hv
        obtain ⟨k, hk, rfl⟩ := mem_pts2.mp hv
        rcases Nat.eq_zero_or_pos k with rfl | hp
        · exact h
        · rw [ha k hp (by omega), h]
      · intro h
        exact h _ (mem_pts2.mpr ⟨0, by omega, rfl⟩)
    · rw [e]
      constructor
      · intro h; exact absurd h.symm hw
      · intro h
        exact absurd ((h _ (mem_pts2.mpr ⟨k, by omega, rfl⟩)).trans (h _ (mem_pts2.mpr ⟨0, by omega, rfl⟩)).symm) hk
  constructor
  · rw [gen (-1) (by decide)]
    exact forall₂_congr fun v _ => aboveBelow2_neg
  · rw [gen 1 (by decide)]
    exact forall₂_congr fun v _ => aboveBelow2_pos

omit [IsStrictOrderedRing K] in
theorem scan2_spec {dbg : Bool} {b : RPLC K} {l : List K} (he : l.length % 2 = 0) (h0 : 0 < l.length) {stop : Int → Bool} {bad : V2 K → V2 K → Prop}
    (hstop : ∀ x y s, cloudSide2 dbg x y l = .ok s → (stop s = true ↔ bad x y)) :
    ∀ {fs : List (List Int)}, (∀ f ∈ fs, f.length = 2 ∧ ∀ i ∈ f, 0 ≤ i ∧ i < ((b.points.length / 2 : Nat) : Int)) →
    ∃ r, scan2 dbg b l stop fs = .ok r ∧ (r = true ↔ ∃ f ∈ fs, bad (segA b.points f) (segB b.points f))
  | [], _ => ⟨false, rfl, by simp⟩
  | f :: fs, h => by
    obtain ⟨r, hr, hi⟩ := scan2_spec (b := b) he h0 hstop (fs := fs) (fun g hg => h g (List.mem_cons_of_mem _ hg))
    obtain ⟨hl, hids⟩ := h f (by simp)
    obtain ⟨i, j, rfl⟩ : ∃ i j, f = [i, j] := by
      match f, hl with
      | [i, j], _ => exact ⟨i, j, rfl⟩
    have hi1 := hids i (by simp)
    have hj1 := hids j (by simp)
    have r1 : rd [i, j] 0 = .ok i := rfl
    have r2 : rd [i, j] 1 = .ok j := rfl
    have ci : ((i.toNat : Nat) : Int) = i := Int.toNat_of_nonneg hi1.1
    have cj : ((j.toNat : Nat) : Int) = j := Int.toNat_of_nonneg hj1.1
    have v1 : rdV2 b.points i.toNat = .ok (vtx b.points i) := by rw [rdV2_vtx (by omega), ci]
    have v2 : rdV2 b.points j.toNat = .ok (vtx b.points j) := by rw [rdV2_vtx (by omega), cj]
    obtain ⟨s, hs, _⟩ := cloudSide2_spec (dbg := dbg) he h0 (vtx b.points i) (vtx b.points j)
    have hst := hstop _ _ s hs
    simp only [scan2]
    rw [r1, Res.ok_bind, r2, Res.ok_bind, Res.assert_true dbg (by omega), Res.ok_bind, Res.assert_true dbg (by omega), Res.ok_bind, if_neg (by omega), v1, Res.ok_bind, v2, Res.ok_bind, hs, Res.ok_bind]
    have hseg : bad (segA b.points [i, j]) (segB b.points [i, j]) ↔ bad (vtx b.points i) (vtx b.points j) := Iff.rfl
    by_cases hb : stop s = true
    · rw [if_pos hb]
      exact ⟨true, rfl, by simp only [List.mem_cons, exists_eq_or_imp, hseg, hst.mp hb, true_or]⟩
    · rw [if_neg hb]
      refine ⟨r, hr, ?_⟩
      rw [hi]
      have : ¬ bad (vtx b.points i) (vtx b.points j) := fun hc => hb (hst.mpr hc)
      simp only [List.mem_cons, exists_eq_or_imp, hseg, this, false_or]

/-- An affine function that is positive (non-negative) at the points is so on the hull. -/
theorem hull2_pos {S : List (V2 K)} {a b : V2 K} (h : ∀ v ∈ S, 0 < area2 a b v) {p : V2 K} (hp : Hull2 S p) : 0 < area2 a b p := by
  induction hp with
  | pt hm => exact h _ hm
  | @seg p q t _ _ h0 h1 ih1 ih2 =>
    have : area2 a b (lerp2 p q t) = (1 - t) * area2 a b p + t * area2 a b q := by simp only [area2, lerp2]; ring
    rw [this]
    rcases h0.lt_or_eq with h | h
    · exact add_pos_of_nonneg_of_pos (mul_nonneg (by linarith) ih1.le) (mul_pos h ih2)
    · rw [← h]; simpa using ih1

theorem hull2_nonneg {S : List (V2 K)} {a b : V2 K} (h : ∀ v ∈ S, 0 ≤ area2 a b v) {p : V2 K} (hp : Hull2 S p) : 0 ≤ area2 a b p := by
  induction hp with
  | pt hm => exact h _ hm
  | @seg p q t _ _ h0 h1 ih1 ih2 =>
    have : area2 a b (lerp2 p q t) = (1 - t) * area2 a b p + t * area2 a b q := by simp only [area2, lerp2]; ring
    rw [this]
    exact add_nonneg (mul_nonneg (by linarith) ih1) (mul_nonneg h0 ih2)

theorem hull2_mono {S T : List (V2 K)} (h : ∀ v ∈ S, v ∈ T) {p : V2 K} (hp : Hull2 S p) : Hull2 T p := by
  induction hp with
  | pt hm => exact Hull2.pt (h _ hm)
  | seg _ _ h0 h1 ih1 ih2 => exact Hull2.seg ih1 ih2 h0 h1

/-- A point of a triangle is in the hull of its corners. -/
theorem tri_hull {S : List (V2 K)} {a b c p : V2 K} (ha : a ∈ S) (hb : b ∈ S) (hc : c ∈ S) (hD : 0 < area2 a b c) (h1 : 0 ≤ area2 b c p) (h2 : 0 ≤ area2 c a p)
    (h3 : 0 ≤ area2 a b p) : Hull2 S p := by
  set D := area2 a b c with hDd
  have hsum : area2 b c p + area2 c a p + area2 a b p = D := by simp only [hDd, area2]; ring
  have ex : p.x * D = area2 b c p * a.x + area2 c a p * b.x + area2 a b p * c.x := by simp only [hDd, area2]; ring
  have ey : p.y * D = area2 b c p * a.y + area2 c a p * b.y + area2 a b p * c.y := by simp only [hDd, area2]; ring
  set A := area2 b c p
  set B := area2 c a p
  set C := area2 a b p
  by_cases hs : B + C = 0
  · have hB : B = 0 := by linarith
    have hC : C = 0 := by linarith
    have hA : A = D := by linarith
    have : p = a := by
      rw [hA, hB, hC] at ex ey
      ext
      · apply mul_right_cancel₀ hD.ne'; linarith
      · apply mul_right_cancel₀ hD.ne'; linarith
    rw [this]; exact Hull2.pt ha
  · have hsp : 0 < B + C := lt_of_le_of_ne (by linarith) (Ne.symm hs)
    have hq : Hull2 S (lerp2 b c (C / (B + C))) := Hull2.seg (Hull2.pt hb) (Hull2.pt hc) (div_nonneg h3 hsp.le) ((div_le_one hsp).mpr (by linarith))
    have hp : p = lerp2 a (lerp2 b c (C / (B + C))) ((B + C) / D) := by
      have hA : A = D - B - C := by linarith
      have hx : p.x = (A * a.x + B * b.x + C * c.x) / D := by rw [eq_div_iff hD.ne']; exact ex
      have hy : p.y = (A * a.y + B * b.y + C * c.y) / D := by rw [eq_div_iff hD.ne']; exact ey
      ext
      · simp only [lerp2]; rw [hx, hA]; field_simp; ring
      · simp only [lerp2]; rw [hy, hA]; field_simp; ring
    rw [hp]
    exact Hull2.seg (Hull2.pt ha) hq (div_nonneg hsp.le hD.le) ((div_le_one hD).mpr (by linarith))

theorem fan_find {v0 p : V2 K} : ∀ {l : List (V2 K)} {w : V2 K}, 0 ≤ area2 v0 w p → area2 v0 ((w :: l).getLast (by simp)) p ≤ 0 → l ≠ [] →
    ∃ u u', (u, u') ∈ pairs (w :: l) ∧ 0 ≤ area2 v0 u p ∧ area2 v0 u' p ≤ 0
  | [], _, _, _, h => (h rfl).elim
  | [x], w, h1, h2, _ => ⟨w, x, by simp [pairs], h1, by simpa using h2⟩
  | x :: y :: l, w, h1, h2, _ => by
    rcases le_total (area2 v0 x p) 0 with h | h
    · exact ⟨w, x, by simp [pairs], h1, h⟩
    · obtain ⟨u, u', hm, hu, hu'⟩ := fan_find (l := y :: l) (w := x) h (by simpa using h2) (by simp)
      exact ⟨u, u', by rw [pairs_cons]; exact List.mem_cons_of_mem _ hm, hu, hu'⟩

/-- The closed polygon is the hull of its corners. -/
theorem inPoly_hull {vs : List (V2 K)} (hc : ConvexCCW vs) {p : V2 K} : InPoly vs p ↔ Hull2 vs p := by
  constructor
  · intro hp
    match vs, hc with
    | [], hc => exact absurd hc.1 (by simp)
    | [_], hc => exact absurd hc.1 (by simp)
    | [_, _], hc => exact absurd hc.1 (by simp)
    | v0 :: w :: x :: l, hc =>
      have hd : dirSides (v0 :: w :: x :: l) = (v0, w) :: (pairs (w :: x :: l) ++ [((w :: x :: l).getLast (by simp), v0)]) := by
        rw [dirSides_pairs, List.cons_append, pairs_cons]
        have hcat : w :: x :: l = (w :: x :: l).dropLast ++ [(w :: x :: l).getLast (by simp)] := (List.dropLast_append_getLast (by simp)).symm
        have : w :: (x :: l ++ [v0]) = (w :: x :: l).dropLast ++ (w :: x :: l).getLast (by simp) :: v0 :: [] := by
          have e : w :: (x :: l ++ [v0]) = (w :: x :: l) ++ [v0] := rfl
          rw [e]
          conv_lhs => rw [hcat]
          simp
        rw [this, pairs_append, ← hcat]
        simp [pairs]
      have h1 : 0 ≤ area2 v0 w p := hp (v0, w) (by rw [hd]; simp)
      have h2 : area2 v0 ((w :: x :: l).getLast (by simp)) p ≤ 0 := by
        have := hp ((w :: x :: l).getLast (by simp), v0) (by rw [hd]; simp)
        have e : area2 ((w :: x :: l).getLast (by simp)) v0 p = -area2 v0 ((w :: x :: l).getLast (by simp)) p := by unfold area2; ring
        simp only [e] at this
        linarith
      obtain ⟨u, u', hm, hu, hu'⟩ := fan_find (l := x :: l) (w := w) h1 h2 (by simp)
      obtain ⟨X, Y, e⟩ := mem_pairs hm
      have hs : List.Sublist [v0, u, u'] (v0 :: w :: x :: l) := by
        refine List.Sublist.cons_cons _ ?_
        rw [e]
        exact List.Sublist.trans (by simp) (List.sublist_append_right X _)
      have hD := hc.2 _ _ _ hs
      have h3 : 0 ≤ area2 u u' p := hp (u, u') (by rw [hd]; simp [hm])
      refine tri_hull (a := v0) (b := u) (c := u') (hs.subset (by simp)) (hs.subset (by simp)) (hs.subset (by simp)) hD h3 ?_ hu
      have e : area2 u' v0 p = -area2 v0 u' p := by unfold area2; ring
      rw [e]; linarith
  · intro hp e he
    exact hull2_nonneg (fun v hv => side_nonneg hc he hv) hp

theorem halfplane_convex (c d : V2 K) : Convex K {x : K × K | 0 ≤ area2 c d ⟨x.1, x.2⟩} := by
  intro x hx y hy a b ha hb hab
  simp only [Set.mem_ofPred_eq] at hx hy ⊢
  have : area2 c d ⟨(a • x + b • y).1, (a • x + b • y).2⟩ = a * area2 c d ⟨x.1, x.2⟩ + b * area2 c d ⟨y.1, y.2⟩ := by
    simp only [area2, Prod.fst_add, Prod.snd_add, Prod.smul_fst, Prod.smul_snd, smul_eq_mul]
    linear_combination ((d.x - c.x) * c.y - (d.y - c.y) * c.x) * hab
  rw [this]
  exact add_nonneg (mul_nonneg ha hx) (mul_nonneg hb hy)

/-- Separation by sides: if no side of either polygon has the other polygon strictly outside then the polygons have a point in common. -/
theorem separation {A B : List (V2 K)} (hA : ConvexCCW A) (hB : ConvexCCW B) (h1 : ∀ e ∈ dirSides A, ∃ v ∈ B, 0 ≤ area2 e.1 e.2 v)
    (h2 : ∀ e ∈ dirSides B, ∃ v ∈ A, 0 ≤ area2 e.1 e.2 v) : ∃ p, InPoly A p ∧ InPoly B p := by
  classical
  have hAne : ∃ v, v ∈ A := by
    cases A with
    | nil => exact absurd hA.1 (by simp)
    | cons v _ => exact ⟨v, by simp⟩
  have hBne : ∃ v, v ∈ B := by
    cases B with
    | nil => exact absurd hB.1 (by simp)
    | cons v _ => exact ⟨v, by simp⟩
  set s : Finset (V2 K × V2 K) := (dirSides A ++ dirSides B).toFinset with hs
  have key : (⋂ e ∈ s, {x : K × K | 0 ≤ area2 e.1 e.2 ⟨x.1, x.2⟩}).Nonempty := by
    apply Convex.helly_theorem' (𝕜 := K) (fun e _ => halfplane_convex e.1 e.2)
    intro I hI hcard
    have hfin : Module.finrank K (K × K) = 2 := by rw [Module.finrank_prod, Module.finrank_self]
    rw [hfin] at hcard
    have hsplit := Finset.card_filter_add_card_filter_not (s := I) (p := fun e => e ∈ dirSides A)
    set IA := I.filter (fun e => e ∈ dirSides A) with hIA
    set IB := I.filter (fun e => ¬ e ∈ dirSides A) with hIB
    have memB : ∀ e ∈ I, e ∉ dirSides A → e ∈ dirSides B := by
      intro e he hn
      have := hI he
      rw [hs, List.mem_toFinset, List.mem_append] at this
      exact this.resolve_left hn
    rcases Nat.lt_or_ge IB.card 2 with hc | hc
    · obtain ⟨v, hv, hvB⟩ : ∃ v ∈ A, ∀ e ∈ IB, 0 ≤ area2 e.1 e.2 v := by
        rcases Nat.eq_zero_or_pos IB.card with h0 | hp
        · obtain ⟨v, hv⟩ := hAne
          exact ⟨v, hv, fun e he => absurd he (by rw [Finset.card_eq_zero.mp h0]; simp)⟩
        · obtain ⟨g, hg⟩ := Finset.card_eq_one.mp (by omega : IB.card = 1)
          have hgI : g ∈ IB := by rw [hg]; simp
          rw [hIB, Finset.mem_filter] at hgI
          obtain ⟨v, hv, h⟩ := h2 g (memB g hgI.1 hgI.2)
          exact ⟨v, hv, fun e he => by
            rw [hg, Finset.mem_singleton] at he; rw [he]; exact h⟩
      refine ⟨(v.x, v.y), ?_⟩
      simp only [Set.mem_iInter, Set.mem_ofPred_eq]
      intro e he
      by_cases hm : e ∈ dirSides A
      · exact side_nonneg (c := e.1) (d := e.2) hA hm hv
      · exact hvB e (by rw [hIB, Finset.mem_filter]; exact ⟨he, hm⟩)
    · have hcA : IA.card < 2 := by omega
      obtain ⟨v, hv, hvA⟩ : ∃ v ∈ B, ∀ e ∈ IA, 0 ≤ area2 e.1 e.2 v := by
        rcases Nat.eq_zero_or_pos IA.card with h0 | hp
        · obtain ⟨v, hv⟩ := hBne
          exact ⟨v, hv, fun e he => absurd he (by rw [Finset.card_eq_zero.mp h0]; simp)⟩
        · obtain ⟨g, hg⟩ := Finset.card_eq_one.mp (by omega : IA.card = 1)
          have hgI : g ∈ IA := by rw [hg]; simp
          rw [hIA, Finset.mem_filter] at hgI
          obtain ⟨v, hv, h⟩ := h1 g hgI.2
          exact ⟨v, hv, fun e he => by
            rw [hg, Finset.mem_singleton] at he; rw [he]; exact h⟩
      refine ⟨(v.x, v.y), ?_⟩
      simp only [Set.mem_iInter, Set.mem_ofPred_eq]
      intro e he
      by_cases hm : e ∈ dirSides A
      · exact hvA e (by rw [hIA, Finset.mem_filter]; exact ⟨he, hm⟩)
      · exact side_nonneg (c := e.1) (d := e.2) hB (memB e he hm) hv
  obtain ⟨x, hx⟩ := key
  simp only [Set.mem_iInter, Set.mem_ofPred_eq] at hx
  exact ⟨⟨x.1, x.2⟩, fun e he => hx e (by rw [hs, List.mem_toFinset]; simp [he]), fun e he => hx e (by rw [hs, List.mem_toFinset]; simp [he])⟩
end
end Verif.Geom
