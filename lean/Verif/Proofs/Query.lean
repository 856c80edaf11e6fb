import Verif.Model.Query
import Verif.Spec.Query
import Verif.Proofs.CellPLC
import Mathlib.Tactic.Linarith
import Mathlib.Tactic.FieldSimp
import Mathlib.Tactic.Ring
import Mathlib.Tactic.LinearCombination
import Mathlib.Tactic.NormNum
import Mathlib.Tactic.Positivity
/- Proofs about closest points and segment intersection. -/
namespace Verif.Geom
open Verif Verif.Mesh

theorem distance2_eq (a b : V2 ℝ) : distance2 a b = dist2 a b := by
  unfold distance2 dist2 sq2; congr 1; ring

theorem sq2_nonneg {K : Type} [Field K] [LinearOrder K] [IsStrictOrderedRing K] (a b : V2 K) : 0 ≤ sq2 a b := by unfold sq2; positivity

theorem dist2_nonneg (a b : V2 ℝ) : 0 ≤ dist2 a b := Real.sqrt_nonneg _

theorem dist2_sq (a b : V2 ℝ) : dist2 a b ^ 2 = sq2 a b := Real.sq_sqrt (sq2_nonneg a b)

theorem dist2_le {a b c d : V2 ℝ} : dist2 a b ≤ dist2 c d ↔ sq2 a b ≤ sq2 c d := Real.sqrt_le_sqrt_iff (sq2_nonneg c d)

theorem dist2_tri (p q r : V2 ℝ) : dist2 p r ≤ dist2 p q + dist2 q r := by
  have h0 := dist2_nonneg p q
  have h1 := dist2_nonneg q r
  have hcs : (p.x - q.x) * (q.x - r.x) + (p.y - q.y) * (q.y - r.y) ≤ dist2 p q * dist2 q r := by
    refine le_of_sq_le_sq ?_ (mul_nonneg h0 h1)
    rw [mul_pow, dist2_sq, dist2_sq]
    unfold sq2
    nlinarith [sq_nonneg ((p.x - q.x) * (q.y - r.y) - (p.y - q.y) * (q.x - r.x))]
  refine le_of_sq_le_sq ?_ (add_nonneg h0 h1)
  have e := dist2_sq p r
  have e1 := dist2_sq p q
  have e2 := dist2_sq q r
  unfold sq2 at e e1 e2
  nlinarith

/-- The half length case: the midpoint. -/
theorem closest_mid {p s1 s2 : V2 ℝ} (h : dist2 s1 s2 < 1 / 10 ^ 10) : closestOnSeg p s1 s2 = lerp2 s1 s2 (1 / 2) := by
  unfold closestOnSeg
  have e : Real.sqrt ((s2 - s1).x * (s2 - s1).x + (s2 - s1).y * (s2 - s1).y) = dist2 s1 s2 := by
    unfold dist2 sq2; congr 1; simp only [V2.sub_x, V2.sub_y]; ring
  dsimp only
  rw [e, if_pos h]
  unfold lerp2
  ext
  · dsimp only; ring
  · dsimp only; ring

/-- The normal case: the projection, clamped. -/
theorem closest_proj {p s1 s2 : V2 ℝ} (h : ¬ dist2 s1 s2 < 1 / 10 ^ 10) :
    closestOnSeg p s1 s2 = lerp2 s1 s2 (max 0 (min (dist2 s1 s2) (dot2 (p - s1) (s2 - s1) / dist2 s1 s2)) / dist2 s1 s2) := by
  have hpos : 0 < dist2 s1 s2 := lt_of_lt_of_le (by positivity) (not_lt.1 h)
  unfold closestOnSeg
  have e : Real.sqrt ((s2 - s1).x * (s2 - s1).x + (s2 - s1).y * (s2 - s1).y) = dist2 s1 s2 := by
    unfold dist2 sq2; congr 1; simp only [V2.sub_x, V2.sub_y]; ring
  dsimp only
  rw [e, if_neg h]
  have e2 : dot2 (p - s1) ((s2 - s1).div (dist2 s1 s2)) = dot2 (p - s1) (s2 - s1) / dist2 s1 s2 := by
    simp only [dot2, V2.div_x, V2.div_y]; field_simp
  rw [e2]
  unfold lerp2
  ext
  · simp only [V2.div_x, V2.sub_x]; field_simp
  · simp only [V2.div_y, V2.sub_y]; field_simp

theorem sq2_lerp (p a b : V2 ℝ) (t : ℝ) : sq2 p (lerp2 a b t) = sq2 p a - 2 * t * dot2 (p - a) (b - a) + t ^ 2 * sq2 a b := by
  simp only [sq2, lerp2, dot2, V2.sub_x, V2.sub_y]; ring

theorem clamp_best {L t0 σ : ℝ} (hL : 0 < L) (h0 : 0 ≤ σ) (h1 : σ ≤ L) : (max 0 (min L t0) - t0) ^ 2 ≤ (σ - t0) ^ 2 := by
  rcases le_total t0 0 with h | h
  · rw [max_eq_left (by exact (min_le_right _ _).trans h)]; nlinarith
  · rcases le_total t0 L with h' | h'
    · rw [min_eq_right h', max_eq_right h]; nlinarith [sq_nonneg (σ - t0)]
    · rw [min_eq_left h', max_eq_right hL.le]; nlinarith

theorem closest_onSeg (p s1 s2 : V2 ℝ) : OnSeg s1 s2 (closestOnSeg p s1 s2) := by
  by_cases h : dist2 s1 s2 < 1 / 10 ^ 10
  · exact ⟨1 / 2, by norm_num, by norm_num, closest_mid h⟩
  · have hpos : 0 < dist2 s1 s2 := lt_of_lt_of_le (by positivity) (not_lt.1 h)
    refine ⟨_, div_nonneg (le_max_left _ _) hpos.le, ?_, closest_proj h⟩
    rw [div_le_one hpos]
    exact max_le hpos.le (min_le_left _ _)

theorem closest_best {p s1 s2 q : V2 ℝ} (h : ¬ dist2 s1 s2 < 1 / 10 ^ 10) (hq : OnSeg s1 s2 q) : dist2 p (closestOnSeg p s1 s2) ≤ dist2 p q := by
  have hpos : 0 < dist2 s1 s2 := lt_of_lt_of_le (by positivity) (not_lt.1 h)
  obtain ⟨t, ht0, ht1, rfl⟩ := hq
  rw [dist2_le, closest_proj h, sq2_lerp, sq2_lerp]
  have hb := clamp_best (t0 := dot2 (p - s1) (s2 - s1) / dist2 s1 s2) (σ := t * dist2 s1 s2) hpos (mul_nonneg ht0 hpos.le) (by nlinarith)
  have hL := dist2_sq s1 s2
  generalize max 0 (min (dist2 s1 s2) (dot2 (p - s1) (s2 - s1) / dist2 s1 s2)) = c at *
  generalize dot2 (p - s1) (s2 - s1) = d at *
  rw [← hL]
  generalize dist2 s1 s2 = L at *
  have e1 : c / L * L = c := div_mul_cancel₀ _ hpos.ne'
  have e2 : d / L * L = d := div_mul_cancel₀ _ hpos.ne'
  have : -2 * (c / L) * d + (c / L) ^ 2 * L ^ 2 ≤ -2 * t * d + t ^ 2 * L ^ 2 := by
    have h1 : -2 * (c / L) * d + (c / L) ^ 2 * L ^ 2 = (c - d / L) ^ 2 - (d / L) ^ 2 := by field_simp; ring
    have h2 : -2 * t * d + t ^ 2 * L ^ 2 = (t * L - d / L) ^ 2 - (d / L) ^ 2 := by field_simp; ring
    rw [h1, h2]; linarith
  linarith

theorem onSeg_dist_mid {s1 s2 q : V2 ℝ} (hq : OnSeg s1 s2 q) : dist2 q (lerp2 s1 s2 (1 / 2)) ≤ dist2 s1 s2 / 2 := by
  obtain ⟨t, ht0, ht1, rfl⟩ := hq
  refine le_of_sq_le_sq ?_ (by have := dist2_nonneg s1 s2; linarith)
  rw [div_pow, dist2_sq, dist2_sq]
  have : sq2 (lerp2 s1 s2 t) (lerp2 s1 s2 (1 / 2)) = (t - 1 / 2) ^ 2 * sq2 s1 s2 := by simp only [sq2, lerp2]; ring
  rw [this]
  have h := sq2_nonneg s1 s2
  have h2 : (t - 1 / 2) ^ 2 ≤ 1 / 4 := by nlinarith
  calc (t - 1 / 2) ^ 2 * sq2 s1 s2 ≤ 1 / 4 * sq2 s1 s2 := mul_le_mul_of_nonneg_right h2 h
    _ = sq2 s1 s2 / 2 ^ 2 := by ring

/-- Optimal up to half of 1e-10. -/
theorem closest_near {p s1 s2 q : V2 ℝ} (hq : OnSeg s1 s2 q) : dist2 p (closestOnSeg p s1 s2) ≤ dist2 p q + 1 / 2 * (1 / 10 ^ 10) := by
  by_cases h : dist2 s1 s2 < 1 / 10 ^ 10
  · rw [closest_mid h]
    have h1 := dist2_tri p q (lerp2 s1 s2 (1 / 2))
    have h2 := onSeg_dist_mid hq
    linarith
  · have := closest_best (p := p) h hq
    have : (0 : ℝ) < 1 / 2 * (1 / 10 ^ 10) := by positivity
    linarith

section
variable {K : Type} [Field K]

theorem facetEnds_ok {dbg check : Bool} {n : Nat} {verts : List K} {fs : List (List Int)} (h : GoodFacets n verts fs) {f : List Int} (hf : f ∈ fs) :
    facetEnds dbg check n verts f = .ok (segA verts f, segB verts f) := by
  obtain ⟨hlen, h⟩ := h
  obtain ⟨h2, hin⟩ := h f hf
  obtain ⟨i, j, rfl⟩ := List.length_eq_two.1 h2
  have hi := hin i (by simp)
  have hj := hin j (by simp)
  unfold facetEnds
  simp only [Res.bind_eq]
  rw [Res.assert_true dbg (by exact h2), Res.bind_ok, rd_lt (by simp), Res.bind_ok, rd_lt (by simp), Res.bind_ok]
  simp only [List.getElem_cons_zero, List.getElem_cons_succ]
  rw [Res.assert_true _ hi, Res.bind_ok, Res.assert_true _ hj, Res.bind_ok, if_neg (by omega)]
  simp only [rdV2, Res.bind_eq]
  rw [rd_getD (by omega) 0, Res.bind_ok, rd_getD (by omega) 0, Res.bind_ok]
  simp only [Res.pure_eq, Res.bind_ok]
  rw [rd_getD (by omega) 0, Res.bind_ok, rd_getD (by omega) 0, Res.bind_ok]
  rfl
end

/-- What the loop over facets finds. -/
theorem closestLoop_spec {dbg : Bool} {n : Nat} {verts : List ℝ} {p : V2 ℝ} {all : List (List Int)} : ∀ {fs : List (List Int)} {acc : ℝ × Option (V2 ℝ)},
    GoodFacets n verts all → (∀ f ∈ fs, f ∈ all) →
    ∃ r, closestLoop dbg n verts p fs acc = .ok r ∧ r.1 ≤ acc.1 ∧ (∀ f ∈ fs, r.1 ≤ dist2 p (closestOnSeg p (segA verts f) (segB verts f))) ∧
      (r = acc ∨ ∃ f ∈ fs, r = (dist2 p (closestOnSeg p (segA verts f) (segB verts f)), some (closestOnSeg p (segA verts f) (segB verts f))))
  | [], acc, _, _ => ⟨acc, rfl, le_refl _, by simp, Or.inl rfl⟩
  | f :: fs, acc, h, hsub => by
    rw [closestLoop]
    simp only [Res.bind_eq]
    rw [facetEnds_ok h (hsub f (by simp)), Res.bind_ok]
    simp only [distance2_eq]
    split
    · rename_i hlt
      obtain ⟨r, e, h1, h2, h3⟩ := closestLoop_spec (p := p) (acc := (dist2 p (closestOnSeg p (segA verts f) (segB verts f)), some (closestOnSeg p (segA verts f) (segB verts f)))) h
        fun g hg => hsub g (List.mem_cons_of_mem _ hg)
      refine ⟨r, e, h1.trans hlt.le, ?_, Or.inr ?_⟩
      · intro g hg
        rcases List.mem_cons.1 hg with rfl | hg
        · exact h1
        · exact h2 g hg
      · rcases h3 with rfl | ⟨g, hg, rfl⟩
        · exact ⟨f, by simp, rfl⟩
        · exact ⟨g, by simp [hg], rfl⟩
    · rename_i hlt
      obtain ⟨r, e, h1, h2, h3⟩ := closestLoop_spec (p := p) (acc := acc) h fun g hg => hsub g (List.mem_cons_of_mem _ hg)
      refine ⟨r, e, h1, ?_, ?_⟩
      · intro g hg
        rcases List.mem_cons.1 hg with rfl | hg
        · exact h1.trans (not_lt.1 hlt)
        · exact h2 g hg
      · rcases h3 with rfl | ⟨g, hg, rfl⟩
        · exact Or.inl rfl
        · exact Or.inr ⟨g, by simp [hg], rfl⟩

theorem nearestHoles_spec {dbg : Bool} {big : ℝ} {n : Nat} {verts : List ℝ} {p : V2 ℝ} {all : List (List Int)} : ∀ {hs : List (List (List Int))} {acc : ℝ × Option (V2 ℝ)},
    GoodFacets n verts all → (∀ f ∈ hs.flatten, f ∈ all) → acc.1 ≤ big →
    ∃ r, nearestHoles dbg big n verts p hs acc = .ok r ∧ r.1 ≤ acc.1 ∧ (∀ f ∈ hs.flatten, r.1 ≤ dist2 p (closestOnSeg p (segA verts f) (segB verts f))) ∧
      (r = acc ∨ ∃ f ∈ hs.flatten, r = (dist2 p (closestOnSeg p (segA verts f) (segB verts f)), some (closestOnSeg p (segA verts f) (segB verts f))))
  | [], acc, _, _, _ => ⟨acc, rfl, le_refl _, by simp, Or.inl rfl⟩
  | h :: hs, acc, hg, hsub, hbig => by
    obtain ⟨r0, e0, a1, a2, a3⟩ := closestLoop_spec (dbg := dbg) (p := p) (fs := h) (acc := (big, none)) hg fun g hgm => hsub g (by simp [hgm])
    rw [nearestHoles]
    simp only [Res.bind_eq]
    rw [e0, Res.bind_ok]
    split
    · rename_i hlt
      obtain ⟨r, e, h1, h2, h3⟩ := nearestHoles_spec (dbg := dbg) (big := big) (p := p) (hs := hs) (acc := r0) hg (fun g hgm => hsub g (by
        rw [List.flatten_cons]; exact List.mem_append_right _ hgm)) a1
      refine ⟨r, e, h1.trans hlt.le, ?_, Or.inr ?_⟩
      · intro g hgm
        rw [List.flatten_cons, List.mem_append] at hgm
        rcases hgm with hgm | hgm
        · exact h1.trans (a2 g hgm)
        · exact h2 g hgm
      · have hr0 : ∃ f ∈ h, r0 = (dist2 p (closestOnSeg p (segA verts f) (segB verts f)), some (closestOnSeg p (segA verts f) (segB verts f))) := by
          rcases a3 with rfl | h'
          · exact absurd (lt_of_lt_of_le hlt hbig) (lt_irrefl _)
          · exact h'
        rcases h3 with rfl | ⟨g, hgm, rfl⟩
        · obtain ⟨f, hf, e⟩ := hr0
          exact ⟨f, by simp [hf], e⟩
        · exact ⟨g, by rw [List.flatten_cons]; exact List.mem_append_right _ hgm, rfl⟩
    · rename_i hlt
      obtain ⟨r, e, h1, h2, h3⟩ := nearestHoles_spec (dbg := dbg) (big := big) (p := p) (hs := hs) (acc := acc) hg (fun g hgm => hsub g (by
        rw [List.flatten_cons]; exact List.mem_append_right _ hgm)) hbig
      refine ⟨r, e, h1, ?_, ?_⟩
      · intro g hgm
        rw [List.flatten_cons, List.mem_append] at hgm
        rcases hgm with hgm | hgm
        · exact (h1.trans (not_lt.1 hlt)).trans (a2 g hgm)
        · exact h2 g hgm
      · rcases h3 with rfl | ⟨g, hgm, rfl⟩
        · exact Or.inl rfl
        · exact Or.inr ⟨g, by rw [List.flatten_cons]; exact List.mem_append_right _ hgm, rfl⟩

theorem nearestPoint_spec {dbg : Bool} {big : ℝ} {n : Nat} {verts : List ℝ} {p : V2 ℝ} {plc : PLC} (hg : GoodFacets n verts (allFacets plc)) :
    ∃ r, nearestPoint dbg big n verts p plc = .ok r ∧ r.1 ≤ big ∧ (∀ f ∈ allFacets plc, r.1 ≤ dist2 p (closestOnSeg p (segA verts f) (segB verts f))) ∧
      (r = (big, none) ∨ ∃ f ∈ allFacets plc, r = (dist2 p (closestOnSeg p (segA verts f) (segB verts f)), some (closestOnSeg p (segA verts f) (segB verts f)))) := by
  obtain ⟨r0, e0, a1, a2, a3⟩ := closestLoop_spec (dbg := dbg) (p := p) (fs := plc.facets) (acc := (big, none)) hg fun g hgm => by simp [allFacets, hgm]
  obtain ⟨r, e, h1, h2, h3⟩ := nearestHoles_spec (dbg := dbg) (big := big) (p := p) (hs := plc.holes) (acc := r0) hg (fun g hgm => by
    unfold allFacets; exact List.mem_append_right _ hgm) a1
  refine ⟨r, ?_, h1.trans a1, ?_, ?_⟩
  · rw [nearestPoint]; simp only [Res.bind_eq]; rw [e0, Res.bind_ok]; exact e
  · intro f hf
    rcases List.mem_append.1 hf with hf | hf
    · exact h1.trans (a2 f hf)
    · exact h2 f hf
  · rcases h3 with rfl | ⟨f, hf, rfl⟩
    · rcases a3 with h | ⟨f, hf, h⟩
      · exact Or.inl h
      · exact Or.inr ⟨f, List.mem_append_left _ hf, h⟩
    · exact Or.inr ⟨f, List.mem_append_right _ hf, rfl⟩

end Verif.Geom
