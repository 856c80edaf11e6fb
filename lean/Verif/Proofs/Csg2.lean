import Verif.Model.Csg2
import Verif.Proofs.Bsp
import Verif.Spec.Geom
import Mathlib.Tactic.Ring
import Mathlib.Tactic.FieldSimp
import Mathlib.Tactic.LinearCombination
import Mathlib.Tactic.Positivity
/-
The laws of segments and lines.
-/
namespace Verif.Csg
open Verif Verif.Geom

variable {K : Type} [Field K] [LinearOrder K] [IsStrictOrderedRing K]

/-- The geometry of segments: height is measured in units of the length of the segment that the line was made from. -/
def segGeo (eps : K) : Geo (Seg K) (Line K) (V2 K) K where
  pts s := {q | OnSeg s.a s.b q}
  side l q := dot2 l.normal q - l.w
  eps := eps

/-- A segment as its constructor makes it. It may have no length. -/
def SegL (s : Seg K) : Prop := s.line = Line.of s.a s.b

/-- A segment as its constructor makes it, of positive length. -/
def SegW (s : Seg K) : Prop := s.line = Line.of s.a s.b ∧ s.a ≠ s.b

theorem side_lerp (eps : K) (l : Line K) (a b : V2 K) (s : K) :
    (segGeo eps).side l (lerp2 a b s) = (1 - s) * (segGeo eps).side l a + s * (segGeo eps).side l b := by
  simp only [segGeo, dot2, lerp2]; ring

theorem line_ok (a b : V2 K) (h : a ≠ b) : (Line.of a b).ok = true := by
  have h1 : 0 < (b.x - a.x) * (b.x - a.x) + (b.y - a.y) * (b.y - a.y) := by
    rcases eq_or_ne a.x b.x with hx | hx
    · have hy : a.y ≠ b.y := fun hy => h (V2.ext hx hy)
      have := mul_self_pos.2 (sub_ne_zero.2 hy.symm)
      nlinarith [mul_self_nonneg (b.x - a.x)]
    · have := mul_self_pos.2 (sub_ne_zero.2 hx.symm)
      nlinarith [mul_self_nonneg (b.y - a.y)]
  simp only [Line.ok, Line.of, V2.sub_x, V2.sub_y, Bool.and_eq_true, decide_eq_true_eq, gt_iff_lt]
  constructor <;> nlinarith

theorem cls_cases {eps : K} (h0 : 0 ≤ eps) (t : K) :
    (cls eps t = 2 ∧ t < -eps) ∨ (cls eps t = 1 ∧ eps < t) ∨ (cls eps t = 0 ∧ -eps ≤ t ∧ t ≤ eps) := by
  unfold cls
  by_cases h1 : t < -eps
  · simp [h1]
  · by_cases h2 : eps < t
    · simp [h1, h2]
    · simp [h1, h2, not_lt.1 h1, not_lt.1 h2]

/-- What splitting does, case by case. In the last two cases `u` is the parameter of the cut. -/
theorem splitSeg_cases {eps : K} (h0 : 0 ≤ eps) (l : Line K) (s : Seg K) :
    (∃ co, (splitSeg eps l s = { coFront := [s] } ∧ co = true ∨ splitSeg eps l s = { coBack := [s] } ∧ co = false)
      ∧ (-eps ≤ (segGeo eps).side l s.a ∧ (segGeo eps).side l s.a ≤ eps) ∧ (-eps ≤ (segGeo eps).side l s.b ∧ (segGeo eps).side l s.b ≤ eps))
    ∨ (splitSeg eps l s = { front := [s] } ∧ -eps ≤ (segGeo eps).side l s.a ∧ -eps ≤ (segGeo eps).side l s.b ∧ (eps < (segGeo eps).side l s.a ∨ eps < (segGeo eps).side l s.b))
    ∨ (splitSeg eps l s = { back := [s] } ∧ (segGeo eps).side l s.a ≤ eps ∧ (segGeo eps).side l s.b ≤ eps ∧ ((segGeo eps).side l s.a < -eps ∨ (segGeo eps).side l s.b < -eps))
    ∨ (eps < (segGeo eps).side l s.a ∧ (segGeo eps).side l s.b < -eps ∧ ∃ u v, 0 < u ∧ u < 1 ∧ v = lerp2 s.a s.b u ∧ (segGeo eps).side l v = 0
        ∧ splitSeg eps l s = { front := [Seg.of s.a v], back := [Seg.of s.b v] })
    ∨ ((segGeo eps).side l s.a < -eps ∧ eps < (segGeo eps).side l s.b ∧ ∃ u v, 0 < u ∧ u < 1 ∧ v = lerp2 s.a s.b u ∧ (segGeo eps).side l v = 0
        ∧ splitSeg eps l s = { front := [Seg.of s.b v], back := [Seg.of s.a v] }) := by
  have hs : ∀ q, (segGeo eps).side l q = dot2 l.normal q - l.w := fun _ => rfl
  have hd : dot2 l.normal (s.b - s.a) = (segGeo eps).side l s.b - (segGeo eps).side l s.a := by simp only [hs, dot2, V2.sub_x, V2.sub_y]; ring
  have hv : ∀ u, lerpC s.a s.b u = lerp2 s.a s.b u := fun u => by simp only [lerpC, lerp2, mul_comm]
  rcases cls_cases h0 ((segGeo eps).side l s.a) with ⟨ea, ha⟩ | ⟨ea, ha⟩ | ⟨ea, ha⟩ <;>
  rcases cls_cases h0 ((segGeo eps).side l s.b) with ⟨eb, hb⟩ | ⟨eb, hb⟩ | ⟨eb, hb⟩ <;>
  rw [hs] at ea eb
  · refine Or.inr (Or.inr (Or.inl ⟨by simp [splitSeg, ea, eb], by linarith, by linarith, Or.inl ha⟩))
  · refine Or.inr (Or.inr (Or.inr (Or.inr ⟨ha, hb, (l.w - dot2 l.normal s.a) / dot2 l.normal (s.b - s.a), _, ?_, ?_, (hv _), ?_, ?_⟩)))
    rotate_left 3
    · simp only [splitSeg, ea, eb, spanF]; rfl
    · rw [hd]; exact div_pos (by rw [hs] at ha; linarith) (by linarith)
    · rw [hd, div_lt_one (by linarith)]; rw [hs] at ha hb ⊢; simp only [hs]; linarith
    · rw [hv, side_lerp, hd]
      have : (segGeo eps).side l s.b - (segGeo eps).side l s.a ≠ 0 := by linarith
      field_simp
      rw [hs, hs]; ring
  · refine Or.inr (Or.inr (Or.inl ⟨by simp [splitSeg, ea, eb], by linarith, by linarith [hb.2], Or.inl ha⟩))
  · refine Or.inr (Or.inr (Or.inr (Or.inl ⟨ha, hb, (l.w - dot2 l.normal s.a) / dot2 l.normal (s.b - s.a), _, ?_, ?_, (hv _), ?_, ?_⟩)))
    rotate_left 3
    · simp only [splitSeg, ea, eb, spanF]; rfl
    · rw [hd]; exact div_pos_of_neg_of_neg (by rw [hs] at ha; linarith) (by linarith)
    · rw [hd, div_lt_one_of_neg (by linarith)]; rw [hs] at ha hb ⊢; simp only [hs]; linarith
    · rw [hv, side_lerp, hd]
      have : (segGeo eps).side l s.b - (segGeo eps).side l s.a ≠ 0 := by linarith
      field_simp
      rw [hs, hs]; ring
  · refine Or.inr (Or.inl ⟨by simp [splitSeg, ea, eb], by linarith, by linarith, Or.inl ha⟩)
  · refine Or.inr (Or.inl ⟨by simp [splitSeg, ea, eb], by linarith, by linarith [hb.1], Or.inl ha⟩)
  · refine Or.inr (Or.inr (Or.inl ⟨by simp [splitSeg, ea, eb], by linarith [ha.2], by linarith, Or.inr hb⟩))
  · refine Or.inr (Or.inl ⟨by simp [splitSeg, ea, eb], by linarith [ha.1], by linarith, Or.inr hb⟩)
  · by_cases hn : dot2 l.normal s.line.normal > 0
    · exact Or.inl ⟨true, Or.inl ⟨by simp [splitSeg, ea, eb, hn], rfl⟩, ha, hb⟩
    · exact Or.inl ⟨false, Or.inr ⟨by simp [splitSeg, ea, eb, hn], rfl⟩, ha, hb⟩

theorem onSeg_left (a b : V2 K) : OnSeg a b a := ⟨0, le_rfl, zero_le_one, by simp [lerp2]⟩
theorem onSeg_right (a b : V2 K) : OnSeg a b b := ⟨1, zero_le_one, le_rfl, by simp [lerp2]⟩

theorem onSeg_swap {a b q : V2 K} : OnSeg a b q ↔ OnSeg b a q := by
  have : ∀ a b q : V2 K, OnSeg a b q → OnSeg b a q := by
    rintro a b q ⟨t, h0, h1, rfl⟩
    exact ⟨1 - t, by linarith, by linarith, by ext <;> simp only [lerp2] <;> ring⟩
  exact ⟨this a b q, this b a q⟩

/-- A segment is made up of the two parts on either side of one of its points. -/
theorem onSeg_cut {a b : V2 K} {u : K} (h0 : 0 < u) (h1 : u < 1) (q : V2 K) :
    OnSeg a b q ↔ OnSeg a (lerp2 a b u) q ∨ OnSeg b (lerp2 a b u) q := by
  have h1' : 1 - u ≠ 0 := by linarith
  constructor
  · rintro ⟨t, t0, t1, rfl⟩
    rcases le_total t u with h | h
    · refine Or.inl ⟨t / u, by positivity, (div_le_one h0).2 h, ?_⟩
      ext <;> simp only [lerp2] <;> field_simp <;> ring
    · refine Or.inr ⟨(1 - t) / (1 - u), div_nonneg (by linarith) (by linarith), (div_le_one (by linarith)).2 (by linarith), ?_⟩
      ext <;> simp only [lerp2] <;> field_simp <;> ring
  · rintro (⟨t, t0, t1, rfl⟩ | ⟨t, t0, t1, rfl⟩)
    · refine ⟨t * u, by positivity, by nlinarith, ?_⟩
      ext <;> simp only [lerp2] <;> ring
    · refine ⟨1 - t * (1 - u), by nlinarith, by nlinarith, ?_⟩
      ext <;> simp only [lerp2] <;> ring

/-- A height that is at least `m` at both ends is at least `m` all along. -/
theorem side_ge {eps m : K} {l : Line K} {a b q : V2 K} (ha : m ≤ (segGeo eps).side l a) (hb : m ≤ (segGeo eps).side l b) (h : OnSeg a b q) :
    m ≤ (segGeo eps).side l q := by
  obtain ⟨t, t0, t1, rfl⟩ := h
  rw [side_lerp]; nlinarith

theorem side_le {eps m : K} {l : Line K} {a b q : V2 K} (ha : (segGeo eps).side l a ≤ m) (hb : (segGeo eps).side l b ≤ m) (h : OnSeg a b q) :
    (segGeo eps).side l q ≤ m := by
  obtain ⟨t, t0, t1, rfl⟩ := h
  rw [side_lerp]; nlinarith

theorem segW_of {a b : V2 K} (h : a ≠ b) : SegW (Seg.of a b) := ⟨rfl, h⟩

theorem ne_of_side {eps : K} {l : Line K} {a b : V2 K} (h : (segGeo eps).side l a ≠ (segGeo eps).side l b) : a ≠ b := fun e => h (by rw [e])

theorem segFlips (eps : K) : FlipLaws (segOps eps) (segGeo eps) where
  ok_flip l := by simp [segOps, Line.ok, Line.flip]
  side_flip l q := by simp only [segGeo, segOps, Line.flip, dot2]; ring
  flip_flip l := by simp [segOps, Line.flip]
  eflip_eflip s := by simp [segOps, Seg.flip, Line.flip]

theorem segSplit {eps : K} (h0 : 0 ≤ eps) : SplitLaws (segOps eps) (segGeo eps) SegL where
  toFlipLaws := segFlips eps
  eps_nonneg := h0
  ok_none := by simp [segOps, Line.ok]
  eflip_wf s hs := by
    show s.line.flip = Line.of s.b s.a
    rw [show s.line = _ from hs]
    simp only [Line.flip, Line.of, Line.mk.injEq, dot2, V2.sub_x, V2.sub_y]
    refine ⟨by ext <;> simp, by ext <;> simp, by ring⟩
  eflip_pts s := by ext q; exact onSeg_swap
  pieces l s hs x hx := by
    show SegL x ∧ ∀ q, OnSeg x.a x.b q → OnSeg s.a s.b q
    simp only [segOps] at hx
    rcases splitSeg_cases h0 l s with ⟨co, h | h, -⟩ | ⟨h, -⟩ | ⟨h, -⟩ | ⟨ha, hb, u, v, u0, u1, hv, hv0, h⟩ | ⟨ha, hb, u, v, u0, u1, hv, hv0, h⟩
    · simp only [h.1, List.mem_singleton, List.not_mem_nil, or_false, false_or] at hx; subst hx; exact ⟨hs, fun _ h => h⟩
    · simp only [h.1, List.mem_singleton, List.not_mem_nil, or_false, false_or] at hx; subst hx; exact ⟨hs, fun _ h => h⟩
    · simp only [h, List.mem_singleton, List.not_mem_nil, or_false, false_or] at hx; subst hx; exact ⟨hs, fun _ h => h⟩
    · simp only [h, List.mem_singleton, List.not_mem_nil, or_false, false_or] at hx; subst hx; exact ⟨hs, fun _ h => h⟩
    · simp only [h, List.mem_singleton, List.not_mem_nil, or_false, false_or] at hx
      rcases hx with rfl | rfl
      · exact ⟨rfl, fun q hq => by rw [onSeg_cut u0 u1, ← hv]; exact Or.inl hq⟩
      · exact ⟨rfl, fun q hq => by rw [onSeg_cut u0 u1, ← hv]; exact Or.inr hq⟩
    · simp only [h, List.mem_singleton, List.not_mem_nil, or_false, false_or] at hx
      rcases hx with rfl | rfl
      · exact ⟨rfl, fun q hq => by rw [onSeg_cut u0 u1, ← hv]; exact Or.inr hq⟩
      · exact ⟨rfl, fun q hq => by rw [onSeg_cut u0 u1, ← hv]; exact Or.inl hq⟩
  cover l s hs q hq := by
    show ∃ x : Seg K, _ ∧ OnSeg x.a x.b q
    have hq' : OnSeg s.a s.b q := hq
    simp only [segOps]
    rcases splitSeg_cases h0 l s with ⟨co, h | h, -⟩ | ⟨h, -⟩ | ⟨h, -⟩ | ⟨ha, hb, u, v, u0, u1, hv, hv0, h⟩ | ⟨ha, hb, u, v, u0, u1, hv, hv0, h⟩
    · exact ⟨s, by simp [h.1], hq'⟩
    · exact ⟨s, by simp [h.1], hq'⟩
    · exact ⟨s, by simp [h], hq'⟩
    · exact ⟨s, by simp [h], hq'⟩
    · rw [onSeg_cut u0 u1, ← hv] at hq'
      rcases hq' with hq' | hq'
      · exact ⟨Seg.of s.a v, by simp [h], hq'⟩
      · exact ⟨Seg.of s.b v, by simp [h], hq'⟩
    · rw [onSeg_cut u0 u1, ← hv] at hq'
      rcases hq' with hq' | hq'
      · exact ⟨Seg.of s.a v, by simp [h], hq'⟩
      · exact ⟨Seg.of s.b v, by simp [h], hq'⟩
  front_side l s hs x hx q hq := by
    have hq' : OnSeg x.a x.b q := hq
    show -eps ≤ _
    simp only [segOps] at hx
    rcases splitSeg_cases h0 l s with ⟨co, h | h, h1, h2⟩ | ⟨h, h1, h2, -⟩ | ⟨h, -⟩ | ⟨ha, hb, u, v, u0, u1, hv, hv0, h⟩ | ⟨ha, hb, u, v, u0, u1, hv, hv0, h⟩
    · simp only [h.1, List.mem_singleton, List.not_mem_nil, or_false, false_or] at hx; subst hx; exact side_ge h1.1 h2.1 hq'
    · simp [h.1] at hx
    · simp only [h, List.mem_singleton, List.not_mem_nil, or_false, false_or] at hx; subst hx; exact side_ge h1 h2 hq'
    · simp [h] at hx
    · simp only [h, List.mem_singleton, List.not_mem_nil, or_false, false_or] at hx; subst hx
      exact side_ge (by show _ ≤ (segGeo eps).side l s.a; linarith) (by show _ ≤ (segGeo eps).side l v; linarith) hq'
    · simp only [h, List.mem_singleton, List.not_mem_nil, or_false, false_or] at hx; subst hx
      exact side_ge (by show _ ≤ (segGeo eps).side l s.b; linarith) (by show _ ≤ (segGeo eps).side l v; linarith) hq'
  back_side l s hs x hx q hq := by
    have hq' : OnSeg x.a x.b q := hq
    show _ ≤ eps
    simp only [segOps] at hx
    rcases splitSeg_cases h0 l s with ⟨co, h | h, h1, h2⟩ | ⟨h, -⟩ | ⟨h, h1, h2, -⟩ | ⟨ha, hb, u, v, u0, u1, hv, hv0, h⟩ | ⟨ha, hb, u, v, u0, u1, hv, hv0, h⟩
    · simp [h.1] at hx
    · simp only [h.1, List.mem_singleton, List.not_mem_nil, or_false, false_or] at hx; subst hx; exact side_le h1.2 h2.2 hq'
    · simp [h] at hx
    · simp only [h, List.mem_singleton, List.not_mem_nil, or_false, false_or] at hx; subst hx; exact side_le h1 h2 hq'
    · simp only [h, List.mem_singleton, List.not_mem_nil, or_false, false_or] at hx; subst hx
      exact side_le (by show (segGeo eps).side l s.b ≤ _; linarith) (by show (segGeo eps).side l v ≤ _; linarith) hq'
    · simp only [h, List.mem_singleton, List.not_mem_nil, or_false, false_or] at hx; subst hx
      exact side_le (by show (segGeo eps).side l s.a ≤ _; linarith) (by show (segGeo eps).side l v ≤ _; linarith) hq'
  own s hs := by
    have ea : (segGeo eps).side s.line s.a = 0 := by rw [show s.line = _ from hs]; simp only [segGeo, Line.of]; ring
    have eb : (segGeo eps).side s.line s.b = 0 := by rw [show s.line = _ from hs]; simp only [segGeo, Line.of, dot2, V2.sub_x, V2.sub_y]; ring
    show (splitSeg eps s.line s).front = [] ∧ (splitSeg eps s.line s).back = []
    rcases splitSeg_cases h0 s.line s with ⟨co, h | h, -⟩ | ⟨h, -, -, h1⟩ | ⟨h, -, -, h1⟩ | ⟨ha, -⟩ | ⟨ha, -⟩
    · simp [h.1]
    · simp [h.1]
    · rw [ea, eb] at h1; exact absurd h1 (by simp [h0])
    · rw [ea, eb] at h1; exact absurd h1 (by simp [h0])
    · rw [ea] at ha; linarith
    · rw [ea] at ha; linarith
  one l s := by
    show (splitSeg eps l s).front.length ≤ 1 ∧ (splitSeg eps l s).back.length ≤ 1
    rcases splitSeg_cases h0 l s with ⟨co, h | h, -⟩ | ⟨h, -⟩ | ⟨h, -⟩ | ⟨ha, hb, u, v, u0, u1, hv, hv0, h⟩ | ⟨ha, hb, u, v, u0, u1, hv, hv0, h⟩
    · simp [h.1]
    · simp [h.1]
    · simp [h]
    · simp [h]
    · simp [h]
    · simp [h]

theorem segLaws {eps : K} (h0 : 0 ≤ eps) : Laws (segOps eps) (segGeo eps) SegW where
  toFlipLaws := segFlips eps
  eps_nonneg := h0
  ok_none := (segSplit h0).ok_none
  ok_plane s hs := by
    show s.line.ok = true
    rw [hs.1]; exact line_ok _ _ hs.2
  eflip_wf s hs := ⟨(segSplit h0).eflip_wf s hs.1, hs.2.symm⟩
  eflip_pts := (segSplit h0).eflip_pts
  pieces l s hs x hx := by
    refine ⟨⟨((segSplit h0).pieces l s hs.1 x hx).1, ?_⟩, ((segSplit h0).pieces l s hs.1 x hx).2⟩
    simp only [segOps] at hx
    rcases splitSeg_cases h0 l s with ⟨co, h | h, -⟩ | ⟨h, -⟩ | ⟨h, -⟩ | ⟨ha, hb, u, v, u0, u1, hv, hv0, h⟩ | ⟨ha, hb, u, v, u0, u1, hv, hv0, h⟩
    · simp only [h.1, List.mem_singleton, List.not_mem_nil, or_false, false_or] at hx; subst hx; exact hs.2
    · simp only [h.1, List.mem_singleton, List.not_mem_nil, or_false, false_or] at hx; subst hx; exact hs.2
    · simp only [h, List.mem_singleton, List.not_mem_nil, or_false, false_or] at hx; subst hx; exact hs.2
    · simp only [h, List.mem_singleton, List.not_mem_nil, or_false, false_or] at hx; subst hx; exact hs.2
    · have na : s.a ≠ v := ne_of_side (eps := eps) (l := l) (by rw [hv0]; linarith)
      have nb : s.b ≠ v := ne_of_side (eps := eps) (l := l) (by rw [hv0]; linarith)
      simp only [h, List.mem_singleton, List.not_mem_nil, or_false, false_or] at hx
      rcases hx with rfl | rfl
      exacts [na, nb]
    · have na : s.a ≠ v := ne_of_side (eps := eps) (l := l) (by rw [hv0]; linarith)
      have nb : s.b ≠ v := ne_of_side (eps := eps) (l := l) (by rw [hv0]; linarith)
      simp only [h, List.mem_singleton, List.not_mem_nil, or_false, false_or] at hx
      rcases hx with rfl | rfl
      exacts [nb, na]
  cover l s hs := (segSplit h0).cover l s hs.1
  front_side l s hs := (segSplit h0).front_side l s hs.1
  back_side l s hs := (segSplit h0).back_side l s hs.1
  own s hs := (segSplit h0).own s hs.1
  one := (segSplit h0).one

end Verif.Csg
