import Verif.Proofs.Csg2
import Verif.Proofs.Csg3
import Verif.Proofs.Query
import Verif.Proofs.Polygon
import Verif.Spec.Csg
import Mathlib.Algebra.Order.Field.Rat
import Mathlib.Algebra.Order.Ring.Unbundled.Rat
/-
Properties C42 to C45 and C63, C64 in 2D: splitting, inverting, clipping, building, and the boolean operations on polygons.
-/
namespace Verif.Csg
open Verif Verif.Geom

section
variable {K : Type} [Field K] [LinearOrder K] [IsStrictOrderedRing K]

/-! ### C42 -/

/-- C42 for segments, without the orientation: what goes in front is in front, what goes behind is behind, and the pieces make up the segment. A segment that is not cut is passed
on as it is. Missing: the pieces of a segment that is cut do not keep its orientation (`C42_reversed_fails`). -/
theorem C42_partial {eps : K} (h0 : 0 ≤ eps) (l : Line K) (s : Seg K) (hs : SegW s) :
    (∀ x, x ∈ (splitSeg eps l s).coFront ++ (splitSeg eps l s).front → ∀ q, OnSeg x.a x.b q → -eps ≤ dot2 l.normal q - l.w)
    ∧ (∀ x, x ∈ (splitSeg eps l s).coBack ++ (splitSeg eps l s).back → ∀ q, OnSeg x.a x.b q → dot2 l.normal q - l.w ≤ eps)
    ∧ (∀ q, OnSeg s.a s.b q ↔ ∃ x ∈ (splitSeg eps l s).coFront ++ (splitSeg eps l s).front ++ ((splitSeg eps l s).coBack ++ (splitSeg eps l s).back), OnSeg x.a x.b q)
    ∧ (¬ (eps < dot2 l.normal s.a - l.w ∧ dot2 l.normal s.b - l.w < -eps) → ¬ (eps < dot2 l.normal s.b - l.w ∧ dot2 l.normal s.a - l.w < -eps) →
        (splitSeg eps l s).coFront ++ (splitSeg eps l s).front ++ ((splitSeg eps l s).coBack ++ (splitSeg eps l s).back) = [s]) := by
  have L := segLaws h0
  refine ⟨fun x hx q hq => L.front_side l s hs x (List.mem_append.1 hx) q hq, fun x hx q hq => L.back_side l s hs x (List.mem_append.1 hx) q hq, fun q => ⟨fun hq => ?_, ?_⟩, ?_⟩
  · obtain ⟨x, hx, hq'⟩ := L.cover l s hs q hq
    refine ⟨x, ?_, hq'⟩
    simp only [List.mem_append]
    simp only [segOps] at hx
    tauto
  · rintro ⟨x, hx, hq⟩
    refine (L.pieces l s hs x ?_).2 hq
    simp only [List.mem_append] at hx
    simp only [segOps]
    tauto
  · intro n1 n2
    rcases splitSeg_cases h0 l s with ⟨co, h | h, -⟩ | ⟨h, -⟩ | ⟨h, -⟩ | ⟨ha, hb, -⟩ | ⟨ha, hb, -⟩
    · simp [h.1]
    · simp [h.1]
    · simp [h]
    · simp [h]
    · exact absurd ⟨ha, hb⟩ n1
    · exact absurd ⟨hb, ha⟩ n2

/-- C42 for polygons: what goes in front is in front, what goes behind is behind, the pieces make up the polygon, and they are polygons of the same orientation: their vertices turn left
seen from the side that the normal of the polygon points to. A polygon that is not cut is passed on as it is. -/
theorem C42_3d {eps : K} (h0 : 0 ≤ eps) (p : Plane K) (q : Poly K) (hq : PolyW q) :
    (∀ x, x ∈ (splitPoly eps p q).coFront ++ (splitPoly eps p q).front → ∀ v, Hull3 x.verts v → -eps ≤ dot3 p.normal v - p.w)
    ∧ (∀ x, x ∈ (splitPoly eps p q).coBack ++ (splitPoly eps p q).back → ∀ v, Hull3 x.verts v → dot3 p.normal v - p.w ≤ eps)
    ∧ (∀ v, Hull3 q.verts v ↔ ∃ x ∈ (splitPoly eps p q).coFront ++ (splitPoly eps p q).front ++ ((splitPoly eps p q).coBack ++ (splitPoly eps p q).back), Hull3 x.verts v)
    ∧ (∀ x ∈ (splitPoly eps p q).coFront ++ (splitPoly eps p q).front ++ ((splitPoly eps p q).coBack ++ (splitPoly eps p q).back),
        PolyW x ∧ ∀ i j k, i < j → j < k → k < x.verts.length → 0 < turn q.plane.normal (x.verts.getD i 0) (x.verts.getD j 0) (x.verts.getD k 0))
    ∧ (¬ ((∃ v ∈ q.verts, eps < dot3 p.normal v - p.w) ∧ ∃ v ∈ q.verts, dot3 p.normal v - p.w < -eps) →
        (splitPoly eps p q).coFront ++ (splitPoly eps p q).front ++ ((splitPoly eps p q).coBack ++ (splitPoly eps p q).back) = [q]) := by
  have L := polyLaws h0
  have hv : q.verts ≠ [] := by have := hq.three; intro h; simp [h] at this
  refine ⟨fun x hx v hv => L.front_side p q hq x (List.mem_append.1 hx) v hv, fun x hx v hv => L.back_side p q hq x (List.mem_append.1 hx) v hv, fun v => ⟨fun hv => ?_, ?_⟩, fun x hx => ?_, ?_⟩
  · obtain ⟨x, hx, hq'⟩ := L.cover p q hq v hv
    refine ⟨x, ?_, hq'⟩
    simp only [List.mem_append]
    simp only [polyOps] at hx
    tauto
  · rintro ⟨x, hx, hv⟩
    refine (L.pieces p q hq x ?_).2 hv
    simp only [List.mem_append] at hx
    simp only [polyOps]
    tauto
  · refine ⟨(L.pieces p q hq x ?_).1, ?_⟩
    · simp only [List.mem_append] at hx
      simp only [polyOps]
      tauto
    · rcases splitPoly_cases h0 p q with ⟨h | h, -⟩ | ⟨h, -⟩ | ⟨h, -⟩ | ⟨i, j, hi, hj, ci, cj, h⟩
      · simp only [h, List.append_nil, List.nil_append, List.mem_singleton] at hx; subst hx; exact hq.convex
      · simp only [h, List.append_nil, List.nil_append, List.mem_singleton] at hx; subst hx; exact hq.convex
      · simp only [h, List.append_nil, List.nil_append, List.mem_singleton] at hx; subst hx; exact hq.convex
      · simp only [h, List.append_nil, List.nil_append, List.mem_singleton] at hx; subst hx; exact hq.convex
      · have per : vcls eps p q.verts q.verts.length = vcls eps p q.verts 0 := by rw [← vcls_mod, Nat.mod_self]
        simp only [h, List.append_nil, List.nil_append, List.mem_append, List.mem_singleton] at hx
        rcases hx with rfl | rfl
        · exact fun i j k h1 h2 h3 => sel_turns hq (fun i s h => (front_cut h0 p q.verts i s h).1) (by rw [per]) i j k h1 h2 h3
        · exact fun i j k h1 h2 h3 => sel_turns hq (fun i s h => (front_cut h0 p q.verts i s h).2) (by rw [per]) i j k h1 h2 h3
  · intro n
    rcases splitPoly_cases h0 p q with ⟨h | h, -⟩ | ⟨h, -⟩ | ⟨h, -⟩ | ⟨i, j, hi, hj, ci, cj, h⟩
    · simp [h]
    · simp [h]
    · simp [h]
    · simp [h]
    · exfalso
      refine n ⟨⟨_, cyc_mem hv i, ?_⟩, ⟨_, cyc_mem hv j, ?_⟩⟩
      · rcases vcls_cases h0 p q.verts i with ⟨h', -⟩ | ⟨-, h'⟩ | ⟨h', -⟩
        · omega
        · exact h'
        · omega
      · rcases vcls_cases h0 p q.verts j with ⟨-, h'⟩ | ⟨h', -⟩ | ⟨h', -⟩
        · exact h'
        · omega
        · omega

/-- A square cut in half meets the hypotheses of `C42_3d`. -/
example : let q := Poly.of [(⟨0, 0, 0⟩ : V3 ℚ), ⟨2, 0, 0⟩, ⟨2, 2, 0⟩, ⟨0, 2, 0⟩]
    let p : Plane ℚ := { normal := ⟨1, 0, 0⟩, w := 1 }
    (∀ i < 4, ∀ j < 4, ∀ k < 4, i < j → j < k → 0 < turn q.plane.normal (q.verts.getD i 0) (q.verts.getD j 0) (q.verts.getD k 0))
      ∧ (splitPoly (1 / 10) p q).front = [Poly.of [⟨1, 0, 0⟩, ⟨2, 0, 0⟩, ⟨2, 2, 0⟩, ⟨1, 2, 0⟩]] ∧ (splitPoly (1 / 10) p q).back = [Poly.of [⟨0, 0, 0⟩, ⟨1, 0, 0⟩, ⟨1, 2, 0⟩, ⟨0, 2, 0⟩]] := by
  decide +kernel

/-- C42 fails for every segment that is cut: of its two pieces the one that contains its second end point runs backwards. -/
theorem C42_reversed_fails {eps : K} (h0 : 0 ≤ eps) (l : Line K) (s : Seg K)
    (h : (eps < dot2 l.normal s.a - l.w ∧ dot2 l.normal s.b - l.w < -eps) ∨ (eps < dot2 l.normal s.b - l.w ∧ dot2 l.normal s.a - l.w < -eps)) :
    ∃ x y, (splitSeg eps l s).front ++ (splitSeg eps l s).back = [x, y] ∧
      ((OnSeg x.a x.b s.a ∧ SameDirection x.a x.b s.a s.b ∧ OnSeg y.a y.b s.b ∧ SameDirection y.a y.b s.b s.a)
      ∨ (OnSeg y.a y.b s.a ∧ SameDirection y.a y.b s.a s.b ∧ OnSeg x.a x.b s.b ∧ SameDirection x.a x.b s.b s.a)) := by
  have dir : ∀ {u : K}, 0 < u → u < 1 → SameDirection s.a (lerp2 s.a s.b u) s.a s.b ∧ SameDirection s.b (lerp2 s.a s.b u) s.b s.a := by
    intro u u0 u1
    exact ⟨⟨u, u0, by simp only [lerp2]; ring, by simp only [lerp2]; ring⟩, ⟨1 - u, by linarith, by simp only [lerp2]; ring, by simp only [lerp2]; ring⟩⟩
  have hs : ∀ q, (segGeo eps).side l q = dot2 l.normal q - l.w := fun _ => rfl
  rcases splitSeg_cases h0 l s with ⟨co, -, ha, hb⟩ | ⟨-, ha, hb, -⟩ | ⟨-, ha, hb, -⟩ | ⟨-, -, u, v, u0, u1, hv, -, e⟩ | ⟨-, -, u, v, u0, u1, hv, -, e⟩
  · rw [hs] at ha hb; rcases h with ⟨h1, h2⟩ | ⟨h1, h2⟩ <;> linarith [ha.1, ha.2, hb.1, hb.2]
  · rw [hs] at ha hb; rcases h with ⟨h1, h2⟩ | ⟨h1, h2⟩ <;> linarith
  · rw [hs] at ha hb; rcases h with ⟨h1, h2⟩ | ⟨h1, h2⟩ <;> linarith
  · refine ⟨Seg.of s.a v, Seg.of s.b v, by rw [e]; rfl, Or.inl ⟨onSeg_left _ _, ?_, onSeg_left _ _, ?_⟩⟩
    · rw [hv]; exact (dir u0 u1).1
    · rw [hv]; exact (dir u0 u1).2
  · refine ⟨Seg.of s.b v, Seg.of s.a v, by rw [e]; rfl, Or.inr ⟨onSeg_left _ _, ?_, onSeg_left _ _, ?_⟩⟩
    · rw [hv]; exact (dir u0 u1).1
    · rw [hv]; exact (dir u0 u1).2

/-- A segment from (0, 0) to (2, 0) and the line from (1, 0) to (1, 1): the hypotheses hold, the front piece is from (2, 0) to (1, 0). -/
example : SegW (Seg.of (⟨0, 0⟩ : V2 ℚ) ⟨2, 0⟩) ∧ (let l := Line.of (⟨1, 0⟩ : V2 ℚ) ⟨1, 1⟩; (1 / 2147483647 : ℚ) < dot2 l.normal ⟨2, 0⟩ - l.w ∧ dot2 l.normal ⟨0, 0⟩ - l.w < -(1 / 2147483647 : ℚ))
    ∧ (splitSeg (1 / 2147483647) (Line.of (⟨1, 0⟩ : V2 ℚ) ⟨1, 1⟩) (Seg.of ⟨0, 0⟩ ⟨2, 0⟩)).front = [Seg.of ⟨2, 0⟩ ⟨1, 0⟩] := by
  refine ⟨⟨rfl, by decide +kernel⟩, by decide +kernel, by decide +kernel⟩

/-! ### C43 -/

/-- C43, first half (segments): inverting twice is the identity, on every tree. -/
theorem C43_twice (eps : K) (t : Tree (Seg K) (Line K)) : invert (segOps eps) (invert (segOps eps) t) = t :=
  invert_invert (segFlips eps) t

/-- C43, second half (segments): in a tree whose nodes have lines, inverting exchanges the points outside and the points inside, so a point strictly inside is outside afterwards and
conversely. -/
theorem C43_exchange (eps : K) (t : Tree (Seg K) (Line K)) (ht : t ≠ .nil) (hk : AllOk (segOps eps) t) (d : Bool) (q : V2 K) :
    (Out (segOps eps) (segGeo eps) d (invert (segOps eps) t) q ↔ In (segOps eps) (segGeo eps) d t q)
    ∧ (In (segOps eps) (segGeo eps) d (invert (segOps eps) t) q ↔ Out (segOps eps) (segGeo eps) d t q) :=
  ⟨(out_invert (segFlips eps) t d q hk).trans (in_root ht _ _ q), (in_invert (segFlips eps) t d q hk).trans (out_root ht _ _ q)⟩

/-- The height of a point above a plane of space, for polygons. -/
def polyGeo0 (eps : K) : Geo (Poly K) (Plane K) (V3 K) K where
  pts _ := ∅
  side p q := dot3 p.normal q - p.w
  eps := eps

omit [IsStrictOrderedRing K] in
theorem polyFlips (eps : K) : FlipLaws (polyOps eps) (polyGeo0 eps) where
  ok_flip p := by simp [polyOps, Plane.ok, Plane.flip]
  side_flip p q := by simp only [polyGeo0, polyOps, Plane.flip, dot3]; ring
  flip_flip p := by simp [polyOps, Plane.flip]
  eflip_eflip s := by simp [polyOps, Poly.flip, Plane.flip]

/-- C43, first half (polygons). -/
theorem C43_twice_3d (eps : K) (t : Tree (Poly K) (Plane K)) : invert (polyOps eps) (invert (polyOps eps) t) = t :=
  invert_invert (polyFlips eps) t

/-- C43, second half (polygons). -/
theorem C43_exchange_3d (eps : K) (t : Tree (Poly K) (Plane K)) (ht : t ≠ .nil) (hk : AllOk (polyOps eps) t) (d : Bool) (q : V3 K) :
    (Out (polyOps eps) (polyGeo0 eps) d (invert (polyOps eps) t) q ↔ In (polyOps eps) (polyGeo0 eps) d t q)
    ∧ (In (polyOps eps) (polyGeo0 eps) d (invert (polyOps eps) t) q ↔ Out (polyOps eps) (polyGeo0 eps) d t q) :=
  ⟨(out_invert (polyFlips eps) t d q hk).trans (in_root ht _ _ q), (in_invert (polyFlips eps) t d q hk).trans (out_root ht _ _ q)⟩

/-- A tree with one plane meets the hypotheses of `C43_exchange` and `C43_exchange_3d`, with a point inside and a point outside. -/
example : let t : Tree (Seg ℚ) (Line ℚ) := .node [Seg.of ⟨0, 0⟩ ⟨1, 0⟩] (Line.of ⟨0, 0⟩ ⟨1, 0⟩) .nil .nil
    t ≠ .nil ∧ AllOk (segOps (1 / 10)) t ∧ In (segOps (1 / 10)) (segGeo (1 / 10)) true t ⟨0, 1⟩ ∧ Out (segOps (1 / 10)) (segGeo (1 / 10)) true t ⟨0, -1⟩ := by
  refine ⟨by simp, ⟨by decide +kernel, trivial, trivial⟩, ⟨by decide +kernel, ?_, ?_⟩, ?_⟩
  · intro h; exact absurd h (by decide +kernel)
  · intro _; rfl
  · intro _; exact ⟨fun _ => rfl, fun h => absurd h (by decide +kernel)⟩
example : let t : Tree (Poly ℚ) (Plane ℚ) := .node [Poly.of [⟨0, 0, 0⟩, ⟨1, 0, 0⟩, ⟨0, 1, 0⟩]] (Plane.of ⟨0, 0, 0⟩ ⟨1, 0, 0⟩ ⟨0, 1, 0⟩) .nil .nil
    t ≠ .nil ∧ AllOk (polyOps (1 / 10)) t ∧ In (polyOps (1 / 10)) (polyGeo0 (1 / 10)) true t ⟨0, 0, -1⟩ ∧ Out (polyOps (1 / 10)) (polyGeo0 (1 / 10)) true t ⟨0, 0, 1⟩ := by
  refine ⟨by simp, ⟨by decide +kernel, trivial, trivial⟩, ⟨by decide +kernel, ?_, ?_⟩, ?_⟩
  · intro h; exact absurd h (by decide +kernel)
  · intro _; rfl
  · intro _; exact ⟨fun _ => rfl, fun h => absurd h (by decide +kernel)⟩

/-! ### C44 -/

/-- C44 for segments: clipping a list of segments by a solid keeps every point strictly outside, drops every point strictly inside, and adds none. -/
theorem C44_clip {eps : K} (h0 : 0 ≤ eps) (t : Tree (Seg K) (Line K)) (l : List (Seg K)) (hl : ∀ s ∈ l, SegL s) (q : V2 K) :
    ((∃ s ∈ l, OnSeg s.a s.b q) → Out (segOps eps) (segGeo eps) true t q → ∃ s ∈ clip (segOps eps) t l, OnSeg s.a s.b q)
    ∧ (In (segOps eps) (segGeo eps) true t q → ¬ ∃ s ∈ clip (segOps eps) t l, OnSeg s.a s.b q)
    ∧ ((∃ s ∈ clip (segOps eps) t l, OnSeg s.a s.b q) → ∃ s ∈ l, OnSeg s.a s.b q) :=
  ⟨fun h ho => clip_keep (segSplit h0) t hl h ho, fun hi => clip_drop (segSplit h0) t hl hi, fun h => (clip_wf (segSplit h0) t hl).2 h⟩

/-- C44 for segments: the same for clipping the segments of one solid by another. -/
theorem C44_clipTo {eps : K} (h0 : 0 ≤ eps) (o t : Tree (Seg K) (Line K)) (ht : ∀ s ∈ all t, SegL s) (q : V2 K) :
    ((∃ s ∈ all t, OnSeg s.a s.b q) → Out (segOps eps) (segGeo eps) true o q → ∃ s ∈ all (clipTo (segOps eps) o t), OnSeg s.a s.b q)
    ∧ (In (segOps eps) (segGeo eps) true o q → ¬ ∃ s ∈ all (clipTo (segOps eps) o t), OnSeg s.a s.b q)
    ∧ ((∃ s ∈ all (clipTo (segOps eps) o t), OnSeg s.a s.b q) → ∃ s ∈ all t, OnSeg s.a s.b q) := by
  obtain ⟨-, h2, h3, h4⟩ := clipTo_spec (segSplit h0) o ht
  exact ⟨fun h ho => h3 q h ho, fun hi h => h4 q h hi, fun h => h2 h⟩

/-- C44 for polygons. -/
theorem C44_clip_3d {eps : K} (h0 : 0 ≤ eps) (t : Tree (Poly K) (Plane K)) (l : List (Poly K)) (hl : ∀ s ∈ l, PolyL s) (q : V3 K) :
    ((∃ s ∈ l, Hull3 s.verts q) → Out (polyOps eps) (polyGeo eps) true t q → ∃ s ∈ clip (polyOps eps) t l, Hull3 s.verts q)
    ∧ (In (polyOps eps) (polyGeo eps) true t q → ¬ ∃ s ∈ clip (polyOps eps) t l, Hull3 s.verts q)
    ∧ ((∃ s ∈ clip (polyOps eps) t l, Hull3 s.verts q) → ∃ s ∈ l, Hull3 s.verts q) :=
  ⟨fun h ho => clip_keep (polySplit h0) t hl h ho, fun hi => clip_drop (polySplit h0) t hl hi, fun h => (clip_wf (polySplit h0) t hl).2 h⟩

/-- C44 for polygons: the same for clipping the polygons of one solid by another. -/
theorem C44_clipTo_3d {eps : K} (h0 : 0 ≤ eps) (o t : Tree (Poly K) (Plane K)) (ht : ∀ s ∈ all t, PolyL s) (q : V3 K) :
    ((∃ s ∈ all t, Hull3 s.verts q) → Out (polyOps eps) (polyGeo eps) true o q → ∃ s ∈ all (clipTo (polyOps eps) o t), Hull3 s.verts q)
    ∧ (In (polyOps eps) (polyGeo eps) true o q → ¬ ∃ s ∈ all (clipTo (polyOps eps) o t), Hull3 s.verts q)
    ∧ ((∃ s ∈ all (clipTo (polyOps eps) o t), Hull3 s.verts q) → ∃ s ∈ all t, Hull3 s.verts q) := by
  obtain ⟨-, h2, h3, h4⟩ := clipTo_spec (polySplit h0) o ht
  exact ⟨fun h ho => h3 q h ho, fun hi h => h4 q h hi, fun h => h2 h⟩

/-- C44: what `Out` and `In` mean for the half space behind one plane. -/
theorem C44_halfspace {eps : K} (h0 : 0 ≤ eps) (els : List (Poly K)) (p : Plane K) (hp : p.normal ≠ 0) (q : V3 K) :
    (Out (polyOps eps) (polyGeo eps) true (.node els p .nil .nil) q ↔ eps < dot3 p.normal q - p.w)
    ∧ (In (polyOps eps) (polyGeo eps) true (.node els p .nil .nil) q ↔ dot3 p.normal q - p.w < -eps) := by
  have hok : (polyOps eps).ok p = true := by
    have := dot_self_pos hp
    show p.ok = true
    simpa [Plane.ok, dot3] using this
  have e1 : (polyGeo eps).side p q = dot3 p.normal q - p.w := rfl
  have e2 : (polyGeo eps).eps = eps := rfl
  simp only [Out, In, hok, e1, e2, forall_const, true_and, imp_true_iff, Bool.false_eq_true, Bool.true_eq_false, imp_false, not_le, true_and, and_true]

/-! ### C45 -/

/-- C45 for segments: building a tree from any list of segments comes to an end, within a depth of the number of segments, and the segments in the tree are made of the same points. -/
theorem C45_build {eps : K} (h0 : 0 ≤ eps) (l : List (Seg K)) (hl : ∀ s ∈ l, SegL s) :
    ∃ t, (∀ n, l.length ≤ n → build (segOps eps) n .nil l = some t) ∧ (∀ s ∈ all t, SegL s) ∧ ∀ q, (∃ s ∈ all t, OnSeg s.a s.b q) ↔ ∃ s ∈ l, OnSeg s.a s.b q := by
  have L := segSplit h0
  obtain ⟨t, ht⟩ := build_some L l.length .nil l hl (by simp [AllW, all]) (by simp [depth])
  obtain ⟨w, -, -, -, e⟩ := build_spec0 L _ .nil l hl (by simp [AllW, all]) t ht
  refine ⟨t, fun n hn => build_mono_le hn ht, w, fun q => ?_⟩
  have : q ∈ (segGeo eps).points (all t) ↔ q ∈ (segGeo eps).points l := by rw [e]; simp [all, Geo.points]
  exact this

/-- C45 for segments: the same when segments are added to a tree. -/
theorem C45_add {eps : K} (h0 : 0 ≤ eps) (t : Tree (Seg K) (Line K)) (ht : ∀ s ∈ all t, SegL s) (l : List (Seg K)) (hl : ∀ s ∈ l, SegL s) :
    ∃ t', (∀ n, depth t + l.length ≤ n → build (segOps eps) n t l = some t') ∧ (∀ s ∈ all t', SegL s)
      ∧ ∀ q, (∃ s ∈ all t', OnSeg s.a s.b q) ↔ (∃ s ∈ all t, OnSeg s.a s.b q) ∨ ∃ s ∈ l, OnSeg s.a s.b q := by
  have L := segSplit h0
  obtain ⟨t', ht'⟩ := build_some L _ t l hl ht le_rfl
  obtain ⟨w, -, -, -, e⟩ := build_spec0 L _ t l hl ht t' ht'
  refine ⟨t', fun n hn => build_mono_le hn ht', w, fun q => ?_⟩
  have : q ∈ (segGeo eps).points (all t') ↔ q ∈ (segGeo eps).points (all t) ∪ (segGeo eps).points l := by rw [e]
  exact this

/-- C45 for polygons. -/
theorem C45_build_3d {eps : K} (h0 : 0 ≤ eps) (l : List (Poly K)) (hl : ∀ s ∈ l, PolyL s) :
    ∃ t, (∀ n, l.length ≤ n → build (polyOps eps) n .nil l = some t) ∧ (∀ s ∈ all t, PolyL s) ∧ ∀ q, (∃ s ∈ all t, Hull3 s.verts q) ↔ ∃ s ∈ l, Hull3 s.verts q := by
  have L := polySplit h0
  obtain ⟨t, ht⟩ := build_some L l.length .nil l hl (by simp [AllW, all]) (by simp [depth])
  obtain ⟨w, -, -, -, e⟩ := build_spec0 L _ .nil l hl (by simp [AllW, all]) t ht
  refine ⟨t, fun n hn => build_mono_le hn ht, w, fun q => ?_⟩
  have : q ∈ (polyGeo eps).points (all t) ↔ q ∈ (polyGeo eps).points l := by rw [e]; simp [all, Geo.points]
  exact this

/-- C45 for polygons: the same when polygons are added to a tree. -/
theorem C45_add_3d {eps : K} (h0 : 0 ≤ eps) (t : Tree (Poly K) (Plane K)) (ht : ∀ s ∈ all t, PolyL s) (l : List (Poly K)) (hl : ∀ s ∈ l, PolyL s) :
    ∃ t', (∀ n, depth t + l.length ≤ n → build (polyOps eps) n t l = some t') ∧ (∀ s ∈ all t', PolyL s)
      ∧ ∀ q, (∃ s ∈ all t', Hull3 s.verts q) ↔ (∃ s ∈ all t, Hull3 s.verts q) ∨ ∃ s ∈ l, Hull3 s.verts q := by
  have L := polySplit h0
  obtain ⟨t', ht'⟩ := build_some L _ t l hl ht le_rfl
  obtain ⟨w, -, -, -, e⟩ := build_spec0 L _ t l hl ht t' ht'
  refine ⟨t', fun n hn => build_mono_le hn ht', w, fun q => ?_⟩
  have : q ∈ (polyGeo eps).points (all t') ↔ q ∈ (polyGeo eps).points (all t) ∪ (polyGeo eps).points l := by rw [e]
  exact this

/-- Every triangle meets the hypotheses of C44 and C45 in space, also a degenerate one. -/
theorem triangle_polyL (a b c : V3 K) : PolyL (Poly.of [a, b, c]) := by
  by_cases h : (Plane.of a b c).normal = 0
  · right
    refine thin_of (by simp) ?_
    have ex := congrArg V3.x h
    have ey := congrArg V3.y h
    have ez := congrArg V3.z h
    simp only [Plane.of, cross3, V3.sub_x, V3.sub_y, V3.sub_z, V3.zero_x, V3.zero_y, V3.zero_z] at ex ey ez
    by_cases hx : b.x - a.x = 0
    · by_cases hy : b.y - a.y = 0
      · by_cases hz : b.z - a.z = 0
        · refine ⟨a, c - a, fun v hv => ?_⟩
          simp only [List.mem_cons, List.not_mem_nil, or_false] at hv
          rcases hv with rfl | rfl | rfl
          · exact ⟨0, by ext <;> simp⟩
          · refine ⟨0, ?_⟩
            ext <;> simp only [zero_mul, add_zero] <;> linarith
          · exact ⟨1, by ext <;> simp⟩
        · refine ⟨a, b - a, fun v hv => ?_⟩
          simp only [List.mem_cons, List.not_mem_nil, or_false] at hv
          rcases hv with rfl | rfl | rfl
          · exact ⟨0, by ext <;> simp⟩
          · exact ⟨1, by ext <;> simp⟩
          · refine ⟨(v.z - a.z) / (b.z - a.z), ?_⟩
            ext <;> simp only [V3.sub_x, V3.sub_y, V3.sub_z] <;> field_simp
            · linear_combination ey
            · linear_combination -ex
            · ring
      · refine ⟨a, b - a, fun v hv => ?_⟩
        simp only [List.mem_cons, List.not_mem_nil, or_false] at hv
        rcases hv with rfl | rfl | rfl
        · exact ⟨0, by ext <;> simp⟩
        · exact ⟨1, by ext <;> simp⟩
        · refine ⟨(v.y - a.y) / (b.y - a.y), ?_⟩
          ext <;> simp only [V3.sub_x, V3.sub_y, V3.sub_z] <;> field_simp
          · linear_combination -ez
          · ring
          · linear_combination ex
    · refine ⟨a, b - a, fun v hv => ?_⟩
      simp only [List.mem_cons, List.not_mem_nil, or_false] at hv
      rcases hv with rfl | rfl | rfl
      · exact ⟨0, by ext <;> simp⟩
      · exact ⟨1, by ext <;> simp⟩
      · refine ⟨(v.x - a.x) / (b.x - a.x), ?_⟩
        ext <;> simp only [V3.sub_x, V3.sub_y, V3.sub_z] <;> field_simp
        · ring
        · linear_combination ez
        · linear_combination -ey
  · left
    have ht : 0 < turn (Plane.of a b c).normal a b c := dot_self_pos h
    refine polyW_of (n := (Plane.of a b c).normal) (w := (Plane.of a b c).w) (by simp) ?_ ?_
    · intro v hv
      simp only [List.mem_cons, List.not_mem_nil, or_false] at hv
      rcases hv with rfl | rfl | rfl <;> simp only [Plane.of, cross3, dot3, V3.sub_x, V3.sub_y, V3.sub_z] <;> ring
    · intro i j k hij hjk hk
      have hk : k < 3 := hk
      obtain ⟨rfl, rfl, rfl⟩ : i = 0 ∧ j = 1 ∧ k = 2 := by omega
      exact ht

/-- The hypotheses of C44 and C45: a segment through a half plane, with a point kept and a point dropped. -/
example : let t : Tree (Seg ℚ) (Line ℚ) := .node [] (Line.of ⟨0, 0⟩ ⟨1, 0⟩) .nil .nil
    SegL (Seg.of (⟨0, -1⟩ : V2 ℚ) ⟨0, 1⟩) ∧ Out (segOps (1 / 10)) (segGeo (1 / 10)) true t ⟨0, -1⟩ ∧ In (segOps (1 / 10)) (segGeo (1 / 10)) true t ⟨0, 1⟩
      ∧ clip (segOps (1 / 10)) t [Seg.of (⟨0, -1⟩ : V2 ℚ) ⟨0, 1⟩] = [Seg.of ⟨0, -1⟩ ⟨0, 0⟩] := by
  refine ⟨rfl, ?_, ⟨by decide +kernel, ?_, ?_⟩, by decide +kernel⟩
  · intro _; exact ⟨fun _ => rfl, fun h => absurd h (by decide +kernel)⟩
  · intro h; exact absurd h (by decide +kernel)
  · intro _; rfl

/-! ### C63 -/

theorem toSegments_ok {dbg : Bool} {n : Nat} {v : List K} : ∀ {fs : List (List Int)}, GoodFacets n v fs →
    toSegments dbg v fs = .ok (fs.map fun f => Seg.of (segA v f) (segB v f)) := by
  intro fs
  induction fs with
  | nil => intro _; rfl
  | cons f fs ih =>
    intro h
    have h' : GoodFacets n v fs := ⟨h.1, fun g hg => h.2 g (by simp [hg])⟩
    have e : facetEnds dbg false 0 v f = facetEnds dbg false n v f := by simp [facetEnds]
    rw [toSegments, e, facetEnds_ok h (f := f) (by simp), Res.ok_bind, ih h']
    rfl

theorem flat_getD : ∀ (segs : List (Seg K)) (i : Nat) (s : Seg K), segs[i]? = some s →
    (segs.flatMap fun s => [s.a.x, s.a.y, s.b.x, s.b.y]).getD (4 * i) 0 = s.a.x
    ∧ (segs.flatMap fun s => [s.a.x, s.a.y, s.b.x, s.b.y]).getD (4 * i + 1) 0 = s.a.y
    ∧ (segs.flatMap fun s => [s.a.x, s.a.y, s.b.x, s.b.y]).getD (4 * i + 2) 0 = s.b.x
    ∧ (segs.flatMap fun s => [s.a.x, s.a.y, s.b.x, s.b.y]).getD (4 * i + 3) 0 = s.b.y := by
  intro segs
  induction segs with
  | nil => intro i s h; simp at h
  | cons t segs ih =>
    intro i s h
    cases i with
    | zero =>
      obtain rfl : t = s := by simpa using h
      simp
    | succ i =>
      have := ih i s (by simpa using h)
      simpa [List.flatMap_cons, Nat.mul_succ, Nat.add_right_comm] using this

theorem fromSegments_spec (segs : List (Seg K)) : ∃ r : RPLC K,
    (∀ dbg, fromSegments dbg segs = if dbg = true ∧ segs.length < 3 then .abort else .ok r) ∧ r.holes = [] ∧ r.facets.length = segs.length
    ∧ GoodFacets (2 * segs.length) r.points r.facets ∧ ∀ q, OnFacets r q ↔ ∃ s ∈ segs, OnSeg s.a s.b q := by
  refine ⟨{ points := segs.flatMap fun s => [s.a.x, s.a.y, s.b.x, s.b.y],
            facets := (List.range segs.length).map fun i : Nat => [(2 * i : Int), (2 * i + 1 : Int)] }, ?_, rfl, by simp, ⟨?_, ?_⟩, ?_⟩
  · intro dbg
    cases dbg
    · rfl
    · by_cases h : segs.length < 3
      · simp only [fromSegments]
        rw [Res.assert_debug_false (by omega)]
        simp [h, Res.bind_eq, Res.bind]
      · simp only [fromSegments]
        rw [Res.assert_true true (by omega)]
        simp [h, Res.bind_eq, Res.bind]
  · simp only [List.length_flatMap, List.length_cons, List.length_nil]
    induction segs with
    | nil => rfl
    | cons s l ih => simp only [List.map_cons, List.sum_cons, ih, List.length_cons]; omega
  · intro f hf
    simp only [List.mem_map, List.mem_range] at hf
    obtain ⟨i, hi, rfl⟩ := hf
    refine ⟨rfl, fun j hj => ?_⟩
    simp only [List.mem_cons, List.not_mem_nil, or_false] at hj
    rcases hj with rfl | rfl <;> push_cast <;> omega
  · intro q
    have key : ∀ (i : Nat) (s : Seg K), segs[i]? = some s →
        segA (segs.flatMap fun s => [s.a.x, s.a.y, s.b.x, s.b.y]) [(2 * i : Int), (2 * i + 1 : Int)] = s.a
        ∧ segB (segs.flatMap fun s => [s.a.x, s.a.y, s.b.x, s.b.y]) [(2 * i : Int), (2 * i + 1 : Int)] = s.b := by
      intro i s h
      obtain ⟨h1, h2, h3, h4⟩ := flat_getD segs i s h
      have e1 : 2 * ((2 * i : Int)).toNat = 4 * i := by omega
      have e2 : 2 * ((2 * i + 1 : Int)).toNat = 4 * i + 2 := by omega
      constructor
      · ext
        · simp only [segA, vtx, List.getD_cons_zero, e1, h1]
        · simp only [segA, vtx, List.getD_cons_zero, e1, h2]
      · ext
        · simp only [segB, vtx, List.getD_cons_succ, List.getD_cons_zero, e2, h3]
        · simp only [segB, vtx, List.getD_cons_succ, List.getD_cons_zero, e2, h4]
    constructor
    · rintro ⟨f, hf, hq⟩
      simp only [List.mem_map, List.mem_range] at hf
      obtain ⟨i, hi, rfl⟩ := hf
      have hget : segs[i]? = some segs[i] := List.getElem?_eq_getElem hi
      obtain ⟨ka, kb⟩ := key i _ hget
      rw [ka, kb] at hq
      exact ⟨_, List.getElem_mem hi, hq⟩
    · rintro ⟨s, hs, hq⟩
      obtain ⟨i, hi, rfl⟩ := List.getElem_of_mem hs
      have hget : segs[i]? = some segs[i] := List.getElem?_eq_getElem hi
      obtain ⟨ka, kb⟩ := key i _ hget
      refine ⟨[(2 * i : Int), (2 * i + 1 : Int)], by simp only [List.mem_map, List.mem_range]; exact ⟨i, hi, rfl⟩, ?_⟩
      show OnSeg (segA (segs.flatMap fun s => [s.a.x, s.a.y, s.b.x, s.b.y]) _) (segB (segs.flatMap fun s => [s.a.x, s.a.y, s.b.x, s.b.y]) _) q
      rw [ka, kb]; exact hq

/-- The tree of a convex polygon. -/
theorem convexTree {eps : K} (h0 : 0 ≤ eps) {P : RPLC K} (hP : ConvexPolygon eps P) :
    ∃ segs t, (∀ dbg, toSegments dbg P.points P.facets = .ok segs) ∧ (∃ N, ∀ n, N ≤ n → build (segOps eps) n .nil segs = some t) ∧ t ≠ .nil
      ∧ AllW (segOps eps) SegW t ∧ AllOk (segOps eps) t ∧ (∀ q, q ∈ (segGeo eps).points (all t) ↔ OnFacets P q)
      ∧ ∀ q, (In (segOps eps) (segGeo eps) true t q ↔ Inside eps P q) ∧ (Out (segOps eps) (segGeo eps) true t q ↔ Outside eps P q) := by
  obtain ⟨⟨n, hg⟩, hne, hpos, hconv⟩ := hP
  have L := segLaws h0
  set segs := P.facets.map fun f => Seg.of (segA P.points f) (segB P.points f) with hsegs
  have hside : ∀ a b q : V2 K, (segGeo eps).side (Line.of a b) q = -area2 a b q := by
    intro a b q; simp only [segGeo, Line.of, dot2, area2, V2.sub_x, V2.sub_y]; ring
  have hw : ∀ s ∈ segs, SegW s := by
    intro s hs
    obtain ⟨f, hf, rfl⟩ := List.mem_map.1 hs
    exact segW_of (hpos f hf)
  have hpair : segs.Pairwise (fun e x => ((segOps eps).split ((segOps eps).plane e) x).front = [] ∧ ((segOps eps).split ((segOps eps).plane e) x).back = [x]) := by
    rw [hsegs, List.pairwise_map]
    refine hconv.imp ?_
    intro f g ⟨h1, h2, h3⟩
    show (splitSeg eps (Line.of _ _) _).front = [] ∧ (splitSeg eps (Line.of _ _) _).back = _
    set s := Seg.of (segA P.points g) (segB P.points g) with hs
    have ea := hside (segA P.points f) (segB P.points f) s.a
    have eb := hside (segA P.points f) (segB P.points f) s.b
    have h1' : 0 ≤ area2 (segA P.points f) (segB P.points f) s.a := h1
    have h2' : 0 ≤ area2 (segA P.points f) (segB P.points f) s.b := h2
    have h3' : eps < area2 (segA P.points f) (segB P.points f) s.a ∨ eps < area2 (segA P.points f) (segB P.points f) s.b := h3
    rcases splitSeg_cases h0 (Line.of (segA P.points f) (segB P.points f)) s with ⟨co, -, ha, hb⟩ | ⟨-, ha, hb, h4⟩ | ⟨h, -⟩ | ⟨ha, hb, -⟩ | ⟨ha, hb, -⟩
    · rw [ea] at ha; rw [eb] at hb
      rcases h3' with h | h
      · linarith [ha.1]
      · linarith [hb.1]
    · rw [ea] at h4; rw [eb] at h4
      rcases h4 with h | h <;> linarith
    · simp [h]
    · linarith
    · linarith
  obtain ⟨t, ht, hq⟩ := convex_spec L segs hw hpair
  obtain ⟨w, k, hn, -, e⟩ := build_spec L _ .nil segs hw (by simp [AllW, all]) trivial t ht
  have htn : t ≠ .nil := hn (by simpa [hsegs] using hne)
  refine ⟨segs, t, fun dbg => toSegments_ok hg, ⟨segs.length, fun n hn => build_mono_le hn ht⟩, htn, w, k, fun q => ?_, fun q => ?_⟩
  · rw [e]
    constructor
    · rintro (⟨s, hs, hq⟩ | ⟨s, hs, hq⟩)
      · simp [all] at hs
      · obtain ⟨f, hf, rfl⟩ := List.mem_map.1 hs
        exact ⟨f, hf, hq⟩
    · rintro ⟨f, hf, hq⟩
      exact Or.inr ⟨_, List.mem_map.2 ⟨f, hf, rfl⟩, hq⟩
  · rw [in_root htn true false, out_root htn true false, (hq q).1, (hq q).2]
    have hpl : ∀ f, (segGeo eps).side ((segOps eps).plane (Seg.of (segA P.points f) (segB P.points f))) q = -area2 (segA P.points f) (segB P.points f) q :=
      fun f => hside _ _ q
    have he : (segGeo eps).eps = eps := rfl
    constructor
    · simp only [hsegs, List.forall_mem_map, hpl, he, Inside, neg_lt_neg_iff]
    · simp only [hsegs, List.mem_map, exists_exists_and_eq_and, hpl, he, Outside]
      constructor
      · rintro ⟨f, hf, h⟩; exact ⟨f, hf, by linarith⟩
      · rintro ⟨f, hf, h⟩; exact ⟨f, hf, by linarith⟩

/-- What the public operations return, given what happens to the trees. -/
theorem csg2_spec {eps : K} (h0 : 0 ≤ eps) (op : Nat → Tree (Seg K) (Line K) → Tree (Seg K) (Line K) → Option (Tree (Seg K) (Line K))) {A B : RPLC K}
    (hA : ConvexPolygon eps A) (hB : ConvexPolygon eps B) (keepA keepB notA notB : V2 K → Prop)
    (hop : ∀ a b, AllW (segOps eps) SegW a → AllOk (segOps eps) a → a ≠ .nil → AllW (segOps eps) SegW b → AllOk (segOps eps) b → b ≠ .nil →
      (∀ q, (In (segOps eps) (segGeo eps) true a q ↔ Inside eps A q) ∧ (Out (segOps eps) (segGeo eps) true a q ↔ Outside eps A q)) →
      (∀ q, (In (segOps eps) (segGeo eps) true b q ↔ Inside eps B q) ∧ (Out (segOps eps) (segGeo eps) true b q ↔ Outside eps B q)) →
      ∃ N r, (∀ n, N ≤ n → op n a b = some r) ∧ (∀ q ∈ (segGeo eps).points (all a), keepA q → q ∈ (segGeo eps).points (all r))
        ∧ (∀ q ∈ (segGeo eps).points (all b), keepB q → q ∈ (segGeo eps).points (all r))
        ∧ ∀ q ∈ (segGeo eps).points (all r), (q ∈ (segGeo eps).points (all a) ∧ ¬ notA q) ∨ (q ∈ (segGeo eps).points (all b) ∧ ¬ notB q)) :
    ∃ N r, (∀ n, N ≤ n → ∀ dbg, csg2 op eps n dbg A B = if dbg = true ∧ r.facets.length < 3 then .abort else .ok (some r))
      ∧ r.holes = [] ∧ GoodFacets (2 * r.facets.length) r.points r.facets
      ∧ (∀ q, OnFacets A q → keepA q → OnFacets r q) ∧ (∀ q, OnFacets B q → keepB q → OnFacets r q)
      ∧ ∀ q, OnFacets r q → (OnFacets A q ∧ ¬ notA q) ∨ (OnFacets B q ∧ ¬ notB q) := by
  obtain ⟨sa, ta, ea, ⟨Na, ba⟩, na, wa, ka, pa, qa⟩ := convexTree h0 hA
  obtain ⟨sb, tb, eb, ⟨Nb, bb⟩, nb, wb, kb, pb, qb⟩ := convexTree h0 hB
  obtain ⟨N, t, ht, h1, h2, h3⟩ := hop ta tb wa ka na wb kb nb qa qb
  obtain ⟨r, hr, r1, r2, r3, r4⟩ := fromSegments_spec (all t)
  have r4' : ∀ q, OnFacets r q ↔ q ∈ (segGeo eps).points (all t) := r4
  refine ⟨max N (max Na Nb), r, ?_, r1, by rw [r2]; exact r3, ?_, ?_, ?_⟩
  · intro n hn dbg
    have n1 : N ≤ n := le_trans (le_max_left _ _) hn
    have n2 : Na ≤ n := le_trans (le_trans (le_max_left _ _) (le_max_right _ _)) hn
    have n3 : Nb ≤ n := le_trans (le_trans (le_max_right _ _) (le_max_right _ _)) hn
    rw [csg2, ea, Res.ok_bind, eb, Res.ok_bind, ba n n2, bb n n3]
    simp only [Option.bind_some, ht n n1, hr dbg, r2]
    by_cases hc : dbg = true ∧ (all t).length < 3
    · simp [hc, Res.bind_eq, Res.bind]
    · simp [hc, Res.bind_eq, Res.bind]
  · intro q hq hk; rw [r4']; exact h1 q ((pa q).2 hq) hk
  · intro q hq hk; rw [r4']; exact h2 q ((pb q).2 hq) hk
  · intro q hq
    rw [r4'] at hq
    rcases h3 q hq with ⟨h, h'⟩ | ⟨h, h'⟩
    · exact Or.inl ⟨(pa q).1 h, h'⟩
    · exact Or.inr ⟨(pb q).1 h, h'⟩

/-- C63 for the union of convex polygons without holes: the operation comes to an end, the result is a PLC whose facets are between existing points, and its facets are the parts of the
facets of each polygon that are outside the other. Points within `eps` of a line through a facet of the other polygon may be kept or not. With assertions compiled in, a result of less
than three facets aborts. Missing: polygons that are not convex (`C63_reversed_fails`) and holes (`C63_holes_fails`). -/
theorem C63_union_partial {eps : K} (h0 : 0 ≤ eps) {A B : RPLC K} (hA : ConvexPolygon eps A) (hB : ConvexPolygon eps B) :
    ∃ N r, (∀ n, N ≤ n → ∀ dbg, csgUnion eps n dbg A B = if dbg = true ∧ r.facets.length < 3 then .abort else .ok (some r))
      ∧ r.holes = [] ∧ GoodFacets (2 * r.facets.length) r.points r.facets
      ∧ (∀ q, OnFacets A q → Outside eps B q → OnFacets r q) ∧ (∀ q, OnFacets B q → Outside eps A q → OnFacets r q)
      ∧ ∀ q, OnFacets r q → (OnFacets A q ∧ ¬ Inside eps B q) ∨ (OnFacets B q ∧ ¬ Inside eps A q) := by
  refine csg2_spec h0 _ hA hB (Outside eps B) (Outside eps A) (Inside eps B) (Inside eps A) ?_
  intro a b wa ka na wb kb nb qa qb
  obtain ⟨N, r, hr, -, -, h1, h2, h3⟩ := union_spec (segLaws h0) wa ka na wb kb nb
  exact ⟨N, r, hr, fun q hq h => h1 q hq ((qb q).2.2 h), fun q hq h => h2 q hq ((qa q).2.2 h), fun q hq => by
    rw [← (qb q).1, ← (qa q).1]; exact h3 q hq⟩

/-- C63 for the difference of convex polygons: the parts of the facets of the first outside the second, and of the second inside the first. -/
theorem C63_subtract_partial {eps : K} (h0 : 0 ≤ eps) {A B : RPLC K} (hA : ConvexPolygon eps A) (hB : ConvexPolygon eps B) :
    ∃ N r, (∀ n, N ≤ n → ∀ dbg, csgSubtract eps n dbg A B = if dbg = true ∧ r.facets.length < 3 then .abort else .ok (some r))
      ∧ r.holes = [] ∧ GoodFacets (2 * r.facets.length) r.points r.facets
      ∧ (∀ q, OnFacets A q → Outside eps B q → OnFacets r q) ∧ (∀ q, OnFacets B q → Inside eps A q → OnFacets r q)
      ∧ ∀ q, OnFacets r q → (OnFacets A q ∧ ¬ Inside eps B q) ∨ (OnFacets B q ∧ ¬ Outside eps A q) := by
  refine csg2_spec h0 _ hA hB (Outside eps B) (Inside eps A) (Inside eps B) (Outside eps A) ?_
  intro a b wa ka na wb kb nb qa qb
  obtain ⟨N, r, hr, -, -, h1, h2, h3⟩ := subtract_spec (segLaws h0) wa ka na wb kb nb
  exact ⟨N, r, hr, fun q hq h => h1 q hq ((qb q).2.2 h), fun q hq h => h2 q hq ((qa q).1.2 h), fun q hq => by
    rw [← (qb q).1, ← (qa q).2]; exact h3 q hq⟩

/-- C63 for the intersection of convex polygons: the parts of the facets of each inside the other. -/
theorem C63_intersect_partial {eps : K} (h0 : 0 ≤ eps) {A B : RPLC K} (hA : ConvexPolygon eps A) (hB : ConvexPolygon eps B) :
    ∃ N r, (∀ n, N ≤ n → ∀ dbg, csgIntersect eps n dbg A B = if dbg = true ∧ r.facets.length < 3 then .abort else .ok (some r))
      ∧ r.holes = [] ∧ GoodFacets (2 * r.facets.length) r.points r.facets
      ∧ (∀ q, OnFacets A q → Inside eps B q → OnFacets r q) ∧ (∀ q, OnFacets B q → Inside eps A q → OnFacets r q)
      ∧ ∀ q, OnFacets r q → (OnFacets A q ∧ ¬ Outside eps B q) ∨ (OnFacets B q ∧ ¬ Outside eps A q) := by
  refine csg2_spec h0 _ hA hB (Inside eps B) (Inside eps A) (Outside eps B) (Outside eps A) ?_
  intro a b wa ka na wb kb nb qa qb
  obtain ⟨N, r, hr, -, -, h1, h2, h3⟩ := intersect_spec (segLaws h0) wa ka na wb kb nb
  exact ⟨N, r, hr, fun q hq h => h1 q hq ((qb q).1.2 h), fun q hq h => h2 q hq ((qa q).1.2 h), fun q hq => by
    rw [← (qb q).2, ← (qa q).2]; exact h3 q hq⟩

/-- C63 fails for holes: nothing on the holes of a polygon becomes part of the result, although it is boundary and outside the other polygon. -/
theorem C63_holes_fails {eps : K} (h0 : 0 ≤ eps) {A B : RPLC K} (hA : ConvexPolygon eps A) (hB : ConvexPolygon eps B) (q : V2 K)
    (_hq : OnBoundary A q) (_hqo : Outside eps B q) (hqA : ¬ OnFacets A q) (hqB : ¬ OnFacets B q) :
    ∃ N r, (∀ n, N ≤ n → csgUnion eps n false A B = .ok (some r)) ∧ r.holes = [] ∧ ¬ OnFacets r q := by
  obtain ⟨N, r, h1, h2, -, -, -, h3⟩ := C63_union_partial h0 hA hB
  refine ⟨N, r, fun n hn => by simpa using h1 n hn false, h2, fun h => ?_⟩
  rcases h3 q h with h | h
  · exact hqA h.1
  · exact hqB h.1

/-- C64 fails for every pair of convex polygons that are apart: asserting that a polygon has three facets, the intersection aborts instead of returning an empty result. -/
theorem C64_disjoint_fails {eps : K} (h0 : 0 ≤ eps) {A B : RPLC K} (hA : ConvexPolygon eps A) (hB : ConvexPolygon eps B)
    (h1 : ∀ q, OnFacets A q → Outside eps B q) (h2 : ∀ q, OnFacets B q → Outside eps A q) :
    ∃ N, ∀ n, N ≤ n → csgIntersect eps n true A B = .abort := by
  obtain ⟨N, r, h3, -, -, -, -, h4⟩ := C63_intersect_partial h0 hA hB
  refine ⟨N, fun n hn => ?_⟩
  have hr : r.facets = [] := by
    rcases hf : r.facets with - | ⟨f, fs⟩
    · rfl
    · exfalso
      have hq : OnFacets r (segA r.points f) := ⟨f, by simp [hf], onSeg_left _ _⟩
      rcases h4 _ hq with ⟨h, h'⟩ | ⟨h, h'⟩
      · exact h' (h1 _ h)
      · exact h' (h2 _ h)
  rw [h3 n hn true, hr]; simp
end

/-! ### Examples -/

/-- `Line<double>::EPSILON`. -/
def epsQ : ℚ := 1 / 2147483647

/-- The square from (`x`, `y`) to (`x + w`, `y + w`). -/
def squareQ (x y w : ℚ) : RPLC ℚ := { points := [x, y, x + w, y, x + w, y + w, x, y + w], facets := [[0, 1], [1, 2], [2, 3], [3, 0]] }

instance (eps : ℚ) (v : List ℚ) (f g : List Int) : Decidable (LeftOf eps v f g) := by unfold LeftOf; infer_instance

theorem squareQ_convex (x y : ℚ) : ConvexPolygon epsQ (squareQ x y 2) := by
  refine ⟨⟨4, rfl, by simp [squareQ]⟩, by simp [squareQ], ?_, ?_⟩
  · intro f hf
    simp only [squareQ, List.mem_cons, List.not_mem_nil, or_false] at hf
    rcases hf with rfl | rfl | rfl | rfl <;> simp [squareQ, segA, segB, vtx]
  · simp [squareQ, List.pairwise_cons, LeftOf, segA, segB, vtx, area2, epsQ]
    norm_num

/-- Two overlapping squares meet the hypotheses of C63, and there are points of each kind: (0, 0) is on the first and outside the second, (2, 3/2) is on the first and inside the
second. -/
example : ConvexPolygon epsQ (squareQ 0 0 2) ∧ ConvexPolygon epsQ (squareQ 1 1 2) ∧ OnFacets (squareQ 0 0 2) ⟨0, 0⟩ ∧ Outside epsQ (squareQ 1 1 2) ⟨0, 0⟩
    ∧ OnFacets (squareQ 0 0 2) ⟨2, 3 / 2⟩ ∧ Inside epsQ (squareQ 1 1 2) ⟨2, 3 / 2⟩ := by
  refine ⟨squareQ_convex 0 0, squareQ_convex 1 1, ⟨[0, 1], by decide, 0, by norm_num, by norm_num, by decide +kernel⟩, ⟨[0, 1], by decide, by decide +kernel⟩,
    ⟨[1, 2], by decide, 3 / 4, by norm_num, by norm_num, by decide +kernel⟩, ?_⟩
  intro f hf
  revert f
  decide +kernel

/-- A square with a hole, and a square far away, meet the hypotheses of `C63_holes_fails` with a corner of the hole. -/
example : let A := { squareQ 0 0 2 with points := (squareQ 0 0 2).points ++ (squareQ (1 / 2) (1 / 2) 1).points, holes := [[[7, 6], [6, 5], [5, 4], [4, 7]]] }
    ConvexPolygon epsQ A ∧ ConvexPolygon epsQ (squareQ 5 5 2) ∧ OnBoundary A ⟨1 / 2, 1 / 2⟩ ∧ Outside epsQ (squareQ 5 5 2) ⟨1 / 2, 1 / 2⟩ ∧ ¬ OnFacets A ⟨1 / 2, 1 / 2⟩
      ∧ ¬ OnFacets (squareQ 5 5 2) ⟨1 / 2, 1 / 2⟩ := by
  intro A
  refine ⟨⟨⟨8, rfl, by decide +kernel⟩, by decide +kernel, by decide +kernel, by decide +kernel⟩, squareQ_convex 5 5,
    ⟨[4, 7], by decide +kernel, 0, by norm_num, by norm_num, by decide +kernel⟩, ⟨[0, 1], by decide, by decide +kernel⟩, ?_, ?_⟩
  · rintro ⟨f, hf, t, t0, t1, e⟩
    have ex := congrArg V2.x e
    have ey := congrArg V2.y e
    simp only [A, squareQ, List.mem_cons, List.not_mem_nil, or_false] at hf
    rcases hf with rfl | rfl | rfl | rfl <;> simp [lerp2, A, squareQ, segA, segB, vtx] at ex ey <;> linarith
  · rintro ⟨f, hf, t, t0, t1, e⟩
    have ex := congrArg V2.x e
    have ey := congrArg V2.y e
    simp only [squareQ, List.mem_cons, List.not_mem_nil, or_false] at hf
    rcases hf with rfl | rfl | rfl | rfl <;> simp [lerp2, squareQ, segA, segB, vtx] at ex ey <;> linarith

/-! ### What goes wrong -/

section
variable {E P : Type} {O : Ops E P}

theorem bind_mono {n m : Nat} (hnm : n ≤ m) {a : Tree E P} {l : List E} {g : Tree E P → List E} {r : Tree E P}
    (h : ((build O n a l).bind fun a => build O n .nil (g a)) = some r) : ((build O m a l).bind fun a => build O m .nil (g a)) = some r := by
  obtain ⟨t, ht, hr⟩ := Option.bind_eq_some_iff.1 h
  rw [build_mono_le hnm ht]
  exact build_mono_le hnm hr

end

section
variable {K : Type} [Field K] [LinearOrder K] [IsStrictOrderedRing K]

/-- A larger bound on the depth changes nothing. -/
theorem csg2_mono {op : Nat → Tree (Seg K) (Line K) → Tree (Seg K) (Line K) → Option (Tree (Seg K) (Line K))}
    (hop : ∀ n m, n ≤ m → ∀ a b r, op n a b = some r → op m a b = some r) {eps : K} {n m : Nat} (hnm : n ≤ m) {dbg : Bool} {A B : RPLC K} {o : Res (Option (RPLC K))}
    (h : csg2 op eps n dbg A B = o) (ho : o ≠ .ok none) : csg2 op eps m dbg A B = o := by
  rw [csg2] at h ⊢
  rcases ha : toSegments dbg A.points A.facets with sa | _ | _
  · rw [ha, Res.ok_bind] at h; rw [Res.ok_bind]
    rcases hb : toSegments dbg B.points B.facets with sb | _ | _
    · rw [hb, Res.ok_bind] at h; rw [Res.ok_bind]
      rcases ht : ((build (segOps eps) n .nil sa).bind fun ta => (build (segOps eps) n .nil sb).bind fun tb => op n ta tb) with - | t
      · rw [ht] at h; exact absurd h.symm ho
      · rw [ht] at h
        obtain ⟨ta, h1, h2⟩ := Option.bind_eq_some_iff.1 ht
        obtain ⟨tb, h3, h4⟩ := Option.bind_eq_some_iff.1 h2
        rw [build_mono_le hnm h1, build_mono_le hnm h3]
        simp only [Option.bind_some, hop n m hnm _ _ _ h4]
        exact h
    · rw [hb] at h; exact h
    · rw [hb] at h; exact h
  · rw [ha] at h; exact h
  · rw [ha] at h; exact h

theorem csgUnion_mono {eps : K} {n m : Nat} (hnm : n ≤ m) {dbg : Bool} {A B : RPLC K} {o : Res (Option (RPLC K))} (h : csgUnion eps n dbg A B = o) (ho : o ≠ .ok none) :
    csgUnion eps m dbg A B = o := csg2_mono (fun _ _ h _ _ _ => bind_mono h) hnm h ho
theorem csgIntersect_mono {eps : K} {n m : Nat} (hnm : n ≤ m) {dbg : Bool} {A B : RPLC K} {o : Res (Option (RPLC K))} (h : csgIntersect eps n dbg A B = o) (ho : o ≠ .ok none) :
    csgIntersect eps m dbg A B = o := csg2_mono (op := intersectT (segOps eps)) (fun _ _ h _ _ _ => bind_mono (g := fun a => all (invert (segOps eps) a)) h) hnm h ho
end

/-- An L-shaped polygon, counterclockwise, beginning with a facet at its inner corner. -/
def shapeL : RPLC ℚ := { points := [0, 0, 4, 0, 4, 4, 2, 4, 2, 2, 0, 2], facets := [[4, 5], [5, 0], [0, 1], [1, 2], [2, 3], [3, 4]] }

/-- What `csg_union` returns for the L-shaped polygon and a square far away from it. -/
def unionL : RPLC ℚ where
  points := [2, 2, 0, 2, 4, 4, 4, 2, 4, 4, 2, 4, 2, 4, 2, 2, 0, 2, 0, 0, 0, 0, 4, 0, 4, 0, 4, 2]
  facets := [[0, 1], [2, 3], [4, 5], [6, 7], [8, 9], [10, 11], [12, 13]]

/-- C63 fails for polygons that are not convex: the union of an L-shaped polygon and a square far away from it does not contain the square. Every facet of the square is lost: no
point of the result has a coordinate larger than 4. -/
theorem C63_reversed_fails : (∀ n, 20 ≤ n → ∀ dbg, csgUnion epsQ n dbg shapeL (squareQ 10 10 2) = .ok (some unionL))
    ∧ (∀ q, OnFacets (squareQ 10 10 2) q → ¬ OnFacets unionL q)
    ∧ ∀ q, OnFacets (squareQ 10 10 2) q → 10 ≤ q.x ∧ 10 ≤ q.y := by
  have hsq : ∀ q, OnFacets (squareQ 10 10 2) q → 10 ≤ q.x ∧ 10 ≤ q.y := by
    rintro q ⟨f, hf, t, t0, t1, rfl⟩
    simp only [squareQ, List.mem_cons, List.not_mem_nil, or_false] at hf
    rcases hf with rfl | rfl | rfl | rfl <;> simp [lerp2, squareQ, segA, segB, vtx] <;> linarith
  refine ⟨?_, fun q hq hu => ?_, hsq⟩
  · intro n hn dbg
    refine csgUnion_mono hn ?_ (by simp)
    cases dbg <;> decide +kernel
  · have h10 := (hsq q hq).1
    obtain ⟨f, hf, t, t0, t1, rfl⟩ := hu
    have key : ∀ f ∈ unionL.facets, (segA unionL.points f).x ≤ 4 ∧ (segB unionL.points f).x ≤ 4 := by decide +kernel
    obtain ⟨k1, k2⟩ := key f hf
    simp only [lerp2] at h10
    nlinarith

theorem mix_lt {m x y t : ℚ} (t0 : 0 ≤ t) (t1 : t ≤ 1) (hx : m < x) (hy : m < y) : m < (1 - t) * x + t * y := by
  rcases eq_or_lt_of_le t0 with rfl | t0'
  · simpa using hx
  · nlinarith [mul_pos t0' (sub_pos.2 hy), mul_nonneg (sub_nonneg.2 t1) (sub_nonneg.2 hx.le)]

theorem mix_gt {m x y t : ℚ} (t0 : 0 ≤ t) (t1 : t ≤ 1) (hx : x < m) (hy : y < m) : (1 - t) * x + t * y < m := by
  have := mix_lt t0 t1 (neg_lt_neg hx) (neg_lt_neg hy)
  linarith

/-- How many facets begin, and how many end, at a position. -/
def startsAt (P : RPLC ℚ) (v : V2 ℚ) : Nat := (P.facets.filter fun f => segA P.points f == v).length
def endsAt (P : RPLC ℚ) (v : V2 ℚ) : Nat := (P.facets.filter fun f => segB P.points f == v).length

/-- What `csg_union` returns for two overlapping squares. -/
def unionSq : RPLC ℚ where
  points := [0, 0, 2, 0, 2, 0, 2, 1, 3, 1, 2, 1, 3, 1, 3, 3, 3, 3, 2, 3, 0, 2, 1, 2, 0, 0, 0, 1, 0, 2, 0, 1, 1, 3, 2, 3, 1, 3, 1, 2]
  facets := [[0, 1], [2, 3], [4, 5], [6, 7], [8, 9], [10, 11], [12, 13], [14, 15], [16, 17], [18, 19]]

/-- C64 fails: in the union of two overlapping squares, whose facets go around them counterclockwise, the facets do not go around the result. Two facets begin at (3, 1) and none ends
there. -/
theorem C64_orientation_fails : (∀ n, 20 ≤ n → ∀ dbg, csgUnion epsQ n dbg (squareQ 0 0 2) (squareQ 1 1 2) = .ok (some unionSq))
    ∧ (∀ P ∈ [squareQ 0 0 2, squareQ 1 1 2], ∀ f ∈ P.facets, startsAt P (segA P.points f) = 1 ∧ endsAt P (segA P.points f) = 1)
    ∧ startsAt unionSq ⟨3, 1⟩ = 2 ∧ endsAt unionSq ⟨3, 1⟩ = 0 := by
  refine ⟨?_, by decide +kernel, by decide +kernel, by decide +kernel⟩
  intro n hn dbg
  refine csgUnion_mono hn ?_ (by simp)
  cases dbg <;> decide +kernel

/-- C64 fails: the result of an operation cannot be used in another one. Uniting the union of two squares with a third square far away loses the third square, and intersecting it with
a square inside it aborts. -/
theorem C64_chain_fails : (∀ n, 30 ≤ n → ∀ dbg, ∃ r, csgUnion epsQ n dbg unionSq (squareQ 10 0 1) = .ok (some r) ∧ ∀ q, OnFacets r q → q.x ≤ 3)
    ∧ (∀ n, 30 ≤ n → csgIntersect epsQ n true unionSq (squareQ (1 / 2) (1 / 2) (1 / 4)) = .abort)
    ∧ (∀ q, OnFacets (squareQ 10 0 1) q → 10 ≤ q.x) ∧ ∀ q, OnFacets (squareQ (1 / 2) (1 / 2) (1 / 4)) q → Inside epsQ (squareQ 0 0 2) q := by
  refine ⟨?_, ?_, ?_, ?_⟩
  · intro n hn dbg
    let r : RPLC ℚ :=
      { points := [0, 0, 2, 0, 2, 0, 2, 1, 3, 1, 2, 1, 3, 1, 3, 3, 3, 3, 2, 3, 0, 2, 1, 2, 0, 2, 0, 1, 0, 0, 0, 1, 1, 3, 2, 3, 1, 3, 1, 2]
        facets := [[0, 1], [2, 3], [4, 5], [6, 7], [8, 9], [10, 11], [12, 13], [14, 15], [16, 17], [18, 19]] }
    refine ⟨r, csgUnion_mono hn ?_ (by simp), ?_⟩
    · cases dbg <;> decide +kernel
    · rintro q ⟨f, hf, t, t0, t1, rfl⟩
      have key : ∀ f ∈ r.facets, (segA r.points f).x ≤ 3 ∧ (segB r.points f).x ≤ 3 := by decide +kernel
      obtain ⟨k1, k2⟩ := key f hf
      simp only [lerp2]; nlinarith
  · intro n hn
    exact csgIntersect_mono hn (by decide +kernel) (by simp)
  · rintro q ⟨f, hf, t, t0, t1, rfl⟩
    simp only [squareQ, List.mem_cons, List.not_mem_nil, or_false] at hf
    rcases hf with rfl | rfl | rfl | rfl <;> simp [lerp2, squareQ, segA, segB, vtx] <;> linarith
  · rintro q ⟨f, hf, t, t0, t1, rfl⟩ g hg
    have key : ∀ f ∈ (squareQ (1 / 2) (1 / 2) (1 / 4)).facets, ∀ g ∈ (squareQ 0 0 2).facets,
        epsQ < area2 (segA (squareQ 0 0 2).points g) (segB (squareQ 0 0 2).points g) (segA (squareQ (1 / 2) (1 / 2) (1 / 4)).points f)
        ∧ epsQ < area2 (segA (squareQ 0 0 2).points g) (segB (squareQ 0 0 2).points g) (segB (squareQ (1 / 2) (1 / 2) (1 / 4)).points f) := by decide +kernel
    obtain ⟨k1, k2⟩ := key f hf g hg
    have : ∀ a b c d : V2 ℚ, area2 a b (lerp2 c d t) = (1 - t) * area2 a b c + t * area2 a b d := fun a b c d => by simp only [area2, lerp2]; ring
    rw [this]; exact mix_lt t0 t1 k1 k2

/-- The hypotheses of `C64_disjoint_fails` hold for two squares that are apart. -/
example : (∀ q, OnFacets (squareQ 0 0 2) q → Outside epsQ (squareQ 5 5 2) q) ∧ ∀ q, OnFacets (squareQ 5 5 2) q → Outside epsQ (squareQ 0 0 2) q := by
  have hl : ∀ (a b c d : V2 ℚ) (t : ℚ), area2 a b (lerp2 c d t) = (1 - t) * area2 a b c + t * area2 a b d := fun a b c d t => by simp only [area2, lerp2]; ring
  constructor
  · rintro q ⟨f, hf, t, t0, t1, rfl⟩
    refine ⟨[0, 1], by decide +kernel, ?_⟩
    have key : ∀ f ∈ (squareQ 0 0 2).facets, area2 (segA (squareQ 5 5 2).points [0, 1]) (segB (squareQ 5 5 2).points [0, 1]) (segA (squareQ 0 0 2).points f) < -epsQ
      ∧ area2 (segA (squareQ 5 5 2).points [0, 1]) (segB (squareQ 5 5 2).points [0, 1]) (segB (squareQ 0 0 2).points f) < -epsQ := by decide +kernel
    obtain ⟨k1, k2⟩ := key f hf
    rw [hl]; exact mix_gt t0 t1 k1 k2
  · rintro q ⟨f, hf, t, t0, t1, rfl⟩
    refine ⟨[2, 3], by decide +kernel, ?_⟩
    have key : ∀ f ∈ (squareQ 5 5 2).facets, area2 (segA (squareQ 0 0 2).points [2, 3]) (segB (squareQ 0 0 2).points [2, 3]) (segA (squareQ 5 5 2).points f) < -epsQ
      ∧ area2 (segA (squareQ 0 0 2).points [2, 3]) (segB (squareQ 0 0 2).points [2, 3]) (segB (squareQ 5 5 2).points f) < -epsQ := by decide +kernel
    obtain ⟨k1, k2⟩ := key f hf
    rw [hl]; exact mix_gt t0 t1 k1 k2

end Verif.Csg
