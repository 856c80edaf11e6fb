import Verif.Proofs.SolidDir
/-
Clipping polygons that lie in a plane of the tree: what is kept has free space just in front of it.
-/
namespace Verif.Csg
open Verif Verif.Geom Verif.Mesh

variable {K : Type} [Field K] [LinearOrder K] [IsStrictOrderedRing K]

/-- `q` is in none of the planes on its way through the tree. -/
def Sharp : Tree (Poly K) (Plane K) → V3 K → Prop
  | .nil, _ => True
  | .node _ p f b, q => (p.w < dot3 p.normal q ∧ Sharp f q) ∨ (dot3 p.normal q < p.w ∧ Sharp b q)

/-- The planes of the nodes. -/
def planes : Tree (Poly K) (Plane K) → List (Plane K)
  | .nil => []
  | .node _ p f b => p :: (planes f ++ planes b)

/-- Just off `c`, in the direction `m`, is space outside the tree. -/
def OutDir (d : Bool) (t : Tree (Poly K) (Plane K)) (c m : V3 K) : Prop :=
  ∃ e, 0 < e ∧ ∀ s, 0 < s → s < e → Out (polyOps 0) (polyGeo 0) d t (c + V3.scale s m) ∧ Sharp t (c + V3.scale s m)

theorem outside_front {p : Plane K} (hp : (polyOps (0 : K)).ok p = true) {q : V3 K} (h : p.w < dot3 p.normal q) (d : Bool) (els : List (Poly K)) (f b : Tree (Poly K) (Plane K)) :
    Out (polyOps 0) (polyGeo 0) d (.node els p f b) q ↔ Out (polyOps 0) (polyGeo 0) true f q := by
  have eside : (polyGeo (0 : K)).side p q = dot3 p.normal q - p.w := rfl
  have eeps : (polyGeo (0 : K)).eps = 0 := rfl
  simp only [Out, hp, eside, eeps, neg_zero, forall_const]
  constructor
  · intro hh; exact hh.1 (by linarith)
  · intro hh; exact ⟨fun _ => hh, fun h' => by linarith⟩

theorem outside_back {p : Plane K} (hp : (polyOps (0 : K)).ok p = true) {q : V3 K} (h : dot3 p.normal q < p.w) (d : Bool) (els : List (Poly K)) (f b : Tree (Poly K) (Plane K)) :
    Out (polyOps 0) (polyGeo 0) d (.node els p f b) q ↔ Out (polyOps 0) (polyGeo 0) false b q := by
  have eside : (polyGeo (0 : K)).side p q = dot3 p.normal q - p.w := rfl
  have eeps : (polyGeo (0 : K)).eps = 0 := rfl
  simp only [Out, hp, eside, eeps, neg_zero, forall_const]
  constructor
  · intro hh; exact hh.2 (by linarith)
  · intro hh; exact ⟨fun h' => by linarith, fun _ => hh⟩

theorem inside_front {p : Plane K} (hp : (polyOps (0 : K)).ok p = true) {q : V3 K} (h : p.w < dot3 p.normal q) (d : Bool) (els : List (Poly K)) (f b : Tree (Poly K) (Plane K)) :
    In (polyOps 0) (polyGeo 0) d (.node els p f b) q ↔ In (polyOps 0) (polyGeo 0) true f q := by
  have eside : (polyGeo (0 : K)).side p q = dot3 p.normal q - p.w := rfl
  have eeps : (polyGeo (0 : K)).eps = 0 := rfl
  simp only [In, hp, eside, eeps, neg_zero, true_and]
  constructor
  · intro hh; exact hh.1 (by linarith)
  · intro hh; exact ⟨fun _ => hh, fun h' => by linarith⟩

theorem inside_back {p : Plane K} (hp : (polyOps (0 : K)).ok p = true) {q : V3 K} (h : dot3 p.normal q < p.w) (d : Bool) (els : List (Poly K)) (f b : Tree (Poly K) (Plane K)) :
    In (polyOps 0) (polyGeo 0) d (.node els p f b) q ↔ In (polyOps 0) (polyGeo 0) false b q := by
  have eside : (polyGeo (0 : K)).side p q = dot3 p.normal q - p.w := rfl
  have eeps : (polyGeo (0 : K)).eps = 0 := rfl
  simp only [In, hp, eside, eeps, neg_zero, true_and]
  constructor
  · intro hh; exact hh.2 (by linarith)
  · intro hh; exact ⟨fun h' => by linarith, fun _ => hh⟩

omit [IsStrictOrderedRing K] in
theorem sharp_clipTo (o t : Tree (Poly K) (Plane K)) (q : V3 K) : Sharp (clipTo (polyOps 0) o t) q ↔ Sharp t q := by
  induction t with
  | nil => rfl
  | node els p f b ihf ihb => simp only [clipTo, Sharp, ihf, ihb]

omit [LinearOrder K] [IsStrictOrderedRing K] in
theorem dot_flip (p : Plane K) (q : V3 K) : dot3 p.flip.normal q = - dot3 p.normal q := by simp only [Plane.flip, dot3]; ring

theorem sharp_invert (t : Tree (Poly K) (Plane K)) (q : V3 K) : Sharp (invert (polyOps 0) t) q ↔ Sharp t q := by
  induction t with
  | nil => rfl
  | node els p f b ihf ihb =>
    simp only [invert, Sharp, ihf, ihb]
    show (p.flip.w < dot3 p.flip.normal q ∧ _) ∨ (dot3 p.flip.normal q < p.flip.w ∧ _) ↔ _
    rw [dot_flip]
    have : p.flip.w = -p.w := by simp [Plane.flip]
    rw [this, neg_lt_neg_iff, neg_lt_neg_iff, or_comm]

omit [IsStrictOrderedRing K] in
theorem planes_clipTo (o t : Tree (Poly K) (Plane K)) : planes (clipTo (polyOps 0) o t) = planes t := by
  induction t with
  | nil => rfl
  | node els p f b ihf ihb => simp only [clipTo, planes, ihf, ihb]

omit [IsStrictOrderedRing K] in
theorem mem_planes_invert (t : Tree (Poly K) (Plane K)) (p : Plane K) : p ∈ planes (invert (polyOps 0) t) ↔ ∃ p' ∈ planes t, p'.flip = p := by
  induction t with
  | nil => simp [invert, planes]
  | node els p' f b ihf ihb =>
    simp only [invert, planes, List.mem_cons, List.mem_append, ihf, ihb, or_and_right, exists_or, exists_eq_left]
    show p = p'.flip ∨ _ ↔ p'.flip = p ∨ _
    rw [eq_comm]; exact or_congr_right or_comm

theorem outDir_clipTo (o t : Tree (Poly K) (Plane K)) (d : Bool) (c m : V3 K) : OutDir d (clipTo (polyOps 0) o t) c m ↔ OutDir d t c m := by
  simp only [OutDir, out_clipTo, sharp_clipTo]

/-- A direction that is longer or shorter. -/
theorem outDir_scale {d : Bool} {t : Tree (Poly K) (Plane K)} {c m : V3 K} {k : K} (k0 : 0 < k) (h : OutDir d t c m) : OutDir d t c (V3.scale k m) := by
  obtain ⟨e, e0, he⟩ := h
  refine ⟨e / k, div_pos e0 k0, fun s s0 s1 => ?_⟩
  have : V3.scale s (V3.scale k m) = V3.scale (s * k) m := by ext <;> simp [V3.scale, mul_assoc]
  rw [this]
  exact he _ (mul_pos s0 k0) ((lt_div_iff₀ k0).1 s1)

/-! ### Polygons in a plane -/

theorem polyW_normal {x : Poly K} (hx : PolyW x) : x.plane.normal ≠ 0 :=
  ne_zero_of_turn (hx.convex 0 1 2 (by omega) (by omega) (by have := hx.three; omega))

/-- A plane that has a polygon in it is not perpendicular to it. -/
theorem dot_ne_zero {p : Plane K} (hp : p.normal ≠ 0) {x : Poly K} (hx : PolyW x) (h : ∀ v ∈ x.verts, dot3 p.normal v = p.w) : dot3 p.normal x.plane.normal ≠ 0 := by
  obtain ⟨a, ha, b, hb, c, hc, ht⟩ := (PartOf.self hx).three
  intro h0
  have hv : dot3 x.plane.normal (a + p.normal) = x.plane.w := by
    rw [dot_add', hx.planar a ha]
    have : dot3 x.plane.normal p.normal = dot3 p.normal x.plane.normal := by simp only [dot3]; ring
    rw [this, h0, add_zero]
  have := same_plane ht (hx.planar a ha) (hx.planar b hb) (hx.planar c hc) hv (h a ha) (h b hb) (h c hc)
  rw [dot_add', h a ha] at this
  exact (dot_self_pos hp).ne' (by linarith)

/-- What is in the plane goes to the side it faces. -/
theorem split_coplanar (p : Plane K) {x : Poly K} (h : ∀ v ∈ x.verts, dot3 p.normal v = p.w) :
    splitPoly 0 p x = if 0 < dot3 p.normal x.plane.normal then { coFront := [x] } else { coBack := [x] } := by
  have hc : ∀ v ∈ x.verts, cls3 0 (dot3 p.normal v - p.w) = 0 := by
    intro v hv; rw [h v hv, sub_self]; simp [cls3]
  have hf : ∀ (l : List (V3 K)), (∀ v ∈ l, cls3 0 (dot3 p.normal v - p.w) = 0) → l.foldl (fun t v => t ||| cls3 0 (dot3 p.normal v - p.w)) 0 = 0 := by
    intro l
    induction l with
    | nil => intro; rfl
    | cons v l ih =>
      intro h
      rw [List.foldl_cons, h v (by simp)]
      exact ih fun v hv => h v (by simp [hv])
  simp only [splitPoly, hf x.verts hc, gt_iff_lt]

theorem split_co (p : Plane K) {x : Poly K} (hx : PolyW x) (hp : p.normal ≠ 0) :
    (∀ y ∈ (splitPoly 0 p x).coFront, y = x ∧ (∀ v ∈ x.verts, dot3 p.normal v = p.w) ∧ 0 < dot3 p.normal x.plane.normal)
    ∧ ∀ y ∈ (splitPoly 0 p x).coBack, y = x ∧ (∀ v ∈ x.verts, dot3 p.normal v = p.w) ∧ dot3 p.normal x.plane.normal < 0 := by
  have h1 := (split_exact p hx).1
  constructor
  · intro y hy
    obtain ⟨rfl, h2⟩ := h1 y (List.mem_append_left _ hy)
    refine ⟨rfl, h2, ?_⟩
    rw [split_coplanar p h2] at hy
    split_ifs at hy with h
    · exact h
    · simp at hy
  · intro y hy
    obtain ⟨rfl, h2⟩ := h1 y (List.mem_append_right _ hy)
    refine ⟨rfl, h2, ?_⟩
    rw [split_coplanar p h2] at hy
    split_ifs at hy with h
    · simp at hy
    · exact lt_of_le_of_ne (not_lt.1 h) (dot_ne_zero hp hx h2)

theorem partOf_pieces (n : V3 K) (vs : List (V3 K)) : PieceClosed (polyOps 0) fun x : Poly K => PartOf n vs x := by
  intro p x hx y hy
  exact hx.trans (partOf_split p hx.wf hy)

theorem ok_normal {p : Plane K} : (polyOps (0 : K)).ok p = true ↔ p.normal ≠ 0 := by
  show p.ok = true ↔ _
  rw [Plane.ok, decide_eq_true_eq]
  constructor
  · intro h e
    rw [e] at h
    simp at h
  · intro h; exact dot_self_pos h

theorem parts_clip {d : Bool} {t : Tree (Poly K) (Plane K)} {e x : Poly K} (he : PolyW e) (hx : x ∈ clipD (polyOps 0) d t [e]) : PartOf e.plane.normal e.verts x :=
  clipD_D (partOf_pieces _ _) t d [e] (fun y hy => by rw [List.mem_singleton.1 hy]; exact .self he) x hx

theorem in_plane {p : Plane K} {vs : List (V3 K)} (h : ∀ v ∈ vs, dot3 p.normal v = p.w) {q : V3 K} (hq : Hull3 vs q) : dot3 p.normal q = p.w :=
  le_antisymm (hull_le (fun v hv => (h v hv).le) hq) (hull_ge (fun v hv => (h v hv).ge) hq)

theorem in_plane_inner {p : Plane K} {vs : List (V3 K)} (h : ∀ v ∈ vs, dot3 p.normal v = p.w) {q : V3 K} (hq : Inner vs q) : dot3 p.normal q = p.w := in_plane h hq.1

/-- Strictly in front of a plane and a little off. -/
theorem front_little {p : Plane K} {c : V3 K} (m : V3 K) (h : p.w < dot3 p.normal c) : ∃ e, 0 < e ∧ ∀ s, -e < s → s < e → p.w < dot3 p.normal (c + V3.scale s m) := by
  obtain ⟨e, e0, he⟩ := move_little c m [p] (by simpa using h)
  exact ⟨e, e0, fun s h1 h2 => he s h1 h2 p (by simp)⟩

theorem back_little {p : Plane K} {c : V3 K} (m : V3 K) (h : dot3 p.normal c < p.w) : ∃ e, 0 < e ∧ ∀ s, -e < s → s < e → dot3 p.normal (c + V3.scale s m) < p.w := by
  obtain ⟨e, e0, he⟩ := front_little (p := p.flip) m (by rw [dot_flip]; simpa [Plane.flip] using h)
  refine ⟨e, e0, fun s h1 h2 => ?_⟩
  have := he s h1 h2
  rw [dot_flip] at this
  simpa [Plane.flip] using this

/-- What clipping keeps has space outside the tree just in front of it. -/
theorem clip_outDir (t : Tree (Poly K) (Plane K)) : ∀ (d : Bool), AllOk (polyOps 0) t → ∀ e, PolyW e → ∀ x ∈ clipD (polyOps 0) d t [e], ∀ c, Inner x.verts c → OutDir d t c x.plane.normal := by
  induction t with
  | nil =>
    intro d _ e he x hx c hc
    cases d
    · simp [clipD] at hx
    · exact ⟨1, one_pos, fun s _ _ => ⟨rfl, trivial⟩⟩
  | node els p f b ihf ihb =>
    rintro d ⟨hok, hkf, hkb⟩ e he x hx c hc
    have hp := ok_normal.1 hok
    have h : clipD (polyOps 0) d (.node els p f b) [e] = clip (polyOps 0) (.node els p f b) [e] := rfl
    rw [h, clip_node, if_pos hok, List.mem_append] at hx
    obtain ⟨co1, co2⟩ := split_co p he hp
    obtain ⟨-, ex1, ex2⟩ := split_exact p he
    rcases hx with hx | hx
    · obtain ⟨y, hy0, hxy⟩ := (clipD_mem f true _ x).1 hx
      obtain ⟨e', he', hy⟩ := mem_clipFront.1 hy0
      obtain rfl : e' = e := by simpa using he'
      have wy : PolyW y := (partOf_split p he (by tauto)).wf
      have hpx := parts_clip wy hxy
      obtain ⟨j, j0, hj⟩ := ihf true hkf y wy x hxy c hc
      have side : ∃ i, 0 < i ∧ ∀ s, 0 < s → s < i → p.w < dot3 p.normal (c + V3.scale s x.plane.normal) := by
        rcases hy with hy | hy
        · obtain ⟨rfl, h1, h2⟩ := co1 y hy
          obtain ⟨k, k0, hk⟩ := hpx.dir
          refine ⟨1, one_pos, fun s s0 _ => ?_⟩
          rw [dot_add', dot_scale', in_plane_inner h1 (hpx.inner hc), hk, dot_scale']
          have := mul_pos s0 (mul_pos k0 h2)
          linarith
        · obtain ⟨-, h1, h2⟩ := ex1 y hy
          obtain ⟨g1, g2⟩ := hpx.strict h1 h2
          obtain ⟨i, i0, hi⟩ := front_little x.plane.normal (hc.2 _ _ g1 g2)
          exact ⟨i, i0, fun s s0 s1 => hi s (by linarith) s1⟩
      obtain ⟨i, i0, hi⟩ := side
      refine ⟨min i j, lt_min i0 j0, fun s s0 s1 => ?_⟩
      have h1 := hi s s0 (lt_of_lt_of_le s1 (min_le_left _ _))
      have h2 := hj s s0 (lt_of_lt_of_le s1 (min_le_right _ _))
      exact ⟨(outside_front hok h1 d els f b).2 h2.1, Or.inl ⟨h1, h2.2⟩⟩
    · obtain ⟨y, hy0, hxy⟩ := (clipD_mem b false _ x).1 hx
      obtain ⟨e', he', hy⟩ := mem_clipBack.1 hy0
      obtain rfl : e' = e := by simpa using he'
      have wy : PolyW y := (partOf_split p he (by tauto)).wf
      have hpx := parts_clip wy hxy
      obtain ⟨j, j0, hj⟩ := ihb false hkb y wy x hxy c hc
      have side : ∃ i, 0 < i ∧ ∀ s, 0 < s → s < i → dot3 p.normal (c + V3.scale s x.plane.normal) < p.w := by
        rcases hy with hy | hy
        · obtain ⟨rfl, h1, h2⟩ := co2 y hy
          obtain ⟨k, k0, hk⟩ := hpx.dir
          refine ⟨1, one_pos, fun s s0 _ => ?_⟩
          rw [dot_add', dot_scale', in_plane_inner h1 (hpx.inner hc), hk, dot_scale']
          have := mul_pos s0 (mul_pos k0 (neg_pos.2 h2))
          linarith
        · obtain ⟨-, h1, v, hv, h2⟩ := ex2 y hy
          obtain ⟨g1, g2⟩ := hpx.strict (m := p.flip.normal) (u := p.flip.w) (fun v hv => by rw [dot_flip]; simpa [Plane.flip] using h1 v hv)
            ⟨v, hv, by rw [dot_flip]; simpa [Plane.flip] using h2⟩
          have g3 := hc.2 _ _ g1 g2
          rw [dot_flip] at g3
          obtain ⟨i, i0, hi⟩ := back_little (p := p) x.plane.normal (by simpa [Plane.flip] using g3)
          exact ⟨i, i0, fun s s0 s1 => hi s (by linarith) s1⟩
      obtain ⟨i, i0, hi⟩ := side
      refine ⟨min i j, lt_min i0 j0, fun s s0 s1 => ?_⟩
      have h1 := hi s s0 (lt_of_lt_of_le s1 (min_le_left _ _))
      have h2 := hj s s0 (lt_of_lt_of_le s1 (min_le_right _ _))
      exact ⟨(outside_back hok h1 d els f b).2 h2.1, Or.inr ⟨h1, h2.2⟩⟩

/-- Just off `c`, in the direction `m`, is outside. -/
def OutS (d : Bool) (t : Tree (Poly K) (Plane K)) (c m : V3 K) : Prop :=
  ∃ e, 0 < e ∧ ∀ s, 0 < s → s < e → Out (polyOps 0) (polyGeo 0) d t (c + V3.scale s m)

theorem outS_scale {d : Bool} {t : Tree (Poly K) (Plane K)} {c m : V3 K} {k : K} (k0 : 0 < k) (h : OutS d t c m) : OutS d t c (V3.scale k m) := by
  obtain ⟨e, e0, he⟩ := h
  refine ⟨e / k, div_pos e0 k0, fun s s0 s1 => ?_⟩
  have : V3.scale s (V3.scale k m) = V3.scale (s * k) m := by ext <;> simp [V3.scale, mul_assoc]
  rw [this]
  exact he _ (mul_pos s0 k0) ((lt_div_iff₀ k0).1 s1)

/-- The planes of the tree that pass through `v` have the whole polygon in them. -/
def Gen (t : Tree (Poly K) (Plane K)) (e : Poly K) (v : V3 K) : Prop := ∀ p ∈ planes t, dot3 p.normal v = p.w → ∀ u ∈ e.verts, dot3 p.normal u = p.w

theorem Gen.part {t : Tree (Poly K) (Plane K)} {e x : Poly K} {v : V3 K} (h : Gen t e v) (hx : PartOf e.plane.normal e.verts x) : Gen t x v :=
  fun p hp hv u hu => in_plane (h p hp hv) (hx.sub u hu)

/-- A point of a polygon, with space outside the tree just in front of it, is kept. -/
theorem clip_gen (t : Tree (Poly K) (Plane K)) : ∀ (d : Bool), AllOk (polyOps 0) t → ∀ e, PolyW e → ∀ v, Hull3 e.verts v → Gen t e v → OutS d t v e.plane.normal →
    ∃ x ∈ clipD (polyOps 0) d t [e], Hull3 x.verts v := by
  have L := polyLaws (le_refl (0 : K))
  induction t with
  | nil =>
    rintro d _ e he v hv _ ⟨i, i0, hi⟩
    have := hi (i / 2) (by linarith) (by linarith)
    obtain rfl : d = true := this
    exact ⟨e, by simp [clipD], hv⟩
  | node els p f b ihf ihb =>
    rintro d ⟨hok, hkf, hkb⟩ e he v hv hg ⟨i, i0, hi⟩
    have hp := ok_normal.1 hok
    have h : clipD (polyOps 0) d (.node els p f b) [e] = clip (polyOps 0) (.node els p f b) [e] := rfl
    rw [h, clip_node, if_pos hok]
    obtain ⟨e1, e2, e3⟩ := split_exact p he
    have goF : ∀ y, PartOf e.plane.normal e.verts y → (y ∈ (splitPoly 0 p e).coFront ∨ y ∈ (splitPoly 0 p e).front) → Hull3 y.verts v →
        (∃ j, 0 < j ∧ ∀ s, 0 < s → s < j → p.w < dot3 p.normal (v + V3.scale s e.plane.normal)) →
        ∃ x ∈ clipD (polyOps 0) true f (clipFront (polyOps 0) p [e]) ++ clipD (polyOps 0) false b (clipBack (polyOps 0) p [e]), Hull3 x.verts v := by
      rintro y hy hye hyv ⟨j, j0, hj⟩
      obtain ⟨k, k0, hk⟩ := hy.dir
      have ho : OutS true f v e.plane.normal := by
        refine ⟨min i j, lt_min i0 j0, fun s s0 s1 => ?_⟩
        exact (outside_front hok (hj s s0 (lt_of_lt_of_le s1 (min_le_right _ _))) d els f b).1 (hi s s0 (lt_of_lt_of_le s1 (min_le_left _ _)))
      obtain ⟨x, hx, hxv⟩ := ihf true hkf y hy.wf v hyv (Gen.part (fun p' hp' => hg p' (by simp [planes, hp'])) hy) (by rw [hk]; exact outS_scale k0 ho)
      exact ⟨x, List.mem_append_left _ ((clipD_mem f true _ x).2 ⟨y, mem_clipFront.2 ⟨e, by simp, hye⟩, hx⟩), hxv⟩
    have goB : ∀ y, PartOf e.plane.normal e.verts y → (y ∈ (splitPoly 0 p e).coBack ∨ y ∈ (splitPoly 0 p e).back) → Hull3 y.verts v →
        (∃ j, 0 < j ∧ ∀ s, 0 < s → s < j → dot3 p.normal (v + V3.scale s e.plane.normal) < p.w) →
        ∃ x ∈ clipD (polyOps 0) true f (clipFront (polyOps 0) p [e]) ++ clipD (polyOps 0) false b (clipBack (polyOps 0) p [e]), Hull3 x.verts v := by
      rintro y hy hye hyv ⟨j, j0, hj⟩
      obtain ⟨k, k0, hk⟩ := hy.dir
      have ho : OutS false b v e.plane.normal := by
        refine ⟨min i j, lt_min i0 j0, fun s s0 s1 => ?_⟩
        exact (outside_back hok (hj s s0 (lt_of_lt_of_le s1 (min_le_right _ _))) d els f b).1 (hi s s0 (lt_of_lt_of_le s1 (min_le_left _ _)))
      obtain ⟨x, hx, hxv⟩ := ihb false hkb y hy.wf v hyv (Gen.part (fun p' hp' => hg p' (by simp [planes, hp'])) hy) (by rw [hk]; exact outS_scale k0 ho)
      exact ⟨x, List.mem_append_right _ ((clipD_mem b false _ x).2 ⟨y, mem_clipBack.2 ⟨e, by simp, hye⟩, hx⟩), hxv⟩
    rcases lt_trichotomy (dot3 p.normal v) p.w with hlt | heq | hgt
    · obtain ⟨y, hy, hyv⟩ := L.cover p e he v hv
      have hyv : Hull3 y.verts v := hyv
      have hy' : y ∈ (splitPoly 0 p e).back := by
        rcases hy with hy | hy | hy | hy
        · exact absurd (in_plane (e1 y (List.mem_append_left _ hy)).2 hyv) hlt.ne
        · exact absurd (in_plane (e1 y (List.mem_append_right _ hy)).2 hyv) hlt.ne
        · exact absurd hlt (not_lt.2 (hull_ge (e2 y hy).2.1 hyv))
        · exact hy
      obtain ⟨j, j0, hj⟩ := back_little e.plane.normal hlt
      exact goB y (e3 y hy').1 (Or.inr hy') hyv ⟨j, j0, fun s s0 s1 => hj s (by linarith) s1⟩
    · have hpl := hg p (by simp [planes]) heq
      rcases lt_or_gt_of_ne (dot_ne_zero hp he hpl) with hn | hn
      · refine goB e (.self he) (Or.inl ?_) hv ⟨1, one_pos, fun s s0 _ => ?_⟩
        · rw [split_coplanar p hpl, if_neg hn.not_gt]; simp
        · rw [dot_add', dot_scale', heq]; nlinarith
      · refine goF e (.self he) (Or.inl ?_) hv ⟨1, one_pos, fun s s0 _ => ?_⟩
        · rw [split_coplanar p hpl, if_pos hn]; simp
        · rw [dot_add', dot_scale', heq]; nlinarith
    · obtain ⟨y, hy, hyv⟩ := L.cover p e he v hv
      have hyv : Hull3 y.verts v := hyv
      have hy' : y ∈ (splitPoly 0 p e).front := by
        rcases hy with hy | hy | hy | hy
        · exact absurd (in_plane (e1 y (List.mem_append_left _ hy)).2 hyv) hgt.ne'
        · exact absurd (in_plane (e1 y (List.mem_append_right _ hy)).2 hyv) hgt.ne'
        · exact hy
        · exact absurd hgt (not_lt.2 (hull_le (e3 y hy).2.1 hyv))
      obtain ⟨j, j0, hj⟩ := front_little e.plane.normal hgt
      exact goF y (e2 y hy').1 (Or.inr hy') hyv ⟨j, j0, fun s s0 s1 => hj s (by linarith) s1⟩

/-! ### Where the polygons of a tree are -/

/-- The polygons of a node are in its plane, those of the front tree in front of it, those of the back tree behind it. -/
def Placed : Tree (Poly K) (Plane K) → Prop
  | .nil => True
  | .node els p f b => (∀ x ∈ els, ∀ v ∈ x.verts, dot3 p.normal v = p.w) ∧ (∀ x ∈ all f, ∀ v ∈ x.verts, p.w ≤ dot3 p.normal v) ∧ (∀ x ∈ all b, ∀ v ∈ x.verts, dot3 p.normal v ≤ p.w)
    ∧ Placed f ∧ Placed b

theorem placed_sharp {t : Tree (Poly K) (Plane K)} (h : Placed t) {q : V3 K} (hq : Sharp t q) : ∀ x ∈ all t, ¬ Hull3 x.verts q := by
  induction t with
  | nil => simp [all]
  | node els p f b ihf ihb =>
    obtain ⟨h1, h2, h3, h4, h5⟩ := h
    intro x hx hxq
    rcases mem_all_node.1 hx with hx | hx | hx
    · have := in_plane (h1 x hx) hxq
      rcases hq with ⟨h, -⟩ | ⟨h, -⟩ <;> linarith
    · have := hull_ge (h2 x hx) hxq
      rcases hq with ⟨h, hs⟩ | ⟨h, -⟩
      · exact ihf h4 hs x hx hxq
      · linarith
    · have := hull_le (h3 x hx) hxq
      rcases hq with ⟨h, -⟩ | ⟨h, hs⟩
      · linarith
      · exact ihb h5 hs x hx hxq

/-- Every polygon is in the plane of a node. -/
theorem placed_plane {t : Tree (Poly K) (Plane K)} (h : Placed t) : ∀ x ∈ all t, ∃ p ∈ planes t, ∀ v ∈ x.verts, dot3 p.normal v = p.w := by
  induction t with
  | nil => simp [all]
  | node els p f b ihf ihb =>
    obtain ⟨h1, h2, h3, h4, h5⟩ := h
    intro x hx
    rcases mem_all_node.1 hx with hx | hx | hx
    · exact ⟨p, by simp [planes], h1 x hx⟩
    · obtain ⟨p', hp', h⟩ := ihf h4 x hx; exact ⟨p', by simp [planes, hp'], h⟩
    · obtain ⟨p', hp', h⟩ := ihb h5 x hx; exact ⟨p', by simp [planes, hp'], h⟩

theorem side_pieces (n : V3 K) (w : K) : PieceClosed (polyOps 0) fun x : Poly K => PolyW x ∧ ∀ v ∈ x.verts, w ≤ dot3 n v := by
  rintro p x ⟨hx, h⟩ y hy
  have := partOf_split p hx hy
  exact ⟨this.wf, fun v hv => hull_ge h (this.sub v hv)⟩

theorem build_placed : ∀ (n : Nat) (l : List (Poly K)) (t : Tree (Poly K) (Plane K)), (∀ x ∈ l, PolyW x) → build (polyOps 0) n .nil l = some t → Placed t := by
  have L := polyLaws (le_refl (0 : K))
  intro n
  induction n with
  | zero =>
    intro l t hl hb
    cases l with
    | nil => simp only [build, Option.some.injEq] at hb; subst hb; trivial
    | cons e l => simp [build] at hb
  | succ n ih =>
    intro l t hl hb
    cases l with
    | nil => simp only [build, Option.some.injEq] at hb; subst hb; trivial
    | cons e l =>
      rw [build_cons] at hb
      dsimp only at hb
      simp only [L.ok_none, Bool.false_eq_true, if_false] at hb
      have hpe : (polyOps (0 : K)).plane e = e.plane := rfl
      have hsplit : (polyOps (0 : K)).split = splitPoly 0 := rfl
      rw [hpe, hsplit] at hb
      set p := e.plane with hp
      split at hb
      · rename_i f' b' hf' hb'
        simp only [Option.some.injEq] at hb; subst hb
        refine ⟨?_, ?_, ?_, ih _ _ ?_ hf', ih _ _ ?_ hb'⟩
        · intro x hx
          simp only [List.nil_append] at hx
          obtain ⟨y, hy, hx⟩ := List.mem_flatMap.1 hx
          exact ((split_exact p (hl y hy)).1 x hx).2
        · intro x hx
          refine (build_D (side_pieces p.normal p.w) n .nil _ (by simp [all]) (fun z hz => ?_) f' hf' x hx).2
          obtain ⟨y, hy, hz⟩ := List.mem_flatMap.1 hz
          have := (split_exact p (hl y hy)).2.1 z hz
          exact ⟨this.1.wf, this.2.1⟩
        · intro x hx v hv
          have := (build_D (side_pieces p.flip.normal p.flip.w) n .nil _ (by simp [all]) (fun z hz => ?_) b' hb' x hx).2 v hv
          · rw [dot_flip] at this; simpa [Plane.flip] using this
          · obtain ⟨y, hy, hz⟩ := List.mem_flatMap.1 hz
            have := (split_exact p (hl y hy)).2.2 z hz
            exact ⟨this.1.wf, fun v hv => by rw [dot_flip]; simpa [Plane.flip] using this.2.1 v hv⟩
        · intro x hx
          obtain ⟨y, hy, hx⟩ := List.mem_flatMap.1 hx
          exact ((split_exact p (hl y hy)).2.1 x hx).1.wf
        · intro x hx
          obtain ⟨y, hy, hx⟩ := List.mem_flatMap.1 hx
          exact ((split_exact p (hl y hy)).2.2 x hx).1.wf
      · exact absurd hb (by simp)

theorem placed_invert {t : Tree (Poly K) (Plane K)} (h : Placed t) : Placed (invert (polyOps 0) t) := by
  induction t with
  | nil => trivial
  | node els p f b ihf ihb =>
    obtain ⟨h1, h2, h3, h4, h5⟩ := h
    have vf : ∀ x : Poly K, ∀ v ∈ ((polyOps (0 : K)).flipE x).verts, v ∈ x.verts := fun x v hv => by
      have hv : v ∈ x.flip.verts := hv
      simpa [Poly.flip] using hv
    have e : ∀ v, dot3 ((polyOps (0 : K)).flipP p).normal v = - dot3 p.normal v := dot_flip p
    have ew : ((polyOps (0 : K)).flipP p).w = -p.w := by show p.flip.w = _; simp [Plane.flip]
    refine ⟨?_, ?_, ?_, ihb h5, ihf h4⟩
    · intro x hx v hv
      obtain ⟨y, hy, rfl⟩ := List.mem_map.1 hx
      rw [e, ew, h1 y hy v (vf y v hv)]
    · intro x hx v hv
      obtain ⟨y, hy, rfl⟩ := (mem_all_invert b x).1 hx
      rw [e, ew]; linarith [h3 y hy v (vf y v hv)]
    · intro x hx v hv
      obtain ⟨y, hy, rfl⟩ := (mem_all_invert f x).1 hx
      rw [e, ew]; linarith [h2 y hy v (vf y v hv)]

end Verif.Csg
