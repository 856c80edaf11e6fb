import Verif.Proofs.SolidAny
/-
With a tolerance that is small enough, the operations on solids do the same as with tolerance zero.
-/
namespace Verif.Csg
open Verif Verif.Geom Verif.Mesh

variable {K : Type} [Field K] [LinearOrder K] [IsStrictOrderedRing K]

omit [IsStrictOrderedRing K] in
theorem SmallEps.and {p q : K → Prop} (hp : SmallEps p) (hq : SmallEps q) : SmallEps fun eps => p eps ∧ q eps := by
  obtain ⟨a, a0, ha⟩ := hp
  obtain ⟨b, b0, hb⟩ := hq
  exact ⟨min a b, lt_min a0 b0, fun eps h0 h1 => ⟨ha eps h0 (le_trans h1 (min_le_left _ _)), hb eps h0 (le_trans h1 (min_le_right _ _))⟩⟩

omit [IsStrictOrderedRing K] in
theorem SmallEps.mono {p q : K → Prop} (hp : SmallEps p) (h : ∀ eps, p eps → q eps) : SmallEps q := by
  obtain ⟨a, a0, ha⟩ := hp
  exact ⟨a, a0, fun eps h0 h1 => h eps (ha eps h0 h1)⟩

theorem SmallEps.true {p : K → Prop} (h : ∀ eps, p eps) : SmallEps p := ⟨1, one_pos, fun eps _ _ => h eps⟩

theorem SmallEps.list {α : Type} {p : α → K → Prop} : ∀ (l : List α), (∀ x ∈ l, SmallEps (p x)) → SmallEps fun eps => ∀ x ∈ l, p x eps
  | [], _ => .true (by simp)
  | a :: l, h => ((h a (by simp)).and (SmallEps.list l fun x hx => h x (List.mem_cons_of_mem _ hx))).mono fun eps h x hx => by
    rcases List.mem_cons.1 hx with rfl | hx
    exacts [h.1, h.2 x hx]

theorem cls3_small (t : K) : SmallEps fun eps => cls3 eps t = cls3 0 t := by
  rcases lt_trichotomy t 0 with h | h | h
  · refine ⟨-t / 2, by linarith, fun eps h0 h1 => ?_⟩
    simp [cls3, h, show t < -eps by linarith]
  · refine ⟨1, one_pos, fun eps h0 h1 => ?_⟩
    simp [cls3, h, not_lt.2 h0]
  · refine ⟨t / 2, by linarith, fun eps h0 h1 => ?_⟩
    simp [cls3, h, not_lt.2 h.le, show eps < t by linarith, not_lt.2 (show -eps ≤ t by linarith)]

omit [IsStrictOrderedRing K] in
theorem splitPoly_congr {eps : K} {p : Plane K} {q : Poly K} (h : ∀ v ∈ q.verts, cls3 eps (dot3 p.normal v - p.w) = cls3 0 (dot3 p.normal v - p.w)) : splitPoly eps p q = splitPoly 0 p q := by
  have hf : ∀ (l : List (V3 K)) (t : Nat), (∀ v ∈ l, v ∈ q.verts) → l.foldl (fun t v => t ||| cls3 eps (dot3 p.normal v - p.w)) t = l.foldl (fun t v => t ||| cls3 0 (dot3 p.normal v - p.w)) t := by
    intro l
    induction l with
    | nil => intro t _; rfl
    | cons v l ih => intro t hl; simp only [List.foldl_cons, h v (hl v (by simp))]; exact ih _ fun v hv => hl v (by simp [hv])
  have hm : ∀ e ∈ edges3 q.verts, edge3 eps p e.1 e.2 = edge3 0 p e.1 e.2 := by
    rintro ⟨a, b⟩ he
    have h1 := h a (List.of_mem_zip he).1
    have h2 := h b (by simpa using (List.of_mem_zip he).2)
    simp only [edge3, h1, h2]
  have h1 : ((edges3 q.verts).flatMap fun e => (edge3 eps p e.1 e.2).1) = (edges3 q.verts).flatMap fun e => (edge3 0 p e.1 e.2).1 :=
    List.flatMap_congr fun e he => by rw [hm e he]
  have h2 : ((edges3 q.verts).flatMap fun e => (edge3 eps p e.1 e.2).2) = (edges3 q.verts).flatMap fun e => (edge3 0 p e.1 e.2).2 :=
    List.flatMap_congr fun e he => by rw [hm e he]
  simp only [splitPoly, hf q.verts 0 fun _ h => h, h1, h2]

theorem split_small (p : Plane K) (q : Poly K) : SmallEps fun eps => splitPoly eps p q = splitPoly 0 p q :=
  (SmallEps.list q.verts fun v _ => cls3_small (dot3 p.normal v - p.w)).mono fun _ h => splitPoly_congr h

theorem splits_small (p : Plane K) (l : List (Poly K)) : SmallEps fun eps => ∀ q ∈ l, splitPoly eps p q = splitPoly 0 p q :=
  SmallEps.list l fun q _ => split_small p q

theorem build_small : ∀ (n : Nat) (t : Tree (Poly K) (Plane K)) (l : List (Poly K)), SmallEps fun eps => build (polyOps eps) n t l = build (polyOps 0) n t l
  | _, t, [] => .true fun eps => by simp [build]
  | 0, t, e :: l => .true fun eps => rfl
  | n + 1, t, e :: l => by
    obtain ⟨els, p, f, b, hm⟩ : ∃ els p f b, (match t with
          | .nil => ([], { normal := 0, w := 0 }, .nil, .nil)
          | .node els p f b => (els, p, f, b) : List (Poly K) × Plane K × Tree (Poly K) (Plane K) × Tree (Poly K) (Plane K)) = (els, p, f, b) := ⟨_, _, _, _, rfl⟩
    set p' := if p.ok then p else e.plane with hp'
    refine ((splits_small p' (e :: l)).and ((build_small n f ((e :: l).flatMap fun x => (splitPoly 0 p' x).front)).and
      (build_small n b ((e :: l).flatMap fun x => (splitPoly 0 p' x).back)))).mono fun eps ⟨h1, h2, h3⟩ => ?_
    have e1 : ((e :: l).flatMap fun x => (splitPoly eps p' x).front) = (e :: l).flatMap fun x => (splitPoly 0 p' x).front := List.flatMap_congr fun x hx => by rw [h1 x hx]
    have e2 : ((e :: l).flatMap fun x => (splitPoly eps p' x).back) = (e :: l).flatMap fun x => (splitPoly 0 p' x).back := List.flatMap_congr fun x hx => by rw [h1 x hx]
    have e3 : ((e :: l).flatMap fun x => (splitPoly eps p' x).coFront ++ (splitPoly eps p' x).coBack) = (e :: l).flatMap fun x => (splitPoly 0 p' x).coFront ++ (splitPoly 0 p' x).coBack :=
      List.flatMap_congr fun x hx => by rw [h1 x hx]
    have s1 : ∀ eps : K, (polyOps eps).split = splitPoly eps := fun _ => rfl
    have s2 : ∀ eps : K, (polyOps eps).ok = Plane.ok := fun _ => rfl
    have s3 : ∀ eps : K, (polyOps eps).plane = Poly.plane := fun _ => rfl
    have s4 : ∀ eps : K, (polyOps eps).none = { normal := 0, w := 0 } := fun _ => rfl
    clear_value p'
    subst hp'
    cases t <;> cases hm <;> simp only [build_cons, s1, s2, s3, s4] <;> rw [e1, e2, e3, h2, h3]

theorem clipD_small (t : Tree (Poly K) (Plane K)) : ∀ (d : Bool) (l : List (Poly K)), SmallEps fun eps => clipD (polyOps eps) d t l = clipD (polyOps 0) d t l := by
  induction t with
  | nil => intro d l; exact .true fun eps => rfl
  | node els p f b ihf ihb =>
    intro d l
    refine ((splits_small p l).and ((ihf true (clipFront (polyOps 0) p l)).and (ihb false (clipBack (polyOps 0) p l)))).mono fun eps ⟨h1, h2, h3⟩ => ?_
    have e1 : clipFront (polyOps eps) p l = clipFront (polyOps 0) p l := List.flatMap_congr fun x hx => by
      show (splitPoly eps p x).coFront ++ (splitPoly eps p x).front = (splitPoly 0 p x).coFront ++ (splitPoly 0 p x).front
      rw [h1 x hx]
    have e2 : clipBack (polyOps eps) p l = clipBack (polyOps 0) p l := List.flatMap_congr fun x hx => by
      show (splitPoly eps p x).coBack ++ (splitPoly eps p x).back = (splitPoly 0 p x).coBack ++ (splitPoly 0 p x).back
      rw [h1 x hx]
    have hc : ∀ O : Ops (Poly K) (Plane K), clipD O d (.node els p f b) l = clip O (.node els p f b) l := fun _ => rfl
    rw [hc, hc, clip_node, clip_node, e1, e2, h2, h3]
    rfl

theorem clip_small (t : Tree (Poly K) (Plane K)) (l : List (Poly K)) : SmallEps fun eps => clip (polyOps eps) t l = clip (polyOps 0) t l :=
  (clipD_small t true l).mono fun eps h => by rwa [clipD_true, clipD_true] at h

theorem clipTo_small (o t : Tree (Poly K) (Plane K)) : SmallEps fun eps => clipTo (polyOps eps) o t = clipTo (polyOps 0) o t := by
  induction t with
  | nil => exact .true fun eps => rfl
  | node els p f b ihf ihb =>
    refine ((clip_small o els).and (ihf.and ihb)).mono fun eps ⟨h1, h2, h3⟩ => ?_
    simp only [clipTo, h1, h2, h3]

omit [IsStrictOrderedRing K] in
theorem invert_small (eps : K) (t : Tree (Poly K) (Plane K)) : invert (polyOps eps) t = invert (polyOps 0) t := by
  induction t with
  | nil => rfl
  | node els p f b ihf ihb => simp only [invert, ihf, ihb]; rfl

theorem union_small (n : Nat) (a b : Tree (Poly K) (Plane K)) : SmallEps fun eps => unionT (polyOps eps) n a b = unionT (polyOps 0) n a b := by
  set a1 := clipTo (polyOps 0) b a with ha1
  set b1 := clipTo (polyOps 0) a1 b with hb1
  set b2 := invert (polyOps 0) (clipTo (polyOps 0) a1 (invert (polyOps 0) b1)) with hb2
  have hend : SmallEps fun eps => ∀ t ∈ (build (polyOps 0) n a1 (all b2)).toList, build (polyOps eps) n .nil (all t) = build (polyOps 0) n .nil (all t) :=
    SmallEps.list _ fun t _ => build_small n .nil (all t)
  refine ((clipTo_small b a).and ((clipTo_small a1 b).and ((clipTo_small a1 (invert (polyOps 0) b1)).and ((build_small n a1 (all b2)).and hend)))).mono fun eps ⟨h1, h2, h3, h4, h5⟩ => ?_
  simp only [unionT, invert_small eps, h1, ← ha1, h2, ← hb1, h3, ← hb2, h4]
  cases hb : build (polyOps 0) n a1 (all b2) with
  | none => rfl
  | some t => exact h5 t (by simp [hb])

theorem subtract_small (n : Nat) (a b : Tree (Poly K) (Plane K)) : SmallEps fun eps => subtractT (polyOps eps) n a b = subtractT (polyOps 0) n a b := by
  set a0 := invert (polyOps 0) a with ha0
  set a1 := clipTo (polyOps 0) b a0 with ha1
  set b1 := clipTo (polyOps 0) a1 b with hb1
  set b2 := invert (polyOps 0) (clipTo (polyOps 0) a1 (invert (polyOps 0) b1)) with hb2
  have hend : SmallEps fun eps => ∀ t ∈ (build (polyOps 0) n a1 (all b2)).toList, build (polyOps eps) n .nil (all (invert (polyOps 0) t)) = build (polyOps 0) n .nil (all (invert (polyOps 0) t)) :=
    SmallEps.list _ fun t _ => build_small n .nil _
  refine ((clipTo_small b a0).and ((clipTo_small a1 b).and ((clipTo_small a1 (invert (polyOps 0) b1)).and ((build_small n a1 (all b2)).and hend)))).mono fun eps ⟨h1, h2, h3, h4, h5⟩ => ?_
  simp only [subtractT, invert_small eps, ← ha0, h1, ← ha1, h2, ← hb1, h3, ← hb2, h4]
  cases hb : build (polyOps 0) n a1 (all b2) with
  | none => rfl
  | some t => exact h5 t (by simp [hb])

theorem intersect_small (n : Nat) (a b : Tree (Poly K) (Plane K)) : SmallEps fun eps => intersectT (polyOps eps) n a b = intersectT (polyOps 0) n a b := by
  set a0 := invert (polyOps 0) a with ha0
  set b1 := invert (polyOps 0) (clipTo (polyOps 0) a0 b) with hb1
  set a1 := clipTo (polyOps 0) b1 a0 with ha1
  set b2 := clipTo (polyOps 0) a1 b1 with hb2
  have hend : SmallEps fun eps => ∀ t ∈ (build (polyOps 0) n a1 (all b2)).toList, build (polyOps eps) n .nil (all (invert (polyOps 0) t)) = build (polyOps 0) n .nil (all (invert (polyOps 0) t)) :=
    SmallEps.list _ fun t _ => build_small n .nil _
  refine ((clipTo_small a0 b).and ((clipTo_small b1 a0).and ((clipTo_small a1 b1).and ((build_small n a1 (all b2)).and hend)))).mono fun eps ⟨h1, h2, h3, h4, h5⟩ => ?_
  simp only [intersectT, invert_small eps, ← ha0, h1, ← hb1, h2, ← ha1, h3, ← hb2, h4]
  cases hb : build (polyOps 0) n a1 (all b2) with
  | none => rfl
  | some t => exact h5 t (by simp [hb])

/-! ### A larger bound on the depth -/

omit [Field K] [LinearOrder K] [IsStrictOrderedRing K] in
theorem finish_mono {O : Ops (Poly K) (Plane K)} {g : Tree (Poly K) (Plane K) → Tree (Poly K) (Plane K)} {n m : Nat} (hnm : n ≤ m) {a : Tree (Poly K) (Plane K)} {l : List (Poly K)} {r : Tree (Poly K) (Plane K)}
    (h : ((build O n a l).bind fun a => build O n .nil (all (g a))) = some r) : ((build O m a l).bind fun a => build O m .nil (all (g a))) = some r := by
  cases hb : build O n a l with
  | none => rw [hb] at h; simp at h
  | some t =>
    rw [hb, Option.bind_some] at h
    rw [build_mono_le hnm hb, Option.bind_some]
    exact build_mono_le hnm h

omit [Field K] [LinearOrder K] [IsStrictOrderedRing K] in
theorem union_mono {O : Ops (Poly K) (Plane K)} {n m : Nat} (hnm : n ≤ m) {a b r : Tree (Poly K) (Plane K)} (h : unionT O n a b = some r) : unionT O m a b = some r :=
  finish_mono (g := id) hnm h
omit [Field K] [LinearOrder K] [IsStrictOrderedRing K] in
theorem subtract_mono {O : Ops (Poly K) (Plane K)} {n m : Nat} (hnm : n ≤ m) {a b r : Tree (Poly K) (Plane K)} (h : subtractT O n a b = some r) : subtractT O m a b = some r :=
  finish_mono hnm h
omit [Field K] [LinearOrder K] [IsStrictOrderedRing K] in
theorem intersect_mono {O : Ops (Poly K) (Plane K)} {n m : Nat} (hnm : n ≤ m) {a b r : Tree (Poly K) (Plane K)} (h : intersectT O n a b = some r) : intersectT O m a b = some r :=
  finish_mono hnm h

/-! ### The tree of a solid -/

/-- The triangles of a facet are part of it. -/
theorem facet_parts {P : RPLC K} {f : List Int} (hf : GoodFacet P f) : ∀ x ∈ firstTri P f :: otherTris P f, PartOf (normalOf P f) (corners P f) x := by
  intro x hx
  obtain ⟨hw, a, b, c, ev, hs⟩ := (facet_tris hf).1 x hx
  have hpl : ∀ v ∈ corners P f, dot3 (normalOf P f) v = dot3 (normalOf P f) ((corners P f).getD 0 0) := by
    intro v hv
    have := hf.planar v hv
    rw [above] at this
    have e : dot3 (normalOf P f) (v - (corners P f).getD 0 0) = 0 := this
    rw [dot_sub'] at e
    linarith
  refine ⟨hw, ⟨_, hpl⟩, fun v hv => .pt (hs.subset (by rw [← ev]; exact hv)), ?_⟩
  have hL : Left3 (normalOf P f) (corners P f) := left3_of fun i j k h1 h2 h3 => hf.convex i j k h1 h2 (by simpa [corners] using h3)
  obtain ⟨k, k0, e1, -⟩ := plane_of_scale (hL a b c hs) (hpl a (hs.subset (by simp))) (hpl b (hs.subset (by simp))) (hpl c (hs.subset (by simp)))
  refine ⟨k, k0, ?_⟩
  rw [← e1]
  have hx' : ∃ vs, x = Poly.of vs := by
    rcases List.mem_cons.1 hx with rfl | hx
    · exact ⟨_, rfl⟩
    · obtain ⟨t, -, rfl⟩ := List.mem_map.1 hx
      exact ⟨t, rfl⟩
  obtain ⟨vs, rfl⟩ := hx'
  have : vs = [a, b, c] := ev
  subst this
  rfl

theorem anyTree {P : RPLC K} {S : Set (V3 K)} (hP : Bounds P S) :
    ∃ polys t, (∀ dbg, toPolygons dbg P.points P.facets = .ok polys) ∧ (∃ N, ∀ n, N ≤ n → build (polyOps 0) n .nil polys = some t) ∧ t ≠ .nil
      ∧ AllW (polyOps 0) PolyW t ∧ AllOk (polyOps 0) t ∧ (∀ q, q ∈ (polyGeo 0).points (all t) ↔ OnFacets3 P q)
      ∧ (∃ n, build (polyOps 0) n .nil (P.facets.flatMap fun f => firstTri P f :: otherTris P f) = some t)
      ∧ ∀ q, ¬ OnFacets3 P q → (In (polyOps 0) (polyGeo 0) true t q ↔ q ∈ S) ∧ (Out (polyOps 0) (polyGeo 0) true t q ↔ q ∉ S) := by
  have L := polyLaws (le_refl (0 : K))
  set polys := P.facets.flatMap fun f => firstTri P f :: otherTris P f with hep
  have hpart : ∀ x ∈ polys, ∃ f ∈ P.facets, PartOf (normalOf P f) (corners P f) x := by
    intro x hx
    obtain ⟨f, hf, hx⟩ := List.mem_flatMap.1 hx
    exact ⟨f, hf, facet_parts (hP.good f hf) x hx⟩
  have hwp : ∀ e ∈ polys, PolyW e := fun e he => by obtain ⟨f, -, h⟩ := hpart e he; exact h.wf
  have hpts : ∀ q, OnFacets3 P q ↔ ∃ x ∈ polys, Hull3 x.verts q := by
    intro q
    constructor
    · rintro ⟨f, hf, hq⟩
      obtain ⟨x, hx, hq⟩ := ((facet_tris (hP.good f hf)).2 q).1 hq
      exact ⟨x, List.mem_flatMap.2 ⟨f, hf, hx⟩, hq⟩
    · rintro ⟨s, hs, hq⟩
      obtain ⟨f, hf, hs⟩ := List.mem_flatMap.1 hs
      exact ⟨f, hf, ((facet_tris (hP.good f hf)).2 q).2 ⟨s, hs, hq⟩⟩
  have hne : polys ≠ [] := by
    have := hP.four
    rw [hep]
    rcases hF : P.facets with - | ⟨f, fs⟩
    · rw [hF] at this; simp at this
    · simp
  obtain ⟨t, ht⟩ := build_some L.toSplitLaws _ .nil polys hwp (by simp [AllW, all]) le_rfl
  obtain ⟨w, k, hn, -, e⟩ := build_spec L _ .nil polys hwp (by simp [AllW, all]) trivial t ht
  refine ⟨polys, t, fun dbg => ?_, ⟨_, fun n hn => build_mono_le hn ht⟩, hn hne, w, k, fun q => ?_, ⟨_, ht⟩, fun q hq => ?_⟩
  · rw [toPolygons, Res.assert_true dbg hP.four, Res.ok_bind]
    exact polygonsLoop_ok fun f hf => ⟨(hP.good f hf).range, (hP.good f hf).three⟩
  · rw [e, hpts]
    constructor
    · rintro (⟨s, hs, hq⟩ | h)
      · simp [all] at hs
      · exact h
    · exact Or.inr
  · refine build_decides (B := {q | OnFacets3 P q}) hP.separates _ polys [] t true ht ?_ ?_ (fun h => absurd h hne) q (by simp) hq
    · intro x hx
      obtain ⟨f, hf, hpo⟩ := hpart x hx
      exact ⟨hpo.wf, Faces.part hpo (hP.outward f hf), by simp⟩
    · intro q hq _
      exact (hpts q).1 hq

end Verif.Csg
