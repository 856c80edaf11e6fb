import Verif.Proofs.Csg3
import Verif.Proofs.Bsp
import Verif.Proofs.Polygon
import Verif.Proofs.Volume
import Mathlib.Data.List.NodupEquivFin
/-
Convex solids: the triangles of a facet, and the tree of a convex solid.
-/
namespace Verif.Csg
open Verif Verif.Geom Verif.Mesh

variable {K : Type} [Field K] [LinearOrder K] [IsStrictOrderedRing K]

/-- The triangles that `v0` makes with the edges between the other corners. -/
def fan (v0 : V3 K) : List (V3 K) → List (List (V3 K))
  | b :: c :: r => [v0, b, c] :: fan v0 (c :: r)
  | _ => []

/-- Any three elements, in their order, turn left. -/
def Left3 (n : V3 K) (l : List (V3 K)) : Prop := ∀ a b c, [a, b, c].Sublist l → 0 < turn n a b c

theorem left3_sub {n : V3 K} {l l' : List (V3 K)} (h : Left3 n l) (hs : l'.Sublist l) : Left3 n l' := fun a b c h' => h a b c (h'.trans hs)

theorem left3_of {n : V3 K} {l : List (V3 K)} (h : ∀ i j k, i < j → j < k → k < l.length → 0 < turn n (l.getD i 0) (l.getD j 0) (l.getD k 0)) : Left3 n l := by
  intro a b c hs
  obtain ⟨f, hf⟩ := List.sublist_iff_exists_fin_orderEmbedding_get_eq.1 hs
  have e0 := hf ⟨0, by simp⟩
  have e1 := hf ⟨1, by simp⟩
  have e2 := hf ⟨2, by simp⟩
  have l1 : f ⟨0, by simp⟩ < f ⟨1, by simp⟩ := f.lt_iff_lt.2 (by simp)
  have l2 : f ⟨1, by simp⟩ < f ⟨2, by simp⟩ := f.lt_iff_lt.2 (by simp)
  have := h _ _ _ l1 l2 (f ⟨2, by simp⟩).2
  simp only [List.get_eq_getElem, List.getElem_cons_zero, List.getElem_cons_succ] at e0 e1 e2
  have g : ∀ x : Fin l.length, l.getD x 0 = l[(x : Nat)] := fun x => by simp [List.getD_eq_getElem?_getD]
  rw [g, g, g, ← e0, ← e1, ← e2] at this
  exact this

/-- The diagonals of a convex quadrilateral meet. -/
theorem quad_meets {n a u b v : V3 K} {w : K} (ha : dot3 n a = w) (hu : dot3 n u = w) (hb : dot3 n b = w) (hv : dot3 n v = w)
    (h1 : 0 < turn n a u b) (h2 : 0 < turn n a u v) (h3 : 0 < turn n a b v) (h4 : 0 < turn n u b v) : Meets (fun x => ∃ r, 0 ≤ r ∧ r ≤ 1 ∧ x = lerp3 a b r) u v := by
  have hn : n ≠ 0 := ne_zero_of_turn h1
  have ta : turn n u a v = -turn n a u v := by simp only [turn, dot3, cross3, V3.sub_x, V3.sub_y, V3.sub_z]; ring
  set x := turn n a u v
  set y := turn n u b v
  have hd : 0 < x + y := by linarith
  set r := x / (x + y) with hr
  have r0 : 0 ≤ r := div_nonneg h2.le hd.le
  have r1 : r ≤ 1 := (div_le_one hd).2 (by linarith)
  have e0 : turn n u (lerp3 a b r) v = 0 := by
    rw [turn_lerp2, ta]
    show (1 - r) * -x + r * y = 0
    rw [hr]; field_simp; ring
  set N : V3 K := V3.scale (-1) (cross3 n (b - a)) with hN
  have hN' : ∀ p, dot3 N p = dot3 N a - turn n a b p := by
    intro p; simp only [hN, turn, dot3, cross3, V3.scale_x, V3.scale_y, V3.scale_z, V3.sub_x, V3.sub_y, V3.sub_z]; ring
  have tm : turn n a b (lerp3 a b r) = 0 := by rw [turn_lerp3, turn_same3, turn_same2]; ring
  have tu : turn n a b u = -turn n a u b := turn_swap _ _ _ _
  obtain ⟨s, s0, s1, e⟩ := on_segment (N := N) hn hu hv (m := lerp3 a b r) (by rw [dot_lerp, ha, hb]; ring) e0
    (by rw [hN' v, hN' (lerp3 a b r), tm]; linarith) (by rw [hN' u, hN' (lerp3 a b r), tm, tu]; linarith) (by rw [hN' v, hN' u, tu]; linarith)
  exact ⟨s, s0, s1, r, r0, r1, e⟩

/-- A convex polygon is made up of the triangles of its fan. -/
theorem fan_hull {n v0 : V3 K} {w : K} : ∀ {vs : List (V3 K)}, 2 ≤ vs.length → (∀ v ∈ v0 :: vs, dot3 n v = w) → Left3 n (v0 :: vs) → ∀ {q : V3 K},
    Hull3 (v0 :: vs) q ↔ ∃ t ∈ fan v0 vs, Hull3 t q
  | [], h, _, _, _ => absurd h (by simp)
  | [_], h, _, _, _ => absurd h (by simp)
  | [b, c], _, _, _, q => by simp [fan]
  | b :: c :: d :: r, _, hp, hc, q => by
    have ih := fan_hull (n := n) (v0 := v0) (w := w) (vs := c :: d :: r) (by simp) (fun v hv => hp v (by simp only [List.mem_cons] at hv ⊢; tauto))
      (left3_sub hc (by simp)) (q := q)
    rw [fan, List.exists_mem_cons_iff, ← ih]
    constructor
    · intro hq
      have hM : ∀ q, (∃ r, 0 ≤ r ∧ r ≤ 1 ∧ q = lerp3 v0 c r) → Hull3 [v0, b, c] q ∧ Hull3 (v0 :: c :: d :: r) q := by
        rintro q ⟨t, t0, t1, rfl⟩
        exact ⟨.seg (.pt (by simp)) (.pt (by simp)) t0 t1, .seg (.pt (by simp)) (.pt (by simp)) t0 t1⟩
      have end0 : ∀ v, Meets (fun x => ∃ r, 0 ≤ r ∧ r ≤ 1 ∧ x = lerp3 v0 c r) v0 v := fun v => ⟨0, le_rfl, zero_le_one, 0, le_rfl, zero_le_one, by rw [lerp3_zero, lerp3_zero]⟩
      have lone : ∀ a b : V3 K, lerp3 a b 1 = b := fun a b => by ext <;> simp [lerp3]
      have endc : ∀ v, Meets (fun x => ∃ r, 0 ≤ r ∧ r ≤ 1 ∧ x = lerp3 v0 c r) c v := fun v => ⟨0, le_rfl, zero_le_one, 1, zero_le_one, le_rfl, by rw [lerp3_zero, lone]⟩
      refine hull_cover (l := v0 :: b :: c :: d :: r) (M := fun x => ∃ r, 0 ≤ r ∧ r ≤ 1 ∧ x = lerp3 v0 c r) ?_ (fun q h => (hM q h).1) (fun q h => (hM q h).2) ?_ ?_ hq
      · rintro p q t ⟨s, s0, s1, rfl⟩ ⟨s', s0', s1', rfl⟩ t0 t1
        refine ⟨(1 - t) * s + t * s', conv_nonneg t0 t1 s0 s0', by nlinarith, ?_⟩
        ext <;> simp only [lerp3] <;> ring
      · intro v hv
        simp only [List.mem_cons] at hv ⊢
        tauto
      · intro u hu v hv
        simp only [List.mem_cons, List.not_mem_nil, or_false] at hu
        rcases hu with rfl | rfl | rfl
        · exact end0 v
        · rcases List.mem_cons.1 hv with rfl | hv
          · exact meets_swap (end0 _)
          · rcases List.mem_cons.1 hv with rfl | hv
            · exact meets_swap (endc _)
            · have s1 : [v].Sublist (d :: r) := List.singleton_sublist.2 hv
              refine quad_meets (n := n) (w := w) (hp _ (by simp)) (hp _ (by simp)) (hp _ (by simp)) (hp v (by simp only [List.mem_cons] at hv ⊢; tauto)) ?_ ?_ ?_ ?_
              · exact hc _ _ _ (by simp)
              · exact hc _ _ _ (((s1.cons c).cons_cons u).cons_cons v0)
              · exact hc _ _ _ (((s1.cons_cons c).cons u).cons_cons v0)
              · exact hc _ _ _ (((s1.cons_cons c).cons_cons u).cons v0)
        · exact endc v
    · rintro (h | h)
      · refine hull_mono (fun v hv => .pt ?_) h
        simp only [List.mem_cons, List.not_mem_nil, or_false] at hv ⊢; tauto
      · refine hull_mono (fun v hv => .pt ?_) h
        simp only [List.mem_cons] at hv ⊢; tauto

/-- The triangles of the fan: their corners, in their order. -/
theorem fan_sub {v0 : V3 K} : ∀ {vs : List (V3 K)} {t : List (V3 K)}, t ∈ fan v0 vs → ∃ b c, t = [v0, b, c] ∧ [b, c].Sublist vs
  | [], _, h => absurd h (by simp [fan])
  | [_], _, h => absurd h (by simp [fan])
  | b :: c :: r, t, h => by
    rw [fan, List.mem_cons] at h
    rcases h with rfl | h
    · exact ⟨b, c, rfl, by simp⟩
    · obtain ⟨b', c', e, h⟩ := fan_sub h
      exact ⟨b', c', e, h.cons b⟩
/-! ### Facets -/

omit [LinearOrder K] [IsStrictOrderedRing K] in
theorem rdV3_vtx {v : List K} {i : Int} (h : 3 * i.toNat + 2 < v.length) : rdV3 v i.toNat = .ok (coord3 v i) := by
  unfold rdV3
  rw [rd_getD (by omega) 0, rd_getD (by omega) 0, rd_getD h 0]
  rfl

omit [LinearOrder K] [IsStrictOrderedRing K] in
theorem facetTriangles_ok {v : List K} {k1 : Int} (h1 : 0 ≤ k1 ∧ 3 * k1.toNat + 2 < v.length) : ∀ {ks : List Int}, (∀ i ∈ ks, 0 ≤ i ∧ 3 * i.toNat + 2 < v.length) →
    facetTriangles v k1 ks = .ok ((fan (coord3 v k1) (ks.map (coord3 v))).map Poly.of)
  | [], _ => rfl
  | [_], _ => rfl
  | k2 :: k3 :: ks, h => by
    have h2 := h k2 (by simp)
    have h3 := h k3 (by simp)
    rw [facetTriangles, if_neg (by omega), rdV3_vtx h1.2, Res.ok_bind, rdV3_vtx h2.2, Res.ok_bind, rdV3_vtx h3.2, Res.ok_bind,
      facetTriangles_ok h1 (ks := k3 :: ks) fun i hi => h i (by simp only [List.mem_cons] at hi ⊢; tauto), Res.ok_bind]
    simp [fan]

/-- The triangles of a facet, the first and the others. -/
def firstTri (P : RPLC K) (f : List Int) : Poly K := Poly.of [(corners P f).getD 0 0, (corners P f).getD 1 0, (corners P f).getD 2 0]
def otherTris (P : RPLC K) (f : List Int) : List (Poly K) := (fan ((corners P f).getD 0 0) ((corners P f).drop 2)).map Poly.of

omit [LinearOrder K] [IsStrictOrderedRing K] in
theorem polygonsLoop_ok {P : RPLC K} {dbg : Bool} : ∀ {fs : List (List Int)}, (∀ f ∈ fs, (∀ i ∈ f, 0 ≤ i ∧ 3 * i.toNat + 2 < P.points.length) ∧ 3 ≤ f.length) →
    polygonsLoop dbg P.points fs = .ok (fs.flatMap fun f => firstTri P f :: otherTris P f)
  | [], _ => rfl
  | f :: fs, h => by
    obtain ⟨hr, h3⟩ := h f (by simp)
    match f, h3 with
    | k1 :: k2 :: k3 :: ks, h3 =>
      rw [polygonsLoop, Res.assert_true dbg h3, Res.ok_bind]
      rw [facetTriangles_ok (hr k1 (by simp)) fun i hi => hr i (by simp only [List.mem_cons] at hi ⊢; tauto), Res.ok_bind,
        polygonsLoop_ok fun f hf => h f (by simp only [List.mem_cons]; tauto), Res.ok_bind]
      · simp [fan, firstTri, otherTris, corners]
      · exact fun h => by cases h

omit [LinearOrder K] [IsStrictOrderedRing K] in
theorem above_plane {P : RPLC K} (f : List Int) (q : V3 K) : dot3 (firstTri P f).plane.normal q - (firstTri P f).plane.w = above P f q := by
  simp only [firstTri, Poly.of, Plane.of, above, dot3, V3.sub_x, V3.sub_y, V3.sub_z]; ring

omit [LinearOrder K] [IsStrictOrderedRing K] in
/-- The corners of a facet in a list. -/
theorem corners_cons {P : RPLC K} {f : List Int} (h : 3 ≤ f.length) : ∃ a b c r, corners P f = a :: b :: c :: r := by
  match f, h with
  | k1 :: k2 :: k3 :: ks, _ => exact ⟨_, _, _, _, rfl⟩

theorem facet_tris {P : RPLC K} {f : List Int} (hf : GoodFacet P f) :
    (∀ x ∈ firstTri P f :: otherTris P f, PolyW x ∧ ∃ a b c, x.verts = [a, b, c] ∧ [a, b, c].Sublist (corners P f))
    ∧ ∀ q, Hull3 (corners P f) q ↔ ∃ x ∈ firstTri P f :: otherTris P f, Hull3 x.verts q := by
  obtain ⟨a, b, c, r, e⟩ := corners_cons (P := P) hf.three
  have hl : (corners P f).length = f.length := by simp [corners]
  have hfirst : firstTri P f = Poly.of [a, b, c] := by simp [firstTri, e]
  have hother : otherTris P f = (fan a (c :: r)).map Poly.of := by simp [otherTris, e]
  set n := cross3 (b - a) (c - a) with hn
  have en : cross3 ((corners P f).getD 1 0 - (corners P f).getD 0 0) ((corners P f).getD 2 0 - (corners P f).getD 0 0) = n := by simp [e, hn]
  have hpl : ∀ v ∈ a :: b :: c :: r, dot3 n v = dot3 n a := by
    intro v hv
    have := hf.planar v (by rw [e]; exact hv)
    rw [above, en, show (corners P f).getD 0 0 = a by simp [e]] at this
    have e' : dot3 n (v - a) = dot3 n v - dot3 n a := by simp only [dot3, V3.sub_x, V3.sub_y, V3.sub_z]; ring
    linarith
  have hL : Left3 n (a :: b :: c :: r) := by
    rw [← e]
    refine left3_of fun i j k h1 h2 h3 => ?_
    have := hf.convex i j k h1 h2 (by omega)
    rwa [en] at this
  have htri : ∀ {x y z}, [x, y, z].Sublist (a :: b :: c :: r) → PolyW (Poly.of [x, y, z]) := by
    intro x y z hs
    refine polyW_of (n := n) (w := dot3 n a) (by simp) (fun v hv => hpl v (hs.subset hv)) ?_
    intro i j k hij hjk hk
    have hk : k < 3 := hk
    obtain ⟨rfl, rfl, rfl⟩ : i = 0 ∧ j = 1 ∧ k = 2 := by omega
    exact hL _ _ _ hs
  have hs0 : [a, b, c].Sublist (a :: b :: c :: r) := by simp
  constructor
  · intro x hx
    rw [hfirst, hother, e] at *
    rcases List.mem_cons.1 hx with rfl | hx
    · exact ⟨htri hs0, a, b, c, rfl, hs0⟩
    · obtain ⟨t, ht, rfl⟩ := List.mem_map.1 hx
      obtain ⟨b', c', rfl, hs⟩ := fan_sub ht
      have hs' : [a, b', c'].Sublist (a :: b :: c :: r) := (hs.cons b).cons_cons a
      exact ⟨htri hs', a, b', c', rfl, hs'⟩
  · intro q
    rw [hfirst, hother, e, fan_hull (n := n) (w := dot3 n a) (by simp) hpl hL, fan]
    have ev : ∀ t : List (V3 K), (Poly.of t).verts = t := fun _ => rfl
    simp only [List.mem_cons, exists_eq_or_imp, List.mem_map, exists_exists_and_eq_and, ev]

/-! ### The tree of a convex solid -/

theorem solidTree {eps : K} (h0 : 0 ≤ eps) {P : RPLC K} (hP : ConvexSolid eps P) :
    ∃ polys t, (∀ dbg, toPolygons dbg P.points P.facets = .ok polys) ∧ (∃ N, ∀ n, N ≤ n → build (polyOps eps) n .nil polys = some t) ∧ t ≠ .nil
      ∧ AllW (polyOps eps) PolyW t ∧ AllOk (polyOps eps) t ∧ (∀ q, q ∈ (polyGeo eps).points (all t) ↔ OnFacets3 P q)
      ∧ ∀ q, (In (polyOps eps) (polyGeo eps) true t q ↔ Inside3 eps P q) ∧ (Out (polyOps eps) (polyGeo eps) true t q ↔ Outside3 eps P q) := by
  have L := polyLaws h0
  set gs := P.facets.map fun f => (firstTri P f, otherTris P f) with hgs
  have hw : ∀ g ∈ gs, PolyW g.1 ∧ ∀ e ∈ g.2, PolyW e := by
    intro g hg
    obtain ⟨f, hf, rfl⟩ := List.mem_map.1 hg
    have := (facet_tris (hP.good f hf)).1
    exact ⟨(this _ (by simp)).1, fun e he => (this e (by simp [he])).1⟩
  have hco : ∀ g ∈ gs, ∀ x ∈ g.2, ((polyOps eps).split ((polyOps eps).plane g.1) x).front = [] ∧ ((polyOps eps).split ((polyOps eps).plane g.1) x).back = [] := by
    intro g hg x hx
    obtain ⟨f, hf, rfl⟩ := List.mem_map.1 hg
    obtain ⟨-, a, b, c, ev, hs⟩ := (facet_tris (hP.good f hf)).1 x (by simp only [List.mem_cons]; exact Or.inr hx)
    have hz : ∀ v ∈ x.verts, dot3 (firstTri P f).plane.normal v - (firstTri P f).plane.w = 0 := by
      intro v hv; rw [above_plane]; exact (hP.good f hf).planar v (hs.subset (by rw [← ev]; exact hv))
    show (splitPoly eps (firstTri P f).plane x).front = [] ∧ (splitPoly eps (firstTri P f).plane x).back = []
    have hv : x.verts ≠ [] := by simp [ev]
    rcases splitPoly_cases h0 (firstTri P f).plane x with ⟨h | h, -⟩ | ⟨-, -, v, hv, h⟩ | ⟨-, -, v, hv, h⟩ | ⟨i, j, hi, hj, ci, cj, h⟩
    · simp [h]
    · simp [h]
    · rw [hz v hv] at h; linarith
    · rw [hz v hv] at h; linarith
    · rcases vcls_cases h0 (firstTri P f).plane x.verts i with ⟨h', -⟩ | ⟨-, h'⟩ | ⟨h', -⟩
      · omega
      · rw [hz _ (cyc_mem hv i)] at h'; linarith
      · omega
  have hpw : gs.Pairwise (fun g g' => ∀ x ∈ g'.1 :: g'.2, ((polyOps eps).split ((polyOps eps).plane g.1) x).front = [] ∧ ((polyOps eps).split ((polyOps eps).plane g.1) x).back = [x]) := by
    rw [hgs, List.pairwise_map]
    refine (List.Pairwise.and_mem.1 hP.behind).imp ?_
    rintro f g ⟨hf, hg, h1, h2⟩ x hx
    obtain ⟨-, a, b, c, ev, hs⟩ := (facet_tris (hP.good g hg)).1 x hx
    have hle : ∀ v ∈ x.verts, dot3 (firstTri P f).plane.normal v - (firstTri P f).plane.w ≤ 0 := by
      intro v hv; rw [above_plane]; exact h1 v (hs.subset (by rw [← ev]; exact hv))
    have hlt : ∃ v ∈ x.verts, dot3 (firstTri P f).plane.normal v - (firstTri P f).plane.w < -eps := by
      obtain ⟨φ, hφ⟩ := List.sublist_iff_exists_fin_orderEmbedding_get_eq.1 hs
      have e0 := hφ ⟨0, by simp⟩
      have e1 := hφ ⟨1, by simp⟩
      have e2 := hφ ⟨2, by simp⟩
      have l1 : φ ⟨0, by simp⟩ < φ ⟨1, by simp⟩ := φ.lt_iff_lt.2 (by simp)
      have l2 : φ ⟨1, by simp⟩ < φ ⟨2, by simp⟩ := φ.lt_iff_lt.2 (by simp)
      have := h2 _ _ _ l1 l2 (by have := (φ ⟨2, by simp⟩).2; simpa [corners] using this)
      simp only [List.get_eq_getElem, List.getElem_cons_zero, List.getElem_cons_succ] at e0 e1 e2
      have g' : ∀ x : Fin (corners P g).length, (corners P g).getD x 0 = (corners P g)[(x : Nat)] := fun x => by simp [List.getD_eq_getElem?_getD]
      rw [g', g', g', ← e0, ← e1, ← e2] at this
      simp only [above_plane, ev]
      rcases this with h | h | h
      · exact ⟨a, by simp, h⟩
      · exact ⟨b, by simp, h⟩
      · exact ⟨c, by simp, h⟩
    show (splitPoly eps (firstTri P f).plane x).front = [] ∧ (splitPoly eps (firstTri P f).plane x).back = [x]
    have hv : x.verts ≠ [] := by simp [ev]
    obtain ⟨u, hu, hu'⟩ := hlt
    rcases splitPoly_cases h0 (firstTri P f).plane x with ⟨-, h⟩ | ⟨-, h, -⟩ | ⟨h, -⟩ | ⟨i, j, hi, hj, ci, cj, h⟩
    · linarith [(h u hu).1]
    · linarith [h u hu]
    · simp [h]
    · rcases vcls_cases h0 (firstTri P f).plane x.verts i with ⟨h', -⟩ | ⟨-, h'⟩ | ⟨h', -⟩
      · omega
      · linarith [hle _ (cyc_mem hv i)]
      · omega
  obtain ⟨t, ht, hq⟩ := convex_groups L gs hw hco hpw
  set polys := gs.flatMap fun g => g.1 :: g.2 with hpolys
  have hep : polys = P.facets.flatMap fun f => firstTri P f :: otherTris P f := by rw [hpolys, hgs, List.flatMap_map]
  have hwp : ∀ e ∈ polys, PolyW e := by
    intro e he
    obtain ⟨g, hg, he⟩ := List.mem_flatMap.1 he
    rcases List.mem_cons.1 he with rfl | he
    · exact (hw g hg).1
    · exact (hw g hg).2 e he
  obtain ⟨w, k, hn, -, e⟩ := build_spec L _ .nil polys hwp (by simp [AllW, all]) trivial t ht
  have hne : polys ≠ [] := by
    have := hP.four
    rw [hep]
    rcases hF : P.facets with - | ⟨f, fs⟩
    · rw [hF] at this; simp at this
    · simp
  have htn : t ≠ .nil := hn hne
  refine ⟨polys, t, fun dbg => ?_, ⟨gs.length, fun n hn => build_mono_le hn ht⟩, htn, w, k, fun q => ?_, fun q => ?_⟩
  · rw [toPolygons, Res.assert_true dbg hP.four, Res.ok_bind, hep]
    exact polygonsLoop_ok fun f hf => ⟨(hP.good f hf).range, (hP.good f hf).three⟩
  · rw [e, hep]
    constructor
    · rintro (⟨s, hs, hq⟩ | ⟨s, hs, hq⟩)
      · simp [all] at hs
      · obtain ⟨f, hf, hs⟩ := List.mem_flatMap.1 hs
        exact ⟨f, hf, ((facet_tris (hP.good f hf)).2 q).2 ⟨s, hs, hq⟩⟩
    · rintro ⟨f, hf, hq⟩
      obtain ⟨x, hx, hq⟩ := ((facet_tris (hP.good f hf)).2 q).1 hq
      exact Or.inr ⟨x, List.mem_flatMap.2 ⟨f, hf, hx⟩, hq⟩
  · rw [in_root htn true false, out_root htn true false, (hq q).1, (hq q).2]
    have hpl : ∀ f, (polyGeo eps).side ((polyOps eps).plane (firstTri P f)) q = above P f q := fun f => above_plane f q
    have he : (polyGeo eps).eps = eps := rfl
    constructor
    · simp only [hgs, List.forall_mem_map, hpl, he, Inside3]
    · simp only [hgs, List.mem_map, exists_exists_and_eq_and, hpl, he, Outside3]

end Verif.Csg
