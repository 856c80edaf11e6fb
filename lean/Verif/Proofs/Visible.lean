import Verif.Proofs.Neighbors
import Verif.Proofs.CellPLC
import Verif.Props.Convex
/- The hull of one process with the points visible from outside. -/
namespace Verif.Nbr
open Verif Verif.Mesh Verif.Geom
section
variable {K : Type} [Field K] [LinearOrder K] [IsStrictOrderedRing K]

omit [LinearOrder K] [IsStrictOrderedRing K] in
theorem pt_vtx {pts : List K} {i : Int} (h0 : 0 ≤ i) (h : i < ((pts.length / 2 : Nat) : Int)) : pt 2 pts i = [(vtx pts i).x, (vtx pts i).y] := by
  have h1 : 2 * i.toNat + 1 < pts.length := by omega
  unfold pt vtx
  simp only [List.getD]
  rw [List.getElem?_eq_getElem h1, List.getElem?_eq_getElem (by omega : 2 * i.toNat < pts.length)]
  rw [List.drop_eq_getElem_cons (by omega : 2 * i.toNat < pts.length), List.drop_eq_getElem_cons h1]
  rfl

omit [LinearOrder K] [IsStrictOrderedRing K] in
theorem vtx_cast (l : List K) {i : Int} (h : 0 ≤ i) : vtx l i = vtx l ((i.toNat : Nat) : Int) := by
  rw [Int.toNat_of_nonneg h]

omit [IsStrictOrderedRing K] in
/-- A cell with the sides of a polygon becomes that polygon. -/
theorem cell_polygon (dbg : Bool) {m : Tess K} (hc : Consistent 2 m) (hp : ∀ F ∈ m.faces, F.length = 2) {i : Nat} (hi : i < m.cells.length) (hl : Editor.ClosedLoop m (cell m i))
    {A : List (V2 K)} (hA : ConvexCCW A) (hs : CellIs m i A) : ∃ c, cellToPLC2 dbg m i = .ok c ∧ IsPolygon c A := by
  have hlen : (cell m i).length = A.length := by
    have := congrArg List.length hs
    simpa [dirSides] using this
  obtain ⟨c, e, h1, h2, h3, _⟩ := cellToPLC2_spec dbg m hc hp i hi (by rw [hlen]; exact hA.1) hl
  have hids : ∀ f ∈ c.facets, f.length = 2 ∧ ∀ k ∈ f, 0 ≤ k ∧ k < ((c.points.length / 2 : Nat) : Int) := by
    intro f hf
    refine ⟨h3.segments f hf, ?_⟩
    have e2 : c.points.length / 2 = (cell m i).length := by omega
    intro k hk
    rw [e2]
    apply (h3.all k).1
    have hl2 := h3.segments f hf
    match f, hl2 with
    | [a, b], _ =>
      rcases List.mem_pair.1 hk with rfl | rfl
      · exact List.mem_map.2 ⟨_, hf, rfl⟩
      · have : k ∈ c.facets.map fun f => f.getD 1 0 := List.mem_map.2 ⟨_, hf, rfl⟩
        rw [h3.chain] at this
        simpa using this
  have hseg : ∀ f ∈ c.facets, facetCoords 2 c.points f = [[(segA c.points f).x, (segA c.points f).y], [(segB c.points f).x, (segB c.points f).y]] := by
    intro f hf
    obtain ⟨hl2, hk⟩ := hids f hf
    match f, hl2 with
    | [a, b], _ =>
      have ha := hk a (by simp)
      have hb := hk b (by simp)
      show [pt 2 c.points a, pt 2 c.points b] = _
      rw [pt_vtx ha.1 ha.2, pt_vtx hb.1 hb.2]
      rfl
  rw [hs] at h1
  have hsides : ∀ e, (∃ f ∈ c.facets, (segA c.points f, segB c.points f) = e) ↔ e ∈ dirSides A := by
    intro e
    constructor
    · rintro ⟨f, hf, rfl⟩
      have : facetCoords 2 c.points f ∈ ((dirSides A).map fun e => [[e.1.x, e.1.y], [e.2.x, e.2.y]]).rotate 1 := by rw [← h1]; exact List.mem_map.2 ⟨f, hf, rfl⟩
      rw [List.mem_rotate, hseg f hf] at this
      obtain ⟨e, he, hee⟩ := List.mem_map.1 this
      simp only [List.cons.injEq, and_true] at hee
      obtain ⟨⟨a1, a2⟩, a3, a4⟩ := hee
      have : e = (segA c.points f, segB c.points f) := Prod.ext (V2.ext a1 a2) (V2.ext a3 a4)
      rw [← this]; exact he
    · intro he
      have : [[e.1.x, e.1.y], [e.2.x, e.2.y]] ∈ c.facets.map (facetCoords 2 c.points) := by
        rw [h1, List.mem_rotate]
        exact List.mem_map.2 ⟨e, he, rfl⟩
      obtain ⟨f, hf, hee⟩ := List.mem_map.1 this
      rw [hseg f hf] at hee
      simp only [List.cons.injEq, and_true] at hee
      obtain ⟨⟨a1, a2⟩, a3, a4⟩ := hee
      exact ⟨f, hf, Prod.ext (V2.ext a1 a2) (V2.ext a3 a4)⟩
  refine ⟨c, e, ⟨by omega, ?_, hids, hsides⟩⟩
  intro v
  constructor
  · intro hv
    obtain ⟨k, hk, rfl⟩ := mem_pts2.1 hv
    have : (k : Int) ∈ c.facets.map fun f => f.getD 0 0 := (h3.all k).2 ⟨by omega, by omega⟩
    obtain ⟨f, hf, hfk⟩ := List.mem_map.1 this
    have := (hsides _).1 ⟨f, hf, rfl⟩
    have h4 := (List.of_mem_zip this).1
    have e3 : segA c.points f = vtx c.points k := by unfold segA; rw [hfk]
    rwa [e3] at h4
  · intro hv
    obtain ⟨u, hu⟩ := exists_side_from hv
    obtain ⟨f, hf, he⟩ := (hsides _).2 hu
    have : segA c.points f = v := congrArg Prod.fst he
    rw [← this]
    obtain ⟨hl2, hk⟩ := hids f hf
    match f, hl2 with
    | [a, b], _ =>
      have ha := hk a (by simp)
      exact mem_pts2.2 ⟨a.toNat, by omega, (vtx_cast c.points ha.1).symm⟩

omit [IsStrictOrderedRing K] [Field K] in
/-- The smallest of finitely many values. -/
theorem exists_least {α : Type} (f : α → K) : ∀ L : List α, L ≠ [] → ∃ a ∈ L, ∀ b ∈ L, f a ≤ f b
  | [], h => absurd rfl h
  | [a], _ => ⟨a, by simp, by simp⟩
  | a :: b :: L, _ => by
    obtain ⟨c, hc, h⟩ := exists_least f (b :: L) (by simp)
    rcases le_total (f a) (f c) with e | e
    · exact ⟨a, by simp, fun x hx => by
        rcases List.mem_cons.1 hx with rfl | hx
        · exact le_refl _
        · exact e.trans (h x hx)⟩
    · exact ⟨c, List.mem_cons_of_mem _ hc, fun x hx => by
        rcases List.mem_cons.1 hx with rfl | hx
        · exact e
        · exact h x hx⟩

theorem closest_lerp {S : List (V2 K)} {P a b : V2 K} (ha : Closest S P a) (hb : Closest S P b) {t : K} (h0 : 0 ≤ t) (h1 : t ≤ 1) : Closest S P (lerp2 a b t) := by
  refine ⟨ha.1, fun Q hQ => ?_⟩
  have e : ∀ X : V2 K, sq2 (lerp2 a b t) X = (1 - t) * sq2 a X + t * sq2 b X - t * (1 - t) * sq2 a b := fun X => by unfold sq2 lerp2; ring
  rw [e, e]
  have := mul_le_mul_of_nonneg_left (ha.2 Q hQ) (sub_nonneg.2 h1)
  have := mul_le_mul_of_nonneg_left (hb.2 Q hQ) h0
  linarith

omit [IsStrictOrderedRing K] in
theorem closest_self [IsStrictOrderedRing K] {S : List (V2 K)} {P : V2 K} (h : P ∈ S) : Closest S P P := by
  refine ⟨h, fun Q _ => ?_⟩
  have e : sq2 P P = 0 := by unfold sq2; ring
  have : 0 ≤ sq2 P Q := by unfold sq2; positivity
  linarith

/-- The way from a point strictly inside a polygon to one that is not reaches the boundary. -/
theorem exists_crossing {B : List (V2 K)} {a b : V2 K} (ha : StrictlyIn B a) (hb : ¬ StrictlyIn B b) :
    ∃ t, 0 ≤ t ∧ t ≤ 1 ∧ InPoly B (lerp2 a b t) ∧ ¬ StrictlyIn B (lerp2 a b t) := by
  have lin : ∀ (e : V2 K × V2 K) t, area2 e.1 e.2 (lerp2 a b t) = (1 - t) * area2 e.1 e.2 a + t * area2 e.1 e.2 b := fun e t => by unfold area2 lerp2; ring
  let L := (dirSides B).filter fun e => decide (area2 e.1 e.2 b ≤ 0)
  have hne : L ≠ [] := by
    unfold StrictlyIn at hb
    push Not at hb
    obtain ⟨e, he, h⟩ := hb
    exact List.ne_nil_of_mem (a := e) (List.mem_filter.2 ⟨he, by simpa using h⟩)
  obtain ⟨e, he, hmin⟩ := exists_least (fun e => area2 e.1 e.2 a / (area2 e.1 e.2 a - area2 e.1 e.2 b)) L hne
  obtain ⟨he, hle⟩ := List.mem_filter.1 he
  simp only [decide_eq_true_eq] at hle
  have hpos := ha e he
  have hd : 0 < area2 e.1 e.2 a - area2 e.1 e.2 b := by linarith
  refine ⟨area2 e.1 e.2 a / (area2 e.1 e.2 a - area2 e.1 e.2 b), (div_pos hpos hd).le, (div_le_one hd).2 (by linarith), fun f hf => ?_, fun h => ?_⟩
  · rw [lin]
    have hp := ha f hf
    by_cases hb : area2 f.1 f.2 b ≤ 0
    · have h1 := hmin f (List.mem_filter.2 ⟨hf, by simpa using hb⟩)
      have hd' : 0 < area2 f.1 f.2 a - area2 f.1 f.2 b := by linarith
      rw [le_div_iff₀ hd'] at h1
      linarith
    · have h0 := (div_pos hpos hd).le
      have h1 : area2 e.1 e.2 a / (area2 e.1 e.2 a - area2 e.1 e.2 b) ≤ 1 := (div_le_one hd).2 (by linarith)
      have := mul_nonneg (sub_nonneg.2 h1) hp.le
      have := mul_nonneg h0 (not_le.1 hb).le
      linarith
  · have := h e he
    rw [lin] at this
    have e2 : area2 e.1 e.2 a / (area2 e.1 e.2 a - area2 e.1 e.2 b) * (area2 e.1 e.2 a - area2 e.1 e.2 b) = area2 e.1 e.2 a := div_mul_cancel₀ _ hd.ne'
    linarith

/-- If the part of a cell that a mesh shows is strictly inside the hull, so is all of the cell. -/
theorem hidden_of_shape {S B A : List (V2 K)} {P : V2 K} (hP : P ∈ S) (hB : ConvexCCW B) (hsub : ∀ v ∈ B, v ∈ S) (hin : ∀ v ∈ S, InPoly B v)
    (hA : ∀ x, Hull2 S x → (InPoly A x ↔ Closest S P x)) (h : ∀ x, InPoly A x → StrictlyIn B x) : Hidden S P := by
  refine ⟨B, hB, hsub, hin, fun x hx => ?_⟩
  by_contra hn
  have hPB : StrictlyIn B P := h P ((hA P (Hull2.pt hP)).2 (closest_self hP))
  obtain ⟨t, h0, h1, h2, h3⟩ := exists_crossing hPB hn
  exact h3 (h _ ((hA _ (hull2_mono hsub ((inPoly_hull hB).1 h2))).2 (closest_lerp (closest_self hP) hx h0 h1)))

theorem exterior_spec (dbg : Bool) {h : RPLC K} {S B : List (V2 K)} (hb : IsPolygon h B) (hB : ConvexCCW B) (hsub : ∀ v ∈ B, v ∈ S) (hin : ∀ v ∈ S, InPoly B v) {m : Tess K}
    (hm : ShowsInside m S (Hull2 S)) :
    ∀ is : List Nat, (∀ i ∈ is, i < S.length) → ∃ r, exterior dbg h m is = .ok r ∧ (∀ i ∈ r, i ∈ is) ∧ ∀ i ∈ is, ∀ P, S[i]? = some P → ¬ Hidden S P → i ∈ r
  | [], _ => ⟨[], rfl, by simp, by simp⟩
  | i :: is, hlt => by
    have hi := hlt i (by simp)
    have hP : S[i]? = some S[i] := List.getElem?_eq_getElem hi
    obtain ⟨A, hA, hs, hx⟩ := hm.shape i _ hP
    obtain ⟨c, ec, hcA⟩ := cell_polygon dbg hm.consistent hm.segments (by rw [hm.cells_len]; exact hi) (hm.loop i hi) hA hs
    obtain ⟨w, ew, hw⟩ := C32_within dbg hcA hb hA
    obtain ⟨r, er, hr1, hr2⟩ := exterior_spec dbg hb hB hsub hin hm is (fun x hx => hlt x (by simp [hx]))
    refine ⟨if w then r else i :: r, ?_, ?_, ?_⟩
    · rw [exterior, ec, Res.ok_bind, ew, Res.ok_bind, er, Res.ok_bind]; rfl
    · intro j
      cases w with
      | true => exact fun hj => List.mem_cons_of_mem _ (hr1 j hj)
      | false =>
        intro hj
        rcases List.mem_cons.1 hj with rfl | hj
        · simp
        · exact List.mem_cons_of_mem _ (hr1 j hj)
    · intro j hj P hjP hn
      rcases List.mem_cons.1 hj with rfl | hj
      · rw [hP] at hjP; cases hjP
        cases w with
        | true => exact absurd (hidden_of_shape (List.getElem_mem hi) hB hsub hin hx (hw.1 rfl)) hn
        | false => simp
      · have := hr2 j hj P hjP hn
        cases w
        · exact List.mem_cons_of_mem _ this
        · exact this

omit [IsStrictOrderedRing K] in
theorem addVisible_spec {points : List K} : ∀ (is : List Nat) (vis : List (V2 K)), (∀ i ∈ is, i < points.length / 2) → vis.Nodup →
    ∃ ex, addVisible points is vis = .ok (vis ++ ex) ∧ (vis ++ ex).Nodup ∧ ∀ v, v ∈ vis ++ ex ↔ v ∈ vis ∨ ∃ i : Nat, i ∈ is ∧ vtx points (i : Int) = v
  | [], vis, _, hn => ⟨[], by simp [addVisible], by simpa using hn, by simp⟩
  | i :: is, vis, h, hn => by
    rw [addVisible, rdV2_vtx (h i (by simp)), Res.ok_bind]
    by_cases hm : vtx points (i : Int) ∈ vis
    · rw [if_pos hm]
      obtain ⟨ex, e, h1, h2⟩ := addVisible_spec is vis (fun x hx => h x (by simp [hx])) hn
      refine ⟨ex, e, h1, fun v => ?_⟩
      rw [h2]
      constructor
      · rintro (h | ⟨j, hj, e⟩)
        · exact Or.inl h
        · exact Or.inr ⟨j, by simp [hj], e⟩
      · rintro (h | ⟨j, hj, rfl⟩)
        · exact Or.inl h
        · rcases List.mem_cons.1 hj with rfl | hj
          · exact Or.inl hm
          · exact Or.inr ⟨j, hj, rfl⟩
    · rw [if_neg hm]
      obtain ⟨ex, e, h1, h2⟩ := addVisible_spec is (vis ++ [vtx points (i : Int)]) (fun x hx => h x (by simp [hx])) (by
        rw [List.nodup_append]
        exact ⟨hn, by simp, fun a ha b hb => by rw [List.mem_singleton.1 hb]; exact fun hh => hm (hh ▸ ha)⟩)
      rw [List.append_assoc] at e h1 h2
      refine ⟨[vtx points (i : Int)] ++ ex, e, h1, fun v => ?_⟩
      rw [h2]
      simp only [List.mem_append, List.mem_cons, List.not_mem_nil, or_false]
      constructor
      · rintro ((h | rfl) | ⟨j, hj, e⟩)
        · exact Or.inl h
        · exact Or.inr ⟨i, Or.inl rfl, rfl⟩
        · exact Or.inr ⟨j, Or.inr hj, e⟩
      · rintro (h | ⟨j, rfl | hj, hv⟩)
        · exact Or.inl (Or.inl h)
        · exact Or.inl (Or.inr hv.symm)
        · exact Or.inr ⟨j, hj, hv⟩

/-- The coordinates of points one after the other. -/
def flatV (vs : List (V2 K)) : List K := vs.flatMap fun p => [p.x, p.y]

omit [LinearOrder K] [IsStrictOrderedRing K] in
theorem flatV_length (vs : List (V2 K)) : (flatV vs).length = 2 * vs.length := by
  induction vs with
  | nil => rfl
  | cons v vs ih =>
    have : flatV (v :: vs) = v.x :: v.y :: flatV vs := rfl
    rw [this]; simp [ih]; omega

omit [LinearOrder K] [IsStrictOrderedRing K] in
theorem flatV_vtx : ∀ (vs : List (V2 K)) (k : Nat) (h : k < vs.length), vtx (flatV vs) (k : Int) = vs[k]
  | v :: vs, 0, _ => rfl
  | v :: vs, k + 1, h => by
    have := flatV_vtx vs k (by simpa using h)
    have e : flatV (v :: vs) = v.x :: v.y :: flatV vs := rfl
    rw [List.getElem_cons_succ, ← this, e]
    unfold vtx
    simp only [Int.toNat_natCast]
    have e1 : 2 * (k + 1) = 2 * k + 1 + 1 := by omega
    have e2 : 2 * (k + 1) + 1 = (2 * k + 1) + 1 + 1 := by omega
    rw [e1]
    simp [List.getD]

omit [LinearOrder K] [IsStrictOrderedRing K] in
theorem pts2_flatV (vs : List (V2 K)) : pts2 (flatV vs) = vs := by
  apply List.ext_getElem
  · simp [pts2, corners, flatV_length]
  · intro k h1 h2
    simp only [pts2, corners, List.getElem_map, List.getElem_range, Nat.zero_add]
    exact flatV_vtx vs k h2

omit [LinearOrder K] [IsStrictOrderedRing K] in
theorem pts2_getElem {l : List K} {k : Nat} (h : k < l.length / 2) : (pts2 l)[k]? = some (vtx l (k : Int)) := by
  simp [pts2, corners, h]

omit [LinearOrder K] [IsStrictOrderedRing K] in
theorem pts2_length (l : List K) : (pts2 l).length = l.length / 2 := by simp [pts2, corners]

/-- What the extended hull of one process provides. -/
structure VisibleOf (h' : RPLC K) (l : List K) : Prop where
  good : GoodHull h'
  left : ∀ f ∈ h'.facets, ∀ v ∈ pts2 l, 0 ≤ area2 (segA h'.points f) (segB h'.points f) v
  sub : ∀ v ∈ pts2 h'.points, v ∈ pts2 l
  nodup : (pts2 h'.points).Nodup
  visible : ∀ v ∈ pts2 l, ¬ Hidden (pts2 l) v → v ∈ pts2 h'.points
  hull : ∀ x, Hull2 (pts2 l) x → Hull2 (pts2 h'.points) x

theorem hull2_trans {S T : List (V2 K)} (h : ∀ v ∈ S, Hull2 T v) {p : V2 K} (hp : Hull2 S p) : Hull2 T p := by
  induction hp with
  | pt hm => exact h _ hm
  | seg _ _ h0 h1 ih1 ih2 => exact Hull2.seg ih1 ih2 h0 h1

omit [IsStrictOrderedRing K] in
theorem polygon_facets {h : RPLC K} {B : List (V2 K)} (hB : ConvexCCW B) (hp : IsPolygon h B) (hone : h.facets.length = 1) : False := by
  obtain ⟨f, hf⟩ := List.length_eq_one_iff.1 hone
  match B, hB with
  | a :: b :: c :: B, hB =>
    have h1 : (a, b) ∈ dirSides (a :: b :: c :: B) := by simp [dirSides]
    have h2 : (b, c) ∈ dirSides (a :: b :: c :: B) := by simp [dirSides]
    obtain ⟨f1, hf1, e1⟩ := (hp.sides _).2 h1
    obtain ⟨f2, hf2, e2⟩ := (hp.sides _).2 h2
    rw [hf, List.mem_singleton] at hf1 hf2
    subst hf1 hf2
    rw [e1] at e2
    injection e2 with e3 e4
    have := hB.2 a b c (by simp)
    subst e3 e4
    simp only [area2] at this
    ring_nf at this
    exact lt_irrefl _ this
  | [], hB => exact absurd hB.1 (by simp)
  | [_], hB => exact absurd hB.1 (by simp)
  | [_, _], hB => exact absurd hB.1 (by simp)

theorem visibleHull_spec (dbg : Bool) {hull : List K → Res (RPLC K)} {serial : List K → Res (Tess K)} {l : List K} (hev : l.length % 2 = 0) (hne : l ≠ []) (hnd : (pts2 l).Nodup)
    {h : RPLC K} (eh : hull l = .ok h) (hh : HullOf h (pts2 l)) {m : Tess K} (em : serial l = .ok m) (hm : h.facets.length ≠ 1 → ShowsInside m (pts2 l) (Hull2 (pts2 l))) :
    ∃ h', visibleHull dbg hull serial l = .ok h' ∧ VisibleOf h' l := by
  have hpos : 0 < l.length := List.length_pos_iff.2 hne
  unfold visibleHull
  rw [Res.assert_true dbg hne, Res.ok_bind, eh, Res.ok_bind]
  cases hh with
  | polygon B hB hp hnodup hsub hin =>
    have hd : hullDim dbg h = .ok 2 := by
      unfold hullDim
      split
      · rename_i f hf
        exact absurd (polygon_facets hB hp (by rw [hf]; rfl)) id
      · rfl
    obtain ⟨ext, e1, h1, h1v⟩ := exterior_spec dbg hp hB hsub hin (hm fun h1 => polygon_facets hB hp h1) (List.range (l.length / 2)) (by simp [pts2_length])
    have e2 : (List.range (h.points.length / 2)).mapM (rdV2 h.points) = .ok (pts2 h.points) := by
      have : pts2 h.points = (List.range (h.points.length / 2)).map fun k : Nat => vtx h.points (k : Int) := by simp [pts2, corners]
      rw [this]
      exact mapM_ok _ fun k hk => rdV2_vtx (by simpa using hk)
    obtain ⟨ex, e3, h2, h3⟩ := addVisible_spec (points := l) ext (pts2 h.points) (by
      intro i hi
      simpa using h1 i hi) hnodup
    rw [hd, Res.ok_bind, em, Res.ok_bind, if_pos rfl, e1, Res.ok_bind, e2, Res.ok_bind, e3, Res.ok_bind]
    refine ⟨{ h with points := flatV (pts2 h.points ++ ex) }, rfl, ?_⟩
    have hlen : (flatV (pts2 h.points ++ ex)).length = 2 * (pts2 h.points ++ ex).length := flatV_length _
    have hll : (pts2 h.points).length = h.points.length / 2 := pts2_length _
    have hP0 := polygon_nonempty hp hB
    have hids : ∀ f ∈ h.facets, f.length = 2 ∧ ∀ i ∈ f, 0 ≤ i ∧ i < (((flatV (pts2 h.points ++ ex)).length / 2 : Nat) : Int) := by
      intro f hf
      obtain ⟨a, b⟩ := hp.ids f hf
      refine ⟨a, fun i hi => ⟨(b i hi).1, ?_⟩⟩
      have := (b i hi).2
      rw [hlen, List.length_append, hll]
      omega
    have hvt : ∀ i : Int, 0 ≤ i → i < ((h.points.length / 2 : Nat) : Int) → vtx (flatV (pts2 h.points ++ ex)) i = vtx h.points i := by
      intro i h0 hi
      have h5 : i.toNat < h.points.length / 2 := by omega
      rw [vtx_cast _ h0, vtx_cast h.points h0, flatV_vtx _ _ (by rw [List.length_append, hll]; omega), List.getElem_append_left (by omega)]
      have := pts2_getElem (l := h.points) h5
      rw [List.getElem?_eq_getElem (by omega)] at this
      exact Option.some.inj this
    constructor
    · refine ⟨?_, ?_, hids⟩
      · show (flatV (pts2 h.points ++ ex)).length % 2 = 0
        rw [hlen]; omega
      · show 0 < (flatV (pts2 h.points ++ ex)).length
        rw [hlen, List.length_append, hll]
        have := hp.even
        omega
    · intro f hf v hv
      show 0 ≤ area2 (segA (flatV (pts2 h.points ++ ex)) f) (segB (flatV (pts2 h.points ++ ex)) f) v
      obtain ⟨a, b⟩ := hp.ids f hf
      match f, a with
      | [i, j], _ =>
        have hi := b i (by simp)
        have hj := b j (by simp)
        show 0 ≤ area2 (vtx (flatV (pts2 h.points ++ ex)) i) (vtx (flatV (pts2 h.points ++ ex)) j) v
        rw [hvt i hi.1 hi.2, hvt j hj.1 hj.2]
        exact hin v hv _ ((hp.sides _).1 ⟨_, hf, rfl⟩)
    · intro v hv
      have hv : v ∈ pts2 h.points ++ ex := by rwa [← pts2_flatV (pts2 h.points ++ ex)]
      rcases (h3 v).1 hv with hv | ⟨i, hi, rfl⟩
      · exact hsub v ((hp.points v).1 hv)
      · exact mem_pts2.2 ⟨i, by simpa using h1 i hi, rfl⟩
    · show (pts2 (flatV (pts2 h.points ++ ex))).Nodup
      rw [pts2_flatV]; exact h2
    · intro v hv hnh
      show v ∈ pts2 (flatV (pts2 h.points ++ ex))
      rw [pts2_flatV, h3]
      obtain ⟨k, hk, rfl⟩ := mem_pts2.1 hv
      exact Or.inr ⟨k, h1v k (by simpa using hk) _ (pts2_getElem hk) hnh, rfl⟩
    · intro x hx
      show Hull2 (pts2 (flatV (pts2 h.points ++ ex))) x
      rw [pts2_flatV]
      refine hull2_trans (fun v hv => hull2_mono (fun w hw => ?_) ((inPoly_hull hB).1 (hin v hv))) hx
      exact List.mem_append_left _ ((hp.points w).2 hw)
  | flat i j hf hi0 hi hj0 hj hcol =>
    obtain ⟨d, hd, hd2⟩ : ∃ d, hullDim dbg h = .ok d ∧ d ≠ 2 := by
      unfold hullDim
      rw [hf]
      refine ⟨if i = j then 0 else 1, ?_, by split <;> simp⟩
      simp only
      rw [Res.assert_true dbg (show [i, j].length = 2 from rfl)]
      rfl
    rw [hd, Res.ok_bind, em, Res.ok_bind, if_neg hd2]
    rw [pts2_length] at hi hj
    refine ⟨{ h with points := l }, rfl, ⟨⟨hev, hpos, ?_⟩, ?_, fun v hv => hv, hnd, fun v hv _ => hv, fun x hx => hx⟩⟩
    · intro f hf'
      have : f = [i, j] := by simpa [hf] using hf'
      subst this
      refine ⟨rfl, fun k hk => ?_⟩
      rcases List.mem_pair.1 hk with rfl | rfl
      · exact ⟨hi0, hi⟩
      · exact ⟨hj0, hj⟩
    · intro f hf' v hv
      have : f = [i, j] := by simpa [hf] using hf'
      subst this
      show 0 ≤ area2 (vtx l i) (vtx l j) v
      rw [hcol _ (mem_pts2.2 ⟨i.toNat, by omega, (vtx_cast l hi0).symm⟩) _ (mem_pts2.2 ⟨j.toNat, by omega, (vtx_cast l hj0).symm⟩) v hv]
end
end Verif.Nbr
