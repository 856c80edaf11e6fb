import Verif.Proofs.Visible
import Verif.Props.Exchange
import Mathlib.Data.List.ProdSigma
/- C77: the choice of the processes with which generators are exchanged. -/
namespace Verif.Nbr
open Verif Verif.Mesh Verif.Geom
section
variable {K : Type} [Field K] [LinearOrder K] [IsStrictOrderedRing K]

/-- A run on sensible input: every process has points, all different, `hull` and `serial` return the hull of its points and a mesh that, inside this hull, shows their
Voronoi cells, and `all` a mesh of the visible points in which cells that touch somewhere in `Dom` have a common node. -/
structure Setup (dbg : Bool) (hull : List K → Res (RPLC K)) (serial all : List K → Res (Tess K)) (points : List (List K)) (Dom : V2 K → Prop) : Prop where
  few : points.length < 2 ^ 31
  even : ∀ l ∈ points, l.length % 2 = 0
  some : ∀ l ∈ points, l ≠ []
  distinct : (allPts points).Nodup
  hull_ok : ∀ l ∈ points, ∃ h, hull l = .ok h ∧ HullOf h (pts2 l)
  serial_ok : ∀ l ∈ points, ∃ m, serial l = .ok m ∧ ((∃ u ∈ pts2 l, ∃ v ∈ pts2 l, ∃ w ∈ pts2 l, area2 u v w ≠ 0) → ShowsInside m (pts2 l) (Hull2 (pts2 l)))
  all_ok : ∀ hulls, points.mapM (visibleHull dbg hull serial) = .ok hulls → ∃ m, all (hulls.flatMap (·.points)) = .ok m ∧ Consistent 2 m ∧
    m.cells.length = (hulls.flatMap (·.points)).length / 2 ∧ Adjacent m (pts2 (hulls.flatMap (·.points))) Dom

omit [IsStrictOrderedRing K] in
theorem polygon_noncol {S B : List (V2 K)} (hB : ConvexCCW B) (hs : ∀ v ∈ B, v ∈ S) : ∃ u ∈ S, ∃ v ∈ S, ∃ w ∈ S, area2 u v w ≠ 0 := by
  match B, hB with
  | a :: b :: c :: B, hB => exact ⟨a, hs a (by simp), b, hs b (by simp), c, hs c (by simp), (hB.2 a b c (by simp)).ne'⟩
  | [], hB => exact absurd hB.1 (by simp)
  | [_], hB => exact absurd hB.1 (by simp)
  | [_, _], hB => exact absurd hB.1 (by simp)

theorem mapM_exists {α β : Type} {g : α → Res β} {P : α → β → Prop} : ∀ (l : List α), (∀ a ∈ l, ∃ b, g a = .ok b ∧ P a b) →
    ∃ r, l.mapM g = .ok r ∧ r.length = l.length ∧ ∀ (i : Nat) a b, l[i]? = some a → r[i]? = some b → P a b
  | [], _ => ⟨[], rfl, rfl, by simp⟩
  | a :: l, h => by
    obtain ⟨b, e, hb⟩ := h a (by simp)
    obtain ⟨r, e', hl, hr⟩ := mapM_exists l (fun x hx => h x (by simp [hx]))
    refine ⟨b :: r, by rw [List.mapM_cons, e, Res.ok_bind, e', Res.ok_bind]; rfl, by simp [hl], ?_⟩
    intro i x y hx hy
    cases i with
    | zero => simp only [List.getElem?_cons_zero, Option.some.injEq] at hx hy; subst hx hy; exact hb
    | succ i => exact hr i x y (by simpa using hx) (by simpa using hy)

omit [LinearOrder K] [IsStrictOrderedRing K] in
theorem pts2_append {a : List K} (h : a.length % 2 = 0) (b : List K) : pts2 (a ++ b) = pts2 a ++ pts2 b := by
  apply List.ext_getElem?
  intro k
  have hl : (a ++ b).length / 2 = a.length / 2 + b.length / 2 := by rw [List.length_append]; omega
  by_cases hk : k < a.length / 2
  · rw [pts2_getElem (by omega), List.getElem?_append_left (by rw [pts2_length]; exact hk), pts2_getElem hk]
    unfold vtx
    simp only [Int.toNat_natCast, List.getD]
    rw [List.getElem?_append_left (by omega), List.getElem?_append_left (by omega)]
  · rw [List.getElem?_append_right (by rw [pts2_length]; omega), pts2_length]
    by_cases hk2 : k < (a ++ b).length / 2
    · rw [pts2_getElem hk2, pts2_getElem (by omega)]
      unfold vtx
      simp only [Int.toNat_natCast, List.getD]
      rw [List.getElem?_append_right (by omega), List.getElem?_append_right (by omega)]
      have e1 : 2 * k - a.length = 2 * (k - a.length / 2) := by omega
      have e2 : 2 * k + 1 - a.length = 2 * (k - a.length / 2) + 1 := by omega
      rw [e1, e2]
    · rw [List.getElem?_eq_none (by rw [pts2_length]; omega), List.getElem?_eq_none (by rw [pts2_length]; omega)]

omit [LinearOrder K] [IsStrictOrderedRing K] in
theorem pts2_flatMap {hulls : List (RPLC K)} (h : ∀ x ∈ hulls, x.points.length % 2 = 0) : pts2 (hulls.flatMap (·.points)) = hulls.flatMap fun x => pts2 x.points := by
  induction hulls with
  | nil => simp [pts2, corners]
  | cons a l ih => rw [List.flatMap_cons, pts2_append (h a (by simp)), ih (fun x hx => h x (by simp [hx])), List.flatMap_cons]

omit [LinearOrder K] [IsStrictOrderedRing K] in
/-- A point of hull `p` is one of the points of all hulls, at a number that belongs to `p`. -/
theorem owns_of_mem : ∀ {hulls : List (RPLC K)} {p : Nat} {a : RPLC K} {v : V2 K}, hulls[p]? = some a → v ∈ pts2 a.points →
    ∃ i, Owns hulls p i ∧ (hulls.flatMap fun x => pts2 x.points)[i]? = some v
  | h :: hulls, 0, a, v, hp, hv => by
    simp only [List.getElem?_cons_zero, Option.some.injEq] at hp
    subst hp
    obtain ⟨k, hk, rfl⟩ := mem_pts2.1 hv
    refine ⟨k, ⟨by simp, by simpa using hk⟩, ?_⟩
    rw [List.flatMap_cons, List.getElem?_append_left (by rw [pts2_length]; exact hk), pts2_getElem hk]
  | h :: hulls, p + 1, a, v, hp, hv => by
    obtain ⟨i, ⟨h1, h2⟩, h3⟩ := owns_of_mem (hulls := hulls) (p := p) (by simpa using hp) hv
    refine ⟨h.points.length / 2 + i, ⟨by simp only [List.take_succ_cons, List.map_cons, List.sum_cons]; omega, ?_⟩, ?_⟩
    · rw [List.take_succ_cons, List.map_cons, List.sum_cons]; omega
    · rw [List.flatMap_cons, List.getElem?_append_right (by rw [pts2_length]; omega), pts2_length, Nat.add_sub_cancel_left]; exact h3

/-- What a run has computed before the last step. -/
theorem setup_run {dbg : Bool} {hull : List K → Res (RPLC K)} {serial all : List K → Res (Tess K)} {points : List (List K)} {Dom : V2 K → Prop} (hs : Setup dbg hull serial all points Dom) :
    ∃ hulls m, hulls.length = points.length ∧ (∀ (i : Nat) l h, points[i]? = some l → hulls[i]? = some h → VisibleOf h l) ∧ Consistent 2 m ∧
      m.cells.length = (hulls.map fun h => h.points.length / 2).sum ∧ Adjacent m (hulls.flatMap fun h => pts2 h.points) Dom ∧
      ∀ p, domainNeighbors dbg hull serial all points p = neighborsIn dbg hulls m p := by
  obtain ⟨hulls, e, hl, hv⟩ := mapM_exists (P := fun l h => VisibleOf h l) points (g := visibleHull dbg hull serial) (by
    intro l hlm
    obtain ⟨h, eh, hh⟩ := hs.hull_ok l hlm
    obtain ⟨m, em, hm⟩ := hs.serial_ok l hlm
    refine visibleHull_spec dbg (hs.even l hlm) (hs.some l hlm) ?_ eh hh em (fun hn => hm ?_)
    · exact (List.nodup_flatMap.1 hs.distinct).1 l hlm
    · cases hh with
      | polygon B hB _ _ hsub _ => exact polygon_noncol hB hsub
      | flat i j hf => exact absurd (by rw [hf]; rfl) hn)
  have hev : ∀ x ∈ hulls, x.points.length % 2 = 0 := by
    intro x hx
    obtain ⟨i, hi, rfl⟩ := List.mem_iff_getElem.1 hx
    exact (hv i _ _ (List.getElem?_eq_getElem (by omega)) (List.getElem?_eq_getElem hi)).good.even
  obtain ⟨m, em, h1, h2, h3⟩ := hs.all_ok hulls e
  refine ⟨hulls, m, hl, hv, h1, ?_, ?_, ?_⟩
  · rw [h2]
    clear h2 h3 em e hl hv
    induction hulls with
    | nil => simp
    | cons a l ih =>
      have := ih fun x hx => hev x (by simp [hx])
      have := hev a (by simp)
      rw [List.flatMap_cons, List.length_append, List.map_cons, List.sum_cons]
      omega
  · rwa [pts2_flatMap hev] at h3
  · intro p
    unfold domainNeighbors
    rw [e, Res.ok_bind, em, Res.ok_bind]

/-! ### C77 -/

/-- C77. From hulls and a mesh, each process computes exactly the processes whose hull is not outside its own (or the other way round) or that have a cell touching one of its own: without
failure, in increasing order. -/
theorem C77_exact (dbg : Bool) {hulls : List (RPLC K)} {m : Tess K} (hn : hulls.length < 2 ^ 31) (hg : ∀ h ∈ hulls, GoodHull h) (hc : Consistent 2 m)
    (hcells : m.cells.length = (hulls.map fun h => h.points.length / 2).sum) {p : Nat} (hp : p < hulls.length) :
    ∃ l, neighborsIn dbg hulls m p = .ok l ∧ l.Pairwise (· < ·) ∧ ∀ q, q ∈ l ↔ q < hulls.length ∧ q ≠ p ∧ Linked hulls m p q :=
  neighborsIn_spec dbg hn hg hc hcells hp

/-- C77. Being neighbours is symmetric: a process is in the list of every process in its list. No process is its own neighbour, and no list has a repetition. -/
theorem C77_symmetric {dbg : Bool} {hull : List K → Res (RPLC K)} {serial all : List K → Res (Tess K)} {points : List (List K)} {Dom : V2 K → Prop}
    (hs : Setup dbg hull serial all points Dom) :
    ∃ nb : Nat → List Nat, ∀ p, p < points.length → domainNeighbors dbg hull serial all points p = .ok (nb p) ∧ (nb p).Pairwise (· < ·) ∧
      ∀ q ∈ nb p, q < points.length ∧ q ≠ p ∧ p ∈ nb q := by
  obtain ⟨hulls, m, hl, hv, hc, hcells, _, hrun⟩ := setup_run hs
  have hg : ∀ h ∈ hulls, GoodHull h := by
    intro h hh
    obtain ⟨i, hi, rfl⟩ := List.mem_iff_getElem.1 hh
    exact (hv i _ _ (List.getElem?_eq_getElem (by omega)) (List.getElem?_eq_getElem hi)).good
  choose! nb h1 h2 h3 using fun p (hp : p < hulls.length) => neighborsIn_spec dbg (by rw [hl]; exact hs.few) hg hc hcells hp
  refine ⟨nb, fun p hp => ⟨by rw [hrun, h1 p (by omega)], h2 p (by omega), fun q hq => ?_⟩⟩
  obtain ⟨a, b, c⟩ := (h3 p (by omega) q).1 hq
  exact ⟨by omega, b, (h3 q a p).2 ⟨by omega, b.symm, linked_symm c⟩⟩

theorem linked_mem {dbg : Bool} {hull : List K → Res (RPLC K)} {serial all : List K → Res (Tess K)} {points : List (List K)} {Dom : V2 K → Prop}
    (hs : Setup dbg hull serial all points Dom) :
    ∃ hulls m, hulls.length = points.length ∧ (∀ (i : Nat) l h, points[i]? = some l → hulls[i]? = some h → VisibleOf h l) ∧ Adjacent m (hulls.flatMap fun h => pts2 h.points) Dom ∧
      ∀ p, p < points.length → ∃ l, domainNeighbors dbg hull serial all points p = .ok l ∧ ∀ q, q ∈ l ↔ q < points.length ∧ q ≠ p ∧ Linked hulls m p q := by
  obtain ⟨hulls, m, hl, hv, hc, hcells, ha, hrun⟩ := setup_run hs
  have hg : ∀ h ∈ hulls, GoodHull h := by
    intro h hh
    obtain ⟨i, hi, rfl⟩ := List.mem_iff_getElem.1 hh
    exact (hv i _ _ (List.getElem?_eq_getElem (by omega)) (List.getElem?_eq_getElem hi)).good
  refine ⟨hulls, m, hl, hv, ha, fun p hp => ?_⟩
  obtain ⟨l, h1, _, h3⟩ := neighborsIn_spec dbg (by rw [hl]; exact hs.few) hg hc hcells (by omega : p < hulls.length)
  exact ⟨l, by rw [hrun, h1], by rw [← hl]; exact h3⟩

omit [IsStrictOrderedRing K] in
theorem own_eq {points : List (List K)} {p : Nat} (hp : p < points.length) : own points p = pts2 points[p] := by
  unfold own; simp [List.getD, hp]

theorem hull2_nonneg {S : List (V2 K)} {a b : V2 K} (h : ∀ v ∈ S, 0 ≤ area2 a b v) {p : V2 K} (hp : Hull2 S p) : 0 ≤ area2 a b p := by
  induction hp with
  | pt hm => exact h _ hm
  | @seg p q t _ _ h0 h1 ih1 ih2 =>
    have : area2 a b (lerp2 p q t) = (1 - t) * area2 a b p + t * area2 a b q := by simp only [area2, lerp2]; ring
    rw [this]
    have := mul_nonneg (sub_nonneg.2 h1) ih1
    have := mul_nonneg h0 ih2
    linarith

/-- Every point of the hull is to the right of a line if the corners are. -/
theorem hull2_neg {S : List (V2 K)} {a b : V2 K} (h : ∀ v ∈ S, area2 a b v < 0) {p : V2 K} (hp : Hull2 S p) : area2 a b p < 0 := by
  have h1 : ∀ v, area2 b a v = -area2 a b v := fun v => by unfold area2; ring
  have := hull2_pos (a := b) (b := a) (fun v hv => by rw [h1]; linarith [h v hv]) hp
  rw [h1] at this
  linarith

theorem not_outside {a b : RPLC K} {la lb : List K} (ha : VisibleOf a la) (hb : VisibleOf b lb) {x : V2 K} (hxa : Hull2 (pts2 la) x) (hxb : Hull2 (pts2 lb) x) :
    ¬ Outside a b := by
  rintro ⟨f, hf, hn⟩
  have h1 := hull2_nonneg (fun v hv => ha.left f hf v hv) hxa
  have h2 := hull2_neg hn (hb.hull x hxb)
  linarith

/-- C77. Processes whose convex hulls have a point in common are neighbours. -/
theorem C77_overlap {dbg : Bool} {hull : List K → Res (RPLC K)} {serial all : List K → Res (Tess K)} {points : List (List K)} {Dom : V2 K → Prop} (hs : Setup dbg hull serial all points Dom)
    {p q : Nat} (hp : p < points.length) (hq : q < points.length) (hpq : q ≠ p) {x : V2 K} (hxp : Hull2 (own points p) x) (hxq : Hull2 (own points q) x) :
    ∃ l, domainNeighbors dbg hull serial all points p = .ok l ∧ q ∈ l := by
  obtain ⟨hulls, m, hl, hv, _, hrun⟩ := linked_mem hs
  obtain ⟨l, e, h⟩ := hrun p hp
  refine ⟨l, e, (h q).2 ⟨hq, hpq, Or.inl ?_⟩⟩
  rw [own_eq hp] at hxp
  rw [own_eq hq] at hxq
  have vp := hv p _ _ (List.getElem?_eq_getElem hp) (List.getElem?_eq_getElem (by omega))
  have vq := hv q _ _ (List.getElem?_eq_getElem hq) (List.getElem?_eq_getElem (by omega))
  exact ⟨_, _, List.getElem?_eq_getElem (by omega), List.getElem?_eq_getElem (by omega), not_outside vp vq hxp hxq, not_outside vq vp hxq hxp⟩

omit [IsStrictOrderedRing K] in
theorem own_sub {points : List (List K)} {p : Nat} (hp : p < points.length) {v : V2 K} (hv : v ∈ own points p) : v ∈ allPts points := by
  rw [own_eq hp] at hv
  exact List.mem_flatMap.2 ⟨_, List.getElem_mem hp, hv⟩

theorem hidden_hull {S : List (V2 K)} {P x : V2 K} (h : Hidden S P) (hc : Closest S P x) : Hull2 S x := by
  obtain ⟨B, hB, hsub, _, hin⟩ := h
  exact hull2_mono hsub ((inPoly_hull hB).1 fun e he => (hin x hc e he).le)

/-- C77. Processes whose Voronoi cells touch are neighbours, if both cells are hidden inside the hulls of their processes or neither is. The remaining case is missing, and the claim is wrong for it:
see `C77_hidden_fails`. -/
theorem C77_adjacent_partial {dbg : Bool} {hull : List K → Res (RPLC K)} {serial all : List K → Res (Tess K)} {points : List (List K)} {Dom : V2 K → Prop}
    (hs : Setup dbg hull serial all points Dom) {p q : Nat} (hp : p < points.length) (hq : q < points.length) (hpq : q ≠ p) {g h x : V2 K} (hx : Dom x) (hg : g ∈ own points p)
    (hh : h ∈ own points q) (hgx : Closest (allPts points) g x) (hhx : Closest (allPts points) h x) (hid : Hidden (own points p) g ↔ Hidden (own points q) h) :
    ∃ l, domainNeighbors dbg hull serial all points p = .ok l ∧ q ∈ l := by
  have cg : Closest (own points p) g x := ⟨hg, fun v hv => hgx.2 v (own_sub hp hv)⟩
  have ch : Closest (own points q) h x := ⟨hh, fun v hv => hhx.2 v (own_sub hq hv)⟩
  by_cases hhid : Hidden (own points p) g
  · exact C77_overlap hs hp hq hpq (hidden_hull hhid cg) (hidden_hull (hid.1 hhid) ch)
  · obtain ⟨hulls, m, hl, hv, ha, hrun⟩ := linked_mem hs
    obtain ⟨l, e, hmem⟩ := hrun p hp
    refine ⟨l, e, (hmem q).2 ⟨hq, hpq, Or.inr ?_⟩⟩
    have gp : hulls[p]? = some hulls[p] := List.getElem?_eq_getElem (by omega)
    have gq : hulls[q]? = some hulls[q] := List.getElem?_eq_getElem (by omega)
    have vp := hv p _ _ (List.getElem?_eq_getElem hp) gp
    have vq := hv q _ _ (List.getElem?_eq_getElem hq) gq
    have hg' := vp.visible g (by rwa [own_eq hp] at hg) (by rwa [own_eq hp] at hhid)
    have hh' := vq.visible h (by rwa [own_eq hq] at hh) (by rw [hid, own_eq hq] at hhid; exact hhid)
    obtain ⟨i, hi, ei⟩ := owns_of_mem gp hg'
    obtain ⟨j, hj, ej⟩ := owns_of_mem gq hh'
    have hsub : ∀ v ∈ hulls.flatMap fun h => pts2 h.points, v ∈ allPts points := by
      intro v hvm
      obtain ⟨b, hb, hvb⟩ := List.mem_flatMap.1 hvm
      obtain ⟨k, hk, rfl⟩ := List.mem_iff_getElem.1 hb
      have := (hv k _ _ (List.getElem?_eq_getElem (by omega)) (List.getElem?_eq_getElem hk)).sub v hvb
      exact List.mem_flatMap.2 ⟨_, List.getElem_mem (by omega), this⟩
    exact ⟨i, j, hi, hj, ha i j g h x ei ej hx ⟨List.mem_of_getElem? ei, fun v hv => hgx.2 v (hsub v hv)⟩ ⟨List.mem_of_getElem? ej, fun v hv => hhx.2 v (hsub v hv)⟩⟩

/-- Half way between two points of `A` and `B` that are as near to each other as any, the cells of both meet. -/
theorem exists_between {A B : List (V2 K)} {u w : V2 K} (hu : u ∈ A) (hw : w ∈ B) :
    ∃ g ∈ A, ∃ h ∈ B, Closest (A ++ B) g (lerp2 g h (1 / 2)) ∧ Closest (A ++ B) h (lerp2 g h (1 / 2)) := by
  obtain ⟨⟨g, h⟩, hm, hmin⟩ := exists_least (fun x : V2 K × V2 K => sq2 x.1 x.2) (A ×ˢ B) (List.ne_nil_of_mem (a := (u, w)) (List.pair_mem_product.2 ⟨hu, hw⟩))
  obtain ⟨hg, hh⟩ := List.pair_mem_product.1 hm
  have same : sq2 (lerp2 g h (1 / 2)) g = sq2 (lerp2 g h (1 / 2)) h := by unfold sq2 lerp2; ring
  have key : ∀ v ∈ A ++ B, sq2 (lerp2 g h (1 / 2)) g ≤ sq2 (lerp2 g h (1 / 2)) v := by
    intro v hv
    have e : sq2 g v + sq2 v h = sq2 g h + 2 * (sq2 (lerp2 g h (1 / 2)) v - sq2 (lerp2 g h (1 / 2)) g) := by unfold sq2 lerp2; ring
    have n1 : 0 ≤ sq2 g v := by unfold sq2; positivity
    have n2 : 0 ≤ sq2 v h := by unfold sq2; positivity
    rcases List.mem_append.1 hv with hv | hv
    · have := hmin (v, h) (List.pair_mem_product.2 ⟨hv, hh⟩)
      simp only at this
      linarith
    · have := hmin (g, v) (List.pair_mem_product.2 ⟨hg, hv⟩)
      simp only at this
      linarith
  exact ⟨g, hg, h, hh, ⟨by simp [hg], key⟩, ⟨by simp [hh], fun v hv => by rw [← same]; exact key v hv⟩⟩

/-- C77. If there is more than one process, every process has a neighbour, provided the domain is convex. -/
theorem C77_some {dbg : Bool} {hull : List K → Res (RPLC K)} {serial all : List K → Res (Tess K)} {points : List (List K)} {Dom : V2 K → Prop}
    (hs : Setup dbg hull serial all points Dom) (hin : ∀ v ∈ allPts points, Dom v) (hconv : ∀ u v t, Dom u → Dom v → 0 ≤ t → t ≤ 1 → Dom (lerp2 u v t)) (h2 : 2 ≤ points.length)
    {p : Nat} (hp : p < points.length) : ∃ l, domainNeighbors dbg hull serial all points p = .ok l ∧ l ≠ [] := by
  obtain ⟨hulls, m, hl, hv, ha, hrun⟩ := linked_mem hs
  obtain ⟨l, e, hmem⟩ := hrun p hp
  refine ⟨l, e, ?_⟩
  have hvis : ∀ k, k < points.length → ∃ a v, hulls[k]? = some a ∧ v ∈ pts2 a.points ∧ v ∈ allPts points := by
    intro k hk
    have gk : hulls[k]? = some hulls[k] := List.getElem?_eq_getElem (by omega)
    have vk := hv k _ _ (List.getElem?_eq_getElem hk) gk
    have h0 := vk.good.some
    have h1 := vk.good.even
    have hm : vtx hulls[k].points ((0 : Nat) : Int) ∈ pts2 hulls[k].points := mem_pts2.2 ⟨0, by omega, rfl⟩
    exact ⟨_, _, gk, hm, List.mem_flatMap.2 ⟨_, List.getElem_mem hk, vk.sub _ hm⟩⟩
  obtain ⟨r, hr, hrp⟩ : ∃ r, r < points.length ∧ r ≠ p := by
    by_cases h : p = 0
    · exact ⟨1, by omega, by omega⟩
    · exact ⟨0, by omega, by omega⟩
  obtain ⟨a, u, ga, hu, hu'⟩ := hvis p hp
  obtain ⟨b, w, gb, hw, hw'⟩ := hvis r hr
  -- the visible points of the others
  let rest := ((List.range points.length).filter (· ≠ p)).flatMap fun q => pts2 (hulls.getD q {}).points
  have hwr : w ∈ rest := List.mem_flatMap.2 ⟨r, by simp [hr, hrp], by simpa [List.getD, gb] using hw⟩
  obtain ⟨g, hg, h, hh, cg, ch⟩ := exists_between hu hwr
  obtain ⟨q, hq, hhq⟩ := List.mem_flatMap.1 hh
  have hq' : q < points.length ∧ q ≠ p := by simpa using hq
  have gq : hulls[q]? = some hulls[q] := List.getElem?_eq_getElem (by omega)
  have hhq' : h ∈ pts2 hulls[q].points := by simpa [List.getD, gq] using hhq
  obtain ⟨i, hi, ei⟩ := owns_of_mem ga hg
  obtain ⟨j, hj, ej⟩ := owns_of_mem gq hhq'
  have hsubp : ∀ (k : Nat) (c : RPLC K), hulls[k]? = some c → ∀ v ∈ pts2 c.points, v ∈ allPts points := by
    intro k c gk v hvc
    have hk : k < hulls.length := (List.getElem?_eq_some_iff.1 gk).1
    exact List.mem_flatMap.2 ⟨_, List.getElem_mem (by omega), (hv k _ _ (List.getElem?_eq_getElem (by omega)) gk).sub v hvc⟩
  have hsub : ∀ v ∈ hulls.flatMap fun h => pts2 h.points, v ∈ pts2 a.points ++ rest := by
    intro v hvm
    obtain ⟨c, hc, hvc⟩ := List.mem_flatMap.1 hvm
    obtain ⟨k, hk, rfl⟩ := List.mem_iff_getElem.1 hc
    by_cases hkp : k = p
    · subst hkp
      rw [List.getElem?_eq_getElem hk] at ga
      cases ga
      exact List.mem_append_left _ hvc
    · exact List.mem_append_right _ (List.mem_flatMap.2 ⟨k, by simp [← hl, hk, hkp], by simpa [List.getD, hk] using hvc⟩)
  have hsh := ha i j g h _ ei ej (hconv g h (1 / 2) (hin g (hsubp p a ga g hg)) (hin h (hsubp q _ gq h hhq')) (by norm_num) (by norm_num)) ⟨List.mem_of_getElem? ei, fun v hv => cg.2 v (hsub v hv)⟩
    ⟨List.mem_of_getElem? ej, fun v hv => ch.2 v (hsub v hv)⟩
  exact List.ne_nil_of_mem ((hmem q).2 ⟨hq'.1, hq'.2, Or.inr ⟨i, j, hi, hj, hsh⟩⟩)

open Exch Mpi in
/-- C77. With the neighbours computed here, the exchange of generators (C65) always comes to its end, with the right generators on every process. -/
theorem C77_exchange {dbg : Bool} {hull : List K → Res (RPLC K)} {serial all : List K → Res (Tess K)} {points : List (List K)} {Dom : V2 K → Prop}
    (hs : Setup dbg hull serial all points Dom) (hin : ∀ v ∈ allPts points, Dom v) (hconv : ∀ u v t, Dom u → Dom v → 0 ≤ t → t ≤ 1 → Dom (lerp2 u v t)) (h2 : 2 ≤ points.length)
    {nb : Nat → List Nat} (hnb : ∀ p, p < points.length → domainNeighbors dbg hull serial all points p = .ok (nb p))
    {pts : Nat → List (BitVec 64)} (hpts : ∀ p, p < points.length → (pts p).length = (points.getD p []).length) (hsm : ∀ p, p < points.length → 4 + 8 * (pts p).length < 2 ^ 31)
    {k : Nat} {y : Sys (List (BitVec 64) × List Nat) Serialize.Byte} (hr : Reach (genProg dbg 2 nb pts) points.length k y) :
    (∀ p r, p < points.length → step (genProg dbg 2 nb pts) points.length p y = some r → ∃ y', r = .ok y') ∧
    ((∀ p, p < points.length → ∃ s, y.proc p = .done s) ∨ ∃ p y', p < points.length ∧ step (genProg dbg 2 nb pts) points.length p y = some (.ok y')) ∧
    k ≤ ∑ p ∈ Finset.range points.length, (2 * (nb p).length + 3) ∧
    ∀ p gens g2d, p < points.length → y.proc p = .done (gens, g2d) → gens = (p :: nb p).flatMap pts ∧
      g2d = (p :: nb p).flatMap fun q => List.replicate ((pts q).length / 2) q := by
  obtain ⟨nb', h⟩ := C77_symmetric hs
  have heq : ∀ p, p < points.length → nb' p = nb p := by
    intro p hp
    have := (h p hp).1
    rw [hnb p hp] at this
    exact (Res.ok.inj this).symm
  refine C65_generators_partial dbg (by omega) ?_ hsm ?_ ?_ ?_ ?_ hr
  · intro p hp
    rw [hpts p hp]
    have := hs.even points[p] (List.getElem_mem hp)
    simp only [List.getD, List.getElem?_eq_getElem hp, Option.getD_some]
    omega
  · intro p hp q hq
    rw [← heq p hp] at hq
    exact ((h p hp).2.2 q hq).1
  · intro p hp q hq
    rw [← heq p hp] at hq
    have := (h p hp).2.2 q hq
    rw [← heq q this.1]
    exact this.2.2
  · intro p hp
    rw [← heq p hp]
    exact ((h p hp).2.1.imp fun h => Nat.ne_of_lt h)
  · intro p hp
    obtain ⟨l, e, hl⟩ := C77_some hs hin hconv h2 hp
    rw [hnb p hp] at e
    rw [Res.ok.inj e]; exact hl
end
end Verif.Nbr
