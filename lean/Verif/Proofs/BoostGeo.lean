import Verif.Spec.BoostGeo
import Mathlib.Tactic.Ring
import Mathlib.Tactic.Linarith
/- Rings to facets and back. -/
namespace Verif.BoostGeo
open Verif Verif.Geom

variable {K : Type} [DecidableEq K]

omit [DecidableEq K] in
theorem point_eq {points : List K} {i : Int} {q : K × K} (h : pointAt points i = some q) : point points i = .ok q := by
  unfold pointAt at h
  split_ifs at h with h0
  rcases h1 : points[2 * i.toNat]? with _ | x
  · rw [h1] at h; cases h
  rcases h2 : points[2 * i.toNat + 1]? with _ | y
  · rw [h1, h2] at h; cases h
  rw [h1, h2] at h
  simp only [Option.some.injEq] at h
  simp only [point, h0, if_true, rd, h1, h2, Res.bind_eq, Res.bind_ok, Res.pure_eq, h]

omit [DecidableEq K] in
theorem pointAt_range {points : List K} {i : Int} (h : 0 ≤ i ∧ 2 * i.toNat + 1 < points.length) : ∃ q, pointAt points i = some q := by
  refine ⟨(points[2 * i.toNat]'(by omega), points[2 * i.toNat + 1]'h.2), ?_⟩
  have h1 : points[2 * i.toNat]? = some (points[2 * i.toNat]'(by omega)) := List.getElem?_eq_getElem _
  have h2 : points[2 * i.toNat + 1]? = some (points[2 * i.toNat + 1]'h.2) := List.getElem?_eq_getElem _
  simp only [pointAt, h.1, if_true, h1, h2]

theorem pair_eq {f : List Int} (h : f.length = 2) : ∃ i j, f = [i, j] := by
  match f, h with
  | [i, j], _ => exact ⟨i, j, rfl⟩

omit [DecidableEq K] in
theorem ringLoop_ok {points : List K} : ∀ {fs : List (List Int)}, (∀ f ∈ fs, f.length = 2) → (∀ f ∈ fs, ∀ i ∈ f, 0 ≤ i ∧ 2 * i.toNat + 1 < points.length) →
    ∃ ps, (∀ dbg, ringLoop dbg points fs = .ok ps) ∧ ps.map some = fs.map fun f => pointAt points (f.getD 1 0)
  | [], _, _ => ⟨[], fun _ => rfl, rfl⟩
  | f :: fs, h1, h2 => by
    obtain ⟨ps, e1, e2⟩ := ringLoop_ok (fs := fs) (fun g hg => h1 g (by simp [hg])) (fun g hg => h2 g (by simp [hg]))
    obtain ⟨i, j, rfl⟩ := pair_eq (h1 f (by simp))
    obtain ⟨q, hq⟩ := pointAt_range (h2 [i, j] (by simp) j (by simp))
    refine ⟨q :: ps, fun dbg => ?_, by simp [e2, hq]⟩
    simp [ringLoop, rd, point_eq hq, e1]

theorem ring_ok {points : List K} {fs : List (List Int)} (h : Loop points fs) :
    ∃ r, (∀ dbg, ring dbg points fs = .ok r) ∧ fs.map (facetPoints points) = segments r ∧ r.head? = r.getLast? ∧ r.length = fs.length + 1 := by
  obtain ⟨ps, e1, e2⟩ := ringLoop_ok h.pair h.range
  have hlen : ps.length = fs.length := by simpa using congrArg List.length e2
  have hpos : 0 < fs.length := List.length_pos_of_ne_nil h.nonempty
  have hpt : ∀ k, (hk : k < fs.length) → ∃ i j, fs[k] = [i, j] ∧ some (ps[k]'(by omega)) = pointAt points j := by
    intro k hk
    obtain ⟨i, j, e⟩ := pair_eq (h.pair fs[k] (List.getElem_mem _))
    refine ⟨i, j, e, ?_⟩
    have := congrArg (fun l => l[k]?) e2
    simp only [List.getElem?_map, List.getElem?_eq_getElem hk, List.getElem?_eq_getElem (show k < ps.length by omega), Option.map_some, e] at this
    simpa using this
  obtain ⟨i0, j0, f0, -⟩ := hpt 0 hpos
  obtain ⟨q, hq⟩ := pointAt_range (h.range fs[0] (List.getElem_mem _) i0 (by rw [f0]; simp))
  have hclose : ps[fs.length - 1]'(by omega) = q := by
    obtain ⟨i, j, e3, e4⟩ := hpt (fs.length - 1) (by omega)
    have := h.close
    have a1 : fs.getLast? = some fs[fs.length - 1] := by rw [List.getLast?_eq_getElem?]; exact List.getElem?_eq_getElem _
    have a2 : fs.head? = some fs[0] := by rw [List.head?_eq_getElem?]; exact List.getElem?_eq_getElem _
    rw [a1, a2] at this
    simp only [Option.getD_some, e3, f0] at this
    have hj : j = i0 := by simpa using this
    rw [hj, hq] at e4
    exact Option.some.inj e4
  have hends : (q :: ps).head? = (q :: ps).getLast? := by
    rw [List.getLast?_eq_getElem?]
    simp only [List.length_cons, Nat.add_sub_cancel, List.head?_cons]
    obtain ⟨m, hm⟩ : ∃ m, fs.length = m + 1 := ⟨fs.length - 1, by omega⟩
    rw [hlen, hm, List.getElem?_cons_succ, List.getElem?_eq_getElem (show m < ps.length by omega)]
    simp only [hm, Nat.add_sub_cancel] at hclose
    rw [hclose]
  refine ⟨q :: ps, fun dbg => ?_, ?_, hends, by simp [hlen]⟩
  · have h0 : rd fs 0 = .ok fs[0] := rd_lt hpos
    rw [ring, Res.bind_eq, h0, Res.bind_ok, f0]
    simp only [rd, List.getElem?_cons_zero, Res.bind_eq, Res.bind_ok, point_eq hq, e1, Res.pure_eq]
    rw [Res.assert_true _ (by simp [hlen]), Res.bind_ok, Res.assert_true _ hends, Res.bind_ok]
  · apply List.ext_getElem
    · simp [segments, hlen]
    · intro k h1 h2
      simp only [List.length_map] at h1
      obtain ⟨i, j, e3, e4⟩ := hpt k h1
      simp only [segments, List.getElem_map, List.getElem_zip, List.tail_cons, e3, facetPoints, List.map_cons, List.map_nil, ← e4]
      congr 1
      rcases k with _ | k
      · simp only [List.getElem_cons_zero]
        rw [f0] at e3; cases e3; exact hq
      · obtain ⟨i', j', e5, e6⟩ := hpt k (by omega)
        simp only [List.getElem_cons_succ, e6]
        have := h.chain k h1
        simp only [List.getD_eq_getElem?_getD, List.getElem?_eq_getElem (show k < fs.length by omega), List.getElem?_eq_getElem h1, Option.getD_some, e3, e5] at this
        have hj : j' = i := by simpa using this
        rw [hj]

theorem toPolygon_ok (lib : Lib K) {P : RPLC K} (h : Loops P) : ∃ g, Draws P g ∧ ∀ dbg, toPolygon lib dbg P = .ok (lib.correct g) := by
  obtain ⟨r, e1, e2, -, -⟩ := ring_ok h.outer
  have : ∀ hs : List (List (List Int)), (∀ x ∈ hs, Loop P.points x) →
      ∃ rs, (∀ dbg, hs.mapM (ring dbg P.points) = .ok rs) ∧ hs.map (fun x => x.map (facetPoints P.points)) = rs.map segments := by
    intro hs
    induction hs with
    | nil => exact fun _ => ⟨[], fun _ => rfl, rfl⟩
    | cons x xs ih =>
      intro hh
      obtain ⟨rs, k1, k2⟩ := ih fun y hy => hh y (by simp [hy])
      obtain ⟨s, m1, m2, -, -⟩ := ring_ok (hh x (by simp))
      exact ⟨s :: rs, fun dbg => by simp [List.mapM_cons, m1, k1], by simp [m2, k2]⟩
  obtain ⟨rs, k1, k2⟩ := this P.holes h.holes
  refine ⟨⟨r, rs⟩, ⟨e2, k2⟩, fun dbg => ?_⟩
  rw [toPolygon, e1, k1]
  have hl : rs.length = P.holes.length := by simpa using (congrArg List.length k2).symm
  simp [hl]

omit [DecidableEq K] in
theorem pointAt_flat (ps : List (K × K)) (i : Nat) : pointAt (flat ps) (i : Int) = ps[i]? := by
  induction ps generalizing i with
  | nil => simp [pointAt, flat]
  | cons p ps ih =>
    rcases i with _ | i
    · simp [pointAt, flat]
    · have := ih i
      simp only [pointAt, Int.natCast_nonneg, if_true, Int.toNat_natCast] at this ⊢
      rw [List.getElem?_cons_succ, ← this]
      have e : flat (p :: ps) = p.1 :: p.2 :: flat ps := rfl
      rw [e, show 2 * (i + 1) = (2 * i + 1) + 1 by ring, show (2 * i + 1) + 1 + 1 = ((2 * i + 1) + 1) + 1 from rfl]
      simp only [List.getElem?_cons_succ]

omit [DecidableEq K] in
theorem outerFacet_eq (n ii : Nat) : outerFacet n ii = [(ii : Int), (((ii + 1) % n : Nat) : Int)] := rfl

omit [DecidableEq K] in
theorem holeFacet_eq (o n ii : Nat) : holeFacet o n ii = [((o + (ii + 1) % n : Nat) : Int), 0] := rfl

omit [DecidableEq K] in
theorem ring_facets {r rest : List (K × K)} (h : Closed r) :
    ((List.range r.dropLast.length).map (outerFacet r.dropLast.length)).map (facetPoints (flat (r.dropLast ++ rest))) = segments r := by
  have hl : r.dropLast.length = r.length - 1 := by simp
  have h4 := h.1
  have hc : r[r.length - 1]'(by omega) = r[0]'(by omega) := by
    have := h.2
    rw [List.getLast?_eq_getElem?, List.head?_eq_getElem?, List.getElem?_eq_getElem (show 0 < r.length by omega), List.getElem?_eq_getElem (show r.length - 1 < r.length by omega)] at this
    exact (Option.some.inj this).symm
  apply List.ext_getElem
  · simp [segments]
  · intro k h1 h2
    simp only [List.length_map, List.length_range] at h1
    simp only [segments, List.getElem_map, List.getElem_range, List.getElem_zip, List.getElem_tail, outerFacet_eq, facetPoints, List.map_cons, List.map_nil, pointAt_flat]
    have hm : (k + 1) % r.dropLast.length < r.dropLast.length := Nat.mod_lt _ (by omega)
    rw [List.getElem?_append_left h1, List.getElem?_append_left hm, List.getElem?_eq_getElem h1, List.getElem?_eq_getElem hm]
    simp only [List.getElem_dropLast]
    congr 3
    rcases Nat.lt_or_ge (k + 1) r.dropLast.length with hk | hk
    · simp only [Nat.mod_eq_of_lt hk]
    · have e : k + 1 = r.dropLast.length := by omega
      simp only [e, Nat.mod_self]
      rw [← hc]
      congr 1
      omega

theorem ringPoints_ok {r : List (K × K)} (h : Closed r) : ringPoints r = .ok r.dropLast := by
  have : r ≠ [] := by rintro rfl; exact absurd h.1 (by simp)
  simp [ringPoints, this]

theorem fromPolygon_plain (dbg : Bool) {g : Polygon K} (h : Closed g.outer) (hh : g.inners = []) : ∃ P, fromPolygon dbg g = .ok P ∧ Draws P g ∧ P.holes = [] := by
  have h4 := h.1
  refine ⟨{ facets := (List.range g.outer.dropLast.length).map (outerFacet g.outer.dropLast.length), holes := [], points := flat (g.outer.dropLast ++ []) }, ?_,
    ⟨ring_facets (rest := []) h, ?_⟩, rfl⟩
  · rw [fromPolygon, ringPoints_ok h, hh]
    simp only [Res.bind_eq, Res.bind_ok, fromHoles, Res.pure_eq]
    rw [Res.assert_true _ (by simp; omega), Res.bind_ok]
  · rw [hh]; rfl

theorem fromResults_plain (lib : Lib K) (dbg : Bool) : ∀ {gs : List (Polygon K)}, (∀ g ∈ gs, Plain lib g) → ∃ ps, fromResults lib dbg gs = .ok ps ∧ List.Forall₂ Draws ps gs
  | [], _ => ⟨[], rfl, .nil⟩
  | g :: gs, h => by
    obtain ⟨ps, e1, e2⟩ := fromResults_plain lib dbg (gs := gs) fun x hx => h x (by simp [hx])
    have hg := h g (by simp)
    obtain ⟨P, k1, k2, -⟩ := fromPolygon_plain dbg hg.closed hg.holes
    refine ⟨P :: ps, ?_, .cons k2 e2⟩
    have hne : g.outer ≠ [] := by intro e; have := hg.closed.1; rw [e] at this; simp at this
    rw [fromResults]
    simp only [hne, and_false, if_false, Res.bind_eq, Res.pure_eq, Res.bind_ok]
    rw [Res.assert_true _ hg.closed.2, Res.bind_ok, Res.assert_true _ hg.simple, Res.bind_ok, k1, Res.bind_ok, e1, Res.bind_ok]

end Verif.BoostGeo
