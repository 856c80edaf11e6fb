import Verif.Proofs.PolygonClass
import Verif.Spec.PolygonClass
import Verif.Props.Polygon
import Verif.Props.Crossing
/- C92, C93: the class `Polygon`. -/
namespace Verif.Poly
open Verif Verif.Geom
section
variable {K : Type} [Field K] [LinearOrder K] [IsStrictOrderedRing K]

/-- `POINT_ON_VERTEX` exactly at the corners. -/
theorem C92_vertex (vs : List (V2 K)) (p : V2 K) : queryPoint vs p = .onVertex ↔ p ∈ vs := by
  constructor
  · intro h
    by_contra hn
    rw [query_eq hn] at h
    split_ifs at h
  · intro h
    rw [queryPoint, if_neg (List.ne_nil_of_mem h)]
    exact queryLoop_vertex p vs _ _ _ h

/-- `POINT_ON_EDGE` exactly on an odd number of sides. -/
theorem C92_edge {vs : List (V2 K)} {p : V2 K} (hp : p ∉ vs) : queryPoint vs p = .onEdge ↔ Odd (sidesAt vs p) := by
  rw [query_eq hp]
  by_cases h : Odd (sidesAt vs p)
  · simp [h]
  · rw [if_neg h]
    constructor
    · intro h'; split_ifs at h'
    · exact fun h' => absurd h' h

/-- If no two sides overlap or cross there, the answer tells whether the point is on the boundary. -/
theorem C92_boundary {vs : List (V2 K)} {p : V2 K} (h1 : p ∉ vs → sidesAt vs p ≤ 1) :
    OnBoundary vs p ↔ queryPoint vs p = .onVertex ∨ queryPoint vs p = .onEdge := by
  classical
  by_cases hp : p ∈ vs
  · obtain ⟨u, hu⟩ := exists_side_from hp
    exact ⟨fun _ => Or.inl ((C92_vertex vs p).2 hp), fun _ => ⟨_, hu, on_left⟩⟩
  · rw [C92_edge hp, C92_vertex]
    have h0 : 0 < sidesAt vs p ↔ OnBoundary vs p := by
      unfold sidesAt OnBoundary
      rw [List.countP_pos_iff]
      simp
    rw [← h0]
    have := h1 hp
    constructor
    · intro h
      right
      have : sidesAt vs p = 1 := by omega
      rw [this]; exact odd_one
    · rintro (h | h)
      · exact absurd h hp
      · exact h.pos

/-- Off the boundary: `POINT_INSIDE` or `POINT_OUTSIDE`, by the number of sides between the point and any point beyond all the corners. Polygons of any shape. -/
theorem C92_inside {vs : List (V2 K)} {p : V2 K} (hp : ¬ OnBoundary vs p) :
    (∀ q, Beyond vs q → (∀ e ∈ dirSides vs, Misses p q e ∨ Crosses p q e) → queryPoint vs p = if Odd (crossed vs p q) then .inside else .outside) ∧
    ∃ q, Beyond vs q ∧ ∀ e ∈ dirSides vs, Misses p q e ∨ Crosses p q e := by
  classical
  obtain ⟨h1, h2⟩ := C31_even_odd hp
  refine ⟨fun q hq h => ?_, h2⟩
  have hv : p ∉ vs := fun hm => by
    obtain ⟨u, hu⟩ := exists_side_from hm
    exact hp ⟨_, hu, on_left⟩
  have h0 : sidesAt vs p = 0 := by
    unfold sidesAt
    rw [List.countP_eq_zero]
    intro e he
    simpa using fun hs => hp ⟨e, he, hs⟩
  rw [query_eq hv, h0, if_neg (by decide)]
  by_cases ho : Odd (crossed vs p q)
  · rw [if_pos ho, if_pos ((h1 q hq h).2 ho)]
  · rw [if_neg ho, if_neg fun hb => ho ((h1 q hq h).1 hb)]

/-- For convex polygons: to the left of all sides, or to the right of one. -/
theorem C92_convex {vs : List (V2 K)} (hc : ConvexCCW vs) (p : V2 K) :
    (StrictlyIn vs p → queryPoint vs p = .inside) ∧ (StrictlyOut vs p → queryPoint vs p = .outside) := by
  classical
  have z : ∀ (u v : V2 K), OnSeg u v p → area2 u v p = 0 := by
    rintro u v ⟨t, -, -, rfl⟩
    unfold area2 lerp2; simp only; ring
  have off : ¬ OnBoundary vs p → queryPoint vs p = if pointInPolygon p vs = true then .inside else .outside := by
    intro hp
    have hv : p ∉ vs := fun hm => by
      obtain ⟨u, hu⟩ := exists_side_from hm
      exact hp ⟨_, hu, on_left⟩
    have h0 : sidesAt vs p = 0 := by
      unfold sidesAt
      rw [List.countP_eq_zero]
      intro e he
      simpa using fun hs => hp ⟨e, he, hs⟩
    rw [query_eq hv, h0, if_neg (by decide)]
  constructor
  · intro h
    rw [off (fun ⟨e, he, hs⟩ => by have := h e he; rw [z _ _ hs] at this; exact lt_irrefl _ this), if_pos ((C31_convex hc p).1 h)]
  · intro h
    have hb : ¬ OnBoundary vs p := by
      rintro ⟨e, he, t, t0, t1, hs⟩
      obtain ⟨e', he', hn⟩ := h
      have a1 := side_nonneg hc (c := e'.1) (d := e'.2) he' (fst_mem_of_dirSides (d := e.2) he)
      have a2 := side_nonneg hc (c := e'.1) (d := e'.2) he' (snd_mem_of_dirSides (c := e.1) he)
      rw [hs, area2_lerp] at hn
      have b1 := mul_nonneg (sub_nonneg.2 t1) a1
      have b2 := mul_nonneg t0 a2
      linarith
    rw [off hb, if_neg (by rw [(C31_convex hc p).2 h]; simp)]

example : queryPoint arrow ⟨2, 3⟩ = .inside ∧ queryPoint arrow ⟨2, 1⟩ = .outside ∧ queryPoint arrow ⟨1, 1⟩ = .onEdge ∧ queryPoint arrow ⟨2, 2⟩ = .onVertex ∧
    queryPoint arrow ⟨3, 2⟩ = .onEdge ∧ queryPoint arrow ⟨-1, 0⟩ = .outside ∧ queryPoint arrow ⟨0, 4⟩ = .outside := by decide +kernel
example : ConvexCCW pentagonQ ∧ queryPoint pentagonQ ⟨1, 1⟩ = .inside ∧ queryPoint pentagonQ ⟨3, 0⟩ = .outside := ⟨pentagonQ_convex, by decide +kernel, by decide +kernel⟩

/-- The restriction on overlapping sides is needed: a point of two sides is reported inside or outside. -/
theorem C92_overlap_fails : ∃ (vs : List (V2 ℚ)) (p : V2 ℚ), 3 ≤ vs.length ∧ OnBoundary vs p ∧ queryPoint vs p = .outside :=
  ⟨[⟨0, 0⟩, ⟨2, 0⟩, ⟨4, 0⟩, ⟨2, 0⟩], ⟨1, 0⟩, by decide, ⟨(⟨0, 0⟩, ⟨2, 0⟩), by decide +kernel, 1 / 2, by norm_num, by norm_num, by decide +kernel⟩, by decide +kernel⟩

/-! ### Nearest intersection, projection and distance -/

theorem edge_rd {vs : List (V2 K)} {i : Nat} (h : i < vs.length) : rd vs i = .ok (edge vs i).1 ∧ rd vs ((i + 1) % vs.length) = .ok (edge vs i).2 := by
  have h2 : (i + 1) % vs.length < vs.length := Nat.mod_lt _ (by omega)
  unfold edge
  simp [rd, h, h2, List.getD_eq_getElem?_getD]

/-- The parameters computed for an edge (L224-225) are those of the common point. -/
theorem meets_iff {a b s1 s2 : V2 K} (h : (b.y - a.y) * (s2.x - s1.x) - (b.x - a.x) * (s2.y - s1.y) ≠ 0) (t : K) :
    OnSeg a b (lerp2 s1 s2 t) ↔
      t = ((b.x - a.x) * (s1.y - a.y) - (b.y - a.y) * (s1.x - a.x)) / ((b.y - a.y) * (s2.x - s1.x) - (b.x - a.x) * (s2.y - s1.y)) ∧
      0 ≤ ((s2.x - s1.x) * (s1.y - a.y) - (s2.y - s1.y) * (s1.x - a.x)) / ((b.y - a.y) * (s2.x - s1.x) - (b.x - a.x) * (s2.y - s1.y)) ∧
      ((s2.x - s1.x) * (s1.y - a.y) - (s2.y - s1.y) * (s1.x - a.x)) / ((b.y - a.y) * (s2.x - s1.x) - (b.x - a.x) * (s2.y - s1.y)) ≤ 1 := by
  set D := (b.y - a.y) * (s2.x - s1.x) - (b.x - a.x) * (s2.y - s1.y) with hD
  constructor
  · rintro ⟨w, w0, w1, e⟩
    have hx := congrArg V2.x e
    have hy := congrArg V2.y e
    unfold lerp2 at hx hy
    simp only at hx hy
    have e1 : ((s2.x - s1.x) * (s1.y - a.y) - (s2.y - s1.y) * (s1.x - a.x)) / D = w := by
      rw [div_eq_iff h, hD]
      linear_combination (s2.x - s1.x) * hy - (s2.y - s1.y) * hx
    rw [e1]
    refine ⟨?_, w0, w1⟩
    rw [eq_div_iff h, hD]
    linear_combination (b.y - a.y) * hx - (b.x - a.x) * hy
  · rintro ⟨rfl, w0, w1⟩
    refine ⟨_, w0, w1, ?_⟩
    unfold lerp2
    ext
    · simp only; field_simp; rw [hD]; ring
    · simp only; field_simp; rw [hD]; ring

/-- What the loop has found after the edges of a list: the first of the nearest. -/
def Best (vs : List (V2 K)) (s1 s2 : V2 K) (S : Nat → Prop) : Option (K × Nat × V2 K) → Prop
  | none => ∀ j t, S j → ¬ Meets vs s1 s2 j t
  | some (φ, i, x) => S i ∧ Meets vs s1 s2 i φ ∧ x = lerp2 s1 s2 φ ∧ ∀ j t, S j → Meets vs s1 s2 j t → φ < t ∨ (φ = t ∧ i ≤ j)

theorem closest_ok (vs : List (V2 K)) (s1 s2 : V2 K) {big : K} (hb : 1 < big) : ∀ (l : List Nat) (k : Nat) (best : Option (K × Nat × V2 K)),
    l = List.range' k (vs.length - k) → Best vs s1 s2 (· < k) best → ∃ r, closestLoop vs s1 s2 big l best = .ok r ∧ Best vs s1 s2 (· < vs.length) r
  | [], k, best, hl, hB => by
    refine ⟨best, rfl, ?_⟩
    have : vs.length ≤ k := by
      have := congrArg List.length hl; simp at this; omega
    rcases best with _ | ⟨φ, i, x⟩
    · exact fun j t hj => hB j t (by omega)
    · obtain ⟨h1, h2, h3, h4⟩ := hB
      exact ⟨h2.1, h2, h3, fun j t hj => h4 j t (by omega)⟩
  | i :: is, k, best, hl, hB => by
    have hk : k < vs.length := by
      by_contra hn
      have : vs.length - k = 0 := by omega
      rw [this] at hl; simp at hl
    have hr : List.range' k (vs.length - k) = k :: List.range' (k + 1) (vs.length - (k + 1)) := by
      have : vs.length - k = (vs.length - (k + 1)) + 1 := by omega
      rw [this, List.range'_succ]
    rw [hr] at hl
    injection hl with e1 e2
    subst e1
    have ⟨r1, r2⟩ := edge_rd hk
    set a := (edge vs i).1 with ha
    set b := (edge vs i).2 with hbb
    unfold closestLoop
    simp only [r1, r2, Res.bind_eq, Res.bind_ok]
    -- an edge that is not met, or no nearer, changes nothing
    have keep : (∀ t, Meets vs s1 s2 i t → ∃ φ j x, best = some (φ, j, x) ∧ φ ≤ t) → Best vs s1 s2 (· < i + 1) best := by
      intro hno
      rcases best with _ | ⟨φ, j, x⟩
      · intro j t hj hm
        rcases Nat.lt_succ_iff_lt_or_eq.1 hj with hj | rfl
        · exact hB j t hj hm
        · obtain ⟨_, _, _, h, _⟩ := hno t hm; cases h
      · obtain ⟨h1, h2, h3, h4⟩ := hB
        refine ⟨by simp only at h1 ⊢; omega, h2, h3, fun j' t hj hm => ?_⟩
        rcases Nat.lt_succ_iff_lt_or_eq.1 hj with hj | rfl
        · exact h4 j' t hj hm
        · obtain ⟨φ', j'', x', h, hle⟩ := hno t hm
          injection h with h
          injection h with h _
          subst h
          rcases hle.lt_or_eq with h | h
          · exact Or.inl h
          · exact Or.inr ⟨h, Nat.le_of_lt h1⟩
    by_cases hD : (b.y - a.y) * (s2.x - s1.x) - (b.x - a.x) * (s2.y - s1.y) ≠ 0
    · rw [if_pos hD]
      have hm := meets_iff (a := a) (b := b) (s1 := s1) (s2 := s2) hD
      set φa := ((b.x - a.x) * (s1.y - a.y) - (b.y - a.y) * (s1.x - a.x)) / ((b.y - a.y) * (s2.x - s1.x) - (b.x - a.x) * (s2.y - s1.y)) with hφ
      set φb := ((s2.x - s1.x) * (s1.y - a.y) - (s2.y - s1.y) * (s1.x - a.x)) / ((b.y - a.y) * (s2.x - s1.x) - (b.x - a.x) * (s2.y - s1.y)) with hφb
      have hme : ∀ t, Meets vs s1 s2 i t ↔ t = φa ∧ 0 ≤ φa ∧ φa ≤ 1 ∧ 0 ≤ φb ∧ φb ≤ 1 := by
        intro t
        unfold Meets
        rw [← ha, ← hbb, hm t]
        constructor
        · rintro ⟨-, t0, t1, ⟨e, w0, w1⟩, -⟩
          exact ⟨e, e ▸ t0, e ▸ t1, w0, w1⟩
        · rintro ⟨e, t0, t1, w0, w1⟩
          exact ⟨hk, e ▸ t0, e ▸ t1, ⟨e, w0, w1⟩, sub_ne_zero.1 hD⟩
      split_ifs with hc
      · obtain ⟨c1, c2, c3, c4, c5⟩ := hc
        refine closest_ok vs s1 s2 hb is (i + 1) _ e2 ⟨by simp, (hme _).2 ⟨rfl, c1, c2, c3, c4⟩, rfl, fun j t hj hmj => ?_⟩
        rcases Nat.lt_succ_iff_lt_or_eq.1 hj with hj | rfl
        · rcases best with _ | ⟨φ, j', x⟩
          · exact absurd hmj (hB j t hj)
          · obtain ⟨h1, h2, h3, h4⟩ := hB
            left
            rcases h4 j t hj hmj with h | ⟨h, _⟩
            · exact lt_trans c5 h
            · exact h ▸ c5
        · exact Or.inr ⟨((hme t).1 hmj).1.symm, le_refl _⟩
      · refine closest_ok vs s1 s2 hb is (i + 1) _ e2 (keep fun t hmt => ?_)
        obtain ⟨e, c1, c2, c3, c4⟩ := (hme t).1 hmt
        rcases best with _ | ⟨φ, j', x⟩
        · exact absurd ⟨c1, c2, c3, c4, lt_of_le_of_lt c2 hb⟩ hc
        · refine ⟨φ, j', x, rfl, ?_⟩
          by_contra hn
          exact hc ⟨c1, c2, c3, c4, by rw [e] at hn; exact not_le.1 hn⟩
    · rw [if_neg hD]
      refine closest_ok vs s1 s2 hb is (i + 1) _ e2 (keep fun t hmt => ?_)
      exact absurd (sub_ne_zero.2 hmt.2.2.2.2) hD

/-- `closestIntersection` returns the first edge, among those not parallel to the segment, that is met nearest to `s1`, and the common point; nothing only if no such edge is met. -/
theorem C93_closest (vs : List (V2 K)) (s1 s2 : V2 K) {big : K} (hb : 1 < big) :
    ∃ r, closestIntersection vs s1 s2 big = .ok r ∧
      (r = none → ∀ j t, ¬ Meets vs s1 s2 j t) ∧
      (∀ i x, r = some (i, x) → ∃ φ, Meets vs s1 s2 i φ ∧ x = lerp2 s1 s2 φ ∧ ∀ j t, Meets vs s1 s2 j t → φ < t ∨ (φ = t ∧ i ≤ j)) := by
  obtain ⟨r, h1, h2⟩ := closest_ok vs s1 s2 hb (List.range vs.length) 0 none (by rw [List.range_eq_range']; simp) (fun j t hj => absurd hj (by omega))
  refine ⟨r.map fun t => t.2, by simp [closestIntersection, h1], ?_, ?_⟩
  · intro hn j t hm
    rcases r with _ | ⟨φ, i, x⟩
    · exact h2 j t hm.1 hm
    · cases hn
  · intro i x hr
    rcases r with _ | ⟨φ, i', x'⟩
    · cases hr
    · injection hr with hr
      injection hr with e1 e2
      subst e1; subst e2
      obtain ⟨g1, g2, g3, g4⟩ := h2
      exact ⟨φ, g2, g3, fun j t hm => g4 j t hm.1 hm⟩

/-- Edges parallel to the segment are left out, even if they contain it. -/
theorem C93_parallel_fails : closestIntersection arrow ⟨1 / 2, 1 / 2⟩ ⟨1, 1⟩ 100 = .ok none ∧ OnSeg (edge arrow 0).1 (edge arrow 0).2 ⟨1, 1⟩ :=
  ⟨by decide +kernel, 1 / 2, by norm_num, by norm_num, by decide +kernel⟩

example : closestIntersection arrow ⟨2, 1⟩ ⟨2, 9⟩ 100 = .ok (some (0, ⟨2, 2⟩)) ∧ closestIntersection arrow ⟨1, 3⟩ ⟨4, 3⟩ 100 = .ok (some (3, ⟨3 / 2, 3⟩)) ∧ closestIntersection arrow ⟨5, 0⟩ ⟨6, 1⟩ 100 = .ok none := by decide +kernel

/-- `project` to a horizontal edge gives its nearest point. The last edge is missing: see below. -/
theorem C93_project_partial (dbg : Bool) {vs : List (V2 K)} {i : Nat} (hi : i + 1 < vs.length) (hx : (edge vs i).1.x ≠ (edge vs i).2.x) (hy : (edge vs i).1.y = (edge vs i).2.y) (p : V2 K) :
    ∃ q, projectEdge dbg vs p i = .ok q ∧ NearestOn (edge vs i) p q := by
  have hm : (i + 1) % vs.length = i + 1 := Nat.mod_eq_of_lt hi
  have ⟨r1, r2⟩ := edge_rd (vs := vs) (i := i) (by omega)
  rw [hm] at r2
  set a := (edge vs i).1 with ha
  set b := (edge vs i).2 with hb
  have hne : b.x - a.x ≠ 0 := sub_ne_zero.2 (Ne.symm hx)
  set t := ((p.x - a.x) * (b.x - a.x) + (p.y - a.y) * (b.y - a.y)) / ((b.x - a.x) * (b.x - a.x) + (b.y - b.y) * (b.y - b.y)) with ht
  have ht' : t * (b.x - a.x) = p.x - a.x := by rw [ht, hy]; field_simp; ring
  set t' := if t < 0 then 0 else if t > 1 then 1 else t with htt
  refine ⟨⟨a.x + t' * (b.x - a.x), a.y + t' * (b.y - a.y)⟩, ?_, ⟨t', ?_, ?_, ?_⟩, ?_⟩
  · unfold projectEdge
    have c1 : ((i : Int) < vs.length) := by exact_mod_cast (by omega : i < vs.length)
    simp only [Res.bind_eq]
    rw [Res.assert_true dbg (by omega : (0 : Int) ≤ (i : Int)), Res.bind_ok, Res.assert_true dbg c1, Res.bind_ok, if_neg (by omega)]
    simp only [Int.toNat_natCast, r1, r2, Res.bind_ok]
    rfl
  · rw [htt]; split_ifs with h1 h2
    · exact le_refl _
    · exact zero_le_one
    · exact not_lt.1 h1
  · rw [htt]; split_ifs with h1 h2
    · exact zero_le_one
    · exact le_refl _
    · exact not_lt.1 h2
  · rfl
  · rintro r ⟨w, w0, w1, rfl⟩
    rw [← ha, ← hb]
    unfold sq2 lerp2
    simp only
    rw [hy]
    have e1 : ∀ u : K, p.x - (a.x + u * (b.x - a.x)) = (t - u) * (b.x - a.x) := fun u => by linear_combination -ht'
    rw [e1, e1]
    have hs := sq_nonneg (b.x - a.x)
    have key : (t - t') ^ 2 ≤ (t - w) ^ 2 := by
      rw [htt]; split_ifs with h1 h2
      · nlinarith
      · nlinarith
      · rw [sub_self]; nlinarith [sq_nonneg (t - w)]
    have := mul_le_mul_of_nonneg_right key hs
    nlinarith

/-- On no slanted edge: even its own middle is moved. -/
theorem C93_project_fails (dbg : Bool) {vs : List (V2 K)} {i : Nat} (hi : i + 1 < vs.length) (hx : (edge vs i).1.x ≠ (edge vs i).2.x) (hy : (edge vs i).1.y ≠ (edge vs i).2.y) :
    ∃ q, projectEdge dbg vs (lerp2 (edge vs i).1 (edge vs i).2 (1 / 2)) i = .ok q ∧ ¬ NearestOn (edge vs i) (lerp2 (edge vs i).1 (edge vs i).2 (1 / 2)) q := by
  have hm : (i + 1) % vs.length = i + 1 := Nat.mod_eq_of_lt hi
  have ⟨r1, r2⟩ := edge_rd (vs := vs) (i := i) (by omega)
  rw [hm] at r2
  set a := (edge vs i).1 with ha
  set b := (edge vs i).2 with hb
  have hne : b.x - a.x ≠ 0 := sub_ne_zero.2 (Ne.symm hx)
  have hny : b.y - a.y ≠ 0 := sub_ne_zero.2 (Ne.symm hy)
  set p := lerp2 a b (1 / 2) with hp
  set t := ((p.x - a.x) * (b.x - a.x) + (p.y - a.y) * (b.y - a.y)) / ((b.x - a.x) * (b.x - a.x) + (b.y - b.y) * (b.y - b.y)) with ht
  have sx : 0 < (b.x - a.x) ^ 2 := lt_of_le_of_ne (sq_nonneg _) (Ne.symm (pow_ne_zero 2 hne))
  have sy : 0 < (b.y - a.y) ^ 2 := lt_of_le_of_ne (sq_nonneg _) (Ne.symm (pow_ne_zero 2 hny))
  have ht' : t * (b.x - a.x) ^ 2 = 1 / 2 * ((b.x - a.x) ^ 2 + (b.y - a.y) ^ 2) := by
    rw [ht, hp]; unfold lerp2; simp only; field_simp; ring
  have htl : 1 / 2 < t := by
    by_contra hn
    have := mul_le_mul_of_nonneg_right (not_lt.1 hn) sx.le
    linarith
  set t' := if t < 0 then 0 else if t > 1 then 1 else t with htt
  have hne' : 1 / 2 < t' := by
    rw [htt]; split_ifs with h1 h2
    · linarith
    · norm_num
    · exact htl
  refine ⟨⟨a.x + t' * (b.x - a.x), a.y + t' * (b.y - a.y)⟩, ?_, ?_⟩
  · unfold projectEdge
    have c1 : ((i : Int) < vs.length) := by exact_mod_cast (by omega : i < vs.length)
    simp only [Res.bind_eq]
    rw [Res.assert_true dbg (by omega : (0 : Int) ≤ (i : Int)), Res.bind_ok, Res.assert_true dbg c1, Res.bind_ok, if_neg (by omega)]
    simp only [Int.toNat_natCast, r1, r2, Res.bind_ok]
    rfl
  · rintro ⟨-, h⟩
    have := h p ⟨1 / 2, by norm_num, by norm_num, rfl⟩
    have e : sq2 p ⟨a.x + t' * (b.x - a.x), a.y + t' * (b.y - a.y)⟩ = (1 / 2 - t') ^ 2 * ((b.x - a.x) ^ 2 + (b.y - a.y) ^ 2) := by
      rw [hp]; unfold sq2 lerp2; simp only; ring
    have e0 : sq2 p p = 0 := by unfold sq2; ring
    rw [e, e0] at this
    have : 0 < (1 / 2 - t') ^ 2 * ((b.x - a.x) ^ 2 + (b.y - a.y) ^ 2) := mul_pos (by nlinarith) (by linarith)
    linarith

/-- The last edge is read past the end, whatever the polygon. -/
theorem C93_last_fails (dbg : Bool) {vs : List (V2 K)} (h : vs ≠ []) (p : V2 K) : projectEdge dbg vs p (vs.length - 1 : Nat) = .ub := by
  have hl : 0 < vs.length := List.length_pos_iff.2 h
  unfold projectEdge
  simp only [Res.bind_eq]
  rw [Res.assert_true dbg (by omega), Res.bind_ok, Res.assert_true dbg (by omega), Res.bind_ok, if_neg (by omega)]
  have ⟨r1, _⟩ := edge_rd (vs := vs) (i := vs.length - 1) (by omega)
  have r2 : rd vs (vs.length - 1 + 1) = .ub := by rw [Nat.sub_add_cancel hl]; simp [rd]
  simp only [Int.toNat_natCast, r1, r2, Res.bind_ok, Res.bind_ub]
end

/-- `distanceToEdge` of an edge that is not the last is the distance to its middle: not zero at its ends. -/
theorem C93_distance_fails {vs : List (V2 ℝ)} {i : Nat} (hi : i + 1 < vs.length) (hne : (edge vs i).1 ≠ (edge vs i).2) :
    ∃ d, distanceToEdge vs (edge vs i).1 i = .ok d ∧ d = dist2 (edge vs i).1 (edge vs i).2 / 2 ∧ 0 < d := by
  have hm : (i + 1) % vs.length = i + 1 := Nat.mod_eq_of_lt hi
  have ⟨r1, r2⟩ := edge_rd (vs := vs) (i := i) (by omega)
  rw [hm] at r2
  have hm2 : (i + 1) % (2 * vs.length) = i + 1 := Nat.mod_eq_of_lt (by omega)
  set a := (edge vs i).1
  set b := (edge vs i).2
  have hd : 0 < sq2 a b := by
    have h1 : 0 ≤ sq2 a b := add_nonneg (sq_nonneg _) (sq_nonneg _)
    refine lt_of_le_of_ne h1 fun h0 => hne ?_
    unfold sq2 at h0
    have hx : (a.x - b.x) ^ 2 = 0 := by nlinarith [sq_nonneg (a.x - b.x), sq_nonneg (a.y - b.y)]
    have hy : (a.y - b.y) ^ 2 = 0 := by nlinarith [sq_nonneg (a.x - b.x), sq_nonneg (a.y - b.y)]
    exact V2.ext (sub_eq_zero.1 (pow_eq_zero_iff (two_ne_zero) |>.1 hx)) (sub_eq_zero.1 (pow_eq_zero_iff (two_ne_zero) |>.1 hy))
  have hh : dist2 a b / 2 = Real.sqrt ((a.x - 1 / 2 * (a.x + b.x)) * (a.x - 1 / 2 * (a.x + b.x)) + (a.y - 1 / 2 * (a.y + b.y)) * (a.y - 1 / 2 * (a.y + b.y))) := by
    have e : (a.x - 1 / 2 * (a.x + b.x)) * (a.x - 1 / 2 * (a.x + b.x)) + (a.y - 1 / 2 * (a.y + b.y)) * (a.y - 1 / 2 * (a.y + b.y)) = sq2 a b / 2 ^ 2 := by unfold sq2; ring
    rw [e, Real.sqrt_div hd.le, Real.sqrt_sq (by norm_num)]
    rfl
  refine ⟨dist2 a b / 2, ?_, rfl, ?_⟩
  · unfold distanceToEdge middle
    simp only [hm2, r1, r2, Res.bind_eq, Res.bind_ok, Res.pure_eq]
    rw [hh]
  · exact div_pos (Real.sqrt_pos.2 hd) (by norm_num)

theorem middle_last {vs : List (V2 ℝ)} (h : vs ≠ []) : middle vs (vs.length - 1) = .ub := by
  have hl : 0 < vs.length := List.length_pos_iff.2 h
  unfold middle
  have ⟨r1, _⟩ := edge_rd (vs := vs) (i := vs.length - 1) (by omega)
  have hm2 : (vs.length - 1 + 1) % (2 * vs.length) = vs.length := by rw [Nat.sub_add_cancel hl]; exact Nat.mod_eq_of_lt (by omega)
  have r2 : rd vs vs.length = .ub := by simp [rd]
  simp only [hm2, r1, r2, Res.bind_eq, Res.bind_ok, Res.bind_ub]

theorem nearestLoop_ub {vs : List (V2 ℝ)} (h : vs ≠ []) (p : V2 ℝ) : ∀ (l : List Nat) (m : ℝ) (e : Int), (∀ i ∈ l, i < vs.length) → vs.length - 1 ∈ l → nearestLoop vs p l m e = .ub
  | [], _, _, _, hm => by simp at hm
  | i :: l, m, e, hl, hm => by
    unfold nearestLoop
    by_cases hi : i = vs.length - 1
    · rw [hi]; simp [distanceToEdge, middle_last h]
    · have hlt : i + 1 < vs.length := by have := hl i (by simp); omega
      have ⟨r1, r2⟩ := edge_rd (vs := vs) (i := i) (by omega)
      rw [Nat.mod_eq_of_lt hlt] at r2
      have hm2 : (i + 1) % (2 * vs.length) = i + 1 := Nat.mod_eq_of_lt (by omega)
      have : ∃ d, distanceToEdge vs p i = .ok d := by
        unfold distanceToEdge middle
        simp only [hm2, r1, r2, Res.bind_eq, Res.bind_ok, Res.pure_eq]
        exact ⟨_, rfl⟩
      obtain ⟨d, hd⟩ := this
      have hm' : vs.length - 1 ∈ l := by
        rcases List.mem_cons.1 hm with hm | hm
        · exact absurd hm.symm hi
        · exact hm
      simp only [hd, Res.bind_eq, Res.bind_ok]
      split_ifs
      · exact nearestLoop_ub h p l _ _ (fun j hj => hl j (by simp [hj])) hm'
      · exact nearestLoop_ub h p l _ _ (fun j hj => hl j (by simp [hj])) hm'

/-- `nearestEdge`, `nearestEdgePosition` and `project` to the nearest edge read past the end for every polygon. -/
theorem C93_nearest_fails (dbg : Bool) {vs : List (V2 ℝ)} (h : vs ≠ []) (p : V2 ℝ) (big : ℝ) (out : V2 ℝ) :
    nearestEdge vs p big = .ub ∧ nearestEdgePosition vs p big = .ub ∧ project dbg vs p big out = .ub := by
  have hl : 0 < vs.length := List.length_pos_iff.2 h
  have h1 : nearestEdge vs p big = .ub := nearestLoop_ub h p _ _ _ (fun i hi => List.mem_range.1 hi) (List.mem_range.2 (by omega))
  refine ⟨h1, by simp [nearestEdgePosition, h1], ?_⟩
  have loop : ∀ (l : List Nat) (m : ℝ) (o : V2 ℝ), (∀ i ∈ l, i < vs.length) → vs.length - 1 ∈ l → projectLoop dbg vs p l m o = .ub := by
    intro l
    induction l with
    | nil => intro _ _ _ hm; simp at hm
    | cons i l ih =>
      intro m o hli hm
      unfold projectLoop
      by_cases hi : i = vs.length - 1
      · have := C93_last_fails dbg h p
        rw [← hi] at this
        simp [this]
      · have hlt : i + 1 < vs.length := by have := hli i (by simp); omega
        have ⟨r1, r2⟩ := edge_rd (vs := vs) (i := i) (by omega)
        rw [Nat.mod_eq_of_lt hlt] at r2
        have : ∃ q, projectEdge dbg vs p i = .ok q := by
          unfold projectEdge
          simp only [Res.bind_eq]
          rw [Res.assert_true dbg (by omega), Res.bind_ok, Res.assert_true dbg (by omega), Res.bind_ok, if_neg (by omega)]
          simp only [Int.toNat_natCast, r1, r2, Res.bind_ok]
          exact ⟨_, rfl⟩
        obtain ⟨q, hq⟩ := this
        have hm' : vs.length - 1 ∈ l := by
          rcases List.mem_cons.1 hm with hm | hm
          · exact absurd hm.symm hi
          · exact hm
        simp only [hq, Res.bind_eq, Res.bind_ok]
        split_ifs
        · exact ih _ _ (fun j hj => hli j (by simp [hj])) hm'
        · exact ih _ _ (fun j hj => hli j (by simp [hj])) hm'
  exact loop _ _ _ (fun i hi => List.mem_range.1 hi) (List.mem_range.2 (by omega))

example : ∃ q, projectEdge true [⟨0, 0⟩, ⟨4, 0⟩, ⟨4, 4⟩] (⟨1, 3⟩ : V2 ℚ) 0 = .ok q ∧ NearestOn (edge [⟨0, 0⟩, ⟨4, 0⟩, ⟨4, 4⟩] 0) ⟨1, 3⟩ q :=
  C93_project_partial true (by decide) (by decide +kernel) (by decide +kernel) _
example : new true [⟨0, 0⟩, ⟨4, 0⟩, (⟨4, 4⟩ : V2 ℚ)] = .ok [⟨0, 0⟩, ⟨4, 0⟩, ⟨4, 4⟩] := by decide +kernel
end Verif.Poly
