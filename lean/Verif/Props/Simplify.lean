import Verif.Proofs.SimplifyOut
import Verif.Props.Unique
import Mathlib.Tactic.IntervalCases
/- C85: the 2D version of `simplifyPLCfacets`. -/
namespace Verif.Simplify
open Verif Verif.Mesh Verif.Internal Verif.Geom Verif.Hash Verif.Points

theorem norm_dot (u w : V2 ℝ) : |dot2 (u.div (Real.sqrt (dot2 u u))) (w.div (Real.sqrt (dot2 w w)))| = |dot2 u w| / Real.sqrt (dot2 u u * dot2 w w) := by
  have hu : 0 ≤ dot2 u u := by simp only [dot2]; nlinarith [mul_self_nonneg u.x, mul_self_nonneg u.y]
  have e : dot2 (u.div (Real.sqrt (dot2 u u))) (w.div (Real.sqrt (dot2 w w))) = dot2 u w / (Real.sqrt (dot2 u u) * Real.sqrt (dot2 w w)) := by
    have : ∀ s t : ℝ, dot2 (u.div s) (w.div t) = dot2 u w / (s * t) := by
      intro s t
      simp only [dot2, V2.div, div_mul_div_comm, add_div]
    exact this _ _
  rw [e, ← Real.sqrt_mul hu, abs_div, abs_of_nonneg (Real.sqrt_nonneg _)]

theorem dot_cross (a b c : V2 ℝ) : dot2 (b - a) (c - a) ^ 2 + area2 a b c ^ 2 = dot2 (b - a) (b - a) * dot2 (c - a) (c - a) := by
  simp only [dot2, area2, V2.sub_x, V2.sub_y]; ring

/-- Points exactly on a line pass the test. -/
theorem collinear2_of_flat {a b c : V2 ℝ} {tol : ℝ} (ht : 0 < tol) (hab : a ≠ b) (h : area2 a b c = 0) : collinear2 a b c tol := by
  by_cases hc : a = c
  · subst hc
    exact Or.inr (Or.inl (by simpa [dot2] using ht))
  · refine Or.inr (Or.inr ?_)
    have h1 := dot2_pos hab
    have h2 := dot2_pos hc
    have h3 := dot_cross a b c
    rw [h] at h3
    have h4 : dot2 (b - a) (b - a) * dot2 (c - a) (c - a) = |dot2 (b - a) (c - a)| ^ 2 := by rw [← h3, sq_abs]; ring
    have h5 : 0 < |dot2 (b - a) (c - a)| := by
      have := mul_pos h1 h2
      rw [h4] at this
      exact (sq_pos_iff.1 this).lt_of_le' (abs_nonneg _)
    rw [norm_dot, h4, Real.sqrt_sq h5.le, div_self h5.ne', sub_self, abs_zero]
    exact ht

/-- Points that pass the test are on a line, if the sides are long and the angle is wide enough. -/
theorem flat_of_collinear2 {a b c : V2 ℝ} {tol : ℝ} (h1 : tol ≤ dot2 (b - a) (b - a)) (h2 : tol ≤ dot2 (c - a) (c - a)) (hpos : 0 < tol)
    (h3 : 2 * tol * (dot2 (b - a) (b - a) * dot2 (c - a) (c - a)) ≤ area2 a b c ^ 2) : ¬ collinear2 a b c tol := by
  rintro (h | h | h)
  · linarith
  · linarith
  · rw [norm_dot] at h
    have hm : 0 < dot2 (b - a) (b - a) * dot2 (c - a) (c - a) := mul_pos (by linarith) (by linarith)
    have hd := dot_cross a b c
    set m := dot2 (b - a) (b - a) * dot2 (c - a) (c - a)
    set d := dot2 (b - a) (c - a)
    have hs := Real.sqrt_pos.2 hm
    have hs2 := Real.sq_sqrt hm.le
    set s := Real.sqrt m
    have hc : (|d| / s) ^ 2 ≤ 1 - 2 * tol := by
      rw [div_pow, sq_abs, hs2, div_le_iff₀ hm]
      nlinarith
    have hc0 : 0 ≤ |d| / s := by positivity
    rw [abs_lt] at h
    nlinarith [h.1, h.2]

/-- The test of the library finds the points on one line. -/
theorem Resolved.test {facets : List (List Int)} {points : List (V2 ℝ)} {tol : ℝ} (ht : 0 < tol) (h : Resolved tol facets points) (hc : ClosedPolygon facets points) {k : Nat} {p q : V2 ℝ}
    (hj : Joined facets points k p q) {l : Nat} {r s : V2 ℝ} (hl : Joined facets points l r s) : collinear2 p q r tol ↔ area2 p q r = 0 := by
  constructor
  · intro hcol
    by_contra hz
    obtain ⟨h1, h2, h3⟩ := h k p q l r s hj hl hz
    exact flat_of_collinear2 h1 h2 ht h3 hcol
  · refine collinear2_of_flat ht ?_
    obtain ⟨P, O, ha⟩ := hc.around
    obtain ⟨a, _, e⟩ := ha.of_joined hj
    have hne : P a ≠ P (a + 1) := by
      intro e
      have h3 := ha.three
      have := dvd_small ((ha.inj _ _).1 e) (by omega) (by omega)
      omega
    rcases e with ⟨rfl, rfl⟩ | ⟨rfl, rfl⟩
    · exact hne
    · exact hne.symm

theorem unique_eq (big : Key → Nat → Key) (dbg : Bool) {eps tol : ℝ} (he : 0 < eps) {b : HBox} (hb : nested b b) {points : List (V2 ℝ)} (hp : ∀ p ∈ points, inBox b p)
    (hsame : ∀ p ∈ points, ∀ q ∈ points, sameHash eps tol b p q → p = q) :
    ∃ uniq ix, uniquePoints2 (wrapping big) dbg eps tol b points = .ok (uniq, ix) ∧ FirstOf (· = ·) points uniq ix := by
  obtain ⟨u, ix, h1, h2, _⟩ := C21_partial big dbg (tol := tol) he hb hp
  refine ⟨u, ix, h1, h2.congr ?_⟩
  intro p hpm q hqm
  refine ⟨hsame p hpm q hqm, ?_⟩
  rintro rfl
  exact ⟨rfl, by omega⟩

/-- C85: the 2D version of `simplifyPLCfacets` on a closed polygon whose sides are long and whose turns are sharp enough for the tolerance. It returns a closed polygon without holes. The
points are the corners at which the input turns, in their old order, each once, and the new polygon turns at all of them. It is the same curve, if the input does not turn back on itself. If the
facets of the input run one after the other, the same area is enclosed, up to the sign: the new facets run like the first facet of the input, if its first end comes first among the points, and
the other way round otherwise. Missing: the holes, the direction, points that share a hash value, and sides shorter than the root of the tolerance (see the theorems below). -/
theorem C85_simplify_partial (big : Key → Nat → Key) (dbg : Bool) {eps tol : ℝ} (he : 0 < eps) (ht : 0 < tol) {b : HBox} (hb : nested b b) {plc : PLC} {points : List (V2 ℝ)}
    (hp : ∀ p ∈ points, inBox b p) (hsame : ∀ p ∈ points, ∀ q ∈ points, sameHash eps tol b p q → p = q) (hc : ClosedPolygon plc.facets points)
    (hturn : ∃ q, TurnsAt plc.facets points q) (hres : Resolved tol plc.facets points) :
    ∃ r, simplify2 (wrapping big) dbg eps tol b plc points = .ok r ∧ r.holes = [] ∧ ClosedPolygon r.facets r.points ∧ Directed r.facets r.points ∧
      r.points.Sublist points ∧ r.points.Nodup ∧ (∀ q, q ∈ r.points ↔ TurnsAt plc.facets points q) ∧ (∀ q ∈ r.points, TurnsAt r.facets r.points q) ∧
      (NoSpikes plc.facets points → ∀ x, OnFacets r.facets r.points x ↔ OnFacets plc.facets points x) ∧
      (Directed plc.facets points → ∀ p q, Side plc.facets points 0 p q →
        (Before points p q ∧ enclosed r.facets r.points = enclosed plc.facets points) ∨ (Before points q p ∧ enclosed r.facets r.points = - enclosed plc.facets points)) := by
  classical
  obtain ⟨u, ix, h1, h2⟩ := unique_eq big dbg he hb hp hsame
  obtain ⟨r, P, O, v, new, f, h3, h4⟩ := simplifyWith_ok dbg (coll := fun p q r => @decide (collinear2 p q r tol) (Classical.propDecidable _)) h2 hc hturn (by
    intro k p q hj l r s hl
    rw [decide_eq_true_eq]
    exact hres.test ht hc hj hl)
  refine ⟨r, ?_, h4.holes, h4.closed, h4.directed, h4.sub, ?_, h4.mem_iff, fun q hq => h4.turns_out hq, fun hs x => h4.onFacets hs x, ?_⟩
  · rw [simplify2, Res.bind_eq, h1, Res.bind_ok]
    exact h3
  · exact h4.nodup
  · intro hd p q hs
    obtain ⟨e1, e2⟩ := h4.enclosed_sign hd hs
    rcases h4.before_out hs with hbf | hbf
    · exact Or.inl ⟨hbf, e1 hbf⟩
    · exact Or.inr ⟨hbf, e2 hbf⟩

/-- The holes of the PLC are always lost. -/
theorem C85_holes_fails (A : Arith) (dbg : Bool) {eps tol : ℝ} {b : HBox} {plc : PLC} {points : List (V2 ℝ)} {r : Plc (V2 ℝ)} (h : simplify2 A dbg eps tol b plc points = .ok r) : r.holes = [] := by
  unfold simplify2 simplifyWith at h
  simp only [Res.bind_eq] at h
  obtain ⟨u, _, h⟩ := Res.bind_eq_ok.1 h
  obtain ⟨x1, _, h⟩ := Res.bind_eq_ok.1 h
  obtain ⟨x2, _, h⟩ := Res.bind_eq_ok.1 h
  obtain ⟨x3, _, h⟩ := Res.bind_eq_ok.1 h
  obtain ⟨x4, _, h⟩ := Res.bind_eq_ok.1 h
  obtain ⟨x5, _, h⟩ := Res.bind_eq_ok.1 h
  obtain ⟨x6, _, h⟩ := Res.bind_eq_ok.1 h
  obtain ⟨x7, _, h⟩ := Res.bind_eq_ok.1 h
  obtain ⟨x8, _, h⟩ := Res.bind_eq_ok.1 h
  obtain ⟨x9, _, h⟩ := Res.bind_eq_ok.1 h
  obtain ⟨x10, _, h⟩ := Res.bind_eq_ok.1 h
  obtain ⟨x11, _, h⟩ := Res.bind_eq_ok.1 h
  simp only [Res.pure_eq, Res.ok.injEq] at h
  rw [← h]

/-- If the first facet of the input runs from a point to one that comes before it, the result is turned over: an area enclosed counterclockwise is enclosed clockwise, and the other way
round. -/
theorem C85_orientation_fails (big : Key → Nat → Key) (dbg : Bool) {eps tol : ℝ} (he : 0 < eps) (ht : 0 < tol) {b : HBox} (hb : nested b b) {plc : PLC} {points : List (V2 ℝ)}
    (hp : ∀ p ∈ points, inBox b p) (hsame : ∀ p ∈ points, ∀ q ∈ points, sameHash eps tol b p q → p = q) (hc : ClosedPolygon plc.facets points)
    (hturn : ∃ q, TurnsAt plc.facets points q) (hres : Resolved tol plc.facets points) (hd : Directed plc.facets points) {p q : V2 ℝ} (hs : Side plc.facets points 0 p q) (hbef : Before points q p)
    (harea : enclosed plc.facets points ≠ 0) :
    ∃ r, simplify2 (wrapping big) dbg eps tol b plc points = .ok r ∧ enclosed r.facets r.points = - enclosed plc.facets points ∧ enclosed r.facets r.points ≠ enclosed plc.facets points := by
  obtain ⟨r, h1, _, _, _, _, _, _, _, _, h⟩ := C85_simplify_partial big dbg he ht hb hp hsame hc hturn hres
  rcases h hd p q hs with ⟨hb', _⟩ | ⟨_, e⟩
  · exact absurd hb' hbef.asymm
  · refine ⟨r, h1, e, ?_⟩
    rw [e]
    intro e2
    apply harea
    linarith

section
variable {V : Type} {coll : V → V → V → Bool} {pts : List V} {es : List Edge} {n : Nat} {v : Int → Int} {P : Int → V}

theorem always (hes : ∀ i : Nat, i < n → es[i]? = some (v i, v (i + 1))) (hv : ∀ a, rdi pts (v a) = .ok (P a)) (hcoll : ∀ i : Nat, ∀ x, coll (P i) (P (i + 1)) x = true) {i j : Nat} (hi : i < n) (hj : j < n) :
    (do let e ← rd es i; let d ← rd es j; collAt coll pts e.1 e.2 d.1) = .ok true ∧ (do let e ← rd es i; let d ← rd es j; collAt coll pts e.1 e.2 d.2) = .ok true := by
  constructor <;>
  simp only [Res.bind_eq, rd_eq_ok.2 (hes i hi), rd_eq_ok.2 (hes j hj), Res.bind_ok, collAt, hv, Res.pure_eq, hcoll]

theorem findStart_always (hes : ∀ i : Nat, i < n → es[i]? = some (v i, v (i + 1))) (hv : ∀ a, rdi pts (v a) = .ok (P a)) (hcoll : ∀ i : Nat, ∀ x, coll (P i) (P (i + 1)) x = true) :
    ∀ k i : Nat, i + k = n → findStart coll pts es n k i = .ok n
  | 0, i, h => by rw [findStart]; congr
  | k + 1, i, h => by
    rw [findStart, Res.bind_eq, startTest, (always hes hv hcoll (by omega) (Nat.mod_lt _ (by omega))).1, Res.bind_ok, if_pos rfl]
    exact findStart_always hes hv hcoll k (i + 1) (by omega)

theorem runLength_always (hes : ∀ i : Nat, i < n → es[i]? = some (v i, v (i + 1))) (hv : ∀ a, rdi pts (v a) = .ok (P a)) (hcoll : ∀ i : Nat, ∀ x, coll (P i) (P (i + 1)) x = true) {i : Nat} (hi : i < n) :
    ∀ k c : Nat, runLength coll pts es n i k c = .ub
  | 0, c => rfl
  | k + 1, c => by
    rw [runLength, Res.bind_eq, runTest, (always hes hv hcoll hi (Nat.mod_lt _ (by omega))).2, Res.bind_ok, if_pos rfl]
    exact runLength_always hes hv hcoll hi k (c + 1)
end

/-- A polygon of any shape whose sides are all shorter than the root of the tolerance is not simplified: a debug build aborts, a release build goes on for ever. -/
theorem C85_short_sides_fails (big : Key → Nat → Key) (dbg : Bool) {eps tol : ℝ} (he : 0 < eps) {b : HBox} (hb : nested b b) {plc : PLC} {points : List (V2 ℝ)}
    (hp : ∀ p ∈ points, inBox b p) (hsame : ∀ p ∈ points, ∀ q ∈ points, sameHash eps tol b p q → p = q) (hc : ClosedPolygon plc.facets points)
    (hshort : ∀ k p q, Side plc.facets points k p q → dot2 (q - p) (q - p) < tol) :
    simplify2 (wrapping big) dbg eps tol b plc points = if dbg then .abort else .ub := by
  classical
  obtain ⟨u, ix, h1, h2⟩ := unique_eq big dbg he hb hp hsame
  obtain ⟨P0, O0, ha0⟩ := hc.around
  obtain ⟨edges, m1, m2, m3⟩ := edges_ok dbg h2 ha0
  obtain ⟨v, O, P, c1, c2, c3, c4, ha, _⟩ := cyc_ok h2 ha0 m2 m3
  have h3 := ha.three
  have hes : ∀ i : Nat, i < plc.facets.length → ((List.range plc.facets.length).map fun (i : Nat) => (v i, v (i + 1)))[i]? = some (v i, v (i + 1)) := by
    intro i hi
    simp [hi]
  have hv : ∀ a, rdi u (v a) = .ok (P a) := by
    intro a
    rw [rdi, if_pos (c4 a).1]
    exact rd_eq_ok.2 (c4 a).2
  have hcoll : ∀ i : Nat, ∀ x, (fun p q r => @decide (collinear2 p q r tol) (Classical.propDecidable _)) (P i) (P (i + 1)) x = true := by
    intro i x
    simp only [decide_eq_true_eq]
    refine Or.inl ?_
    rcases ha.joined i with hs | hs
    · exact hshort _ _ _ hs
    · have := hshort _ _ _ hs
      simp only [dot2, V2.sub_x, V2.sub_y] at this ⊢
      linarith
  have ho := orderedEdge_ok c1
  rw [m2] at ho
  rw [simplify2, Res.bind_eq, h1, Res.bind_ok]
  simp only [simplifyWith, Res.bind_eq, m1, Res.bind_ok, c1.closed_loop dbg c2 c3]
  rw [Res.assert_true dbg m2, Res.bind_ok, ho, Res.bind_ok, findStart_always hes hv hcoll _ 0 (by omega), Res.bind_ok]
  cases dbg with
  | true => rw [Res.assert_debug_false (by simp)]; rfl
  | false =>
    have ea : Res.assert false (plc.facets.length ≠ plc.facets.length) = .ok () := by simp [Res.assert]
    rw [ea, Res.bind_ok]
    obtain ⟨k, hk⟩ : ∃ k, plc.facets.length = k + 1 := ⟨plc.facets.length - 1, by omega⟩
    have hw : ∀ w : Nat → Res (List Edge), walk (fun p q r => @decide (collinear2 p q r tol) (Classical.propDecidable _)) u ((List.range plc.facets.length).map fun (i : Nat) => (v i, v (i + 1)))
        plc.facets.length plc.facets.length (k + 1) 0 = .ub := by
      intro _
      rw [walk, if_pos (by omega), Res.bind_eq, runLength_always hes hv hcoll (Nat.mod_lt _ (by omega))]
      rfl
    have := hw fun _ => .ub
    rw [← hk] at this
    rw [this]
    rfl

/-! Concrete cases. -/

/-- A square with a point in the middle of a side. -/
noncomputable def squarePoints : List (V2 ℝ) := [⟨0, 0⟩, ⟨1 / 2, 0⟩, ⟨1, 0⟩, ⟨1, 1⟩, ⟨0, 1⟩]
def squareFacets : List (List Int) := [[0, 1], [1, 2], [2, 3], [3, 4], [4, 0]]
def squareBack : List (List Int) := [[1, 0], [0, 4], [4, 3], [3, 2], [2, 1]]
noncomputable def unitBox : HBox := ⟨⟨0, 0⟩, ⟨1, 1⟩⟩

theorem width_unit {tol : ℝ} (h : 1 / 100 ≤ tol) : width max2 (1 / 1000) tol 0 1 = tol := by
  unfold width max2
  rw [max_eq_right]
  · rw [max_eq_left]; linarith
  · refine le_trans ?_ (le_max_left _ _); norm_num; linarith

theorem square_same : ∀ p ∈ squarePoints, ∀ q ∈ squarePoints, sameHash (1 / 1000) (1 / 11) unitBox p q → p = q := by
  have f : ⌊(11 : ℝ)⌋ = 11 := by norm_num
  have g : ⌊(2⁻¹ * 11 : ℝ)⌋ = 5 := by rw [Int.floor_eq_iff]; norm_num
  intro p hp q hq
  simp only [squarePoints, List.mem_cons, List.not_mem_nil, or_false] at hp hq
  have hw := width_unit (show (1 / 100 : ℝ) ≤ 1 / 11 by norm_num)
  rcases hp with rfl | rfl | rfl | rfl | rfl <;> rcases hq with rfl | rfl | rfl | rfl | rfl <;>
    simp only [sameHash, cellIx, unitBox, hw] <;> simp [f, g]

theorem square_box : ∀ p ∈ squarePoints, inBox unitBox p := by
  intro p hp
  simp only [squarePoints, List.mem_cons, List.not_mem_nil, or_false] at hp
  rcases hp with rfl | rfl | rfl | rfl | rfl <;> norm_num [inBox, unitBox]

theorem square_inj : ∀ i < 5, ∀ j < 5, squarePoints.getD i 0 = squarePoints.getD j 0 → i = j := by
  intro i hi j hj
  interval_cases i <;> interval_cases j <;> norm_num [squarePoints]

theorem square_side : ∀ k < 5, Side squareFacets squarePoints k (squarePoints.getD k 0) (squarePoints.getD ((k + 1) % 5) 0) := by
  intro k hk
  interval_cases k
  · exact ⟨0, 1, rfl, rfl, rfl⟩
  · exact ⟨1, 2, rfl, rfl, rfl⟩
  · exact ⟨2, 3, rfl, rfl, rfl⟩
  · exact ⟨3, 4, rfl, rfl, rfl⟩
  · exact ⟨4, 0, rfl, rfl, rfl⟩

theorem back_side : ∀ k < 5, Side squareBack squarePoints k (squarePoints.getD ((6 - k) % 5) 0) (squarePoints.getD ((5 - k) % 5) 0) := by
  intro k hk
  interval_cases k
  · exact ⟨1, 0, rfl, rfl, rfl⟩
  · exact ⟨0, 4, rfl, rfl, rfl⟩
  · exact ⟨4, 3, rfl, rfl, rfl⟩
  · exact ⟨3, 2, rfl, rfl, rfl⟩
  · exact ⟨2, 1, rfl, rfl, rfl⟩

/-- Pairs of corners of the square that are joined. -/
theorem square_joined {fs : List (List Int)} (hfs : fs = squareFacets ∨ fs = squareBack) {k : Nat} {p q : V2 ℝ} (h : Joined fs squarePoints k p q) :
    p ∈ squarePoints ∧ ((p = ⟨0, 0⟩ ∧ (q = ⟨1 / 2, 0⟩ ∨ q = ⟨0, 1⟩)) ∨ (p = ⟨1 / 2, 0⟩ ∧ (q = ⟨0, 0⟩ ∨ q = ⟨1, 0⟩)) ∨ (p = ⟨1, 0⟩ ∧ (q = ⟨1 / 2, 0⟩ ∨ q = ⟨1, 1⟩)) ∨
      (p = ⟨1, 1⟩ ∧ (q = ⟨1, 0⟩ ∨ q = ⟨0, 1⟩)) ∨ (p = ⟨0, 1⟩ ∧ (q = ⟨1, 1⟩ ∨ q = ⟨0, 0⟩))) := by
  have hk : k < 5 := by
    rcases hfs with rfl | rfl <;> rcases h with ⟨a, b, e, _⟩ | ⟨a, b, e, _⟩ <;> exact (List.getElem?_eq_some_iff.1 e).1
  rcases hfs with rfl | rfl
  · have hs := square_side k hk
    rcases h with h | h <;> obtain ⟨rfl, rfl⟩ := h.fun hs <;> interval_cases k <;> simp [squarePoints]
  · have hs := back_side k hk
    rcases h with h | h <;> obtain ⟨rfl, rfl⟩ := h.fun hs <;> interval_cases k <;> simp [squarePoints]

theorem square_resolved {fs : List (List Int)} (hfs : fs = squareFacets ∨ fs = squareBack) : Resolved (1 / 11) fs squarePoints := by
  intro k p q l r s h1 h2
  obtain ⟨_, h1⟩ := square_joined hfs h1
  obtain ⟨h2, _⟩ := square_joined hfs h2
  simp only [squarePoints, List.mem_cons, List.not_mem_nil, or_false] at h2
  rcases h2 with rfl | rfl | rfl | rfl | rfl <;>
  rcases h1 with ⟨rfl, rfl | rfl⟩ | ⟨rfl, rfl | rfl⟩ | ⟨rfl, rfl | rfl⟩ | ⟨rfl, rfl | rfl⟩ | ⟨rfl, rfl | rfl⟩ <;> norm_num [area2, dot2]

theorem square_closed : ClosedPolygon squareFacets squarePoints ∧ ClosedPolygon squareBack squarePoints := by
  constructor
  · exact ⟨by decide, fun i => squarePoints.getD i 0, id, square_inj, fun i _ j _ h => h, fun k hk => Or.inl (square_side k hk)⟩
  · refine ⟨by decide, fun i => squarePoints.getD i 0, fun k => (5 - k) % 5, square_inj, fun i hi j hj h => ?_, ?_⟩
    · have hi : i < 5 := hi
      have hj : j < 5 := hj
      dsimp only at h
      omega
    · intro k hk
      have hk : k < 5 := hk
      interval_cases k
      · exact Or.inr ⟨1, 0, rfl, rfl, rfl⟩
      · exact Or.inr ⟨2, 1, rfl, rfl, rfl⟩
      · exact Or.inr ⟨3, 2, rfl, rfl, rfl⟩
      · exact Or.inr ⟨4, 3, rfl, rfl, rfl⟩
      · exact Or.inr ⟨0, 4, rfl, rfl, rfl⟩

theorem square_turn : TurnsAt squareFacets squarePoints ⟨1, 0⟩ ∧ TurnsAt squareBack squarePoints ⟨1, 0⟩ := by
  constructor
  · exact ⟨1, 2, ⟨1 / 2, 0⟩, ⟨1, 1⟩, by decide, Or.inl ⟨1, 2, rfl, rfl, rfl⟩, Or.inl ⟨2, 3, rfl, rfl, rfl⟩, by norm_num [area2]⟩
  · exact ⟨4, 3, ⟨1 / 2, 0⟩, ⟨1, 1⟩, by decide, Or.inr ⟨2, 1, rfl, rfl, rfl⟩, Or.inr ⟨3, 2, rfl, rfl, rfl⟩, by norm_num [area2]⟩

theorem unit_nested : nested unitBox unitBox := by norm_num [nested, unitBox]

/-- The point in the middle of the side is taken out, and the corners stay. -/
example (big : Key → Nat → Key) (dbg : Bool) : ∃ r, simplify2 (wrapping big) dbg (1 / 1000) (1 / 11) unitBox { facets := squareFacets } squarePoints = .ok r ∧ ⟨1, 0⟩ ∈ r.points ∧ ⟨1 / 2, 0⟩ ∉ r.points := by
  obtain ⟨r, h1, _, _, _, _, _, h, _⟩ := C85_simplify_partial big dbg (by norm_num) (by norm_num : (0 : ℝ) < 1 / 11) unit_nested (plc := { facets := squareFacets }) square_box square_same
    square_closed.1 ⟨_, square_turn.1⟩ (square_resolved (Or.inl rfl))
  refine ⟨r, h1, (h _).2 square_turn.1, fun hm => ?_⟩
  obtain ⟨k, l, p, s, hkl, hj1, hj2, ha⟩ := (h _).1 hm
  have g1 := (square_joined (Or.inl rfl) hj1.symm).2
  have g2 := (square_joined (Or.inl rfl) hj2).2
  rcases g1 with ⟨e, _⟩ | ⟨_, rfl | rfl⟩ | ⟨e, _⟩ | ⟨e, _⟩ | ⟨e, _⟩ <;> try norm_num at e
  all_goals rcases g2 with ⟨e, _⟩ | ⟨_, rfl | rfl⟩ | ⟨e, _⟩ | ⟨e, _⟩ | ⟨e, _⟩ <;> try norm_num at e
  all_goals norm_num [area2] at ha

/-- The square listed clockwise, from its second point back to the first: the result is counterclockwise. -/
example (big : Key → Nat → Key) (dbg : Bool) : enclosed squareBack squarePoints = -2 ∧
    ∃ r, simplify2 (wrapping big) dbg (1 / 1000) (1 / 11) unitBox { facets := squareBack } squarePoints = .ok r ∧ enclosed r.facets r.points = 2 := by
  have hA : enclosed squareBack squarePoints = -2 := by
    rw [enclosed_eq (fun k hk => back_side k hk)]
    show ∑ k ∈ Finset.range 5, _ = _
    norm_num [Finset.sum_range_succ, squarePoints, cross2]
  refine ⟨hA, ?_⟩
  obtain ⟨r, h1, h2, _⟩ := C85_orientation_fails big dbg (by norm_num) (by norm_num : (0 : ℝ) < 1 / 11) unit_nested (plc := { facets := squareBack }) square_box square_same
    square_closed.2 ⟨_, square_turn.2⟩ (square_resolved (Or.inr rfl)) (by
      intro k l p q p' q' hk hl hne
      have hk5 : k < 5 := by obtain ⟨a, b, e, _⟩ := hk; exact (List.getElem?_eq_some_iff.1 e).1
      have hl5 : l < 5 := by obtain ⟨a, b, e, _⟩ := hl; exact (List.getElem?_eq_some_iff.1 e).1
      obtain ⟨rfl, rfl⟩ := hk.fun (back_side k hk5)
      obtain ⟨rfl, rfl⟩ := hl.fun (back_side l hl5)
      constructor <;> intro h <;> have := square_inj _ (Nat.mod_lt _ (by omega)) _ (Nat.mod_lt _ (by omega)) h <;> omega)
    (p := ⟨1 / 2, 0⟩) (q := ⟨0, 0⟩) ⟨1, 0, rfl, rfl, rfl⟩ ⟨0, rfl, by intro j hj; interval_cases j; norm_num [squarePoints]⟩ (by rw [hA]; norm_num)
  exact ⟨r, h1, by rw [h2, hA]; norm_num⟩

/-- A triangle with sides shorter than the root of the tolerance. -/
example (big : Key → Nat → Key) : simplify2 (wrapping big) true (1 / 1000) (1 / 4) unitBox { facets := [[0, 1], [1, 2], [2, 0]] } [⟨0, 0⟩, ⟨3 / 10, 0⟩, ⟨0, 3 / 10⟩] = .abort ∧
    simplify2 (wrapping big) false (1 / 1000) (1 / 4) unitBox { facets := [[0, 1], [1, 2], [2, 0]] } [⟨0, 0⟩, ⟨3 / 10, 0⟩, ⟨0, 3 / 10⟩] = .ub := by
  have key := fun dbg => C85_short_sides_fails big dbg (eps := 1 / 1000) (tol := 1 / 4) (by norm_num) unit_nested (plc := { facets := [[0, 1], [1, 2], [2, 0]] }) (points := [⟨0, 0⟩, ⟨3 / 10, 0⟩, ⟨0, 3 / 10⟩])
    (by
      intro p hp
      simp only [List.mem_cons, List.not_mem_nil, or_false] at hp
      rcases hp with rfl | rfl | rfl <;> norm_num [inBox, unitBox])
    (by
      have f : ⌊(3 / 10 * 4 : ℝ)⌋ = 1 := by rw [Int.floor_eq_iff]; norm_num
      intro p hp q hq
      simp only [List.mem_cons, List.not_mem_nil, or_false] at hp hq
      have hw := width_unit (show (1 / 100 : ℝ) ≤ 1 / 4 by norm_num)
      rcases hp with rfl | rfl | rfl <;> rcases hq with rfl | rfl | rfl <;>
        simp only [sameHash, cellIx, unitBox, hw] <;> simp [f])
    (by
      refine ⟨by decide, fun i => ([⟨0, 0⟩, ⟨3 / 10, 0⟩, ⟨0, 3 / 10⟩] : List (V2 ℝ)).getD i 0, id, ?_, fun i _ j _ h => h, ?_⟩
      · intro i hi j hj
        have hi : i < 3 := hi
        have hj : j < 3 := hj
        interval_cases i <;> interval_cases j <;> norm_num
      · intro k hk
        have hk : k < 3 := hk
        interval_cases k
        · exact Or.inl ⟨0, 1, rfl, rfl, rfl⟩
        · exact Or.inl ⟨1, 2, rfl, rfl, rfl⟩
        · exact Or.inl ⟨2, 0, rfl, rfl, rfl⟩)
    (by
      rintro k p q ⟨a, b, e, e1, e2⟩
      have hk : k < 3 := (List.getElem?_eq_some_iff.1 e).1
      have hs : Side [[0, 1], [1, 2], [2, 0]] ([⟨0, 0⟩, ⟨3 / 10, 0⟩, ⟨0, 3 / 10⟩] : List (V2 ℝ)) k p q := ⟨a, b, e, e1, e2⟩
      interval_cases k
      · obtain ⟨rfl, rfl⟩ := hs.fun ⟨0, 1, rfl, rfl, rfl⟩; norm_num [dot2]
      · obtain ⟨rfl, rfl⟩ := hs.fun ⟨1, 2, rfl, rfl, rfl⟩; norm_num [dot2]
      · obtain ⟨rfl, rfl⟩ := hs.fun ⟨2, 0, rfl, rfl, rfl⟩; norm_num [dot2])
  exact ⟨key true, key false⟩
end Verif.Simplify
