import Verif.Model.Orphanage
import Verif.Spec.Orphanage
import Mathlib.Tactic.Linarith
import Mathlib.Tactic.Ring
import Mathlib.Tactic.FieldSimp
/-
C108: the orphanage simplifies polygons.
-/
namespace Verif.Props
open Verif Verif.Orphanage Verif.Geom

theorem flat_length : ∀ ps : List (V2 Int), (flat ps).length = 2 * ps.length
  | [] => rfl
  | p :: ps => by simp [flat, flat_length ps]; omega

theorem getPt_ok {points : List Int} {k : Nat} {p : V2 Int} (hx : points[2 * k]? = some p.x) (hy : points[2 * k + 1]? = some p.y) :
    getPt points (Int.ofNat k) = .ok p := by
  have h : ¬ Int.ofNat k < 0 := by simp
  rw [getPt, if_neg h]
  have e : (Int.ofNat k).toNat = k := rfl
  simp only [e, rd_eq_ok.2 hx, rd_eq_ok.2 hy, Res.bind_eq, Res.bind_ok, Res.pure_eq]

theorem cornerLoop_spec (test : V2 Int → V2 Int → V2 Int → Bool) (dbg : Bool) {plc : IPlc} {n : Nat} {id : Nat → Nat} {P : Nat → V2 Int}
    (h : Loop plc.points plc.facets n id P) (hd : dbg = false ∨ ∀ i < n, id i ≠ id ((i + 1) % n) ∧ id i ≠ id (((i + 1) % n + 1) % n)) :
    ∀ is : List Nat, (∀ i ∈ is, i < n) → cornerLoop test dbg plc is =
      .ok (flat ((is.filter fun i => !test (P i) (P ((i + 1) % n)) (P (((i + 1) % n + 1) % n))).map fun i => P ((i + 1) % n)))
  | [], _ => rfl
  | i :: is, hi => by
    obtain ⟨hf, hp⟩ := h
    have hin := hi i (by simp)
    have hn : 0 < n := by omega
    have h1 := Nat.mod_lt (i + 1) hn
    have h2 := Nat.mod_lt ((i + 1) % n + 1) hn
    have hl : plc.facets.length = n := by rw [hf]; simp
    have r1 : rd plc.facets i = .ok [Int.ofNat (id i), Int.ofNat (id ((i + 1) % n))] := rd_eq_ok.2 (by rw [hf]; simp [hin])
    have r2 : rd plc.facets ((i + 1) % plc.facets.length) = .ok [Int.ofNat (id ((i + 1) % n)), Int.ofNat (id (((i + 1) % n + 1) % n))] :=
      rd_eq_ok.2 (by rw [hl, hf]; simp [h1])
    have a3 : Res.assert dbg (Int.ofNat (id i) ≠ Int.ofNat (id ((i + 1) % n)) ∧ Int.ofNat (id i) ≠ Int.ofNat (id (((i + 1) % n + 1) % n)) ∧
        Int.ofNat (id ((i + 1) % n)) ≠ Int.ofNat (id (((i + 1) % n + 1) % n))) = .ok () := by
      rcases hd with rfl | hd
      · simp [Res.assert]
      · refine Res.assert_true _ ⟨?_, ?_, ?_⟩
        · exact fun hh => (hd i hin).1 (by simpa using hh)
        · exact fun hh => (hd i hin).2 (by simpa using hh)
        · exact fun hh => (hd _ h1).1 (by simpa using hh)
    have ih := cornerLoop_spec test dbg ⟨hf, hp⟩ hd is (fun x hx => hi x (by simp [hx]))
    rw [cornerLoop]
    simp only [Res.bind_eq, r1, r2, Res.bind_ok, List.length_cons, List.length_nil]
    rw [Res.assert_true _ (by simp)]
    simp only [Res.bind_ok, rd, List.getElem?_cons_zero, List.getElem?_cons_succ]
    rw [Res.assert_true _ trivial, Res.bind_ok, a3]
    simp only [Res.bind_ok, getPt_ok (hp i hin).1 (hp i hin).2, getPt_ok (hp _ h1).1 (hp _ h1).2, getPt_ok (hp _ h2).1 (hp _ h2).2, ih, Res.pure_eq]
    rw [List.filter_cons]
    cases test (P i) (P ((i + 1) % n)) (P (((i + 1) % n + 1) % n)) <;> simp [flat]

/-- The polygon that is left by `removeCollinearPointsFromPLC`, for any test and any polygon, has exactly the points at which the test says
no, in the order of the polygon, joined in a closed loop; and no holes. -/
theorem C108_corners_partial (test : V2 Int → V2 Int → V2 Int → Bool) {plc : IPlc} {n : Nat} {id : Nat → Nat} {P : Nat → V2 Int}
    (h : Loop plc.points plc.facets n id P) : ∃ kept : List (V2 Int),
      kept = ((List.range n).filter fun i => !test (P i) (P ((i + 1) % n)) (P (((i + 1) % n + 1) % n))).map (fun i => P ((i + 1) % n)) ∧
      removeCollinearWith test false plc =
        .ok ⟨flat kept, (List.range kept.length).map fun i => [Int.ofNat i, Int.ofNat ((i + 1) % kept.length)], []⟩ := by
  refine ⟨_, rfl, ?_⟩
  have hl : plc.facets.length = n := by rw [h.1]; simp
  rw [removeCollinearWith, hl, cornerLoop_spec test false h (.inl rfl) _ (by simp)]
  simp only [Res.bind_eq, Res.bind_ok, rering, flat_length, Nat.mul_div_cancel_left _ (show 0 < 2 by omega), Res.pure_eq]
  simp [Res.assert]

/-- A triangle with an extra point on a side; the exact test. -/
def exactTest (a b c : V2 Int) : Bool := decide ((b.x - a.x) * (c.y - a.y) - (b.y - a.y) * (c.x - a.x) = 0)
def midPlc : IPlc := ⟨[0, 0, 4, 0, 8, 0, 0, 6], [[0, 1], [1, 2], [2, 3], [3, 0]], []⟩
def midPt : Nat → V2 Int
  | 0 => ⟨0, 0⟩
  | 1 => ⟨4, 0⟩
  | 2 => ⟨8, 0⟩
  | _ => ⟨0, 6⟩

example : Loop midPlc.points midPlc.facets 4 (fun i => i) midPt := by unfold Loop; decide +kernel
example : removeCollinearWith exactTest true midPlc = .ok ⟨[8, 0, 0, 6, 0, 0], [[0, 1], [1, 2], [2, 0]], []⟩ := by decide +kernel

/-- The library's test at the tolerance 1 that the orphanage passes, for integral points: everything is collinear but a right angle at the
first point. -/
theorem collinear_at_one (a b c : V2 Int) : collinear2 (toReal a) (toReal b) (toReal c) ((1 : Int) : ℝ) ↔
    dotAt a b c ≠ 0 ∨ (b.x = a.x ∧ b.y = a.y) ∨ c.x = a.x ∧ c.y = a.y := by
  have key : ∀ u v : V2 Int, dot2 (toReal u - toReal v) (toReal u - toReal v) < ((1 : Int) : ℝ) ↔ u.x = v.x ∧ u.y = v.y := by
    intro u v
    have e : dot2 (toReal u - toReal v) (toReal u - toReal v) = (((u.x - v.x) * (u.x - v.x) + (u.y - v.y) * (u.y - v.y) : Int) : ℝ) := by
      simp [dot2, toReal]
    rw [e, Int.cast_lt]
    constructor
    · intro h
      have h1 := mul_self_nonneg (u.x - v.x)
      have h2 := mul_self_nonneg (u.y - v.y)
      have e1 : u.x - v.x = 0 := mul_self_eq_zero.1 (by omega)
      have e2 : u.y - v.y = 0 := mul_self_eq_zero.1 (by omega)
      omega
    · rintro ⟨h1, h2⟩; simp [h1, h2]
  rw [collinear2, key, key]
  by_cases hb : b.x = a.x ∧ b.y = a.y
  · simp [hb]
  · by_cases hc : c.x = a.x ∧ c.y = a.y
    · simp [hc]
    · have pb : 0 < dot2 (toReal b - toReal a) (toReal b - toReal a) := by
        have := mt (key b a).1 hb
        push_cast at this; linarith
      have pc : 0 < dot2 (toReal c - toReal a) (toReal c - toReal a) := by
        have := mt (key c a).1 hc
        push_cast at this; linarith
      simp only [hb, hc, false_or, or_false]
      set sb := Real.sqrt (dot2 (toReal b - toReal a) (toReal b - toReal a)) with hsb
      set sc := Real.sqrt (dot2 (toReal c - toReal a) (toReal c - toReal a)) with hsc
      have qb : 0 < sb := Real.sqrt_pos.2 pb
      have qc : 0 < sc := Real.sqrt_pos.2 pc
      have e : dot2 ((toReal b - toReal a).div sb) ((toReal c - toReal a).div sc) = (dotAt a b c : ℝ) / (sb * sc) := by
        simp [dot2, V2.div, toReal, dotAt]; field_simp
      have cs : (dotAt a b c : ℝ) ^ 2 ≤ (sb * sc) ^ 2 := by
        rw [mul_pow, hsb, hsc, Real.sq_sqrt pb.le, Real.sq_sqrt pc.le]
        simp only [dot2, toReal, dotAt, V2.sub_x, V2.sub_y]; push_cast
        nlinarith [sq_nonneg (((b.x : ℝ) - a.x) * ((c.y : ℝ) - a.y) - ((b.y : ℝ) - a.y) * ((c.x : ℝ) - a.x))]
      have hle : |(dotAt a b c : ℝ) / (sb * sc)| ≤ 1 := by
        rw [abs_div, abs_of_pos (mul_pos qb qc), div_le_one (mul_pos qb qc)]
        exact abs_le_of_sq_le_sq cs (mul_pos qb qc).le
      rw [e, abs_of_nonpos (by linarith)]
      constructor
      · intro h hz
        rw [hz] at h; simp at h
      · intro hz
        have : 0 < |(dotAt a b c : ℝ) / (sb * sc)| := abs_pos.2 (div_ne_zero (by exact_mod_cast hz) (mul_pos qb qc).ne')
        push_cast; linarith

/-- Every polygon without an acute interior angle is removed altogether, whatever its shape and size: no corner is left. A checked
build ends here. -/
theorem C108_erased_fails {plc : IPlc} {n : Nat} {id : Nat → Nat} {P : Nat → V2 Int} (h : Loop plc.points plc.facets n id P) (ha : NoAcute n P) :
    removeCollinear false plc 1 = .ok ⟨[], [], []⟩ ∧
    ((∀ i < n, id i ≠ id ((i + 1) % n) ∧ id i ≠ id (((i + 1) % n + 1) % n)) → removeCollinear true plc 1 = .abort) := by
  classical
  have hall : (List.range n).filter (fun i => !decide (collinear2 (toReal (P i)) (toReal (P ((i + 1) % n))) (toReal (P (((i + 1) % n + 1) % n))) ((1 : Int) : ℝ))) = [] := by
    rw [List.filter_eq_nil_iff]
    intro i hi
    have hi := ha i (List.mem_range.1 hi)
    simp only [Bool.not_eq_true, Bool.not_eq_false', decide_eq_true_eq]
    rw [collinear_at_one]
    by_contra hc
    simp only [ne_eq, not_or, not_not] at hc
    obtain ⟨h1, h2, _⟩ := hc
    unfold dotAt at h1 hi
    generalize P i = a at *
    generalize P ((i + 1) % n) = b at *
    generalize P (((i + 1) % n + 1) % n) = c at *
    have e : (b.x - a.x) * (b.x - a.x) + (b.y - a.y) * (b.y - a.y) = ((b.x - a.x) * (c.x - a.x) + (b.y - a.y) * (c.y - a.y)) +
        ((a.x - b.x) * (c.x - b.x) + (a.y - b.y) * (c.y - b.y)) := by ring
    have q1 := mul_self_nonneg (b.x - a.x)
    have q2 := mul_self_nonneg (b.y - a.y)
    have e1 : b.x - a.x = 0 := mul_self_eq_zero.1 (by omega)
    have e2 : b.y - a.y = 0 := mul_self_eq_zero.1 (by omega)
    exact h2 ⟨by omega, by omega⟩
  have hl : plc.facets.length = n := by rw [h.1]; simp
  constructor
  · rw [removeCollinear, removeCollinearWith, hl, cornerLoop_spec _ false h (.inl rfl) _ (by simp)]
    simp only [hall, Res.bind_eq, Res.bind_ok]
    simp [rering, flat, Res.assert]
  · intro hd
    rw [removeCollinear, removeCollinearWith, hl, cornerLoop_spec _ true h (.inr hd) _ (by simp)]
    simp only [hall, Res.bind_eq, Res.bind_ok]
    simp [rering, flat, Res.assert]

/-- A rectangle of any size, for one: it has no acute angle. -/
def rectPt (x y w h : Int) : Nat → V2 Int
  | 0 => ⟨x, y⟩
  | 1 => ⟨x + w, y⟩
  | 2 => ⟨x + w, y + h⟩
  | _ => ⟨x, y + h⟩
theorem C108_rectangle_fails (x y w h : Int) :
    removeCollinear false ⟨[x, y, x + w, y, x + w, y + h, x, y + h], [[0, 1], [1, 2], [2, 3], [3, 0]], []⟩ 1 = .ok ⟨[], [], []⟩ ∧
    removeCollinear true ⟨[x, y, x + w, y, x + w, y + h, x, y + h], [[0, 1], [1, 2], [2, 3], [3, 0]], []⟩ 1 = .abort := by
  have hL : Loop [x, y, x + w, y, x + w, y + h, x, y + h] [[0, 1], [1, 2], [2, 3], [3, 0]] 4 (fun i => i) (rectPt x y w h) := by
    refine ⟨by decide +kernel, fun i hi => ?_⟩
    obtain rfl | rfl | rfl | rfl : i = 0 ∨ i = 1 ∨ i = 2 ∨ i = 3 := by omega
    all_goals simp [rectPt]
  have hA : NoAcute 4 (rectPt x y w h) := by
    intro i hi
    obtain rfl | rfl | rfl | rfl : i = 0 ∨ i = 1 ∨ i = 2 ∨ i = 3 := by omega
    all_goals simp [rectPt, dotAt]
  obtain ⟨h1, h2⟩ := C108_erased_fails (plc := ⟨[x, y, x + w, y, x + w, y + h, x, y + h], [[0, 1], [1, 2], [2, 3], [3, 0]], []⟩) hL hA
  refine ⟨h1, h2 ?_⟩
  decide +kernel

theorem longLoop_spec (isLong : V2 Int → V2 Int → Bool) (dbg : Bool) {points : List Int} {n : Nat} {id : Nat → Nat} {P : Nat → V2 Int}
    (hp : ∀ i < n, points[2 * id i]? = some (P i).x ∧ points[2 * id i + 1]? = some (P i).y) :
    ∀ is : List Nat, (∀ i ∈ is, i < n) → longLoop isLong dbg points (is.map fun i => [Int.ofNat (id i), Int.ofNat (id ((i + 1) % n))]) =
      .ok (flat ((is.filter fun i => isLong (P i) (P ((i + 1) % n))).map P))
  | [], _ => rfl
  | i :: is, hi => by
    have hin := hi i (by simp)
    have h1 := Nat.mod_lt (i + 1) (show 0 < n by omega)
    have ih := longLoop_spec isLong dbg hp is (fun x hx => hi x (by simp [hx]))
    have b1 := (List.getElem?_eq_some_iff.1 (hp i hin).2).1
    have b2 := (List.getElem?_eq_some_iff.1 (hp _ h1).2).1
    rw [List.map_cons, longLoop]
    simp only [Res.bind_eq, List.length_cons, List.length_nil]
    rw [Res.assert_true _ (by simp)]
    simp only [Res.bind_ok, rd, List.getElem?_cons_zero, List.getElem?_cons_succ]
    rw [Res.assert_true _ (by refine ⟨⟨?_, ?_⟩, ?_, ?_⟩ <;> simp only [Int.ofNat_eq_natCast] <;> omega)]
    simp only [Res.bind_ok, getPt_ok (hp i hin).1 (hp i hin).2, getPt_ok (hp _ h1).1 (hp _ h1).2, ih, Res.pure_eq]
    rw [List.filter_cons]
    cases isLong (P i) (P ((i + 1) % n)) <;> simp [flat]

/-- `simplifyPLC` with any tolerance keeps exactly the points with a longer facet to the next point, in order, in a closed loop; and no holes. -/
theorem C108_long_facets_partial {plc : IPlc} {n : Nat} {id : Nat → Nat} {P : Nat → V2 Int} (h : Loop plc.points plc.facets n id P) (tol : Int) :
    ∃ keep : List Nat, keep.Sublist (List.range n) ∧ (∀ i, i ∈ keep ↔ i < n ∧ (tol : ℝ) < distance2 (toReal (P ((i + 1) % n))) (toReal (P i))) ∧
      simplifyPLC false plc tol = .ok ⟨flat (keep.map P), (List.range keep.length).map fun i => [Int.ofNat i, Int.ofNat ((i + 1) % keep.length)], []⟩ := by
  classical
  refine ⟨(List.range n).filter fun i => decide ((tol : ℝ) < distance2 (toReal (P ((i + 1) % n))) (toReal (P i))), List.filter_sublist, by simp, ?_⟩
  rw [simplifyPLC, simplifyWith, h.1, longLoop_spec _ false h.2 _ (by simp)]
  simp only [Res.bind_eq, Res.bind_ok, rering, flat_length, Nat.mul_div_cancel_left _ (show 0 < 2 by omega), Res.pure_eq, List.length_map, gt_iff_lt]
  simp [Res.assert]

/-- A polygon of short facets is removed altogether, however many they are and however far it extends. -/
theorem C108_short_facets_fails {plc : IPlc} {n : Nat} {id : Nat → Nat} {P : Nat → V2 Int} (h : Loop plc.points plc.facets n id P) {tol : Int}
    (hs : ∀ i < n, distance2 (toReal (P ((i + 1) % n))) (toReal (P i)) ≤ tol) :
    simplifyPLC false plc tol = .ok ⟨[], [], []⟩ ∧ simplifyPLC true plc tol = .abort := by
  classical
  have hall : (List.range n).filter (fun i => decide (distance2 (toReal (P ((i + 1) % n))) (toReal (P i)) > tol)) = [] := by
    rw [List.filter_eq_nil_iff]
    intro i hi
    simpa using hs i (List.mem_range.1 hi)
  constructor
  · rw [simplifyPLC, simplifyWith, h.1, longLoop_spec _ false h.2 _ (by simp)]
    simp only [hall, Res.bind_eq, Res.bind_ok]
    simp [rering, flat, Res.assert]
  · rw [simplifyPLC, simplifyWith, h.1, longLoop_spec _ true h.2 _ (by simp)]
    simp only [hall, Res.bind_eq, Res.bind_ok]
    simp [rering, flat, Res.assert]

/-- A strip, `n` points long and one point high, is such a polygon for the tolerance 1. -/
def stripPt (n i : Nat) : V2 Int := if i < n then ⟨i, 0⟩ else ⟨2 * n - 1 - i, 1⟩
example (n : Nat) (hn : 0 < n) : ∀ i < 2 * n, distance2 (toReal (stripPt n ((i + 1) % (2 * n)))) (toReal (stripPt n i)) ≤ ((1 : Int) : ℝ) := by
  intro i hi
  have key : ∀ p q : V2 Int, (p.x - q.x) * (p.x - q.x) + (p.y - q.y) * (p.y - q.y) = 1 → distance2 (toReal p) (toReal q) ≤ ((1 : Int) : ℝ) := by
    intro p q h
    have h' : ((p.x : ℝ) - q.x) * (p.x - q.x) + (p.y - q.y) * (p.y - q.y) = 1 := by exact_mod_cast h
    simp only [distance2, toReal, h']; simp
  apply key
  unfold stripPt
  rcases Nat.lt_or_ge (i + 1) (2 * n) with h | h
  · rw [Nat.mod_eq_of_lt h]
    split_ifs
    · simp
    · omega
    · have e : (2 * (n : Int) - 1 - ((i + 1 : Nat) : Int) - i) = 0 := by push_cast; omega
      simp only [e]; rfl
    · simp only; push_cast
      ring
  · have e : i + 1 = 2 * n := by omega
    rw [e, Nat.mod_self, if_pos hn, if_neg (by omega)]
    have e' : ((0 : Nat) : Int) - (2 * n - 1 - (i : Int)) = 0 := by omega
    simp only [e']; rfl

/-- Whatever holes the polygon had are gone after either function. -/
theorem C108_holes_fails (test : V2 Int → V2 Int → V2 Int → Bool) {plc : IPlc} {n : Nat} {id : Nat → Nat} {P : Nat → V2 Int}
    (h : Loop plc.points plc.facets n id P) (tol : Int) : (∃ r, removeCollinearWith test false plc = .ok r ∧ r.holes = []) ∧
      ∃ r, simplifyPLC false plc tol = .ok r ∧ r.holes = [] := by
  obtain ⟨_, _, e⟩ := C108_corners_partial test h
  obtain ⟨_, _, _, e'⟩ := C108_long_facets_partial h tol
  exact ⟨⟨_, e, rfl⟩, ⟨_, e', rfl⟩⟩

example : removeCollinearWith exactTest true ⟨[0, 0, 9, 0, 0, 9, 1, 1, 1, 2, 2, 1], [[0, 1], [1, 2], [2, 0]], [[[3, 4], [4, 5], [5, 3]]]⟩ =
    .ok ⟨[9, 0, 0, 9, 0, 0], [[0, 1], [1, 2], [2, 0]], []⟩ := by decide +kernel
end Verif.Props
