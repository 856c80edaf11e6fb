import Verif.Proofs.QuantCoords
/- C94: the bounding box and integer grid of `QuantizedCoordinates`. -/
namespace Verif.QC
open Verif Verif.Geom Verif.Mesh
variable {d : Nat}

/-! ### Setting up -/

/-- Nothing that was done before has any effect on a call of `initialize`. -/
theorem C94_history (dbg : Bool) (big deg : ℝ) (procs : List (List ℝ)) (s s' : State d) : init dbg big procs deg s = init dbg big procs deg s' := by
  unfold init clear
  simp only [Bool.false_eq_true, if_false]

/-- So a degeneracy chosen with the setter is ignored. -/
theorem C94_degeneracy_fails {dbg : Bool} {big deg x : ℝ} {procs : List (List ℝ)} {s s' : State d} (hx : x ≠ deg) (h : init dbg big procs deg (setDegeneracy x s) = .ok s') :
    s'.deg ≠ x ∧ s'.delta ≠ x := by
  obtain ⟨_, h1, h2, _⟩ := init_cube h
  exact ⟨by rw [h2]; exact hx.symm, by rw [h1]; exact hx.symm⟩

/-- The box of the points, axis by axis. -/
theorem box_facts (dbg : Bool) {big : ℝ} {procs : List (List ℝ)} (hd : 0 < d) (hdv : ∀ pos ∈ procs, d ∣ pos.length) (h0 : ∃ pos ∈ procs, pos ≠ []) (hr : ∀ pos ∈ procs, ∀ v ∈ pos, -big ≤ v ∧ v ≤ big) :
    ∃ box, globalBox dbg big d procs = .ok box ∧ (∀ l ∈ procs.flatMap (pointsOf d), ∀ (j : Fin d) (x : ℝ), l[j.val]? = some x → (lowOf box : Pt d) j ≤ x ∧ x ≤ (highOf box : Pt d) j) ∧
      (∀ j : Fin d, (∃ l ∈ procs.flatMap (pointsOf d), l[j.val]? = some ((lowOf box : Pt d) j)) ∧ ∃ l ∈ procs.flatMap (pointsOf d), l[j.val]? = some ((highOf box : Pt d) j)) ∧
      ∀ j : Fin d, (lowOf box : Pt d) j ≤ (highOf box : Pt d) j := by
  obtain ⟨box, e, ⟨len, hb⟩, ht⟩ := C35_global dbg hd hdv h0 hr
  have get : ∀ j : Fin d, box[j.val]? = some ((lowOf box : Pt d) j, (highOf box : Pt d) j) := by
    intro j
    rw [List.getElem?_eq_getElem (by rw [len]; exact j.2)]
    unfold lowOf highOf
    rw [List.getD_eq_getElem?_getD, List.getElem?_eq_getElem (by rw [len]; exact j.2)]
    rfl
  have t : ∀ j : Fin d, _ := fun j => ht j.val _ (get j)
  refine ⟨box, e, fun l hl j x hx => hb l hl j.val _ x (get j) hx, t, fun j => ?_⟩
  obtain ⟨l, hl, hx⟩ := (t j).1
  exact (hb l hl j.val _ _ (get j) hx).2

/-- The points do not all have the same first coordinate. -/
def FirstSpread (pts : List (List ℝ)) : Prop := ∃ p ∈ pts, ∃ q ∈ pts, ∃ x y, p[0]? = some x ∧ q[0]? = some y ∧ x < y

/-- No two points are further apart than `e` in a coordinate. -/
def SpreadLe (pts : List (List ℝ)) (e : ℝ) : Prop := ∀ p ∈ pts, ∀ q ∈ pts, ∀ (j : Nat) (x y : ℝ), p[j]? = some x → q[j]? = some y → y - x ≤ e

/-- `initialize` for points that differ in the first coordinate, and whose extent is at most 2³¹ - 2 spacings after enlargement by half: on every process, in debug and release, it returns; the box is a
cube about the centre, the ball of infinite radius about the centre is in it, and every point is in its interior. -/
theorem C94_initialize (dbg : Bool) {big deg e : ℝ} {procs : List (List ℝ)} (s : State d) (hd : 0 < d) (hdv : ∀ pos ∈ procs, d ∣ pos.length) (hr : ∀ pos ∈ procs, ∀ v ∈ pos, -big ≤ v ∧ v ≤ big)
    (hs : FirstSpread (procs.flatMap (pointsOf d))) (he : SpreadLe (procs.flatMap (pointsOf d)) e) (hdeg : 0 < deg) (hfit : 3 / 2 * e ≤ 2147483646 * deg) :
    ∃ s', init dbg big procs deg s = .ok s' ∧ 0 < infiniteRadius s' ∧ s'.delta = deg ∧ (∀ j, s'.highIn j - s'.lowIn j = 2 * infiniteRadius s' ∧ s'.lowIn j + s'.highIn j = 2 * s'.centre j) ∧
      BallIn s'.lowIn s'.highIn s'.centre (infiniteRadius s') ∧ ∀ l ∈ procs.flatMap (pointsOf d), ∀ p : Pt d, Holds l p → Interior s'.lowIn s'.highIn p := by
  have h0 : ∃ pos ∈ procs, pos ≠ [] := by
    obtain ⟨p, hp, _, _, x, _, hx, _⟩ := hs
    obtain ⟨pos, h1, h2⟩ := List.mem_flatMap.mp hp
    refine ⟨pos, h1, ?_⟩
    rintro rfl
    simp [pointsOf] at h2
  obtain ⟨box, hb, hin, ht, hle⟩ := box_facts dbg hd hdv h0 hr
  set low : Pt d := lowOf box
  set high : Pt d := highOf box
  set r := maxR low high (List.finRange d) 0 with hrd
  have ext : ∀ j, high j - low j ≤ e := fun j => by
    obtain ⟨⟨l, hl, hx⟩, l', hl', hx'⟩ := ht j
    exact he l hl l' hl' j.val _ _ hx hx'
  have first : low ⟨0, hd⟩ < high ⟨0, hd⟩ := by
    obtain ⟨p, hp, q, hq, x, y, hx, hy, hxy⟩ := hs
    have a := hin p hp ⟨0, hd⟩ x hx
    have b := hin q hq ⟨0, hd⟩ y hy
    linarith [a.1, b.2]
  have g := maxR_ge (low := low) (high := high) (js := List.finRange d) (r := 0)
  have rpos : 0 < r := by
    have := g.2 ⟨0, hd⟩ (by simp)
    linarith
  have rle : r ≤ 3 / 4 * e := by
    rcases maxR_of (low := low) (high := high) (js := List.finRange d) (r := 0) with h | ⟨j, _, h⟩
    · rw [← hrd] at h; linarith
    · rw [hrd, h]; have := ext j; linarith
  have loop : radiusLoop dbg low high (List.finRange d) 0 = .ok r := by
    obtain ⟨k, rfl⟩ : ∃ k, d = k + 1 := ⟨d - 1, by omega⟩
    rw [hrd, List.finRange_succ]
    unfold radiusLoop
    have f0 : low 0 < high 0 := first
    have m : max 0 (3 / 4 * (high 0 - low 0)) = 3 / 4 * (high 0 - low 0) := max_eq_right (by linarith)
    simp only [Res.bind_eq]
    rw [Res.assert_true dbg f0.le, Res.bind_ok, Res.assert_true dbg (by rw [m]; constructor <;> linarith), Res.bind_ok, radiusLoop_ok dbg (fun j _ => hle j) (by rw [m]; linarith)]
    rfl
  have run : init dbg big procs deg s = .ok (started low high deg) := by
    unfold init clear
    simp only [Bool.false_eq_true, if_false, Res.bind_eq]
    rw [hb, Res.bind_ok, Res.assert_true dbg hle, Res.bind_ok]
    rw [show radiusLoop dbg (lowOf box) (highOf box) (List.finRange d) 0 = .ok r from loop, Res.bind_ok, bounds_ok dbg rpos, Res.bind_ok, maximum_ok hdeg (by linarith) (by linarith), Res.bind_ok]
    rfl
  obtain ⟨c, h1, h2, h3, h4, h5, h6, _⟩ := init_cube run
  have ir : infiniteRadius (started low high deg) = (started low high deg).rIn := by unfold infiniteRadius; rw [h6, max_self]
  have er : (started low high deg).rIn = r := by simp only [started, storeBounds_fields]; rfl
  have ec : ∀ j, (started low high deg).centre j = 1 / 2 * (low j + high j) := fun j => by simp only [started, storeBounds_fields]; rfl
  refine ⟨_, run, ?_, h1, ?_, ?_, ?_⟩
  · rw [ir, er]; exact rpos
  · intro j; rw [ir, c.low j, c.high j]; constructor <;> ring
  · rw [ir]; exact ball_of c.r0 fun j => ⟨(c.low j).le, (c.high j).ge⟩
  · intro l hl p hp j
    have a := hin l hl j (p j) (hp j)
    have b := g.2 j (by simp)
    rw [c.low j, c.high j, er, ec]
    rw [← hrd] at b
    rcases (hle j).eq_or_lt with q | q <;> constructor <;> linarith [a.1, a.2]

/-- In two dimensions the points are in the open disc of infinite radius about the centre. -/
theorem C94_disc {dbg : Bool} {big deg : ℝ} {procs : List (List ℝ)} {s s' : State 2} (hdv : ∀ pos ∈ procs, 2 ∣ pos.length) (hr : ∀ pos ∈ procs, ∀ v ∈ pos, -big ≤ v ∧ v ≤ big)
    (hs : FirstSpread (procs.flatMap (pointsOf 2))) (h : init dbg big procs deg s = .ok s') : ∀ l ∈ procs.flatMap (pointsOf 2), ∀ p : Pt 2, Holds l p → dist2 p s'.centre < infiniteRadius s' ^ 2 := by
  have h0 : ∃ pos ∈ procs, pos ≠ [] := by
    obtain ⟨p, hp, _, _, x, _, hx, _⟩ := hs
    obtain ⟨pos, h1, h2⟩ := List.mem_flatMap.mp hp
    refine ⟨pos, h1, ?_⟩
    rintro rfl
    simp [pointsOf] at h2
  obtain ⟨box, hb, hin, ht, hle⟩ := box_facts dbg (by norm_num) hdv h0 hr
  obtain ⟨box', hb', _, es, _⟩ := init_eq h
  obtain rfl : box = box' := by rw [hb] at hb'; exact Res.ok.inj hb'
  obtain ⟨c, h1, h2, h3, h4, h5, h6, _⟩ := init_cube h
  have ir : infiniteRadius s' = s'.rIn := by unfold infiniteRadius; rw [h6, max_self]
  set low : Pt 2 := lowOf box
  set high : Pt 2 := highOf box
  have er : s'.rIn = maxR low high (List.finRange 2) 0 := by rw [es]; simp only [started, storeBounds_fields]
  have ec : ∀ j, s'.centre j = 1 / 2 * (low j + high j) := fun j => by rw [es]; simp only [started, storeBounds_fields]; rfl
  have g := maxR_ge (low := low) (high := high) (js := List.finRange 2) (r := 0)
  have first : low 0 < high 0 := by
    obtain ⟨p, hp, q, hq, x, y, hx, hy, hxy⟩ := hs
    have a := hin p hp 0 x hx
    have b := hin q hq 0 y hy
    linarith [a.1, b.2]
  intro l hl p hp
  rw [ir, er]
  set r := maxR low high (List.finRange 2) 0
  have g0 := g.2 0 (by simp)
  have g1 := g.2 1 (by simp)
  have i0 := hin l hl 0 (p 0) (hp 0)
  have i1 := hin l hl 1 (p 1) (hp 1)
  have s0 : (p 0 - s'.centre 0) ^ 2 ≤ (2 / 3 * r) ^ 2 := by
    rw [ec]; apply sq_le_sq'  <;> linarith [i0.1, i0.2]
  have s1 : (p 1 - s'.centre 1) ^ 2 ≤ (2 / 3 * r) ^ 2 := by
    rw [ec]; apply sq_le_sq'  <;> linarith [i1.1, i1.2]
  have : 0 < r := by linarith
  unfold dist2
  rw [Fin.sum_univ_two]
  nlinarith

/-- Rays from the points to the circle: `projectPoint` returns the point of the ray on it (or the point itself if it is within the spacing of the circle). -/
theorem C94_project {dbg : Bool} {big deg : ℝ} {procs : List (List ℝ)} {s s' : State 2} (hdv : ∀ pos ∈ procs, 2 ∣ pos.length) (hr : ∀ pos ∈ procs, ∀ v ∈ pos, -big ≤ v ∧ v ≤ big)
    (hs : FirstSpread (procs.flatMap (pointsOf 2))) (hdeg : 0 < deg) (h : init dbg big procs deg s = .ok s') {l : List ℝ} (hl : l ∈ procs.flatMap (pointsOf 2)) {p n : V2 ℝ} (hp : l = [p.x, p.y])
    (hn : n.x ^ 2 + n.y ^ 2 = 1) :
    ∃ t q, 0 ≤ t ∧ q = (⟨p.x + t * n.x, p.y + t * n.y⟩ : V2 ℝ) ∧ projectPoint dbg s' p n = .ok q ∧
      ((q.x - s'.centre 0) ^ 2 + (q.y - s'.centre 1) ^ 2 = infiniteRadius s' ^ 2 ∨ (q = p ∧ infiniteRadius s' ^ 2 - ((p.x - s'.centre 0) ^ 2 + (p.y - s'.centre 1) ^ 2) < deg)) := by
  have hd := C94_disc hdv hr hs h l hl ![p.x, p.y] (by intro j; subst hp; fin_cases j <;> rfl)
  obtain ⟨c, h1, h2, h3, h4, h5, h6, _⟩ := init_cube h
  have ir : infiniteRadius s' = s'.rIn := by unfold infiniteRadius; rw [h6, max_self]
  simp only [dist2, Fin.sum_univ_two, Matrix.cons_val_zero, Matrix.cons_val_one] at hd
  obtain ⟨t, t0, e, hc⟩ := C34_circle dbg (p := p) (n := n) (pc := ⟨s'.centre 0, s'.centre 1⟩) (r := s'.rOut) (tol := s'.delta) (by rw [h6]; exact c.r0) (by rw [h1]; exact hdeg)
    (by simp only [dot2]; nlinarith) (by simp only [sq2]; rw [h6, ← ir]; nlinarith)
  refine ⟨t, _, t0, rfl, e, ?_⟩
  rw [ir, ← h6, ← h1]
  rcases hc with hc | ⟨rfl, hc⟩
  · left; simp only [sq2, along2] at hc; nlinarith
  · right; refine ⟨by simp, ?_⟩; simp only [sq2] at hc; nlinarith

/-- In three dimensions the sphere leaves points out: two opposite corners of a cube. -/
theorem C94_sphere_fails {dbg : Bool} {big deg a e : ℝ} {s s' : State 3} (he : 0 < e) (hr : -big ≤ a ∧ a + e ≤ big) (h : init dbg big [[a, a, a, a + e, a + e, a + e]] deg s = .ok s') :
    infiniteRadius s' ^ 2 < dist2 (fun _ => a) s'.centre ∧ infiniteRadius s' ^ 2 < dist2 (fun _ => a + e) s'.centre := by
  have rg : ∀ pos ∈ [[a, a, a, a + e, a + e, a + e]], ∀ v ∈ pos, -big ≤ v ∧ v ≤ big := by
    intro pos hp v hv
    simp only [List.mem_singleton] at hp; subst hp
    simp only [List.mem_cons, List.not_mem_nil, or_false] at hv
    rcases hv with rfl | rfl | rfl | rfl | rfl | rfl <;> constructor <;> linarith
  obtain ⟨box, hb, hin, ht, hle⟩ := box_facts (d := 3) dbg (by norm_num) (procs := [[a, a, a, a + e, a + e, a + e]]) (by simp) ⟨_, List.mem_cons_self, by simp⟩ rg
  obtain ⟨box', hb', _, es, _⟩ := init_eq h
  obtain rfl : box = box' := by rw [hb] at hb'; exact Res.ok.inj hb'
  obtain ⟨c, h1, h2, h3, h4, h5, h6, _⟩ := init_cube h
  have pts : [[a, a, a, a + e, a + e, a + e]].flatMap (pointsOf 3) = [[a, a, a], [a + e, a + e, a + e]] := by simp [pointsOf, List.range_succ]
  rw [pts] at hin ht
  have lo : ∀ j, (lowOf box : Pt 3) j = a := fun j => by
    have u := (hin [a, a, a] (by simp) j a (by fin_cases j <;> rfl)).1
    obtain ⟨l, hl, hx⟩ := (ht j).1
    simp only [List.mem_cons, List.not_mem_nil, or_false] at hl
    rcases hl with rfl | rfl
    · fin_cases j <;> simpa using hx.symm
    · have : (lowOf box : Pt 3) j = a + e := by fin_cases j <;> simpa using hx.symm
      linarith
  have hi : ∀ j, (highOf box : Pt 3) j = a + e := fun j => by
    have u := (hin [a + e, a + e, a + e] (by simp) j (a + e) (by fin_cases j <;> rfl)).2
    obtain ⟨l, hl, hx⟩ := (ht j).2
    simp only [List.mem_cons, List.not_mem_nil, or_false] at hl
    rcases hl with rfl | rfl
    · have : (highOf box : Pt 3) j = a := by fin_cases j <;> simpa using hx.symm
      linarith
    · fin_cases j <;> simpa using hx.symm
  have ir : infiniteRadius s' = 3 / 4 * e := by
    unfold infiniteRadius
    rw [h6, max_self, es]
    simp only [started, storeBounds_fields]
    rcases maxR_of (low := (lowOf box : Pt 3)) (high := highOf box) (js := List.finRange 3) (r := 0) with q | ⟨j, _, q⟩
    · have := (maxR_ge (low := (lowOf box : Pt 3)) (high := highOf box) (js := List.finRange 3) (r := 0)).2 0 (by simp)
      rw [q, lo, hi] at this; linarith
    · rw [q, lo, hi]; ring
  have ec : ∀ j, s'.centre j = a + e / 2 := fun j => by rw [es]; simp only [started, storeBounds_fields, centreOf, lo, hi]; ring
  rw [ir]
  simp only [dist2, Fin.sum_univ_three, ec]
  constructor <;> nlinarith [mul_pos he he]

/-- Points that all have the same first coordinate: `initialize` fails its assertion, however spread out they are in the other coordinates. -/
theorem C94_flat_fails {big deg : ℝ} {procs : List (List ℝ)} {s : State d} (hd : 0 < d) (hdv : ∀ pos ∈ procs, d ∣ pos.length) (h0 : ∃ pos ∈ procs, pos ≠ [])
    (hr : ∀ pos ∈ procs, ∀ v ∈ pos, -big ≤ v ∧ v ≤ big) (hf : ∀ p ∈ procs.flatMap (pointsOf d), ∀ q ∈ procs.flatMap (pointsOf d), p[0]? = q[0]?) : init true big procs deg s = .abort := by
  obtain ⟨box, hb, hin, ht, hle⟩ := box_facts true hd hdv h0 hr
  have flat : (lowOf box : Pt d) ⟨0, hd⟩ = (highOf box : Pt d) ⟨0, hd⟩ := by
    obtain ⟨⟨l, hl, hx⟩, l', hl', hx'⟩ := ht ⟨0, hd⟩
    have := hf l hl l' hl'
    rw [show l[0]? = _ from hx, show l'[0]? = _ from hx'] at this
    exact Option.some.inj this
  have loop : radiusLoop true (lowOf box) (highOf box) (List.finRange d) 0 = .abort := by
    obtain ⟨k, rfl⟩ : ∃ k, d = k + 1 := ⟨d - 1, by omega⟩
    have f0 : (lowOf box : Pt (k + 1)) 0 = (highOf box : Pt (k + 1)) 0 := flat
    rw [List.finRange_succ]
    unfold radiusLoop
    simp only [Res.bind_eq]
    rw [Res.assert_true true f0.le, Res.bind_ok, Res.assert_debug_false, Res.bind_abort]
    rw [f0, sub_self, mul_zero, max_self]
    rintro ⟨h, _⟩; linarith
  unfold init clear
  simp only [Bool.false_eq_true, if_false, Res.bind_eq]
  rw [hb, Res.bind_ok, Res.assert_true true hle, Res.bind_ok, loop, Res.bind_abort]

/-- A spacing too fine for 32 bits is not reported, as the documentation says it is: the conversion that comes before the test is undefined. -/
theorem C94_overflow_fails {size deg : ℝ} (hd : 0 < deg) (h : 2147483647 * deg < size) : maximumCoordinate size deg = .ub := maximum_ub hd h

/-! ### The grid -/

/-- After `initialize`, every point of the box is rounded to a grid point at most half a spacing away in each coordinate, with integers between 0 and `coordMax()`. -/
theorem C94_quantize {dbg : Bool} {big deg : ℝ} {procs : List (List ℝ)} {s s' : State d} (hdeg : 0 < deg) (h : init dbg big procs deg s = .ok s') (dbg' : Bool) {p : Pt d}
    (hp : Inside s'.lowIn s'.highIn p) : ∃ k : Fin d → Int, quantize dbg' s' p = .ok (List.ofFn k) ∧ OnGrid s'.lowIn deg s'.coordMax p k := by
  obtain ⟨c, h1, h2, h3, _⟩ := init_cube h
  have key := fun j => coord_ok (x := p j) (low := s'.lowIn j) (delta := s'.delta) (w := 2 * s'.rIn) (by rw [h1]; exact hdeg) (hp j).1 (by have := (hp j).2; rw [c.low, c.high] at *; linarith) c.top c.lt
  refine ⟨_, ?_, fun j => ⟨(key j).2.1, (key j).2.2.1, by rw [← h1]; exact (key j).2.2.2⟩⟩
  rw [quantize_eq dbg' (Or.inl h3) c.mod]
  exact mapM_finRange fun j => (key j).1

/-- Points of the box with the same integers are less than a spacing apart in each coordinate. -/
theorem C94_separates {dbg : Bool} {big deg : ℝ} {procs : List (List ℝ)} {s s' : State d} (hdeg : 0 < deg) (h : init dbg big procs deg s = .ok s') (dbg' : Bool) {p q : Pt d} {k : List Int}
    (hp : Inside s'.lowIn s'.highIn p) (hq : Inside s'.lowIn s'.highIn q) (h1 : quantize dbg' s' p = .ok k) (h2 : quantize dbg' s' q = .ok k) (j : Fin d) : |p j - q j| < deg := by
  obtain ⟨c, e1, _, e3, _⟩ := init_cube h
  have run : ∀ x : Pt d, Inside s'.lowIn s'.highIn x → quantize dbg' s' x = .ok (List.ofFn fun j => ⌊(x j - s'.lowIn j) / s'.delta + 1 / 2⌋) := fun x hx => by
    rw [quantize_eq dbg' (Or.inl e3) c.mod]
    exact mapM_finRange fun j => (coord_ok (w := 2 * s'.rIn) (by rw [e1]; exact hdeg) (hx j).1 (by have := (hx j).2; rw [c.low, c.high] at *; linarith) c.top c.lt).1
  rw [run p hp] at h1; rw [run q hq] at h2
  have e := congrFun (ofFn_inj' ((Res.ok.inj h1).trans (Res.ok.inj h2).symm)) j
  have e : ⌊(p j - s'.lowIn j) / s'.delta + 1 / 2⌋ = ⌊(q j - s'.lowIn j) / s'.delta + 1 / 2⌋ := e
  have a := Int.abs_sub_lt_one_of_floor_eq_floor e
  have hd : 0 < s'.delta := by rw [e1]; exact hdeg
  rw [show (p j - s'.lowIn j) / s'.delta + 1 / 2 - ((q j - s'.lowIn j) / s'.delta + 1 / 2) = (p j - q j) / s'.delta by field_simp; ring, abs_div, abs_of_pos hd, div_lt_one hd, e1] at a
  exact a

open Classical in
/-- Every integer point of the grid comes back unchanged. -/
theorem C94_roundtrip {dbg : Bool} {big deg : ℝ} {procs : List (List ℝ)} {s s' : State d} (hdeg : 0 < deg) (h : init dbg big procs deg s = .ok s') (dbg' : Bool) {k : Fin d → Int}
    (hk : ∀ j, 0 ≤ k j ∧ k j ≤ s'.coordMax) : ∃ p, dequantize dbg' s' k = .ok p ∧ quantize dbg' s' p = .ok (List.ofFn k) := by
  obtain ⟨c, h1, h2, h3, _⟩ := init_cube h
  refine ⟨fun j => s'.lowIn j + (k j : ℝ) * s'.delta, ?_, ?_⟩
  · unfold dequantize
    simp only [Res.bind_eq]
    rw [Res.assert_true dbg' c.mod, Res.bind_ok, @Res.assert_true dbg' (isInner s' fun j => s'.lowIn j + (k j : ℝ) * s'.delta) _ (Or.inl h3), Res.bind_ok]
    rfl
  · rw [quantize_eq dbg' (Or.inl h3) c.mod]
    refine mapM_finRange fun j => ?_
    have hd : s'.delta ≠ 0 := by rw [h1]; exact hdeg.ne'
    unfold pointCoord
    have e : (s'.lowIn j + (k j : ℝ) * s'.delta - s'.lowIn j) / s'.delta + 1 / 2 = (k j : ℝ) + 1 / 2 := by field_simp; ring
    have fl : ⌊(k j : ℝ) + 1 / 2⌋ = k j := by rw [Int.floor_eq_iff]; constructor <;> linarith
    have k0 : (0 : ℝ) ≤ k j := by exact_mod_cast (hk j).1
    rw [if_neg hd, e, toInt_ok (by linarith) (by rw [fl]; have := (hk j).2; have := c.lt; omega), fl]

/-- After the degeneracy is set, quantizing fails its assertion. -/
theorem C94_modified {x : ℝ} {s : State d} {p : Pt d} : quantize true (setDegeneracy x s) p = .abort := by
  unfold quantize
  simp only [Res.bind_eq, setDegeneracy]
  unfold Res.assert
  split
  · rfl
  · rfl

/-! ### The stored boundary -/

/-- In two dimensions the stored PLC is the box, counterclockwise from its low corner. -/
theorem C94_boundary {dbg : Bool} {big deg : ℝ} {procs : List (List ℝ)} {s s' : State 2} (h : init dbg big procs deg s = .ok s') :
    s'.points = [s'.lowIn 0, s'.lowIn 1, s'.highIn 0, s'.lowIn 1, s'.highIn 0, s'.highIn 1, s'.lowIn 0, s'.highIn 1] ∧ s'.facets = [[0, 1], [1, 2], [2, 3], [3, 0]] := by
  obtain ⟨box, _, _, es, _⟩ := init_eq h
  subst es
  exact ⟨rfl, rfl⟩

/-- In three dimensions only the face of largest x is there: the other five facets are the first corner, four times. -/
theorem C94_boundary3_fails {dbg : Bool} {big deg : ℝ} {procs : List (List ℝ)} {s s' : State 3} (h : init dbg big procs deg s = .ok s') :
    s'.facets = [[1, 5, 6, 2], [0, 0, 0, 0], [0, 0, 0, 0], [0, 0, 0, 0], [0, 0, 0, 0], [0, 0, 0, 0]] := by
  obtain ⟨box, _, _, es, _⟩ := init_eq h
  subst es
  rfl

/-! ### Expanding -/

theorem expand_eq {dbg two : Bool} {s s' : State d} {plow phigh : Pt d} (h : expand dbg two s plow phigh = .ok s') :
    s'.lowOut = (fun j => min 0 (s.centre j - grownR s plow phigh)) ∧ s'.highOut = (fun j => max 0 (s.centre j + grownR s plow phigh)) ∧ s'.rOut = grownR s plow phigh ∧ s'.centre = s.centre ∧
    s'.delta = s.delta ∧ s'.deg = s.deg ∧ s'.modified = false ∧ s'.points = s.points ∧ s'.facets = s.facets ∧ s'.two = two ∧
    (two = true → s'.lowIn = s.lowIn ∧ s'.highIn = s.highIn ∧ s'.rIn = s.rIn ∧ s'.coordMax = s.coordMax) ∧
    (two = false → s'.lowIn = s'.lowOut ∧ s'.highIn = s'.highOut ∧ s'.rIn = s'.rOut ∧ s'.coordMax = ⌈2 * s'.rIn / s.deg⌉ ∧ s'.coordMax < 2147483647) := by
  unfold expand at h
  simp only [Res.bind_eq, Res.bind_eq_ok] at h
  obtain ⟨g, hg, h⟩ := h
  rw [grow_eq hg] at h
  unfold adopt at h
  cases two
  · simp only [Bool.false_eq_true, if_false, Res.bind_eq, Res.bind_eq_ok, Res.pure_eq, Res.ok.injEq] at h
    obtain ⟨m, hm, _, rfl, _, _, rfl⟩ := h
    obtain ⟨_, m2, m3⟩ := maximum_eq hm
    exact ⟨rfl, rfl, rfl, rfl, rfl, rfl, rfl, rfl, rfl, rfl, by simp, fun _ => ⟨rfl, rfl, rfl, m2, m3⟩⟩
  · simp only [if_true, Res.bind_eq, Res.bind_eq_ok, Res.pure_eq, Res.ok.injEq] at h
    obtain ⟨a, rfl, _, _, rfl⟩ := h
    exact ⟨rfl, rfl, rfl, rfl, rfl, rfl, rfl, rfl, rfl, rfl, fun _ => ⟨rfl, rfl, rfl, rfl⟩, by simp⟩

/-- Expanding, without MPI: the new outer box has the old one, the given bounds and the ball of the new radius in it; the centre stays. With one box, the inner box is the outer one. -/
theorem C94_expand {dbg two : Bool} {s s' : State d} {plow phigh : Pt d} (h : expand dbg two s plow phigh = .ok s') :
    (∀ p, Inside s.lowOut s.highOut p → Inside s'.lowOut s'.highOut p) ∧ (∀ p, Inside plow phigh p → Inside s'.lowOut s'.highOut p) ∧ BallIn s'.lowOut s'.highOut s'.centre s'.rOut ∧
    s'.centre = s.centre ∧ (0 < d → s.rOut ≤ s'.rOut) ∧ (two = false → s'.lowIn = s'.lowOut ∧ s'.highIn = s'.highOut ∧ s'.rIn = s'.rOut) ∧ (two = true → s'.lowIn = s.lowIn ∧ s'.highIn = s.highIn) := by
  obtain ⟨e1, e2, e3, e4, e5, e6, e7, e8, e9, e10, e11, e12⟩ := expand_eq h
  rw [e1, e2, e3, e4]
  have m1 : ∀ j, min 0 (s.centre j - grownR s plow phigh) ≤ s.centre j - grownR s plow phigh := fun j => min_le_right _ _
  have m2 : ∀ j, s.centre j + grownR s plow phigh ≤ max 0 (s.centre j + grownR s plow phigh) := fun j => le_max_right _ _
  refine ⟨fun p hp j => ?_, fun p hp j => ?_, ?_, rfl, fun hd => (grown_covers ⟨0, hd⟩).2.1, fun ht => ?_, fun ht => ?_⟩
  · have g := grown_covers (s := s) (plow := plow) (phigh := phigh) j
    exact ⟨by linarith [m1 j, (hp j).1], by linarith [m2 j, (hp j).2]⟩
  · have g := grown_covers (s := s) (plow := plow) (phigh := phigh) j
    exact ⟨by linarith [m1 j, (hp j).1], by linarith [m2 j, (hp j).2]⟩
  · intro p hp j
    exact ball_of (low := fun j => min 0 (s.centre j - grownR s plow phigh)) (high := fun j => max 0 (s.centre j + grownR s plow phigh)) (grown_covers j).1 (fun j => ⟨m1 j, m2 j⟩) p hp j
  · obtain ⟨a, b, c, _⟩ := e12 ht
    exact ⟨a.trans e1, b.trans e2, c.trans e3⟩
  · obtain ⟨a, b, _⟩ := e11 ht
    exact ⟨a, b⟩

/-- After `initialize` with a positive radius, expanding to a second box returns for any bounds. -/
theorem C94_expands {dbg : Bool} {big deg : ℝ} {procs : List (List ℝ)} {s s' : State 2} (h : init dbg big procs deg s = .ok s') (hpos : 0 < infiniteRadius s') (dbg' : Bool) {plow phigh : Pt 2}
    (hb : ∀ j, plow j ≤ phigh j) : ∃ s'', expand dbg' true s' plow phigh = .ok s'' := by
  obtain ⟨c, h1, h2, h3, h4, h5, h6, _⟩ := init_cube h
  have hr : 0 < s'.rOut := by unfold infiniteRadius at hpos; rw [h6, max_self] at hpos; rw [h6]; exact hpos
  obtain ⟨p1, p2⟩ := C94_boundary h
  unfold expand
  simp only [Res.bind_eq]
  rw [grow_ok dbg' ⟨by rw [p1]; simp, by rw [p2]; simp⟩ hr hb (fun j => by rw [h4, h5, c.low, c.high]; constructor <;> linarith [c.r0]), Res.bind_ok]
  unfold adopt
  simp only [if_true, Res.bind_eq, Res.pure_eq, Res.bind_ok]
  rw [Res.assert_true dbg' (lt_of_lt_of_le hr (grown_covers 0).2.1), Res.bind_ok]
  exact ⟨_, rfl⟩

/-- The new box always has the origin in it. If that is further than the new radius from the centre in some coordinate, the grid is too small for the box: the high corner is given an integer beyond `coordMax()`. -/
theorem C94_origin_fails {dbg : Bool} {s s' : State d} {plow phigh : Pt d} (h : expand dbg false s plow phigh = .ok s') (hd : 0 < s.delta) (hg : s.deg = s.delta) :
    Inside s'.lowIn s'.highIn 0 ∧ ∀ j, s'.rIn + 2 * s.delta < s.centre j → ∀ dbg' (k : Fin d → Int), quantize dbg' s' s'.highIn = .ok (List.ofFn k) → s'.coordMax < k j := by
  obtain ⟨e1, e2, e3, e4, e5, e6, e7, e8, e9, e10, _, e12⟩ := expand_eq h
  obtain ⟨a, b, c, t, _⟩ := e12 rfl
  refine ⟨fun j => ?_, fun j hj dbg' k hk => ?_⟩
  · rw [a, b, e1, e2]; exact ⟨min_le_left _ _, le_max_left _ _⟩
  · rw [quantize_eq dbg' (Or.inl e10) e7] at hk
    have hr : 0 ≤ s'.rIn := by rw [c, e3]; exact (grown_covers j).1
    have lo : s'.lowIn j = 0 := by
      rw [a, e1]; apply min_eq_left; rw [c, e3] at hj; linarith
    have hi : s'.highIn j = s.centre j + s'.rIn := by
      rw [b, e2, c, e3]; apply max_eq_right; rw [c, e3] at hj hr; linarith
    -- the value of axis `j`
    have kj : pointCoord (s'.highIn j) (s'.lowIn j) s'.delta = .ok (k j) := by
      by_cases all : ∀ i, ∃ v, pointCoord (s'.highIn i) (s'.lowIn i) s'.delta = .ok v
      · choose v hv using all
        rw [mapM_finRange hv] at hk
        rw [hv j, congrFun (ofFn_inj' (Res.ok.inj hk)) j]
      · exfalso
        push Not at all
        obtain ⟨i, hi⟩ := all
        have : ∀ (l : List (Fin d)), i ∈ l → ∀ r, (l.mapM fun j => pointCoord (s'.highIn j) (s'.lowIn j) s'.delta) ≠ .ok r := by
          intro l
          induction l with
          | nil => simp
          | cons x xs ih =>
            intro hm r hr
            simp only [List.mapM_cons, Res.bind_eq, Res.bind_eq_ok] at hr
            obtain ⟨v, hv, vs, hvs, _⟩ := hr
            rcases List.mem_cons.mp hm with rfl | hm
            · exact hi v hv
            · exact ih hm vs hvs
        exact this _ (by simp) _ hk
    rw [lo, hi, e5] at kj
    unfold pointCoord toInt at kj
    rw [sub_zero] at kj
    rw [if_neg hd.ne'] at kj
    have t0 : 0 ≤ (s.centre j + s'.rIn) / s.delta + 1 / 2 := by
      have : 0 ≤ (s.centre j + s'.rIn) / s.delta := div_nonneg (by linarith) hd.le
      linarith
    dsimp only at kj
    rw [if_pos t0] at kj
    split at kj
    · have kv := Res.ok.inj kj
      rw [t, hg, ← kv]
      have c1 := Int.ceil_lt_add_one (2 * s'.rIn / s.delta)
      have big : 2 * s'.rIn / s.delta + 2 < (s.centre j + s'.rIn) / s.delta := by
        rw [lt_div_iff₀ hd, add_mul, div_mul_cancel₀ _ hd.ne']; linarith
      rw [← Int.add_one_le_iff, Int.le_floor]
      push_cast
      linarith
    · cases kj

/-- The boundary that the object is, as a PLC, stays that of the old box. -/
theorem C94_stale_fails {dbg : Bool} {big deg : ℝ} {procs : List (List ℝ)} {s s' s'' : State 2} (h : init dbg big procs deg s = .ok s') (hpos : 0 < infiniteRadius s') {dbg' : Bool} {plow phigh : Pt 2}
    (he : expand dbg' false s' plow phigh = .ok s'') : s''.points ≠ boxPoints2 s''.lowIn s''.highIn := by
  obtain ⟨c, h1, h2, h3, h4, h5, h6, _⟩ := init_cube h
  obtain ⟨e1, e2, e3, e4, e5, e6, e7, e8, e9, e10, _, e12⟩ := expand_eq he
  obtain ⟨a, b, _⟩ := e12 rfl
  have hr : 0 < s'.rIn := by unfold infiniteRadius at hpos; rw [h6, max_self] at hpos; exact hpos
  rw [e8, (C94_boundary h).1, boxPoints2]
  intro q
  simp only [List.cons.injEq] at q
  have q2 := q.1
  rw [a, e1, c.low] at q2
  have g := maxH_ge (s := s') (plow := plow) (phigh := phigh) (js := List.finRange 2) (h := 0)
  have g1 := (g.2 0 (by simp)).2
  have g2 : 3 * maxH s' plow phigh (List.finRange 2) 0 ≤ grownR s' plow phigh := le_max_right _ _
  have g3 := min_le_right (plow 0) (s'.lowOut 0)
  rw [h4, c.low] at g3 g1
  have := min_le_right (0 : ℝ) (s'.centre 0 - grownR s' plow phigh)
  linarith

/-- With MPI the radius is taken from the first side of the box: if the origin is beyond it in that direction but not in another, the ball leaves the box. -/
theorem C94_mpi_fails {dbg : Bool} {s s' : State 2} {plow phigh : Pt 2} (h : expandMPI dbg false s [(plow, phigh)] = .ok s') (hx : grownR s plow phigh < s.centre 0) (hy : |s.centre 1| ≤ grownR s plow phigh) :
    ¬ BallIn s'.lowIn s'.highIn s'.centre (infiniteRadius s') := by
  unfold expandMPI at h
  simp only [List.mapM_cons, List.mapM_nil, Res.bind_eq, Res.bind_eq_ok, Res.pure_eq, Res.ok.injEq] at h
  obtain ⟨gs, ⟨g, hg, _, rfl, rfl⟩, h⟩ := h
  rw [grow_eq hg] at h
  unfold adopt at h
  simp only [Bool.false_eq_true, if_false, Res.bind_eq, Res.bind_eq_ok, Res.pure_eq, Res.ok.injEq, List.map_cons, List.map_nil, allReduce, List.foldl_nil] at h
  obtain ⟨m, hm, _, rfl, _, _, rfl⟩ := h
  have r0 : 0 ≤ grownR s plow phigh := (grown_covers 0).1
  set r := grownR s plow phigh
  have ex : max 0 (s.centre 0 + r) - min 0 (s.centre 0 - r) = s.centre 0 + r := by
    rw [max_eq_right (by linarith), min_eq_left (by linarith)]; ring
  intro hb
  simp only [infiniteRadius, max_self] at hb
  rw [ex] at hb
  have := (hb ![s.centre 0, s.centre 1 + 1 / 2 * (s.centre 0 + r)] (by simp [dist2, Fin.sum_univ_two]) 1).2
  have ay := abs_le.mp hy
  have this : s.centre 1 + 1 / 2 * (s.centre 0 + r) ≤ max 0 (s.centre 1 + r) := this
  rw [max_eq_right (by linarith [ay.1])] at this
  linarith

open Classical in
/-- With two boxes, a point of the inner box may not come back: it is rounded to a grid point outside the box, which `dequantize` refuses. -/
theorem C94_two_fails {s : State d} {k : Fin d → Int} {j : Fin d} (h2 : s.two = true) (hm : s.modified = false) (hk : s.highIn j < s.lowIn j + (k j : ℝ) * s.delta) : dequantize true s k = .abort := by
  unfold dequantize
  simp only [Res.bind_eq]
  rw [Res.assert_true true hm, Res.bind_ok, @Res.assert_debug_false _ _ ?_, Res.bind_abort]
  rintro (h | h)
  · rw [h2] at h; cases h
  · exact absurd (h j).2 (not_le.mpr hk)

theorem mapM_image {α β : Type} {f : α → Res β} : ∀ {l : List α} {r : List β}, l.mapM f = .ok r → ∀ a ∈ l, ∃ b ∈ r, f a = .ok b
  | [], _, _, a, ha => by cases ha
  | x :: l, r, h, a, ha => by
    simp only [List.mapM_cons, Res.bind_eq, Res.bind_eq_ok, Res.pure_eq, Res.ok.injEq] at h
    obtain ⟨y, hy, ys, hys, rfl⟩ := h
    rcases List.mem_cons.mp ha with rfl | ha
    · exact ⟨y, by simp, hy⟩
    · obtain ⟨b, hb, e⟩ := mapM_image hys a ha
      exact ⟨b, by simp [hb], e⟩

/-- With MPI too, the new box has in it the old one, the bounds given on every process and the ball of the old radius. -/
theorem C94_expand_mpi [NeZero d] {dbg two : Bool} {s s' : State d} {procs : List (Pt d × Pt d)} (h : expandMPI dbg two s procs = .ok s') {b : Pt d × Pt d} (hb : b ∈ procs) :
    (∀ p, Inside s.lowOut s.highOut p → Inside s'.lowOut s'.highOut p) ∧ (∀ p, Inside b.1 b.2 p → Inside s'.lowOut s'.highOut p) ∧
      (0 ≤ s.rOut → BallIn s'.lowOut s'.highOut s.centre s.rOut) ∧ s'.centre = s.centre := by
  unfold expandMPI at h
  simp only [Res.bind_eq, Res.bind_eq_ok] at h
  obtain ⟨gs, hg, h⟩ := h
  obtain ⟨g, hgm, hge⟩ : ∃ g ∈ gs, grow dbg s b.1 b.2 = .ok g := mapM_image hg b hb
  have ne1 : ∀ j, (gs.map fun g => g.1.1 j) ≠ [] := fun j => by rw [ne_eq, List.map_eq_nil_iff]; exact List.ne_nil_of_mem hgm
  have ne2 : ∀ j, (gs.map fun g => g.1.2 j) ≠ [] := fun j => by rw [ne_eq, List.map_eq_nil_iff]; exact List.ne_nil_of_mem hgm
  have l1 : ∀ j, allReduce min (gs.map fun g => g.1.1 j) ≤ g.1.1 j := fun j => (reduce_min (ne1 j)).2 _ (List.mem_map_of_mem hgm)
  have l2 : ∀ j, g.1.2 j ≤ allReduce max (gs.map fun g => g.1.2 j) := fun j => (reduce_max (ne2 j)).2 _ (List.mem_map_of_mem hgm)
  have e := grow_eq hge
  have out : s'.lowOut = (fun j => allReduce min (gs.map fun g => g.1.1 j)) ∧ s'.highOut = (fun j => allReduce max (gs.map fun g => g.1.2 j)) ∧ s'.centre = s.centre := by
    unfold adopt at h
    cases two
    · simp only [Bool.false_eq_true, if_false, Res.bind_eq, Res.bind_eq_ok, Res.pure_eq, Res.ok.injEq] at h
      obtain ⟨m, hm, _, rfl, _, _, rfl⟩ := h
      exact ⟨rfl, rfl, rfl⟩
    · simp only [if_true, Res.bind_eq, Res.bind_eq_ok, Res.pure_eq, Res.ok.injEq] at h
      obtain ⟨_, rfl, _, _, rfl⟩ := h
      exact ⟨rfl, rfl, rfl⟩
  rw [out.1, out.2.1]
  rw [e] at l1 l2
  have k1 : ∀ j, allReduce min (gs.map fun g => g.1.1 j) ≤ s.centre j - grownR s b.1 b.2 := fun j => (l1 j).trans (min_le_right _ _)
  have k2 : ∀ j, s.centre j + grownR s b.1 b.2 ≤ allReduce max (gs.map fun g => g.1.2 j) := fun j => (le_max_right _ _).trans (l2 j)
  have g := grown_covers (s := s) (plow := b.1) (phigh := b.2)
  refine ⟨fun p hp j => ?_, fun p hp j => ?_, fun hr => ball_of hr fun j => ?_, out.2.2⟩
  all_goals have g := g j
  · exact ⟨by linarith [k1 j, (hp j).1], by linarith [k2 j, (hp j).2]⟩
  · exact ⟨by linarith [k1 j, (hp j).1], by linarith [k2 j, (hp j).2]⟩
  · exact ⟨by linarith [k1 j], by linarith [k2 j]⟩

open Classical in
/-- After the box was expanded to a second one around it, with assertions, `quantize` is for the points of the first box: it aborts for all others. -/
theorem C94_inner {dbg : Bool} {s s' : State d} {plow phigh p : Pt d} (h : expand dbg true s plow phigh = .ok s') (hp : ¬ Inside s.lowIn s.highIn p) : quantize true s' p = .abort := by
  obtain ⟨_, _, _, _, _, _, _, _, _, _, _, _⟩ := expand_eq h
  have g := (C94_expand h).2.2.2.2.2.2 rfl
  have two : s'.two = true := by
    unfold expand adopt at h
    simp only [if_true, Res.bind_eq, Res.bind_eq_ok, Res.pure_eq, Res.ok.injEq] at h
    obtain ⟨_, _, _, rfl, _, _, rfl⟩ := h
    rfl
  unfold quantize
  simp only [Res.bind_eq]
  rw [@Res.assert_debug_false _ _ ?_, Res.bind_abort]
  rintro (q | q)
  · rw [two] at q; cases q
  · exact hp (by rw [g.1, g.2] at q; exact q)

/-- And it rounds the points of the first box to the grid it had before. -/
theorem C94_inner_quantize {dbg dbg' dbg'' : Bool} {big deg : ℝ} {procs : List (List ℝ)} {s s' s'' : State d} {plow phigh p : Pt d} (hdeg : 0 < deg) (h : init dbg big procs deg s = .ok s')
    (h' : expand dbg' true s' plow phigh = .ok s'') (hp : Inside s'.lowIn s'.highIn p) : ∃ k : Fin d → Int, quantize dbg'' s'' p = .ok (List.ofFn k) ∧ OnGrid s'.lowIn deg s'.coordMax p k := by
  obtain ⟨k, h1, h2⟩ := C94_quantize hdeg h dbg'' hp
  refine ⟨k, ?_, h2⟩
  obtain ⟨c, _, _, h3, _⟩ := init_cube h
  have g := (C94_expand h').2.2.2.2.2.2 rfl
  have e : s''.modified = false ∧ s''.delta = s'.delta := by
    unfold expand adopt at h'
    simp only [if_true, Res.bind_eq, Res.bind_eq_ok, Res.pure_eq, Res.ok.injEq] at h'
    obtain ⟨_, _, _, rfl, _, _, rfl⟩ := h'
    exact ⟨rfl, rfl⟩
  rw [quantize_eq dbg'' (Or.inl h3) c.mod] at h1
  rw [quantize_eq dbg'' (Or.inr (by rw [g.1, g.2]; exact hp)) e.1, g.1, e.2]
  exact h1

/-! ### A concrete case -/

/-- Two points on one process and one on another. -/
def demo : List (List ℝ) := [[100, 100, 104, 103], [], [101, 103]]

theorem demo_points : demo.flatMap (pointsOf 2) = [[100, 100], [104, 103], [101, 103]] := by simp [demo, pointsOf, List.range_succ]

theorem demo_range : (∀ pos ∈ demo, 2 ∣ pos.length) ∧ ∀ pos ∈ demo, ∀ v ∈ pos, -(1000 : ℝ) ≤ v ∧ v ≤ 1000 := by
  constructor
  · simp [demo]
  · intro pos hp v hv
    simp only [demo, List.mem_cons, List.not_mem_nil, or_false] at hp
    rcases hp with rfl | rfl | rfl <;> simp only [List.mem_cons, List.not_mem_nil, or_false] at hv
    · rcases hv with rfl | rfl | rfl | rfl <;> norm_num
    · rcases hv with rfl | rfl <;> norm_num

theorem demo_spread : FirstSpread (demo.flatMap (pointsOf 2)) ∧ SpreadLe (demo.flatMap (pointsOf 2)) 4 := by
  rw [demo_points]
  refine ⟨⟨[100, 100], by simp, [104, 103], by simp, 100, 104, rfl, rfl, by norm_num⟩, ?_⟩
  intro p hp q hq j x y hx hy
  simp only [List.mem_cons, List.not_mem_nil, or_false] at hp hq
  have hj : j = 0 ∨ j = 1 := by
    have := (List.getElem?_eq_some_iff.mp hx).1
    rcases hp with rfl | rfl | rfl <;> simp at this <;> omega
  rcases hp with rfl | rfl | rfl <;> rcases hq with rfl | rfl | rfl <;> rcases hj with rfl | rfl <;>
    simp only [List.getElem?_cons_zero, List.getElem?_cons_succ, Option.some.injEq] at hx hy <;> subst hx hy <;> norm_num

/-- The hypotheses of the theorems about `initialize` are met. -/
theorem demo_init (dbg : Bool) (s : State 2) : ∃ s', init dbg 1000 demo (1 / 1000) s = .ok s' ∧ 0 < infiniteRadius s' ∧ Inside s'.lowIn s'.highIn ![104, 103] := by
  obtain ⟨s', h, hr, _, _, _, hi⟩ := C94_initialize dbg (deg := 1 / 1000) (e := 4) s (by norm_num) demo_range.1 demo_range.2 demo_spread.1 demo_spread.2 (by norm_num) (by norm_num)
  refine ⟨s', h, hr, fun j => ?_⟩
  have := hi [104, 103] (by rw [demo_points]; simp) ![104, 103] (by intro j; fin_cases j <;> rfl) j
  exact ⟨this.1.le, this.2.le⟩

example (s : State 2) : ∃ s' k, init true 1000 demo (1 / 1000) s = .ok s' ∧ quantize true s' ![104, 103] = .ok (List.ofFn k) ∧ OnGrid s'.lowIn (1 / 1000) s'.coordMax ![104, 103] k ∧
    (∃ p, dequantize true s' (fun _ => s'.coordMax) = .ok p) ∧ ∃ s'', expand true true s' ![0, 0] ![7, 7] = .ok s'' := by
  obtain ⟨s', h, hr, hi⟩ := demo_init true s
  obtain ⟨k, h1, h2⟩ := C94_quantize (by norm_num) h true hi
  obtain ⟨c, hd, _⟩ := init_cube h
  have top : 0 ≤ s'.coordMax := by rw [c.top]; exact Int.ceil_nonneg (div_nonneg (by linarith [c.r0]) (by rw [hd]; norm_num))
  obtain ⟨p, hp, _⟩ := C94_roundtrip (by norm_num) h true (k := fun _ => s'.coordMax) fun _ => ⟨top, le_refl _⟩
  exact ⟨s', k, h, h1, h2, ⟨p, hp⟩, C94_expands h hr true (by intro j; fin_cases j <;> norm_num)⟩

/-- After an expansion to two boxes: a generator is rounded, a point outside the first box is refused. -/
example (s : State 2) : ∃ s' s'', ∃ k : Fin 2 → Int, init true 1000 demo (1 / 1000) s = .ok s' ∧ expand true true s' ![0, 0] ![7, 7] = .ok s'' ∧ quantize true s'' ![104, 103] = .ok (List.ofFn k) ∧
    quantize true s'' (fun j => s'.lowIn j - 1) = .abort := by
  obtain ⟨s', h, hr, hi⟩ := demo_init true s
  obtain ⟨s'', h'⟩ := C94_expands h hr true (plow := ![0, 0]) (phigh := ![7, 7]) (by intro j; fin_cases j <;> norm_num)
  obtain ⟨k, hk, _⟩ := C94_inner_quantize (dbg'' := true) (by norm_num) h h' hi
  refine ⟨s', s'', k, h, h', hk, C94_inner h' fun hh => ?_⟩
  have := (hh 0).1
  linarith

/-- Points with the same first coordinate. -/
example (s : State 2) : init true 100 [[1, 2, 1, 7]] (1 / 1000) s = .abort :=
  C94_flat_fails (by norm_num) (by simp) ⟨_, List.mem_cons_self, by simp⟩
    (by intro pos hp v hv; simp only [List.mem_singleton] at hp; subst hp; simp only [List.mem_cons, List.not_mem_nil, or_false] at hv; rcases hv with rfl | rfl | rfl | rfl <;> norm_num)
    (by intro p hp q hq; simp [pointsOf, List.range_succ] at hp hq; rcases hp with rfl | rfl <;> rcases hq with rfl | rfl <;> rfl)

/-- A state that expanding spoils: the box of half width 3 about (100, 0), spacing 1. -/
noncomputable def far : State 2 :=
  { lowIn := ![97, -3], highIn := ![103, 3], lowOut := ![97, -3], highOut := ![103, 3], delta := 1, rIn := 3, rOut := 3, centre := ![100, 0], deg := 1, coordMax := 6, modified := false, two := false,
    points := [97, -3, 103, -3, 103, 3, 97, 3], facets := boxFacets2 }

theorem far_grown : grownR far ![99, -1] ![101, 1] = 9 := by
  have : maxH far ![99, -1] ![101, 1] (List.finRange 2) 0 = 3 := by
    simp only [maxH, far, List.finRange_succ, List.finRange_zero, List.map_cons, List.map_nil, List.foldl_cons, List.foldl_nil]
    norm_num
  unfold grownR; rw [this]; norm_num [far]

theorem far_grow (dbg : Bool) : grow dbg far ![99, -1] ![101, 1] = .ok ((fun j => min 0 (far.centre j - 9), fun j => max 0 (far.centre j + 9)), 9) := by
  rw [← far_grown]
  exact grow_ok dbg ⟨by simp [far], by simp [far, boxFacets2]⟩ (by norm_num [far]) (by intro j; fin_cases j <;> norm_num) (by intro j; fin_cases j <;> norm_num [far])

example : ∃ s', expand true false far ![99, -1] ![101, 1] = .ok s' ∧ s'.rIn + 2 * far.delta < far.centre 0 := by
  unfold expand adopt
  simp only [Res.bind_eq]
  rw [far_grow, Res.bind_ok]
  simp only [Bool.false_eq_true, if_false, Res.bind_eq, Res.pure_eq]
  rw [maximum_ok (by norm_num [far]) (by norm_num) (by norm_num [far]), Res.bind_ok, Res.bind_ok, Res.assert_true true (by norm_num), Res.bind_ok]
  exact ⟨_, rfl, by norm_num [far]⟩

example : ∃ s', expandMPI true false far [(![99, -1], ![101, 1])] = .ok s' ∧ ¬ BallIn s'.lowIn s'.highIn s'.centre (infiniteRadius s') := by
  have run : ∃ s', expandMPI true false far [(![99, -1], ![101, 1])] = .ok s' := by
    unfold expandMPI adopt
    simp only [List.mapM_cons, List.mapM_nil, Res.bind_eq, far_grow, Res.bind_ok, Res.pure_eq, Bool.false_eq_true, if_false, List.map_cons, List.map_nil, allReduce, List.foldl_nil]
    rw [maximum_ok (by norm_num [far]) (by norm_num [far]) (by norm_num [far]), Res.bind_ok, Res.assert_true true (by norm_num [far]), Res.bind_ok]
    exact ⟨_, rfl⟩
  obtain ⟨s', h⟩ := run
  exact ⟨s', h, C94_mpi_fails h (by rw [far_grown]; norm_num [far]) (by rw [far_grown]; norm_num [far])⟩

theorem far_grow' (dbg : Bool) : grow dbg far ![98, -2] ![102, 7] = .ok ((fun j => min 0 (far.centre j - 21), fun j => max 0 (far.centre j + 21)), 21) := by
  have : grownR far ![98, -2] ![102, 7] = 21 := by
    have : maxH far ![98, -2] ![102, 7] (List.finRange 2) 0 = 7 := by
      simp only [maxH, far, List.finRange_succ, List.finRange_zero, List.map_cons, List.map_nil, List.foldl_cons, List.foldl_nil]
      norm_num
    unfold grownR; rw [this]; norm_num [far]
  rw [← this]
  exact grow_ok dbg ⟨by simp [far], by simp [far, boxFacets2]⟩ (by norm_num [far]) (by intro j; fin_cases j <;> norm_num) (by intro j; fin_cases j <;> norm_num [far])

/-- Two processes with different bounds. -/
example : ∃ s', expandMPI true true far [(![99, -1], ![101, 1]), (![98, -2], ![102, 7])] = .ok s' ∧ Inside s'.lowOut s'.highOut ![100, 7] := by
  have run : ∃ s', expandMPI true true far [(![99, -1], ![101, 1]), (![98, -2], ![102, 7])] = .ok s' := by
    unfold expandMPI adopt
    simp only [List.mapM_cons, List.mapM_nil, Res.bind_eq, far_grow, far_grow', Res.bind_ok, Res.pure_eq, if_true, List.map_cons, List.map_nil, allReduce, List.foldl_nil, List.foldl_cons]
    rw [Res.assert_true true (by norm_num [far]), Res.bind_ok]
    exact ⟨_, rfl⟩
  obtain ⟨s', h⟩ := run
  exact ⟨s', h, (C94_expand_mpi h (b := (![98, -2], ![102, 7])) (by simp)).2.1 _ (by intro j; fin_cases j <;> norm_num)⟩
end Verif.QC
