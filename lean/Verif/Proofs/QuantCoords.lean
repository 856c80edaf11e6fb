import Verif.Model.QuantCoords
import Verif.Spec.QuantCoords
import Verif.Props.Box
import Verif.Props.Quant
import Verif.Props.Ray
import Mathlib.Algebra.Order.BigOperators.Group.Finset
/- C94: lemmas on quantized coordinates. -/
namespace Verif.QC
open Verif Verif.Geom Verif.Mesh
variable {d : Nat}

/-- The radius without assertions. -/
noncomputable def maxR (low high : Pt d) (js : List (Fin d)) (r : ℝ) : ℝ := js.foldl (fun r j => max r (3 / 4 * (high j - low j))) r

theorem radiusLoop_eq {dbg : Bool} {low high : Pt d} : ∀ {js : List (Fin d)} {r r' : ℝ}, radiusLoop dbg low high js r = .ok r' → r' = maxR low high js r
  | [], r, r', h => by simpa [radiusLoop, maxR] using h.symm
  | j :: js, r, r', h => by
    unfold radiusLoop at h
    simp only [Res.bind_eq, Res.bind_eq_ok] at h
    obtain ⟨_, _, _, _, h⟩ := h
    have := radiusLoop_eq h
    exact this

theorem radiusLoop_ok (dbg : Bool) {low high : Pt d} : ∀ {js : List (Fin d)} {r : ℝ}, (∀ j ∈ js, low j ≤ high j) → 0 < r → radiusLoop dbg low high js r = .ok (maxR low high js r)
  | [], r, _, _ => rfl
  | j :: js, r, h, hr => by
    unfold radiusLoop
    have hj := h j (by simp)
    have l := le_max_right r (3 / 4 * (high j - low j))
    have l2 := le_max_left r (3 / 4 * (high j - low j))
    simp only [Res.bind_eq]
    rw [Res.assert_true dbg hj, Res.bind_ok, Res.assert_true dbg, Res.bind_ok, radiusLoop_ok dbg (fun i hi => h i (by simp [hi])) (lt_of_lt_of_le hr l2)]
    · rfl
    · rcases hj.eq_or_lt with e | e
      · constructor <;> linarith
      · constructor <;> linarith

theorem maxR_ge {low high : Pt d} : ∀ {js : List (Fin d)} {r : ℝ}, r ≤ maxR low high js r ∧ ∀ j ∈ js, 3 / 4 * (high j - low j) ≤ maxR low high js r
  | [], r => ⟨le_refl _, by simp⟩
  | j :: js, r => by
    have ih := maxR_ge (low := low) (high := high) (js := js) (r := max r (3 / 4 * (high j - low j)))
    refine ⟨le_trans (le_max_left _ _) ih.1, fun i hi => ?_⟩
    rcases List.mem_cons.mp hi with rfl | hi
    · exact le_trans (le_max_right _ _) ih.1
    · exact ih.2 i hi

theorem maxR_of {low high : Pt d} : ∀ {js : List (Fin d)} {r : ℝ}, maxR low high js r = r ∨ ∃ j ∈ js, maxR low high js r = 3 / 4 * (high j - low j)
  | [], r => Or.inl rfl
  | j :: js, r => by
    rcases maxR_of (low := low) (high := high) (js := js) (r := max r (3 / 4 * (high j - low j))) with e | ⟨i, hi, e⟩
    · rcases max_choice r (3 / 4 * (high j - low j)) with m | m
      · left; show maxR low high js _ = r; rw [e, m]
      · right; exact ⟨j, by simp, by show maxR low high js _ = _; rw [e, m]⟩
    · right; exact ⟨i, by simp [hi], e⟩

/-- The box, the sphere and the grid fit together. -/
structure Cube (s : State d) : Prop where
  low : ∀ j, s.lowIn j = s.centre j - s.rIn
  high : ∀ j, s.highIn j = s.centre j + s.rIn
  r0 : 0 ≤ s.rIn
  top : s.coordMax = ⌈2 * s.rIn / s.delta⌉
  lt : s.coordMax < 2147483647
  mod : s.modified = false

theorem maximum_eq {size deg : ℝ} {m : Int} (h : maximumCoordinate size deg = .ok m) : deg ≠ 0 ∧ m = ⌈size / deg⌉ ∧ m < 2147483647 := by
  unfold maximumCoordinate at h
  split at h
  · cases h
  rename_i h0
  simp only [Res.bind_eq, Res.bind_eq_ok] at h
  obtain ⟨k, h1, h2⟩ := h
  split at h2
  · cases h2
    refine ⟨h0, ?_, by assumption⟩
    unfold toInt at h1
    simp only [Int.floor_intCast, Int.ceil_intCast, ite_self] at h1
    split at h1
    · cases h1; rfl
    · cases h1
  · cases h2

theorem toInt_intCast {n : Int} (h0 : 0 ≤ n) (h1 : n ≤ 2147483647) : toInt (n : ℝ) = .ok n := by
  rw [toInt_ok (by exact_mod_cast h0) (by simpa using h1)]; simp

theorem maximum_ok {size deg : ℝ} (hd : 0 < deg) (h0 : 0 ≤ size) (h1 : size ≤ 2147483646 * deg) : maximumCoordinate size deg = .ok ⌈size / deg⌉ := by
  have a : 0 ≤ ⌈size / deg⌉ := Int.ceil_nonneg (div_nonneg h0 hd.le)
  have b : ⌈size / deg⌉ ≤ 2147483646 := Int.ceil_le.mpr (by rw [div_le_iff₀ hd]; push_cast; linarith)
  unfold maximumCoordinate
  rw [if_neg hd.ne', Res.bind_eq, toInt_intCast a (by omega), Res.bind_ok, if_pos (by omega)]

theorem maximum_ub {size deg : ℝ} (hd : 0 < deg) (h1 : 2147483647 * deg < size) : maximumCoordinate size deg = .ub := by
  have b : 2147483647 < ⌈size / deg⌉ := Int.lt_ceil.mpr (by rw [lt_div_iff₀ hd]; push_cast; linarith)
  unfold maximumCoordinate
  rw [if_neg hd.ne', Res.bind_eq, toInt_big (by exact_mod_cast (by omega : (2147483648 : Int) ≤ ⌈size / deg⌉)), Res.bind_ub]

theorem bounds_eq {dbg : Bool} {r : ℝ} {c low high : Pt d} {b : Pt d × Pt d} (h : boundsFromRadius dbg r c low high = .ok b) :
    (dbg = true → 0 < r) ∧ b = (fun j => min (low j) (c j - r), fun j => max (high j) (c j + r)) := by
  unfold boundsFromRadius at h
  simp only [Res.bind_eq, Res.bind_eq_ok, Res.assert_eq_ok, Res.pure_eq] at h
  obtain ⟨_, h1, _, _, h2⟩ := h
  cases h2; exact ⟨h1, rfl⟩

theorem bounds_ok (dbg : Bool) {r : ℝ} {c low high : Pt d} (hr : 0 < r) :
    boundsFromRadius dbg r c low high = .ok (fun j => min (low j) (c j - r), fun j => max (high j) (c j + r)) := by
  unfold boundsFromRadius
  simp only [Res.bind_eq]
  rw [Res.assert_true dbg hr, Res.bind_ok, Res.assert_true dbg, Res.bind_ok]
  · rfl
  · intro j
    exact le_trans (min_le_right _ _) (le_trans (by linarith) (le_max_right _ _))

theorem storeBounds_fields (s : State d) : (storeBounds s).lowIn = s.lowIn ∧ (storeBounds s).highIn = s.highIn ∧ (storeBounds s).centre = s.centre ∧ (storeBounds s).rIn = s.rIn ∧
    (storeBounds s).coordMax = s.coordMax ∧ (storeBounds s).modified = s.modified ∧ (storeBounds s).delta = s.delta ∧ (storeBounds s).deg = s.deg ∧ (storeBounds s).two = s.two := by
  rcases d with _ | _ | _ | _ | d <;> simp [storeBounds]

/-- The state `init` leaves, given the box of the points. -/
noncomputable def started (low high : Pt d) (deg : ℝ) : State d :=
  let r := maxR low high (List.finRange d) 0
  let c := centreOf low high
  let s := storeBounds { lowIn := fun j => min (low j) (c j - r), highIn := fun j => max (high j) (c j + r), lowOut := 0, highOut := 0, delta := deg, rIn := r, rOut := 0, centre := c, deg := deg, coordMax := ⌈2 * r / deg⌉, modified := false, two := false, points := [], facets := [] }
  { s with lowOut := s.lowIn, highOut := s.highIn, rOut := s.rIn }

theorem init_eq {dbg : Bool} {big deg : ℝ} {procs : List (List ℝ)} {s s' : State d} (h : init dbg big procs deg s = .ok s') :
    ∃ box, globalBox dbg big d procs = .ok box ∧ (dbg = true → 0 < maxR (lowOf box : Pt d) (highOf box) (List.finRange d) 0) ∧ s' = started (lowOf box) (highOf box) deg ∧ deg ≠ 0 ∧ s'.coordMax < 2147483647 := by
  unfold init at h
  simp only [clear, Bool.false_eq_true, if_false, Res.bind_eq, Res.bind_eq_ok, Res.pure_eq, Res.ok.injEq] at h
  obtain ⟨box, hb, _, _, r, hr, b, hbb, m, hm, hs⟩ := h
  have er := radiusLoop_eq hr
  obtain ⟨hpos, eb⟩ := bounds_eq hbb
  obtain ⟨m1, m2, m3⟩ := maximum_eq hm
  have es : s' = started (lowOf box) (highOf box) deg := by
    rw [← hs]; subst er eb m2; rfl
  refine ⟨box, hb, by rw [← er]; exact hpos, es, m1, ?_⟩
  rw [es]; unfold started
  simp only [storeBounds_fields]
  rw [← er, ← m2]; exact m3

theorem started_cube {low high : Pt d} {deg : ℝ} (h : (started low high deg).coordMax < 2147483647) : Cube (started low high deg) := by
  have g := maxR_ge (low := low) (high := high) (js := List.finRange d) (r := 0)
  have e : ∀ j, min (low j) (centreOf low high j - maxR low high (List.finRange d) 0) = centreOf low high j - maxR low high (List.finRange d) 0 ∧
      max (high j) (centreOf low high j + maxR low high (List.finRange d) 0) = centreOf low high j + maxR low high (List.finRange d) 0 := by
    intro j
    have := g.2 j (by simp)
    have g0 := g.1
    constructor
    · apply min_eq_right; unfold centreOf
      by_cases h : low j ≤ high j <;> linarith
    · apply max_eq_right; unfold centreOf
      by_cases h : low j ≤ high j <;> linarith
  refine ⟨?_, ?_, ?_, ?_, h, ?_⟩
  · intro j; simp only [started, storeBounds_fields]; exact (e j).1
  · intro j; simp only [started, storeBounds_fields]; exact (e j).2
  · simp only [started, storeBounds_fields]; exact g.1
  · simp only [started, storeBounds_fields]
  · simp only [started, storeBounds_fields]

theorem init_cube {dbg : Bool} {big deg : ℝ} {procs : List (List ℝ)} {s s' : State d} (h : init dbg big procs deg s = .ok s') :
    Cube s' ∧ s'.delta = deg ∧ s'.deg = deg ∧ s'.two = false ∧ s'.lowOut = s'.lowIn ∧ s'.highOut = s'.highIn ∧ s'.rOut = s'.rIn ∧ deg ≠ 0 := by
  obtain ⟨box, _, _, es, h0, hm⟩ := init_eq h
  subst es
  refine ⟨started_cube hm, ?_, ?_, ?_, ?_, ?_, ?_, h0⟩ <;> simp only [started, storeBounds_fields]

/-! ### The grid -/

theorem mapM_finRange {β : Type} {f : Fin d → Res β} {g : Fin d → β} (h : ∀ j, f j = .ok (g j)) : (List.finRange d).mapM f = .ok (List.ofFn g) := by
  rw [mapM_ok (f := g) _ fun j _ => h j, List.ofFn_eq_map]

theorem ofFn_inj' {β : Type} {g h : Fin d → β} (e : List.ofFn g = List.ofFn h) : g = h := List.ofFn_injective e

/-- Rounding: a coordinate in the box. -/
theorem coord_ok {x low delta w : ℝ} {top : Int} (hd : 0 < delta) (h0 : low ≤ x) (h1 : x ≤ low + w) (ht : top = ⌈w / delta⌉) (hl : top < 2147483647) :
    pointCoord x low delta = .ok ⌊(x - low) / delta + 1 / 2⌋ ∧ 0 ≤ ⌊(x - low) / delta + 1 / 2⌋ ∧ ⌊(x - low) / delta + 1 / 2⌋ ≤ top ∧
      |low + ((⌊(x - low) / delta + 1 / 2⌋ : Int) : ℝ) * delta - x| ≤ delta / 2 := by
  set t := (x - low) / delta with hte
  have t0 : 0 ≤ t := div_nonneg (by linarith) hd.le
  have t1 : t ≤ w / delta := by rw [hte]; exact div_le_div_of_nonneg_right (by linarith) hd.le
  have tq : t * delta = x - low := by rw [hte]; field_simp
  have f1 : ⌊t + 1 / 2⌋ ≤ top := by
    have c := Int.le_ceil (w / delta)
    have : ⌊t + 1 / 2⌋ < top + 1 := Int.floor_lt.mpr (by rw [ht]; push_cast; linarith)
    omega
  have l1 := Int.floor_le (t + 1 / 2)
  have l2 := Int.lt_floor_add_one (t + 1 / 2)
  refine ⟨?_, Int.floor_nonneg.mpr (by linarith), f1, ?_⟩
  · unfold pointCoord
    rw [if_neg hd.ne', ← hte, toInt_ok (by linarith) (by omega)]
  · rw [abs_le]; constructor <;> nlinarith

open Classical in
theorem quantize_eq (dbg : Bool) {s : State d} {p : Pt d} (hi : isInner s p) (hm : s.modified = false) : quantize dbg s p = (List.finRange d).mapM fun j => pointCoord (p j) (s.lowIn j) s.delta := by
  unfold quantize
  simp only [Res.bind_eq]
  rw [@Res.assert_true dbg _ _ hi, Res.bind_ok, Res.assert_true dbg hm, Res.bind_ok]

/-! ### Growing -/

/-- `boxHalf` without assertions. -/
noncomputable def maxH (s : State d) (plow phigh : Pt d) (js : List (Fin d)) (h : ℝ) : ℝ :=
  js.foldl (fun h j => max (max h (max (phigh j) (s.highOut j) - s.centre j)) (s.centre j - min (plow j) (s.lowOut j))) h

theorem halfLoop_eq {dbg : Bool} {s : State d} {plow phigh : Pt d} : ∀ {js : List (Fin d)} {h h' : ℝ}, halfLoop dbg s plow phigh js h = .ok h' → h' = maxH s plow phigh js h
  | [], h, h', e => by simpa [halfLoop, maxH] using e.symm
  | j :: js, h, h', e => by
    unfold halfLoop at e
    simp only [Res.bind_eq, Res.bind_eq_ok] at e
    obtain ⟨_, _, _, _, _, _, e⟩ := e
    have := halfLoop_eq e
    exact this

theorem halfLoop_ok (dbg : Bool) {s : State d} {plow phigh : Pt d} : ∀ {js : List (Fin d)} {h : ℝ}, (∀ j ∈ js, plow j ≤ phigh j ∧ s.lowOut j ≤ s.centre j ∧ s.centre j ≤ s.highOut j) →
    halfLoop dbg s plow phigh js h = .ok (maxH s plow phigh js h)
  | [], h, _ => rfl
  | j :: js, h, e => by
    obtain ⟨a, b, c⟩ := e j (by simp)
    unfold halfLoop
    simp only [Res.bind_eq]
    rw [Res.assert_true dbg a, Res.bind_ok, Res.assert_true dbg (le_trans c (le_max_right _ _)), Res.bind_ok, Res.assert_true dbg (le_trans (min_le_right _ _) b), Res.bind_ok,
      halfLoop_ok dbg fun i hi => e i (by simp [hi])]
    rfl

theorem maxH_ge {s : State d} {plow phigh : Pt d} : ∀ {js : List (Fin d)} {h : ℝ}, h ≤ maxH s plow phigh js h ∧
    ∀ j ∈ js, max (phigh j) (s.highOut j) - s.centre j ≤ maxH s plow phigh js h ∧ s.centre j - min (plow j) (s.lowOut j) ≤ maxH s plow phigh js h
  | [], h => ⟨le_refl _, by simp⟩
  | j :: js, h => by
    have ih := maxH_ge (s := s) (plow := plow) (phigh := phigh) (js := js) (h := max (max h (max (phigh j) (s.highOut j) - s.centre j)) (s.centre j - min (plow j) (s.lowOut j)))
    refine ⟨le_trans (le_trans (le_max_left _ _) (le_max_left _ _)) ih.1, fun i hi => ?_⟩
    rcases List.mem_cons.mp hi with rfl | hi
    · exact ⟨le_trans (le_trans (le_max_right _ _) (le_max_left _ _)) ih.1, le_trans (le_max_right _ _) ih.1⟩
    · exact ih.2 i hi

/-- The radius of the grown sphere. -/
noncomputable def grownR (s : State d) (plow phigh : Pt d) : ℝ := max s.rOut (3 * maxH s plow phigh (List.finRange d) 0)

theorem grow_eq {dbg : Bool} {s : State d} {plow phigh : Pt d} {g : (Pt d × Pt d) × ℝ} (h : grow dbg s plow phigh = .ok g) :
    g = ((fun j => min 0 (s.centre j - grownR s plow phigh), fun j => max 0 (s.centre j + grownR s plow phigh)), grownR s plow phigh) := by
  unfold grow at h
  simp only [Res.bind_eq, Res.bind_eq_ok, Res.pure_eq, Res.ok.injEq] at h
  obtain ⟨_, _, _, _, _, _, h', hh, b, hb, e⟩ := h
  have := halfLoop_eq hh
  obtain ⟨_, eb⟩ := bounds_eq hb
  subst this eb
  exact e.symm

theorem grow_ok (dbg : Bool) {s : State d} {plow phigh : Pt d} (hp : s.points ≠ [] ∧ s.facets ≠ []) (hr : 0 < s.rOut) (hb : ∀ j, plow j ≤ phigh j)
    (hc : ∀ j, s.lowOut j ≤ s.centre j ∧ s.centre j ≤ s.highOut j) :
    grow dbg s plow phigh = .ok ((fun j => min 0 (s.centre j - grownR s plow phigh), fun j => max 0 (s.centre j + grownR s plow phigh)), grownR s plow phigh) := by
  unfold grow
  simp only [Res.bind_eq]
  rw [Res.assert_true dbg hp, Res.bind_ok, Res.assert_true dbg hr.ne', Res.bind_ok, Res.assert_true dbg hb, Res.bind_ok, halfLoop_ok dbg fun j _ => ⟨hb j, hc j⟩, Res.bind_ok,
    bounds_ok dbg (lt_of_lt_of_le hr (le_max_left _ _)), Res.bind_ok]
  rfl

theorem grown_covers {s : State d} {plow phigh : Pt d} (j : Fin d) : 0 ≤ grownR s plow phigh ∧ s.rOut ≤ grownR s plow phigh ∧ s.centre j - grownR s plow phigh ≤ plow j ∧ s.centre j - grownR s plow phigh ≤ s.lowOut j ∧
    phigh j ≤ s.centre j + grownR s plow phigh ∧ s.highOut j ≤ s.centre j + grownR s plow phigh := by
  have g := maxH_ge (s := s) (plow := plow) (phigh := phigh) (js := List.finRange d) (h := 0)
  have gj := g.2 j (by simp)
  have g0 := g.1
  have h3 : 3 * maxH s plow phigh (List.finRange d) 0 ≤ grownR s plow phigh := le_max_right _ _
  have a := min_le_left (plow j) (s.lowOut j)
  have b := min_le_right (plow j) (s.lowOut j)
  have c := le_max_left (phigh j) (s.highOut j)
  have e := le_max_right (phigh j) (s.highOut j)
  exact ⟨by linarith, le_max_left _ _, by linarith, by linarith, by linarith, by linarith⟩

/-- A ball in a box. -/
theorem ball_of {low high c : Pt d} {r : ℝ} (hr : 0 ≤ r) (h : ∀ j, low j ≤ c j - r ∧ c j + r ≤ high j) : BallIn low high c r := by
  intro p hp j
  have : (p j - c j) ^ 2 ≤ dist2 p c := Finset.single_le_sum (f := fun j => (p j - c j) ^ 2) (fun i _ => sq_nonneg _) (Finset.mem_univ j)
  have ab := abs_le.mp (abs_le_of_sq_le_sq (le_trans this hp) hr)
  have := h j
  constructor <;> linarith
end Verif.QC
