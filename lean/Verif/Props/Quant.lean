import Verif.Model.Quant
import Verif.Props.Box
import Verif.Props.Hull
import Verif.Proofs.MeshQueries
import Mathlib.Tactic.Linarith
import Mathlib.Tactic.Ring
import Mathlib.Tactic.FieldSimp
/- C36: quantized coordinates. -/
namespace Verif.Geom
open Verif Verif.Mesh

/-- The two coordinate ranges. -/
def IsGrid (cmin cmax : Int) : Prop := (cmin = cmin2 ∧ cmax = cmax2) ∨ (cmin = cmin3 ∧ cmax = cmax3)

theorem grid_facts {cmin cmax : Int} (h : IsGrid cmin cmax) : 0 < cmax - cmin ∧ cmax - cmin ≤ 2147483647 ∧ -2147483648 ≤ cmin ∧ cmax ≤ 2147483647 := by
  rcases h with ⟨rfl, rfl⟩ | ⟨rfl, rfl⟩ <;> decide

theorem toInt_big {t : ℝ} (h : 2147483648 ≤ t) : toInt t = .ub := by
  have h1 : (2147483648 : Int) ≤ ⌊t⌋ := Int.le_floor.mpr (by exact_mod_cast h)
  have h0 : 0 ≤ t := by linarith
  unfold toInt
  simp only [if_pos h0]
  rw [if_neg (by omega)]

theorem quantum_pos {cmin cmax : Int} (h : IsGrid cmin cmax) {length : ℝ} (hl : 0 < length) : 0 < quantum cmin cmax length :=
  div_pos hl (by exact_mod_cast (grid_facts h).1)

theorem quantum_mul {cmin cmax : Int} (h : IsGrid cmin cmax) {length : ℝ} : ((cmax - cmin : Int) : ℝ) * quantum cmin cmax length = length := by
  have : ((cmax - cmin : Int) : ℝ) ≠ 0 := by exact_mod_cast (grid_facts h).1.ne'
  unfold quantum; field_simp

/-- C36: a coordinate inside the bounds is quantized without overflow into the coordinate range, and dequantizing gives a value not above it and less than one quantum
below it. -/
theorem C36_quantize {cmin cmax : Int} (h : IsGrid cmin cmax) {length xmin x : ℝ} (hl : 0 < length) (h0 : xmin ≤ x) (h1 : x ≤ xmin + length) :
    ∃ k, quantize1 cmin cmax length xmin x = .ok k ∧ cmin ≤ k ∧ k ≤ cmax ∧ dequantize1 cmin cmax length xmin k ≤ x ∧ x < dequantize1 cmin cmax length xmin k + quantum cmin cmax length := by
  obtain ⟨g1, g2, g3, g4⟩ := grid_facts h
  have q0 := quantum_pos h hl
  have hm := quantum_mul h (length := length)
  set q := quantum cmin cmax length with hq
  set t := (x - xmin) / q with ht
  have t0 : 0 ≤ t := div_nonneg (by linarith) q0.le
  have t1 : t ≤ ((cmax - cmin : Int) : ℝ) := by
    rw [ht, div_le_iff₀ q0, hm]; linarith
  have f0 : 0 ≤ ⌊t⌋ := Int.floor_nonneg.mpr t0
  have f1 : ⌊t⌋ ≤ cmax - cmin := by
    have : ((⌊t⌋ : Int) : ℝ) ≤ ((cmax - cmin : Int) : ℝ) := le_trans (Int.floor_le t) t1
    exact_mod_cast this
  have e : quantize1 cmin cmax length xmin x = .ok (cmin + ⌊t⌋) := by
    unfold quantize1 divToInt
    rw [if_neg (by rw [← hq]; exact q0.ne'), ← hq, ← ht, toInt_ok t0 (by omega), Res.ok_bind, addInt, if_pos (by omega)]
  have tq : t * q = x - xmin := by rw [ht]; field_simp
  refine ⟨_, e, by omega, by omega, ?_, ?_⟩
  · unfold dequantize1
    rw [show cmin + ⌊t⌋ - cmin = ⌊t⌋ by ring, ← hq]
    nlinarith [Int.floor_le t]
  · unfold dequantize1
    rw [show cmin + ⌊t⌋ - cmin = ⌊t⌋ by ring, ← hq]
    nlinarith [Int.lt_floor_add_one t]

/-- Quantization is monotone. -/
theorem C36_monotone {cmin cmax : Int} (h : IsGrid cmin cmax) {length xmin x y : ℝ} (hl : 0 < length) (h0 : xmin ≤ x) (hxy : x ≤ y) (h1 : y ≤ xmin + length) :
    ∃ k l, quantize1 cmin cmax length xmin x = .ok k ∧ quantize1 cmin cmax length xmin y = .ok l ∧ k ≤ l := by
  obtain ⟨k, e1, _, _, a1, _⟩ := C36_quantize h hl h0 (hxy.trans h1)
  obtain ⟨l, e2, _, _, _, a2⟩ := C36_quantize h hl (h0.trans hxy) h1
  refine ⟨k, l, e1, e2, ?_⟩
  unfold dequantize1 at a1 a2
  have q0 := quantum_pos h hl
  have : ((k - cmin : Int) : ℝ) * quantum cmin cmax length < ((l - cmin + 1 : Int) : ℝ) * quantum cmin cmax length := by
    push_cast at *; nlinarith
  have := lt_of_mul_lt_mul_right this q0.le
  have : k - cmin < l - cmin + 1 := by exact_mod_cast this
  omega

/-- Every coordinate of the range comes back unchanged through dequantize and quantize. -/
theorem C36_stable {cmin cmax : Int} (h : IsGrid cmin cmax) {length xmin : ℝ} {k : Int} (hl : 0 < length) (h0 : cmin ≤ k) (h1 : k ≤ cmax) :
    quantize1 cmin cmax length xmin (dequantize1 cmin cmax length xmin k) = .ok k := by
  have q0 := quantum_pos h hl
  have hm := quantum_mul h (length := length)
  have r0 : (0 : ℝ) ≤ ((k - cmin : Int) : ℝ) := by exact_mod_cast (by omega : 0 ≤ k - cmin)
  have r1 : ((k - cmin : Int) : ℝ) ≤ ((cmax - cmin : Int) : ℝ) := by exact_mod_cast (by omega : k - cmin ≤ cmax - cmin)
  obtain ⟨l, e, _, _, a1, a2⟩ := C36_quantize (x := dequantize1 cmin cmax length xmin k) h (xmin := xmin) hl (by unfold dequantize1; nlinarith) (by unfold dequantize1; nlinarith)
  rw [e]
  congr 1
  unfold dequantize1 at a1 a2
  have b1 : ((l - cmin : Int) : ℝ) ≤ ((k - cmin : Int) : ℝ) := le_of_mul_le_mul_right (by linarith) q0
  have b2 : ((k - cmin : Int) : ℝ) < ((l - cmin + 1 : Int) : ℝ) := by
    refine lt_of_mul_lt_mul_right ?_ q0.le
    push_cast at *; nlinarith
  have b1' : l - cmin ≤ k - cmin := by exact_mod_cast b1
  have b2' : k - cmin < l - cmin + 1 := by exact_mod_cast b2
  omega

/-- The bounds themselves are the ends of the range. -/
theorem C36_ends {cmin cmax : Int} (h : IsGrid cmin cmax) {length xmin : ℝ} (hl : 0 < length) :
    quantize1 cmin cmax length xmin xmin = .ok cmin ∧ quantize1 cmin cmax length xmin (xmin + length) = .ok cmax := by
  have g := (grid_facts h).1
  have e1 : dequantize1 cmin cmax length xmin cmin = xmin := by simp [dequantize1]
  have e2 : dequantize1 cmin cmax length xmin cmax = xmin + length := by unfold dequantize1; rw [quantum_mul h]
  exact ⟨by have := C36_stable h (xmin := xmin) hl (le_refl cmin) (by omega); rwa [e1] at this, by have := C36_stable h (xmin := xmin) hl (by omega) (le_refl cmax); rwa [e2] at this⟩

example : IsGrid cmin2 cmax2 ∧ IsGrid cmin3 cmax3 ∧ (0 : ℝ) < 5 ∧ (-2 : ℝ) ≤ 1 ∧ (1 : ℝ) ≤ -2 + 5 := ⟨Or.inl ⟨rfl, rfl⟩, Or.inr ⟨rfl, rfl⟩, by norm_num, by norm_num, by norm_num⟩

/-- Generator `g`, number `i`, stands for point `p`. -/
def Stands (q : QT) (p : ℝ × ℝ) (i : Nat) (g : IPt) : Prop :=
  g.index = i ∧ cmin2 ≤ g.x ∧ g.x ≤ cmax2 ∧ cmin2 ≤ g.y ∧ g.y ≤ cmax2 ∧
  0 ≤ p.1 - dequantize1 cmin2 cmax2 q.length q.xmin g.x ∧ p.1 - dequantize1 cmin2 cmax2 q.length q.xmin g.x < q.length / 2147483647 ∧
  0 ≤ p.2 - dequantize1 cmin2 cmax2 q.length q.ymin g.y ∧ p.2 - dequantize1 cmin2 cmax2 q.length q.ymin g.y < q.length / 2147483647

theorem quantum2 (length : ℝ) : quantum cmin2 cmax2 length = length / 2147483647 := by
  unfold quantum cmin2 cmax2; norm_num

theorem quantizeAll_spec {q : QT} {length xmin ymin : ℝ} (hq : q.length = length ∧ q.xmin = xmin ∧ q.ymin = ymin) (hl : 0 < length) : ∀ (ps : List (ℝ × ℝ)) (i : Nat),
    (∀ p ∈ ps, xmin ≤ p.1 ∧ p.1 ≤ xmin + length ∧ ymin ≤ p.2 ∧ p.2 ≤ ymin + length) →
    ∃ gs, quantizeAll length xmin ymin ps i = .ok gs ∧ gs.length = ps.length ∧ ∀ (k : Nat) (p : ℝ × ℝ) (g : IPt), ps[k]? = some p → gs[k]? = some g → Stands q p (i + k) g
  | [], i, _ => ⟨[], rfl, rfl, by simp⟩
  | p :: ps, i, h => by
    obtain ⟨gs, e, hlen, hg⟩ := quantizeAll_spec hq hl ps (i + 1) fun p hp => h p (by simp [hp])
    obtain ⟨b1, b2, b3, b4⟩ := h p (by simp)
    obtain ⟨kx, ex, x1, x2, x3, x4⟩ := C36_quantize (Or.inl ⟨rfl, rfl⟩) hl b1 b2
    obtain ⟨ky, ey, y1, y2, y3, y4⟩ := C36_quantize (Or.inl ⟨rfl, rfl⟩) hl b3 b4
    rw [quantum2] at x4 y4
    refine ⟨⟨kx, ky, i⟩ :: gs, ?_, by simp [hlen], ?_⟩
    · rw [quantizeAll, ex, Res.ok_bind, ey, Res.ok_bind, e]; rfl
    · intro k p' g hp hg'
      cases k with
      | zero =>
        simp only [List.getElem?_cons_zero, Option.some.injEq] at hp hg'
        subst hp; subst hg'
        obtain ⟨rfl, rfl, rfl⟩ := hq
        exact ⟨rfl, x1, x2, y1, y2, by dsimp only; linarith, by dsimp only; linarith, by dsimp only; linarith, by dsimp only; linarith⟩
      | succ k =>
        simp only [List.getElem?_cons_succ] at hp hg'
        have := hg k p' g hp hg'
        rwa [show i + 1 + k = i + (k + 1) by omega] at this

/-- C36 for the constructor from a boundary, on any number of processes: every point inside the bounding box of the boundary gets a generator in range with its number, less than one
quantum (five times the size of the boundary over `2^31 - 1`) from it. -/
theorem C36_boundary (dbg : Bool) {big : ℝ} {boundary : List (List ℝ)} {points : List (ℝ × ℝ)} {bx by' : ℝ × ℝ} (hbox : globalBox dbg big 2 boundary = .ok [bx, by'])
    (hext : bx.1 < bx.2 ∨ by'.1 < by'.2) (hx : bx.1 ≤ bx.2) (hy : by'.1 ≤ by'.2) (hin : ∀ p ∈ points, bx.1 ≤ p.1 ∧ p.1 ≤ bx.2 ∧ by'.1 ≤ p.2 ∧ p.2 ≤ by'.2) :
    ∃ q, boundaryQT dbg big boundary points = .ok q ∧ q.length = 5 * max (bx.2 - bx.1) (by'.2 - by'.1) ∧ q.xmin = bx.1 - 2 * max (bx.2 - bx.1) (by'.2 - by'.1) ∧
      q.ymin = by'.1 - 2 * max (bx.2 - bx.1) (by'.2 - by'.1) ∧ q.guards = guardGens points.length ∧ q.generators.length = points.length ∧
      ∀ (k : Nat) (p : ℝ × ℝ) (g : IPt), points[k]? = some p → q.generators[k]? = some g → Stands q p k g := by
  set L := max (bx.2 - bx.1) (by'.2 - by'.1) with hL
  have L1 : bx.2 - bx.1 ≤ L := le_max_left _ _
  have L2 : by'.2 - by'.1 ≤ L := le_max_right _ _
  have L0 : 0 < L := by rcases hext with h | h <;> linarith
  let q0 : QT := { xmin := bx.1 - 2 * L, ymin := by'.1 - 2 * L, length := L * 5 }
  obtain ⟨gs, e, hlen, hg⟩ := quantizeAll_spec (q := q0) (length := L * 5) (xmin := bx.1 - 2 * L) (ymin := by'.1 - 2 * L) ⟨rfl, rfl, rfl⟩ (by linarith) points 0 (by
    intro p hp
    obtain ⟨a1, a2, a3, a4⟩ := hin p hp
    exact ⟨by linarith, by linarith, by linarith, by linarith⟩)
  refine ⟨{ q0 with generators := gs, guards := guardGens points.length }, ?_, by show L * 5 = 5 * L; ring, rfl, rfl, rfl, hlen, ?_⟩
  · unfold boundaryQT
    rw [hbox, Res.ok_bind]
    show (do
      let bx ← rd [bx, by'] 0
      let by' ← rd [bx, by'] 1
      constructQT _ _ _ points) = _
    simp only [show rd [bx, by'] 0 = .ok bx from rfl, show rd [bx, by'] 1 = .ok by' from rfl, Res.ok_bind]
    unfold constructQT
    rw [← hL, e]; rfl
  · intro k p g hp hg'
    have := hg k p g hp hg'
    rwa [Nat.zero_add] at this

/-- C36 for the constructor from bounds. -/
theorem C36_bounds {xlo ylo xhi yhi : ℝ} {points : List (ℝ × ℝ)} (hext : xlo < xhi ∨ ylo < yhi) (hin : ∀ p ∈ points, xlo ≤ p.1 ∧ p.1 ≤ xhi ∧ ylo ≤ p.2 ∧ p.2 ≤ yhi) :
    ∃ q, boundsQT xlo ylo xhi yhi points = .ok q ∧ q.length = max (xhi - xlo) (yhi - ylo) ∧ q.generators.length = points.length ∧
      ∀ (k : Nat) (p : ℝ × ℝ) (g : IPt), points[k]? = some p → q.generators[k]? = some g → Stands q p k g := by
  set L := max (xhi - xlo) (yhi - ylo) with hL
  have L1 : xhi - xlo ≤ L := le_max_left _ _
  have L2 : yhi - ylo ≤ L := le_max_right _ _
  have L0 : 0 < L := by rcases hext with h | h <;> linarith
  let q0 : QT := { xmin := xlo, ymin := ylo, length := L }
  obtain ⟨gs, e, hlen, hg⟩ := quantizeAll_spec (q := q0) (length := L) (xmin := xlo) (ymin := ylo) ⟨rfl, rfl, rfl⟩ L0 points 0 (by
    intro p hp
    obtain ⟨a1, a2, a3, a4⟩ := hin p hp
    exact ⟨by linarith, by linarith, by linarith, by linarith⟩)
  refine ⟨{ q0 with generators := gs, guards := guardGens points.length }, ?_, rfl, hlen, ?_⟩
  · unfold boundsQT constructQT
    rw [← hL, e]; rfl
  · intro k p g hp hg'
    have := hg k p g hp hg'
    rwa [Nat.zero_add] at this

/-- A diagonal as boundary. -/
theorem box_literal : globalBox true (100 : ℝ) 2 [[0, 0, 4, 3]] = .ok [(0, 4), (0, 3)] := by
  simp [globalBox, localBox, boxCoord, boxPoint, reduceBoxes, reduceCoord, allReduce, rd, List.range_succ, Res.assert]
example : ∃ q, boundaryQT true 100 [[0, 0, 4, 3]] [(1, 1), (2, 3)] = .ok q ∧ q.generators.length = 2 :=
  let ⟨q, h1, _, _, _, _, h2, _⟩ := C36_boundary true box_literal (points := [(1, 1), (2, 3)]) (by norm_num) (by norm_num) (by norm_num) (by norm_num)
  ⟨q, h1, h2⟩

/-- A boundary without extent, and bounds without extent: the conversion of the first generator is undefined behaviour. -/
theorem C36_flat_fails {xlo ylo : ℝ} {p : ℝ × ℝ} {ps : List (ℝ × ℝ)} : boundsQT xlo ylo xlo ylo (p :: ps) = .ub := by
  unfold boundsQT constructQT
  simp only [sub_self, max_self]
  have : quantize1 cmin2 cmax2 0 xlo p.1 = .ub := by simp [quantize1, divToInt, quantum]
  rw [quantizeAll, this]; rfl

/-- A point outside the bounds by more than their size is converted with undefined behaviour. -/
theorem C36_outside_fails {length xmin x : ℝ} (hl : 0 < length) (h : xmin + 2 * length ≤ x) : quantize1 cmin2 cmax2 length xmin x = .ub := by
  have q0 := quantum_pos (cmin := cmin2) (cmax := cmax2) (Or.inl ⟨rfl, rfl⟩) hl
  have hm := quantum_mul (cmin := cmin2) (cmax := cmax2) (Or.inl ⟨rfl, rfl⟩) (length := length)
  unfold quantize1 divToInt
  rw [if_neg q0.ne']
  set q := quantum cmin2 cmax2 length with hq
  have hm' : (2147483647 : ℝ) * q = length := by rw [← hm]; norm_num [cmin2, cmax2]
  have t0 : (2147483648 : ℝ) ≤ (x - xmin) / q := by
    rw [le_div_iff₀ q0]
    linarith
  rw [toInt_big t0]; rfl

/-- So is a point below the bounds by three fifths of their size: the conversion itself may be defined, but then the sum with the least coordinate overflows. -/
theorem C36_below_fails {length xmin x : ℝ} (hl : 0 < length) (h : x ≤ xmin - 3 / 5 * length) : quantize1 cmin2 cmax2 length xmin x = .ub := by
  have q0 := quantum_pos (cmin := cmin2) (cmax := cmax2) (Or.inl ⟨rfl, rfl⟩) hl
  have hm := quantum_mul (cmin := cmin2) (cmax := cmax2) (Or.inl ⟨rfl, rfl⟩) (length := length)
  unfold quantize1 divToInt
  rw [if_neg q0.ne']
  set q := quantum cmin2 cmax2 length with hq
  have hm' : (2147483647 : ℝ) * q = length := by rw [← hm]; norm_num [cmin2, cmax2]
  have t0 : (x - xmin) / q ≤ (-1073741825 : ℝ) := by
    rw [div_le_iff₀ q0]
    linarith
  have t1 : ¬ 0 ≤ (x - xmin) / q := by intro h'; linarith
  have t2 : ⌈(x - xmin) / q⌉ ≤ (-1073741825 : Int) := Int.ceil_le.mpr (by push_cast; exact t0)
  unfold toInt
  simp only [if_neg t1]
  split
  · rw [Res.bind_eq]
    show addInt cmin2 _ = .ub
    unfold addInt cmin2
    rw [if_neg (by omega)]
  · rfl

example : quantize1 cmin2 cmax2 10 0 (-7) = .ub := C36_below_fails (by norm_num) (by norm_num)

/-! ### 3D -/

/-- In a build with assertions no constructor of the 3D class returns. -/
theorem C36_3d_debug_fails {length : ℝ} {lo hi : V3 ℝ} {points : List (V3 ℝ)} {g : List (Int × Int × Int)} : construct3 true length lo hi points ≠ .ok g := by
  unfold construct3
  intro h
  obtain ⟨_, _, h⟩ := Res.bind_eq_ok.mp h
  obtain ⟨_, _, h⟩ := Res.bind_eq_ok.mp h
  obtain ⟨_, _, h⟩ := Res.bind_eq_ok.mp h
  obtain ⟨_, _, h⟩ := Res.bind_eq_ok.mp h
  obtain ⟨_, h', _⟩ := Res.bind_eq_ok.mp h
  rw [Res.assert_debug_false (fun h => h)] at h'
  cases h'

/-- Without assertions, the constructor from a boundary quantizes every point of the bounding box in range and within one quantum. -/
theorem C36_3d_partial {lo hi : V3 ℝ} {points : List (V3 ℝ)} (hext : lo.x < hi.x ∨ lo.y < hi.y ∨ lo.z < hi.z)
    (hin : ∀ p ∈ points, lo.x ≤ p.x ∧ p.x ≤ hi.x ∧ lo.y ≤ p.y ∧ p.y ≤ hi.y ∧ lo.z ≤ p.z ∧ p.z ≤ hi.z) {L : ℝ} (hL : L = max (hi.x - lo.x) (max (hi.y - lo.y) (hi.z - lo.z))) :
    ∃ gs, boundary3 false lo hi points = .ok gs ∧ gs.length = points.length ∧ ∀ (i : Nat) (p : V3 ℝ) (g : Int × Int × Int), points[i]? = some p → gs[i]? = some g →
      (∀ k ∈ [g.1, g.2.1, g.2.2], cmin3 ≤ k ∧ k ≤ cmax3) ∧
      ∀ xk ∈ [(p.x, lo.x, g.1), (p.y, lo.y, g.2.1), (p.z, lo.z, g.2.2)],
        dequantize1 cmin3 cmax3 (5 * L) (xk.2.1 - 2 * L) xk.2.2 ≤ xk.1 ∧ xk.1 < dequantize1 cmin3 cmax3 (5 * L) (xk.2.1 - 2 * L) xk.2.2 + 5 * L / 1431655764 := by
  have L1 : hi.x - lo.x ≤ L := hL ▸ le_max_left _ _
  have L2 : hi.y - lo.y ≤ L := hL ▸ le_trans (le_max_left _ _) (le_max_right _ _)
  have L3 : hi.z - lo.z ≤ L := hL ▸ le_trans (le_max_right _ _) (le_max_right _ _)
  have L0 : 0 < L := by rcases hext with h | h | h <;> linarith
  have q3 : quantum cmin3 cmax3 (5 * L) = 5 * L / 1431655764 := by unfold quantum cmin3 cmax3; norm_num
  have one : ∀ p ∈ points, ∃ g : Int × Int × Int, quantize3 (L * 5) ⟨lo.x - 2 * L, lo.y - 2 * L, lo.z - 2 * L⟩ p = .ok g ∧
      (∀ k ∈ [g.1, g.2.1, g.2.2], cmin3 ≤ k ∧ k ≤ cmax3) ∧
      ∀ xk ∈ [(p.x, lo.x, g.1), (p.y, lo.y, g.2.1), (p.z, lo.z, g.2.2)],
        dequantize1 cmin3 cmax3 (5 * L) (xk.2.1 - 2 * L) xk.2.2 ≤ xk.1 ∧ xk.1 < dequantize1 cmin3 cmax3 (5 * L) (xk.2.1 - 2 * L) xk.2.2 + 5 * L / 1431655764 := by
    intro p hp
    obtain ⟨a1, a2, a3, a4, a5, a6⟩ := hin p hp
    rw [mul_comm L 5]
    obtain ⟨kx, ex, x1, x2, x3, x4⟩ := C36_quantize (length := 5 * L) (xmin := lo.x - 2 * L) (x := p.x) (cmin := cmin3) (cmax := cmax3) (Or.inr ⟨rfl, rfl⟩) (by linarith) (by linarith) (by linarith)
    obtain ⟨ky, ey, y1, y2, y3, y4⟩ := C36_quantize (length := 5 * L) (xmin := lo.y - 2 * L) (x := p.y) (cmin := cmin3) (cmax := cmax3) (Or.inr ⟨rfl, rfl⟩) (by linarith) (by linarith) (by linarith)
    obtain ⟨kz, ez, z1, z2, z3, z4⟩ := C36_quantize (length := 5 * L) (xmin := lo.z - 2 * L) (x := p.z) (cmin := cmin3) (cmax := cmax3) (Or.inr ⟨rfl, rfl⟩) (by linarith) (by linarith) (by linarith)
    rw [q3] at x4 y4 z4
    refine ⟨(kx, ky, kz), ?_, ?_, ?_⟩
    · unfold quantize3
      rw [ex, Res.ok_bind, ey, Res.ok_bind, ez]; rfl
    · intro k hk
      simp only [List.mem_cons, List.not_mem_nil, or_false] at hk
      rcases hk with rfl | rfl | rfl
      exacts [⟨x1, x2⟩, ⟨y1, y2⟩, ⟨z1, z2⟩]
    · intro xk hk
      simp only [List.mem_cons, List.not_mem_nil, or_false] at hk
      rcases hk with rfl | rfl | rfl
      exacts [⟨x3, x4⟩, ⟨y3, y4⟩, ⟨z3, z4⟩]
  obtain ⟨gs, e, hl, hg⟩ := mapM_spec (g := quantize3 (L * 5) ⟨lo.x - 2 * L, lo.y - 2 * L, lo.z - 2 * L⟩) points one
  refine ⟨gs, ?_, hl, ?_⟩
  · unfold boundary3 construct3
    simp only [Res.assert_release, Res.ok_bind]
    rw [← hL, e]; rfl
  · intro i p g hp hg'
    obtain ⟨h1, rfl⟩ := List.getElem?_eq_some_iff.mp hp
    obtain ⟨h2, rfl⟩ := List.getElem?_eq_some_iff.mp hg'
    exact hg i h1 h2

/-- The constructor from bounds takes the length from x and y only: if the bounds are more than half again as long in z, a point on the upper z side is converted with undefined
behaviour. -/
theorem C36_3d_bounds_fails {lo hi p : V3 ℝ} {ps : List (V3 ℝ)} {L : ℝ} (hL : L = max (hi.x - lo.x) (hi.y - lo.y)) (hl : 0 < L) (hz : lo.z + 8 / 5 * L ≤ hi.z)
    (hp : lo.x ≤ p.x ∧ p.x ≤ hi.x ∧ lo.y ≤ p.y ∧ p.y ≤ hi.y ∧ p.z = hi.z) : bounds3 false lo hi (p :: ps) = .ub := by
  obtain ⟨a1, a2, a3, a4, a5⟩ := hp
  have L1 : hi.x - lo.x ≤ L := hL ▸ le_max_left _ _
  have L2 : hi.y - lo.y ≤ L := hL ▸ le_max_right _ _
  obtain ⟨kx, ex, _⟩ := C36_quantize (length := L) (xmin := lo.x) (x := p.x) (cmin := cmin3) (cmax := cmax3) (Or.inr ⟨rfl, rfl⟩) hl (by linarith) (by linarith)
  obtain ⟨ky, ey, _⟩ := C36_quantize (length := L) (xmin := lo.y) (x := p.y) (cmin := cmin3) (cmax := cmax3) (Or.inr ⟨rfl, rfl⟩) hl (by linarith) (by linarith)
  have ez : quantize1 cmin3 cmax3 L lo.z p.z = .ub := by
    have q0 := quantum_pos (cmin := cmin3) (cmax := cmax3) (Or.inr ⟨rfl, rfl⟩) hl
    have hm := quantum_mul (cmin := cmin3) (cmax := cmax3) (Or.inr ⟨rfl, rfl⟩) (length := L)
    unfold quantize1 divToInt
    rw [if_neg q0.ne']
    set q := quantum cmin3 cmax3 L with hq
    have hm' : (1431655764 : ℝ) * q = L := by rw [← hm]; norm_num [cmin3, cmax3]
    have t0 : (2147483648 : ℝ) ≤ (p.z - lo.z) / q := by
      rw [le_div_iff₀ q0, a5]
      linarith
    rw [toInt_big t0]; rfl
  unfold bounds3 construct3
  simp only [Res.assert_release, Res.ok_bind]
  rw [← hL, List.mapM_cons, quantize3, ex, Res.ok_bind, ey, Res.ok_bind, ez]; rfl

example : ∃ gs, boundary3 false ⟨0, 0, 0⟩ ⟨1, 2, 3⟩ [⟨1, 1, 1⟩] = .ok gs ∧ gs.length = 1 :=
  let ⟨gs, h1, h2, _⟩ := C36_3d_partial (lo := ⟨0, 0, 0⟩) (hi := ⟨1, 2, 3⟩) (points := [⟨1, 1, 1⟩]) (by norm_num) (by norm_num) rfl
  ⟨gs, h1, h2⟩
example : bounds3 false ⟨0, 0, 0⟩ ⟨1, 1, 2⟩ [⟨1 / 2, 1 / 2, 2⟩] = .ub :=
  C36_3d_bounds_fails (L := 1) (by norm_num) (by norm_num) (by norm_num) (by norm_num)

/-! ### `Point2`, `Point3` -/

/-- The quantizing constructors round to the nearest multiple of the spacing. -/
theorem C36_point {xi xlow dx : ℝ} (hd : 0 < dx) (h0 : xlow ≤ xi) (h1 : xi ≤ xlow + 2147483647 * dx) :
    ∃ k, pointCoord xi xlow dx = .ok k ∧ 0 ≤ k ∧ |realCoord xlow dx k - xi| ≤ dx / 2 := by
  set t := (xi - xlow) / dx with ht
  have t0 : 0 ≤ t := div_nonneg (by linarith) hd.le
  have t1 : t ≤ 2147483647 := by rw [ht, div_le_iff₀ hd]; linarith
  have tq : t * dx = xi - xlow := by rw [ht]; field_simp
  have f1 : ⌊t + 1 / 2⌋ ≤ 2147483647 := by
    have : ⌊t + 1 / 2⌋ < 2147483648 := Int.floor_lt.mpr (by push_cast; linarith)
    omega
  refine ⟨⌊t + 1 / 2⌋, ?_, Int.floor_nonneg.mpr (by linarith), ?_⟩
  · unfold pointCoord
    rw [if_neg hd.ne', ← ht, toInt_ok (by linarith) f1]
  · unfold realCoord
    have l1 := Int.floor_le (t + 1 / 2)
    have l2 := Int.lt_floor_add_one (t + 1 / 2)
    rw [abs_le]
    constructor <;> nlinarith

example : ∃ k, pointCoord 7 1 2 = .ok k ∧ 0 ≤ k ∧ |realCoord 1 2 k - 7| ≤ (2 : ℝ) / 2 := C36_point (by norm_num) (by norm_num) (by norm_num)
end Verif.Geom
