import Verif.Model.Hash
import Verif.Spec.Hash
import Verif.Props.Hull
import Verif.Proofs.Polygon
import Mathlib.Tactic.Linarith
import Mathlib.Tactic.Common
import Mathlib.Tactic.FieldSimp
/- C37: hashes of positions. -/
namespace Verif.Hash
open Verif Verif.Points Verif.Geom
open scoped Classical

theorem cellSize_eq (n : Int) (eps tol lo hi : ℝ) : cellSize n eps tol lo hi = width n eps tol lo hi := rfl

theorem width_pos {n : Int} {eps tol lo hi : ℝ} (he : 0 < eps) : 0 < width n eps tol lo hi := lt_of_lt_of_le he ((le_max_right _ _).trans (le_max_right _ _))

theorem cellIx_range {n : Int} (hn : 0 < n) {eps tol lo hi x : ℝ} (he : 0 < eps) (h1 : lo ≤ x) (h2 : x ≤ hi) : 0 ≤ cellIx n eps tol lo hi x ∧ cellIx n eps tol lo hi x ≤ n := by
  have hw : 0 < width n eps tol lo hi := width_pos he
  have hnr : (0 : ℝ) < (n : ℝ) := by exact_mod_cast hn
  constructor
  · exact Int.floor_nonneg.mpr (div_nonneg (by linarith) hw.le)
  · have : (x - lo) / width n eps tol lo hi ≤ (n : ℝ) := by
      rw [div_le_iff₀ hw]
      have h3 : (hi - lo) / (n : ℝ) ≤ width n eps tol lo hi := le_max_left _ _
      rw [div_le_iff₀ hnr] at h3
      linarith
    have h4 : cellIx n eps tol lo hi x ≤ ⌊(n : ℝ)⌋ := Int.floor_le_floor this
    rwa [Int.floor_intCast] at h4

theorem quantCoord_ok {n : Int} (hn : 0 < n) (hn' : n ≤ 2147483647) {eps tol lo hi x : ℝ} (he : 0 < eps) (h1 : lo ≤ x) (h2 : x ≤ hi) :
    quantCoord n eps tol lo hi x = .ok (BitVec.ofNat 32 (cellIx n eps tol lo hi x).toNat) := by
  obtain ⟨r1, r2⟩ := cellIx_range (tol := tol) hn he h1 h2
  unfold quantCoord
  rw [max_eq_right (by linarith : (0 : ℝ) ≤ x - lo), cellSize_eq]
  have : toInt ((x - lo) / width n eps tol lo hi) = .ok (cellIx n eps tol lo hi x) := toInt_ok (div_nonneg (by linarith) (width_pos he).le) (by unfold cellIx at r2; omega)
  rw [this, Res.ok_bind, min_eq_right r2]
  have e : cellIx n eps tol lo hi x = (((cellIx n eps tol lo hi x).toNat : Nat) : Int) := by omega
  rw [e, BitVec.ofInt_natCast, Int.toNat_natCast]; rfl

/-- The 2D hash keeps `x` and the last bit of `y`. -/
theorem hash2_ok (big : Key → Nat → Key) {x y : Nat} (hx : x < 2 ^ 31) : hash2 (wrapping big) (BitVec.ofNat 32 x) (BitVec.ofNat 32 y) = .ok (BitVec.ofNat 32 (x + y % 2 * 2 ^ 31)) := by
  unfold hash2 wrapping
  dsimp only
  rw [if_pos (by decide), Res.ok_bind]
  refine congrArg Res.ok (BitVec.eq_of_toNat_eq ?_)
  simp only [BitVec.toNat_add, BitVec.toNat_shiftLeft, BitVec.toNat_ofNat, Nat.shiftLeft_eq]
  omega

theorem addFlag_zero : addFlag 0 = 0 := by decide
theorem zero_add_key (big : Key → Nat → Key) (h : Key) : (wrapping big).add 0 h = .ok h := by simp [wrapping]

/-- The packed value of a pair of cells. -/
def packed (x y : Nat) : Key := BitVec.ofNat 32 (x + y % 2 * 2 ^ 31)

theorem packed_inj {x y x' y' : Nat} (hx : x < 2 ^ 31) (hx' : x' < 2 ^ 31) : packed x y = packed x' y' ↔ x = x' ∧ y % 2 = y' % 2 := by
  constructor
  · intro h
    have := congrArg BitVec.toNat h
    simp only [packed, BitVec.toNat_ofNat] at this
    omega
  · rintro ⟨rfl, h⟩; unfold packed; rw [h]

theorem packed_x {x y : Nat} (hx : x < 2 ^ 31) : (qx2 (packed x y)).toInt = (x : Int) := by
  have e : qx2 (packed x y) = BitVec.ofNat 32 x := by
    unfold qx2 packed xmask2
    apply BitVec.eq_of_toNat_eq
    rw [BitVec.toNat_and]
    have : (0x7fffffff : Key).toNat = 2 ^ 31 - 1 := rfl
    rw [this, Nat.and_two_pow_sub_one_eq_mod]
    simp only [BitVec.toNat_ofNat]
    omega
  rw [e, BitVec.toInt_eq_toNat_of_lt]
  · simp only [BitVec.toNat_ofNat]; omega
  · simp only [BitVec.toNat_ofNat]; omega

theorem packed_top {x y : Nat} (hx : x < 2 ^ 31) : (packed x y).msb = decide (y % 2 = 1) := by
  unfold packed
  rw [BitVec.msb_eq_decide]
  simp only [BitVec.toNat_ofNat]
  congr 1
  rw [eq_iff_iff]; omega

theorem packed_flag {x y : Nat} (hx : x < 2 ^ 31) : hasFlag (packed x y) = decide (y % 2 = 1) := by
  have h : hasFlag (packed x y) = (packed x y).msb := by
    unfold hasFlag
    generalize packed x y = v
    rw [BitVec.msb_eq_decide, BitVec.toNat_signExtend, BitVec.msb_eq_decide]
    have := v.isLt
    simp only [BitVec.toNat_setWidth]
    by_cases h : 2147483648 ≤ v.toNat
    · simp only [show 2 ^ (32 - 1) = 2147483648 by decide, h, decide_true, if_true, decide_eq_true_eq]
      omega
    · simp only [show 2 ^ (32 - 1) = 2147483648 by decide, h, decide_false, Bool.false_eq_true, if_false, decide_eq_false_iff_not]
      omega
  rw [h, packed_top hx]

theorem packed_y (big : Key → Nat → Key) {x y : Nat} (hx : x < 2 ^ 31) : ∃ q, qy2 (wrapping big) (packed x y) = .ok q ∧ q.toInt = -((y % 2 : Nat) : Int) := by
  have em : ymask2 (wrapping big) = .ok 0x80000000#32 := rfl
  have hand : packed x y &&& 0x80000000#32 = if y % 2 = 1 then 0x80000000#32 else 0 := by
    have : (0x80000000#32) = BitVec.twoPow 32 31 := by decide
    rw [this, BitVec.and_twoPow]
    have hm : (packed x y).getLsbD 31 = decide (y % 2 = 1) := by rw [← packed_top hx, BitVec.msb_eq_getLsbD_last]
    rw [hm]
    by_cases h : y % 2 = 1 <;> simp [h]
  unfold qy2
  rw [em, Res.ok_bind, hand]
  refine ⟨_, rfl, ?_⟩
  by_cases h : y % 2 = 1
  · rw [if_pos h, h]; decide
  · rw [if_neg h]
    have : y % 2 = 0 := by omega
    rw [this]; decide

/-! ### 2D -/

/-- The cell of a position of a box in each direction. -/
noncomputable def cellX (eps tol : ℝ) (b : HBox) (p : V2 ℝ) : Nat := (cellIx max2 eps tol b.lo.x b.hi.x p.x).toNat
noncomputable def cellY (eps tol : ℝ) (b : HBox) (p : V2 ℝ) : Nat := (cellIx max2 eps tol b.lo.y b.hi.y p.y).toNat

theorem cellX_lt {eps tol : ℝ} (he : 0 < eps) {b : HBox} {p : V2 ℝ} (hp : inBox b p) : cellX eps tol b p < 2 ^ 31 := by
  have := (cellIx_range (n := max2) (tol := tol) (by decide) he hp.1.1 hp.1.2)
  unfold cellX
  have hm : max2 = 2147483647 := rfl
  rw [hm] at this
  rw [hm]
  omega

theorem cell_cast {eps tol : ℝ} (he : 0 < eps) {b : HBox} {p : V2 ℝ} (hp : inBox b p) :
    ((cellX eps tol b p : Nat) : Int) = cellIx max2 eps tol b.lo.x b.hi.x p.x ∧ ((cellY eps tol b p : Nat) : Int) = cellIx max2 eps tol b.lo.y b.hi.y p.y := by
  have h1 := (cellIx_range (n := max2) (tol := tol) (by decide) he hp.1.1 hp.1.2).1
  have h2 := (cellIx_range (n := max2) (tol := tol) (by decide) he hp.2.1 hp.2.2).1
  unfold cellX cellY
  omega

theorem hash_inner (big : Key → Nat → Key) (dbg : Bool) {eps tol : ℝ} (he : 0 < eps) {inner outer : HBox} (hb : nested inner outer) {p : V2 ℝ} (hp : inBox inner p) :
    hashPosition2 (wrapping big) dbg eps tol inner outer p = .ok (packed (cellX eps tol inner p) (cellY eps tol inner p)) := by
  have ho : inBox outer p := by
    obtain ⟨⟨a1, a2⟩, ⟨b1, b2⟩, _⟩ := hb
    obtain ⟨⟨p1, p2⟩, p3, p4⟩ := hp
    exact ⟨⟨by linarith, by linarith⟩, by linarith, by linarith⟩
  have hin : ¬ (p.x < inner.lo.x ∨ inner.hi.x < p.x ∨ p.y < inner.lo.y ∨ inner.hi.y < p.y) := by
    obtain ⟨⟨p1, p2⟩, p3, p4⟩ := hp
    rintro (h | h | h | h) <;> linarith
  unfold hashPosition2
  rw [Res.assert_true dbg hb, Res.ok_bind, Res.assert_true dbg ho, Res.ok_bind]
  simp only [if_neg hin]
  rw [quantCoord_ok (by decide) (by decide) he hp.1.1 hp.1.2, Res.ok_bind, quantCoord_ok (by decide) (by decide) he hp.2.1 hp.2.2, Res.ok_bind, hash2_ok big (x := (cellIx max2 eps tol inner.lo.x inner.hi.x p.x).toNat) (cellX_lt he hp), Res.ok_bind]
  exact zero_add_key _ _

theorem hash_outer (big : Key → Nat → Key) (dbg : Bool) {eps tol : ℝ} (he : 0 < eps) {inner outer : HBox} (hb : nested inner outer) {p : V2 ℝ} (hp : inBox outer p) (hn : ¬ inBox inner p) :
    hashPosition2 (wrapping big) dbg eps tol inner outer p = .ok (packed (cellX eps tol outer p) (cellY eps tol outer p)) := by
  have hin : p.x < inner.lo.x ∨ inner.hi.x < p.x ∨ p.y < inner.lo.y ∨ inner.hi.y < p.y := by
    by_contra hcon
    push Not at hcon
    exact hn ⟨⟨hcon.1, hcon.2.1⟩, hcon.2.2.1, hcon.2.2.2⟩
  unfold hashPosition2
  rw [Res.assert_true dbg hb, Res.ok_bind, Res.assert_true dbg hp, Res.ok_bind]
  simp only [if_pos hin]
  rw [quantCoord_ok (by decide) (by decide) he hp.1.1 hp.1.2, Res.ok_bind, quantCoord_ok (by decide) (by decide) he hp.2.1 hp.2.2, Res.ok_bind, hash2_ok big (x := (cellIx max2 eps tol outer.lo.x outer.hi.x p.x).toNat) (cellX_lt he hp), Res.ok_bind, addFlag_zero]
  exact zero_add_key _ _

/-- C37: what the 2D hash tells apart, with shifts that wrap around as the usual compilers define them: two positions of a box have the same hash exactly if they are in the
same column of cells and their rows differ by an even number. Missing: rows. -/
theorem C37_hash_partial (big : Key → Nat → Key) (dbg : Bool) {eps tol : ℝ} (he : 0 < eps) {inner outer : HBox} (hb : nested inner outer) {p q : V2 ℝ} (hp : inBox inner p) (hq : inBox inner q) :
    ∃ h k, hashPosition2 (wrapping big) dbg eps tol inner outer p = .ok h ∧ hashPosition2 (wrapping big) dbg eps tol inner outer q = .ok k ∧
      (h = k ↔ cellIx max2 eps tol inner.lo.x inner.hi.x p.x = cellIx max2 eps tol inner.lo.x inner.hi.x q.x ∧
        (cellIx max2 eps tol inner.lo.y inner.hi.y p.y - cellIx max2 eps tol inner.lo.y inner.hi.y q.y) % 2 = 0) := by
  refine ⟨_, _, hash_inner big dbg he hb hp, hash_inner big dbg he hb hq, ?_⟩
  rw [packed_inj (cellX_lt he hp) (cellX_lt he hq)]
  obtain ⟨e1, e2⟩ := cell_cast (tol := tol) he hp
  obtain ⟨e3, e4⟩ := cell_cast (tol := tol) he hq
  omega

theorem cellIx_at {n : Int} (hn : 0 < n) {eps tol lo hi : ℝ} (he : 0 < eps) (hw : max tol eps ≤ (hi - lo) / (n : ℝ)) {k : Nat} (hk : (k : Int) ≤ n) :
    lo ≤ lo + k * ((hi - lo) / (n : ℝ)) ∧ lo + k * ((hi - lo) / (n : ℝ)) ≤ hi ∧ cellIx n eps tol lo hi (lo + k * ((hi - lo) / (n : ℝ))) = (k : Int) := by
  have hnr : (0 : ℝ) < (n : ℝ) := by exact_mod_cast hn
  have hkr : (k : ℝ) ≤ (n : ℝ) := by exact_mod_cast hk
  have hk0 : (0 : ℝ) ≤ (k : ℝ) := Nat.cast_nonneg k
  have hd : 0 < (hi - lo) / (n : ℝ) := lt_of_lt_of_le (lt_of_lt_of_le he (le_max_right _ _)) hw
  have hwid : width n eps tol lo hi = (hi - lo) / (n : ℝ) := max_eq_left hw
  refine ⟨by have := mul_nonneg hk0 hd.le; linarith, ?_, ?_⟩
  · have h1 : (k : ℝ) * ((hi - lo) / (n : ℝ)) ≤ (n : ℝ) * ((hi - lo) / (n : ℝ)) := mul_le_mul_of_nonneg_right hkr hd.le
    rw [mul_div_cancel₀ _ hnr.ne'] at h1
    linarith
  · unfold cellIx
    rw [hwid, show lo + (k : ℝ) * ((hi - lo) / (n : ℝ)) - lo = (k : ℝ) * ((hi - lo) / (n : ℝ)) by ring, mul_div_cancel_right₀ _ hd.ne']
    exact_mod_cast Int.floor_natCast k

/-- In every box that is not flat, positions at the bottom and next to the top, and at every even number of cells between, have the same hash. -/
theorem C37_collision_fails (big : Key → Nat → Key) (dbg : Bool) {eps tol : ℝ} (he : 0 < eps) {b : HBox} (hx : b.lo.x ≤ b.hi.x) (hy : max tol eps ≤ (b.hi.y - b.lo.y) / (2147483647 : ℝ)) {x : ℝ} (h1 : b.lo.x ≤ x) (h2 : x ≤ b.hi.x)
    {k : Nat} (hk : 2 * k ≤ 2147483647) :
    ∃ h, hashPosition2 (wrapping big) dbg eps tol b b ⟨x, b.lo.y⟩ = .ok h ∧ hashPosition2 (wrapping big) dbg eps tol b b ⟨x, b.lo.y + (2 * k : Nat) * ((b.hi.y - b.lo.y) / (2147483647 : ℝ))⟩ = .ok h := by
  have hm : ((max2 : Int) : ℝ) = (2147483647 : ℝ) := by norm_num [max2]
  have hd : 0 < (b.hi.y - b.lo.y) / (2147483647 : ℝ) := lt_of_lt_of_le (lt_of_lt_of_le he (le_max_right _ _)) hy
  have hyy : b.lo.y ≤ b.hi.y := by
    have : 0 < b.hi.y - b.lo.y := by
      by_contra hcon
      have := div_nonpos_of_nonpos_of_nonneg (not_lt.mp hcon) (by norm_num : (0 : ℝ) ≤ 2147483647)
      linarith
    linarith
  have hn : nested b b := ⟨⟨le_refl _, le_refl _⟩, ⟨le_refl _, le_refl _⟩, hx, hyy⟩
  obtain ⟨a1, a2, a3⟩ := cellIx_at (n := max2) (by decide) (tol := tol) he (by rw [hm]; exact hy) (k := 2 * k) (by unfold max2; omega)
  obtain ⟨b1, b2, b3⟩ := cellIx_at (n := max2) (by decide) (tol := tol) he (by rw [hm]; exact hy) (k := 0) (by decide)
  rw [hm] at a1 a2 a3 b1 b2 b3
  simp only [Nat.cast_zero, zero_mul, add_zero] at b3
  obtain ⟨h, k', e1, e2, e3⟩ := C37_hash_partial big dbg (tol := tol) he hn (p := ⟨x, b.lo.y⟩) (q := ⟨x, b.lo.y + (2 * k : Nat) * ((b.hi.y - b.lo.y) / (2147483647 : ℝ))⟩) ⟨⟨h1, h2⟩, le_refl _, hyy⟩ ⟨⟨h1, h2⟩, a1, a2⟩
  refine ⟨h, e1, ?_⟩
  rw [e2, e3.mpr ⟨rfl, ?_⟩]
  dsimp only
  rw [a3, b3]; omega

theorem clamp_dist {lo hi x c w : ℝ} (h1 : lo ≤ x) (h2 : x ≤ hi) (hc : |c - x| ≤ w) : |max lo (min hi c) - x| ≤ w := by
  rw [abs_le] at *
  constructor
  · have : x - w ≤ max lo (min hi c) := le_max_of_le_right (le_min (by linarith) (by linarith))
    linarith
  · have : max lo (min hi c) ≤ x + w := max_le (by linarith) ((min_le_right _ _).trans (by linarith))
    linarith

/-- C37: unhashing the hash gives back `x` to half a cell, where inner and outer box are the same. Missing: `y`. -/
theorem C37_unhash_partial (big : Key → Nat → Key) (dbg : Bool) {eps tol : ℝ} (he : 0 < eps) {b : HBox} (hb : nested b b) {p : V2 ℝ} (hp : inBox b p) :
    ∃ h p', hashPosition2 (wrapping big) dbg eps tol b b p = .ok h ∧ unhashPosition2 (wrapping big) dbg eps tol b b h = .ok p' ∧ inBox b p' ∧ |p'.x - p.x| ≤ width max2 eps tol b.lo.x b.hi.x / 2 := by
  obtain ⟨q, hq, hqi⟩ := packed_y big (x := cellX eps tol b p) (y := cellY eps tol b p) (cellX_lt he hp)
  obtain ⟨_, _, bx, by'⟩ := hb
  have post : inBox b ⟨centre max2 eps tol b.lo.x b.hi.x (qx2 (packed (cellX eps tol b p) (cellY eps tol b p))), centre max2 eps tol b.lo.y b.hi.y q⟩ :=
    ⟨⟨le_max_left _ _, max_le bx (min_le_left _ _)⟩, le_max_left _ _, max_le by' (min_le_left _ _)⟩
  refine ⟨_, _, hash_inner big dbg he ⟨by assumption, by assumption, bx, by'⟩ hp, ?_, post, ?_⟩
  · unfold unhashPosition2
    rw [Res.assert_true dbg (show nested b b from ⟨by assumption, by assumption, bx, by'⟩), Res.ok_bind]
    simp only [ite_self]
    rw [hq, Res.ok_bind, Res.assert_true dbg post]; rfl
  · dsimp only
    unfold centre
    rw [packed_x (cellX_lt he hp), cellSize_eq]
    refine clamp_dist hp.1.1 hp.1.2 ?_
    rw [(cell_cast he hp).1]
    have hw : 0 < width max2 eps tol b.lo.x b.hi.x := width_pos he
    have f1 : (cellIx max2 eps tol b.lo.x b.hi.x p.x : ℝ) ≤ (p.x - b.lo.x) / width max2 eps tol b.lo.x b.hi.x := Int.floor_le _
    have f2 : (p.x - b.lo.x) / width max2 eps tol b.lo.x b.hi.x < (cellIx max2 eps tol b.lo.x b.hi.x p.x : ℝ) + 1 := Int.lt_floor_add_one _
    rw [le_div_iff₀ hw] at f1
    rw [div_lt_iff₀ hw] at f2
    rw [abs_le]
    constructor <;> linarith

/-- Unhashing the hash loses `y`: whatever the position, what comes back is in the lower half of the first row of cells. -/
theorem C37_unhash_fails (big : Key → Nat → Key) (dbg : Bool) {eps tol : ℝ} (he : 0 < eps) {b : HBox} (hb : nested b b) {p : V2 ℝ} (hp : inBox b p) :
    ∃ h p', hashPosition2 (wrapping big) dbg eps tol b b p = .ok h ∧ unhashPosition2 (wrapping big) dbg eps tol b b h = .ok p' ∧ p'.y ≤ b.lo.y + width max2 eps tol b.lo.y b.hi.y / 2 := by
  obtain ⟨q, hq, hqi⟩ := packed_y big (x := cellX eps tol b p) (y := cellY eps tol b p) (cellX_lt he hp)
  obtain ⟨_, _, bx, by'⟩ := hb
  have post : inBox b ⟨centre max2 eps tol b.lo.x b.hi.x (qx2 (packed (cellX eps tol b p) (cellY eps tol b p))), centre max2 eps tol b.lo.y b.hi.y q⟩ :=
    ⟨⟨le_max_left _ _, max_le bx (min_le_left _ _)⟩, le_max_left _ _, max_le by' (min_le_left _ _)⟩
  refine ⟨_, ⟨centre max2 eps tol b.lo.x b.hi.x (qx2 (packed (cellX eps tol b p) (cellY eps tol b p))), centre max2 eps tol b.lo.y b.hi.y q⟩, hash_inner big dbg he ⟨by assumption, by assumption, bx, by'⟩ hp, ?_⟩
  · unfold unhashPosition2
    rw [Res.assert_true dbg (show nested b b from ⟨by assumption, by assumption, bx, by'⟩), Res.ok_bind]
    simp only [ite_self]
    rw [hq, Res.ok_bind, Res.assert_true dbg post]
    refine ⟨rfl, ?_⟩
    unfold centre
    rw [hqi, cellSize_eq]
    have hw : 0 < width max2 eps tol b.lo.y b.hi.y := width_pos he
    refine max_le (by linarith) ((min_le_right _ _).trans ?_)
    have : ((-((cellY eps tol b p % 2 : Nat) : Int) : Int) : ℝ) ≤ 0 := by
      have : (-((cellY eps tol b p % 2 : Nat) : Int) : Int) ≤ 0 := by omega
      exact_mod_cast this
    have := mul_nonneg (sub_nonneg.mpr this) hw.le
    linarith

/-- The flag that tells the outer box from the inner one is lost: a position outside the inner box has the same hash as every position of the inner box in the cell of the same
number, and there is such a position unless the inner box is flat. -/
theorem C37_outer_fails (big : Key → Nat → Key) (dbg : Bool) {eps tol : ℝ} (he : 0 < eps) {inner outer : HBox} (hb : nested inner outer)
    (hx : max tol eps ≤ (inner.hi.x - inner.lo.x) / (2147483647 : ℝ)) (hy : max tol eps ≤ (inner.hi.y - inner.lo.y) / (2147483647 : ℝ)) {p : V2 ℝ} (hp : inBox outer p) (hn : ¬ inBox inner p) :
    ∃ h q, inBox inner q ∧ hashPosition2 (wrapping big) dbg eps tol inner outer p = .ok h ∧ hashPosition2 (wrapping big) dbg eps tol inner outer q = .ok h := by
  have hm : ((max2 : Int) : ℝ) = (2147483647 : ℝ) := by norm_num [max2]
  have r1 := cellIx_range (n := max2) (tol := tol) (by decide) he hp.1.1 hp.1.2
  have r2 := cellIx_range (n := max2) (tol := tol) (by decide) he hp.2.1 hp.2.2
  obtain ⟨e1, e2⟩ := cell_cast (tol := tol) he hp
  obtain ⟨a1, a2, a3⟩ := cellIx_at (n := max2) (by decide) (tol := tol) he (by rw [hm]; exact hx) (k := cellX eps tol outer p) (by omega)
  obtain ⟨b1, b2, b3⟩ := cellIx_at (n := max2) (by decide) (tol := tol) he (by rw [hm]; exact hy) (k := cellY eps tol outer p) (by omega)
  refine ⟨_, ⟨_, _⟩, ⟨⟨a1, a2⟩, b1, b2⟩, hash_outer big dbg he hb hp hn, ?_⟩
  rw [hash_inner big dbg he hb ⟨⟨a1, a2⟩, b1, b2⟩]
  have c1 : cellX eps tol inner ⟨inner.lo.x + (cellX eps tol outer p : ℕ) * ((inner.hi.x - inner.lo.x) / (max2 : ℝ)), inner.lo.y + (cellY eps tol outer p : ℕ) * ((inner.hi.y - inner.lo.y) / (max2 : ℝ))⟩ = cellX eps tol outer p := by
    show (cellIx max2 eps tol inner.lo.x inner.hi.x _).toNat = _
    rw [a3, Int.toNat_natCast]
  have c2 : cellY eps tol inner ⟨inner.lo.x + (cellX eps tol outer p : ℕ) * ((inner.hi.x - inner.lo.x) / (max2 : ℝ)), inner.lo.y + (cellY eps tol outer p : ℕ) * ((inner.hi.y - inner.lo.y) / (max2 : ℝ))⟩ = cellY eps tol outer p := by
    show (cellIx max2 eps tol inner.lo.y inner.hi.y _).toNat = _
    rw [b3, Int.toNat_natCast]
  rw [c1, c2]

/-- By the language standard the hash of a position above the second row of cells is undefined, and unhashing always is. -/
theorem C37_undefined_fails (dbg : Bool) {eps tol : ℝ} (he : 0 < eps) {b : HBox} (hb : nested b b) {p : V2 ℝ} (hp : inBox b p) (hrow : 2 ≤ cellIx max2 eps tol b.lo.y b.hi.y p.y) (h : Key) :
    hashPosition2 standard dbg eps tol b b p = .ub ∧ unhashPosition2 standard dbg eps tol b b h = .ub := by
  constructor
  · have hin : ¬ (p.x < b.lo.x ∨ b.hi.x < p.x ∨ p.y < b.lo.y ∨ b.hi.y < p.y) := by
      obtain ⟨⟨p1, p2⟩, p3, p4⟩ := hp
      rintro (h | h | h | h) <;> linarith
    unfold hashPosition2
    rw [Res.assert_true dbg hb, Res.ok_bind, Res.assert_true dbg hp, Res.ok_bind]
    simp only [if_neg hin]
    rw [quantCoord_ok (by decide) (by decide) he hp.1.1 hp.1.2, Res.ok_bind, quantCoord_ok (by decide) (by decide) he hp.2.1 hp.2.2, Res.ok_bind]
    have hr := (cellIx_range (n := max2) (tol := tol) (by decide) he hp.2.1 hp.2.2).2
    unfold hash2 standard
    dsimp only
    rw [if_neg]
    · rfl
    · rintro ⟨_, _, hlt⟩
      unfold max2 at hr hrow hlt
      simp only [BitVec.toNat_ofNat] at hlt
      omega
  · unfold unhashPosition2
    rw [Res.assert_true dbg hb, Res.ok_bind]
    have : qy2 standard h = .ub := rfl
    rw [this]; rfl

/-! ### 3D -/

/-- By the language standard the 3D hash is undefined for every position: it shifts an `int` by 42. -/
theorem C37_3d_undefined_fails {eps tol : ℝ} (he : 0 < eps) {b : HBox3} {p : V3 ℝ} (hp : inBox3 b p) (dbg : Bool) (hb : nested3 b b) : hashPosition3 standard dbg eps tol b b p = .ub := by
  unfold hashPosition3
  rw [Res.assert_true dbg hb, Res.ok_bind, Res.assert_true dbg hp, Res.ok_bind]
  simp only [not_not.mpr hp, if_false]
  rw [quantCoord_ok (by decide) (by decide) he hp.1.1 hp.1.2, Res.ok_bind, quantCoord_ok (by decide) (by decide) he hp.2.1.1 hp.2.1.2, Res.ok_bind, quantCoord_ok (by decide) (by decide) he hp.2.2.1 hp.2.2.2, Res.ok_bind]
  unfold hash3
  have : ∀ v, standard.shl v 42 = .ub := by intro v; unfold standard; dsimp only; rw [if_neg (by omega)]
  unfold standard
  dsimp only
  split
  · rw [Res.ok_bind, if_neg (by omega)]; rfl
  · rfl

/-- On a platform where shifts wrap around, whatever it does with a shift by 42, rows that differ by a multiple of 2048 have the same hash. -/
theorem C37_3d_collision_fails (big : Key → Nat → Key) (x z : Key) (y k : Nat) : hash3 (wrapping big) x (BitVec.ofNat 32 y) z = hash3 (wrapping big) x (BitVec.ofNat 32 (y + 2048 * k)) z := by
  have e : (BitVec.ofNat 32 y) <<< 21 = (BitVec.ofNat 32 (y + 2048 * k)) <<< 21 := by
    apply BitVec.eq_of_toNat_eq
    simp only [BitVec.toNat_shiftLeft, BitVec.toNat_ofNat, Nat.shiftLeft_eq]
    omega
  unfold hash3 wrapping
  simp only [e, show 21 < 32 by decide, if_true]

/-- The hypotheses hold for a unit box, no tolerance and the precision of `double`, for the corner and the centre of the box. -/
example : (0 : ℝ) < 1 / 2 ^ 52 ∧ nested ⟨⟨0, 0⟩, ⟨1, 1⟩⟩ ⟨⟨0, 0⟩, ⟨1, 1⟩⟩ ∧ inBox ⟨⟨0, 0⟩, ⟨1, 1⟩⟩ ⟨1 / 2, 1 / 2⟩ ∧ inBox ⟨⟨0, 0⟩, ⟨1, 1⟩⟩ ⟨1, 1⟩ ∧ max (0 : ℝ) (1 / 2 ^ 52) ≤ (1 - 0) / (2147483647 : ℝ) := by
  refine ⟨by norm_num, ?_, ?_, ?_, ?_⟩
  · unfold nested; norm_num
  · unfold inBox; norm_num
  · unfold inBox; norm_num
  · rw [max_le_iff]; norm_num
end Verif.Hash
