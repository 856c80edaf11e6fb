import Verif.Model.PointArith
import Mathlib.Tactic.Ring
import Mathlib.Tactic.Linarith
/-
C107: the arithmetic of integral points.
-/
namespace Verif.Props
open Verif Verif.Points

/-- A point of the type: its coordinates are in the range. -/
def In2 (lo hi : Int) (a : Point2 Int) : Prop := (lo ≤ a.x ∧ a.x ≤ hi) ∧ lo ≤ a.y ∧ a.y ≤ hi
def In3 (lo hi : Int) (a : Point3 Int) : Prop := (lo ≤ a.x ∧ a.x ≤ hi) ∧ (lo ≤ a.y ∧ a.y ≤ hi) ∧ lo ≤ a.z ∧ a.z ≤ hi

theorem fit_ok {lo hi v : Int} (h : lo ≤ v ∧ v ≤ hi) : fit lo hi v = .ok v := if_pos h
theorem fit_ub {lo hi v : Int} (h : ¬ (lo ≤ v ∧ v ≤ hi)) : fit lo hi v = .ub := if_neg h
theorem fit_eq_ok {lo hi v w : Int} : fit lo hi v = .ok w ↔ (lo ≤ v ∧ v ≤ hi) ∧ w = v := by
  unfold fit; split
  · rename_i h; simp [h]; exact eq_comm
  · rename_i h; simp [h]

/-- Sum, difference and multiple of points are those of vectors, with the index of the left operand; they are defined exactly if the type
can hold every coordinate of the result. -/
theorem C107_plane (lo hi : Int) (a b : Point2 Int) (k : Int) :
    (In2 lo hi ⟨a.x + b.x, a.y + b.y, 0⟩ → Point2.add lo hi a b = .ok ⟨a.x + b.x, a.y + b.y, a.index⟩) ∧
    (¬ In2 lo hi ⟨a.x + b.x, a.y + b.y, 0⟩ → Point2.add lo hi a b = .ub) ∧
    (In2 lo hi ⟨a.x - b.x, a.y - b.y, 0⟩ → Point2.sub lo hi a b = .ok ⟨a.x - b.x, a.y - b.y, a.index⟩) ∧
    (¬ In2 lo hi ⟨a.x - b.x, a.y - b.y, 0⟩ → Point2.sub lo hi a b = .ub) ∧
    (In2 lo hi ⟨a.x * k, a.y * k, 0⟩ → Point2.mul lo hi a k = .ok ⟨a.x * k, a.y * k, a.index⟩) ∧
    (¬ In2 lo hi ⟨a.x * k, a.y * k, 0⟩ → Point2.mul lo hi a k = .ub) := by
  unfold In2
  refine ⟨fun h => ?_, fun h => ?_, fun h => ?_, fun h => ?_, fun h => ?_, fun h => ?_⟩ <;>
    simp only [Point2.add, Point2.sub, Point2.mul, fit] <;> simp only at h <;> split_ifs <;> simp_all

/-- The same in space. -/
theorem C107_space (lo hi : Int) (a b : Point3 Int) (k : Int) :
    (In3 lo hi ⟨a.x + b.x, a.y + b.y, a.z + b.z, 0⟩ → Point3.add lo hi a b = .ok ⟨a.x + b.x, a.y + b.y, a.z + b.z, a.index⟩) ∧
    (¬ In3 lo hi ⟨a.x + b.x, a.y + b.y, a.z + b.z, 0⟩ → Point3.add lo hi a b = .ub) ∧
    (In3 lo hi ⟨a.x - b.x, a.y - b.y, a.z - b.z, 0⟩ → Point3.sub lo hi a b = .ok ⟨a.x - b.x, a.y - b.y, a.z - b.z, a.index⟩) ∧
    (¬ In3 lo hi ⟨a.x - b.x, a.y - b.y, a.z - b.z, 0⟩ → Point3.sub lo hi a b = .ub) ∧
    (In3 lo hi ⟨a.x * k, a.y * k, a.z * k, 0⟩ → Point3.mul lo hi a k = .ok ⟨a.x * k, a.y * k, a.z * k, a.index⟩) ∧
    (¬ In3 lo hi ⟨a.x * k, a.y * k, a.z * k, 0⟩ → Point3.mul lo hi a k = .ub) := by
  unfold In3
  refine ⟨fun h => ?_, fun h => ?_, fun h => ?_, fun h => ?_, fun h => ?_, fun h => ?_⟩ <;>
    simp only [Point3.add, Point3.sub, Point3.mul, fit] <;> simp only at h <;> split_ifs <;> simp_all

/-- What was added can be taken away, and a multiple can be divided: the very point comes back, index and all. -/
theorem C107_undo {lo hi : Int} (a b c : Point2 Int) (p q r : Point3 Int) {k : Int} (hk : k ≠ 0) (ha : In2 lo hi a) (hp : In3 lo hi p) :
    (Point2.add lo hi a b = .ok c → Point2.sub lo hi c b = .ok a) ∧ (Point2.mul lo hi a k = .ok c → Point2.div lo hi c k = .ok a) ∧
    (Point3.add lo hi p q = .ok r → Point3.sub lo hi r q = .ok p) ∧ (Point3.mul lo hi p k = .ok r → Point3.div lo hi r k = .ok p) := by
  obtain ⟨h1, h2⟩ := ha
  obtain ⟨h3, h4, h5⟩ := hp
  refine ⟨?_, ?_, ?_, ?_⟩
  · simp only [Point2.add, Res.bind_eq, Res.bind_eq_ok, fit_eq_ok, Res.pure_eq, Res.ok.injEq]
    rintro ⟨_, ⟨_, rfl⟩, _, ⟨_, rfl⟩, rfl⟩
    simp only [Point2.sub, Int.add_sub_cancel, fit_ok h1, fit_ok h2, Res.bind_eq, Res.bind_ok, Res.pure_eq]
  · simp only [Point2.mul, Res.bind_eq, Res.bind_eq_ok, fit_eq_ok, Res.pure_eq, Res.ok.injEq]
    rintro ⟨_, ⟨_, rfl⟩, _, ⟨_, rfl⟩, rfl⟩
    simp only [Point2.div, quot, if_neg hk, Int.mul_tdiv_cancel _ hk, fit_ok h1, fit_ok h2, Res.bind_eq, Res.bind_ok, Res.pure_eq]
  · simp only [Point3.add, Res.bind_eq, Res.bind_eq_ok, fit_eq_ok, Res.pure_eq, Res.ok.injEq]
    rintro ⟨_, ⟨_, rfl⟩, _, ⟨_, rfl⟩, _, ⟨_, rfl⟩, rfl⟩
    simp only [Point3.sub, Int.add_sub_cancel, fit_ok h3, fit_ok h4, fit_ok h5, Res.bind_eq, Res.bind_ok, Res.pure_eq]
  · simp only [Point3.mul, Res.bind_eq, Res.bind_eq_ok, fit_eq_ok, Res.pure_eq, Res.ok.injEq]
    rintro ⟨_, ⟨_, rfl⟩, _, ⟨_, rfl⟩, _, ⟨_, rfl⟩, rfl⟩
    simp only [Point3.div, quot, if_neg hk, Int.mul_tdiv_cancel _ hk, fit_ok h3, fit_ok h4, fit_ok h5, Res.bind_eq, Res.bind_ok, Res.pure_eq]

deriving instance DecidableEq for Point2
deriving instance DecidableEq for Point3

example : Point2.add (-2147483648) 2147483647 ⟨3, -4, 7⟩ ⟨10, 20, 8⟩ = .ok ⟨13, 16, 7⟩ ∧ Point2.sub (-2147483648) 2147483647 ⟨13, 16, 7⟩ ⟨10, 20, 8⟩ = .ok ⟨3, -4, 7⟩ ∧
    Point3.mul (-2147483648) 2147483647 ⟨3, -4, 5, 7⟩ (-6) = .ok ⟨-18, 24, -30, 7⟩ ∧ Point3.div (-2147483648) 2147483647 ⟨-18, 24, -30, 7⟩ (-6) = .ok ⟨3, -4, 5, 7⟩ ∧
    Point2.add (-2147483648) 2147483647 ⟨2147483647, 0, 0⟩ ⟨1, 0, 0⟩ = .ub := by decide +kernel

/-- Subscripts give the coordinates in order, and beyond them end a checked program. -/
theorem C107_subscript (dbg : Bool) (a : Point2 Int) (p : Point3 Int) (i : Nat) :
    Point2.get dbg a i = (match [a.x, a.y][i]? with
      | some v => .ok v
      | none => if dbg then .abort else .ub) ∧
    Point3.get dbg p i = (match [p.x, p.y, p.z][i]? with
      | some v => .ok v
      | none => if dbg then .abort else .ub) := by
  constructor
  · match i with
    | 0 => simp [Point2.get, Res.assert]
    | 1 => simp [Point2.get, Res.assert]
    | i + 2 => cases dbg <;> simp [Point2.get, Res.assert]
  · match i with
    | 0 => simp [Point3.get, Res.assert]
    | 1 => simp [Point3.get, Res.assert]
    | 2 => simp [Point3.get, Res.assert]
    | i + 3 => cases dbg <;> simp [Point3.get, Res.assert]

example : Point3.get true ⟨4, 5, 6, 1⟩ 2 = .ok 6 ∧ Point2.get true ⟨4, 5, 6⟩ 2 = .abort := by decide +kernel

/-- The negative of a point has lost its index: negated twice, a point equals itself and yet is not what it was. -/
theorem C107_negative_fails {lo hi : Int} (a : Point2 Int) (p : Point3 Int) (ha : In2 lo hi a) (hp : In3 lo hi p)
    (hna : In2 lo hi ⟨-a.x, -a.y, 0⟩) (hnp : In3 lo hi ⟨-p.x, -p.y, -p.z, 0⟩) :
    (∃ b c, Point2.neg lo hi a = .ok b ∧ Point2.neg lo hi b = .ok c ∧ Point2.eq a c = true ∧ c.index = 0) ∧
    (∃ q r, Point3.neg lo hi p = .ok q ∧ Point3.neg lo hi q = .ok r ∧ Point3.eq p r = true ∧ r.index = 0) := by
  obtain ⟨h1, h2⟩ := ha; obtain ⟨h3, h4, h5⟩ := hp
  obtain ⟨n1, n2⟩ := hna; obtain ⟨n3, n4, n5⟩ := hnp
  refine ⟨⟨⟨-a.x, -a.y, 0⟩, ⟨a.x, a.y, 0⟩, ?_, ?_, ?_, rfl⟩, ⟨⟨-p.x, -p.y, -p.z, 0⟩, ⟨p.x, p.y, p.z, 0⟩, ?_, ?_, ?_, rfl⟩⟩
  · simp only [Point2.neg, fit_ok n1, fit_ok n2, Res.bind_eq, Res.bind_ok, Res.pure_eq]
  · simp only [Point2.neg, neg_neg, fit_ok h1, fit_ok h2, Res.bind_eq, Res.bind_ok, Res.pure_eq]
  · simp [Point2.eq]
  · simp only [Point3.neg, fit_ok n3, fit_ok n4, fit_ok n5, Res.bind_eq, Res.bind_ok, Res.pure_eq]
  · simp only [Point3.neg, neg_neg, fit_ok h3, fit_ok h4, fit_ok h5, Res.bind_eq, Res.bind_ok, Res.pure_eq]
  · simp [Point3.eq]

example : ∃ b c, Point2.neg (-2147483648) 2147483647 ⟨3, -4, 7⟩ = .ok b ∧ Point2.neg (-2147483648) 2147483647 b = .ok c ∧ c = ⟨3, -4, 0⟩ :=
  ⟨⟨-3, 4, 0⟩, ⟨3, -4, 0⟩, by decide +kernel⟩

/-- Where every coordinate has a negative in the type, the negative is what has to be added to get zero. -/
theorem C107_negative_partial {lo hi : Int} (a b : Point2 Int) (p q : Point3 Int) (h0 : lo ≤ 0 ∧ 0 ≤ hi) :
    (Point2.neg lo hi a = .ok b → Point2.add lo hi a b = .ok ⟨0, 0, a.index⟩) ∧ (Point3.neg lo hi p = .ok q → Point3.add lo hi p q = .ok ⟨0, 0, 0, p.index⟩) := by
  constructor
  · simp only [Point2.neg, Res.bind_eq, Res.bind_eq_ok, fit_eq_ok, Res.pure_eq, Res.ok.injEq]
    rintro ⟨_, ⟨_, rfl⟩, _, ⟨_, rfl⟩, rfl⟩
    simp only [Point2.add, Int.add_right_neg, fit_ok h0, Res.bind_eq, Res.bind_ok, Res.pure_eq]
  · simp only [Point3.neg, Res.bind_eq, Res.bind_eq_ok, fit_eq_ok, Res.pure_eq, Res.ok.injEq]
    rintro ⟨_, ⟨_, rfl⟩, _, ⟨_, rfl⟩, _, ⟨_, rfl⟩, rfl⟩
    simp only [Point3.add, Int.add_right_neg, fit_ok h0, Res.bind_eq, Res.bind_ok, Res.pure_eq]

/-- Dividing points by `k > 1` to coarsen a grid does not commute with moving the grid by `k`: the division rounds towards zero, so the
cell at zero takes the coordinates from `-(k-1)` to `k-1`, and every other one takes `k` of them. -/
theorem C107_coarsen_fails {lo hi k : Int} (hk : 1 < k) (hlo : lo ≤ -k) (hhi : k ≤ hi) (i j : Nat) :
    Point2.div lo hi ⟨-1, 0, i⟩ k = .ok ⟨0, 0, i⟩ ∧ Point2.div lo hi ⟨-1 + k, 0, j⟩ k = .ok ⟨0, 0, j⟩ := by
  have h0 : lo ≤ 0 ∧ 0 ≤ hi := by constructor <;> linarith
  have e1 : (-1 : Int).tdiv k = 0 := by
    rw [Int.neg_tdiv, Int.tdiv_eq_zero_of_lt (by omega) (by omega)]; rfl
  have e2 : (-1 + k : Int).tdiv k = 0 := Int.tdiv_eq_zero_of_lt (by omega) (by omega)
  have hk0 : k ≠ 0 := by omega
  constructor
  · simp only [Point2.div, quot, if_neg hk0, e1, Int.zero_tdiv, fit_ok h0, Res.bind_eq, Res.bind_ok, Res.pure_eq]
  · simp only [Point2.div, quot, if_neg hk0, e2, Int.zero_tdiv, fit_ok h0, Res.bind_eq, Res.bind_ok, Res.pure_eq]

example : Point2.div (-2147483648) 2147483647 ⟨-3, 3, 1⟩ 4 = .ok ⟨0, 0, 1⟩ ∧ Point2.div (-2147483648) 2147483647 ⟨1, 7, 1⟩ 4 = .ok ⟨0, 1, 1⟩ := by decide +kernel

/-- For coordinates that are not negative the quotient is the cell of the coarser grid that holds the point. -/
theorem C107_coarsen_partial {lo hi : Int} {a b : Point2 Int} {p q : Point3 Int} {k : Int} (hk : 0 < k) (ha : 0 ≤ a.x ∧ 0 ≤ a.y) (hp : 0 ≤ p.x ∧ 0 ≤ p.y ∧ 0 ≤ p.z) :
    (Point2.div lo hi a k = .ok b → (b.x * k ≤ a.x ∧ a.x < (b.x + 1) * k) ∧ (b.y * k ≤ a.y ∧ a.y < (b.y + 1) * k) ∧ b.index = a.index) ∧
    (Point3.div lo hi p k = .ok q → (q.x * k ≤ p.x ∧ p.x < (q.x + 1) * k) ∧ (q.y * k ≤ p.y ∧ p.y < (q.y + 1) * k) ∧ (q.z * k ≤ p.z ∧ p.z < (q.z + 1) * k) ∧
      q.index = p.index) := by
  have key : ∀ x : Int, 0 ≤ x → x.tdiv k * k ≤ x ∧ x < (x.tdiv k + 1) * k := by
    intro x hx
    rw [Int.tdiv_eq_ediv_of_nonneg hx]
    exact ⟨Int.ediv_mul_le x hk.ne', Int.lt_ediv_add_one_mul_self x hk⟩
  constructor
  · simp only [Point2.div, quot, if_neg hk.ne', Res.bind_eq, Res.bind_eq_ok, fit_eq_ok, Res.pure_eq, Res.ok.injEq]
    rintro ⟨_, ⟨_, rfl⟩, _, ⟨_, rfl⟩, rfl⟩
    exact ⟨key _ ha.1, key _ ha.2, rfl⟩
  · simp only [Point3.div, quot, if_neg hk.ne', Res.bind_eq, Res.bind_eq_ok, fit_eq_ok, Res.pure_eq, Res.ok.injEq]
    rintro ⟨_, ⟨_, rfl⟩, _, ⟨_, rfl⟩, _, ⟨_, rfl⟩, rfl⟩
    exact ⟨key _ hp.1, key _ hp.2.1, key _ hp.2.2, rfl⟩

/-- A division by 0 is undefined, and so is one by -1 of a point with a lowest coordinate, in a type whose lowest value has no negative. -/
theorem C107_division_undefined {lo hi : Int} (hlo : hi < -lo) (a : Point2 Int) (p : Point3 Int) :
    Point2.div lo hi a 0 = .ub ∧ Point3.div lo hi p 0 = .ub ∧ (a.x = lo ∨ a.y = lo → Point2.div lo hi a (-1) = .ub) ∧
    (p.x = lo ∨ p.y = lo ∨ p.z = lo → Point3.div lo hi p (-1) = .ub) := by
  have hb : fit lo hi (-lo) = .ub := fit_ub (by omega)
  have h1 : ∀ v : Int, v.tdiv (-1) = -v := fun v => by rw [Int.tdiv_neg, Int.tdiv_one]
  have hf : ∀ v, fit lo hi v = .ub ∨ fit lo hi v = .ok v := fun v => by
    by_cases h : lo ≤ v ∧ v ≤ hi
    · exact .inr (fit_ok h)
    · exact .inl (fit_ub h)
  have hn : ¬ (-1 : Int) = 0 := by omega
  refine ⟨by simp [Point2.div, quot], by simp [Point3.div, quot], fun h => ?_, fun h => ?_⟩
  · simp only [Point2.div, quot, if_neg hn, h1]
    rcases h with h | h
    · simp [h, hb]
    · rcases hf (-a.x) with e | e <;> simp [h, hb, e]
  · simp only [Point3.div, quot, if_neg hn, h1]
    rcases h with h | h | h
    · simp [h, hb]
    · rcases hf (-p.x) with e | e <;> simp [h, hb, e]
    · rcases hf (-p.x) with e | e <;> rcases hf (-p.y) with e' | e' <;> simp [h, hb, e, e']

example : Point2.div (-2147483648) 2147483647 ⟨5, -2147483648, 0⟩ (-1) = .ub ∧ Point2.div (-2147483648) 2147483647 ⟨5, -2147483648, 0⟩ 1 = .ok ⟨5, -2147483648, 0⟩ := by decide +kernel
end Verif.Props
