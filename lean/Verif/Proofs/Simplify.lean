import Verif.Model.Simplify
import Verif.Spec.Simplify
import Verif.Proofs.FaceEdges
import Mathlib.Tactic.LinearCombination
import Mathlib.Tactic.FieldSimp
/- The walk of `simplifyPLCfacets` around a polygon. -/
namespace Verif.Simplify
open Verif Verif.Mesh Verif.Internal Verif.Geom
section
variable {K : Type} [Field K]

theorem area2_line {a b c d e : V2 K} (h1 : area2 a b c = 0) (h2 : area2 a b d = 0) (hne : c ≠ d) (h3 : area2 c d e = 0) : area2 a b e = 0 := by
  have hx : (d.x - c.x) * area2 a b e = 0 := by
    simp only [area2] at *
    linear_combination (e.x - c.x) * h2 + (d.x - e.x) * h1 + (b.x - a.x) * h3
  have hy : (d.y - c.y) * area2 a b e = 0 := by
    simp only [area2] at *
    linear_combination (e.y - c.y) * h2 + (d.y - e.y) * h1 + (b.y - a.y) * h3
  rcases mul_eq_zero.1 hx with hx | hx
  · rcases mul_eq_zero.1 hy with hy | hy
    · exact absurd (V2.ext (sub_eq_zero.1 hx).symm (sub_eq_zero.1 hy).symm) hne
    · exact hy
  · exact hx

theorem area2_rot (a b c : V2 K) : area2 b c a = area2 a b c := by simp only [area2]; ring
theorem area2_swap (a b c : V2 K) : area2 b a c = - area2 a b c := by simp only [area2]; ring

/-- The corners of a polygon in order, periodic; different neighbours are different points. -/
structure Ring (n : Nat) (P : Int → V2 K) : Prop where
  three : 3 ≤ n
  inj : ∀ a b, P a = P b ↔ (n : Int) ∣ a - b
  flat : ∃ i, area2 (P (i - 1)) (P i) (P (i + 1)) ≠ 0

namespace Ring
variable {n : Nat} {P : Int → V2 K}

theorem succ_ne (h : Ring n P) (i : Int) : P i ≠ P (i + 1) := by
  intro e
  have h3 := h.three
  have := dvd_small ((h.inj _ _).1 e) (by omega) (by omega)
  omega

theorem period (h : Ring n P) (i : Int) : P (i + n) = P i := (h.inj _ _).2 ⟨1, by omega⟩

/-- Points on the line of side `i`, from there on. -/
def Straight (P : Int → V2 K) (i j : Int) : Prop := area2 (P i) (P (i + 1)) (P j) = 0

/-- Not all points are on the line of side `i`. -/
theorem leaves (h : Ring n P) (i : Int) : ∃ c : Nat, c < n ∧ ¬ Straight P i (i + c + 2) := by
  by_contra hc
  have hn := h.three
  have h1 : ∀ c : Nat, c < n → Straight P i (i + c + 2) := fun c hcn => by
    by_contra hh
    exact hc ⟨c, hcn, hh⟩
  have h2 : ∀ j, Straight P i j := by
    intro j
    have e := Int.emod_add_mul_ediv (j - i - 2) n
    have g1 := Int.emod_nonneg (j - i - 2) (show (n : Int) ≠ 0 by omega)
    have g2 := Int.emod_lt_of_pos (j - i - 2) (show (0 : Int) < n by omega)
    have := h1 ((j - i - 2) % n).toNat (by omega)
    rw [Int.toNat_of_nonneg g1] at this
    have hp : P j = P (i + (j - i - 2) % n + 2) := (h.inj _ _).2 ⟨(j - i - 2) / n, by omega⟩
    unfold Straight
    rw [hp]
    exact this
  obtain ⟨k, hk⟩ := h.flat
  apply hk
  have e1 := h2 (k - 1)
  have e2 := h2 k
  have e3 := h2 (k + 1)
  unfold Straight at e1 e2 e3
  have hne := h.succ_ne i
  -- three points on the line through two different points
  have hx : ((P (i + 1)).x - (P i).x) * area2 (P (k - 1)) (P k) (P (k + 1)) = 0 := by
    simp only [area2] at e1 e2 e3 ⊢
    linear_combination ((P (k-1)).x - (P (k+1)).x) * (e2 - e1) - ((P (k-1)).x - (P k).x) * (e3 - e1)
  have hy : ((P (i + 1)).y - (P i).y) * area2 (P (k - 1)) (P k) (P (k + 1)) = 0 := by
    simp only [area2] at e1 e2 e3 ⊢
    linear_combination ((P (k-1)).y - (P (k+1)).y) * (e2 - e1) - ((P (k-1)).y - (P k).y) * (e3 - e1)
  rcases mul_eq_zero.1 hx with hx | hx
  · rcases mul_eq_zero.1 hy with hy | hy
    · exact absurd (V2.ext (sub_eq_zero.1 hx).symm (sub_eq_zero.1 hy).symm) hne
    · exact hy
  · exact hx

/-- The polygon turns at corner `i`. -/
def Turn (P : Int → V2 K) (i : Int) : Prop := area2 (P (i - 1)) (P i) (P (i + 1)) ≠ 0

theorem turn_iff (i : Int) : Turn P i ↔ ¬ Straight P i (i - 1) := by
  unfold Turn Straight
  rw [area2_rot (P (i - 1))]

theorem turn_mod (h : Ring n P) {i j : Int} (hd : (n : Int) ∣ i - j) (hi : Turn P i) : Turn P j := by
  unfold Turn at *
  rw [← (h.inj (i - 1) (j - 1)).2 (by rw [show i - 1 - (j - 1) = i - j by omega]; exact hd), ← (h.inj i j).2 hd,
    ← (h.inj (i + 1) (j + 1)).2 (by rw [show i + 1 - (j + 1) = i - j by omega]; exact hd)]
  exact hi

theorem exists_turn (h : Ring n P) : ∃ i : Nat, i < n ∧ Turn P i := by
  obtain ⟨k, hk⟩ := h.flat
  have hn := h.three
  have e := Int.emod_add_mul_ediv k n
  have g1 := Int.emod_nonneg k (show (n : Int) ≠ 0 by omega)
  have g2 := Int.emod_lt_of_pos k (show (0 : Int) < n by omega)
  refine ⟨(k % n).toNat, by omega, h.turn_mod (i := k) ⟨k / n, ?_⟩ hk⟩
  rw [Int.toNat_of_nonneg g1]
  omega

/-- A run of corners on one line ends where the polygon turns, and not before. -/
theorem run_end (h : Ring n P) {i : Int} {c : Nat} (hs : ∀ d : Nat, d < c → Straight P i (i + d + 2)) (he : ¬ Straight P i (i + c + 2)) :
    (∀ j, i ≤ j → j ≤ i + c + 1 → Straight P i j) ∧ (∀ j, i < j → j < i + c + 1 → ¬ Turn P j) ∧ Turn P (i + c + 1) := by
  have h1 : ∀ j, i ≤ j → j ≤ i + c + 1 → Straight P i j := by
    intro j a b
    rcases Int.lt_trichotomy j (i + 1) with e | e | e
    · have : j = i := by omega
      subst this
      unfold Straight; simp only [area2]; ring
    · subst e
      unfold Straight; simp only [area2]; ring
    · have := hs (j - i - 2).toNat (by omega)
      rw [Int.toNat_of_nonneg (by omega), show i + (j - i - 2) + 2 = j by omega] at this
      exact this
  refine ⟨h1, ?_, ?_⟩
  · intro j a b ht
    apply ht
    have e1 := h1 (j - 1) (by omega) (by omega)
    have e2 := h1 j (by omega) (by omega)
    have e3 := h1 (j + 1) (by omega) (by omega)
    unfold Straight at e1 e2 e3
    have hne := h.succ_ne i
    have hx : ((P (i + 1)).x - (P i).x) * area2 (P (j - 1)) (P j) (P (j + 1)) = 0 := by
      simp only [area2] at e1 e2 e3 ⊢
      linear_combination ((P (j-1)).x - (P (j+1)).x) * (e2 - e1) - ((P (j-1)).x - (P j).x) * (e3 - e1)
    have hy : ((P (i + 1)).y - (P i).y) * area2 (P (j - 1)) (P j) (P (j + 1)) = 0 := by
      simp only [area2] at e1 e2 e3 ⊢
      linear_combination ((P (j-1)).y - (P (j+1)).y) * (e2 - e1) - ((P (j-1)).y - (P j).y) * (e3 - e1)
    rcases mul_eq_zero.1 hx with hx | hx
    · rcases mul_eq_zero.1 hy with hy | hy
      · exact absurd (V2.ext (sub_eq_zero.1 hx).symm (sub_eq_zero.1 hy).symm) hne
      · exact hy
    · exact hx
  · intro hz
    apply he
    have e1 := h1 (i + c) (by omega) (by omega)
    have e2 := h1 (i + c + 1) (by omega) (by omega)
    unfold Straight at e1 e2 ⊢
    have hne := h.succ_ne (i + c)
    rw [show i + c + 1 - 1 = i + c by omega, show i + c + 1 + 1 = i + c + 2 by omega] at hz
    exact area2_line e1 e2 hne hz
end Ring

/-- The new facets from corner `w` on, up to corner `last`: each leads along a line to the next turn. -/
inductive Steps (P : Int → V2 K) (v : Int → Int) (last : Int) : Int → List Edge → Prop
  | done : Steps P v last last []
  | step {w w' : Int} {r : List Edge} : w < w' → w' ≤ last → (∀ j, w ≤ j → j ≤ w' → Ring.Straight P w j) → (∀ j, w < j → j < w' → ¬ Ring.Turn P j) → Ring.Turn P w' →
    Steps P v last w' r → Steps P v last w ((v w, v w') :: r)

/-- The data the walk works on. -/
structure Walked (n : Nat) (P : Int → V2 K) (v : Int → Int) (coll : V2 K → V2 K → V2 K → Bool) (pts : List (V2 K)) (es : List Edge) : Prop where
  ring : Ring n P
  vper : ∀ a b, (n : Int) ∣ a - b → v a = v b
  edge : ∀ i : Nat, i < n → es[i]? = some (v i, v (i + 1))
  point : ∀ a, 0 ≤ v a ∧ pts[(v a).toNat]? = some (P a)
  test : ∀ i j, coll (P i) (P (i + 1)) (P j) = true ↔ Ring.Straight P i j

namespace Walked
variable {n : Nat} {P : Int → V2 K} {v : Int → Int} {coll : V2 K → V2 K → V2 K → Bool} {pts : List (V2 K)} {es : List Edge}

theorem rdi_point (h : Walked n P v coll pts es) (a : Int) : rdi pts (v a) = .ok (P a) := by
  rw [rdi, if_pos (h.point a).1]
  exact rd_eq_ok.2 (h.point a).2

theorem edge_mod (h : Walked n P v coll pts es) (a : Nat) : rd es (a % n) = .ok (v a, v (a + 1)) := by
  have hn := h.ring.three
  rw [rd_eq_ok, h.edge _ (Nat.mod_lt _ (by omega))]
  have hd : (n : Int) ∣ ((a % n : Nat) : Int) - a := by
    push_cast
    have := Int.emod_add_mul_ediv a n
    exact ⟨-((a : Int) / n), by rw [Int.mul_neg]; omega⟩
  rw [h.vper _ _ hd, h.vper (((a % n : Nat) : Int) + 1) (a + 1) (by rw [show ((a % n : Nat) : Int) + 1 - (a + 1) = ((a % n : Nat) : Int) - a by omega]; exact hd)]

theorem collAt_eq (h : Walked n P v coll pts es) (a b c : Int) : collAt coll pts (v a) (v b) (v c) = .ok (coll (P a) (P b) (P c)) := by
  simp only [collAt, Res.bind_eq, Res.pure_eq, h.rdi_point, Res.bind_ok]

theorem startTest_eq (h : Walked n P v coll pts es) {i : Nat} (hi : i < n) : startTest coll pts es n i = .ok (coll (P i) (P (i + 1)) (P (i - 1))) := by
  have e1 := h.edge_mod i
  rw [Nat.mod_eq_of_lt hi] at e1
  have e2 := h.edge_mod (i + n - 1)
  simp only [startTest, Res.bind_eq, e1, e2, Res.bind_ok]
  rw [h.collAt_eq]
  rw [show P ((i + n - 1 : Nat) : Int) = P (i - 1) from (h.ring.inj _ _).2 ⟨1, by omega⟩]

theorem findStart_eq (h : Walked n P v coll pts es) : ∀ (k i : Nat), i + k = n → (∃ j : Nat, i ≤ j ∧ j < n ∧ Ring.Turn P j) →
    ∃ s : Nat, s < n ∧ Ring.Turn P s ∧ findStart coll pts es n k i = .ok s
  | 0, i, hk, ⟨j, h1, h2, _⟩ => by omega
  | k + 1, i, hk, ⟨j, h1, h2, h3⟩ => by
    rw [findStart, Res.bind_eq, h.startTest_eq (by omega), Res.bind_ok]
    by_cases ht : Ring.Turn P i
    · refine ⟨i, by omega, ht, ?_⟩
      rw [if_neg]
      · rfl
      · rw [h.test]
        exact (Ring.turn_iff _).1 ht
    · rw [if_pos]
      · refine h.findStart_eq k (i + 1) (by omega) ⟨j, ?_, h2, h3⟩
        by_contra hc
        have : j = i := by omega
        subst this
        exact ht h3
      · rw [h.test]
        by_contra hc
        exact ht ((Ring.turn_iff _).2 hc)

theorem runTest_eq (h : Walked n P v coll pts es) {i : Nat} (hi : i < n) (c : Nat) : runTest coll pts es n i c = .ok (coll (P i) (P (i + 1)) (P (i + c + 2))) := by
  have e1 := h.edge_mod i
  rw [Nat.mod_eq_of_lt hi] at e1
  have e2 := h.edge_mod (i + c + 1)
  simp only [runTest, Res.bind_eq, e1, e2, Res.bind_ok]
  rw [h.collAt_eq]
  rw [show ((i + c + 1 : Nat) : Int) + 1 = i + c + 2 by push_cast; ring]

theorem runLength_eq (h : Walked n P v coll pts es) {i : Nat} (hi : i < n) : ∀ (k c : Nat), c + k = n → (∀ d : Nat, d < c → Ring.Straight P i (i + d + 2)) →
    ∃ c' : Nat, (∀ d : Nat, d < c' → Ring.Straight P i (i + d + 2)) ∧ ¬ Ring.Straight P i (i + c' + 2) ∧ runLength coll pts es n i k c = .ok c'
  | 0, c, hk, hs => by
    obtain ⟨d, h1, h2⟩ := h.ring.leaves i
    exact absurd (hs d (by omega)) h2
  | k + 1, c, hk, hs => by
    rw [runLength, Res.bind_eq, h.runTest_eq hi, Res.bind_ok]
    by_cases ht : Ring.Straight P i (i + c + 2)
    · rw [if_pos ((h.test _ _).2 ht)]
      refine h.runLength_eq hi k (c + 1) (by omega) ?_
      intro d hd
      rcases Nat.lt_or_ge d c with e | e
      · exact hs d e
      · have : d = c := by omega
        subst this
        exact ht
    · rw [if_neg (by rw [h.test]; exact ht)]
      exact ⟨c, hs, ht, rfl⟩

/-- A shift by whole turns. -/
theorem straight_mod (h : Ring n P) {i i' d : Int} (hd : (n : Int) ∣ i - i') : Ring.Straight P i (i + d) ↔ Ring.Straight P i' (i' + d) := by
  unfold Ring.Straight
  rw [(h.inj i i').2 hd, (h.inj (i + 1) (i' + 1)).2 (by rw [show i + 1 - (i' + 1) = i - i' by omega]; exact hd),
    (h.inj (i + d) (i' + d)).2 (by rw [show i + d - (i' + d) = i - i' by omega]; exact hd)]

theorem walk_eq (h : Walked n P v coll pts es) {s : Nat} (hs : Ring.Turn P s) : ∀ (k w : Nat), n ≤ w + k → w ≤ n → 
    ∃ r, walk coll pts es n s k w = .ok r ∧ Steps P v (s + n) (s + w) r
  | 0, w, h1, h2 => by
    have : w = n := by omega
    subst this
    exact ⟨[], rfl, Steps.done⟩
  | k + 1, w, h1, h2 => by
    have hn := h.ring.three
    rw [walk]
    by_cases hw : w < n
    · rw [if_pos hw]
      have hi : (s + w) % n < n := Nat.mod_lt _ (by omega)
      obtain ⟨c, c1, c2, c3⟩ := h.runLength_eq hi n 0 (by omega) (by omega)
      have hd : (n : Int) ∣ (((s + w) % n : Nat) : Int) - ((s : Int) + w) := by
        push_cast
        have := Int.emod_add_mul_ediv ((s : Int) + w) n
        exact ⟨-(((s : Int) + w) / n), by rw [Int.mul_neg]; omega⟩
      have c1' : ∀ d : Nat, d < c → Ring.Straight P (s + w) (s + w + d + 2) := by
        intro d hdc
        have := c1 d hdc
        rw [add_assoc, straight_mod h.ring hd] at this
        rw [add_assoc]
        exact this
      have c2' : ¬ Ring.Straight P (s + w) (s + w + c + 2) := by
        rw [add_assoc, straight_mod h.ring hd] at c2
        rw [add_assoc]
        exact c2
      obtain ⟨r1, r2, r3⟩ := h.ring.run_end c1' c2'
      have hle : (s : Int) + w + c + 1 ≤ s + n := by
        by_contra hc
        have hc' : (s : Int) + n < s + w + c + 1 := by omega
        exact r2 (s + n) (by omega) hc' (h.ring.turn_mod (i := s) ⟨-1, by omega⟩ hs)
      obtain ⟨r, e1, e2⟩ := walk_eq h hs k (w + c + 1) (by omega) (by omega)
      have g1 := h.edge_mod (s + w)
      have g2 : rd es (((s + w) % n + c) % n) = .ok (v (s + w + c), v (s + w + c + 1)) := by
        rw [Nat.mod_add_mod, h.edge_mod (s + w + c)]
        push_cast
        rfl
      refine ⟨(v (s + w), v (s + w + c + 1)) :: r, ?_, ?_⟩
      · simp only [Res.bind_eq, c3, Res.bind_ok, g1, g2, e1, Res.pure_eq]
        push_cast
        rfl
      · refine Steps.step (by omega) hle r1 r2 r3 ?_
        have : (s : Int) + w + c + 1 = s + ((w + c + 1 : Nat) : Int) := by push_cast; ring
        rw [this]
        exact e2
    · rw [if_neg hw]
      have : w = n := by omega
      subst this
      exact ⟨[], rfl, Steps.done⟩
end Walked
end
end Verif.Simplify
