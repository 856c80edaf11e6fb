import Verif.Proofs.Simplify
import Mathlib.Algebra.BigOperators.Group.Finset.Basic
import Mathlib.Algebra.BigOperators.Intervals
import Mathlib.Data.Int.Interval
import Mathlib.Tactic.Positivity
/- What the new facets of `simplifyPLCfacets` have in common with the polygon. -/
namespace Verif.Simplify
open Verif Verif.Mesh Verif.Internal Verif.Geom Finset
section
variable {K : Type} [Field K]

/-- `Steps` by position: the corners that are kept. -/
structure Kept (P : Int → V2 K) (v : Int → Int) (new : List Edge) (at' : Nat → Int) : Prop where
  facet : ∀ t : Nat, t < new.length → new[t]? = some (v (at' t), v (at' (t + 1)))
  lt : ∀ t : Nat, t < new.length → at' t < at' (t + 1)
  straight : ∀ t : Nat, t < new.length → ∀ j, at' t ≤ j → j ≤ at' (t + 1) → Ring.Straight P (at' t) j
  inner : ∀ t : Nat, t < new.length → ∀ j, at' t < j → j < at' (t + 1) → ¬ Ring.Turn P j
  turn : ∀ t : Nat, t < new.length → Ring.Turn P (at' (t + 1))

theorem Steps.kept {P : Int → V2 K} {v : Int → Int} {last w : Int} {new : List Edge} (h : Steps P v last w new) :
    ∃ at' : Nat → Int, at' 0 = w ∧ at' new.length = last ∧ Kept P v new at' := by
  induction h with
  | done => exact ⟨fun _ => last, rfl, rfl, by simp, by simp, by simp, by simp, by simp⟩
  | @step w w' r h1 h2 h3 h4 h5 _ ih =>
    obtain ⟨f, f0, fl, k⟩ := ih
    refine ⟨fun t => if t = 0 then w else f (t - 1), by simp, by simpa using fl, ?_, ?_, ?_, ?_, ?_⟩
    · intro t ht
      cases t with
      | zero => simp [f0]
      | succ t => simpa using k.facet t (by simpa using ht)
    · intro t ht
      cases t with
      | zero => simpa [f0] using h1
      | succ t => simpa using k.lt t (by simpa using ht)
    · intro t ht
      cases t with
      | zero => simpa [f0] using h3
      | succ t => simpa using k.straight t (by simpa using ht)
    · intro t ht
      cases t with
      | zero => simpa [f0] using h4
      | succ t => simpa using k.inner t (by simpa using ht)
    · intro t ht
      cases t with
      | zero => simpa [f0] using h5
      | succ t => simpa using k.turn t (by simpa using ht)

theorem Kept.mono {P : Int → V2 K} {v : Int → Int} {new : List Edge} {f : Nat → Int} (h : Kept P v new f) : ∀ (d t : Nat), t + d + 1 ≤ new.length → f t < f (t + d + 1)
  | 0, t, ht => h.lt t (by omega)
  | d + 1, t, ht => lt_trans (h.mono d t (by omega)) (h.lt (t + d + 1) (by omega))

theorem Kept.mono' {P : Int → V2 K} {v : Int → Int} {new : List Edge} {f : Nat → Int} (h : Kept P v new f) {t u : Nat} (htu : t < u) (hu : u ≤ new.length) : f t < f u := by
  have := h.mono (u - t - 1) t (by omega)
  rwa [show t + (u - t - 1) + 1 = u by omega] at this

/-- Every position in the range of the walk lies in one of the runs. -/
theorem Kept.cover {P : Int → V2 K} {v : Int → Int} {new : List Edge} {f : Nat → Int} (h : Kept P v new f) : ∀ (u : Nat), u ≤ new.length → ∀ j, f 0 ≤ j → j < f u →
    ∃ t : Nat, t < u ∧ f t ≤ j ∧ j < f (t + 1)
  | 0, _, j, h1, h2 => by omega
  | u + 1, hu, j, h1, h2 => by
    rcases lt_or_ge j (f u) with e | e
    · obtain ⟨t, a, b, c⟩ := h.cover u (by omega) j h1 e
      exact ⟨t, by omega, b, c⟩
    · exact ⟨u, by omega, e, h2⟩

/-- A polygon traversed once from a turn, its kept corners, and the end of the walk. -/
structure Tour (n : Nat) (P : Int → V2 K) (v : Int → Int) (new : List Edge) (f : Nat → Int) : Prop where
  ring : Ring n P
  kept : Kept P v new f
  once : f new.length = f 0 + n
  start : Ring.Turn P (f 0)

namespace Tour
variable {n : Nat} {P : Int → V2 K} {v : Int → Int} {new : List Edge} {f : Nat → Int}

theorem turn_at (h : Tour n P v new f) {t : Nat} (ht : t ≤ new.length) : Ring.Turn P (f t) := by
  cases t with
  | zero => exact h.start
  | succ t => exact h.kept.turn t ht

theorem last (h : Tour n P v new f) : P (f new.length) = P (f 0) := by rw [h.once]; exact h.ring.period _

theorem distinct (h : Tour n P v new f) {t u : Nat} (ht : t < new.length) (hu : u < new.length) (e : P (f t) = P (f u)) : t = u := by
  have hd := (h.ring.inj _ _).1 e
  have b1 : f 0 ≤ f t := by
    rcases Nat.eq_zero_or_pos t with rfl | hp
    · exact le_refl _
    · exact le_of_lt (h.kept.mono' hp (by omega))
  have b2 : f 0 ≤ f u := by
    rcases Nat.eq_zero_or_pos u with rfl | hp
    · exact le_refl _
    · exact le_of_lt (h.kept.mono' hp (by omega))
  have b3 := h.kept.mono' ht (le_refl _)
  have b4 := h.kept.mono' hu (le_refl _)
  rw [h.once] at b3 b4
  have := dvd_small hd (by omega) (by omega)
  rcases Nat.lt_trichotomy t u with c | c | c
  · have := h.kept.mono' c (by omega); omega
  · exact c
  · have := h.kept.mono' c (by omega); omega

theorem pos (h : Tour n P v new f) : 0 < new.length := by
  rcases Nat.eq_zero_or_pos new.length with e | e
  · have := h.once
    have h3 := h.ring.three
    rw [e] at this
    omega
  · exact e

/-- The area of a triangle of points on a line through two different points. -/
theorem flat_of {a b p q r : V2 K} (hab : a ≠ b) (e1 : area2 a b p = 0) (e2 : area2 a b q = 0) (e3 : area2 a b r = 0) : area2 p q r = 0 := by
  have hx : (b.x - a.x) * area2 p q r = 0 := by
    simp only [area2] at e1 e2 e3 ⊢
    linear_combination (p.x - r.x) * (e2 - e1) - (p.x - q.x) * (e3 - e1)
  have hy : (b.y - a.y) * area2 p q r = 0 := by
    simp only [area2] at e1 e2 e3 ⊢
    linear_combination (p.y - r.y) * (e2 - e1) - (p.y - q.y) * (e3 - e1)
  rcases mul_eq_zero.1 hx with hx | hx
  · rcases mul_eq_zero.1 hy with hy | hy
    · exact absurd (V2.ext (sub_eq_zero.1 hx).symm (sub_eq_zero.1 hy).symm) hab
    · exact hy
  · exact hx

theorem run_flat (h : Tour n P v new f) {t : Nat} (ht : t < new.length) {i j k : Int} (hi : f t ≤ i ∧ i ≤ f (t + 1)) (hj : f t ≤ j ∧ j ≤ f (t + 1))
    (hk : f t ≤ k ∧ k ≤ f (t + 1)) : area2 (P i) (P j) (P k) = 0 :=
  flat_of (h.ring.succ_ne (f t)) (h.kept.straight t ht i hi.1 hi.2) (h.kept.straight t ht j hj.1 hj.2) (h.kept.straight t ht k hk.1 hk.2)

theorem run_flat' (h : Tour n P v new f) (t u : Nat) (hu : u = t + 1) (ht : t < new.length) {i j k : Int} (hi : f t ≤ i ∧ i ≤ f u) (hj : f t ≤ j ∧ j ≤ f u)
    (hk : f t ≤ k ∧ k ≤ f u) : area2 (P i) (P j) (P k) = 0 := by
  subst hu
  exact h.run_flat ht hi hj hk

theorem three (h : Tour n P v new f) : 3 ≤ new.length := by
  have hpos := h.pos
  have h3 := h.ring.three
  have honce := h.once
  by_contra hc
  have hcases : new.length = 1 ∨ new.length = 2 := by omega
  rcases hcases with e | e
  · rw [e] at honce
    apply h.start
    have g := h.run_flat' 0 1 rfl (by omega) (i := f 0 + n - 1) (j := f 0) (k := f 0 + 1) ⟨by omega, by omega⟩ ⟨by omega, by omega⟩ ⟨by omega, by omega⟩
    rw [show P (f 0 + n - 1) = P (f 0 - 1) from (h.ring.inj _ _).2 ⟨1, by omega⟩] at g
    exact g
  · rw [e] at honce
    have l0 := h.kept.lt 0 (by omega)
    have l1 := h.kept.lt 1 (by omega)
    simp only [Nat.zero_add, Nat.reduceAdd] at l0 l1
    have hne : P (f 0) ≠ P (f 1) := by
      intro hh
      have := dvd_small ((h.ring.inj _ _).1 hh) (by omega) (by omega)
      omega
    apply h.start
    -- the point before the start is on the second line, which is the line through the two kept corners
    have g1 := h.run_flat' 1 2 rfl (by omega) (i := f 1) (j := f 2) (k := f 0 + n - 1) ⟨by omega, by omega⟩ ⟨by omega, by omega⟩ ⟨by omega, by omega⟩
    have g2 := h.run_flat' 0 1 rfl (by omega) (i := f 0) (j := f 1) (k := f 0 + 1) ⟨by omega, by omega⟩ ⟨by omega, by omega⟩ ⟨by omega, by omega⟩
    rw [show P (f 2) = P (f 0) from (h.ring.inj _ _).2 ⟨1, by omega⟩, show P (f 0 + n - 1) = P (f 0 - 1) from (h.ring.inj _ _).2 ⟨1, by omega⟩] at g1
    refine flat_of hne ?_ ?_ g2
    · rw [area2_swap] at g1; linear_combination -g1
    · simp only [area2]; ring

/-- At a kept corner the new polygon turns. -/
theorem turns (h : Tour n P v new f) {t : Nat} (ht : t + 1 < new.length) : area2 (P (f t)) (P (f (t + 1))) (P (f (t + 2))) ≠ 0 := by
  intro hz
  have l0 := h.kept.lt t (by omega)
  have l1 : f (t + 1) < f (t + 2) := h.kept.lt (t + 1) ht
  have h3 := h.three
  apply h.turn_at (t := t + 1) (by omega)
  have hb := h.kept.mono' (t := t) (u := t + 1) (by omega) (by omega)
  have hne : P (f t) ≠ P (f (t + 1)) := by
    intro hh
    have := h.distinct (by omega) ht hh
    omega
  have hne2 : P (f (t + 1)) ≠ P (f (t + 2)) := by
    rcases Nat.lt_or_ge (t + 2) new.length with c | c
    · intro hh
      have := h.distinct ht c hh
      omega
    · rw [show t + 2 = new.length by omega, h.last]
      intro hh
      have := h.distinct ht h.pos hh
      omega
  have g1 := h.run_flat (t := t) (by omega) (i := f t) (j := f (t + 1)) (k := f (t + 1) - 1) ⟨by omega, by omega⟩ ⟨by omega, by omega⟩ ⟨by omega, by omega⟩
  have g2 := h.run_flat' (t + 1) (t + 2) rfl ht (i := f (t + 1)) (j := f (t + 2)) (k := f (t + 1) + 1) ⟨by omega, by omega⟩ ⟨by omega, by omega⟩ ⟨by omega, by omega⟩
  refine flat_of hne g1 (by simp only [area2]; ring) ?_
  exact area2_line (by simp only [area2]; ring) hz hne2 g2

/-- The same where the walk closes. -/
theorem turns_last (h : Tour n P v new f) : area2 (P (f (new.length - 1))) (P (f 0)) (P (f 1)) ≠ 0 := by
  intro hz
  have h3 := h.three
  have honce := h.once
  have l0 := h.kept.lt (new.length - 1) (by omega)
  have l1 := h.kept.lt 0 (by omega)
  rw [show new.length - 1 + 1 = new.length by omega] at l0
  simp only [Nat.zero_add] at l1
  apply h.start
  have hne : P (f (new.length - 1)) ≠ P (f 0) := by
    intro hh
    have := h.distinct (by omega) h.pos hh
    omega
  have hne2 : P (f 0) ≠ P (f 1) := by
    intro hh
    have := h.distinct h.pos (by omega) hh
    omega
  have g1 := h.run_flat' (new.length - 1) new.length (by omega) (by omega) (i := f (new.length - 1)) (j := f new.length) (k := f new.length - 1)
    ⟨by omega, by omega⟩ ⟨by omega, by omega⟩ ⟨by omega, by omega⟩
  have g2 := h.run_flat' 0 1 rfl (by omega) (i := f 0) (j := f 1) (k := f 0 + 1) ⟨by omega, by omega⟩ ⟨by omega, by omega⟩ ⟨by omega, by omega⟩
  rw [h.last, show P (f new.length - 1) = P (f 0 - 1) from (h.ring.inj _ _).2 ⟨1, by omega⟩] at g1
  refine flat_of hne g1 (by simp only [area2]; ring) ?_
  exact area2_line (by simp only [area2]; ring) hz hne2 g2

/-- The corners that are kept are those at which the polygon turns. -/
theorem kept_iff (h : Tour n P v new f) (i : Int) : Ring.Turn P i ↔ ∃ t : Nat, t < new.length ∧ P i = P (f t) := by
  constructor
  · intro hi
    have h3 := h.ring.three
    have e := Int.emod_add_mul_ediv (i - f 0) n
    have g1 := Int.emod_nonneg (i - f 0) (show (n : Int) ≠ 0 by omega)
    have g2 := Int.emod_lt_of_pos (i - f 0) (show (0 : Int) < n by omega)
    have hdvd : (n : Int) ∣ i - (f 0 + (i - f 0) % n) := ⟨(i - f 0) / n, by omega⟩
    obtain ⟨t, t1, t2, t3⟩ := h.kept.cover new.length (le_refl _) (f 0 + (i - f 0) % n) (by omega) (by rw [h.once]; omega)
    have hturn := h.ring.turn_mod hdvd hi
    refine ⟨t, t1, ?_⟩
    rcases lt_or_eq_of_le t2 with c | c
    · exact absurd hturn (h.kept.inner t t1 _ c t3)
    · rw [c]
      exact (h.ring.inj _ _).2 hdvd
  · rintro ⟨t, ht, e⟩
    exact h.ring.turn_mod ((h.ring.inj _ _).1 e.symm) (h.turn_at (by omega))

/-- The sum along a run. -/
theorem run_sum (h : Tour n P v new f) {t : Nat} (ht : t < new.length) : ∀ d : Nat, f t + d ≤ f (t + 1) →
    ∑ i ∈ range d, cross2 (P (f t + i)) (P (f t + i + 1)) = cross2 (P (f t)) (P (f t + d))
  | 0, _ => by simp [cross2]; ring
  | d + 1, hd => by
    rw [sum_range_succ, h.run_sum ht d (by push_cast at hd; omega)]
    have := h.run_flat ht (i := f t) (j := f t + d) (k := f t + d + 1) ⟨by omega, by push_cast at hd; omega⟩ ⟨by omega, by push_cast at hd; omega⟩ ⟨by omega, by push_cast at hd; omega⟩
    rw [show f t + ((d + 1 : Nat) : Int) = f t + d + 1 by push_cast; ring]
    simp only [area2] at this
    simp only [cross2]
    linear_combination this

theorem sum_upto (h : Tour n P v new f) : ∀ u : Nat, u ≤ new.length →
    ∑ t ∈ range u, cross2 (P (f t)) (P (f (t + 1))) = ∑ i ∈ range (f u - f 0).toNat, cross2 (P (f 0 + i)) (P (f 0 + i + 1))
  | 0, _ => by simp
  | u + 1, hu => by
    have hlt := h.kept.lt u (by omega)
    have hle : f 0 ≤ f u := by
      rcases Nat.eq_zero_or_pos u with rfl | hp
      · exact le_refl _
      · exact le_of_lt (h.kept.mono' hp (by omega))
    rw [sum_range_succ, h.sum_upto u (by omega)]
    have e : (f (u + 1) - f 0).toNat = (f u - f 0).toNat + (f (u + 1) - f u).toNat := by omega
    rw [e, sum_range_add]
    congr 1
    have := h.run_sum (t := u) (by omega) (f (u + 1) - f u).toNat (by omega)
    rw [show f u + (((f (u + 1) - f u).toNat : Nat) : Int) = f (u + 1) by omega] at this
    rw [← this]
    refine sum_congr rfl fun i _ => ?_
    rw [show f 0 + (((f u - f 0).toNat + i : Nat) : Int) = f u + i by push_cast; omega]

/-- Twice the area within the polygon of the kept corners. -/
theorem area (h : Tour n P v new f) : ∑ t ∈ range new.length, cross2 (P (f t)) (P (f (t + 1))) = ∑ i ∈ range n, cross2 (P (f 0 + i)) (P (f 0 + i + 1)) := by
  rw [h.sum_upto _ (le_refl _), h.once]
  congr 2
  omega
end Tour

/-- A sum around the polygon does not depend on where it starts. -/
theorem Ring.sum_shift {n : Nat} {P : Int → V2 K} (h : Ring n P) (g : V2 K → V2 K → K) : ∀ s : Nat,
    ∑ i ∈ range n, g (P (s + i)) (P (s + i + 1)) = ∑ i ∈ range n, g (P i) (P (i + 1))
  | 0 => by simp
  | s + 1 => by
    rw [← h.sum_shift g s]
    obtain ⟨m, rfl⟩ : ∃ m, n = m + 1 := ⟨n - 1, by have := h.three; omega⟩
    rw [sum_range_succ, sum_range_succ' _ m]
    have hp := h.period (s : Int)
    have hp1 := h.period ((s : Int) + 1)
    congr 1
    · refine sum_congr rfl fun i _ => ?_
      push_cast
      rw [show (s : Int) + 1 + i = s + (i + 1) by ring]
    · push_cast at hp hp1 ⊢
      rw [show (s : Int) + 1 + m = s + (m + 1) by ring, show (s : Int) + (m + 1) + 1 = s + 1 + (m + 1) by ring, hp, hp1]
      simp
end
end Verif.Simplify
