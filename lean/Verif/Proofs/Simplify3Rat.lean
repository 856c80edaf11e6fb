import Verif.Proofs.Simplify3Map
import Verif.Proofs.Simplify3Main
import Mathlib.Data.List.Sublists
/- What the theorems on the 3D version of `simplifyPLCfacets` ask for can be calculated for points with rational coordinates. -/
namespace Verif.Simplify3
open Verif Verif.Mesh Verif.Internal Verif.Geom

theorem real3_inj {p q : V3 ℚ} (h : real3 p = real3 q) : p = q := by
  have h1 := congrArg V3.x h
  have h2 := congrArg V3.y h
  have h3 := congrArg V3.z h
  simp only [real3] at h1 h2 h3
  exact V3.ext (by exact_mod_cast h1) (by exact_mod_cast h2) (by exact_mod_cast h3)

theorem real3_zero : real3 0 = 0 := by
  refine V3.ext ?_ ?_ ?_ <;> simp [real3]

theorem real3_eq_zero {p : V3 ℚ} : real3 p = 0 ↔ p = 0 := by
  rw [← real3_zero]
  exact ⟨fun h => real3_inj h, fun h => by rw [h]⟩

theorem getD_real (l : List (V3 ℚ)) (i : Nat) : (l.map real3).getD i 0 = real3 (l.getD i 0) := by
  rw [List.getD_eq_getElem?_getD, List.getElem?_map, List.getD_eq_getElem?_getD]
  cases l[i]? <;> simp [real3_zero]

theorem headD_real (l : List (V3 ℚ)) : (l.map real3).headD 0 = real3 (l.headD 0) := by
  cases l <;> simp [real3_zero]

theorem corners_real (q : List (V3 ℚ)) (f : List Int) : corners (q.map real3) f = (corners q f).map real3 := by
  rw [corners, corners, List.map_map]
  exact List.map_congr_left fun k _ => getD_real q _

theorem firstNormal_real (l : List (V3 ℚ)) : firstNormal (l.map real3) = real3 (firstNormal l) := by
  simp only [firstNormal, getD_real, real3_sub, real3_cross]

/-- `Proper`, for a calculation. -/
def RatProper (l : List (V3 ℚ)) : Prop :=
  3 ≤ l.length ∧ firstNormal l ≠ 0 ∧ (∀ p ∈ l, dot3 (firstNormal l) p = dot3 (firstNormal l) (l.headD 0)) ∧
    ∀ t ∈ l.sublistsLen 3, 0 ≤ dot3 (firstNormal l) (cross3 (t.getD 1 0 - t.getD 0 0) (t.getD 2 0 - t.getD 0 0))

instance (l : List (V3 ℚ)) : Decidable (RatProper l) := inferInstanceAs (Decidable (_ ∧ _))

theorem RatProper.real {l : List (V3 ℚ)} (h : RatProper l) : Proper (l.map real3) := by
  obtain ⟨h1, h2, h3, h4⟩ := h
  refine ⟨by simpa using h1, ?_, ?_, ?_⟩
  · rw [firstNormal_real, Ne, real3_eq_zero]
    exact h2
  · intro p hp
    obtain ⟨q, hq, rfl⟩ := List.mem_map.1 hp
    rw [firstNormal_real, headD_real, real3_dot, real3_dot, h3 q hq]
  · intro a b c hs
    obtain ⟨t, ht, e⟩ := List.sublist_map_iff.1 hs
    obtain ⟨x, y, z, rfl⟩ : ∃ x y z, t = [x, y, z] := by
      have := congrArg List.length e
      simp only [List.length_map, List.length_cons, List.length_nil] at this
      match t, this with
      | [x, y, z], _ => exact ⟨x, y, z, rfl⟩
    simp only [List.map_cons, List.map_nil, List.cons.injEq, and_true] at e
    obtain ⟨rfl, rfl, rfl⟩ := e
    have := h4 [x, y, z] (List.mem_sublistsLen.2 ⟨ht, rfl⟩)
    rw [firstNormal_real, real3_sub, real3_sub, real3_cross, real3_dot]
    exact_mod_cast this

/-- `Large`, for a calculation. -/
def RatLarge (tol : ℚ) (L : List (List (V3 ℚ))) : Prop :=
  ∀ l ∈ L, (∀ p ∈ l, ∀ q ∈ l, p ≠ q → tol ^ 2 ≤ sq3 p q ∧ tol ≤ sq3 p q) ∧
    ∀ p ∈ l, ∀ q ∈ l, ∀ r ∈ l, cross3 (q - p) (r - p) ≠ 0 →
      2 * tol * (dot3 (q - p) (q - p) * dot3 (r - p) (r - p)) ≤ dot3 (cross3 (q - p) (r - p)) (cross3 (q - p) (r - p))

instance (tol : ℚ) (L : List (List (V3 ℚ))) : Decidable (RatLarge tol L) := inferInstanceAs (Decidable (∀ l ∈ L, _ ∧ _))

theorem sq_real (p q : V3 ℚ) : sq3 (real3 p) (real3 q) = ((sq3 p q : ℚ) : ℝ) := by
  simp only [sq3, real3]
  push_cast
  ring

theorem RatLarge.real {tol : ℚ} {L : List (List (V3 ℚ))} (h : RatLarge tol L) : Large (tol : ℝ) (L.map (List.map real3)) := by
  constructor
  · intro l hl p hp q hq hne
    obtain ⟨m, hm, rfl⟩ := List.mem_map.1 hl
    obtain ⟨p, mp, rfl⟩ := List.mem_map.1 hp
    obtain ⟨q, mq, rfl⟩ := List.mem_map.1 hq
    obtain ⟨h1, h2⟩ := (h m hm).1 p mp q mq fun e => hne (by rw [e])
    rw [sq_real]
    exact ⟨by exact_mod_cast h1, by exact_mod_cast h2⟩
  · intro l hl p hp q hq r hr hne
    obtain ⟨m, hm, rfl⟩ := List.mem_map.1 hl
    obtain ⟨p, mp, rfl⟩ := List.mem_map.1 hp
    obtain ⟨q, mq, rfl⟩ := List.mem_map.1 hq
    obtain ⟨r, mr, rfl⟩ := List.mem_map.1 hr
    simp only [real3_sub, real3_cross, real3_dot] at hne ⊢
    have := (h m hm).2 p mp q mq r mr fun e => hne (by rw [e, real3_zero])
    exact_mod_cast this

/-- The sides in both directions. -/
def allSides (L : List (List (V3 ℚ))) : List (V3 ℚ × V3 ℚ) := L.flatMap dirSides ++ (L.flatMap dirSides).map Prod.swap

/-- What `Resolved3` asks for besides, for a calculation. -/
def RatSharp (tol : ℚ) (L : List (List (V3 ℚ))) : Prop :=
  (∀ l ∈ L, ∀ l' ∈ L, cross3 (firstNormal l) (firstNormal l') ≠ 0 ∨ dot3 (firstNormal l) (firstNormal l') < 0 →
    tol + dot3 (firstNormal l) (firstNormal l') ≤ 0 ∨ (tol + dot3 (firstNormal l) (firstNormal l')) ^ 2 ≤ dot3 (firstNormal l) (firstNormal l) * dot3 (firstNormal l') (firstNormal l')) ∧
  ∀ s ∈ allSides L, ∀ t ∈ allSides L, s.2 = t.1 → cross3 (s.2 - s.1) (t.2 - t.1) ≠ 0 →
    (tol + |dot3 (s.2 - s.1) (t.2 - t.1)|) ^ 2 < dot3 (s.2 - s.1) (s.2 - s.1) * dot3 (t.2 - t.1) (t.2 - t.1)

instance (tol : ℚ) (L : List (List (V3 ℚ))) : Decidable (RatSharp tol L) := inferInstanceAs (Decidable (_ ∧ _))

theorem sides_real (L : List (List (V3 ℚ))) : (L.map (List.map real3)).flatMap dirSides = (L.flatMap dirSides).map fun d => (real3 d.1, real3 d.2) := by
  rw [List.flatMap_map, List.map_flatMap]
  simp only [dirSides_map]

theorem joins_real {L : List (List (V3 ℚ))} {p q : V3 ℝ} (h : joins (L.map (List.map real3)) p q ≠ 0) : ∃ s ∈ allSides L, real3 s.1 = p ∧ real3 s.2 = q := by
  unfold joins at h
  rw [sides_real] at h
  have : (p, q) ∈ (L.flatMap dirSides).map (fun d => (real3 d.1, real3 d.2)) ∨ (q, p) ∈ (L.flatMap dirSides).map (fun d => (real3 d.1, real3 d.2)) := by
    by_contra hc
    push Not at hc
    exact h (by rw [List.count_eq_zero.2 hc.1, List.count_eq_zero.2 hc.2])
  rcases this with h | h
  · obtain ⟨d, hd, e⟩ := List.mem_map.1 h
    rw [Prod.mk.injEq] at e
    exact ⟨d, List.mem_append_left _ hd, e.1, e.2⟩
  · obtain ⟨d, hd, e⟩ := List.mem_map.1 h
    rw [Prod.mk.injEq] at e
    exact ⟨d.swap, List.mem_append_right _ (List.mem_map_of_mem hd), e.2, e.1⟩

theorem RatSharp.real {tol : ℚ} (h0 : 0 < tol) {L : List (List (V3 ℚ))} (hl : RatLarge tol L) (h : RatSharp tol L) : Resolved3 (tol : ℝ) (L.map (List.map real3)) := by
  have h0' : (0 : ℝ) < tol := by exact_mod_cast h0
  refine ⟨hl.real, ?_, ?_⟩
  · intro l hl l' hl' hc
    obtain ⟨m, hm, rfl⟩ := List.mem_map.1 hl
    obtain ⟨m', hm', rfl⟩ := List.mem_map.1 hl'
    have nA := Hull3.dot_self_nonneg (firstNormal (m.map real3))
    simp only [firstNormal_real, real3_cross, real3_dot] at hc nA ⊢
    have hc' : cross3 (firstNormal m) (firstNormal m') ≠ 0 ∨ dot3 (firstNormal m) (firstNormal m') < 0 := by
      rcases hc with h | h
      · exact .inl fun e => h (by rw [e, real3_zero])
      · exact .inr (by exact_mod_cast h)
    rw [le_sub_iff_add_le, ← Real.sqrt_mul nA]
    rcases h.1 m hm m' hm' hc' with h | h
    · have : ((tol : ℝ) + (dot3 (firstNormal m) (firstNormal m') : ℚ)) ≤ 0 := by exact_mod_cast h
      exact this.trans (Real.sqrt_nonneg _)
    · refine Real.le_sqrt_of_sq_le ?_
      exact_mod_cast h
  · intro p q r h1 h2 hc
    obtain ⟨s, hs, rfl, rfl⟩ := joins_real h1
    obtain ⟨t, ht, e, rfl⟩ := joins_real h2
    have e := real3_inj e
    have nA := Hull3.dot_self_nonneg (real3 s.2 - real3 s.1)
    rw [← e] at hc ⊢
    rw [← e] at nA
    simp only [real3_sub, real3_cross, real3_dot] at hc nA ⊢
    rw [lt_sub_iff_add_lt, lt_sqrt_mul nA (by positivity)]
    have := h.2 s hs t ht e.symm (by rw [← e]; exact fun e' => hc (by rw [e', real3_zero]))
    rw [← e] at this
    exact_mod_cast this

/-- `ClosedSurface`, for a calculation. -/
def RatClosed (L : List (List (V3 ℚ))) : Prop := (∀ l ∈ L, ∀ s ∈ dirSides l, s.1 ≠ s.2) ∧ ∀ s ∈ allSides L, joins L s.1 s.2 = 2

instance (L : List (List (V3 ℚ))) : Decidable (RatClosed L) := inferInstanceAs (Decidable (_ ∧ _))

theorem joins_real_eq (L : List (List (V3 ℚ))) (p q : V3 ℚ) : joins (L.map (List.map real3)) (real3 p) (real3 q) = joins L p q := by
  have c : ∀ a b : V3 ℚ, ((L.flatMap dirSides).map fun d => (real3 d.1, real3 d.2)).count (real3 a, real3 b) = (L.flatMap dirSides).count (a, b) := by
    intro a b
    refine count_map_inj (f := fun d : V3 ℚ × V3 ℚ => (real3 d.1, real3 d.2)) (a := (a, b)) fun d _ h => ?_
    rw [Prod.mk.injEq] at h
    exact Prod.ext (real3_inj h.1) (real3_inj h.2)
  rw [joins, joins, sides_real, c, c]

theorem RatClosed.real {L : List (List (V3 ℚ))} (h : RatClosed L) : ClosedSurface (L.map (List.map real3)) := by
  constructor
  · intro l hl s hs
    obtain ⟨m, hm, rfl⟩ := List.mem_map.1 hl
    rw [dirSides_map] at hs
    obtain ⟨d, hd, rfl⟩ := List.mem_map.1 hs
    exact fun e => h.1 m hm d hd (real3_inj e)
  · intro p q
    by_cases hz : joins (L.map (List.map real3)) p q = 0
    · exact .inl hz
    · right
      obtain ⟨s, hs, rfl, rfl⟩ := joins_real hz
      rw [joins_real_eq]
      exact h.2 s hs

theorem nodup_real {L : List (List (V3 ℚ))} (h : (L.flatMap dirSides).Nodup) : ((L.map (List.map real3)).flatMap dirSides).Nodup := by
  rw [sides_real]
  refine h.map ?_
  intro a b e
  rw [Prod.mk.injEq] at e
  exact Prod.ext (real3_inj e.1) (real3_inj e.2)
end Verif.Simplify3
