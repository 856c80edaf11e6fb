import Verif.Spec.Clipper
/- Lemmas about `Clipper2d`. -/
namespace Verif.Clipper
open Verif
variable {P : Type} [DecidableEq P] {B : Boost P} {area : List P → Set P} {domain : Set P} {dbg : Bool} {gen : P} {ring : List P} {old : List (List P)}

/-- The loop over the pieces: the last piece with the generator, and the pieces without it as orphans. -/
theorem choose_spec (hB : Right B area domain) (gen : P) : ∀ (l : List (List P)) (j k : Nat) (os : List (List P)),
    (choose B gen j l (k, os)).2 = os ++ (l.filter fun q => B.coveredBy gen q = false) ∧
    ((∀ q ∈ l, gen ∉ area q) ∧ (choose B gen j l (k, os)).1 = k ∨
      ∃ (i : Nat) (q : List P), l[i]? = some q ∧ gen ∈ area q ∧ (choose B gen j l (k, os)).1 = j + i ∧ ∀ (i' : Nat) q', i < i' → l[i']? = some q' → gen ∉ area q')
  | [], j, k, os => by simp [choose]
  | r :: l, j, k, os => by
    classical
    have hrw : choose B gen j (r :: l) (k, os) = if gen ∈ area r then choose B gen (j + 1) l (j, os) else choose B gen (j + 1) l (k, os ++ [r]) := by
      by_cases h : gen ∈ area r
      · have := (hB.covered gen r).2 h
        simp [choose, this, h]
      · have h1 : ¬ B.coveredBy gen r = true := fun h' => h ((hB.covered gen r).1 h')
        have h2 : gen ∉ r := fun h' => h (hB.vertex r gen h')
        simp [choose, h1, h2, h]
    by_cases h : gen ∈ area r
    · rw [hrw, if_pos h]
      have hc := (hB.covered gen r).2 h
      obtain ⟨h1, h2⟩ := choose_spec hB gen l (j + 1) j os
      refine ⟨by rw [h1]; simp [hc], Or.inr ?_⟩
      rcases h2 with ⟨h2, h3⟩ | ⟨i, q, h2, h3, h4, h5⟩
      · refine ⟨0, r, rfl, h, h3, fun i' q' hi hq => ?_⟩
        obtain ⟨m, rfl⟩ : ∃ m, i' = m + 1 := ⟨i' - 1, by omega⟩
        exact h2 q' (List.mem_of_getElem? (by simpa using hq))
      · refine ⟨i + 1, q, by simpa using h2, h3, by rw [h4]; omega, fun i' q' hi hq => ?_⟩
        obtain ⟨m, rfl⟩ : ∃ m, i' = m + 1 := ⟨i' - 1, by omega⟩
        exact h5 m q' (by omega) (by simpa using hq)
    · rw [hrw, if_neg h]
      have hc : B.coveredBy gen r = false := by
        cases hx : B.coveredBy gen r
        · rfl
        · exact absurd ((hB.covered gen r).1 hx) h
      obtain ⟨h1, h2⟩ := choose_spec hB gen l (j + 1) k (os ++ [r])
      refine ⟨by rw [h1]; simp [hc], ?_⟩
      rcases h2 with ⟨h2, h3⟩ | ⟨i, q, h2, h3, h4, h5⟩
      · exact Or.inl ⟨by simpa [h] using h2, h3⟩
      · refine Or.inr ⟨i + 1, q, by simpa using h2, h3, by rw [h4]; omega, fun i' q' hi hq => ?_⟩
        obtain ⟨m, rfl⟩ : ∃ m, i' = m + 1 := ⟨i' - 1, by omega⟩
        exact h5 m q' (by omega) (by simpa using hq)

/-- The intersection and the choice among its pieces, for a generator in the cell and the domain. -/
theorem cut_spec (hB : Right B area domain) (hg : gen ∈ area ring ∩ domain) (dbg : Bool) (old : List (List P)) :
    ∃ (i : Nat) (q : List P), (B.intersection ring)[i]? = some q ∧ gen ∈ area q ∧ (∀ (i' : Nat) q', i < i' → (B.intersection ring)[i']? = some q' → gen ∉ area q') ∧
      cut B dbg gen ring old = .ok (q, old ++ (B.intersection ring).filter fun q => B.coveredBy gen q = false) := by
  have hi : B.intersects ring = true := (hB.intersects ring).2 ⟨gen, hg⟩
  have hp := hB.pieces ring
  unfold cut
  rw [if_pos hi]
  have hm : gen ∈ ⋃ q ∈ B.intersection ring, area q := by rw [hp]; exact hg
  obtain ⟨q, hq, hgq⟩ : ∃ q ∈ B.intersection ring, gen ∈ area q := by simpa using hm
  generalize hl : B.intersection ring = l at hq
  match l, hq with
  | [r], hq =>
    rw [List.mem_singleton] at hq
    subst hq
    refine ⟨0, q, rfl, hgq, ?_, ?_⟩
    · intro i' q' hi' hq'
      obtain ⟨m, rfl⟩ : ∃ m, i' = m + 1 := ⟨i' - 1, by omega⟩
      simp at hq'
    · simp [(hB.covered gen q).2 hgq]
  | r :: s :: l, hq =>
    obtain ⟨h1, h2⟩ := choose_spec hB gen (r :: s :: l) 0 (r :: s :: l).length old
    rcases h2 with ⟨h2, -⟩ | ⟨i, q', h2, h3, h4, h5⟩
    · exact absurd hgq (h2 q hq)
    · have hlt := (List.getElem?_eq_some_iff.1 h2).1
      refine ⟨i, q', h2, h3, h5, ?_⟩
      rw [Nat.zero_add] at h4
      have hr : rd (r :: s :: l) i = .ok q' := by simp [rd, h2]
      simp only [h4, h1, Res.assert_true dbg hlt, hr, Res.assert_true dbg (show (r :: s :: l).length > 0 by simp), Res.bind_eq, Res.bind_ok, Res.pure_eq]

theorem repeated_not {x : P} : ∀ (l : List P) (i : Nat) (r : Int), x ∉ l → repeated x i l r = r
  | [], _, _, _ => rfl
  | y :: l, i, r, h => by
    rw [repeated, if_neg (fun e => h (by simp [e])), repeated_not l _ _ (fun e => h (by simp [e]))]

theorem repeated_last {x : P} : ∀ (l : List P) (m : List P) (i : Nat) (r : Int), x ∉ m → repeated x i (l ++ x :: m) r = (i + l.length : Nat)
  | [], m, i, r, h => by simp [repeated, repeated_not m _ _ h]
  | y :: l, m, i, r, h => by
    rw [List.cons_append, repeated, repeated_last l m _ _ h]; simp; omega
end Verif.Clipper
