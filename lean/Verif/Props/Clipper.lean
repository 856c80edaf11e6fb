import Verif.Proofs.Clipper
/-
C102: clipping a cell with `Clipper2d` keeps the piece of the cell with the generator and hands over all other pieces as orphans.

Boost.Geometry is assumed to answer rightly (`Right`).
-/
namespace Verif.Props
open Verif Verif.Clipper
variable {P : Type} [DecidableEq P] {B : Boost P} {area : List P → Set P} {domain : Set P} {dbg : Bool} {gen : P} {ring : List P} {old : List (List P)}

/-- For all cells, generators in the cell and the domain, and boundaries such that the pieces of the cell do not meet themselves: `clipCell` returns with and without assertions. The cell is then a part of the cell in the
domain and has the generator, the orphans are pieces without it, and if the generator is in one piece only, nothing is lost.
Missing: a generator in several pieces (`C102_touching_fails`), cells outside (`C102_outside_fails`) and rings that meet themselves (`C102_self_fails`). -/
theorem C102_clip_partial (hB : Right B area domain) (hg : gen ∈ area ring ∩ domain)
    (hs : ∀ q ∈ B.intersection ring, B.selfIntersects (B.correct q) = false ∧ 2 < (B.correct q).length) (dbg : Bool) (old : List (List P)) :
    ∃ cell new, clipCell B dbg gen ring old = .ok (cell, old ++ new) ∧ gen ∈ area cell ∧ area cell ⊆ area ring ∩ domain ∧
      (∀ q ∈ new, gen ∉ area q ∧ area q ⊆ area ring ∩ domain) ∧
      ((B.intersection ring).Pairwise (fun q r => ¬ (gen ∈ area q ∧ gen ∈ area r)) → NothingLost area domain ring old (cell, old ++ new)) := by
  obtain ⟨i, q, h1, h2, h3, h4⟩ := cut_spec hB hg dbg old
  have hm := List.mem_of_getElem? h1
  have sub : ∀ r ∈ B.intersection ring, area r ⊆ area ring ∩ domain := fun r hr => by
    rw [← hB.pieces ring]; exact Set.subset_biUnion_of_mem (u := fun q => area q) hr
  have hf : ∀ r, B.coveredBy gen r = false ↔ gen ∉ area r := fun r => by
    rw [← hB.covered]; simp
  refine ⟨B.correct q, (B.intersection ring).filter fun q => B.coveredBy gen q = false, ?_, by rw [hB.correct]; exact h2, by rw [hB.correct]; exact sub q hm, ?_, fun hd => ⟨_, rfl, ?_⟩⟩
  · unfold clipCell
    simp [h4, (hs q hm).1, Res.assert_true dbg (show (B.correct q).length > 2 from (hs q hm).2)]
  · intro r hr
    rw [List.mem_filter, decide_eq_true_eq, hf] at hr
    exact ⟨hr.2, sub r hr.1⟩
  · rw [hB.correct]
    apply Set.Subset.antisymm
    · refine Set.union_subset (sub q hm) (Set.iUnion₂_subset fun r hr => ?_)
      exact sub r (List.mem_filter.1 hr).1
    · intro x hx
      rw [← hB.pieces ring] at hx
      obtain ⟨r, hr, hxr⟩ : ∃ r ∈ B.intersection ring, x ∈ area r := by simpa using hx
      by_cases hgr : gen ∈ area r
      · left
        obtain ⟨m, hm'⟩ := List.getElem?_of_mem hr
        obtain ⟨hil, hie⟩ := List.getElem?_eq_some_iff.1 h1
        obtain ⟨hml, hme⟩ := List.getElem?_eq_some_iff.1 hm'
        rcases lt_trichotomy m i with hlt | rfl | hlt
        · exact absurd ⟨by rw [hme]; exact hgr, by rw [hie]; exact h2⟩ (List.pairwise_iff_getElem.1 hd m i hml hil hlt)
        · rw [h1] at hm'; cases hm'; exact hxr
        · exact absurd hgr (h3 m r hlt hm')
      · right
        simp only [Set.mem_iUnion]
        exact ⟨r, List.mem_filter.2 ⟨hr, by simpa using (hf r).2 hgr⟩, hxr⟩

/-- A generator in two pieces, as where the boundary narrows to a point at it: whenever there are two such pieces and the first has a part that the second does not have, that part is in neither the cell nor the orphans. -/
theorem C102_touching_fails (hB : Right B area domain) {q r : List P} (hp : B.intersection ring = [q, r]) (hq : gen ∈ area q) (hr : gen ∈ area r) (hne : ¬ area q ⊆ area r)
    (hs : B.selfIntersects (B.correct r) = false) (hl : 2 < (B.correct r).length) (dbg : Bool) (old : List (List P)) :
    ∃ res, clipCell B dbg gen ring old = .ok res ∧ ¬ NothingLost area domain ring old res := by
  have hu := hB.pieces ring
  rw [hp] at hu
  have hg : gen ∈ area ring ∩ domain := by rw [← hu]; simp [hq]
  obtain ⟨i, q', h1, h2, h3, h4⟩ := cut_spec hB hg dbg old
  rw [hp] at h1 h3 h4
  have hi : i = 1 := by
    rcases i with _ | _ | i
    · exact absurd hr (h3 1 r (by omega) rfl)
    · rfl
    · simp at h1
  subst hi
  cases h1
  have e : ([q, r].filter fun x => B.coveredBy gen x = false) = [] := by simp [(hB.covered gen q).2 hq, (hB.covered gen r).2 hr]
  rw [e] at h4
  refine ⟨(B.correct r, old ++ []), by unfold clipCell; simp [h4, hs, Res.assert_true dbg (show (B.correct r).length > 2 from hl)], ?_⟩
  rintro ⟨new, hn, hx⟩
  simp only [List.append_cancel_left_eq] at hn
  subst hn
  apply hne
  intro x hxq
  have : x ∈ area ring ∩ domain := by rw [← hu]; simp [hxq]
  rw [← hx, hB.correct] at this
  simpa using this

/-- A cell outside the domain, every one that does not meet itself: it stays the cell, though no part of it is in the domain. -/
theorem C102_outside_fails (hB : Right B area domain) (ho : area ring ∩ domain = ∅) (hne : (area ring).Nonempty)
    (hs : B.selfIntersects (B.correct ring) = false) (hl : 2 < (B.correct ring).length) (dbg : Bool) (gen : P) (old : List (List P)) :
    ∃ res, clipCell B dbg gen ring old = .ok res ∧ area res.1 = area ring ∧ ¬ NothingLost area domain ring old res := by
  have hi : ¬ B.intersects ring = true := fun h => by
    have := (hB.intersects ring).1 h
    rw [ho] at this
    exact Set.not_nonempty_empty this
  refine ⟨(B.correct ring, old), ?_, hB.correct ring, ?_⟩
  · unfold clipCell cut
    simp [hi, hs, Res.assert_true dbg (show (B.correct ring).length > 2 from hl)]
  · rintro ⟨new, -, hx⟩
    obtain ⟨y, hy⟩ := hne
    have : y ∈ area ring ∩ domain := by rw [← hx]; exact Or.inl (by rw [hB.correct]; exact hy)
    rw [ho] at this
    exact this

/-- A ring that meets itself elsewhere than in its first point: it is not mended. With assertions the process aborts, without them the cell is the ring that meets itself. The hypotheses are what
`cut` returned (`x` is its first point and not among the others but perhaps the last). -/
theorem C102_self_fails {q : List P} {os : List (List P)} {x y : P} {mid : List P} (hc : ∀ d, cut B d gen ring old = .ok (q, os)) (hq : B.correct q = x :: mid ++ [y]) (hx : x ∉ mid)
    (hi : B.correct (B.correct q) = B.correct q) (h0 : (B.correct []).any B.within = false) (hw : (B.correct q).any B.within = true) (hself : B.selfIntersects (B.correct q) = true)
    (hm : mid ≠ []) :
    clipCell B true gen ring old = .abort ∧ clipCell B false gen ring old = .ok (B.correct q, os) ∧ B.selfIntersects (B.correct q) = true := by
  have hl : (B.correct q).length > 2 := by
    rw [hq]; have := List.length_pos_iff.2 hm; simp; omega
  have hr : repeated x 0 (B.correct q).dropLast (-1) = 0 := by
    rw [hq, List.dropLast_concat]
    exact repeated_last [] mid 0 (-1) hx
  have hmend : ∀ d, mend B d (B.correct q) = .ok (B.correct q) := by
    intro d
    unfold mend
    have hq' : B.correct q = x :: (mid ++ [y]) := by rw [hq]; rfl
    split
    · next e => rw [hq'] at e; cases e
    · next z _ e =>
      rw [hq'] at e; cases e
      simp only [hr, Res.assert_true d (show (0 : Int) ≠ -1 by omega)]
      have hle : ¬ ((0 : Int) < 0) := by omega
      simp only [Res.bind_eq, Res.bind_ok, hle, if_false, Int.toNat_zero, List.take_zero, List.drop_zero, h0, Bool.false_eq_true, hi, Res.assert_true d hw, Res.pure_eq]
  refine ⟨?_, ?_, hself⟩
  · unfold clipCell
    simp only [hc, Res.bind_eq, Res.bind_ok, Res.assert_true true hl, hself, if_true, hmend]
    rfl
  · unfold clipCell
    simp [hc, hself, hmend, Res.assert]

/-- A ring that meets itself in its first point: the first of its loops with a point in the domain becomes the cell. The other one is lost: the orphans are those of the intersection. -/
theorem C102_self_partial {q : List P} {os : List (List P)} {x y : P} {l m : List P} (hc : cut B dbg gen ring old = .ok (q, os)) (hq : B.correct q = x :: l ++ x :: m ++ [y]) (hx : x ∉ m)
    (hself : B.selfIntersects (B.correct q) = true) (h1 : B.selfIntersects (B.correct (x :: l)) = false) (h2 : B.selfIntersects (B.correct (x :: m ++ [y])) = false)
    (hw : (B.correct (x :: l)).any B.within = true ∨ (B.correct (x :: m ++ [y])).any B.within = true) :
    clipCell B dbg gen ring old = .ok (if (B.correct (x :: l)).any B.within then B.correct (x :: l) else B.correct (x :: m ++ [y]), os) := by
  have hl : (B.correct q).length > 2 := by rw [hq]; simp; omega
  have hr : repeated x 0 (B.correct q).dropLast (-1) = (l.length + 1 : Nat) := by
    rw [hq, List.dropLast_concat]
    have := repeated_last (x := x) (x :: l) m 0 (-1) hx
    simpa using this
  have ht : (B.correct q).take (l.length + 1) = x :: l := by rw [hq]; simp
  have hdr : (B.correct q).drop (l.length + 1) = x :: m ++ [y] := by rw [hq]; simp
  have hmend : mend B dbg (B.correct q) = .ok (if (B.correct (x :: l)).any B.within then B.correct (x :: l) else B.correct (x :: m ++ [y])) := by
    unfold mend
    split
    · next e => rw [e] at hl; simp at hl
    · next z t e =>
      have hz : z = x := by rw [hq] at e; cases e; rfl
      subst hz
      simp only [hr, Res.assert_true dbg (show ((l.length + 1 : Nat) : Int) ≠ -1 by omega)]
      by_cases ha : (B.correct (z :: l)).any B.within = true
      · have : ¬ (((l.length + 1 : Nat) : Int) < 0) := by omega
        simp only [Res.bind_eq, Res.bind_ok, this, if_false, Int.toNat_natCast, ht, ha, if_true, Res.pure_eq]
      · have hb := hw.resolve_left ha
        have : ¬ (((l.length + 1 : Nat) : Int) < 0) := by omega
        simp only [Res.bind_eq, Res.bind_ok, this, if_false, Int.toNat_natCast, ht, hdr, ha, Res.assert_true dbg hb, Res.pure_eq, if_neg, Bool.false_eq_true, not_false_eq_true]
  unfold clipCell
  simp only [hc, Res.bind_eq, Res.bind_ok, Res.assert_true dbg hl, hself, if_true, hmend, Res.pure_eq]
  split_ifs with ha
  · simp [Res.assert_true dbg h1]
  · rw [Res.assert_true dbg h2]; rfl

/-- Areas of grid points on a line: a ring lists the points it covers, and is cut at `c`. -/
def strips (dom : ℤ → Bool) (c : ℤ) : Boost ℤ where
  intersects r := r.any dom
  intersection r := [r.filter fun x => dom x && decide (x ≤ c), r.filter fun x => dom x && decide (c ≤ x)]
  coveredBy x r := decide (x ∈ r)
  correct r := r
  selfIntersects r := !decide r.Nodup
  within := dom

theorem strips_right (dom : ℤ → Bool) (c : ℤ) : Right (strips dom c) (fun r => {x | x ∈ r}) {x | dom x = true} where
  vertex _ _ h := h
  intersects r := by simp [strips, Set.Nonempty]
  pieces r := by
    ext x
    simp only [strips, List.mem_cons, List.not_mem_nil, or_false, Set.iUnion_iUnion_eq_or_left, Set.iUnion_iUnion_eq_left, Set.mem_union, Set.mem_setOf_eq, List.mem_filter, Bool.and_eq_true, decide_eq_true_eq, Set.mem_inter_iff]
    rcases le_total x c with h | h <;> tauto
  covered x r := by simp [strips]
  correct _ := rfl
  within _ h := h

/-- A domain of two parts: the cell becomes the part with the generator and the other part an orphan. -/
example : ∃ cell new, clipCell (strips (· ≠ 3) 3) true 1 [0, 1, 2, 3, 4, 5, 6] [[9]] = .ok (cell, [[9]] ++ new) ∧
    NothingLost (fun r => {x | x ∈ r}) {x : ℤ | decide (x ≠ 3) = true} [0, 1, 2, 3, 4, 5, 6] [[9]] (cell, [[9]] ++ new) := by
  obtain ⟨cell, new, h1, -, -, -, h5⟩ := C102_clip_partial (strips_right (· ≠ 3) 3) (gen := 1) (ring := [0, 1, 2, 3, 4, 5, 6]) (by simp) (by decide) true [[9]]
  exact ⟨cell, new, h1, h5 (by decide)⟩

example : clipCell (strips (· ≠ 3) 3) true 1 [0, 1, 2, 3, 4, 5, 6] [[9]] = .ok ([0, 1, 2], [[9], [4, 5, 6]]) := by decide

/-- Two parts that touch in the generator: the part on the left is lost. -/
example : clipCell (strips (fun _ => true) 3) true 3 [0, 1, 2, 3, 4, 5, 6] [] = .ok ([3, 4, 5, 6], []) := by decide
example : ∃ res, clipCell (strips (fun _ => true) 3) true 3 [0, 1, 2, 3, 4, 5, 6] [] = .ok res ∧ ¬ NothingLost (fun r => {x | x ∈ r}) {x : ℤ | true = true} [0, 1, 2, 3, 4, 5, 6] [] res :=
  C102_touching_fails (strips_right (fun _ => true) 3) rfl (by simp) (by simp) (fun h => by simpa using @h 0 (by simp)) (by decide) (by decide) true []

/-- A cell outside. -/
example : ∃ res, clipCell (strips (· < 0) 3) true 3 [1, 2, 3] [] = .ok res ∧ {x | x ∈ res.1} = {x : ℤ | x ∈ [1, 2, 3]} ∧ ¬ NothingLost (fun r => {x | x ∈ r}) {x : ℤ | decide (x < 0) = true} [1, 2, 3] [] res :=
  C102_outside_fails (strips_right (· < 0) 3) (by ext x; simp; omega) ⟨1, by simp⟩ (by decide) (by decide) true 3 []

/-- Rings that meet themselves, in another than the first point and in the first point. `loops` leaves rings as they are. -/
def loops : Boost ℤ := { strips (fun _ => true) 3 with intersection := fun r => [r], selfIntersects := fun r => !decide r.dropLast.Nodup }

example : clipCell loops true 3 [0, 1, 2, 3, 1, 5, 0] [] = .abort ∧ clipCell loops false 3 [0, 1, 2, 3, 1, 5, 0] [] = .ok ([0, 1, 2, 3, 1, 5, 0], []) ∧ loops.selfIntersects [0, 1, 2, 3, 1, 5, 0] = true :=
  C102_self_fails (B := loops) (q := [0, 1, 2, 3, 1, 5, 0]) (x := 0) (y := 0) (mid := [1, 2, 3, 1, 5]) (by decide) rfl (by decide) rfl (by decide) (by decide) (by decide) (by decide)

example : clipCell loops true 3 [0, 1, 2, 0, 3, 5, 0] [] = .ok ([0, 1, 2], []) :=
  C102_self_partial (B := loops) (q := [0, 1, 2, 0, 3, 5, 0]) (x := 0) (y := 0) (l := [1, 2]) (m := [3, 5]) (by decide) rfl (by decide) (by decide) (by decide) (by decide) (by decide)
end Verif.Props
