import Verif.Proofs.TriCells
import Mathlib.Algebra.BigOperators.Group.Finset.Basic
import Mathlib.Algebra.Order.BigOperators.Group.Finset
import Mathlib.Algebra.BigOperators.Group.List.Basic
/- The cells are dual to the triangles. -/
namespace Verif.Tri
open Verif Verif.Mesh Verif.Internal Verif.Geom Verif.Readout

theorem cyc_rotate {l : List Nat} (h0 : 0 < l.length) (c : Nat) (k : Int) : cyc (l.rotate c) k = cyc l (k + c) := by
  have hN : (0 : Int) < l.length := by omega
  have h1 := Int.emod_nonneg k (b := (l.length : Int)) (by omega)
  have h2 := Int.emod_lt_of_pos k hN
  have h3 := Int.emod_nonneg (k + c) (b := (l.length : Int)) (by omega)
  have h4 := Int.emod_lt_of_pos (k + c) hN
  have e : ((k % l.length).toNat + c) % l.length = ((k + c) % l.length).toNat := by
    have : ((((k % l.length).toNat + c) % l.length : Nat) : Int) = (k + c) % l.length := by
      push_cast
      rw [Int.toNat_of_nonneg h1, Int.emod_add_emod]
    omega
  have a1 : (k % l.length).toNat < (l.rotate c).length := by rw [List.length_rotate]; omega
  have a2 : ((k + c) % l.length).toNat < l.length := by omega
  unfold cyc
  rw [List.length_rotate]
  simp only [List.getD, List.getElem?_eq_getElem a1, List.getElem?_eq_getElem a2, Option.getD_some, List.getElem_rotate, e]

theorem cyc_reverse {l : List Nat} (h0 : 0 < l.length) (k : Int) : cyc l.reverse k = cyc l (-1 - k) := by
  have hN : (0 : Int) < l.length := by omega
  have h1 := Int.emod_nonneg k (b := (l.length : Int)) (by omega)
  have h2 := Int.emod_lt_of_pos k hN
  have h8 : (-1 - k) % l.length = l.length - 1 - k % l.length := by
    have := Int.emod_add_mul_ediv k l.length
    have e2 : -1 - k = (l.length - 1 - k % l.length) + l.length * (-(k / l.length) - 1) := by
      have : (l.length : Int) * (-(k / l.length) - 1) = -(l.length * (k / l.length)) - l.length := by ring
      rw [this]; omega
    rw [e2, Int.add_mul_emod_self_left]
    exact Int.emod_eq_of_lt (by omega) (by omega)
  have a1 : (k % l.length).toNat < l.reverse.length := by rw [List.length_reverse]; omega
  have a2 : ((-1 - k) % l.length).toNat < l.length := by omega
  have e : l.length - 1 - (k % l.length).toNat = ((-1 - k) % l.length).toNat := by omega
  unfold cyc
  rw [List.length_reverse]
  simp only [List.getD, List.getElem?_eq_getElem a1, List.getElem?_eq_getElem a2, Option.getD_some, List.getElem_reverse, e]

theorem loop_range {l : List Nat} : loopSides l = (List.range l.length).map fun j : Nat => (cyc l j, cyc l (j + 1)) := by
  apply List.ext_getElem
  · simp [loopSides]
  · intro i h1 h2
    simp only [List.length_map, List.length_range] at h2
    simp only [loopSides, List.getElem_zip, List.getElem_rotate, List.getElem_map, List.getElem_range, Prod.mk.injEq]
    constructor
    · rw [cyc_nat h2]; simp [List.getD, h2]
    · have hm : (i + 1) % l.length < l.length := Nat.mod_lt _ (by omega)
      have e : (((i : Int) + 1) % l.length).toNat = (i + 1) % l.length := by
        have : (((i + 1) % l.length : Nat) : Int) = ((i : Int) + 1) % l.length := by push_cast; rfl
        omega
      unfold cyc
      simp only [e, List.getD, List.getElem?_eq_getElem hm, Option.getD_some]

theorem cyc_mod {l : List Nat} (k : Int) : cyc l (k % l.length) = cyc l k := by
  unfold cyc; rw [Int.emod_emod_of_dvd k (dvd_refl (l.length : Int))]

theorem mem_loop {l : List Nat} (h0 : 0 < l.length) {a b : Nat} : (a, b) ∈ loopSides l ↔ ∃ k : Int, a = cyc l k ∧ b = cyc l (k + 1) := by
  rw [loop_range, List.mem_map]
  constructor
  · rintro ⟨j, _, he⟩
    simp only [Prod.mk.injEq] at he
    exact ⟨j, he.1.symm, he.2.symm⟩
  · rintro ⟨k, rfl, rfl⟩
    have h1 := Int.emod_nonneg k (b := (l.length : Int)) (by omega)
    have h2 := Int.emod_lt_of_pos k (b := (l.length : Int)) (by omega)
    refine ⟨(k % l.length).toNat, List.mem_range.2 (by omega), ?_⟩
    rw [Int.toNat_of_nonneg h1, Prod.mk.injEq]
    refine ⟨cyc_mod k, ?_⟩
    unfold cyc
    rw [Int.emod_add_emod]

/-- Going around the other way, or starting elsewhere, joins the same entries. -/
theorem loop_same {l us : List Nat} (h0 : 0 < l.length) (h : l ~r us ∨ l.reverse ~r us) {a b : Nat} : ((a, b) ∈ loopSides us ∨ (b, a) ∈ loopSides us) ↔ ∃ k, (a = cyc l k ∧ b = cyc l (k + 1)) ∨ (a = cyc l (k + 1) ∧ b = cyc l k) := by
  rcases h with ⟨c, rfl⟩ | ⟨c, rfl⟩
  · rw [mem_loop (by simpa using h0), mem_loop (by simpa using h0)]
    simp only [cyc_rotate h0]
    constructor
    · rintro (⟨k, h1, h2⟩ | ⟨k, h1, h2⟩)
      · exact ⟨k + c, Or.inl ⟨h1, by rw [h2]; congr 1; ring⟩⟩
      · exact ⟨k + c, Or.inr ⟨by rw [h2]; congr 1; ring, h1⟩⟩
    · rintro ⟨k, ⟨h1, h2⟩ | ⟨h1, h2⟩⟩
      · exact Or.inl ⟨k - c, by rw [h1]; congr 1; ring, by rw [h2]; congr 1; ring⟩
      · exact Or.inr ⟨k - c, by rw [h2]; congr 1; ring, by rw [h1]; congr 1; ring⟩
  · have h0' : 0 < l.reverse.length := by simpa using h0
    rw [mem_loop (by simpa using h0), mem_loop (by simpa using h0)]
    simp only [cyc_rotate h0', cyc_reverse h0]
    constructor
    · rintro (⟨k, h1, h2⟩ | ⟨k, h1, h2⟩)
      · exact ⟨-2 - k - c, Or.inr ⟨by rw [h1]; congr 1; ring, by rw [h2]; congr 1; ring⟩⟩
      · exact ⟨-2 - k - c, Or.inl ⟨by rw [h2]; congr 1; ring, by rw [h1]; congr 1; ring⟩⟩
    · rintro ⟨k, ⟨h1, h2⟩ | ⟨h1, h2⟩⟩
      · exact Or.inr ⟨-2 - k - c, by rw [h2]; congr 1; ring, by rw [h1]; congr 1; ring⟩
      · exact Or.inl ⟨-2 - k - c, by rw [h1]; congr 1; ring, by rw [h2]; congr 1; ring⟩

theorem sidesOf_eq (us : List Nat) : sidesOf us = (loopSides us).map fun x => ((x.1 : Int), (x.2 : Int)) := by
  unfold sidesOf cyclicPairs loopSides
  rw [← List.map_rotate, List.zip_map]
  rfl

theorem loop_keys_nodup {us : List Nat} (hn : us.Nodup) (h3 : 3 ≤ us.length) : ((loopSides us).map fun x => ekey x.1 x.2).Nodup := by
  rw [loop_range, List.map_map]
  apply List.Nodup.map_on _ List.nodup_range
  intro x hx y hy hxy
  simp only [List.mem_range] at hx hy
  simp only [Function.comp_apply, ekey_eq, cyc_inj hn (show 0 < us.length by omega)] at hxy
  rcases hxy with ⟨h1, _⟩ | ⟨h1, h2⟩
  · have := dvd_small h1 (by omega) (by omega); omega
  · exfalso
    have := dvd_sub h2 h1
    rw [show (x : Int) + 1 - y - (x - (y + 1)) = 2 by ring] at this
    have := dvd_small this (by omega) (by omega)
    omega

/-- The index of a signed edge whose directed edge is known. -/
theorem directed_index {edges : List (Int × Int)} {s : Int} {x : Int × Int} (h : directed edges s = some x) : edges[index s]? = some x ∨ edges[index s]? = some (x.2, x.1) := by
  unfold directed at h
  unfold index
  split at h
  · rw [if_pos ‹_›]; exact Or.inl h
  · rw [if_neg ‹_›]
    obtain ⟨y, h1, h2⟩ := Option.map_eq_some_iff.1 h
    right; rw [h1, ← h2]; rfl

theorem countP_flatten_le {cells : List (List Int)} {P : Int → Bool} {x y : Nat} (h1 : ∀ p, (cells.getD p []).countP P ≤ 1) (h2 : ∀ p, 0 < (cells.getD p []).countP P → p = x ∨ p = y) : cells.flatten.countP P ≤ 2 := by
  rw [List.countP_flatten]
  have e : (cells.map (List.countP P)).sum = ∑ p ∈ Finset.range cells.length, (cells.getD p []).countP P := by
    rw [Finset.sum_range, ← List.sum_ofFn]
    congr 1
    apply List.ext_getElem
    · simp
    · intro i h1 h2; simp
  rw [e]
  calc ∑ p ∈ Finset.range cells.length, (cells.getD p []).countP P ≤ ∑ p ∈ Finset.range cells.length, ((if p = x then 1 else 0) + (if p = y then 1 else 0)) := by
        apply Finset.sum_le_sum
        intro p _
        have := h1 p
        by_cases hz : 0 < (cells.getD p []).countP P
        · rcases h2 p hz with h | h <;> rw [if_pos h] <;> omega
        · omega
    _ ≤ 2 := by
        rw [Finset.sum_add_distrib, Finset.sum_ite_eq', Finset.sum_ite_eq']
        split <;> split <;> omega

variable {T : List Tri3}

/-- Only two points have an edge in common with both triangles of an edge of a cell. -/
theorem across_two (hT : ∀ t ∈ T, Proper t) {p a b : Nat} {ts gs : List Nat} (hf : Fan T p ts gs) (h : Across T p a b) : ∃ g, ∀ p', Across T p' a b → p' = p ∨ p' = g := by
  have hI := hf.toI hT
  have h3 := hI.three
  have key : ∀ k, ∃ g, ∀ x, x ∈ cornersOf T (cyc ts k) → x ∈ cornersOf T (cyc ts (k + 1)) → x = p ∨ x = g := by
    intro k
    refine ⟨cyc gs (k + 1), fun x h1 h2 => ?_⟩
    rcases (hI.tri _ _).1 h1 with h1 | h1 | h1
    · exact Or.inl h1
    · rcases (hI.tri _ _).1 h2 with h2 | h2 | h2
      · exact Or.inl h2
      · exact Or.inr h2
      · exfalso
        rw [h1, hI.ginj] at h2
        have := dvd_small h2 (by omega) (by omega)
        omega
    · exact Or.inr h1
  obtain ⟨k, ⟨rfl, rfl⟩ | ⟨rfl, rfl⟩⟩ := (hI.across a b).1 h
  · obtain ⟨g, hg⟩ := key k
    exact ⟨g, fun p' ⟨_, _, _, h1, h2, _⟩ => hg p' h1 h2⟩
  · obtain ⟨g, hg⟩ := key k
    exact ⟨g, fun p' ⟨_, _, _, h1, h2, _⟩ => hg p' h2 h1⟩

theorem across_lt {p a b : Nat} (h : Across T p a b) : a < T.length ∧ b < T.length := by
  obtain ⟨_, g, _, h1, h2, _⟩ := h
  constructor
  · by_contra hc
    rw [cornersOf, List.getElem?_eq_none (by omega)] at h1; simp at h1
  · by_contra hc
    rw [cornersOf, List.getElem?_eq_none (by omega)] at h2; simp at h2

/-- From the numbering to the dual. -/
theorem dual_of_num (hT : ∀ t ∈ T, Proper t) {n : Nat} {c : TriC} {rings : List (List (Int × Int))} (hr : rings.length = n) (hN : Num c rings) (hF : ∀ q, q < n → ∃ ts gs, Fan T q ts gs)
    (hq : ∀ q, q < n → ∃ us, rings.getD q [] = sidesOf us ∧ EndsLow us ∧ ∀ ts gs, Fan T q ts gs → (ts ~r us ∨ ts.reverse ~r us)) : Dual T n c.edges c.cells := by
  have hcell : ∀ p, p < n → ∃ us ts gs, Fan T p ts gs ∧ (ts ~r us ∨ ts.reverse ~r us) ∧ (c.cells.getD p []).map (directed c.edges) = (loopSides us).map (fun x => some ((x.1 : Int), (x.2 : Int))) := by
    intro p hp
    obtain ⟨us, e, _, h1⟩ := hq p hp
    obtain ⟨ts, gs, hf⟩ := hF p hp
    refine ⟨us, ts, gs, hf, h1 ts gs hf, ?_⟩
    rw [hN.cells p (by omega), e, sidesOf_eq, List.map_map]; rfl
  have hsides : ∀ p, p < n → ∀ a b : Nat, (∃ s ∈ c.cells.getD p [], directed c.edges s = some ((a : Int), (b : Int)) ∨ directed c.edges s = some ((b : Int), (a : Int))) ↔ Across T p a b := by
    intro p hp a b
    obtain ⟨us, ts, gs, hf, hrot, hmap⟩ := hcell p hp
    have h3 := hf.three
    have hI := hf.toI hT
    rw [hI.across, ← loop_same (by omega) hrot]
    have hm : ∀ a b : Nat, (∃ s ∈ c.cells.getD p [], directed c.edges s = some ((a : Int), (b : Int))) ↔ (a, b) ∈ loopSides us := by
      intro a b
      have : (∃ s ∈ c.cells.getD p [], directed c.edges s = some ((a : Int), (b : Int))) ↔ some ((a : Int), (b : Int)) ∈ (c.cells.getD p []).map (directed c.edges) := by rw [List.mem_map]
      rw [this, hmap, List.mem_map]
      constructor
      · rintro ⟨⟨x, y⟩, hx, he⟩
        simp only [Option.some.injEq, Prod.mk.injEq, Nat.cast_inj] at he
        rw [← he.1, ← he.2]; exact hx
      · intro h; exact ⟨(a, b), h, rfl⟩
    rw [← hm, ← hm]
    constructor
    · rintro ⟨s, hs, h | h⟩
      · exact Or.inl ⟨s, hs, h⟩
      · exact Or.inr ⟨s, hs, h⟩
    · rintro (⟨s, hs, h⟩ | ⟨s, hs, h⟩)
      · exact ⟨s, hs, Or.inl h⟩
      · exact ⟨s, hs, Or.inr h⟩
  have hnodup : c.edges.Nodup := by rw [← hN.fsts]; exact hN.numbers.nodup
  have honce : ∀ p, p < n → ((c.cells.getD p []).map index).Nodup := by
    intro p hp
    obtain ⟨us, ts, gs, hf, hrot, hmap⟩ := hcell p hp
    have h3 := hf.three
    have hus : us.length = ts.length ∧ us.Nodup := by
      rcases hrot with hr | hr
      · exact ⟨hr.perm.length_eq.symm, hr.perm.nodup_iff.1 hf.once⟩
      · exact ⟨by rw [← hr.perm.length_eq]; simp, hr.perm.nodup_iff.1 (List.nodup_reverse.2 hf.once)⟩
    apply List.Nodup.of_map (fun i : Nat => c.edges[i]?)
    have : ((c.cells.getD p []).map index).map (fun i : Nat => c.edges[i]?) = ((loopSides us).map fun x => ekey x.1 x.2).map some := by
      apply List.ext_getElem
      · have := congrArg List.length hmap
        simpa using this
      · intro i h1 h2
        simp only [List.length_map] at h1 h2
        simp only [List.getElem_map]
        have hd : directed c.edges (c.cells.getD p [])[i] = some (((loopSides us)[i].1 : Int), ((loopSides us)[i].2 : Int)) := by
          have := congrArg (fun l => l[i]?) hmap
          simp only [List.getElem?_map, List.getElem?_eq_getElem h1, List.getElem?_eq_getElem h2, Option.map_some, Option.some.injEq] at this
          exact this
        rcases directed_index hd with h | h
        · have := (hN.ends _ (List.mem_of_getElem? h)).1
          rw [h]
          unfold ekey
          dsimp only at this
          rw [if_pos this]
        · have := (hN.ends _ (List.mem_of_getElem? h)).1
          rw [h]
          unfold ekey
          dsimp only at this
          rw [if_neg (by omega)]
    rw [this]
    exact (loop_keys_nodup hus.2 (by omega)).map (fun a b h => Option.some.inj h)
  have hends : ∀ e ∈ c.edges, ∃ a b : Nat, e = ((a : Int), (b : Int)) ∧ ∃ p, p < n ∧ Across T p a b := by
    intro e he
    obtain ⟨_, r, hr', hin⟩ := hN.ends e he
    obtain ⟨p, hp, rfl⟩ := List.getElem_of_mem hr'
    have hp' : p < n := by omega
    obtain ⟨us, e1, _, hrot⟩ := hq p hp'
    obtain ⟨ts, gs, hf⟩ := hF p hp'
    have h3 := hf.three
    have e2 : rings[p] = sidesOf us := by rw [← e1]; simp [List.getD, hp]
    rw [e2, sidesOf_eq] at hin
    have hac : ∀ {a b : Nat}, ((a, b) ∈ loopSides us ∨ (b, a) ∈ loopSides us) → Across T p a b := by
      intro a b h
      exact ((hf.toI hT).across a b).2 ((loop_same (by omega) (hrot ts gs hf)).1 h)
    rcases hin with h | h
    · obtain ⟨⟨a, b⟩, hx, hy⟩ := List.mem_map.1 h
      exact ⟨a, b, hy.symm, p, hp', hac (Or.inl hx)⟩
    · obtain ⟨⟨a, b⟩, hx, hy⟩ := List.mem_map.1 h
      simp only [Prod.mk.injEq] at hy
      exact ⟨b, a, Prod.ext hy.2.symm hy.1.symm, p, hp', hac (Or.inr hx)⟩
  refine ⟨by rw [hN.len, hr], ?_, hsides, hnodup, ?_, ?_, honce⟩
  · intro p hp ts gs hf
    obtain ⟨us, e, hlow, h1⟩ := hq p hp
    refine ⟨us, h1 ts gs hf, hlow, ?_⟩
    rw [hN.cells p (by omega), e, sidesOf_eq, List.map_map]; rfl
  · intro e he
    obtain ⟨a, b, rfl, p, hp, hac⟩ := hends e he
    have := across_lt hac
    have := (hN.ends _ he).1
    dsimp only at this ⊢
    omega
  · intro f hfl
    obtain ⟨a, b, he, p, hp, hac⟩ := hends _ (List.getElem_mem hfl)
    have hget : c.edges[f]? = some ((a : Int), (b : Int)) := by rw [List.getElem?_eq_getElem hfl, he]
    have hlt : (a : Int) < b := by have := (hN.ends _ (List.getElem_mem hfl)).1; rw [he] at this; exact this
    have hidx : ∀ s, (directed c.edges s = some ((a : Int), (b : Int)) ∨ directed c.edges s = some ((b : Int), (a : Int))) → index s = f := by
      intro s hs
      have huniq : ∀ j : Nat, c.edges[j]? = some ((a : Int), (b : Int)) → j = f := by
        intro j hj
        have hjl := (List.getElem?_eq_some_iff.1 hj).1
        have : c.edges[j] = c.edges[f] := by
          rw [List.getElem?_eq_getElem hjl] at hj
          rw [he]; exact Option.some.inj hj
        exact (hnodup.getElem_inj_iff).1 this
      have hno : ∀ j : Nat, c.edges[j]? ≠ some ((b : Int), (a : Int)) := by
        intro j hj
        have := (hN.ends _ (List.mem_of_getElem? hj)).1
        dsimp only at this; omega
      rcases hs with hs | hs
      · rcases directed_index hs with h | h
        · exact huniq _ h
        · exact absurd h (hno _)
      · rcases directed_index hs with h | h
        · exact absurd h (hno _)
        · exact huniq _ h
    constructor
    · obtain ⟨s, hs, hd⟩ := (hsides p hp a b).2 hac
      rw [Nat.one_le_iff_ne_zero, ← Nat.pos_iff_ne_zero, List.countP_pos_iff]
      refine ⟨s, List.mem_flatten.2 ⟨c.cells.getD p [], ?_, hs⟩, by simp [hidx s hd]⟩
      have : p < c.cells.length := by rw [hN.len, hr]; exact hp
      simp [List.getD, this]
    · obtain ⟨ts, gs, hf⟩ := hF p hp
      obtain ⟨g, hg⟩ := across_two hT hf hac
      refine countP_flatten_le (x := p) (y := g) ?_ ?_
      · intro p'
        by_cases hp' : p' < n
        · have : (c.cells.getD p' []).countP (fun s => decide (index s = f)) = ((c.cells.getD p' []).map index).count f := by
            rw [List.count, List.countP_map]
            apply List.countP_congr
            intro s _; simp
          rw [this]
          exact List.nodup_iff_count_le_one.1 (honce p' hp') f
        · have : c.cells.getD p' [] = [] := by
            have : c.cells.length ≤ p' := by rw [hN.len, hr]; omega
            simp [List.getD, this]
          rw [this]; simp
      · intro p' hpos
        rw [List.countP_pos_iff] at hpos
        obtain ⟨s, hs, hsf⟩ := hpos
        have hsf : index s = f := by simpa using hsf
        have hp' : p' < n := by
          by_contra hc
          have : c.cells.getD p' [] = [] := by
            have : c.cells.length ≤ p' := by rw [hN.len, hr]; omega
            simp [List.getD, this]
          rw [this] at hs; simp at hs
        apply hg
        rw [← hsides p' hp']
        obtain ⟨us, ts, gs, hf, hrot, hmap⟩ := hcell p' hp'
        have : directed c.edges s ∈ (c.cells.getD p' []).map (directed c.edges) := List.mem_map_of_mem hs
        rw [hmap] at this
        obtain ⟨x, _, hx⟩ := List.mem_map.1 this
        refine ⟨s, hs, ?_⟩
        rcases directed_index hx.symm with h | h
        · rw [hsf, hget] at h; left; rw [← hx, h]
        · rw [hsf, hget] at h; right; rw [← hx]
          simp only [Option.some.injEq, Prod.mk.injEq] at h ⊢
          exact ⟨h.2.symm, h.1.symm⟩

theorem contract_ok {total len i : Nat} {K : List Nat} {C : List P2} {s : TriS} (h : Tab total len i K T C s) (hil : i ≤ len) (hT : ∀ t ∈ T, Proper t) (h2 : TwoPerEdge T) {n : Nat} (hn : n ≤ total)
    (hF : ∀ q, q < n → ∃ ts gs, Fan T q ts gs) : triContract n s = true := by
  unfold triContract
  rw [Bool.and_eq_true, List.all_eq_true, List.all_eq_true]
  constructor
  · rintro ⟨t, id⟩ hmem
    obtain ⟨j, hj, he⟩ := List.getElem_of_mem hmem
    rw [List.getElem_zip, Prod.mk.injEq] at he
    have hj2 : j < s.tri2id.length := by rw [List.length_zip] at hj; omega
    by_cases hneg : id < 0
    · simp [hneg]
    have hid : s.tri2id[j]? = some id := by rw [List.getElem?_eq_getElem hj2, he.2]
    have hjK : j ∈ K := by
      by_contra hc
      rw [h.noid j (by rw [← h.idlen]; exact hj2) hc] at hid
      injection hid with hid; omega
    obtain ⟨k, hk, hkj⟩ := List.getElem_of_mem hjK
    have hkT : k < T.length := by rw [← h.lenK]; exact hk
    have hKk : K.getD k 0 = j := by simp [List.getD, hk, hkj]
    have ht : T[k]? = some t := by
      have := h.gens k _ (List.getElem?_eq_getElem hkT)
      rw [hKk, List.getElem?_eq_getElem (by rw [h.genslen, ← h.idlen]; exact hj2), he.1] at this
      injection this with this
      rw [List.getElem?_eq_getElem hkT, this]
    have hp := hT t (List.mem_of_getElem? ht)
    rw [Bool.or_eq_true]; right
    rw [List.all_eq_true]
    intro e he
    rw [h.dedge, List.length_map, decide_eq_true_eq]
    have hkin : k ∈ inc T fun t => decide (e ∈ ekeys t) := mem_inc.2 ⟨t, ht, by simpa using he⟩
    have hpos : 0 < (inc T fun t => decide (e ∈ ekeys t)).length := List.length_pos_of_mem hkin
    obtain ⟨a, b, hab, rfl⟩ : ∃ a b, a ≠ b ∧ e = ekey a b := by
      simp only [ekeys, List.mem_cons, List.not_mem_nil, or_false] at he
      obtain ⟨h1, h2, h3⟩ := hp
      rcases he with he | he | he
      · exact ⟨_, _, h1, he⟩
      · exact ⟨_, _, h2, he⟩
      · exact ⟨_, _, h3, he⟩
    have hin : ∀ x ∈ inc T fun t => decide (ekey a b ∈ ekeys t), a ∈ cornersOf T x ∧ b ∈ cornersOf T x := by
      intro x hx
      obtain ⟨u, hu, hk⟩ := mem_inc.1 hx
      unfold cornersOf
      rw [hu]
      exact (mem_ekeys hab).1 (by simpa using hk)
    have hlt := inc_sorted T fun t => decide (ekey a b ∈ ekeys t)
    revert hin hlt hpos
    generalize inc T (fun t => decide (ekey a b ∈ ekeys t)) = l
    intro hpos hin hlt
    match l, hpos, hin, hlt with
    | [_], _, _, _ => simp
    | [_, _], _, _, _ => simp
    | x :: y :: z :: l, _, hin, hlt =>
      exfalso
      have := h2 a b x y z hab (hin x (by simp)) (hin y (by simp)) (hin z (by simp))
      simp only [List.pairwise_cons, List.mem_cons, forall_eq_or_imp] at hlt
      omega
  · intro q hq
    have hq := List.mem_range.1 hq
    obtain ⟨ts, gs, hf⟩ := hF q hq
    rw [decide_eq_true_eq, h.gen q (by omega), List.length_map]
    have hsub : ts ⊆ inc T fun t => decide (q ∈ corners t) := by
      intro k hk
      exact mem_gen.2 ((hf.all k).1 hk)
    have := (List.subperm_of_subset hf.once hsub).length_le
    have := hf.three
    omega

/-- Reading the cells out of the triangles that are kept. -/
theorem read_spec (dbg : Bool) {centre : Tri3 → Res (Option P2)} {cf : Tri3 → Option P2} {n total : Nat} {tris : List Tri3} (hn : n ≤ total) (hc : ∀ t ∈ tris, centre t = .ok (cf t))
    (hp : ∀ t ∈ tris, (cf t).isSome → Proper t ∧ ∀ g ∈ corners t, g < total) (h2 : dbg = true → TwoPerEdge ((kept cf tris).map Prod.fst))
    (hF : ∀ q, q < n → ∃ ts gs, Fan ((kept cf tris).map Prod.fst) q ts gs) :
    ∃ edges cells, triRead dbg centre n total tris = .ok ((kept cf tris).map Prod.snd, edges, cells) ∧ Dual ((kept cf tris).map Prod.fst) n edges cells := by
  obtain ⟨K, s, e, hTab⟩ := scan_spec dbg (centre := centre) (cf := cf) (total := total) (len := tris.length) tris 0 (tab_start total tris.length) (by omega) hc hp
  rw [List.nil_append, List.nil_append] at hTab
  have hT : ∀ t ∈ (kept cf tris).map Prod.fst, Proper t := by
    intro t ht
    obtain ⟨⟨t', c⟩, h1, rfl⟩ := List.mem_map.1 ht
    unfold kept at h1
    obtain ⟨t, htm, h1⟩ := List.mem_filterMap.1 h1
    obtain ⟨c', hc', h3⟩ := Option.map_eq_some_iff.1 h1
    simp only [Prod.mk.injEq] at h3
    obtain ⟨rfl, rfl⟩ := h3
    exact (hp t htm (by simp [hc'])).1
  have hN0 : Num { cells := List.replicate n [] } (List.replicate n []) := by
    refine ⟨by simp, ?_, ⟨by simp, by simp, by simp⟩, rfl, by simp⟩
    intro q hq
    simp at hq
    simp [List.getD, hq]
  obtain ⟨c, rings, e2, hr, hN, _, hq⟩ := cells_spec dbg hTab hT hn n 0 (Nat.zero_add n) (by simp) hN0 (by intro q _ hq; simp [List.getD, hq]) (fun q _ hq => hF q hq)
  refine ⟨c.edges, c.cells, ?_, dual_of_num hT hr hN hF fun q hqn => hq q (by omega) hqn⟩
  have hcontract : Res.assert dbg (triContract n s = true) = .ok () := by
    cases dbg with
    | false => rfl
    | true => exact Res.assert_true true (contract_ok hTab (by omega) hT (h2 rfl) hn hF)
  unfold triRead
  rw [e, Res.ok_bind, hcontract, Res.ok_bind, e2, Res.ok_bind, hTab.nodes]
  rfl
end Verif.Tri
