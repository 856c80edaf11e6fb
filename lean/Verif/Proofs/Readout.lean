import Verif.Model.Readout
import Verif.Spec.Readout
import Verif.Proofs.Internal
import Verif.Proofs.IntPointMapHistory
import Verif.Proofs.Polygon
import Mathlib.Tactic.Common
/- The numbering loop shared by the tessellators. -/
namespace Verif.Readout
open Verif Verif.Mesh Verif.Internal Verif.PointMap

/-- The id of a position: the first node that matches it. -/
def idOf (R : P2 → P2 → Bool) (nodes : List P2) (p : P2) : Nat := nodes.findIdx (R p)

theorem addKey_list {κ : Type} [DecidableEq κ] {m : KMap κ} {ks : List κ} (h : Numbers m ks) (hm : m.map Prod.fst = ks) (k : κ) :
    (((addKey k m).1 = m.length ∧ k ∉ ks ∧ Numbers (addKey k m).2 (ks ++ [k]) ∧ (addKey k m).2.map Prod.fst = ks ++ [k]) ∨
      ((addKey k m).1 < m.length ∧ (addKey k m).2 = m ∧ ks[(addKey k m).1]? = some k)) := by
  have hs := addKey_spec h k
  unfold addKey at *
  cases hl : m.lookup k with
  | none =>
    rw [hl] at hs
    left
    refine ⟨rfl, ?_, hs.1, ?_⟩
    · rw [← hm]; exact lookup_eq_none_iff'.1 hl
    · simp [hm]
  | some v =>
    right
    have hmem := (lookup_eq_some_iff' h.nodup).1 hl
    obtain ⟨i, hi, he⟩ := List.getElem_of_mem hmem
    have hv : v = i := by
      have h1 : (m.map Prod.snd)[i]? = some v := by simp [hi, he]
      rw [h.ids] at h1
      simp [hi] at h1
      omega
    subst hv
    refine ⟨hi, rfl, ?_⟩
    rw [← hm]; simp [hi, he]

/-- What is required of a node map. `I` relates it to the nodes it holds; `bad` is what makes the debug build stop. -/
structure Looks {σ : Type} (look : Look σ) (R : P2 → P2 → Bool) (I : σ → List P2 → Prop) (bad : P2 → List P2 → Prop) : Prop where
  refl : ∀ p, R p p = true
  ans : ∀ m nodes p, I m nodes →
    (∃ m', look m nodes.length p = .ok (nodes.length, true, m') ∧ I m' (nodes ++ [p]) ∧ ∀ q ∈ nodes, R p q = false) ∨
    (∃ j m', look m nodes.length p = .ok (j, false, m') ∧ I m' nodes ∧ j < nodes.length ∧ nodes.findIdx (R p) = j) ∨
    (look m nodes.length p = .abort ∧ bad p nodes)

theorem findIdx_new {R : P2 → P2 → Bool} (hr : ∀ p, R p p = true) {p : P2} {nodes : List P2} (h : ∀ q ∈ nodes, R p q = false) : (nodes ++ [p]).findIdx (R p) = nodes.length := by
  rw [List.findIdx_append]
  have : nodes.findIdx (R p) = nodes.length := List.findIdx_eq_length.mpr (by simpa using h)
  simp [this, hr]

theorem findIdx_keep {R : P2 → P2 → Bool} {p : P2} {nodes l : List P2} (h : nodes.findIdx (R p) < nodes.length) : (nodes ++ l).findIdx (R p) = nodes.findIdx (R p) := by
  rw [List.findIdx_append, if_pos h]

/-- The state after some vertices and edges: `sides` are all sides so far, `rings` those of each cell now. -/
structure Inv {σ : Type} (R : P2 → P2 → Bool) (I : σ → List P2 → Prop) (s : RO σ) (sides : List (P2 × P2)) (rings : List (List (P2 × P2))) : Prop where
  map : I s.map s.nodes
  apart : s.nodes.Pairwise fun q p => R p q = false
  nodes_from : ∀ q ∈ s.nodes, ∃ t ∈ sides, q = t.1 ∨ q = t.2
  found : ∀ t ∈ sides, s.nodes.findIdx (R t.1) < s.nodes.length ∧ s.nodes.findIdx (R t.2) < s.nodes.length
  numbers : Numbers s.emap s.edges
  emap : s.emap.map Prod.fst = s.edges
  edges_from : ∀ e ∈ s.edges, ∃ t ∈ sides, idOf R s.nodes t.1 ≠ idOf R s.nodes t.2 ∧
    e = (((min (idOf R s.nodes t.1) (idOf R s.nodes t.2) : Nat) : Int), ((max (idOf R s.nodes t.1) (idOf R s.nodes t.2) : Nat) : Int))
  rings_sub : ∀ r ∈ rings, ∀ t ∈ r, t ∈ sides
  cells_len : s.cells.length = rings.length
  cells : ∀ (i : Nat) (c : List Int) (r : List (P2 × P2)), s.cells[i]? = some c → rings[i]? = some r →
    c.map (directed s.edges) = ((r.map fun t => (((idOf R s.nodes t.1 : Nat) : Int), ((idOf R s.nodes t.2 : Nat) : Int))).filter fun t => decide (t.1 ≠ t.2)).map some

theorem directed_keep {edges l : List (Int × Int)} {k : Int} {x : Int × Int} (h : directed edges k = some x) : directed (edges ++ l) k = some x := by
  unfold directed at *
  split
  · rw [if_pos ‹_›] at h
    have := (List.getElem?_eq_some_iff.mp h).1
    rw [List.getElem?_append_left this]; exact h
  · rw [if_neg ‹_›] at h
    obtain ⟨y, h1, h2⟩ := Option.map_eq_some_iff.mp h
    have := (List.getElem?_eq_some_iff.mp h1).1
    rw [List.getElem?_append_left this, h1]; simp [h2]

/-- Two lists of nodes, one an extension of the other, give the same ids to what was found in the first. -/
theorem roVertex_spec {σ : Type} {look : Look σ} {R : P2 → P2 → Bool} {I : σ → List P2 → Prop} {bad : P2 → List P2 → Prop} (hL : Looks look R I bad) {s : RO σ} (hI : I s.map s.nodes) (p : P2) :
    (∃ j m' l, roVertex look p s = .ok (j, { s with map := m', nodes := s.nodes ++ l }) ∧ I m' (s.nodes ++ l) ∧ j = idOf R (s.nodes ++ l) p ∧ j < (s.nodes ++ l).length ∧
      (l = [] ∨ (l = [p] ∧ ∀ q ∈ s.nodes, R p q = false))) ∨ (roVertex look p s = .abort ∧ bad p s.nodes) := by
  unfold roVertex
  rcases hL.ans s.map s.nodes p hI with ⟨m', e, h1, h2⟩ | ⟨j, m', e, h1, h2, h3⟩ | ⟨e, h⟩
  · left
    refine ⟨s.nodes.length, m', [p], by rw [e]; rfl, h1, (findIdx_new hL.refl h2).symm, by simp, Or.inr ⟨rfl, h2⟩⟩
  · left
    refine ⟨j, m', [], by rw [e]; simp, by simpa using h1, by simp [idOf, h3], by simpa using h2, Or.inl rfl⟩
  · right
    exact ⟨by rw [e]; rfl, h⟩

/-- What the debug build stops at: a vertex matched ambiguously by nodes made of earlier vertices. -/
def Bad {σ : Type} (bad : P2 → List P2 → Prop) (R : P2 → P2 → Bool) (s : RO σ) (sides : List (P2 × P2)) : Prop :=
  ∃ p nodes, bad p nodes ∧ (nodes.Pairwise fun q p => R p q = false) ∧ (∀ q ∈ nodes, q ∈ s.nodes ∨ ∃ t ∈ sides, q = t.1 ∨ q = t.2) ∧ ∃ t ∈ sides, p = t.1 ∨ p = t.2

theorem apart_append {R : P2 → P2 → Bool} {nodes l : List P2} {p : P2} (h : nodes.Pairwise fun q p => R p q = false) (hl : l = [] ∨ (l = [p] ∧ ∀ q ∈ nodes, R p q = false)) :
    (nodes ++ l).Pairwise fun q p => R p q = false := by
  rcases hl with rfl | ⟨rfl, hl⟩
  · simpa using h
  · rw [List.pairwise_append]
    refine ⟨h, by simp, fun q hq x hx => ?_⟩
    simp only [List.mem_singleton] at hx; subst hx; exact hl q hq

theorem roEdge_spec {σ : Type} (dbg : Bool) {look : Look σ} {R : P2 → P2 → Bool} {I : σ → List P2 → Prop} {bad : P2 → List P2 → Prop} (hL : Looks look R I bad)
    {s : RO σ} {sides : List (P2 × P2)} {rings : List (List (P2 × P2))} (h : Inv R I s sides rings) {i : Nat} {r : List (P2 × P2)} (hi : rings[i]? = some r) (p0 p1 : P2) :
    (∃ s', roEdge dbg look i p0 p1 s = .ok s' ∧ Inv R I s' (sides ++ [(p0, p1)]) (rings.set i (r ++ [(p0, p1)]))) ∨
    (roEdge dbg look i p0 p1 s = .abort ∧ Bad bad R s [(p0, p1)]) := by
  unfold roEdge
  rcases roVertex_spec hL h.map p0 with ⟨j0, m0, l0, e0, I0, hj0, lt0, hl0⟩ | ⟨e, hb⟩
  rotate_left
  · right
    exact ⟨by rw [e]; rfl, p0, s.nodes, hb, h.apart, fun q hq => Or.inl hq, (p0, p1), by simp, Or.inl rfl⟩
  rw [e0, Res.ok_bind]
  have ap0 := apart_append h.apart hl0
  rcases roVertex_spec hL (s := { s with map := m0, nodes := s.nodes ++ l0 }) I0 p1 with ⟨j1, m1, l1, e1, I1, hj1, lt1, hl1⟩ | ⟨e, hb⟩
  rotate_left
  · right
    refine ⟨by rw [e]; rfl, p1, s.nodes ++ l0, hb, ap0, fun q hq => ?_, (p0, p1), by simp, Or.inr rfl⟩
    rcases List.mem_append.mp hq with hq | hq
    · exact Or.inl hq
    · rcases hl0 with rfl | ⟨rfl, _⟩
      · simp at hq
      · right; exact ⟨(p0, p1), by simp, Or.inl (by simpa using hq)⟩
  left
  dsimp only at I1 hj1 lt1 hl1 e1
  rw [e1, Res.ok_bind]
  dsimp only
  have ap1 := apart_append ap0 hl1
  set N := s.nodes ++ l0 ++ l1 with hN
  have hNl : N = s.nodes ++ (l0 ++ l1) := by rw [hN, List.append_assoc]
  have keep : ∀ p, s.nodes.findIdx (R p) < s.nodes.length → idOf R N p = idOf R s.nodes p := by
    intro p hp; unfold idOf; rw [hNl]; exact findIdx_keep hp
  have hj0' : j0 = idOf R N p0 := by
    rw [hj0]; unfold idOf; rw [hN]; refine (findIdx_keep ?_).symm
    unfold idOf at hj0; rw [← hj0]; exact lt0
  have lt0' : j0 < N.length := by rw [hN, List.length_append]; omega
  have nodes_from : ∀ q ∈ N, ∃ t ∈ sides ++ [(p0, p1)], q = t.1 ∨ q = t.2 := by
    intro q hq
    rcases List.mem_append.mp hq with hq | hq
    · rcases List.mem_append.mp hq with hq | hq
      · obtain ⟨t, ht, h⟩ := h.nodes_from q hq; exact ⟨t, by simp [ht], h⟩
      · rcases hl0 with rfl | ⟨rfl, _⟩
        · simp at hq
        · exact ⟨(p0, p1), by simp, Or.inl (by simpa using hq)⟩
    · rcases hl1 with rfl | ⟨rfl, _⟩
      · simp at hq
      · exact ⟨(p0, p1), by simp, Or.inr (by simpa using hq)⟩
  have found : ∀ t ∈ sides ++ [(p0, p1)], N.findIdx (R t.1) < N.length ∧ N.findIdx (R t.2) < N.length := by
    intro t ht
    rcases List.mem_append.mp ht with ht | ht
    · have := h.found t ht
      have k1 := keep t.1 this.1
      have k2 := keep t.2 this.2
      unfold idOf at k1 k2
      rw [k1, k2, hNl, List.length_append]; omega
    · simp only [List.mem_singleton] at ht; subst ht
      unfold idOf at hj0' hj1
      exact ⟨by rw [← hj0']; exact lt0', by rw [← hj1]; exact lt1⟩
  have rsub : ∀ r' ∈ rings.set i (r ++ [(p0, p1)]), ∀ t ∈ r', t ∈ sides ++ [(p0, p1)] := by
    intro r' hr' t ht
    rcases List.mem_or_eq_of_mem_set hr' with hr' | rfl
    · exact List.mem_append_left _ (h.rings_sub r' hr' t ht)
    · rcases List.mem_append.mp ht with ht | ht
      · exact List.mem_append_left _ (h.rings_sub r (List.mem_of_getElem? hi) t ht)
      · exact List.mem_append_right _ ht
  have efrom : ∀ e ∈ s.edges, ∃ t ∈ sides ++ [(p0, p1)], idOf R N t.1 ≠ idOf R N t.2 ∧
      e = (((min (idOf R N t.1) (idOf R N t.2) : Nat) : Int), ((max (idOf R N t.1) (idOf R N t.2) : Nat) : Int)) := by
    intro e he
    obtain ⟨t, ht, h1, h2⟩ := h.edges_from e he
    have f := h.found t ht
    refine ⟨t, by simp [ht], ?_, ?_⟩
    · rw [keep _ f.1, keep _ f.2]; exact h1
    · rw [keep _ f.1, keep _ f.2]; exact h2
  have mapkeep : ∀ r' ∈ rings, (r'.map fun t => (((idOf R N t.1 : Nat) : Int), ((idOf R N t.2 : Nat) : Int))) = r'.map fun t => (((idOf R s.nodes t.1 : Nat) : Int), ((idOf R s.nodes t.2 : Nat) : Int)) := by
    intro r' hr'
    apply List.map_congr_left
    intro t ht
    have f := h.found t (h.rings_sub r' hr' t ht)
    rw [keep _ f.1, keep _ f.2]
  have hil : i < rings.length := (List.getElem?_eq_some_iff.mp hi).1
  have hil' : i < s.cells.length := by rw [h.cells_len]; exact hil
  have hci : s.cells[i]? = some s.cells[i] := List.getElem?_eq_getElem hil'
  by_cases hj : j0 = j1
  · rw [if_pos hj]
    refine ⟨_, rfl, I1, ap1, nodes_from, found, h.numbers, h.emap, efrom, rsub, by simp [h.cells_len], ?_⟩
    intro k c r' hc hr'
    dsimp only at hc ⊢
    by_cases hk : i = k
    · subst hk
      rw [List.getElem?_set_self hil] at hr'
      injection hr' with hr'; subst hr'
      rw [h.cells i c r hc hi, List.map_append, List.filter_append, mapkeep r (List.mem_of_getElem? hi)]
      simp [← hj0', ← hj1, hj]
    · rw [List.getElem?_set_ne hk] at hr'
      rw [h.cells k c r' hc hr', mapkeep r' (List.mem_of_getElem? hr')]
  · rw [if_neg hj]
    have hje : (j0 : Int) ≠ j1 := by omega
    unfold hashEdge
    rw [Res.assert_true dbg hje, Res.ok_bind]
    simp only [Res.pure_eq, Res.ok_bind]
    set e : Int × Int := if (j0 : Int) < j1 then ((j0 : Int), (j1 : Int)) else ((j1 : Int), (j0 : Int)) with he
    have he' : e = (((min j0 j1 : Nat) : Int), ((max j0 j1 : Nat) : Int)) := by
      rw [he]; split
      · rw [Nat.min_eq_left (by omega), Nat.max_eq_right (by omega)]
      · rw [Nat.min_eq_right (by omega), Nat.max_eq_left (by omega)]
    have hcase : (e.1 = (j0 : Int) ∧ e.2 = (j1 : Int)) ∨ (e.1 = (j1 : Int) ∧ e.2 = (j0 : Int)) := by
      rw [he]; split
      · exact Or.inl ⟨rfl, rfl⟩
      · exact Or.inr ⟨rfl, rfl⟩
    rw [Res.assert_true dbg hcase, Res.ok_bind]
    have hlen : s.emap.length = s.edges.length := by rw [← h.emap]; simp
    -- the edge list after the insertion
    obtain ⟨E, hE, num', em', hget⟩ : ∃ E, (if (addKey e s.emap).1 = s.emap.length then s.edges ++ [e] else s.edges) = E ∧ Numbers (addKey e s.emap).2 E ∧ (addKey e s.emap).2.map Prod.fst = E ∧ E[(addKey e s.emap).1]? = some e := by
      rcases addKey_list h.numbers h.emap e with ⟨a1, a2, a3, a4⟩ | ⟨a1, a2, a3⟩
      · exact ⟨_, if_pos a1, a3, a4, by rw [a1, hlen]; simp⟩
      · exact ⟨_, if_neg (by omega), by rw [a2]; exact h.numbers, by rw [a2]; exact h.emap, a3⟩
    have hEpre : ∃ l, E = s.edges ++ l ∧ ∀ x ∈ l, x = e := by
      rw [← hE]; split
      · exact ⟨[e], rfl, by simp⟩
      · exact ⟨[], by simp, by simp⟩
    obtain ⟨l, hl, hle⟩ := hEpre
    set k0 := (addKey e s.emap).1 with hk0
    rw [Res.assert_true dbg (by omega), Res.ok_bind, rd_lt hil', Res.ok_bind, wr_lt hil', Res.ok_bind, hE]
    refine ⟨_, rfl, I1, ap1, nodes_from, found, num', em', ?_, rsub, by simp [h.cells_len], ?_⟩
    · intro x hx
      dsimp only at hx ⊢
      rw [hl] at hx
      rcases List.mem_append.mp hx with hx | hx
      · exact efrom x hx
      · rw [hle x hx]
        refine ⟨(p0, p1), by simp, ?_, ?_⟩
        · rw [← hj0', ← hj1]; exact hj
        · rw [← hj0', ← hj1]; exact he'
    · intro k c r' hc hr'
      dsimp only at hc ⊢
      have old : ∀ (k : Nat) (c : List Int) (r' : List (P2 × P2)), s.cells[k]? = some c → rings[k]? = some r' → c.map (directed E) = ((r'.map fun t => (((idOf R N t.1 : Nat) : Int), ((idOf R N t.2 : Nat) : Int))).filter fun t => decide (t.1 ≠ t.2)).map some := by
        intro k c r' hc hr'
        rw [mapkeep r' (List.mem_of_getElem? hr'), ← h.cells k c r' hc hr']
        apply List.map_congr_left
        intro x hx
        have hm : directed s.edges x ∈ c.map (directed s.edges) := List.mem_map_of_mem hx
        rw [h.cells k c r' hc hr'] at hm
        obtain ⟨y, _, hy⟩ := List.mem_map.mp hm
        rw [← hy, hl]
        exact directed_keep hy.symm
      by_cases hk : i = k
      · subst hk
        rw [List.getElem?_set_self hil] at hr'
        rw [List.getElem?_set_self hil'] at hc
        injection hr' with hr'; subst hr'
        injection hc with hc; subst hc
        rw [List.map_append, old i _ r hci hi, List.map_append, List.filter_append, List.map_append]
        congr 1
        have hf : decide ((((idOf R N p0 : Nat) : Int), ((idOf R N p1 : Nat) : Int)).1 ≠ (((idOf R N p0 : Nat) : Int), ((idOf R N p1 : Nat) : Int)).2) = true := by
          rw [← hj0', ← hj1]; simpa using hj
        simp only [List.map_cons, List.map_nil, List.filter_cons, List.filter_nil, hf, if_true]
        rw [← hj0', ← hj1]
        congr 1
        by_cases hlt : (j0 : Int) < j1
        · have e1 : e = ((j0 : Int), (j1 : Int)) := by rw [he, if_pos hlt]
          rw [if_pos (by rw [e1])]
          unfold directed
          rw [if_pos (by omega), Int.toNat_natCast, hget, e1]
        · have e1 : e = ((j1 : Int), (j0 : Int)) := by rw [he, if_neg hlt]
          rw [if_neg (by rw [e1]; dsimp only; omega)]
          unfold directed
          rw [if_neg (by unfold flip; omega)]
          have : (-(flip (k0 : Int)) - 1).toNat = k0 := by unfold flip; omega
          rw [this, hget, e1]; rfl
      · rw [List.getElem?_set_ne hk] at hr' hc
        exact old k c r' hc hr'
end Verif.Readout
