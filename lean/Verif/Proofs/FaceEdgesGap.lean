import Verif.Proofs.FaceEdges
import Mathlib.Data.List.Sort
namespace Verif.Internal
open Verif

namespace IsChain
variable {edges : List Edge} {node : Nat → Int} {order : Nat → Nat}

theorem olt (h : IsChain edges node order) {k : Nat} (hk : k < edges.length) : order k < edges.length := by
  obtain ⟨e, he, _⟩ := h.edge k hk
  exact (List.getElem?_eq_some_iff.1 he).1

theorem surj (h : IsChain edges node order) {i : Nat} (hi : i < edges.length) : ∃ k, k < edges.length ∧ order k = i := by
  have hnd : ((List.range edges.length).map order).Nodup := by
    apply List.Nodup.map_on _ List.nodup_range
    intro x hx y hy hxy
    exact h.order_inj x (by simpa using hx) y (by simpa using hy) hxy
  have hp : ((List.range edges.length).map order).Perm (List.range edges.length) := by
    apply (List.subperm_of_subset hnd ?_).perm_of_length_le (by simp)
    intro i hi
    obtain ⟨k, hk, rfl⟩ := List.mem_map.1 hi
    simpa using h.olt (by simpa using hk)
  obtain ⟨k, hk, rfl⟩ := List.mem_map.1 (hp.mem_iff.2 (List.mem_range.2 hi))
  exact ⟨k, by simpa using hk, rfl⟩

theorem node_ne (h : IsChain edges node order) {i j : Nat} (hi : i ≤ edges.length) (hj : j ≤ edges.length) (hij : i ≠ j) : node i ≠ node j :=
  fun hc => hij (h.node_inj i hi j hj hc)

theorem noloop (h : IsChain edges node order) : ∀ e ∈ edges, e.1 ≠ e.2 := by
  intro e he
  obtain ⟨i, hi⟩ := List.getElem?_of_mem he
  obtain ⟨k, hk, rfl⟩ := h.surj (List.getElem?_eq_some_iff.1 hi).1
  obtain ⟨e', he', hj⟩ := h.edge k hk
  rw [hi] at he'; cases he'
  have := h.node_ne (i := k) (j := k + 1) (by omega) (by omega) (by omega)
  rcases hj with rfl | rfl
  · exact this
  · exact Ne.symm this

theorem reverse (h : IsChain edges node order) : IsChain edges (fun k => node (edges.length - k)) (fun k => order (edges.length - 1 - k)) := by
  refine ⟨h.two, ?_, ?_, ?_⟩
  · intro i hi j hj he
    have := h.node_inj _ (by omega) _ (by omega) he
    omega
  · intro i hi j hj he
    have := h.order_inj _ (by omega) _ (by omega) he
    omega
  · intro k hk
    obtain ⟨e, he, hj⟩ := h.edge (edges.length - 1 - k) (by omega)
    refine ⟨e, he, ?_⟩
    have e1 : edges.length - 1 - k + 1 = edges.length - k := by omega
    have e2 : edges.length - (k + 1) = edges.length - 1 - k := by omega
    rw [e1] at hj; rw [e2]; exact hj.symm

theorem touches_iff (h : IsChain edges node order) {a : Nat} (ha : a ≤ edges.length) (i : Nat) :
    touches edges (node a) i = true ↔ (a < edges.length ∧ i = order a) ∨ (0 < a ∧ i = order (a - 1)) := by
  constructor
  · intro ht
    have hi : i < edges.length := by
      by_contra hc
      have : edges[i]? = none := by simp; omega
      simp [touches, this] at ht
    obtain ⟨k, hk, rfl⟩ := h.surj hi
    obtain ⟨e, he, hj⟩ := h.edge k hk
    rw [Internal.touches_iff he] at ht
    have : node k = node a ∨ node (k + 1) = node a := by
      rcases hj with rfl | rfl <;> simp only at ht
      · exact ht
      · exact ht.symm
    rcases this with h1 | h1
    · have := h.node_inj _ (by omega) _ ha h1; subst this; exact Or.inl ⟨hk, rfl⟩
    · have := h.node_inj _ (by omega) _ ha h1; subst this; exact Or.inr ⟨by omega, by simp⟩
  · rintro (⟨h1, rfl⟩ | ⟨h1, rfl⟩)
    · obtain ⟨e, he, hj⟩ := h.edge a h1
      rw [Internal.touches_iff he]
      rcases hj with rfl | rfl <;> simp
    · obtain ⟨e, he, hj⟩ := h.edge (a - 1) (by omega)
      rw [Internal.touches_iff he]
      have : a - 1 + 1 = a := by omega
      rw [this] at hj
      rcases hj with rfl | rfl <;> simp

theorem use_inner (h : IsChain edges node order) {a : Nat} (h0 : 0 < a) (ha : a < edges.length) : (inc edges [] (node a)).length = 2 := by
  have hne : order a ≠ order (a - 1) := fun hc => by
    have := h.order_inj _ (by omega) _ (by omega) hc; omega
  have : (inc edges [] (node a)).Perm [order a, order (a - 1)] := by
    rw [List.perm_ext_iff_of_nodup (inc_nodup _ _ _) (by simp [hne])]
    intro i
    rw [mem_inc, h.touches_iff (by omega)]; simp [h0, ha]
  exact this.length_eq

theorem use_first (h : IsChain edges node order) : (inc edges [] (node 0)).length = 1 := by
  have h2 := h.two
  have : (inc edges [] (node 0)).Perm [order 0] := by
    rw [List.perm_ext_iff_of_nodup (inc_nodup _ _ _) (by simp)]
    intro i
    rw [mem_inc, h.touches_iff (by omega)]; simp; omega
  exact this.length_eq

theorem use_last (h : IsChain edges node order) : (inc edges [] (node edges.length)).length = 1 := by
  have h2 := h.two
  have : (inc edges [] (node edges.length)).Perm [order (edges.length - 1)] := by
    rw [List.perm_ext_iff_of_nodup (inc_nodup _ _ _) (by simp)]
    intro i
    rw [mem_inc, h.touches_iff (by omega)]; simp; omega
  exact this.length_eq

/-- Use count of the `a`-th corner. -/
theorem use_eq (h : IsChain edges node order) {a : Nat} (ha : a ≤ edges.length) :
    (inc edges [] (node a)).length = if a = 0 ∨ a = edges.length then 1 else 2 := by
  by_cases h0 : a = 0
  · subst h0; simp [h.use_first]
  · by_cases hn : a = edges.length
    · subst hn; simp [h.use_last]
    · rw [if_neg (by omega), h.use_inner (by omega) (by omega)]

/-- The edge that closes the chain. -/
def closing (edges : List Edge) (node : Nat → Int) : Edge :=
  if node edges.length < node 0 then (node edges.length, node 0) else (node 0, node edges.length)

/-- The cycle obtained by closing the chain, starting at the last edge of the chain. -/
theorem cyc (h : IsChain edges node order) : Cyc (edges ++ [closing edges node])
    (fun a => node ((a - 2) % ((edges.length + 1 : Nat) : Int)).toNat)
    (fun a => if ((a - 2) % ((edges.length + 1 : Nat) : Int)).toNat = edges.length then edges.length
      else order ((a - 2) % ((edges.length + 1 : Nat) : Int)).toNat) := by
  have h2 := h.two
  have hpos : 0 < edges.length + 1 := by omega
  have hlt : ∀ a : Int, ((a - 2) % ((edges.length + 1 : Nat) : Int)).toNat ≤ edges.length := by
    intro a
    have := Int.emod_lt_of_pos (a - 2) (show (0 : Int) < ((edges.length + 1 : Nat) : Int) by omega)
    omega
  have hl : (edges ++ [closing edges node]).length = edges.length + 1 := by simp
  have hsub : ∀ a b : Int, a - 2 - (b - 2) = a - b := by intros; ring
  refine ⟨by rw [hl]; omega, ?_, ?_, ?_⟩
  · intro a b
    rw [hl, ← hsub a b, ← emod_eq_iff hpos]
    exact ⟨h.node_inj _ (hlt a) _ (hlt b), fun h => by rw [h]⟩
  · intro a b
    rw [hl, ← hsub a b, ← emod_eq_iff hpos]
    constructor
    · intro hc
      split at hc
      · rename_i c1
        split at hc
        · rename_i c2; rw [c1, c2]
        · rename_i c2
          have := h.olt (k := ((b - 2) % ((edges.length + 1 : Nat) : Int)).toNat) (by have := hlt b; omega)
          omega
      · rename_i c1
        split at hc
        · rename_i c2
          have := h.olt (k := ((a - 2) % ((edges.length + 1 : Nat) : Int)).toNat) (by have := hlt a; omega)
          omega
        · rename_i c2
          exact h.order_inj _ (by have := hlt a; omega) _ (by have := hlt b; omega) hc
    · intro hc; rw [hc]
  · intro a
    have h0 := Int.emod_nonneg (a - 2) (show ((edges.length + 1 : Nat) : Int) ≠ 0 by omega)
    have hn : ((a + 1 - 2) % ((edges.length + 1 : Nat) : Int)).toNat =
        (((a - 2) % ((edges.length + 1 : Nat) : Int)).toNat + 1) % (edges.length + 1) := by
      have : (((((a - 2) % ((edges.length + 1 : Nat) : Int)).toNat + 1) % (edges.length + 1) : Nat) : Int) =
          (a + 1 - 2) % ((edges.length + 1 : Nat) : Int) := by
        rw [Int.natCast_mod]
        push_cast
        push_cast at h0
        rw [Int.toNat_of_nonneg h0, Int.emod_add_emod]
        congr 1; ring
      omega
    simp only [hn]
    generalize ht : ((a - 2) % ((edges.length + 1 : Nat) : Int)).toNat = t
    have htl : t ≤ edges.length := ht ▸ hlt a
    by_cases hte : t = edges.length
    · subst hte
      refine ⟨closing edges node, by simp, ?_⟩
      rw [Nat.mod_self]
      unfold closing Joins
      split <;> simp
    · obtain ⟨e, he, hj⟩ := h.edge t (by omega)
      refine ⟨e, ?_, ?_⟩
      · rw [if_neg hte, List.getElem?_append_left (h.olt (by omega))]; exact he
      · rw [Nat.mod_eq_of_lt (by omega)]; exact hj

theorem closing_get (edges : List Edge) (node : Nat → Int) : (edges ++ [closing edges node])[edges.length]? = some (closing edges node) := by
  simp

end IsChain

theorem small_emod {n : Nat} {a : Int} (h0 : 0 ≤ a) (h : a < n) : (a % (n : Int)).toNat = a.toNat := by
  rw [Int.emod_eq_of_lt h0 h]

theorem neg_emod {n : Nat} {a : Int} (h0 : a < 0) (h : -(n : Int) ≤ a) : (a % (n : Int)).toNat = (a + n).toNat := by
  have : a % (n : Int) = (a + n) % n := by simp
  rw [this, Int.emod_eq_of_lt (by omega) (by omega)]

namespace IsChain
variable {edges : List Edge} {node : Nat → Int} {order : Nat → Nat}

/-- Running the function on a chain whose last edge has the smaller index, up to the final orientation pass. -/
theorem upto (h : IsChain edges node order) (dbg : Bool) (hlt : order (edges.length - 1) < order 0) :
    ∃ v p, Cyc (edges ++ [closing edges node]) v p ∧ p 0 = order (edges.length - 1) ∧ p 1 = edges.length ∧
      v 0 = node (edges.length - 1) ∧ v 1 = node edges.length ∧ v 2 = node 0 ∧
      computeSortedFaceEdges dbg edges =
        (finishOrder dbg (edges ++ [closing edges node]) (Cyc.ord p (edges.length + 1))).bind fun s =>
          .ok (true, edges ++ [closing edges node], s) := by
  have h2 := h.two
  have hc := h.cyc
  obtain ⟨v, hv⟩ : ∃ v, v = (fun a : Int => node ((a - 2) % ((edges.length + 1 : Nat) : Int)).toNat) := ⟨_, rfl⟩
  obtain ⟨p, hp⟩ : ∃ p, p = (fun a : Int => if ((a - 2) % ((edges.length + 1 : Nat) : Int)).toNat = edges.length then edges.length
      else order ((a - 2) % ((edges.length + 1 : Nat) : Int)).toNat) := ⟨_, rfl⟩
  rw [← hv, ← hp] at hc
  have m0 : (((0 : Int) - 2) % ((edges.length + 1 : Nat) : Int)).toNat = edges.length - 1 := by
    rw [neg_emod (by omega) (by omega)]; omega
  have m1 : (((1 : Int) - 2) % ((edges.length + 1 : Nat) : Int)).toNat = edges.length := by
    rw [neg_emod (by omega) (by omega)]; omega
  have m2 : (((2 : Int) - 2) % ((edges.length + 1 : Nat) : Int)).toNat = 0 := by
    rw [small_emod (by omega) (by omega)]; omega
  have m3 : (((3 : Int) - 2) % ((edges.length + 1 : Nat) : Int)).toNat = 1 := by
    rw [small_emod (by omega) (by omega)]; omega
  have p0 : p 0 = order (edges.length - 1) := by rw [hp]; simp only [m0]; rw [if_neg (by omega)]
  have p1 : p 1 = edges.length := by rw [hp]; simp only [m1]; rw [if_pos trivial]
  have p2 : p 2 = order 0 := by rw [hp]; simp only [m2]; rw [if_neg (by omega)]
  have v0 : v 0 = node (edges.length - 1) := by rw [hv]; simp only [m0]
  have v1 : v 1 = node edges.length := by rw [hv]; simp only [m1]
  have v2 : v 2 = node 0 := by rw [hv]; simp only [m2]
  have v3 : v 3 = node 1 := by rw [hv]; simp only [m3]
  refine ⟨v, p, hc, p0, p1, v0, v1, v2, ?_⟩
  obtain ⟨i1, i2⟩ := invert_top h.noloop
  obtain ⟨use, huse⟩ : ∃ use, use = (invertEdges 0 edges (fun _ => [], fun _ => 0)).2 := ⟨_, rfl⟩
  have hu : ∀ a, a ≤ edges.length → use (node a) = if a = 0 ∨ a = edges.length then 1 else 2 := by
    intro a ha; rw [huse, i2, h.use_eq ha]
  have hanged : ∀ k, k < edges.length → (hangs use edges (order k) = true ↔ k = 0 ∨ k = edges.length - 1) := by
    intro k hk
    obtain ⟨e, he, hj⟩ := h.edge k hk
    simp only [hangs, he, decide_eq_true_eq]
    have a1 := hu k (by omega)
    have a2 := hu (k + 1) (by omega)
    rcases hj with rfl | rfl <;> simp only [a1, a2] <;> split <;> split <;> simp <;> omega
  have hass : ∀ e ∈ edges, (use e.1 = 1 ∨ use e.2 = 1) → ((use e.1 = 1 ∧ use e.2 = 2) ∨ (use e.1 = 2 ∧ use e.2 = 1)) := by
    intro e he
    obtain ⟨i, hi⟩ := List.getElem?_of_mem he
    obtain ⟨k, hk, rfl⟩ := h.surj (List.getElem?_eq_some_iff.1 hi).1
    obtain ⟨e', he', hj⟩ := h.edge k hk
    rw [hi] at he'; cases he'
    have a1 := hu k (by omega)
    have a2 := hu (k + 1) (by omega)
    rcases hj with rfl | rfl <;> simp only [a1, a2] <;> split <;> split <;> simp <;> omega
  have hH : (List.range edges.length).filter (hangs use edges) = [order (edges.length - 1), order 0] := by
    apply List.Pairwise.eq_of_mem_iff (r := (· < ·)) (List.pairwise_lt_range.filter _) (by simpa using hlt)
    intro i
    simp only [List.mem_filter, List.mem_range, List.mem_cons, List.not_mem_nil, or_false]
    constructor
    · rintro ⟨hi, hh⟩
      obtain ⟨k, hk, rfl⟩ := h.surj hi
      rcases (hanged k hk).1 hh with rfl | rfl
      · right; rfl
      · left; rfl
    · rintro (rfl | rfl)
      · exact ⟨h.olt (by omega), (hanged _ (by omega)).2 (Or.inr rfl)⟩
      · exact ⟨h.olt (by omega), (hanged _ (by omega)).2 (Or.inl rfl)⟩
  have hn0 : hangNode use edges (order 0) = node 0 := by
    obtain ⟨e, he, hj⟩ := h.edge 0 (by omega)
    have a1 := hu 0 (by omega)
    have a2 := hu 1 (by omega)
    rw [if_pos (by omega)] at a1
    rw [if_neg (by omega)] at a2
    simp only [hangNode, he]
    rcases hj with rfl | rfl <;> simp [a1, a2]
  have hn1 : hangNode use edges (order (edges.length - 1)) = node edges.length := by
    obtain ⟨e, he, hj⟩ := h.edge (edges.length - 1) (by omega)
    have e1 : edges.length - 1 + 1 = edges.length := by omega
    rw [e1] at hj
    have a1 := hu edges.length (by omega)
    have a2 := hu (edges.length - 1) (by omega)
    rw [if_pos (by omega)] at a1
    rw [if_neg (by omega)] at a2
    simp only [hangNode, he]
    rcases hj with rfl | rfl <;> simp [a1, a2]
  obtain ⟨n2e, f1, f2⟩ := findHanging_spec dbg use edges hass edges 0 ([], _, []) (by simp) (by omega) (by simp) (by simp) i1
  rw [hH] at f1 f2
  simp only [List.map_cons, List.map_nil, hn0, hn1] at f1
  have hnn : node edges.length ≠ node 0 := h.node_ne (by omega) (by omega) (by omega)
  have hhash : hashEdge dbg (node edges.length) (node 0) = .ok (closing edges node) := by
    unfold hashEdge closing
    simp [Res.assert_true dbg hnn]
  obtain ⟨e, he, hj⟩ := h.edge 0 (by omega)
  have a1 := hu 0 (by omega)
  have a2 := hu 1 (by omega)
  rw [if_pos (by omega)] at a1
  rw [if_neg (by omega)] at a2
  have hget : (edges ++ [closing edges node])[order 0]? = some e := by
    rw [List.getElem?_append_left (h.olt (by omega))]; exact he
  have hlast : (if use e.1 = 2 then e.1 else e.2) = node 1 := by
    rcases hj with rfl | rfl <;> simp [a1, a2]
  have htwo : use e.1 = 2 ∨ use e.2 = 2 := by
    rcases hj with rfl | rfl <;> simp [a1, a2]
  have hstart : startWalk dbg use edges [order (edges.length - 1), order 0] [node edges.length, node 0] =
      .ok (Cyc.ord p 3, edges ++ [closing edges node], v 3) := by
    have ho : Cyc.ord p 3 = [order (edges.length - 1), edges.length, order 0] := by
      simp [Cyc.ord, List.range_succ, p0, p1, p2]
    unfold startWalk
    simp only [Res.bind_eq, hhash, Res.bind_ok]
    rw [Res.assert_true dbg (by rfl), Res.bind_ok]
    simp only [List.getLast_cons_cons, List.getLast_singleton, rd_eq_ok.2 hget, Res.bind_ok]
    rw [Res.assert_true dbg htwo, Res.bind_ok, hlast, ho, v3]; rfl
  have hinc : ∀ x, n2e x = inc (edges ++ [closing edges node]) (Cyc.ord p 3) x := by
    intro x
    rw [f2]
    have ho : Cyc.ord p 3 = [order (edges.length - 1), edges.length, order 0] := by
      simp [Cyc.ord, List.range_succ, p0, p1, p2]
    rw [ho]
    unfold inc
    rw [List.length_append, List.length_singleton, List.range_succ, List.filter_append]
    have : List.filter (fun i => touches (edges ++ [closing edges node]) x i && decide (i ∉ [order (edges.length - 1), edges.length, order 0]))
        [edges.length] = [] := by simp
    rw [this, List.append_nil]
    apply List.filter_congr
    intro i hi
    have hi' : i < edges.length := by simpa using hi
    have hne : i ≠ edges.length := by omega
    simp only [touches, List.getElem?_append_left hi', List.mem_cons, List.not_mem_nil, or_false, hne, false_or]
  have hwalk := hc.walk_from dbg (edges.length + 1 - 3) 3 n2e (by simp; omega) (by omega) hinc
  have hl : (edges ++ [closing edges node]).length = edges.length + 1 := by simp
  rw [hl] at hwalk
  unfold computeSortedFaceEdges
  simp only [Res.bind_eq, Res.assert_true dbg (show edges.length ≥ 2 from h2), Res.bind_ok, ← huse, f1]
  rw [Res.assert_true dbg (by simp), Res.bind_ok, hstart]
  have ho3 : (Cyc.ord p 3).length = 3 := by simp [Cyc.ord]
  have hcast : ((3 : Nat) : Int) = 3 := rfl
  rw [hcast] at hwalk
  simp only [Res.bind_ok, hl, ho3, hwalk, Res.pure_eq]
  rfl

/-- The good case: the end edge with the smaller index points out of the chain. -/
theorem good (h : IsChain edges node order) (dbg : Bool) (hlt : order (edges.length - 1) < order 0)
    (hd : (edges[order (edges.length - 1)]?).map Prod.snd = some (node edges.length)) :
    ∃ s, computeSortedFaceEdges dbg edges = .ok (true, edges ++ [closing edges node], s) ∧
      IsOrientedLoop (edges ++ [closing edges node]) s := by
  have h2 := h.two
  obtain ⟨v, p, hc, p0, p1, v0, v1, v2, hrun⟩ := h.upto dbg hlt
  have hl : (edges ++ [closing edges node]).length = edges.length + 1 := by simp
  obtain ⟨e, he, hj⟩ := h.edge (edges.length - 1) (by omega)
  have e1 : edges.length - 1 + 1 = edges.length := by omega
  rw [e1] at hj
  rw [he] at hd
  simp only [Option.map_some, Option.some.injEq] at hd
  have hne : node (edges.length - 1) ≠ node edges.length := h.node_ne (by omega) (by omega) (by omega)
  have hee : e = (v 0, v 1) := by
    rw [v0, v1]
    rcases hj with rfl | rfl
    · rfl
    · exact absurd hd hne
  have hget : (edges ++ [closing edges node])[p 0]? = some (v 0, v 1) := by
    rw [p0, List.getElem?_append_left (h.olt (by omega)), he, hee]
  have hfin := hc.finish dbg hget
  rw [hl] at hfin
  exact ⟨_, by rw [hrun, hfin]; rfl, hc.loop_oriented⟩

/-- The bad case: the end edge with the smaller index points into the chain. Then a debug build aborts and a release build
returns a list whose first edge has the wrong direction. -/
theorem bad (h : IsChain edges node order) (hlt : order (edges.length - 1) < order 0)
    (hd : (edges[order (edges.length - 1)]?).map Prod.fst = some (node edges.length)) :
    computeSortedFaceEdges true edges = .abort ∧
    ∃ s, computeSortedFaceEdges false edges = .ok (true, edges ++ [closing edges node], s) ∧
      ¬ IsOrientedLoop (edges ++ [closing edges node]) s := by
  have h2 := h.two
  have hrun := h.upto
  obtain ⟨v, p, hc, p0, p1, v0, v1, v2, hrunT⟩ := h.upto true hlt
  have hl : (edges ++ [closing edges node]).length = edges.length + 1 := by simp
  obtain ⟨e, he, hj⟩ := h.edge (edges.length - 1) (by omega)
  have e1 : edges.length - 1 + 1 = edges.length := by omega
  rw [e1] at hj
  rw [he] at hd
  simp only [Option.map_some, Option.some.injEq] at hd
  have hne : node (edges.length - 1) ≠ node edges.length := h.node_ne (by omega) (by omega) (by omega)
  have hne2 : node (edges.length - 1) ≠ node 0 := h.node_ne (by omega) (by omega) (by omega)
  have hne3 : node edges.length ≠ node 0 := h.node_ne (by omega) (by omega) (by omega)
  have hee : e = (node edges.length, node (edges.length - 1)) := by
    rcases hj with rfl | rfl
    · exact absurd hd hne
    · rfl
  subst hee
  have hget : (edges ++ [closing edges node])[order (edges.length - 1)]? = some (node edges.length, node (edges.length - 1)) := by
    rw [List.getElem?_append_left (h.olt (by omega)), he]
  have core : ∀ (dbg : Bool) (v : Int → Int) (p : Int → Nat), Cyc (edges ++ [closing edges node]) v p → p 0 = order (edges.length - 1) →
      p 1 = edges.length → v 0 = node (edges.length - 1) → v 1 = node edges.length → v 2 = node 0 →
      (dbg = true → finishOrder dbg (edges ++ [closing edges node]) (Cyc.ord p (edges.length + 1)) = .abort) ∧
      (dbg = false → ∃ s, finishOrder dbg (edges ++ [closing edges node]) (Cyc.ord p (edges.length + 1)) = .ok s ∧
        ¬ IsOrientedLoop (edges ++ [closing edges node]) s) := by
    intro dbg v p hc p0 p1 v0 v1 v2
    obtain ⟨m, hm⟩ : ∃ m, edges.length = m + 1 := ⟨edges.length - 1, by omega⟩
    have hord : Cyc.ord p (edges.length + 1) = p 0 :: p 1 :: (List.range' 2 m).map fun (i : Nat) => p i := by
      rw [hm]; simp [Cyc.ord, List.range_eq_range', List.range'_succ]
    have hor1 := hc.orient_from dbg (m + 1) 1 (by rw [hl]; omega)
    have hor2 := hc.orient_from dbg m 2 (by rw [hl]; omega)
    have hs1 := hc.directed_sgnd 1
    have h12 : (1 : Int) + 1 = 2 := rfl
    rw [h12] at hs1
    have hnot : ∀ t : List Int, ¬ IsOrientedLoop (edges ++ [closing edges node])
        ((p 0 : Int) :: Cyc.sgnd (edges ++ [closing edges node]) v p 1 :: t) := by
      intro t ht
      obtain ⟨s₁, s₂, a, b, c, g1, g2, g3, g4⟩ := ht.head_to_tail 0 (by rw [hl]; omega)
      have e01 : (0 + 1) % (edges ++ [closing edges node]).length = 1 := by rw [hl]; exact Nat.mod_eq_of_lt (by omega)
      rw [e01] at g2
      simp only [List.getElem?_cons_zero, List.getElem?_cons_succ, Option.some.injEq] at g1 g2
      subst g1 g2
      rw [hs1] at g4
      simp only [directed, Int.natCast_nonneg, if_true, Int.toNat_natCast, p0, hget, Option.some.injEq, Prod.mk.injEq] at g3 g4
      rw [v1] at g4
      exact hne (g3.2.trans g4.1.symm)
    rw [hord]
    unfold finishOrder
    have hg1 : (edges ++ [closing edges node])[p 1]? = some (closing edges node) := by rw [p1]; exact closing_get _ _
    rw [p0]
    simp only [Res.bind_eq, rd_eq_ok.2 hget, Res.bind_ok, rd_eq_ok.2 hg1]
    have hcl : closing edges node = if node edges.length < node 0 then (node edges.length, node 0) else (node 0, node edges.length) := rfl
    have n1cast : ((1 : Nat) : Int) = 1 := rfl
    have n2cast : ((2 : Nat) : Int) = 2 := rfl
    rw [n1cast, List.range'_succ, List.map_cons, List.map_cons] at hor1
    rw [n2cast] at hor2
    rw [n1cast] at hor1
    have hsplit : (if node edges.length = (closing edges node).1 then node edges.length else node (edges.length - 1)) =
        (if node edges.length < node 0 then v 1 else v 0) := by
      rw [hcl]
      by_cases hlt' : node edges.length < node 0
      · simp [hlt', v1]
      · simp only [hlt', if_false]
        rw [if_neg hne3, v0]
    rw [hsplit]
    -- the signed tail the release build computes
    have htail : (dbg = false ∨ node edges.length < node 0) →
        orientEdges dbg (edges ++ [closing edges node]) (p 1 :: List.map (fun (i : Nat) => p i) (List.range' 2 m))
          (if node edges.length < node 0 then v 1 else v 0) =
        .ok (Cyc.sgnd (edges ++ [closing edges node]) v p 1 ::
          List.map (fun (i : Nat) => Cyc.sgnd (edges ++ [closing edges node]) v p i) (List.range' 2 m)) := by
      intro hcase
      by_cases hlt' : node edges.length < node 0
      · rw [if_pos hlt']; exact hor1
      · rw [if_neg hlt']
        have hd' : dbg = false := by rcases hcase with h | h; exact h; exact absurd h hlt'
        subst hd'
        have hcl' : closing edges node = (v 2, v 1) := by rw [hcl, if_neg hlt', v1, v2]
        have hne0 : v 2 ≠ v 0 := by rw [v2, v0]; exact Ne.symm hne2
        have hsg : Cyc.sgnd (edges ++ [closing edges node]) v p 1 = flip (p 1) := by
          unfold Cyc.sgnd
          rw [if_neg]
          rw [hg1, hcl', h12]
          simp only [Option.some.injEq, Prod.mk.injEq, not_and]
          intro hc'
          rw [v2, v1] at hc'
          exact absurd hc'.symm hne3
        simp only [orientEdges, rd_eq_ok.2 hg1, Res.bind_eq, Res.bind_ok, Res.assert_release]
        rw [show (closing edges node).1 = v 2 by rw [hcl'], if_neg hne0, hor2, hsg]; rfl
    constructor
    · intro hdbg
      subst hdbg
      by_cases hlt' : node edges.length < node 0
      · rw [htail (Or.inr hlt')]
        simp only [Res.bind_ok]
        rw [Res.assert_true true (by simp; omega), Res.bind_ok]
        rw [Res.assert_debug_false]; · rfl
        intro hcon
        unfold contractOK at hcon
        rw [List.all_eq_true] at hcon
        have := hcon 0 (by simp)
        have e01 : (0 + 1) % (edges ++ [closing edges node]).length = 1 := by rw [hl]; exact Nat.mod_eq_of_lt (by omega)
        rw [e01] at this
        simp only [List.getElem?_cons_zero, List.getElem?_cons_succ] at this
        have hp0 : posID (order (edges.length - 1) : Int) = order (edges.length - 1) := by simp [posID]
        have hcl' : closing edges node = (v 1, v 2) := by rw [hcl, if_pos hlt', v1, v2]
        have hsg : Cyc.sgnd (edges ++ [closing edges node]) v p 1 = p 1 := by
          unfold Cyc.sgnd
          rw [if_pos (by rw [hg1, hcl', h12])]
        have hp1 : posID (p 1 : Int) = p 1 := by simp [posID]
        rw [hp0, hsg, hp1, hget, hg1] at this
        simp only [Int.natCast_nonneg, if_true, hcl', beq_iff_eq] at this
        rw [v1] at this
        exact hne this
      · rw [if_neg hlt']
        have hcl' : closing edges node = (v 2, v 1) := by rw [hcl, if_neg hlt', v1, v2]
        simp only [orientEdges, rd_eq_ok.2 hg1, Res.bind_eq, Res.bind_ok]
        rw [Res.assert_debug_false]; · rfl
        rw [hcl']
        rintro (hh | hh)
        · simp only [v2, v0] at hh; exact hne2 hh.symm
        · simp only [v1, v0] at hh; exact hne hh.symm
    · intro hdbg
      subst hdbg
      rw [htail (Or.inl rfl)]
      simp only [Res.bind_ok, Res.assert_release, Res.pure_eq]
      refine ⟨_, rfl, ?_⟩
      have := hnot (List.map (fun (i : Nat) => Cyc.sgnd (edges ++ [closing edges node]) v p i) (List.range' 2 m))
      rw [p0] at this
      exact this
  refine ⟨?_, ?_⟩
  · rw [hrunT, (core true v p hc p0 p1 v0 v1 v2).1 rfl]; rfl
  · obtain ⟨v', p', hc', p0', p1', v0', v1', v2', hrunF⟩ := h.upto false hlt
    obtain ⟨s, hs1, hs2⟩ := (core false v' p' hc' p0' p1' v0' v1' v2').2 rfl
    exact ⟨s, by rw [hrunF, hs1]; rfl, hs2⟩

theorem closing_reverse (h : IsChain edges node order) : closing edges (fun k => node (edges.length - k)) = closing edges node := by
  have h2 := h.two
  have hne3 : node edges.length ≠ node 0 := h.node_ne (by omega) (by omega) (by omega)
  unfold closing
  simp only [Nat.sub_self, Nat.sub_zero]
  by_cases h1 : node 0 < node edges.length
  · rw [if_pos h1, if_neg (by omega)]
  · rw [if_neg h1, if_pos (by omega)]

end IsChain
end Verif.Internal
