import Verif.Model.BoostConvert
import Verif.Spec.BoostConvert
import Mathlib.Data.List.Forall2
/-
C109: boundaries and cells for Boost.Geometry.
-/
namespace Verif.Props
open Verif Verif.BoostConvert

variable {P : Type} [DecidableEq P]

theorem rd_zero {α : Type} (a : α) (l : List α) : rd (a :: l) 0 = .ok a := rfl
theorem rd_one {α : Type} (a b : α) (l : List α) : rd (a :: b :: l) 1 = .ok b := rfl

omit [DecidableEq P] in
theorem ptAt_ok {pts : List P} {k : Nat} (h : k < pts.length) : ptAt pts (Int.ofNat k) = .ok pts[k] := by
  have h' : ¬ Int.ofNat k < 0 := by simp
  rw [ptAt, if_neg h']; exact rd_lt h

omit [DecidableEq P] in
theorem heads_spec (dbg : Bool) (pts : List P) (a b : Nat → Nat) : ∀ js : List Nat, (∀ j ∈ js, b j < pts.length) →
    ∃ ps, heads dbg pts (js.map fun j => [Int.ofNat (a j), Int.ofNat (b j)]) = .ok ps ∧ ps.length = js.length ∧
      ∀ (k j : Nat), js[k]? = some j → ps[k]? = pts[b j]?
  | [], _ => ⟨[], rfl, rfl, by simp⟩
  | j :: js, h => by
    obtain ⟨ps, e, l, g⟩ := heads_spec dbg pts a b js (fun x hx => h x (by simp [hx]))
    have hj := h j (by simp)
    refine ⟨pts[b j] :: ps, ?_, by simp [l], ?_⟩
    · rw [List.map_cons, heads]
      simp only [Res.bind_eq, List.length_cons, List.length_nil]
      rw [Res.assert_true _ (by simp)]
      simp only [Res.bind_ok, rd, List.getElem?_cons_zero, List.getElem?_cons_succ, ptAt_ok hj, e, Res.pure_eq]
    · intro k x hk
      cases k with
      | zero => simp at hk; subst hk; simp [hj]
      | succ k => simpa using g k x (by simpa using hk)

/-- A ring: appended to what was there. -/
theorem addRing_spec (dbg : Bool) {pts : List P} {facets : List (List Int)} {ids : List Nat} (h : LoopOf facets ids) (hb : ∀ i ∈ ids, i < pts.length)
    (old : List P) : ∃ ring, Closed pts ids ring ∧ (old = [] → addRing dbg pts facets old = .ok ring) ∧
      (old ≠ [] → addRing dbg pts facets old = if dbg then .abort else .ok (old ++ ring)) := by
  obtain ⟨hne, rfl⟩ := h
  have hn : 0 < ids.length := List.length_pos_iff.2 hne
  have hd : ∀ j < ids.length, ids.getD j 0 < pts.length := by
    intro j hj
    rw [List.getD_eq_getElem?_getD, List.getElem?_eq_getElem hj]
    exact hb _ (List.getElem_mem hj)
  obtain ⟨ps, e, l, g⟩ := heads_spec dbg pts (fun j => ids.getD j 0) (fun j => ids.getD ((j + 1) % ids.length) 0) (List.range ids.length)
    (fun j _ => hd _ (Nat.mod_lt _ hn))
  rw [List.length_range] at l
  have h0 := hd 0 hn
  have hc : Closed pts ids (pts[ids.getD 0 0] :: ps) := by
    refine ⟨by simp [l], fun j hj => ?_⟩
    cases j with
    | zero => rw [Nat.zero_mod, List.getElem?_cons_zero, List.getElem?_eq_getElem h0]
    | succ j =>
      rw [List.getElem?_cons_succ]
      have hj' : j < ids.length := by omega
      exact g j j (by rw [List.getElem?_eq_getElem (by simpa using hj'), List.getElem_range])
  have hlast : (pts[ids.getD 0 0] :: ps).head? = (pts[ids.getD 0 0] :: ps).getLast? := by
    rw [List.getLast?_eq_getElem?, List.length_cons, Nat.add_sub_cancel, hc.2 ps.length (by omega), l, Nat.mod_self]
    simp [h0]
  refine ⟨_, hc, ?_, ?_⟩
  · rintro rfl
    have r0 : rd ((List.range ids.length).map fun j => [Int.ofNat (ids.getD j 0), Int.ofNat (ids.getD ((j + 1) % ids.length) 0)]) 0 =
        .ok [Int.ofNat (ids.getD 0 0), Int.ofNat (ids.getD ((0 + 1) % ids.length) 0)] := rd_eq_ok.2 (by simp [hn])
    rw [addRing]
    simp only [Res.bind_eq, r0, Res.bind_ok, rd_zero, ptAt_ok h0, e, List.nil_append]
    rw [Res.assert_true _ (by simp [l]), Res.bind_ok, Res.assert_true _ hlast]; rfl
  · intro ho
    have r0 : rd ((List.range ids.length).map fun j => [Int.ofNat (ids.getD j 0), Int.ofNat (ids.getD ((j + 1) % ids.length) 0)]) 0 =
        .ok [Int.ofNat (ids.getD 0 0), Int.ofNat (ids.getD ((0 + 1) % ids.length) 0)] := rd_eq_ok.2 (by simp [hn])
    have hl : 0 < old.length := List.length_pos_iff.2 ho
    rw [addRing]
    simp only [Res.bind_eq, r0, Res.bind_ok, rd_zero, ptAt_ok h0, e]
    cases dbg
    · simp [Res.assert]
    · rw [Res.assert_debug_false (by simp [l]; omega)]; rfl

theorem addHoles_spec (dbg : Bool) {pts : List P} : ∀ {holes : List (List (List Int))} {idss : List (List Nat)}, List.Forall₂ LoopOf holes idss →
    (∀ ids ∈ idss, ∀ i ∈ ids, i < pts.length) → ∃ inners, addHoles dbg pts holes (List.replicate holes.length []) = .ok inners ∧ List.Forall₂ (Closed pts) idss inners
  | [], [], _, _ => ⟨[], rfl, .nil⟩
  | h :: hs, ids :: idss, .cons h1 h2, hb => by
    obtain ⟨r, c, e, _⟩ := addRing_spec dbg h1 (hb ids (by simp)) ([] : List P)
    obtain ⟨rs, e', c'⟩ := addHoles_spec dbg h2 (fun x hx => hb x (by simp [hx]))
    refine ⟨r :: rs, ?_, .cons c c'⟩
    rw [List.length_cons, List.replicate_succ, addHoles]
    simp only [Res.bind_eq, e rfl, Res.bind_ok, e', Res.pure_eq]

/-- Into an empty polygon, a boundary whose facets and holes are closed loops gives, in both builds, the closed outer ring through its
points in the order of the facets, and one closed ring per hole. -/
theorem C109_boundary_partial (dbg : Bool) {pts : List P} {facets : List (List Int)} {ids : List Nat} {holes : List (List (List Int))} {idss : List (List Nat)}
    (h : LoopOf facets ids) (hb : ∀ i ∈ ids, i < pts.length) (hh : List.Forall₂ LoopOf holes idss) (hhb : ∀ ids ∈ idss, ∀ i ∈ ids, i < pts.length) :
    ∃ poly, constructBoostBoundary dbg pts facets holes ⟨[], []⟩ = .ok poly ∧ Closed pts ids poly.outer ∧ List.Forall₂ (Closed pts) idss poly.inners := by
  obtain ⟨r, c, e, _⟩ := addRing_spec dbg h hb ([] : List P)
  obtain ⟨rs, e', c'⟩ := addHoles_spec dbg hh hhb
  by_cases hn : holes.length > 0
  · refine ⟨⟨r, rs⟩, ?_, c, c'⟩
    have hl : rs.length = holes.length := by rw [← c'.length_eq, hh.length_eq]
    rw [constructBoostBoundary]
    simp only [Res.bind_eq, e rfl, Res.bind_ok, if_pos hn, List.take_nil, List.nil_append, List.length_nil, Nat.sub_zero, e']
    rw [Res.assert_true _ hl]; rfl
  · have hz : holes = [] := List.eq_nil_of_length_eq_zero (by omega)
    subst hz
    cases hh
    refine ⟨⟨r, []⟩, ?_, c, .nil⟩
    rw [constructBoostBoundary]
    simp [e rfl]

example : LoopOf [[0, 1], [1, 2], [2, 0]] [0, 1, 2] ∧ List.Forall₂ LoopOf [[[3, 4], [4, 5], [5, 3]]] [[3, 4, 5]] := by
  refine ⟨by unfold LoopOf; decide +kernel, .cons ?_ .nil⟩
  unfold LoopOf; decide +kernel
example : constructBoostBoundary true ["a", "b", "c", "d", "e", "f"] [[0, 1], [1, 2], [2, 0]] [[[3, 4], [4, 5], [5, 3]]] ⟨[], []⟩ =
    .ok ⟨["a", "b", "c", "a"], [["d", "e", "f", "d"]]⟩ := by decide +kernel

/-- A polygon that holds something keeps it: the boundary is appended, and only a checked build notices. -/
theorem C109_reused_fails (dbg : Bool) {pts : List P} {facets : List (List Int)} {ids : List Nat} (h : LoopOf facets ids) (hb : ∀ i ∈ ids, i < pts.length)
    (old : Poly P) (ho : old.outer ≠ []) : (dbg = true → constructBoostBoundary dbg pts facets [] old = .abort) ∧
      (dbg = false → ∃ ring, Closed pts ids ring ∧ constructBoostBoundary dbg pts facets [] old = .ok ⟨old.outer ++ ring, old.inners⟩) := by
  obtain ⟨r, c, _, e⟩ := addRing_spec dbg h hb old.outer
  refine ⟨?_, ?_⟩
  · rintro rfl
    simp [constructBoostBoundary, e ho]
  · rintro rfl
    exact ⟨r, c, by simp [constructBoostBoundary, e ho]⟩

example : constructBoostBoundary false ["a", "b", "c"] [[0, 1], [1, 2], [2, 0]] [] ⟨["x"], []⟩ = .ok ⟨["x", "a", "b", "c", "a"], []⟩ := by decide +kernel

/-- The facets of a quadrilateral in another order describe the same boundary; the ring crosses itself, and a checked build accepts it. -/
theorem C109_order_fails (dbg : Bool) (a b c d : P) :
    constructBoostBoundary dbg [a, b, c, d] [[0, 1], [2, 3], [1, 2], [3, 0]] [] ⟨[], []⟩ = .ok ⟨[a, b, d, c, a], []⟩ ∧
    constructBoostBoundary dbg [a, b, c, d] [[0, 1], [1, 2], [2, 3], [3, 0]] [] ⟨[], []⟩ = .ok ⟨[a, b, c, d, a], []⟩ := by
  cases dbg <;> simp [constructBoostBoundary, addRing, heads, ptAt, rd, Res.assert]

omit [DecidableEq P] in
theorem cellNodes_spec (dbg : Bool) {faces : List (List Nat)} {nfc nnodes : Nat} (quant : Nat → P) (hf : faces.length ≤ nfc) :
    ∀ {cell : List Int} {ns : List Nat}, Starts faces cell ns → (∀ n ∈ ns, n < nnodes) → cellNodes dbg faces nfc nnodes quant cell = .ok (ns.map quant)
  | [], [], _, _ => rfl
  | s :: ss, n :: ns, .cons ⟨a, b, h, hn⟩ hs, hb => by
    have ih := cellNodes_spec dbg quant hf hs (fun x hx => hb x (by simp [hx]))
    have hlt := (List.getElem?_eq_some_iff.1 h).1
    have hn' := hb n (by simp)
    rw [cellNodes]
    simp only [Res.bind_eq]
    rw [Res.assert_true _ (by omega), Res.bind_ok, rd_eq_ok.2 h, Res.bind_ok, Res.assert_true _ (by simp), Res.bind_ok]
    by_cases hs0 : s < 0
    · rw [if_pos hs0] at hn; subst hn
      rw [if_pos hs0, rd_one, Res.bind_ok, if_neg (by omega), ih]; rfl
    · rw [if_neg hs0] at hn; subst hn
      rw [if_neg hs0, rd_zero, Res.bind_ok, if_neg (by omega), ih]; rfl

/-- The ring of every cell is what Boost makes of the quantized nodes at which its directed faces begin, in order: no node is missing, none
is taken twice, and no face is read from its other end. -/
theorem C109_rings {cells : List (List Int)} {faces : List (List Nat)} {nfc nnodes : Nat} (quant : Nat → P) (correct : List P → List P)
    (crosses : List P → Bool) {nss : List (List Nat)} (hf : faces.length ≤ nfc) (h : List.Forall₂ (Starts faces) cells nss) (hb : ∀ ns ∈ nss, ∀ n ∈ ns, n < nnodes) :
    convertTessellationToRings false cells faces nfc nnodes quant correct crosses = .ok (nss.map fun ns => correct (ns.map quant)) ∧
    (cells ≠ [] → faces ≠ [] → nnodes ≠ 0 → (∀ ns ∈ nss, (correct (ns.map quant)).head? = (correct (ns.map quant)).getLast? ∧ crosses (correct (ns.map quant)) = false) →
      convertTessellationToRings true cells faces nfc nnodes quant correct crosses = .ok (nss.map fun ns => correct (ns.map quant))) := by
  have key : ∀ dbg : Bool, (dbg = true → ∀ ns ∈ nss, (correct (ns.map quant)).head? = (correct (ns.map quant)).getLast? ∧ crosses (correct (ns.map quant)) = false) →
      rings dbg faces nfc nnodes quant correct crosses cells = .ok (nss.map fun ns => correct (ns.map quant)) := by
    intro dbg hd
    induction h with
    | nil => rfl
    | cons h1 h2 ih =>
      rename_i c ns cs nss
      have ih := ih (fun x hx => hb x (by simp [hx])) (fun hh x hx => hd hh x (by simp [hx]))
      have e := cellNodes_spec dbg quant hf h1 (hb ns (by simp))
      rw [rings]
      simp only [Res.bind_eq, e, Res.bind_ok, ih]
      cases dbg
      · simp [Res.assert]
      · have := hd rfl ns (by simp)
        rw [Res.assert_true _ this.1, Res.bind_ok, Res.assert_true _ this.2]; rfl
  constructor
  · rw [convertTessellationToRings]
    simp only [Res.bind_eq, key false (by simp)]
    simp [Res.assert]
  · intro h1 h2 h3 h4
    rw [convertTessellationToRings]
    simp only [Res.bind_eq, key true (fun _ => h4)]
    rw [Res.assert_true _ h1, Res.bind_ok, Res.assert_true _ h2, Res.bind_ok, Res.assert_true _ h3]; rfl

example : List.Forall₂ (Starts [[0, 1], [2, 1], [2, 0], [2, 3], [3, 0]]) [[0, -2, 2], [-3, 3, 4]] [[0, 1, 2], [0, 2, 3]] := by
  unfold Starts
  refine .cons (.cons ⟨0, 1, by decide⟩ (.cons ⟨2, 1, by decide⟩ (.cons ⟨2, 0, by decide⟩ .nil))) (.cons (.cons ⟨2, 0, by decide⟩ (.cons ⟨2, 3, by decide⟩ (.cons ⟨3, 0, by decide⟩ .nil))) .nil)
end Verif.Props
