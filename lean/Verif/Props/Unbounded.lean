import Verif.Proofs.Unbounded
import Verif.Spec.Unbounded
import Mathlib.Tactic.Ring
import Mathlib.Tactic.FieldSimp
import Mathlib.Tactic.NormNum
/-
C105: the topology of an unbounded mesh from rings of nodes. C106: where a segment crosses a box.
-/
namespace Verif.Props
open Verif Verif.Unbounded Verif.QuantTess Verif.Internal Verif.Geom

variable {K : Type} [Field K] [LinearOrder K] [IsStrictOrderedRing K]

theorem ring_of {n : Nat} {c : List Nat} (h : IsRing n c) : Ring n c := ⟨h.1, h.2.1, h.2.2⟩

/-- The ring the function keeps is the counter-clockwise one. -/
theorem turn_around {side : Int → Int → Nat → K} (hanti : ∀ a b i, side b a i = -side a b i) {n i : Nat} {c : List Nat} (hc : Ring n c)
    (h : Around side i c ∨ Around side i c.reverse) : Around side i (turn side i c) := by
  have h3 := hc.three
  rcases h with h | h
  · have := h 0 (by omega)
    rw [Nat.zero_add, Nat.mod_eq_of_lt (by omega)] at this
    rw [turn, if_neg (not_lt.2 this.le)]; exact h
  · have h' := h (c.length - 2) (by simp; omega)
    rw [List.length_reverse, Nat.mod_eq_of_lt (by omega), getD_reverse (by omega), getD_reverse (by omega),
      show c.length - 1 - (c.length - 2) = 1 by omega, show c.length - 1 - (c.length - 2 + 1) = 0 by omega, hanti] at h'
    rw [turn, if_pos (by linarith)]; exact h

theorem forall₂_get {α β : Type} {R : α → β → Prop} {l : List α} {l' : List β} (h : List.Forall₂ R l l') {j : Nat} {b : β} (hb : l'[j]? = some b) :
    ∃ a, l[j]? = some a ∧ R a b := by
  induction h generalizing j with
  | nil => simp at hb
  | cons hr _ ih =>
    cases j with
    | zero => simp at hb; subst hb; exact ⟨_, rfl, hr⟩
    | succ j => simpa using ih (by simpa using hb)

/-- The mesh from rings of which each surrounds its generator, in either direction: every cell is its ring, counter-clockwise, side by side
as directed faces; no two faces join the same nodes and each belongs to a cell; `faceCells` is the exact inverse of `cells`; and
`infFaces` are the faces of which only one cell knows, each once. Without assertions. -/
theorem C105_topology_partial {nnodes : Nat} {infNodes : List Nat} {side : Int → Int → Nat → K} (hanti : ∀ a b i, side b a i = -side a b i)
    {rings : List (List Nat)} (hring : ∀ c ∈ rings, IsRing nnodes c)
    (hgen : ∀ (i : Nat) c, rings[i]? = some c → Around side i c ∨ Around side i c.reverse) :
    ∃ out, construct false nnodes infNodes side rings = .ok out ∧ out.cells.length = rings.length ∧
      (∀ (i : Nat) c, rings[i]? = some c → ∃ cell c', out.cells[i]? = some cell ∧ (c' = c ∨ c' = c.reverse) ∧ Around side i c' ∧
        Corners out.faces cell (c'.map Int.ofNat)) ∧
      out.faces.Nodup ∧ (∀ e ∈ out.faces, e.1 < e.2) ∧
      out.faceCells.length = out.faces.length ∧ (∀ l ∈ out.faceCells, l ≠ []) ∧ Mirrors out.cells out.faceCells ∧
      out.infFaces.Nodup ∧ ∀ k, k ∈ out.infFaces ↔ ∃ l, out.faceCells[k]? = some l ∧ l.length = 1 := by
  have hr : ∀ c ∈ rings, Ring nnodes c := fun c hc => ring_of (hring c hc)
  have h0 : Ready 0 ({} : St) := by
    refine ⟨⟨rfl, by simp⟩, rfl, by simp, by simp, rfl, ?_, ?_⟩
    · intro k v
      rw [getD_snoc]; split <;> simp
    · simp
  obtain ⟨s, e, i, _, _, m, f⟩ := addCells_spec false side rings 0 h0 hr
  refine ⟨⟨s.faces, s.cells, s.faceCells, infFaces s⟩, by simp [construct, e], ?_, ?_, by simpa using i.tab.nodup, ?_, i.len, ?_, ?_, ?_, ?_⟩
  · simpa using i.ncells
  · intro j c hj
    obtain ⟨ts, h1, h2⟩ := f j c hj
    rw [Nat.zero_add] at h1 h2
    have hc := hr c (List.mem_of_getElem? hj)
    have har := turn_around hanti hc (hgen j c hj)
    refine ⟨ts, turn side j c, h1, ?_, har, ?_, ?_⟩
    · unfold turn; split
      · exact .inr rfl
      · exact .inl rfl
    · have := h2.length_eq
      simp [sides] at this; simp [this]
    · intro k t ht
      obtain ⟨p, hp, hf, hs⟩ := forall₂_get h2 ht
      simp only [sides, List.getElem?_map, Option.map_eq_some_iff] at hp
      obtain ⟨k', hk', hp⟩ := hp
      obtain ⟨hlt, hkk⟩ := List.getElem?_eq_some_iff.1 hk'
      simp only [List.getElem_range] at hkk
      subst hkk
      rw [List.length_range] at hlt
      have hpos := har k hlt
      have hm := Nat.mod_lt (k + 1) (show 0 < (turn side j c).length by omega)
      refine ⟨(turn side j c).getD k 0, (turn side j c).getD ((k + 1) % (turn side j c).length) 0, ?_, ?_, ?_⟩
      · simp [List.getD_eq_getElem?_getD, hlt]
      · rw [List.length_map]; simp [List.getD_eq_getElem?_getD, hm]
      · subst hp
        simp only [key] at hf hs
        generalize (turn side j c).getD k 0 = a at *
        generalize (turn side j c).getD ((k + 1) % (turn side j c).length) 0 = b at *
        by_cases hab : a < b
        · simp only [if_pos hab] at hf hs
          have h0 := hs.2 hpos
          unfold directed; unfold index at hf
          rw [if_pos h0] at hf ⊢; exact hf
        · simp only [if_neg hab] at hf hs
          have h0 : ¬ 0 ≤ t := by
            rw [hs, hanti]; intro hh; linarith
          unfold directed; unfold index at hf
          rw [if_neg h0] at hf ⊢; rw [hf]; rfl
  · intro x hx
    rcases m x hx with h | ⟨c, hc, p, hp, rfl⟩
    · simp at h
    · have hne : p.1 ≠ p.2 := by
        rcases List.mem_append.1 hp with hp | hp
        · exact ((hr c hc).sides p hp).1
        · exact ((hr c hc).reverse.sides p hp).1
      unfold key; split
      · simpa
      · simp only; omega
  · intro l hl hnil
    obtain ⟨k, hk⟩ := List.getElem?_of_mem hl
    have hlt := (List.getElem?_eq_some_iff.1 hk).1
    have := i.pos k (by rw [← i.len]; exact hlt)
    rw [i.cnt, List.getD_eq_getElem?_getD, hk, hnil] at this
    simp at this
  · refine mirror_of_counts fun k v => ?_
    rw [i.mirror, getD_snoc]
    split
    · rename_i hv
      rw [List.getD_eq_getElem?_getD, List.getElem?_eq_none (by simp only; omega)]; rfl
    · rfl
  · exact List.Nodup.filter _ List.nodup_range
  · intro k
    simp only [infFaces, List.mem_filter, List.mem_range, decide_eq_true_eq]
    rw [i.cnt, ← i.len]
    constructor
    · rintro ⟨hlt, h1⟩
      exact ⟨s.faceCells[k], by simp [hlt], by simpa [List.getD_eq_getElem?_getD, hlt] using h1⟩
    · rintro ⟨l, hl, h1⟩
      exact ⟨(List.getElem?_eq_some_iff.1 hl).1, by simp [List.getD_eq_getElem?_getD, hl, h1]⟩

/-- Twice the area of the triangle of two nodes and the generator: what `orient2d` computes without rounding. -/
def area (nodes gens : Nat → ℚ × ℚ) (a b : Int) (i : Nat) : ℚ :=
  let p := nodes a.toNat; let q := nodes b.toNat; let g := gens i
  (p.1 - g.1) * (q.2 - g.2) - (p.2 - g.2) * (q.1 - g.1)

theorem area_anti (nodes gens : Nat → ℚ × ℚ) (a b : Int) (i : Nat) : area nodes gens b a i = -area nodes gens a b i := by
  simp only [area]; ring

/-- Two squares that share a side; the second one is given clockwise. -/
def twoNodes : Nat → ℚ × ℚ
  | 0 => (0, 0)
  | 1 => (1, 0)
  | 2 => (1, 1)
  | 3 => (0, 1)
  | 4 => (2, 0)
  | _ => (2, 1)
def twoGens : Nat → ℚ × ℚ
  | 0 => (1 / 2, 1 / 2)
  | _ => (3 / 2, 1 / 2)

example : (∀ c ∈ [[0, 1, 2, 3], [1, 2, 5, 4]], IsRing 6 c) ∧ Around (area twoNodes twoGens) 0 [0, 1, 2, 3] ∧ Around (area twoNodes twoGens) 1 [1, 2, 5, 4].reverse := by
  unfold IsRing Around; decide +kernel
example : construct true 6 [0, 1, 2, 3, 4, 5] (area twoNodes twoGens) [[0, 1, 2, 3], [1, 2, 5, 4]] =
    .ok ⟨[(0, 1), (1, 2), (2, 3), (0, 3), (4, 5), (2, 5), (1, 4)], [[0, 1, 2, -4], [4, -6, -2, 6]], [[0], [0, -2], [0], [-1], [1], [-2], [1]], [0, 2, 3, 4, 5, 6]⟩ := by
  decide +kernel

theorem checkInf_spec (faces : List (Int × Int)) (infNodes : List Nat) : ∀ ks : List Nat, (∀ k ∈ ks, k < faces.length) →
    (checkInf true faces infNodes ks = .ok () ∧ ∀ k ∈ ks, ∀ e, faces[k]? = some e → (∃ n ∈ infNodes, (n : Int) = e.1) ∧ ∃ n ∈ infNodes, (n : Int) = e.2) ∨
    (checkInf true faces infNodes ks = .abort ∧ ∃ k ∈ ks, ∃ e, faces[k]? = some e ∧ ¬ ((∃ n ∈ infNodes, (n : Int) = e.1) ∧ ∃ n ∈ infNodes, (n : Int) = e.2))
  | [], _ => .inl ⟨rfl, by simp⟩
  | k :: ks, h => by
    have hk := h k (by simp)
    simp only [checkInf, Res.bind_eq, Res.assert_true _ hk, Res.bind_ok, rd_lt hk]
    by_cases h1 : ∃ n ∈ infNodes, (n : Int) = faces[k].1
    · by_cases h2 : ∃ n ∈ infNodes, (n : Int) = faces[k].2
      · rw [Res.assert_true _ h1, Res.bind_ok, Res.assert_true _ h2, Res.bind_ok]
        rcases checkInf_spec faces infNodes ks (fun x hx => h x (by simp [hx])) with ⟨a, b⟩ | ⟨a, x, hx, b⟩
        · refine .inl ⟨a, ?_⟩
          intro x hx e he
          rcases List.mem_cons.1 hx with rfl | hx
          · obtain ⟨_, rfl⟩ := List.getElem?_eq_some_iff.1 he; exact ⟨h1, h2⟩
          · exact b x hx e he
        · exact .inr ⟨a, x, by simp [hx], b⟩
      · rw [Res.assert_true _ h1, Res.bind_ok, Res.assert_debug_false h2]
        exact .inr ⟨rfl, k, by simp, faces[k], by simp [hk], fun hh => h2 hh.2⟩
    · rw [Res.assert_debug_false h1]
      exact .inr ⟨rfl, k, by simp, faces[k], by simp [hk], fun hh => h1 hh.1⟩

/-- With assertions: the same mesh if the nodes of the faces that one cell knows are all marked as infinite (and there is a node and such
a mark, and no more marks than nodes), and otherwise the program ends. -/
theorem C105_assertions {nnodes : Nat} {infNodes : List Nat} {side : Int → Int → Nat → K} {rings : List (List Nat)} (hring : ∀ c ∈ rings, IsRing nnodes c)
    {out : Out} (h : construct false nnodes infNodes side rings = .ok out) :
    (nnodes ≠ 0 ∧ infNodes ≠ [] ∧ infNodes.length ≤ nnodes ∧
      (∀ k ∈ out.infFaces, ∀ e, out.faces[k]? = some e → (∃ n ∈ infNodes, (n : Int) = e.1) ∧ ∃ n ∈ infNodes, (n : Int) = e.2) →
      construct true nnodes infNodes side rings = .ok out) ∧
    (¬ (nnodes ≠ 0 ∧ infNodes ≠ [] ∧ infNodes.length ≤ nnodes ∧
      (∀ k ∈ out.infFaces, ∀ e, out.faces[k]? = some e → (∃ n ∈ infNodes, (n : Int) = e.1) ∧ ∃ n ∈ infNodes, (n : Int) = e.2)) →
      construct true nnodes infNodes side rings = .abort) := by
  have hr : ∀ c ∈ rings, Ring nnodes c := fun c hc => ring_of (hring c hc)
  have h0 : Ready 0 ({} : St) := by
    refine ⟨⟨rfl, by simp⟩, rfl, by simp, by simp, rfl, ?_, ?_⟩
    · intro k v
      rw [getD_snoc]; split <;> simp
    · simp
  obtain ⟨s, e, _⟩ := addCells_spec false side rings 0 h0 hr
  obtain ⟨s', e', i, _⟩ := addCells_spec true side rings 0 h0 hr
  have hdbg : ∀ (cs : List (List Nat)) (i : Nat) (s : St), addCells true nnodes side i cs s = .abort ∨ addCells true nnodes side i cs s = addCells false nnodes side i cs s := by
    have hs : ∀ (i : Nat) (p : Nat × Nat) (x : St × List Int), addSide true nnodes side i p x = .abort ∨ addSide true nnodes side i p x = addSide false nnodes side i p x := by
      intro i p x
      by_cases hp : p.1 = p.2
      · left; simp [addSide, Res.assert, hp]
      · right
        simp only [addSide, Res.bind_eq, hashEdge_key true hp, hashEdge_key false hp, Res.bind_ok, if_true]
        rw [Res.assert_true _ hp, Res.assert_true _ hp]
        simp only [Res.bind_ok]
        rw [Res.assert_true _ (by omega), Res.assert_true _ (by omega)]
    have hss : ∀ (i : Nat) (ps : List (Nat × Nat)) (x : St × List Int), addSides true nnodes side i ps x = .abort ∨ addSides true nnodes side i ps x = addSides false nnodes side i ps x := by
      intro i ps
      induction ps with
      | nil => intro x; right; rfl
      | cons p ps ih =>
        intro x
        rcases hs i p x with h | h
        · left; simp [addSides, h]
        · simp only [addSides, Res.bind_eq, h]
          cases addSide false nnodes side i p x with
          | ok y => simpa using ih y
          | abort => right; rfl
          | ub => right; rfl
    intro cs
    induction cs with
    | nil => intro i s; right; rfl
    | cons c cs ih =>
      intro i s
      have ht : turned true nnodes side i c = .abort ∨ turned true nnodes side i c = turned false nnodes side i c := by
        by_cases hl : c.length > 2
        · right; simp only [turned, Res.assert_true _ hl]
        · left; simp [turned, Res.assert, hl]
      rcases ht with ht | ht
      · left; simp [addCells, ht]
      · simp only [addCells, Res.bind_eq, ht]
        cases turned false nnodes side i c with
        | abort => right; rfl
        | ub => right; rfl
        | ok c' =>
          simp only [Res.bind_ok]
          rcases hss i (sides c') (s, []) with h | h
          · left; simp [h]
          · rw [h]
            cases addSides false nnodes side i (sides c') (s, []) with
            | abort => right; rfl
            | ub => right; rfl
            | ok y => simpa using ih (i + 1) _
  have hss : s' = s := by
    rcases hdbg rings 0 {} with h | h
    · rw [h] at e'; simp at e'
    · rw [e', e] at h; simpa using h
  subst hss
  obtain rfl : (⟨s'.faces, s'.cells, s'.faceCells, infFaces s'⟩ : Out) = out := by
    simpa [construct, e] using h
  have hlen : (infFaces s').length ≤ s'.faces.length := by
    have := List.length_filter_le (fun k => decide (s'.counter k = 1)) (List.range s'.faces.length)
    simpa [infFaces] using this
  have hin : ∀ k ∈ infFaces s', k < s'.faces.length := by
    intro k hk; simp only [infFaces, List.mem_filter, List.mem_range] at hk; exact hk.1
  have hex : construct true nnodes infNodes side rings = (Res.assert true (nnodes ≠ 0)).bind fun _ => (Res.assert true (infNodes ≠ [])).bind fun _ =>
      (checkInf true s'.faces infNodes (infFaces s')).bind fun _ => (Res.assert true (infNodes.length ≤ nnodes)).bind fun _ =>
      .ok ⟨s'.faces, s'.cells, s'.faceCells, infFaces s'⟩ := by
    simp only [construct, Res.bind_eq, e', Res.bind_ok, if_true, Res.assert_true _ i.len, Res.assert_true _ hlen, Res.pure_eq]
  rw [hex]
  by_cases a1 : nnodes ≠ 0
  · rw [Res.assert_true _ a1, Res.bind_ok]
    by_cases a2 : infNodes ≠ []
    · rw [Res.assert_true _ a2, Res.bind_ok]
      rcases checkInf_spec s'.faces infNodes (infFaces s') hin with ⟨b1, b2⟩ | ⟨b1, k, hk, x, hx, b2⟩
      · rw [b1, Res.bind_ok]
        by_cases a3 : infNodes.length ≤ nnodes
        · rw [Res.assert_true _ a3, Res.bind_ok]
          exact ⟨fun _ => rfl, fun hh => absurd ⟨a1, a2, a3, b2⟩ hh⟩
        · rw [Res.assert_debug_false a3]
          exact ⟨fun hh => absurd hh.2.2.1 a3, fun _ => rfl⟩
      · rw [b1]
        exact ⟨fun hh => absurd (hh.2.2.2 k hk x hx) b2, fun _ => rfl⟩
    · rw [Res.assert_debug_false a2]
      exact ⟨fun hh => absurd hh.2.1 a2, fun _ => rfl⟩
  · rw [Res.assert_debug_false a1]
    exact ⟨fun hh => absurd hh.1 a1, fun _ => rfl⟩

example : construct false 6 [0, 1] (area twoNodes twoGens) [[0, 1, 2, 3], [1, 2, 5, 4]] ≠ .ub ∧
    construct true 6 [0, 1] (area twoNodes twoGens) [[0, 1, 2, 3], [1, 2, 5, 4]] = .abort := by decide +kernel

/-- A cell whose generator lies on the line of one of its sides names that side backwards if the side is passed with its smaller node
first: the cell is no closed loop of directed faces. -/
theorem C105_on_line_fails (dbg : Bool) {nnodes : Nat} (side : Int → Int → Nat → K) (i : Nat) {a b : Nat} (hab : a < b) (hb : b < nnodes) (hz : side a b i = 0)
    (s : St) (cell : List Int) (hs : Inv i s cell) : ∃ s' t, addSide dbg nnodes side i (a, b) (s, cell) = .ok (s', cell ++ [t]) ∧
      directed s'.faces t = some ((b : Int), (a : Int)) := by
  obtain ⟨s', t, e, _, _, _, _, f, o⟩ := addSide_spec dbg (nnodes := nnodes) side hs (p := (a, b)) (by simp; omega) (by simp; omega) hb
  refine ⟨s', t, e, ?_⟩
  simp only [key, if_pos hab, hz, lt_irrefl, iff_false] at f o
  unfold directed; unfold index at f
  rw [if_neg o] at f ⊢
  rw [f]; rfl

example : ∃ out, construct false 3 [0] (area (fun n => ([(0, 0), (2, 0), (1, 1)] : List (ℚ × ℚ)).getD n (0, 0)) fun _ => (1, 0)) [[0, 1, 2]] = .ok out ∧
    directed out.faces (((out.cells.getD 0 []).getD 0 0)) = some (1, 0) := ⟨⟨[(0, 1), (1, 2), (0, 2)], [[-1, 1, -3]], [[-1], [0], [-1]], [0, 1, 2]⟩, by decide +kernel⟩

/-! ### C106 -/

/-- The corners and facets of the box that the function expects. -/
def boxVerts (lx ly hx hy : K) : List K := [lx, ly, hx, ly, hx, hy, lx, hy]
def boxSides : List (List Int) := [[0, 1], [1, 2], [2, 3], [3, 0]]

/-- Where a horizontal segment meets an upright side well inside the side, the height is that of the segment. -/
theorem seg_upright {x1 x2 y x ya yb t : K} (hx : x1 < x2) (h1 : x1 ≤ x) (h2 : x ≤ x2) (hne : ya ≠ yb) (ht : 0 ≤ t)
    (hlo : t ≤ (y - ya) / (yb - ya)) (hhi : (y - ya) / (yb - ya) ≤ 1 - t) : ∃ q, segIntersect ⟨x1, y⟩ ⟨x2, y⟩ ⟨x, ya⟩ ⟨x, yb⟩ t = some q ∧ q.y = y := by
  have hd : x2 - x1 ≠ 0 := by have := sub_pos.2 hx; exact this.ne'
  have hh : yb - ya ≠ 0 := sub_ne_zero.2 (Ne.symm hne)
  have hk : cross2 ((⟨x2, y⟩ : V2 K) - ⟨x1, y⟩) ((⟨x, yb⟩ : V2 K) - ⟨x, ya⟩) = (x2 - x1) * (yb - ya) := by
    simp [cross2]
  have hp1 : cross2 ((⟨x, ya⟩ : V2 K) - ⟨x1, y⟩) ((⟨x, yb⟩ : V2 K) - ⟨x, ya⟩) / ((x2 - x1) * (yb - ya)) = (x - x1) / (x2 - x1) := by
    simp [cross2]; field_simp
  have hp2 : cross2 ((⟨x, ya⟩ : V2 K) - ⟨x1, y⟩) ((⟨x2, y⟩ : V2 K) - ⟨x1, y⟩) / ((x2 - x1) * (yb - ya)) = (y - ya) / (yb - ya) := by
    simp [cross2]; field_simp; ring
  have b1 : 0 ≤ (x - x1) / (x2 - x1) := div_nonneg (by linarith) (by linarith)
  have b2 : (x - x1) / (x2 - x1) ≤ 1 := (div_le_one (by linarith)).2 (by linarith)
  unfold segIntersect
  simp only [hk, hp1, hp2]
  rw [if_neg (mul_ne_zero hd hh), if_pos ⟨by linarith, by linarith, by linarith, by linarith⟩]
  split
  · exact ⟨_, rfl, rfl⟩
  · split
    · exact ⟨_, rfl, rfl⟩
    · rw [if_neg (not_lt.2 hlo), if_neg (not_lt.2 hhi)]
      refine ⟨_, rfl, ?_⟩
      simp only [V2.sub_y]
      field_simp; ring

/-- A horizontal segment that runs right through a box meets it on the left and on the right. Only the crossing on the right is reported,
for every box, every such segment and every tolerance: the test for a repeated point wants both coordinates to differ from the last one. -/
theorem C106_through_fails (dbg : Bool) {lx ly hx hy x1 x2 y t tol : K} (hlx : lx < hx) (hly : ly < hy) (h1 : x1 ≤ lx) (h2 : hx ≤ x2) (ht : 0 ≤ t) (htol : 0 ≤ tol)
    (hlo : t * (hy - ly) ≤ y - ly) (hhi : t * (hy - ly) ≤ hy - y) :
    intersectBoundingBox dbg ⟨x1, y⟩ ⟨x2, y⟩ 4 (boxVerts lx ly hx hy) boxSides t tol = .ok ([1], [hx, y]) := by
  have hH : 0 < hy - ly := sub_pos.2 hly
  have par : ∀ c d yy : K, segIntersect (⟨x1, y⟩ : V2 K) ⟨x2, y⟩ ⟨c, yy⟩ ⟨d, yy⟩ t = none := by
    intro c d yy
    unfold segIntersect; simp [cross2]
  obtain ⟨q, hq, hqy⟩ := seg_upright (x1 := x1) (x2 := x2) (y := y) (x := hx) (ya := ly) (yb := hy) (t := t) (by linarith) (by linarith) h2 hly.ne ht
    ((le_div_iff₀ hH).2 hlo) (by rw [div_le_iff₀ hH]; linarith)
  have hn : hy ≠ ly := hly.ne'
  have hN : ly - hy < 0 := by linarith
  obtain ⟨q', hq', hqy'⟩ := seg_upright (x1 := x1) (x2 := x2) (y := y) (x := lx) (ya := hy) (yb := ly) (t := t) (by linarith) h1 (by linarith) hn ht
    ((le_div_iff_of_neg hN).2 (by linarith)) (by rw [div_le_iff_of_neg hN]; linarith)
  simp [intersectBoundingBox, boxSides, boxVerts, boxLoop, rd, par, hq, hq', hqy, hqy', Res.assert, not_lt.2 htol]

/-- Both crossings are on the segment and on the box. -/
theorem through_two {lx ly hx hy x1 x2 y : K} (hlx : lx < hx) (h1 : x1 ≤ lx) (h2 : hx ≤ x2) (hlo : ly ≤ y) (hhi : y ≤ hy) :
    (lx, y) ≠ (hx, y) ∧ (x1 ≤ lx ∧ lx ≤ x2) ∧ (x1 ≤ hx ∧ hx ≤ x2) ∧ ly ≤ y ∧ y ≤ hy :=
  ⟨fun h => hlx.ne (congrArg Prod.fst h), ⟨h1, by linarith⟩, ⟨by linarith, h2⟩, hlo, hhi⟩

example : intersectBoundingBox true (⟨-1, 1 / 2⟩ : V2 ℚ) ⟨2, 1 / 2⟩ 4 (boxVerts 0 0 1 1) boxSides (1 / 10 ^ 8) (1 / 10 ^ 8) = .ok ([1], [1, 1 / 2]) := by
  decide +kernel

/-- The ends of the sides of the box, in the order of `boxSides`. -/
def boxEnds (lx ly hx hy : K) : Nat → V2 K × V2 K
  | 0 => (⟨lx, ly⟩, ⟨hx, ly⟩)
  | 1 => (⟨hx, ly⟩, ⟨hx, hy⟩)
  | 2 => (⟨hx, hy⟩, ⟨lx, hy⟩)
  | _ => (⟨lx, hy⟩, ⟨lx, ly⟩)

/-- `q` moved onto the line of side `k` of the box. -/
def onto (lx ly hx hy : K) (k : Nat) (q : V2 K) : V2 K :=
  match k with
  | 0 => ⟨q.x, ly⟩
  | 1 => ⟨hx, q.y⟩
  | 2 => ⟨q.x, hy⟩
  | _ => ⟨lx, q.y⟩

/-- What holds of the ids and points collected from the sides below `m`. -/
def BoxGood (p1 p2 : V2 K) (lx ly hx hy t : K) (m : Nat) (r : List Nat × List K) : Prop :=
  r.1.Pairwise (· < ·) ∧ r.2.length = 2 * r.1.length ∧
    (∀ (j k : Nat), r.1[j]? = some k → k < m ∧ ∃ q, segIntersect p1 p2 (boxEnds lx ly hx hy k).1 (boxEnds lx ly hx hy k).2 t = some q ∧
      r.2[2 * j]? = some (onto lx ly hx hy k q).x ∧ r.2[2 * j + 1]? = some (onto lx ly hx hy k q).y) ∧
    (r.1 = [] → ∀ k < m, segIntersect p1 p2 (boxEnds lx ly hx hy k).1 (boxEnds lx ly hx hy k).2 t = none)

theorem BoxGood.none {p1 p2 : V2 K} {lx ly hx hy t : K} {m : Nat} {r : List Nat × List K} (h : BoxGood p1 p2 lx ly hx hy t m r)
    (hn : segIntersect p1 p2 (boxEnds lx ly hx hy m).1 (boxEnds lx ly hx hy m).2 t = none) : BoxGood p1 p2 lx ly hx hy t (m + 1) r := by
  obtain ⟨a, b, c, d⟩ := h
  refine ⟨a, b, fun j k hk => ?_, fun he k hk => ?_⟩
  · obtain ⟨c1, c2⟩ := c j k hk; exact ⟨by omega, c2⟩
  · rcases Nat.lt_succ_iff_lt_or_eq.1 hk with hk | rfl
    · exact d he k hk
    · exact hn

theorem BoxGood.skip {p1 p2 : V2 K} {lx ly hx hy t : K} {m : Nat} {r : List Nat × List K} (h : BoxGood p1 p2 lx ly hx hy t m r)
    (hne : r.1 ≠ []) : BoxGood p1 p2 lx ly hx hy t (m + 1) r := by
  obtain ⟨a, b, c, d⟩ := h
  refine ⟨a, b, fun j k hk => ?_, fun he => absurd he hne⟩
  obtain ⟨c1, c2⟩ := c j k hk; exact ⟨by omega, c2⟩

theorem BoxGood.add {p1 p2 : V2 K} {lx ly hx hy t : K} {m : Nat} {r : List Nat × List K} (h : BoxGood p1 p2 lx ly hx hy t m r) {q : V2 K}
    (hq : segIntersect p1 p2 (boxEnds lx ly hx hy m).1 (boxEnds lx ly hx hy m).2 t = some q) :
    BoxGood p1 p2 lx ly hx hy t (m + 1) (r.1 ++ [m], r.2 ++ [(onto lx ly hx hy m q).x, (onto lx ly hx hy m q).y]) := by
  obtain ⟨a, b, c, d⟩ := h
  refine ⟨?_, by simp [b]; omega, fun j k hk => ?_, fun he => by simp at he⟩
  · refine List.pairwise_append.2 ⟨a, by simp, fun x hx y hy => ?_⟩
    obtain ⟨j, hj⟩ := List.getElem?_of_mem hx
    simp only [List.mem_singleton] at hy; subst hy
    exact (c j x hj).1
  · simp only at hk ⊢
    by_cases hj : j < r.1.length
    · rw [List.getElem?_append_left hj] at hk
      obtain ⟨c1, q', c2, c3, c4⟩ := c j k hk
      refine ⟨by omega, q', c2, ?_, ?_⟩
      · rw [List.getElem?_append_left (by omega)]; exact c3
      · rw [List.getElem?_append_left (by omega)]; exact c4
    · rw [List.getElem?_append_right (by omega)] at hk
      have hj' : j = r.1.length := by
        have := (List.getElem?_eq_some_iff.1 hk).1; simp at this; omega
      subst hj'
      simp at hk; subst hk
      refine ⟨by omega, q, hq, ?_, ?_⟩
      · rw [List.getElem?_append_right (by omega), b]; simp
      · rw [List.getElem?_append_right (by omega), b]; simp

theorem boxLoop_step (dbg : Bool) {p1 p2 : V2 K} {lx ly hx hy t tol : K} {m : Nat} (hm : m < 4) {fs : List (List Int)} {r : List Nat × List K}
    (h : BoxGood p1 p2 lx ly hx hy t m r) : ∃ r', boxLoop dbg 4 (boxVerts lx ly hx hy) p1 p2 t tol m (boxSides.getD m [] :: fs) r =
      boxLoop dbg 4 (boxVerts lx ly hx hy) p1 p2 t tol (m + 1) fs r' ∧ BoxGood p1 p2 lx ly hx hy t (m + 1) r' := by
  have key : boxLoop dbg 4 (boxVerts lx ly hx hy) p1 p2 t tol m (boxSides.getD m [] :: fs) r =
      match segIntersect p1 p2 (boxEnds lx ly hx hy m).1 (boxEnds lx ly hx hy m).2 t with
      | .none => boxLoop dbg 4 (boxVerts lx ly hx hy) p1 p2 t tol (m + 1) fs r
      | some q => if (match r.2.getLast? with
          | .none => true
          | some b => decide (|(onto lx ly hx hy m q).x - (b - 1)| > tol ∧ |(onto lx ly hx hy m q).y - b| > tol)) then
          boxLoop dbg 4 (boxVerts lx ly hx hy) p1 p2 t tol (m + 1) fs (r.1 ++ [m], r.2 ++ [(onto lx ly hx hy m q).x, (onto lx ly hx hy m q).y])
        else boxLoop dbg 4 (boxVerts lx ly hx hy) p1 p2 t tol (m + 1) fs r := by
    obtain rfl | rfl | rfl | rfl : m = 0 ∨ m = 1 ∨ m = 2 ∨ m = 3 := by omega
    all_goals
      simp only [boxLoop, boxSides, boxEnds, boxVerts, onto, rd, Res.assert, Res.bind_eq]
      simp
      rfl
  rw [key]
  cases hq : segIntersect p1 p2 (boxEnds lx ly hx hy m).1 (boxEnds lx ly hx hy m).2 t with
  | none => exact ⟨r, rfl, h.none hq⟩
  | some q =>
    simp only
    cases hl : r.2.getLast? with
    | none => exact ⟨_, rfl, h.add hq⟩
    | some b =>
      simp only
      split
      · exact ⟨_, rfl, h.add hq⟩
      · refine ⟨r, rfl, h.skip fun he => ?_⟩
        have : r.2 = [] := List.eq_nil_of_length_eq_zero (by rw [h.2.1, he]; rfl)
        rw [this] at hl; simp at hl

/-- What is reported is true: the ids are ascending, each of a side that the segment meets, each with its point on the line of that side;
and nothing is reported only if the segment meets no side. No call on a box aborts. -/
theorem C106_reported_partial (dbg : Bool) {lx ly hx hy t tol : K} (p1 p2 : V2 K) :
    ∃ ids pts, intersectBoundingBox dbg p1 p2 4 (boxVerts lx ly hx hy) boxSides t tol = .ok (ids, pts) ∧ ids.Pairwise (· < ·) ∧ pts.length = 2 * ids.length ∧
      (∀ (j k : Nat), ids[j]? = some k → k < 4 ∧ ∃ q, segIntersect p1 p2 (boxEnds lx ly hx hy k).1 (boxEnds lx ly hx hy k).2 t = some q ∧
        pts[2 * j]? = some (onto lx ly hx hy k q).x ∧ pts[2 * j + 1]? = some (onto lx ly hx hy k q).y) ∧
      (ids = [] → ∀ k < 4, segIntersect p1 p2 (boxEnds lx ly hx hy k).1 (boxEnds lx ly hx hy k).2 t = none) := by
  have h0 : BoxGood p1 p2 lx ly hx hy t 0 (([], []) : List Nat × List K) := ⟨by simp, rfl, by simp, by simp⟩
  obtain ⟨r1, e1, h1⟩ := boxLoop_step dbg (tol := tol) (by omega) (fs := [[1, 2], [2, 3], [3, 0]]) h0
  obtain ⟨r2, e2, h2⟩ := boxLoop_step dbg (tol := tol) (by omega) (fs := [[2, 3], [3, 0]]) h1
  obtain ⟨r3, e3, h3⟩ := boxLoop_step dbg (tol := tol) (by omega) (fs := [[3, 0]]) h2
  obtain ⟨r4, e4, h4⟩ := boxLoop_step dbg (tol := tol) (by omega) (fs := []) h3
  refine ⟨r4.1, r4.2, ?_, h4⟩
  have e : boxLoop dbg 4 (boxVerts lx ly hx hy) p1 p2 t tol 0 boxSides ([], []) = .ok r4 := by
    rw [show boxSides = boxSides.getD 0 [] :: [[1, 2], [2, 3], [3, 0]] from rfl, e1]
    refine (Eq.trans ?_ e2).trans ((Eq.trans ?_ e3).trans ((Eq.trans ?_ e4).trans rfl)) <;> rfl
  rw [intersectBoundingBox, e]
  simp only [Res.bind_eq, Res.bind_ok, Res.pure_eq]
  rw [Res.assert_true _ (by rw [h4.2.1]; omega)]
  rfl

example : intersectBoundingBox true (⟨0, -1⟩ : V2 ℚ) ⟨3, 2⟩ 4 (boxVerts 0 0 2 2) boxSides (1 / 10 ^ 8) (1 / 10 ^ 8) = .ok ([0, 1], [1, 0, 2, 1]) := by
  decide +kernel
end Verif.Props
