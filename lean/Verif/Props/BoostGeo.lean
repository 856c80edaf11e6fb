import Verif.Proofs.BoostGeo
import Mathlib.Tactic.IntervalCases
/-
C90: union, intersection and difference of 2D PLCs by way of Boost.Geometry hand the library the given boundaries and return the boundaries it answers with.
C91: clipping returns the piece that contains the point, and all other pieces as orphans.

`lib` is the library, any functions whatever; see `Model/BoostGeo`.
-/
namespace Verif.BoostGeo
open Verif Verif.Geom

variable {K : Type} [DecidableEq K]

/-! ### C90 -/

/-- For all PLCs whose facets are closed loops, with or without holes: the library is given polygons with the boundaries of the two PLCs (put in order by its
own `correct`), and if it answers with one or more pieces without holes, the call returns one PLC for each, in order, with that boundary. In debug and release
builds, for the union, the intersection and the difference. Missing: answers with holes (`C90_holes_fails`) and empty answers (`C90_empty_fails`). -/
theorem C90_boolean_partial (lib : Lib K) (dbg : Bool) {a b : RPLC K} (ha : Loops a) (hb : Loops b) :
    ∃ A B, Draws a A ∧ Draws b B ∧
      (lib.union (lib.correct A) (lib.correct B) ≠ [] → (∀ g ∈ lib.union (lib.correct A) (lib.correct B), Plain lib g) →
        ∃ ps, boostUnion lib dbg a b = .ok ps ∧ List.Forall₂ Draws ps (lib.union (lib.correct A) (lib.correct B))) ∧
      (lib.intersection (lib.correct A) (lib.correct B) ≠ [] → (∀ g ∈ lib.intersection (lib.correct A) (lib.correct B), Plain lib g) →
        ∃ ps, boostIntersect lib dbg a b = .ok ps ∧ List.Forall₂ Draws ps (lib.intersection (lib.correct A) (lib.correct B))) ∧
      (lib.difference (lib.correct A) (lib.correct B) ≠ [] → (∀ g ∈ lib.difference (lib.correct A) (lib.correct B), Plain lib g) →
        ∃ ps, boostSubtract lib dbg a b = .ok ps ∧ List.Forall₂ Draws ps (lib.difference (lib.correct A) (lib.correct B))) := by
  obtain ⟨A, dA, eA⟩ := toPolygon_ok lib ha
  obtain ⟨B, dB, eB⟩ := toPolygon_ok lib hb
  have main : ∀ op : Polygon K → Polygon K → List (Polygon K), op (lib.correct A) (lib.correct B) ≠ [] → (∀ g ∈ op (lib.correct A) (lib.correct B), Plain lib g) →
      ∃ ps, boolean lib op dbg a b = .ok ps ∧ List.Forall₂ Draws ps (op (lib.correct A) (lib.correct B)) := by
    intro op h1 h2
    obtain ⟨ps, e1, e2⟩ := fromResults_plain lib dbg h2
    refine ⟨ps, ?_, e2⟩
    rw [boolean, eA, eB]
    simp only [Res.bind_eq, Res.bind_ok]
    rw [Res.assert_true _ h1, Res.bind_ok, e1]
  exact ⟨A, B, dA, dB, main _, main _, main _⟩

/-- The questions whether a point is inside a PLC, whether two PLCs intersect and whether a PLC intersects itself are put to the library about polygons with the
boundaries of the PLCs, and its answers are returned. -/
theorem C90_queries (lib : Lib K) (dbg : Bool) {a b : RPLC K} (ha : Loops a) (hb : Loops b) (p : K × K) :
    ∃ A B, Draws a A ∧ Draws b B ∧ boostWithin lib dbg p a = .ok (lib.within p (lib.correct A)) ∧
      boostIntersects lib dbg a b = .ok (lib.intersects (lib.correct A) (lib.correct B)) ∧
      boostSelfIntersects lib dbg a = .ok (lib.selfIntersects (lib.correct A)) := by
  obtain ⟨A, dA, eA⟩ := toPolygon_ok lib ha
  obtain ⟨B, dB, eB⟩ := toPolygon_ok lib hb
  refine ⟨A, B, dA, dB, ?_, ?_, ?_⟩
  · rw [boostWithin, eA]; rfl
  · rw [boostIntersects, eA, eB]; rfl
  · rw [boostSelfIntersects, eA]; rfl

theorem reduceLoop_ok (lib : Lib K) (dbg : Bool) : ∀ {as : List (RPLC K)} (acc : List (Polygon K)), (∀ a ∈ as, Loops a) →
    ∃ gs, List.Forall₂ Draws as gs ∧ reduceLoop lib dbg acc as = .ok ((gs.map lib.correct).foldl (fun s g => lib.correctMulti (lib.unionMulti s g)) acc)
  | [], acc, _ => ⟨[], .nil, rfl⟩
  | a :: as, acc, h => by
    obtain ⟨A, dA, eA⟩ := toPolygon_ok lib (h a (by simp))
    obtain ⟨gs, k1, k2⟩ := reduceLoop_ok lib dbg (as := as) (lib.correctMulti (lib.unionMulti acc (lib.correct A))) fun x hx => h x (by simp [hx])
    refine ⟨A :: gs, .cons dA k1, ?_⟩
    rw [reduceLoop, eA, Res.bind_eq, Res.bind_ok, k2]; rfl

/-- `boost_unionReduce`: the library is asked for the union of nothing with the first PLC, of the result with the second, and so on to the last; if it ends
with one or more pieces without holes, no more of them than PLCs, they are returned. -/
theorem C90_reduce_partial (lib : Lib K) (dbg : Bool) {as : List (RPLC K)} (h : ∀ a ∈ as, Loops a) :
    ∃ gs, List.Forall₂ Draws as gs ∧
      let all := (gs.map lib.correct).foldl (fun s g => lib.correctMulti (lib.unionMulti s g)) []
      (all ≠ [] → all.length ≤ as.length → (∀ g ∈ all, Plain lib g) → ∃ ps, boostUnionReduce lib dbg as = .ok ps ∧ List.Forall₂ Draws ps all) := by
  obtain ⟨gs, k1, k2⟩ := reduceLoop_ok lib dbg [] h
  refine ⟨gs, k1, ?_⟩
  intro all h1 h2 h3
  obtain ⟨ps, e1, e2⟩ := fromResults_plain lib dbg h3
  have hl := e2.length_eq
  refine ⟨ps, ?_, e2⟩
  have hps : ps ≠ [] := by intro e; rw [e] at e2; exact h1 (by simpa using e2)
  rw [boostUnionReduce, k2]
  simp only [Res.bind_eq, Res.bind_ok]
  rw [Res.assert_true _ h1, Res.bind_ok, Res.assert_true _ h2, Res.bind_ok, e1, Res.bind_ok, Res.assert_true _ hps, Res.bind_ok, Res.assert_true _ (by omega), Res.bind_ok]
  rfl

/-- The conversion of a polygon with holes. -/
theorem fromHoles_release : ∀ (o : Nat) {rs : List (List (K × K))}, (∀ r ∈ rs, r ≠ []) →
    ∃ hs, fromHoles false o rs = .ok hs ∧ List.Forall₂ (fun h r => h.length = r.length - 1 ∧ ∀ f ∈ h, ∃ i : Int, f = [i, 0]) hs.2 rs
  | _, [], _ => ⟨_, rfl, .nil⟩
  | o, r :: rs, h => by
    have hr : ringPoints r = .ok r.dropLast := by simp [ringPoints, h r (by simp)]
    obtain ⟨hs, e1, e2⟩ := fromHoles_release (o + r.dropLast.length) (rs := rs) fun x hx => h x (by simp [hx])
    refine ⟨(r.dropLast ++ hs.1, (List.range r.dropLast.length).map (holeFacet o r.dropLast.length) :: hs.2), ?_, .cons ⟨by simp, ?_⟩ e2⟩
    · rw [fromHoles, hr]
      simp only [Res.bind_eq, Res.bind_ok, Res.assert_release, e1]; rfl
    · intro f hf
      obtain ⟨i, -, rfl⟩ := List.mem_map.1 hf
      exact ⟨_, holeFacet_eq ..⟩

/-- For every polygon with a hole. In a debug build the conversion aborts. In a release build it returns a PLC whose hole has the wrong boundary: the second
point of every facet of the hole is the first point of the outer ring. -/
theorem C90_holes_fails {g : Polygon K} (ho : Closed g.outer) (hh : g.inners ≠ []) (hc : ∀ r ∈ g.inners, Closed r) (hd : ∀ r ∈ g.inners, ∃ x ∈ r, ∃ y ∈ r, x ≠ y) :
    fromPolygon true g = .abort ∧ ∃ P, fromPolygon false g = .ok P ∧ ¬ Draws P g := by
  have h4 := ho.1
  obtain ⟨r, rs, hg⟩ := List.exists_cons_of_ne_nil hh
  constructor
  · rw [fromPolygon, ringPoints_ok ho]
    simp only [Res.bind_eq, Res.bind_ok]
    rw [Res.assert_true _ (by simp; omega), Res.bind_ok, hg, fromHoles, ringPoints_ok (hc r (by simp [hg]))]
    simp only [Res.bind_eq, Res.bind_ok]
    rw [Res.assert_debug_false (by omega)]; rfl
  · obtain ⟨hs, e1, e2⟩ := fromHoles_release g.outer.dropLast.length (rs := g.inners) fun x hx => by
      rintro rfl; exact absurd (hc [] hx).1 (by simp)
    refine ⟨{ facets := (List.range g.outer.dropLast.length).map (outerFacet g.outer.dropLast.length), holes := hs.2, points := flat (g.outer.dropLast ++ hs.1) }, ?_, ?_⟩
    · rw [fromPolygon, ringPoints_ok ho]
      simp only [Res.bind_eq, Res.bind_ok, Res.assert_release, e1]; rfl
    · rintro ⟨-, hdr⟩
      rw [hg] at e2 hdr
      generalize hs.2 = H at e2 hdr
      cases e2 with
      | cons hx _ =>
        rename_i h0 hs0 _
        simp only [List.map_cons, List.cons.injEq] at hdr
        obtain ⟨q, hq⟩ : ∃ q, pointAt (flat (g.outer.dropLast ++ hs.1)) 0 = some q := by
          have := pointAt_flat (g.outer.dropLast ++ hs.1) 0
          rw [Nat.cast_zero, List.getElem?_eq_getElem (by simp; omega)] at this
          exact ⟨_, this⟩
        -- every point but the first is that point
        have hall : ∀ k, (hk : k + 1 < r.length) → r[k + 1] = q := by
          intro k hk
          have e := congrArg (fun l => l[k]?) hdr.1
          have hk0 : k < h0.length := by omega
          have hz : k < (r.zip r.tail).length := by simp; omega
          simp only [segments, List.getElem?_map, List.getElem?_eq_getElem hk0, List.getElem?_eq_getElem hz, Option.map_some, List.getElem_zip, List.getElem_tail] at e
          obtain ⟨i, hi⟩ := hx.2 h0[k] (List.getElem_mem _)
          rw [hi] at e
          simp only [facetPoints, List.map_cons, List.map_nil, hq, Option.some.injEq, List.cons.injEq, and_true] at e
          exact e.2.symm
        have hrc := hc r (by simp [hg])
        have h4r := hrc.1
        have hfirst : r[0]'(by omega) = q := by
          have := hrc.2
          rw [List.getLast?_eq_getElem?, List.head?_eq_getElem?, List.getElem?_eq_getElem (show 0 < r.length by omega), List.getElem?_eq_getElem (show r.length - 1 < r.length by omega)] at this
          rw [Option.some.inj this, ← hall (r.length - 2) (by omega)]
          congr 1; omega
        have hmem : ∀ x ∈ r, x = q := by
          intro x hx
          obtain ⟨k, hk, rfl⟩ := List.getElem_of_mem hx
          rcases k with _ | k
          · exact hfirst
          · exact hall k hk
        obtain ⟨x, hx1, y, hy1, hxy⟩ := hd r (by simp [hg])
        exact hxy ((hmem x hx1).trans (hmem y hy1).symm)

/-- When the library answers that nothing is left, as for the intersection of disjoint regions, the call aborts in a debug build (and returns no PLC in a release
build). -/
theorem C90_empty_fails (lib : Lib K) {a b : RPLC K} (ha : Loops a) (hb : Loops b) :
    ∃ A B, Draws a A ∧ Draws b B ∧ (lib.intersection (lib.correct A) (lib.correct B) = [] → boostIntersect lib true a b = .abort ∧ boostIntersect lib false a b = .ok []) ∧
      (lib.difference (lib.correct A) (lib.correct B) = [] → boostSubtract lib true a b = .abort ∧ boostSubtract lib false a b = .ok []) := by
  obtain ⟨A, dA, eA⟩ := toPolygon_ok lib ha
  obtain ⟨B, dB, eB⟩ := toPolygon_ok lib hb
  have main : ∀ op : Polygon K → Polygon K → List (Polygon K), op (lib.correct A) (lib.correct B) = [] → boolean lib op true a b = .abort ∧ boolean lib op false a b = .ok [] := by
    intro op h
    constructor <;> rw [boolean, eA, eB] <;> simp only [Res.bind_eq, Res.bind_ok, h]
    · rfl
    · rfl
  exact ⟨A, B, dA, dB, main _, main _⟩

/-! ### C91 -/

theorem mem_ring {r : List (K × K)} (h : Closed r) (p : K × K) : p ∈ r.dropLast ↔ p ∈ r := by
  refine ⟨fun hp => List.mem_of_mem_dropLast hp, fun hp => ?_⟩
  have h4 := h.1
  obtain ⟨k, hk, rfl⟩ := List.getElem_of_mem hp
  by_cases hl : k < r.dropLast.length
  · rw [← List.getElem_dropLast hl]; exact List.getElem_mem _
  · have e : k = r.length - 1 := by simp at hl; omega
    have := h.2
    rw [List.getLast?_eq_getElem?, List.head?_eq_getElem?, List.getElem?_eq_getElem (show 0 < r.length by omega), List.getElem?_eq_getElem (show r.length - 1 < r.length by omega)] at this
    have h0 : 0 < r.dropLast.length := by simp; omega
    have e2 : r[k] = r.dropLast[0] := by rw [List.getElem_dropLast, Option.some.inj this]; congr 1
    rw [e2]; exact List.getElem_mem _

theorem clipLoop_ok (lib : Lib K) (dbg : Bool) (p : K × K) : ∀ {gs : List (Polygon K)} (j k : Nat) (orphans : List (RPLC K)), (∀ g ∈ gs, Closed g.outer ∧ g.inners = []) →
    ∃ k' os, clipLoop lib dbg p gs j k orphans = .ok (k', orphans ++ os) ∧ List.Forall₂ Draws os (gs.filter fun g => !touches lib p g) ∧
      (((gs.filter (touches lib p)) = [] ∧ k' = k) ∨ ∃ i, k' = j + i ∧ i < gs.length ∧ gs[i]? = (gs.filter (touches lib p)).getLast?)
  | [], j, k, orphans, _ => ⟨k, [], by simp [clipLoop], .nil, Or.inl ⟨rfl, rfl⟩⟩
  | g :: gs, j, k, orphans, h => by
    have hg := h g (by simp)
    have htail : ∀ x ∈ gs, Closed x.outer ∧ x.inners = [] := fun x hx => h x (by simp [hx])
    have last : ∀ {x : Polygon K} {l : List (Polygon K)}, l ≠ [] → (x :: l).getLast? = l.getLast? := by
      intro x l hl; obtain ⟨y, l', rfl⟩ := List.exists_cons_of_ne_nil hl; simp
    have hit : touches lib p g = true → ∃ k' os, clipLoop lib dbg p gs (j + 1) j orphans = .ok (k', orphans ++ os) ∧ List.Forall₂ Draws os ((g :: gs).filter fun g => !touches lib p g) ∧
        ((((g :: gs).filter (touches lib p)) = [] ∧ k' = k) ∨ ∃ i, k' = j + i ∧ i < (g :: gs).length ∧ (g :: gs)[i]? = ((g :: gs).filter (touches lib p)).getLast?) := by
      intro ht
      obtain ⟨k', os, e1, e2, e3⟩ := clipLoop_ok lib dbg p (gs := gs) (j + 1) j orphans htail
      refine ⟨k', os, e1, by simpa [ht] using e2, Or.inr ?_⟩
      rcases e3 with ⟨e3, e4⟩ | ⟨i, e3, e4, e5⟩
      · exact ⟨0, by omega, by simp, by simp [ht, e3]⟩
      · refine ⟨i + 1, by omega, by simpa using e4, ?_⟩
        have hne : gs.filter (touches lib p) ≠ [] := by
          intro hn; rw [hn, List.getElem?_eq_getElem e4] at e5; cases e5
        simp only [ht, List.filter_cons_of_pos, List.getElem?_cons_succ, last hne, e5]
    rw [clipLoop]
    by_cases h1 : lib.coveredBy p g = true
    · rw [if_pos h1]; exact hit (by simp [touches, h1])
    · rw [if_neg h1, ringPoints_ok hg.1]
      simp only [Res.bind_eq, Res.bind_ok, mem_ring hg.1]
      by_cases h2 : p ∈ g.outer
      · rw [if_pos h2]; exact hit (by simp [touches, h2])
      · have ht : touches lib p g = false := by simp [touches, h1, h2]
        obtain ⟨P, k1, k2, -⟩ := fromPolygon_plain dbg hg.1 hg.2
        obtain ⟨k', os, e1, e2, e3⟩ := clipLoop_ok lib dbg p (gs := gs) (j + 1) k (orphans ++ [P]) htail
        rw [if_neg h2, k1, Res.bind_ok, e1]
        refine ⟨k', P :: os, by simp, by simpa [ht] using And.intro k2 e2, ?_⟩
        rcases e3 with ⟨e3, e4⟩ | ⟨i, e3, e4, e5⟩
        · exact Or.inl ⟨by simp [ht, e3], e4⟩
        · exact Or.inr ⟨i + 1, by omega, by simpa using e4, by simpa [ht] using e5⟩

/-- What `boost_clip` returns when the intersection has several pieces, all without holes: the last one that contains the point or has it as a corner, and as
orphans, after those that were there, the ones that do not. -/
theorem C91_clip_several (lib : Lib K) (dbg : Bool) {a b : RPLC K} (ha : Loops a) (hb : Loops b) (p : K × K) (orphans : List (RPLC K)) :
    ∃ A B, Draws a A ∧ Draws b B ∧ ∀ pieces, lib.intersection (lib.correct A) (lib.correct B) = pieces → 2 ≤ pieces.length → (∀ g ∈ pieces, Closed g.outer ∧ g.inners = []) →
      (∀ g, (pieces.filter (touches lib p)).getLast? = some g → Closed (lib.unique (lib.correct g)).outer → (lib.unique (lib.correct g)).inners = [] →
        ∃ P os, boostClip lib dbg a b p orphans = .ok (P, orphans ++ os) ∧ Draws P (lib.unique (lib.correct g)) ∧ List.Forall₂ Draws os (pieces.filter fun g => !touches lib p g)) ∧
      (pieces.filter (touches lib p) = [] → boostClip lib dbg a b p orphans = if dbg then .abort else .ub) := by
  obtain ⟨A, dA, eA⟩ := toPolygon_ok lib ha
  obtain ⟨B, dB, eB⟩ := toPolygon_ok lib hb
  refine ⟨A, B, dA, dB, fun pieces hp h2 hh => ?_⟩
  obtain ⟨k, os, e1, e2, e3⟩ := clipLoop_ok lib dbg p (gs := pieces) 0 pieces.length orphans hh
  have hbody : boostClip lib dbg a b p orphans = (choosePiece lib dbg p pieces orphans).bind fun r => (fromPolygon dbg (lib.unique (lib.correct r.1))).bind fun P => .ok (P, r.2) := by
    rw [boostClip, eA, eB]
    simp only [Res.bind_eq, Res.bind_ok, hp]
    rw [Res.assert_true _ (by omega), Res.bind_ok]; rfl
  constructor
  · intro g hg hc hi
    rcases e3 with ⟨e3, -⟩ | ⟨i, e3, e4, e5⟩
    · rw [e3] at hg; cases hg
    · obtain ⟨P, k1, k2, -⟩ := fromPolygon_plain dbg hc hi
      refine ⟨P, os, ?_, k2, e2⟩
      rw [hbody, choosePiece, if_neg (by omega), e1]
      rw [hg] at e5
      have e3' : k = i := by omega
      subst e3'
      simp only [Res.bind_eq, Res.bind_ok, rd, e5]
      rw [Res.assert_true _ e4]
      simp only [Res.bind_ok, Res.pure_eq, k1]
  · intro hn
    have hk : k = pieces.length := by
      rcases e3 with ⟨-, e3⟩ | ⟨i, e3, e4, e5⟩
      · exact e3
      · rw [hn, List.getElem?_eq_getElem e4] at e5; cases e5
    rw [hbody, choosePiece, if_neg (by omega), e1]
    simp only [Res.bind_eq, Res.bind_ok, hk, rd]
    cases dbg
    · simp
    · rw [Res.assert_debug_false (by omega)]; rfl

/-- When one piece alone contains the point or has it as a corner, that piece is returned and all the others, in order, are orphans. When the intersection has a
single piece it is returned and there are no new orphans. Missing: points on two pieces (`C91_shared_fails`) or none (`C91_outside_fails`), and pieces with
holes (`C90_holes_fails`). -/
theorem C91_clip_partial (lib : Lib K) (dbg : Bool) {a b : RPLC K} (ha : Loops a) (hb : Loops b) (p : K × K) (orphans : List (RPLC K)) :
    ∃ A B, Draws a A ∧ Draws b B ∧ ∀ l g r, lib.intersection (lib.correct A) (lib.correct B) = l ++ g :: r → (∀ x ∈ l ++ g :: r, Closed x.outer ∧ x.inners = []) →
      (touches lib p g = true ∨ l ++ r = []) → (∀ x ∈ l ++ r, touches lib p x = false) → Closed (lib.unique (lib.correct g)).outer → (lib.unique (lib.correct g)).inners = [] →
      ∃ P os, boostClip lib dbg a b p orphans = .ok (P, orphans ++ os) ∧ Draws P (lib.unique (lib.correct g)) ∧ List.Forall₂ Draws os (l ++ r) := by
  obtain ⟨A, dA, eA⟩ := toPolygon_ok lib ha
  obtain ⟨B, dB, eB⟩ := toPolygon_ok lib hb
  refine ⟨A, B, dA, dB, fun l g r hp hh hg ho hc hi => ?_⟩
  have hbody : boostClip lib dbg a b p orphans = (choosePiece lib dbg p (l ++ g :: r) orphans).bind fun r => (fromPolygon dbg (lib.unique (lib.correct r.1))).bind fun P => .ok (P, r.2) := by
    rw [boostClip, eA, eB]
    simp only [Res.bind_eq, Res.bind_ok, hp]
    rw [Res.assert_true _ (by simp), Res.bind_ok]; rfl
  obtain ⟨P, k1, k2, -⟩ := fromPolygon_plain dbg hc hi
  by_cases h0 : l ++ r = []
  · obtain ⟨rfl, rfl⟩ := List.append_eq_nil_iff.1 h0
    refine ⟨P, [], ?_, k2, .nil⟩
    rw [hbody, choosePiece, if_pos (by simp)]
    simp [rd, k1]
  · have ht : touches lib p g = true := hg.resolve_right h0
    have hlen : 2 ≤ (l ++ g :: r).length := by
      have := List.length_pos_of_ne_nil h0
      simp only [List.length_append, List.length_cons] at this ⊢; omega
    obtain ⟨k, os, e1, e2, e3⟩ := clipLoop_ok lib dbg p (gs := l ++ g :: r) 0 (l ++ g :: r).length orphans hh
    have none1 : l.filter (touches lib p) = [] := List.filter_eq_nil_iff.2 fun x hx => by simp [ho x (by simp [hx])]
    have none2 : r.filter (touches lib p) = [] := List.filter_eq_nil_iff.2 fun x hx => by simp [ho x (by simp [hx])]
    have all1 : l.filter (fun g => !touches lib p g) = l := List.filter_eq_self.2 fun x hx => by simp [ho x (by simp [hx])]
    have all2 : r.filter (fun g => !touches lib p g) = r := List.filter_eq_self.2 fun x hx => by simp [ho x (by simp [hx])]
    rw [List.filter_append, List.filter_cons_of_neg (by simp [ht]), all1, all2] at e2
    rw [List.filter_append, List.filter_cons_of_pos ht, none1, none2] at e3
    rcases e3 with ⟨e3, -⟩ | ⟨i, e3, e4, e5⟩
    · simp at e3
    · refine ⟨P, os, ?_, k2, e2⟩
      rw [hbody, choosePiece, if_neg (by omega), e1]
      have e3' : k = i := by omega
      subst e3'
      simp only [List.nil_append, List.getLast?_singleton] at e5
      simp only [Res.bind_eq, Res.bind_ok, rd, e5]
      rw [Res.assert_true _ e4]
      simp only [Res.bind_ok, Res.pure_eq, k1]

/-- A point that two pieces have in common: one of the two is neither returned nor an orphan, so a part of the intersection is lost. -/
theorem C91_shared_fails (lib : Lib K) (dbg : Bool) {a b : RPLC K} (ha : Loops a) (hb : Loops b) (p : K × K) :
    ∃ A B, Draws a A ∧ Draws b B ∧ ∀ pieces, lib.intersection (lib.correct A) (lib.correct B) = pieces → (∀ g ∈ pieces, Closed g.outer ∧ g.inners = []) →
      2 ≤ (pieces.filter (touches lib p)).length → ∀ P os, boostClip lib dbg a b p [] = .ok (P, os) → (P :: os).length < pieces.length := by
  obtain ⟨A, dA, eA⟩ := toPolygon_ok lib ha
  obtain ⟨B, dB, eB⟩ := toPolygon_ok lib hb
  refine ⟨A, B, dA, dB, fun pieces hp hh h2 P os h => ?_⟩
  obtain ⟨k, os', e1, e2, e3⟩ := clipLoop_ok lib dbg p (gs := pieces) 0 pieces.length [] hh
  have hlen : (pieces.filter (touches lib p)).length + (pieces.filter fun g => !touches lib p g).length = pieces.length := by
    rw [List.length_eq_length_filter_add (l := pieces) (touches lib p)]
  rw [boostClip, eA, eB] at h
  simp only [Res.bind_eq, Res.bind_ok, hp, Res.bind_eq_ok, Res.pure_eq, choosePiece] at h
  rw [if_neg (by omega)] at h
  simp only [e1, Res.bind_ok, Res.bind_eq_ok, List.nil_append] at h
  obtain ⟨-, -, r, ⟨-, -, g, -, hr⟩, P', -, hP⟩ := h
  cases hr; cases hP
  have := e2.length_eq
  simp only [List.length_cons]
  omega

/-- A point on none of several pieces: the call aborts in a debug build and reads past the end of the list of pieces in a release build. -/
theorem C91_outside_fails (lib : Lib K) (dbg : Bool) {a b : RPLC K} (ha : Loops a) (hb : Loops b) (p : K × K) (orphans : List (RPLC K)) :
    ∃ A B, Draws a A ∧ Draws b B ∧ ∀ pieces, lib.intersection (lib.correct A) (lib.correct B) = pieces → 2 ≤ pieces.length → (∀ g ∈ pieces, Closed g.outer ∧ g.inners = []) →
      (∀ g ∈ pieces, touches lib p g = false) → boostClip lib dbg a b p orphans = if dbg then .abort else .ub := by
  obtain ⟨A, B, dA, dB, h⟩ := C91_clip_several lib dbg ha hb p orphans
  exact ⟨A, B, dA, dB, fun pieces hp h2 hh hn => (h pieces hp h2 hh).2 (List.filter_eq_nil_iff.2 fun x hx => by simp [hn x hx])⟩

/-! ### The hypotheses are met -/

/-- A square with a square hole. -/
def frame : RPLC Int :=
  { points := [0, 0, 4, 0, 4, 4, 0, 4, 1, 1, 1, 2, 2, 2, 2, 1], facets := [[0, 1], [1, 2], [2, 3], [3, 0]], holes := [[[4, 5], [5, 6], [6, 7], [7, 4]]] }

theorem frame_loops : Loops frame := by
  refine ⟨⟨by decide, by decide, by decide, ?_, by decide⟩, ?_⟩
  · intro i hi
    have : i < 3 := by simp [frame] at hi; omega
    interval_cases i <;> rfl
  · intro h hh
    obtain rfl : h = [[4, 5], [5, 6], [6, 7], [7, 4]] := by simpa [frame] using hh
    refine ⟨by decide, by decide, by decide, ?_, by decide⟩
    intro i hi
    have : i < 3 := by simp at hi; omega
    interval_cases i <;> rfl

/-- Two triangles that have the corner (1, 1) in common, and one away from them. -/
def left : Polygon Int := { outer := [(0, 0), (1, 0), (1, 1), (0, 0)] }
def right : Polygon Int := { outer := [(1, 1), (2, 1), (2, 2), (1, 1)] }
def away : Polygon Int := { outer := [(5, 5), (6, 5), (6, 6), (5, 5)] }

/-- A polygon with a hole. -/
def holed : Polygon Int := { outer := [(0, 0), (9, 0), (0, 9), (0, 0)], inners := [[(1, 1), (1, 2), (2, 1), (1, 1)]] }

/-- A library that answers `pieces` to everything and finds each point covered by nothing. -/
def answers (pieces : List (Polygon Int)) : Lib Int where
  correct := id
  unique := id
  union := fun _ _ => pieces
  intersection := fun _ _ => pieces
  difference := fun _ _ => pieces
  unionMulti := fun _ _ => pieces
  correctMulti := id
  selfIntersects := fun _ => false
  intersects := fun _ _ => true
  coveredBy := fun _ _ => false
  within := fun _ _ => false

/-- The pieces meet the conditions of `C90_boolean_partial`, `C90_reduce_partial` (of two PLCs) and `C91_clip_partial`. -/
example : Loops frame ∧ (∀ g ∈ [left, away], Plain (answers [left, away]) g) ∧ ([left, away] : List (Polygon Int)).length ≤ [frame, frame].length ∧
    touches (answers [left, away]) (1, 1) left = true ∧ touches (answers [left, away]) (1, 1) away = false := by
  refine ⟨frame_loops, ?_, by decide, by decide, by decide⟩
  intro g hg
  rcases List.mem_pair.1 hg with rfl | rfl <;> exact ⟨⟨by decide, by decide⟩, rfl, rfl⟩

/-- The whole call on them: the piece with the corner comes back and the other is an orphan. -/
example : boostClip (answers [left, away]) true frame frame (1, 1) [] =
    .ok (⟨[[0, 1], [1, 2], [2, 0]], [], [0, 0, 1, 0, 1, 1]⟩, [⟨[[0, 1], [1, 2], [2, 0]], [], [5, 5, 6, 5, 6, 6]⟩]) := by decide

/-- Of the two with a common corner one is lost. -/
example : boostClip (answers [left, right]) true frame frame (1, 1) [] = .ok (⟨[[0, 1], [1, 2], [2, 0]], [], [1, 1, 2, 1, 2, 2]⟩, []) := by decide

example : ((([left, right] : List (Polygon Int)).filter (touches (answers [left, right]) (1, 1))).length = 2) ∧
    ∀ g ∈ [left, right, away], touches (answers [left, right, away]) (7, 7) g = false := by decide

/-- The polygon with a hole, for `C90_holes_fails`. -/
example : Closed holed.outer ∧ (∀ r ∈ holed.inners, Closed r) ∧ ∀ r ∈ holed.inners, ∃ x ∈ r, ∃ y ∈ r, x ≠ y := by
  refine ⟨⟨by decide, by decide⟩, ?_, by decide⟩
  intro r hr
  obtain rfl : r = [(1, 1), (1, 2), (2, 1), (1, 1)] := by simpa [holed] using hr
  exact ⟨by decide, by decide⟩

end Verif.BoostGeo
