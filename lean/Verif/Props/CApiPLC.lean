import Verif.Spec.CApi
/- C76: building a PLC by calls of the C interface. -/
namespace Verif.CApi
open Verif Verif.Mesh

/-- `Built`, and nothing has been added to what does not exist. -/
structure Inv' (es : List Edit) (p : PLC) : Prop extends Built es p where
  noNodes : ∀ f : Nat, numFacets es ≤ f → nodesOf es f = []
  noFacets : ∀ h : Nat, numHoles es ≤ h → numFacetsIn es h = 0
  noHoleNodes : ∀ h f : Nat, numFacetsIn es h ≤ f → nodesIn es h f = []

theorem toSize_lt {n : Nat} {i : Int} : toSize n i < n ↔ 0 ≤ i ∧ i < n := by
  unfold toSize; split <;> omega

theorem toSize_eq {n : Nat} {i : Int} (h : 0 ≤ i) : (toSize n i : Int) = i := by
  unfold toSize; rw [if_neg (by omega)]; omega

theorem numFacets_snoc (es : List Edit) (e : Edit) : numFacets (es ++ [e]) = numFacets es + match e with | .addFacet => 1 | _ => 0 := by
  unfold numFacets; rw [List.countP_append]; cases e <;> rfl

theorem numHoles_snoc (es : List Edit) (e : Edit) : numHoles (es ++ [e]) = numHoles es + match e with | .addHole => 1 | _ => 0 := by
  unfold numHoles; rw [List.countP_append]; cases e <;> rfl

theorem numFacetsIn_snoc (es : List Edit) (e : Edit) (h : Int) : numFacetsIn (es ++ [e]) h = numFacetsIn es h + match e with | .addHoleFacet h' => if h' = h then 1 else 0 | _ => 0 := by
  unfold numFacetsIn; rw [List.countP_append]
  cases e <;> simp [List.countP_cons]

theorem nodesOf_snoc (es : List Edit) (e : Edit) (f : Int) : nodesOf (es ++ [e]) f = nodesOf es f ++ match e with | .addFacetNode f' n => if f' = f then [n] else [] | _ => [] := by
  unfold nodesOf; rw [List.filterMap_append]
  cases e <;> simp [List.filterMap_cons]
  split <;> rename_i hh <;> split at hh <;> simp_all

theorem nodesIn_snoc (es : List Edit) (e : Edit) (h f : Int) : nodesIn (es ++ [e]) h f = nodesIn es h f ++ match e with | .addHoleFacetNode h' f' n => if h' = h ∧ f' = f then [n] else [] | _ => [] := by
  unfold nodesIn; rw [List.filterMap_append]
  cases e <;> simp [List.filterMap_cons]
  split <;> rename_i hh <;> split at hh <;> simp_all

theorem get_snoc {α : Type} {l : List α} {a x : α} {i : Nat} (h : (l ++ [a])[i]? = some x) : l[i]? = some x ∨ i = l.length ∧ x = a := by
  by_cases hi : i < l.length
  · rw [List.getElem?_append_left hi] at h; exact .inl h
  · rw [List.getElem?_append_right (by omega)] at h
    obtain ⟨h1, h2⟩ := List.getElem?_eq_some_iff.1 h
    simp only [List.length_singleton] at h1
    exact .inr ⟨by omega, by rw [← h2]; simp [show i - l.length = 0 by omega]⟩

theorem get_set {α : Type} {l : List α} {a x : α} {i k : Nat} (h : (l.set k a)[i]? = some x) : (i = k ∧ x = a) ∨ (i ≠ k ∧ l[i]? = some x) := by
  by_cases hi : k = i
  · subst hi
    have hk := (List.getElem?_eq_some_iff.1 h).1
    rw [List.length_set] at hk
    rw [List.getElem?_set_self hk] at h
    exact .inl ⟨rfl, (Option.some.inj h).symm⟩
  · rw [List.getElem?_set_ne hi] at h
    exact .inr ⟨fun hh => hi hh.symm, h⟩

/-- One call. -/
theorem edit_ok (dbg : Bool) {es : List Edit} {p : PLC} (h : Inv' es p) {e : Edit} (hc : e ≠ .clear) (hr : Refers es e) : ∃ p', edit dbg p e = .ok (p', returned es e) ∧ Inv' (es ++ [e]) p' := by
  have base : ∀ {p' : PLC}, (p'.facets.length = numFacets (es ++ [e])) → (∀ (f : Nat) (F : List Int), p'.facets[f]? = some F → F = nodesOf (es ++ [e]) f) → p'.holes.length = numHoles (es ++ [e]) →
      (∀ (h : Nat) (H : List (List Int)), p'.holes[h]? = some H → H.length = numFacetsIn (es ++ [e]) h) →
      (∀ (h f : Nat) (H : List (List Int)) (F : List Int), p'.holes[h]? = some H → H[f]? = some F → F = nodesIn (es ++ [e]) h f) → Inv' (es ++ [e]) p' := fun a b c d g => by
    refine { facets := a, nodes := b, holes := c, holeFacets := d, holeNodes := g, noNodes := fun f hf => ?_, noFacets := fun k hk => ?_, noHoleNodes := fun k f hf => ?_ }
    · rw [numFacets_snoc] at hf
      rw [nodesOf_snoc, h.noNodes f (by omega)]
      cases e <;> simp only [List.nil_append]
      rw [if_neg]
      intro hh
      have := hr.2
      omega
    · rw [numHoles_snoc] at hk
      rw [numFacetsIn_snoc, h.noFacets k (by omega)]
      cases e <;> simp only []
      rw [if_neg]
      intro hh
      have := hr.2
      omega
    · rw [numFacetsIn_snoc] at hf
      rw [nodesIn_snoc, h.noHoleNodes k f (by omega)]
      cases e <;> simp only [List.nil_append]
      rw [if_neg]
      rintro ⟨rfl, rfl⟩
      have := hr.2.2
      omega
  cases e with
  | addFacet =>
    refine ⟨_, by unfold edit returned; rw [h.facets], base ?_ ?_ ?_ ?_ ?_⟩
    · rw [numFacets_snoc, List.length_append, h.facets]; rfl
    · intro f F hF
      rw [nodesOf_snoc, List.append_nil]
      rcases get_snoc hF with hF | ⟨rfl, rfl⟩
      · exact h.nodes f F hF
      · exact (h.noNodes _ (Nat.le_of_eq h.facets.symm)).symm
    · rw [numHoles_snoc, h.holes]; rfl
    · intro k H hH; rw [numFacetsIn_snoc]; exact h.holeFacets k H hH
    · intro k f H F hH hF; rw [nodesIn_snoc, List.append_nil]; exact h.holeNodes k f H F hH hF
  | addFacetNode facet node =>
    have hlt : toSize p.facets.length facet < p.facets.length := toSize_lt.2 (by rw [h.facets]; exact hr)
    obtain ⟨F0, hF0⟩ : ∃ F, p.facets[toSize p.facets.length facet]? = some F := ⟨_, List.getElem?_eq_getElem hlt⟩
    refine ⟨{ p with facets := p.facets.set (toSize p.facets.length facet) (F0 ++ [node]) }, ?_, base ?_ ?_ ?_ ?_ ?_⟩
    · unfold edit returned
      simp only [Res.assert_true dbg hlt, rd_eq_ok.2 hF0, wr_lt hlt, Res.bind_eq, Res.bind_ok]; rfl
    · rw [numFacets_snoc, List.length_set, h.facets]; rfl
    · intro f F hF
      rw [nodesOf_snoc]
      rcases get_set hF with ⟨rfl, rfl⟩ | ⟨hne, hF⟩
      · rw [h.nodes _ _ hF0, toSize_eq hr.1]; simp
      · rw [h.nodes f F hF]
        have : ¬ facet = (f : Int) := fun hh => hne (by have := toSize_eq (n := p.facets.length) hr.1; omega)
        simp [this]
    · rw [numHoles_snoc, h.holes]; rfl
    · intro k H hH; rw [numFacetsIn_snoc]; exact h.holeFacets k H hH
    · intro k f H F hH hF; rw [nodesIn_snoc, List.append_nil]; exact h.holeNodes k f H F hH hF
  | addHole =>
    refine ⟨_, by unfold edit returned; rw [h.holes], base ?_ ?_ ?_ ?_ ?_⟩
    · rw [numFacets_snoc, h.facets]; rfl
    · intro f F hF; rw [nodesOf_snoc, List.append_nil]; exact h.nodes f F hF
    · rw [numHoles_snoc, List.length_append, h.holes]; rfl
    · intro k H hH
      rw [numFacetsIn_snoc]
      rcases get_snoc hH with hH | ⟨rfl, rfl⟩
      · exact h.holeFacets k H hH
      · exact (h.noFacets _ (Nat.le_of_eq h.holes.symm)).symm
    · intro k f H F hH hF
      rw [nodesIn_snoc, List.append_nil]
      rcases get_snoc hH with hH | ⟨rfl, rfl⟩
      · exact h.holeNodes k f H F hH hF
      · simp at hF
  | addHoleFacet hole =>
    have hlt : toSize p.holes.length hole < p.holes.length := toSize_lt.2 (by rw [h.holes]; exact hr)
    obtain ⟨H0, hH0⟩ : ∃ H, p.holes[toSize p.holes.length hole]? = some H := ⟨_, List.getElem?_eq_getElem hlt⟩
    have hl0 := h.holeFacets _ _ hH0
    rw [toSize_eq hr.1] at hl0
    refine ⟨{ p with holes := p.holes.set (toSize p.holes.length hole) (H0 ++ [[]]) }, ?_, base ?_ ?_ ?_ ?_ ?_⟩
    · unfold edit returned
      simp only [Res.assert_true dbg hlt, rd_eq_ok.2 hH0, wr_lt hlt, Res.bind_eq, Res.bind_ok, hl0]; rfl
    · rw [numFacets_snoc, h.facets]; rfl
    · intro f F hF; rw [nodesOf_snoc, List.append_nil]; exact h.nodes f F hF
    · rw [numHoles_snoc, List.length_set, h.holes]; rfl
    · intro k H hH
      rw [numFacetsIn_snoc]
      rcases get_set hH with ⟨rfl, rfl⟩ | ⟨hne, hH⟩
      · rw [toSize_eq hr.1, List.length_append, hl0]; simp
      · rw [h.holeFacets k H hH]
        have : ¬ hole = (k : Int) := fun hh => hne (by have := toSize_eq (n := p.holes.length) hr.1; omega)
        simp [this]
    · intro k f H F hH hF
      rw [nodesIn_snoc, List.append_nil]
      rcases get_set hH with ⟨rfl, rfl⟩ | ⟨hne, hH⟩
      · rcases get_snoc hF with hF | ⟨rfl, rfl⟩
        · exact h.holeNodes _ f _ F hH0 hF
        · exact (h.noHoleNodes _ _ (Nat.le_of_eq (h.holeFacets _ _ hH0).symm)).symm
      · exact h.holeNodes k f H F hH hF
  | addHoleFacetNode hole facet node =>
    have hlt : toSize p.holes.length hole < p.holes.length := toSize_lt.2 (by rw [h.holes]; exact hr.1)
    obtain ⟨H0, hH0⟩ : ∃ H, p.holes[toSize p.holes.length hole]? = some H := ⟨_, List.getElem?_eq_getElem hlt⟩
    have hl0 := h.holeFacets _ _ hH0
    rw [toSize_eq hr.1.1] at hl0
    have hlt' : toSize H0.length facet < H0.length := toSize_lt.2 (by rw [hl0]; exact hr.2)
    obtain ⟨F0, hF0⟩ : ∃ F, H0[toSize H0.length facet]? = some F := ⟨_, List.getElem?_eq_getElem hlt'⟩
    refine ⟨{ p with holes := p.holes.set (toSize p.holes.length hole) (H0.set (toSize H0.length facet) (F0 ++ [node])) }, ?_, base ?_ ?_ ?_ ?_ ?_⟩
    · unfold edit returned
      simp only [Res.assert_true dbg hlt, rd_eq_ok.2 hH0, Res.assert_true dbg hlt', rd_eq_ok.2 hF0, wr_lt hlt', wr_lt hlt, Res.bind_eq, Res.bind_ok]; rfl
    · rw [numFacets_snoc, h.facets]; rfl
    · intro f F hF; rw [nodesOf_snoc, List.append_nil]; exact h.nodes f F hF
    · rw [numHoles_snoc, List.length_set, h.holes]; rfl
    · intro k H hH
      rw [numFacetsIn_snoc, Nat.add_zero]
      rcases get_set hH with ⟨rfl, rfl⟩ | ⟨hne, hH⟩
      · rw [List.length_set]; exact h.holeFacets _ _ hH0
      · exact h.holeFacets k H hH
    · intro k f H F hH hF
      rw [nodesIn_snoc]
      rcases get_set hH with ⟨rfl, rfl⟩ | ⟨hne, hH⟩
      · rcases get_set hF with ⟨rfl, rfl⟩ | ⟨hne, hF⟩
        · rw [h.holeNodes _ _ _ _ hH0 hF0, toSize_eq hr.1.1, toSize_eq hr.2.1]; simp
        · rw [h.holeNodes _ f _ F hH0 hF]
          have : ¬ facet = (f : Int) := fun hh => hne (by have := toSize_eq (n := H0.length) hr.2.1; omega)
          simp [this]
      · rw [h.holeNodes k f H F hH hF]
        have : ¬ hole = (k : Int) := fun hh => hne (by have := toSize_eq (n := p.holes.length) hr.1.1; omega)
        simp [this]
  | clear => exact absurd rfl hc

theorem inv_nil : Inv' [] {} where
  facets := rfl
  nodes f F h := by simp at h
  holes := rfl
  holeFacets f F h := by simp at h
  holeNodes h f H F hh := by simp at hh
  noNodes _ _ := rfl
  noFacets _ _ := rfl
  noHoleNodes _ _ _ := rfl

theorem current_snoc (es : List Edit) (e : Edit) : current (es ++ [e]) = match e with | .clear => [] | e => current es ++ [e] := by
  unfold current; rw [List.foldl_append]; cases e <;> rfl

theorem edits_ok (dbg : Bool) : ∀ (es pre : List Edit) (p : PLC), Inv' (current pre) p → (∀ a e b, es = a ++ e :: b → Refers (current (pre ++ a)) e) →
    ∃ p' rs, edits dbg p es = .ok (p', rs) ∧ Inv' (current (pre ++ es)) p' ∧ rs.length = es.length ∧ ∀ (i : Nat) (e : Edit), es[i]? = some e → rs[i]? = some (returned (current (pre ++ es.take i)) e)
  | [], pre, p, h, _ => ⟨p, [], rfl, by rwa [List.append_nil], rfl, by simp⟩
  | e :: es, pre, p, h, hv => by
    obtain ⟨p1, e1, h1⟩ : ∃ p1, edit dbg p e = .ok (p1, returned (current pre) e) ∧ Inv' (current (pre ++ [e])) p1 := by
      have hr : Refers (current pre) e := by have := hv [] e es rfl; rwa [List.append_nil] at this
      by_cases hc : e = .clear
      · subst hc
        exact ⟨{}, rfl, by rw [current_snoc]; exact inv_nil⟩
      · obtain ⟨p1, e1, h1⟩ := edit_ok dbg h hc hr
        refine ⟨p1, e1, ?_⟩
        rw [current_snoc]
        cases e <;> first | exact h1 | exact absurd rfl hc
    obtain ⟨p', rs, e2, h2, hl, h3⟩ := edits_ok dbg es (pre ++ [e]) p1 h1 (fun a e' b hh => by
      have := hv (e :: a) e' b (by rw [hh]; rfl)
      rwa [show pre ++ [e] ++ a = pre ++ e :: a by simp])
    refine ⟨p', returned (current pre) e :: rs, ?_, ?_, by rw [List.length_cons, hl, List.length_cons], fun i e' hi => ?_⟩
    · unfold edits
      rw [e1, Res.bind_eq, Res.bind_ok, e2]; rfl
    · rwa [show pre ++ e :: es = pre ++ [e] ++ es by simp]
    · match i, hi with
      | 0, hi =>
        obtain rfl : e = e' := by simpa using hi
        simp
      | i + 1, hi =>
        have := h3 i e' (by simpa using hi)
        rw [List.getElem?_cons_succ, this, List.take_succ_cons, show pre ++ [e] ++ es.take i = pre ++ e :: es.take i by simp]

/-- C76: after any calls that refer to what exists, the PLC has the facets and holes that have been added since it was cleared last, each with the nodes that have been added to it, in this order; and every call has returned the number of what it has added. -/
theorem C76_history (dbg : Bool) (es : List Edit) (h : Valid es) : ∃ p rs, edits dbg {} es = .ok (p, rs) ∧ Built (current es) p ∧ ∀ (i : Nat) (e : Edit), es[i]? = some e → rs[i]? = some (returned (current (es.take i)) e) := by
  obtain ⟨p, rs, e, hb, _, hr⟩ := edits_ok dbg es [] {} inv_nil h
  exact ⟨p, rs, e, hb.toBuilt, hr⟩

theorem index_bad (dbg : Bool) {α β : Type} {l : List α} {i : Int} {k : α → Res β} (hi : ¬ (0 ≤ i ∧ i < l.length)) :
    ((Res.assert dbg (toSize l.length i < l.length)).bind fun _ => (rd l (toSize l.length i)).bind k) = if dbg then .abort else .ub := by
  have hn : ¬ toSize l.length i < l.length := fun hh => hi (toSize_lt.1 hh)
  cases dbg
  · rw [Res.assert_release, Res.bind_ok, show rd l (toSize l.length i) = .ub from by unfold rd; rw [List.getElem?_eq_none (by omega)]]; rfl
  · rw [Res.assert_debug_false hn]; rfl

theorem edit_bad (dbg : Bool) {es : List Edit} {p : PLC} (h : Built es p) {e : Edit} (hr : ¬ Refers es e) : edit dbg p e = if dbg then .abort else .ub := by
  cases e with
  | addFacetNode f n => exact index_bad dbg (by rw [h.facets]; exact hr)
  | addHoleFacet k => exact index_bad dbg (by rw [h.holes]; exact hr)
  | addHoleFacetNode k f n =>
    by_cases hk : 0 ≤ k ∧ k < p.holes.length
    · have hlt : toSize p.holes.length k < p.holes.length := toSize_lt.2 hk
      obtain ⟨H0, hH0⟩ : ∃ H, p.holes[toSize p.holes.length k]? = some H := ⟨_, List.getElem?_eq_getElem hlt⟩
      have hl0 := h.holeFacets _ _ hH0
      rw [toSize_eq hk.1] at hl0
      unfold edit
      simp only [Res.assert_true dbg hlt, rd_eq_ok.2 hH0, Res.bind_eq, Res.bind_ok]
      exact index_bad dbg (by rw [hl0]; exact fun hf => hr ⟨by rw [← h.holes]; exact hk, hf⟩)
    · exact index_bad dbg hk
  | addFacet => exact absurd trivial hr
  | addHole => exact absurd trivial hr
  | clear => exact absurd trivial hr

theorem edits_append (dbg : Bool) : ∀ {es es' : List Edit} {p p' : PLC} {rs : List (Option Nat)}, edits dbg p es = .ok (p', rs) → edits dbg p (es ++ es') = (edits dbg p' es').bind fun s => .ok (s.1, rs ++ s.2)
  | [], es', p, p', rs, h => by
    obtain ⟨rfl, rfl⟩ : p = p' ∧ [] = rs := by
      have := Res.ok.inj h
      exact ⟨congrArg Prod.fst this, congrArg Prod.snd this⟩
    rw [List.nil_append]
    cases edits dbg p es' <;> rfl
  | e :: es, es', p, p', rs, h => by
    unfold edits at h
    obtain ⟨r, h1, h⟩ := Res.bind_eq_ok.1 h
    obtain ⟨s, h2, h⟩ := Res.bind_eq_ok.1 h
    have := Res.ok.inj h
    have e1 := congrArg Prod.fst this
    have e2 := congrArg Prod.snd this
    simp only at e1 e2
    subst e1 e2
    rw [List.cons_append]
    show ((edit dbg p e).bind fun r => (edits dbg r.1 (es ++ es')).bind fun s => .ok (s.1, r.2 :: s.2)) = _
    rw [h1, Res.bind_ok, edits_append dbg (es := es) (es' := es') (p' := s.1) (rs := s.2) h2]
    cases edits dbg s.1 es' <;> rfl

/-- C76: a call that refers to something that does not exist stops the program if assertions are compiled in. It is undefined otherwise. -/
theorem C76_invalid (dbg : Bool) (es : List Edit) (h : Valid es) (e : Edit) (hr : ¬ Refers (current es) e) (post : List Edit) : edits dbg {} (es ++ e :: post) = if dbg then .abort else .ub := by
  obtain ⟨p, rs, he, hb, _⟩ := C76_history dbg es h
  rw [edits_append dbg he]
  unfold edits
  rw [edit_bad dbg hb hr]
  cases dbg <;> rfl

theorem bind_ok_self {α : Type} (x : Res α) : (x.bind fun a => .ok a) = x := by cases x <;> rfl

/-- C76: the nodes of a facet, as they are asked for. -/
theorem C76_nodes (dbg : Bool) {es : List Edit} {p : PLC} (h : Built es p) (f : Int) : facetNodes dbg p f = if 0 ≤ f ∧ f < numFacets es then .ok (nodesOf es f) else if dbg then .abort else .ub := by
  rw [← h.facets]
  split
  · rename_i hf
    have hlt := toSize_lt.2 hf
    obtain ⟨F, hF⟩ : ∃ F, p.facets[toSize p.facets.length f]? = some F := ⟨_, List.getElem?_eq_getElem hlt⟩
    have := h.nodes _ _ hF
    rw [toSize_eq hf.1] at this
    unfold facetNodes
    simp only [Res.assert_true dbg hlt, rd_eq_ok.2 hF, Res.bind_eq, Res.bind_ok, this]
  · rename_i hf
    have := index_bad dbg (k := fun a => .ok a) hf
    simp only [bind_ok_self] at this
    exact this

/-- C76: the number of facets of a hole, and the nodes of one. -/
theorem C76_holes (dbg : Bool) {es : List Edit} {p : PLC} (h : Built es p) (k f : Int) : numHoleFacets dbg p k = (if 0 ≤ k ∧ k < numHoles es then .ok (numFacetsIn es k) else if dbg then .abort else .ub) ∧
    holeFacetNodes dbg p k f = if (0 ≤ k ∧ k < numHoles es) ∧ 0 ≤ f ∧ f < numFacetsIn es k then .ok (nodesIn es k f) else if dbg then .abort else .ub := by
  rw [← h.holes]
  by_cases hk : 0 ≤ k ∧ k < p.holes.length
  · have hlt := toSize_lt.2 hk
    obtain ⟨H, hH⟩ : ∃ H, p.holes[toSize p.holes.length k]? = some H := ⟨_, List.getElem?_eq_getElem hlt⟩
    have hl := h.holeFacets _ _ hH
    rw [toSize_eq hk.1] at hl
    refine ⟨?_, ?_⟩
    · rw [if_pos hk]
      unfold numHoleFacets
      simp only [Res.assert_true dbg hlt, rd_eq_ok.2 hH, Res.bind_eq, Res.bind_ok, hl]; rfl
    · unfold holeFacetNodes
      simp only [Res.assert_true dbg hlt, rd_eq_ok.2 hH, Res.bind_eq, Res.bind_ok]
      rw [← hl]
      by_cases hf : 0 ≤ f ∧ f < H.length
      · have hlt' := toSize_lt.2 hf
        obtain ⟨F, hF⟩ : ∃ F, H[toSize H.length f]? = some F := ⟨_, List.getElem?_eq_getElem hlt'⟩
        have := h.holeNodes _ _ _ _ hH hF
        rw [toSize_eq hk.1, toSize_eq hf.1] at this
        simp only [Res.assert_true dbg hlt', rd_eq_ok.2 hF, Res.bind_ok, this, if_pos (And.intro hk hf)]
      · rw [if_neg fun hh => hf hh.2]
        have := index_bad dbg (k := fun a => .ok a) hf
        simp only [bind_ok_self] at this
        exact this
  · refine ⟨?_, ?_⟩
    · rw [if_neg hk]; exact index_bad dbg hk
    · rw [if_neg fun hh => hk hh.1]; exact index_bad dbg hk

/-- Two facets and a hole with a facet, after something else. -/
def triCalls : List Edit := [.addFacet, .addHole, .clear, .addFacet, .addFacet, .addFacetNode 1 7, .addFacetNode 0 5, .addFacetNode 1 8, .addHole, .addHoleFacet 0, .addHoleFacetNode 0 0 9]

example : edits true {} triCalls = .ok ({ facets := [[5], [7, 8]], holes := [[[9]]] }, [some 0, some 0, none, some 0, some 1, none, none, none, some 0, some 0, none]) := by decide +kernel

theorem triCalls_valid : Valid triCalls := by
  intro pre e post h
  have hl : pre.length < 11 := by
    have := congrArg List.length h
    simp [triCalls] at this; omega
  have hp : pre = triCalls.take pre.length := by rw [h]; simp
  have he : triCalls[pre.length]? = some e := by rw [h]; simp
  generalize pre.length = n at hl hp he
  subst hp
  rcases (by omega : n = 0 ∨ n = 1 ∨ n = 2 ∨ n = 3 ∨ n = 4 ∨ n = 5 ∨ n = 6 ∨ n = 7 ∨ n = 8 ∨ n = 9 ∨ n = 10) with rfl | rfl | rfl | rfl | rfl | rfl | rfl | rfl | rfl | rfl | rfl <;> cases he <;> simp only [Refers] <;> decide +kernel

example : nodesOf (current triCalls) 1 = [7, 8] := by decide +kernel

/-- Facet 2 does not exist. -/
example : ¬ Refers (current triCalls) (.addFacetNode 2 0) := by
  show ¬ (_ ∧ _); decide +kernel
end Verif.CApi
