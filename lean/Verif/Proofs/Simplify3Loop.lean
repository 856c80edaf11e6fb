import Verif.Proofs.Simplify3
/- The groups of facets that the 3D version of `simplifyPLCfacets` glues together. -/
namespace Verif.Simplify3
open Verif Verif.Mesh Verif.Internal Verif.Geom
open Verif.Simplify (Plc rdi number compact renumber)

section
variable {V : Type} {T : Tests V}

/-- Facet `o` has a normal parallel to `ni`. -/
def ParTo (T : Tests V) (nrm : List (Option (V × V × V))) (ni : V × V × V) (o : Nat) : Prop := ∃ no, nrm.getD o none = some no ∧ T.par ni no = true

/-- A group of facets that goes out from facet `i`: their normals are parallel to that of `i`, and whatever holds for `i` and is passed on to a facet with a parallel normal that
shares a point holds for all of them. -/
structure GroupOf (T : Tests V) (mf : List (List Nat)) (nrm : List (Option (V × V × V))) (i : Nat) (ni : V × V × V) (G : List Nat) : Prop where
  head : G.head? = some i
  normal : nrm.getD i none = some ni
  par : ∀ o ∈ G, o ≠ i → ParTo T nrm ni o
  chain : ∀ Q : Nat → Prop, Q i → (∀ o o' v, Q o → v ∈ mf.getD o [] → v ∈ mf.getD o' [] → ParTo T nrm ni o' → Q o') → ∀ o ∈ G, Q o

/-- What holds while the facets are gathered. -/
structure GInv (T : Tests V) (mf : List (List Nat)) (nrm : List (Option (V × V × V))) (i : Nat) (ni : V × V × V) (used : List Bool) (s : Gather) : Prop where
  group : GroupOf T mf nrm i ni s.old
  nodup : s.old.Nodup
  len : s.used.length = used.length
  used_iff : ∀ o, s.used.getD o true = true ↔ used.getD o true = true ∨ o ∈ s.old
  fresh : ∀ o ∈ s.old, used.getD o true = false
  nodes : ∀ v ∈ s.nodes, ∃ o ∈ s.old, v ∈ mf.getD o []

theorem getD_set {used : List Bool} {o k : Nat} : (used.set o true).getD k true = true ↔ used.getD k true = true ∨ k = o := by
  simp only [List.getD_eq_getElem?_getD, List.getElem?_set]
  split
  · next h =>
    subst h
    split
    · simp
    · simp
  · next h => simp only [or_iff_left (Ne.symm h)]

theorem gatherFacet_inv {mf : List (List Nat)} {nrm : List (Option (V × V × V))} {i : Nat} {ni : V × V × V} {used : List Bool} {v o : Nat} {s : Gather}
    (hs : GInv T mf nrm i ni used s) (hv : v ∈ s.nodes) (ho : v ∈ mf.getD o []) :
    GInv T mf nrm i ni used (gatherFacet T mf nrm i ni s o) ∧ v ∈ (gatherFacet T mf nrm i ni s o).nodes := by
  unfold gatherFacet
  split_ifs with h
  · obtain ⟨h1, h2, h3⟩ := h
    have hpar : ParTo T nrm ni o := by
      rcases hn : nrm.getD o none with _ | no
      · rw [hn] at h3
        cases h3
      · rw [hn] at h3
        exact ⟨no, hn, h3⟩
    have hno : o ∉ s.old := fun h => by
      have := (hs.used_iff o).2 (.inr h)
      rw [h2] at this
      cases this
    refine ⟨⟨⟨?_, hs.group.normal, ?_, ?_⟩, ?_, ?_, ?_, ?_, ?_⟩, List.mem_append_left _ hv⟩
    · have := hs.group.head
      dsimp only
      rw [List.head?_append, this]
      rfl
    · intro o' ho' hne
      dsimp only at ho'
      rw [List.mem_append, List.mem_singleton] at ho'
      rcases ho' with h | rfl
      · exact hs.group.par _ h hne
      · exact hpar
    · intro Q hi hQ o' ho'
      dsimp only at ho'
      rw [List.mem_append, List.mem_singleton] at ho'
      rcases ho' with h | rfl
      · exact hs.group.chain Q hi hQ _ h
      · obtain ⟨o1, h4, h5⟩ := hs.nodes v hv
        exact hQ o1 _ v (hs.group.chain Q hi hQ _ h4) h5 ho hpar
    · exact List.nodup_append.2 ⟨hs.nodup, by simp, fun a ha b hb => by
        rw [List.mem_singleton] at hb
        rintro rfl
        exact hno (hb ▸ ha)⟩
    · simpa using hs.len
    · intro k
      dsimp only
      rw [getD_set, hs.used_iff, List.mem_append, List.mem_singleton, or_assoc]
    · intro k hk
      dsimp only at hk
      rw [List.mem_append, List.mem_singleton] at hk
      rcases hk with h | rfl
      · exact hs.fresh k h
      · rcases hu : used.getD k true with _ | _
        · rfl
        · have := (hs.used_iff k).2 (.inl hu)
          rw [h2] at this
          cases this
    · intro u hu
      dsimp only at hu ⊢
      rw [List.mem_append] at hu
      rcases hu with h | h
      · obtain ⟨o1, h4, h5⟩ := hs.nodes u h
        exact ⟨o1, List.mem_append_left _ h4, h5⟩
      · exact ⟨o, by simp, h⟩
  · exact ⟨hs, hv⟩

theorem gatherFold_inv {mf : List (List Nat)} {nrm : List (Option (V × V × V))} {i : Nat} {ni : V × V × V} {used : List Bool} {v : Nat} : ∀ {os : List Nat} {s : Gather},
    GInv T mf nrm i ni used s → v ∈ s.nodes → (∀ o ∈ os, v ∈ mf.getD o []) → GInv T mf nrm i ni used (os.foldl (gatherFacet T mf nrm i ni) s)
  | [], _, hs, _, _ => hs
  | o :: os, s, hs, hv, ho => by
    obtain ⟨h1, h2⟩ := gatherFacet_inv hs hv (ho o List.mem_cons_self)
    rw [List.foldl_cons]
    exact gatherFold_inv h1 h2 fun o' h => ho o' (List.mem_cons_of_mem _ h)

theorem gatherNode_inv {mf : List (List Nat)} {nrm : List (Option (V × V × V))} {i : Nat} {ni : V × V × V} {used : List Bool} {s : Gather} (hs : GInv T mf nrm i ni used s) (v : Nat) :
    GInv T mf nrm i ni used (gatherNode T mf nrm i ni s v) := by
  unfold gatherNode
  split
  · next h =>
    refine gatherFold_inv hs h fun o ho => ?_
    unfold facetsAt at ho
    simpa using (List.mem_filter.1 ho).2
  · exact hs

theorem gather_inv {mf : List (List Nat)} {nrm : List (Option (V × V × V))} {n i : Nat} {ni : V × V × V} {used : List Bool} (hu : used.getD i true = false)
    (hn : nrm.getD i none = some ni) : GInv T mf nrm i ni used (gather T mf nrm n i ni used) := by
  unfold gather
  have h0 : GInv T mf nrm i ni used ⟨used.set i true, [i], mf.getD i []⟩ := by
    refine ⟨⟨rfl, hn, ?_, ?_⟩, by simp, by simp, ?_, ?_, ?_⟩
    · intro o ho hne
      exact absurd (List.mem_singleton.1 ho) hne
    · intro Q hi _ o ho
      rwa [List.mem_singleton.1 ho]
    · intro o
      dsimp only
      rw [getD_set, List.mem_singleton]
    · intro o ho
      rwa [List.mem_singleton.1 ho]
    · intro v hv
      exact ⟨i, by simp, hv⟩
  generalize (⟨used.set i true, [i], mf.getD i []⟩ : Gather) = s at h0 ⊢
  generalize List.range n = l
  induction l generalizing s with
  | nil => exact h0
  | cons v l ih => exact ih _ (gatherNode_inv h0 v)

theorem gatherFacet_mono {mf : List (List Nat)} {nrm : List (Option (V × V × V))} {i : Nat} {ni : V × V × V} (s : Gather) (o : Nat) :
    (∀ x, s.used.getD x true = true → (gatherFacet T mf nrm i ni s o).used.getD x true = true) ∧ ∀ v ∈ s.nodes, v ∈ (gatherFacet T mf nrm i ni s o).nodes := by
  unfold gatherFacet
  split_ifs
  · exact ⟨fun x hx => getD_set.2 (.inl hx), fun v hv => List.mem_append_left _ hv⟩
  · exact ⟨fun _ h => h, fun _ h => h⟩

theorem gatherFold_mono {mf : List (List Nat)} {nrm : List (Option (V × V × V))} {i : Nat} {ni : V × V × V} : ∀ (os : List Nat) (s : Gather),
    (∀ x, s.used.getD x true = true → (os.foldl (gatherFacet T mf nrm i ni) s).used.getD x true = true) ∧ ∀ v ∈ s.nodes, v ∈ (os.foldl (gatherFacet T mf nrm i ni) s).nodes
  | [], _ => ⟨fun _ h => h, fun _ h => h⟩
  | o :: os, s => by
    rw [List.foldl_cons]
    obtain ⟨h1, h2⟩ := gatherFacet_mono (T := T) (mf := mf) (nrm := nrm) (i := i) (ni := ni) s o
    obtain ⟨h3, h4⟩ := gatherFold_mono os (gatherFacet T mf nrm i ni s o)
    exact ⟨fun x hx => h3 x (h1 x hx), fun v hv => h4 v (h2 v hv)⟩

theorem gatherNode_mono {mf : List (List Nat)} {nrm : List (Option (V × V × V))} {i : Nat} {ni : V × V × V} (s : Gather) (v : Nat) :
    (∀ x, s.used.getD x true = true → (gatherNode T mf nrm i ni s v).used.getD x true = true) ∧ ∀ u ∈ s.nodes, u ∈ (gatherNode T mf nrm i ni s v).nodes := by
  unfold gatherNode
  split
  · exact gatherFold_mono _ s
  · exact ⟨fun _ h => h, fun _ h => h⟩

theorem gatherNodes_mono {mf : List (List Nat)} {nrm : List (Option (V × V × V))} {i : Nat} {ni : V × V × V} : ∀ (vs : List Nat) (s : Gather),
    (∀ x, s.used.getD x true = true → (vs.foldl (gatherNode T mf nrm i ni) s).used.getD x true = true) ∧ ∀ u ∈ s.nodes, u ∈ (vs.foldl (gatherNode T mf nrm i ni) s).nodes
  | [], _ => ⟨fun _ h => h, fun _ h => h⟩
  | v :: vs, s => by
    rw [List.foldl_cons]
    obtain ⟨h1, h2⟩ := gatherNode_mono (T := T) (mf := mf) (nrm := nrm) (i := i) (ni := ni) s v
    obtain ⟨h3, h4⟩ := gatherNodes_mono vs (gatherNode T mf nrm i ni s v)
    exact ⟨fun x hx => h3 x (h1 x hx), fun v hv => h4 v (h2 v hv)⟩

/-- All the facets with a parallel normal at a point of facet `i` are in use afterwards. -/
theorem gather_complete {mf : List (List Nat)} {nrm : List (Option (V × V × V))} {n i : Nat} {ni : V × V × V} {used : List Bool} {v o : Nat} (hv : v ∈ mf.getD i []) (hn : v < n)
    (ho : o < mf.length) (hvo : v ∈ mf.getD o []) (hpar : ParTo T nrm ni o) : (gather T mf nrm n i ni used).used.getD o true = true := by
  unfold gather
  obtain ⟨A, B, hAB⟩ := List.append_of_mem (List.mem_range.2 hn)
  rw [hAB, List.foldl_append, List.foldl_cons]
  refine (gatherNodes_mono B _).1 o ?_
  obtain ⟨h1, h2⟩ := gatherNodes_mono (T := T) (mf := mf) (nrm := nrm) (i := i) (ni := ni) A ⟨used.set i true, [i], mf.getD i []⟩
  generalize A.foldl (gatherNode T mf nrm i ni) ⟨used.set i true, [i], mf.getD i []⟩ = s at h1 h2 ⊢
  rw [gatherNode, if_pos (h2 v hv)]
  have hm : o ∈ facetsAt mf v := by
    unfold facetsAt
    exact List.mem_filter.2 ⟨List.mem_range.2 ho, by simpa using hvo⟩
  obtain ⟨C, D, hCD⟩ := List.append_of_mem hm
  rw [hCD, List.foldl_append, List.foldl_cons]
  refine (gatherFold_mono D _).1 o ?_
  obtain ⟨h3, -⟩ := gatherFold_mono (T := T) (mf := mf) (nrm := nrm) (i := i) (ni := ni) C s
  generalize C.foldl (gatherFacet T mf nrm i ni) s = t at h3 ⊢
  unfold gatherFacet
  split_ifs with h
  · exact getD_set.2 (.inr rfl)
  · by_cases e : o = i
    · exact h3 o (h1 o (getD_set.2 (.inr e)))
    · by_contra hx
      obtain ⟨no, e1, e2⟩ := hpar
      refine h ⟨e, by simpa using hx, ?_⟩
      rw [e1]
      exact e2

/-- The groups of a run. -/
theorem glueLoop_ok (z : V) {points pts : List V} {mf : List (List Nat)} {nrm : List (Option (V × V × V))} {facets : List (List Int)} :
    ∀ {fs : List (List Int)} {i : Nat} {used : List Bool} {new : List (List Int)}, fs = facets.drop i →
      glueLoop T true points pts mf nrm fs i used = .ok new →
      ∃ groups : List (List Nat), List.Forall₂ (fun G nf => ∃ i ni w, GroupOf T mf nrm i ni G ∧ Glued T z points pts mf (facets.getD i []) G w nf) groups new ∧
        groups.flatten.Nodup ∧ (∀ o ∈ groups.flatten, used.getD o true = false ∧ (nrm.getD o none).isSome) ∧
        (∀ o, i ≤ o → o < facets.length → used.getD o true = false → (nrm.getD o none).isSome → o ∈ groups.flatten) ∧
        ∀ k G, groups[k]? = some G → ∀ i ni, G.head? = some i → nrm.getD i none = some ni → ∀ v ∈ mf.getD i [], v < pts.length → ∀ o < mf.length, v ∈ mf.getD o [] → ParTo T nrm ni o →
          used.getD o true = true ∨ o ∈ (groups.take (k + 1)).flatten
  | [], i, used, new, hd, h => by
    rw [glueLoop] at h
    cases h
    refine ⟨[], .nil, by simp, by simp, ?_, by simp⟩
    intro o h1 h2
    have := congrArg List.length hd
    simp only [List.length_nil, List.length_drop] at this
    omega
  | f :: fs, i, used, new, hd, h => by
    have hi : facets[i]? = some f := by
      have := congrArg (·[0]?) hd
      simpa using this.symm
    have hd' : fs = facets.drop (i + 1) := by
      have := congrArg List.tail hd
      simpa using this
    have skip : ∀ {new}, (used.getD i true = true ∨ nrm.getD i none = none) → glueLoop T true points pts mf nrm fs (i + 1) used = .ok new →
        ∃ groups : List (List Nat), List.Forall₂ (fun G nf => ∃ i ni w, GroupOf T mf nrm i ni G ∧ Glued T z points pts mf (facets.getD i []) G w nf) groups new ∧
        groups.flatten.Nodup ∧ (∀ o ∈ groups.flatten, used.getD o true = false ∧ (nrm.getD o none).isSome) ∧
        (∀ o, i ≤ o → o < facets.length → used.getD o true = false → (nrm.getD o none).isSome → o ∈ groups.flatten) ∧
        ∀ k G, groups[k]? = some G → ∀ i ni, G.head? = some i → nrm.getD i none = some ni → ∀ v ∈ mf.getD i [], v < pts.length → ∀ o < mf.length, v ∈ mf.getD o [] → ParTo T nrm ni o →
          used.getD o true = true ∨ o ∈ (groups.take (k + 1)).flatten := by
      intro new hu h
      obtain ⟨groups, g1, g2, g3, g4, g5⟩ := glueLoop_ok z hd' h
      refine ⟨groups, g1, g2, g3, ?_, g5⟩
      refine fun o h1 h2 h3 h4 => ?_
      rcases Nat.lt_or_eq_of_le h1 with h | rfl
      · exact g4 o h h2 h3 h4
      · rcases hu with hu | hu
        · rw [hu] at h3; cases h3
        · rw [hu] at h4; cases h4
    rw [glueLoop] at h
    rcases hu : used.getD i true with _ | _
    · rcases hn : nrm.getD i none with _ | ni
      · rw [hu, hn] at h
        exact skip (.inr hn) h
      · rw [hu, hn] at h
        simp only [Res.bind_eq] at h
        obtain ⟨nf, h1, h⟩ := Res.bind_eq_ok.1 h
        obtain ⟨rest, h2, h⟩ := Res.bind_eq_ok.1 h
        rw [Res.pure_eq] at h
        cases h
        have hg := gather_inv (T := T) (mf := mf) (n := pts.length) hu hn
        obtain ⟨w, hw⟩ := glue_ok z h1
        obtain ⟨groups, g1, g2, g3, g4, g5⟩ := glueLoop_ok z hd' h2
        refine ⟨(gather T mf nrm pts.length i ni used).old :: groups, .cons ⟨i, ni, w, hg.group, by rwa [getD_of hi]⟩ g1, ?_, ?_, ?_, ?_⟩
        · rw [List.flatten_cons, List.nodup_append]
          refine ⟨hg.nodup, g2, fun a ha b hb => ?_⟩
          rintro rfl
          have := (g3 a hb).1
          rw [(hg.used_iff a).2 (.inr ha)] at this
          cases this
        · intro o ho
          rw [List.flatten_cons, List.mem_append] at ho
          rcases ho with ho | ho
          · refine ⟨hg.fresh o ho, ?_⟩
            by_cases e : o = i
            · rw [e, hn]; rfl
            · obtain ⟨no, e', -⟩ := hg.group.par o ho e
              rw [e']; rfl
          · refine ⟨?_, (g3 o ho).2⟩
            rcases hx : used.getD o true with _ | _
            · rfl
            · have := (g3 o ho).1
              rw [(hg.used_iff o).2 (.inl hx)] at this
              cases this
        · intro o h3 h4 h5 h6
          rw [List.flatten_cons, List.mem_append]
          by_cases ho : o ∈ (gather T mf nrm pts.length i ni used).old
          · exact .inl ho
          · right
            refine g4 o ?_ h4 ?_ h6
            · rcases Nat.lt_or_eq_of_le h3 with h | rfl
              · exact h
              · exact absurd (List.mem_of_mem_head? (by rw [hg.group.head]; rfl)) ho
            · rcases hx : (gather T mf nrm pts.length i ni used).used.getD o true with _ | _
              · rfl
              · rcases (hg.used_iff o).1 hx with h | h
                · rw [h5] at h; cases h
                · exact absurd h ho
        · intro k G hk j nj hj hnj v hv hvn o ho hvo hpar
          rcases k with _ | k
          · rw [List.getElem?_cons_zero, Option.some.injEq] at hk
            subst hk
            rw [hg.group.head] at hj
            cases hj
            rw [hn] at hnj
            cases hnj
            rcases (hg.used_iff o).1 (gather_complete hv hvn ho hvo hpar) with h | h
            · exact .inl h
            · right; simpa using h
          · rw [List.getElem?_cons_succ] at hk
            rw [List.take_succ_cons, List.flatten_cons, List.mem_append]
            rcases g5 k G hk j nj hj hnj v hv hvn o ho hvo hpar with h | h
            · rcases (hg.used_iff o).1 h with h | h
              · exact .inl h
              · exact .inr (.inl h)
            · exact .inr (.inr h)
    · rw [hu] at h
      exact skip (.inl hu) h
end
end Verif.Simplify3
