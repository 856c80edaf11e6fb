import Verif.Model.Readout
import Verif.Spec.Readout
import Verif.Props.Internal
import Verif.Proofs.Box
/- Dropping unused edges and nodes and renumbering. -/
namespace Verif.Readout
open Verif Verif.Mesh Verif.Internal

theorem countUses_spec (dbg : Bool) : ∀ (ks : List Int) (u : List Nat), (∀ k ∈ ks, posID k < u.length) →
    ∃ u', countUses dbg u.length ks u = .ok u' ∧ u'.length = u.length ∧ ∀ f, f < u.length → u'.getD f 0 = u.getD f 0 + (ks.filter fun k => decide (posID k = f)).length
  | [], u, _ => ⟨u, rfl, rfl, by simp⟩
  | k :: ks, u, h => by
    have hk := h k (by simp)
    obtain ⟨u', e, hl, hf⟩ := countUses_spec dbg ks (u.set (posID k) (u[posID k] + 1)) (by simpa using fun k hk => h k (by simp [hk]))
    rw [List.length_set] at e hl hf
    refine ⟨u', ?_, hl, fun f hfl => ?_⟩
    · unfold countUses
      rw [Res.assert_true dbg hk, Res.ok_bind, rd_lt hk, Res.ok_bind, wr_lt hk, Res.ok_bind]; exact e
    · rw [hf f hfl]
      by_cases hfk : posID k = f
      · subst hfk
        simp only [List.getD, List.getElem?_set_self hk, List.filter_cons, decide_true, if_true, List.length_cons, List.getElem?_eq_getElem hk, Option.getD_some]; omega
      · simp [List.getD, List.getElem?_set_ne hfk, hfk]

theorem unused_spec : ∀ (cs : List Nat) (i : Nat), (unused i cs).Pairwise (· < ·) ∧ ∀ j, j ∈ unused i cs ↔ i ≤ j ∧ j < i + cs.length ∧ cs.getD (j - i) 0 = 0
  | [], i => by simp [unused]
  | c :: cs, i => by
    obtain ⟨h1, h2⟩ := unused_spec cs (i + 1)
    have key : ∀ j, (i + 1 ≤ j ∧ j < i + 1 + cs.length ∧ cs.getD (j - (i + 1)) 0 = 0) ↔ (i < j ∧ j < i + (c :: cs).length ∧ (c :: cs).getD (j - i) 0 = 0) := by
      intro j
      by_cases hj : i < j
      · have : j - i = (j - (i + 1)) + 1 := by omega
        rw [this]; simp only [List.length_cons, List.getD_cons_succ]; omega
      · omega
    unfold unused
    split
    · rename_i hc
      refine ⟨List.pairwise_cons.mpr ⟨fun j hj => ((h2 j).mp hj).1, h1⟩, fun j => ?_⟩
      rw [List.mem_cons, h2, key]
      constructor
      · rintro (rfl | h)
        · simp [hc]
        · omega
      · rintro ⟨a, b, c'⟩
        rcases Nat.eq_or_lt_of_le a with h | h
        · exact Or.inl h.symm
        · exact Or.inr ⟨h, b, c'⟩
    · rename_i hc
      refine ⟨h1, fun j => ?_⟩
      rw [h2, key]
      constructor
      · rintro ⟨a, b⟩; exact ⟨by omega, b⟩
      · rintro ⟨a, b, c'⟩
        rcases Nat.eq_or_lt_of_le a with h | h
        · subst h; simp at c'; exact absurd c' hc
        · exact ⟨h, b, c'⟩

theorem countNodes_spec : ∀ (es : List (Int × Int)) (u : List Nat), (∀ e ∈ es, (0 ≤ e.1 ∧ e.1 < u.length) ∧ 0 ≤ e.2 ∧ e.2 < u.length) →
    ∃ u', countNodes es u = .ok u' ∧ u'.length = u.length ∧ ∀ a, a < u.length → (u'.getD a 0 = 0 ↔ u.getD a 0 = 0 ∧ ∀ e ∈ es, e.1 ≠ (a : Int) ∧ e.2 ≠ (a : Int))
  | [], u, _ => ⟨u, rfl, rfl, by simp⟩
  | e :: es, u, h => by
    obtain ⟨⟨a1, a2⟩, a3, a4⟩ := h e (by simp)
    have l1 : e.1.toNat < u.length := by omega
    have l2 : e.2.toNat < (u.set e.1.toNat (u[e.1.toNat] + 1)).length := by rw [List.length_set]; omega
    set u1 := u.set e.1.toNat (u[e.1.toNat] + 1) with hu1
    set u2 := u1.set e.2.toNat (u1[e.2.toNat] + 1) with hu2
    have hl1 : u1.length = u.length := by rw [hu1]; simp
    have hl2 : u2.length = u.length := by rw [hu2, List.length_set, hl1]
    obtain ⟨u', e', hl, hf⟩ := countNodes_spec es u2 (by rw [hl2]; exact fun x hx => h x (by simp [hx]))
    rw [hl2] at hl hf
    refine ⟨u', ?_, hl, fun a ha => ?_⟩
    · unfold countNodes
      rw [if_neg (by omega), rd_lt l1, Res.ok_bind, wr_lt l1, Res.ok_bind, rd_lt l2, Res.ok_bind, wr_lt l2, Res.ok_bind]; exact e'
    · rw [hf a ha]
      have g1 : u1.getD a 0 = if e.1.toNat = a then u.getD a 0 + 1 else u.getD a 0 := by
        rw [hu1]
        by_cases h1 : e.1.toNat = a
        · subst h1; simp [List.getD, l1]
        · simp [List.getD, List.getElem?_set_ne h1, h1]
      have g2 : u2.getD a 0 = if e.2.toNat = a then u1.getD a 0 + 1 else u1.getD a 0 := by
        rw [hu2]
        by_cases h1 : e.2.toNat = a
        · subst h1; simp [List.getD, l2]
        · simp [List.getD, List.getElem?_set_ne h1, h1]
      rw [g2, g1]
      simp only [List.forall_mem_cons]
      by_cases b1 : e.1.toNat = a
      · have : ¬ (e.1 ≠ (a : Int)) := by omega
        rw [if_pos b1]; simp only [this, false_and, and_false, iff_false]; split <;> omega
      · rw [if_neg b1]
        have : e.1 ≠ (a : Int) := by omega
        by_cases b2 : e.2.toNat = a
        · have h2 : ¬ (e.2 ≠ (a : Int)) := by omega
          rw [if_pos b2]; simp only [h2, and_false, false_and, iff_false]; omega
        · have h2 : e.2 ≠ (a : Int) := by omega
          rw [if_neg b2]; simp only [ne_eq, this, h2, not_false_eq_true, true_and]

theorem rank_lt {del : List Nat} {i j : Nat} (hij : i < j) (hi : i ∉ del) : rank del i < rank del j := by
  unfold rank
  have : List.range j = List.range i ++ List.range' i (j - i) := by
    rw [List.range_eq_range', List.range_eq_range']
    have := List.range'_append (s := 0) (m := i) (n := j - i) (step := 1)
    simp at this
    rw [show i + (j - i) = j by omega] at this
    exact this.symm
  rw [this, List.filter_append, List.length_append]
  have : j - i = (j - i - 1) + 1 := by omega
  rw [this, List.range'_succ]
  simp [hi]

theorem mem_without {α : Type} {l : List α} {del : List Nat} {x : α} : x ∈ without l del ↔ ∃ i, i ∉ del ∧ l[i]? = some x := by
  unfold without
  simp only [List.mem_filterMap, List.mem_filter, List.mem_range, decide_eq_true_eq]
  constructor
  · rintro ⟨i, ⟨_, h1⟩, h2⟩; exact ⟨i, h1, h2⟩
  · rintro ⟨i, h1, h2⟩; exact ⟨i, ⟨(List.getElem?_eq_some_iff.mp h2).1, h1⟩, h2⟩

theorem without_nodup {α : Type} {l : List α} {del : List Nat} (h : l.Nodup) : (without l del).Nodup := by
  unfold without
  refine List.Nodup.filterMap ?_ (List.nodup_range.filter _)
  intro i j x hi hj
  obtain ⟨h1, h1'⟩ := List.getElem?_eq_some_iff.mp hi
  obtain ⟨h2, h2'⟩ := List.getElem?_eq_some_iff.mp hj
  exact (h.getElem_inj_iff).mp (h1'.trans h2'.symm)

theorem without_sublist {α : Type} (l : List α) (del : List Nat) : (without l del).Sublist l := by
  unfold without
  have : l = (List.range l.length).filterMap fun i => l[i]? := by
    have hm : ((List.range l.length).filterMap fun i => l[i]?).map some = (List.range l.length).map fun i => l[i]? := by
      have : ∀ r : List Nat, (∀ i ∈ r, i < l.length) → (r.filterMap fun i => l[i]?).map some = r.map fun i => l[i]? := by
        intro r
        induction r with
        | nil => simp
        | cons a r ih => intro h; have := h a (by simp); simp [this, ih (fun i hi => h i (by simp [hi]))]
      exact this _ (by simp)
    apply List.ext_getElem?
    intro i
    have := congrArg (fun z => z[i]?) hm
    simp only [List.getElem?_map] at this
    by_cases hi : i < l.length
    · simp only [List.getElem?_range hi, Option.map_some] at this
      cases hx : ((List.range l.length).filterMap fun i => l[i]?)[i]? with
      | none => rw [hx] at this; simp at this
      | some y => rw [hx] at this; simp at this ⊢; exact this.symm
    · rw [List.getElem?_eq_none (by simp; omega : (List.range l.length).length ≤ i)] at this
      cases hx : ((List.range l.length).filterMap fun i => l[i]?)[i]? with
      | none => simp; omega
      | some y => rw [hx] at this; simp at this
  conv_rhs => rw [this]
  exact List.Sublist.filterMap _ (List.filter_sublist)

/-- What the compaction does, in terms of the positions it drops. -/
structure Compacted {α : Type} (nodes : List α) (edges : List (Int × Int)) (cells : List (List Int)) (D M : List Nat) (r : List α × List (Int × Int) × List (List Int)) : Prop where
  dropped_edges : ∀ f, f < edges.length → (f ∉ D ↔ ∃ k ∈ cells.flatten, posID k = f)
  dropped_nodes : ∀ a, a < nodes.length → (a ∉ M ↔ ∃ e ∈ without edges D, e.1 = (a : Int) ∨ e.2 = (a : Int))
  nodes_eq : r.1 = without nodes M
  edges_eq : r.2.1 = (without edges D).map fun e => ((rank M e.1.toNat : Int), (rank M e.2.toNat : Int))
  cells_eq : r.2.2 = cells.map fun c => c.map fun k => if k < 0 then flip (rank D (flip k).toNat) else (rank D k.toNat : Int)
  edge_at : ∀ f, f < edges.length → f ∉ D → (without edges D)[rank D f]? = edges[f]?
  node_at : ∀ a, a < nodes.length → a ∉ M → (without nodes M)[rank M a]? = nodes[a]?

theorem compact_spec {α : Type} (dbg : Bool) {nodes : List α} {edges : List (Int × Int)} {cells : List (List Int)} (hc : ∀ C ∈ cells, ∀ k ∈ C, posID k < edges.length)
    (he : ∀ e ∈ edges, (0 ≤ e.1 ∧ e.1 < nodes.length) ∧ 0 ≤ e.2 ∧ e.2 < nodes.length) :
    (∃ r D M, compact dbg nodes edges cells = .ok r ∧ Compacted nodes edges cells D M r) ∨
    (dbg = true ∧ compact dbg nodes edges cells = .abort ∧ ∃ f, f < edges.length ∧ 2 < (cells.flatten.filter fun k => decide (posID k = f)).length) := by
  have hcf : ∀ k ∈ cells.flatten, posID k < edges.length := by
    intro k hk
    obtain ⟨C, hC, hk⟩ := List.mem_flatten.mp hk
    exact hc C hC k hk
  obtain ⟨u, eu, lu, fu⟩ := countUses_spec dbg cells.flatten (List.replicate edges.length 0) (by simpa using hcf)
  simp only [List.length_replicate] at eu lu fu
  by_cases hass : dbg = true ∧ ¬ ∀ x ∈ u, x ≤ 2
  · right
    obtain ⟨rfl, hn⟩ := hass
    refine ⟨rfl, ?_, ?_⟩
    · unfold compact; rw [eu, Res.ok_bind, Res.assert_debug_false hn]; rfl
    · push Not at hn
      obtain ⟨x, hx, h2⟩ := hn
      obtain ⟨f, hf, rfl⟩ := List.getElem_of_mem hx
      refine ⟨f, by omega, ?_⟩
      have := fu f (by omega)
      simp only [List.getD, List.getElem?_eq_getElem hf, List.getElem?_replicate, show f < edges.length by omega, if_true, Option.getD_some, Nat.zero_add] at this
      omega
  left
  have hassert : Res.assert dbg (∀ x ∈ u, x ≤ 2) = .ok () := by
    cases dbg with
    | false => exact Res.assert_release
    | true => exact Res.assert_true _ (by by_contra h; exact hass ⟨rfl, h⟩)
  obtain ⟨pD, mD⟩ := unused_spec u 0
  set D := unused 0 u with hD
  have memD : ∀ f, f < edges.length → (f ∉ D ↔ ∃ k ∈ cells.flatten, posID k = f) := by
    intro f hf
    rw [mD]
    simp only [Nat.sub_zero, Nat.zero_le, true_and, Nat.zero_add]
    rw [fu f hf]
    simp only [List.getD, List.getElem?_replicate, hf, if_true, Option.getD_some, Nat.zero_add]
    rw [List.length_eq_zero_iff, List.filter_eq_nil_iff]
    constructor
    · intro h
      by_contra hcon
      push Not at hcon
      exact h ⟨by omega, fun k hk => by simpa using hcon k hk⟩
    · rintro ⟨k, hk, hkf⟩ ⟨_, h⟩
      exact h k hk (by simpa using hkf)
  obtain ⟨o, eo, lo, o1, o2⟩ := C14_remove_exact dbg edges D pD (fun d hd => by have := (mD d).mp hd; omega)
  have patch : ∀ C ∈ cells, (C.mapM (patchEdge dbg o)) = .ok (C.map fun k => if k < 0 then flip (rank D (flip k).toNat) else (rank D k.toNat : Int)) := by
    intro C hC
    refine Verif.Geom.mapM_ok C fun k hk => ?_
    have hin : k ∈ cells.flatten := List.mem_flatten.mpr ⟨C, hC, hk⟩
    have hlt := hcf k hin
    have hkept : posID k ∉ D := (memD _ hlt).mpr ⟨k, hin, rfl⟩
    have ho := (o2 _ hlt hkept).1
    unfold patchEdge
    by_cases hk0 : k < 0
    · have hp : posID k = (flip k).toNat := by unfold posID; rw [if_neg (by omega)]
      rw [hp] at ho
      rw [if_pos hk0, if_pos hk0, rd_eq_ok.mpr ho, Res.ok_bind, Res.assert_true dbg (by omega)]; rfl
    · have hp : posID k = k.toNat := by unfold posID; rw [if_pos (by omega)]
      rw [hp] at ho
      rw [if_neg hk0, if_neg hk0, rd_eq_ok.mpr ho, Res.ok_bind, Res.assert_true dbg (by omega)]; rfl
  have patchAll := Verif.Geom.mapM_ok (g := fun c => c.mapM (patchEdge dbg o)) cells patch
  have heW : ∀ e ∈ without edges D, (0 ≤ e.1 ∧ e.1 < nodes.length) ∧ 0 ≤ e.2 ∧ e.2 < nodes.length := fun e h => by
    obtain ⟨i, _, hi⟩ := mem_without.mp h
    exact he e (List.mem_of_getElem? hi)
  obtain ⟨v, ev, lv, fv⟩ := countNodes_spec (without edges D) (List.replicate nodes.length 0) (by simpa using heW)
  simp only [List.length_replicate] at lv fv
  obtain ⟨pM, mM⟩ := unused_spec v 0
  set M := unused 0 v with hM
  have memM : ∀ a, a < nodes.length → (a ∉ M ↔ ∃ e ∈ without edges D, e.1 = (a : Int) ∨ e.2 = (a : Int)) := by
    intro a ha
    rw [mM]
    simp only [Nat.sub_zero, Nat.zero_le, true_and, Nat.zero_add]
    rw [fv a ha]
    simp only [List.getD, List.getElem?_replicate, ha, if_true, Option.getD_some, true_and]
    constructor
    · intro h
      by_contra hcon
      push Not at hcon
      exact h ⟨by omega, hcon⟩
    · rintro ⟨e, he, hea⟩ ⟨_, h⟩
      have := h e he
      tauto
  obtain ⟨o', eo', lo', o1', o2'⟩ := C14_remove_exact dbg nodes M pM (fun d hd => by have := (mM d).mp hd; omega)
  have patchN : (without edges D).mapM (patchNodes dbg o') = .ok ((without edges D).map fun e => ((rank M e.1.toNat : Int), (rank M e.2.toNat : Int))) := by
    refine Verif.Geom.mapM_ok _ fun e hW => ?_
    obtain ⟨⟨a1, a2⟩, a3, a4⟩ := heW e hW
    have k1 := (o2' e.1.toNat (by omega) ((memM _ (by omega)).mpr ⟨e, hW, Or.inl (by omega)⟩)).1
    have k2 := (o2' e.2.toNat (by omega) ((memM _ (by omega)).mpr ⟨e, hW, Or.inr (by omega)⟩)).1
    unfold patchNodes
    rw [if_neg (by omega), rd_eq_ok.mpr k1, Res.ok_bind, Res.assert_true dbg (by omega), Res.ok_bind, rd_eq_ok.mpr k2, Res.ok_bind, Res.assert_true dbg (by omega)]; rfl
  refine ⟨(without nodes M, (without edges D).map fun e => ((rank M e.1.toNat : Int), (rank M e.2.toNat : Int)), cells.map fun c => c.map fun k => if k < 0 then flip (rank D (flip k).toNat) else (rank D k.toNat : Int)), D, M, ?_, ⟨memD, memM, rfl, rfl, rfl, fun f hf h => (o2 f hf h).2, fun a ha h => (o2' a ha h).2⟩⟩
  unfold compact
  rw [eu, Res.ok_bind, hassert, Res.ok_bind, eo, Res.ok_bind, patchAll, Res.ok_bind]
  dsimp only
  rw [ev, Res.ok_bind, eo', Res.ok_bind]
  dsimp only
  rw [patchN]; rfl

theorem directed_lt {edges : List (Int × Int)} {k : Int} (h : posID k < edges.length) : directed edges k = some (if 0 ≤ k then edges[posID k] else edges[posID k].swap) := by
  unfold directed
  by_cases hk : 0 ≤ k
  · have : posID k = k.toNat := by unfold posID; rw [if_pos hk]
    simp only [this] at h ⊢
    rw [if_pos hk, if_pos hk, List.getElem?_eq_getElem h]
  · have : posID k = (-k - 1).toNat := by unfold posID flip; rw [if_neg hk]
    simp only [this] at h ⊢
    rw [if_neg hk, if_neg hk, List.getElem?_eq_getElem h]; rfl

theorem side_eq {α : Type} {nodes : List α} {edges : List (Int × Int)} {k : Int} {a b : Int} (h : directed edges k = some (a, b)) (ha : 0 ≤ a ∧ a < nodes.length) (hb : 0 ≤ b ∧ b < nodes.length) :
    side nodes edges k = some (nodes[a.toNat]'(by omega), nodes[b.toNat]'(by omega)) := by
  unfold side
  rw [h]
  dsimp only
  rw [if_pos ⟨ha.1, hb.1⟩, List.getElem?_eq_getElem (by omega), List.getElem?_eq_getElem (by omega)]; rfl

/-- Every kept signed edge still joins the same two nodes in the same direction. -/
theorem Compacted.side_keep {α : Type} {nodes : List α} {edges : List (Int × Int)} {cells : List (List Int)} {D M : List Nat} {r : List α × List (Int × Int) × List (List Int)}
    (h : Compacted nodes edges cells D M r) (he : ∀ e ∈ edges, (0 ≤ e.1 ∧ e.1 < nodes.length) ∧ 0 ≤ e.2 ∧ e.2 < nodes.length)
    {k : Int} (hk : k ∈ cells.flatten) (hlt : posID k < edges.length) :
    posID (if k < 0 then flip (rank D (flip k).toNat) else (rank D k.toNat : Int)) < r.2.1.length ∧
    side r.1 r.2.1 (if k < 0 then flip (rank D (flip k).toNat) else (rank D k.toNat : Int)) = side nodes edges k ∧ (side nodes edges k).isSome := by
  have hkD : posID k ∉ D := (h.dropped_edges _ hlt).mpr ⟨k, hk, rfl⟩
  have hat := h.edge_at _ hlt hkD
  rw [List.getElem?_eq_getElem hlt] at hat
  have hmem : edges[posID k] ∈ without edges D := List.mem_of_getElem? hat
  obtain ⟨⟨a1, a2⟩, a3, a4⟩ := he _ (List.getElem_mem hlt)
  set e := edges[posID k] with hedef
  have n1 := h.node_at e.1.toNat (by omega) ((h.dropped_nodes _ (by omega)).mpr ⟨e, hmem, Or.inl (by omega)⟩)
  have n2 := h.node_at e.2.toNat (by omega) ((h.dropped_nodes _ (by omega)).mpr ⟨e, hmem, Or.inr (by omega)⟩)
  have hr2 : r.2.1[rank D (posID k)]? = some ((rank M e.1.toNat : Int), (rank M e.2.toNat : Int)) := by
    rw [h.edges_eq, List.getElem?_map, hat]; rfl
  have hrl : rank D (posID k) < r.2.1.length := (List.getElem?_eq_some_iff.mp hr2).1
  rw [← h.nodes_eq] at n1 n2
  rw [List.getElem?_eq_getElem (i := e.1.toNat) (l := nodes) (by omega)] at n1
  rw [List.getElem?_eq_getElem (i := e.2.toNat) (l := nodes) (by omega)] at n2
  have m1 : rank M e.1.toNat < r.1.length := (List.getElem?_eq_some_iff.mp n1).1
  have m2 : rank M e.2.toNat < r.1.length := (List.getElem?_eq_some_iff.mp n2).1
  have g1 := (List.getElem?_eq_some_iff.mp n1).2
  have g2 := (List.getElem?_eq_some_iff.mp n2).2
  have hd := directed_lt hlt
  rw [← hedef] at hd
  by_cases hk0 : k < 0
  · have hp : posID k = (flip k).toNat := by unfold posID; rw [if_neg (by omega)]
    have hp' : posID (flip (rank D (flip k).toNat)) = rank D (posID k) := by
      rw [hp]; unfold posID; rw [if_neg (by unfold flip; omega)]; unfold flip; omega
    rw [if_pos hk0, hp']
    rw [if_neg (by omega)] at hd
    have hd' := directed_lt (edges := r.2.1) (k := flip (rank D (flip k).toNat)) (by rw [hp']; exact hrl)
    rw [if_neg (by unfold flip; omega)] at hd'
    have hgr : r.2.1[posID (flip (rank D (flip k).toNat))]'(by rw [hp']; exact hrl) = ((rank M e.1.toNat : Int), (rank M e.2.toNat : Int)) := by
      have := (List.getElem?_eq_some_iff.mp hr2).2
      simpa only [hp'] using this
    rw [hgr] at hd'
    replace hd' : directed r.2.1 (flip (rank D (flip k).toNat)) = some (((rank M e.2.toNat : Nat) : Int), ((rank M e.1.toNat : Nat) : Int)) := hd'
    refine ⟨hrl, ?_, ?_⟩
    · rw [side_eq hd ⟨a3, a4⟩ ⟨a1, a2⟩, side_eq hd' ⟨by omega, by exact_mod_cast m2⟩ ⟨by omega, by exact_mod_cast m1⟩]
      simp only [Int.toNat_natCast]
      rw [g1, g2]
    · rw [side_eq hd ⟨a3, a4⟩ ⟨a1, a2⟩]; rfl
  · have hp : posID k = k.toNat := by unfold posID; rw [if_pos (by omega)]
    have hp' : posID ((rank D k.toNat : Nat) : Int) = rank D (posID k) := by
      rw [hp]; unfold posID; rw [if_pos (by omega)]; omega
    rw [if_neg hk0, hp']
    rw [if_pos (by omega)] at hd
    have hd' := directed_lt (edges := r.2.1) (k := ((rank D k.toNat : Nat) : Int)) (by rw [hp']; exact hrl)
    rw [if_pos (by omega)] at hd'
    have hgr : r.2.1[posID ((rank D k.toNat : Nat) : Int)]'(by rw [hp']; exact hrl) = ((rank M e.1.toNat : Int), (rank M e.2.toNat : Int)) := by
      have := (List.getElem?_eq_some_iff.mp hr2).2
      simpa only [hp'] using this
    rw [hgr] at hd'
    replace hd : directed edges k = some (e.1, e.2) := hd
    refine ⟨hrl, ?_, ?_⟩
    · rw [side_eq hd ⟨a1, a2⟩ ⟨a3, a4⟩, side_eq hd' ⟨by omega, by exact_mod_cast m1⟩ ⟨by omega, by exact_mod_cast m2⟩]
      simp only [Int.toNat_natCast]
      rw [g1, g2]
    · rw [side_eq hd ⟨a1, a2⟩ ⟨a3, a4⟩]; rfl
end Verif.Readout
