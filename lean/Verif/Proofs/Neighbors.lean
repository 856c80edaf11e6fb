import Verif.Model.Neighbors
import Verif.Spec.Neighbors
import Verif.Proofs.Convex
import Verif.Proofs.MeshQueries
import Verif.Props.Internal
import Verif.Proofs.Box
/- The neighbours computed from hulls and a mesh. -/
namespace Verif.Nbr
open Verif Verif.Mesh Verif.Geom
section
variable {K : Type} [Field K] [LinearOrder K] [IsStrictOrderedRing K]

theorem intersect_spec (dbg : Bool) {a b : RPLC K} (ha : GoodHull a) (hb : GoodHull b) :
    ∃ r, convexIntersect2 dbg a b = .ok r ∧ (r = true ↔ ¬ Outside a b ∧ ¬ Outside b a) := by
  have gen : ∀ (l : List K), l.length % 2 = 0 → 0 < l.length → ∀ x y s, cloudSide2 dbg x y l = .ok s → ((fun s => s == 1) s = true ↔ ∀ v ∈ pts2 l, area2 x y v < 0) := by
    intro l h1 h2 x y s hs
    obtain ⟨s', hs', _, h⟩ := cloudSide2_spec (dbg := dbg) h1 h2 x y
    rw [hs] at hs'
    injection hs' with e
    subst e
    rw [← h]; simp
  obtain ⟨r1, hr1, hi1⟩ := scan2_spec (dbg := dbg) (b := a) hb.even hb.some (stop := fun s => s == 1) (bad := fun x y => ∀ v ∈ pts2 b.points, area2 x y v < 0)
    (gen b.points hb.even hb.some) ha.ids
  obtain ⟨r2, hr2, hi2⟩ := scan2_spec (dbg := dbg) (b := b) ha.even ha.some (stop := fun s => s == 1) (bad := fun x y => ∀ v ∈ pts2 a.points, area2 x y v < 0)
    (gen a.points ha.even ha.some) hb.ids
  have e1 : r1 = true ↔ Outside a b := hi1
  have e2 : r2 = true ↔ Outside b a := hi2
  unfold convexIntersect2
  rw [hr1, Res.ok_bind]
  cases r1 with
  | true => exact ⟨false, rfl, by simp [← e1]⟩
  | false =>
    rw [if_neg (by simp), hr2, Res.ok_bind]
    exact ⟨!r2, rfl, by rw [← e1, ← e2]; cases r2 <;> simp⟩

theorem hullNeighbors_spec (dbg : Bool) {hulls : List (RPLC K)} (hg : ∀ h ∈ hulls, GoodHull h) {rank : Nat} {b : RPLC K} (hb : hulls[rank]? = some b) :
    ∀ (qs s : List Nat), (∀ q ∈ qs, q < hulls.length) → s.Pairwise (· < ·) → ∃ r, hullNeighbors dbg hulls rank qs s = .ok r ∧ r.Pairwise (· < ·) ∧
      ∀ q, q ∈ r ↔ q ∈ s ∨ q ∈ qs ∧ q ≠ rank ∧ ∃ a, hulls[q]? = some a ∧ ¬ Outside a b ∧ ¬ Outside b a
  | [], s, _, hs => ⟨s, rfl, hs, by simp⟩
  | q :: qs, s, h, hs => by
    rw [hullNeighbors]
    by_cases hq : q = rank
    · rw [if_neg (by simp [hq])]
      obtain ⟨r, e, h1, h2⟩ := hullNeighbors_spec dbg hg hb qs s (fun x hx => h x (by simp [hx])) hs
      refine ⟨r, e, h1, fun x => ?_⟩
      rw [h2, List.mem_cons]
      constructor
      · rintro (h | ⟨h, h'⟩)
        · exact Or.inl h
        · exact Or.inr ⟨Or.inr h, h'⟩
      · rintro (h | ⟨h | h, h'⟩)
        · exact Or.inl h
        · exact absurd (h.trans hq) h'.1
        · exact Or.inr ⟨h, h'⟩
    · have hlt := h q (by simp)
      have ha : hulls[q]? = some hulls[q] := List.getElem?_eq_getElem hlt
      obtain ⟨x, hx, hxi⟩ := intersect_spec dbg (hg hulls[q] (List.getElem_mem hlt)) (hg b (List.mem_of_getElem? hb))
      rw [if_pos hq, rd_eq_ok.2 ha, Res.ok_bind, rd_eq_ok.2 hb, Res.ok_bind, hx, Res.ok_bind]
      obtain ⟨r, e, h1, h2⟩ := hullNeighbors_spec dbg hg hb qs (if x then setAdd q s else s) (fun x hx => h x (by simp [hx]))
        (by split; exacts [sorted_setAdd hs, hs])
      refine ⟨r, e, h1, fun y => ?_⟩
      rw [h2, List.mem_cons]
      cases x with
      | true =>
        have := hxi.1 rfl
        rw [if_pos rfl, mem_setAdd]
        constructor
        · rintro ((rfl | h) | ⟨h, h'⟩)
          · exact Or.inr ⟨Or.inl rfl, hq, _, ha, this⟩
          · exact Or.inl h
          · exact Or.inr ⟨Or.inr h, h'⟩
        · rintro (h | ⟨h | h, h'⟩)
          · exact Or.inl (Or.inr h)
          · exact Or.inl (Or.inl h)
          · exact Or.inr ⟨h, h'⟩
      | false =>
        have hx' : ¬ (¬ Outside hulls[q] b ∧ ¬ Outside b hulls[q]) := fun hh => by simpa using hxi.2 hh
        rw [if_neg (by simp)]
        constructor
        · rintro (h | ⟨h, h'⟩)
          · exact Or.inl h
          · exact Or.inr ⟨Or.inr h, h'⟩
        · rintro (h | ⟨rfl | h, h1, a, h2, h3⟩)
          · exact Or.inl h
          · rw [ha] at h2; cases h2; exact absurd h3 hx'
          · exact Or.inr ⟨h, h1, a, h2, h3⟩

omit [Field K] [LinearOrder K] [IsStrictOrderedRing K] in
theorem offsets_get : ∀ (hs : List (RPLC K)) (o p : Nat), p ≤ hs.length → (offsets o hs)[p]? = some (o + ((hs.take p).map fun h => h.points.length / 2).sum)
  | [], o, p, h => by
    have : p = 0 := by simpa using h
    subst this
    simp [offsets]
  | h :: hs, o, 0, _ => by simp [offsets]
  | h :: hs, o, p + 1, hp => by
    have := offsets_get hs (o + h.points.length / 2) p (by simpa using hp)
    simp only [offsets, List.getElem?_cons_succ, this, List.take_succ_cons, List.map_cons, List.sum_cons]
    congr 1; omega

omit [Field K] [LinearOrder K] [IsStrictOrderedRing K] in
theorem offsets_length : ∀ (hs : List (RPLC K)) (o : Nat), (offsets o hs).length = hs.length + 1
  | [], o => rfl
  | h :: hs, o => by simp [offsets, offsets_length hs]

omit [Field K] [LinearOrder K] [IsStrictOrderedRing K] in
theorem offsets_sorted : ∀ (hs : List (RPLC K)) (o : Nat), (offsets o hs).Pairwise (· ≤ ·) ∧ ∀ x ∈ offsets o hs, o ≤ x
  | [], o => by simp [offsets]
  | h :: hs, o => by
    obtain ⟨h1, h2⟩ := offsets_sorted hs (o + h.points.length / 2)
    have : ∀ x ∈ offsets (o + h.points.length / 2) hs, o ≤ x := fun x hx => le_trans (Nat.le_add_right _ _) (h2 x hx)
    refine ⟨List.pairwise_cons.2 ⟨this, h1⟩, ?_⟩
    intro x hx
    rcases List.mem_cons.1 hx with rfl | hx
    · exact le_refl _
    · exact this x hx

omit [Field K] [LinearOrder K] [IsStrictOrderedRing K] in
theorem interest_spec {nc cn : List (List Nat)} (hcn : ∀ ns ∈ cn, ∀ n ∈ ns, n < nc.length) :
    ∀ (is s : List Nat), (∀ i ∈ is, i < cn.length) → s.Pairwise (· < ·) → ∃ r, interest nc cn is s = .ok r ∧ r.Pairwise (· < ·) ∧
      ∀ c, c ∈ r ↔ c ∈ s ∨ ∃ i ∈ is, ∃ n ∈ cn.getD i [], c ∈ nc.getD n []
  | [], s, _, hs => ⟨s, rfl, hs, by simp⟩
  | i :: is, s, h, hs => by
    have hi := h i (by simp)
    have e1 : cn[i]? = some cn[i] := List.getElem?_eq_getElem hi
    have e2 : cn[i].mapM (rd nc) = .ok (cn[i].map fun n => nc.getD n []) :=
      mapM_ok _ fun n hn => rd_eq_ok.2 (by
        have := hcn cn[i] (List.getElem_mem hi) n hn
        simp [List.getD, this])
    have e3 : cn.getD i [] = cn[i] := by simp [List.getD, hi]
    rw [interest, rd_eq_ok.2 e1, Res.ok_bind, e2, Res.ok_bind]
    obtain ⟨r, e, h1, h2⟩ := interest_spec hcn is (setAddAll s (cn[i].map fun n => nc.getD n []).flatten) (fun x hx => h x (by simp [hx])) (sorted_setAddAll _ _ hs)
    refine ⟨r, e, h1, fun c => ?_⟩
    rw [h2, mem_setAddAll]
    constructor
    · rintro ((h | h) | ⟨j, hj, h⟩)
      · exact Or.inl h
      · obtain ⟨l, hl, hcl⟩ := List.mem_flatten.1 h
        obtain ⟨n, hn, rfl⟩ := List.mem_map.1 hl
        exact Or.inr ⟨i, by simp, n, by rw [e3]; exact hn, hcl⟩
      · exact Or.inr ⟨j, by simp [hj], h⟩
    · rintro (h | ⟨j, hj, n, hn, hc⟩)
      · exact Or.inl (Or.inl h)
      · rcases List.mem_cons.1 hj with rfl | hj
        · rw [e3] at hn
          exact Or.inl (Or.inr (List.mem_flatten.2 ⟨_, List.mem_map.2 ⟨n, hn, rfl⟩, hc⟩))
        · exact Or.inr ⟨j, hj, n, hn, hc⟩

omit [Field K] [LinearOrder K] [IsStrictOrderedRing K] in
theorem owner_spec (dbg : Bool) {hulls : List (RPLC K)} (hn : hulls.length < 2 ^ 31) {c : Nat} (hc : c < (hulls.map fun h => h.points.length / 2).sum) :
    ∃ r, Internal.bisectSearch dbg (offsets 0 hulls) c = .ok r ∧ toUnsigned r < hulls.length ∧ ∀ q, q < hulls.length → (toUnsigned r = q ↔ Owns hulls q c) := by
  have hne : offsets 0 hulls ≠ [] := by
    intro h
    have := offsets_length hulls 0
    rw [h] at this
    simp at this
  obtain ⟨r, e, h1, h2, h3⟩ := Internal.C15_ascending dbg (offsets 0 hulls) c hne (offsets_sorted hulls 0).1
  have hr0 : 0 ≤ r := by
    have := (h3 0 0 (by rw [offsets_get hulls 0 0 (by omega)]; simp)).2 (Nat.zero_le _)
    exact_mod_cast this
  have hrn : r < hulls.length := by
    have := h3 hulls.length _ (offsets_get hulls 0 hulls.length (le_refl _))
    rw [List.take_length] at this
    by_contra hge
    have h5 := this.1 (by omega)
    omega
  have eu : toUnsigned r = r.toNat := by
    unfold toUnsigned
    rw [Int.emod_eq_of_lt hr0 (by omega)]
  refine ⟨r, e, by omega, ?_⟩
  intro q hq
  have a1 := h3 q _ (offsets_get hulls 0 q (by omega))
  have a2 := h3 (q + 1) _ (offsets_get hulls 0 (q + 1) (by omega))
  rw [Nat.zero_add] at a1 a2
  unfold Owns
  constructor
  · intro h
    refine ⟨a1.1 (by omega), ?_⟩
    by_contra hge
    have := a2.2 (by omega)
    omega
  · rintro ⟨h4, h5⟩
    have b1 := a1.2 h4
    have b2 : ¬ ((q + 1 : Nat) : Int) ≤ r := fun hh => by have := a2.1 hh; omega
    omega

omit [Field K] [LinearOrder K] [IsStrictOrderedRing K] in
theorem owners_spec (dbg : Bool) {hulls : List (RPLC K)} (hn : hulls.length < 2 ^ 31) {rank : Nat} :
    ∀ (cs s : List Nat), (∀ c ∈ cs, c < (hulls.map fun h => h.points.length / 2).sum) → s.Pairwise (· < ·) → (∀ q ∈ s, q < hulls.length) →
      ∃ r, owners dbg (offsets 0 hulls) rank cs s = .ok r ∧ r.Pairwise (· < ·) ∧ ∀ q, q ∈ r ↔ q ∈ s ∨ q < hulls.length ∧ q ≠ rank ∧ ∃ c ∈ cs, Owns hulls q c
  | [], s, _, hs, hlt => ⟨s, rfl, hs, by simp⟩
  | c :: cs, s, h, hs, hlt => by
    obtain ⟨r, e, h1, h2⟩ := owner_spec dbg hn (h c (by simp))
    rw [owners, e, Res.ok_bind]
    obtain ⟨l, e', h3, h4⟩ := owners_spec dbg hn (rank := rank) cs (if toUnsigned r ≠ rank then setAdd (toUnsigned r) s else s) (fun x hx => h x (by simp [hx]))
      (by split; exacts [sorted_setAdd hs, hs]) (by
        intro q hq
        split at hq
        · rcases mem_setAdd.1 hq with rfl | hq
          · exact h1
          · exact hlt q hq
        · exact hlt q hq)
    refine ⟨l, e', h3, fun q => ?_⟩
    rw [h4]
    have key : q ∈ (if toUnsigned r ≠ rank then setAdd (toUnsigned r) s else s) ↔ q ∈ s ∨ q < hulls.length ∧ q ≠ rank ∧ Owns hulls q c := by
      split
      · rename_i hr
        rw [mem_setAdd]
        constructor
        · rintro (rfl | h)
          · exact Or.inr ⟨h1, hr, (h2 _ h1).1 rfl⟩
          · exact Or.inl h
        · rintro (h | ⟨hq, _, ho⟩)
          · exact Or.inr h
          · exact Or.inl ((h2 q hq).2 ho).symm
      · rename_i hr
        constructor
        · exact Or.inl
        · rintro (h | ⟨hq, hqr, ho⟩)
          · exact h
          · exact absurd ((h2 q hq).2 ho) (by intro hh; exact hr (by rw [hh]; exact hqr))
    rw [key]
    constructor
    · rintro ((h | ⟨a, b, c'⟩) | ⟨a, b, d, hd, ho⟩)
      · exact Or.inl h
      · exact Or.inr ⟨a, b, c, by simp, c'⟩
      · exact Or.inr ⟨a, b, d, by simp [hd], ho⟩
    · rintro (h | ⟨a, b, d, hd, ho⟩)
      · exact Or.inl (Or.inl h)
      · rcases List.mem_cons.1 hd with rfl | hd
        · exact Or.inl (Or.inr ⟨a, b, ho⟩)
        · exact Or.inr ⟨a, b, d, hd, ho⟩

theorem neighborsIn_spec (dbg : Bool) {hulls : List (RPLC K)} {m : Tess K} (hn : hulls.length < 2 ^ 31) (hg : ∀ h ∈ hulls, GoodHull h) (hc : Consistent 2 m)
    (hcells : m.cells.length = (hulls.map fun h => h.points.length / 2).sum) {p : Nat} (hp : p < hulls.length) :
    ∃ l, neighborsIn dbg hulls m p = .ok l ∧ l.Pairwise (· < ·) ∧ ∀ q, q ∈ l ↔ q < hulls.length ∧ q ≠ p ∧ Linked hulls m p q := by
  have hb : hulls[p]? = some hulls[p] := List.getElem?_eq_getElem hp
  obtain ⟨s, e1, s1, s2⟩ := hullNeighbors_spec dbg hg hb (List.range hulls.length) [] (by simp) (by simp)
  obtain ⟨nc, e2, n1, _, n2⟩ := computeNodeCells_spec dbg 2 m hc.faces_lt hc.cells_lt
  obtain ⟨cn, e3, c1, _, c2⟩ := computeCellToNodes_spec dbg 2 m hc.faces_lt hc.cells_lt hc.faceCells_len
  have o1 := offsets_get hulls 0 p (by omega)
  have o2 := offsets_get hulls 0 (p + 1) (by omega)
  rw [Nat.zero_add] at o1 o2
  have hmono : ((hulls.take p).map fun h => h.points.length / 2).sum ≤ ((hulls.take (p + 1)).map fun h => h.points.length / 2).sum := by
    rw [List.take_succ, List.map_append, List.sum_append]; omega
  have htot : ((hulls.take (p + 1)).map fun h => h.points.length / 2).sum ≤ (hulls.map fun h => h.points.length / 2).sum := by
    conv_rhs => rw [← List.take_append_drop (p + 1) hulls, List.map_append, List.sum_append]
    omega
  obtain ⟨cs, e4, k1, k2⟩ := interest_spec (nc := nc) (cn := cn) (by
      intro ns hns n hn'
      obtain ⟨i, hi, rfl⟩ := List.mem_iff_getElem.1 hns
      obtain ⟨_, t, ht, hf⟩ := (c2 n i).1 (by simpa [List.getD, hi] using hn')
      rw [n1]
      unfold face at hf
      by_cases hl : posID t < m.faces.length
      · simp only [List.getD, List.getElem?_eq_getElem hl, Option.getD_some] at hf
        exact hc.faces_lt _ (List.getElem_mem hl) n hf
      · simp [List.getD, List.getElem?_eq_none (not_lt.1 hl)] at hf)
    (List.range' ((hulls.take p).map fun h => h.points.length / 2).sum (((hulls.take (p + 1)).map fun h => h.points.length / 2).sum - ((hulls.take p).map fun h => h.points.length / 2).sum)) []
    (by
      intro i hi
      rw [List.mem_range'] at hi
      obtain ⟨j, hj, rfl⟩ := hi
      rw [c1, hcells]
      omega) (by simp)
  have hcs : ∀ c, c ∈ cs ↔ ∃ i, Owns hulls p i ∧ ShareNode m i c ∧ c < m.cells.length := by
    intro c
    rw [k2]
    simp only [List.not_mem_nil, false_or]
    constructor
    · rintro ⟨i, hi, n, hn', hcn⟩
      rw [List.mem_range'] at hi
      obtain ⟨j, hj, rfl⟩ := hi
      obtain ⟨_, hx⟩ := (c2 n _).1 hn'
      obtain ⟨hlt, hy⟩ := (n2 n c).1 hcn
      exact ⟨_, ⟨by omega, by omega⟩, ⟨n, hx, hy⟩, hlt⟩
    · rintro ⟨i, ⟨h1, h2⟩, ⟨n, hx, hy⟩, hlt⟩
      refine ⟨i, ?_, n, (c2 n i).2 ⟨by omega, hx⟩, (n2 n c).2 ⟨hlt, hy⟩⟩
      rw [List.mem_range']
      exact ⟨i - ((hulls.take p).map fun h => h.points.length / 2).sum, by omega, by omega⟩
  obtain ⟨l, e5, l1, l2⟩ := owners_spec dbg hn (rank := p) cs s (by
    intro c h
    obtain ⟨_, _, _, h⟩ := (hcs c).1 h
    omega) s1 (by
    intro q hq
    rw [s2] at hq
    rcases hq with hq | ⟨hq, _⟩
    · simp at hq
    · simpa using hq)
  refine ⟨l, ?_, l1, ?_⟩
  · unfold neighborsIn
    rw [e1, Res.ok_bind, e2, Res.ok_bind, e3, Res.ok_bind, rd_eq_ok.2 o1, Res.ok_bind, rd_eq_ok.2 o2, Res.ok_bind, e4, Res.ok_bind, e5]
  · intro q
    rw [l2, s2]
    unfold Linked
    constructor
    · rintro ((h | ⟨h1, h2, a, h3, h4, h5⟩) | ⟨h1, h2, c, hc', ho⟩)
      · simp at h
      · exact ⟨by simpa using h1, h2, Or.inl ⟨_, a, hb, h3, h5, h4⟩⟩
      · obtain ⟨i, hi, hsh, _⟩ := (hcs c).1 hc'
        exact ⟨h1, h2, Or.inr ⟨i, c, hi, ho, hsh⟩⟩
    · rintro ⟨h1, h2, ⟨a, b, ha, hb', h3, h4⟩ | ⟨i, j, hi, hj, hsh⟩⟩
      · rw [hb] at ha
        cases ha
        exact Or.inl (Or.inr ⟨by simpa using h1, h2, b, hb', h4, h3⟩)
      · refine Or.inr ⟨h1, h2, j, (hcs j).2 ⟨i, hi, hsh, ?_⟩, hj⟩
        have : ((hulls.take (q + 1)).map fun h => h.points.length / 2).sum ≤ (hulls.map fun h => h.points.length / 2).sum := by
          conv_rhs => rw [← List.take_append_drop (q + 1) hulls, List.map_append, List.sum_append]
          omega
        have := hj.2
        omega

omit [IsStrictOrderedRing K] in
theorem linked_symm {hulls : List (RPLC K)} {m : Tess K} {p q : Nat} (h : Linked hulls m p q) : Linked hulls m q p := by
  rcases h with ⟨a, b, ha, hb, h1, h2⟩ | ⟨i, j, hi, hj, n, h1, h2⟩
  · exact Or.inl ⟨b, a, hb, ha, h2, h1⟩
  · exact Or.inr ⟨j, i, hj, hi, n, h2, h1⟩
end
end Verif.Nbr
