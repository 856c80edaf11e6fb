import Verif.Model.Parallel
import Verif.Spec.Parallel
import Verif.Proofs.MeshQueries
import Verif.Proofs.Restrict
import Mathlib.Data.List.Flatten
import Mathlib.Data.List.Nodup
/- Proofs about the serial distributed tessellator. -/
namespace Verif.Par
open Verif Verif.Mesh
variable {R : Type}

/-- Usable offsets of `n` processes. -/
structure Offs (n : Nat) (offs : List Nat) : Prop where
  len : offs.length = n + 1
  zero : offs.getD 0 0 = 0
  mono : ∀ i, i < n → offs.getD i 0 ≤ offs.getD (i + 1) 0
  small : n < 2 ^ 32

/-- The cells of process `r` according to the offsets. -/
def own (offs : List Nat) (r : Nat) : List Nat := List.range' (offs.getD r 0) (offs.getD (r + 1) 0 - offs.getD r 0)

theorem rd_getD' {α : Type} {l : List α} {i : Nat} (h : i < l.length) (d : α) : rd l i = .ok (l.getD i d) := by simp [h]

theorem takeWhile_len {α : Type} {p : α → Bool} : ∀ {l : List α} {k : Nat} (_ : k ≤ l.length) (_ : ∀ i (h : i < k) (h' : i < l.length), p l[i] = true)
    (_ : ∀ h : k < l.length, p l[k] = false), (l.takeWhile p).length = k
  | [], k, hk, _, _ => by simp at hk; simp [hk]
  | a :: l, 0, _, _, h0 => by
    have : p a = false := h0 (by simp)
    simp [this]
  | a :: l, k + 1, hk, h1, h2 => by
    have ha : p a = true := h1 0 (by omega) (by simp)
    have := takeWhile_len (p := p) (l := l) (k := k) (by simpa using hk) (fun i h h' => h1 (i + 1) (by omega) (by simpa using h'))
      (fun h => h2 (by simpa using h))
    simp [ha, this]

theorem Offs.mono' {n : Nat} {offs : List Nat} (h : Offs n offs) {i j : Nat} (hij : i ≤ j) (hj : j ≤ n) : offs.getD i 0 ≤ offs.getD j 0 := by
  induction j with
  | zero => have : i = 0 := by omega
            subst this; exact le_refl _
  | succ j ih =>
    rcases Nat.lt_or_ge i (j + 1) with h1 | h1
    · exact le_trans (ih (by omega) (by omega)) (h.mono j (by omega))
    · have : i = j + 1 := by omega
      subst this; exact le_refl _

theorem mem_own {offs : List Nat} {r c : Nat} : c ∈ own offs r ↔ offs.getD r 0 ≤ c ∧ c < offs.getD (r + 1) 0 := by
  rw [own, List.mem_range'_1]; omega

theorem Offs.own_disjoint {n : Nat} {offs : List Nat} (h : Offs n offs) {p q c : Nat} (hp : p < n) (hq : q < n) (h1 : c ∈ own offs p) (h2 : c ∈ own offs q) :
    p = q := by
  rw [mem_own] at h1 h2
  rcases Nat.lt_trichotomy p q with hlt | rfl | hlt
  · have := h.mono' (i := p + 1) (j := q) (by omega) (by omega); omega
  · rfl
  · have := h.mono' (i := q + 1) (j := p) (by omega) (by omega); omega

theorem Offs.own_lt {n : Nat} {offs : List Nat} (h : Offs n offs) {p c : Nat} (hp : p < n) (h1 : c ∈ own offs p) : c < offs.getD n 0 := by
  rw [mem_own] at h1
  have := h.mono' (i := p + 1) (j := n) (by omega) (by omega); omega

/-- Every cell has an owner. -/
theorem Offs.exists_own {n : Nat} {offs : List Nat} (h : Offs n offs) {c : Nat} : ∀ k, k ≤ n → c < offs.getD k 0 → ∃ r, r < k ∧ c ∈ own offs r := by
  intro k
  induction k with
  | zero => intro _ hc; rw [h.zero] at hc; omega
  | succ k ih =>
    intro hk hc
    by_cases h1 : c < offs.getD k 0
    · obtain ⟨r, hr, hm⟩ := ih (by omega) h1
      exact ⟨r, by omega, hm⟩
    · exact ⟨k, by omega, mem_own.2 ⟨by omega, hc⟩⟩

theorem ownerRank_spec (dbg : Bool) {n : Nat} {offs : List Nat} (h : Offs n offs) {r c : Nat} (hr : r < n) (hc : c ∈ own offs r) :
    ownerRank dbg c offs = .ok r := by
  have hlen := h.len
  have hlt := h.own_lt hr hc
  obtain ⟨h1, h2⟩ := mem_own.1 hc
  have hub : upperBound offs c = r + 1 := by
    refine takeWhile_len (by omega) ?_ ?_
    · intro i hi hi'
      have := h.mono' (i := i) (j := r) (by omega) (by omega)
      have e : offs.getD i 0 = offs[i] := by simp [hi']
      simp; omega
    · intro hk
      have e : offs.getD (r + 1) 0 = offs[r + 1] := by simp [hk]
      simp; omega
  unfold ownerRank
  have e : offs.length - 1 = n := by omega
  have hl : n < offs.length := by omega
  have hs := h.small
  simp only [Res.bind_eq, Res.pure_eq, Res.assert_true dbg (show offs.length > 1 by omega), Res.bind_ok, e, rd_getD' hl 0,
    Res.assert_true dbg hlt, hub, Res.assert_true dbg (show 0 < r + 1 ∧ r + 1 < offs.length by omega)]
  rw [if_neg (by omega), Nat.add_sub_cancel, Nat.mod_eq_of_lt (by omega)]

theorem ownCells_spec {n : Nat} {offs : List Nat} (h : Offs n offs) {r : Nat} (hr : r < n) : ownCells r offs = .ok (own offs r) := by
  have := h.len
  simp only [ownCells, Res.bind_eq, Res.pure_eq, rd_getD' (show r < offs.length by omega) 0, rd_getD' (show r + 1 < offs.length by omega) 0, Res.bind_ok]; rfl

/-! ### The map of shared nodes -/

theorem mapGet_cons (k k' : Nat) (l : List Nat) (t : List (Nat × List Nat)) : mapGet k ((k', l) :: t) = if k' = k then l else mapGet k t := by
  unfold mapGet
  by_cases h : k' = k <;> simp [List.find?_cons, h]

/-- Keys in order, no empty entries. -/
structure GoodMap (s : List (Nat × List Nat)) : Prop where
  sorted : (s.map (·.1)).Pairwise (· < ·)
  ne : ∀ k, k ∈ s.map (·.1) ↔ mapGet k s ≠ []

theorem mem_keys_mapPush {k v a : Nat} : ∀ {s : List (Nat × List Nat)}, a ∈ (mapPush k v s).map (·.1) ↔ a = k ∨ a ∈ s.map (·.1)
  | [] => by simp [mapPush]
  | (k', l) :: t => by
    rw [mapPush]
    split
    · simp
    · split
      · simp only [List.map_cons, List.mem_cons, mem_keys_mapPush (s := t)]; tauto
      · have : k = k' := by omega
        subst this; simp

theorem sorted_mapPush {k v : Nat} : ∀ {s : List (Nat × List Nat)}, (s.map (·.1)).Pairwise (· < ·) → ((mapPush k v s).map (·.1)).Pairwise (· < ·)
  | [], _ => by simp [mapPush]
  | (k', l) :: t, h => by
    rw [mapPush]
    rw [List.map_cons, List.pairwise_cons] at h
    split
    · rename_i hk
      rw [List.map_cons, List.pairwise_cons, List.map_cons, List.pairwise_cons]
      refine ⟨?_, h⟩
      intro a ha
      rcases List.mem_cons.1 ha with rfl | ha
      · exact hk
      · exact lt_trans hk (h.1 a ha)
    · split
      · rename_i hk
        rw [List.map_cons, List.pairwise_cons]
        refine ⟨?_, sorted_mapPush h.2⟩
        intro a ha
        rcases mem_keys_mapPush.1 ha with rfl | ha
        · exact hk
        · exact h.1 a ha
      · rw [List.map_cons, List.pairwise_cons]; exact h

theorem mapGet_not_mem {k : Nat} : ∀ {s : List (Nat × List Nat)}, k ∉ s.map (·.1) → mapGet k s = []
  | [], _ => rfl
  | (k', l) :: t, h => by
    rw [List.map_cons, List.mem_cons, not_or] at h
    rw [mapGet_cons, if_neg (fun e => h.1 e.symm), mapGet_not_mem h.2]

theorem mapGet_mapPush {k v a : Nat} : ∀ {s : List (Nat × List Nat)}, (s.map (·.1)).Pairwise (· < ·) →
    mapGet a (mapPush k v s) = if a = k then mapGet a s ++ [v] else mapGet a s
  | [], _ => by
    rw [mapPush, mapGet_cons]
    by_cases h : a = k
    · subst h; simp [mapGet]
    · rw [if_neg (fun e => h e.symm), if_neg h]
  | (k', l) :: t, h => by
    rw [List.map_cons, List.pairwise_cons] at h
    rw [mapPush]
    split
    · rename_i hk
      rw [mapGet_cons]
      by_cases ha : a = k
      · subst ha
        have : mapGet a ((k', l) :: t) = [] := by
          apply mapGet_not_mem
          rw [List.map_cons, List.mem_cons, not_or]
          exact ⟨by show ¬ a = k'; omega, fun hm => by have := h.1 a hm; simp only at this; omega⟩
        rw [if_pos rfl, if_pos rfl, this]; rfl
      · rw [if_neg (fun e => ha e.symm), if_neg ha]
    · split
      · rename_i hk
        rw [mapGet_cons, mapGet_cons, mapGet_mapPush h.2]
        by_cases ha : a = k
        · subst ha; simp only [if_true]; rw [if_neg (by omega), if_neg (by omega)]
        · rw [if_neg ha, if_neg ha]
      · have : k = k' := by omega
        subst this
        rw [mapGet_cons, mapGet_cons]
        by_cases ha : k = a
        · subst ha; simp
        · rw [if_neg ha, if_neg ha, if_neg (fun e => ha e.symm)]

theorem goodMap_push {k v : Nat} {s : List (Nat × List Nat)} (h : GoodMap s) : GoodMap (mapPush k v s) := by
  refine ⟨sorted_mapPush h.sorted, ?_⟩
  intro a
  rw [mem_keys_mapPush, mapGet_mapPush h.sorted, h.ne]
  by_cases ha : a = k <;> simp [ha]

/-- `s'` holds what `s` does and in addition the entries `X key node`. -/
def Adds (s s' : List (Nat × List Nat)) (X : Nat → Nat → Prop) : Prop := GoodMap s' ∧ ∀ k n, n ∈ mapGet k s' ↔ n ∈ mapGet k s ∨ X k n

theorem foldlM_adds {α : Type} {g : List (Nat × List Nat) → α → Res (List (Nat × List Nat))} {X : α → Nat → Nat → Prop} : ∀ (l : List α),
    (∀ a ∈ l, ∀ s, GoodMap s → ∃ s', g s a = .ok s' ∧ Adds s s' (X a)) →
    ∀ s, GoodMap s → ∃ s', l.foldlM g s = .ok s' ∧ Adds s s' (fun k n => ∃ a ∈ l, X a k n)
  | [], _, s, hs => ⟨s, rfl, hs, by simp⟩
  | a :: l, h, s, hs => by
    obtain ⟨s1, e1, g1, a1⟩ := h a (by simp) s hs
    obtain ⟨s2, e2, g2, a2⟩ := foldlM_adds l (fun b hb => h b (by simp [hb])) s1 g1
    refine ⟨s2, by simp [List.foldlM_cons, e1, e2], g2, ?_⟩
    intro k n
    rw [a2, a1]
    simp only [List.mem_cons, exists_eq_or_imp]; tauto

theorem shareNode_spec (dbg : Bool) {np : Nat} {offs : List Nat} (h : Offs np offs) (rank n : Nat) (others : List Nat) (ho : ∀ c ∈ others, c < offs.getD np 0)
    (s : List (Nat × List Nat)) (hs : GoodMap s) :
    ∃ s', shareNode dbg rank offs n others s = .ok s' ∧ Adds s s' (fun k i => i = n ∧ k ≠ rank ∧ k < np ∧ ∃ c ∈ others, c ∈ own offs k) := by
  obtain ⟨s', e, g, a⟩ := foldlM_adds (g := fun s c => do
    let r ← ownerRank dbg c offs
    return if r ≠ rank then mapPush r n s else s) (X := fun c k i => i = n ∧ k ≠ rank ∧ k < np ∧ c ∈ own offs k) others (by
      intro c hc s hs
      obtain ⟨r, hr, hm⟩ := h.exists_own np (le_refl _) (ho c hc)
      simp only [ownerRank_spec dbg h hr hm, Res.bind_eq, Res.bind_ok, Res.pure_eq]
      refine ⟨_, rfl, ?_⟩
      by_cases hrr : r = rank
      · simp only [hrr, ne_eq, not_true_eq_false, if_false]
        refine ⟨hs, ?_⟩
        intro k i
        constructor
        · exact Or.inl
        · rintro (h1 | ⟨_, h2, h3, h4⟩)
          · exact h1
          · exact absurd ((h.own_disjoint h3 hr h4 hm).trans hrr) h2
      · simp only [ne_eq, hrr, not_false_eq_true, if_true]
        refine ⟨goodMap_push hs, ?_⟩
        intro k i
        rw [mapGet_mapPush hs.sorted]
        constructor
        · intro hi
          by_cases hk : k = r
          · subst hk
            simp only [if_true, List.mem_append, List.mem_singleton] at hi
            rcases hi with hi | hi
            · exact Or.inl hi
            · exact Or.inr ⟨hi, hrr, hr, hm⟩
          · rw [if_neg hk] at hi; exact Or.inl hi
        · rintro (h1 | ⟨h1, h2, h3, h4⟩)
          · split
            · simp [h1]
            · exact h1
          · have := h.own_disjoint h3 hr h4 hm
            rw [if_pos this]; simp [h1]) s hs
  refine ⟨s', e, g, ?_⟩
  intro k i
  rw [a]
  constructor
  · rintro (h1 | ⟨c, h2, h3, h4, h5, h6⟩)
    · exact Or.inl h1
    · exact Or.inr ⟨h3, h4, h5, c, h2, h6⟩
  · rintro (h1 | ⟨h3, h4, h5, c, h2, h6⟩)
    · exact Or.inl h1
    · exact Or.inr ⟨c, h2, h3, h4, h5, h6⟩

theorem getD_mem' {α : Type} {l : List α} {i : Nat} (h : i < l.length) (d : α) : l.getD i d ∈ l := by simp [h]

/-- The loops over own cells, faces and nodes. -/
theorem shareLoop_spec (dbg : Bool) {np D : Nat} {offs : List Nat} (h : Offs np offs) (m : Tess R) (hm : Consistent D m)
    (hcells : m.cells.length = offs.getD np 0) (rank : Nat) (hr : rank < np) (nc : List (List Nat)) (hnl : nc.length = numNodes D m)
    (hnc : ∀ n c, c ∈ nc.getD n [] ↔ c < m.cells.length ∧ ∃ s ∈ cell m c, n ∈ face m (posID s)) :
    ∃ s, (own offs rank).foldlM (shareCellNodes dbg rank offs m nc) [] = .ok s ∧ GoodMap s ∧
      ∀ k n, n ∈ mapGet k s ↔ k ≠ rank ∧ k < np ∧ NodeUsed m (own offs rank) n ∧ NodeUsed m (own offs k) n := by
  obtain ⟨s, e, g, a⟩ := foldlM_adds (g := shareCellNodes dbg rank offs m nc)
    (X := fun c k n => (∃ f ∈ cell m c, n ∈ face m (posID f)) ∧ k ≠ rank ∧ k < np ∧ ∃ c' ∈ nc.getD n [], c' ∈ own offs k) (own offs rank) (by
      intro c hc s hs
      have hcl : c < m.cells.length := by rw [hcells]; exact h.own_lt hr hc
      unfold shareCellNodes
      simp only [rd_getD' hcl [], Res.bind_eq, Res.bind_ok]
      obtain ⟨s', e, g, a⟩ := foldlM_adds (g := fun s f => do
          let F ← rd m.faces (posID f)
          F.foldlM (fun s n => do
            let others ← rd nc n
            shareNode dbg rank offs n others s) s)
        (X := fun f k n => n ∈ face m (posID f) ∧ k ≠ rank ∧ k < np ∧ ∃ c' ∈ nc.getD n [], c' ∈ own offs k) (m.cells.getD c []) (by
          intro f hf s hs
          have hfl : posID f < m.faces.length := hm.cells_lt _ (getD_mem' hcl []) f hf
          simp only [rd_getD' hfl [], Res.bind_eq, Res.bind_ok]
          obtain ⟨s', e, g, a⟩ := foldlM_adds (g := fun s n => do
              let others ← rd nc n
              shareNode dbg rank offs n others s)
            (X := fun i k n => n = i ∧ k ≠ rank ∧ k < np ∧ ∃ c' ∈ nc.getD i [], c' ∈ own offs k) (m.faces.getD (posID f) []) (by
              intro i hi s hs
              have hil : i < nc.length := by rw [hnl]; exact hm.faces_lt _ (getD_mem' hfl []) i hi
              simp only [rd_getD' hil [], Res.bind_eq, Res.bind_ok]
              exact shareNode_spec dbg h rank i (nc.getD i []) (fun c hc => by rw [← hcells]; exact ((hnc i c).1 hc).1) s hs) s hs
          refine ⟨s', e, g, ?_⟩
          intro k n
          rw [a]
          constructor
          · rintro (h1 | ⟨i, h1, h2, h3⟩)
            · exact Or.inl h1
            · subst h2; exact Or.inr ⟨h1, h3⟩
          · rintro (h1 | ⟨h1, h2⟩)
            · exact Or.inl h1
            · exact Or.inr ⟨n, h1, rfl, h2⟩) s hs
      refine ⟨s', e, g, ?_⟩
      intro k n
      rw [a]
      constructor
      · rintro (h1 | ⟨i, h1, h2, h3⟩)
        · exact Or.inl h1
        · exact Or.inr ⟨⟨i, h1, h2⟩, h3⟩
      · rintro (h1 | ⟨⟨i, h1, h2⟩, h3⟩)
        · exact Or.inl h1
        · exact Or.inr ⟨i, h1, h2, h3⟩) [] ⟨by simp, by simp [mapGet]⟩
  refine ⟨s, e, g, ?_⟩
  intro k n
  rw [a]
  constructor
  · rintro (h1 | ⟨c, h1, h2, h3, h4, c', h5, h6⟩)
    · simp [mapGet] at h1
    · exact ⟨h3, h4, ⟨c, h1, h2⟩, ⟨c', h6, ((hnc n c').1 h5).2⟩⟩
  · rintro ⟨h3, h4, ⟨c, h1, h2⟩, ⟨c', h6, h7⟩⟩
    refine Or.inr ⟨c, h1, h2, h3, h4, c', (hnc n c').2 ⟨?_, h7⟩, h6⟩
    rw [hcells]; exact h.own_lt h4 h6
end Verif.Par
