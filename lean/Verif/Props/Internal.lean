import Verif.Proofs.Internal
import Verif.Proofs.FaceEdgesGap
import Mathlib.Tactic.IntervalCases
/-
Properties of the small utilities: removeElements, bisectSearch, addKeyToMap, hashEdge / positiveID, computeSortedFaceEdges.
-/
namespace Verif.Internal
open Verif

/-! ### C14: removeElements -/

/-- The entries of `vec` at the positions not in `del`, in order. -/
def without (vec : List α) (del : List Nat) : List α :=
  ((List.range vec.length).filter fun i => decide (i ∉ del)).filterMap fun i => vec[i]?

/-- The number of positions before `i` that are kept. -/
def rank (del : List Nat) (i : Nat) : Nat := ((List.range i).filter fun t => decide (t ∉ del)).length

theorem keptBelow_rank {del : List Nat} {n i : Nat} (hi : i < n) (hd : i ∉ del) :
    ∃ h : rank del i < (keptBelow del n).length, (keptBelow del n)[rank del i] = i := by
  have hp : keptBelow del n = keptBelow del i ++ (i :: ((List.range' (i + 1) (n - i - 1)).filter fun t => decide (t ∉ del))) := by
    have : List.range n = List.range i ++ List.range' i (n - i) := by
      have := List.range'_append_1 (s := 0) (m := i) (n := n - i)
      rw [List.range_eq_range', List.range_eq_range', ← Nat.add_sub_cancel' (Nat.le_of_lt hi), ← this]
      simp
    unfold keptBelow
    rw [this, List.filter_append]
    congr 1
    have e : n - i = (n - i - 1) + 1 := by omega
    rw [e, List.range'_succ, List.filter_cons]
    simp [hd]
  have hr : rank del i = (keptBelow del i).length := rfl
  refine ⟨by rw [hp, hr]; simp, ?_⟩
  simp only [hp, hr]
  rw [List.getElem_append_right (by omega)]
  simp

/-- C14. Removing the entries at strictly increasing in-range positions succeeds in both builds, leaves exactly the other entries in
their original order, and returns the map from old to new positions (-1 for the removed ones). -/
theorem C14_remove_exact (dbg : Bool) (vec : List α) (del : List Nat) (hs : del.Pairwise (· < ·)) (hlt : ∀ d ∈ del, d < vec.length) :
    ∃ old2new, removeElements dbg vec del = .ok (without vec del, old2new) ∧ old2new.length = vec.length ∧
      (∀ i, i < vec.length → i ∈ del → old2new[i]? = some (-1)) ∧
      (∀ i, i < vec.length → i ∉ del → old2new[i]? = some (rank del i : Int) ∧ (without vec del)[rank del i]? = vec[i]?) := by
  obtain ⟨vec', o, e, h1, h2, h3, h4⟩ := removeElements_spec dbg vec del hs hlt
  have hw : without vec del = vec' := by
    have hm : without vec del = (keptBelow del vec.length).filterMap fun i => vec[i]? := rfl
    have hlen : (without vec del).length = (keptBelow del vec.length).length := by
      rw [hm]
      have : ∀ l : List Nat, (∀ i ∈ l, i < vec.length) → (l.filterMap fun i => vec[i]?).length = l.length := by
        intro l
        induction l with
        | nil => simp
        | cons a l ih =>
          intro hl
          have ha := hl a (by simp)
          simp [ha, ih (fun i hi => hl i (by simp [hi]))]
      apply this
      intro i hi; exact (keptBelow_mem.1 hi).1
    have hget : ∀ (l : List Nat), (∀ i ∈ l, i < vec.length) → ∀ t (h : t < l.length), (l.filterMap fun i => vec[i]?)[t]? = vec[l[t]]? := by
      intro l
      induction l with
      | nil => simp
      | cons a l ih =>
        intro hl t ht
        have ha := hl a (by simp)
        cases t with
        | zero => simp [ha]
        | succ t => simpa [ha] using ih (fun i hi => hl i (by simp [hi])) t (by simpa using ht)
    apply List.ext_getElem?
    intro t
    by_cases ht : t < (keptBelow del vec.length).length
    · rw [hm, hget _ (fun i hi => (keptBelow_mem.1 hi).1) t ht, (h3 t ht).1]
    · rw [List.getElem?_eq_none (by omega), List.getElem?_eq_none (by omega)]
  refine ⟨o, by rw [hw]; exact e, h1, fun i _ hi => h4 i hi, ?_⟩
  intro i hi hd
  obtain ⟨hr, hk⟩ := keptBelow_rank hi hd
  have := h3 _ hr
  rw [hk] at this
  rw [hw]
  exact ⟨this.2, this.1⟩

example : [1, 3].Pairwise (· < ·) ∧ (∀ d ∈ [1, 3], d < ["a", "b", "c", "d", "e"].length) ∧
    removeElements true ["a", "b", "c", "d", "e"] [1, 3] = .ok (["a", "c", "e"], [0, -1, 1, -1, 2]) := by
  refine ⟨by decide, by decide, rfl⟩

/-! ### C15: bisectSearch -/

/-- C15, ascending tables (duplicates allowed), both builds: the index returned splits the table into the entries `≤ val` and the
entries `> val`. It is -1 when `val` is below every entry and the last index when `val` is at or above every entry. -/
theorem C15_ascending [LinearOrder α] (dbg : Bool) (table : List α) (val : α) (hne : table ≠ []) (hs : table.Pairwise (· ≤ ·)) :
    ∃ r, bisectSearch dbg table val = .ok r ∧ -1 ≤ r ∧ r < table.length ∧
      ∀ (i : Nat) (t : α), table[i]? = some t → ((i : Int) ≤ r ↔ t ≤ val) := by
  have hpos := List.length_pos_iff.2 hne
  have hsort : ∀ i j : Nat, ∀ s t, table[i]? = some s → table[j]? = some t → i ≤ j → s ≤ t := by
    intro i j s t hi hj hij
    rcases Nat.lt_or_eq_of_le hij with h | rfl
    · obtain ⟨h1, rfl⟩ := List.getElem?_eq_some_iff.1 hi
      obtain ⟨h2, rfl⟩ := List.getElem?_eq_some_iff.1 hj
      exact List.pairwise_iff_getElem.1 hs i j h1 h2 h
    · rw [hi] at hj; cases hj; exact le_refl _
  obtain ⟨r, e, h1, h2, h3⟩ := bisectLoop_top table val true hne (by simpa using hsort)
  have hg0 : table[0]? = some table[0] := by simp [hpos]
  have hl : table.length - 1 < table.length := by omega
  have hgl : table[table.length - 1]? = some table[table.length - 1] := by simp [hl]
  have h0l : table[0] ≤ table[table.length - 1] := hsort 0 (table.length - 1) _ _ hg0 hgl (by omega)
  have htn : ((table.length : Int) - 1).toNat = table.length - 1 := by omega
  refine ⟨r, ?_, h1, h2, fun i t hi => by simpa using h3 i t hi⟩
  unfold bisectSearch
  simp only [Res.bind_eq, Res.pure_eq]
  rw [if_neg (by omega), htn, rd_lt hl, Res.bind_ok, rd_lt hpos, Res.bind_ok]
  simp only [decide_eq_true h0l, e, Res.bind_ok]
  cases dbg with
  | false => simp
  | true =>
    simp only [if_true]
    by_cases hr : r = -1
    · rw [if_pos]
      left
      refine ⟨hr, ?_⟩
      have := (h3 0 _ hg0).not
      rw [decide_eq_true_eq] at this
      have hlt : ¬ table[0] ≤ val := this.1 (by omega)
      simpa using le_of_lt (not_le.1 hlt)
    · by_cases hrl : r = table.length - 1
      · rw [if_pos]
        right
        refine ⟨hrl, ?_⟩
        exact (h3 _ _ hgl).1 (by omega)
      · rw [if_neg]
        · have hr0 : 0 ≤ r := by omega
          have hrt : r.toNat < table.length := by omega
          have hrt1 : (r + 1).toNat < table.length := by omega
          rw [if_pos hr0, rd_lt hrt, Res.bind_ok]
          have c1 : decide (table[r.toNat] ≤ val) = true := (h3 r.toNat _ (by simp [hrt])).1 (by omega)
          rw [if_pos c1, if_pos (by omega), rd_lt hrt1, Res.bind_ok, Res.assert_true, Res.bind_ok]
          have := (h3 (r + 1).toNat _ (List.getElem?_eq_getElem hrt1)).not.1 (by omega)
          rw [decide_eq_true_eq] at this
          simpa using le_of_lt (not_le.1 this)
        · rintro (⟨h, _⟩ | ⟨h, _⟩)
          · exact hr h
          · exact hrl h

/-- The facts about descending tables used below. -/
theorem descending_loop [LinearOrder α] (table : List α) (val : α) (hne : table ≠ []) (hs : table.Pairwise (· ≥ ·))
    (hstrict : ∀ a b, table[0]? = some a → table[table.length - 1]? = some b → b < a) :
    ∃ (h0 : 0 < table.length) (hl : table.length - 1 < table.length) (r : Int),
      bisectLoop table val (decide (table[0] ≤ table[table.length - 1])) (-1) table.length = .ok r ∧
      decide (table[0] ≤ table[table.length - 1]) = false ∧ -1 ≤ r ∧ r < table.length ∧
      ∀ (i : Nat) (t : α), table[i]? = some t → ((i : Int) ≤ r ↔ val < t) := by
  have hpos := List.length_pos_iff.2 hne
  have hsort : ∀ i j : Nat, ∀ s t, table[i]? = some s → table[j]? = some t → i ≤ j → t ≤ s := by
    intro i j s t hi hj hij
    rcases Nat.lt_or_eq_of_le hij with h | rfl
    · obtain ⟨h1, rfl⟩ := List.getElem?_eq_some_iff.1 hi
      obtain ⟨h2, rfl⟩ := List.getElem?_eq_some_iff.1 hj
      exact List.pairwise_iff_getElem.1 hs i j h1 h2 h
    · rw [hi] at hj; cases hj; exact le_refl _
  obtain ⟨r, e, h1, h2, h3⟩ := bisectLoop_top table val false hne (by simpa using hsort)
  have hl : table.length - 1 < table.length := by omega
  have hc : decide (table[0] ≤ table[table.length - 1]) = false := by
    have := hstrict table[0] table[table.length - 1] (by simp [hpos]) (by simp [hl])
    simpa using this
  refine ⟨hpos, hl, r, by rw [hc]; exact e, hc, h1, h2, ?_⟩
  intro i t hi
  rw [h3 i t hi]; simp

/-- C15, descending tables, release build: the index returned splits the table into the entries `> val` and the entries `≤ val`. -/
theorem C15_descending_release [LinearOrder α] (table : List α) (val : α) (hne : table ≠ []) (hs : table.Pairwise (· ≥ ·))
    (hstrict : ∀ a b, table[0]? = some a → table[table.length - 1]? = some b → b < a) :
    ∃ r, bisectSearch false table val = .ok r ∧ -1 ≤ r ∧ r < table.length ∧
      ∀ (i : Nat) (t : α), table[i]? = some t → ((i : Int) ≤ r ↔ val < t) := by
  obtain ⟨h0, hl, r, e, hc, h1, h2, h3⟩ := descending_loop table val hne hs hstrict
  have htn : ((table.length : Int) - 1).toNat = table.length - 1 := by omega
  refine ⟨r, ?_, h1, h2, h3⟩
  unfold bisectSearch
  simp only [Res.bind_eq, Res.pure_eq]
  rw [if_neg (by omega), htn, rd_lt hl, Res.bind_ok, rd_lt h0, Res.bind_ok, e]
  simp

/-- C15, descending tables, debug build: fine as long as the value is not itself in the table. Missing: values in the table
(`C15_descending_fails`). -/
theorem C15_descending_partial [LinearOrder α] (dbg : Bool) (table : List α) (val : α) (hne : table ≠ []) (hs : table.Pairwise (· ≥ ·))
    (hstrict : ∀ a b, table[0]? = some a → table[table.length - 1]? = some b → b < a) (hval : val ∉ table) :
    ∃ r, bisectSearch dbg table val = .ok r ∧ -1 ≤ r ∧ r < table.length ∧
      ∀ (i : Nat) (t : α), table[i]? = some t → ((i : Int) ≤ r ↔ val < t) := by
  cases dbg with
  | false => exact C15_descending_release table val hne hs hstrict
  | true =>
    obtain ⟨h0, hl, r, e, hc, h1, h2, h3⟩ := descending_loop table val hne hs hstrict
    have htn : ((table.length : Int) - 1).toNat = table.length - 1 := by omega
    refine ⟨r, ?_, h1, h2, h3⟩
    have above : ∀ (i : Nat) (hi : i < table.length), r < i → ¬ val ≤ table[i] := by
      intro i hi hr hle
      have hn : ¬ val < table[i] := fun hlt => by
        have := (h3 i _ (List.getElem?_eq_getElem hi)).2 hlt; omega
      exact hval (le_antisymm hle (not_lt.1 hn) ▸ List.getElem_mem hi)
    have below : ∀ (i : Nat) (hi : i < table.length), (i : Int) ≤ r → ¬ table[i] ≤ val := by
      intro i hi hr
      exact not_le.2 ((h3 i _ (List.getElem?_eq_getElem hi)).1 hr)
    unfold bisectSearch
    simp only [Res.bind_eq, Res.pure_eq]
    rw [if_neg (by omega), htn, rd_lt hl, Res.bind_ok, rd_lt h0, Res.bind_ok, e]
    simp only [Res.bind_ok, if_true, hc]
    by_cases hr : r = -1
    · rw [if_pos]
      left
      exact ⟨hr, by simpa using above 0 h0 (by omega)⟩
    · by_cases hrl : r = table.length - 1
      · rw [if_pos]
        right
        exact ⟨hrl, by simpa using below _ hl (by omega)⟩
      · rw [if_neg]
        · have hr0 : 0 ≤ r := by omega
          have hrt : r.toNat < table.length := by omega
          have hrt1 : (r + 1).toNat < table.length := by omega
          rw [if_pos hr0, rd_lt hrt, Res.bind_ok]
          have c1 : decide (table[r.toNat] ≤ val) = false := by simpa using below _ hrt (by omega)
          rw [if_pos c1, if_pos (by omega), rd_lt hrt1, Res.bind_ok, Res.assert_true, Res.bind_ok]
          simpa using above _ hrt1 (by omega)
        · rintro (⟨h, _⟩ | ⟨h, _⟩)
          · exact hr h
          · exact hrl h

/-- C15 is false for descending tables in debug builds: looking up any value that is in the table aborts, or, when it equals the first
entry, reads `table[-1]`. -/
theorem C15_descending_fails [LinearOrder α] (table : List α) (val : α) (hs : table.Pairwise (· ≥ ·))
    (hstrict : ∀ a b, table[0]? = some a → table[table.length - 1]? = some b → b < a) (hval : val ∈ table) :
    (table[0]? = some val → bisectSearch true table val = .ub) ∧ (table[0]? ≠ some val → bisectSearch true table val = .abort) := by
  have hne : table ≠ [] := List.ne_nil_of_mem hval
  obtain ⟨h0, hl, r, e, hc, h1, h2, h3⟩ := descending_loop table val hne hs hstrict
  have htn : ((table.length : Int) - 1).toNat = table.length - 1 := by omega
  obtain ⟨k, hk⟩ := List.getElem?_of_mem hval
  have hkl := (List.getElem?_eq_some_iff.1 hk).1
  have hrk : ¬ (k : Int) ≤ r := by rw [h3 k _ hk]; exact lt_irrefl _
  have hsort : ∀ i j : Nat, ∀ (hi : i < table.length) (hj : j < table.length), i ≤ j → table[j] ≤ table[i] := by
    intro i j hi hj hij
    rcases Nat.lt_or_eq_of_le hij with h | rfl
    · exact List.pairwise_iff_getElem.1 hs i j hi hj h
    · exact le_refl _
  unfold bisectSearch
  simp only [Res.bind_eq, Res.pure_eq]
  rw [if_neg (by omega), htn, rd_lt hl, Res.bind_ok, rd_lt h0, Res.bind_ok, e]
  simp only [Res.bind_ok, if_true, hc]
  constructor
  · intro hv
    have hv' : table[0] = val := by simpa [h0] using hv
    have hr : r = -1 := by
      have : ¬ ((0 : Nat) : Int) ≤ r := by rw [h3 0 _ hv]; exact lt_irrefl _
      omega
    rw [if_neg, if_neg (by omega), Res.bind_ub]
    rintro (⟨_, h⟩ | ⟨h, _⟩)
    · rw [hv'] at h; simp at h
    · omega
  · intro hv
    have hv' : table[0] ≠ val := by simpa [h0] using hv
    have hk0 : k ≠ 0 := by rintro rfl; exact hv hk
    have hval' : table[k] = val := by simpa [hkl] using hk
    have hgt : val < table[0] := lt_of_le_of_ne (hval' ▸ hsort 0 k h0 hkl (by omega)) (Ne.symm hv')
    have hr0 : 0 ≤ r := (h3 0 _ (List.getElem?_eq_getElem h0)).2 hgt
    have hrt : r.toNat < table.length := by omega
    have hrt1 : (r + 1).toNat < table.length := by omega
    rw [if_neg, if_pos hr0, rd_lt hrt, Res.bind_ok]
    · have c1 : decide (table[r.toNat] ≤ val) = false := by
        have := (h3 r.toNat _ (List.getElem?_eq_getElem hrt)).1 (by omega)
        simpa using this
      rw [if_pos c1, if_pos (by omega), rd_lt hrt1, Res.bind_ok, Res.assert_debug_false]
      · rfl
      · have : val ≤ table[(r + 1).toNat] := hval' ▸ hsort (r + 1).toNat k hrt1 hkl (by omega)
        simpa using this
    · rintro (⟨h, _⟩ | ⟨h, _⟩)
      · omega
      · omega

/-- An empty table is read out of bounds. -/
theorem C15_empty_fails [LinearOrder α] (dbg : Bool) (val : α) : bisectSearch dbg ([] : List α) val = .ub := by
  simp [bisectSearch]

example : bisectSearch true ([1, 3, 3, 7] : List Int) 3 = .ok 2 := by
  obtain ⟨r, e, h1, h2, h3⟩ := C15_ascending true ([1, 3, 3, 7] : List Int) 3 (by decide) (by decide)
  have a := (h3 2 3 rfl).2 (by decide)
  have b := (h3 3 7 rfl).not.2 (by decide)
  have : r = 2 := by omega
  rw [e, this]
example : ([7, 5, 3] : List Int).Pairwise (· ≥ ·) ∧ (4 : Int) ∉ [7, 5, 3] ∧ (5 : Int) ∈ [7, 5, 3] := by decide

/-! ### C16: addKeyToMap -/

/-- C16. Numbering any history of keys from an empty map: one id per call, equal ids exactly for equal keys, every id below the number of
distinct keys is used and no other, and a key seen for the first time gets the number of distinct keys seen before it. -/
theorem C16_dense_numbering [DecidableEq κ] (ks : List κ) :
    (addKeys ks []).1.length = ks.length ∧
    (∀ (i j : Nat) (a b : κ) (x y : Nat), ks[i]? = some a → ks[j]? = some b → (addKeys ks []).1[i]? = some x → (addKeys ks []).1[j]? = some y →
      (a = b ↔ x = y)) ∧
    (∀ x, x ∈ (addKeys ks []).1 ↔ x < ks.dedup.length) ∧
    (∀ (i : Nat) (a : κ), ks[i]? = some a → a ∉ ks.take i → (addKeys ks []).1[i]? = some (ks.take i).dedup.length) ∧
    (∀ (i : Nat) (a : κ) (x : Nat), ks[i]? = some a → (addKeys ks []).1[i]? = some x → (addKeys ks []).2.lookup a = some x) := by
  obtain ⟨h1, h2, h3, h4⟩ := addKeys_spec ks [] [] numbers_nil
  have hmem : ∀ (i : Nat) (a : κ) (x : Nat), ks[i]? = some a → (addKeys ks []).1[i]? = some x → (a, x) ∈ (addKeys ks []).2 := by
    intro i a x ha hx
    obtain ⟨g1, rfl⟩ := List.getElem?_eq_some_iff.1 ha
    obtain ⟨g2, rfl⟩ := List.getElem?_eq_some_iff.1 hx
    exact h4 i g1 g2
  refine ⟨h1, ?_, ?_, ?_, ?_⟩
  · intro i j a b x y ha hb hx hy
    exact h2.fst_inj (hmem i a x ha hx) (hmem j b y hb hy)
  · intro x
    have hlen : ks.dedup.length = (addKeys ks []).2.length := by rw [h2.length_eq]; simp
    rw [hlen]
    constructor
    · intro hx
      obtain ⟨i, hi⟩ := List.getElem?_of_mem hx
      have hil : i < ks.length := by rw [← h1]; exact (List.getElem?_eq_some_iff.1 hi).1
      have := hmem i ks[i] x (by simp [hil]) hi
      have hm : x ∈ (addKeys ks []).2.map Prod.snd := List.mem_map.2 ⟨_, this, rfl⟩
      rw [h2.ids] at hm; simpa using hm
    · intro hx
      have hm : x ∈ (addKeys ks []).2.map Prod.snd := by rw [h2.ids]; simpa using hx
      obtain ⟨⟨k, x'⟩, hkx, rfl⟩ := List.mem_map.1 hm
      have hk : k ∈ ks := by simpa using (h2.keys k).1 (List.mem_map.2 ⟨_, hkx, rfl⟩)
      obtain ⟨i, hi⟩ := List.getElem?_of_mem hk
      have hil := (List.getElem?_eq_some_iff.1 hi).1
      have hx' : (addKeys ks []).1[i]? = some (addKeys ks []).1[i] := List.getElem?_eq_getElem (by omega)
      have := hmem i k _ hi hx'
      have := (h2.fst_inj hkx this).1 rfl
      simp only at this ⊢
      rw [this]; exact List.getElem_mem _
  · intro i a ha hn
    have hil := (List.getElem?_eq_some_iff.1 ha).1
    have hs : ks = ks.take i ++ (a :: ks.drop (i + 1)) := by
      have : a = ks[i] := by simpa [hil] using ha.symm
      rw [this]
      exact (List.take_append_drop i ks).symm.trans (by rw [List.drop_eq_getElem_cons hil])
    obtain ⟨g1, g2, g3, g4⟩ := addKeys_spec (ks.take i) [] [] numbers_nil
    have hlen : (addKeys (ks.take i) []).1.length = i := by rw [g1]; simp; omega
    have hidx : (addKeys ks []).1[i]? = some (addKey a (addKeys (ks.take i) []).2).1 := by
      conv_lhs => rw [hs]
      rw [addKeys_append, List.getElem?_append_right (by omega), hlen]
      simp [addKeys]
    rw [hidx]
    simp only [List.nil_append] at g2
    rw [(addKey_spec g2 a).2.2.2 hn, g2.length_eq]
  · intro i a x ha hx
    rw [lookup_eq_some_iff' h2.nodup]
    exact hmem i a x ha hx

example : (addKeys ["b", "a", "b", "c", "a"] []).1 = [0, 1, 0, 2, 1] := rfl

/-! ### C17: hashEdge and the sign convention -/

/-- C17. For distinct node ids `hashEdge` succeeds, gives the sorted pair, and two node pairs get the same key exactly when they are the
same unordered pair. -/
theorem C17_hashEdge (dbg : Bool) (i j k l : Int) (h : i ≠ j) (h' : k ≠ l) :
    ∃ a b c d, hashEdge dbg i j = .ok (a, b) ∧ hashEdge dbg k l = .ok (c, d) ∧ a < b ∧ ((a = i ∧ b = j) ∨ (a = j ∧ b = i)) ∧
      ((a, b) = (c, d) ↔ (i = k ∧ j = l) ∨ (i = l ∧ j = k)) := by
  have e : ∀ x y : Int, x ≠ y → hashEdge dbg x y = .ok (min x y, max x y) := by
    intro x y hxy
    unfold hashEdge
    simp only [Res.bind_eq, Res.assert_true dbg hxy, Res.bind_ok, Res.pure_eq]
    by_cases hlt : x < y
    · rw [if_pos hlt, min_eq_left (by omega), max_eq_right (by omega)]
    · rw [if_neg hlt, min_eq_right (by omega), max_eq_left (by omega)]
  refine ⟨_, _, _, _, e i j h, e k l h', by omega, by omega, ?_⟩
  rw [Prod.mk.injEq]
  omega

/-- C17. A signed id `i` or `~i` recovers the index and the direction, and `~` is an involution. -/
theorem C17_signed_ids (i : Nat) (s : Int) :
    posID (i : Int) = i ∧ posID (flip i) = i ∧ (0 ≤ (i : Int)) ∧ flip i < 0 ∧ flip (flip s) = s ∧
    (s = if 0 ≤ s then (posID s : Int) else flip (posID s)) := by
  refine ⟨by simp [posID], by unfold posID flip; split <;> omega, by omega, by unfold flip; omega, by unfold flip; omega, ?_⟩
  unfold posID flip
  split <;> omega

/-- Equal node ids abort a debug build. -/
theorem C17_equal_ids_abort (i : Int) : hashEdge true i i = .abort := by
  unfold hashEdge
  rw [Res.bind_eq, Res.assert_debug_false (by simp), Res.bind_abort]

example : hashEdge true 5 2 = .ok (2, 5) ∧ hashEdge true 2 5 = .ok (2, 5) ∧ posID (flip 7) = 7 := by decide

/-! ### C20: computeSortedFaceEdges -/

/-- C20, closed polygons: whatever the order and directions of the edges, both builds return (no edge added) a list that visits every
edge exactly once, head to tail, closing up; it starts with edge 0 in its own direction. -/
theorem C20_closed (dbg : Bool) (edges : List (Int × Int)) (h : IsPolygon edges) :
    ∃ s, computeSortedFaceEdges dbg edges = .ok (false, edges, s) ∧ s[0]? = some 0 ∧ IsOrientedLoop edges s := by
  obtain ⟨v, p, hc⟩ := h.cyc
  exact hc.closed_spec dbg

/-- C20, open chains, the part that holds: if of the two end edges the one listed first has its free node second, then exactly one edge
is added, it joins the two free ends, and the result is an oriented loop. Missing: chains whose first listed end edge has its free node
first (`C20_gap_fails`). -/
theorem C20_gap_partial (dbg : Bool) (edges : List (Int × Int)) (node : Nat → Int) (order : Nat → Nat) (h : IsChain edges node order)
    (hd : if order 0 < order (edges.length - 1) then (edges[order 0]?).map Prod.snd = some (node 0)
      else (edges[order (edges.length - 1)]?).map Prod.snd = some (node edges.length)) :
    ∃ e s, computeSortedFaceEdges dbg edges = .ok (true, edges ++ [e], s) ∧ Joins e (node 0) (node edges.length) ∧
      IsOrientedLoop (edges ++ [e]) s := by
  have h2 := h.two
  have hj : Joins (IsChain.closing edges node) (node 0) (node edges.length) := by
    unfold IsChain.closing Joins; split <;> simp
  by_cases hlt : order 0 < order (edges.length - 1)
  · rw [if_pos hlt] at hd
    have hr := h.reverse
    have e1 : edges.length - 1 - (edges.length - 1) = 0 := by omega
    obtain ⟨s, hs, hl⟩ := hr.good dbg (by simpa [e1] using hlt) (by simpa [e1] using hd)
    rw [h.closing_reverse] at hs hl
    exact ⟨_, s, hs, hj, hl⟩
  · rw [if_neg hlt] at hd
    have hne : order 0 ≠ order (edges.length - 1) := fun hc => by
      have := h.order_inj 0 (by omega) (edges.length - 1) (by omega) hc
      omega
    obtain ⟨s, hs, hl⟩ := h.good dbg (by omega) hd
    exact ⟨_, s, hs, hj, hl⟩

/-- C20 is false for every other open chain: if of the two end edges the one listed first has its free node first, a debug build
aborts and a release build returns a list that is not an oriented loop. -/
theorem C20_gap_fails (edges : List (Int × Int)) (node : Nat → Int) (order : Nat → Nat) (h : IsChain edges node order)
    (hd : if order 0 < order (edges.length - 1) then (edges[order 0]?).map Prod.fst = some (node 0)
      else (edges[order (edges.length - 1)]?).map Prod.fst = some (node edges.length)) :
    computeSortedFaceEdges true edges = .abort ∧
    ∃ e s, computeSortedFaceEdges false edges = .ok (true, edges ++ [e], s) ∧ ¬ IsOrientedLoop (edges ++ [e]) s := by
  have h2 := h.two
  by_cases hlt : order 0 < order (edges.length - 1)
  · rw [if_pos hlt] at hd
    have hr := h.reverse
    have e1 : edges.length - 1 - (edges.length - 1) = 0 := by omega
    obtain ⟨ha, s, hs, hl⟩ := hr.bad (by simpa [e1] using hlt) (by simpa [e1] using hd)
    exact ⟨ha, _, s, hs, hl⟩
  · rw [if_neg hlt] at hd
    have hne : order 0 ≠ order (edges.length - 1) := fun hc => by
      have := h.order_inj 0 (by omega) (edges.length - 1) (by omega) hc
      omega
    obtain ⟨ha, s, hs, hl⟩ := h.bad (by omega) hd
    exact ⟨ha, _, s, hs, hl⟩

/-- A square with shuffled, mixed-direction sides is a polygon in the sense of C20. -/
example : IsPolygon [(1, 2), (1, 4), (3, 2), (3, 4)] := by
  refine ⟨by decide, fun k => [1, 2, 3, 4].getD k 0, fun k => [0, 2, 3, 1].getD k 0, by decide, by decide, ?_⟩
  intro k hk
  simp only [List.length_cons, List.length_nil] at hk
  interval_cases k
  · exact ⟨(1, 2), rfl, Or.inl rfl⟩
  · exact ⟨(3, 2), rfl, Or.inr rfl⟩
  · exact ⟨(3, 4), rfl, Or.inl rfl⟩
  · exact ⟨(1, 4), rfl, Or.inr rfl⟩

/-- Two chains on the same corners, one meeting the hypothesis of `C20_gap_partial` and one that of `C20_gap_fails`. -/
example : IsChain [(2, 1), (2, 3), (4, 3)] (fun k => (k : Int) + 1) id ∧
    ([((2 : Int), (1 : Int)), (2, 3), (4, 3)][0]?).map Prod.snd = some 1 := by
  refine ⟨⟨by decide, by intro i _ j _ h; simp at h; exact h, by intro i _ j _ h; exact h, ?_⟩, rfl⟩
  intro k hk
  simp only [List.length_cons, List.length_nil] at hk
  interval_cases k
  · exact ⟨(2, 1), rfl, Or.inr rfl⟩
  · exact ⟨(2, 3), rfl, Or.inl rfl⟩
  · exact ⟨(4, 3), rfl, Or.inr rfl⟩

example : IsChain [(1, 2), (2, 3), (3, 4)] (fun k => (k : Int) + 1) id ∧
    ([((1 : Int), (2 : Int)), (2, 3), (3, 4)][0]?).map Prod.fst = some 1 := by
  refine ⟨⟨by decide, by intro i _ j _ h; simp at h; exact h, by intro i _ j _ h; exact h, ?_⟩, rfl⟩
  intro k hk
  simp only [List.length_cons, List.length_nil] at hk
  interval_cases k
  · exact ⟨(1, 2), rfl, Or.inl rfl⟩
  · exact ⟨(2, 3), rfl, Or.inl rfl⟩
  · exact ⟨(3, 4), rfl, Or.inl rfl⟩

end Verif.Internal
