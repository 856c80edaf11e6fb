import Verif.Model.Internal
import Verif.Proofs.MeshQueries
import Mathlib.Data.List.Dedup
import Mathlib.Order.Defs.LinearOrder
namespace Verif.Internal
open Verif

/-! ### addKeyToMap -/

/-- A map that numbers the distinct keys of `ks` in order of first appearance. -/
structure Numbers [DecidableEq κ] (m : KMap κ) (ks : List κ) : Prop where
  nodup : (m.map Prod.fst).Nodup
  ids : m.map Prod.snd = List.range m.length
  keys : ∀ k, k ∈ m.map Prod.fst ↔ k ∈ ks

theorem lookup_eq_some_iff' [DecidableEq κ] {m : KMap κ} (hn : (m.map Prod.fst).Nodup) {k : κ} {v : Nat} :
    m.lookup k = some v ↔ (k, v) ∈ m := by
  induction m with
  | nil => simp
  | cons p m ih =>
    obtain ⟨a, b⟩ := p
    simp only [List.map_cons, List.nodup_cons] at hn
    by_cases h : k = a
    · subst h
      simp only [List.lookup_cons, beq_self_eq_true, Option.some.injEq, List.mem_cons, Prod.mk.injEq, true_and]
      constructor
      · intro h; left; exact h.symm
      · rintro (h | h)
        · exact h.symm
        · exact absurd (List.mem_map.2 ⟨_, h, rfl⟩) hn.1
    · have : (k == a) = false := by simpa using h
      simp [List.lookup_cons, this, ih hn.2, h]

theorem lookup_eq_none_iff' [DecidableEq κ] {m : KMap κ} {k : κ} : m.lookup k = none ↔ k ∉ m.map Prod.fst := by
  induction m with
  | nil => simp
  | cons p m ih =>
    obtain ⟨a, b⟩ := p
    by_cases h : k = a
    · subst h; simp [List.lookup_cons]
    · have : (k == a) = false := by simpa using h
      rw [List.lookup_cons, this, List.map_cons, List.mem_cons]
      simp only [ih, h, false_or]

theorem numbers_nil [DecidableEq κ] : Numbers ([] : KMap κ) [] := ⟨by simp, by simp, by simp⟩

theorem addKey_spec [DecidableEq κ] {m : KMap κ} {ks : List κ} (h : Numbers m ks) (k : κ) :
    Numbers (addKey k m).2 (ks ++ [k]) ∧ (k, (addKey k m).1) ∈ (addKey k m).2 ∧ (∀ p ∈ m, p ∈ (addKey k m).2) ∧
    (k ∉ ks → (addKey k m).1 = m.length) := by
  unfold addKey
  cases hl : m.lookup k with
  | some v =>
    have hm := (lookup_eq_some_iff' h.nodup).1 hl
    refine ⟨⟨h.nodup, h.ids, ?_⟩, hm, fun p hp => hp, ?_⟩
    · intro x
      rw [h.keys]
      simp only [List.mem_append, List.mem_singleton]
      constructor
      · exact Or.inl
      · rintro (h1 | rfl)
        · exact h1
        · rw [← h.keys]; exact List.mem_map.2 ⟨_, hm, rfl⟩
    · intro hk
      exact absurd ((h.keys k).1 (List.mem_map.2 ⟨_, hm, rfl⟩)) hk
  | none =>
    have hn := lookup_eq_none_iff'.1 hl
    refine ⟨⟨?_, ?_, ?_⟩, by simp, fun p hp => by simp [hp], fun _ => rfl⟩
    · simp only [List.map_append, List.map_cons, List.map_nil]
      rw [List.nodup_append]
      refine ⟨h.nodup, by simp, ?_⟩
      intro a ha b hb
      simp at hb; subst hb
      rintro rfl; exact hn ha
    · simp [h.ids, List.range_succ]
    · intro x
      have := h.keys x
      simp only [List.map_append, List.map_cons, List.map_nil, List.mem_append, this]

theorem addKeys_spec [DecidableEq κ] : ∀ (l ks : List κ) (m : KMap κ), Numbers m ks →
    (addKeys l m).1.length = l.length ∧ Numbers (addKeys l m).2 (ks ++ l) ∧ (∀ p ∈ m, p ∈ (addKeys l m).2) ∧
    (∀ i (h : i < l.length) (h' : i < (addKeys l m).1.length), (l[i], (addKeys l m).1[i]) ∈ (addKeys l m).2)
  | [], ks, m, h => ⟨by simp [addKeys], by simpa [addKeys] using h, by simp [addKeys], by simp⟩
  | k :: l, ks, m, h => by
    obtain ⟨h1, h2, h3, h4⟩ := addKey_spec h k
    obtain ⟨g1, g2, g3, g4⟩ := addKeys_spec l (ks ++ [k]) (addKey k m).2 h1
    refine ⟨by simp [addKeys, g1], ?_, ?_, ?_⟩
    · simpa [addKeys] using g2
    · intro p hp; simp only [addKeys]; exact g3 p (h3 p hp)
    · intro i hi hi'
      cases i with
      | zero => simp only [addKeys, List.getElem_cons_zero]; exact g3 _ h2
      | succ i => simpa [addKeys] using g4 i (by simpa using hi) (by rw [g1]; simpa using hi)

theorem addKeys_append [DecidableEq κ] : ∀ (l l' : List κ) (m : KMap κ),
    addKeys (l ++ l') m = ((addKeys l m).1 ++ (addKeys l' (addKeys l m).2).1, (addKeys l' (addKeys l m).2).2)
  | [], l', m => by simp [addKeys]
  | k :: l, l', m => by simp [addKeys, addKeys_append l l']

theorem Numbers.length_eq [DecidableEq κ] {m : KMap κ} {ks : List κ} (h : Numbers m ks) : m.length = ks.dedup.length := by
  have hp : (m.map Prod.fst).Perm ks.dedup := by
    rw [List.perm_ext_iff_of_nodup h.nodup (List.nodup_dedup ks)]
    intro a; rw [h.keys, List.mem_dedup]
  simpa using hp.length_eq

theorem Numbers.fst_inj [DecidableEq κ] {m : KMap κ} {ks : List κ} (h : Numbers m ks) {p q : κ × Nat} (hp : p ∈ m) (hq : q ∈ m) :
    p.1 = q.1 ↔ p.2 = q.2 := by
  have hs : (m.map Prod.snd).Nodup := by rw [h.ids]; exact List.nodup_range
  have inj : ∀ {β : Type _} (g : κ × Nat → β), (m.map g).Nodup → g p = g q → p = q := by
    intro β g hg e
    exact List.inj_on_of_nodup_map hg hp hq e
  constructor
  · intro e; rw [inj Prod.fst h.nodup e]
  · intro e; rw [inj Prod.snd hs e]

/-! ### removeElements -/

theorem fillId_spec : ∀ (k i : Nat) (o : List Int), i + k ≤ o.length →
    ∃ o', fillId k i o = .ok o' ∧ o'.length = o.length ∧ ∀ t : Nat, o'[t]? = if i ≤ t ∧ t < i + k then some (t : Int) else o[t]?
  | 0, i, o, _ => ⟨o, rfl, rfl, by intro t; rw [if_neg]; omega⟩
  | k + 1, i, o, h => by
    obtain ⟨o', e, h1, h2⟩ := fillId_spec k (i + 1) (o.set i (i : Int)) (by simp; omega)
    have hi : i < o.length := by omega
    refine ⟨o', by simp [fillId, hi, e], by simpa using h1, ?_⟩
    intro t
    rw [h2]
    by_cases ht : t = i
    · subst ht
      rw [if_neg (by omega), if_pos (by omega)]
      simp [hi]
    · by_cases h3 : i + 1 ≤ t ∧ t < i + 1 + k
      · rw [if_pos h3, if_pos (by omega)]
      · rw [if_neg h3, if_neg (by omega), List.getElem?_set_ne (by omega)]

theorem fillTail_spec : ∀ (k i j : Nat) (o : List Int), j + k ≤ o.length →
    ∃ o', fillTail k i j o = .ok o' ∧ o'.length = o.length ∧
      ∀ t : Nat, o'[t]? = if j ≤ t ∧ t < j + k then some ((i + (t - j) : Nat) : Int) else o[t]?
  | 0, i, j, o, _ => ⟨o, rfl, rfl, by intro t; rw [if_neg]; omega⟩
  | k + 1, i, j, o, h => by
    obtain ⟨o', e, h1, h2⟩ := fillTail_spec k (i + 1) (j + 1) (o.set j (i : Int)) (by simp; omega)
    have hi : j < o.length := by omega
    refine ⟨o', by simp [fillTail, hi, e], by simpa using h1, ?_⟩
    intro t
    rw [h2]
    by_cases ht : t = j
    · subst ht
      rw [if_neg (by omega), if_pos (by omega)]
      simp [hi]
    · by_cases h3 : j + 1 ≤ t ∧ t < j + 1 + k
      · rw [if_pos h3, if_pos (by omega)]
        congr 2; omega
      · rw [if_neg h3, if_neg (by omega), List.getElem?_set_ne (by omega)]

/-- Indices below `j` that are not deleted. -/
def keptBelow (del : List Nat) (j : Nat) : List Nat := (List.range j).filter fun t => decide (t ∉ del)

theorem keptBelow_succ (del : List Nat) (j : Nat) :
    keptBelow del (j + 1) = keptBelow del j ++ if j ∈ del then [] else [j] := by
  simp only [keptBelow, List.range_succ, List.filter_append]
  congr 1
  by_cases h : j ∈ del <;> simp [h]

theorem keptBelow_mem {del : List Nat} {j t : Nat} : t ∈ keptBelow del j ↔ t < j ∧ t ∉ del := by
  simp [keptBelow]

theorem keptBelow_le (del : List Nat) (j : Nat) : (keptBelow del j).length ≤ j := by
  have := List.length_filter_le (fun t => decide (t ∉ del)) (List.range j)
  simpa [keptBelow] using this

/-- State of the compaction at cursor `j`: the first `i` entries are the kept ones, the entries from `j` on are untouched, and `old2new`
is right below `j` and -1 from there on. -/
structure Compact (vec₀ : List α) (del : List Nat) (vec : List α) (o : List Int) (i j : Nat) : Prop where
  len : vec.length = vec₀.length
  olen : o.length = vec₀.length
  hi : i = (keptBelow del j).length
  jle : j ≤ vec₀.length
  done : ∀ t, t < i → ∀ (h : t < (keptBelow del j).length), vec[t]? = vec₀[(keptBelow del j)[t]]?
  todo : ∀ t, j ≤ t → vec[t]? = vec₀[t]?
  odel : ∀ t, t < j → t ∈ del → o[t]? = some (-1)
  okept : ∀ t (h : t < (keptBelow del j).length), o[(keptBelow del j)[t]]? = some (t : Int)
  otodo : ∀ t, j ≤ t → t < vec₀.length → o[t]? = some (-1)

theorem Compact.skip {vec₀ vec : List α} {del : List Nat} {o : List Int} {i j : Nat} (h : Compact vec₀ del vec o i j) (hj : j ∈ del)
    (hlt : j < vec₀.length) : Compact vec₀ del vec o i (j + 1) := by
  have e : keptBelow del (j + 1) = keptBelow del j := by rw [keptBelow_succ]; simp [hj]
  refine ⟨h.len, h.olen, by rw [e]; exact h.hi, by omega, ?_, fun t ht => h.todo t (by omega), ?_, ?_, fun t ht => h.otodo t (by omega)⟩
  · intro t ht hl
    simp only [e] at hl ⊢; exact h.done t ht hl
  · intro t ht hd
    by_cases htj : t = j
    · subst htj; exact h.otodo _ (by omega) hlt
    · exact h.odel t (by omega) hd
  · intro t hl
    simp only [e] at hl ⊢; exact h.okept t hl

theorem Compact.move {vec₀ vec : List α} {del : List Nat} {o : List Int} {i j : Nat} (h : Compact vec₀ del vec o i j) (hj : j ∉ del)
    (hlt : j < vec₀.length) (hv : j < vec.length) :
    Compact vec₀ del (vec.set i vec[j]) (o.set j (i : Int)) (i + 1) (j + 1) := by
  have e : keptBelow del (j + 1) = keptBelow del j ++ [j] := by rw [keptBelow_succ]; simp [hj]
  have hi := h.hi
  have hle := keptBelow_le del j
  have hil : i < vec.length := by rw [h.len]; omega
  have hol : j < o.length := by rw [h.olen]; omega
  have hvj : vec₀[j]? = some vec[j] := by rw [← h.todo j (by omega)]; simp [hv]
  refine ⟨by simp [h.len], by simp [h.olen], by rw [e]; simp [hi], by omega, ?_, ?_, ?_, ?_, ?_⟩
  · intro t ht hl
    by_cases hti : t = i
    · subst hti
      have : (keptBelow del (j + 1))[t] = j := by
        simp only [e]; rw [List.getElem_append_right (by omega)]; simp
      rw [this, hvj]; simp [hil]
    · have hl' : t < (keptBelow del j).length := by omega
      have : (keptBelow del (j + 1))[t] = (keptBelow del j)[t] := by
        simp only [e]; rw [List.getElem_append_left hl']
      rw [this, List.getElem?_set_ne (by omega)]
      exact h.done t (by omega) hl'
  · intro t ht
    rw [List.getElem?_set_ne (by omega)]; exact h.todo t (by omega)
  · intro t ht hd
    have : t ≠ j := by rintro rfl; exact hj hd
    rw [List.getElem?_set_ne (by omega)]; exact h.odel t (by omega) hd
  · intro t hl
    by_cases hti : t = i
    · subst hti
      have : (keptBelow del (j + 1))[t] = j := by
        simp only [e]; rw [List.getElem_append_right (by omega)]; simp
      rw [this]; simp [hol]
    · have hl' : t < (keptBelow del j).length := by
        simp only [e, List.length_append, List.length_singleton] at hl; omega
      have h2 : (keptBelow del (j + 1))[t] = (keptBelow del j)[t] := by
        simp only [e]; rw [List.getElem_append_left hl']
      have h3 := (keptBelow_mem.1 (List.getElem_mem hl')).1
      rw [h2, List.getElem?_set_ne (by omega)]
      exact h.okept t hl'
  · intro t ht htl
    rw [List.getElem?_set_ne (by omega)]; exact h.otodo t (by omega) htl

theorem removeLoop_spec {vec₀ : List α} {del : List Nat} : ∀ (rem : Nat) (vec : List α) (o : List Int) (i j : Nat) (ds : List Nat),
    Compact vec₀ del vec o i j → rem = vec₀.length - j → (∀ d ∈ ds, j ≤ d) → ds.Pairwise (· < ·) →
    (∀ t, j ≤ t → (t ∈ del ↔ t ∈ ds)) →
    ∃ vec' o' i' j', removeLoop rem vec o i j ds = .ok (vec', o', i', j') ∧ Compact vec₀ del vec' o' i' j' ∧
      (∀ t, j' ≤ t → t < vec₀.length → t ∉ del)
  | 0, vec, o, i, j, ds, h, hr, hge, hs, hd => ⟨vec, o, i, j, by simp [removeLoop], h, by intro t h1 h2; omega⟩
  | rem + 1, vec, o, i, j, [], h, hr, hge, hs, hd => ⟨vec, o, i, j, by simp [removeLoop], h, by
      intro t h1 h2; rw [hd t h1]; simp⟩
  | rem + 1, vec, o, i, j, d :: ds, h, hr, hge, hs, hd => by
    have hlt : j < vec₀.length := by omega
    rw [List.pairwise_cons] at hs
    by_cases hjd : j = d
    · subst hjd
      have hj : j ∈ del := (hd j (by omega)).2 (by simp)
      obtain ⟨v', o', i', j', e, g1, g2⟩ := removeLoop_spec rem vec o i (j + 1) ds (h.skip hj hlt) (by omega)
        (fun x hx => hs.1 x hx) hs.2 (by
          intro t ht
          rw [hd t (by omega)]
          simp; omega)
      exact ⟨v', o', i', j', by simp [removeLoop, e], g1, g2⟩
    · have hdj : j < d := by have := hge d (by simp); omega
      have hj : j ∉ del := by
        rw [hd j (by omega)]
        intro hm
        rcases List.mem_cons.1 hm with rfl | hm
        · omega
        · have := hs.1 j hm; omega
      have hv : j < vec.length := by rw [h.len]; exact hlt
      have hol : j < o.length := by rw [h.olen]; exact hlt
      have hil : i < vec.length := by
        have := h.hi; have := keptBelow_le del j; rw [h.len]; omega
      obtain ⟨v', o', i', j', e, g1, g2⟩ := removeLoop_spec rem (vec.set i vec[j]) (o.set j (i : Int)) (i + 1) (j + 1) (d :: ds)
        (h.move hj hlt hv) (by omega)
        (by
          intro x hx
          rcases List.mem_cons.1 hx with rfl | hx
          · omega
          · have := hs.1 x hx; omega) (by rw [List.pairwise_cons]; exact hs) (by
          intro t ht
          exact hd t (by omega))
      exact ⟨v', o', i', j', by simp [removeLoop, hjd, hv, hol, hil, e], g1, g2⟩

theorem keptBelow_split {del : List Nat} {j n : Nat} (hj : j ≤ n) (h : ∀ t, j ≤ t → t < n → t ∉ del) :
    keptBelow del n = keptBelow del j ++ (List.range' j (n - j)) := by
  have key : ∀ k, j + k ≤ n → keptBelow del (j + k) = keptBelow del j ++ List.range' j k := by
    intro k
    induction k with
    | zero => intro _; simp
    | succ k ih =>
      intro hk
      rw [← Nat.add_assoc, keptBelow_succ, ih (by omega), if_neg (h _ (by omega) (by omega)), List.append_assoc,
        List.range'_concat]
      simp
  have := key (n - j) (by omega)
  rwa [Nat.add_sub_cancel' hj] at this

theorem keptBelow_length {del : List Nat} {n : Nat} (hs : del.Pairwise (· < ·)) (hlt : ∀ d ∈ del, d < n) :
    (keptBelow del n).length = n - del.length := by
  have h1 : ((List.range n).filter fun t => decide (t ∈ del)).length = del.length := by
    congr 1
    apply List.Pairwise.eq_of_mem_iff (r := (· < ·)) (List.pairwise_lt_range.filter _) hs
    intro a
    simp only [List.mem_filter, List.mem_range, decide_eq_true_eq]
    exact ⟨fun h => h.2, fun h => ⟨hlt a h, h⟩⟩
  have h2 := List.length_eq_length_filter_add (l := List.range n) (fun t => decide (t ∈ del))
  have h3 : ((List.range n).filter fun t => !decide (t ∈ del)) = keptBelow del n := by
    simp [keptBelow]
  rw [h3, h1] at h2
  simp at h2
  omega

theorem removeElements_spec (dbg : Bool) (vec : List α) (del : List Nat) (hs : del.Pairwise (· < ·)) (hlt : ∀ d ∈ del, d < vec.length) :
    ∃ vec' o, removeElements dbg vec del = .ok (vec', o) ∧ o.length = vec.length ∧
      vec'.length = (keptBelow del vec.length).length ∧
      (∀ t (h : t < (keptBelow del vec.length).length), vec'[t]? = vec[(keptBelow del vec.length)[t]]? ∧
        o[(keptBelow del vec.length)[t]]? = some (t : Int)) ∧
      (∀ d ∈ del, o[d]? = some (-1)) := by
  match del, hs, hlt with
  | [], _, _ =>
    obtain ⟨o, e, h1, h2⟩ := fillId_spec vec.length 0 (List.replicate vec.length (-1 : Int)) (by simp)
    have hk : keptBelow [] vec.length = List.range vec.length := by simp [keptBelow]
    refine ⟨vec, o, by simp [removeElements, e], by simpa using h1, by simp [hk], ?_, by simp⟩
    intro t ht
    simp only [hk, List.length_range] at ht
    simp only [hk, List.getElem_range]
    refine ⟨trivial, ?_⟩
    rw [h2, if_pos ⟨by omega, by omega⟩]
  | d :: ds, hs, hlt =>
    have hd : d < vec.length := hlt d (by simp)
    have hlast : (d :: ds).getLast (by simp) < vec.length := hlt _ (List.getLast_mem _)
    obtain ⟨o1, e1, l1, f1⟩ := fillId_spec d 0 (List.replicate vec.length (-1 : Int)) (by simp; omega)
    have hs' := List.pairwise_cons.1 hs
    have kb : keptBelow (d :: ds) d = List.range d := by
      unfold keptBelow
      apply List.filter_eq_self.2
      intro t ht
      simp only [List.mem_range] at ht
      simp only [List.mem_cons, not_or, decide_eq_true_eq]
      refine ⟨by omega, fun hm => ?_⟩
      have := hs'.1 t hm; omega
    have c0 : Compact vec (d :: ds) vec o1 d d := by
      refine ⟨rfl, by simpa using l1, by simp [kb], by omega, ?_, fun _ _ => rfl, ?_, ?_, ?_⟩
      · intro t ht hl; simp [kb]
      · intro t ht hm
        exfalso
        rcases List.mem_cons.1 hm with rfl | hm
        · omega
        · have := hs'.1 t hm; omega
      · intro t hl
        simp only [kb, List.length_range] at hl
        simp only [kb, List.getElem_range]
        rw [f1, if_pos (by omega)]
      · intro t ht htl
        rw [f1, if_neg (by omega)]; simp [htl]
    have c1 := c0.skip (by simp) hd
    obtain ⟨v2, o2, i2, j2, e2, c2, n2⟩ := removeLoop_spec (vec.length - (d + 1)) vec o1 d (d + 1) ds c1 rfl
      (fun x hx => hs'.1 x hx) hs'.2 (by intro t ht; simp; omega)
    obtain ⟨o3, e3, l3, f3⟩ := fillTail_spec (vec.length - j2) i2 j2 o2 (by rw [c2.olen]; have := c2.jle; omega)
    have hjle := c2.jle
    have hsplit := keptBelow_split hjle n2
    have hkl := keptBelow_length hs hlt
    have hi2 := c2.hi
    have hi2le := keptBelow_le (d :: ds) j2
    have hdl : (d :: ds).length ≤ vec.length := sorted_length_le_aux hs hlt
    have hsplitl := congrArg List.length hsplit
    simp only [List.length_append, List.length_range'] at hsplitl
    let v3 := v2.take i2 ++ v2.drop j2 ++ v2.drop (i2 + (vec.length - j2))
    have hv3l : v3.length = vec.length := by simp [v3, c2.len]; omega
    refine ⟨v3.take (vec.length - (d :: ds).length), o3, ?_, by rw [l3, c2.olen], ?_, ?_, ?_⟩
    · unfold removeElements
      simp only [Res.bind_eq, Res.pure_eq, Res.assert_true dbg hs, Res.bind_ok, Res.assert_true dbg hlast, e1, e2, e3]
      rw [if_neg (by omega), Res.assert_true dbg (by show (v3.take _).length = _; rw [List.length_take, hv3l]; omega)]
      rfl
    · rw [List.length_take, hv3l, hkl]; omega
    · intro t ht
      rw [List.getElem?_take_of_lt (by omega)]
      by_cases hti : t < i2
      · have hl' : t < (keptBelow (d :: ds) j2).length := by omega
        have e4 : (keptBelow (d :: ds) vec.length)[t] = (keptBelow (d :: ds) j2)[t] := by
          simp only [hsplit]; rw [List.getElem_append_left hl']
        have h5 := (keptBelow_mem.1 (List.getElem_mem hl')).1
        rw [e4]
        constructor
        · simp only [v3]
          rw [List.append_assoc, List.getElem?_append_left (by simp [c2.len]; omega), List.getElem?_take_of_lt hti]
          exact c2.done t hti hl'
        · rw [f3, if_neg (by omega)]; exact c2.okept t hl'
      · have e4 : (keptBelow (d :: ds) vec.length)[t] = j2 + (t - i2) := by
          simp only [hsplit]; rw [List.getElem_append_right (by omega)]; simp; omega
        rw [e4]
        constructor
        · simp only [v3]
          rw [List.append_assoc, List.getElem?_append_right (by simp [c2.len]; omega)]
          rw [List.getElem?_append_left (by simp [c2.len]; omega)]
          rw [List.getElem?_drop]
          have : j2 + (t - (v2.take i2).length) = j2 + (t - i2) := by simp [c2.len]; omega
          rw [this]
          exact c2.todo _ (by omega)
        · rw [f3, if_pos (by omega)]; congr 2; omega
    · intro x hx
      have hxl := hlt x hx
      have hxj : x < j2 := by
        by_contra hc
        exact n2 x (by omega) hxl hx
      rw [f3, if_neg (by omega)]
      exact c2.odel x hxj hx
where
  sorted_length_le_aux {l : List Nat} {n : Nat} (h : l.Pairwise (· < ·)) (hb : ∀ x ∈ l, x < n) : l.length ≤ n :=
    Mesh.sorted_length_le h hb

/-! ### bisectSearch -/

theorem bisectLoop_spec [LinearOrder α] (table : List α) (val : α) (ascnd : Bool) :
    ∀ (k : Nat) (jl ju : Int), (ju - jl).toNat = k → -1 ≤ jl → jl < ju → ju ≤ table.length →
    (∀ i : Nat, ∀ t, table[i]? = some t → (i : Int) ≤ jl → decide (t ≤ val) = ascnd) →
    (∀ i : Nat, ∀ t, table[i]? = some t → ju ≤ (i : Int) → decide (t ≤ val) = !ascnd) →
    (∀ i j : Nat, ∀ s t, table[i]? = some s → table[j]? = some t → i ≤ j → if ascnd then s ≤ t else t ≤ s) →
    ∃ r, bisectLoop table val ascnd jl ju = .ok r ∧ -1 ≤ r ∧ r < table.length ∧
      (∀ i : Nat, ∀ t, table[i]? = some t → ((i : Int) ≤ r ↔ decide (t ≤ val) = ascnd)) := by
  intro k
  induction k using Nat.strongRecOn with
  | _ k ih =>
    intro jl ju hk h1 h2 h3 hlo hhi hsort
    unfold bisectLoop
    by_cases hgt : ju - jl > 1
    · rw [if_pos hgt]
      have hm0 : 0 ≤ (ju + jl) / 2 := by omega
      have hml : ((ju + jl) / 2).toNat < table.length := by omega
      have hjm : (((ju + jl) / 2).toNat : Int) = (ju + jl) / 2 := by omega
      simp only [hm0, if_true, rd_lt hml, Res.bind_eq, Res.bind_ok]
      have htm : table[((ju + jl) / 2).toNat]? = some table[((ju + jl) / 2).toNat] := by simp [hml]
      by_cases hc : decide (table[((ju + jl) / 2).toNat] ≤ val) = ascnd
      · rw [if_pos hc]
        refine ih _ (by omega) _ _ rfl (by omega) (by omega) h3 ?_ hhi hsort
        intro i t hi hle
        have hs := hsort i _ t _ hi htm (by omega)
        cases ascnd with
        | true =>
          simp only [decide_eq_true_eq, if_true] at hc hs ⊢
          exact le_trans hs hc
        | false =>
          simp only [decide_eq_false_iff_not] at hc ⊢
          simp only [Bool.false_eq_true, if_false] at hs
          exact fun h => hc (le_trans hs h)
      · rw [if_neg hc]
        refine ih _ (by omega) _ _ rfl (by omega) (by omega) (by omega) hlo ?_ hsort
        intro i t hi hle
        have hs := hsort _ i _ t htm hi (by omega)
        cases ascnd with
        | true =>
          simp only [decide_eq_true_eq, if_true, Bool.not_true, decide_eq_false_iff_not] at hc hs ⊢
          exact fun h => hc (le_trans hs h)
        | false =>
          simp only [decide_eq_false_iff_not, not_not, Bool.not_false, decide_eq_true_eq] at hc ⊢
          simp only [Bool.false_eq_true, if_false] at hs
          exact le_trans hs hc
    · rw [if_neg hgt]
      refine ⟨jl, rfl, h1, by omega, ?_⟩
      intro i t hi
      constructor
      · exact hlo i t hi
      · intro hd
        by_contra hc
        have := hhi i t hi (by omega)
        rw [hd] at this
        cases ascnd <;> simp at this

theorem bisectLoop_top [LinearOrder α] (table : List α) (val : α) (ascnd : Bool) (hne : table ≠ [])
    (hsort : ∀ i j : Nat, ∀ s t, table[i]? = some s → table[j]? = some t → i ≤ j → if ascnd then s ≤ t else t ≤ s) :
    ∃ r, bisectLoop table val ascnd (-1) table.length = .ok r ∧ -1 ≤ r ∧ r < table.length ∧
      (∀ i : Nat, ∀ t, table[i]? = some t → ((i : Int) ≤ r ↔ decide (t ≤ val) = ascnd)) := by
  have hpos := List.length_pos_iff.2 hne
  refine bisectLoop_spec table val ascnd _ (-1) table.length rfl (by omega) (by omega) (by omega) ?_ ?_ hsort
  · intro i t _ h; omega
  · intro i t hi h
    have := (List.getElem?_eq_some_iff.1 hi).1
    omega

end Verif.Internal
