import Verif.Model.IntPointMap
import Verif.Spec.IntPointMap
import Mathlib.Tactic.Common
import Mathlib.Data.List.TakeWhile
/- The tolerant point map: windows, intersections and the stored points. -/
namespace Verif.PointMap
open Verif

/-- Strictly increasing coordinates. -/
def Sorted (c : Container) : Prop := c.Pairwise fun a b => a.1 < b.1

theorem takeWhile_eq_filter {c : Container} (hc : Sorted c) {p : Int × List Nat → Bool} (hp : ∀ a b, a.1 < b.1 → p b = true → p a = true) :
    c.takeWhile p = c.filter p ∧ c.dropWhile p = c.filter fun e => !p e := by
  induction c with
  | nil => simp
  | cons e c ih =>
    obtain ⟨h1, h2⟩ := List.pairwise_cons.1 hc
    obtain ⟨i1, i2⟩ := ih h2
    by_cases he : p e = true
    · simp [he, i1, i2]
    · have hno : ∀ x ∈ c, p x = false := by
        intro x hx
        by_contra hcon
        exact he (hp e x (h1 x hx) (by simpa using hcon))
      have he' : p e = false := by simpa using he
      refine ⟨?_, ?_⟩
      · rw [List.takeWhile_cons_of_neg he, List.filter_cons_of_neg he, List.filter_eq_nil_iff.2 (fun a ha => by simp [hno a ha])]
      · rw [List.dropWhile_cons_of_neg he, List.filter_cons_of_pos (by simp [he']), List.filter_eq_self.2 (fun a ha => by simp [hno a ha])]

theorem take_length_takeWhile {α : Type} (p : α → Bool) (l : List α) : l.take (l.takeWhile p).length = l.takeWhile p := by
  conv_lhs => rw [← List.takeWhile_append_dropWhile (p := p) (l := l)]
  rw [List.take_left' (by simp [List.takeWhile_append_dropWhile])]
theorem drop_length_takeWhile {α : Type} (p : α → Bool) (l : List α) : l.drop (l.takeWhile p).length = l.dropWhile p := by
  conv_lhs => rw [← List.takeWhile_append_dropWhile (p := p) (l := l)]
  rw [List.drop_left' (by simp [List.takeWhile_append_dropWhile])]

theorem range_eq_filter {c : Container} (hc : Sorted c) {x tol : Int} (ht : 0 ≤ tol) :
    range c (bounds c x tol).1 (bounds c x tol).2 = c.filter fun e => decide (x - tol ≤ e.1 ∧ e.1 ≤ x + tol) := by
  have hs : Sorted (c.filter fun e => decide (e.1 ≤ x + tol)) := hc.sublist List.filter_sublist
  have e1 : c.take (upperBound c (x + tol)) = c.filter fun e => decide (e.1 ≤ x + tol) := by
    rw [upperBound, take_length_takeWhile]
    exact (takeWhile_eq_filter hc (by intro a b hab hb; simp at hb ⊢; omega)).1
  have e2 : (c.takeWhile fun e => decide (e.1 < x - tol)) = (c.filter fun e => decide (e.1 ≤ x + tol)).takeWhile fun e => decide (e.1 < x - tol) := by
    rw [(takeWhile_eq_filter hc (by intro a b hab hb; simp at hb ⊢; omega)).1, (takeWhile_eq_filter hs (by intro a b hab hb; simp at hb ⊢; omega)).1,
      List.filter_filter]
    apply List.filter_congr
    intro e _
    simp only [decide_eq_decide, ← Bool.decide_and]
    omega
  unfold range bounds
  simp only
  rw [e1, lowerBound, e2, drop_length_takeWhile, (takeWhile_eq_filter hs (by intro a b hab hb; simp at hb ⊢; omega)).2, List.filter_filter]
  apply List.filter_congr
  intro e _
  rw [Bool.eq_iff_iff]
  simp only [Bool.and_eq_true, Bool.not_eq_true', decide_eq_true_eq, decide_eq_false_iff_not]
  omega

/-- The container `c` indexes the coordinates `vals` (position = id). -/
structure DimOK (c : Container) (vals : List Int) : Prop where
  sorted : Sorted c
  ids : ∀ e ∈ c, ∀ k, k ∈ e.2 ↔ vals[k]? = some e.1
  all : ∀ (k : Nat) (v : Int), vals[k]? = some v → ∃ e ∈ c, e.1 = v
  nonempty : ∀ e ∈ c, e.2 ≠ []
  incr : ∀ e ∈ c, e.2.Pairwise (· < ·)

section
variable {c : Container} {vals : List Int} {x tol : Int}

theorem window_nodup (h : DimOK c vals) (p : Int × List Nat → Bool) : ((c.filter p).flatMap Prod.snd).Nodup := by
  rw [List.nodup_flatMap]
  refine ⟨fun e he => (h.incr e (List.mem_filter.1 he).1).imp fun h => ne_of_lt h, ?_⟩
  have hs : Sorted (c.filter p) := h.sorted.sublist List.filter_sublist
  refine hs.imp_of_mem fun {a b} ha hb hab => ?_
  intro k hka hkb
  have h1 := (h.ids a (List.mem_filter.1 ha).1 k).1 hka
  have h2 := (h.ids b (List.mem_filter.1 hb).1 k).1 hkb
  rw [h1] at h2
  simp only [Option.some.injEq] at h2
  omega

theorem dimIDs_spec (h : DimOK c vals) (ht : 0 ≤ tol) :
    (dimIDs c x tol).Pairwise (· < ·) ∧ ∀ k, k ∈ dimIDs c x tol ↔ ∃ v, vals[k]? = some v ∧ x - tol ≤ v ∧ v ≤ x + tol := by
  unfold dimIDs
  rw [range_eq_filter h.sorted ht]
  constructor
  · have h1 := List.pairwise_insertionSort (· ≤ ·) ((c.filter fun e => decide (x - tol ≤ e.1 ∧ e.1 ≤ x + tol)).flatMap Prod.snd)
    have h2 : (((c.filter fun e => decide (x - tol ≤ e.1 ∧ e.1 ≤ x + tol)).flatMap Prod.snd).insertionSort (· ≤ ·)).Nodup :=
      (List.perm_insertionSort _ _).nodup_iff.2 (window_nodup h _)
    exact (h1.and h2).imp fun ⟨a, b⟩ => lt_of_le_of_ne a b
  · intro k
    rw [List.mem_insertionSort, List.mem_flatMap]
    constructor
    · rintro ⟨e, he, hk⟩
      simp only [List.mem_filter, decide_eq_true_eq] at he
      exact ⟨e.1, (h.ids e he.1 k).1 hk, he.2⟩
    · rintro ⟨v, hv, hb⟩
      obtain ⟨e, he, rfl⟩ := h.all k v hv
      exact ⟨e, by simpa [he] using hb, (h.ids e he k).2 hv⟩

theorem bounds_le (ht : 0 ≤ tol) (c : Container) : (bounds c x tol).1 ≤ (bounds c x tol).2 := by
  unfold bounds lowerBound upperBound
  refine List.IsPrefix.length_le ?_
  have : (c.takeWhile fun e => decide (e.1 < x - tol)) = (c.takeWhile fun e => decide (e.1 ≤ x + tol)).takeWhile fun e => decide (e.1 < x - tol) := by
    rw [List.takeWhile_takeWhile]
    congr 1
    funext e
    rw [decide_eq_decide]
    simp only [decide_eq_true_eq]
    omega
  rw [this]
  exact List.takeWhile_prefix _

theorem bounds_eq_iff (h : DimOK c vals) (ht : 0 ≤ tol) : (bounds c x tol).1 = (bounds c x tol).2 ↔ dimIDs c x tol = [] := by
  have hle : (bounds c x tol).2 ≤ c.length := by
    unfold bounds upperBound; exact (List.takeWhile_prefix _).length_le
  have hle' := bounds_le (x := x) ht c
  have hlen : (range c (bounds c x tol).1 (bounds c x tol).2).length = (bounds c x tol).2 - (bounds c x tol).1 := by
    unfold range
    rw [List.length_drop, List.length_take, Nat.min_eq_left hle]
  have hr : range c (bounds c x tol).1 (bounds c x tol).2 = [] ↔ dimIDs c x tol = [] := by
    unfold dimIDs
    constructor
    · intro e; rw [e]; rfl
    · intro e
      have hp := (List.perm_insertionSort (· ≤ ·) ((range c (bounds c x tol).1 (bounds c x tol).2).flatMap Prod.snd))
      rw [e] at hp
      have hnil := hp.symm.eq_nil
      rw [List.flatMap_eq_nil_iff] at hnil
      by_contra hne
      obtain ⟨a, ha⟩ := List.exists_mem_of_ne_nil _ hne
      have hac : a ∈ c := List.mem_of_mem_take (List.mem_of_mem_drop ha)
      exact h.nonempty a hac (hnil a ha)
  rw [← hr, ← List.length_eq_zero_iff, hlen]
  omega

theorem lowerBound_window (hc : Sorted c) (ht : 0 ≤ tol) :
    (bounds c x tol).1 + lowerBound (range c (bounds c x tol).1 (bounds c x tol).2) x = lowerBound c x := by
  have hsub : Sorted (c.filter fun e => decide (x - tol ≤ e.1 ∧ e.1 ≤ x + tol)) := hc.sublist List.filter_sublist
  rw [range_eq_filter hc ht]
  unfold lowerBound bounds
  simp only
  unfold lowerBound
  rw [(takeWhile_eq_filter hc (by intro a b hab hb; simp at hb ⊢; omega)).1, (takeWhile_eq_filter hc (by intro a b hab hb; simp at hb ⊢; omega)).1,
    (takeWhile_eq_filter hsub (by intro a b hab hb; simp at hb ⊢; omega)).1, List.filter_filter]
  rw [← List.countP_eq_length_filter, ← List.countP_eq_length_filter, ← List.countP_eq_length_filter]
  clear hsub hc
  induction c with
  | nil => rfl
  | cons e c ih =>
    simp only [List.countP_cons, Bool.and_eq_true, decide_eq_true_eq] at ih ⊢
    rw [← ih]
    by_cases h1 : e.1 < x - tol
    · rw [if_pos h1, if_neg (by omega), if_pos (by omega)]; omega
    · rw [if_neg h1]
      by_cases h2 : e.1 < x
      · rw [if_pos (by omega), if_pos h2]; omega
      · rw [if_neg (by omega), if_neg h2]; omega

theorem insertID_spec (h : DimOK c vals) (ht : 0 ≤ tol) : DimOK (insertID c (bounds c x tol).1 (bounds c x tol).2 x vals.length) (vals ++ [x]) := by
  unfold insertID
  rw [lowerBound_window h.sorted ht]
  simp only [lowerBound]
  have hL := (takeWhile_eq_filter h.sorted (p := fun e => decide (e.1 < x)) (by intro a b hab hb; simp at hb ⊢; omega)).1
  have hR := (takeWhile_eq_filter h.sorted (p := fun e => decide (e.1 < x)) (by intro a b hab hb; simp at hb ⊢; omega)).2
  have hsplit := List.takeWhile_append_dropWhile (p := fun e : Int × List Nat => decide (e.1 < x)) (l := c)
  have htake := take_length_takeWhile (fun e : Int × List Nat => decide (e.1 < x)) c
  have hdrop := drop_length_takeWhile (fun e : Int × List Nat => decide (e.1 < x)) c
  have hLlt : ∀ e ∈ c.takeWhile (fun e => decide (e.1 < x)), e.1 < x := by
    intro e he; rw [hL] at he; simpa using (List.mem_filter.1 he).2
  have hRge : ∀ e ∈ c.dropWhile (fun e => decide (e.1 < x)), x ≤ e.1 := by
    intro e he; rw [hR] at he; simpa using (List.mem_filter.1 he).2
  generalize hLL : c.takeWhile (fun e => decide (e.1 < x)) = L at *
  generalize hRR : c.dropWhile (fun e => decide (e.1 < x)) = Rr at *
  clear hL hR hLL hRR
  subst hsplit
  have hnew : ∀ k, (vals ++ [x])[k]? = if k = vals.length then some x else vals[k]? := by
    intro k
    by_cases hk : k < vals.length
    · rw [List.getElem?_append_left hk, if_neg (by omega)]
    · by_cases hk' : k = vals.length
      · subst hk'; simp
      · rw [if_neg hk', List.getElem?_append_right (by omega), List.getElem?_eq_none (l := vals) (by omega), List.getElem?_eq_none (by simp; omega)]
  have hnone : vals[vals.length]? = none := by simp
  have hss := List.pairwise_append.1 h.sorted
  -- ids of untouched entries
  have keepIds : ∀ e ∈ L ++ Rr, e.1 ≠ x → ∀ k, k ∈ e.2 ↔ (vals ++ [x])[k]? = some e.1 := by
    intro e he hne k
    rw [h.ids e he k, hnew]
    by_cases hk : k = vals.length
    · subst hk; rw [if_pos rfl, hnone]
      simp only [Option.some.injEq, reduceCtorEq, false_iff]; exact Ne.symm hne
    · rw [if_neg hk]
  cases hc : Rr with
  | nil =>
    subst hc
    have : (L ++ [])[L.length]? = none := by simp
    rw [this]
    simp only [List.append_nil] at h keepIds ⊢
    have hnov : ∀ k : Nat, vals[k]? ≠ some x := by
      intro k hk
      obtain ⟨e, he, hex⟩ := h.all k x hk
      have := hLlt e he; omega
    refine ⟨?_, ?_, ?_, ?_, ?_⟩
    · exact List.pairwise_append.2 ⟨h.sorted, by simp, by intro a ha b hb; simp at hb; subst hb; exact hLlt a ha⟩
    · intro e he k
      rcases List.mem_append.1 he with he | he
      · exact keepIds e he (by have := hLlt e he; omega) k
      · simp only [List.mem_singleton] at he; subst he
        simp only [List.mem_singleton]
        rw [hnew]
        by_cases hk : k = vals.length
        · simp [hk]
        · rw [if_neg hk]; simp [hk, hnov k]
    · intro k v hv
      rw [hnew] at hv
      by_cases hk : k = vals.length
      · rw [if_pos hk] at hv; simp only [Option.some.injEq] at hv; subst hv
        exact ⟨(x, [vals.length]), by simp, rfl⟩
      · rw [if_neg hk] at hv
        obtain ⟨e, he, hev⟩ := h.all k v hv
        exact ⟨e, by simp [he], hev⟩
    · intro e he
      rcases List.mem_append.1 he with he | he
      · exact h.nonempty e he
      · simp only [List.mem_singleton] at he; subst he; simp
    · intro e he
      rcases List.mem_append.1 he with he | he
      · exact h.incr e he
      · simp only [List.mem_singleton] at he; subst he; simp
  | cons e0 Rt =>
    subst hc
    have : (L ++ e0 :: Rt)[L.length]? = some e0 := by simp
    rw [this]
    simp only
    have hRs := List.pairwise_cons.1 hss.2.1
    have he0 := hRge e0 (by simp)
    by_cases hex : e0.1 = x
    · rw [if_neg (by simpa using hex), htake]
      have hd2 : (L ++ e0 :: Rt).drop (L.length + 1) = Rt := by simp
      rw [hd2]
      have hmem0 : e0 ∈ L ++ e0 :: Rt := by simp
      have hRt : ∀ e ∈ Rt, x < e.1 := by intro e he; rw [← hex]; exact hRs.1 e he
      refine ⟨?_, ?_, ?_, ?_, ?_⟩
      · refine List.pairwise_append.2 ⟨hss.1, List.pairwise_cons.2 ⟨fun e he => hRt e he, hRs.2⟩, ?_⟩
        intro a ha b hb
        rcases List.mem_cons.1 hb with rfl | hb
        · exact hLlt a ha
        · exact hss.2.2 a ha b (by simp [hb])
      · intro e he k
        rcases List.mem_append.1 he with he | he
        · exact keepIds e (by simp [he]) (by have := hLlt e he; omega) k
        · rcases List.mem_cons.1 he with rfl | he
          · simp only [List.mem_append, List.mem_singleton]
            rw [h.ids e0 hmem0, hex, hnew]
            by_cases hk : k = vals.length
            · simp [hk]
            · simp [hk]
          · exact keepIds e (by simp [he]) (by have := hRt e he; omega) k
      · intro k v hv
        rw [hnew] at hv
        have get : ∀ e ∈ L ++ e0 :: Rt, ∃ e' ∈ L ++ (x, e0.2 ++ [vals.length]) :: Rt, e'.1 = e.1 := by
          intro e he
          rcases List.mem_append.1 he with he | he
          · exact ⟨e, by simp [he], rfl⟩
          · rcases List.mem_cons.1 he with rfl | he
            · exact ⟨(x, e.2 ++ [vals.length]), by simp, hex.symm⟩
            · exact ⟨e, by simp [he], rfl⟩
        by_cases hk : k = vals.length
        · rw [if_pos hk] at hv; simp only [Option.some.injEq] at hv; subst hv
          exact ⟨(x, e0.2 ++ [vals.length]), by simp, rfl⟩
        · rw [if_neg hk] at hv
          obtain ⟨e, he, hev⟩ := h.all k v hv
          obtain ⟨e', he', hev'⟩ := get e he
          exact ⟨e', he', by rw [hev', hev]⟩
      · intro e he
        rcases List.mem_append.1 he with he | he
        · exact h.nonempty e (by simp [he])
        · rcases List.mem_cons.1 he with rfl | he
          · simp
          · exact h.nonempty e (by simp [he])
      · intro e he
        rcases List.mem_append.1 he with he | he
        · exact h.incr e (by simp [he])
        · rcases List.mem_cons.1 he with rfl | he
          · refine List.pairwise_append.2 ⟨h.incr e0 hmem0, by simp, ?_⟩
            intro a ha b hb
            simp only [List.mem_singleton] at hb; subst hb
            have := (h.ids e0 hmem0 a).1 ha
            exact (List.getElem?_eq_some_iff.1 this).1
          · exact h.incr e (by simp [he])
    · rw [if_pos (by simpa using hex), htake]
      have hd2 : (L ++ e0 :: Rt).drop L.length = e0 :: Rt := by simp
      rw [hd2]
      have hRt : ∀ e ∈ e0 :: Rt, x < e.1 := by
        intro e he
        rcases List.mem_cons.1 he with rfl | he
        · omega
        · have := hRs.1 e he; omega
      have hnov : ∀ k : Nat, vals[k]? ≠ some x := by
        intro k hk
        obtain ⟨e, he, hex'⟩ := h.all k x hk
        rcases List.mem_append.1 he with he | he
        · have := hLlt e he; omega
        · have := hRt e he; omega
      refine ⟨?_, ?_, ?_, ?_, ?_⟩
      · refine List.pairwise_append.2 ⟨hss.1, List.pairwise_cons.2 ⟨fun e he => hRt e he, hss.2.1⟩, ?_⟩
        intro a ha b hb
        rcases List.mem_cons.1 hb with rfl | hb
        · exact hLlt a ha
        · exact hss.2.2 a ha b hb
      · intro e he k
        rcases List.mem_append.1 he with he | he
        · exact keepIds e (by simp [he]) (by have := hLlt e he; omega) k
        · rcases List.mem_cons.1 he with rfl | he
          · simp only [List.mem_singleton]
            rw [hnew]
            by_cases hk : k = vals.length
            · simp [hk]
            · rw [if_neg hk]; simp [hk, hnov k]
          · exact keepIds e (by simp at he ⊢; tauto) (by have := hRt e he; omega) k
      · intro k v hv
        rw [hnew] at hv
        by_cases hk : k = vals.length
        · rw [if_pos hk] at hv; simp only [Option.some.injEq] at hv; subst hv
          exact ⟨(x, [vals.length]), by simp, rfl⟩
        · rw [if_neg hk] at hv
          obtain ⟨e, he, hev⟩ := h.all k v hv
          exact ⟨e, by simp at he ⊢; tauto, hev⟩
      · intro e he
        rcases List.mem_append.1 he with he | he
        · exact h.nonempty e (by simp [he])
        · rcases List.mem_cons.1 he with rfl | he
          · simp
          · exact h.nonempty e (by simp at he ⊢; tauto)
      · intro e he
        rcases List.mem_append.1 he with he | he
        · exact h.incr e (by simp [he])
        · rcases List.mem_cons.1 he with rfl | he
          · simp
          · exact h.incr e (by simp at he ⊢; tauto)

end

/-! ### intersections -/

theorem setIntersection_spec (as bs : List Nat) : as.Pairwise (· < ·) → bs.Pairwise (· < ·) →
    (setIntersection as bs).Pairwise (· < ·) ∧ ∀ k, k ∈ setIntersection as bs ↔ k ∈ as ∧ k ∈ bs := by
  fun_induction setIntersection as bs with
  | case1 => intros; simp
  | case2 => intros; simp
  | case3 a as b bs h ih =>
    intro ha hb
    obtain ⟨i1, i2⟩ := ih (List.pairwise_cons.1 ha).2 hb
    refine ⟨i1, fun k => ?_⟩
    rw [i2]
    have h1 := (List.pairwise_cons.1 ha).1
    have h2 := (List.pairwise_cons.1 hb).1
    constructor
    · rintro ⟨x, y⟩; exact ⟨by simp [x], y⟩
    · rintro ⟨x, y⟩
      refine ⟨?_, y⟩
      rcases List.mem_cons.1 x with rfl | x
      · rcases List.mem_cons.1 y with rfl | y
        · omega
        · have := h2 k y; omega
      · exact x
  | case4 a as b bs h h' ih =>
    intro ha hb
    obtain ⟨i1, i2⟩ := ih ha (List.pairwise_cons.1 hb).2
    refine ⟨i1, fun k => ?_⟩
    rw [i2]
    have h1 := (List.pairwise_cons.1 ha).1
    have h2 := (List.pairwise_cons.1 hb).1
    constructor
    · rintro ⟨x, y⟩; exact ⟨x, by simp [y]⟩
    · rintro ⟨x, y⟩
      refine ⟨x, ?_⟩
      rcases List.mem_cons.1 y with rfl | y
      · rcases List.mem_cons.1 x with rfl | x
        · omega
        · have := h1 k x; omega
      · exact y
  | case5 a as b bs h h' ih =>
    intro ha hb
    have hab : a = b := by omega
    subst hab
    obtain ⟨i1, i2⟩ := ih (List.pairwise_cons.1 ha).2 (List.pairwise_cons.1 hb).2
    have h1 := (List.pairwise_cons.1 ha).1
    have h2 := (List.pairwise_cons.1 hb).1
    refine ⟨List.pairwise_cons.2 ⟨fun k hk => h1 k ((i2 k).1 hk).1, i1⟩, fun k => ?_⟩
    simp only [List.mem_cons, i2]
    constructor
    · rintro (rfl | ⟨x, y⟩)
      · simp
      · exact ⟨Or.inr x, Or.inr y⟩
    · rintro ⟨rfl | x, y⟩
      · exact Or.inl rfl
      · rcases y with rfl | y
        · exact Or.inl rfl
        · exact Or.inr ⟨x, y⟩

/-! ### all dimensions -/

/-- Coordinate columns: container `i` indexes column `i`. -/
abbrev Cols := List.Forall₂ DimOK

/-- Id `k` is within the tolerance in every column. -/
def Hit (tol : Int) (k : Nat) : List (List Int) → List Int → Prop
  | col :: cols, x :: xs => (∃ v, col[k]? = some v ∧ x - tol ≤ v ∧ v ≤ x + tol) ∧ Hit tol k cols xs
  | _, _ => True

theorem matchLoop_spec {tol : Int} (ht : 0 ≤ tol) : ∀ {cs : List Container} {cols : List (List Int)}, Cols cs cols → ∀ (xs : List Int) (ids : List Nat),
    ids.Pairwise (· < ·) → ids ≠ [] →
    ∃ ids' : List Nat, ids'.Pairwise (· < ·) ∧ (∀ k, k ∈ ids' ↔ k ∈ ids ∧ Hit tol k cols xs) ∧ matchLoop tol cs xs ids = if ids' = [] then none else some ids'
  | _, _, .nil, xs, ids, hs, hne => ⟨ids, hs, by simp [Hit], by cases xs <;> simp [matchLoop, hne]⟩
  | _, _, .cons (a := c) (b := col) (l₁ := cs) (l₂ := cols) hd hcs, [], ids, hs, hne => ⟨ids, hs, by simp [Hit], by simp [matchLoop, hne]⟩
  | _, _, .cons (a := c) (b := col) (l₁ := cs) (l₂ := cols) hd hcs, x :: xs, ids, hs, hne => by
    obtain ⟨d1, d2⟩ := dimIDs_spec (x := x) hd ht
    obtain ⟨s1, s2⟩ := setIntersection_spec ids (dimIDs c x tol) hs d1
    by_cases hz : setIntersection ids (dimIDs c x tol) = []
    · refine ⟨[], by simp, ?_, by simp [matchLoop, hz]⟩
      intro k
      simp only [List.not_mem_nil, false_iff, Hit, not_and]
      intro hk hv
      have := (s2 k).2 ⟨hk, (d2 k).2 hv⟩
      rw [hz] at this
      simp at this
    · obtain ⟨ids', i1, i2, i3⟩ := matchLoop_spec ht hcs xs _ s1 hz
      refine ⟨ids', i1, ?_, ?_⟩
      · intro k
        rw [i2, s2, d2, Hit]
        tauto
      · rw [matchLoop]
        simp only [List.length_eq_zero_iff, hz, if_false]
        exact i3

theorem anyEmpty_spec {tol : Int} (ht : 0 ≤ tol) : ∀ {cs : List Container} {cols : List (List Int)}, Cols cs cols → ∀ (xs : List Int), cs.length = xs.length →
    (anyEmpty tol cs xs = true → ∀ k, ¬ Hit tol k cols xs)
  | _, _, .nil, xs, _ => by cases xs <;> simp [anyEmpty]
  | _, _, .cons (a := c) (b := col) (l₁ := cs) (l₂ := cols) hd hcs, [], h => by simp at h
  | _, _, .cons (a := c) (b := col) (l₁ := cs) (l₂ := cols) hd hcs, x :: xs, h => by
    have ih := anyEmpty_spec ht hcs xs (by simpa using h)
    simp only [anyEmpty, Bool.or_eq_true, decide_eq_true_eq]
    rintro (h1 | h1) k ⟨hv, hh⟩
    · rw [bounds_eq_iff hd ht] at h1
      have := ((dimIDs_spec (x := x) hd ht).2 k).2 hv
      rw [h1] at this; simp at this
    · exact ih h1 k hh

theorem anyEmpty_false {tol : Int} (ht : 0 ≤ tol) : ∀ {cs : List Container} {cols : List (List Int)}, Cols cs cols → ∀ (xs : List Int),
    anyEmpty tol cs xs = false → ∀ (i : Nat) (c : Container) (x : Int), cs[i]? = some c → xs[i]? = some x → dimIDs c x tol ≠ []
  | _, _, .nil, xs, _ => by simp
  | _, _, .cons (a := c) (b := col) (l₁ := cs) (l₂ := cols) hd hcs, [], h => by simp
  | _, _, .cons (a := c) (b := col) (l₁ := cs) (l₂ := cols) hd hcs, x :: xs, h => by
    simp only [anyEmpty, Bool.or_eq_false_iff, decide_eq_false_iff_not] at h
    have ih := anyEmpty_false ht hcs xs h.2
    intro i c' x' h1 h2
    cases i with
    | zero =>
      simp only [List.getElem?_cons_zero, Option.some.injEq] at h1 h2
      subst h1 h2
      exact fun e => h.1 ((bounds_eq_iff hd ht).2 e)
    | succ i => exact ih i c' x' (by simpa using h1) (by simpa using h2)

theorem insertAll_spec {tol : Int} (ht : 0 ≤ tol) {k : Nat} : ∀ {cs : List Container} {cols : List (List Int)}, Cols cs cols → (∀ col ∈ cols, col.length = k) →
    ∀ (xs : List Int), cs.length = xs.length → Cols (insertAll tol k cs xs) (List.zipWith (fun col x => col ++ [x]) cols xs)
  | _, _, .nil, _, xs, _ => by cases xs <;> exact .nil
  | _, _, .cons hd hcs, _, [], h => by simp at h
  | _, _, .cons (a := c) (b := col) (l₁ := cs) (l₂ := cols) hd hcs, hk, x :: xs, h => by
    have ih := insertAll_spec ht hcs (fun col hc => hk col (by simp [hc])) xs (by simpa using h)
    rw [insertAll, List.zipWith_cons_cons]
    refine .cons ?_ ih
    rw [← hk col (by simp)]
    exact insertID_spec hd ht

/-! ### the map and its stored points -/

/-- The map `m` of dimension `D` stores exactly the points `pts`, with their positions as ids. -/
structure Holds (D : Nat) (m : PMap) (pts : List (List Int)) : Prop where
  dim : ∀ p ∈ pts, p.length = D
  cur : m.cur = pts.length
  cols : Cols m.coords ((List.range D).map fun i => pts.map fun p => p.getD i 0)

theorem zip_columns (D : Nat) (pts : List (List Int)) (p : List Int) (hp : p.length = D) :
    List.zipWith (fun col x => col ++ [x]) ((List.range D).map fun i => pts.map fun p => p.getD i 0) p =
      (List.range D).map fun i => (pts ++ [p]).map fun p => p.getD i 0 := by
  apply List.ext_getElem
  · simp [hp]
  · intro i h1 h2
    have hi : i < p.length := by simpa [hp] using h2
    simp [hi]

theorem hit_iff {tol : Int} {k : Nat} : ∀ {cols : List (List Int)} {xs : List Int}, cols.length = xs.length →
    (Hit tol k cols xs ↔ ∀ (i : Nat) (x : Int), xs[i]? = some x → ∃ v, (cols.getD i [])[k]? = some v ∧ x - tol ≤ v ∧ v ≤ x + tol)
  | [], [], _ => by simp [Hit]
  | [], _ :: _, h => by simp at h
  | _ :: _, [], h => by simp at h
  | col :: cols, x :: xs, h => by
    rw [Hit, hit_iff (cols := cols) (xs := xs) (by simpa using h)]
    constructor
    · rintro ⟨h1, h2⟩ i y hy
      cases i with
      | zero => simp only [List.getElem?_cons_zero, Option.some.injEq] at hy; subst hy; simpa using h1
      | succ i => simpa using h2 i y (by simpa using hy)
    · intro h'
      refine ⟨by simpa using h' 0 x (by simp), fun i y hy => ?_⟩
      simpa using h' (i + 1) y (by simpa using hy)

theorem near_iff {tol : Int} {p q : List Int} (h : p.length = q.length) :
    Near tol p q ↔ ∀ (i : Nat) (x y : Int), p[i]? = some x → q[i]? = some y → x - tol ≤ y ∧ y ≤ x + tol := by
  unfold Near
  rw [List.forall₂_iff_get]
  constructor
  · rintro ⟨_, h2⟩ i x y hx hy
    obtain ⟨hi, rfl⟩ := List.getElem?_eq_some_iff.1 hx
    obtain ⟨hi', rfl⟩ := List.getElem?_eq_some_iff.1 hy
    exact h2 i hi hi'
  · intro h2
    exact ⟨h, fun i hi hi' => h2 i _ _ (List.getElem?_eq_getElem hi) (List.getElem?_eq_getElem hi')⟩

theorem hit_columns {D : Nat} {pts : List (List Int)} {tol : Int} {p : List Int} (hp : p.length = D) (hD : 0 < D) (hd : ∀ p ∈ pts, p.length = D) (k : Nat) :
    Hit tol k ((List.range D).map fun i => pts.map fun p => p.getD i 0) p ↔ ∃ q, pts[k]? = some q ∧ Near tol p q := by
  rw [hit_iff (by simp [hp])]
  have hcol : ∀ i, i < D → ((List.range D).map fun i => pts.map fun p => p.getD i 0).getD i [] = pts.map fun p => p.getD i 0 := by
    intro i hi; simp [hi]
  constructor
  · intro h
    obtain ⟨v, hv, _⟩ := h 0 p[0] (by simp)
    rw [hcol 0 hD, List.getElem?_map] at hv
    obtain ⟨q, hq, _⟩ := Option.map_eq_some_iff.1 hv
    have hql := hd q (List.mem_of_getElem? hq)
    refine ⟨q, hq, (near_iff (by omega)).2 ?_⟩
    intro i x y hx hy
    obtain ⟨v, hv, hb⟩ := h i x hx
    have hi : i < D := by rw [← hp]; exact (List.getElem?_eq_some_iff.1 hx).1
    rw [hcol i hi, List.getElem?_map, hq] at hv
    simp only [Option.map_some, Option.some.injEq, List.getD_eq_getElem?_getD, hy, Option.getD_some] at hv
    rw [hv]; exact hb
  · rintro ⟨q, hq, hn⟩ i x hx
    have hql := hd q (List.mem_of_getElem? hq)
    have hi : i < D := by rw [← hp]; exact (List.getElem?_eq_some_iff.1 hx).1
    refine ⟨q.getD i 0, by rw [hcol i hi, List.getElem?_map, hq]; rfl, ?_⟩
    exact (near_iff (by omega)).1 hn i x _ hx (by simp [(by omega : i < q.length)])

/-- The exact behaviour of `index`. -/
theorem index_spec (dbg : Bool) {D : Nat} {m : PMap} {pts : List (List Int)} (h : Holds D m pts) (hD : 0 < D) (ht : 0 ≤ m.tol) {p : List Int} (hp : p.length = D) :
    ((∀ (k : Nat) (q : List Int), pts[k]? = some q → ¬ Near m.tol p q) →
      ∃ m', index dbg m p = .ok (pts.length, m') ∧ Holds D m' (pts ++ [p]) ∧ m'.tol = m.tol) ∧
    (∀ (k : Nat) (q : List Int), pts[k]? = some q → Near m.tol p q → (∀ (j : Nat) (q' : List Int), pts[j]? = some q' → Near m.tol p q' → k ≤ j) →
      ((∀ (j : Nat) (q' : List Int), pts[j]? = some q' → Near m.tol p q' → k = j) → index dbg m p = .ok (k, m)) ∧
      ((∃ (j : Nat) (q' : List Int), pts[j]? = some q' ∧ Near m.tol p q' ∧ k ≠ j) → index dbg m p = if dbg then .abort else .ok (k, m))) := by
  obtain ⟨coords, tol, cur⟩ := m
  simp only at ht
  have hcl : coords.length = D := by have := h.cols.length_eq; simpa using this
  have hhit := fun k => hit_columns (tol := tol) hp hD h.dim k
  have hcols : Cols coords _ := h.cols
  have hcur : cur = pts.length := h.cur
  have hfresh : Holds D (⟨insertAll tol cur coords p, tol, cur + 1⟩ : PMap) (pts ++ [p]) := by
    refine ⟨?_, by simp [hcur], ?_⟩
    · intro q hq
      rcases List.mem_append.1 hq with hq | hq
      · exact h.dim q hq
      · simp only [List.mem_singleton] at hq; rw [hq]; exact hp
    · have := insertAll_spec ht (k := cur) hcols (by
        intro col hcol
        obtain ⟨i, _, rfl⟩ := List.mem_map.1 hcol
        simp [hcur]) p (by omega)
      rw [zip_columns D pts p hp] at this
      exact this
  generalize hcc : (List.range D).map (fun i => pts.map fun p => p.getD i 0) = cols at *
  unfold index
  cases hae : anyEmpty tol coords p with
  | true =>
    have hno := anyEmpty_spec ht hcols p (by omega) hae
    simp only [if_true, hcur]
    refine ⟨fun _ => ⟨_, rfl, by rw [hcur] at hfresh; exact hfresh, rfl⟩, ?_⟩
    intro k q hk hq _
    exact absurd ((hhit k).2 ⟨q, hk, hq⟩) (hno k)
  | false =>
    simp only [Bool.false_eq_true, if_false]
    obtain ⟨x, xs, rfl⟩ : ∃ x xs, p = x :: xs := by
      cases p with
      | nil => simp at hp; omega
      | cons x xs => exact ⟨x, xs, rfl⟩
    cases hcols with
    | nil => simp at hcl; omega
    | @cons c col cs cols hd hcs =>
      simp only
      have hne : dimIDs c x tol ≠ [] := anyEmpty_false ht (.cons hd hcs) (x :: xs) hae 0 c x (by simp) (by simp)
      obtain ⟨d1, d2⟩ := dimIDs_spec (x := x) hd ht
      obtain ⟨ids', i1, i2, i3⟩ := matchLoop_spec ht hcs xs _ d1 hne
      have hmem : ∀ k, k ∈ ids' ↔ ∃ q, pts[k]? = some q ∧ Near tol (x :: xs) q := by
        intro k
        rw [i2, d2, ← hhit, Hit]
      rw [i3]
      by_cases hz : ids' = []
      · rw [if_pos hz]
        simp only [hcur]
        refine ⟨fun _ => ⟨_, rfl, by rw [hcur] at hfresh; exact hfresh, rfl⟩, ?_⟩
        intro k q hk hq _
        have := (hmem k).2 ⟨q, hk, hq⟩
        rw [hz] at this; simp at this
      · rw [if_neg hz]
        simp only
        obtain ⟨j0, rest, hids⟩ := List.exists_cons_of_ne_nil hz
        subst hids
        refine ⟨?_, ?_⟩
        · intro hno
          obtain ⟨q, hq1, hq2⟩ := (hmem j0).1 (by simp)
          exact absurd hq2 (hno j0 q hq1)
        · intro k q hk hq hmin
          have hkj : k = j0 := by
            have hkm := (hmem k).2 ⟨q, hk, hq⟩
            obtain ⟨q', hq1, hq2⟩ := (hmem j0).1 (by simp)
            have h1 := hmin j0 q' hq1 hq2
            rcases List.mem_cons.1 hkm with e | e
            · exact e
            · have := (List.pairwise_cons.1 i1).1 k e; omega
          subst hkj
          constructor
          · intro huniq
            have : rest = [] := by
              by_contra hcon
              obtain ⟨j, hj⟩ := List.exists_mem_of_ne_nil _ hcon
              have := (List.pairwise_cons.1 i1).1 j hj
              obtain ⟨q', hq1, hq2⟩ := (hmem j).1 (by simp [hj])
              have := huniq j q' hq1 hq2
              omega
            subst this
            rw [Res.bind_eq, Res.assert_true dbg (by rfl), Res.bind_ok]
            rfl
          · rintro ⟨j, q', hq1, hq2, hne'⟩
            have hj := (hmem j).2 ⟨q', hq1, hq2⟩
            have hlen : ¬ (k :: rest).length = 1 := by
              rcases List.mem_cons.1 hj with e | e
              · omega
              · have := List.length_pos_of_mem e
                simp only [List.length_cons]; omega
            cases dbg with
            | true => rw [Res.bind_eq, Res.assert_debug_false hlen]; rfl
            | false => rw [Res.bind_eq, Res.assert_release]; rfl

end Verif.PointMap
