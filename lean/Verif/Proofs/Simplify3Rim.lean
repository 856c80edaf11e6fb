import Verif.Proofs.Simplify3
import Verif.Proofs.Polygon
import Mathlib.Algebra.BigOperators.Group.Finset.Basic
/- The outline of a group of facets runs along all of their free sides in one direction. -/
namespace Verif.Simplify3
open Verif Verif.Mesh Verif.Internal Verif.Geom

/-- The free sides: those that are not used in the other direction. -/
def free (L : List (Nat × Nat)) : List (Nat × Nat) := L.filter fun d => d.swap ∉ L

theorem mem_free {L : List (Nat × Nat)} {d : Nat × Nat} : d ∈ free L ↔ d ∈ L ∧ d.swap ∉ L := by simp [free]

/-- Sides that are used in both directions cancel. -/
theorem sum_free {M : Type} [AddCommGroup M] {L : List (Nat × Nat)} (hL : L.Nodup) (hne : ∀ d ∈ L, d.1 ≠ d.2) (g : Nat × Nat → M) (hg : ∀ d, g d.swap = - g d) :
    (L.map g).sum = ((free L).map g).sum := by
  have h1 : (L.map g).sum = ∑ d ∈ L.toFinset, g d := (List.sum_toFinset g hL).symm
  have h2 : ((free L).map g).sum = ∑ d ∈ (free L).toFinset, g d := (List.sum_toFinset g (hL.filter _)).symm
  rw [h1, h2]
  have e : (free L).toFinset = L.toFinset.filter fun d => d.swap ∉ L := by
    ext d
    simp [mem_free]
  rw [e, ← Finset.sum_filter_add_sum_filter_not L.toFinset (fun d => d.swap ∉ L), add_eq_left]
  refine Finset.sum_involution (fun d _ => d.swap) (fun d _ => by rw [hg]; exact add_neg_cancel _) (fun d hd _ => ?_) (fun d hd => ?_) (fun d _ => Prod.swap_swap d)
  · intro e
    rw [Finset.mem_filter, List.mem_toFinset] at hd
    have := congrArg Prod.fst e
    exact hne d hd.1 this.symm
  · simp only [Finset.mem_filter, List.mem_toFinset, not_not] at hd ⊢
    exact ⟨hd.2, by rw [Prod.swap_swap]; exact hd.1⟩

theorem count_hash {L : List (Nat × Nat)} {d : Nat × Nat} (hd : d.1 ≠ d.2) : (L.map hash).count (hash d) = L.count d + L.count d.swap := by
  have hs : d ≠ d.swap := fun e => hd (congrArg Prod.fst e)
  induction L with
  | nil => simp
  | cons a L ih =>
    rw [List.map_cons, List.count_cons, List.count_cons, List.count_cons, ih]
    have : (hash a == hash d) = (a == d || a == d.swap) := by
      rw [Bool.eq_iff_iff]
      simp only [beq_iff_eq, Bool.or_eq_true]
      exact hash_eq
    rw [this]
    by_cases h1 : a = d
    · subst h1
      simp only [BEq.rfl, Bool.true_or, if_true, beq_iff_eq, hs, if_false]
      omega
    · by_cases h2 : a = d.swap
      · subst h2
        simp [Ne.symm hs]
        omega
      · simp [h1, h2]

theorem sum_dirSides {M : Type} [AddCommGroup M] (f : Nat → M) (l : List Nat) : ((dirSides l).map fun d => f d.1 - f d.2).sum = 0 := by
  have h : ∀ (l l' : List Nat), l.length = l'.length → ((l.zip l').map fun d => f d.1 - f d.2).sum = (l.map f).sum - (l'.map f).sum := by
    intro l
    induction l with
    | nil => intro l' h; rw [List.length_nil] at h; rw [List.length_eq_zero_iff.1 h.symm]; simp
    | cons a l ih =>
      intro l' h
      rcases l' with _ | ⟨b, l'⟩
      · cases h
      · simp only [List.zip_cons_cons, List.map_cons, List.sum_cons]
        rw [ih l' (by simpa using h)]
        abel
  rw [dirSides, h _ _ (by simp), ((List.rotate_perm l 1).map f).sum_eq, sub_self]

theorem sum_flatMap {M : Type} [AddCommGroup M] {α β : Type} (g : β → M) (h : α → List β) (l : List α) : ((l.flatMap h).map g).sum = (l.map fun a => ((h a).map g).sum).sum := by
  induction l with
  | nil => simp
  | cons a l ih => simp [ih]

section
variable {mf : List (List Nat)} {old : List Nat} {w : List Nat}

/-- Sides of the outline are the free sides, in one direction or the other. -/
theorem rim_iff (hL : (sidesOf mf old).Nodup) (hne : ∀ d ∈ sidesOf mf old, d.1 ≠ d.2) (hrim : ((dirSides w).map hash).Perm (onceEdges ((sidesOf mf old).map hash))) {d : Nat × Nat}
    (hd : d.1 ≠ d.2) : (d ∈ dirSides w ∨ d.swap ∈ dirSides w) ↔ (d ∈ free (sidesOf mf old) ∨ d.swap ∈ free (sidesOf mf old)) := by
  set L := sidesOf mf old
  have h1 : hash d ∈ (dirSides w).map hash ↔ d ∈ dirSides w ∨ d.swap ∈ dirSides w := by
    rw [List.mem_map]
    constructor
    · rintro ⟨e, he, h⟩
      rcases hash_eq.1 h with rfl | rfl
      · exact .inl he
      · exact .inr he
    · rintro (h | h)
      · exact ⟨d, h, rfl⟩
      · exact ⟨_, h, hash_eq.2 (.inr rfl)⟩
  rw [← h1, hrim.mem_iff, once_mem, count_hash hd, mem_free, mem_free, Prod.swap_swap]
  have c1 : L.count d = if d ∈ L then 1 else 0 := hL.count
  have c2 : L.count d.swap = if d.swap ∈ L then 1 else 0 := hL.count
  rw [c1, c2]
  by_cases h3 : d ∈ L <;> by_cases h4 : d.swap ∈ L <;> simp [h3, h4]

theorem rim_ne (hne : ∀ d ∈ sidesOf mf old, d.1 ≠ d.2) (hrim : ((dirSides w).map hash).Perm (onceEdges ((sidesOf mf old).map hash))) {d : Nat × Nat} (hd : d ∈ dirSides w) : d.1 ≠ d.2 := by
  have : hash d ∈ onceEdges ((sidesOf mf old).map hash) := hrim.mem_iff.1 (List.mem_map_of_mem hd)
  rw [once_mem] at this
  obtain ⟨e, he, h⟩ := List.mem_map.1 (List.count_pos_iff.1 (by omega : 0 < ((sidesOf mf old).map hash).count (hash d)))
  have hee := hne e he
  rcases hash_eq.1 h with h | h
  · rwa [← h]
  · rw [h] at hee
    exact fun e => hee e.symm

theorem rim_nodup (hrim : ((dirSides w).map hash).Perm (onceEdges ((sidesOf mf old).map hash))) : (dirSides w).Nodup :=
  List.Nodup.of_map _ (hrim.nodup_iff.2 (once_nodup _))

/-- All the sides of a simple outline are free sides, or all are when turned round. -/
theorem rim_direction (hw : w.Nodup) (h3 : 3 ≤ w.length) (hL : (sidesOf mf old).Nodup) (hne : ∀ d ∈ sidesOf mf old, d.1 ≠ d.2)
    (hrim : ((dirSides w).map hash).Perm (onceEdges ((sidesOf mf old).map hash))) :
    (dirSides w).Perm (free (sidesOf mf old)) ∨ ((dirSides w).map Prod.swap).Perm (free (sidesOf mf old)) := by
  set L := sidesOf mf old with hLdef
  have hn0 : 0 < w.length := by omega
  have hsides := dirSides_range w 0
  set D : Nat → Nat × Nat := fun j => (w.getD j 0, w.getD ((j + 1) % w.length) 0) with hD
  have hDmem : ∀ j < w.length, D j ∈ dirSides w := fun j hj => by rw [hsides]; exact List.mem_map.2 ⟨j, List.mem_range.2 hj, rfl⟩
  have hinj : ∀ i < w.length, ∀ j < w.length, w.getD i 0 = w.getD j 0 → i = j := by
    intro i hi j hj h
    have h1 := getD_lt hi 0
    have h2 := getD_lt hj 0
    rw [h, ← h2] at h1
    exact (List.nodup_iff_injective_get.1 hw |> fun _ => (List.Nodup.getElem_inj_iff hw (hi := hi) (hj := hj)).1 (by
      rw [List.getElem?_eq_getElem hi, List.getElem?_eq_getElem hj] at h1
      exact Option.some.inj h1))
  -- as many free sides leave a point as come to it
  have balance : ∀ v : Nat, ((free L).map fun d => (if d.1 = v then (1 : Int) else 0) - (if d.2 = v then 1 else 0)).sum = 0 := by
    intro v
    rw [← sum_free hL hne (fun d => (if d.1 = v then (1 : Int) else 0) - (if d.2 = v then 1 else 0)) (fun d => by simp)]
    rw [hLdef, sidesOf, sum_flatMap]
    have : ∀ o ∈ old, ((dirSides (mf.getD o [])).map fun d => (if d.1 = v then (1 : Int) else 0) - (if d.2 = v then 1 else 0)).sum = 0 := fun o _ =>
      sum_dirSides (fun a => if a = v then (1 : Int) else 0) _
    rw [List.map_congr_left this]
    simp
  have step : ∀ j < w.length, D j ∈ L → D ((j + 1) % w.length) ∈ L := by
    intro j hj hjL
    set v := w.getD ((j + 1) % w.length) 0 with hv
    have hj1 : (j + 1) % w.length < w.length := Nat.mod_lt _ hn0
    have hjf : D j ∈ free L := by
      rcases (rim_iff hL hne hrim (hne _ hjL)).1 (.inl (hDmem j hj)) with h | h
      · exact h
      · exact absurd hjL (by have := (mem_free.1 h).2; rwa [Prod.swap_swap] at this)
    obtain ⟨d, hd, hdv⟩ : ∃ d ∈ free L, d.1 = v := by
      by_contra hcon
      push Not at hcon
      have hb := balance v
      have hle : ∀ (l : List (Nat × Nat)), (∀ d ∈ l, d.1 ≠ v) → D j ∈ l → (l.map fun d => (if d.1 = v then (1 : Int) else 0) - (if d.2 = v then 1 else 0)).sum < 0 := by
        have hle0 : ∀ (l : List (Nat × Nat)), (∀ d ∈ l, d.1 ≠ v) → (l.map fun d => (if d.1 = v then (1 : Int) else 0) - (if d.2 = v then 1 else 0)).sum ≤ 0 := by
          intro l
          induction l with
          | nil => simp
          | cons a l ih =>
            intro h
            have h1 := ih fun d hd => h d (List.mem_cons_of_mem _ hd)
            have h2 := h a List.mem_cons_self
            rw [List.map_cons, List.sum_cons, if_neg h2]
            split <;> omega
        intro l
        induction l with
        | nil => simp
        | cons a l ih =>
          intro h hm
          have h2 := h a List.mem_cons_self
          rw [List.map_cons, List.sum_cons, if_neg h2]
          rcases List.mem_cons.1 hm with e | e
          · have h1 := hle0 l fun d hd => h d (List.mem_cons_of_mem _ hd)
            rw [← e, if_pos (by rw [hD, hv])]
            omega
          · have h1 := ih (fun d hd => h d (List.mem_cons_of_mem _ hd)) e
            split <;> omega
      exact absurd hb (hle _ hcon hjf).ne
    have hdL := (mem_free.1 hd).1
    rcases (rim_iff hL hne hrim (hne d hdL)).2 (.inl hd) with h | h
    · rw [hsides, List.mem_map] at h
      obtain ⟨k, hk, e⟩ := h
      rw [List.mem_range] at hk
      have : w.getD k 0 = v := by rw [← hdv, ← e]
      rw [← hinj k hk _ hj1 this]
      rw [show D k = d from e]
      exact hdL
    · rw [hsides, List.mem_map] at h
      obtain ⟨k, hk, e⟩ := h
      rw [List.mem_range] at hk
      have : w.getD ((k + 1) % w.length) 0 = v := by
        have := congrArg Prod.snd e
        exact this.trans hdv
      have hkj := hinj _ (Nat.mod_lt _ hn0) _ hj1 this
      have : k = j := by
        rcases Nat.lt_or_ge (k + 1) w.length with h1 | h1 <;> rcases Nat.lt_or_ge (j + 1) w.length with h2 | h2
        · rw [Nat.mod_eq_of_lt h1, Nat.mod_eq_of_lt h2] at hkj; omega
        · rw [Nat.mod_eq_of_lt h1, show j + 1 = w.length by omega, Nat.mod_self] at hkj; omega
        · rw [Nat.mod_eq_of_lt h2, show k + 1 = w.length by omega, Nat.mod_self] at hkj; omega
        · omega
      subst this
      rw [show D k = d.swap from e] at hjL
      exact absurd hjL (mem_free.1 hd).2
  have fwd : ∀ j < w.length, D j ∈ L → ∀ k < w.length, D k ∈ L := by
    intro j hj h
    have h1 : ∀ m, D ((j + m) % w.length) ∈ L := by
      intro m
      induction m with
      | zero => rwa [Nat.add_zero, Nat.mod_eq_of_lt hj]
      | succ m ih =>
        have := step _ (Nat.mod_lt _ hn0) ih
        rwa [Nat.mod_add_mod] at this
    intro k hk
    have := h1 (k + w.length - j)
    rwa [show j + (k + w.length - j) = k + w.length by omega, Nat.add_mod_right, Nat.mod_eq_of_lt hk] at this
  have hfree_nd : (free L).Nodup := hL.filter _
  have hw_nd := rim_nodup hrim
  by_cases hall : ∀ d ∈ dirSides w, d ∈ L
  · left
    rw [List.perm_ext_iff_of_nodup hw_nd hfree_nd]
    intro d
    constructor
    · intro h
      rcases (rim_iff hL hne hrim (rim_ne hne hrim h)).1 (.inl h) with h1 | h1
      · exact h1
      · exact absurd (hall d h) (by have := (mem_free.1 h1).2; rwa [Prod.swap_swap] at this)
    · intro h
      have hdL := (mem_free.1 h).1
      rcases (rim_iff hL hne hrim (hne d hdL)).2 (.inl h) with h1 | h1
      · exact h1
      · exact absurd (hall _ h1) (mem_free.1 h).2
  · right
    have hnone : ∀ d ∈ dirSides w, d ∉ L := by
      intro d hd hdL
      apply hall
      rw [hsides, List.mem_map] at hd
      obtain ⟨j, hj, rfl⟩ := hd
      intro e he
      rw [hsides, List.mem_map] at he
      obtain ⟨k, hk, rfl⟩ := he
      exact fwd j (List.mem_range.1 hj) hdL k (List.mem_range.1 hk)
    rw [List.perm_ext_iff_of_nodup (hw_nd.map Prod.swap_injective) hfree_nd]
    intro d
    rw [List.mem_map]
    constructor
    · rintro ⟨e, he, rfl⟩
      rcases (rim_iff hL hne hrim (rim_ne hne hrim he)).1 (.inl he) with h1 | h1
      · exact absurd (mem_free.1 h1).1 (hnone _ he)
      · exact h1
    · intro h
      have hdL := (mem_free.1 h).1
      rcases (rim_iff hL hne hrim (hne d hdL)).2 (.inl h) with h1 | h1
      · exact absurd hdL (hnone _ h1)
      · exact ⟨_, h1, Prod.swap_swap d⟩

/-- What the sides of a simple outline sum up to: the sum over the facets, or its negative. -/
theorem rim_sum {M : Type} [AddCommGroup M] (hw : w.Nodup) (h3 : 3 ≤ w.length) (hL : (sidesOf mf old).Nodup) (hne : ∀ d ∈ sidesOf mf old, d.1 ≠ d.2)
    (hrim : ((dirSides w).map hash).Perm (onceEdges ((sidesOf mf old).map hash))) :
    (∀ g : Nat × Nat → M, (∀ d, g d.swap = - g d) → ((dirSides w).map g).sum = (old.map fun o => ((dirSides (mf.getD o [])).map g).sum).sum) ∨
      ∀ g : Nat × Nat → M, (∀ d, g d.swap = - g d) → ((dirSides w).map g).sum = - (old.map fun o => ((dirSides (mf.getD o [])).map g).sum).sum := by
  rcases rim_direction hw h3 hL hne hrim with h | h
  · left
    intro g hg
    rw [(h.map g).sum_eq, ← sum_free hL hne g hg, sidesOf, sum_flatMap]
  · right
    intro g hg
    have := (h.map g).sum_eq
    rw [← sum_free hL hne g hg, sidesOf, sum_flatMap] at this
    rw [← this, List.map_map]
    have e : (g ∘ Prod.swap) = fun d => - g d := funext fun d => hg d
    rw [e]
    simp [List.sum_neg, Function.comp_def]
end
end Verif.Simplify3
