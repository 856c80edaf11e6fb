import Verif.Proofs.TriDual
/- The triangles around a point are still around it when triangles elsewhere are left out. -/
namespace Verif.Tri
open Verif Verif.Mesh Verif.Internal

/-- The number of an entry among those that satisfy `P`. -/
def rank (P : Tri3 → Bool) (l : List Tri3) (k : Nat) : Nat := (l.take k).countP P

theorem filter_rank {P : Tri3 → Bool} : ∀ {l : List Tri3} {k : Nat} {t : Tri3}, l[k]? = some t → P t = true → (l.filter P)[rank P l k]? = some t
  | [], k, t, h, _ => by simp at h
  | a :: l, 0, t, h, hp => by
    simp only [List.getElem?_cons_zero, Option.some.injEq] at h
    subst h
    simp [rank, List.filter_cons, hp]
  | a :: l, k + 1, t, h, hp => by
    simp only [List.getElem?_cons_succ] at h
    have ih := filter_rank h hp
    unfold rank at ih ⊢
    rw [List.take_succ_cons, List.countP_cons, List.filter_cons]
    by_cases ha : P a = true
    · simp only [ha, if_true]; rw [List.getElem?_cons_succ]; exact ih
    · simp only [ha]; exact ih

theorem rank_surj {P : Tri3 → Bool} : ∀ {l : List Tri3} {j : Nat} {t : Tri3}, (l.filter P)[j]? = some t → ∃ k, l[k]? = some t ∧ P t = true ∧ rank P l k = j
  | [], j, t, h => by simp at h
  | a :: l, j, t, h => by
    rw [List.filter_cons] at h
    by_cases ha : P a = true
    · simp only [ha, if_true] at h
      cases j with
      | zero =>
        simp only [List.getElem?_cons_zero, Option.some.injEq] at h
        subst h
        exact ⟨0, rfl, ha, rfl⟩
      | succ j =>
        rw [List.getElem?_cons_succ] at h
        obtain ⟨k, h1, h2, h3⟩ := rank_surj h
        refine ⟨k + 1, h1, h2, ?_⟩
        unfold rank at h3 ⊢
        rw [List.take_succ_cons, List.countP_cons, h3, if_pos ha]
    · simp only [ha] at h
      obtain ⟨k, h1, h2, h3⟩ := rank_surj h
      refine ⟨k + 1, h1, h2, ?_⟩
      unfold rank at h3 ⊢
      rw [List.take_succ_cons, List.countP_cons, h3, if_neg ha]; rfl

theorem rank_lt {P : Tri3 → Bool} {l : List Tri3} {k k' : Nat} {t : Tri3} (h : l[k]? = some t) (hp : P t = true) (hk : k < k') : rank P l k < rank P l k' := by
  unfold rank
  have hkl := (List.getElem?_eq_some_iff.1 h).1
  have e : (l.take (k + 1)).countP P = (l.take k).countP P + 1 := by
    rw [List.take_succ_eq_append_getElem hkl, List.countP_append]
    have : l[k] = t := by rw [List.getElem?_eq_getElem hkl] at h; exact Option.some.inj h
    simp [this, hp]
  have hsub : (l.take (k + 1)).countP P ≤ (l.take k').countP P := (List.take_prefix_take_left (by omega)).sublist.countP_le
  omega

theorem rank_inj {P : Tri3 → Bool} {l : List Tri3} {k k' : Nat} {t t' : Tri3} (h : l[k]? = some t) (hp : P t = true) (h' : l[k']? = some t') (hp' : P t' = true) (he : rank P l k = rank P l k') : k = k' := by
  rcases lt_trichotomy k k' with hk | hk | hk
  · have := rank_lt h hp hk; omega
  · exact hk
  · have := rank_lt h' hp' hk; omega

theorem cornersOf_some {T : List Tri3} {k p : Nat} (h : p ∈ cornersOf T k) : ∃ t, T[k]? = some t ∧ p ∈ corners t := by
  unfold cornersOf at h
  cases ht : T[k]? with
  | none => rw [ht] at h; simp at h
  | some t => rw [ht] at h; exact ⟨t, rfl, h⟩

theorem cornersOf_eq {T : List Tri3} {k : Nat} {t : Tri3} (h : T[k]? = some t) : cornersOf T k = corners t := by unfold cornersOf; rw [h]; rfl

theorem fan_filter {P : Tri3 → Bool} {T : List Tri3} {p : Nat} (hP : ∀ t ∈ T, p ∈ corners t → P t = true) {ts gs : List Nat} (h : Fan T p ts gs) : Fan (T.filter P) p (ts.map (rank P T)) gs := by
  have hts : ∀ k ∈ ts, ∃ t, T[k]? = some t ∧ p ∈ corners t ∧ P t = true := by
    intro k hk
    obtain ⟨t, ht, hp⟩ := cornersOf_some ((h.all k).1 hk)
    exact ⟨t, ht, hp, hP t (List.mem_of_getElem? ht) hp⟩
  refine ⟨by simpa using h.three, by simpa using h.len, ?_, h.rim_once, ?_, ?_⟩
  · apply List.Nodup.map_on _ h.once
    intro a ha b hb hab
    obtain ⟨t, h1, _, h2⟩ := hts a ha
    obtain ⟨u, h3, _, h4⟩ := hts b hb
    exact rank_inj h1 h2 h3 h4 hab
  · intro j
    constructor
    · intro hj
      obtain ⟨k, hk, rfl⟩ := List.mem_map.1 hj
      obtain ⟨t, h1, h2, h3⟩ := hts k hk
      rw [cornersOf_eq (filter_rank h1 h3)]; exact h2
    · intro hj
      obtain ⟨t, h1, h2⟩ := cornersOf_some hj
      obtain ⟨k, h3, h4, rfl⟩ := rank_surj h1
      exact List.mem_map_of_mem ((h.all k).2 (by rw [cornersOf_eq h3]; exact h2))
  · intro k hk
    rw [List.length_map] at hk
    have := h.tri k hk
    rw [List.length_map]
    have e : (ts.map (rank P T)).getD k 0 = rank P T (ts.getD k 0) := by simp [List.getD, hk]
    have hm : ts.getD k 0 ∈ ts := by simp [List.getD, hk]
    obtain ⟨t, h1, _, h3⟩ := hts _ hm
    rw [e, cornersOf_eq (filter_rank h1 h3), ← cornersOf_eq h1]
    exact this

theorem two_filter {P : Tri3 → Bool} {T : List Tri3} (h : TwoPerEdge T) : TwoPerEdge (T.filter P) := by
  intro p q a b c hpq ⟨ha, ha'⟩ ⟨hb, hb'⟩ ⟨hc, hc'⟩
  have key : ∀ {x y j : Nat}, x ∈ cornersOf (T.filter P) j → y ∈ cornersOf (T.filter P) j → ∃ k, rank P T k = j ∧ x ∈ cornersOf T k ∧ y ∈ cornersOf T k := by
    intro x y j hx hy
    obtain ⟨t, h1, h2⟩ := cornersOf_some hx
    obtain ⟨k, h3, _, h5⟩ := rank_surj h1
    rw [cornersOf_eq h1] at hy
    exact ⟨k, h5, by rw [cornersOf_eq h3]; exact h2, by rw [cornersOf_eq h3]; exact hy⟩
  obtain ⟨a', ea, a1, a2⟩ := key ha ha'
  obtain ⟨b', eb, b1, b2⟩ := key hb hb'
  obtain ⟨c', ec, c1, c2⟩ := key hc hc'
  rcases h p q a' b' c' hpq ⟨a1, a2⟩ ⟨b1, b2⟩ ⟨c1, c2⟩ with h | h | h
  · left; rw [← ea, ← eb, h]
  · right; left; rw [← ea, ← ec, h]
  · right; right; rw [← eb, ← ec, h]
end Verif.Tri
