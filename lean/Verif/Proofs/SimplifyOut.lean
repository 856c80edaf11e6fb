import Verif.Proofs.SimplifyAll
/- What the outcome of `simplifyPLCfacets` means for a user. -/
namespace Verif.Simplify
open Verif Verif.Mesh Verif.Internal Verif.Geom Verif.Hash Finset
section
variable {K : Type} [Field K]

theorem sum_map_range (g : Nat → K) : ∀ n : Nat, ((List.range n).map g).sum = ∑ k ∈ range n, g k
  | 0 => by simp
  | n + 1 => by rw [List.range_succ, List.map_append, List.sum_append, sum_map_range g n, Finset.sum_range_succ]; simp

theorem enclosed_eq {facets : List (List Int)} {pts : List (V2 K)} {p q : Nat → V2 K} (h : ∀ k, k < facets.length → Side facets pts k (p k) (q k)) :
    enclosed facets pts = ∑ k ∈ range facets.length, cross2 (p k) (q k) := by
  have : facets.map (fun f => cross2 (pts.getD (f.getD 0 0).toNat 0) (pts.getD (f.getD 1 0).toNat 0)) = (List.range facets.length).map fun k => cross2 (p k) (q k) := by
    apply List.ext_getElem?
    intro k
    rcases Nat.lt_or_ge k facets.length with hk | hk
    · obtain ⟨a, b, e, e1, e2⟩ := h k hk
      simp only [List.getElem?_map, e, List.getElem?_range hk, Option.map_some]
      simp [e1, e2]
    · simp [hk]
  rw [enclosed, this, sum_map_range]
end

section
variable {K : Type} [Field K] {facets : List (List Int)} {points : List (V2 K)} {r : Plc (V2 K)} {P : Int → V2 K} {O : Int → Nat} {v : Int → Int} {new : List Edge} {f : Nat → Int}

namespace Outcome

theorem side_iff (h : Outcome facets points r P O v new f) {t : Nat} {p q : V2 K} : Side r.facets r.points t p q ↔ t < new.length ∧ p = P (f t) ∧ q = P (f (t + 1)) := by
  constructor
  · intro hs
    have ht : t < new.length := by
      obtain ⟨a, b, e, _⟩ := hs
      rw [← h.len]
      exact (List.getElem?_eq_some_iff.1 e).1
    exact ⟨ht, hs.fun (h.side t ht)⟩
  · rintro ⟨ht, rfl, rfl⟩
    exact h.side t ht

theorem closed (h : Outcome facets points r P O v new f) : ClosedPolygon r.facets r.points := by
  have h3 := h.tour.three
  refine ⟨by rw [h.len]; exact h3, fun t => P (f t), id, ?_, ?_, ?_⟩
  · intro i hi j hj e
    rw [h.len] at hi hj
    exact h.tour.distinct hi hj e
  · intro i _ j _ e
    exact e
  · intro k hk
    rw [h.len] at hk ⊢
    refine Or.inl (h.side_iff.2 ⟨hk, rfl, ?_⟩)
    rcases Nat.lt_or_ge (k + 1) new.length with e | e
    · rw [Nat.mod_eq_of_lt e]; rfl
    · have : k + 1 = new.length := by omega
      show _ = P (f (k + 1))
      rw [this, Nat.mod_self, h.tour.last]

theorem next_inj (h : Outcome facets points r P O v new f) {t u : Nat} (ht : t < new.length) (hu : u < new.length) (e : P (f (t + 1)) = P (f (u + 1))) : t = u := by
  have h3 := h.tour.three
  have hl := h.tour.last
  rcases Nat.lt_or_ge (t + 1) new.length with a | a <;> rcases Nat.lt_or_ge (u + 1) new.length with b | b
  · have := h.tour.distinct a b e; omega
  · rw [show u + 1 = new.length by omega, hl] at e
    have := h.tour.distinct a (by omega) e; omega
  · rw [show t + 1 = new.length by omega, hl] at e
    have := h.tour.distinct (by omega) b e; omega
  · omega

theorem directed (h : Outcome facets points r P O v new f) : Directed r.facets r.points := by
  intro k l p q p' q' h1 h2 hne
  obtain ⟨k1, rfl, rfl⟩ := h.side_iff.1 h1
  obtain ⟨l1, rfl, rfl⟩ := h.side_iff.1 h2
  exact ⟨fun e => hne (h.tour.distinct k1 l1 e), fun e => hne (h.next_inj k1 l1 e)⟩

theorem turns_out (h : Outcome facets points r P O v new f) {q : V2 K} (hq : q ∈ r.points) : TurnsAt r.facets r.points q := by
  obtain ⟨t, ht, rfl⟩ := (h.mem q).1 hq
  have h3 := h.tour.three
  rcases Nat.eq_zero_or_pos t with rfl | hp
  · refine ⟨new.length - 1, 0, P (f (new.length - 1)), P (f 1), by omega, Or.inl ?_, Or.inl (h.side_iff.2 ⟨ht, rfl, rfl⟩), h.tour.turns_last⟩
    exact h.side_iff.2 ⟨by omega, rfl, by rw [show new.length - 1 + 1 = new.length by omega, h.tour.last]⟩
  · obtain ⟨u, rfl⟩ : ∃ u, t = u + 1 := ⟨t - 1, by omega⟩
    exact ⟨u, u + 1, P (f u), P (f (u + 2)), by omega, Or.inl (h.side_iff.2 ⟨by omega, rfl, rfl⟩), Or.inl (h.side_iff.2 ⟨ht, rfl, rfl⟩), h.tour.turns ht⟩

theorem mem_iff (h : Outcome facets points r P O v new f) (q : V2 K) : q ∈ r.points ↔ TurnsAt facets points q := by
  rw [h.mem, h.around.turnsAt_iff]
  constructor
  · rintro ⟨t, ht, rfl⟩
    exact ⟨f t, rfl, h.tour.turn_at (by omega)⟩
  · rintro ⟨a, rfl, ha⟩
    exact (h.tour.kept_iff a).1 ha

theorem onFacets [LinearOrder K] [IsStrictOrderedRing K] (h : Outcome facets points r P O v new f) (hs : NoSpikes facets points) (x : V2 K) :
    OnFacets r.facets r.points x ↔ OnFacets facets points x := by
  rw [h.around.onFacets_iff, ← h.tour.segs (h.around.noSpikes hs)]
  constructor
  · rintro ⟨k, p, q, h1, hx⟩
    obtain ⟨k1, rfl, rfl⟩ := h.side_iff.1 h1
    exact ⟨k, k1, hx⟩
  · rintro ⟨t, ht, hx⟩
    exact ⟨t, _, _, h.side_iff.2 ⟨ht, rfl, rfl⟩, hx⟩

theorem enclosed_out (h : Outcome facets points r P O v new f) : enclosed r.facets r.points = ∑ i ∈ range facets.length, cross2 (P i) (P (i + 1)) := by
  rw [enclosed_eq (p := fun t => P (f t)) (q := fun t => P (f (t + 1))) (fun k hk => h.side k (by rw [← h.len]; exact hk)), h.len, h.tour.area]
  obtain ⟨s, hs⟩ := h.start
  rw [hs]
  exact h.tour.ring.sum_shift (fun a b => cross2 a b) s

/-- Directed facets all run with the walk or all against it. -/
theorem all_along (h : Outcome facets points r P O v new f) (hd : Directed facets points) (h0 : Side facets points (O 0) (P 0) (P 1)) : ∀ a : Nat, Side facets points (O a) (P a) (P (a + 1))
  | 0 => by simpa using h0
  | a + 1 => by
    have ih := h.all_along hd h0 a
    rcases h.around.joined (a + 1 : Nat) with hs | hs
    · exact hs
    · exfalso
      have h3 := h.around.three
      have hne : O (a : Int) ≠ O ((a + 1 : Nat) : Int) := by
        intro e
        have := dvd_small ((h.around.oinj _ _).1 e) (by push_cast; omega) (by push_cast; omega)
        push_cast at this
        omega
      refine (hd _ _ _ _ _ _ ih hs hne).2 ?_
      push_cast
      rfl

theorem all_against (h : Outcome facets points r P O v new f) (hd : Directed facets points) (h0 : Side facets points (O 0) (P 1) (P 0)) : ∀ a : Nat, Side facets points (O a) (P (a + 1)) (P a)
  | 0 => by simpa using h0
  | a + 1 => by
    have ih := h.all_against hd h0 a
    rcases h.around.joined (a + 1 : Nat) with hs | hs
    · exfalso
      have h3 := h.around.three
      have hne : O (a : Int) ≠ O ((a + 1 : Nat) : Int) := by
        intro e
        have := dvd_small ((h.around.oinj _ _).1 e) (by push_cast; omega) (by push_cast; omega)
        push_cast at this
        omega
      refine (hd _ _ _ _ _ _ ih hs hne).1 ?_
      push_cast
      rfl
    · exact hs

/-- The sum over the facets is the sum along the walk. -/
theorem enclosed_in (h : Outcome facets points r P O v new f) (p q : Int → V2 K) (hpq : ∀ a : Nat, Side facets points (O a) (p a) (q a)) :
    enclosed facets points = ∑ i ∈ range facets.length, cross2 (p i) (q i) := by
  have e : ((List.range facets.length).map fun (k : Nat) => O k).map (fun k => (facets.map fun f => cross2 (points.getD (f.getD 0 0).toNat 0) (points.getD (f.getD 1 0).toNat 0)).getD k 0)
      = (List.range facets.length).map fun (k : Nat) => cross2 (p k) (q k) := by
    rw [List.map_map]
    apply List.map_congr_left
    intro k hk
    obtain ⟨a, b, e, e1, e2⟩ := hpq k
    simp [e, e1, e2]
  have e2 : (facets.map fun f => cross2 (points.getD (f.getD 0 0).toNat 0) (points.getD (f.getD 1 0).toNat 0)) =
      (List.range facets.length).map (fun k => (facets.map fun f => cross2 (points.getD (f.getD 0 0).toNat 0) (points.getD (f.getD 1 0).toNat 0)).getD k 0) := by
    apply List.ext_getElem?
    intro k
    rcases Nat.lt_or_ge k facets.length with hk | hk
    · simp [hk]
    · simp [hk]
  rw [enclosed, e2, ← (h.around.perm_range.map _).sum_eq, e, sum_map_range]

theorem enclosed_sign (h : Outcome facets points r P O v new f) (hd : Directed facets points) {p q : V2 K} (hs : Side facets points 0 p q) :
    (Before points p q → enclosed r.facets r.points = enclosed facets points) ∧ (Before points q p → enclosed r.facets r.points = - enclosed facets points) := by
  have hz := h.zero
  rw [← hz] at hs
  have hb := h.before
  rcases h.around.joined 0 with h0 | h0 <;> rw [zero_add] at h0 <;> obtain ⟨rfl, rfl⟩ := hs.fun h0
  · refine ⟨fun _ => ?_, fun hb' => absurd hb' hb.asymm⟩
    rw [h.enclosed_out, h.enclosed_in (fun a => P a) (fun a => P (a + 1)) (h.all_along hd h0)]
  · refine ⟨fun hb' => absurd hb' hb.asymm, fun _ => ?_⟩
    rw [h.enclosed_out, h.enclosed_in (fun a => P (a + 1)) (fun a => P a) (h.all_against hd h0), ← Finset.sum_neg_distrib]
    apply Finset.sum_congr rfl
    intro i _
    simp only [cross2]
    ring

/-- The direction of the new facets is that of the walk. -/
theorem before_out (h : Outcome facets points r P O v new f) {p q : V2 K} (hs : Side facets points 0 p q) : Before points p q ∨ Before points q p := by
  have hb := h.before
  rw [← h.zero] at hs
  rcases h.around.joined 0 with h0 | h0 <;> rw [zero_add] at h0 <;> obtain ⟨rfl, rfl⟩ := hs.fun h0
  · exact Or.inl hb
  · exact Or.inr hb
end Outcome
end
end Verif.Simplify
