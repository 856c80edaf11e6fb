import Verif.Props.Hull3
import Verif.Model.Canned
import Verif.Spec.Canned
import Mathlib.Analysis.SpecialFunctions.Complex.Arg
import Mathlib.Analysis.SpecialFunctions.Trigonometric.Bounds
/- Geometry of the points of spheres and cylinders. -/
namespace Verif.Hull3
open Verif Verif.Geom Verif.Hash

/-! ### The unique points: first occurrences -/

/-- The number of the unique point that stands for a point is not larger than the number of the point. -/
theorem FirstOf.ix_le {α : Type} {same : α → α → Prop} {points uniq : List α} {ix : List Nat} (h : FirstOf same points uniq ix) :
    ∀ (i m : Nat), ix[i]? = some m → m ≤ i := by
  intro i
  induction i using Nat.strong_induction_on with
  | _ i ih =>
    intro m hm
    match m, hm with
    | 0, _ => exact Nat.zero_le _
    | m + 1, hm =>
      have hi : i < points.length := by rw [← h.length]; exact (List.getElem?_eq_some_iff.1 hm).1
      obtain ⟨k, r, e1, e2, _⟩ := h.maps i _ (List.getElem?_eq_getElem hi)
      rw [hm] at e1
      have hk : m + 1 = k := Option.some.inj e1
      subst hk
      have hlt : m < uniq.length := by have := (List.getElem?_eq_some_iff.1 e2).1; omega
      obtain ⟨i', _, g1, g2⟩ := h.first m _ (List.getElem?_eq_getElem hlt)
      rcases Nat.lt_trichotomy i i' with hl | rfl | hl
      · obtain ⟨k', f1, f2⟩ := g2 i hl
        rw [hm] at f2; have := Option.some.inj f2; omega
      · rw [hm] at g1; have := Option.some.inj g1; omega
      · have := ih i' hl m g1; omega

/-- Two equal points: fewer unique points than points. -/
theorem FirstOf.length_lt {α : Type} {same : α → α → Prop} {points uniq : List α} {ix : List Nat} (h : FirstOf same points uniq ix)
    (hsymm : ∀ a b, same a b → same b a) (htrans : ∀ a b c, same a b → same b c → same a c) {a b : Nat} (hab : a < b) {p q : α} (hp : points[a]? = some p) (hq : points[b]? = some q) (hs : same p q) :
    uniq.length < points.length := by
  have hu : ∀ {k k' : Nat} {r r' : α}, uniq[k]? = some r → uniq[k']? = some r' → same r r' → k = k' := by
    intro k k' r r' e e' hs
    obtain ⟨l, rfl⟩ := List.getElem?_eq_some_iff.1 e
    obtain ⟨l', rfl⟩ := List.getElem?_eq_some_iff.1 e'
    rcases Nat.lt_trichotomy k k' with hlt | heq | hgt
    · exact absurd hs (List.pairwise_iff_getElem.1 h.distinct k k' l l' hlt)
    · exact heq
    · exact absurd (hsymm _ _ hs) (List.pairwise_iff_getElem.1 h.distinct k' k l' l hgt)
  have hex : ∀ m : Nat, ∃ i : Nat, m < uniq.length → ix[i]? = some m ∧ ∀ j < i, ∃ k < m, ix[j]? = some k := by
    intro m
    by_cases hm : m < uniq.length
    · obtain ⟨i, _, g1, g2⟩ := h.first m _ (List.getElem?_eq_getElem hm)
      exact ⟨i, fun _ => ⟨g1, g2⟩⟩
    · exact ⟨0, fun h => absurd h hm⟩
  choose f hf using hex
  have hb : b < points.length := (List.getElem?_eq_some_iff.1 hq).1
  have hcard := Finset.card_le_card_of_injOn (s := Finset.range uniq.length) (t := (Finset.range points.length).erase b) f (by
    intro m hm
    have hm' : m < uniq.length := by simpa using hm
    obtain ⟨g1, g2⟩ := hf m hm'
    have hlt : f m < points.length := by rw [← h.length]; exact (List.getElem?_eq_some_iff.1 g1).1
    simp only [Finset.coe_erase, Finset.coe_range, Set.mem_diff, Set.mem_Iio, Set.mem_singleton_iff]
    refine ⟨hlt, fun he => ?_⟩
    -- the second of two equal points is no first occurrence
    obtain ⟨ka, ra, e1, e2, e3⟩ := h.maps a p hp
    obtain ⟨kb, rb, e1', e2', e3'⟩ := h.maps b q hq
    have hk : ka = kb := hu e2 e2' (htrans _ _ _ e3 (htrans _ _ _ hs (hsymm _ _ e3')))
    rw [he, e1'] at g1
    have hkb : kb = m := Option.some.inj g1
    obtain ⟨k, f1, f2⟩ := g2 a (by omega)
    rw [e1] at f2
    have := Option.some.inj f2
    omega) (by
    intro m hm m' hm' he
    have h1 := (hf m (by simpa using hm)).1
    have h2 := (hf m' (by simpa using hm')).1
    rw [he, h2] at h1
    exact (Option.some.inj h1).symm)
  rw [Finset.card_range, Finset.card_erase_of_mem (by simpa using hb), Finset.card_range] at hcard
  omega

theorem mapM_mem {α β : Type} {f : α → Res β} : ∀ {l : List α} {r : List β}, l.mapM f = .ok r → ∀ y ∈ r, ∃ x ∈ l, f x = .ok y := by
  intro l
  induction l with
  | nil => intro r h y hy; simp only [List.mapM_nil] at h; cases h; cases hy
  | cons a l ih =>
    intro r h y hy
    rw [List.mapM_cons] at h
    cases ha : f a with
    | ub => rw [ha] at h; cases h
    | abort => rw [ha] at h; cases h
    | ok b =>
      rw [ha] at h
      cases hl : l.mapM f with
      | ub => rw [hl] at h; cases h
      | abort => rw [hl] at h; cases h
      | ok bs =>
        rw [hl] at h
        cases h
        rcases List.mem_cons.1 hy with rfl | hy
        · exact ⟨a, List.mem_cons_self, ha⟩
        · obtain ⟨x, hx, he⟩ := ih hl y hy
          exact ⟨x, List.mem_cons_of_mem _ hx, he⟩

open Classical in
/-- When two points have the same hash, the last point is not a corner of the result. -/
theorem collision_corners {plat : Points.Key → Nat → Points.Key} {dbg : Bool} {big eps dx : ℝ} (he : 0 < eps) {procs : List (List (V3 ℝ))} {points : List (V3 ℝ)} (hp : points ∈ procs)
    (hr : InRange3 big procs.flatten) {b : HBox3} (hb : IsBox3 procs.flatten b) {m n : Nat} (hmn : m < n) {p q : V3 ℝ} (hm : points[m]? = some p) (hn : points[n]? = some q)
    (hh : hashOf plat eps dx b p = hashOf plat eps dx b q) {r : Mesh.PLC} (h : convexHull3 (Points.wrapping plat) dbg big eps dx procs points = .ok r) :
    ∀ f ∈ r.facets, ∀ i ∈ f, 0 ≤ i ∧ i + 1 < (points.length : Int) := by
  have hsub : ∀ p ∈ points, p ∈ procs.flatten := fun p h => List.mem_flatten.2 ⟨points, hp, h⟩
  have h0 : points ≠ [] := by rintro rfl; cases hm
  rw [convexHull3_eq hr hb] at h
  by_cases hcase : dbg = true ∧ ¬ nested3 b b
  · obtain ⟨rfl, hnn⟩ := hcase
    have : uniquePoints3 (Points.wrapping plat) true eps dx b points = .abort := by
      obtain ⟨p, ps, rfl⟩ := List.exists_cons_of_ne_nil h0
      unfold uniquePoints3 uniqueLoop hashPosition3
      have : Res.assert true (nested3 b b) = .abort := by unfold Res.assert; simp [hnn]
      rw [this]; rfl
    rw [this] at h
    cases h
  · obtain ⟨uniq, ix, h1, h2⟩ := unique3_ok plat dbg (tol := dx) he (fun hd => not_not.1 fun h => hcase ⟨hd, h⟩) (points := points) fun p h => hb.inside p (hsub p h)
    rw [h1, Res.ok_bind] at h
    have hlt := FirstOf.length_lt h2 (fun a b h => h.symm) (fun a b c h h' => h.trans h') hmn hm hn hh
    cases hf : hullFacets realNum dbg uniq with
    | ub => rw [hf] at h; cases h
    | abort => rw [hf] at h; cases h
    | ok fs =>
      rw [hf, Res.ok_bind] at h
      cases hg : fs.mapM (outFacet ix) with
      | ub => rw [hg] at h; cases h
      | abort => rw [hg] at h; cases h
      | ok facets =>
        rw [hg, Res.ok_bind] at h
        cases h
        intro f hff i hi
        obtain ⟨t, ht, he⟩ := mapM_mem hg f hff
        obtain ⟨b1, b2, b3⟩ := hullFacets_inb hf t ht
        have hix : uniq.length ≤ ix.length := by rw [h2.length]; omega
        have b1' : t.i < ix.length := lt_of_lt_of_le b1 hix
        have b2' : t.j < ix.length := lt_of_lt_of_le b2 hix
        have b3' : t.k < ix.length := lt_of_lt_of_le b3 hix
        unfold outFacet at he
        rw [rd_lt b1', rd_lt b2', rd_lt b3'] at he
        cases he
        have k1 := FirstOf.ix_le h2 t.i _ (List.getElem?_eq_getElem b1')
        have k2 := FirstOf.ix_le h2 t.j _ (List.getElem?_eq_getElem b2')
        have k3 := FirstOf.ix_le h2 t.k _ (List.getElem?_eq_getElem b3')
        have b1 : t.i < uniq.length := b1
        have b2 : t.j < uniq.length := b2
        have b3 : t.k < uniq.length := b3
        simp only [List.mem_cons, List.not_mem_nil, or_false] at hi
        rcases hi with rfl | rfl | rfl <;> omega

end Verif.Hull3
