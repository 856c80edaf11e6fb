import Verif.Proofs.SimplifyPack
import Verif.Proofs.SimplifySeg
import Verif.Proofs.MeshQueries
import Verif.Proofs.Exchange
import Verif.Spec.Hash
import Mathlib.Data.List.NodupEquivFin
import Mathlib.Algebra.BigOperators.Fin
/- `simplifyPLCfacets` as a whole, after the points have been made unique. -/
namespace Verif.Simplify
open Verif Verif.Mesh Verif.Internal Verif.Geom Verif.Hash
section
variable {K : Type} [Field K]

theorem Side.fun {facets : List (List Int)} {pts : List (V2 K)} {k : Nat} {p q p' q' : V2 K} (h : Side facets pts k p q) (h' : Side facets pts k p' q') : p = p' ∧ q = q' := by
  obtain ⟨a, b, e, e1, e2⟩ := h
  obtain ⟨a', b', e', e1', e2'⟩ := h'
  rw [e] at e'
  simp only [Option.some.injEq, List.cons.injEq, Nat.cast_inj, and_true] at e'
  obtain ⟨rfl, rfl⟩ := e'
  rw [e1] at e1'; rw [e2] at e2'
  exact ⟨Option.some.inj e1', Option.some.inj e2'⟩

/-- The facets follow the corners `P`, which are numbered periodically: facet `O a` joins `P a` and `P (a + 1)`. -/
structure Around (facets : List (List Int)) (pts : List (V2 K)) (P : Int → V2 K) (O : Int → Nat) : Prop where
  three : 3 ≤ facets.length
  inj : ∀ a b, P a = P b ↔ (facets.length : Int) ∣ a - b
  oinj : ∀ a b, O a = O b ↔ (facets.length : Int) ∣ a - b
  joined : ∀ a, Joined facets pts (O a) (P a) (P (a + 1))

theorem ClosedPolygon.around {facets : List (List Int)} {pts : List (V2 K)} (h : ClosedPolygon facets pts) : ∃ P O, Around facets pts P O := by
  obtain ⟨h3, corner, order, c1, o1, he⟩ := h
  have hpos : 0 < facets.length := by omega
  have hlt : ∀ a : Int, (a % facets.length).toNat < facets.length := by
    intro a
    have := Int.emod_lt_of_pos a (show (0 : Int) < facets.length by omega)
    omega
  refine ⟨fun a => corner (a % facets.length).toNat, fun a => order (a % facets.length).toNat, h3, ?_, ?_, ?_⟩
  · intro a b
    rw [← emod_eq_iff hpos]
    exact ⟨c1 _ (hlt a) _ (hlt b), fun h => by rw [h]⟩
  · intro a b
    rw [← emod_eq_iff hpos]
    exact ⟨o1 _ (hlt a) _ (hlt b), fun h => by rw [h]⟩
  · intro a
    have h2 := he _ (hlt a)
    have hn : ((a % facets.length).toNat + 1) % facets.length = ((a + 1) % facets.length).toNat := by
      have h1 := Int.emod_nonneg a (show (facets.length : Int) ≠ 0 by omega)
      have h2 := Int.emod_nonneg (a + 1) (show (facets.length : Int) ≠ 0 by omega)
      apply Int.ofNat.inj
      show (((((a % facets.length).toNat + 1) % facets.length : Nat)) : Int) = _
      push_cast
      rw [Int.toNat_of_nonneg h1, Int.emod_add_emod]
      exact (Int.toNat_of_nonneg h2).symm
    rw [hn] at h2
    exact h2

namespace Around
variable {facets : List (List Int)} {pts : List (V2 K)} {P : Int → V2 K} {O : Int → Nat}

theorem olt (h : Around facets pts P O) (a : Int) : O a < facets.length := by
  rcases h.joined a with ⟨x, y, e, _⟩ | ⟨x, y, e, _⟩ <;> exact (List.getElem?_eq_some_iff.1 e).1

theorem perm_range (h : Around facets pts P O) : ((List.range facets.length).map fun (k : Nat) => O k).Perm (List.range facets.length) := by
  have hnd : ((List.range facets.length).map fun (k : Nat) => O k).Nodup := by
    apply List.Nodup.map_on _ List.nodup_range
    intro x hx y hy hxy
    simp only [List.mem_range] at hx hy
    have := dvd_small ((h.oinj _ _).1 hxy) (by omega) (by omega)
    omega
  refine (List.Subperm.perm_of_length_le (hnd.subperm ?_) (by simp))
  intro x hx
  obtain ⟨k, _, rfl⟩ := List.mem_map.1 hx
  exact List.mem_range.2 (h.olt k)

theorem surj (h : Around facets pts P O) {i : Nat} (hi : i < facets.length) : ∃ k : Nat, k < facets.length ∧ O k = i := by
  have := h.perm_range.mem_iff.2 (List.mem_range.2 hi)
  obtain ⟨k, hk, rfl⟩ := List.mem_map.1 this
  exact ⟨k, by simpa using hk, rfl⟩

theorem of_joined (h : Around facets pts P O) {k : Nat} {p q : V2 K} (hj : Joined facets pts k p q) : ∃ a, k = O a ∧ ((p = P a ∧ q = P (a + 1)) ∨ (p = P (a + 1) ∧ q = P a)) := by
  have hk : k < facets.length := by rcases hj with ⟨x, y, e, _⟩ | ⟨x, y, e, _⟩ <;> exact (List.getElem?_eq_some_iff.1 e).1
  obtain ⟨a, _, rfl⟩ := h.surj hk
  refine ⟨a, rfl, ?_⟩
  rcases hj with hj | hj <;> rcases h.joined a with h' | h' <;> obtain ⟨rfl, rfl⟩ := hj.fun h' <;> simp

theorem eq_mod (h : Around facets pts P O) {a b : Int} (hd : (facets.length : Int) ∣ a - b) (c : Int) : P (a + c) = P (b + c) :=
  (h.inj _ _).2 (by rw [show a + c - (b + c) = a - b by omega]; exact hd)

theorem turnsAt_iff (h : Around facets pts P O) (q : V2 K) : TurnsAt facets pts q ↔ ∃ a, q = P a ∧ Ring.Turn P a := by
  constructor
  · rintro ⟨k, l, p, s, hkl, h1, h2, ha⟩
    obtain ⟨a, rfl, e1⟩ := h.of_joined h1
    obtain ⟨b, rfl, e2⟩ := h.of_joined h2
    have hab : ¬ (facets.length : Int) ∣ a - b := fun hd => hkl ((h.oinj _ _).2 hd)
    rcases e1 with ⟨rfl, rfl⟩ | ⟨rfl, rfl⟩ <;> rcases e2 with ⟨e2, rfl⟩ | ⟨e2, rfl⟩
    · have hd := (h.inj _ _).1 e2
      refine ⟨a + 1, rfl, ?_⟩
      unfold Ring.Turn
      rw [show a + 1 - 1 = a by omega, show P (a + 1 + 1) = P (b + 1) from h.eq_mod hd 1]
      exact ha
    · exact absurd ((h.inj _ _).1 e2) (by rw [show a + 1 - (b + 1) = a - b by omega]; exact hab)
    · exact absurd ((h.inj _ _).1 e2) hab
    · have hd := (h.inj _ _).1 e2
      refine ⟨a, rfl, ?_⟩
      intro hz
      apply ha
      rw [show P b = P (a - 1) from (h.inj _ _).2 (by
        obtain ⟨c, hc⟩ := hd
        exact ⟨-c, by rw [Int.mul_neg]; omega⟩)]
      simp only [area2] at hz ⊢
      linear_combination -hz
  · rintro ⟨a, rfl, ha⟩
    refine ⟨O (a - 1), O a, P (a - 1), P (a + 1), ?_, ?_, h.joined a, ha⟩
    · intro e
      have h3 := h.three
      have := dvd_small ((h.oinj _ _).1 e) (by omega) (by omega)
      omega
    · have := h.joined (a - 1)
      rwa [show a - 1 + 1 = a by omega] at this

theorem ring (h : Around facets pts P O) (ht : ∃ q, TurnsAt facets pts q) : Ring facets.length P := by
  refine ⟨h.three, h.inj, ?_⟩
  obtain ⟨q, hq⟩ := ht
  obtain ⟨a, _, ha⟩ := (h.turnsAt_iff q).1 hq
  exact ⟨a, ha⟩

theorem onFacets_iff [LinearOrder K] [IsStrictOrderedRing K] (h : Around facets pts P O) (x : V2 K) : OnFacets facets pts x ↔ ∃ a, OnSeg (P a) (P (a + 1)) x := by
  constructor
  · rintro ⟨k, p, q, hs, hx⟩
    obtain ⟨a, _, ⟨rfl, rfl⟩ | ⟨rfl, rfl⟩⟩ := h.of_joined (Or.inl hs)
    · exact ⟨a, hx⟩
    · exact ⟨a, onSeg_symm hx⟩
  · rintro ⟨a, hx⟩
    rcases h.joined a with hs | hs
    · exact ⟨_, _, _, hs, hx⟩
    · exact ⟨_, _, _, hs, onSeg_symm hx⟩

theorem noSpikes [LinearOrder K] [IsStrictOrderedRing K] (h : Around facets pts P O) (hs : NoSpikes facets pts) (j : Int) (hj : ¬ Ring.Turn P j) :
    dot2 (P (j - 1) - P j) (P (j + 1) - P j) < 0 := by
  refine hs (O (j - 1)) (O j) (P (j - 1)) (P j) (P (j + 1)) ?_ ?_ (h.joined j) (not_not.1 hj)
  · intro e
    have h3 := h.three
    have := dvd_small ((h.oinj _ _).1 e) (by omega) (by omega)
    omega
  · have := h.joined (j - 1)
    rwa [show j - 1 + 1 = j by omega] at this

end Around

theorem Before.asymm {α : Type} {l : List α} {p q : α} (h : Before l p q) : ¬ Before l q p := by
  rintro ⟨i, h1, h2⟩
  obtain ⟨j, g1, g2⟩ := h
  rcases Nat.le_total i j with e | e
  · exact g2 i e h1
  · exact h2 j e g1

/-- A list reduced to the first of equal entries is a sublist. -/
theorem firstOf_sublist {α : Type} {points uniq : List α} {ix : List Nat} (h : FirstOf (· = ·) points uniq ix) : uniq.Sublist points := by
  classical
  have hex : ∀ k : Nat, ∃ i : Nat, uniq[k]? = points[i]? ∧ (k < uniq.length → ix[i]? = some k ∧ ∀ j : Nat, j < i → ∃ k' < k, ix[j]? = some k') ∧ (uniq.length ≤ k → i = points.length + k) := by
    intro k
    rcases Nat.lt_or_ge k uniq.length with hk | hk
    · obtain ⟨i, h1, h2, h3⟩ := h.first k uniq[k] (by simp [hk])
      exact ⟨i, by rw [h1]; simp [hk], fun _ => ⟨h2, h3⟩, fun h => by omega⟩
    · exact ⟨points.length + k, by rw [List.getElem?_eq_none hk, List.getElem?_eq_none (by omega)], fun h => by omega, fun _ => rfl⟩
  choose f f1 f2 f3 using hex
  have hlen : ∀ k, k < uniq.length → f k < points.length := by
    intro k hk
    by_contra hc
    have := f1 k
    rw [List.getElem?_eq_none (by omega : points.length ≤ f k)] at this
    simp at this; omega
  have hmono : StrictMono f := by
    intro a b hab
    rcases Nat.lt_or_ge b uniq.length with hb | hb
    · obtain ⟨a1, a2⟩ := f2 a (by omega)
      obtain ⟨b1, b2⟩ := f2 b hb
      by_contra hc
      rcases Nat.lt_or_ge (f b) (f a) with e | e
      · obtain ⟨k', h1, h2⟩ := a2 _ e
        rw [b1] at h2; cases h2; omega
      · have : f a = f b := by omega
        rw [this, b1] at a1; cases a1; omega
    · rw [f3 b hb]
      rcases Nat.lt_or_ge a uniq.length with ha | ha
      · have := hlen a ha; omega
      · rw [f3 a ha]; omega
  exact List.sublist_of_orderEmbedding_getElem?_eq (OrderEmbedding.ofStrictMono f hmono) f1

/-- Equal entries of the reduced list are at one place. -/
theorem firstOf_inj {α : Type} {points uniq : List α} {ix : List Nat} (h : FirstOf (· = ·) points uniq ix) {k l : Nat} {p : α} (hk : uniq[k]? = some p) (hl : uniq[l]? = some p) : k = l := by
  obtain ⟨h1, e1⟩ := List.getElem?_eq_some_iff.1 hk
  obtain ⟨h2, e2⟩ := List.getElem?_eq_some_iff.1 hl
  have := List.pairwise_iff_getElem.1 h.distinct
  rcases Nat.lt_trichotomy k l with e | e | e
  · exact absurd (e1.trans e2.symm) (this k l h1 h2 e)
  · exact e
  · exact absurd (e2.trans e1.symm) (this l k h2 h1 e)

theorem firstOf_before {α : Type} {points uniq : List α} {ix : List Nat} (h : FirstOf (· = ·) points uniq ix) {k l : Nat} (hkl : k < l) {p q : α} (hk : uniq[k]? = some p) (hl : uniq[l]? = some q) :
    Before points p q := by
  obtain ⟨i, h1, h2, h3⟩ := h.first k p hk
  refine ⟨i, h1, ?_⟩
  intro j hj hq
  obtain ⟨m, r, e1, e2, e3⟩ := h.maps j q hq
  subst e3
  have hm := firstOf_inj h e2 hl
  subst hm
  rcases Nat.lt_or_ge j i with e | e
  · obtain ⟨k', g1, g2⟩ := h3 j e
    rw [e1] at g2; cases g2; omega
  · have : j = i := by omega
    subst this
    rw [e1] at h2; cases h2; omega

/-- What the hashed edge `e` of facet `i` is. -/
def Entry (facets : List (List Int)) (points uniq : List (V2 K)) (ix : List Nat) (i : Nat) (e : Edge) : Prop :=
  ∃ (x y k l : Nat) (p q : V2 K), facets[i]? = some [(x : Int), (y : Int)] ∧ points[x]? = some p ∧ points[y]? = some q ∧ ix[x]? = some k ∧ ix[y]? = some l ∧
    uniq[k]? = some p ∧ uniq[l]? = some q ∧ p ≠ q ∧ e = if (k : Int) < l then ((k : Int), (l : Int)) else ((l : Int), (k : Int))

variable {facets : List (List Int)} {points uniq : List (V2 K)} {ix : List Nat} {P : Int → V2 K} {O : Int → Nat}

theorem inputEdge_ok (dbg : Bool) (hf : FirstOf (· = ·) points uniq ix) {i : Nat} {p q : V2 K} (hs : Side facets points i p q) (hne : p ≠ q) :
    ∃ f e, facets[i]? = some f ∧ inputEdge dbg ix f = .ok e ∧ Entry facets points uniq ix i e := by
  obtain ⟨x, y, e0, e1, e2⟩ := hs
  obtain ⟨k, r, k1, k2, k3⟩ := hf.maps x p e1
  obtain ⟨l, r', l1, l2, l3⟩ := hf.maps y q e2
  subst k3 l3
  have hkl : k ≠ l := by
    rintro rfl
    rw [k2] at l2
    exact hne (Option.some.inj l2)
  refine ⟨_, _, e0, ?_, x, y, k, l, r, r', e0, e1, e2, k1, l1, k2, l2, hne, rfl⟩
  simp only [inputEdge, Res.bind_eq]
  rw [Res.assert_true dbg (by simp)]
  simp only [Res.bind_ok, rd, List.getElem?_cons_zero, List.getElem?_cons_succ, rdi, Int.natCast_nonneg, if_true, Int.toNat_natCast, k1, l1, hashEdge, Res.bind_eq]
  rw [Res.assert_true dbg (by exact_mod_cast hkl)]
  rfl

theorem edges_ok (dbg : Bool) (hf : FirstOf (· = ·) points uniq ix) (ha : Around facets points P O) :
    ∃ edges, facets.mapM (inputEdge dbg ix) = .ok edges ∧ edges.length = facets.length ∧ ∀ i e, edges[i]? = some e → Entry facets points uniq ix i e := by
  have hne : ∀ a, P a ≠ P (a + 1) := by
    intro a e
    have h3 := ha.three
    have := dvd_small ((ha.inj _ _).1 e) (by omega) (by omega)
    omega
  have key : ∀ i, i < facets.length → ∃ f e, facets[i]? = some f ∧ inputEdge dbg ix f = .ok e ∧ Entry facets points uniq ix i e := by
    intro i hi
    obtain ⟨a, _, rfl⟩ := ha.surj hi
    rcases ha.joined a with hs | hs
    · exact inputEdge_ok dbg hf hs (hne a)
    · exact inputEdge_ok dbg hf hs (hne a).symm
  obtain ⟨edges, h1, h2, h3⟩ := mapM_spec (g := inputEdge dbg ix) (P := fun f e => inputEdge dbg ix f = .ok e) facets (fun f hfm => by
    obtain ⟨i, hi⟩ := List.getElem?_of_mem hfm
    obtain ⟨f', e, g1, g2, _⟩ := key i (List.getElem?_eq_some_iff.1 hi).1
    rw [hi] at g1; cases g1
    exact ⟨e, g2, g2⟩)
  refine ⟨edges, h1, h2, ?_⟩
  intro i e he
  obtain ⟨hi, rfl⟩ := List.getElem?_eq_some_iff.1 he
  obtain ⟨f', e, g1, g2, g3⟩ := key i (by omega)
  have := h3 i (by omega) hi
  have hf' : facets[i] = f' := by
    rw [List.getElem?_eq_getElem (by omega)] at g1
    exact Option.some.inj g1
  rw [hf', g2] at this
  rw [← Res.ok.inj this]
  exact g3

theorem Entry.joins {i : Nat} {e : Edge} (h : Entry facets points uniq ix i e) : ∃ (k l : Nat) (p q : V2 K), uniq[k]? = some p ∧ uniq[l]? = some q ∧ e = ((k : Int), (l : Int)) ∧ k < l ∧
    Joined facets points i p q := by
  obtain ⟨x, y, k, l, p, q, e0, e1, e2, k1, l1, k2, l2, hne, rfl⟩ := h
  by_cases hkl : (k : Int) < l
  · exact ⟨k, l, p, q, k2, l2, by rw [if_pos hkl], by omega, Or.inl ⟨x, y, e0, e1, e2⟩⟩
  · refine ⟨l, k, q, p, l2, k2, by rw [if_neg hkl], ?_, Or.inr ⟨x, y, e0, e1, e2⟩⟩
    have : k ≠ l := by
      rintro rfl
      rw [k2] at l2
      exact hne (Option.some.inj l2)
    omega

/-- The walk starts with the first facet, in the direction in which its ends occur among the points. -/
theorem cyc_ok (hf : FirstOf (· = ·) points uniq ix) (ha : Around facets points P O) {edges : List Edge} (hl : edges.length = facets.length)
    (he : ∀ i e, edges[i]? = some e → Entry facets points uniq ix i e) :
    ∃ v p Q, Cyc edges v p ∧ p 0 = 0 ∧ edges[0]? = some (v 0, v 1) ∧ (∀ a, 0 ≤ v a ∧ uniq[(v a).toNat]? = some (Q a)) ∧ Around facets points Q p ∧ Before points (Q 0) (Q 1) := by
  have hP : ∀ a, ∃ k : Nat, uniq[k]? = some (P a) := by
    intro a
    have : ∃ x : Nat, points[x]? = some (P a) := by
      rcases ha.joined a with ⟨x, y, _, h1, h2⟩ | ⟨x, y, _, h1, h2⟩
      · exact ⟨x, h1⟩
      · exact ⟨y, h2⟩
    obtain ⟨x, hx⟩ := this
    obtain ⟨k, r, _, k2, k3⟩ := hf.maps x _ hx
    exact ⟨k, by rw [k2, k3]⟩
  choose w hw using hP
  have hwinj : ∀ a b, w a = w b ↔ P a = P b := by
    intro a b
    constructor
    · intro e
      have := hw a
      rw [e, hw b] at this
      exact (Option.some.inj this).symm
    · intro e
      have := hw a
      rw [e] at this
      exact firstOf_inj hf this (hw b)
  have hc : Cyc edges (fun a => (w a : Int)) O := by
    refine ⟨by rw [hl]; exact ha.three, ?_, ?_, ?_⟩
    · intro a b
      rw [hl, ← ha.inj, ← hwinj, Nat.cast_inj]
    · intro a b
      rw [hl]; exact ha.oinj a b
    · intro a
      have hi : O a < edges.length := by rw [hl]; exact ha.olt a
      refine ⟨edges[O a], by simp [hi], ?_⟩
      obtain ⟨k, l, p, q, k1, l1, e, _, hj⟩ := (he (O a) edges[O a] (by simp [hi])).joins
      rw [e]
      have hor : (p = P a ∧ q = P (a + 1)) ∨ (p = P (a + 1) ∧ q = P a) := by
        rcases hj with hj | hj <;> rcases ha.joined a with h' | h' <;> obtain ⟨rfl, rfl⟩ := hj.fun h' <;> simp
      rcases hor with ⟨rfl, rfl⟩ | ⟨rfl, rfl⟩
      · rw [firstOf_inj hf k1 (hw a), firstOf_inj hf l1 (hw (a + 1))]
        exact Or.inl rfl
      · rw [firstOf_inj hf l1 (hw a), firstOf_inj hf k1 (hw (a + 1))]
        exact Or.inr rfl
  obtain ⟨v, p, h1, h2, h3⟩ := hc.normal
  have hv : ∀ a, ∃ (k : Nat) (q : V2 K), v a = (k : Int) ∧ uniq[k]? = some q := by
    intro a
    obtain ⟨e, e1, e2⟩ := h1.edge a
    obtain ⟨k, l, x, y, k1, l1, rfl, _, _⟩ := (he _ _ e1).joins
    rcases e2 with e2 | e2 <;> simp only [Prod.mk.injEq] at e2
    · exact ⟨k, x, e2.1.symm, k1⟩
    · exact ⟨l, y, e2.2.symm, l1⟩
  choose m Q hm hQ using hv
  have hQinj : ∀ a b, Q a = Q b ↔ v a = v b := by
    intro a b
    rw [hm, hm, Nat.cast_inj]
    constructor
    · intro e
      have := hQ a
      rw [e] at this
      exact firstOf_inj hf this (hQ b)
    · intro e
      have := hQ a
      rw [e, hQ b] at this
      exact (Option.some.inj this).symm
  refine ⟨v, p, Q, h1, h2, h3, ?_, ⟨ha.three, ?_, ?_, ?_⟩, ?_⟩
  · intro a
    rw [hm]
    exact ⟨by omega, by simpa using hQ a⟩
  · intro a b
    rw [hQinj, h1.vinj, hl]
  · intro a b
    rw [h1.pinj, hl]
  · intro a
    obtain ⟨e, e1, e2⟩ := h1.edge a
    obtain ⟨k, l, x, y, k1, l1, rfl, _, hj⟩ := (he _ _ e1).joins
    have g0 := hQ a
    have g1 := hQ (a + 1)
    rcases e2 with e2 | e2 <;> simp only [Prod.mk.injEq] at e2
    · have i1 : k = m a := by have := e2.1; rw [hm] at this; exact_mod_cast this
      have i2 : l = m (a + 1) := by have := e2.2; rw [hm] at this; exact_mod_cast this
      rw [← i1, k1] at g0; rw [← i2, l1] at g1
      rw [← Option.some.inj g0, ← Option.some.inj g1]
      exact hj
    · have i1 : k = m (a + 1) := by have := e2.1; rw [hm] at this; exact_mod_cast this
      have i2 : l = m a := by have := e2.2; rw [hm] at this; exact_mod_cast this
      rw [← i1, k1] at g1; rw [← i2, l1] at g0
      rw [← Option.some.inj g0, ← Option.some.inj g1]
      exact hj.symm
  · obtain ⟨k, l, x, y, k1, l1, e2, hkl, hj⟩ := (he _ _ h3).joins
    have g0 := hQ 0
    have g1 := hQ 1
    simp only [Prod.mk.injEq] at e2
    have i1 : k = m 0 := by have := e2.1; rw [hm] at this; exact_mod_cast this.symm
    have i2 : l = m 1 := by have := e2.2; rw [hm] at this; exact_mod_cast this.symm
    subst i1 i2
    exact firstOf_before hf hkl g0 g1

theorem orderedEdge_ok {edges : List Edge} {v : Int → Int} {p : Int → Nat} (h : Cyc edges v p) :
    (List.range edges.length).mapM (orderedEdge edges (Cyc.loop edges v p)) = .ok ((List.range edges.length).map fun (i : Nat) => (v i, v (i + 1))) := by
  apply Exch.mapM_pure
  intro i hi
  rw [List.mem_range] at hi
  have h1 : (Cyc.loop edges v p)[i]? = some (Cyc.sgnd edges v p i) := by
    simp [Cyc.loop, hi]
  simp only [orderedEdge, Res.bind_eq, rd_eq_ok.2 h1, Res.bind_ok, Res.pure_eq]
  obtain ⟨e, he, hj⟩ := h.edge i
  unfold Cyc.sgnd
  by_cases hc : edges[p i]? = some (v i, v (i + 1))
  · rw [if_pos hc]
    have : posID (p i : Int) = p i := by simp [posID]
    rw [this, rd_eq_ok.2 hc, Res.bind_ok, if_neg (by omega)]
  · rw [if_neg hc]
    rcases hj with rfl | rfl
    · exact absurd he hc
    · have : posID (flip (p i : Int)) = p i := by
        unfold posID flip
        rw [if_neg (by omega)]
        omega
      rw [this, rd_eq_ok.2 he, Res.bind_ok, if_pos (by unfold flip; omega)]

/-- What `simplifyPLCfacets` returns, in terms of the corners `P` of the input. -/
structure Outcome (facets : List (List Int)) (points : List (V2 K)) (r : Plc (V2 K)) (P : Int → V2 K) (O : Int → Nat) (v : Int → Int) (new : List Edge) (f : Nat → Int) : Prop where
  tour : Tour facets.length P v new f
  around : Around facets points P O
  holes : r.holes = []
  len : r.facets.length = new.length
  side : ∀ t, t < new.length → Side r.facets r.points t (P (f t)) (P (f (t + 1)))
  mem : ∀ q, q ∈ r.points ↔ ∃ t, t < new.length ∧ q = P (f t)
  sub : r.points.Sublist points
  nodup : r.points.Nodup
  start : ∃ s : Nat, f 0 = s
  zero : O 0 = 0
  before : Before points (P 0) (P 1)

theorem simplifyWith_ok (dbg : Bool) {coll : V2 K → V2 K → V2 K → Bool} (hf : FirstOf (· = ·) points uniq ix) (hc : ClosedPolygon facets points) (ht : ∃ q, TurnsAt facets points q)
    (htest : ∀ k p q, Joined facets points k p q → ∀ l r s, Joined facets points l r s → (coll p q r = true ↔ area2 p q r = 0)) :
    ∃ r P O v new f, simplifyWith coll dbg facets uniq ix = .ok r ∧ Outcome facets points r P O v new f := by
  obtain ⟨P0, O0, ha0⟩ := hc.around
  obtain ⟨edges, m1, m2, m3⟩ := edges_ok dbg hf ha0
  obtain ⟨v, O, P, c1, c2, c3, c4, ha, hb⟩ := cyc_ok hf ha0 m2 m3
  have hw : Walked facets.length P v coll uniq ((List.range edges.length).map fun (i : Nat) => (v i, v (i + 1))) := by
    refine ⟨ha.ring ht, ?_, ?_, c4, ?_⟩
    · intro a b hd
      rw [c1.vinj, m2]; exact hd
    · intro i hi
      rw [← m2] at hi
      simp [hi]
    · intro i j
      rw [htest _ _ _ (ha.joined i) _ _ _ (ha.joined j)]
      rfl
  obtain ⟨j, j1, j2⟩ := hw.ring.exists_turn
  obtain ⟨s, s1, s2, s3⟩ := hw.findStart_eq facets.length 0 (by omega) ⟨j, by omega, j1, j2⟩
  obtain ⟨new, n1, n2⟩ := hw.walk_eq s2 facets.length 0 (by omega) (by omega)
  rw [Nat.cast_zero, add_zero] at n2
  obtain ⟨f, f1, f2, f3⟩ := n2.kept
  have tour : Tour facets.length P v new f := ⟨hw.ring, f3, by rw [f2, f1], by rw [f1]; exact s2⟩
  have h3 := tour.three
  have hget : ∀ t, t < new.length → new[t]? = some (v (f t), v (f (t + 1))) := f3.facet
  have hrange : ∀ a, 0 ≤ v a ∧ v a < uniq.length := by
    intro a
    obtain ⟨a1, a2⟩ := c4 a
    have := (List.getElem?_eq_some_iff.1 a2).1
    exact ⟨a1, by omega⟩
  have hmask := useMask_eq (n := uniq.length) (fs := new) (by
    intro e he
    obtain ⟨t, ht⟩ := List.getElem?_of_mem he
    rw [hget t (List.getElem?_eq_some_iff.1 ht).1] at ht
    cases ht
    exact ⟨hrange _, hrange _⟩)
  obtain ⟨pts', p1, p2⟩ := compact_spec dbg (usedBy new uniq.length) 0 0 uniq (by omega) (by simp [usedBy])
  simp only [List.take_zero, List.nil_append, List.drop_zero] at p2
  -- the flag of a kept corner
  have hflag : ∀ t, t ≤ new.length → (usedBy new uniq.length)[(v (f t)).toNat]? = some true := by
    intro t ht
    rw [usedBy_true]
    have hr := hrange (f t)
    refine ⟨by omega, ?_⟩
    rcases Nat.lt_or_ge t new.length with e | e
    · exact ⟨_, List.mem_of_getElem? (hget t e), Or.inl (by rw [Int.toNat_of_nonneg hr.1])⟩
    · have : t = (t - 1) + 1 := by omega
      refine ⟨_, List.mem_of_getElem? (hget (t - 1) (by omega)), Or.inr ?_⟩
      dsimp only
      rw [← this, Int.toNat_of_nonneg hr.1]
  have hren : ∀ t, t ≤ new.length → renumber dbg (number (maskOf (usedBy new uniq.length)) 0).1 (v (f t)) = .ok ((rank (usedBy new uniq.length) (v (f t)).toNat : Nat) : Int) := by
    intro t ht
    have := renumber_eq dbg (hflag t ht)
    rwa [Int.toNat_of_nonneg (hrange _).1] at this
  have hkeep : ∀ t, t ≤ new.length → (keep uniq (usedBy new uniq.length))[rank (usedBy new uniq.length) (v (f t)).toNat]? = some (P (f t)) :=
    fun t ht => keep_get _ _ _ _ (c4 (f t)).2 (hflag t ht)
  have hfs := Exch.mapM_pure (g := fun (e : Edge) => do
      let a ← renumber dbg (number (maskOf (usedBy new uniq.length)) 0).1 e.1
      let b ← renumber dbg (number (maskOf (usedBy new uniq.length)) 0).1 e.2
      return [a, b])
    (f := fun e => [((rank (usedBy new uniq.length) e.1.toNat : Nat) : Int), ((rank (usedBy new uniq.length) e.2.toNat : Nat) : Int)]) new (by
      intro e he
      obtain ⟨t, ht⟩ := List.getElem?_of_mem he
      have htl := (List.getElem?_eq_some_iff.1 ht).1
      rw [hget t htl] at ht
      cases ht
      simp only [Res.bind_eq, hren t (by omega), hren (t + 1) (by omega), Res.bind_ok, Res.pure_eq])
  refine ⟨{ facets := new.map fun e => [((rank (usedBy new uniq.length) e.1.toNat : Nat) : Int), ((rank (usedBy new uniq.length) e.2.toNat : Nat) : Int)],
            points := keep uniq (usedBy new uniq.length) }, P, O, v, new, f, ?_, tour, ha, rfl, by simp, ?_, ?_, ?_, ?_, ⟨s, f1⟩, c2, hb⟩
  · have ho := orderedEdge_ok c1
    rw [m2] at ho
    rw [m2] at s3 n1
    simp only [simplifyWith, Res.bind_eq, m1, Res.bind_ok, c1.closed_loop dbg c2 c3]
    rw [Res.assert_true dbg m2, Res.bind_ok, ho, Res.bind_ok, s3, Res.bind_ok, Res.assert_true dbg (by omega), Res.bind_ok, n1, Res.bind_ok, Res.assert_true dbg (by omega), Res.bind_ok, hmask, Res.bind_ok,
      p1, Res.bind_ok]
    simp only [Res.bind_eq] at hfs
    rw [hfs, Res.bind_ok, p2]
    rfl
  · intro t ht
    exact ⟨_, _, by simp [hget t ht], hkeep t (by omega), hkeep (t + 1) (by omega)⟩
  · intro q
    constructor
    · intro hq
      obtain ⟨i, i1, i2⟩ := keep_mem _ _ _ hq
      obtain ⟨_, e, he, hor⟩ := usedBy_true.1 i2
      obtain ⟨t, ht⟩ := List.getElem?_of_mem he
      have htl := (List.getElem?_eq_some_iff.1 ht).1
      rw [hget t htl] at ht
      cases ht
      have key : ∀ a, v a = i → q = P a := by
        intro a hi
        have := (c4 a).2
        rw [hi, Int.toNat_natCast, i1] at this
        exact Option.some.inj this
      rcases hor with hi | hi
      · exact ⟨t, htl, key _ hi⟩
      · rcases Nat.lt_or_ge (t + 1) new.length with e | e
        · exact ⟨t + 1, e, key _ hi⟩
        · refine ⟨0, by omega, ?_⟩
          rw [← tour.last, show new.length = t + 1 by omega]
          exact key _ hi
    · rintro ⟨t, ht, rfl⟩
      exact List.mem_of_getElem? (hkeep t (by omega))
  · exact (keep_sublist _ _).trans (firstOf_sublist hf)
  · exact List.Nodup.sublist (keep_sublist _ _) hf.distinct
end
end Verif.Simplify
