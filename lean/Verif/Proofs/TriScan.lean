import Verif.Model.Triangle
import Verif.Spec.Triangle
import Verif.Proofs.Polygon
import Mathlib.Tactic.Common
import Mathlib.Data.List.Nodup
/- The tables that the scan of the triangles builds. -/
namespace Verif.Tri
open Verif Verif.Mesh Verif.Internal Verif.Geom Verif.Readout

/-- The numbers of the triangles that satisfy `P`, in increasing order. -/
def inc (T : List Tri3) (P : Tri3 → Bool) : List Nat := (T.zipIdx.filter fun x => P x.1).map Prod.snd

theorem inc_append (T : List Tri3) (t : Tri3) (P : Tri3 → Bool) : inc (T ++ [t]) P = inc T P ++ if P t then [T.length] else [] := by
  unfold inc
  rw [List.zipIdx_append, List.filter_append, List.map_append]
  by_cases h : P t <;> simp [h]

theorem mem_inc {T : List Tri3} {P : Tri3 → Bool} {k : Nat} : k ∈ inc T P ↔ ∃ t, T[k]? = some t ∧ P t = true := by
  unfold inc
  rw [List.mem_map]
  constructor
  · rintro ⟨⟨t, j⟩, h, rfl⟩
    obtain ⟨h, h2⟩ := List.mem_filter.1 h
    exact ⟨t, List.mk_mem_zipIdx_iff_getElem?.1 h, h2⟩
  · rintro ⟨t, h, h2⟩; exact ⟨(t, k), List.mem_filter.2 ⟨List.mk_mem_zipIdx_iff_getElem?.2 h, h2⟩, rfl⟩

theorem inc_lt {T : List Tri3} {P : Tri3 → Bool} {k : Nat} (h : k ∈ inc T P) : k < T.length := by
  obtain ⟨t, h, _⟩ := mem_inc.1 h
  exact (List.getElem?_eq_some_iff.1 h).1

theorem inc_sorted (T : List Tri3) (P : Tri3 → Bool) : (inc T P).Pairwise (· < ·) := by
  unfold inc
  have h : (T.zipIdx.map Prod.snd).Pairwise (· < ·) := by
    rw [List.zipIdx_map_snd]; exact List.pairwise_lt_range'
  exact List.Pairwise.sublist (List.Sublist.map _ List.filter_sublist) h

/-- The tables after the triangles before `i`: `T` are the triangles that were entered, `C` their centres and `K` their numbers. -/
structure Tab (total len i : Nat) (K : List Nat) (T : List Tri3) (C : List P2) (s : TriS) : Prop where
  lenK : K.length = T.length
  lenC : C.length = T.length
  Ksorted : K.Pairwise (· < ·)
  Klt : ∀ x ∈ K, x < i
  nodes : s.nodes = C
  glen : s.gen2tri.length = total
  gen : ∀ g, g < total → s.gen2tri.getD g [] = (inc T fun t => decide (g ∈ corners t)).map fun k => K.getD k 0
  dedge : ∀ e, s.dedge e = (inc T fun t => decide (e ∈ ekeys t)).map fun k => K.getD k 0
  idlen : s.tri2id.length = len
  id : ∀ k, k < T.length → s.tri2id[K.getD k 0]? = some (k : Int)
  noid : ∀ j, j < len → j ∉ K → s.tri2id[j]? = some (-1)
  genslen : s.tri2gens.length = len
  gens : ∀ (k : Nat) (t : Tri3), T[k]? = some t → s.tri2gens[K.getD k 0]? = some t

theorem hashEdge_ne (dbg : Bool) {a b : Nat} (h : a ≠ b) : hashEdge dbg a b = .ok (ekey a b) := by
  unfold hashEdge ekey
  rw [Res.assert_true dbg (by omega), Res.ok_bind]; rfl

theorem ekey_eq {a b c d : Nat} : ekey a b = ekey c d ↔ (a = c ∧ b = d) ∨ (a = d ∧ b = c) := by
  unfold ekey
  split <;> split <;> simp only [Prod.mk.injEq] <;> omega

/-- Corners of a triangle are three different points. -/
def Proper (t : Tri3) : Prop := t.1 ≠ t.2.1 ∧ t.1 ≠ t.2.2 ∧ t.2.1 ≠ t.2.2

theorem mem_ekeys {t : Tri3} {p g : Nat} (hne : p ≠ g) : ekey p g ∈ ekeys t ↔ p ∈ corners t ∧ g ∈ corners t := by
  obtain ⟨a, b, c⟩ := t
  simp only [ekeys, corners, List.mem_cons, List.not_mem_nil, or_false, ekey_eq]
  omega

theorem addTri_spec {l : List (List Nat)} {g i : Nat} (hg : g < l.length) (hi : i ∉ l.getD g []) : addTri l g i = .ok (l.set g (l.getD g [] ++ [i])) := by
  have e : l[g] = l.getD g [] := by simp [List.getD, hg]
  unfold addTri
  rw [rd_lt hg, Res.ok_bind, e, if_neg hi, wr_lt hg]

theorem getD_set {α : Type} {l : List α} {a b : Nat} {v d : α} (ha : a < l.length) : (l.set a v).getD b d = if b = a then v else l.getD b d := by
  by_cases h : b = a
  · subst h; simp [List.getD, ha]
  · simp [List.getD, h, List.getElem?_set_ne (Ne.symm h)]

theorem map_getD_append {l K : List Nat} {i : Nat} (h : ∀ k ∈ l, k < K.length) : l.map (fun k => (K ++ [i]).getD k 0) = l.map fun k => K.getD k 0 := by
  apply List.map_congr_left
  intro k hk
  simp [List.getD, List.getElem?_append_left (h k hk)]

theorem store_spec (dbg : Bool) {total len i : Nat} {K : List Nat} {T : List Tri3} {C : List P2} {s : TriS} (h : Tab total len i K T C s) {t : Tri3} {c : P2} (hp : Proper t)
    (hlt : ∀ g ∈ corners t, g < total) (hi : i < len) : ∃ s', triStore dbg i t c s = .ok s' ∧ Tab total len (i + 1) (K ++ [i]) (T ++ [t]) (C ++ [c]) s' := by
  obtain ⟨a, b, d⟩ := t
  obtain ⟨h1, h2, h3⟩ := hp
  dsimp only at h1 h2 h3
  simp only [corners, List.mem_cons, List.not_mem_nil, or_false, forall_eq_or_imp, forall_eq] at hlt
  obtain ⟨la, lb, ld⟩ := hlt
  have hKT : ∀ {P : Tri3 → Bool}, ∀ k ∈ inc T P, k < K.length := fun k hk => by rw [h.lenK]; exact inc_lt hk
  have hni : ∀ g, g < total → i ∉ s.gen2tri.getD g [] := by
    intro g hg hc
    rw [h.gen g hg] at hc
    obtain ⟨k, hk, he⟩ := List.mem_map.1 hc
    have hk := hKT k hk
    have : K.getD k 0 ∈ K := by simp [List.getD, hk]
    have := h.Klt _ this
    omega
  have hlen := h.glen
  have A := addTri_spec (l := s.gen2tri) (g := a) (i := i) (by omega) (hni a la)
  have B := addTri_spec (l := s.gen2tri.set a (s.gen2tri.getD a [] ++ [i])) (g := b) (i := i) (by simp; omega) (by
    rw [getD_set (by omega), if_neg (Ne.symm h1)]; exact hni b lb)
  rw [getD_set (by omega), if_neg (Ne.symm h1)] at B
  have D := addTri_spec (l := (s.gen2tri.set a (s.gen2tri.getD a [] ++ [i])).set b (s.gen2tri.getD b [] ++ [i])) (g := d) (i := i) (by simp; omega) (by
    rw [getD_set (by simp; omega), if_neg (Ne.symm h3), getD_set (by omega), if_neg (Ne.symm h2)]; exact hni d ld)
  rw [getD_set (by simp; omega), if_neg (Ne.symm h3), getD_set (by omega), if_neg (Ne.symm h2)] at D
  refine ⟨{ nodes := s.nodes ++ [c], gen2tri := ((s.gen2tri.set a (s.gen2tri.getD a [] ++ [i])).set b (s.gen2tri.getD b [] ++ [i])).set d (s.gen2tri.getD d [] ++ [i]),
            tri2gens := s.tri2gens.set i (a, b, d), dedge := pushTri (pushTri (pushTri s.dedge (ekey a b) i) (ekey a d) i) (ekey b d) i,
            tri2id := s.tri2id.set i (s.nodes.length : Int) }, ?_, ?_⟩
  · unfold triStore
    dsimp only
    rw [hashEdge_ne dbg h1, Res.ok_bind, hashEdge_ne dbg h2, Res.ok_bind, hashEdge_ne dbg h3, Res.ok_bind, A, Res.ok_bind, B, Res.ok_bind, D, Res.ok_bind,
      wr_lt (by rw [h.genslen]; exact hi), Res.ok_bind, wr_lt (by rw [h.idlen]; exact hi), Res.ok_bind]
    rfl
  have hKi : ∀ k, k < T.length → (K ++ [i]).getD k 0 = K.getD k 0 ∧ K.getD k 0 ≠ i := by
    intro k hk
    rw [← h.lenK] at hk
    refine ⟨by simp [List.getD, List.getElem?_append_left hk], ?_⟩
    have : K.getD k 0 ∈ K := by simp [List.getD, hk]
    have := h.Klt _ this
    omega
  have hKl : (K ++ [i]).getD T.length 0 = i := by simp [List.getD, ← h.lenK]
  refine ⟨by simp [h.lenK], by simp [h.lenC], ?_, ?_, by simp [h.nodes], by simp [hlen], ?_, ?_, by simp [h.idlen], ?_, ?_, by simp [h.genslen], ?_⟩
  · rw [List.pairwise_append]
    exact ⟨h.Ksorted, by simp, by simpa using h.Klt⟩
  · intro x hx
    rcases List.mem_append.1 hx with hx | hx
    · have := h.Klt x hx; omega
    · simp at hx; omega
  · intro g hg
    rw [getD_set (by simp; omega), getD_set (by simp; omega), getD_set (by omega), inc_append, List.map_append, map_getD_append hKT, ← h.gen g hg]
    have hc : (decide (g ∈ corners (a, b, d)) = true) ↔ g = a ∨ g = b ∨ g = d := by simp [corners]
    by_cases hga : g = a
    · subst hga; rw [if_neg h2, if_neg h1, if_pos rfl, if_pos (hc.2 (Or.inl rfl))]
      simp only [List.map_cons, List.map_nil, hKl]
    · by_cases hgb : g = b
      · subst hgb; rw [if_neg h3, if_pos rfl, if_pos (hc.2 (Or.inr (Or.inl rfl)))]
        simp only [List.map_cons, List.map_nil, hKl]
      · by_cases hgd : g = d
        · subst hgd; rw [if_pos rfl, if_pos (hc.2 (Or.inr (Or.inr rfl)))]
          simp only [List.map_cons, List.map_nil, hKl]
        · rw [if_neg hgd, if_neg hgb, if_neg hga, if_neg (by rw [hc]; tauto)]; simp
  · intro e
    rw [inc_append, List.map_append, map_getD_append hKT, ← h.dedge e]
    have hc : (decide (e ∈ ekeys (a, b, d)) = true) ↔ e = ekey a b ∨ e = ekey a d ∨ e = ekey b d := by simp [ekeys]
    have n1 : ekey a b ≠ ekey a d := by rw [Ne, ekey_eq]; omega
    have n2 : ekey a b ≠ ekey b d := by rw [Ne, ekey_eq]; omega
    have n3 : ekey a d ≠ ekey b d := by rw [Ne, ekey_eq]; omega
    unfold pushTri
    dsimp only
    by_cases e1 : e = ekey a b
    · rw [if_pos (hc.2 (Or.inl e1)), if_pos e1, if_neg (show ¬ e = ekey a d by rw [e1]; exact n1), if_neg (show ¬ e = ekey b d by rw [e1]; exact n2)]
      simp only [List.map_cons, List.map_nil, hKl]
    · by_cases e2 : e = ekey a d
      · rw [if_pos (hc.2 (Or.inr (Or.inl e2))), if_neg e1, if_pos e2, if_neg (show ¬ e = ekey b d by rw [e2]; exact n3)]
        simp only [List.map_cons, List.map_nil, hKl]
      · by_cases e3 : e = ekey b d
        · rw [if_pos (hc.2 (Or.inr (Or.inr e3))), if_neg e1, if_neg e2, if_pos e3]
          simp only [List.map_cons, List.map_nil, hKl]
        · rw [if_neg e1, if_neg e2, if_neg e3, if_neg (by rw [hc]; tauto)]; simp
  · intro k hk
    simp only [List.length_append, List.length_singleton] at hk
    by_cases hkl : k < T.length
    · rw [(hKi k hkl).1, List.getElem?_set_ne (Ne.symm (hKi k hkl).2)]
      exact h.id k hkl
    · have : k = T.length := by omega
      subst this
      rw [hKl]
      simp [h.idlen, hi, h.nodes, h.lenC]
  · intro j hj hjK
    simp only [List.mem_append, List.mem_singleton, not_or] at hjK
    rw [List.getElem?_set_ne (Ne.symm hjK.2)]
    exact h.noid j hj hjK.1
  · intro k t' hk
    by_cases hkl : k < T.length
    · rw [List.getElem?_append_left hkl] at hk
      rw [(hKi k hkl).1, List.getElem?_set_ne (Ne.symm (hKi k hkl).2)]
      exact h.gens k t' hk
    · have : k = T.length := by
        have := (List.getElem?_eq_some_iff.1 hk).1
        simp at this; omega
      subst this
      rw [hKl]
      simp at hk
      subst hk
      simp [h.genslen, hi]

/-- The triangles that count, each with its centre. -/
def kept (cf : Tri3 → Option P2) (tris : List Tri3) : List (Tri3 × P2) := tris.filterMap fun t => (cf t).map fun c => (t, c)

theorem scan_spec (dbg : Bool) {centre : Tri3 → Res (Option P2)} {cf : Tri3 → Option P2} {total len : Nat} : ∀ (tris : List Tri3) (i : Nat) {K : List Nat} {T : List Tri3} {C : List P2} {s : TriS},
    Tab total len i K T C s → i + tris.length ≤ len → (∀ t ∈ tris, centre t = .ok (cf t)) → (∀ t ∈ tris, (cf t).isSome → Proper t ∧ ∀ g ∈ corners t, g < total) →
    ∃ K' s', triScan dbg centre i tris s = .ok s' ∧ Tab total len (i + tris.length) K' (T ++ (kept cf tris).map Prod.fst) (C ++ (kept cf tris).map Prod.snd) s'
  | [], i, K, T, C, s, h, _, _, _ => ⟨K, s, rfl, by simpa [kept] using h⟩
  | t :: tris, i, K, T, C, s, h, hl, hc, hp => by
    simp only [List.length_cons] at hl
    unfold triScan
    rw [hc t (by simp), Res.ok_bind]
    have hc' : ∀ t ∈ tris, centre t = .ok (cf t) := fun t ht => hc t (by simp [ht])
    have hp' : ∀ t ∈ tris, (cf t).isSome → Proper t ∧ ∀ g ∈ corners t, g < total := fun t ht => hp t (by simp [ht])
    cases hct : cf t with
    | none =>
      have hT : Tab total len (i + 1) K T C s := { h with Klt := fun x hx => by have := h.Klt x hx; omega }
      obtain ⟨K', s', e, hT'⟩ := scan_spec dbg tris (i + 1) hT (by omega) hc' hp'
      refine ⟨K', s', e, ?_⟩
      have : kept cf (t :: tris) = kept cf tris := by simp [kept, hct]
      rw [this, List.length_cons, show i + (tris.length + 1) = i + 1 + tris.length by omega]
      exact hT'
    | some c =>
      obtain ⟨s1, e1, h1⟩ := store_spec dbg h (c := c) (hp t (by simp) (by simp [hct])).1 (hp t (by simp) (by simp [hct])).2 (i := i) (by omega)
      obtain ⟨K', s', e, hT'⟩ := scan_spec dbg tris (i + 1) h1 (by omega) hc' hp'
      refine ⟨K', s', ?_, ?_⟩
      · show (triStore dbg i t c s >>= fun s => triScan dbg centre (i + 1) tris s) = _
        rw [e1, Res.ok_bind, e]
      · have : kept cf (t :: tris) = (t, c) :: kept cf tris := by simp [kept, hct]
        rw [this, List.length_cons, show i + (tris.length + 1) = i + 1 + tris.length by omega]
        simpa using hT'

theorem tab_start (total len : Nat) : Tab total len 0 [] [] [] { gen2tri := List.replicate total [], tri2gens := List.replicate len (0, 0, 0), tri2id := List.replicate len (-1) } := by
  refine ⟨rfl, rfl, by simp, by simp, rfl, by simp, ?_, ?_, by simp, by simp, ?_, by simp, by simp⟩
  · intro g hg; simp [inc, List.getD, hg]
  · intro e; simp [inc]
  · intro j hj _; simp [hj]
end Verif.Tri
