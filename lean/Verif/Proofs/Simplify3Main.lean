import Verif.Proofs.Simplify3Tests
import Verif.Proofs.Simplify3Pack
import Verif.Spec.Hash
/- From the numbers of the points to the points. -/
namespace Verif.Simplify3
open Verif Verif.Mesh Verif.Internal Verif.Geom Verif.Hash
open Verif.Simplify (Plc rdi number compact renumber)

section
variable {V : Type} [Zero V] {points pts : List V} {ix : List Nat}

theorem rdi_ok {V : Type} {l : List V} {k : Int} {v : V} (h : rdi l k = .ok v) : 0 ≤ k ∧ l[k.toNat]? = some v := by
  unfold rdi at h
  split at h
  · next hk => exact ⟨hk, rd_eq_ok.1 h⟩
  · exact absurd h (by simp)

theorem mapFacet_ok (hF : FirstOf (· = ·) points pts ix) {f : List Int} {m : List Nat} (h : mapFacet pts.length ix f = .ok m) :
    m.map (fun v => pts.getD v 0) = cornersZ 0 points f ∧ (∀ v ∈ m, v < pts.length) ∧ f.mapM (rdi points) = .ok (cornersZ 0 points f) ∧ m.length = f.length := by
  unfold mapFacet at h
  have h2 := mapM_forall h
  have key : ∀ k v, (do let v ← rdi ix k; if v < pts.length then return v else .ub : Res Nat) = .ok v →
      v < pts.length ∧ pts.getD v 0 = points.getD k.toNat 0 ∧ rdi points k = .ok (points.getD k.toNat 0) := by
    intro k v h
    rw [Res.bind_eq] at h
    obtain ⟨x, h1, h⟩ := Res.bind_eq_ok.1 h
    split at h
    · next hx =>
      rw [Res.pure_eq] at h
      cases h
      obtain ⟨h0, h1⟩ := rdi_ok h1
      obtain ⟨hlt, -⟩ := List.getElem?_eq_some_iff.1 h1
      rw [hF.length] at hlt
      obtain ⟨y, q, e1, e2, e3⟩ := hF.maps k.toNat _ (getD_lt hlt 0)
      rw [h1] at e1
      cases e1
      refine ⟨hx, ?_, ?_⟩
      · rw [getD_of e2]; exact e3
      · rw [rdi, if_pos h0, rd_eq_ok]
        exact getD_lt hlt 0
    · exact absurd h (by simp)
  clear h
  induction h2 with
  | nil => simp [cornersZ]
  | cons hab _ ih =>
    obtain ⟨k1, k2, k3⟩ := key _ _ hab
    obtain ⟨i1, i2, i3, i4⟩ := ih
    refine ⟨?_, ?_, ?_, by simp [i4]⟩
    · rw [List.map_cons, i1, k2]; rfl
    · simp only [List.mem_cons, forall_eq_or_imp]
      exact ⟨k1, i2⟩
    · rw [List.mapM_cons, k3, i3]
      rfl
end

/-! ### The outline -/

theorem once_count (es : List Edge) (e : Edge) : (onceEdges es).count e = if es.count e = 1 then 1 else 0 := by
  split
  · next h => exact List.count_eq_one_of_mem (once_nodup es) (once_mem.2 h)
  · next h => exact List.count_eq_zero.2 fun hm => h (once_mem.1 hm)

theorem joins_one {P : Type} [DecidableEq P] (w : List P) (p q : P) : joins [w] p q = (dirSides w).count (p, q) + (dirSides w).count (q, p) := by
  simp [joins]

theorem outline_of {V : Type} {T : Tests V} {z : V} {points pts : List V} {mf : List (List Nat)} {f : List Int} {old : List Nat} {w : List Nat} {nf : List Int}
    (h : Glued T z points pts mf f old w nf) : Outline (old.map fun o => mf.getD o []) w := by
  intro a b
  have e : (old.map fun o => mf.getD o []).flatMap dirSides = sidesOf mf old := by
    rw [sidesOf, List.flatMap_map]
  rw [joins_one, joins, e]
  by_cases hab : a = b
  · subst hab
    have h1 : (sidesOf mf old).count (a, a) = 0 := List.count_eq_zero.2 fun hm => h.noloop _ hm rfl
    have h2 : (dirSides w).count (a, a) = 0 := List.count_eq_zero.2 fun hm => rim_ne h.noloop h.rim hm rfl
    rw [h1, h2]; rfl
  · have h1 := count_hash (L := dirSides w) (d := (a, b)) hab
    have h2 := count_hash (L := sidesOf mf old) (d := (a, b)) hab
    simp only [Prod.swap_prod_mk] at h1 h2
    rw [← h1, ← h2, h.rim.count_eq, once_count]

theorem dirSides_map {α β : Type} (f : α → β) (l : List α) : dirSides (l.map f) = (dirSides l).map fun d => (f d.1, f d.2) := by
  rw [dirSides, dirSides, ← List.map_rotate, List.zip_map]
  rfl

theorem count_map_inj {α β : Type} [BEq α] [LawfulBEq α] [BEq β] [LawfulBEq β] {f : α → β} {l : List α} {a : α} (h : ∀ x ∈ l, f x = f a → x = a) : (l.map f).count (f a) = l.count a := by
  induction l with
  | nil => rfl
  | cons x l ih =>
    rw [List.map_cons, List.count_cons, List.count_cons, ih fun y hy => h y (List.mem_cons_of_mem _ hy)]
    by_cases e : x = a
    · simp [e]
    · have : f x ≠ f a := fun h' => e (h x List.mem_cons_self h')
      simp [e, this]

/-- Joins do not depend on what stands for the points. -/
theorem joins_map {P : Type} [DecidableEq P] {F : Nat → P} {n : Nat} (hinj : ∀ a < n, ∀ b < n, F a = F b → a = b) {L : List (List Nat)} (hL : ∀ l ∈ L, ∀ v ∈ l, v < n) {a b : Nat} (ha : a < n) (hb : b < n) :
    joins (L.map (List.map F)) (F a) (F b) = joins L a b := by
  have e : (L.map (List.map F)).flatMap dirSides = (L.flatMap dirSides).map fun d => (F d.1, F d.2) := by
    rw [List.flatMap_map, List.map_flatMap]
    simp only [dirSides_map]
  have hm : ∀ d ∈ L.flatMap dirSides, d.1 < n ∧ d.2 < n := by
    intro d hd
    obtain ⟨l, hl, hd⟩ := List.mem_flatMap.1 hd
    have := List.of_mem_zip hd
    exact ⟨hL l hl _ this.1, hL l hl _ (List.mem_rotate.1 this.2)⟩
  have c : ∀ a < n, ∀ b < n, ((L.flatMap dirSides).map fun d => (F d.1, F d.2)).count (F a, F b) = (L.flatMap dirSides).count (a, b) := by
    intro a ha b hb
    refine count_map_inj (f := fun d : Nat × Nat => (F d.1, F d.2)) (a := (a, b)) fun d hd h => ?_
    rw [Prod.mk.injEq] at h
    exact Prod.ext (hinj _ (hm d hd).1 _ ha h.1) (hinj _ (hm d hd).2 _ hb h.2)
  rw [joins, joins, e, c a ha b hb, c b hb a ha]

theorem joins_mem {P : Type} [DecidableEq P] {L : List (List P)} {p q : P} (h : joins L p q ≠ 0) : ∃ l ∈ L, p ∈ l ∧ q ∈ l := by
  unfold joins at h
  have : (p, q) ∈ L.flatMap dirSides ∨ (q, p) ∈ L.flatMap dirSides := by
    by_contra hc
    push Not at hc
    exact h (by rw [List.count_eq_zero.2 hc.1, List.count_eq_zero.2 hc.2])
  rcases this with h | h
  · obtain ⟨l, hl, hd⟩ := List.mem_flatMap.1 h
    have := List.of_mem_zip hd
    exact ⟨l, hl, this.1, List.mem_rotate.1 this.2⟩
  · obtain ⟨l, hl, hd⟩ := List.mem_flatMap.1 h
    have := List.of_mem_zip hd
    exact ⟨l, hl, List.mem_rotate.1 this.2, this.1⟩

theorem outline_map {P : Type} [DecidableEq P] {F : Nat → P} {n : Nat} (hinj : ∀ a < n, ∀ b < n, F a = F b → a = b) {L : List (List Nat)} (hL : ∀ l ∈ L, ∀ v ∈ l, v < n) {w : List Nat}
    (hw : ∀ v ∈ w, v < n) (h : Outline L w) : Outline (L.map (List.map F)) (w.map F) := by
  intro p q
  have e : [w.map F] = [w].map (List.map F) := rfl
  by_cases hpq : (∃ a < n, F a = p) ∧ ∃ b < n, F b = q
  · obtain ⟨⟨a, ha, rfl⟩, b, hb, rfl⟩ := hpq
    rw [e, joins_map hinj hL ha hb, joins_map hinj (by simpa using hw) ha hb]
    exact h a b
  · have z : ∀ M : List (List Nat), (∀ l ∈ M, ∀ v ∈ l, v < n) → joins (M.map (List.map F)) p q = 0 := by
      intro M hM
      by_contra hc
      obtain ⟨l, hl, h1, h2⟩ := joins_mem hc
      obtain ⟨m, hm, rfl⟩ := List.mem_map.1 hl
      obtain ⟨a, ha, rfl⟩ := List.mem_map.1 h1
      obtain ⟨b, hb, rfl⟩ := List.mem_map.1 h2
      exact hpq ⟨⟨a, hM m hm a ha, rfl⟩, b, hM m hm b hb, rfl⟩
    rw [e, z L hL, z [w] (by simpa using hw)]
    rfl

/-! ### The corners -/

theorem triples_sides {α : Type} {l : List α} {x : α × α × α} (h : x ∈ triples l) : (x.1, x.2.1) ∈ dirSides l ∧ (x.2.1, x.2.2) ∈ dirSides l := by
  rcases l with _ | ⟨z, l⟩
  · simp [triples] at h
  · set m := z :: l with hm
    have hm0 : 0 < m.length := by simp [hm]
    rw [triples_range m z] at h
    obtain ⟨j, hj, rfl⟩ := List.mem_map.1 h
    rw [dirSides_range m z]
    refine ⟨List.mem_map.2 ⟨j, hj, rfl⟩, List.mem_map.2 ⟨(j + 1) % m.length, List.mem_range.2 (Nat.mod_lt _ hm0), ?_⟩⟩
    simp only [Prod.mk.injEq, true_and]
    rw [Nat.mod_add_mod]

theorem keptBy_congr {α β : Type} {F : α → β} {t : α → α → α → Bool} {t' : β → β → β → Bool} {l : List α} (h : ∀ x ∈ triples l, t x.1 x.2.1 x.2.2 = t' (F x.1) (F x.2.1) (F x.2.2)) :
    keptBy t' (l.map F) = (keptBy t l).map F := by
  unfold keptBy
  rw [triples_map, List.filterMap_map, List.map_filterMap]
  refine List.filterMap_congr fun x hx => ?_
  simp only [Function.comp, h x hx]
  split <;> rfl

theorem turns_eq {K : Type} [Field K] [DecidableEq K] (w : List (V3 K)) : turns w = keptBy (fun a b c => decide (cross3 (b - a) (c - b) ≠ 0)) w := by
  unfold turns keptBy triples
  refine List.filterMap_congr fun x _ => ?_
  simp only [decide_eq_true_eq]
end Verif.Simplify3
