import Verif.Model.Polygon
import Verif.Spec.Polygon
import Verif.Proofs.Sides
import Mathlib.Tactic.Common
import Mathlib.Tactic.Ring
import Mathlib.Tactic.Linarith
import Mathlib.Tactic.LinearCombination
import Mathlib.Tactic.FieldSimp
import Mathlib.Data.List.Perm.Basic
/- Crossing parity, and convex polygons. -/
namespace Verif
theorem Res.ok_bind {α β : Type} (a : α) (f : α → Res β) : (Res.ok a >>= f) = f a := rfl
end Verif
namespace Verif.Geom
open Verif Verif.Mesh
section
variable {K : Type} [Field K] [LinearOrder K] [IsStrictOrderedRing K]

omit [IsStrictOrderedRing K] in
theorem toggles_symm (p a b : V2 K) : toggles p a b = toggles p b a := by
  unfold toggles
  by_cases h : decide (p.y < a.y) = decide (p.y < b.y)
  · rw [h]; simp
  · have hne : a.y ≠ b.y := by
      rintro e; rw [e] at h; exact h rfl
    have h1 : b.y - a.y ≠ 0 := sub_ne_zero.mpr (Ne.symm hne)
    have h2 : a.y - b.y ≠ 0 := sub_ne_zero.mpr hne
    have e : a.x + (b.x - a.x) * (p.y - a.y) / (b.y - a.y) = b.x + (a.x - b.x) * (p.y - b.y) / (a.y - b.y) := by
      have h3 : a.y - b.y = -(b.y - a.y) := by ring
      rw [h3, div_neg]
      field_simp
      ring
    rw [e]
    congr 1
    cases decide (p.y < a.y) <;> cases decide (p.y < b.y) <;> rfl

theorem toggles_move (p a b v : V2 K) : toggles (p + v) (a + v) (b + v) = toggles p a b := by
  have e1 : (p + v).y - (a + v).y = p.y - a.y := by simp
  have e2 : (b + v).y - (a + v).y = b.y - a.y := by simp
  have e3 : (b + v).x - (a + v).x = b.x - a.x := by simp
  unfold toggles
  rw [e1, e2, e3]
  have h1 : ∀ c : V2 K, decide ((p + v).y < (c + v).y) = decide (p.y < c.y) := fun c => by
    congr 1; simp
  rw [h1, h1]
  congr 1
  rw [decide_eq_decide, V2.add_x, V2.add_x, add_right_comm, add_lt_add_iff_right]

/-- Parity of the number of true entries. -/
def parity {α : Type} (q : α → Bool) : List α → Bool
  | [] => false
  | x :: xs => (q x != parity q xs)

theorem parity_append {α : Type} (q : α → Bool) (a b : List α) : parity q (a ++ b) = (parity q a != parity q b) := by
  induction a with
  | nil => simp [parity]
  | cons x xs ih => simp only [List.cons_append, parity, ih]; cases q x <;> cases parity q xs <;> cases parity q b <;> rfl

theorem parity_perm {α : Type} {q : α → Bool} {a b : List α} (h : a.Perm b) : parity q a = parity q b := by
  induction h with
  | nil => rfl
  | cons x _ ih => simp [parity, ih]
  | swap x y l => simp only [parity]; cases q x <;> cases q y <;> cases parity q l <;> rfl
  | trans _ _ i1 i2 => exact i1.trans i2

theorem parity_map {α β : Type} (q : β → Bool) (f : α → β) (a : List α) : parity q (a.map f) = parity (fun x => q (f x)) a := by
  induction a with
  | nil => rfl
  | cons x xs ih => simp [parity, ih]

theorem parity_none {α : Type} {q : α → Bool} {a : List α} (h : ∀ x ∈ a, q x = false) : parity q a = false := by
  induction a with
  | nil => rfl
  | cons x xs ih => simp only [parity]; rw [h x (by simp), ih (fun y hy => h y (by simp [hy]))]; rfl

omit [IsStrictOrderedRing K] in
theorem pipLoop_eq (p : V2 K) : ∀ (vs : List (V2 K)) (vj : V2 K) (r : Bool), pipLoop p vj vs r = (r != parity (fun e => toggles p e.1 e.2) ((vj :: vs).zip vs))
  | [], _, r => by simp [pipLoop, parity]
  | vi :: vs, vj, r => by
    simp only [pipLoop, List.zip_cons_cons, parity]
    rw [pipLoop_eq p vs vi, toggles_symm p vi vj]
    cases toggles p vj vi <;> cases r <;> cases parity (fun e => toggles p e.1 e.2) ((vi :: vs).zip vs) <;> rfl

theorem zip_trunc {α β : Type} (a b : List α) (c : List β) (h : a.length = c.length) : (a ++ b).zip c = a.zip c := by
  have := List.zip_append (l₁ := a) (r₁ := b) (l₂ := c) (r₂ := []) h
  simpa using this

/-- Consecutive pairs. -/
def pairs {α : Type} (l : List α) : List (α × α) := l.zip l.tail

theorem dirSides_pairs {α : Type} (x : α) (xs : List α) : dirSides (x :: xs) = pairs (x :: (xs ++ [x])) := by
  rw [dirSides_cons, pairs, List.tail_cons, ← List.cons_append, zip_trunc _ _ _ (by simp)]

theorem pairs_cons {α : Type} (x y : α) (l : List α) : pairs (x :: y :: l) = (x, y) :: pairs (y :: l) := by
  simp [pairs]

theorem pairs_append {α : Type} (x y : α) (Y : List α) : ∀ X : List α, pairs (X ++ x :: y :: Y) = pairs (X ++ [x]) ++ (x, y) :: pairs (y :: Y)
  | [] => by simp [pairs]
  | [a] => by simp [pairs]
  | a :: b :: X => by
    have := pairs_append x y Y (b :: X)
    simp only [List.cons_append, pairs_cons] at this ⊢
    rw [this]

theorem mem_pairs {α : Type} {c d : α} : ∀ {l : List α}, (c, d) ∈ pairs l → ∃ X Y, l = X ++ c :: d :: Y
  | [], h => by simp [pairs] at h
  | [_], h => by simp [pairs] at h
  | a :: b :: l, h => by
    rw [pairs_cons] at h
    rcases List.mem_cons.mp h with h | h
    · injection h with h1 h2
      exact ⟨[], l, by rw [h1, h2]; rfl⟩
    · obtain ⟨X, Y, e⟩ := mem_pairs h
      exact ⟨a :: X, Y, by rw [e]; rfl⟩

theorem zip_last_perm {α : Type} (vs : List α) (d : α) : ((vs.getLastD d :: vs).zip vs).Perm (dirSides vs) := by
  rcases vs.eq_nil_or_concat with rfl | ⟨xs, x, rfl⟩
  · exact List.Perm.refl _
  · rw [List.concat_eq_append]
    have e1 : (xs ++ [x]).getLastD d = x := by simp
    rw [e1]
    have e2 : (x :: xs).rotate 1 = xs ++ [x] := by simp
    have e3 : (x :: (xs ++ [x])).zip (xs ++ [x]) = dirSides (x :: xs) := by
      rw [dirSides_pairs]; rfl
    rw [e3, ← e2, dirSides_rotate]
    exact (List.rotate_perm _ _).symm

omit [IsStrictOrderedRing K] in
/-- The answer is the parity of the crossed sides. -/
theorem pip_parity (p : V2 K) (vs : List (V2 K)) : pointInPolygon p vs = parity (fun e => toggles p e.1 e.2) (dirSides vs) := by
  unfold pointInPolygon
  rw [pipLoop_eq, parity_perm (zip_last_perm vs 0)]
  simp

theorem mem_dirSides {α : Type} {c d : α} {vs : List α} (h : (c, d) ∈ dirSides vs) :
    (∃ X Y, vs = X ++ c :: d :: Y) ∨ (∃ M, vs = d :: (M ++ [c])) ∨ (vs = [c] ∧ c = d) := by
  cases vs with
  | nil => simp [dirSides] at h
  | cons v0 rest =>
    rw [dirSides_pairs] at h
    rcases rest.eq_nil_or_concat with rfl | ⟨M, x, rfl⟩
    · simp [pairs] at h
      right; right
      exact ⟨by rw [h.1], by rw [h.1, h.2]⟩
    · rw [List.concat_eq_append] at h ⊢
      have : v0 :: (M ++ [x] ++ [v0]) = (v0 :: M) ++ x :: v0 :: [] := by simp
      rw [this, pairs_append] at h
      rcases List.mem_append.mp h with h | h
      · obtain ⟨X, Y, e⟩ := mem_pairs h
        exact Or.inl ⟨X, Y, by rw [← e]; rfl⟩
      · have h' : (c, d) = (x, v0) := by simpa [pairs] using h
        injection h' with h1 h2
        exact Or.inr (Or.inl ⟨M, by rw [h1, h2]⟩)

theorem fst_mem_of_dirSides {α : Type} {c d : α} {vs : List α} (h : (c, d) ∈ dirSides vs) : c ∈ vs := (List.of_mem_zip h).1
theorem snd_mem_of_dirSides {α : Type} {c d : α} {vs : List α} (h : (c, d) ∈ dirSides vs) : d ∈ vs := List.mem_rotate.mp (List.of_mem_zip h).2

theorem exists_side_from {α : Type} {v : α} {vs : List α} (h : v ∈ vs) : ∃ u, (v, u) ∈ dirSides vs := by
  obtain ⟨i, hi, rfl⟩ := List.mem_iff_getElem.mp h
  have hl : i < (vs.rotate 1).length := by simpa using hi
  exact ⟨(vs.rotate 1)[i], List.mem_iff_getElem.mpr ⟨i, by simp [dirSides, hi], by simp [dirSides]⟩⟩

theorem exists_side_to {α : Type} {v : α} {vs : List α} (h : v ∈ vs) : ∃ u, (u, v) ∈ dirSides vs := by
  obtain ⟨i, hi, rfl⟩ := List.mem_iff_getElem.mp (List.mem_rotate (n := 1).mpr h)
  have hl : i < vs.length := by simpa using hi
  exact ⟨vs[i], List.mem_iff_getElem.mpr ⟨i, by simp [dirSides, hl], by simp [dirSides]⟩⟩

omit [LinearOrder K] [IsStrictOrderedRing K] in
theorem area2_cyc (a b c : V2 K) : area2 a b c = area2 b c a := by unfold area2; ring

omit [IsStrictOrderedRing K] in
/-- No corner of a convex polygon is to the right of a side. -/
theorem side_nonneg {vs : List (V2 K)} (hc : ConvexCCW vs) {c d v : V2 K} (h : (c, d) ∈ dirSides vs) (hv : v ∈ vs) : 0 ≤ area2 c d v := by
  have h0 : ∀ x y : V2 K, area2 x y x = 0 := fun x y => by unfold area2; ring
  have h1 : ∀ x y : V2 K, area2 x y y = 0 := fun x y => by unfold area2; ring
  rcases mem_dirSides h with ⟨X, Y, e⟩ | ⟨M, e⟩ | ⟨e, e'⟩
  · rw [e] at hv
    rcases List.mem_append.mp hv with hv | hv
    · have : List.Sublist [v, c, d] vs := by
        rw [e]
        exact List.Sublist.append (List.singleton_sublist.mpr hv) (by simp : List.Sublist [c, d] (c :: d :: Y))
      have := hc.2 _ _ _ this
      rw [area2_cyc] at this
      exact this.le
    · rcases List.mem_cons.mp hv with rfl | hv
      · rw [h0]
      · rcases List.mem_cons.mp hv with rfl | hv
        · rw [h1]
        · have : List.Sublist [c, d, v] vs := by
            rw [e]
            exact List.Sublist.trans (by simpa using hv) (List.sublist_append_right X _)
          exact (hc.2 _ _ _ this).le
  · rw [e] at hv
    rcases List.mem_cons.mp hv with rfl | hv
    · rw [h1]
    · rcases List.mem_append.mp hv with hv | hv
      · have : List.Sublist [d, v, c] vs := by
          rw [e]
          exact List.Sublist.cons_cons _ (List.Sublist.append (l₁ := [v]) (List.singleton_sublist.mpr hv) (List.Sublist.refl [c]))
        have := hc.2 _ _ _ this
        rw [← area2_cyc] at this
        exact this.le
      · have : v = c := by simpa using hv
        rw [this, h0]
  · have := hc.1
    rw [e] at this
    simp at this

omit [IsStrictOrderedRing K] in
theorem convex_rotate1 {x : V2 K} {xs : List (V2 K)} (hc : ConvexCCW (x :: xs)) : ConvexCCW (xs ++ [x]) := by
  refine ⟨by simpa using hc.1, fun a b c h => ?_⟩
  rcases List.sublist_append_iff.mp h with ⟨l1, l2, e, h1, h2⟩
  rcases List.sublist_singleton.mp h2 with rfl | rfl
  · rw [List.append_nil] at e
    exact hc.2 _ _ _ (List.Sublist.cons _ (e ▸ h1))
  · have e' : [a, b] = l1 ∧ c = x := by
      rcases l1 with _ | ⟨p, _ | ⟨q, _ | ⟨r, t⟩⟩⟩ <;> simp at e ⊢
      exact ⟨⟨e.1, e.2.1⟩, e.2.2⟩
    rw [e'.2, ← area2_cyc]
    exact hc.2 _ _ _ (List.Sublist.cons_cons _ (e'.1 ▸ h1))

theorem convex_rotate {vs : List (V2 K)} (hc : ConvexCCW vs) : ∀ n, ConvexCCW (vs.rotate n) := by
  intro n
  induction n with
  | zero => simpa using hc
  | succ n ih =>
    rw [← List.rotate_rotate]
    cases h : vs.rotate n with
    | nil => rw [h] at ih; simpa using ih
    | cons x xs => rw [h] at ih; simpa using convex_rotate1 ih

theorem exists_best {α : Type} {r : α → α → Prop} (tot : ∀ a b, r a b ∨ r b a) (tr : ∀ a b c, r a b → r b c → r a c) :
    ∀ {l : List α}, l ≠ [] → ∃ v ∈ l, ∀ w ∈ l, r v w
  | [], h => (h rfl).elim
  | [a], _ => ⟨a, by simp, by simp; exact (tot a a).elim id id⟩
  | a :: b :: l, _ => by
    obtain ⟨v, hv, h⟩ := exists_best tot tr (l := b :: l) (by simp)
    rcases tot a v with ha | ha
    · refine ⟨a, by simp, fun w hw => ?_⟩
      rcases List.mem_cons.mp hw with rfl | hw
      · exact (tot w w).elim id id
      · exact tr _ _ _ ha (h w hw)
    · refine ⟨v, List.mem_cons_of_mem _ hv, fun w hw => ?_⟩
      rcases List.mem_cons.mp hw with rfl | hw
      · exact ha
      · exact h w hw

/-- A point strictly inside is below some corner. -/
theorem inside_below {vs : List (V2 K)} (hc : ConvexCCW vs) {p : V2 K} (hp : StrictlyIn vs p) : ∃ v ∈ vs, p.y < v.y := by
  by_contra hcon
  have hcon : ∀ v ∈ vs, v.y ≤ p.y := fun v hv => not_lt.mp fun h => hcon ⟨v, hv, h⟩
  have hne : vs ≠ [] := by rintro rfl; exact absurd hc.1 (by simp)
  obtain ⟨t, ht, hm⟩ := exists_best (r := fun a b : V2 K => b.y < a.y ∨ (b.y = a.y ∧ b.x ≤ a.x))
    (fun a b => by
      rcases lt_trichotomy a.y b.y with h | h | h
      · exact Or.inr (Or.inl h)
      · rcases le_total a.x b.x with h' | h'
        · exact Or.inr (Or.inr ⟨h, h'⟩)
        · exact Or.inl (Or.inr ⟨h.symm, h'⟩)
      · exact Or.inl (Or.inl h))
    (fun a b c h1 h2 => by
      rcases h1 with h1 | ⟨h1, h1'⟩ <;> rcases h2 with h2 | ⟨h2, h2'⟩
      · exact Or.inl (h2.trans h1)
      · exact Or.inl (h2 ▸ h1)
      · exact Or.inl (h1 ▸ h2)
      · exact Or.inr ⟨h2.trans h1, h2'.trans h1'⟩) hne
  obtain ⟨u, hu⟩ := exists_side_from ht
  obtain ⟨s, hs⟩ := exists_side_to ht
  have h1 := hp _ hs
  have h2 := hp _ hu
  have h3 := side_nonneg hc hs (snd_mem_of_dirSides hu)
  have ms := hm s (fst_mem_of_dirSides hs)
  have mu := hm u (snd_mem_of_dirSides hu)
  have hs' : 0 ≤ t.y - s.y := by rcases ms with h | h <;> linarith [h]
  have hu' : 0 ≤ t.y - u.y := by rcases mu with h | h <;> linarith [h]
  have hpt := hcon t ht
  simp only at h1 h2
  have id1 : -(area2 s t u) * (p.y - t.y) = area2 t u p * (t.y - s.y) + area2 s t p * (t.y - u.y) := by unfold area2; ring
  have l1 : -(area2 s t u) * (p.y - t.y) ≤ 0 := mul_nonpos_of_nonpos_of_nonneg (by linarith) (by linarith)
  have r1 : 0 ≤ area2 t u p * (t.y - s.y) := mul_nonneg h2.le hs'
  have r2 : 0 ≤ area2 s t p * (t.y - u.y) := mul_nonneg h1.le hu'
  have e2 : area2 s t p * (t.y - u.y) = 0 := by linarith
  have e1 : area2 t u p * (t.y - s.y) = 0 := by linarith
  have ey : t.y - u.y = 0 := (mul_eq_zero.mp e2).resolve_left h1.ne'
  have ex : u.x ≤ t.x := by
    rcases mu with h | h
    · linarith
    · exact h.2
  have : area2 t u p = (u.x - t.x) * (p.y - t.y) := by
    unfold area2
    have : u.y - t.y = 0 := by linarith
    rw [this]; ring
  rw [this] at h2
  exact absurd h2 (not_lt.mpr (mul_nonpos_of_nonpos_of_nonneg (by linarith) (by linarith)))

/-- A point strictly inside is not below all corners. -/
theorem inside_above {vs : List (V2 K)} (hc : ConvexCCW vs) {p : V2 K} (hp : StrictlyIn vs p) : ∃ v ∈ vs, v.y ≤ p.y := by
  by_contra hcon
  have hcon : ∀ v ∈ vs, p.y < v.y := fun v hv => not_le.mp fun h => hcon ⟨v, hv, h⟩
  have hne : vs ≠ [] := by rintro rfl; exact absurd hc.1 (by simp)
  obtain ⟨t, ht, hm⟩ := exists_best (r := fun a b : V2 K => a.y < b.y ∨ (a.y = b.y ∧ a.x ≤ b.x))
    (fun a b => by
      rcases lt_trichotomy a.y b.y with h | h | h
      · exact Or.inl (Or.inl h)
      · rcases le_total a.x b.x with h' | h'
        · exact Or.inl (Or.inr ⟨h, h'⟩)
        · exact Or.inr (Or.inr ⟨h.symm, h'⟩)
      · exact Or.inr (Or.inl h))
    (fun a b c h1 h2 => by
      rcases h1 with h1 | ⟨h1, h1'⟩ <;> rcases h2 with h2 | ⟨h2, h2'⟩
      · exact Or.inl (h1.trans h2)
      · exact Or.inl (h2 ▸ h1)
      · exact Or.inl (h1 ▸ h2)
      · exact Or.inr ⟨h1.trans h2, h1'.trans h2'⟩) hne
  obtain ⟨u, hu⟩ := exists_side_from ht
  obtain ⟨s, hs⟩ := exists_side_to ht
  have h1 := hp _ hs
  have h2 := hp _ hu
  have h3 := side_nonneg hc hs (snd_mem_of_dirSides hu)
  have ms := hm s (fst_mem_of_dirSides hs)
  have mu := hm u (snd_mem_of_dirSides hu)
  have hs' : t.y - s.y ≤ 0 := by rcases ms with h | h <;> linarith [h]
  have hu' : t.y - u.y ≤ 0 := by rcases mu with h | h <;> linarith [h]
  have hpt := hcon t ht
  simp only at h1 h2
  have id1 : -(area2 s t u) * (p.y - t.y) = area2 t u p * (t.y - s.y) + area2 s t p * (t.y - u.y) := by unfold area2; ring
  have l1 : 0 ≤ -(area2 s t u) * (p.y - t.y) := mul_nonneg_of_nonpos_of_nonpos (by linarith) (by linarith)
  have r1 : area2 t u p * (t.y - s.y) ≤ 0 := mul_nonpos_of_nonneg_of_nonpos h2.le hs'
  have r2 : area2 s t p * (t.y - u.y) ≤ 0 := mul_nonpos_of_nonneg_of_nonpos h1.le hu'
  have e2 : area2 s t p * (t.y - u.y) = 0 := by linarith
  have ey : t.y - u.y = 0 := (mul_eq_zero.mp e2).resolve_left h1.ne'
  have ex : t.x ≤ u.x := by
    rcases mu with h | h
    · linarith
    · exact h.2
  have : area2 t u p = (u.x - t.x) * (p.y - t.y) := by
    unfold area2
    have : u.y - t.y = 0 := by linarith
    rw [this]; ring
  rw [this] at h2
  exact absurd h2 (not_lt.mpr (mul_nonpos_of_nonneg_of_nonpos (by linarith) (by linarith)))

theorem toggles_up {p l a : V2 K} (hl : l.y ≤ p.y) (ha : p.y < a.y) : toggles p l a = decide (0 < area2 l a p) := by
  unfold toggles area2
  have hd : 0 < a.y - l.y := by linarith
  rw [decide_eq_false (not_lt.mpr hl), decide_eq_true ha]
  simp only [Bool.bne_true, Bool.not_false, Bool.true_and]
  congr 1
  rw [← sub_lt_iff_lt_add', lt_div_iff₀ hd, ← sub_pos]
  apply propext
  rw [show (a.x - l.x) * (p.y - l.y) - (p.x - l.x) * (a.y - l.y) = (a.x - l.x) * (p.y - l.y) - (a.y - l.y) * (p.x - l.x) by ring]

theorem toggles_down {p b r : V2 K} (hr : r.y ≤ p.y) (hb : p.y < b.y) : toggles p b r = decide (area2 b r p < 0) := by
  rw [toggles_symm, toggles_up hr hb]
  congr 1
  apply propext
  rw [show area2 r b p = -area2 b r p by unfold area2; ring, neg_pos]

omit [IsStrictOrderedRing K] in
theorem toggles_level {p a b : V2 K} (h : decide (p.y < a.y) = decide (p.y < b.y)) : toggles p a b = false := by
  unfold toggles; rw [h]; simp

omit [IsStrictOrderedRing K] in
theorem parity_level {p : V2 K} {q : Bool} : ∀ {l : List (V2 K)}, (∀ v ∈ l, decide (p.y < v.y) = q) → parity (fun e => toggles p e.1 e.2) (pairs l) = false := by
  intro l h
  apply parity_none
  rintro ⟨a, b⟩ he
  obtain ⟨X, Y, e⟩ := mem_pairs he
  exact toggles_level ((h a (by rw [e]; simp)).trans (h b (by rw [e]; simp)).symm)

/-- Between two corners that are above a height there is none below, counted from a lowest corner that is below. -/
theorem no_valley {v0 a b c : V2 K} {h : K} (h1 : 0 < area2 v0 a b) (h2 : 0 < area2 v0 b c) (h3 : 0 < area2 v0 a c) (h4 : 0 < area2 a b c) (h0 : v0.y ≤ h)
    (ha : h < a.y) (hc : h < c.y) : h < b.y := by
  have id1 : area2 v0 a c * (b.y - v0.y) = area2 v0 b c * (a.y - v0.y) + area2 v0 a b * (c.y - v0.y) := by unfold area2; ring
  have id2 : area2 v0 a b + area2 v0 b c = area2 v0 a c + area2 a b c := by unfold area2; ring
  have k1 : area2 v0 b c * (h - v0.y) < area2 v0 b c * (a.y - v0.y) := mul_lt_mul_of_pos_left (by linarith) h2
  have k2 : area2 v0 a b * (h - v0.y) < area2 v0 a b * (c.y - v0.y) := mul_lt_mul_of_pos_left (by linarith) h1
  have k3 : 0 ≤ area2 a b c * (h - v0.y) := mul_nonneg h4.le (by linarith)
  have k4 : area2 v0 a c * (h - v0.y) < area2 v0 a c * (b.y - v0.y) := by
    rw [id1]
    have : area2 v0 a c * (h - v0.y) + area2 a b c * (h - v0.y) = area2 v0 a b * (h - v0.y) + area2 v0 b c * (h - v0.y) := by rw [← add_mul, ← add_mul, id2]
    linarith
  have := lt_of_mul_lt_mul_left k4 h3.le
  linarith

theorem dropWhile_head {α : Type} {q : α → Bool} : ∀ {l : List α} {x xs}, l.dropWhile q = x :: xs → q x = false
  | [], _, _, h => by simp at h
  | a :: l, x, xs, h => by
    rw [List.dropWhile_cons] at h
    split at h
    · exact dropWhile_head h
    · injection h with h1 h2
      subst h1
      exact Bool.eq_false_iff.mpr ‹¬ _›

theorem takeWhile_true {α : Type} {q : α → Bool} : ∀ {l : List α} {x}, x ∈ l.takeWhile q → q x = true
  | [], _, h => by simp at h
  | a :: l, x, h => by
    rw [List.takeWhile_cons] at h
    split at h
    · rcases List.mem_cons.mp h with rfl | h
      · assumption
      · exact takeWhile_true h
    · simp at h

/-- A horizontal line either misses a convex polygon (counting a line through a highest corner as missing) or crosses one rising and one falling side. -/
theorem convex_profile {v0 : V2 K} {rest : List (V2 K)} (hc : ConvexCCW (v0 :: rest)) (hlow : ∀ v ∈ rest, v0.y ≤ v.y) (p : V2 K) :
    (((∀ v ∈ v0 :: rest, v.y ≤ p.y) ∨ (∀ v ∈ v0 :: rest, p.y < v.y)) ∧ pointInPolygon p (v0 :: rest) = false) ∨
    ∃ l a b r, (l, a) ∈ dirSides (v0 :: rest) ∧ (b, r) ∈ dirSides (v0 :: rest) ∧ l.y ≤ p.y ∧ p.y < a.y ∧ p.y < b.y ∧ r.y ≤ p.y ∧
      pointInPolygon p (v0 :: rest) = (toggles p l a != toggles p b r) := by
  rw [pip_parity, dirSides_pairs]
  by_cases hv0 : p.y < v0.y
  · have hall : ∀ v ∈ v0 :: rest, p.y < v.y := by
      intro v hv
      rcases List.mem_cons.mp hv with rfl | hv
      · exact hv0
      · exact lt_of_lt_of_le hv0 (hlow v hv)
    refine Or.inl ⟨Or.inr hall, parity_level (q := true) fun v hv => ?_⟩
    apply decide_eq_true
    apply hall
    have : v = v0 ∨ v ∈ rest ∨ v = v0 := by simpa using hv
    rcases this with h | h | h <;> simp [h]
  have hv0 := not_lt.mp hv0
  set ab : V2 K → Bool := fun v => decide (p.y < v.y) with hab
  set L := rest.takeWhile (fun v => !ab v)
  set T := rest.dropWhile (fun v => !ab v) with hT
  have hLT : rest = L ++ T := (List.takeWhile_append_dropWhile).symm
  have hL : ∀ v ∈ L, ab v = false := fun v hv => by simpa using takeWhile_true hv
  cases hTc : T with
  | nil =>
    have hall : ∀ v ∈ v0 :: rest, v.y ≤ p.y := by
      intro v hv
      rcases List.mem_cons.mp hv with rfl | hv
      · exact hv0
      · rw [hLT, hTc, List.append_nil] at hv
        have := hL v hv
        simpa [hab] using this
    refine Or.inl ⟨Or.inl hall, parity_level (q := false) fun v hv => ?_⟩
    apply decide_eq_false
    apply not_lt.mpr
    apply hall
    have : v = v0 ∨ v ∈ rest ∨ v = v0 := by simpa using hv
    rcases this with h | h | h <;> simp [h]
  | cons a T' =>
    have ha : ab a = true := by
      have := dropWhile_head (hT ▸ hTc)
      simpa using this
    set A := T'.takeWhile ab
    set R := T'.dropWhile ab with hR
    have hAR : T' = A ++ R := (List.takeWhile_append_dropWhile).symm
    have hA : ∀ v ∈ A, ab v = true := fun v hv => takeWhile_true hv
    have hRb : ∀ v ∈ R, ab v = false := by
      intro v hv
      cases hRc : R with
      | nil => rw [hRc] at hv; simp at hv
      | cons b R' =>
        have hb : ab b = false := dropWhile_head (hR ▸ hRc)
        rw [hRc] at hv
        rcases List.mem_cons.mp hv with rfl | hv
        · exact hb
        · by_contra hcon
          have hvt : ab v = true := by simpa using hcon
          have s3 : List.Sublist [a, b, v] rest := by
            rw [hLT, hTc, hAR, hRc]
            refine List.Sublist.trans ?_ (List.sublist_append_right L _)
            refine List.Sublist.cons_cons _ (List.Sublist.trans ?_ (List.sublist_append_right A _))
            exact List.Sublist.cons_cons _ (List.singleton_sublist.mpr hv)
          have s1 : List.Sublist [a, b] [a, b, v] := by simp
          have s2 : List.Sublist [b, v] [a, b, v] := by simp
          have s4 : List.Sublist [a, v] [a, b, v] := by simp
          have := no_valley (v0 := v0) (a := a) (b := b) (c := v) (h := p.y) (hc.2 _ _ _ ((s1.trans s3).cons_cons v0)) (hc.2 _ _ _ ((s2.trans s3).cons_cons v0))
            (hc.2 _ _ _ ((s4.trans s3).cons_cons v0)) (hc.2 _ _ _ (s3.cons v0)) hv0 (by simpa [hab] using ha) (by simpa [hab] using hvt)
          simp [hab] at hb
          exact absurd this (not_lt.mpr hb)
    -- last of the rising part, last of the upper part, first of the falling part
    obtain ⟨L', l, hl⟩ : ∃ L' l, v0 :: L = L' ++ [l] := by
      rcases (v0 :: L).eq_nil_or_concat with h | ⟨x, y, h⟩
      · simp at h
      · exact ⟨x, y, by simpa using h⟩
    obtain ⟨A', b, hb⟩ : ∃ A' b, a :: A = A' ++ [b] := by
      rcases (a :: A).eq_nil_or_concat with h | ⟨x, y, h⟩
      · simp at h
      · exact ⟨x, y, by simpa using h⟩
    obtain ⟨r, R', hr⟩ : ∃ r R', R ++ [v0] = r :: R' := by
      cases R with
      | nil => exact ⟨v0, [], rfl⟩
      | cons x xs => exact ⟨x, xs ++ [v0], rfl⟩
    have elist : v0 :: (rest ++ [v0]) = L' ++ l :: a :: (A ++ r :: R') := by
      rw [hLT, hTc, hAR, ← hr]
      have : L' ++ l :: a :: (A ++ (R ++ [v0])) = (L' ++ [l]) ++ a :: (A ++ (R ++ [v0])) := by simp
      rw [this, ← hl]; simp
    have elist2 : a :: (A ++ r :: R') = A' ++ b :: r :: R' := by
      have : a :: (A ++ r :: R') = (a :: A) ++ r :: R' := rfl
      rw [this, hb]; simp
    have hlow' : ∀ v ∈ v0 :: L, ab v = false := by
      intro v hv
      rcases List.mem_cons.mp hv with rfl | hv
      · simpa [hab] using hv0
      · exact hL v hv
    have hhigh : ∀ v ∈ a :: A, ab v = true := by
      intro v hv
      rcases List.mem_cons.mp hv with rfl | hv
      · exact ha
      · exact hA v hv
    have hfall : ∀ v ∈ r :: R', ab v = false := by
      intro v hv
      rw [← hr] at hv
      rcases List.mem_append.mp hv with hv | hv
      · exact hRb v hv
      · have : v = v0 := by simpa using hv
        rw [this]; simpa [hab] using hv0
    have epairs : pairs (v0 :: (rest ++ [v0])) = pairs (L' ++ [l]) ++ (l, a) :: (pairs (A' ++ [b]) ++ (b, r) :: pairs (r :: R')) := by
      rw [elist, pairs_append, elist2, pairs_append]
    have fl : ab l = false := hlow' l (by rw [hl]; simp)
    have fb : ab b = true := hhigh b (by rw [hb]; simp)
    have fr : ab r = false := hfall r (by simp)
    refine Or.inr ⟨l, a, b, r, by rw [epairs]; simp, by rw [epairs]; simp, by simpa [hab] using fl, by simpa [hab] using ha, by simpa [hab] using fb, by simpa [hab] using fr, ?_⟩
    rw [epairs, parity_append, parity, parity_append, parity, ← hl, ← hb, parity_level hlow', parity_level hhigh, parity_level hfall]
    cases toggles p l a <;> cases toggles p b r <;> rfl

omit [Field K] [IsStrictOrderedRing K] in
theorem rotate_lowest {vs : List (V2 K)} (hne : vs ≠ []) : ∃ n v0 rest, vs.rotate n = v0 :: rest ∧ ∀ v ∈ rest, v0.y ≤ v.y := by
  obtain ⟨t, ht, hm⟩ := exists_best (r := fun a b : V2 K => a.y ≤ b.y) (fun a b => le_total _ _) (fun a b c => le_trans) hne
  obtain ⟨X, Y, e⟩ := List.append_of_mem ht
  refine ⟨X.length, t, Y ++ X, ?_, fun v hv => hm v ?_⟩
  · rw [e, List.rotate_append_length_eq]; rfl
  · rw [e]
    rcases List.mem_append.mp hv with h | h <;> simp [h]

omit [IsStrictOrderedRing K] in
theorem pip_rotate (p : V2 K) (vs : List (V2 K)) (n : Nat) : pointInPolygon p (vs.rotate n) = pointInPolygon p vs := by
  rw [pip_parity, pip_parity, dirSides_rotate, parity_perm (List.rotate_perm _ _)]

theorem area2_between {c d l a : V2 K} {h X : K} (hl : l.y ≤ h) (ha : h < a.y) (h1 : 0 ≤ area2 c d l) (h2 : 0 ≤ area2 c d a) (hX : X * (a.y - l.y) = l.x * (a.y - h) + a.x * (h - l.y)) :
    0 ≤ area2 c d ⟨X, h⟩ := by
  have hd : 0 < a.y - l.y := by linarith
  have : area2 c d ⟨X, h⟩ * (a.y - l.y) = area2 c d l * (a.y - h) + area2 c d a * (h - l.y) := by
    have : area2 c d ⟨X, h⟩ * (a.y - l.y) = (d.x - c.x) * (h - c.y) * (a.y - l.y) - (d.y - c.y) * (X * (a.y - l.y) - c.x * (a.y - l.y)) := by unfold area2; ring
    rw [this, hX]; unfold area2; ring
  have h3 : 0 ≤ area2 c d ⟨X, h⟩ * (a.y - l.y) := by
    rw [this]; exact add_nonneg (mul_nonneg h1 (by linarith)) (mul_nonneg h2 (by linarith))
  exact nonneg_of_mul_nonneg_left h3 hd

/-- The answer for convex polygons: right strictly inside and strictly outside. -/
theorem pip_convex {vs : List (V2 K)} (hc : ConvexCCW vs) (p : V2 K) :
    (StrictlyIn vs p → pointInPolygon p vs = true) ∧ (StrictlyOut vs p → pointInPolygon p vs = false) := by
  have hne : vs ≠ [] := by rintro rfl; exact absurd hc.1 (by simp)
  obtain ⟨n, v0, rest, hr, hlow⟩ := rotate_lowest hne
  have hmem : ∀ e, e ∈ dirSides (v0 :: rest) ↔ e ∈ dirSides vs := by
    intro e; rw [← hr, dirSides_rotate, List.mem_rotate]
  have hmv : ∀ v, v ∈ v0 :: rest ↔ v ∈ vs := by intro v; rw [← hr, List.mem_rotate]
  have hc' := convex_rotate hc n
  rw [hr] at hc'
  rw [← pip_rotate p vs n, hr]
  rcases convex_profile hc' hlow p with ⟨hflat, hf⟩ | ⟨l, a, b, r, hla, hbr, hl, ha, hb, hr', he⟩
  · refine ⟨fun hin => ?_, fun _ => hf⟩
    exfalso
    rcases hflat with h | h
    · obtain ⟨v, hv, hlt⟩ := inside_below hc hin
      exact absurd (h v ((hmv v).mpr hv)) (not_le.mpr hlt)
    · obtain ⟨v, hv, hle⟩ := inside_above hc hin
      exact absurd (h v ((hmv v).mpr hv)) (not_lt.mpr hle)
  · rw [he, toggles_up hl ha, toggles_down hr' hb]
    refine ⟨fun hin => ?_, fun hout => ?_⟩
    · rw [decide_eq_true (hin _ ((hmem _).mp hla)), decide_eq_false (not_lt.mpr (hin _ ((hmem _).mp hbr)).le)]
      rfl
    · obtain ⟨⟨c, d⟩, hcd, hneg⟩ := hout
      simp only at hneg
      have hN : ∀ v ∈ v0 :: rest, 0 ≤ area2 c d v := fun v hv => side_nonneg hc hcd ((hmv v).mp hv)
      have hM : ∀ v ∈ v0 :: rest, 0 ≤ area2 l a v := fun v hv => side_nonneg hc' hla hv
      have d1 : 0 < a.y - l.y := by linarith
      have d2 : 0 < b.y - r.y := by linarith
      -- the crossing points
      obtain ⟨X1, hX1⟩ : ∃ X, X * (a.y - l.y) = l.x * (a.y - p.y) + a.x * (p.y - l.y) := ⟨_, div_mul_cancel₀ _ d1.ne'⟩
      obtain ⟨X2, hX2⟩ : ∃ X, X * (b.y - r.y) = r.x * (b.y - p.y) + b.x * (p.y - r.y) := ⟨_, div_mul_cancel₀ _ d2.ne'⟩
      have a1 : area2 l a p = (X1 - p.x) * (a.y - l.y) := by
        have : (X1 - p.x) * (a.y - l.y) = X1 * (a.y - l.y) - p.x * (a.y - l.y) := by ring
        rw [this, hX1]; unfold area2; ring
      have a2 : area2 b r p = (p.x - X2) * (b.y - r.y) := by
        have : (p.x - X2) * (b.y - r.y) = p.x * (b.y - r.y) - X2 * (b.y - r.y) := by ring
        rw [this, hX2]; unfold area2; ring
      have f1 := area2_between (c := c) (d := d) hl ha (hN l (fst_mem_of_dirSides hla)) (hN a (snd_mem_of_dirSides hla)) hX1
      have f2 := area2_between (c := c) (d := d) hr' hb (hN r (snd_mem_of_dirSides hbr)) (hN b (fst_mem_of_dirSides hbr)) hX2
      have f3 := area2_between (c := l) (d := a) hr' hb (hM r (snd_mem_of_dirSides hbr)) (hM b (fst_mem_of_dirSides hbr)) hX2
      by_cases c1 : 0 < area2 l a p <;> by_cases c2 : area2 b r p < 0
      · rw [decide_eq_true c1, decide_eq_true c2]; rfl
      · exfalso
        rw [a1] at c1
        rw [a2] at c2
        have g1 : 0 < X1 - p.x := (mul_pos_iff_of_pos_right d1).mp c1
        have g2 : 0 ≤ p.x - X2 := nonneg_of_mul_nonneg_left (not_lt.mp c2) d2
        have : (X1 - X2) * area2 c d p = (X1 - p.x) * area2 c d ⟨X2, p.y⟩ + (p.x - X2) * area2 c d ⟨X1, p.y⟩ := by unfold area2; ring
        have h1 : 0 ≤ (X1 - X2) * area2 c d p := by
          rw [this]; exact add_nonneg (mul_nonneg g1.le f2) (mul_nonneg g2 f1)
        have h2 : (X1 - X2) * area2 c d p < 0 := mul_neg_of_pos_of_neg (by linarith) hneg
        linarith
      · exfalso
        rw [a1] at c1
        rw [a2] at c2
        have g1 : X1 - p.x ≤ 0 := by
          by_contra h
          exact c1 (mul_pos (not_le.mp h) d1)
        have g2 : p.x - X2 < 0 := by
          by_contra h
          exact absurd c2 (not_lt.mpr (mul_nonneg (not_lt.mp h) d2.le))
        have : area2 l a ⟨X2, p.y⟩ = (X1 - X2) * (a.y - l.y) := by
          have : (X1 - X2) * (a.y - l.y) = X1 * (a.y - l.y) - X2 * (a.y - l.y) := by ring
          rw [this, hX1]; unfold area2; ring
        rw [this] at f3
        have : (X1 - X2) * (a.y - l.y) < 0 := mul_neg_of_neg_of_pos (by linarith) d1
        linarith
      · rw [decide_eq_false c1, decide_eq_false c2]; rfl
end
end Verif.Geom
