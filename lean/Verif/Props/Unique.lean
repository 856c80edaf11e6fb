import Verif.Props.Hash
/- C21: `uniquePoints`. -/
namespace Verif.Hash
open Verif Verif.Points Verif.Geom
open scoped Classical

theorem lookup_keys {α : Type} (key : α → Key) (h : Key) : ∀ (u : List α) (o : Nat),
    ((u.map key).zipIdx o).lookup h = ((u.map key).findIdx? (fun k => k == h)).map (fun i => i + o)
  | [], o => rfl
  | a :: u, o => by
    rw [List.map_cons, List.zipIdx_cons, List.lookup_cons, List.findIdx?_cons]
    by_cases e : h = key a
    · subst e; simp
    · rw [if_neg (by simpa using fun he => e he.symm)]
      have : (h == key a) = false := by simpa using e
      rw [this]
      dsimp only
      rw [lookup_keys key h u (o + 1), Option.map_map]
      congr 1
      funext i
      simp only [Function.comp_apply]
      omega


theorem uniqueLoop_spec {α : Type} {hash : α → Res Key} {check : Key → Res Unit} {key : α → Key} :
    ∀ (ps done u : List α) (ix : List Nat), (∀ p ∈ ps, hash p = .ok (key p) ∧ check (key p) = .ok ()) → FirstOf (fun a b => key a = key b) done u ix →
      ∃ u' ix', uniqueLoop hash check ps ((u.map key).zipIdx 0) u ix = .ok (u', ix') ∧ FirstOf (fun a b => key a = key b) (done ++ ps) u' ix'
  | [], done, u, ix, _, h => ⟨u, ix, rfl, by simpa using h⟩
  | p :: ps, done, u, ix, hk, h => by
    obtain ⟨h1, h2⟩ := hk p (by simp)
    unfold uniqueLoop
    rw [h1, Res.ok_bind]
    have hl := lookup_keys key (key p) u 0
    simp only [Nat.add_zero] at hl
    have app : done ++ p :: ps = (done ++ [p]) ++ ps := by simp
    rw [app]
    cases hf : (u.map key).findIdx? (fun k => k == key p) with
    | none =>
      rw [hf] at hl
      rw [hl]
      dsimp only [Option.map_none]
      rw [h2, Res.ok_bind]
      have hnew : ∀ a ∈ u, key a ≠ key p := by
        intro a ha e
        have := List.findIdx?_eq_none_iff.mp hf (key a) (List.mem_map_of_mem ha)
        simp [e] at this
      have ez : (u.map key).zipIdx 0 ++ [(key p, u.length)] = ((u ++ [p]).map key).zipIdx 0 := by
        rw [List.map_append, List.zipIdx_append]; simp
      rw [ez]
      refine uniqueLoop_spec ps (done ++ [p]) (u ++ [p]) (ix ++ [u.length]) (fun q hq => hk q (by simp [hq])) ⟨by simp [h.length], ?_, ?_, ?_⟩
      · intro i q hq
        rcases Nat.lt_or_ge i done.length with hi | hi
        · rw [List.getElem?_append_left hi] at hq
          obtain ⟨k, r, a, b, c⟩ := h.maps i q hq
          have hk' : k < u.length := (List.getElem?_eq_some_iff.mp b).1
          exact ⟨k, r, by rw [List.getElem?_append_left (by rw [h.length]; exact hi), a], by rw [List.getElem?_append_left hk', b], c⟩
        · rw [List.getElem?_append_right hi] at hq
          have hi0 : i - done.length = 0 := by
            by_contra hne
            rw [List.getElem?_eq_none (by simp; omega)] at hq
            cases hq
          rw [hi0] at hq
          have hqp : p = q := by simpa using hq
          subst hqp
          refine ⟨u.length, p, ?_, by simp, rfl⟩
          rw [List.getElem?_append_right (by rw [h.length]; exact hi), h.length, hi0]; rfl
      · rw [List.pairwise_append]
        exact ⟨h.distinct, by simp, fun a ha b hb => by rw [List.mem_singleton.mp hb]; exact hnew a ha⟩
      · intro k r hr
        rcases Nat.lt_or_ge k u.length with hku | hku
        · rw [List.getElem?_append_left hku] at hr
          obtain ⟨i, a, b, c⟩ := h.first k r hr
          have hi : i < done.length := (List.getElem?_eq_some_iff.mp a).1
          refine ⟨i, by rw [List.getElem?_append_left hi, a], by rw [List.getElem?_append_left (by rw [h.length]; exact hi), b], fun j hj => ?_⟩
          obtain ⟨k', x, y⟩ := c j hj
          exact ⟨k', x, by rw [List.getElem?_append_left (by rw [h.length]; omega), y]⟩
        · rw [List.getElem?_append_right hku] at hr
          have hk0 : k - u.length = 0 := by
            by_contra hne
            rw [List.getElem?_eq_none (by simp; omega)] at hr
            cases hr
          rw [hk0] at hr
          have hpr : p = r := by simpa using hr
          subst hpr
          have hk1 : k = u.length := by omega
          subst hk1
          refine ⟨done.length, by simp, by rw [← h.length]; simp, fun j hj => ?_⟩
          obtain ⟨q, hq⟩ : ∃ q, done[j]? = some q := ⟨_, List.getElem?_eq_getElem hj⟩
          obtain ⟨k', r', a, b, _⟩ := h.maps j q hq
          exact ⟨k', (List.getElem?_eq_some_iff.mp b).1, by rw [List.getElem?_append_left (by rw [h.length]; omega), a]⟩
    | some m =>
      rw [hf] at hl
      rw [hl]
      dsimp only [Option.map_some]
      obtain ⟨hm, hm2, _⟩ := List.findIdx?_eq_some_iff_getElem.mp hf
      have hmu : m < u.length := by simpa using hm
      have hkm : key u[m] = key p := by simpa using hm2
      refine uniqueLoop_spec ps (done ++ [p]) u (ix ++ [m]) (fun q hq => hk q (by simp [hq])) ⟨by simp [h.length], ?_, h.distinct, ?_⟩
      · intro i q hq
        rcases Nat.lt_or_ge i done.length with hi | hi
        · rw [List.getElem?_append_left hi] at hq
          obtain ⟨k, r, a, b, c⟩ := h.maps i q hq
          exact ⟨k, r, by rw [List.getElem?_append_left (by rw [h.length]; exact hi), a], b, c⟩
        · rw [List.getElem?_append_right hi] at hq
          have hi0 : i - done.length = 0 := by
            by_contra hne
            rw [List.getElem?_eq_none (by simp; omega)] at hq
            cases hq
          rw [hi0] at hq
          have hqp : p = q := by simpa using hq
          subst hqp
          refine ⟨m, u[m], ?_, List.getElem?_eq_getElem hmu, hkm⟩
          rw [List.getElem?_append_right (by rw [h.length]; exact hi), h.length, hi0]; rfl
      · intro k r hr
        obtain ⟨i, a, b, c⟩ := h.first k r hr
        have hi : i < done.length := (List.getElem?_eq_some_iff.mp a).1
        refine ⟨i, by rw [List.getElem?_append_left hi, a], by rw [List.getElem?_append_left (by rw [h.length]; exact hi), b], fun j hj => ?_⟩
        obtain ⟨k', x, y⟩ := c j hj
        exact ⟨k', x, by rw [List.getElem?_append_left (by rw [h.length]; omega), y]⟩

theorem FirstOf.nil {α : Type} (same : α → α → Prop) : FirstOf same [] [] [] := ⟨rfl, by simp, by simp, by simp⟩

/-- The same with an equivalent relation on the points. -/
theorem FirstOf.congr {α : Type} {s t : α → α → Prop} {points uniq : List α} {ix : List Nat} (h : FirstOf s points uniq ix) (hst : ∀ a ∈ points, ∀ b ∈ points, (s a b ↔ t a b)) : FirstOf t points uniq ix := by
  have hm : ∀ r ∈ uniq, r ∈ points := by
    intro r hr
    obtain ⟨k, hk⟩ := List.mem_iff_getElem?.mp hr
    obtain ⟨i, hi, _⟩ := h.first k r hk
    exact List.mem_iff_getElem?.mpr ⟨i, hi⟩
  refine ⟨h.length, ?_, ?_, h.first⟩
  · intro i p hp
    obtain ⟨k, r, a, b, c⟩ := h.maps i p hp
    exact ⟨k, r, a, b, (hst r (hm r (List.mem_iff_getElem?.mpr ⟨k, b⟩)) p (List.mem_iff_getElem?.mpr ⟨i, hp⟩)).mp c⟩
  · exact h.distinct.imp_of_mem (fun {a b} ha hb hab hs => hab ((hst a (hm a ha) b (hm b hb)).mpr hs))

/-- If no two points are equal, nothing is changed. -/
theorem FirstOf.unchanged {α : Type} {same : α → α → Prop} {points uniq : List α} {ix : List Nat} (h : FirstOf same points uniq ix)
    (hsymm : ∀ a b, same a b → same b a) (hrefl : ∀ a, same a a) (hd : points.Pairwise fun a b => ¬ same a b) : uniq = points ∧ ix = List.range points.length := by
  have key : ∀ (i : Nat) (p : α), points[i]? = some p → ix[i]? = some i ∧ uniq[i]? = some p := by
    intro i
    induction i using Nat.strong_induction_on with
    | _ i ih =>
      intro p hp
      obtain ⟨k, r, a, b, c⟩ := h.maps i p hp
      obtain ⟨i', a', b', c'⟩ := h.first k r b
      -- the entry is the point itself
      have hii : i' = i := by
        obtain ⟨hi, ei⟩ := List.getElem?_eq_some_iff.mp hp
        obtain ⟨hi', ei'⟩ := List.getElem?_eq_some_iff.mp a'
        rw [List.pairwise_iff_getElem] at hd
        rcases Nat.lt_trichotomy i' i with hlt | heq | hgt
        · exact absurd (by rw [ei, ei']; exact c) (hd i' i hi' hi hlt)
        · exact heq
        · exact absurd (by rw [ei, ei']; exact hsymm _ _ c) (hd i i' hi hi' hgt)
      subst hii
      have hpr : r = p := by rw [hp] at a'; exact (Option.some.inj a').symm
      subst hpr
      -- and its number is the number of points before
      have hki : k = i' := by
        have hle : ∀ j < i', j < k := by
          intro j hj
          obtain ⟨q, hq⟩ : ∃ q, points[j]? = some q := ⟨_, List.getElem?_eq_getElem (by have := (List.getElem?_eq_some_iff.mp hp).1; omega)⟩
          obtain ⟨k', x, y⟩ := c' j hj
          rw [(ih j hj q hq).1] at y
          have := Option.some.inj y
          omega
        rcases Nat.lt_trichotomy k i' with hlt | heq | hgt
        · exact absurd (hle k hlt) (lt_irrefl _)
        · exact heq
        · -- the entry number i' is some point with only smaller numbers before it
          have hiu : i' < uniq.length := by have := (List.getElem?_eq_some_iff.mp b).1; omega
          obtain ⟨m, am, bm, cm⟩ := h.first i' _ (List.getElem?_eq_getElem hiu)
          rcases Nat.lt_trichotomy m i' with hm | hm | hm
          · obtain ⟨q, hq⟩ : ∃ q, points[m]? = some q := ⟨_, List.getElem?_eq_getElem (by have := (List.getElem?_eq_some_iff.mp hp).1; omega)⟩
            rw [(ih m hm q hq).1] at bm
            have := Option.some.inj bm; omega
          · subst hm
            rw [a] at bm
            exact Option.some.inj bm
          · obtain ⟨k', x, y⟩ := cm i' hm
            rw [a] at y
            have := Option.some.inj y; omega
      subst hki
      exact ⟨a, b⟩
  have hlen : uniq.length = points.length := by
    rcases Nat.lt_trichotomy uniq.length points.length with hlt | heq | hgt
    · have := (key uniq.length _ (List.getElem?_eq_getElem hlt)).2
      rw [List.getElem?_eq_none (le_refl _)] at this; cases this
    · exact heq
    · obtain ⟨i, a, b, _⟩ := h.first points.length _ (List.getElem?_eq_getElem hgt)
      have hi := (List.getElem?_eq_some_iff.mp a).1
      rw [(key i _ a).1] at b
      have := Option.some.inj b; omega
  constructor
  · apply List.ext_getElem? 
    intro i
    rcases Nat.lt_or_ge i points.length with hi | hi
    · rw [(key i _ (List.getElem?_eq_getElem hi)).2, List.getElem?_eq_getElem hi]
    · rw [List.getElem?_eq_none hi, List.getElem?_eq_none (by omega)]
  · apply List.ext_getElem? 
    intro i
    rcases Nat.lt_or_ge i points.length with hi | hi
    · rw [(key i _ (List.getElem?_eq_getElem hi)).1, List.getElem?_range hi]
    · rw [List.getElem?_eq_none (by rw [h.length]; exact hi), List.getElem?_eq_none (by simp; exact hi)]

/-- The same column of cells, and rows that differ by an even number: what the 2D hash sees. -/
def sameHash (eps tol : ℝ) (b : HBox) (p q : V2 ℝ) : Prop :=
  cellIx max2 eps tol b.lo.x b.hi.x p.x = cellIx max2 eps tol b.lo.x b.hi.x q.x ∧ (cellIx max2 eps tol b.lo.y b.hi.y p.y - cellIx max2 eps tol b.lo.y b.hi.y q.y) % 2 = 0

/-- C21: with wrapping shifts `uniquePoints` in 2D keeps the first point of every class and numbers the classes in the order of appearance, and a list of distinct points is
returned as it is. Missing: the classes are those of the hash, which are larger than the quantization cells. -/
theorem C21_partial (big : Key → Nat → Key) (dbg : Bool) {eps tol : ℝ} (he : 0 < eps) {b : HBox} (hb : nested b b) {points : List (V2 ℝ)} (hp : ∀ p ∈ points, inBox b p) :
    ∃ uniq ix, uniquePoints2 (wrapping big) dbg eps tol b points = .ok (uniq, ix) ∧ FirstOf (sameHash eps tol b) points uniq ix ∧
      (points.Pairwise (fun p q => ¬ sameHash eps tol b p q) → uniq = points ∧ ix = List.range points.length) := by
  obtain ⟨u, ix, h1, h2⟩ := uniqueLoop_spec (hash := hashPosition2 (wrapping big) dbg eps tol b b) (check := fun h => do let _ ← unhashPosition2 (wrapping big) dbg eps tol b b h; return ())
    (key := fun p => packed (cellX eps tol b p) (cellY eps tol b p)) points [] [] [] (fun p hpm => by
      obtain ⟨h, p', e1, e2, _⟩ := C37_unhash_partial big dbg (tol := tol) he hb (hp p hpm)
      rw [hash_inner big dbg he hb (hp p hpm)] at e1
      refine ⟨hash_inner big dbg he hb (hp p hpm), ?_⟩
      rw [Res.ok.inj e1, e2]; rfl) (FirstOf.nil _)
  have h3 : FirstOf (sameHash eps tol b) points u ix := by
    refine (show FirstOf _ points u ix from h2).congr ?_
    intro a ha c hc
    have ha' := hp a ha
    have hc' := hp c hc
    rw [packed_inj (cellX_lt he ha') (cellX_lt he hc')]
    obtain ⟨e1, e2⟩ := cell_cast (tol := tol) he ha'
    obtain ⟨e3, e4⟩ := cell_cast (tol := tol) he hc'
    unfold sameHash
    omega
  refine ⟨u, ix, h1, h3, fun hd => h3.unchanged ?_ ?_ hd⟩
  · rintro x y ⟨e1, e2⟩; exact ⟨e1.symm, by omega⟩
  · intro x; exact ⟨rfl, by omega⟩

/-- Two generators at the bottom and an even number of cells above it, up to next to the top of the bounding box, are taken to be one. -/
theorem C21_fails (big : Key → Nat → Key) (dbg : Bool) {eps tol : ℝ} (he : 0 < eps) {b : HBox} (hx : b.lo.x ≤ b.hi.x) (hy : max tol eps ≤ (b.hi.y - b.lo.y) / (2147483647 : ℝ)) {x : ℝ} (h1 : b.lo.x ≤ x) (h2 : x ≤ b.hi.x)
    {k : Nat} (hk : 2 * k ≤ 2147483647) :
    uniquePoints2 (wrapping big) dbg eps tol b [⟨x, b.lo.y⟩, ⟨x, b.lo.y + (2 * k : Nat) * ((b.hi.y - b.lo.y) / (2147483647 : ℝ))⟩] = .ok ([⟨x, b.lo.y⟩], [0, 0]) := by
  obtain ⟨h, e1, e2⟩ := C37_collision_fails big dbg he hx hy h1 h2 hk
  have hd : 0 < (b.hi.y - b.lo.y) / (2147483647 : ℝ) := lt_of_lt_of_le (lt_of_lt_of_le he (le_max_right _ _)) hy
  have hyy : b.lo.y ≤ b.hi.y := by
    by_contra hcon
    have := div_nonpos_of_nonpos_of_nonneg (by linarith : b.hi.y - b.lo.y ≤ 0) (by norm_num : (0 : ℝ) ≤ 2147483647)
    linarith
  have hb : nested b b := ⟨⟨le_refl _, le_refl _⟩, ⟨le_refl _, le_refl _⟩, hx, hyy⟩
  obtain ⟨h', p', f1, f2, _⟩ := C37_unhash_partial big dbg (tol := tol) he hb (p := ⟨x, b.lo.y⟩) ⟨⟨h1, h2⟩, le_refl _, hyy⟩
  rw [e1] at f1
  rw [← Res.ok.inj f1] at f2
  unfold uniquePoints2 uniqueLoop
  rw [e1, Res.ok_bind]
  simp only [List.lookup_nil, List.length_nil, List.nil_append]
  rw [f2, Res.ok_bind]
  show uniqueLoop _ _ _ _ _ _ = _
  unfold uniqueLoop
  rw [e2, Res.ok_bind]
  simp [uniqueLoop]

/-- By the language standard `uniquePoints` is undefined in 2D and 3D for every list of points of the box that is not empty. -/
theorem C21_undefined_fails (dbg : Bool) {eps tol : ℝ} (he : 0 < eps) {b : HBox} (hb : nested b b) {b3 : HBox3} (hb3 : nested3 b3 b3) {p : V2 ℝ} (hp : inBox b p) {p3 : V3 ℝ} (hp3 : inBox3 b3 p3) (ps : List (V2 ℝ)) (ps3 : List (V3 ℝ)) :
    uniquePoints2 standard dbg eps tol b (p :: ps) = .ub ∧ uniquePoints3 standard dbg eps tol b3 (p3 :: ps3) = .ub := by
  constructor
  · unfold uniquePoints2 uniqueLoop
    have hu : ∀ h, unhashPosition2 standard dbg eps tol b b h = .ub := by
      intro h
      unfold unhashPosition2
      rw [Res.assert_true dbg hb, Res.ok_bind]
      have : qy2 standard h = .ub := rfl
      rw [this]; rfl
    have hh : hashPosition2 standard dbg eps tol b b p = .ub ∨ ∃ h, hashPosition2 standard dbg eps tol b b p = .ok h := by
      unfold hashPosition2
      rw [Res.assert_true dbg hb, Res.ok_bind, Res.assert_true dbg hp, Res.ok_bind]
      have hin : ¬ (p.x < b.lo.x ∨ b.hi.x < p.x ∨ p.y < b.lo.y ∨ b.hi.y < p.y) := by
        obtain ⟨⟨p1, p2⟩, p3, p4⟩ := hp
        rintro (h | h | h | h) <;> linarith
      simp only [if_neg hin]
      rw [quantCoord_ok (by decide) (by decide) he hp.1.1 hp.1.2, Res.ok_bind, quantCoord_ok (by decide) (by decide) he hp.2.1 hp.2.2, Res.ok_bind]
      unfold hash2 standard
      dsimp only
      split
      · rw [Res.ok_bind]
        split
        · rw [Res.ok_bind]; split
          · exact Or.inr ⟨_, rfl⟩
          · exact Or.inl rfl
        · exact Or.inl rfl
      · exact Or.inl rfl
    rcases hh with hh | ⟨h, hh⟩
    · rw [hh]; rfl
    · rw [hh, Res.ok_bind]
      simp only [List.lookup_nil, hu]
      rfl
  · unfold uniquePoints3 uniqueLoop
    rw [C37_3d_undefined_fails he hp3 dbg hb3]; rfl

/-- Two points of the unit box in the same class, and one in another. -/
example : sameHash (1 / 2 ^ 52) 0 ⟨⟨0, 0⟩, ⟨2147483647, 2147483647⟩⟩ ⟨3, 4⟩ ⟨3, 2000⟩ ∧ ¬ sameHash (1 / 2 ^ 52) 0 ⟨⟨0, 0⟩, ⟨2147483647, 2147483647⟩⟩ ⟨3, 4⟩ ⟨4, 4⟩ := by
  have w : width max2 (1 / 2 ^ 52) 0 0 2147483647 = 1 := by
    unfold width max2
    rw [max_eq_left]
    · norm_num
    · rw [max_le_iff]; norm_num
  unfold sameHash cellIx
  simp only [w]
  norm_num
end Verif.Hash
