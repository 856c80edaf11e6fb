import Verif.Proofs.IntPointMapHistory
/-
C18. The tolerant point map `IntPointMap<Dimension, IntType>`: histories of `index` queries, and `have`. `Near` and `Answers` are in `Spec/IntPointMap.lean`.
-/
namespace Verif.PointMap
open Verif

/-- C18. Every history of queries of the right dimension on a fresh map is answered correctly: one answer per query, ids dense in order of creation, every answer
an id whose stored point is within the tolerance in every coordinate, a new id only when no stored point matches, and the same id again for a stored point.
The only other outcome is the debug build stopping at its assertion, and then some query lies within the tolerance of two queries that are not within the
tolerance of each other. -/
theorem C18_history (dbg : Bool) (D : Nat) (hD : 0 < D) (tol : Int) (ht : 0 ≤ tol) (qs : List (List Int)) (hq : ∀ p ∈ qs, p.length = D) :
    (∃ ids m reps, indices dbg qs (new D tol) = .ok (ids, m) ∧ Answers tol qs ids reps) ∨
    (dbg = true ∧ indices dbg qs (new D tol) = .abort ∧ ∃ p ∈ qs, ∃ q ∈ qs, ∃ q' ∈ qs, Near tol p q ∧ Near tol p q' ∧ ¬ Near tol q q') := by
  rcases indices_spec dbg hD ht qs (good_new D tol) hq with ⟨ids, m, reps, pts, e, h⟩ | ⟨hd, e, h⟩
  · exact Or.inl ⟨ids, m, reps, e, by simpa using h.ans⟩
  · exact Or.inr ⟨hd, e, by simpa using h⟩

/-- C18, consequence: the release build always answers. -/
theorem C18_release_total (D : Nat) (hD : 0 < D) (tol : Int) (ht : 0 ≤ tol) (qs : List (List Int)) (hq : ∀ p ∈ qs, p.length = D) :
    ∃ ids m reps, indices false qs (new D tol) = .ok (ids, m) ∧ Answers tol qs ids reps := by
  rcases C18_history false D hD tol ht qs hq with h | ⟨h, _⟩
  · exact h
  · simp at h

/-- C18, consequence: when matching is transitive on the queries (clusters are separated), both builds answer, and two queries get the same id exactly when
they match. -/
theorem C18_clusters (dbg : Bool) (D : Nat) (hD : 0 < D) (tol : Int) (ht : 0 ≤ tol) (qs : List (List Int)) (hq : ∀ p ∈ qs, p.length = D)
    (htr : ∀ p ∈ qs, ∀ q ∈ qs, ∀ q' ∈ qs, Near tol p q → Near tol p q' → Near tol q q') :
    ∃ ids m, indices dbg qs (new D tol) = .ok (ids, m) ∧
      ∀ (s t : Nat) (p q : List Int), qs[s]? = some p → qs[t]? = some q → (ids[s]? = ids[t]? ↔ Near tol p q) := by
  rcases C18_history dbg D hD tol ht qs hq with ⟨ids, m, reps, e, h⟩ | ⟨_, _, p, hp, q, hq', q', hq'', h1, h2, h3⟩
  · refine ⟨ids, m, e, ?_⟩
    intro s t p q hs htq
    have hsl : s < ids.length := by rw [h.length]; exact (List.getElem?_eq_some_iff.1 hs).1
    have htl : t < ids.length := by rw [h.length]; exact (List.getElem?_eq_some_iff.1 htq).1
    obtain ⟨r, a, r1, r2, r3, r4⟩ := h.near s ids[s] p (List.getElem?_eq_getElem hsl) hs
    obtain ⟨r', a', r1', r2', r3', r4'⟩ := h.near t ids[t] q (List.getElem?_eq_getElem htl) htq
    have mem : ∀ {i : Nat} {x : List Int}, qs[i]? = some x → x ∈ qs := fun h => List.mem_of_getElem? h
    rw [List.getElem?_eq_getElem hsl, List.getElem?_eq_getElem htl, Option.some.injEq]
    constructor
    · intro hid
      rw [hid] at r1
      have : r = r' := by rw [r1] at r1'; simpa using r1'
      subst this
      have : a = a' := by rw [r3] at r3'; simpa using r3'
      subst this
      exact htr a (mem r3) p (mem hs) q (mem htq) r4.symm r4'.symm
    · intro hn
      have haq : Near tol a q := htr p (mem hs) a (mem r3) q (mem htq) r4 hn
      have haa : Near tol a a' := htr q (mem htq) a (mem r3) a' (mem r3') haq.symm r4'
      rcases Nat.lt_trichotomy ids[s] ids[t] with hlt | heq | hlt
      · exact absurd haa.symm (h.fresh _ _ r r' a' a hlt r1 r1' r3 r3')
      · exact heq
      · exact absurd haa (h.fresh _ _ r' r a a' hlt r1' r1 r3' r3)
  · exact absurd (htr p hp q hq' q' hq'' h1 h2) h3

/-- C18, `have`: after any history, a query matching a stored point is reported as present (every dimension). -/
theorem C18_have_complete (dbg : Bool) (D : Nat) (hD : 0 < D) (tol : Int) (ht : 0 ≤ tol) (qs : List (List Int)) (hq : ∀ p ∈ qs, p.length = D)
    (ids : List Nat) (m : PMap) (h : indices dbg qs (new D tol) = .ok (ids, m)) (p : List Int) (hp : p.length = D) (k : Nat)
    (hidx : index false m p = .ok (k, m)) : «have» m p = true := by
  rcases indices_spec dbg hD ht qs (good_new D tol) hq with ⟨ids', m', reps, pts, e, g⟩ | ⟨_, e, _⟩
  · rw [h] at e
    simp only [Res.ok.injEq, Prod.mk.injEq] at e
    obtain ⟨rfl, rfl⟩ := e
    obtain ⟨D, rfl⟩ : ∃ D', D = D' + 1 := ⟨D - 1, by omega⟩
    have ht' : 0 ≤ m.tol := by rw [g.tol_eq]; exact ht
    obtain ⟨s1, _⟩ := index_spec false g.holds hD ht' hp
    rcases first_match m.tol p pts with hno | ⟨k', q, hk, hn, _⟩
    · obtain ⟨m', e, hm, _⟩ := s1 hno
      rw [hidx] at e
      simp only [Res.ok.injEq, Prod.mk.injEq] at e
      have := hm.cur
      rw [← e.2, g.holds.cur] at this
      simp at this
    · exact have_of_near g.holds ht' hp hk hn
  · rw [h] at e; simp at e

/-- C18, `have`, in one and two dimensions: it is true exactly when `index` would return an id without changing the map; otherwise `index` creates a new id.
Partial: the property claims this in three dimensions as well, where it is false (`C18_have_3d_fails`). -/
theorem C18_have_partial (dbg : Bool) (D : Nat) (hD : 0 < D) (hD2 : D ≤ 2) (tol : Int) (ht : 0 ≤ tol) (qs : List (List Int)) (hq : ∀ p ∈ qs, p.length = D)
    (ids : List Nat) (m : PMap) (h : indices dbg qs (new D tol) = .ok (ids, m)) (p : List Int) (hp : p.length = D) :
    («have» m p = true ↔ ∃ k, k ∈ ids ∧ index false m p = .ok (k, m)) ∧
    («have» m p = false ↔ ∃ m', index false m p = .ok (m.cur, m') ∧ m.cur ∉ ids) := by
  rcases indices_spec dbg hD ht qs (good_new D tol) hq with ⟨ids', m', reps, pts, e, g⟩ | ⟨_, e, _⟩
  · rw [h] at e
    simp only [Res.ok.injEq, Prod.mk.injEq] at e
    obtain ⟨rfl, rfl⟩ := e
    simp only [List.nil_append] at g
    obtain ⟨D, rfl⟩ : ∃ D', D = D' + 1 := ⟨D - 1, by omega⟩
    have ht' : 0 ≤ m.tol := by rw [g.tol_eq]; exact ht
    have hids : ∀ k, k ∈ ids ↔ k < pts.length := by
      intro k
      constructor
      · intro hk
        obtain ⟨t, hlt, hkt⟩ := List.getElem_of_mem hk
        have hlt' : t < qs.length := by rw [← g.ans.length]; exact hlt
        obtain ⟨r, _, h1, _⟩ := g.ans.near t k qs[t] (by rw [← hkt]; exact List.getElem?_eq_getElem hlt)
          (List.getElem?_eq_getElem hlt')
        rw [g.len]; exact (List.getElem?_eq_some_iff.1 h1).1
      · intro hk
        rw [g.len] at hk
        exact List.mem_of_getElem? (g.ans.first k _ (List.getElem?_eq_getElem hk))
    obtain ⟨s1, s2⟩ := index_spec false g.holds hD ht' hp
    rcases first_match m.tol p pts with hno | ⟨k, q, hk, hn, hmin⟩
    · obtain ⟨m', e, hm, _⟩ := s1 hno
      have hf : «have» m p = false := by
        cases hb : «have» m p with
        | false => rfl
        | true =>
          obtain ⟨k, q, hk, hn⟩ := near_of_have hD2 g.holds ht' hp hb
          exact absurd hn (hno k q hk)
      refine ⟨?_, ?_⟩
      · rw [hf]
        simp only [Bool.false_eq_true, false_iff, not_exists, not_and]
        intro k hk e'
        rw [e] at e'
        simp only [Res.ok.injEq, Prod.mk.injEq] at e'
        have := (hids k).1 hk
        omega
      · refine ⟨fun _ => ⟨m', by rw [e, g.holds.cur], ?_⟩, fun _ => hf⟩
        rw [hids, g.holds.cur]; omega
    · have hb := have_of_near g.holds ht' hp hk hn
      have hidx : index false m p = .ok (k, m) := by
        obtain ⟨u1, u2⟩ := s2 k q hk hn hmin
        by_cases huniq : ∀ (j : Nat) (q' : List Int), pts[j]? = some q' → Near m.tol p q' → k = j
        · exact u1 huniq
        · push Not at huniq
          obtain ⟨j, q', hj, hn', hne⟩ := huniq
          exact u2 ⟨j, q', hj, hn', hne⟩
      have hkl : k < pts.length := (List.getElem?_eq_some_iff.1 hk).1
      refine ⟨⟨fun _ => ⟨k, (hids k).2 hkl, hidx⟩, fun _ => hb⟩, ?_⟩
      rw [hb]
      simp only [Bool.true_eq_false, false_iff, not_exists, not_and]
      intro m' e
      rw [hidx] at e
      simp only [Res.ok.injEq, Prod.mk.injEq] at e
      have := g.holds.cur
      omega
  · rw [h] at e; simp at e

/-- C18 is false for `have` in three dimensions, whatever the tolerance: after storing two points, the query `(0,0,0)` is reported as present although `index` would
give it a new id. (`have` never narrows the candidate ids while it goes through the coordinates.) -/
theorem C18_have_3d_fails (tol : Int) (ht : 0 ≤ tol) :
    ∃ (qs : List (List Int)) (m m' : PMap), (∀ p ∈ qs, p.length = 3) ∧ indices true qs (new 3 tol) = .ok ([0, 1], m) ∧
      «have» m [0, 0, 0] = true ∧ index true m [0, 0, 0] = .ok (2, m') := by
  have hlen : ∀ p ∈ [[0, 0, 2 * tol + 1], [0, 2 * tol + 1, 0]], p.length = 3 := by simp
  rcases indices_spec true (D := 3) (by omega) ht [[0, 0, 2 * tol + 1], [0, 2 * tol + 1, 0]] (good_new 3 tol) hlen with
    ⟨ids, m, reps, pts, e, g⟩ | ⟨_, _, p, hp, q, hq, q', hq', h1, h2, h3⟩
  · simp only [List.nil_append] at g
    have g1 := g.ans
    -- the two points do not match, so they are both stored
    have hne : ¬ Near tol [0, 2 * tol + 1, 0] [0, 0, 2 * tol + 1] := by
      unfold Near; simp only [List.forall₂_cons]; omega
    have hl := g1.length
    match ids, hl with
    | [a, b], _ =>
      obtain ⟨r, q, r1, r2, r3, r4⟩ := g1.near 0 a [0, 0, 2 * tol + 1] rfl rfl
      obtain ⟨r', q', r1', r2', r3', r4'⟩ := g1.near 1 b [0, 2 * tol + 1, 0] rfl rfl
      have hr : r = 0 := by omega
      subst hr
      have hr' : r' = 1 := by
        rcases Nat.eq_or_lt_of_le r2' with h | h
        · exact h
        · have : r' = 0 := by omega
          subst this
          simp at r3'
          subst r3'
          exact absurd r4' hne
      subst hr'
      have hbound : ∀ (k r : Nat), reps[k]? = some r → r < 2 := by
        intro k r hk
        exact g.lt hk
      have hinc := List.pairwise_iff_getElem.1 g1.incr
      obtain ⟨ha, ha'⟩ := List.getElem?_eq_some_iff.1 r1
      obtain ⟨hb, hb'⟩ := List.getElem?_eq_some_iff.1 r1'
      have hab : a < b := by
        rcases Nat.lt_trichotomy a b with h | h | h
        · exact h
        · subst h; omega
        · have := hinc b a hb ha h; omega
      have ha0 : a = 0 := by
        rcases Nat.eq_zero_or_pos a with h | h
        · exact h
        · have := hinc 0 a (by omega) ha h; omega
      have hb1 : b = 1 := by
        by_contra hcon
        have h1 := hinc 1 b (by omega) hb (by omega)
        have h2 := hinc 0 1 (by omega) (by omega) (by omega)
        omega
      have hrl : reps.length = 2 := by
        by_contra hcon
        have h1 := hinc 1 2 (by omega) (by omega) (by omega)
        have h2 := hbound 2 reps[2] (List.getElem?_eq_getElem (by omega))
        subst hb1; omega
      subst ha0 hb1
      have hpts : pts = [[0, 0, 2 * tol + 1], [0, 2 * tol + 1, 0]] := by
        have p0 := g.stored 0
        have p1 := g.stored 1
        rw [r1] at p0; rw [r1'] at p1
        have pl := g.len
        match pts, pl with
        | [u, v], _ => simp at p0 p1; rw [p0, p1]
        | [], pl => rw [hrl] at pl; simp at pl
        | [_], pl => rw [hrl] at pl; simp at pl
        | _ :: _ :: _ :: _, pl => rw [hrl] at pl; simp at pl
      subst hpts
      have ht' : 0 ≤ m.tol := by rw [g.tol_eq]; exact ht
      have hhave : «have» m [0, 0, 0] = true := by
        rw [have_spec g.holds ht' rfl, g.tol_eq]
        refine ⟨0, [0, 0], _, _, rfl, rfl, ⟨0, 0, by simp, by omega, by omega⟩, .cons ⟨0, ⟨0, by simp, by omega, by omega⟩, ⟨0, by simp, by omega, by omega⟩⟩
          (.cons ⟨1, ⟨0, by simp, by omega, by omega⟩, ⟨0, by simp, by omega, by omega⟩⟩ .nil)⟩
      obtain ⟨s1, _⟩ := index_spec true g.holds (by omega) ht' (p := [0, 0, 0]) rfl
      obtain ⟨m', e', _, _⟩ := s1 (by
        intro k q hk
        rw [g.tol_eq]
        match k, hk with
        | 0, hk => simp at hk; subst hk; unfold Near; simp only [List.forall₂_cons]; omega
        | 1, hk => simp at hk; subst hk; unfold Near; simp only [List.forall₂_cons]; omega
        | k + 2, hk => simp at hk)
      exact ⟨_, m, m', hlen, e, hhave, e'⟩
  · exfalso
    have hne : ¬ Near tol [0, 2 * tol + 1, 0] [0, 0, 2 * tol + 1] := by
      unfold Near; simp only [List.forall₂_cons]; omega
    have hne' : ¬ Near tol [0, 0, 2 * tol + 1] [0, 2 * tol + 1, 0] := fun h => hne h.symm
    simp only [List.nil_append, List.mem_cons, List.not_mem_nil, or_false] at hp hq hq'
    rcases hp with rfl | rfl <;> rcases hq with rfl | rfl <;> rcases hq' with rfl | rfl <;>
      first
        | exact hne h1 | exact hne' h1 | exact hne h2 | exact hne' h2 | exact h3 (Near.refl ht _)

/-! Non-vacuity: two clusters in 2D with tolerance 2, queried in mixed order; and an ambiguous history that stops the debug build. -/

example : (match indices true [[0, 0], [10, 1], [1, -1], [10, 0], [0, 0]] (new 2 2) with | .ok r => r.1 | _ => []) = [0, 1, 0, 1, 0] := by decide +kernel
example : ∀ p ∈ [[0, 0], [10, 1], [1, -1], [10, 0], [0, 0]], p.length = 2 := by decide
example : Near 2 [0, 0] [1, -1] ∧ ¬ Near 2 [0, 0] [10, 1] := by unfold Near; simp
example : (match indices true [[0, 0], [3, 0], [1, 0]] (new 2 2) with | .abort => true | _ => false) = true := by decide +kernel
example : (match indices false [[0, 0], [3, 0], [1, 0]] (new 2 2) with | .ok r => r.1 | _ => []) = [0, 1, 0] := by decide +kernel

end Verif.PointMap
