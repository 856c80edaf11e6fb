import Verif.Proofs.IntPointMap
/- The tolerant point map: histories of queries, and `have`. -/
namespace Verif.PointMap
open Verif

theorem Near.refl {tol : Int} (ht : 0 ≤ tol) (p : List Int) : Near tol p p := by
  unfold Near
  induction p with
  | nil => exact .nil
  | cons x p ih => exact .cons (by omega) ih

theorem Near.symm {tol : Int} {p q : List Int} (h : Near tol p q) : Near tol q p := by
  unfold Near at *
  induction h with
  | nil => exact .nil
  | cons hx _ ih => exact .cons (by omega) ih

theorem holds_new (D : Nat) (tol : Int) : Holds D (new D tol) [] := by
  refine ⟨by simp, rfl, ?_⟩
  unfold new
  simp only [List.map_nil]
  induction D with
  | zero => exact .nil
  | succ D ih =>
    rw [List.replicate_succ, List.range_succ_eq_map, List.map_cons, List.map_map]
    refine .cons ⟨List.Pairwise.nil, by simp, by simp, by simp, by simp⟩ ?_
    exact ih

/-- The history so far, and the map it produced. -/
structure Good (D : Nat) (tol : Int) (qs : List (List Int)) (ids reps : List Nat) (m : PMap) (pts : List (List Int)) : Prop where
  ans : Answers tol qs ids reps
  holds : Holds D m pts
  tol_eq : m.tol = tol
  stored : ∀ k : Nat, pts[k]? = (reps[k]?).bind fun r => qs[r]?
  len : pts.length = reps.length

theorem Good.lt {D tol qs ids reps m pts} (h : Good D tol qs ids reps m pts) {k r : Nat} (hk : reps[k]? = some r) : r < qs.length := by
  have := h.ans.first k r hk
  rw [← h.ans.length]
  exact (List.getElem?_eq_some_iff.1 this).1

theorem Good.apart {D tol qs ids reps m pts} (h : Good D tol qs ids reps m pts) {j k : Nat} {p q : List Int} (hj : pts[j]? = some p) (hk : pts[k]? = some q)
    (hn : Near tol p q) : j = k := by
  rw [h.stored] at hj hk
  obtain ⟨r, hr, hrq⟩ := Option.bind_eq_some_iff.1 hj
  obtain ⟨t, ht, htq⟩ := Option.bind_eq_some_iff.1 hk
  rcases Nat.lt_trichotomy j k with hlt | e | hlt
  · exact absurd hn.symm (h.ans.fresh j k r t q p hlt hr ht hrq htq)
  · exact e
  · exact absurd hn (h.ans.fresh k j t r p q hlt ht hr htq hrq)

/-- A query that matches nothing stored. -/
theorem Good.new {D tol qs ids reps m pts} (h : Good D tol qs ids reps m pts) (ht : 0 ≤ tol) {p : List Int} {m' : PMap} (hm : Holds D m' (pts ++ [p])) (hm' : m'.tol = tol)
    (hno : ∀ (k : Nat) (q : List Int), pts[k]? = some q → ¬ Near tol p q) :
    Good D tol (qs ++ [p]) (ids ++ [pts.length]) (reps ++ [qs.length]) m' (pts ++ [p]) := by
  have hrk : ∀ (k r : Nat), (reps ++ [qs.length])[k]? = some r → (k = reps.length ∧ r = qs.length) ∨ (reps[k]? = some r ∧ r < qs.length ∧ k < reps.length) := by
    intro k r hk
    rw [List.getElem?_append] at hk
    split at hk
    · rename_i hlt; exact Or.inr ⟨hk, h.lt hk, hlt⟩
    · rename_i hlt
      rcases Nat.eq_or_lt_of_le (Nat.not_lt.1 hlt) with e | e
      · subst e; simp at hk; exact Or.inl ⟨rfl, hk.symm⟩
      · rw [List.getElem?_eq_none (by simp; omega)] at hk; simp at hk
  have hq : ∀ r, r < qs.length → (qs ++ [p])[r]? = qs[r]? := fun r hr => List.getElem?_append_left hr
  have hql : (qs ++ [p])[qs.length]? = some p := by simp
  have hids : ∀ r, r < qs.length → (ids ++ [pts.length])[r]? = ids[r]? := fun r hr => List.getElem?_append_left (by rw [h.ans.length]; exact hr)
  have hidl : (ids ++ [pts.length])[qs.length]? = some pts.length := by rw [← h.ans.length]; simp
  have hrl : (reps ++ [qs.length])[pts.length]? = some qs.length := by rw [h.len]; simp
  refine ⟨⟨by simp [h.ans.length], ?_, ?_, ?_, ?_, ?_⟩, hm, hm', ?_, by simp [h.len]⟩
  · refine List.pairwise_append.2 ⟨h.ans.incr, by simp, ?_⟩
    intro a ha b hb
    simp only [List.mem_singleton] at hb; subst hb
    obtain ⟨k, hk⟩ := List.getElem?_of_mem ha
    exact h.lt hk
  · intro k r hk
    rcases hrk k r hk with ⟨rfl, rfl⟩ | ⟨h1, h2, _⟩
    · rw [hidl, h.len]
    · rw [hids r h2]; exact h.ans.first k r h1
  · intro t k p' hk hp'
    by_cases hlt : t < qs.length
    · rw [hids t hlt] at hk
      rw [hq t hlt] at hp'
      obtain ⟨r, q, h1, h2, h3, h4⟩ := h.ans.near t k p' hk hp'
      refine ⟨r, q, ?_, h2, ?_, h4⟩
      · rw [List.getElem?_append_left (List.getElem?_eq_some_iff.1 h1).1]; exact h1
      · rw [hq r (h.lt h1)]; exact h3
    · have hl := (List.getElem?_eq_some_iff.1 hp').1
      simp at hl
      have : t = qs.length := by omega
      subst this
      rw [hidl] at hk; rw [hql] at hp'
      simp only [Option.some.injEq] at hk hp'; subst hk hp'
      exact ⟨qs.length, p, hrl, Nat.le_refl _, hql, Near.refl ht p⟩
  · intro j k r t p' q hjk hj hk hr hp'
    rcases hrk j r hj with ⟨rfl, rfl⟩ | ⟨h1, h2, h3⟩
    · rcases hrk k t hk with ⟨rfl, rfl⟩ | ⟨g1, g2, g3⟩
      · omega
      · omega
    · rw [hq r h2] at hr
      rcases hrk k t hk with ⟨rfl, rfl⟩ | ⟨g1, g2, g3⟩
      · rw [hql] at hp'; simp only [Option.some.injEq] at hp'; subst hp'
        refine hno j q ?_
        rw [h.stored, h1]; exact hr
      · rw [hq t g2] at hp'
        exact h.ans.fresh j k r t p' q hjk h1 g1 hr hp'
  · intro k r t hk hrt hlt he
    rcases hrk k r hk with ⟨rfl, rfl⟩ | ⟨h1, h2, h3⟩
    · simp at hlt
      have : t = qs.length := by omega
      subst this
      rw [hidl, h.len]
    · by_cases ht' : t < qs.length
      · rw [hq t ht', hq r h2] at he
        rw [hids t ht']
        exact h.ans.again k r t h1 hrt ht' he
      · simp at hlt
        have : t = qs.length := by omega
        subst this
        rw [hql, hq r h2] at he
        exact absurd (Near.refl ht p) (hno k p (by rw [h.stored, h1]; exact he.symm))
  · intro k
    by_cases hk : k < pts.length
    · rw [List.getElem?_append_left hk, List.getElem?_append_left (by rw [← h.len]; exact hk), h.stored]
      cases hrr : reps[k]? with
      | none => rfl
      | some r => simp only [Option.bind_some]; rw [hq r (h.lt hrr)]
    · by_cases hk' : k = pts.length
      · subst hk'; rw [hrl]; simp
      · rw [List.getElem?_eq_none (by simp; omega), List.getElem?_eq_none (by simp; rw [← h.len]; omega)]
        rfl

/-- A query that matches a stored point. -/
theorem Good.old {D tol qs ids reps m pts} (h : Good D tol qs ids reps m pts) {p q : List Int} {k : Nat} (hk : pts[k]? = some q) (hn : Near tol p q) :
    Good D tol (qs ++ [p]) (ids ++ [k]) reps m pts := by
  have hq : ∀ r, r < qs.length → (qs ++ [p])[r]? = qs[r]? := fun r hr => List.getElem?_append_left hr
  have hql : (qs ++ [p])[qs.length]? = some p := by simp
  have hids : ∀ r, r < qs.length → (ids ++ [k])[r]? = ids[r]? := fun r hr => List.getElem?_append_left (by rw [h.ans.length]; exact hr)
  have hidl : (ids ++ [k])[qs.length]? = some k := by rw [← h.ans.length]; simp
  refine ⟨⟨by simp [h.ans.length], h.ans.incr, ?_, ?_, ?_, ?_⟩, h.holds, h.tol_eq, ?_, h.len⟩
  · intro j r hj
    rw [hids r (h.lt hj)]; exact h.ans.first j r hj
  · intro t j p' hj hp'
    by_cases hlt : t < qs.length
    · rw [hids t hlt] at hj
      rw [hq t hlt] at hp'
      obtain ⟨r, q, h1, h2, h3, h4⟩ := h.ans.near t j p' hj hp'
      exact ⟨r, q, h1, h2, by rw [hq r (h.lt h1)]; exact h3, h4⟩
    · have hl := (List.getElem?_eq_some_iff.1 hp').1
      simp at hl
      have : t = qs.length := by omega
      subst this
      rw [hidl] at hj; rw [hql] at hp'
      simp only [Option.some.injEq] at hj hp'; subst hj hp'
      rw [h.stored] at hk
      obtain ⟨r, hr, hrq⟩ := Option.bind_eq_some_iff.1 hk
      exact ⟨r, q, hr, Nat.le_of_lt (h.lt hr), by rw [hq r (h.lt hr)]; exact hrq, hn⟩
  · intro j k r t p' q' hjk hj hk hr hp'
    rw [hq r (h.lt hj)] at hr
    rw [hq t (h.lt hk)] at hp'
    exact h.ans.fresh j k r t p' q' hjk hj hk hr hp'
  · intro j r t hj hrt hlt he
    have hr := h.lt hj
    by_cases ht' : t < qs.length
    · rw [hq t ht', hq r hr] at he
      rw [hids t ht']
      exact h.ans.again j r t hj hrt ht' he
    · simp at hlt
      have : t = qs.length := by omega
      subst this
      rw [hql, hq r hr] at he
      rw [hidl, h.apart (j := j) (k := k) (by rw [h.stored, hj]; exact he.symm) hk hn]
  · intro j
    rw [h.stored]
    cases hrr : reps[j]? with
    | none => rfl
    | some r => simp only [Option.bind_some]; rw [hq r (h.lt hrr)]

/-- Either nothing stored matches, or there is a first match. -/
theorem first_match (tol : Int) (p : List Int) (pts : List (List Int)) :
    (∀ (k : Nat) (q : List Int), pts[k]? = some q → ¬ Near tol p q) ∨
    ∃ (k : Nat) (q : List Int), pts[k]? = some q ∧ Near tol p q ∧ ∀ (j : Nat) (q' : List Int), pts[j]? = some q' → Near tol p q' → k ≤ j := by
  classical
  by_cases h : ∃ k : Nat, ∃ q, pts[k]? = some q ∧ Near tol p q
  · right
    obtain ⟨q, h1, h2⟩ := Nat.find_spec h
    exact ⟨Nat.find h, q, h1, h2, fun j q' hj hq => Nat.find_min' h ⟨q', hj, hq⟩⟩
  · left
    intro k q hk hq
    exact h ⟨k, q, hk, hq⟩

/-- One query: the outcome in either build. -/
theorem Good.step (dbg : Bool) {D tol qs ids reps m pts} (h : Good D tol qs ids reps m pts) (hD : 0 < D) (ht : 0 ≤ tol) {p : List Int} (hp : p.length = D) :
    (∃ k m' reps' pts', index dbg m p = .ok (k, m') ∧ Good D tol (qs ++ [p]) (ids ++ [k]) reps' m' pts') ∨
    (dbg = true ∧ index dbg m p = .abort ∧ ∃ (j k : Nat) (q q' : List Int), j ≠ k ∧ pts[j]? = some q ∧ pts[k]? = some q' ∧ Near tol p q ∧ Near tol p q') := by
  obtain ⟨s1, s2⟩ := index_spec dbg h.holds hD (by rw [h.tol_eq]; exact ht) hp
  rw [h.tol_eq] at s1 s2
  rcases first_match tol p pts with hno | ⟨k, q, hk, hn, hmin⟩
  · obtain ⟨m', e, hm, hmt⟩ := s1 hno
    exact Or.inl ⟨_, m', _, _, e, h.new ht hm hmt hno⟩
  · obtain ⟨u1, u2⟩ := s2 k q hk hn hmin
    by_cases huniq : ∀ (j : Nat) (q' : List Int), pts[j]? = some q' → Near tol p q' → k = j
    · exact Or.inl ⟨k, m, reps, pts, u1 huniq, h.old hk hn⟩
    · push Not at huniq
      obtain ⟨j, q', hj, hn', hne⟩ := huniq
      have := u2 ⟨j, q', hj, hn', hne⟩
      cases dbg with
      | true => exact Or.inr ⟨rfl, this, k, j, q, q', hne, hk, hj, hn, hn'⟩
      | false => exact Or.inl ⟨k, m, reps, pts, this, h.old hk hn⟩

theorem indices_spec (dbg : Bool) {D : Nat} {tol : Int} (hD : 0 < D) (ht : 0 ≤ tol) : ∀ (ps : List (List Int)) {qs ids reps m pts}, Good D tol qs ids reps m pts →
    (∀ p ∈ ps, p.length = D) →
    (∃ ids' m' reps' pts', indices dbg ps m = .ok (ids', m') ∧ Good D tol (qs ++ ps) (ids ++ ids') reps' m' pts') ∨
    (dbg = true ∧ indices dbg ps m = .abort ∧ ∃ p ∈ ps, ∃ q ∈ qs ++ ps, ∃ q' ∈ qs ++ ps, Near tol p q ∧ Near tol p q' ∧ ¬ Near tol q q')
  | [], qs, ids, reps, m, pts, h, _ => Or.inl ⟨[], m, reps, pts, rfl, by simpa using h⟩
  | p :: ps, qs, ids, reps, m, pts, h, hp => by
    rcases h.step dbg hD ht (hp p (by simp)) with ⟨k, m', reps', pts', e, h'⟩ | ⟨hd, e, j, k, q, q', hne, hj, hk, h1, h2⟩
    · rcases indices_spec dbg hD ht ps h' (fun p h => hp p (by simp [h])) with ⟨ids'', m'', reps'', pts'', e', h''⟩ | ⟨hd, e', p', hp', q, hq, q', hq', hh⟩
      · refine Or.inl ⟨k :: ids'', m'', reps'', pts'', ?_, by simpa using h''⟩
        rw [indices, Res.bind_eq, e, Res.bind_ok]
        simp only [Res.bind_eq, e', Res.bind_ok, Res.pure_eq]
      · refine Or.inr ⟨hd, ?_, p', by simp [hp'], q, by simpa using hq, q', by simpa using hq', hh⟩
        rw [indices, Res.bind_eq, e, Res.bind_ok]
        simp only [Res.bind_eq, e', Res.bind_abort]
    · refine Or.inr ⟨hd, by rw [indices, Res.bind_eq, e, Res.bind_abort], p, by simp, q, ?_, q', ?_, h1, h2, fun hn => hne (h.apart hj hk hn)⟩
      · rw [h.stored] at hj
        obtain ⟨r, _, hrq⟩ := Option.bind_eq_some_iff.1 hj
        exact List.mem_append_left _ (List.mem_of_getElem? hrq)
      · rw [h.stored] at hk
        obtain ⟨r, _, hrq⟩ := Option.bind_eq_some_iff.1 hk
        exact List.mem_append_left _ (List.mem_of_getElem? hrq)

theorem good_new (D : Nat) (tol : Int) : Good D tol [] [] [] (new D tol) [] :=
  ⟨⟨rfl, by simp, by simp, by simp, by simp, by simp⟩, holds_new D tol, rfl, by simp, rfl⟩

/-! ### have -/

/-- Id `k` is within the tolerance in one column. -/
def Hit1 (tol : Int) (k : Nat) (col : List Int) (x : Int) : Prop := ∃ v, col[k]? = some v ∧ x - tol ≤ v ∧ v ≤ x + tol

theorem haveLoop_spec {tol : Int} (ht : 0 ≤ tol) : ∀ {cs : List Container} {cols : List (List Int)}, Cols cs cols → ∀ (xs : List Int) (ids : List Nat),
    ids.Pairwise (· < ·) → cs.length = xs.length →
    (haveLoop tol cs xs ids = true ↔ List.Forall₂ (fun col x => ∃ k ∈ ids, Hit1 tol k col x) cols xs)
  | _, _, .nil, [], ids, hs, _ => by simp [haveLoop]
  | _, _, .nil, _ :: _, ids, hs, h => by simp at h
  | _, _, .cons hd hcs, [], ids, hs, h => by simp at h
  | _, _, .cons (a := c) (b := col) (l₁ := cs) (l₂ := cols) hd hcs, x :: xs, ids, hs, h => by
    obtain ⟨d1, d2⟩ := dimIDs_spec (x := x) hd ht
    obtain ⟨s1, s2⟩ := setIntersection_spec ids (dimIDs c x tol) hs d1
    rw [haveLoop, List.forall₂_cons, ← haveLoop_spec ht hcs xs ids hs (by simpa using h)]
    by_cases hz : setIntersection ids (dimIDs c x tol) = []
    · rw [if_pos (by simp [hz])]
      simp only [Bool.false_eq_true, false_iff, not_and]
      rintro ⟨k, hk, hv⟩
      have := (s2 k).2 ⟨hk, (d2 k).2 hv⟩
      rw [hz] at this; simp at this
    · rw [if_neg (by simpa using hz)]
      obtain ⟨k, hk⟩ := List.exists_mem_of_ne_nil _ hz
      have := (s2 k).1 hk
      exact ⟨fun h => ⟨⟨k, this.1, (d2 k).1 this.2⟩, h⟩, fun h => h.2⟩

theorem anyEmpty_iff {tol : Int} (ht : 0 ≤ tol) : ∀ {cs : List Container} {cols : List (List Int)}, Cols cs cols → ∀ (xs : List Int), cs.length = xs.length →
    (anyEmpty tol cs xs = false ↔ List.Forall₂ (fun col x => ∃ k, Hit1 tol k col x) cols xs)
  | _, _, .nil, [], _ => by simp [anyEmpty]
  | _, _, .nil, _ :: _, h => by simp at h
  | _, _, .cons hd hcs, [], h => by simp at h
  | _, _, .cons (a := c) (b := col) (l₁ := cs) (l₂ := cols) hd hcs, x :: xs, h => by
    rw [anyEmpty, Bool.or_eq_false_iff, decide_eq_false_iff_not, bounds_eq_iff hd ht, List.forall₂_cons, anyEmpty_iff ht hcs xs (by simpa using h)]
    have : ¬ dimIDs c x tol = [] ↔ ∃ k, Hit1 tol k col x := by
      rw [List.eq_nil_iff_forall_not_mem]
      push Not
      exact exists_congr fun k => (dimIDs_spec (x := x) hd ht).2 k
    rw [this]

/-- `have` holds when some id matches in the first coordinate and, for every other coordinate, some id matches in the first and in that coordinate. -/
theorem have_spec {D : Nat} {m : PMap} {pts : List (List Int)} (h : Holds (D + 1) m pts) (ht : 0 ≤ m.tol) {p : List Int} (hp : p.length = D + 1) :
    «have» m p = true ↔ ∃ x xs col cols, p = x :: xs ∧ ((List.range (D + 1)).map fun i => pts.map fun p => p.getD i 0) = col :: cols ∧
      (∃ k, Hit1 m.tol k col x) ∧ List.Forall₂ (fun c y => ∃ k, Hit1 m.tol k col x ∧ Hit1 m.tol k c y) cols xs := by
  obtain ⟨coords, tol, cur⟩ := m
  simp only at ht ⊢
  have hcl : coords.length = D + 1 := by have := h.cols.length_eq; simpa using this
  have hcols : Cols coords _ := h.cols
  generalize (List.range (D + 1)).map (fun i => pts.map fun p => p.getD i 0) = cols at *
  cases hcols with
  | nil => simp at hcl
  | @cons c col cs cols hd hcs =>
    cases p with
    | nil => simp at hp
    | cons x xs =>
      obtain ⟨d1, d2⟩ := dimIDs_spec (x := x) hd ht
      have hae := anyEmpty_iff ht (.cons hd hcs) (x :: xs) (by omega)
      have hl := haveLoop_spec ht hcs xs (dimIDs c x tol) d1 (by simp at hcl hp; omega)
      unfold «have»
      simp only
      rw [List.forall₂_cons] at hae
      have hmem : (fun (c' : List Int) (y : Int) => ∃ k ∈ dimIDs c x tol, Hit1 tol k c' y) = fun c' y => ∃ k, Hit1 tol k col x ∧ Hit1 tol k c' y := by
        funext c' y
        refine propext (exists_congr fun k => ?_)
        rw [d2 k]; rfl
      rw [hmem] at hl
      constructor
      · intro hh
        cases hb : anyEmpty tol (c :: cs) (x :: xs) with
        | true => rw [hb] at hh; simp at hh
        | false =>
          rw [hb] at hh
          simp only [Bool.false_eq_true, if_false] at hh
          exact ⟨x, xs, col, cols, rfl, rfl, (hae.1 hb).1, hl.1 hh⟩
      · rintro ⟨x', xs', col', cols', e1, e2, h1, h2⟩
        obtain ⟨rfl, rfl⟩ := List.cons.inj e1
        obtain ⟨rfl, rfl⟩ := List.cons.inj e2
        have hb : anyEmpty tol (c :: cs) (x :: xs) = false := hae.2 ⟨h1, h2.imp fun _ _ ⟨k, hk⟩ => ⟨k, hk.2⟩⟩
        rw [hb]
        simp only [Bool.false_eq_true, if_false]
        exact hl.2 h2

/-- A matching stored point is always found by `have`. -/
theorem have_of_near {D : Nat} {m : PMap} {pts : List (List Int)} (h : Holds (D + 1) m pts) (ht : 0 ≤ m.tol) {p q : List Int} (hp : p.length = D + 1) {k : Nat}
    (hk : pts[k]? = some q) (hn : Near m.tol p q) : «have» m p = true := by
  rw [have_spec h ht hp]
  have hh := (hit_columns hp (by omega) h.dim k).2 ⟨q, hk, hn⟩
  have hlen : ((List.range (D + 1)).map fun i => pts.map fun p => p.getD i 0).length = p.length := by simp [hp]
  generalize (List.range (D + 1)).map (fun i => pts.map fun p => p.getD i 0) = cols at *
  match p, cols, hh, hlen with
  | [], _, _, _ => simp at hp
  | x :: xs, [], _, hlen => simp at hlen
  | x :: xs, col :: cols, hh, hlen =>
    refine ⟨x, xs, col, cols, rfl, rfl, ⟨k, hh.1⟩, ?_⟩
    have : ∀ (cols : List (List Int)) (xs : List Int), cols.length = xs.length → Hit m.tol k cols xs →
        List.Forall₂ (fun c y => ∃ k, Hit1 m.tol k col x ∧ Hit1 m.tol k c y) cols xs := by
      intro cols
      induction cols with
      | nil => intro xs hl _; cases xs with | nil => exact .nil | cons => simp at hl
      | cons c cols ih =>
        intro xs hl hx
        cases xs with
        | nil => simp at hl
        | cons y xs => exact .cons ⟨k, hh.1, hx.1⟩ (ih xs (by simpa using hl) hx.2)
    exact this cols xs (by simpa using hlen) hh.2

/-- In one and two dimensions `have` is exact. -/
theorem near_of_have {D : Nat} (hD2 : D + 1 ≤ 2) {m : PMap} {pts : List (List Int)} (h : Holds (D + 1) m pts) (ht : 0 ≤ m.tol) {p : List Int} (hp : p.length = D + 1)
    (hh : «have» m p = true) : ∃ (k : Nat) (q : List Int), pts[k]? = some q ∧ Near m.tol p q := by
  obtain ⟨x, xs, col, cols, rfl, hc, ⟨k, hk⟩, hf⟩ := (have_spec h ht hp).1 hh
  have key : ∃ k, Hit m.tol k (col :: cols) (x :: xs) := by
    cases hf with
    | nil => exact ⟨k, hk, trivial⟩
    | @cons c y cols xs h1 h2 =>
      have hx : xs = [] := by
        cases xs with
        | nil => rfl
        | cons => simp at hp; omega
      subst hx
      obtain ⟨k', g1, g2⟩ := h1
      exact ⟨k', g1, g2, by cases cols <;> trivial⟩
  obtain ⟨k, hk⟩ := key
  rw [← hc] at hk
  obtain ⟨q, hq⟩ := (hit_columns hp (by omega) h.dim k).1 hk
  exact ⟨k, q, hq⟩

end Verif.PointMap
