import Verif.Model.Unbounded
import Verif.Proofs.QuantTess
/- Lemmas on `Model/Unbounded`. -/
namespace Verif.Unbounded
open Verif Verif.Internal Verif.QuantTess

variable {K : Type} [Field K] [LinearOrder K]

/-- The smaller node first. -/
def key (p : Nat × Nat) : Int × Int := if p.1 < p.2 then ((p.1 : Int), (p.2 : Int)) else ((p.2 : Int), (p.1 : Int))

theorem hashEdge_key (dbg : Bool) {p : Nat × Nat} (h : p.1 ≠ p.2) : hashEdge dbg (p.1 : Int) (p.2 : Int) = .ok (key p) := by
  have : (p.1 : Int) ≠ p.2 := by omega
  simp only [hashEdge, Res.bind_eq, Res.assert_true dbg this, Res.bind_ok, Res.pure_eq, key]
  by_cases h1 : p.1 < p.2 <;> simp [h1]

/-- What holds between two sides of cell `i`, of which `cell` are written. -/
structure Inv (i : Nat) (s : St) (cell : List Int) : Prop where
  tab : Tab id s.face2id s.faces
  len : s.faceCells.length = s.faces.length
  cnt : ∀ k, s.counter k = (s.faceCells.getD k []).length
  pos : ∀ k < s.faces.length, 0 < s.counter k
  ncells : s.cells.length = i
  mirror : ∀ (k : Nat) (v : Int), (s.faceCells.getD k []).count v =
    ((s.cells ++ [cell]).getD (index v) []).countP (fun t => decide (index t = k ∧ mate t (index v) = v))
  inb : ∀ c ∈ s.cells ++ [cell], ∀ t ∈ c, index t < s.faces.length

theorem getD_resize {v : List (List Int)} {n : Nat} (h : n = v.length + 1) (k : Nat) : (resize v n).getD k [] = v.getD k [] := by
  subst h
  simp only [resize, if_neg (show ¬ v.length + 1 ≤ v.length by omega), Nat.add_sub_cancel_left, List.getD_eq_getElem?_getD]
  rw [List.getElem?_append]
  split
  · rfl
  · rw [List.getElem?_eq_none (l := v) (by omega), List.getElem?_replicate]; split <;> simp

theorem getD_snoc {α : Type} (l : List (List α)) (c : List α) (k : Nat) : (l ++ [c]).getD k [] = if k = l.length then c else l.getD k [] := by
  simp only [List.getD_eq_getElem?_getD, List.getElem?_append]
  by_cases h1 : k < l.length
  · rw [if_pos h1, if_neg (by omega)]
  · rw [if_neg h1]
    by_cases h2 : k = l.length
    · subst h2; simp
    · rw [if_neg h2, List.getElem?_eq_none (by simp; omega), List.getElem?_eq_none (by omega)]

theorem mate_index {t : Int} {i : Nat} {v : Int} (h : mate t i = v) : index v = i := by
  subst h; unfold mate index; split <;> split <;> omega

theorem index_signed (n : Nat) (b : Prop) [Decidable b] : index (if b then (n : Int) else -(n : Int) - 1) = n := by
  unfold index; split <;> split <;> omega

/-- The signed id that one side appends. -/
theorem addSide_spec (dbg : Bool) {nnodes : Nat} (side : Int → Int → Nat → K) {i : Nat} {p : Nat × Nat} {s : St} {cell : List Int}
    (h : Inv i s cell) (hp : p.1 ≠ p.2) (h1 : p.1 < nnodes) (h2 : p.2 < nnodes) :
    ∃ s' t, addSide dbg nnodes side i p (s, cell) = .ok (s', cell ++ [t]) ∧ Inv i s' (cell ++ [t]) ∧ s'.cells = s.cells ∧
      s.faces <+: s'.faces ∧ (∀ e ∈ s'.faces, e ∈ s.faces ∨ e = key p) ∧ s'.faces[index t]? = some (key p) ∧
      (0 ≤ t ↔ 0 < side (key p).1 (key p).2 i) := by
  have hml : s.face2id.length = s.faces.length := h.tab.length.symm
  obtain ⟨r, hr⟩ : ∃ r, addKey (key p) s.face2id = r := ⟨_, rfl⟩
  obtain ⟨htab, hv, hcase⟩ : Tab id r.2 (if r.1 = s.face2id.length then s.faces ++ [key p] else s.faces) ∧
      (if r.1 = s.face2id.length then s.faces ++ [key p] else s.faces)[r.1]? = some (key p) ∧
      ((if r.1 = s.face2id.length then s.faces ++ [key p] else s.faces) = s.faces ∨
       ((if r.1 = s.face2id.length then s.faces ++ [key p] else s.faces) = s.faces ++ [key p] ∧ key p ∉ s.faces.map id)) := by
    obtain ⟨a, ⟨v, b, b'⟩, c⟩ := h.tab.add (key p)
    subst hr
    exact ⟨a, b.trans (congrArg some b'), c⟩
  -- a new key is one whose counter is still zero
  have hnew : (s.counter r.1 + 1 = 1) ↔ r.1 = s.face2id.length := by
    constructor
    · intro hc
      by_contra hne
      rw [if_neg hne] at hv
      have := h.pos r.1 (List.getElem?_eq_some_iff.1 hv).1
      omega
    · intro he
      rw [h.cnt, List.getD_eq_getElem?_getD, List.getElem?_eq_none (by rw [h.len]; omega)]; rfl
  have hfaces : (if s.counter r.1 + 1 = 1 then s.faces ++ [key p] else s.faces) = if r.1 = s.face2id.length then s.faces ++ [key p] else s.faces := by
    simp only [hnew]
  let faces' := if r.1 = s.face2id.length then s.faces ++ [key p] else s.faces
  let fc0 := if s.counter r.1 + 1 = 1 then resize s.faceCells (r.1 + 1) else s.faceCells
  have hlt : r.1 < faces'.length := (List.getElem?_eq_some_iff.1 hv).1
  have hfc0 : fc0.length = faces'.length ∧ ∀ k, fc0.getD k [] = s.faceCells.getD k [] := by
    by_cases hn : r.1 = s.face2id.length
    · have e1 : fc0 = resize s.faceCells (r.1 + 1) := if_pos (hnew.2 hn)
      have e2 : faces' = s.faces ++ [key p] := if_pos hn
      rw [e1, e2]
      refine ⟨?_, fun k => getD_resize (by rw [h.len]; omega) k⟩
      simp only [resize]; rw [if_neg (by rw [h.len]; omega)]; simp [h.len]; omega
    · have e1 : fc0 = s.faceCells := if_neg (fun hc => hn (hnew.1 hc))
      have e2 : faces' = s.faces := if_neg hn
      rw [e1, e2]
      exact ⟨h.len, fun _ => rfl⟩
  have hpre : s.faces <+: faces' := by
    rcases hcase with e | ⟨e, _⟩
    · exact (show faces' = s.faces from e) ▸ List.prefix_refl _
    · exact (show faces' = s.faces ++ [key p] from e) ▸ List.prefix_append _ _
  -- the common part of the two branches
  have main : ∀ (t : Int), index t = r.1 → 
      Inv i { s with face2id := r.2, counter := fun k => if k = r.1 then s.counter k + 1 else s.counter k, faces := faces', faceCells := fc0.set r.1 (fc0.getD r.1 [] ++ [mate t i]) } (cell ++ [t]) := by
    intro t ht
    have hr0 : r.1 < fc0.length := by rw [hfc0.1]; exact hlt
    refine ⟨htab, ?_, ?_, ?_, h.ncells, ?_, ?_⟩
    · simp [hfc0.1]
    · intro k
      simp only
      rw [getD_set hr0]
      by_cases hk : k = r.1
      · subst hk; simp only [if_true]; rw [hfc0.2, h.cnt]; simp
      · rw [if_neg hk, if_neg hk, hfc0.2, h.cnt]
    · intro k hk
      simp only
      by_cases hk' : k = r.1
      · rw [if_pos hk']; omega
      · rw [if_neg hk']
        apply h.pos
        rcases hcase with e | ⟨e, _⟩
        · have : faces'.length = s.faces.length := congrArg _ (show faces' = s.faces from e)
          simp only at hk; omega
        · have e2 : faces' = s.faces ++ [key p] := e
          have hrn : r.1 = s.face2id.length := by
            by_contra hn
            have : faces' = s.faces := if_neg hn
            have := congrArg List.length (this.symm.trans e2)
            simp at this
          simp only [e2, List.length_append, List.length_singleton] at hk
          omega
    · intro k v
      simp only
      rw [count_push hr0, hfc0.2, h.mirror, getD_snoc, getD_snoc, h.ncells]
      by_cases hv : index v = i
      · rw [if_pos hv, if_pos hv, hv, List.countP_append]
        have c : (k = r.1 ∧ v = mate t i) ↔ (index t = k ∧ mate t i = v) := by
          rw [ht]; exact ⟨fun h => ⟨h.1.symm, h.2.symm⟩, fun h => ⟨h.1.symm, h.2.symm⟩⟩
        simp only [c]
        by_cases c' : index t = k ∧ mate t i = v <;> simp [c']
      · rw [if_neg hv, if_neg hv, if_neg (fun c => hv (mate_index c.2.symm))]; rfl
    · intro c hc u hu
      simp only at hc ⊢
      have hle := hpre.length_le
      rcases List.mem_append.1 hc with hc | hc
      · exact lt_of_lt_of_le (h.inb c (List.mem_append_left _ hc) u hu) hle
      · simp only [List.mem_singleton] at hc; subst hc
        rcases List.mem_append.1 hu with hu | hu
        · exact lt_of_lt_of_le (h.inb cell (by simp) u hu) hle
        · simp only [List.mem_singleton] at hu; subst hu; rw [ht]; exact hlt
  have hrest : ∀ e ∈ faces', e ∈ s.faces ∨ e = key p := by
    intro e he
    rcases hcase with e' | ⟨e', _⟩
    · rw [show faces' = s.faces from e'] at he; exact .inl he
    · rw [show faces' = s.faces ++ [key p] from e'] at he; simpa using he
  have hr0 : r.1 < fc0.length := by rw [hfc0.1]; exact hlt
  by_cases hs : 0 < side (key p).1 (key p).2 i
  · refine ⟨_, (r.1 : Int), ?_, main (r.1 : Int) (by simp [index]), rfl, hpre, hrest, ?_, ?_⟩
    · simp only [addSide, Res.bind_eq, Res.pure_eq]
      rw [Res.assert_true _ hp, Res.bind_ok, hashEdge_key dbg hp, Res.bind_ok, hr]
      simp only [if_true]
      rw [Res.assert_true _ (by omega), Res.bind_ok, if_neg (by omega), if_pos hs, hfaces]
      rw [show (if s.counter r.1 + 1 = 1 then resize s.faceCells (r.1 + 1) else s.faceCells) = fc0 from rfl, pushAt_ok hr0, Res.bind_ok]
      have : ¬ (r.1 : Int) < 0 := by omega
      simp only [mate, faces', if_neg this]
    · rw [show index (r.1 : Int) = r.1 by simp [index]]; exact hv
    · simp [hs]
  · refine ⟨_, -(r.1 : Int) - 1, ?_, main (-(r.1 : Int) - 1) (by unfold index; split <;> omega), rfl, hpre, hrest, ?_, ?_⟩
    · simp only [addSide, Res.bind_eq, Res.pure_eq]
      rw [Res.assert_true _ hp, Res.bind_ok, hashEdge_key dbg hp, Res.bind_ok, hr]
      simp only [if_true]
      rw [Res.assert_true _ (by omega), Res.bind_ok, if_neg (by omega), if_neg hs, hfaces]
      rw [show (if s.counter r.1 + 1 = 1 then resize s.faceCells (r.1 + 1) else s.faceCells) = fc0 from rfl, pushAt_ok hr0, Res.bind_ok]
      have : -(r.1 : Int) - 1 < 0 := by omega
      simp [mate, faces', this]
    · rw [show index (-(r.1 : Int) - 1) = r.1 by unfold index; split <;> omega]; exact hv
    · constructor
      · intro h; omega
      · intro h; exact absurd h hs

theorem addSides_spec (dbg : Bool) {nnodes : Nat} (side : Int → Int → Nat → K) {i : Nat} : ∀ (ps : List (Nat × Nat)) {s : St} {cell : List Int},
    Inv i s cell → (∀ p ∈ ps, p.1 ≠ p.2 ∧ p.1 < nnodes ∧ p.2 < nnodes) →
    ∃ s' ts, addSides dbg nnodes side i ps (s, cell) = .ok (s', cell ++ ts) ∧ Inv i s' (cell ++ ts) ∧ s'.cells = s.cells ∧
      s.faces <+: s'.faces ∧ (∀ e ∈ s'.faces, e ∈ s.faces ∨ ∃ p ∈ ps, e = key p) ∧
      List.Forall₂ (fun p t => s'.faces[index t]? = some (key p) ∧ (0 ≤ t ↔ 0 < side (key p).1 (key p).2 i)) ps ts
  | [], s, cell, h, _ => ⟨s, [], by simp [addSides], by simpa using h, rfl, List.prefix_refl _, fun e he => .inl he, .nil⟩
  | p :: ps, s, cell, h, hp => by
    obtain ⟨g1, g2, g3⟩ := hp p (by simp)
    obtain ⟨s1, t, e1, i1, c1, p1, m1, f1, o1⟩ := addSide_spec dbg side h g1 g2 g3
    obtain ⟨s2, ts, e2, i2, c2, p2, m2, f2⟩ := addSides_spec dbg side ps i1 (fun q hq => hp q (by simp [hq]))
    refine ⟨s2, t :: ts, ?_, by simpa using i2, c2.trans c1, p1.trans p2, ?_, .cons ⟨prefix_get p2 f1, o1⟩ f2⟩
    · simp only [addSides, Res.bind_eq, e1, Res.bind_ok, e2]; simp
    · intro e he
      rcases m2 e he with h' | ⟨q, hq, h'⟩
      · rcases m1 e h' with h'' | h''
        · exact .inl h''
        · exact .inr ⟨p, by simp, h''⟩
      · exact .inr ⟨q, by simp [hq], h'⟩

/-- A ring of nodes below `n`, no two neighbours equal. -/
structure Ring (n : Nat) (c : List Nat) : Prop where
  three : 3 ≤ c.length
  below : ∀ a ∈ c, a < n
  apart : ∀ j < c.length, c.getD j 0 ≠ c.getD ((j + 1) % c.length) 0

theorem getD_reverse {c : List Nat} {j : Nat} (h : j < c.length) : c.reverse.getD j 0 = c.getD (c.length - 1 - j) 0 := by
  simp only [List.getD_eq_getElem?_getD]
  rw [List.getElem?_reverse h]

theorem succ_mod {n j : Nat} (h : j < n) : (j + 1) % n = if j + 1 = n then 0 else j + 1 := by
  split
  · rename_i e; rw [e, Nat.mod_self]
  · exact Nat.mod_eq_of_lt (by omega)

/-- The neighbours in the reverse of a ring are neighbours in the ring, the other way round. -/
theorem reverse_pair {c : List Nat} {j : Nat} (h : j < c.length) : ∃ m < c.length,
    c.reverse.getD j 0 = c.getD ((m + 1) % c.length) 0 ∧ c.reverse.getD ((j + 1) % c.length) 0 = c.getD m 0 := by
  rw [succ_mod h]
  by_cases e : j + 1 = c.length
  · refine ⟨c.length - 1, by omega, ?_, ?_⟩
    · rw [getD_reverse h, succ_mod (by omega), if_pos (by omega)]; congr 1; omega
    · rw [if_pos e, getD_reverse (by omega)]; congr 1
  · refine ⟨c.length - 2 - j, by omega, ?_, ?_⟩
    · rw [getD_reverse h, succ_mod (by omega), if_neg (by omega)]; congr 1; omega
    · rw [if_neg e, getD_reverse (by omega)]; congr 1; omega

theorem Ring.reverse {n : Nat} {c : List Nat} (h : Ring n c) : Ring n c.reverse := by
  refine ⟨by simpa using h.three, by simpa using h.below, ?_⟩
  intro j hj
  rw [List.length_reverse] at hj ⊢
  obtain ⟨m, hm, e1, e2⟩ := reverse_pair hj
  rw [e1, e2]; exact (h.apart m hm).symm

theorem Ring.sides {n : Nat} {c : List Nat} (h : Ring n c) : ∀ p ∈ sides c, p.1 ≠ p.2 ∧ p.1 < n ∧ p.2 < n := by
  intro p hp
  simp only [Unbounded.sides, List.mem_map, List.mem_range] at hp
  obtain ⟨j, hj, rfl⟩ := hp
  have hm := Nat.mod_lt (j + 1) (show 0 < c.length by omega)
  refine ⟨h.apart j hj, h.below _ ?_, h.below _ ?_⟩
  · simp only [List.getD_eq_getElem?_getD, List.getElem?_eq_getElem hj]; exact List.getElem_mem _
  · simp only [List.getD_eq_getElem?_getD, List.getElem?_eq_getElem hm]; exact List.getElem_mem _

/-- The ring that the function uses. -/
def turn (side : Int → Int → Nat → K) (i : Nat) (c : List Nat) : List Nat :=
  if side (c.getD 0 0 : Nat) (c.getD 1 0 : Nat) i < 0 then c.reverse else c

theorem turned_ok (dbg : Bool) {n : Nat} (side : Int → Int → Nat → K) (i : Nat) {c : List Nat} (h : Ring n c) :
    turned dbg n side i c = .ok (turn side i c) := by
  have h3 := h.three
  have e0 : rd c 0 = .ok (c.getD 0 0) := by rw [rd_lt (by omega), List.getD_eq_getElem?_getD, List.getElem?_eq_getElem (by omega)]; rfl
  have e1 : rd c 1 = .ok (c.getD 1 0) := by rw [rd_lt (by omega), List.getD_eq_getElem?_getD, List.getElem?_eq_getElem (by omega)]; rfl
  have m : ∀ k < c.length, c.getD k 0 < n := by
    intro k hk
    rw [List.getD_eq_getElem?_getD, List.getElem?_eq_getElem hk]; exact h.below _ (List.getElem_mem _)
  have m0 := m 0 (by omega)
  have m1 := m 1 (by omega)
  simp only [turned, Res.bind_eq, Res.pure_eq]
  rw [Res.assert_true _ (by omega), Res.bind_ok, e0, Res.bind_ok, e1, Res.bind_ok, if_neg (by omega)]
  unfold turn; split <;> rfl

theorem turn_ring {n : Nat} (side : Int → Int → Nat → K) (i : Nat) {c : List Nat} (h : Ring n c) : Ring n (turn side i c) := by
  unfold turn; split
  · exact h.reverse
  · exact h

/-- What holds between two cells. -/
def Ready (i : Nat) (s : St) : Prop := Inv i s []

theorem addCells_spec (dbg : Bool) {nnodes : Nat} (side : Int → Int → Nat → K) : ∀ (cs : List (List Nat)) (i : Nat) {s : St},
    Ready i s → (∀ c ∈ cs, Ring nnodes c) →
    ∃ s', addCells dbg nnodes side i cs s = .ok s' ∧ Ready (i + cs.length) s' ∧ s.faces <+: s'.faces ∧ s.cells <+: s'.cells ∧
      (∀ e ∈ s'.faces, e ∈ s.faces ∨ ∃ c ∈ cs, ∃ p ∈ sides c ++ sides c.reverse, e = key p) ∧
      ∀ (j : Nat) c, cs[j]? = some c → ∃ ts, s'.cells[i + j]? = some ts ∧
        List.Forall₂ (fun p t => s'.faces[index t]? = some (key p) ∧ (0 ≤ t ↔ 0 < side (key p).1 (key p).2 (i + j))) (sides (turn side (i + j) c)) ts
  | [], i, s, h, _ => ⟨s, rfl, by simpa using h, List.prefix_refl _, List.prefix_refl _, fun e he => .inl he, by simp⟩
  | c :: cs, i, s, h, hc => by
    have hr := hc c (by simp)
    obtain ⟨s1, ts, e1, i1, c1, p1, m1, f1⟩ := addSides_spec dbg side (sides (turn side i c)) h (turn_ring side i hr).sides
    simp only [List.nil_append] at e1 i1
    have hready : Ready (i + 1) { s1 with cells := s1.cells ++ [ts] } := by
      refine ⟨i1.tab, i1.len, i1.cnt, i1.pos, by simp [i1.ncells], ?_, ?_⟩
      · intro k v
        have := i1.mirror k v
        simp only at this ⊢
        rw [this]
        congr 1
        rw [getD_snoc (s1.cells ++ [ts])]
        split
        · rename_i hv
          rw [List.getD_eq_getElem?_getD, List.getElem?_eq_none (by simp at hv ⊢; omega)]; rfl
        · rfl
      · intro x hx u hu
        simp only [List.append_assoc] at hx
        rcases List.mem_append.1 hx with hx | hx
        · exact i1.inb x (List.mem_append_left _ hx) u hu
        · simp only [List.cons_append, List.nil_append, List.mem_cons, List.not_mem_nil, or_false] at hx
          rcases hx with rfl | rfl
          · exact i1.inb x (by simp) u hu
          · simp at hu
    obtain ⟨s2, e2, r2, p2, q2, m2, f2⟩ := addCells_spec dbg side cs (i + 1) hready (fun x hx => hc x (by simp [hx]))
    refine ⟨s2, ?_, ?_, p1.trans p2, ?_, ?_, ?_⟩
    · simp only [addCells, Res.bind_eq, turned_ok dbg side i hr, Res.bind_ok, e1, e2]
    · have : i + 1 + cs.length = i + (c :: cs).length := by simp; omega
      exact this ▸ r2
    · refine List.IsPrefix.trans ?_ q2
      simp only [c1]; exact List.prefix_append _ _
    · intro e he
      rcases m2 e he with h' | ⟨x, hx, h'⟩
      · rcases m1 e h' with h'' | ⟨p, hp, h''⟩
        · exact .inl h''
        · refine .inr ⟨c, by simp, p, ?_, h''⟩
          unfold turn at hp; split at hp
          · exact List.mem_append_right _ hp
          · exact List.mem_append_left _ hp
      · exact .inr ⟨x, by simp [hx], h'⟩
    · intro j x hx
      cases j with
      | zero =>
        simp only [List.getElem?_cons_zero, Option.some.injEq] at hx; subst hx
        refine ⟨ts, ?_, ?_⟩
        · refine prefix_get q2 ?_
          simp only [c1]
          rw [Nat.add_zero, List.getElem?_append_right (by rw [h.ncells]), h.ncells]; simp
        · refine List.Forall₂.imp ?_ f1
          intro p t hpt
          exact ⟨prefix_get p2 hpt.1, hpt.2⟩
      | succ j =>
        obtain ⟨ts', a, b⟩ := f2 j x (by simpa using hx)
        have e : i + 1 + j = i + (j + 1) := by omega
        rw [e] at a b
        exact ⟨ts', a, b⟩

end Verif.Unbounded
