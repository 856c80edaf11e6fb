import Verif.Model.Simplify
import Verif.Proofs.DeleteCells
/- The removal of unused points in `simplifyPLCfacets`. -/
namespace Verif.Simplify
open Verif Verif.Mesh Verif.Internal Verif.Geom

/-- The entries of a list at which the flags are set. -/
def keep {V : Type} : List V → List Bool → List V
  | p :: ps, b :: bs => if b then p :: keep ps bs else keep ps bs
  | _, _ => []

/-- How many flags are set before position `i`. -/
def rank (bs : List Bool) (i : Nat) : Nat := (bs.take i).countP id

/-- The mask for flags. -/
def maskOf (bs : List Bool) : List Int := bs.map fun b => if b then 1 else -1

theorem keep_sublist {V : Type} : ∀ (ps : List V) (bs : List Bool), (keep ps bs).Sublist ps
  | [], bs => by simp [keep]
  | p :: ps, [] => by simp [keep]
  | p :: ps, b :: bs => by
    rw [keep]
    split
    · exact (keep_sublist ps bs).cons₂ p
    · exact (keep_sublist ps bs).cons p

theorem keep_get {V : Type} : ∀ (ps : List V) (bs : List Bool) (i : Nat) (p : V), ps[i]? = some p → bs[i]? = some true → (keep ps bs)[rank bs i]? = some p
  | [], bs, i, p, h, _ => by simp at h
  | q :: ps, [], i, p, _, h => by simp at h
  | q :: ps, b :: bs, 0, p, h1, h2 => by
    simp only [List.getElem?_cons_zero, Option.some.injEq] at h1 h2
    simp [keep, rank, h1, h2]
  | q :: ps, b :: bs, i + 1, p, h1, h2 => by
    simp only [List.getElem?_cons_succ] at h1 h2
    have := keep_get ps bs i p h1 h2
    cases b <;> simpa [keep, rank] using this

/-- Every kept entry stands at a flag. -/
theorem keep_mem {V : Type} : ∀ (ps : List V) (bs : List Bool) (p : V), p ∈ keep ps bs → ∃ i : Nat, ps[i]? = some p ∧ bs[i]? = some true
  | [], bs, p, h => by simp [keep] at h
  | q :: ps, [], p, h => by simp [keep] at h
  | q :: ps, b :: bs, p, h => by
    cases b with
    | false =>
      obtain ⟨i, h1, h2⟩ := keep_mem ps bs p (by simpa [keep] using h)
      exact ⟨i + 1, by simpa using h1, by simpa using h2⟩
    | true =>
      rw [keep, if_pos rfl, List.mem_cons] at h
      rcases h with rfl | h
      · exact ⟨0, rfl, rfl⟩
      · obtain ⟨i, h1, h2⟩ := keep_mem ps bs p h
        exact ⟨i + 1, by simpa using h1, by simpa using h2⟩

theorem rank_lt {bs : List Bool} {i j : Nat} (hij : i < j) (hi : bs[i]? = some true) : rank bs i < rank bs j := by
  have h1 : rank bs (i + 1) = rank bs i + 1 := by
    simp [rank, List.take_add_one, hi]
  have h2 : rank bs (i + 1) ≤ rank bs j := by
    unfold rank
    refine List.Sublist.countP_le ?_
    exact (List.take_prefix_take_left (by omega)).sublist
  omega

theorem rank_inj {bs : List Bool} {i j : Nat} (hi : bs[i]? = some true) (hj : bs[j]? = some true) (h : rank bs i = rank bs j) : i = j := by
  rcases Nat.lt_trichotomy i j with e | e | e
  · have := rank_lt e hi; omega
  · exact e
  · have := rank_lt e hj; omega

theorem number_get : ∀ (bs : List Bool) (n i : Nat), bs[i]? = some true → (number (maskOf bs) n).1[i]? = some ((n + rank bs i : Nat) : Int)
  | [], n, i, h => by simp at h
  | b :: bs, n, 0, h => by
    simp only [List.getElem?_cons_zero, Option.some.injEq] at h
    subst h
    simp [maskOf, number, rank]
  | b :: bs, n, i + 1, h => by
    simp only [List.getElem?_cons_succ] at h
    cases b with
    | false =>
      have := number_get bs n i h
      simpa [maskOf, number, rank] using this
    | true =>
      have := number_get bs (n + 1) i h
      simp only [maskOf, List.map_cons, if_true, number, List.getElem?_cons_succ]
      simp only [maskOf] at this
      rw [this]
      simp only [rank, List.take_succ_cons, List.countP_cons, id, if_true]
      congr 2
      omega

theorem compact_spec {V : Type} (dbg : Bool) : ∀ (bs : List Bool) (i m : Nat) (pts : List V), m ≤ i → pts.length = i + bs.length →
    ∃ pts', compact dbg (number (maskOf bs) m).1 i pts = .ok pts' ∧ pts'.take (number (maskOf bs) m).2 = pts.take m ++ keep (pts.drop i) bs
  | [], i, m, pts, h1, h2 => ⟨pts, by simp [maskOf, number, compact], by simp [maskOf, number, keep]⟩
  | b :: bs, i, m, pts, h1, h2 => by
    rw [List.length_cons] at h2
    have hi : i < pts.length := by omega
    have hdrop : pts.drop i = pts[i] :: pts.drop (i + 1) := List.drop_eq_getElem_cons hi
    cases b with
    | false =>
      obtain ⟨pts', e1, e2⟩ := compact_spec dbg bs (i + 1) m pts (by omega) (by omega)
      refine ⟨pts', ?_, ?_⟩
      · simp only [maskOf, List.map_cons, number] at e1 ⊢
        simp only [Bool.false_eq_true, if_false, show ((-1 : Int) = 1) = False from by simp]
        rw [compact, if_neg (by simp)]
        exact e1
      · simp only [maskOf, List.map_cons, number] at e2 ⊢
        simp only [Bool.false_eq_true, if_false, show ((-1 : Int) = 1) = False from by simp]
        rw [e2, hdrop]
        simp [keep]
    | true =>
      obtain ⟨pts', e1, e2⟩ := compact_spec dbg bs (i + 1) (m + 1) (pts.set m pts[i]) (by omega) (by simp; omega)
      refine ⟨pts', ?_, ?_⟩
      · simp only [maskOf, List.map_cons, number, if_true, compact] at e1 ⊢
        rw [if_pos (by omega), Res.bind_eq, Res.assert_true dbg (by omega), Res.bind_ok, Res.bind_eq, rd_lt hi, Res.bind_ok, Res.bind_eq]
        rw [show (m : Int).toNat = m by omega, wr_lt (by omega), Res.bind_ok]
        exact e1
      · simp only [maskOf, List.map_cons, number, if_true] at e2 ⊢
        rw [e2, hdrop]
        have g1 : (pts.set m pts[i]).take (m + 1) = pts.take m ++ [pts[i]] := by
          rw [List.take_add_one, List.take_set_of_le (by omega), List.getElem?_set_self (by omega)]
          rfl
        have g2 : (pts.set m pts[i]).drop (i + 1) = pts.drop (i + 1) := List.drop_set_of_lt (by omega)
        rw [g1, g2]
        simp [keep]

/-- The points that the facets use. -/
def usedBy (fs : List Edge) (n : Nat) : List Bool := (List.range n).map fun (i : Nat) => fs.any fun f => f.1 == (i : Int) || f.2 == (i : Int)

theorem usedBy_true {fs : List Edge} {n i : Nat} : (usedBy fs n)[i]? = some true ↔ i < n ∧ ∃ f ∈ fs, f.1 = i ∨ f.2 = i := by
  rcases Nat.lt_or_ge i n with h | h
  · simp only [usedBy, List.getElem?_map, List.getElem?_range h, Option.map_some, Option.some.injEq, List.any_eq_true, Bool.or_eq_true, beq_iff_eq]
    simp [h]
  · simp only [usedBy, List.getElem?_map]
    rw [List.getElem?_eq_none (by simpa using h)]
    simp; omega

theorem maskOf_set {n : Nat} {bs : List Bool} (hb : bs.length = n) {i : Nat} (_ : i < n) : (maskOf bs).set i 1 = maskOf (bs.set i true) := by
  simp [maskOf, List.map_set]

theorem useMask_eq {n : Nat} {fs : List Edge} (h : ∀ f ∈ fs, (0 ≤ f.1 ∧ f.1 < n) ∧ 0 ≤ f.2 ∧ f.2 < n) : useMask n fs = .ok (maskOf (usedBy fs n)) := by
  have key : ∀ (fs : List Edge) (bs : List Bool), bs.length = n → (∀ f ∈ fs, (0 ≤ f.1 ∧ f.1 < n) ∧ 0 ≤ f.2 ∧ f.2 < n) →
      ∃ bs', fs.foldlM (fun mask f => do
        let mask ← if 0 ≤ f.1 then wr mask f.1.toNat 1 else Res.ub
        if 0 ≤ f.2 then wr mask f.2.toNat 1 else Res.ub) (maskOf bs) = .ok (maskOf bs') ∧ bs'.length = n ∧
        ∀ i : Nat, bs'[i]? = some true ↔ bs[i]? = some true ∨ (i < n ∧ ∃ f ∈ fs, f.1 = i ∨ f.2 = i) := by
    intro fs
    induction fs with
    | nil => intro bs hb _; exact ⟨bs, rfl, hb, fun i => by simp⟩
    | cons f fs ih =>
      intro bs hb hf
      obtain ⟨⟨a1, a2⟩, a3, a4⟩ := hf f (by simp)
      have l1 : f.1.toNat < n := by omega
      have l2 : f.2.toNat < n := by omega
      obtain ⟨bs', e1, e2, e3⟩ := ih ((bs.set f.1.toNat true).set f.2.toNat true) (by simpa using hb) fun g hg => hf g (by simp [hg])
      refine ⟨bs', ?_, e2, ?_⟩
      · rw [List.foldlM_cons, Res.bind_eq]
        rw [if_pos a1, wr_lt (by simp [maskOf, hb]; omega), Res.bind_eq, Res.bind_ok]
        dsimp only
        rw [if_pos a3, wr_lt (by simp [maskOf, hb]; omega), Res.bind_ok,
          maskOf_set hb l1, maskOf_set (by simpa using hb) l2]
        exact e1
      · intro i
        rw [e3]
        constructor
        · rintro (h | ⟨hi, g, hg, h⟩)
          · by_cases c2 : i = f.2.toNat
            · exact Or.inr ⟨by omega, f, by simp, Or.inr (by omega)⟩
            · by_cases c1 : i = f.1.toNat
              · exact Or.inr ⟨by omega, f, by simp, Or.inl (by omega)⟩
              · rw [List.getElem?_set_ne (by omega), List.getElem?_set_ne (by omega)] at h
                exact Or.inl h
          · exact Or.inr ⟨hi, g, by simp [hg], h⟩
        · rintro (h | ⟨hi, g, hg, h⟩)
          · left
            have hin : i < bs.length := (List.getElem?_eq_some_iff.1 h).1
            by_cases c2 : i = f.2.toNat
            · rw [c2, List.getElem?_set_self (by simp; omega)]
            · rw [List.getElem?_set_ne (by omega)]
              by_cases c1 : i = f.1.toNat
              · rw [c1, List.getElem?_set_self (by omega)]
              · rw [List.getElem?_set_ne (by omega)]; exact h
          · rcases List.mem_cons.1 hg with rfl | hg
            · left
              by_cases c2 : i = g.2.toNat
              · rw [c2, List.getElem?_set_self (by simp; omega)]
              · have c1 : i = g.1.toNat := by omega
                rw [List.getElem?_set_ne (by omega), c1, List.getElem?_set_self (by omega)]
            · exact Or.inr ⟨hi, g, hg, h⟩
  obtain ⟨bs', e1, e2, e3⟩ := key fs (List.replicate n false) (by simp) h
  have hbs : bs' = usedBy fs n := by
    refine List.ext_getElem? fun i => ?_
    have h1 := e3 i
    rw [← usedBy_true] at h1
    rcases Nat.lt_or_ge i n with hi | hi
    · have h2 : (List.replicate n false)[i]? ≠ some true := by simp [List.getElem?_replicate, hi]
      have h3 : i < (usedBy fs n).length := by simp [usedBy, hi]
      simp only [h2, false_or] at h1
      rw [List.getElem?_eq_getElem (by omega), List.getElem?_eq_getElem h3] at h1 ⊢
      simp only [Option.some.injEq] at h1 ⊢
      exact Bool.eq_iff_iff.2 h1
    · rw [List.getElem?_eq_none (by omega), List.getElem?_eq_none (by simp [usedBy, hi])]
  rw [← hbs, ← e1]
  unfold useMask
  simp [maskOf]

theorem renumber_eq (dbg : Bool) {bs : List Bool} {i : Nat} (h : bs[i]? = some true) : renumber dbg (number (maskOf bs) 0).1 (i : Int) = .ok ((rank bs i : Nat) : Int) := by
  have := number_get bs 0 i h
  rw [Nat.zero_add] at this
  simp only [renumber, rdi, Int.natCast_nonneg, if_true, Int.toNat_natCast, Res.bind_eq, rd_eq_ok.2 this, Res.bind_ok]
  rw [Res.assert_true dbg (by omega)]
  rfl
end Verif.Simplify
