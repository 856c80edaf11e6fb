import Verif.Model.Hull
import Verif.Spec.Hull
import Verif.Proofs.Polygon
import Mathlib.Tactic.Linarith
import Mathlib.Tactic.Ring
import Mathlib.Tactic.Common
/- The monotone chain in integer coordinates. -/
namespace Verif.Geom
open Verif Verif.Mesh

def ar (a b c : V2 Int) : Int := (b.x - a.x) * (c.y - a.y) - (b.y - a.y) * (c.x - a.x)

theorem lexLt.le {a b : V2 Int} (h : lexLt a b) : lexLe a b := by unfold lexLt at h; unfold lexLe; omega
theorem lexLe.trans {a b c : V2 Int} (h : lexLe a b) (h' : lexLe b c) : lexLe a c := by unfold lexLe at *; omega
theorem lexLt.trans_le {a b c : V2 Int} (h : lexLt a b) (h' : lexLe b c) : lexLt a c := by unfold lexLe lexLt at *; omega
theorem lexLe.trans_lt {a b c : V2 Int} (h : lexLe a b) (h' : lexLt b c) : lexLt a c := by unfold lexLe lexLt at *; omega
theorem lexLt.trans {a b c : V2 Int} (h : lexLt a b) (h' : lexLt b c) : lexLt a c := h.trans_le h'.le
theorem lexLt_irrefl (a : V2 Int) : ¬ lexLt a a := by unfold lexLt; omega
theorem lexLe_refl (a : V2 Int) : lexLe a a := by unfold lexLe; omega
theorem lex_cases (a b : V2 Int) : lexLe b a ∨ lexLt a b := by unfold lexLe lexLt; omega
theorem lexLe_antisymm {a b : V2 Int} (h : lexLe a b) (h' : lexLe b a) : a = b := by
  unfold lexLe at *
  ext <;> omega

/-- Turning left is transitive among vectors in the right half plane. -/
theorem turn_le {ux uy vx vy wx wy : Int} (hu : 0 < ux ∨ (ux = 0 ∧ 0 ≤ uy)) (hv : 0 < vx ∨ (vx = 0 ∧ 0 < vy)) (hw : 0 < wx ∨ (wx = 0 ∧ 0 ≤ wy))
    (h1 : 0 ≤ ux * vy - uy * vx) (h2 : 0 ≤ vx * wy - vy * wx) : 0 ≤ ux * wy - uy * wx := by
  have hux : 0 ≤ ux := by omega
  have hwx : 0 ≤ wx := by omega
  rcases hv with hv | ⟨rfl, hv⟩
  · have e : vx * (ux * wy - uy * wx) = ux * (vx * wy - vy * wx) + wx * (ux * vy - uy * vx) := by ring
    have : 0 ≤ vx * (ux * wy - uy * wx) := by rw [e]; positivity
    exact nonneg_of_mul_nonneg_right this hv
  · have h3 : wx ≤ 0 := by nlinarith
    have : wx = 0 := le_antisymm h3 hwx
    subst this
    have : 0 ≤ wy := by omega
    have : 0 ≤ ux * wy := mul_nonneg hux this
    linarith

theorem turn_lt {ux uy vx vy wx wy : Int} (hu : 0 < ux ∨ (ux = 0 ∧ 0 < uy)) (hv : 0 < vx ∨ (vx = 0 ∧ 0 < vy)) (hw : 0 < wx ∨ (wx = 0 ∧ 0 < wy))
    (h1 : 0 < ux * vy - uy * vx) (h2 : 0 < vx * wy - vy * wx) : 0 < ux * wy - uy * wx := by
  have hwx : 0 ≤ wx := by omega
  rcases hv with hv | ⟨rfl, hv⟩
  · have hux : 0 < ux := by
      rcases hu with h | ⟨rfl, h⟩
      · exact h
      · exfalso; have := mul_pos h hv; linarith
    have e : vx * (ux * wy - uy * wx) = ux * (vx * wy - vy * wx) + wx * (ux * vy - uy * vx) := by ring
    have : 0 < vx * (ux * wy - uy * wx) := by
      rw [e]
      have := mul_pos hux h2
      have := mul_nonneg hwx h1.le
      linarith
    exact pos_of_mul_pos_right this hv.le
  · exfalso
    have := mul_nonneg hv.le hwx
    linarith

theorem ar_cyc (a b c : V2 Int) : ar a b c = ar b c a := by unfold ar; ring
theorem ar_self (a b : V2 Int) : ar a b a = 0 := by unfold ar; ring
theorem ar_self' (a b : V2 Int) : ar a b b = 0 := by unfold ar; ring
theorem ar_swap (a b c : V2 Int) : ar a b c = -ar b a c := by unfold ar; ring

section
variable {a b c d p q : V2 Int}

/-- From a common start: `b` left of `d`, `d` left of `p`, all after `a`. -/
theorem from_lt (hb : lexLt a b) (hd : lexLt a d) (hp : lexLt a p) (h1 : 0 < ar a b d) (h2 : 0 < ar a d p) : 0 < ar a b p := by
  unfold lexLt at *
  exact turn_lt (ux := b.x - a.x) (uy := b.y - a.y) (vx := d.x - a.x) (vy := d.y - a.y) (wx := p.x - a.x) (wy := p.y - a.y) (by omega) (by omega) (by omega) h1 h2
theorem from_le (hb : lexLe a b) (hd : lexLt a d) (hp : lexLe a p) (h1 : 0 ≤ ar a b d) (h2 : 0 ≤ ar a d p) : 0 ≤ ar a b p := by
  unfold lexLt lexLe at *
  exact turn_le (ux := b.x - a.x) (uy := b.y - a.y) (vx := d.x - a.x) (vy := d.y - a.y) (wx := p.x - a.x) (wy := p.y - a.y) (by omega) (by omega) (by omega) h1 h2
/-- To a common end. -/
theorem to_lt (ha : lexLt a p) (hd : lexLt d p) (hb : lexLt b p) (h1 : 0 < ar p a d) (h2 : 0 < ar p d b) : 0 < ar p a b := by
  unfold lexLt at *
  have e1 : ar p a d = (p.x - a.x) * (p.y - d.y) - (p.y - a.y) * (p.x - d.x) := by unfold ar; ring
  have e2 : ar p d b = (p.x - d.x) * (p.y - b.y) - (p.y - d.y) * (p.x - b.x) := by unfold ar; ring
  have e3 : ar p a b = (p.x - a.x) * (p.y - b.y) - (p.y - a.y) * (p.x - b.x) := by unfold ar; ring
  rw [e1] at h1; rw [e2] at h2; rw [e3]
  exact turn_lt (by omega) (by omega) (by omega) h1 h2
theorem to_le (ha : lexLe a p) (hd : lexLt d p) (hb : lexLe b p) (h1 : 0 ≤ ar p a d) (h2 : 0 ≤ ar p d b) : 0 ≤ ar p a b := by
  unfold lexLt lexLe at *
  have e1 : ar p a d = (p.x - a.x) * (p.y - d.y) - (p.y - a.y) * (p.x - d.x) := by unfold ar; ring
  have e2 : ar p d b = (p.x - d.x) * (p.y - b.y) - (p.y - d.y) * (p.x - b.x) := by unfold ar; ring
  have e3 : ar p a b = (p.x - a.x) * (p.y - b.y) - (p.y - a.y) * (p.x - b.x) := by unfold ar; ring
  rw [e1] at h1; rw [e2] at h2; rw [e3]
  exact turn_le (by omega) (by omega) (by omega) h1 h2

/-- Two successive left turns make the outer turns left. -/
theorem turn_out (hab : lexLt a b) (hbc : lexLt b c) (hcp : lexLt c p) (h1 : 0 < ar a b c) (h2 : 0 < ar b c p) : 0 < ar a c p := by
  unfold lexLt at *
  have e1 : ar a b c = (c.x - a.x) * (c.y - b.y) - (c.y - a.y) * (c.x - b.x) := by unfold ar; ring
  have e2 : ar b c p = (c.x - b.x) * (p.y - c.y) - (c.y - b.y) * (p.x - c.x) := by unfold ar; ring
  have e3 : ar a c p = (c.x - a.x) * (p.y - c.y) - (c.y - a.y) * (p.x - c.x) := by unfold ar; ring
  rw [e1] at h1; rw [e2] at h2; rw [e3]
  exact turn_lt (by omega) (by omega) (by omega) h1 h2
theorem turn_in (hab : lexLt a b) (hbc : lexLt b c) (hcp : lexLt c p) (h1 : 0 < ar a b c) (h2 : 0 < ar b c p) : 0 < ar a b p := by
  unfold lexLt at *
  have e1 : ar a b c = (b.x - a.x) * (c.y - b.y) - (b.y - a.y) * (c.x - b.x) := by unfold ar; ring
  have e2 : ar b c p = (c.x - b.x) * (p.y - b.y) - (c.y - b.y) * (p.x - b.x) := by unfold ar; ring
  have e3 : ar a b p = (b.x - a.x) * (p.y - b.y) - (b.y - a.y) * (p.x - b.x) := by unfold ar; ring
  rw [e1] at h1; rw [e2] at h2; rw [e3]
  exact turn_lt (by omega) (by omega) (by omega) h1 h2
/-- A point before `c` that is left of the edge into `c` is left of an edge out of `c` that turns left. -/
theorem before_le (hq : lexLe q c) (hd : lexLt d c) (hp : lexLt c p) (h1 : 0 ≤ ar d c q) (h2 : 0 ≤ ar d c p) : 0 ≤ ar c p q := by
  unfold lexLt lexLe at *
  have e1 : ar d c q = (c.x - q.x) * (c.y - d.y) - (c.y - q.y) * (c.x - d.x) := by unfold ar; ring
  have e2 : ar d c p = (c.x - d.x) * (p.y - c.y) - (c.y - d.y) * (p.x - c.x) := by unfold ar; ring
  have e3 : ar c p q = (c.x - q.x) * (p.y - c.y) - (c.y - q.y) * (p.x - c.x) := by unfold ar; ring
  rw [e1] at h1; rw [e2] at h2; rw [e3]
  exact turn_le (by omega) (by omega) (by omega) h1 h2
/-- A point above the segment `f l` is above any line that is below both ends. -/
theorem above_lt {f l u : V2 Int} (hab : lexLe a b) (h1 : lexLe f u) (h2 : lexLe u l) (hf : 0 < ar a b f) (hl : 0 < ar a b l) (hu : 0 < ar f l u) : 0 < ar a b u := by
  unfold lexLe at *
  have e : (l.x - f.x) * ar a b u = (l.x - u.x) * ar a b f + (u.x - f.x) * ar a b l + (b.x - a.x) * ar f l u := by unfold ar; ring
  have hfl : 0 < l.x - f.x := by
    by_contra hc
    have g1 : l.x = f.x := by omega
    have g2 : u.x = f.x := by omega
    unfold ar at hu
    rw [g1, g2] at hu
    simp at hu
  have g3 : 0 ≤ (b.x - a.x) * ar f l u := mul_nonneg (by omega) hu.le
  have g4 : 0 ≤ (l.x - u.x) * ar a b f := mul_nonneg (by omega) hf.le
  have g5 : 0 ≤ (u.x - f.x) * ar a b l := mul_nonneg (by omega) hl.le
  have : 0 < (l.x - f.x) * ar a b u := by
    rw [e]
    rcases (show 0 < l.x - u.x ∨ 0 < u.x - f.x by omega) with h | h
    · have := mul_pos h hf; linarith
    · have := mul_pos h hl; linarith
  exact pos_of_mul_pos_right this hfl.le
end

/-! ### The stack -/

/-- The stack (top first) after the points of `P` have been pushed. -/
structure Chain (P s : List Tagged) : Prop where
  desc : s.Pairwise fun b a => lexLt a.1 b.1
  turn : ∀ a b c, List.Sublist [c, b, a] s → 0 < ar a.1 b.1 c.1
  edge : ∀ X Y a b, s = X ++ b :: a :: Y → ∀ q ∈ P, 0 ≤ ar a.1 b.1 q.1
  bottom : ∀ X c, s = X ++ [c] → ∀ q ∈ P, lexLe c.1 q.1
  top : ∀ c Y, s = c :: Y → ∀ q ∈ P, lexLe q.1 c.1
  mem : ∀ c ∈ s, c ∈ P

theorem zcross_iff (a b c : V2 Int) : zcrossSign a b c ≤ 0 ↔ ar a b c ≤ 0 := by
  have : zcrossSign a b c = if ar a b c < 0 then -1 else if ar a b c > 0 then 1 else 0 := rfl
  rw [this]
  split
  · rename_i h; simp [h.le]
  · split
    · rename_i h; simp; exact h
    · rename_i h; simp; omega

theorem chainPop_spec {P : List Tagged} {p : Tagged} (hp : ∀ q ∈ P, lexLt q.1 p.1) : ∀ {s : List Tagged}, s ≠ [] →
    (∀ X Y a b, s = X ++ b :: a :: Y → ∀ q ∈ P, 0 ≤ ar a.1 b.1 q.1) → (∀ c ∈ s, c ∈ P) → (s.Pairwise fun b a => lexLt a.1 b.1) →
    (∀ c Y, s = c :: Y → ∀ q ∈ P, lexLe c.1 q.1 → 0 ≤ ar c.1 p.1 q.1) →
    ∃ c Y X, chainPop 2 p s = c :: Y ∧ s = X ++ c :: Y ∧ (∀ q ∈ P, lexLe c.1 q.1 → 0 ≤ ar c.1 p.1 q.1) ∧ ∀ d Z, Y = d :: Z → 0 < ar d.1 c.1 p.1
  | [], h, _, _, _, _ => absurd rfl h
  | [c], _, _, _, _, h => ⟨c, [], [], rfl, rfl, h c [] rfl, by simp⟩
  | b :: a :: r, _, he, hm, hd, h => by
    unfold chainPop
    by_cases hz : zcrossSign a.1 b.1 p.1 ≤ 0
    · rw [if_pos ⟨by omega, hz⟩]
      rw [zcross_iff] at hz
      have hab : lexLt a.1 b.1 := (List.pairwise_cons.mp hd).1 a (by simp)
      have hbp := hp b (hm b (by simp))
      have hap := hp a (hm a (by simp))
      obtain ⟨c, Y, X, h1, h2, h3, h4⟩ := chainPop_spec (p := p) hp (s := a :: r) (by simp) (fun X Y x y e => he (b :: X) Y x y (by rw [e]; rfl))
        (fun c hc => hm c (List.mem_cons_of_mem _ hc)) (List.pairwise_cons.mp hd).2
        (by
          intro c Y e q hq hcq
          injection e with e1 e2
          subst e1
          rcases lex_cases q.1 b.1 with hbq | hqb
          · -- q is at or after b: go back to a around p
            have g1 := h b (a :: r) rfl q hq hbq
            have hqp := hp q hq
            have g2 : 0 ≤ ar p.1 q.1 b.1 := by rw [ar_cyc] at g1; exact g1
            have g3 : 0 ≤ ar p.1 b.1 a.1 := by
              have : ar p.1 b.1 a.1 = -ar a.1 b.1 p.1 := by unfold ar; ring
              linarith
            have g4 := to_le hqp.le hbp hap.le g2 g3
            have : ar a.1 p.1 q.1 = ar p.1 q.1 a.1 := ar_cyc _ _ _
            rw [this]; exact g4
          · have g1 := he [] r a b rfl q hq
            have g2 : 0 ≤ ar a.1 p.1 b.1 := by
              have : ar a.1 p.1 b.1 = -ar a.1 b.1 p.1 := by unfold ar; ring
              linarith
            exact from_le hap.le hab hcq g2 g1)
      exact ⟨c, Y, b :: X, h1, by rw [h2]; rfl, h3, h4⟩
    · rw [if_neg (by rintro ⟨_, h⟩; exact hz h)]
      refine ⟨b, a :: r, [], rfl, rfl, h b _ rfl, ?_⟩
      intro d Z e
      injection e with e1 _
      subst e1
      rw [zcross_iff] at hz
      omega

theorem Chain.push {P s : List Tagged} (h : Chain P s) (hs : s ≠ []) {p : Tagged} (hp : ∀ q ∈ P, lexLt q.1 p.1) : Chain (P ++ [p]) (p :: chainPop 2 p s) := by
  obtain ⟨c, Y, X, h1, h2, h3, h4⟩ := chainPop_spec hp hs h.edge h.mem h.desc (by
    intro c Y e q hq hcq
    rw [lexLe_antisymm hcq (h.top c Y e q hq), ar_self])
  rw [h1]
  have hsuf : List.Sublist (c :: Y) s := by rw [h2]; exact List.sublist_append_right _ _
  have hdes := h.desc.sublist hsuf
  have hmem : ∀ x ∈ c :: Y, x ∈ P := fun x hx => h.mem x (hsuf.subset hx)
  have hcp := hp c (hmem c (by simp))
  -- turns into `p`
  have hc : ∀ a, List.Sublist [c, a] (c :: Y) → 0 < ar a.1 c.1 p.1 := by
    intro a ha
    have ha' : a ∈ Y := by
      rcases List.cons_sublist_cons'.mp ha with h | ⟨_, h⟩
      · exact absurd ((List.pairwise_cons.mp hdes).1 c (h.subset (by simp))) (lexLt_irrefl _)
      · exact h.subset (by simp)
    cases Y with
    | nil => simp at ha'
    | cons d Z =>
      have hd := h4 d Z rfl
      rcases List.mem_cons.mp ha' with rfl | hz
      · exact hd
      · have hdc : lexLt d.1 c.1 := (List.pairwise_cons.mp hdes).1 d (by simp)
        have had : lexLt a.1 d.1 := (List.pairwise_cons.mp (List.pairwise_cons.mp hdes).2).1 a hz
        exact turn_out had hdc hcp (h.turn a d c ((List.Sublist.cons_cons _ (List.Sublist.cons_cons _ (List.singleton_sublist.mpr hz))).trans hsuf)) hd
  have hturn : ∀ a b, List.Sublist [b, a] (c :: Y) → 0 < ar a.1 b.1 p.1 := by
    intro a b hab
    rcases List.cons_sublist_cons'.mp hab with h' | ⟨e, h'⟩
    · have hbc := (List.pairwise_cons.mp hdes).1 b (h'.subset (by simp))
      have hab' : lexLt a.1 b.1 := (List.pairwise_cons.mp (hdes.sublist hab)).1 a (by simp)
      exact turn_in hab' hbc hcp (h.turn a b c ((List.Sublist.cons_cons _ h').trans hsuf)) (hc b (List.Sublist.cons_cons _ (List.singleton_sublist.mpr (h'.subset (by simp)))))
    · subst e; exact hc a hab
  refine ⟨?_, ?_, ?_, ?_, ?_, ?_⟩
  · refine List.pairwise_cons.mpr ⟨fun x hx => hp x (hmem x hx), hdes⟩
  · intro a b e hsub
    rcases List.cons_sublist_cons'.mp hsub with h' | ⟨rfl, h'⟩
    · exact h.turn a b e (h'.trans hsuf)
    · exact hturn a b h'
  · intro X' Y' a b e q hq
    rcases List.mem_append.mp hq with hq | hq
    · cases X' with
      | nil =>
        injection e with e1 e2
        injection e2 with e3 e4
        subst e1 e3
        rcases lex_cases q.1 c.1 with hcq | hqc
        · exact h3 q hq hcq
        · cases Y with
          | nil => exact absurd (hqc.trans_le (h.bottom X c h2 q hq)) (lexLt_irrefl _)
          | cons d Z =>
            have hdc : lexLt d.1 c.1 := (List.pairwise_cons.mp hdes).1 d (by simp)
            exact before_le hqc.le hdc hcp (h.edge X Z d c h2 q hq) (h4 d Z rfl).le
      | cons x X' =>
        injection e with e1 e2
        have e2 : c :: Y = X' ++ b :: a :: Y' := e2
        exact h.edge (X ++ X') Y' a b (by rw [h2, e2]; simp) q hq
    · rw [List.mem_singleton.mp hq]
      cases X' with
      | nil =>
        injection e with e1 e2
        subst e1
        rw [ar_self']
      | cons x X' =>
        injection e with e1 e2
        refine (hturn a b ?_).le
        rw [e2]
        exact (List.Sublist.cons_cons _ (List.Sublist.cons_cons _ (List.nil_sublist _))).trans (List.sublist_append_right _ _)
  · intro X' d e q hq
    cases X' with
    | nil => injection e with _ e2; cases e2
    | cons x X' =>
      injection e with e1 e2
      have e2 : c :: Y = X' ++ [d] := e2
      have hb := h.bottom (X ++ X') d (by rw [h2, e2]; simp)
      rcases List.mem_append.mp hq with hq | hq
      · exact hb q hq
      · rw [List.mem_singleton.mp hq]
        exact (hp d (hmem d (by rw [e2]; simp))).le
  · intro d Y' e q hq
    injection e with e1 _
    subst e1
    rcases List.mem_append.mp hq with hq | hq
    · exact (hp q hq).le
    · rw [List.mem_singleton.mp hq]; exact lexLe_refl _
  · intro x hx
    rcases List.mem_cons.mp hx with rfl | hx
    · simp
    · exact List.mem_append_left _ (hmem x hx)

theorem Chain.single (p : Tagged) : Chain [p] [p] := by
  refine ⟨by simp, fun a b c h => ?_, fun X Y a b e => ?_, fun X c e q hq => ?_, fun c Y e q hq => ?_, by simp⟩
  · have := h.length_le; simp at this
  · have := congrArg List.length e
    simp at this
    omega
  · cases X with
    | nil => injection e with e1 _; subst e1; rw [List.mem_singleton.mp hq]; exact lexLe_refl _
    | cons x X => have := congrArg List.length e; simp at this
  · injection e with e1 _; subst e1; rw [List.mem_singleton.mp hq]; exact lexLe_refl _

theorem chain_spec : ∀ {ps P s : List Tagged}, Chain P s → s ≠ [] → (P ++ ps).Pairwise (fun a b => lexLt a.1 b.1) → Chain (P ++ ps) (chain 2 ps s)
  | [], P, s, h, _, _ => by simpa [chain] using h
  | p :: ps, P, s, h, hs, hp => by
    have e : P ++ p :: ps = (P ++ [p]) ++ ps := by simp
    rw [e] at hp ⊢
    exact chain_spec (h.push hs fun q hq => (List.pairwise_append.mp (List.pairwise_append.mp hp).1).2.2 q hq p (by simp)) (by simp) hp

/-- The lower hull of a strictly increasing list. -/
theorem chain_lower {P : List Tagged} (hne : P ≠ []) (hp : P.Pairwise fun a b => lexLt a.1 b.1) : Chain P (chain 2 P []) := by
  cases P with
  | nil => exact absurd rfl hne
  | cons p ps => exact chain_spec (P := [p]) (Chain.single p) (by simp) hp

/-- The stack of the second loop stands on that of the first. -/
theorem chainPop_base {p : Tagged} {L : List Tagged} : ∀ {s : List Tagged}, s ≠ [] → chainPop (L.length + 2) p (s ++ L) = chainPop 2 p s ++ L
  | [], h => absurd rfl h
  | [c], _ => by
    cases L with
    | nil => rfl
    | cons d L => simp [chainPop]
  | b :: a :: r, _ => by
    have ih := chainPop_base (p := p) (L := L) (s := a :: r) (by simp)
    rw [List.cons_append] at ih
    simp only [List.cons_append, chainPop, List.length_append]
    by_cases h : zcrossSign a.1 b.1 p.1 ≤ 0
    · rw [if_pos ⟨by omega, h⟩, if_pos ⟨by omega, h⟩, ih]
    · rw [if_neg (fun hc => h hc.2), if_neg (fun hc => h hc.2)]; simp

theorem chain_base {L : List Tagged} : ∀ {ps s : List Tagged}, s ≠ [] → chain (L.length + 2) ps (s ++ L) = chain 2 ps s ++ L
  | [], _, _ => rfl
  | p :: ps, s, h => by
    simp only [chain]
    rw [chainPop_base h, ← List.cons_append, chain_base (by simp)]

/-! ### The upper hull by reflection in the origin -/

def refl (e : Tagged) : Tagged := (⟨-e.1.x, -e.1.y⟩, e.2)
theorem refl_refl (e : Tagged) : refl (refl e) = e := by simp [refl]
theorem ar_refl (a b c : Tagged) : ar (refl a).1 (refl b).1 (refl c).1 = ar a.1 b.1 c.1 := by simp only [ar, refl]; ring
theorem lexLt_refl {a b : Tagged} : lexLt (refl a).1 (refl b).1 ↔ lexLt b.1 a.1 := by simp only [lexLt, refl]; omega
theorem lexLe_reflect {a b : Tagged} : lexLe (refl a).1 (refl b).1 ↔ lexLe b.1 a.1 := by simp only [lexLe, refl]; omega

theorem chainPop_refl (t : Nat) (p : Tagged) : ∀ s : List Tagged, chainPop t (refl p) (s.map refl) = (chainPop t p s).map refl
  | [] => rfl
  | [_] => rfl
  | b :: a :: r => by
    have ih := chainPop_refl t p (a :: r)
    rw [List.map_cons] at ih
    simp only [List.map_cons, chainPop, List.length_map]
    have : zcrossSign (refl a).1 (refl b).1 (refl p).1 ≤ 0 ↔ zcrossSign a.1 b.1 p.1 ≤ 0 := by rw [zcross_iff, zcross_iff, ar_refl]
    by_cases h : t ≤ r.length + 2 ∧ zcrossSign a.1 b.1 p.1 ≤ 0
    · rw [if_pos h, if_pos ⟨h.1, this.mpr h.2⟩, ih]
    · rw [if_neg h, if_neg (fun hc => h ⟨hc.1, this.mp hc.2⟩)]; rfl

theorem chain_refl (t : Nat) : ∀ ps s : List Tagged, chain t (ps.map refl) (s.map refl) = (chain t ps s).map refl
  | [], s => rfl
  | p :: ps, s => by
    simp only [List.map_cons, chain]
    rw [chainPop_refl, ← List.map_cons, chain_refl]
end Verif.Geom
