import Verif.Proofs.Simplify3Replace
/- The volume inside the new facets. -/
namespace Verif.Simplify3
open Verif Verif.Mesh Verif.Internal Verif.Geom

theorem mem_joins {P : Type} [DecidableEq P] {w : List P} {p : P} (h : p ∈ w) : ∃ q, joins [w] p q ≠ 0 := by
  obtain ⟨j, hj, rfl⟩ := List.getElem_of_mem h
  refine ⟨w.getD ((j + 1) % w.length) w[j], ?_⟩
  have hd : (w[j], w.getD ((j + 1) % w.length) w[j]) ∈ dirSides w := by
    rw [dirSides_range w w[j]]
    refine List.mem_map.2 ⟨j, List.mem_range.2 hj, ?_⟩
    rw [← List.getElem_eq_getD (h := hj)]
  have := List.count_pos_iff.2 hd
  rw [joins_one]
  omega

theorem Outline.mem {P : Type} [DecidableEq P] {L : List (List P)} {w : List P} (h : Outline L w) {p : P} (hp : p ∈ w) : ∃ l ∈ L, p ∈ l := by
  obtain ⟨q, hq⟩ := mem_joins hp
  rw [h p q] at hq
  split at hq
  · next e =>
    obtain ⟨l, hl, hm, -⟩ := joins_mem (p := p) (q := q) (L := L) (by omega)
    exact ⟨l, hl, hm⟩
  · exact absurd rfl hq

theorem Replaces.volume {old : List (List (V3 ℝ))} {w new : List (V3 ℝ)} (h : Replaces old w new) (hw : w.Nodup) (hp : Proper (turns w)) :
    areaAlong (new.headD 0) new = (old.map fun l => areaAlong (l.headD 0) l).sum := by
  rw [h.area hw hp]
  congr 1
  refine List.map_congr_left fun l hl => ?_
  have hhead : new.headD 0 ∈ w := by
    have h3 := h.three
    have : new.headD 0 ∈ new := by
      rcases new with _ | ⟨a, t⟩
      · simp at h3
      · simp
    rcases h.corners with e | e
    · rw [e] at this; rw [e]; exact mem_turns this
    · rw [e] at this; rw [e]; exact mem_turns (List.mem_reverse.1 this)
  obtain ⟨l', hl', hm⟩ := h.outline.mem hhead
  have h1 := (h.plane l' hl' l hl).2 _ hm
  have hself := (h.plane l hl l hl)
  have hz : areaAlong (new.headD 0 - l.headD 0) l = 0 := by
    refine flat_area hself.1.ne hself.2 ?_
    rw [dot_sub, h1, sub_self]
  rw [areaAlong_sub] at hz
  linarith

theorem volume_eq {C : Nat → List (V3 ℝ)} {N : List Int → List (V3 ℝ)} {n : Nat} {groups : List (List Nat × List (V3 ℝ))} {fs : List (List Int)} (hperm : (groups.map Prod.fst).flatten.Perm (List.range n))
    (h : List.Forall₂ (fun G f => Replaces (G.1.map C) G.2 (N f)) groups fs) (hok : ∀ G ∈ groups, G.2.Nodup ∧ Proper (turns G.2)) : volume6 (fs.map N) = volume6 ((List.range n).map C) := by
  unfold volume6
  rw [List.map_map, List.map_map, ← (hperm.map _).sum_eq]
  clear hperm
  induction h with
  | nil => simp
  | cons hx _ ih =>
    rw [List.map_cons, List.sum_cons, ih fun G hG => hok G (List.mem_cons_of_mem _ hG), List.map_cons, List.flatten_cons, List.map_append, List.sum_append]
    have := hx.volume (hok _ List.mem_cons_self).1 (hok _ List.mem_cons_self).2
    rw [List.map_map] at this
    simp only [Function.comp] at this ⊢
    rw [this]
end Verif.Simplify3
