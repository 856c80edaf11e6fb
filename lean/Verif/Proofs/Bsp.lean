import Verif.Spec.Bsp
import Mathlib.Tactic.Linarith
/-
What clipping, inverting, building and combining BSP trees do to the points of the elements.
-/
namespace Verif.Csg
open Verif

variable {E P V K : Type} [Field K] [LinearOrder K] [IsStrictOrderedRing K]
variable {O : Ops E P} {G : Geo E P V K} {W : E → Prop}

/-- Clipping by a child: a missing front child keeps, a missing back child drops. -/
def clipD (O : Ops E P) (d : Bool) : Tree E P → List E → List E
  | .nil, l => if d then l else []
  | t, l => clip O t l

theorem clip_node (els : List E) (p : P) (f b : Tree E P) (l : List E) :
    clip O (.node els p f b) l = if O.ok p then clipD O true f (clipFront O p l) ++ clipD O false b (clipBack O p l) else l := by
  cases hp : O.ok p <;> cases f <;> cases b <;> simp [clip, clipD, hp]

theorem clipD_true (t : Tree E P) (l : List E) : clipD O true t l = clip O t l := by
  cases t <;> simp [clipD, clip]

theorem mem_clipFront {p : P} {l : List E} {x : E} :
    x ∈ clipFront O p l ↔ ∃ e ∈ l, x ∈ (O.split p e).coFront ∨ x ∈ (O.split p e).front := by
  simp [clipFront]

theorem mem_clipBack {p : P} {l : List E} {x : E} :
    x ∈ clipBack O p l ↔ ∃ e ∈ l, x ∈ (O.split p e).coBack ∨ x ∈ (O.split p e).back := by
  simp [clipBack]

theorem clipD_mem (t : Tree E P) : ∀ (d : Bool) (l : List E) (x : E), x ∈ clipD O d t l ↔ ∃ e ∈ l, x ∈ clipD O d t [e] := by
  induction t with
  | nil => intro d l x; cases d <;> simp [clipD]
  | node els p f b ihf ihb =>
    intro d l x
    have h : ∀ l, clipD O d (.node els p f b) l = clip O (.node els p f b) l := fun l => rfl
    simp only [h, clip_node]
    cases hp : O.ok p
    · simp
    · simp only [if_true, List.mem_append]
      rw [ihf, ihb]
      simp only [mem_clipFront, mem_clipBack]
      constructor
      · rintro (⟨e, ⟨y, hy, hye⟩, hx⟩ | ⟨e, ⟨y, hy, hye⟩, hx⟩)
        · exact ⟨y, hy, Or.inl ((ihf _ _ _).2 ⟨e, mem_clipFront.2 ⟨y, by simp, hye⟩, hx⟩)⟩
        · exact ⟨y, hy, Or.inr ((ihb _ _ _).2 ⟨e, mem_clipBack.2 ⟨y, by simp, hye⟩, hx⟩)⟩
      · rintro ⟨y, hy, hx | hx⟩
        · obtain ⟨e, he, hx'⟩ := (ihf _ _ _).1 hx
          obtain ⟨y', hy', hye⟩ := mem_clipFront.1 he
          obtain rfl : y' = y := by simpa using hy'
          exact Or.inl ⟨e, ⟨y', hy, hye⟩, hx'⟩
        · obtain ⟨e, he, hx'⟩ := (ihb _ _ _).1 hx
          obtain ⟨y', hy', hye⟩ := mem_clipBack.1 he
          obtain rfl : y' = y := by simpa using hy'
          exact Or.inr ⟨e, ⟨y', hy, hye⟩, hx'⟩

theorem clip_mem (t : Tree E P) (l : List E) (x : E) : x ∈ clip O t l ↔ ∃ e ∈ l, x ∈ clip O t [e] := by
  simpa only [clipD_true] using clipD_mem (O := O) t true l x

theorem points_append (l m : List E) : G.points (l ++ m) = G.points l ∪ G.points m := by
  ext q; simp [Geo.points, or_and_right, exists_or]

section laws
variable (L : SplitLaws O G W)
include L

theorem clipFront_wf {p : P} {l : List E} (hl : ∀ e ∈ l, W e) :
    (∀ e ∈ clipFront O p l, W e) ∧ G.points (clipFront O p l) ⊆ G.points l ∧ ∀ q ∈ G.points (clipFront O p l), -G.eps ≤ G.side p q := by
  refine ⟨fun x hx => ?_, ?_, ?_⟩
  · obtain ⟨e, he, h⟩ := mem_clipFront.1 hx
    exact (L.pieces p e (hl e he) x (by tauto)).1
  · rintro q ⟨x, hx, hq⟩
    obtain ⟨e, he, h⟩ := mem_clipFront.1 hx
    exact ⟨e, he, (L.pieces p e (hl e he) x (by tauto)).2 hq⟩
  · rintro q ⟨x, hx, hq⟩
    obtain ⟨e, he, h⟩ := mem_clipFront.1 hx
    exact L.front_side p e (hl e he) x h q hq

theorem clipBack_wf {p : P} {l : List E} (hl : ∀ e ∈ l, W e) :
    (∀ e ∈ clipBack O p l, W e) ∧ G.points (clipBack O p l) ⊆ G.points l ∧ ∀ q ∈ G.points (clipBack O p l), G.side p q ≤ G.eps := by
  refine ⟨fun x hx => ?_, ?_, ?_⟩
  · obtain ⟨e, he, h⟩ := mem_clipBack.1 hx
    exact (L.pieces p e (hl e he) x (by tauto)).1
  · rintro q ⟨x, hx, hq⟩
    obtain ⟨e, he, h⟩ := mem_clipBack.1 hx
    exact ⟨e, he, (L.pieces p e (hl e he) x (by tauto)).2 hq⟩
  · rintro q ⟨x, hx, hq⟩
    obtain ⟨e, he, h⟩ := mem_clipBack.1 hx
    exact L.back_side p e (hl e he) x h q hq

theorem clip_cover {p : P} {l : List E} (hl : ∀ e ∈ l, W e) {q : V} (hq : q ∈ G.points l) :
    q ∈ G.points (clipFront O p l) ∨ q ∈ G.points (clipBack O p l) := by
  obtain ⟨e, he, hqe⟩ := hq
  obtain ⟨x, hx, hqx⟩ := L.cover p e (hl e he) q hqe
  rcases hx with h | h | h | h
  · exact Or.inl ⟨x, mem_clipFront.2 ⟨e, he, Or.inl h⟩, hqx⟩
  · exact Or.inr ⟨x, mem_clipBack.2 ⟨e, he, Or.inl h⟩, hqx⟩
  · exact Or.inl ⟨x, mem_clipFront.2 ⟨e, he, Or.inr h⟩, hqx⟩
  · exact Or.inr ⟨x, mem_clipBack.2 ⟨e, he, Or.inr h⟩, hqx⟩

theorem clipD_wf (t : Tree E P) : ∀ (d : Bool) (l : List E), (∀ e ∈ l, W e) →
    (∀ e ∈ clipD O d t l, W e) ∧ G.points (clipD O d t l) ⊆ G.points l := by
  induction t with
  | nil => intro d l hl; cases d <;> simp [clipD, Geo.points] ; exact hl
  | node els p f b ihf ihb =>
    intro d l hl
    have h : clipD O d (.node els p f b) l = clip O (.node els p f b) l := rfl
    rw [h, clip_node]
    obtain ⟨f1, f2, -⟩ := clipFront_wf L (p := p) hl
    obtain ⟨b1, b2, -⟩ := clipBack_wf L (p := p) hl
    cases hp : O.ok p
    · exact ⟨hl, subset_rfl⟩
    · simp only [if_true]
      constructor
      · intro e he
        rcases List.mem_append.1 he with he | he
        · exact (ihf true _ f1).1 e he
        · exact (ihb false _ b1).1 e he
      · rw [points_append]
        exact Set.union_subset ((ihf true _ f1).2.trans f2) ((ihb false _ b1).2.trans b2)

theorem clipD_keep (t : Tree E P) : ∀ (d : Bool) (l : List E), (∀ e ∈ l, W e) → ∀ q ∈ G.points l, Out O G d t q → q ∈ G.points (clipD O d t l) := by
  induction t with
  | nil => intro d l hl q hq h; simp only [Out] at h; subst h; exact hq
  | node els p f b ihf ihb =>
    intro d l hl q hq h
    have h' : clipD O d (.node els p f b) l = clip O (.node els p f b) l := rfl
    rw [h', clip_node]
    obtain ⟨f1, f2, f3⟩ := clipFront_wf L (p := p) hl
    obtain ⟨b1, b2, b3⟩ := clipBack_wf L (p := p) hl
    cases hp : O.ok p
    · exact hq
    · obtain ⟨hf, hb⟩ := h hp
      simp only [if_true, points_append]
      rcases clip_cover L (p := p) hl hq with hq | hq
      · exact Or.inl (ihf true _ f1 q hq (hf (f3 q hq)))
      · exact Or.inr (ihb false _ b1 q hq (hb (b3 q hq)))

theorem clipD_drop (t : Tree E P) : ∀ (d : Bool) (l : List E), (∀ e ∈ l, W e) → ∀ q, In O G d t q → q ∉ G.points (clipD O d t l) := by
  induction t with
  | nil => intro d l hl q h; simp only [In] at h; subst h; simp [clipD, Geo.points]
  | node els p f b ihf ihb =>
    intro d l hl q h hq
    have h' : clipD O d (.node els p f b) l = clip O (.node els p f b) l := rfl
    rw [h', clip_node] at hq
    obtain ⟨f1, f2, f3⟩ := clipFront_wf L (p := p) hl
    obtain ⟨b1, b2, b3⟩ := clipBack_wf L (p := p) hl
    obtain ⟨hp, hf, hb⟩ := h
    simp only [hp, if_true, points_append] at hq
    rcases hq with hq | hq
    · exact ihf true _ f1 q (hf (f3 q ((clipD_wf L f true _ f1).2 hq))) hq
    · exact ihb false _ b1 q (hb (b3 q ((clipD_wf L b false _ b1).2 hq))) hq

theorem clip_wf (t : Tree E P) {l : List E} (hl : ∀ e ∈ l, W e) : (∀ e ∈ clip O t l, W e) ∧ G.points (clip O t l) ⊆ G.points l := by
  simpa only [clipD_true] using clipD_wf L t true l hl

theorem clip_keep (t : Tree E P) {l : List E} (hl : ∀ e ∈ l, W e) {q : V} (hq : q ∈ G.points l) (h : Out O G true t q) : q ∈ G.points (clip O t l) := by
  simpa only [clipD_true] using clipD_keep L t true l hl q hq h

theorem clip_drop (t : Tree E P) {l : List E} (hl : ∀ e ∈ l, W e) {q : V} (h : In O G true t q) : q ∉ G.points (clip O t l) := by
  simpa only [clipD_true] using clipD_drop L t true l hl q h

end laws

/-! ### Inverting -/

/-- Every node has a plane. -/
def AllOk (O : Ops E P) : Tree E P → Prop
  | .nil => True
  | .node _ p f b => O.ok p = true ∧ AllOk O f ∧ AllOk O b

/-- All elements in the tree are good. -/
def AllW (O : Ops E P) (W : E → Prop) (t : Tree E P) : Prop := ∀ e ∈ all t, W e

theorem mem_all_node {els : List E} {p : P} {f b : Tree E P} {x : E} : x ∈ all (.node els p f b) ↔ x ∈ els ∨ x ∈ all f ∨ x ∈ all b := by
  simp [all, or_assoc]

theorem mem_all_invert (t : Tree E P) (x : E) : x ∈ all (invert O t) ↔ ∃ e ∈ all t, O.flipE e = x := by
  induction t with
  | nil => simp [invert, all]
  | node els p f b ihf ihb =>
    simp only [invert, mem_all_node, List.mem_map, ihf, ihb]
    constructor
    · rintro (⟨e, h, h'⟩ | ⟨e, h, h'⟩ | ⟨e, h, h'⟩)
      exacts [⟨e, Or.inl h, h'⟩, ⟨e, Or.inr (Or.inr h), h'⟩, ⟨e, Or.inr (Or.inl h), h'⟩]
    · rintro ⟨e, h | h | h, h'⟩
      exacts [Or.inl ⟨e, h, h'⟩, Or.inr (Or.inr ⟨e, h, h'⟩), Or.inr (Or.inl ⟨e, h, h'⟩)]

theorem invert_ne_nil (t : Tree E P) : invert O t = .nil ↔ t = .nil := by cases t <;> simp [invert]

theorem clipTo_ne_nil (o t : Tree E P) : clipTo O o t = .nil ↔ t = .nil := by cases t <;> simp [clipTo]

section laws
variable (F : FlipLaws O G)
include F

theorem allOk_invert (t : Tree E P) : AllOk O (invert O t) ↔ AllOk O t := by
  induction t with
  | nil => simp [invert, AllOk]
  | node els p f b ihf ihb => simp only [invert, AllOk, ihf, ihb, F.ok_flip]; tauto

theorem invert_invert (t : Tree E P) : invert O (invert O t) = t := by
  induction t with
  | nil => rfl
  | node els p f b ihf ihb =>
    have : els.map (O.flipE ∘ O.flipE) = els := by
      conv_rhs => rw [← List.map_id els]
      exact List.map_congr_left fun e _ => F.eflip_eflip e
    simp only [invert, List.map_map, this, F.flip_flip, ihf, ihb]

theorem out_invert (t : Tree E P) : ∀ (d : Bool) (q : V), AllOk O t → (Out O G d (invert O t) q ↔ In O G (!d) t q) := by
  induction t with
  | nil => intro d q _; cases d <;> simp [invert, Out, In]
  | node els p f b ihf ihb =>
    intro d q ⟨hp, hf, hb⟩
    have e1 : -G.eps ≤ -G.side p q ↔ G.side p q ≤ G.eps := neg_le_neg_iff
    have e2 : -G.side p q ≤ G.eps ↔ -G.eps ≤ G.side p q := neg_le
    simp only [invert, Out, In, F.ok_flip, hp, F.side_flip, ihf _ _ hf, ihb _ _ hb, e1, e2, Bool.not_true, Bool.not_false]
    tauto

theorem in_invert (t : Tree E P) : ∀ (d : Bool) (q : V), AllOk O t → (In O G d (invert O t) q ↔ Out O G (!d) t q) := by
  intro d q h
  have := out_invert F (invert O t) (!d) q ((allOk_invert F t).2 h)
  rw [invert_invert F, Bool.not_not] at this
  exact this.symm

end laws

section laws
variable (L : SplitLaws O G W)
include L

theorem allW_invert {t : Tree E P} (h : AllW O W t) : AllW O W (invert O t) := by
  intro x hx
  obtain ⟨e, he, rfl⟩ := (mem_all_invert t x).1 hx
  exact L.eflip_wf e (h e he)

theorem points_invert (t : Tree E P) : G.points (all (invert O t)) = G.points (all t) := by
  ext q
  simp only [Geo.points, Set.mem_setOf_eq, mem_all_invert]
  constructor
  · rintro ⟨x, ⟨e, he, rfl⟩, hq⟩
    exact ⟨e, he, by rwa [L.eflip_pts] at hq⟩
  · rintro ⟨e, he, hq⟩
    exact ⟨_, ⟨e, he, rfl⟩, by rwa [L.eflip_pts]⟩

end laws

/-- At a root it does not matter how a missing tree would count. -/
theorem out_root {t : Tree E P} (h : t ≠ .nil) (d d' : Bool) (q : V) : Out O G d t q ↔ Out O G d' t q := by
  cases t with
  | nil => exact absurd rfl h
  | node => exact Iff.rfl

theorem in_root {t : Tree E P} (h : t ≠ .nil) (d d' : Bool) (q : V) : In O G d t q ↔ In O G d' t q := by
  cases t with
  | nil => exact absurd rfl h
  | node => exact Iff.rfl

/-! ### Clipping a tree -/

theorem out_clipTo (o t : Tree E P) : ∀ (d : Bool) (q : V), Out O G d (clipTo O o t) q ↔ Out O G d t q := by
  induction t with
  | nil => intro d q; exact Iff.rfl
  | node els p f b ihf ihb => intro d q; simp only [clipTo, Out, ihf, ihb]

theorem in_clipTo (o t : Tree E P) : ∀ (d : Bool) (q : V), In O G d (clipTo O o t) q ↔ In O G d t q := by
  induction t with
  | nil => intro d q; exact Iff.rfl
  | node els p f b ihf ihb => intro d q; simp only [clipTo, In, ihf, ihb]

theorem allOk_clipTo (o t : Tree E P) : AllOk O (clipTo O o t) ↔ AllOk O t := by
  induction t with
  | nil => exact Iff.rfl
  | node els p f b ihf ihb => simp only [clipTo, AllOk, ihf, ihb]

theorem mem_all_clipTo (o t : Tree E P) (x : E) : x ∈ all (clipTo O o t) ↔ x ∈ clip O o (all t) := by
  induction t with
  | nil => rw [clip_mem]; simp [clipTo, all]
  | node els p f b ihf ihb =>
    simp only [clipTo, mem_all_node, ihf, ihb]
    rw [clip_mem (l := els), clip_mem (l := all f), clip_mem (l := all b), clip_mem (l := all (.node els p f b))]
    simp only [mem_all_node]
    constructor
    · rintro (⟨e, h, h'⟩ | ⟨e, h, h'⟩ | ⟨e, h, h'⟩)
      exacts [⟨e, Or.inl h, h'⟩, ⟨e, Or.inr (Or.inl h), h'⟩, ⟨e, Or.inr (Or.inr h), h'⟩]
    · rintro ⟨e, h | h | h, h'⟩
      exacts [Or.inl ⟨e, h, h'⟩, Or.inr (Or.inl ⟨e, h, h'⟩), Or.inr (Or.inr ⟨e, h, h'⟩)]

theorem points_congr {l m : List E} (h : ∀ x, x ∈ l ↔ x ∈ m) : G.points l = G.points m := by
  ext q; simp only [Geo.points, Set.mem_setOf_eq, h]

section laws
variable (L : SplitLaws O G W)
include L

/-- What clipping a tree does to its elements. -/
theorem clipTo_spec (o : Tree E P) {t : Tree E P} (ht : AllW O W t) :
    AllW O W (clipTo O o t) ∧ G.points (all (clipTo O o t)) ⊆ G.points (all t)
      ∧ (∀ q ∈ G.points (all t), Out O G true o q → q ∈ G.points (all (clipTo O o t)))
      ∧ (∀ q ∈ G.points (all (clipTo O o t)), ¬ In O G true o q) := by
  rw [points_congr (mem_all_clipTo o t)]
  refine ⟨fun x hx => (clip_wf L o ht).1 x ((mem_all_clipTo o t x).1 hx), (clip_wf L o ht).2, fun q hq h => clip_keep L o ht hq h, fun q hq h => clip_drop L o ht h hq⟩

/-! ### Building -/

theorem length_flatMap_le {α β : Type} (l : List α) (g : α → List β) (h : ∀ a ∈ l, (g a).length ≤ 1) : (l.flatMap g).length ≤ l.length := by
  induction l with
  | nil => simp
  | cons a l ih =>
    have h1 := h a (by simp)
    have h2 := ih fun b hb => h b (by simp [hb])
    simp only [List.flatMap_cons, List.length_append, List.length_cons]; omega

omit L in
theorem build_cons (n : Nat) (t : Tree E P) (e : E) (l : List E) : build O (n + 1) t (e :: l) =
    match (match t with
      | .nil => ([], O.none, .nil, .nil)
      | .node els p f b => (els, p, f, b) : List E × P × Tree E P × Tree E P) with
    | (els, p, f, b) =>
      let p := if O.ok p then p else O.plane e
      let co := (e :: l).flatMap fun x => (O.split p x).coFront ++ (O.split p x).coBack
      let lf := (e :: l).flatMap fun x => (O.split p x).front
      let lb := (e :: l).flatMap fun x => (O.split p x).back
      match build O n f lf, build O n b lb with
      | some f, some b => some (.node (els ++ co) p f b)
      | _, _ => none := by cases t <;> rfl

/-- A finished building adds the elements to the tree. -/
theorem build_spec0 : ∀ (n : Nat) (t : Tree E P) (l : List E), (∀ e ∈ l, W e) → AllW O W t →
    ∀ t', build O n t l = some t' → AllW O W t' ∧ ((∀ e, W e → O.ok (O.plane e) = true) → AllOk O t → AllOk O t') ∧ (l ≠ [] → t' ≠ .nil) ∧ (t ≠ .nil → t' ≠ .nil) ∧ G.points (all t') = G.points (all t) ∪ G.points l := by
  intro n
  induction n with
  | zero =>
    intro t l hl ht t' h
    cases l with
    | nil =>
      simp only [build, Option.some.injEq] at h; subst h
      exact ⟨ht, fun _ h => h, fun h => absurd rfl h, id, by simp [Geo.points]⟩
    | cons e l => simp [build] at h
  | succ n ih =>
    intro t l hl ht t' h
    cases l with
    | nil =>
      simp only [build, Option.some.injEq] at h; subst h
      exact ⟨ht, fun _ h => h, fun h => absurd rfl h, id, by simp [Geo.points]⟩
    | cons e l =>
      obtain ⟨els, p, f, b, hmatch, hw, hfw, hbw, hk, hpt⟩ : ∃ els p f b, (match t with
          | .nil => ([], O.none, .nil, .nil)
          | .node els p f b => (els, p, f, b) : List E × P × Tree E P × Tree E P) = (els, p, f, b)
          ∧ (∀ x ∈ els, W x) ∧ AllW O W f ∧ AllW O W b ∧ (AllOk O t → AllOk O f ∧ AllOk O b)
          ∧ G.points (all t) = G.points els ∪ G.points (all f) ∪ G.points (all b) := by
        cases t with
        | nil => exact ⟨_, _, _, _, rfl, by simp, by simp [AllW, all], by simp [AllW, all], fun _ => ⟨trivial, trivial⟩, by simp [all, Geo.points]⟩
        | node els p f b =>
          refine ⟨els, p, f, b, rfl, fun x hx => ht x (mem_all_node.2 (Or.inl hx)), fun x hx => ht x (mem_all_node.2 (Or.inr (Or.inl hx))),
            fun x hx => ht x (mem_all_node.2 (Or.inr (Or.inr hx))), fun hk => hk.2, ?_⟩
          simp only [all, points_append]
      rw [build_cons, hmatch] at h
      dsimp only at h
      set p' := if O.ok p then p else O.plane e with hp'
      have hok : (∀ e, W e → O.ok (O.plane e) = true) → O.ok p' = true := by
        intro ho
        rw [hp']; split_ifs with h1
        · exact h1
        · exact ho e (hl e (by simp))
      set co := (e :: l).flatMap fun x => (O.split p' x).coFront ++ (O.split p' x).coBack with hco
      set lf := (e :: l).flatMap fun x => (O.split p' x).front with hlf
      set lb := (e :: l).flatMap fun x => (O.split p' x).back with hlb
      have mco : ∀ x, x ∈ co ↔ ∃ y ∈ e :: l, x ∈ (O.split p' y).coFront ∨ x ∈ (O.split p' y).coBack := by
        intro x; rw [hco, List.mem_flatMap]; simp only [List.mem_append]
      have mlf : ∀ x, x ∈ lf ↔ ∃ y ∈ e :: l, x ∈ (O.split p' y).front := by
        intro x; rw [hlf, List.mem_flatMap]
      have mlb : ∀ x, x ∈ lb ↔ ∃ y ∈ e :: l, x ∈ (O.split p' y).back := by
        intro x; rw [hlb, List.mem_flatMap]
      have wco : ∀ x ∈ co, W x := fun x hx => by
        obtain ⟨y, hy, h⟩ := (mco x).1 hx
        exact (L.pieces p' y (hl y hy) x (by tauto)).1
      have wlf : ∀ x ∈ lf, W x := fun x hx => by
        obtain ⟨y, hy, h⟩ := (mlf x).1 hx
        exact (L.pieces p' y (hl y hy) x (by tauto)).1
      have wlb : ∀ x ∈ lb, W x := fun x hx => by
        obtain ⟨y, hy, h⟩ := (mlb x).1 hx
        exact (L.pieces p' y (hl y hy) x (by tauto)).1
      have hcov : G.points (e :: l) = G.points co ∪ G.points lf ∪ G.points lb := by
        ext q
        constructor
        · rintro ⟨y, hy, hq⟩
          obtain ⟨x, hx, hqx⟩ := L.cover p' y (hl y hy) q hq
          rcases hx with h | h | h | h
          · exact Or.inl (Or.inl ⟨x, (mco x).2 ⟨y, hy, Or.inl h⟩, hqx⟩)
          · exact Or.inl (Or.inl ⟨x, (mco x).2 ⟨y, hy, Or.inr h⟩, hqx⟩)
          · exact Or.inl (Or.inr ⟨x, (mlf x).2 ⟨y, hy, h⟩, hqx⟩)
          · exact Or.inr ⟨x, (mlb x).2 ⟨y, hy, h⟩, hqx⟩
        · rintro ((⟨x, hx, hq⟩ | ⟨x, hx, hq⟩) | ⟨x, hx, hq⟩)
          · obtain ⟨y, hy, h⟩ := (mco x).1 hx
            exact ⟨y, hy, (L.pieces p' y (hl y hy) x (by tauto)).2 hq⟩
          · obtain ⟨y, hy, h⟩ := (mlf x).1 hx
            exact ⟨y, hy, (L.pieces p' y (hl y hy) x (by tauto)).2 hq⟩
          · obtain ⟨y, hy, h⟩ := (mlb x).1 hx
            exact ⟨y, hy, (L.pieces p' y (hl y hy) x (by tauto)).2 hq⟩
      split at h
      · rename_i f' b' hf' hb'
        simp only [Option.some.injEq] at h; subst h
        obtain ⟨f1, f2, -, -, f5⟩ := ih f lf wlf hfw f' hf'
        obtain ⟨b1, b2, -, -, b5⟩ := ih b lb wlb hbw b' hb'
        refine ⟨?_, fun ho h => ⟨hok ho, f2 ho (hk h).1, b2 ho (hk h).2⟩, by simp, by simp, ?_⟩
        · intro x hx
          rcases mem_all_node.1 hx with hx | hx | hx
          · rcases List.mem_append.1 hx with hx | hx
            exacts [hw x hx, wco x hx]
          · exact f1 x hx
          · exact b1 x hx
        · simp only [all, points_append, f5, b5, hpt, hcov]
          ext q; simp only [Set.mem_union]; clear hk hok f2 b2 f1 b1 ih hl hw; tauto
      · exact absurd h (by simp)

/-- The length of the longest path in the tree. -/
def depth : Tree E P → Nat
  | .nil => 0
  | .node _ _ f b => max (depth f) (depth b) + 1

/-- Building does not run out when the bound is at least the depth of the tree plus the number of elements. -/
theorem build_some : ∀ (n : Nat) (t : Tree E P) (l : List E), (∀ e ∈ l, W e) → AllW O W t → depth t + l.length ≤ n →
    ∃ t', build O n t l = some t' := by
  intro n
  induction n with
  | zero =>
    intro t l hl ht h
    cases l with
    | nil => exact ⟨t, by simp [build]⟩
    | cons e l => simp at h
  | succ n ih =>
    intro t l hl ht h
    cases l with
    | nil => exact ⟨t, by simp [build]⟩
    | cons e l =>
      rw [build_cons]
      cases t with
      | nil =>
        dsimp only
        simp only [L.ok_none, Bool.false_eq_true, if_false]
        have hown := L.own e (hl e (by simp))
        have e1 : ((e :: l).flatMap fun x => (O.split (O.plane e) x).front).length ≤ l.length := by
          rw [List.flatMap_cons, hown.1, List.nil_append]
          exact length_flatMap_le L _ _ fun a _ => (L.one _ a).1
        have e2 : ((e :: l).flatMap fun x => (O.split (O.plane e) x).back).length ≤ l.length := by
          rw [List.flatMap_cons, hown.2, List.nil_append]
          exact length_flatMap_le L _ _ fun a _ => (L.one _ a).2
        simp only [depth, List.length_cons] at h
        obtain ⟨f', hf'⟩ := ih .nil ((e :: l).flatMap fun x => (O.split (O.plane e) x).front) (fun x hx => by
          obtain ⟨y, hy, h⟩ := List.mem_flatMap.1 hx
          exact (L.pieces _ y (hl y hy) x (by tauto)).1) (by simp [AllW, all]) (by simp only [depth]; omega)
        obtain ⟨b', hb'⟩ := ih .nil ((e :: l).flatMap fun x => (O.split (O.plane e) x).back) (fun x hx => by
          obtain ⟨y, hy, h⟩ := List.mem_flatMap.1 hx
          exact (L.pieces _ y (hl y hy) x (by tauto)).1) (by simp [AllW, all]) (by simp only [depth]; omega)
        rw [hf', hb']
        exact ⟨_, rfl⟩
      | node els p f b =>
        dsimp only
        generalize (if O.ok p then p else O.plane e) = p
        have e1 : ((e :: l).flatMap fun x => (O.split p x).front).length ≤ (e :: l).length := length_flatMap_le L _ _ fun a _ => (L.one _ a).1
        have e2 : ((e :: l).flatMap fun x => (O.split p x).back).length ≤ (e :: l).length := length_flatMap_le L _ _ fun a _ => (L.one _ a).2
        simp only [depth, List.length_cons] at h e1 e2
        obtain ⟨f', hf'⟩ := ih f ((e :: l).flatMap fun x => (O.split p x).front) (fun x hx => by
          obtain ⟨y, hy, h⟩ := List.mem_flatMap.1 hx
          exact (L.pieces _ y (hl y hy) x (by tauto)).1) (fun x hx => ht x (mem_all_node.2 (Or.inr (Or.inl hx)))) (by omega)
        obtain ⟨b', hb'⟩ := ih b ((e :: l).flatMap fun x => (O.split p x).back) (fun x hx => by
          obtain ⟨y, hy, h⟩ := List.mem_flatMap.1 hx
          exact (L.pieces _ y (hl y hy) x (by tauto)).1) (fun x hx => ht x (mem_all_node.2 (Or.inr (Or.inr hx)))) (by omega)
        rw [hf', hb']
        exact ⟨_, rfl⟩

end laws

/-- A larger bound on the depth changes nothing. -/
theorem build_mono : ∀ (n : Nat) (t : Tree E P) (l : List E) (t' : Tree E P), build O n t l = some t' → build O (n + 1) t l = some t' := by
  intro n
  induction n with
  | zero =>
    intro t l t' h
    cases l with
    | nil => simpa [build] using h
    | cons e l => simp [build] at h
  | succ n ih =>
    intro t l t' h
    cases l with
    | nil => simpa [build] using h
    | cons e l =>
      rw [build_cons] at h ⊢
      revert h
      generalize (match t with
        | .nil => ([], O.none, .nil, .nil)
        | .node els p f b => (els, p, f, b) : List E × P × Tree E P × Tree E P) = m
      obtain ⟨els, p, f, b⟩ := m
      dsimp only
      intro h
      split at h
      · rename_i f' b' hf hb
        rw [ih _ _ _ hf, ih _ _ _ hb]; exact h
      · exact absurd h (by simp)

theorem build_mono_le {n m : Nat} (hnm : n ≤ m) {t : Tree E P} {l : List E} {t' : Tree E P} (h : build O n t l = some t') : build O m t l = some t' := by
  induction hnm with
  | refl => exact h
  | step _ ih => exact build_mono _ _ _ _ ih

/-! ### Combining -/

section laws
variable (L : Laws O G W)
include L

/-- The same for elements that have planes. -/
theorem build_spec (n : Nat) (t : Tree E P) (l : List E) (hl : ∀ e ∈ l, W e) (ht : AllW O W t) (hk : AllOk O t) (t' : Tree E P) (h : build O n t l = some t') :
    AllW O W t' ∧ AllOk O t' ∧ (l ≠ [] → t' ≠ .nil) ∧ (t ≠ .nil → t' ≠ .nil) ∧ G.points (all t') = G.points (all t) ∪ G.points l := by
  obtain ⟨h1, h2, h3⟩ := build_spec0 L.toSplitLaws n t l hl ht t' h
  exact ⟨h1, h2 L.ok_plane hk, h3⟩

/-- Both buildings at the end of the operations finish, and the result has the points of the two trees. -/
theorem finish_spec {a b : Tree E P} (g : Tree E P → Tree E P) (hg : ∀ t, AllW O W t → AllW O W (g t)) (hgp : ∀ t, G.points (all (g t)) = G.points (all t))
    (ha : AllW O W a) (hk : AllOk O a) (hb : AllW O W b) :
    ∃ N r, (∀ n, N ≤ n → ((build O n a (all b)).bind fun a => build O n .nil (all (g a))) = some r) ∧ AllW O W r ∧ AllOk O r
      ∧ G.points (all r) = G.points (all a) ∪ G.points (all b) := by
  obtain ⟨a', ha'⟩ := build_some L.toSplitLaws _ a (all b) hb ha le_rfl
  obtain ⟨w, k, -, -, e⟩ := build_spec L _ a (all b) hb ha hk a' ha'
  obtain ⟨r, hr⟩ := build_some L.toSplitLaws _ .nil (all (g a')) (hg a' w) (by simp [AllW, all]) le_rfl
  obtain ⟨w', k', -, -, e'⟩ := build_spec L _ .nil (all (g a')) (hg a' w) (by simp [AllW, all]) trivial r hr
  refine ⟨max (depth a + (all b).length) (depth (.nil : Tree E P) + (all (g a')).length), r, fun n hn => ?_, w', k', ?_⟩
  · rw [build_mono_le (le_trans (le_max_left _ _) hn) ha']
    exact build_mono_le (le_trans (le_max_right _ _) hn) hr
  · rw [e', hgp, e]; simp [all, Geo.points]

/-- The union: the elements of each solid that are outside the other. -/
theorem union_spec {a b : Tree E P} (ha : AllW O W a) (hka : AllOk O a) (na : a ≠ .nil) (hb : AllW O W b) (hkb : AllOk O b) (nb : b ≠ .nil) :
    ∃ N r, (∀ n, N ≤ n → unionT O n a b = some r) ∧ AllW O W r ∧ AllOk O r
      ∧ (∀ q ∈ G.points (all a), Out O G true b q → q ∈ G.points (all r))
      ∧ (∀ q ∈ G.points (all b), Out O G true a q → q ∈ G.points (all r))
      ∧ ∀ q ∈ G.points (all r), (q ∈ G.points (all a) ∧ ¬ In O G true b q) ∨ (q ∈ G.points (all b) ∧ ¬ In O G true a q) := by
  obtain ⟨wa, sa, ka, da⟩ := clipTo_spec L.toSplitLaws b ha
  set a1 := clipTo O b a with ha1
  have hk1 : AllOk O a1 := (allOk_clipTo b a).2 hka
  obtain ⟨wb, sb, kb, db⟩ := clipTo_spec L.toSplitLaws a1 hb
  set b1 := clipTo O a1 b with hb1
  have wbi := allW_invert L.toSplitLaws wb
  obtain ⟨wb2, sb2, kb2, -⟩ := clipTo_spec L.toSplitLaws a1 wbi
  set b2 := clipTo O a1 (invert O b1) with hb2
  have wb3 := allW_invert L.toSplitLaws wb2
  have hpb3 : G.points (all (invert O b2)) = G.points (all b2) := points_invert L.toSplitLaws b2
  rw [points_invert L.toSplitLaws] at sb2 kb2
  obtain ⟨N, r, hr, w, k, e⟩ := finish_spec L (a := a1) (b := invert O b2) id (fun _ h => h) (fun _ => rfl) wa hk1 wb3
  refine ⟨N, r, hr, w, k, ?_, ?_, ?_⟩
  · intro q hq h; rw [e]; exact Or.inl (ka q hq h)
  · intro q hq h
    have h1 : Out O G true a1 q := (out_clipTo b a true q).2 h
    rw [e, hpb3]
    exact Or.inr (kb2 q (kb q hq h1) h1)
  · intro q hq
    rw [e, hpb3] at hq
    rcases hq with hq | hq
    · exact Or.inl ⟨sa hq, da q hq⟩
    · exact Or.inr ⟨sb (sb2 hq), fun h => db q (sb2 hq) ((in_clipTo b a true q).2 h)⟩

/-- The difference: the elements of the first solid outside the second, and the elements of the second inside the first. -/
theorem subtract_spec {a b : Tree E P} (ha : AllW O W a) (hka : AllOk O a) (na : a ≠ .nil) (hb : AllW O W b) (hkb : AllOk O b) (nb : b ≠ .nil) :
    ∃ N r, (∀ n, N ≤ n → subtractT O n a b = some r) ∧ AllW O W r ∧ AllOk O r
      ∧ (∀ q ∈ G.points (all a), Out O G true b q → q ∈ G.points (all r))
      ∧ (∀ q ∈ G.points (all b), In O G true a q → q ∈ G.points (all r))
      ∧ ∀ q ∈ G.points (all r), (q ∈ G.points (all a) ∧ ¬ In O G true b q) ∨ (q ∈ G.points (all b) ∧ ¬ Out O G true a q) := by
  have hai := allW_invert L.toSplitLaws ha
  have hki : AllOk O (invert O a) := (allOk_invert L.toFlipLaws a).2 hka
  have oi : ∀ q, Out O G true (invert O a) q ↔ In O G true a q := fun q =>
    (out_invert L.toFlipLaws a true q hka).trans (in_root na _ _ q)
  have ii : ∀ q, In O G true (invert O a) q ↔ Out O G true a q := fun q =>
    (in_invert L.toFlipLaws a true q hka).trans (out_root na _ _ q)
  obtain ⟨wa, sa, ka, da⟩ := clipTo_spec L.toSplitLaws b hai
  rw [points_invert L.toSplitLaws] at sa ka
  set a1 := clipTo O b (invert O a) with ha1
  have hk1 : AllOk O a1 := (allOk_clipTo b _).2 hki
  obtain ⟨wb, sb, kb, db⟩ := clipTo_spec L.toSplitLaws a1 hb
  set b1 := clipTo O a1 b with hb1
  have wbi := allW_invert L.toSplitLaws wb
  obtain ⟨wb2, sb2, kb2, -⟩ := clipTo_spec L.toSplitLaws a1 wbi
  set b2 := clipTo O a1 (invert O b1) with hb2
  have wb3 := allW_invert L.toSplitLaws wb2
  have hpb3 : G.points (all (invert O b2)) = G.points (all b2) := points_invert L.toSplitLaws b2
  rw [points_invert L.toSplitLaws] at sb2 kb2
  obtain ⟨N, r, hr, w, k, e⟩ := finish_spec L (a := a1) (b := invert O b2) (invert O) (fun _ h => allW_invert L.toSplitLaws h) (points_invert L.toSplitLaws) wa hk1 wb3
  refine ⟨N, r, hr, w, k, ?_, ?_, ?_⟩
  · intro q hq h; rw [e]; exact Or.inl (ka q hq h)
  · intro q hq h
    have h1 : Out O G true a1 q := (out_clipTo b _ true q).2 ((oi q).2 h)
    rw [e, hpb3]
    exact Or.inr (kb2 q (kb q hq h1) h1)
  · intro q hq
    rw [e, hpb3] at hq
    rcases hq with hq | hq
    · exact Or.inl ⟨sa hq, da q hq⟩
    · exact Or.inr ⟨sb (sb2 hq), fun h => db q (sb2 hq) ((in_clipTo b _ true q).2 ((ii q).2 h))⟩

/-- The intersection: the elements of each solid that are inside the other. -/
theorem intersect_spec {a b : Tree E P} (ha : AllW O W a) (hka : AllOk O a) (na : a ≠ .nil) (hb : AllW O W b) (hkb : AllOk O b) (nb : b ≠ .nil) :
    ∃ N r, (∀ n, N ≤ n → intersectT O n a b = some r) ∧ AllW O W r ∧ AllOk O r
      ∧ (∀ q ∈ G.points (all a), In O G true b q → q ∈ G.points (all r))
      ∧ (∀ q ∈ G.points (all b), In O G true a q → q ∈ G.points (all r))
      ∧ ∀ q ∈ G.points (all r), (q ∈ G.points (all a) ∧ ¬ Out O G true b q) ∨ (q ∈ G.points (all b) ∧ ¬ Out O G true a q) := by
  have hai := allW_invert L.toSplitLaws ha
  have hki : AllOk O (invert O a) := (allOk_invert L.toFlipLaws a).2 hka
  have oi : ∀ q, Out O G true (invert O a) q ↔ In O G true a q := fun q =>
    (out_invert L.toFlipLaws a true q hka).trans (in_root na _ _ q)
  have ii : ∀ q, In O G true (invert O a) q ↔ Out O G true a q := fun q =>
    (in_invert L.toFlipLaws a true q hka).trans (out_root na _ _ q)
  obtain ⟨wb, sb, kb, db⟩ := clipTo_spec L.toSplitLaws (invert O a) hb
  set b1 := clipTo O (invert O a) b with hb1
  have nb1 : b1 ≠ .nil := fun h => nb ((clipTo_ne_nil _ _).1 h)
  have hkb1 : AllOk O b1 := (allOk_clipTo _ _).2 hkb
  have wbi := allW_invert L.toSplitLaws wb
  have obi : ∀ q, Out O G true (invert O b1) q ↔ In O G true b q := fun q =>
    (out_invert L.toFlipLaws b1 true q hkb1).trans ((in_root nb1 _ true q).trans (in_clipTo _ b true q))
  have ibi : ∀ q, In O G true (invert O b1) q ↔ Out O G true b q := fun q =>
    (in_invert L.toFlipLaws b1 true q hkb1).trans ((out_root nb1 _ true q).trans (out_clipTo _ b true q))
  obtain ⟨wa, sa, ka, da⟩ := clipTo_spec L.toSplitLaws (invert O b1) hai
  rw [points_invert L.toSplitLaws] at sa ka
  set a1 := clipTo O (invert O b1) (invert O a) with ha1
  have hk1 : AllOk O a1 := (allOk_clipTo _ _).2 hki
  obtain ⟨wb2, sb2, kb2, -⟩ := clipTo_spec L.toSplitLaws a1 wbi
  rw [points_invert L.toSplitLaws] at sb2 kb2
  set b2 := clipTo O a1 (invert O b1) with hb2
  obtain ⟨N, r, hr, w, k, e⟩ := finish_spec L (a := a1) (b := b2) (invert O) (fun _ h => allW_invert L.toSplitLaws h) (points_invert L.toSplitLaws) wa hk1 wb2
  refine ⟨N, r, hr, w, k, ?_, ?_, ?_⟩
  · intro q hq h; rw [e]; exact Or.inl (ka q hq ((obi q).2 h))
  · intro q hq h
    have h1 := (oi q).2 h
    rw [e]
    exact Or.inr (kb2 q (kb q hq h1) ((out_clipTo _ _ true q).2 h1))
  · intro q hq
    rw [e] at hq
    rcases hq with hq | hq
    · exact Or.inl ⟨sa hq, fun h => da q hq ((ibi q).2 h)⟩
    · exact Or.inr ⟨sb (sb2 hq), fun h => db q (sb2 hq) ((ii q).2 h)⟩

/-- A convex solid: each element is behind the planes of those before it. The tree is a chain, and inside is behind all the planes. -/
theorem convex_spec : ∀ (l : List E), (∀ e ∈ l, W e) → l.Pairwise (fun e x => (O.split (O.plane e) x).front = [] ∧ (O.split (O.plane e) x).back = [x]) →
    ∃ t, build O l.length .nil l = some t ∧ ∀ q, (In O G false t q ↔ ∀ e ∈ l, G.side (O.plane e) q < -G.eps) ∧ (Out O G false t q ↔ ∃ e ∈ l, G.eps < G.side (O.plane e) q) := by
  intro l
  induction l with
  | nil => intro _ _; exact ⟨.nil, rfl, fun q => by simp [In, Out]⟩
  | cons e l ih =>
    intro hl hp
    obtain ⟨hp1, hp2⟩ := List.pairwise_cons.1 hp
    obtain ⟨t, ht, hq⟩ := ih (fun x hx => hl x (by simp [hx])) hp2
    have hown := L.own e (hl e (by simp))
    have hok := L.ok_plane e (hl e (by simp))
    have ef : ((e :: l).flatMap fun x => (O.split (O.plane e) x).front) = [] := by
      rw [List.flatMap_cons, hown.1, List.nil_append, List.flatMap_eq_nil_iff]
      exact fun x hx => (hp1 x hx).1
    have eb : ((e :: l).flatMap fun x => (O.split (O.plane e) x).back) = l := by
      rw [List.flatMap_cons, hown.2, List.nil_append]
      have : ∀ m : List E, (∀ x ∈ m, x ∈ l) → (m.flatMap fun x => (O.split (O.plane e) x).back) = m := by
        intro m
        induction m with
        | nil => intro _; rfl
        | cons y m ihm =>
          intro hm
          rw [List.flatMap_cons, (hp1 y (hm y (by simp))).2, ihm fun x hx => hm x (by simp [hx])]; rfl
      exact this l fun _ h => h
    refine ⟨.node ([] ++ (e :: l).flatMap fun x => (O.split (O.plane e) x).coFront ++ (O.split (O.plane e) x).coBack) (O.plane e) .nil t, ?_, ?_⟩
    · rw [List.length_cons, build_cons]
      dsimp only
      simp only [L.ok_none, Bool.false_eq_true, if_false, ef, eb, ht]
      have : build O l.length .nil [] = some (.nil : Tree E P) := by cases l <;> rfl
      rw [this]
    · intro q
      have h0 := L.eps_nonneg
      simp only [In, Out, hok, (hq q).1, (hq q).2, List.mem_cons, exists_eq_or_imp, forall_eq_or_imp, true_and, forall_const, implies_true]
      constructor
      · constructor
        · rintro ⟨h1, h2⟩
          have h3 : G.side (O.plane e) q < -G.eps := by
            by_contra h; exact absurd (h1 (not_lt.1 h)) (by simp)
          exact ⟨h3, h2 (by linarith)⟩
        · rintro ⟨h1, h2⟩
          exact ⟨fun h => absurd h (not_le.2 h1), fun _ => h2⟩
      · constructor
        · rintro h
          by_cases h1 : G.side (O.plane e) q ≤ G.eps
          · exact Or.inr (h h1)
          · exact Or.inl (not_le.1 h1)
        · rintro (h1 | h2) h
          · exact absurd h (not_le.2 h1)
          · exact h2

omit L [IsStrictOrderedRing K] in
theorem flatMap_self {β : Type} (g : β → List β) : ∀ m : List β, (∀ x ∈ m, g x = [x]) → m.flatMap g = m := by
  intro m
  induction m with
  | nil => intro _; rfl
  | cons y m ih => intro h; rw [List.flatMap_cons, h y (by simp), ih fun x hx => h x (by simp [hx])]; rfl

/-- The tree of a convex solid whose facets are in several pieces: `gs` has the first piece of each facet and the others, which are in its plane. -/
theorem convex_groups : ∀ (gs : List (E × List E)), (∀ g ∈ gs, W g.1 ∧ ∀ e ∈ g.2, W e) →
    (∀ g ∈ gs, ∀ x ∈ g.2, (O.split (O.plane g.1) x).front = [] ∧ (O.split (O.plane g.1) x).back = []) →
    gs.Pairwise (fun g g' => ∀ x ∈ g'.1 :: g'.2, (O.split (O.plane g.1) x).front = [] ∧ (O.split (O.plane g.1) x).back = [x]) →
    ∃ t, build O gs.length .nil (gs.flatMap fun g => g.1 :: g.2) = some t
      ∧ ∀ q, (In O G false t q ↔ ∀ g ∈ gs, G.side (O.plane g.1) q < -G.eps) ∧ (Out O G false t q ↔ ∃ g ∈ gs, G.eps < G.side (O.plane g.1) q) := by
  intro gs
  induction gs with
  | nil => intro _ _ _; exact ⟨.nil, rfl, fun q => by simp [In, Out]⟩
  | cons g gs ih =>
    intro hl hc hp
    obtain ⟨e, es⟩ := g
    obtain ⟨hp1, hp2⟩ := List.pairwise_cons.1 hp
    obtain ⟨t, ht, hq⟩ := ih (fun x hx => hl x (by simp [hx])) (fun x hx => hc x (by simp [hx])) hp2
    have hw := (hl (e, es) (by simp)).1
    have hown := L.own e hw
    have hok := L.ok_plane e hw
    have hco := hc (e, es) (by simp)
    set l := gs.flatMap fun g => g.1 :: g.2 with hldef
    have hin : ∀ x ∈ l, (O.split (O.plane e) x).front = [] ∧ (O.split (O.plane e) x).back = [x] := by
      intro x hx
      obtain ⟨g', hg', hx'⟩ := List.mem_flatMap.1 hx
      exact hp1 g' hg' x hx'
    have el : ((e, es) :: gs).flatMap (fun g => g.1 :: g.2) = e :: (es ++ l) := by simp [hldef]
    have ef : ((e :: (es ++ l)).flatMap fun x => (O.split (O.plane e) x).front) = [] := by
      rw [List.flatMap_cons, hown.1, List.nil_append, List.flatMap_eq_nil_iff]
      intro x hx
      rcases List.mem_append.1 hx with hx | hx
      · exact (hco x hx).1
      · exact (hin x hx).1
    have eb : ((e :: (es ++ l)).flatMap fun x => (O.split (O.plane e) x).back) = l := by
      rw [List.flatMap_cons, hown.2, List.nil_append, List.flatMap_append, List.flatMap_eq_nil_iff.2 fun x hx => (hco x hx).2, List.nil_append]
      exact flatMap_self _ l fun x hx => (hin x hx).2
    refine ⟨.node ([] ++ (e :: (es ++ l)).flatMap fun x => (O.split (O.plane e) x).coFront ++ (O.split (O.plane e) x).coBack) (O.plane e) .nil t, ?_, ?_⟩
    · rw [el, List.length_cons, build_cons]
      dsimp only
      simp only [L.ok_none, Bool.false_eq_true, if_false, ef, eb, ht]
      have : build O gs.length .nil [] = some (.nil : Tree E P) := by cases gs <;> rfl
      rw [this]
    · intro q
      have h0 := L.eps_nonneg
      simp only [In, Out, hok, (hq q).1, (hq q).2, List.mem_cons, exists_eq_or_imp, forall_eq_or_imp, true_and, forall_const, implies_true]
      constructor
      · constructor
        · rintro ⟨h1, h2⟩
          have h3 : G.side (O.plane e) q < -G.eps := by
            by_contra h; exact absurd (h1 (not_lt.1 h)) (by simp)
          exact ⟨h3, h2 (by linarith)⟩
        · rintro ⟨h1, h2⟩
          exact ⟨fun h => absurd h (not_le.2 h1), fun _ => h2⟩
      · constructor
        · rintro h
          by_cases h1 : G.side (O.plane e) q ≤ G.eps
          · exact Or.inr (h h1)
          · exact Or.inl (not_le.1 h1)
        · rintro (h1 | h2) h
          · exact absurd h (not_le.2 h1)
          · exact h2

end laws
end Verif.Csg
