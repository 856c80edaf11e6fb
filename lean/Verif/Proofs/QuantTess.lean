import Verif.Model.QuantTess
import Verif.Spec.Internal
import Verif.Proofs.Internal
import Mathlib.Tactic.Linarith
/- Lemmas on `Model/QuantTess`. -/
namespace Verif.QuantTess
open Verif Verif.Internal

theorem positiveID_eq (s : Int) : positiveID s = index s := by
  unfold positiveID index; split <;> split <;> omega

/-! ### Tables -/

/-- The map numbers the values of the vector by their keys. -/
structure Tab {κ α : Type} (key : α → κ) (m : KMap κ) (vals : List α) : Prop where
  map : m = (vals.map key).zipIdx
  nodup : (vals.map key).Nodup

theorem lookup_zipIdx {κ : Type} [DecidableEq κ] (k : κ) : ∀ (l : List κ) (n : Nat),
    (k ∈ l → ∃ i, (l.zipIdx n).lookup k = some (n + i) ∧ l[i]? = some k) ∧ (k ∉ l → (l.zipIdx n).lookup k = none)
  | [], n => by simp
  | a :: l, n => by
    obtain ⟨h1, h2⟩ := lookup_zipIdx k l (n + 1)
    by_cases h : k = a
    · subst h
      exact ⟨fun _ => ⟨0, by simp [List.zipIdx_cons, List.lookup_cons], by simp⟩, fun h => absurd (by simp) h⟩
    · have hb : (k == a) = false := by simpa using h
      refine ⟨fun hk => ?_, fun hk => ?_⟩
      · obtain ⟨i, hi, hi'⟩ := h1 (by simpa [h] using hk)
        exact ⟨i + 1, by rw [List.zipIdx_cons, List.lookup_cons, hb, hi]; simp; omega, by simpa using hi'⟩
      · rw [List.zipIdx_cons, List.lookup_cons, hb]; exact h2 (by simp at hk; exact hk.2)

/-- One call that adds an element. -/
theorem Tab.add {κ α : Type} [DecidableEq κ] {key : α → κ} {m : KMap κ} {vals : List α} (h : Tab key m vals) (x : α) :
    Tab key (addKey (key x) m).2 (if (addKey (key x) m).1 = m.length then vals ++ [x] else vals) ∧
    (∃ v, (if (addKey (key x) m).1 = m.length then vals ++ [x] else vals)[(addKey (key x) m).1]? = some v ∧ key v = key x) ∧
    ((if (addKey (key x) m).1 = m.length then vals ++ [x] else vals) = vals ∨
     ((if (addKey (key x) m).1 = m.length then vals ++ [x] else vals) = vals ++ [x] ∧ key x ∉ vals.map key)) := by
  have hl : m.length = vals.length := by rw [h.map]; simp
  obtain ⟨h1, h2⟩ := lookup_zipIdx (key x) (vals.map key) 0
  rw [← h.map] at h1 h2
  by_cases hk : key x ∈ vals.map key
  · obtain ⟨i, hi, hi'⟩ := h1 hk
    have e : addKey (key x) m = (i, m) := by simp [addKey, hi]
    rw [List.getElem?_map, Option.map_eq_some_iff] at hi'
    obtain ⟨v, hv, hv'⟩ := hi'
    have hlt := (List.getElem?_eq_some_iff.1 hv).1
    have : ¬ i = m.length := by omega
    rw [e]; simp only [if_neg this]
    exact ⟨h, ⟨v, hv, hv'⟩, Or.inl trivial⟩
  · have e : addKey (key x) m = (m.length, m ++ [(key x, m.length)]) := by simp [addKey, h2 hk]
    rw [e]; simp only [if_true]
    refine ⟨⟨?_, ?_⟩, ⟨x, ?_, rfl⟩, Or.inr ⟨trivial, hk⟩⟩
    · rw [List.map_append, List.zipIdx_append, ← h.map]; simp [hl]
    · rw [List.map_append, List.nodup_append]
      refine ⟨h.nodup, by simp, ?_⟩
      intro a ha b hb
      simp at hb; subst hb; rintro rfl; exact hk ha
    · rw [hl]; simp

theorem Tab.length {κ α : Type} {key : α → κ} {m : KMap κ} {vals : List α} (h : Tab key m vals) : vals.length = m.length := by
  rw [h.map]; simp

variable {P : Type} [DecidableEq P]

/-- The three tables of a mesh. -/
structure Tabs (q : QMesh P) : Prop where
  node : Tab id q.point2id q.points
  edge : Tab id q.edge2id q.edges
  face : Tab faceHash q.face2id q.faces

theorem faceHash_eq {f g : List Int} : faceHash f = faceHash g ↔ (f.map index).Perm (g.map index) := by
  have e : ∀ l : List Int, l.map positiveID = l.map index := fun l => List.map_congr_left fun s _ => positiveID_eq s
  unfold faceHash
  rw [e, e]
  constructor
  · intro h
    exact ((List.perm_insertionSort (· ≤ ·) (f.map index)).symm.trans (h ▸ List.Perm.refl _)).trans
      (List.perm_insertionSort (· ≤ ·) (g.map index))
  · intro h
    refine List.Perm.eq_of_pairwise (fun a b _ _ => le_antisymm) (List.pairwise_insertionSort (· ≤ ·) _) (List.pairwise_insertionSort (· ≤ ·) _) ?_
    exact ((List.perm_insertionSort (· ≤ ·) (f.map index)).trans h).trans (List.perm_insertionSort (· ≤ ·) (g.map index)).symm

/-- What one call leaves. -/
structure Stepped (o : Op P) (q : QMesh P) (n : Nat) (q' : QMesh P) : Prop where
  tabs : Tabs q'
  nodeAt : ∀ p, o = .node p → q'.points[n]? = some p
  edgeAt : ∀ e, o = .edge e → q'.edges[n]? = some e
  faceAt : ∀ f, o = .face f → ∃ g, q'.faces[n]? = some g ∧ faceHash g = faceHash f
  nodes : q'.points = q.points ∨ ∃ p, o = .node p ∧ q'.points = q.points ++ [p]
  edges : q'.edges = q.edges ∨ ∃ e, o = .edge e ∧ q'.edges = q.edges ++ [e]
  faces : q'.faces = q.faces ∨ ∃ f, o = .face f ∧ q'.faces = q.faces ++ [f]
  cells : q'.cells = q.cells ∧ q'.generators = q.generators

theorem step_spec (dbg : Bool) (o : Op P) {q : QMesh P} (h : Tabs q) :
    ∃ n q', step dbg o q = .ok (n, q') ∧ Stepped o q n q' := by
  cases o with
  | node p =>
    obtain ⟨a, ⟨v, b, b'⟩, c⟩ := h.node.add p
    simp only [id] at a b b' c
    refine ⟨(addKey p q.point2id).1, { q with point2id := (addKey p q.point2id).2, points := if (addKey p q.point2id).1 = q.point2id.length then q.points ++ [p] else q.points },
      by simp only [step, addNewNode, Res.bind_eq, Res.pure_eq]; rw [Res.assert_true _ a.length]; rfl, ⟨a, h.edge, h.face⟩, ?_, by simp, by simp, ?_, .inl rfl, .inl rfl, rfl, rfl⟩
    · intro p' hp; cases hp; rw [b, b']
    · rcases c with c | c
      · exact .inl c
      · exact .inr ⟨p, rfl, c.1⟩
  | edge e =>
    obtain ⟨a, ⟨v, b, b'⟩, c⟩ := h.edge.add e
    simp only [id] at a b b' c
    refine ⟨(addKey e q.edge2id).1, { q with edge2id := (addKey e q.edge2id).2, edges := if (addKey e q.edge2id).1 = q.edge2id.length then q.edges ++ [e] else q.edges },
      by simp only [step, addNewEdge, Res.bind_eq, Res.pure_eq]; rw [Res.assert_true _ a.length]; rfl, ⟨h.node, a, h.face⟩, by simp, ?_, by simp, .inl rfl, ?_, .inl rfl, rfl, rfl⟩
    · intro p' hp; cases hp; rw [b, b']
    · rcases c with c | c
      · exact .inl c
      · exact .inr ⟨e, rfl, c.1⟩
  | face f =>
    obtain ⟨a, ⟨v, b, b'⟩, c⟩ := h.face.add f
    refine ⟨(addKey (faceHash f) q.face2id).1, { q with face2id := (addKey (faceHash f) q.face2id).2, faces := if (addKey (faceHash f) q.face2id).1 = q.face2id.length then q.faces ++ [f] else q.faces },
      by simp only [step, addNewFace, Res.bind_eq, Res.pure_eq]; rw [Res.assert_true _ a.length]; rfl, ⟨h.node, h.edge, a⟩, by simp, by simp, ?_, .inl rfl, .inl rfl, ?_, rfl, rfl⟩
    · intro p' hp; cases hp; exact ⟨v, b, b'⟩
    · rcases c with c | c
      · exact .inl c
      · exact .inr ⟨f, rfl, c.1⟩

/-- What a sequence of calls leaves. -/
structure Ran (ops : List (Op P)) (q : QMesh P) (ids : List Nat) (q' : QMesh P) : Prop where
  tabs : Tabs q'
  length : ids.length = ops.length
  nodeAt : ∀ (i : Nat) p, ops[i]? = some (.node p) → ∃ n : Nat, ids[i]? = some n ∧ q'.points[n]? = some p
  edgeAt : ∀ (i : Nat) e, ops[i]? = some (.edge e) → ∃ n : Nat, ids[i]? = some n ∧ q'.edges[n]? = some e
  faceAt : ∀ (i : Nat) f, ops[i]? = some (.face f) → ∃ (n : Nat) (g : _), ids[i]? = some n ∧ q'.faces[n]? = some g ∧ faceHash g = faceHash f
  points : q.points <+: q'.points
  edges : q.edges <+: q'.edges
  faces : q.faces <+: q'.faces
  nodeOf : ∀ p ∈ q'.points, p ∈ q.points ∨ .node p ∈ ops
  edgeOf : ∀ p ∈ q'.edges, p ∈ q.edges ∨ .edge p ∈ ops
  faceOf : ∀ g ∈ q'.faces, g ∈ q.faces ∨ ∃ a b, ops = a ++ .face g :: b ∧ ∀ f, .face f ∈ a → faceHash f ≠ faceHash g
  cells : q'.cells = q.cells ∧ q'.generators = q.generators

theorem prefix_get {α : Type} {a b : List α} (h : a <+: b) {n : Nat} {x : α} (hx : a[n]? = some x) : b[n]? = some x := by
  obtain ⟨t, rfl⟩ := h
  rw [List.getElem?_append_left (List.getElem?_eq_some_iff.1 hx).1, hx]

theorem tab_inj {κ α : Type} {key : α → κ} {m : KMap κ} {vals : List α} (h : Tab key m vals) {x y : α} (hx : x ∈ vals) (hy : y ∈ vals)
    (he : key x = key y) : x = y := List.inj_on_of_nodup_map h.nodup hx hy he

theorem run_spec (dbg : Bool) : ∀ (ops : List (Op P)) (q : QMesh P), Tabs q → ∃ ids q', run dbg ops q = .ok (ids, q') ∧ Ran ops q ids q'
  | [], q, h => ⟨[], q, rfl, ⟨h, rfl, by simp, by simp, by simp, List.prefix_refl _, List.prefix_refl _, List.prefix_refl _,
      fun p hp => .inl hp, fun p hp => .inl hp, fun p hp => .inl hp, rfl, rfl⟩⟩
  | o :: ops, q, h => by
    obtain ⟨n, q1, e1, s⟩ := step_spec dbg o h
    obtain ⟨ids, q2, e2, r⟩ := run_spec dbg ops q1 s.tabs
    refine ⟨n :: ids, q2, by simp [run, e1, e2], ⟨r.tabs, by simp [r.length], ?_, ?_, ?_, ?_, ?_, ?_, ?_, ?_, ?_, ?_⟩⟩
    · intro i p hi
      cases i with
      | zero => exact ⟨n, rfl, prefix_get r.points (s.nodeAt p (by simpa using hi))⟩
      | succ i => exact r.nodeAt i p (by simpa using hi)
    · intro i p hi
      cases i with
      | zero => exact ⟨n, rfl, prefix_get r.edges (s.edgeAt p (by simpa using hi))⟩
      | succ i => exact r.edgeAt i p (by simpa using hi)
    · intro i p hi
      cases i with
      | zero =>
        obtain ⟨g, hg, hg'⟩ := s.faceAt p (by simpa using hi)
        exact ⟨n, g, rfl, prefix_get r.faces hg, hg'⟩
      | succ i => exact r.faceAt i p (by simpa using hi)
    · refine List.IsPrefix.trans ?_ r.points
      rcases s.nodes with e | ⟨p, _, e⟩
      · exact e ▸ List.prefix_refl _
      · rw [e]; exact List.prefix_append _ _
    · refine List.IsPrefix.trans ?_ r.edges
      rcases s.edges with e | ⟨p, _, e⟩
      · exact e ▸ List.prefix_refl _
      · rw [e]; exact List.prefix_append _ _
    · refine List.IsPrefix.trans ?_ r.faces
      rcases s.faces with e | ⟨p, _, e⟩
      · exact e ▸ List.prefix_refl _
      · rw [e]; exact List.prefix_append _ _
    · intro p hp
      rcases r.nodeOf p hp with h1 | h1
      · rcases s.nodes with e | ⟨p', ho, e⟩ <;> rw [e] at h1
        · exact .inl h1
        · rcases List.mem_append.1 h1 with h1 | h1
          · exact .inl h1
          · simp at h1; subst h1; exact .inr (by simp [ho])
      · exact .inr (List.mem_cons_of_mem _ h1)
    · intro p hp
      rcases r.edgeOf p hp with h1 | h1
      · rcases s.edges with e | ⟨p', ho, e⟩ <;> rw [e] at h1
        · exact .inl h1
        · rcases List.mem_append.1 h1 with h1 | h1
          · exact .inl h1
          · simp at h1; subst h1; exact .inr (by simp [ho])
      · exact .inr (List.mem_cons_of_mem _ h1)
    · intro g hg
      by_cases h1 : g ∈ q1.faces
      · rcases s.faces with e | ⟨p', ho, e⟩ <;> rw [e] at h1
        · exact .inl h1
        · rcases List.mem_append.1 h1 with h1 | h1
          · exact .inl h1
          · simp at h1; subst h1; exact .inr ⟨[], ops, by simp [ho], by simp⟩
      · rcases r.faceOf g hg with h2 | ⟨a, b, h2, h3⟩
        · exact absurd h2 h1
        · refine .inr ⟨o :: a, b, by simp [h2], ?_⟩
          intro f hf he
          rcases List.mem_cons.1 hf with hf | hf
          · obtain ⟨v, hv, hv'⟩ := s.faceAt f hf.symm
            have hv1 := List.mem_of_getElem? hv
            have : v = g := tab_inj r.tabs.face (r.faces.subset hv1) hg (hv'.trans he)
            exact h1 (this ▸ hv1)
          · exact h3 f hf he
    · exact ⟨r.cells.1.trans s.cells.1, r.cells.2.trans s.cells.2⟩

/-! ### Inverse maps -/

theorem pushAt_ok {α : Type} {r : List (List α)} {i : Nat} (h : i < r.length) (x : α) :
    pushAt r i x = .ok (r.set i (r.getD i [] ++ [x])) := by
  simp [pushAt, h]

theorem getD_set {α : Type} {r : List (List α)} {i : Nat} (h : i < r.length) (l : List α) (k : Nat) :
    (r.set i l).getD k [] = if k = i then l else r.getD k [] := by
  simp only [List.getD_eq_getElem?_getD, List.getElem?_set]
  by_cases e : i = k
  · subst e; simp [h]
  · simp [e, Ne.symm e]

theorem count_push {α : Type} [DecidableEq α] {r : List (List α)} {i : Nat} (h : i < r.length) (x y : α) (k : Nat) :
    ((r.set i (r.getD i [] ++ [x])).getD k []).count y = (r.getD k []).count y + if k = i ∧ y = x then 1 else 0 := by
  rw [getD_set h]
  by_cases e : k = i
  · subst e
    by_cases e' : y = x
    · subst e'; simp
    · simp [e', List.count_cons, Ne.symm e']
  · simp [e]

theorem nodeEdgesLoop_spec (dbg : Bool) (n : Nat) : ∀ (es : List (Int × Int)) (i : Nat) (r0 : List (List Nat)), r0.length = n →
    (∀ e ∈ es, (0 ≤ e.1 ∧ e.1 < n) ∧ 0 ≤ e.2 ∧ e.2 < n) →
    ∃ r, nodeEdgesLoop dbg n i es r0 = .ok r ∧ r.length = n ∧ ∀ (node k : Nat), (r.getD node []).count k = (r0.getD node []).count k +
      if i ≤ k then (match es[k - i]? with | some e => (if e.1 = node then 1 else 0) + (if e.2 = node then 1 else 0) | none => 0) else 0
  | [], i, r0, hl, _ => ⟨r0, rfl, hl, fun node k => by simp⟩
  | e :: es, i, r0, hl, h => by
    obtain ⟨⟨a1, a2⟩, b1, b2⟩ := h e (by simp)
    have hi1 : e.1.toNat < r0.length := by omega
    have hi2 : e.2.toNat < (r0.set e.1.toNat (r0.getD e.1.toNat [] ++ [i])).length := by simp; omega
    obtain ⟨r, hr, hrl, hc⟩ := nodeEdgesLoop_spec dbg n es (i + 1)
      ((r0.set e.1.toNat (r0.getD e.1.toNat [] ++ [i])).set e.2.toNat ((r0.set e.1.toNat (r0.getD e.1.toNat [] ++ [i])).getD e.2.toNat [] ++ [i]))
      (by simpa using hl) (fun e he => h e (by simp [he]))
    refine ⟨r, ?_, hrl, ?_⟩
    · simp only [nodeEdgesLoop, Res.bind_eq]
      rw [Res.assert_true _ (by simp [below, a1, a2]), Res.assert_true _ (by simp [below, b1, b2])]
      simp only [Res.bind_ok]
      rw [if_neg (by omega), pushAt_ok hi1, Res.bind_ok, if_neg (by omega), pushAt_ok hi2, Res.bind_ok]
      exact hr
    · intro node k
      rw [hc, count_push hi2, count_push hi1]
      have c1 : (node = e.1.toNat) ↔ (e.1 = node) := by omega
      have c2 : (node = e.2.toNat) ↔ (e.2 = node) := by omega
      simp only [c1, c2]
      by_cases hk : k = i
      · subst hk
        simp only [and_true, le_refl, if_true, Nat.sub_self, List.getElem?_cons_zero]
        rw [if_neg (show ¬ k + 1 ≤ k by omega)]
        by_cases x1 : e.1 = (node : Int) <;> by_cases x2 : e.2 = (node : Int) <;> simp [x1, x2]
      · simp only [hk, and_false, if_false]
        by_cases hk' : i + 1 ≤ k
        · rw [if_pos hk', if_pos (by omega), show k - i = (k - (i + 1)) + 1 by omega, List.getElem?_cons_succ]; rfl
        · rw [if_neg hk', if_neg (by omega)]

/-- What `invertOne` appends for the signed id `s` of owner `i`. -/
def mate (s : Int) (i : Nat) : Int := if s < 0 then -(i : Int) - 1 else i

theorem invertOne_spec (dbg : Bool) (n i : Nat) : ∀ (ss : List Int) (r0 : List (List Int)), r0.length = n → (∀ s ∈ ss, index s < n) →
    ∃ r, invertOne dbg n i ss r0 = .ok r ∧ r.length = n ∧ ∀ (k : Nat) (v : Int), (r.getD k []).count v = (r0.getD k []).count v +
      ss.countP (fun s => decide (index s = k ∧ mate s i = v))
  | [], r0, hl, _ => ⟨r0, rfl, hl, fun node k => by simp⟩
  | s :: ss, r0, hl, h => by
    have hs := h s (by simp)
    have hi : index s < r0.length := by omega
    obtain ⟨r, hr, hrl, hc⟩ := invertOne_spec dbg n i ss (r0.set (index s) (r0.getD (index s) [] ++ [mate s i])) (by simpa using hl)
      (fun e he => h e (by simp [he]))
    refine ⟨r, ?_, hrl, ?_⟩
    · simp only [invertOne, Res.bind_eq, positiveID_eq]
      rw [Res.assert_true _ hs, Res.bind_ok]
      have : (if s < 0 then -(i : Int) - 1 else i) = mate s i := rfl
      rw [this, pushAt_ok hi, Res.bind_ok]
      exact hr
    · intro k v
      rw [hc, count_push hi, List.countP_cons]
      have c : (k = index s ∧ v = mate s i) ↔ (index s = k ∧ mate s i = v) := ⟨fun h => ⟨h.1.symm, h.2.symm⟩, fun h => ⟨h.1.symm, h.2.symm⟩⟩
      simp only [c, decide_eq_true_eq]; omega

theorem invertLoop_spec (dbg : Bool) (n : Nat) : ∀ (ls : List (List Int)) (i : Nat) (r0 : List (List Int)), r0.length = n →
    (∀ l ∈ ls, ∀ s ∈ l, index s < n) →
    ∃ r, invertLoop dbg n i ls r0 = .ok r ∧ r.length = n ∧ ∀ (k : Nat) (v : Int), (r.getD k []).count v = (r0.getD k []).count v +
      if i ≤ index v then (ls.getD (index v - i) []).countP (fun s => decide (index s = k ∧ mate s (index v) = v)) else 0
  | [], i, r0, hl, _ => ⟨r0, rfl, hl, fun node k => by simp⟩
  | l :: ls, i, r0, hl, h => by
    obtain ⟨r1, e1, l1, c1⟩ := invertOne_spec dbg n i l r0 hl (h l (by simp))
    obtain ⟨r, e, l2, c⟩ := invertLoop_spec dbg n ls (i + 1) r1 l1 (fun x hx => h x (by simp [hx]))
    refine ⟨r, by simp [invertLoop, e1, e], l2, ?_⟩
    intro k v
    rw [c, c1]
    have hm : ∀ s, mate s i = v → index v = i := by
      rintro s rfl; unfold mate index; split <;> split <;> omega
    by_cases hv : index v = i
    · rw [if_neg (by omega), if_pos (by omega), hv]; simp
    · have : l.countP (fun s => decide (index s = k ∧ mate s i = v)) = 0 := by
        rw [List.countP_eq_zero]
        intro s _ hs
        exact hv (hm s (by simpa using (of_decide_eq_true hs).2))
      rw [this]
      by_cases hv' : i + 1 ≤ index v
      · rw [if_pos hv', if_pos (by omega), show index v - i = (index v - (i + 1)) + 1 by omega]; simp
      · rw [if_neg hv', if_neg (by omega)]

/-- Counting says that one relation is the inverse of the other, with the same signs and as often. -/
theorem mirror_of_counts {ls r : List (List Int)}
    (c : ∀ (k : Nat) (v : Int), (r.getD k []).count v = (ls.getD (index v) []).countP (fun s => decide (index s = k ∧ mate s (index v) = v))) :
    (∀ (k : Nat) rk, r[k]? = some rk → ∀ (i : Nat) l, ls[i]? = some l → rk.count (i : Int) = l.count (k : Int) ∧
        rk.count (-(i : Int) - 1) = l.count (-(k : Int) - 1)) ∧
      ∀ rk ∈ r, ∀ v ∈ rk, index v < ls.length := by
  refine ⟨?_, ?_⟩
  · intro k rk hk i li hi
    have hg : r.getD k [] = rk := by simp [List.getD_eq_getElem?_getD, hk]
    have hl : ls.getD i [] = li := by simp [List.getD_eq_getElem?_getD, hi]
    have i1 : index (i : Int) = i := by simp [index]
    have i2 : index (-(i : Int) - 1) = i := by unfold index; split <;> omega
    constructor
    · have := c k (i : Int)
      rw [hg, i1, hl] at this
      rw [this, List.count]
      refine List.countP_congr fun s _ => ?_
      simp only [decide_eq_true_eq, beq_iff_eq]
      unfold index mate; constructor
      · rintro ⟨a, b⟩; split at a <;> split at b <;> omega
      · rintro rfl; constructor <;> split <;> omega
    · have := c k (-(i : Int) - 1)
      rw [hg, i2, hl] at this
      rw [this, List.count]
      refine List.countP_congr fun s _ => ?_
      simp only [decide_eq_true_eq, beq_iff_eq]
      unfold index mate; constructor
      · rintro ⟨a, b⟩; split at a <;> split at b <;> omega
      · rintro rfl; constructor <;> split <;> omega
  · intro rk hrk v hv
    obtain ⟨k, hk⟩ := List.getElem?_of_mem hrk
    have hg : r.getD k [] = rk := by simp [List.getD_eq_getElem?_getD, hk]
    have := c k v
    rw [hg] at this
    have hp := List.count_pos_iff.2 hv
    rw [this] at hp
    by_contra hlt
    rw [List.getD_eq_getElem?_getD, List.getElem?_eq_none (by omega)] at hp
    simp at hp

/-- The result is the inverse relation, with the same signs and as often. -/
theorem invert_spec (dbg : Bool) (n : Nat) (ls : List (List Int)) (h : ∀ l ∈ ls, ∀ s ∈ l, index s < n) :
    ∃ r, invertLoop dbg n 0 ls (List.replicate n []) = .ok r ∧ r.length = n ∧
      (∀ (k : Nat) rk, r[k]? = some rk → ∀ (i : Nat) l, ls[i]? = some l → rk.count (i : Int) = l.count (k : Int) ∧
        rk.count (-(i : Int) - 1) = l.count (-(k : Int) - 1)) ∧
      ∀ rk ∈ r, ∀ v ∈ rk, index v < ls.length := by
  obtain ⟨r, e, l, c⟩ := invertLoop_spec dbg n ls 0 (List.replicate n []) (by simp) h
  refine ⟨r, e, l, mirror_of_counts fun k v => ?_⟩
  have z : ((List.replicate n ([] : List Int)).getD k []).count v = 0 := by
    rw [List.getD_eq_getElem?_getD, List.getElem?_replicate]; split <;> simp
  rw [c, z, if_pos (Nat.zero_le _), Nat.sub_zero, Nat.zero_add]

/-! ### Faces as lists of nodes -/

theorem faceNodesLoop_spec (dbg : Bool) (n : Nat) (edges : List (Int × Int)) : ∀ ss : List Int,
    (∀ s ∈ ss, ∃ a b, directed edges s = some (a, b) ∧ 0 ≤ a ∧ a < n) →
    ∃ ns, faceNodesLoop dbg n edges ss = .ok ns ∧ ns.length = ss.length ∧ ∀ (j : Nat) s, ss[j]? = some s → ∃ a b, directed edges s = some (a, b) ∧ ns[j]? = some a
  | [], _ => ⟨[], rfl, rfl, by simp⟩
  | s :: ss, h => by
    obtain ⟨a, b, hd, ha, ha'⟩ := h s (by simp)
    obtain ⟨ns, e, l, c⟩ := faceNodesLoop_spec dbg n edges ss (fun x hx => h x (by simp [hx]))
    have hrd : ∃ p, rd edges (positiveID s) = .ok p ∧ (if 0 ≤ s then p.1 else p.2) = a := by
      unfold directed at hd
      by_cases hs : 0 ≤ s
      · rw [if_pos hs] at hd
        refine ⟨(a, b), ?_, by simp [hs]⟩
        rw [rd_eq_ok, positiveID, if_neg (by omega)]; exact hd
      · rw [if_neg hs, Option.map_eq_some_iff] at hd
        obtain ⟨p, hp, hp'⟩ := hd
        refine ⟨p, ?_, ?_⟩
        · rw [rd_eq_ok, positiveID, if_pos (by omega)]; exact hp
        · have := congrArg Prod.fst hp'; simpa [hs] using this
    obtain ⟨p, hp, hpa⟩ := hrd
    refine ⟨a :: ns, ?_, by simp [l], ?_⟩
    · simp only [faceNodesLoop, hp, Res.bind_eq, Res.bind_ok, hpa]
      rw [Res.assert_true _ (by simp [below, ha, ha'])]
      simp [e]
    · intro j x hj
      cases j with
      | zero => simp at hj; subst hj; exact ⟨a, b, hd, rfl⟩
      | succ j => simpa using c j x (by simpa using hj)

/-! ### `assertValid` -/

theorem forRange_ok {f : Nat → Res Unit} : ∀ {n : Nat}, forRange f n = .ok () → ∀ i < n, f i = .ok ()
  | 0, _, i, hi => by omega
  | n + 1, h, i, hi => by
    simp only [forRange, Res.bind_eq] at h
    obtain ⟨a, h1, h2⟩ := Res.bind_eq_ok.1 h
    rcases Nat.lt_succ_iff_lt_or_eq.1 hi with hi | rfl
    · exact forRange_ok h1 i hi
    · exact h2

end Verif.QuantTess
