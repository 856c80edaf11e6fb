import Verif.Spec.CApi
import Mathlib.Order.Basic
import Mathlib.Order.Defs.LinearOrder
/- C75: the memory of a mesh object of the C interface. -/
namespace Verif.CApi
open Verif

/-- The pointers in `S` own their blocks; there are no other blocks but the object itself and those in `L`, to which nothing points. -/
structure Inv (S : Fld → Prop) (L : List Nat) (s : Mem) : Prop where
  next : ∀ n ∈ s.live, n < s.next
  zero : 0 < s.next
  ptr : ∀ f, S f → s.ptr f = .null ∨ ∃ n, s.ptr f = .at n
  inj : ∀ f g n, S f → S g → s.ptr f = .at n → s.ptr g = .at n → f = g
  live : ∀ n, n ∈ s.live ↔ n = 0 ∨ (∃ f, S f ∧ s.ptr f = .at n) ∨ n ∈ L
  pos : ∀ f, S f → s.ptr f ≠ .at 0
  lost : ∀ n ∈ L, n ≠ 0 ∧ ∀ f, S f → s.ptr f ≠ .at n

/-- The block to which a pointer points. -/
def Ptr.block : Ptr → List Nat
  | .at n => [n]
  | _ => []

theorem Ptr.mem_block {p : Ptr} {n : Nat} : n ∈ p.block ↔ p = .at n := by
  cases p <;> simp [Ptr.block, eq_comm]

/-- A pointer is overwritten or forgotten. -/
theorem Inv.forget {S : Fld → Prop} {L : List Nat} {s : Mem} (h : Inv S L s) {f : Fld} (hf : S f) : Inv (fun g => S g ∧ g ≠ f) ((s.ptr f).block ++ L) s where
  next := h.next
  zero := h.zero
  ptr g hg := h.ptr g hg.1
  inj g g' n hg hg' := h.inj g g' n hg.1 hg'.1
  live n := by
    rw [h.live n, List.mem_append, Ptr.mem_block]
    constructor
    · rintro (h' | ⟨g, hg, e⟩ | h')
      · exact .inl h'
      · by_cases hgf : g = f
        · exact .inr (.inr (.inl (hgf ▸ e)))
        · exact .inr (.inl ⟨g, ⟨hg, hgf⟩, e⟩)
      · exact .inr (.inr (.inr h'))
    · rintro (h' | ⟨g, hg, e⟩ | h' | h')
      · exact .inl h'
      · exact .inr (.inl ⟨g, hg.1, e⟩)
      · exact .inr (.inl ⟨f, hf, h'⟩)
      · exact .inr (.inr h')
  pos g hg := h.pos g hg.1
  lost n hn := by
    rw [List.mem_append, Ptr.mem_block] at hn
    rcases hn with hn | hn
    · exact ⟨fun h0 => h.pos f hf (h0 ▸ hn), fun g hg e => hg.2 (h.inj g f n hg.1 hf e hn)⟩
    · exact ⟨(h.lost n hn).1, fun g hg => (h.lost n hn).2 g hg.1⟩

theorem Inv.congr {S T : Fld → Prop} {L : List Nat} {s : Mem} (h : Inv S L s) (e : ∀ f, S f ↔ T f) : Inv T L s := by
  obtain rfl : S = T := funext fun f => propext (e f)
  exact h

/-- A pointer that is `NULL` may be taken in. -/
theorem Inv.take {S : Fld → Prop} {L : List Nat} {s : Mem} (h : Inv S L s) {f : Fld} (hf : s.ptr f = .null) : Inv (fun g => S g ∨ g = f) L s where
  next := h.next
  zero := h.zero
  ptr g hg := by
    rcases hg with hg | rfl
    · exact h.ptr g hg
    · exact .inl hf
  inj g g' n hg hg' e e' := by
    rcases hg with hg | rfl
    · rcases hg' with hg' | rfl
      · exact h.inj g g' n hg hg' e e'
      · rw [hf] at e'; cases e'
    · rw [hf] at e; cases e
  live n := by
    rw [h.live n]
    constructor
    · rintro (h' | ⟨g, hg, e⟩ | h')
      · exact .inl h'
      · exact .inr (.inl ⟨g, .inl hg, e⟩)
      · exact .inr (.inr h')
    · rintro (h' | ⟨g, hg | rfl, e⟩ | h')
      · exact .inl h'
      · exact .inr (.inl ⟨g, hg, e⟩)
      · rw [hf] at e; cases e
      · exact .inr (.inr h')
  pos g hg := by
    rcases hg with hg | rfl
    · exact h.pos g hg
    · rw [hf]; simp
  lost n hn := ⟨(h.lost n hn).1, fun g hg => by
    rcases hg with hg | rfl
    · exact (h.lost n hn).2 g hg
    · rw [hf]; simp⟩

/-- Writing to a pointer that owns nothing. -/
theorem Inv.set {S : Fld → Prop} {L : List Nat} {s : Mem} (h : Inv S L s) {f : Fld} (hf : ¬ S f) (p : Ptr) : Inv S L (s.set f p) := by
  have e : ∀ g, S g → (s.set f p).ptr g = s.ptr g := fun g hg => if_neg fun (hh : g = f) => hf (hh ▸ hg)
  exact {
    next := h.next
    zero := h.zero
    ptr := fun g hg => by rw [e g hg]; exact h.ptr g hg
    inj := fun g g' n hg hg' => by rw [e g hg, e g' hg']; exact h.inj g g' n hg hg'
    live := fun n => (h.live n).trans (or_congr Iff.rfl (or_congr (exists_congr fun g => and_congr_right fun hg => by rw [e g hg]) Iff.rfl))
    pos := fun g hg => by rw [e g hg]; exact h.pos g hg
    lost := fun n hn => ⟨(h.lost n hn).1, fun g hg => by rw [e g hg]; exact (h.lost n hn).2 g hg⟩ }

theorem alloc_ne (s : Mem) {f g : Fld} (b : Bool) (h : g ≠ f) : (s.alloc f b).ptr g = s.ptr g := by
  unfold Mem.alloc
  split
  · exact if_neg h
  · exact if_neg h

theorem alloc_eq (s : Mem) (f : Fld) : (s.alloc f false).ptr f = .at s.next := if_pos rfl

theorem Inv.alloc {S : Fld → Prop} {L : List Nat} {s : Mem} (h : Inv S L s) {f : Fld} (hf : ¬ S f) (b : Bool) : Inv (fun g => S g ∨ g = f) L (s.alloc f b) := by
  unfold Mem.alloc
  split
  · exact (h.set hf .null).take (if_pos rfl)
  · have e : ∀ g, S g → (s.set f (.at s.next)).ptr g = s.ptr g := fun g hg => if_neg fun (hh : g = f) => hf (hh ▸ hg)
    have e' : (s.set f (.at s.next)).ptr f = .at s.next := if_pos rfl
    have hn : ∀ g, S g → s.ptr g ≠ .at s.next := fun g hg hh => absurd (h.next _ ((h.live _).2 (.inr (.inl ⟨g, hg, hh⟩)))) (Nat.lt_irrefl _)
    exact {
      next := fun n hn => by
        rcases List.mem_cons.1 hn with rfl | hn
        · exact Nat.lt_succ_self _
        · exact Nat.lt_succ_of_lt (h.next n hn)
      zero := Nat.succ_pos _
      ptr := fun g hg => by
        rcases hg with hg | rfl
        · rw [e g hg]; exact h.ptr g hg
        · exact .inr ⟨_, e'⟩
      inj := fun g g' n hg hg' => by
        rcases hg with hg | rfl
        · rw [e g hg]
          rcases hg' with hg' | rfl
          · rw [e g' hg']; exact h.inj g g' n hg hg'
          · rw [e']; exact fun a b => absurd (a.trans b.symm) (hn g hg)
        · rw [e']
          rcases hg' with hg' | rfl
          · rw [e g' hg']; exact fun a b => absurd (b.trans a.symm) (hn g' hg')
          · exact fun _ _ => rfl
      live := fun n => by
        show n ∈ s.next :: s.live ↔ _
        rw [List.mem_cons, h.live n]
        constructor
        · rintro (rfl | h' | ⟨g, hg, hh⟩ | h')
          · exact .inr (.inl ⟨f, .inr rfl, e'⟩)
          · exact .inl h'
          · exact .inr (.inl ⟨g, .inl hg, by rw [e g hg]; exact hh⟩)
          · exact .inr (.inr h')
        · rintro (h' | ⟨g, hg | rfl, hh⟩ | h')
          · exact .inr (.inl h')
          · rw [e g hg] at hh; exact .inr (.inr (.inl ⟨g, hg, hh⟩))
          · rw [e'] at hh; exact .inl (Ptr.at.inj hh).symm
          · exact .inr (.inr (.inr h'))
      pos := fun g hg => by
        rcases hg with hg | rfl
        · rw [e g hg]; exact h.pos g hg
        · rw [e']; intro hh; have := Ptr.at.inj hh; have := h.zero; omega
      lost := fun n hL => ⟨(h.lost n hL).1, fun g hg => by
        rcases hg with hg | rfl
        · rw [e g hg]; exact (h.lost n hL).2 g hg
        · rw [e']; intro hh
          exact absurd (h.next n ((h.live n).2 (.inr (.inr hL)))) (by rw [← Ptr.at.inj hh]; exact Nat.lt_irrefl _)⟩ }

/-- Freeing a block that is owned. -/
theorem Inv.free {S : Fld → Prop} {L : List Nat} {s : Mem} (h : Inv S L s) {f : Fld} (hf : S f) :
    ∃ s', s.free (s.ptr f) = .ok s' ∧ s'.ptr = s.ptr ∧ Inv (fun g => S g ∧ g ≠ f) L s' ∧ (∀ n ∈ s'.live, n ∈ s.live) ∧ ∀ n, s.ptr f = .at n → n ∉ s'.live := by
  rcases h.ptr f hf with hp | ⟨n, hp⟩
  · refine ⟨s, by rw [hp]; rfl, rfl, ?_, fun _ h => h, fun n hn => by rw [hp] at hn; cases hn⟩
    have := h.forget hf
    rwa [hp] at this
  · have hl : n ∈ s.live := (h.live n).2 (.inr (.inl ⟨f, hf, hp⟩))
    have hm : ∀ m, m ∈ s.live.filter (· ≠ n) ↔ m ∈ s.live ∧ m ≠ n := fun m => by simp
    refine ⟨{ s with live := s.live.filter (· ≠ n) }, by rw [hp]; exact if_pos hl, rfl, ?_, fun m hm' => ((hm m).1 hm').1, fun m hm' hh => ?_⟩
    · exact {
        next := fun m hm' => h.next m ((hm m).1 hm').1
        zero := h.zero
        ptr := fun g hg => h.ptr g hg.1
        inj := fun g g' n hg hg' => h.inj g g' n hg.1 hg'.1
        live := fun m => by
          show m ∈ s.live.filter (· ≠ n) ↔ _
          rw [hm, h.live]
          constructor
          · rintro ⟨h' | ⟨g, hg, e⟩ | h', hne⟩
            · exact .inl h'
            · exact .inr (.inl ⟨g, ⟨hg, fun hh => hne (by rw [hh, hp] at e; exact (Ptr.at.inj e).symm)⟩, e⟩)
            · exact .inr (.inr h')
          · rintro (h' | ⟨g, hg, e⟩ | h')
            · exact ⟨.inl h', fun hh => h.pos f hf (by rw [hp, ← hh, h'])⟩
            · exact ⟨.inr (.inl ⟨g, hg.1, e⟩), fun hh => hg.2 (h.inj g f n hg.1 hf (hh ▸ e) hp)⟩
            · exact ⟨.inr (.inr h'), fun hh => (h.lost m h').2 f hf (hh ▸ hp)⟩
        pos := fun g hg => h.pos g hg.1
        lost := fun m hm' => ⟨(h.lost m hm').1, fun g hg => (h.lost m hm').2 g hg.1⟩ }
    · rw [hp] at hm'
      exact ((hm m).1 hh).2 (Ptr.at.inj hm').symm

/-- A pointer that is `NULL` or to a block that has been freed. -/
def Gone (s : Mem) (f : Fld) : Prop := s.ptr f = .null ∨ ∃ n, s.ptr f = .at n ∧ n ∉ s.live

/-- A step of `clear` for one pointer. -/
theorem Inv.step {S : Fld → Prop} {L : List Nat} {s : Mem} (h : Inv S L s) {f : Fld} (hf : S f) (reset : Bool) :
    ∃ s', clearStep s f [f] reset = .ok s' ∧ Inv (fun g => S g ∧ g ≠ f) L s' ∧ (∀ g ≠ f, s'.ptr g = s.ptr g) ∧ (∀ n ∈ s'.live, n ∈ s.live) ∧
      (reset = true → s'.ptr f = .null) ∧ (reset = false → s'.ptr f = s.ptr f ∧ Gone s' f) := by
  obtain ⟨s', e, hp, hi, hl, hn⟩ := h.free hf
  unfold clearStep
  rcases h.ptr f hf with hp' | ⟨n, hp'⟩
  · rw [hp'] at e ⊢
    obtain rfl : s = s' := Res.ok.inj e
    exact ⟨s, rfl, hi, fun _ _ => rfl, fun _ h => h, fun _ => hp', fun _ => ⟨hp', .inl hp'⟩⟩
  · simp only [hp']
    cases reset
    · refine ⟨s', by rw [List.foldlM_cons, e]; rfl, hi, fun g _ => by rw [hp], hl, fun h => by simp at h, fun _ => ⟨by rw [hp, hp'], .inr ⟨n, by rw [hp, hp'], hn n hp'⟩⟩⟩
    · refine ⟨s'.set f .null, by rw [List.foldlM_cons, e]; rfl, hi.set (fun hh => hh.2 rfl) _, fun g hg => (if_neg hg).trans (by rw [hp]), hl, fun _ => if_pos rfl, fun h => by simp at h⟩

/-- A step of `clear` for two pointers. -/
theorem Inv.step2 {S : Fld → Prop} {L : List Nat} {s : Mem} (h : Inv S L s) {f g k : Fld} (hf : S f) (hg : S g) (hfg : f ≠ g) (hk : k = f ∨ k = g) (ha : s.ptr f = .null ↔ s.ptr g = .null) :
    ∃ s', clearStep s k [f, g] true = .ok s' ∧ Inv (fun h => (S h ∧ h ≠ f) ∧ h ≠ g) L s' ∧ (∀ h, h ≠ f → h ≠ g → s'.ptr h = s.ptr h) ∧ (∀ n ∈ s'.live, n ∈ s.live) ∧ s'.ptr f = .null ∧ s'.ptr g = .null := by
  by_cases hn : s.ptr f = .null
  · have hn' := ha.1 hn
    have hk' : s.ptr k = .null := by rcases hk with rfl | rfl <;> assumption
    unfold clearStep
    rw [hk']
    refine ⟨s, rfl, ?_, fun _ _ _ => rfl, fun _ h => h, hn, hn'⟩
    have h1 := h.forget hf
    rw [hn] at h1
    have h2 := h1.forget ⟨hg, hfg.symm⟩
    rwa [hn'] at h2
  · obtain ⟨n, hk'⟩ : ∃ n, s.ptr k = .at n := by
      rcases hk with rfl | rfl
      · exact (h.ptr _ hf).resolve_left hn
      · exact (h.ptr _ hg).resolve_left fun hh => hn (ha.2 hh)
    obtain ⟨s1, e1, p1, i1, l1, _⟩ := h.free hf
    have i1' := i1.set (f := f) (fun hh => hh.2 rfl) .null
    obtain ⟨s2, e2, p2, i2, l2, _⟩ := i1'.free (f := g) ⟨hg, hfg.symm⟩
    refine ⟨s2.set g .null, ?_, i2.set (fun hh => hh.2 rfl) _, fun h hf' hg' => ?_, fun n hn => l1 n (l2 n hn), ?_, if_pos rfl⟩
    · unfold clearStep
      simp only [hk', ↓reduceIte]
      rw [List.foldlM_cons, e1]
      simp only [Res.bind_eq, Res.bind_ok, Res.pure_eq]
      rw [List.foldlM_cons, e2]; rfl
    · exact (if_neg hg').trans (by rw [p2]; exact (if_neg hf').trans (by rw [p1]))
    · exact (if_neg hfg).trans (by rw [p2]; exact if_pos rfl)

/-- The pointers that `clear` leaves as they are. -/
def kept (f : Fld) : Prop := f = .boundaryNodes ∨ f = .boundaryFaces ∨ f = .faceCells

/-- The state of an object that has been created or cleared. -/
structure Ready (L : List Nat) (s : Mem) : Prop where
  inv : Inv (fun _ => False) L s
  null : ∀ f, ¬ kept f → s.ptr f = .null

/-- The state of an object that holds a mesh. -/
structure Full (L : List Nat) (s : Mem) : Prop where
  inv : Inv (fun _ => True) L s
  cellOffsets : ∃ n, s.ptr .cellOffsets = .at n
  cellFaces : ∃ n, s.ptr .cellFaces = .at n
  faceOffsets : ∃ n, s.ptr .faceOffsets = .at n
  faceNodes : ∃ n, s.ptr .faceNodes = .at n
  sharedNodeOffsets : ∃ n, s.ptr .sharedNodeOffsets = .at n
  sharedNodes : ∃ n, s.ptr .sharedNodes = .at n
  sharedFaceOffsets : ∃ n, s.ptr .sharedFaceOffsets = .at n
  sharedFaces : ∃ n, s.ptr .sharedFaces = .at n
  nodeCellOffsets : s.ptr .nodeCellOffsets = .null
  nodeCells : s.ptr .nodeCells = .null

theorem new_ready : Ready [] new where
  inv := {
    next := fun n hn => by simp only [new, List.mem_singleton] at hn ⊢; omega
    zero := Nat.one_pos
    ptr := fun _ h => h.elim
    inj := fun _ _ _ h => h.elim
    live := fun n => by simp [new]
    pos := fun _ h => h.elim
    lost := fun n h => by simp at h }
  null f hf := if_neg fun h => hf (.inr (.inr h))

theorem both {p q : Ptr} (hp : ∃ n, p = .at n) (hq : ∃ n, q = .at n) : p = .null ↔ q = .null := by
  obtain ⟨a, rfl⟩ := hp
  obtain ⟨b, rfl⟩ := hq
  simp

/-- `clear` of a mesh. -/
theorem Full.clear {L : List Nat} {s : Mem} (h : Full L s) : ∃ s', clear s = .ok s' ∧ Ready L s' ∧ (∀ f, kept f → s'.ptr f = s.ptr f ∧ Gone s' f) := by
  obtain ⟨s1, e1, i1, p1, l1, n1, _⟩ := h.inv.step (f := .nodes) trivial true
  obtain ⟨s2, e2, i2, p2, l2, n2, n2'⟩ := i1.step2 (f := .cellOffsets) (g := .cellFaces) (k := .cellFaces) (by simp) (by simp) (by simp) (by simp) (by rw [p1 _ (by simp), p1 _ (by simp)]; exact both h.cellOffsets h.cellFaces)
  obtain ⟨s3, e3, i3, p3, l3, n3, n3'⟩ := i2.step2 (f := .faceOffsets) (g := .faceNodes) (k := .faceNodes) (by simp) (by simp) (by simp) (by simp) (by
    rw [p2 _ (by simp) (by simp), p2 _ (by simp) (by simp), p1 _ (by simp), p1 _ (by simp)]; exact both h.faceOffsets h.faceNodes)
  obtain ⟨s4, e4, i4, p4, l4, _, n4⟩ := i3.step (f := .boundaryNodes) (by simp) false
  obtain ⟨s5, e5, i5, p5, l5, _, n5⟩ := i4.step (f := .boundaryFaces) (by simp) false
  obtain ⟨s6, e6, i6, p6, l6, _, n6⟩ := i5.step (f := .faceCells) (by simp) false
  obtain ⟨s7, e7, i7, p7, l7, n7, _⟩ := i6.step (f := .neighborDomains) (by simp) true
  obtain ⟨s8, e8, i8, p8, l8, n8, n8'⟩ := i7.step2 (f := .sharedNodeOffsets) (g := .sharedNodes) (k := .sharedNodeOffsets) (by simp) (by simp) (by simp) (by simp) (by
    simp only [p7, p6, p5, p4, p3, p2, p1, ne_eq, reduceCtorEq, not_false_eq_true]; exact both h.sharedNodeOffsets h.sharedNodes)
  obtain ⟨s9, e9, i9, p9, l9, n9, n9'⟩ := i8.step2 (f := .sharedFaceOffsets) (g := .sharedFaces) (k := .sharedFaceOffsets) (by simp) (by simp) (by simp) (by simp) (by
    simp only [p8, p7, p6, p5, p4, p3, p2, p1, ne_eq, reduceCtorEq, not_false_eq_true]; exact both h.sharedFaceOffsets h.sharedFaces)
  have q1 : s9.ptr .nodeCellOffsets = .null := by
    simp only [p9, p8, p7, p6, p5, p4, p3, p2, p1, ne_eq, reduceCtorEq, not_false_eq_true]; exact h.nodeCellOffsets
  have q2 : s9.ptr .nodeCells = .null := by
    simp only [p9, p8, p7, p6, p5, p4, p3, p2, p1, ne_eq, reduceCtorEq, not_false_eq_true]; exact h.nodeCells
  have i9' := (i9.forget (f := .nodeCellOffsets) (by simp)).forget (f := .nodeCells) (by simp)
  rw [q1, q2] at i9'
  obtain ⟨s10, e10, i10, p10, l10, n10, _⟩ := i9'.step (f := .convexHull) (by simp) true
  refine ⟨(s10.set .nodeCellOffsets .null).set .nodeCells .null, ?_, ⟨?_, fun f hf => ?_⟩, fun f hf => ?_⟩
  · unfold CApi.clear
    rw [e1, Res.bind_eq, Res.bind_ok, e2, Res.bind_eq, Res.bind_ok, e3, Res.bind_eq, Res.bind_ok, e4, Res.bind_eq, Res.bind_ok, e5, Res.bind_eq, Res.bind_ok, e6, Res.bind_eq, Res.bind_ok, e7, Res.bind_eq, Res.bind_ok,
      e8, Res.bind_eq, Res.bind_ok, e9, Res.bind_eq, Res.bind_ok, show clearStep s9 .nodeCellOffsets [.nodeCellOffsets, .nodeCells] false = .ok s9 by unfold clearStep; rw [q1], Res.bind_eq, Res.bind_ok, e10]
    rfl
  · refine ((i10.congr fun f => ?_).set (by simp) _).set (by simp) _
    cases f <;> simp
  · have : s10.ptr f = .null ∨ f = .nodeCellOffsets ∨ f = .nodeCells := by
      unfold kept at hf
      cases f <;> simp only [reduceCtorEq, or_true, or_false, true_or, false_or, not_true_eq_false] at hf ⊢ <;>
        simp only [p10, p9, p8, p7, p6, p5, p4, p3, p2, n1, n2, n2', n3, n3', n7, n8, n8', n9, n9', n10, ne_eq, reduceCtorEq, not_false_eq_true]
    unfold Mem.set
    show (if f = .nodeCells then Ptr.null else if f = .nodeCellOffsets then Ptr.null else s10.ptr f) = _
    split
    · rfl
    · split
      · rfl
      · rename_i h1 h2
        exact this.resolve_right (by simp [h1, h2])
  · have hset : ∀ f, kept f → ((s10.set .nodeCellOffsets .null).set .nodeCells .null).ptr f = s10.ptr f := fun f hf => by
      unfold kept at hf
      rcases hf with rfl | rfl | rfl <;> rfl
    have hlive : ∀ n, n ∉ s6.live → n ∉ s10.live := fun n hn hh => hn (l7 n (l8 n (l9 n (l10 n hh))))
    have hlive5 : ∀ n, n ∉ s5.live → n ∉ s6.live := fun n hn hh => hn (l6 n hh)
    have hlive4 : ∀ n, n ∉ s4.live → n ∉ s5.live := fun n hn hh => hn (l5 n hh)
    unfold Gone
    rw [hset f hf]
    unfold kept at hf
    rcases hf with rfl | rfl | rfl
    · obtain ⟨a, b⟩ := n4 rfl
      have e : s10.ptr .boundaryNodes = s4.ptr .boundaryNodes := by simp only [p10, p9, p8, p7, p6, p5, ne_eq, reduceCtorEq, not_false_eq_true]
      refine ⟨by rw [e, a]; simp only [p3, p2, p1, ne_eq, reduceCtorEq, not_false_eq_true], ?_⟩
      rw [e]
      exact b.imp id fun ⟨n, hn, hh⟩ => ⟨n, hn, hlive n (hlive5 n (hlive4 n hh))⟩
    · obtain ⟨a, b⟩ := n5 rfl
      have e : s10.ptr .boundaryFaces = s5.ptr .boundaryFaces := by simp only [p10, p9, p8, p7, p6, ne_eq, reduceCtorEq, not_false_eq_true]
      refine ⟨by rw [e, a]; simp only [p4, p3, p2, p1, ne_eq, reduceCtorEq, not_false_eq_true], ?_⟩
      rw [e]
      exact b.imp id fun ⟨n, hn, hh⟩ => ⟨n, hn, hlive n (hlive5 n hh)⟩
    · obtain ⟨a, b⟩ := n6 rfl
      have e : s10.ptr .faceCells = s6.ptr .faceCells := by simp only [p10, p9, p8, p7, ne_eq, reduceCtorEq, not_false_eq_true]
      refine ⟨by rw [e, a]; simp only [p5, p4, p3, p2, p1, ne_eq, reduceCtorEq, not_false_eq_true], ?_⟩
      rw [e]
      exact b.imp id fun ⟨n, hn, hh⟩ => ⟨n, hn, hlive n hh⟩

theorem Fld.mem (f : Fld) : f ∈ [Fld.nodes, .cellOffsets, .cellFaces, .faceOffsets, .faceNodes, .boundaryNodes, .boundaryFaces, .faceCells, .convexHull, .neighborDomains, .sharedNodeOffsets, .sharedNodes, .sharedFaceOffsets, .sharedFaces,
    .nodeCellOffsets, .nodeCells] := by cases f <;> simp

open Classical in
/-- The pointers outside `T` are forgotten. -/
theorem Inv.forgetAll {L : List Nat} {s : Mem} (h : Inv (fun _ => True) L s) (T : Fld → Prop) :
    ∃ L', Inv T L' s ∧ (∀ n ∈ L, n ∈ L') ∧ (∀ f, ¬ T f → ∀ n, s.ptr f = .at n → n ∈ L') ∧ ∀ n ∈ L', n ∈ L ∨ ∃ f, ¬ T f ∧ s.ptr f = .at n := by
  let L0 := [Fld.nodes, .cellOffsets, .cellFaces, .faceOffsets, .faceNodes, .boundaryNodes, .boundaryFaces, .faceCells, .convexHull, .neighborDomains, .sharedNodeOffsets, .sharedNodes, .sharedFaceOffsets, .sharedFaces,
    .nodeCellOffsets, .nodeCells].flatMap fun f => if T f then [] else (s.ptr f).block
  have h0 : ∀ n, n ∈ L0 ↔ ∃ f, ¬ T f ∧ s.ptr f = .at n := fun n => by
    simp only [L0, List.mem_flatMap]
    constructor
    · rintro ⟨f, _, hf⟩
      split at hf
      · simp at hf
      · rename_i ht; exact ⟨f, ht, Ptr.mem_block.1 hf⟩
    · rintro ⟨f, ht, hf⟩
      exact ⟨f, f.mem, by rw [if_neg ht]; exact Ptr.mem_block.2 hf⟩
  refine ⟨L ++ L0, ⟨h.next, h.zero, fun f _ => h.ptr f trivial, fun f g n _ _ => h.inj f g n trivial trivial, fun n => ?_, fun f _ => h.pos f trivial, fun n hn => ?_⟩, fun n hn => List.mem_append_left _ hn,
    fun f hf n hn => List.mem_append_right _ ((h0 n).2 ⟨f, hf, hn⟩), fun n hn => (List.mem_append.1 hn).imp id (h0 n).1⟩
  · rw [h.live n, List.mem_append, h0]
    constructor
    · rintro (h' | ⟨f, _, e⟩ | h')
      · exact .inl h'
      · by_cases ht : T f
        · exact .inr (.inl ⟨f, ht, e⟩)
        · exact .inr (.inr (.inr ⟨f, ht, e⟩))
      · exact .inr (.inr (.inl h'))
    · rintro (h' | ⟨f, _, e⟩ | h' | ⟨f, _, e⟩)
      · exact .inl h'
      · exact .inr (.inl ⟨f, trivial, e⟩)
      · exact .inr (.inr h')
      · exact .inr (.inl ⟨f, trivial, e⟩)
  · rw [List.mem_append, h0] at hn
    rcases hn with hn | ⟨f, ht, e⟩
    · exact ⟨(h.lost n hn).1, fun g _ => (h.lost n hn).2 g trivial⟩
    · exact ⟨fun h0 => h.pos f trivial (h0 ▸ e), fun g hg e' => ht (h.inj g f n trivial trivial e' e ▸ hg)⟩

/-- Putting a mesh into an object. -/
theorem Inv.fill {L : List Nat} {s : Mem} (m : Shape) (h : Inv (fun f => f = .convexHull ∧ m.hull = false) L s) (n1 : s.ptr .nodeCellOffsets = .null) (n2 : s.ptr .nodeCells = .null) :
    Full L (fill m s) ∧ (m.faceCells = false → ∃ n, (fill m s).ptr .faceCells = .at n) := by
  have i1 := h.alloc (f := .nodes) (by simp) m.nodes
  have i2 := i1.alloc (f := .cellOffsets) (by simp) false
  have i3 := i2.alloc (f := .cellFaces) (by simp) false
  have i4 := i3.alloc (f := .faceOffsets) (by simp) false
  have i5 := i4.alloc (f := .faceNodes) (by simp) false
  have i6 := i5.alloc (f := .boundaryNodes) (by simp) m.boundaryNodes
  have i7 := i6.alloc (f := .boundaryFaces) (by simp) m.boundaryFaces
  have i8 := i7.alloc (f := .faceCells) (by simp) m.faceCells
  obtain ⟨s9, e9, p9, i9⟩ : ∃ s9, s9 = (if m.hull then (((((((((s.alloc .nodes m.nodes).alloc .cellOffsets false).alloc .cellFaces false).alloc .faceOffsets false).alloc .faceNodes false).alloc .boundaryNodes m.boundaryNodes).alloc
      .boundaryFaces m.boundaryFaces).alloc .faceCells m.faceCells).alloc .convexHull false) else ((((((((s.alloc .nodes m.nodes).alloc .cellOffsets false).alloc .cellFaces false).alloc .faceOffsets false).alloc .faceNodes false).alloc .boundaryNodes m.boundaryNodes).alloc
      .boundaryFaces m.boundaryFaces).alloc .faceCells m.faceCells)) ∧ (∀ f ≠ .convexHull, s9.ptr f = ((((((((s.alloc .nodes m.nodes).alloc .cellOffsets false).alloc .cellFaces false).alloc .faceOffsets false).alloc .faceNodes false).alloc .boundaryNodes m.boundaryNodes).alloc
      .boundaryFaces m.boundaryFaces).alloc .faceCells m.faceCells).ptr f) ∧ Inv (fun f => f = .nodes ∨ f = .cellOffsets ∨ f = .cellFaces ∨ f = .faceOffsets ∨ f = .faceNodes ∨ f = .boundaryNodes ∨ f = .boundaryFaces ∨ f = .faceCells ∨ f = .convexHull) L s9 := by
    refine ⟨_, rfl, fun f hf => ?_, ?_⟩
    · split
      · rw [alloc_ne _ _ hf]
      · rfl
    · split
      · rename_i hh
        exact (i8.alloc (f := .convexHull) (by simp [hh]) false).congr fun f => by cases f <;> simp [hh]
      · rename_i hh
        exact i8.congr fun f => by cases f <;> simp [hh]
  have i10 := i9.alloc (f := .neighborDomains) (by simp) m.neighborDomains
  have i11 := i10.alloc (f := .sharedNodeOffsets) (by simp) false
  have i12 := i11.alloc (f := .sharedNodes) (by simp) false
  have i13 := i12.alloc (f := .sharedFaceOffsets) (by simp) false
  have i14 := i13.alloc (f := .sharedFaces) (by simp) false
  have e : CApi.fill m s = ((((s9.alloc .neighborDomains m.neighborDomains).alloc .sharedNodeOffsets false).alloc .sharedNodes false).alloc .sharedFaceOffsets false).alloc .sharedFaces false := by rw [e9]; rfl
  rw [← e] at i14
  have q1 : (CApi.fill m s).ptr .nodeCellOffsets = .null := by
    rw [e]; simp only [alloc_ne, p9, n1, ne_eq, reduceCtorEq, not_false_eq_true]
  have q2 : (CApi.fill m s).ptr .nodeCells = .null := by
    rw [e]; simp only [alloc_ne, p9, n2, ne_eq, reduceCtorEq, not_false_eq_true]
  refine ⟨⟨((i14.take q1).take q2).congr fun f => by cases f <;> simp, ?_, ?_, ?_, ?_, ?_, ?_, ?_, ?_, q1, q2⟩, fun hf => ?_⟩
  all_goals
    rw [e]
    try rw [hf] at p9
    simp only [alloc_ne, alloc_eq, p9, ne_eq, reduceCtorEq, not_false_eq_true, Ptr.at.injEq, exists_eq']

/-- The state of an object that holds a mesh or does not. -/
def State (full : Bool) (L : List Nat) (s : Mem) : Prop := if full then Full L s else Ready L s

theorem State.fill {full : Bool} {L : List Nat} {s : Mem} (h : State full L s) (m : Shape) : ∃ L', State true L' (fill m s) ∧ (m.faceCells = false → ∃ n, (fill m s).ptr .faceCells = .at n) ∧ (L' = [] ↔ L = [] ∧ full = false) := by
  cases full
  · have h : Ready L s := h
    have hh := h.null .convexHull (by simp [kept])
    have := Inv.fill (L := L) (s := s) m (by
      by_cases hm : m.hull = false
      · exact (h.inv.take hh).congr fun f => by simp [hm]
      · exact h.inv.congr fun f => by simp [hm]) (h.null .nodeCellOffsets (by simp [kept])) (h.null .nodeCells (by simp [kept]))
    exact ⟨L, this.1, this.2, by simp⟩
  · have h : Full L s := h
    obtain ⟨L', i, h1, h2, _⟩ := h.inv.forgetAll fun f => f = .convexHull ∧ m.hull = false
    have := i.fill m h.nodeCellOffsets h.nodeCells
    obtain ⟨n, hn⟩ := h.cellOffsets
    refine ⟨L', this.1, this.2, by
      have := h2 .cellOffsets (by simp) n hn
      constructor
      · rintro rfl; simp at this
      · simp⟩

theorem Full.free {L : List Nat} {s : Mem} (h : Full L s) : ∃ s', free s = .ok s' ∧ (s'.live = [] ↔ L = []) := by
  obtain ⟨s', e, r, _⟩ := h.clear
  have h0 : 0 ∈ s'.live := (r.inv.live 0).2 (.inl rfl)
  refine ⟨{ s' with live := s'.live.filter (· ≠ 0) }, ?_, ?_⟩
  · unfold CApi.free
    rw [e, Res.bind_eq, Res.bind_ok]
    exact if_pos h0
  · show s'.live.filter (· ≠ 0) = [] ↔ _
    rw [List.filter_eq_nil_iff]
    constructor
    · intro hh
      by_contra hL
      obtain ⟨n, hn⟩ := List.exists_mem_of_ne_nil _ hL
      exact hh n ((r.inv.live n).2 (.inr (.inr hn))) (by simpa using (r.inv.lost n hn).1)
    · rintro rfl n hn
      have := (r.inv.live n).1 hn
      simpa using this

theorem uses_safe : ∀ (us : List Use) {full : Bool} {L : List Nat} {s : Mem}, State full L s → Filled full us → ∃ s', (us.foldlM use s).bind CApi.free = .ok s' ∧ (s'.live = [] ↔ L = [] ∧ NoRefill full us)
  | [], full, L, s, h, hf => by
    obtain rfl : full = true := hf
    obtain ⟨s', e, hl⟩ := Full.free (show Full L s from h)
    exact ⟨s', e, hl.trans (by simp [NoRefill])⟩
  | .clear :: us, full, L, s, h, hf => by
    obtain ⟨rfl, hf⟩ : full = true ∧ Filled false us := hf
    obtain ⟨s', e, r, _⟩ := Full.clear (show Full L s from h)
    obtain ⟨s'', e', hl⟩ := uses_safe us (full := false) r hf
    refine ⟨s'', ?_, hl⟩
    rw [List.foldlM_cons, show use s .clear = .ok s' from e]
    exact e'
  | .tessellate m :: us, full, L, s, h, hf => by
    obtain ⟨L', h', _, hL⟩ := h.fill m
    obtain ⟨s', e, hl⟩ := uses_safe us h' hf
    refine ⟨s', by rw [List.foldlM_cons]; exact e, hl.trans ?_⟩
    rw [hL]
    show _ ↔ L = [] ∧ full = false ∧ NoRefill true us
    rw [and_assoc]

/-- C75: if a mesh has been put into the object every time it is cleared or freed, then no memory is touched that has been freed or not been set. Nothing leaks if and only if no mesh is put into an object that holds one. -/
theorem C75_safe_partial (us : List Use) (h : Filled false us) : ∃ s, life us = .ok s ∧ (s.live = [] ↔ NoRefill false us) := by
  obtain ⟨s, e, hl⟩ := uses_safe us (full := false) (L := []) new_ready h
  exact ⟨s, e, hl.trans (by simp)⟩

/-- `clear` has undefined behaviour. -/
structure Bad (s : Mem) : Prop where
  null : ∀ f, ¬ kept f → s.ptr f = .null
  nodes : Gone s .boundaryNodes
  faces : Gone s .boundaryFaces
  cells : s.ptr .faceCells = .junk ∨ ∃ n, s.ptr .faceCells = .at n ∧ n ∉ s.live

theorem step_null {s : Mem} {f : Fld} {gs : List Fld} {b : Bool} (h : s.ptr f = .null) : clearStep s f gs b = .ok s := by unfold clearStep; rw [h]

theorem step_gone {s : Mem} {f : Fld} {b : Bool} {n : Nat} (h : s.ptr f = .at n) (hn : n ∉ s.live) : clearStep s f [f] b = .ub := by
  unfold clearStep; simp only [h]
  rw [List.foldlM_cons, h, show s.free (.at n) = .ub from if_neg hn]; rfl

theorem Bad.clear {s : Mem} (h : Bad s) : clear s = .ub := by
  unfold CApi.clear
  rw [step_null (h.null .nodes (by simp [kept])), Res.bind_eq, Res.bind_ok, step_null (h.null .cellFaces (by simp [kept])), Res.bind_eq, Res.bind_ok, step_null (h.null .faceNodes (by simp [kept])), Res.bind_eq, Res.bind_ok]
  rcases h.nodes with h1 | ⟨n, h1, h1'⟩
  · rw [step_null h1, Res.bind_eq, Res.bind_ok]
    rcases h.faces with h2 | ⟨n, h2, h2'⟩
    · rw [step_null h2, Res.bind_eq, Res.bind_ok]
      rcases h.cells with h3 | ⟨n, h3, h3'⟩
      · rw [show clearStep s .faceCells [.faceCells] false = .ub by unfold clearStep; rw [h3]]; rfl
      · rw [step_gone h3 h3']; rfl
    · rw [step_gone h2 h2']; rfl
  · rw [step_gone h1 h1']; rfl

theorem new_bad : Bad new := ⟨fun f hf => new_ready.null f hf, .inl rfl, .inl rfl, .inl rfl⟩

theorem uses_bad : ∀ (us : List Use) {full : Bool} {L : List Nat} {s : Mem}, State full L s → (full = true → ∃ n, s.ptr .faceCells = .at n) → (full = false → Bad s) → (∀ m, .tessellate m ∈ us → m.faceCells = false) →
    ¬ Filled full us → (us.foldlM use s).bind CApi.free = .ub
  | [], full, L, s, _, _, hb, _, hf => by
    have : full = false := by simpa [Filled] using hf
    show CApi.free s = .ub
    unfold CApi.free
    rw [(hb this).clear]; rfl
  | .clear :: us, false, L, s, _, _, hb, _, _ => by
    rw [List.foldlM_cons, show use s .clear = .ub from (hb rfl).clear]; rfl
  | .clear :: us, true, L, s, h, hc, _, hm, hf => by
    obtain ⟨s', e, r, hk⟩ := Full.clear (show Full L s from h)
    rw [List.foldlM_cons, show use s .clear = .ok s' from e]
    refine uses_bad us (full := false) (L := L) (s := s') r (fun h => by simp at h) (fun _ => ⟨r.null, (hk _ (by simp [kept])).2, (hk _ (by simp [kept])).2, ?_⟩) (fun m hm' => hm m (List.mem_cons_of_mem _ hm')) (fun hh => hf ⟨rfl, hh⟩)
    obtain ⟨n, hn⟩ := hc rfl
    obtain ⟨a, b⟩ := hk .faceCells (by simp [kept])
    exact .inr (b.resolve_left (by rw [a, hn]; simp))
  | .tessellate m :: us, full, L, s, h, _, _, hm, hf => by
    obtain ⟨L', h', hc, _⟩ := h.fill m
    rw [List.foldlM_cons]
    exact uses_bad us h' (fun _ => hc (hm m (List.mem_cons_self ..))) (fun h => by simp at h) (fun m hm' => hm m (List.mem_cons_of_mem _ hm')) hf

/-- C75 fails for all other histories of meshes with faces: an object that holds no mesh, because it is new or has just been cleared, cannot be cleared or freed. -/
theorem C75_empty_fails (us : List Use) (hm : ∀ m, .tessellate m ∈ us → m.faceCells = false) (h : ¬ Filled false us) : life us = .ub :=
  uses_bad us (full := false) (L := []) new_ready (fun h => by simp at h) (fun _ => new_bad) hm h

/-- C75: so for meshes with faces this is exactly when it is safe. -/
theorem C75_iff (us : List Use) (hm : ∀ m, .tessellate m ∈ us → m.faceCells = false) : (∃ s, life us = .ok s) ↔ Filled false us := by
  constructor
  · rintro ⟨s, e⟩
    by_contra h
    rw [C75_empty_fails us hm h] at e; cases e
  · intro h
    obtain ⟨s, e, _⟩ := C75_safe_partial us h
    exact ⟨s, e⟩

/-- C75 fails: printing reads memory that has not been written. -/
theorem C75_print_fails {R : Type} (p : Mesh.PLC) (t : CTess R) : printPLC p = .ub ∧ printTess t = .ub := by
  have h : ∀ n, get (malloc (α := Char) n) 0 = .ub := fun n => by
    unfold get malloc
    cases n <;> rfl
  exact ⟨by unfold printPLC; rw [h]; rfl, by unfold printTess; rw [h]; rfl⟩

/-- A mesh with faces, boundary and convex hull on one process. -/
def onOne : Shape := { hull := true, nodes := false, boundaryNodes := false, boundaryFaces := false, faceCells := false, neighborDomains := true }

/-- Two meshes, one after the other: safe, without leaks. -/
example : Filled false [.tessellate onOne, .clear, .tessellate onOne] ∧ NoRefill false [.tessellate onOne, .clear, .tessellate onOne] := by simp [Filled, NoRefill]
example : ∃ s, life [.tessellate onOne, .clear, .tessellate onOne] = .ok s ∧ s.live = [] := by
  obtain ⟨s, e, h⟩ := C75_safe_partial [.tessellate onOne, .clear, .tessellate onOne] (by simp [Filled])
  exact ⟨s, e, h.2 (by simp [NoRefill])⟩

/-- `new`, `free`; a mesh, `clear`, `free`; a mesh, `clear`, `clear`: undefined. -/
example : life [] = .ub := C75_empty_fails [] (by simp) (by simp [Filled])
example : life [.tessellate onOne, .clear] = .ub := C75_empty_fails _ (by simp [onOne]) (by simp [Filled])
example : life [.tessellate onOne, .clear, .clear, .tessellate onOne] = .ub := C75_empty_fails _ (by simp [onOne]) (by simp [Filled])

/-- A mesh is put into an object that holds one: 13 blocks leak. -/
example : ((life [.tessellate onOne, .tessellate onOne]).bind fun s => .ok s.live.length) = .ok 13 := by decide +kernel
end Verif.CApi
