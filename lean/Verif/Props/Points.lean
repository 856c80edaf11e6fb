import Verif.Proofs.Points
import Mathlib.Tactic.Linarith
import Mathlib.Data.List.Forall2
import Mathlib.Algebra.Order.Ring.Int
/-
C19 (Morton keys) and C52 (order of points).
-/
namespace Verif.Points
open Verif

/-! ### C19 -/

/-- C19 is false by the language rules: no call of either `hashPosition` has defined behaviour, whatever the position (the last iteration shifts a 32 bit integer by 32
or more), so neither does `mortonOrderIndices` on a non-empty list. -/
theorem C19_undefined_fails (dbg : Bool) :
    (∀ p k, hashPosition2 standard dbg p ≠ .ok k) ∧ (∀ p k, hashPosition3 standard dbg p ≠ .ok k) ∧
    (∀ p ps ks, mortonOrderIndices (hashPosition2 standard dbg) (p :: ps) ≠ .ok ks) ∧
    (∀ p ps ks, mortonOrderIndices (hashPosition3 standard dbg) (p :: ps) ≠ .ok ks) := by
  have h2 : ∀ p k, hashPosition2 standard dbg p ≠ .ok k := by
    intro p k
    unfold hashPosition2
    simp only [Res.bind_eq]
    refine not_ok_bind (fun _ k => not_ok_bind (fun _ k => ?_) k) k
    intro h
    obtain ⟨R, hR, _⟩ := Res.bind_eq_ok.1 h
    exact hashLoop2_standard p.x p.y 32 0 1 0 R rfl (by omega) hR
  have h3 : ∀ p k, hashPosition3 standard dbg p ≠ .ok k := by
    intro p k
    unfold hashPosition3
    simp only [Res.bind_eq]
    refine not_ok_bind (fun _ k => not_ok_bind (fun _ k => not_ok_bind (fun _ k => ?_) k) k) k
    intro h
    obtain ⟨R, hR, _⟩ := Res.bind_eq_ok.1 h
    exact hashLoop3_standard p.x p.y p.z 32 0 1 0 R rfl (by omega) hR
  refine ⟨h2, h3, ?_, ?_⟩
  · intro p ps ks h
    rw [mortonOrderIndices, Res.bind_eq] at h
    obtain ⟨k, hk, _⟩ := Res.bind_eq_ok.1 h
    exact h2 p k hk
  · intro p ps ks h
    rw [mortonOrderIndices, Res.bind_eq] at h
    obtain ⟨k, hk, _⟩ := Res.bind_eq_ok.1 h
    exact h3 p k hk

theorem toInt_of_lt {x : Key} (h : x.toNat < 2 ^ 31) : x.toInt = (x.toNat : Int) := by
  rw [BitVec.toInt_eq_toNat_of_lt (by omega)]

theorem bit_clear {x : Key} {i : Nat} (h : x.toNat < 2 ^ i) : x.getLsbD i = false := by
  rw [← BitVec.testBit_toNat]; exact Nat.testBit_lt_two_pow h

/-- C19, on a platform with wrapping arithmetic where shifting zero gives zero, release build: for every position with non-negative coordinates the key interleaves the
low 16 bits of the two coordinates: bit `2i` is bit `i` of x and bit `2i+1` is bit `i` of y.
Partial: the property claims this without assumptions on the platform (false, `C19_undefined_fails`) and for all bits of the coordinates (`C19_wide_fails`). -/
theorem C19_interleave_partial (big : Key → Nat → Key) (hbig : ∀ n, big 0 n = 0) (p : Point2 Key) (hy : p.y.toNat < 2 ^ 31) :
    ∃ k, hashPosition2 (wrapping big) false p = .ok k ∧ ∀ i, i < 16 → k.getLsbD (2 * i) = p.x.getLsbD i ∧ k.getLsbD (2 * i + 1) = p.y.getLsbD i := by
  obtain ⟨R, hR, hR'⟩ := hashLoop2_spec hbig p.x p.y (bit_clear hy) 32 0 0 rfl
  refine ⟨R, ?_, ?_⟩
  · unfold hashPosition2
    simp only [Res.bind_eq, Res.assert_release, Res.bind_ok, Res.pure_eq]
    rw [show (1 : Key) = BitVec.ofNat 32 (2 ^ 0) from rfl, hR, Res.bind_ok]
  · intro i hi
    obtain ⟨h1, h2⟩ := sum2_bits 32 p.x.toNat p.y.toNat i
    rw [← BitVec.testBit_toNat, ← BitVec.testBit_toNat, ← BitVec.testBit_toNat, ← BitVec.testBit_toNat, hR']
    simp only [BitVec.ofNat_eq_ofNat, BitVec.toNat_ofNat, Nat.zero_mod, Nat.zero_add]
    rw [Nat.testBit_mod_two_pow, Nat.testBit_mod_two_pow, h1, h2]
    constructor
    · rw [decide_eq_true (by omega : 2 * i < 32), decide_eq_true (by omega : i < 32)]; simp
    · rw [decide_eq_true (by omega : 2 * i + 1 < 32), decide_eq_true (by omega : i < 32)]; simp

/-- Two keys with the same interleaved bits are equal. -/
theorem key_ext {k l : Key} (h : ∀ i, i < 16 → k.getLsbD (2 * i) = l.getLsbD (2 * i) ∧ k.getLsbD (2 * i + 1) = l.getLsbD (2 * i + 1)) : k = l := by
  apply BitVec.eq_of_getLsbD_eq
  intro j hj
  rcases Nat.even_or_odd' j with ⟨i, rfl | rfl⟩
  · exact (h i (by omega)).1
  · exact (h i (by omega)).2

/-- C19, same platform: in debug builds as well, positions with coordinates below `2^15` are hashed without tripping an assertion, to the same key. -/
theorem C19_debug_partial (big : Key → Nat → Key) (hbig : ∀ n, big 0 n = 0) (p : Point2 Key) (hx : p.x.toNat < 2 ^ 15) (hy : p.y.toNat < 2 ^ 15) :
    hashPosition2 (wrapping big) true p = hashPosition2 (wrapping big) false p := by
  obtain ⟨k, hk, hbits⟩ := C19_interleave_partial big hbig p (by omega)
  rw [hk]
  have hk' := hk
  unfold hashPosition2 at hk' ⊢
  simp only [Res.bind_eq, Res.assert_release, Res.bind_ok, Res.pure_eq] at hk' ⊢
  obtain ⟨R, hR, hRk⟩ := Res.bind_eq_ok.1 hk'
  simp only [Res.ok.injEq] at hRk
  subst hRk
  rw [Res.assert_true true (by rw [toInt_of_lt (by omega)]; unfold maxKey; omega), Res.bind_ok, Res.assert_true true (by rw [toInt_of_lt (by omega)]; unfold maxKey; omega),
    Res.bind_ok, hR, Res.bind_ok]
  have hlt : R.toNat < 2 ^ 30 := by
    apply Nat.lt_pow_two_of_testBit
    intro j hj
    by_cases hj' : j < 32
    · rw [BitVec.testBit_toNat]
      rcases (by omega : j = 2 * 15 ∨ j = 2 * 15 + 1) with rfl | rfl
      · rw [(hbits 15 (by omega)).1, bit_clear hx]
      · rw [(hbits 15 (by omega)).2, bit_clear hy]
    · exact Nat.testBit_lt_two_pow (Nat.lt_of_lt_of_le R.isLt (Nat.pow_le_pow_right (by omega) (by omega)))
  rw [Res.assert_true true (by rw [toInt_of_lt (by omega)]; unfold maxKey; omega), Res.bind_ok]

/-- C19, same platform: `mortonOrderIndices` on 2D positions with coordinates below `2^15` returns, in both builds, one key per point in the order of the points, and two keys
are equal exactly when the positions are. -/
theorem C19_distinct_partial (dbg : Bool) (big : Key → Nat → Key) (hbig : ∀ n, big 0 n = 0) (ps : List (Point2 Key))
    (hp : ∀ p ∈ ps, p.x.toNat < 2 ^ 15 ∧ p.y.toNat < 2 ^ 15) :
    ∃ ks, mortonOrderIndices (hashPosition2 (wrapping big) dbg) ps = .ok ks ∧ ks.length = ps.length ∧
      ∀ (i j : Nat) (p q : Point2 Key), ps[i]? = some p → ps[j]? = some q → (ks[i]? = ks[j]? ↔ p.x = q.x ∧ p.y = q.y) := by
  have key : ∃ ks, mortonOrderIndices (hashPosition2 (wrapping big) dbg) ps = .ok ks ∧
      List.Forall₂ (fun p k => ∀ i, i < 16 → k.getLsbD (2 * i) = p.x.getLsbD i ∧ k.getLsbD (2 * i + 1) = p.y.getLsbD i) ps ks := by
    induction ps with
    | nil => exact ⟨[], rfl, .nil⟩
    | cons p ps ih =>
      obtain ⟨ks, hks, hf⟩ := ih (fun q hq => hp q (by simp [hq]))
      have hpp := hp p (by simp)
      obtain ⟨k, hk, hb⟩ := C19_interleave_partial big hbig p (by omega)
      have hk' : hashPosition2 (wrapping big) dbg p = .ok k := by
        cases dbg with
        | false => exact hk
        | true => rw [C19_debug_partial big hbig p hpp.1 hpp.2]; exact hk
      exact ⟨k :: ks, by rw [mortonOrderIndices]; simp only [Res.bind_eq, hk', hks, Res.bind_ok, Res.pure_eq], .cons hb hf⟩
  obtain ⟨ks, hks, hf⟩ := key
  have hlen := hf.length_eq
  refine ⟨ks, hks, hlen.symm, ?_⟩
  intro i j p q hi hj
  obtain ⟨hil, rfl⟩ := List.getElem?_eq_some_iff.1 hi
  obtain ⟨hjl, rfl⟩ := List.getElem?_eq_some_iff.1 hj
  have hbi := (List.forall₂_iff_get.1 hf).2 i hil (by omega)
  have hbj := (List.forall₂_iff_get.1 hf).2 j hjl (by omega)
  simp only [List.get_eq_getElem] at hbi hbj
  rw [List.getElem?_eq_getElem (by omega : i < ks.length), List.getElem?_eq_getElem (by omega : j < ks.length), Option.some.injEq]
  have hpi := hp _ (List.getElem_mem hil)
  have hpj := hp _ (List.getElem_mem hjl)
  constructor
  · intro e
    rw [e] at hbi
    constructor
    · apply BitVec.eq_of_getLsbD_eq
      intro t ht
      by_cases h16 : t < 16
      · rw [← (hbi t h16).1, ← (hbj t h16).1]
      · rw [bit_clear (Nat.lt_of_lt_of_le hpi.1 (Nat.pow_le_pow_right (by omega) (by omega))), bit_clear (Nat.lt_of_lt_of_le hpj.1 (Nat.pow_le_pow_right (by omega) (by omega)))]
    · apply BitVec.eq_of_getLsbD_eq
      intro t ht
      by_cases h16 : t < 16
      · rw [← (hbi t h16).2, ← (hbj t h16).2]
      · rw [bit_clear (Nat.lt_of_lt_of_le hpi.2 (Nat.pow_le_pow_right (by omega) (by omega))), bit_clear (Nat.lt_of_lt_of_le hpj.2 (Nat.pow_le_pow_right (by omega) (by omega)))]
  · rintro ⟨e1, e2⟩
    apply key_ext
    intro t ht
    rw [(hbi t ht).1, (hbi t ht).2, (hbj t ht).1, (hbj t ht).2, e1, e2]
    exact ⟨rfl, rfl⟩

/-- C19 is false beyond 16 bits on that platform: coordinates that agree in their low 16 bits get the same key, although coordinates up to `2^30 - 1` are accepted. -/
theorem C19_wide_fails (big : Key → Nat → Key) (hbig : ∀ n, big 0 n = 0) (p q : Point2 Key) (hp : p.y.toNat < 2 ^ 31) (hq : q.y.toNat < 2 ^ 31)
    (hx : p.x.toNat % 2 ^ 16 = q.x.toNat % 2 ^ 16) (hy : p.y.toNat % 2 ^ 16 = q.y.toNat % 2 ^ 16) :
    hashPosition2 (wrapping big) false p = hashPosition2 (wrapping big) false q := by
  obtain ⟨k, hk, hb⟩ := C19_interleave_partial big hbig p hp
  obtain ⟨l, hl, hc⟩ := C19_interleave_partial big hbig q hq
  rw [hk, hl]
  congr 1
  apply key_ext
  intro i hi
  rw [(hb i hi).1, (hb i hi).2, (hc i hi).1, (hc i hi).2]
  have key : ∀ a b : Key, a.toNat % 2 ^ 16 = b.toNat % 2 ^ 16 → a.getLsbD i = b.getLsbD i := by
    intro a b hab
    have h1 := Nat.testBit_mod_two_pow a.toNat 16 i
    have h2 := Nat.testBit_mod_two_pow b.toNat 16 i
    rw [hab, h2] at h1
    simp only [hi, decide_true, Bool.true_and] at h1
    rw [← BitVec.testBit_toNat, ← BitVec.testBit_toNat, h1]
  exact ⟨key _ _ hx, key _ _ hy⟩

/-- C19 is false in 3D on that platform, in both builds: the positions `(2a, 0, 0)` and `(0, 0, a)` always get the same key (the bits are interleaved with stride two
instead of three). -/
theorem C19_3d_fails (dbg : Bool) (big : Key → Nat → Key) (hbig : ∀ n, big 0 n = 0) (a : Nat) (ha : a < 2 ^ 29) (i j : Nat) :
    hashPosition3 (wrapping big) dbg ⟨BitVec.ofNat 32 (2 * a), 0, 0, i⟩ = hashPosition3 (wrapping big) dbg ⟨0, 0, BitVec.ofNat 32 a, j⟩ := by
  have ha1 : (BitVec.ofNat 32 a : Key).toNat = a := by rw [BitVec.toNat_ofNat, Nat.mod_eq_of_lt (by omega)]
  have ha2 : (BitVec.ofNat 32 (2 * a) : Key).toNat = 2 * a := by rw [BitVec.toNat_ofNat, Nat.mod_eq_of_lt (by omega)]
  obtain ⟨R, hR, hR'⟩ := hashLoop3_spec hbig (BitVec.ofNat 32 (2 * a)) 0 0 (by decide) (by decide) (by decide) 32 0 0 rfl
  obtain ⟨S, hS, hS'⟩ := hashLoop3_spec hbig 0 0 (BitVec.ofNat 32 a) (by decide) (bit_clear (by omega)) (bit_clear (by omega)) 32 0 0 rfl
  have hRS : R = S := by
    apply BitVec.eq_of_toNat_eq
    rw [hR', hS', ha1, ha2]
    have hb : bit a 31 = 0 := by unfold bit; rw [Nat.testBit_lt_two_pow (by omega)]; rfl
    have := sum3_collide a 31 hb
    simp only [BitVec.ofNat_eq_ofNat, BitVec.toNat_ofNat, Nat.zero_mod]
    rw [this]
  subst hRS
  have i1 : (BitVec.ofNat 32 (2 * a) : Key).toInt ≤ maxKey := by rw [toInt_of_lt (by rw [ha2]; omega), ha2]; unfold maxKey; omega
  have i2 : (BitVec.ofNat 32 a : Key).toInt ≤ maxKey := by rw [toInt_of_lt (by rw [ha1]; omega), ha1]; unfold maxKey; omega
  have i0 : (0 : Key).toInt ≤ maxKey := by decide
  unfold hashPosition3
  simp only [Res.bind_eq]
  rw [Res.assert_true dbg i1, Res.assert_true dbg i2, Res.assert_true dbg i0]
  simp only [Res.bind_ok]
  rw [show (1 : Key) = BitVec.ofNat 32 (2 ^ 0) from rfl, hR, hS]

/-! Non-vacuity: on a platform whose big shifts reduce the count modulo 32 (x86), three positions and their keys; the accepted colliding positions. -/

example : (∀ n, (fun (v : Key) (n : Nat) => v <<< (n % 32)) 0 n = 0) := by intro n; simp
example : mortonOrderIndices (hashPosition2 (wrapping fun v n => v <<< (n % 32)) true) [⟨5, 3, 0⟩, ⟨3, 5, 1⟩, ⟨5, 3, 2⟩] = .ok [27, 39, 27] := by decide +kernel
example : hashPosition2 (wrapping fun v n => v <<< (n % 32)) true ⟨65536, 0, 0⟩ = .ok 0 := by decide +kernel
example : hashPosition3 (wrapping fun v n => v <<< (n % 32)) true ⟨2, 0, 0, 0⟩ = .ok 4 := by decide +kernel

/-! ### C52 -/

/-- What an ordered container needs of its comparison: irreflexive, transitive, and incomparability is transitive. -/
structure StrictWeakOrder {P : Type} (lt : P → P → Bool) : Prop where
  irrefl : ∀ a, lt a a = false
  trans : ∀ a b c, lt a b = true → lt b c = true → lt a c = true
  incomp : ∀ a b c, lt a b = false → lt b a = false → lt b c = false → lt c b = false → lt a c = false ∧ lt c a = false

theorem Point2.lt_iff {C : Type} [LinearOrder C] (a b : Point2 C) : a.lt b = true ↔ a.x < b.x ∨ (a.x = b.x ∧ a.y < b.y) := by
  unfold Point2.lt; split
  · rename_i h; simp [h]
  · rename_i h; split
    · rename_i h'; simp [h']
    · rename_i h'; simp [h, h']

theorem Point3.lt_iff {C : Type} [LinearOrder C] (a b : Point3 C) :
    a.lt b = true ↔ a.x < b.x ∨ (a.x = b.x ∧ a.y < b.y) ∨ (a.x = b.x ∧ a.y = b.y ∧ a.z < b.z) := by
  unfold Point3.lt; split
  · rename_i h; simp [h]
  · rename_i h; split
    · rename_i h'; simp [h']
    · rename_i h'; split
      · rename_i h''; simp [h'']
      · rename_i h''; simp only [h, h', h'', or_self, Bool.false_eq_true]

/-- C52. `Point2::operator<` is a strict total order on positions, compatible with `==`: exactly one of `a < b`, `a == b`, `b < a` holds; it is transitive; and neither
comparison looks at the index. -/
theorem C52_point2 {C : Type} [LinearOrder C] :
    StrictWeakOrder (Point2.lt (C := C)) ∧
    (∀ a b : Point2 C, (a.lt b = true ∧ a.eq b = false ∧ b.lt a = false) ∨ (a.lt b = false ∧ a.eq b = true ∧ b.lt a = false) ∨ (a.lt b = false ∧ a.eq b = false ∧ b.lt a = true)) ∧
    (∀ a b : Point2 C, a.eq b = true ↔ a.x = b.x ∧ a.y = b.y) ∧
    (∀ (a b : Point2 C) (i j : Nat), Point2.lt { a with index := i } { b with index := j } = a.lt b) := by
  have tri : ∀ a b : Point2 C, (a.lt b = true ∧ a.eq b = false ∧ b.lt a = false) ∨ (a.lt b = false ∧ a.eq b = true ∧ b.lt a = false) ∨
      (a.lt b = false ∧ a.eq b = false ∧ b.lt a = true) := by
    intro a b
    simp only [← Bool.not_eq_true, Point2.lt_iff, Point2.eq, decide_eq_true_eq]
    rcases lt_trichotomy a.x b.x with h | h | h
    · left; simp [h, h.ne, h.not_gt, h.ne']
    · rcases lt_trichotomy a.y b.y with h' | h' | h'
      · left; simp [h, h', h'.ne, h'.not_gt]
      · right; left; simp [h, h']
      · right; right; simp [h, h', h'.ne', h'.not_gt]
    · right; right; simp [h, h.ne, h.not_gt, h.ne']
  have trans : ∀ a b c : Point2 C, a.lt b = true → b.lt c = true → a.lt c = true := by
    intro a b c
    simp only [Point2.lt_iff]
    rintro (h | ⟨h1, h2⟩) (g | ⟨g1, g2⟩)
    · exact Or.inl (h.trans g)
    · exact Or.inl (g1 ▸ h)
    · exact Or.inl (h1 ▸ g)
    · exact Or.inr ⟨h1.trans g1, h2.trans g2⟩
  have heq : ∀ a b : Point2 C, a.eq b = true ↔ a.x = b.x ∧ a.y = b.y := by intro a b; simp [Point2.eq]
  refine ⟨⟨?_, trans, ?_⟩, tri, heq, fun a b i j => rfl⟩
  · intro a; simp only [← Bool.not_eq_true, Point2.lt_iff]; simp
  · intro a b c h1 h2 h3 h4
    have e1 : a.eq b = true := by rcases tri a b with h | h | h <;> simp_all
    have e2 : b.eq c = true := by rcases tri b c with h | h | h <;> simp_all
    have e3 : a.eq c = true := (heq a c).2 ⟨((heq a b).1 e1).1.trans ((heq b c).1 e2).1, ((heq a b).1 e1).2.trans ((heq b c).1 e2).2⟩
    rcases tri a c with h | h | h <;> simp_all

/-- C52, the same for `Point3`. -/
theorem C52_point3 {C : Type} [LinearOrder C] :
    StrictWeakOrder (Point3.lt (C := C)) ∧
    (∀ a b : Point3 C, (a.lt b = true ∧ a.eq b = false ∧ b.lt a = false) ∨ (a.lt b = false ∧ a.eq b = true ∧ b.lt a = false) ∨ (a.lt b = false ∧ a.eq b = false ∧ b.lt a = true)) ∧
    (∀ a b : Point3 C, a.eq b = true ↔ a.x = b.x ∧ a.y = b.y ∧ a.z = b.z) ∧
    (∀ (a b : Point3 C) (i j : Nat), Point3.lt { a with index := i } { b with index := j } = a.lt b) := by
  have tri : ∀ a b : Point3 C, (a.lt b = true ∧ a.eq b = false ∧ b.lt a = false) ∨ (a.lt b = false ∧ a.eq b = true ∧ b.lt a = false) ∨
      (a.lt b = false ∧ a.eq b = false ∧ b.lt a = true) := by
    intro a b
    simp only [← Bool.not_eq_true, Point3.lt_iff, Point3.eq, decide_eq_true_eq]
    rcases lt_trichotomy a.x b.x with h | h | h
    · left; simp [h, h.ne, h.not_gt, h.ne']
    · rcases lt_trichotomy a.y b.y with h' | h' | h'
      · left; simp [h, h', h'.ne, h'.not_gt, h'.ne']
      · rcases lt_trichotomy a.z b.z with h'' | h'' | h''
        · left; simp [h, h', h'', h''.ne, h''.not_gt]
        · right; left; simp [h, h', h'']
        · right; right; simp [h, h', h'', h''.ne', h''.not_gt]
      · right; right; simp [h, h', h'.ne, h'.not_gt, h'.ne']
    · right; right; simp [h, h.ne, h.not_gt, h.ne']
  have trans : ∀ a b c : Point3 C, a.lt b = true → b.lt c = true → a.lt c = true := by
    intro a b c
    simp only [Point3.lt_iff]
    rintro (h | ⟨h1, h2⟩ | ⟨h1, h2, h3⟩) (g | ⟨g1, g2⟩ | ⟨g1, g2, g3⟩)
    · exact Or.inl (h.trans g)
    · exact Or.inl (g1 ▸ h)
    · exact Or.inl (g1 ▸ h)
    · exact Or.inl (h1 ▸ g)
    · exact Or.inr (Or.inl ⟨h1.trans g1, h2.trans g2⟩)
    · exact Or.inr (Or.inl ⟨h1.trans g1, g2 ▸ h2⟩)
    · exact Or.inl (h1 ▸ g)
    · exact Or.inr (Or.inl ⟨h1.trans g1, h2 ▸ g2⟩)
    · exact Or.inr (Or.inr ⟨h1.trans g1, h2.trans g2, h3.trans g3⟩)
  have heq : ∀ a b : Point3 C, a.eq b = true ↔ a.x = b.x ∧ a.y = b.y ∧ a.z = b.z := by intro a b; simp [Point3.eq]
  refine ⟨⟨?_, trans, ?_⟩, tri, heq, fun a b i j => rfl⟩
  · intro a; simp only [← Bool.not_eq_true, Point3.lt_iff]; simp
  · intro a b c h1 h2 h3 h4
    have e1 : a.eq b = true := by rcases tri a b with h | h | h <;> simp_all
    have e2 : b.eq c = true := by rcases tri b c with h | h | h <;> simp_all
    have f1 := (heq a b).1 e1
    have f2 := (heq b c).1 e2
    have e3 : a.eq c = true := (heq a c).2 ⟨f1.1.trans f2.1, f1.2.1.trans f2.2.1, f1.2.2.trans f2.2.2⟩
    rcases tri a c with h | h | h <;> simp_all

section
variable {C : Type} [CommRing C] [LinearOrder C] [IsStrictOrderedRing C]

omit [IsStrictOrderedRing C] in
theorem fuzzy2_iff (f : C) (a b : Point2 C) : fuzzy2 f a b = true ↔ b.x - a.x > f ∨ (|b.x - a.x| ≤ f ∧ b.y - a.y > f) := by
  unfold fuzzy2; split
  · rename_i h; simp [h]
  · rename_i h; split
    · rename_i h'; simp [h']
    · rename_i h'; simp only [h, h', or_self, Bool.false_eq_true]

omit [IsStrictOrderedRing C] in
theorem fuzzy3_iff (f : C) (a b : Point3 C) : fuzzy3 f a b = true ↔
    b.x - a.x > f ∨ (|b.x - a.x| ≤ f ∧ b.y - a.y > f) ∨ (|b.x - a.x| ≤ f ∧ |b.y - a.y| ≤ f ∧ b.z - a.z > f) := by
  unfold fuzzy3; split
  · rename_i h; simp [h]
  · rename_i h; split
    · rename_i h'; simp [h']
    · rename_i h'; split
      · rename_i h''; simp [h'']
      · rename_i h''; simp only [h, h', h'', or_self, Bool.false_eq_true]

/-- C52, the fuzzy comparator with zero fuzz is the exact order, in 2D and 3D. Partial: the property claims a strict weak order for every fuzz; that is false for
every other value (`C52_fuzzy_fails`). -/
theorem C52_fuzzy_partial :
    (∀ a b : Point2 C, fuzzy2 0 a b = a.lt b) ∧ (∀ a b : Point3 C, fuzzy3 0 a b = a.lt b) ∧ StrictWeakOrder (fuzzy2 (0 : C)) ∧ StrictWeakOrder (fuzzy3 (0 : C)) := by
  have h2 : ∀ a b : Point2 C, fuzzy2 0 a b = a.lt b := by
    intro a b
    rw [Bool.eq_iff_iff, fuzzy2_iff, Point2.lt_iff, abs_nonpos_iff, sub_eq_zero, gt_iff_lt, gt_iff_lt, sub_pos, sub_pos, eq_comm (a := b.x)]
  have h3 : ∀ a b : Point3 C, fuzzy3 0 a b = a.lt b := by
    intro a b
    rw [Bool.eq_iff_iff, fuzzy3_iff, Point3.lt_iff, abs_nonpos_iff, sub_eq_zero, abs_nonpos_iff, sub_eq_zero, gt_iff_lt, gt_iff_lt, gt_iff_lt, sub_pos, sub_pos, sub_pos,
      eq_comm (a := b.x), eq_comm (a := b.y)]
  refine ⟨h2, h3, ?_, ?_⟩
  · rw [show fuzzy2 (0 : C) = Point2.lt from funext fun a => funext fun b => h2 a b]; exact C52_point2.1
  · rw [show fuzzy3 (0 : C) = Point3.lt from funext fun a => funext fun b => h3 a b]; exact C52_point3.1

/-- C52 is false of the fuzzy comparator: for every positive fuzz there is a cycle of three points each less than the next (2D and 3D), and for every negative fuzz a point
is less than itself; so it is a strict weak order only for zero fuzz. -/
theorem C52_fuzzy_fails (f : C) (hf : f ≠ 0) :
    ¬ StrictWeakOrder (fuzzy2 f) ∧ ¬ StrictWeakOrder (fuzzy3 f) ∧
    (0 < f → ∃ a b c : Point2 C, fuzzy2 f a b = true ∧ fuzzy2 f b c = true ∧ fuzzy2 f c a = true) ∧
    (0 < f → ∃ a b c : Point3 C, fuzzy3 f a b = true ∧ fuzzy3 f b c = true ∧ fuzzy3 f c a = true) := by
  have c2 : 0 < f → ∃ a b c : Point2 C, fuzzy2 f a b = true ∧ fuzzy2 f b c = true ∧ fuzzy2 f c a = true := by
    intro h
    refine ⟨⟨0, 0, 0⟩, ⟨-f, 2 * f, 0⟩, ⟨-(2 * f), 4 * f, 0⟩, ?_, ?_, ?_⟩
    · rw [fuzzy2_iff]; right; exact ⟨by simp [abs_of_pos h], by simp; linarith⟩
    · rw [fuzzy2_iff]; right
      refine ⟨?_, by simp; linarith⟩
      rw [show -(2 * f) - -f = -f by ring, abs_neg, abs_of_pos h]
    · rw [fuzzy2_iff]; left; simp; linarith
  have c3 : 0 < f → ∃ a b c : Point3 C, fuzzy3 f a b = true ∧ fuzzy3 f b c = true ∧ fuzzy3 f c a = true := by
    intro h
    refine ⟨⟨0, 0, 0, 0⟩, ⟨-f, 2 * f, 0, 0⟩, ⟨-(2 * f), 4 * f, 0, 0⟩, ?_, ?_, ?_⟩
    · rw [fuzzy3_iff]; right; left; exact ⟨by simp [abs_of_pos h], by simp; linarith⟩
    · rw [fuzzy3_iff]; right; left
      refine ⟨?_, by simp; linarith⟩
      rw [show -(2 * f) - -f = -f by ring, abs_neg, abs_of_pos h]
    · rw [fuzzy3_iff]; left; simp; linarith
  refine ⟨?_, ?_, c2, c3⟩
  · intro h
    rcases lt_or_gt_of_ne hf with hn | hp
    · have := h.irrefl ⟨0, 0, 0⟩
      rw [← Bool.not_eq_true, fuzzy2_iff] at this
      simp at this; exact absurd hn (not_lt.2 this)
    · obtain ⟨a, b, c, h1, h2, h3⟩ := c2 hp
      have := h.trans a c a (h.trans a b c h1 h2) h3
      rw [h.irrefl] at this; simp at this
  · intro h
    rcases lt_or_gt_of_ne hf with hn | hp
    · have := h.irrefl ⟨0, 0, 0, 0⟩
      rw [← Bool.not_eq_true, fuzzy3_iff] at this
      simp at this; exact absurd hn (not_lt.2 this)
    · obtain ⟨a, b, c, h1, h2, h3⟩ := c3 hp
      have := h.trans a c a (h.trans a b c h1 h2) h3
      rw [h.irrefl] at this; simp at this

end

/-! Non-vacuity: integer coordinates with fuzz 1 instantiate the theorem. -/
example : ∃ a b c : Point2 Int, fuzzy2 1 a b = true ∧ fuzzy2 1 b c = true ∧ fuzzy2 1 c a = true := (C52_fuzzy_fails (1 : Int) (by decide)).2.2.1 (by decide)
example : (⟨1, 5, 0⟩ : Point2 Int).lt ⟨1, 6, 9⟩ = true := by decide

end Verif.Points
