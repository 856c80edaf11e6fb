import Verif.Model.Points
import Mathlib.Tactic.Common
import Mathlib.Tactic.Ring
import Mathlib.Data.Nat.Bitwise
/- Morton keys: the loop as a sum of spread bits. -/
namespace Verif.Points
open Verif

/-- Bit `i` as a number. -/
def bit (x i : Nat) : Nat := (x.testBit i).toNat

/-- What `n` iterations of the 2D loop add, from iteration `i` on. -/
def sum2 (x y : Nat) : Nat → Nat → Nat
  | 0, _ => 0
  | n + 1, i => bit x i * 4 ^ i + bit y i * (2 * 4 ^ i) + sum2 x y n (i + 1)

/-- What `n` iterations of the 3D loop add, from iteration `i` on. -/
def sum3 (x y z : Nat) : Nat → Nat → Nat
  | 0, _ => 0
  | n + 1, i => bit x i * 4 ^ i + bit y i * (2 * 4 ^ i) + bit z i * (4 * 4 ^ i) + sum3 x y z n (i + 1)

theorem bit_half (x i : Nat) : bit (x / 2) i = bit x (i + 1) := by unfold bit; rw [Nat.testBit_succ]

theorem bit_zero_eq (x : Nat) : bit x 0 = x % 2 := by
  unfold bit; rw [Nat.testBit_zero]; rcases Nat.mod_two_eq_zero_or_one x with h | h <;> simp [h]

theorem sum2_shift (x y n i : Nat) : sum2 x y n (i + 1) = 4 * sum2 (x / 2) (y / 2) n i := by
  induction n generalizing i with
  | zero => rfl
  | succ n ih => rw [sum2, sum2, ih, bit_half, bit_half]; ring

theorem sum2_succ (x y n : Nat) : sum2 x y (n + 1) 0 = x % 2 + 2 * (y % 2) + 4 * sum2 (x / 2) (y / 2) n 0 := by
  rw [sum2, sum2_shift, bit_zero_eq, bit_zero_eq]; ring

theorem sum2_bits (n : Nat) : ∀ (x y i : Nat), (sum2 x y n 0).testBit (2 * i) = (decide (i < n) && x.testBit i) ∧
    (sum2 x y n 0).testBit (2 * i + 1) = (decide (i < n) && y.testBit i) := by
  induction n with
  | zero => intro x y i; simp [sum2]
  | succ n ih =>
    intro x y i
    rw [sum2_succ]
    have hx : x % 2 < 2 := Nat.mod_lt _ (by omega)
    have hy : y % 2 < 2 := Nat.mod_lt _ (by omega)
    cases i with
    | zero =>
      constructor
      · rw [Nat.testBit_zero, Nat.testBit_zero]
        simp only [Nat.zero_lt_succ, decide_true, Bool.true_and]
        congr 1
        rw [eq_iff_iff]
        omega
      · simp only [Nat.mul_zero, Nat.zero_add]
        rw [Nat.testBit_succ, Nat.testBit_zero, Nat.testBit_zero]
        simp only [Nat.zero_lt_succ, decide_true, Bool.true_and]
        congr 1
        rw [eq_iff_iff]
        omega
    | succ i =>
      obtain ⟨h1, h2⟩ := ih (x / 2) (y / 2) i
      have e : (x % 2 + 2 * (y % 2) + 4 * sum2 (x / 2) (y / 2) n 0) / 2 / 2 = sum2 (x / 2) (y / 2) n 0 := by omega
      constructor
      · rw [show 2 * (i + 1) = 2 * i + 1 + 1 by ring, Nat.testBit_succ, Nat.testBit_succ, e, h1, Nat.testBit_succ]; simp
      · rw [show 2 * (i + 1) + 1 = 2 * i + 1 + 1 + 1 by ring, Nat.testBit_succ, Nat.testBit_succ, e, h2, Nat.testBit_succ]; simp

/-- Shift in the wrapping arithmetic of one masked bit. -/
theorem shl_bit {big : Key → Nat → Key} (hbig : ∀ n, big 0 n = 0) (x : Key) {i d : Nat} (hi : i < 32) (hd : d < 32 ∨ x.getLsbD i = false) :
    ∃ r, (wrapping big).shl (x &&& BitVec.ofNat 32 (2 ^ i)) d = .ok r ∧ r.toNat = (bit x.toNat i * 2 ^ i * 2 ^ d) % 2 ^ 32 := by
  have hand : (x &&& BitVec.ofNat 32 (2 ^ i)).toNat = bit x.toNat i * 2 ^ i := by
    rw [BitVec.toNat_and, BitVec.toNat_ofNat, Nat.mod_eq_of_lt (Nat.pow_lt_pow_right (by omega) hi), Nat.and_two_pow]; rfl
  refine ⟨_, rfl, ?_⟩
  by_cases hlt : d < 32
  · rw [if_pos hlt, BitVec.toNat_shiftLeft, hand, Nat.shiftLeft_eq]
  · rw [if_neg hlt]
    have h0 : bit x.toNat i = 0 := by
      rcases hd with h | h
      · exact absurd h hlt
      · unfold bit
        rw [BitVec.testBit_toNat, h]; rfl
    have : x &&& BitVec.ofNat 32 (2 ^ i) = 0 := by
      apply BitVec.eq_of_toNat_eq; rw [hand, h0]; simp
    rw [this, hbig, h0]; simp

theorem mask_step {big : Key → Nat → Key} (i : Nat) : (wrapping big).shl (BitVec.ofNat 32 (2 ^ i)) 1 = .ok (BitVec.ofNat 32 (2 ^ (i + 1))) := by
  show Res.ok (if 1 < 32 then _ else _) = _
  rw [if_pos (by omega)]
  congr 1
  apply BitVec.eq_of_toNat_eq
  rw [BitVec.toNat_shiftLeft, BitVec.toNat_ofNat, BitVec.toNat_ofNat, Nat.shiftLeft_eq, Nat.mod_mul_mod, ← Nat.pow_add]

theorem pow4 (i : Nat) : 2 ^ i * 2 ^ i = 4 ^ i := by rw [← Nat.mul_pow]
theorem hashLoop2_spec {big : Key → Nat → Key} (hbig : ∀ n, big 0 n = 0) (x y : Key) (hy : y.getLsbD 31 = false) :
    ∀ (n i : Nat) (r : Key), i + n = 32 →
      ∃ R, hashLoop2 (wrapping big) x y n i (BitVec.ofNat 32 (2 ^ i)) r = .ok R ∧ R.toNat = (r.toNat + sum2 x.toNat y.toNat n i) % 2 ^ 32
  | 0, i, r, _ => ⟨r, rfl, by rw [sum2, Nat.add_zero, Nat.mod_eq_of_lt r.isLt]⟩
  | n + 1, i, r, h => by
    obtain ⟨a, ha, ha'⟩ := shl_bit hbig x (i := i) (d := i) (by omega) (Or.inl (by omega))
    obtain ⟨b, hb, hb'⟩ := shl_bit hbig y (i := i) (d := i + 1) (by omega) (by
      by_cases h31 : i = 31
      · subst h31; exact Or.inr hy
      · exact Or.inl (by omega))
    obtain ⟨R, hR, hR'⟩ := hashLoop2_spec hbig x y hy n (i + 1) (r + (a + b)) (by omega)
    refine ⟨R, ?_, ?_⟩
    · rw [hashLoop2]
      simp only [Res.bind_eq, ha, hb, Res.bind_ok, mask_step]
      exact hR
    · rw [hR', sum2, BitVec.toNat_add, BitVec.toNat_add, ha', hb', show bit x.toNat i * 2 ^ i * 2 ^ i = bit x.toNat i * 4 ^ i by rw [Nat.mul_assoc, pow4],
        show bit y.toNat i * 2 ^ i * 2 ^ (i + 1) = bit y.toNat i * (2 * 4 ^ i) by rw [← pow4]; ring]
      omega

theorem hashLoop3_spec {big : Key → Nat → Key} (hbig : ∀ n, big 0 n = 0) (x y z : Key) (hy : y.getLsbD 31 = false) (hz : z.getLsbD 30 = false) (hz' : z.getLsbD 31 = false) :
    ∀ (n i : Nat) (r : Key), i + n = 32 →
      ∃ R, hashLoop3 (wrapping big) x y z n i (BitVec.ofNat 32 (2 ^ i)) r = .ok R ∧ R.toNat = (r.toNat + sum3 x.toNat y.toNat z.toNat n i) % 2 ^ 32
  | 0, i, r, _ => ⟨r, rfl, by rw [sum3, Nat.add_zero, Nat.mod_eq_of_lt r.isLt]⟩
  | n + 1, i, r, h => by
    obtain ⟨a, ha, ha'⟩ := shl_bit hbig x (i := i) (d := i) (by omega) (Or.inl (by omega))
    obtain ⟨b, hb, hb'⟩ := shl_bit hbig y (i := i) (d := i + 1) (by omega) (by
      by_cases h31 : i = 31
      · subst h31; exact Or.inr hy
      · exact Or.inl (by omega))
    obtain ⟨c, hc, hc'⟩ := shl_bit hbig z (i := i) (d := i + 2) (by omega) (by
      by_cases h31 : i = 31
      · subst h31; exact Or.inr hz'
      · by_cases h30 : i = 30
        · subst h30; exact Or.inr hz
        · exact Or.inl (by omega))
    obtain ⟨R, hR, hR'⟩ := hashLoop3_spec hbig x y z hy hz hz' n (i + 1) (r + (a + b + c)) (by omega)
    refine ⟨R, ?_, ?_⟩
    · rw [hashLoop3]
      simp only [Res.bind_eq, ha, hb, hc, Res.bind_ok, mask_step]
      exact hR
    · rw [hR', sum3, BitVec.toNat_add, BitVec.toNat_add, BitVec.toNat_add, ha', hb', hc', show bit x.toNat i * 2 ^ i * 2 ^ i = bit x.toNat i * 4 ^ i by rw [Nat.mul_assoc, pow4],
        show bit y.toNat i * 2 ^ i * 2 ^ (i + 1) = bit y.toNat i * (2 * 4 ^ i) by rw [← pow4]; ring,
        show bit z.toNat i * 2 ^ i * 2 ^ (i + 2) = bit z.toNat i * (4 * 4 ^ i) by rw [← pow4]; ring]
      omega

theorem bit_zero_left (i : Nat) : bit 0 i = 0 := by simp [bit]

theorem sum3_x (a : Nat) : ∀ (n i : Nat), sum3 (2 * a) 0 0 n (i + 1) = sum3 0 0 a n i
  | 0, i => rfl
  | n + 1, i => by
    rw [sum3, sum3, ← bit_half, show 2 * a / 2 = a by omega, bit_zero_left, bit_zero_left, sum3_x a n (i + 1), Nat.pow_succ]
    ring

theorem sum3_last (a : Nat) : ∀ (n i : Nat), bit a (i + n) = 0 → sum3 0 0 a (n + 1) i = sum3 0 0 a n i
  | 0, i, h => by
    rw [Nat.add_zero] at h
    rw [sum3, sum3, sum3, bit_zero_left, h]; simp
  | n + 1, i, h => by
    rw [sum3, sum3_last a n (i + 1) (by rw [← h]; congr 1; omega)]
    rfl

theorem sum3_collide (a n : Nat) (h : bit a n = 0) : sum3 (2 * a) 0 0 (n + 1) 0 = sum3 0 0 a (n + 1) 0 := by
  rw [sum3_last a n 0 (by rw [Nat.zero_add]; exact h), ← sum3_x, sum3, bit_zero_eq, bit_zero_left, show 2 * a % 2 = 0 by omega]
  simp

/-! ### the loop under the language rules -/

theorem standard_shl_big (v : Key) : standard.shl v 32 = .ub := by
  unfold standard; simp only; rw [if_neg (by omega)]

theorem not_ok_bind {α β : Type} {r : Res α} {f : α → Res β} (h : ∀ a b, f a ≠ .ok b) (b : β) : r.bind f ≠ .ok b := by
  cases r with
  | ok a => rw [Res.bind_ok]; exact h a b
  | abort => rw [Res.bind_abort]; simp
  | ub => rw [Res.bind_ub]; simp

theorem hashLoop2_standard (x y : Key) : ∀ (n i : Nat) (m r R : Key), i + n = 32 → 0 < n → hashLoop2 standard x y n i m r ≠ .ok R
  | n + 1, i, m, r, R, h, _ => by
    rw [hashLoop2]
    simp only [Res.bind_eq]
    refine not_ok_bind (fun a R => ?_) R
    by_cases hn : n = 0
    · have : i + 1 = 32 := by omega
      rw [this, standard_shl_big, Res.bind_ub]; simp
    · refine not_ok_bind (fun b R => not_ok_bind (fun s R => not_ok_bind (fun r' R => not_ok_bind (fun m' R => ?_) R) R) R) R
      exact hashLoop2_standard x y n (i + 1) m' r' R (by omega) (by omega)

theorem hashLoop3_standard (x y z : Key) : ∀ (n i : Nat) (m r R : Key), i + n = 32 → 0 < n → hashLoop3 standard x y z n i m r ≠ .ok R
  | n + 1, i, m, r, R, h, _ => by
    rw [hashLoop3]
    simp only [Res.bind_eq]
    refine not_ok_bind (fun a R => ?_) R
    by_cases hn : n = 0
    · have : i + 1 = 32 := by omega
      rw [this, standard_shl_big, Res.bind_ub]; simp
    · refine not_ok_bind (fun b R => not_ok_bind (fun c R => not_ok_bind (fun s R => not_ok_bind (fun s' R => not_ok_bind (fun r' R => not_ok_bind (fun m' R => ?_) R) R) R) R) R) R
      exact hashLoop3_standard x y z n (i + 1) m' r' R (by omega) (by omega)

end Verif.Points
