import Verif.Proofs.FloatScale
import Verif.Proofs.FloatEstimate
/- The adaptive parts of `orient3d`, `incircle` and `insphere`. -/
namespace Verif.Float
open Verif Verif.Pred

variable {p : ℕ} {rnd : ℚ → ℚ}

theorem ok_bind' {α β : Type} (x : α) (f : α → Res β) : (Res.ok x).bind f = f x := rfl

theorem sumZeroed_full {n m : ℕ} {e f : List ℚ} (h : n ≤ e.length ∨ m ≤ f.length) : sumZeroed rnd n m e f = .ub := by
  have : ((zeroed n e).bind fun _ => zeroed m f) = .ub := by
    unfold zeroed
    by_cases h1 : e.length < n
    · rw [if_pos h1, if_neg (by omega)]; rfl
    · rw [if_neg h1]; rfl
  rw [sumZeroed, this, fastExpansionSum_ub]

theorem sumZeroed_eq {n m : ℕ} {e f : List ℚ} (h1 : e.length < n) (h2 : f.length < m) : sumZeroed rnd n m e f = fastExpansionSum rnd (.ok 0) e f := by
  simp [sumZeroed, zeroed, h1, h2]

/-- The determinant of the rounded differences up to the second test: undefined behaviour if one of the arrays is full, and otherwise an expansion of it. -/
theorem det_expansion (hr : ToEven p rnd) (hp : 25 ≤ p) {st : Statics} (hst : st.splitter = 2 ^ ((p + 1) / 2) + 1) {bc ca ab : List ℚ} {adz bdz cdz : ℚ} (hbc : Apart p bc) (hca : Apart p ca) (hab : Apart p ab)
    (lbc : bc.length = 4) (lca : ca.length = 4) (lab : ab.length = 4) (fa : IsFloat p adz) (fb : IsFloat p bdz) (fc : IsFloat p cdz) :
    ∃ adet bdet cdet, scaleExpansion rnd st adz bc = .ok adet ∧ scaleExpansion rnd st bdz ca = .ok bdet ∧ scaleExpansion rnd st cdz ab = .ok cdet ∧
      ((adet.length = 8 ∨ bdet.length = 8) ∧ sumZeroed rnd 8 8 adet bdet = .ub ∨
        ∃ abdet, sumZeroed rnd 8 8 adet bdet = .ok abdet ∧ abdet.length ≤ adet.length + bdet.length ∧
          ((16 ≤ abdet.length ∨ cdet.length = 8) ∧ sumZeroed rnd 16 8 abdet cdet = .ub ∨
            ∃ fin, sumZeroed rnd 16 8 abdet cdet = .ok fin ∧ Expansion p fin ∧ fin.length ≤ 24 ∧ fin.sum = adz * bc.sum + bdz * ca.sum + cdz * ab.sum)) := by
  have hn := hr.toToNearest
  have ne : ∀ {l : List ℚ}, l.length = 4 → l ≠ [] := fun h e => by rw [e] at h; cases h
  obtain ⟨adet, a1, a2, a3, a4, a5, a6⟩ := scaleExpansion_ok hr (by omega) hst fa (ne lbc) hbc
  obtain ⟨bdet, b1, b2, b3, b4, b5, b6⟩ := scaleExpansion_ok hr (by omega) hst fb (ne lca) hca
  obtain ⟨cdet, c1, c2, c3, c4, c5, c6⟩ := scaleExpansion_ok hr (by omega) hst fc (ne lab) hab
  refine ⟨adet, bdet, cdet, a1, b1, c1, ?_⟩
  rw [lbc] at a6
  rw [lca] at b6
  rw [lab] at c6
  by_cases hfull : adet.length = 8 ∨ bdet.length = 8
  · exact Or.inl ⟨hfull, sumZeroed_full (by omega)⟩
  right
  push Not at hfull
  obtain ⟨abdet, d1, d2, d3, d4⟩ := fastExpansionSum_long hn hp 0 a4 a3.float (a3.far.imp fun h => h.below) b3 b4 (by omega) (by omega)
  refine ⟨abdet, by rw [sumZeroed_eq (by omega) (by omega)]; exact d1, d4, ?_⟩
  by_cases hc : cdet.length = 8
  · exact Or.inl ⟨Or.inr hc, sumZeroed_full (by omega)⟩
  right
  obtain ⟨fin, e1, e2, e3, e4⟩ := fastExpansionSum_long hn hp 0 d3.nonempty d3.float d3.below c3 c4 (by omega) (by omega)
  exact ⟨fin, by rw [sumZeroed_eq (by omega) (by omega)]; exact e1, e3, by omega, by rw [e2, d2, a2, b2, c2]⟩

/-- The three products of `orient3dadapt`. -/
def adetOf (rnd : ℚ → ℚ) (st : Statics) (a b c d : Pt3) : Res (List ℚ) :=
  scaleExpansion rnd st (rnd (a.2.2 - d.2.2)) (diffOfProducts rnd st (rnd (b.1 - d.1)) (rnd (c.2.1 - d.2.1)) (rnd (c.1 - d.1)) (rnd (b.2.1 - d.2.1)))

theorem orient3dadapt_exact (hr : ToEven p rnd) (hp : 27 ≤ p) {st : Statics} (hst : st.splitter = 2 ^ ((p + 1) / 2) + 1) (stB : StaticsB) (rest : List ℚ → Res ℚ) {a b c d : Pt3}
    (fa : FloatPt3 p a) (fb : FloatPt3 p b) (fc : FloatPt3 p c) (fd : FloatPt3 p d) (ha : ExactDiff p a d) (hb : ExactDiff p b d) (hc : ExactDiff p c d) (perm : ℚ) :
    ∃ adet bdet cdet, adetOf rnd st a b c d = .ok adet ∧ adetOf rnd st b c a d = .ok bdet ∧ adetOf rnd st c a b d = .ok cdet ∧
      (((adet.length = 8 ∨ bdet.length = 8 ∨ cdet.length = 8) ∧ orient3dadapt rnd rest st stB a b c d perm = .ub) ∨
        ((adet.length < 8 ∧ bdet.length < 8 ∧ cdet.length < 8) ∧ ∃ v, orient3dadapt rnd rest st stB a b c d perm = .ok v ∧ SameSign v (orientation3 a b c d))) := by
  have hn := hr.toToNearest
  have z : ∀ {x y : ℚ}, IsFloat p x → IsFloat p y → IsFloat p (x - y) → twoDiffTail rnd x y (rnd (x - y)) = 0 := fun hx hy h => by
    rw [twoDiffTail_eq hn (by omega) hx hy (hn.near _), hn.of_float h, sub_self]
  have r := fun {x : ℚ} (h : IsFloat p x) => hn.of_float h
  obtain ⟨l1, s1, p1⟩ := diffOfProducts_ok hr (by omega) hst hb.1 hc.2.1 hc.1 hb.2.1
  obtain ⟨l2, s2, p2⟩ := diffOfProducts_ok hr (by omega) hst hc.1 ha.2.1 ha.1 hc.2.1
  obtain ⟨l3, s3, p3⟩ := diffOfProducts_ok hr (by omega) hst ha.1 hb.2.1 hb.1 ha.2.1
  obtain ⟨adet, bdet, cdet, h1, h2, h3, h4⟩ := det_expansion hr (by omega) hst p1 p2 p3 l1 l2 l3 ha.2.2 hb.2.2 hc.2.2
  refine ⟨adet, bdet, cdet, ?_, ?_, ?_, ?_⟩
  · rw [adetOf, r ha.2.2, r hb.1, r hc.2.1, r hc.1, r hb.2.1]; exact h1
  · rw [adetOf, r hb.2.2, r hc.1, r ha.2.1, r ha.1, r hc.2.1]; exact h2
  · rw [adetOf, r hc.2.2, r ha.1, r hb.2.1, r hb.1, r ha.2.1]; exact h3
  have L := (fun {l x r} (h : scaleExpansion rnd st x l = .ok r) (hl : l.length = 4) (hx : IsFloat p x) (hap : Apart p l) => by
    obtain ⟨r', g, _, _, _, _, g6⟩ := scaleExpansion_ok hr (by omega) hst hx (fun e => by rw [e] at hl; cases hl) hap
    rw [g] at h; cases h; omega : ∀ {l : List ℚ} {x : ℚ} {r : List ℚ}, scaleExpansion rnd st x l = .ok r → l.length = 4 → IsFloat p x → Apart p l → r.length ≤ 8)
  have L1 := L h1 l1 ha.2.2 p1
  have L2 := L h2 l2 hb.2.2 p2
  have L3 := L h3 l3 hc.2.2 p3
  unfold orient3dadapt
  simp only [r ha.1, r ha.2.1, r ha.2.2, r hb.1, r hb.2.1, r hb.2.2, r hc.1, r hc.2.1, r hc.2.2, h1, h2, h3, ok_bind']
  rcases h4 with ⟨h5, h6⟩ | ⟨abdet, h5, h6, h7⟩
  · exact Or.inl ⟨by tauto, by rw [h6]; rfl⟩
  rw [h5, ok_bind']
  have nf : adet.length < 8 ∧ bdet.length < 8 := by
    constructor <;>
    · by_contra hc
      rw [sumZeroed_full (by omega)] at h5
      cases h5
  rcases h7 with ⟨h7, h8⟩ | ⟨fin, h8, h9, h10, h11⟩
  · exact Or.inl ⟨by omega, by rw [h8]; rfl⟩
  right
  refine ⟨⟨nf.1, nf.2, ?_⟩, estimate rnd fin, ?_, ?_⟩
  · by_contra hc
    rw [sumZeroed_full (by omega)] at h8
    cases h8
  · rw [h8, ok_bind']
    have z' : ∀ {x y : ℚ}, IsFloat p x → IsFloat p y → IsFloat p (x - y) → twoDiffTail rnd x y (x - y) = 0 := fun hx hy h => by
      have := z hx hy h; rwa [r h] at this
    simp only [z' fa.1 fd.1 ha.1, z' fa.2.1 fd.2.1 ha.2.1, z' fa.2.2 fd.2.2 ha.2.2, z' fb.1 fd.1 hb.1, z' fb.2.1 fd.2.1 hb.2.1, z' fb.2.2 fd.2.2 hb.2.2, z' fc.1 fd.1 hc.1, z' fc.2.1 fd.2.1 hc.2.1, z' fc.2.2 fd.2.2 hc.2.2]
    simp
  · have := estimate_sign hn hp h9 h10
    rw [h11, s1, s2, s3] at this
    convert this using 1
    unfold orientation3
    ring

/-- The last stage of `orient3dadapt` always reads a value that was never written, so that it does not matter what comes after. -/
theorem orient3dadapt_rest (rest rest' : List ℚ → Res ℚ) (st : Statics) (stB : StaticsB) (a b c d : Pt3) (q : ℚ) :
    orient3dadapt rnd rest st stB a b c d q = orient3dadapt rnd rest' st stB a b c d q := by
  have : ∀ (e f : List ℚ) (g : List ℚ → Res ℚ), (fastExpansionSum rnd .ub e f).bind g = .ub := fun e f g => by rw [fastExpansionSum_ub]; rfl
  simp only [orient3dadapt, this]

/-- `incircleadapt` always reads a value that was never written. -/
theorem incircleadapt_ub (rest : List ℚ → Res ℚ) (st : Statics) (a b c d : ℚ × ℚ) : incircleadapt rnd rest st a b c d = .ub := by
  unfold incircleadapt
  simp only
  have ub : ∀ (l : List ℚ) (x : ℚ), scaleExpansion rnd st x l = .ub ∨ ∃ h, scaleExpansion rnd st x l = .ok h := by
    intro l x
    cases l with
    | nil => exact Or.inl rfl
    | cons y l => exact Or.inr ⟨_, rfl⟩
  generalize diffOfProducts rnd st _ _ _ _ = bc
  rcases ub bc (rnd (a.1 - d.1)) with h | ⟨h1, h⟩ <;> rw [h]
  · rfl
  rw [ok_bind']
  rcases ub h1 (rnd (a.1 - d.1)) with h | ⟨h2, h⟩ <;> rw [h]
  · rfl
  rw [ok_bind']
  rcases ub bc (rnd (a.2 - d.2)) with h | ⟨h3, h⟩ <;> rw [h]
  · rfl
  rw [ok_bind']
  rcases ub h3 (rnd (a.2 - d.2)) with h | ⟨h4, h⟩ <;> rw [h]
  · rfl
  rw [ok_bind', fastExpansionSum_ub]
  rfl

/-- `insphereadapt` always reads a value that was never written. -/
theorem insphereadapt_ub (rest : List ℚ → Res ℚ) (st : Statics) (a b c d e : Pt3) : insphereadapt rnd rest st a b c d e = .ub := by
  unfold insphereadapt
  simp only
  have ub : ∀ (l : List ℚ) (x : ℚ), scaleExpansion rnd st x l = .ub ∨ ∃ h, scaleExpansion rnd st x l = .ok h := by
    intro l x
    cases l with
    | nil => exact Or.inl rfl
    | cons y l => exact Or.inr ⟨_, rfl⟩
  generalize diffOfProducts rnd st (rnd (c.1 - e.1)) _ _ _ = cd
  generalize diffOfProducts rnd st _ _ _ _ = bd
  rcases ub cd (rnd (b.2.2 - e.2.2)) with h | ⟨h1, h⟩ <;> rw [h]
  · rfl
  rw [ok_bind']
  rcases ub bd (-rnd (c.2.2 - e.2.2)) with h | ⟨h2, h⟩ <;> rw [h]
  · rfl
  rw [ok_bind', fastExpansionSum_ub]
  rfl

theorem scaleLoop_length (st : Statics) (b : ℚ) : ∀ (e : List ℚ) (Q : ℚ) (h : List ℚ), (scaleLoop rnd st b Q h e).2.length ≤ h.length + 2 * e.length
  | [], Q, h => by simp [scaleLoop]
  | x :: e, Q, h => by
    have pl : ∀ (h : List ℚ) (y : ℚ), (pushNz h y).length ≤ h.length + 1 := fun h y => by unfold pushNz; split_ifs <;> simp
    simp only [scaleLoop, List.length_cons]
    refine (scaleLoop_length st b e _ _).trans ?_
    have h1 := pl h (twoSum rnd Q (twoProduct rnd st x b).2).2
    have h2 := pl (pushNz h (twoSum rnd Q (twoProduct rnd st x b).2).2) (fastTwoSum rnd (twoProduct rnd st x b).1 (twoSum rnd Q (twoProduct rnd st x b).2).1).2
    omega

/-- An expansion whose first component is zero does not fill the array. -/
theorem scaleExpansion_zero_length (hr : ToNearest p rnd) (hp : 4 ≤ p) {st : Statics} (hst : st.splitter = 2 ^ ((p + 1) / 2) + 1) {b : ℚ} (hb : IsFloat p b) {e h : List ℚ}
    (hs : scaleExpansion rnd st b (0 :: e) = .ok h) : h.length ≤ 2 * e.length + 1 := by
  obtain ⟨e1, _⟩ := twoProduct_eq hr hp hst (IsFloat.zero (p := p)) hb
  have l := scaleLoop_length (rnd := rnd) st b e (rnd (0 * b)) (pushNz [] (0 * b - rnd (0 * b)))
  have z : pushNz [] (0 * b - rnd (0 * b)) = [] := by rw [zero_mul, hr.zero]; simp [pushNz]
  rw [z] at l
  simp only [scaleExpansion, e1, z, Res.ok.injEq] at hs
  subst hs
  simp only [List.length_nil] at l
  split_ifs
  · rw [List.length_append, List.length_singleton]; omega
  · omega

/-- A difference of two products, the first of which needs no rounding. -/
theorem diffOfProducts_zero (hr : ToNearest p rnd) (hp : 4 ≤ p) {st : Statics} (hst : st.splitter = 2 ^ ((p + 1) / 2) + 1) {a b c d : ℚ} (ha : IsFloat p a) (hb : IsFloat p b) (hc : IsFloat p c) (hd : IsFloat p d)
    (hab : IsFloat p (a * b)) : ∃ x y z, diffOfProducts rnd st a b c d = [0, x, y, z] := by
  obtain ⟨e1, _⟩ := twoProduct_eq hr hp hst ha hb
  obtain ⟨e2, f2⟩ := twoProduct_eq hr hp hst hc hd
  suffices h : twoDiffTail rnd (a * b - rnd (a * b)) (c * d - rnd (c * d)) (rnd (a * b - rnd (a * b) - (c * d - rnd (c * d)))) = 0 by
    simp only [diffOfProducts, e1, e2, twoTwoDiff, twoOneDiff, twoDiff, h]
    exact ⟨_, _, _, rfl⟩
  rw [hr.of_float hab, sub_self, twoDiffTail_eq hr (by omega) IsFloat.zero f2 (hr.near _), zero_sub, hr.of_float f2.neg, sub_self]

theorem OnLattice.diff {m : ℕ} {k : ℤ} {a d : Pt3} (ha : OnLattice m k a) (hd : OnLattice m k d) :
    (Grid k (a.1 - d.1) ∧ |a.1 - d.1| ≤ 2 ^ (m + 1 + k)) ∧ (Grid k (a.2.1 - d.2.1) ∧ |a.2.1 - d.2.1| ≤ 2 ^ (m + 1 + k)) ∧ Grid k (a.2.2 - d.2.2) ∧ |a.2.2 - d.2.2| ≤ 2 ^ (m + 1 + k) := by
  obtain ⟨i, j, l, hi, hj, hl, rfl⟩ := ha
  obtain ⟨i', j', l', hi', hj', hl', rfl⟩ := hd
  have key : ∀ {x y : ℤ}, |x| ≤ 2 ^ m → |y| ≤ 2 ^ m → Grid k ((x : ℚ) * 2 ^ k - y * 2 ^ k) ∧ |(x : ℚ) * 2 ^ k - y * 2 ^ k| ≤ 2 ^ (m + 1 + k) := fun {x y} hx hy => by
    refine ⟨⟨x - y, by push_cast; ring⟩, ?_⟩
    rw [← sub_mul, abs_mul, abs_of_pos (two_pos' k), zpow_add₀ (by norm_num)]
    refine mul_le_mul_of_nonneg_right ?_ (two_pos' k).le
    have h1 : |(x : ℚ)| ≤ 2 ^ m := by exact_mod_cast hx
    have h2 : |(y : ℚ)| ≤ 2 ^ m := by exact_mod_cast hy
    have h3 := abs_sub (x : ℚ) y
    have h4 : ((2 : ℚ) ^ ((m : ℤ) + 1)) = 2 * 2 ^ m := by rw [zpow_add₀ (by norm_num), zpow_natCast]; ring
    rw [h4]; linarith
  exact ⟨key hi hi', key hj hj', key hl hl'⟩

theorem OnLattice.float {m : ℕ} {k : ℤ} {a : Pt3} (hm : m < p) (ha : OnLattice m k a) : FloatPt3 p a := by
  obtain ⟨i, j, l, hi, hj, hl, rfl⟩ := ha
  have : (2 : ℤ) ^ m < 2 ^ p := pow_lt_pow_right₀ (by norm_num) hm
  exact ⟨⟨i, k, by omega, rfl⟩, ⟨j, k, by omega, rfl⟩, l, k, by omega, rfl⟩

theorem orient3dadapt_lattice (hr : ToEven p rnd) (hp : 27 ≤ p) {st : Statics} (hst : st.splitter = 2 ^ ((p + 1) / 2) + 1) (stB : StaticsB) (rest : List ℚ → Res ℚ) {m : ℕ} {k : ℤ} (hm : 2 * (m + 1) ≤ p)
    {a b c d : Pt3} (ha : OnLattice m k a) (hb : OnLattice m k b) (hc : OnLattice m k c) (hd : OnLattice m k d) (perm : ℚ) :
    ∃ v, orient3dadapt rnd rest st stB a b c d perm = .ok v ∧ SameSign v (orientation3 a b c d) := by
  have hn := hr.toToNearest
  have fl : ∀ {x : ℚ}, Grid k x ∧ |x| ≤ 2 ^ (m + 1 + k) → IsFloat p x := fun h =>
    isFloat_of_grid (by omega) h.1 (h.2.trans (zpow_le_zpow_right₀ (by norm_num) (by omega)))
  have fm : ∀ {x y : ℚ}, Grid k x ∧ |x| ≤ 2 ^ (m + 1 + k) → Grid k y ∧ |y| ≤ 2 ^ (m + 1 + k) → IsFloat p (x * y) := fun {x y} h h' => by
    refine isFloat_of_grid (by omega) (h.1.mul h'.1) ?_
    rw [abs_mul]
    refine (mul_le_mul h.2 h'.2 (abs_nonneg _) (two_pos' _).le).trans ?_
    rw [← zpow_add₀ (by norm_num)]
    exact zpow_le_zpow_right₀ (by norm_num) (by omega)
  have xa := ha.diff hd
  have xb := hb.diff hd
  have xc := hc.diff hd
  have ed : ∀ {x : Pt3}, OnLattice m k x → ExactDiff p x d := fun h => ⟨fl (h.diff hd).1, fl (h.diff hd).2.1, fl (h.diff hd).2.2⟩
  obtain ⟨adet, bdet, cdet, h1, h2, h3, h4⟩ := orient3dadapt_exact hr hp hst stB rest (ha.float (by omega)) (hb.float (by omega)) (hc.float (by omega)) (hd.float (by omega)) (ed ha) (ed hb) (ed hc) perm
  have short : ∀ {x y z : Pt3}, OnLattice m k x → OnLattice m k y → OnLattice m k z → ∀ {l : List ℚ}, adetOf rnd st x y z d = .ok l → l.length < 8 := by
    intro x y z hx hy hz l hl
    have rx := hx.diff hd
    have ry := hy.diff hd
    have rz := hz.diff hd
    rw [adetOf, hn.of_float (fl rx.2.2), hn.of_float (fl ry.1), hn.of_float (fl ry.2.1), hn.of_float (fl rz.1), hn.of_float (fl rz.2.1)] at hl
    obtain ⟨u, v, w, e⟩ := diffOfProducts_zero hn (by omega) hst (fl ry.1) (fl rz.2.1) (fl rz.1) (fl ry.2.1) (fm ry.1 rz.2.1)
    rw [e] at hl
    have := scaleExpansion_zero_length hn (by omega) hst (fl rx.2.2) hl
    simp at this
    omega
  rcases h4 with ⟨h4, _⟩ | ⟨_, h4⟩
  · have := short ha hb hc h1
    have := short hb hc ha h2
    have := short hc ha hb h3
    omega
  · exact h4

end Verif.Float
