import Verif.Model.PredicatesExact
import Verif.Props.Predicates3
/- C86: the other versions of `orient2d`. -/
namespace Verif.Props
open Verif Verif.Pred Verif.Float
variable {p : ℕ} {rnd : ℚ → ℚ}

/-- `orient2dexact` reads past the end of its arrays for all points, before and after `exactinit`. -/
theorem C86_exact_fails (rnd : ℚ → ℚ) (st : Statics) (a b c : ℚ × ℚ) : orient2dexact rnd .ub st a b c = .ub := by
  simp [orient2dexact, fastExpansionSum_ub]

/-- That read is all that is wrong with it. After `exactinit`, and if a read of the element after the last of an array gives some number, whichever it is, `orient2dexact` returns for all points with
floating point coordinates, and its result is positive, negative or zero exactly as the orientation of the points is. -/
theorem C86_exact_padded (hr : ToEven p rnd) (hp : 20 ≤ p) {fuel : ℕ} (hf : p ≤ fuel) :
    ∃ st, exactinit rnd fuel = some st ∧ ∀ a b c, FloatPt p a → FloatPt p b → FloatPt p c →
      ∀ v, ∃ r, orient2dexact rnd (.ok v) st a b c = .ok r ∧ SameSign r (orientation a b c) := by
  refine ⟨_, exactinit_eq hr (by omega) hf, fun a b c ha hb hc v => ?_⟩
  have hn := hr.toToNearest
  have hst : (initialised p).splitter = 2 ^ ((p + 1) / 2) + 1 := rfl
  obtain ⟨la, sa, aa⟩ := diffOfProducts_ok hr (by omega) hst ha.1 hb.2 ha.1 hc.2
  obtain ⟨lb, sb, ab⟩ := diffOfProducts_ok hr (by omega) hst hb.1 hc.2 hb.1 ha.2
  obtain ⟨lc, sc, ac⟩ := diffOfProducts_ok hr (by omega) hst hc.1 ha.2 hc.1 hb.2
  have ne : ∀ {l : List ℚ}, l.length = 4 → l ≠ [] := by rintro l h rfl; simp at h
  obtain ⟨h1, e1, s1, x1, l1⟩ := fastExpansionSum_ok hn hp v (ne la) aa.float (aa.far.imp fun h => h.below) ab (ne lb) (by omega) (by omega)
  obtain ⟨h2, e2, s2, x2, l2⟩ := fastExpansionSum_ok hn hp v x1.nonempty x1.float x1.below ac (ne lc) (by omega) (by omega)
  obtain ⟨r, e3, hs⟩ := x2.sign
  refine ⟨r, ?_, ?_⟩
  · unfold orient2dexact
    simp only
    rw [e1]
    show (fastExpansionSum rnd (.ok v) h1 _).bind _ = _
    rw [e2]
    exact e3
  · rw [s2, s1, sa, sb, sc] at hs
    have : a.1 * b.2 - a.1 * c.2 + (b.1 * c.2 - b.1 * a.2) + (c.1 * a.2 - c.1 * b.2) = orientation a b c := by unfold orientation; ring
    rwa [this] at hs

/-- `orient2dfast` is twice the area of the triangle but for `5 ε` of the two products, for all points and both before and after `exactinit`. -/
theorem C86_orient2dfast (hr : ToEven p rnd) (hp : 10 ≤ p) (a b c : ℚ × ℚ) :
    |orient2dfast rnd a b c - orientation a b c| ≤ 5 * 2 ^ (-(p : ℤ)) * (|a.1 - c.1| * |b.2 - c.2| + |a.2 - c.2| * |b.1 - c.1|) := by
  have hp1 : 1 ≤ p := by omega
  have e := fun x => Approx.exact hr hp1 x
  have h := approx_minor hr hp1 (e (a.1 - c.1)) (e (b.2 - c.2)) (e (a.2 - c.2)) (e (b.1 - c.1))
  have h' := approx_minorPlus hr hp1 (e (a.1 - c.1)) (e (b.2 - c.2)) (e (a.2 - c.2)) (e (b.1 - c.1))
  have he := eps_le_1024 hp
  have he0 := (two_pos' (-(p : ℤ))).le
  generalize hE : (2 : ℚ) ^ (-(p : ℤ)) = E at *
  have sq' : E ^ 2 ≤ E * (1 / 1024) := by rw [sq]; exact mul_le_mul_of_nonneg_left he he0
  exact Approx.close he0 he (by omega) (h.congr rfl) h' (by push_cast; linarith)

/-- In the library, where nothing calls `exactinit`, `orient2d` is `orient2dfast`. -/
theorem C86_uninitialised_fast (hr : ToNearest p rnd) (past : Res ℚ) (a b c : ℚ × ℚ) : orient2d rnd past atStart a b c = .ok (orient2dfast rnd a b c) :=
  C86_uninitialised_orient2d hr.zero past a b c

/-- Its sign may be wrong: for every precision there are points in clockwise order for which it is positive. -/
theorem C86_orient2dfast_fails (hr : ToNearest p rnd) (hp : 4 ≤ p) :
    ∃ a b c : ℚ × ℚ, FloatPt p a ∧ FloatPt p b ∧ FloatPt p c ∧ orientation a b c < 0 ∧ 0 < orient2dfast rnd a b c := by
  obtain ⟨a, b, c, ha, hb, hc, ho, r, h1, h2⟩ := C86_wrong_sign_fails hr hp .ub
  rw [C86_uninitialised_fast hr] at h1
  cases h1
  exact ⟨a, b, c, ha, hb, hc, ho, h2⟩

/-- The points of `diagonal_case`, on one line and with differences that are not numbers of 53 bits: `orient2dexact` finds that they are on one line. -/
example : ∃ a b c : ℚ × ℚ, a.1 ≠ c.1 ∧ b.2 ≠ c.2 ∧ ∀ v, orient2dexact (rne 53) (.ok v) (initialised 53) a b c = .ok 0 := by
  obtain ⟨a, b, c, ha, hb, hc, h0, hx, hy, hne⟩ := diagonal_case
  refine ⟨a, b, c, hx, hy, fun v => ?_⟩
  obtain ⟨st, h1, h2⟩ := C86_exact_padded (p := 53) (rne_toEven (by norm_num)) (by norm_num) (fuel := 60) (by norm_num)
  rw [exactinit_eq (rne_toEven (by norm_num)) (by norm_num) (by norm_num)] at h1
  cases h1
  obtain ⟨r, h3, h4⟩ := h2 a b c ha hb hc v
  rw [h3, h4.eq_zero.2 h0]
end Verif.Props
