import Mathlib.Data.Rat.Floor
import Verif.Model.Cxx
/-
Shewchuk's floating point predicates, `/repo/src/predicates.cc`: the error-free operations, `exactinit` and `orient2d`.

A `double` is a rational number here and every operation rounds its exact result with the function `rnd`. The
theorems take `rnd` to be rounding to nearest in `p` bits (`Spec/Float`). Simplifications: the exponent is unbounded, so
nothing overflows, underflows or becomes NaN; both zeros are one number; `INEXACT` and the FPU control words
(L133-145, L671-688) have no effect.
-/
namespace Verif.Pred

/-- The file-scope variables of `predicates.cc` that `orient2d` reads (L369-373). -/
structure Statics where
  splitter : ℚ
  epsilon : ℚ
  resulterrbound : ℚ
  ccwA : ℚ
  ccwB : ℚ
  ccwC : ℚ
  deriving DecidableEq, Repr

/-- The variables before any call of `exactinit` (L369-373): objects of static storage duration start as zero.
No file under `/repo/src` calls `exactinit`; the only mention is the renaming of Triangle's own copy
(`TriangleTessellator.cc` L33). -/
def atStart : Statics := ⟨0, 0, 0, 0, 0, 0⟩

section
variable (rnd : ℚ → ℚ)

/-- `Fast_Two_Sum` (L168-174): the rounded sum and its error. -/
def fastTwoSum (a b : ℚ) : ℚ × ℚ :=
  let x := rnd (a + b)
  let bvirt := rnd (x - a)
  let y := rnd (b - bvirt)
  (x, y)

/-- `Two_Sum_Tail` (L184-189). -/
def twoSumTail (a b x : ℚ) : ℚ :=
  let bvirt := rnd (x - a)
  let avirt := rnd (x - bvirt)
  let bround := rnd (b - bvirt)
  let around := rnd (a - avirt)
  rnd (around + bround)

/-- `Two_Sum` (L191-193). -/
def twoSum (a b : ℚ) : ℚ × ℚ :=
  let x := rnd (a + b)
  (x, twoSumTail rnd a b x)

/-- `Two_Diff_Tail` (L195-200). -/
def twoDiffTail (a b x : ℚ) : ℚ :=
  let bvirt := rnd (a - x)
  let avirt := rnd (x + bvirt)
  let bround := rnd (bvirt - b)
  let around := rnd (a - avirt)
  rnd (around + bround)

/-- `Two_Diff` (L202-204). -/
def twoDiff (a b : ℚ) : ℚ × ℚ :=
  let x := rnd (a - b)
  (x, twoDiffTail rnd a b x)

/-- `Split` (L206-210). -/
def split (st : Statics) (a : ℚ) : ℚ × ℚ :=
  let c := rnd (st.splitter * a)
  let abig := rnd (c - a)
  let ahi := rnd (c - abig)
  let alo := rnd (a - ahi)
  (ahi, alo)

/-- `Two_Product` (L212-222). -/
def twoProduct (st : Statics) (a b : ℚ) : ℚ × ℚ :=
  let x := rnd (a * b)
  let (ahi, alo) := split rnd st a
  let (bhi, blo) := split rnd st b
  let err1 := rnd (x - rnd (ahi * bhi))
  let err2 := rnd (err1 - rnd (alo * bhi))
  let err3 := rnd (err2 - rnd (ahi * blo))
  let y := rnd (rnd (alo * blo) - err3)
  (x, y)

/-- `Two_One_Diff` (L264-266), components from the smallest `x0` to the largest `x2`. -/
def twoOneDiff (a1 a0 b : ℚ) : ℚ × ℚ × ℚ :=
  let (i, x0) := twoDiff rnd a0 b
  let (x2, x1) := twoSum rnd a1 i
  (x0, x1, x2)

/-- `Two_Two_Diff` (L272-274), components from the smallest `x0` to the largest `x3`. -/
def twoTwoDiff (a b : ℚ × ℚ) : ℚ × ℚ × ℚ × ℚ :=
  let (x0, c0, j) := twoOneDiff rnd a.1 a.2 b.2
  let (x1, x2, x3) := twoOneDiff rnd j c0 b.1
  (x0, x1, x2, x3)

/-- `estimate` (L1391-1401); the array has at least one element. -/
def estimate : List ℚ → ℚ
  | [] => 0
  | e :: es => es.foldl (fun Q x => rnd (Q + x)) e

/-- `enow = e[++eindex]`: `rest` are the elements from the new index to the end of the expansion. At its end the read
is one past the elements, and gives `past`. -/
def advance (past : Res ℚ) : List ℚ → Res Unit
  | [] => past.bind fun _ => .ok ()
  | _ :: _ => .ok ()

/-- `(fnow > enow) == (fnow > -enow)`: take the next component from `e`. -/
def takeE (enow fnow : ℚ) : Bool := decide (fnow > enow) == decide (fnow > -enow)

/-- `if (hh != 0.0) h[hindex++] = hh;` -/
def pushNz (h : List ℚ) (hh : ℚ) : List ℚ := if hh ≠ 0 then h ++ [hh] else h

/-- The loops of `fast_expansion_sum_zeroelim` (L1072-1101): `e` and `f` are the components not yet used, the first of
which are `enow` and `fnow`, `Q` the running sum and `h` the output so far. -/
def sumLoop (past : Res ℚ) (Q : ℚ) (h : List ℚ) : List ℚ → List ℚ → Res (ℚ × List ℚ)
  | [], [] => .ok (Q, h)
  | x :: e, [] =>
      let (Qnew, hh) := twoSum rnd Q x
      (advance past e).bind fun _ => sumLoop past Qnew (pushNz h hh) e []
  | [], y :: f =>
      let (Qnew, hh) := twoSum rnd Q y
      (advance past f).bind fun _ => sumLoop past Qnew (pushNz h hh) [] f
  | x :: e, y :: f =>
      if takeE x y then
        let (Qnew, hh) := twoSum rnd Q x
        (advance past e).bind fun _ => sumLoop past Qnew (pushNz h hh) e (y :: f)
      else
        let (Qnew, hh) := twoSum rnd Q y
        (advance past f).bind fun _ => sumLoop past Qnew (pushNz h hh) (x :: e) f
  termination_by e f => e.length + f.length

/-- The second step of `fast_expansion_sum_zeroelim` (L1059-1072): the sum of the two smallest components with
`Fast_Two_Sum` when neither expansion has come to its end. -/
def sumSecond (past : Res ℚ) (Q : ℚ) : List ℚ → List ℚ → Res (ℚ × List ℚ)
  | x :: e, y :: f =>
      if takeE x y then
        let (Qnew, hh) := fastTwoSum rnd x Q
        (advance past e).bind fun _ => sumLoop rnd past Qnew (pushNz [] hh) e (y :: f)
      else
        let (Qnew, hh) := fastTwoSum rnd y Q
        (advance past f).bind fun _ => sumLoop rnd past Qnew (pushNz [] hh) (x :: e) f
  | e, f => sumLoop rnd past Q [] e f

/-- `fast_expansion_sum_zeroelim` (L1038-1106): the components of the sum of two expansions, smallest first. `past` is
what a read one past the last component gives: undefined behaviour when the array has no more elements. -/
def fastExpansionSum (past : Res ℚ) : List ℚ → List ℚ → Res (List ℚ)
  | x :: e, y :: f =>
      (if takeE x y then
        (advance past e).bind fun _ => sumSecond rnd past x e (y :: f)
      else
        (advance past f).bind fun _ => sumSecond rnd past y (x :: e) f).bind fun Qh =>
      .ok (if Qh.1 ≠ 0 ∨ Qh.2 = [] then Qh.2 ++ [Qh.1] else Qh.2)
  | _, _ => .ub

/-- `D[Dlength - 1]`. -/
def last (l : List ℚ) : Res ℚ := rd l (l.length - 1)

/-- The components of `Two_Two_Diff` of two products, as the array `u` (L1582-1585). -/
def diffOfProducts (st : Statics) (a b c d : ℚ) : List ℚ :=
  let (x0, x1, x2, x3) := twoTwoDiff rnd (twoProduct rnd st a b) (twoProduct rnd st c d)
  [x0, x1, x2, x3]

/-- The last stage of `orient2dadapt` (L1582-1600): the determinant as an expansion, of which the last component is
returned. `B` and `u` are arrays of four elements (L1531, L1534). -/
def lastStage (past : Res ℚ) (st : Statics) (B : List ℚ) (acx acy bcx bcy acxt acyt bcxt bcyt : ℚ) : Res ℚ :=
  (fastExpansionSum rnd past B (diffOfProducts rnd st acxt bcy acyt bcx)).bind fun C1 =>
  (fastExpansionSum rnd past C1 (diffOfProducts rnd st acx bcyt acy bcxt)).bind fun C2 =>
  (fastExpansionSum rnd past C2 (diffOfProducts rnd st acxt bcyt acyt bcxt)).bind fun D =>
  last D

/-- `orient2dadapt` (L1523-1601). -/
def orient2dadapt (past : Res ℚ) (st : Statics) (pa pb pc : ℚ × ℚ) (detsum : ℚ) : Res ℚ :=
  let acx := rnd (pa.1 - pc.1)
  let bcx := rnd (pb.1 - pc.1)
  let acy := rnd (pa.2 - pc.2)
  let bcy := rnd (pb.2 - pc.2)
  let B := diffOfProducts rnd st acx bcy acy bcx
  let det := estimate rnd B
  let errbound := rnd (st.ccwB * detsum)
  if det ≥ errbound ∨ -det ≥ errbound then .ok det else
  let acxtail := twoDiffTail rnd pa.1 pc.1 acx
  let bcxtail := twoDiffTail rnd pb.1 pc.1 bcx
  let acytail := twoDiffTail rnd pa.2 pc.2 acy
  let bcytail := twoDiffTail rnd pb.2 pc.2 bcy
  if acxtail = 0 ∧ acytail = 0 ∧ bcxtail = 0 ∧ bcytail = 0 then .ok det else
  let errbound := rnd (rnd (st.ccwC * detsum) + rnd (st.resulterrbound * |det|))
  let det := rnd (det + rnd (rnd (rnd (acx * bcytail) + rnd (bcy * acxtail))
                             - rnd (rnd (acy * bcxtail) + rnd (bcx * acytail))))
  if det ≥ errbound ∨ -det ≥ errbound then .ok det else
  lastStage rnd past st B acx acy bcx bcy acxtail acytail bcxtail bcytail

/-- `orient2d` (L1603-1634). -/
def orient2d (past : Res ℚ) (st : Statics) (pa pb pc : ℚ × ℚ) : Res ℚ :=
  let detleft := rnd (rnd (pa.1 - pc.1) * rnd (pb.2 - pc.2))
  let detright := rnd (rnd (pa.2 - pc.2) * rnd (pb.1 - pc.1))
  let det := rnd (detleft - detright)
  let rest (detsum : ℚ) : Res ℚ :=
    let errbound := rnd (st.ccwA * detsum)
    if det ≥ errbound ∨ -det ≥ errbound then .ok det else orient2dadapt rnd past st pa pb pc detsum
  if detleft > 0 then
    if detright ≤ 0 then .ok det else rest (rnd (detleft + detright))
  else if detleft < 0 then
    if detright ≥ 0 then .ok det else rest (rnd (-detleft - detright))
  else .ok det

/-- The loop of `exactinit` (L699-707), from the values of `epsilon`, `splitter`, `check` and `every_other` at its start.
`none` when `fuel` rounds are not enough. -/
def initLoop : ℕ → ℚ → ℚ → ℚ → Bool → Option (ℚ × ℚ)
  | 0, _, _, _, _ => none
  | fuel + 1, epsilon, splitter, check, everyOther =>
      let lastcheck := check
      let epsilon := rnd (epsilon * (1 / 2))
      let splitter := if everyOther then rnd (splitter * 2) else splitter
      let everyOther := !everyOther
      let check := rnd (1 + epsilon)
      if check ≠ 1 ∧ check ≠ lastcheck then initLoop fuel epsilon splitter check everyOther
      else some (epsilon, splitter)

/-- `exactinit` (L663-727), the variables that `orient2d` reads. -/
def exactinit (fuel : ℕ) : Option Statics :=
  (initLoop rnd fuel 1 1 1 true).map fun (epsilon, splitter) =>
    { splitter := rnd (splitter + 1)
      epsilon := epsilon
      resulterrbound := rnd (rnd (3 + rnd (8 * epsilon)) * epsilon)
      ccwA := rnd (rnd (3 + rnd (16 * epsilon)) * epsilon)
      ccwB := rnd (rnd (2 + rnd (12 * epsilon)) * epsilon)
      ccwC := rnd (rnd (rnd (9 + rnd (64 * epsilon)) * epsilon) * epsilon) }

end
end Verif.Pred
