import Verif.Model.Predicates3
/-
The adaptive parts of `orient3d`, `incircle` and `insphere`, `/repo/src/predicates.cc`. Numbers and rounding are as in `Model/Predicates`.

`fast_expansion_sum_zeroelim` reads one element past the last component of each of its arguments. What that read gives depends on the array: `orient3dadapt` sets `adet`, `bdet`, `cdet` and `abdet` to zero before (L1873-1881), so that it gives zero as long as the array has an element more than the expansion; the other arrays here are not set, and the element is past the end of the array or one that was never written. Both are undefined behaviour.

Simplification: of a function that has undefined behaviour for all arguments from some place on, what comes after that place is a parameter `rest` of the model: any result for any value computed there.
-/
namespace Verif.Pred

/-- The file-scope variables that `orient3dadapt` reads and the first stages do not (L374). -/
structure StaticsB where
  o3dB : ℚ
  o3dC : ℚ
  deriving DecidableEq, Repr

section
variable (rnd : ℚ → ℚ)

/-- `exactinit` (L663-727), the variables of `StaticsB`. -/
def exactinitB (fuel : ℕ) : Option StaticsB :=
  (initLoop rnd fuel 1 1 1 true).map fun (epsilon, _) =>
    { o3dB := rnd (rnd (3 + rnd (28 * epsilon)) * epsilon)
      o3dC := rnd (rnd (rnd (26 + rnd (288 * epsilon)) * epsilon) * epsilon) }

/-- The loop of `scale_expansion_zeroelim` (L1316-1328): `Q` is the running sum and `h` the output so far. `Two_Product_Presplit` (L227-233) is `Two_Product` with the pieces of `b` computed before, which are the same in each round. -/
def scaleLoop (st : Statics) (b : ℚ) (Q : ℚ) (h : List ℚ) : List ℚ → ℚ × List ℚ
  | [] => (Q, h)
  | enow :: e =>
      let (product1, product0) := twoProduct rnd st enow b
      let (sum, hh) := twoSum rnd Q product0
      let h := pushNz h hh
      let (Q, hh) := fastTwoSum rnd product1 sum
      scaleLoop st b Q (pushNz h hh) e

/-- `scale_expansion_zeroelim` (L1296-1334). It reads `e[0]` also of an expansion of no components. -/
def scaleExpansion (st : Statics) (b : ℚ) : List ℚ → Res (List ℚ)
  | [] => .ub
  | x :: e =>
      let (Q, hh) := twoProduct rnd st x b
      let (Q, h) := scaleLoop rnd st b Q (pushNz [] hh) e
      .ok (if Q ≠ 0 ∨ h = [] then h ++ [Q] else h)

/-- What a read one past the components `e` gives in an array of `n` elements that was set to zero. -/
def zeroed (n : ℕ) (e : List ℚ) : Res ℚ := if e.length < n then .ok 0 else .ub

/-- `fast_expansion_sum_zeroelim` of expansions in two arrays of `n` and `m` elements that were set to zero. -/
def sumZeroed (n m : ℕ) (e f : List ℚ) : Res (List ℚ) :=
  fastExpansionSum rnd ((zeroed n e).bind fun _ => zeroed m f) e f

/-- `at_b`, `bt_c` and `ct_a` (L1989-2101), with `bt_c` as the example: the components of `bdxtail * cdy - bdytail * cdx`. -/
def tailProducts (st : Statics) (xtail ytail y x : ℚ) : List ℚ :=
  if xtail = 0 then
    if ytail = 0 then [0] else let (large, small) := twoProduct rnd st (-ytail) x; [small, large]
  else
    if ytail = 0 then let (large, small) := twoProduct rnd st xtail y; [small, large]
    else diffOfProducts rnd st xtail y ytail x

/-- `at_c`, `bt_a` and `ct_b` (L1989-2101), with `ct_b` as the example: the components of `cdytail * bdx - cdxtail * bdy`. -/
def tailProducts' (st : Statics) (xtail ytail y x : ℚ) : List ℚ :=
  if xtail = 0 then
    if ytail = 0 then [0] else let (large, small) := twoProduct rnd st ytail x; [small, large]
  else
    if ytail = 0 then let (large, small) := twoProduct rnd st (-xtail) y; [small, large]
    else diffOfProducts rnd st ytail x xtail y

/-- One of the three summands that are added to `det` in the third stage of `orient3dadapt` (L1973-1981), with the first as the example. -/
def correction (z ztail x y xtail ytail x' y' xtail' ytail' : ℚ) : ℚ :=
  rnd (rnd (z * rnd (rnd (rnd (x * ytail') + rnd (y' * xtail)) - rnd (rnd (y * xtail') + rnd (x' * ytail))))
    + rnd (ztail * minor rnd x y' y x'))

/-- `orient3dadapt` (L1855-2264). The arrays `bt_c` and `ct_b` of four elements are not set before (L1889). -/
def orient3dadapt (rest : List ℚ → Res ℚ) (st : Statics) (stB : StaticsB) (pa pb pc pd : Pt3) (permanent : ℚ) : Res ℚ :=
  let adx := rnd (pa.1 - pd.1)
  let bdx := rnd (pb.1 - pd.1)
  let cdx := rnd (pc.1 - pd.1)
  let ady := rnd (pa.2.1 - pd.2.1)
  let bdy := rnd (pb.2.1 - pd.2.1)
  let cdy := rnd (pc.2.1 - pd.2.1)
  let adz := rnd (pa.2.2 - pd.2.2)
  let bdz := rnd (pb.2.2 - pd.2.2)
  let cdz := rnd (pc.2.2 - pd.2.2)
  (scaleExpansion rnd st adz (diffOfProducts rnd st bdx cdy cdx bdy)).bind fun adet =>
  (scaleExpansion rnd st bdz (diffOfProducts rnd st cdx ady adx cdy)).bind fun bdet =>
  (scaleExpansion rnd st cdz (diffOfProducts rnd st adx bdy bdx ady)).bind fun cdet =>
  (sumZeroed rnd 8 8 adet bdet).bind fun abdet =>
  (sumZeroed rnd 16 8 abdet cdet).bind fun fin1 =>
  let det := estimate rnd fin1
  let errbound := rnd (stB.o3dB * permanent)
  if det ≥ errbound ∨ -det ≥ errbound then .ok det else
  let adxtail := twoDiffTail rnd pa.1 pd.1 adx
  let bdxtail := twoDiffTail rnd pb.1 pd.1 bdx
  let cdxtail := twoDiffTail rnd pc.1 pd.1 cdx
  let adytail := twoDiffTail rnd pa.2.1 pd.2.1 ady
  let bdytail := twoDiffTail rnd pb.2.1 pd.2.1 bdy
  let cdytail := twoDiffTail rnd pc.2.1 pd.2.1 cdy
  let adztail := twoDiffTail rnd pa.2.2 pd.2.2 adz
  let bdztail := twoDiffTail rnd pb.2.2 pd.2.2 bdz
  let cdztail := twoDiffTail rnd pc.2.2 pd.2.2 cdz
  if adxtail = 0 ∧ bdxtail = 0 ∧ cdxtail = 0 ∧ adytail = 0 ∧ bdytail = 0 ∧ cdytail = 0 ∧ adztail = 0 ∧ bdztail = 0 ∧ cdztail = 0 then .ok det else
  let errbound := rnd (rnd (stB.o3dC * permanent) + rnd (st.resulterrbound * |det|))
  let det := rnd (det + rnd (rnd (correction rnd adz adztail bdx bdy bdxtail bdytail cdx cdy cdxtail cdytail
                                  + correction rnd bdz bdztail cdx cdy cdxtail cdytail adx ady adxtail adytail)
                             + correction rnd cdz cdztail adx ady adxtail adytail bdx bdy bdxtail bdytail))
  if det ≥ errbound ∨ -det ≥ errbound then .ok det else
  (fastExpansionSum rnd .ub (tailProducts rnd st bdxtail bdytail cdy cdx) (tailProducts' rnd st cdxtail cdytail bdy bdx)).bind rest

/-- `incircleadapt` (L2610-3177). The arrays `axxbc` and `ayybc` of sixteen elements are not set before (L2619). -/
def incircleadapt (rest : List ℚ → Res ℚ) (st : Statics) (pa pb pc pd : ℚ × ℚ) : Res ℚ :=
  let adx := rnd (pa.1 - pd.1)
  let bdx := rnd (pb.1 - pd.1)
  let cdx := rnd (pc.1 - pd.1)
  let ady := rnd (pa.2 - pd.2)
  let bdy := rnd (pb.2 - pd.2)
  let cdy := rnd (pc.2 - pd.2)
  let bc := diffOfProducts rnd st bdx cdy cdx bdy
  (scaleExpansion rnd st adx bc).bind fun axbc =>
  (scaleExpansion rnd st adx axbc).bind fun axxbc =>
  (scaleExpansion rnd st ady bc).bind fun aybc =>
  (scaleExpansion rnd st ady aybc).bind fun ayybc =>
  (fastExpansionSum rnd .ub axxbc ayybc).bind rest

/-- `insphereadapt` (L3872-4085). The arrays `temp8a` and `temp8b` of eight elements are not set before (L3887). Simplification: the expansions that are not part of the first sum, `ab`, `bc`, `da`, `ac` and `temp8c`, are left out; their computation has no other effect. -/
def insphereadapt (rest : List ℚ → Res ℚ) (st : Statics) (_pa pb pc pd pe : Pt3) : Res ℚ :=
  let bex := rnd (pb.1 - pe.1)
  let cex := rnd (pc.1 - pe.1)
  let dex := rnd (pd.1 - pe.1)
  let bey := rnd (pb.2.1 - pe.2.1)
  let cey := rnd (pc.2.1 - pe.2.1)
  let dey := rnd (pd.2.1 - pe.2.1)
  let bez := rnd (pb.2.2 - pe.2.2)
  let cez := rnd (pc.2.2 - pe.2.2)
  (scaleExpansion rnd st bez (diffOfProducts rnd st cex dey dex cey)).bind fun temp8a =>
  (scaleExpansion rnd st (-cez) (diffOfProducts rnd st bex dey dex bey)).bind fun temp8b =>
  (fastExpansionSum rnd .ub temp8a temp8b).bind rest

end
end Verif.Pred
