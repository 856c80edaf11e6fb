import Verif.Model.Predicates
/-
The first stage of `orient3d`, `incircle` and `insphere`, `/repo/src/predicates.cc`, and their non-adaptive versions. Numbers
and rounding are as in `Model/Predicates`. Simplification: what the functions do when the first test does not decide,
`orient3dadapt`, `incircleadapt` and `insphereadapt`, is a parameter `adapt` here: any result for any permanent. `Model/PredicatesAdapt` models these three.
-/
namespace Verif.Pred

/-- The file-scope variables that these three read before they call their adaptive parts (L374-376). -/
structure Statics3 where
  o3dA : ℚ
  iccA : ℚ
  ispA : ℚ
  deriving DecidableEq, Repr

/-- The variables before any call of `exactinit` (L374-376). -/
def atStart3 : Statics3 := ⟨0, 0, 0⟩

/-- A point in space: the coordinates `p[0]`, `p[1]`, `p[2]`. -/
abbrev Pt3 := ℚ × ℚ × ℚ

section
variable (rnd : ℚ → ℚ)

/-- `exactinit` (L663-727), the variables of `Statics3`. -/
def exactinit3 (fuel : ℕ) : Option Statics3 :=
  (initLoop rnd fuel 1 1 1 true).map fun (epsilon, _) =>
    { o3dA := rnd (rnd (7 + rnd (56 * epsilon)) * epsilon)
      iccA := rnd (rnd (10 + rnd (96 * epsilon)) * epsilon)
      ispA := rnd (rnd (16 + rnd (224 * epsilon)) * epsilon) }

/-- `if ((det > errbound) || (-det > errbound)) return det; return adapt(..., permanent);` (L2299-2304, L3213-3218,
L4180-4185). -/
def decideOr (bound permanent det : ℚ) (adapt : ℚ → Res ℚ) : Res ℚ :=
  let errbound := rnd (bound * permanent)
  if det > errbound ∨ -det > errbound then .ok det else adapt permanent

/-- `x * w - y * v` in floating point. -/
def minor (x w y v : ℚ) : ℚ := rnd (rnd (x * w) - rnd (y * v))

/-- `Absolute(x * w) + Absolute(y * v)` in floating point. -/
def minorPlus (x w y v : ℚ) : ℚ := rnd (|rnd (x * w)| + |rnd (y * v)|)

/-- `a * x + b * y + c * z` in floating point. -/
def sum3 (a x b y c z : ℚ) : ℚ := rnd (rnd (rnd (a * x) + rnd (b * y)) + rnd (c * z))

/-- `orient3dfast` (L1665-1684). -/
def orient3dfast (pa pb pc pd : Pt3) : ℚ :=
  let adx := rnd (pa.1 - pd.1)
  let bdx := rnd (pb.1 - pd.1)
  let cdx := rnd (pc.1 - pd.1)
  let ady := rnd (pa.2.1 - pd.2.1)
  let bdy := rnd (pb.2.1 - pd.2.1)
  let cdy := rnd (pc.2.1 - pd.2.1)
  let adz := rnd (pa.2.2 - pd.2.2)
  let bdz := rnd (pb.2.2 - pd.2.2)
  let cdz := rnd (pc.2.2 - pd.2.2)
  sum3 rnd adx (minor rnd bdy cdz bdz cdy) bdx (minor rnd cdy adz cdz ady) cdx (minor rnd ady bdz adz bdy)

/-- `orient3d` (L2266-2305). -/
def orient3d (st : Statics3) (adapt : ℚ → Res ℚ) (pa pb pc pd : Pt3) : Res ℚ :=
  let adx := rnd (pa.1 - pd.1)
  let bdx := rnd (pb.1 - pd.1)
  let cdx := rnd (pc.1 - pd.1)
  let ady := rnd (pa.2.1 - pd.2.1)
  let bdy := rnd (pb.2.1 - pd.2.1)
  let cdy := rnd (pc.2.1 - pd.2.1)
  let adz := rnd (pa.2.2 - pd.2.2)
  let bdz := rnd (pb.2.2 - pd.2.2)
  let cdz := rnd (pc.2.2 - pd.2.2)
  let det := sum3 rnd adz (minor rnd bdx cdy cdx bdy) bdz (minor rnd cdx ady adx cdy) cdz (minor rnd adx bdy bdx ady)
  let permanent := sum3 rnd (minorPlus rnd bdx cdy cdx bdy) |adz| (minorPlus rnd cdx ady adx cdy) |bdz|
    (minorPlus rnd adx bdy bdx ady) |cdz|
  decideOr rnd st.o3dA permanent det adapt

/-- `x * x + y * y` in floating point. -/
def lift2 (x y : ℚ) : ℚ := rnd (rnd (x * x) + rnd (y * y))

/-- `incirclefast` (L2333-2354). -/
def incirclefast (pa pb pc pd : ℚ × ℚ) : ℚ :=
  let adx := rnd (pa.1 - pd.1)
  let ady := rnd (pa.2 - pd.2)
  let bdx := rnd (pb.1 - pd.1)
  let bdy := rnd (pb.2 - pd.2)
  let cdx := rnd (pc.1 - pd.1)
  let cdy := rnd (pc.2 - pd.2)
  let abdet := minor rnd adx bdy bdx ady
  let bcdet := minor rnd bdx cdy cdx bdy
  let cadet := minor rnd cdx ady adx cdy
  sum3 rnd (lift2 rnd adx ady) bcdet (lift2 rnd bdx bdy) cadet (lift2 rnd cdx cdy) abdet

/-- `incircle` (L3179-3219). -/
def incircle (st : Statics3) (adapt : ℚ → Res ℚ) (pa pb pc pd : ℚ × ℚ) : Res ℚ :=
  let adx := rnd (pa.1 - pd.1)
  let bdx := rnd (pb.1 - pd.1)
  let cdx := rnd (pc.1 - pd.1)
  let ady := rnd (pa.2 - pd.2)
  let bdy := rnd (pb.2 - pd.2)
  let cdy := rnd (pc.2 - pd.2)
  let alift := lift2 rnd adx ady
  let blift := lift2 rnd bdx bdy
  let clift := lift2 rnd cdx cdy
  let det := sum3 rnd alift (minor rnd bdx cdy cdx bdy) blift (minor rnd cdx ady adx cdy) clift (minor rnd adx bdy bdx ady)
  let permanent := sum3 rnd (minorPlus rnd bdx cdy cdx bdy) alift (minorPlus rnd cdx ady adx cdy) blift
    (minorPlus rnd adx bdy bdx ady) clift
  decideOr rnd st.iccA permanent det adapt

/-- `x * x + y * y + z * z` in floating point. -/
def lift3 (x y z : ℚ) : ℚ := sum3 rnd x x y y z z

/-- `a * x - b * y + c * z` in floating point. -/
def diff3 (a x b y c z : ℚ) : ℚ := rnd (rnd (rnd (a * x) - rnd (b * y)) + rnd (c * z))

/-- The determinant of `insphere` and `inspherefast` (L3265-3289, L4119-4147) of the differences, which are the rounded ones. -/
def insphereDet (ae be ce de : Pt3) : ℚ :=
  let ⟨aex, aey, aez⟩ := ae
  let ⟨bex, bey, bez⟩ := be
  let ⟨cex, cey, cez⟩ := ce
  let ⟨dex, dey, dez⟩ := de
  let ab := minor rnd aex bey bex aey
  let bc := minor rnd bex cey cex bey
  let cd := minor rnd cex dey dex cey
  let da := minor rnd dex aey aex dey
  let ac := minor rnd aex cey cex aey
  let bd := minor rnd bex dey dex bey
  let abc := diff3 rnd aez bc bez ac cez ab
  let bcd := diff3 rnd bez cd cez bd dez bc
  let cda := sum3 rnd cez da dez ac aez cd
  let dab := sum3 rnd dez ab aez bd bez da
  let alift := lift3 rnd aex aey aez
  let blift := lift3 rnd bex bey bez
  let clift := lift3 rnd cex cey cez
  let dlift := lift3 rnd dex dey dez
  rnd (rnd (rnd (dlift * abc) - rnd (clift * dab)) + rnd (rnd (blift * cda) - rnd (alift * bcd)))

/-- The permanent of `insphere` (L4137-4178) of the differences. -/
def inspherePerm (ae be ce de : Pt3) : ℚ :=
  let ⟨aex, aey, aez⟩ := ae
  let ⟨bex, bey, bez⟩ := be
  let ⟨cex, cey, cez⟩ := ce
  let ⟨dex, dey, dez⟩ := de
  let alift := lift3 rnd aex aey aez
  let blift := lift3 rnd bex bey bez
  let clift := lift3 rnd cex cey cez
  let dlift := lift3 rnd dex dey dez
  let cdP := minorPlus rnd cex dey dex cey
  let dbP := minorPlus rnd dex bey bex dey
  let bdP := minorPlus rnd bex dey dex bey
  let bcP := minorPlus rnd bex cey cex bey
  let daP := minorPlus rnd dex aey aex dey
  let acP := minorPlus rnd aex cey cex aey
  let caP := minorPlus rnd cex aey aex cey
  let abP := minorPlus rnd aex bey bex aey
  let a := rnd (sum3 rnd cdP |bez| dbP |cez| bcP |dez| * alift)
  let b := rnd (sum3 rnd daP |cez| acP |dez| cdP |aez| * blift)
  let c := rnd (sum3 rnd abP |dez| bdP |aez| daP |bez| * clift)
  let d := rnd (sum3 rnd bcP |aez| caP |bez| abP |cez| * dlift)
  rnd (rnd (rnd (a + b) + c) + d)

/-- The differences of the coordinates of `p` and `q` (L4106-4117). -/
def diffs (p q : Pt3) : Pt3 := (rnd (p.1 - q.1), rnd (p.2.1 - q.2.1), rnd (p.2.2 - q.2.2))

/-- `inspherefast` (L3248-3290). -/
def inspherefast (pa pb pc pd pe : Pt3) : ℚ :=
  insphereDet rnd (diffs rnd pa pe) (diffs rnd pb pe) (diffs rnd pc pe) (diffs rnd pd pe)

/-- `insphere` (L4087-4186). -/
def insphere (st : Statics3) (adapt : ℚ → Res ℚ) (pa pb pc pd pe : Pt3) : Res ℚ :=
  let ae := diffs rnd pa pe
  let be := diffs rnd pb pe
  let ce := diffs rnd pc pe
  let de := diffs rnd pd pe
  decideOr rnd st.ispA (inspherePerm rnd ae be ce de) (insphereDet rnd ae be ce de) adapt

end
end Verif.Pred
