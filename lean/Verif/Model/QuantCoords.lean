import Verif.Model.Quant
import Verif.Model.Ray
/-
Model of the class `QuantizedCoordinates<Dimension, RealType>`: `/repo/src/QuantizedCoordinates.hh`. A point is a function of its axis; `CoordHash` is `int`
(`/repo/src/KeyTraits.hh` L15). Reals are exact. `mVerbose`, which only prints, is left out. Loops over the axes whose bodies only assert are one assertion.
The constructor that takes points calls an overload of `initialize` that does not exist and cannot be instantiated; it is not modelled.
-/
namespace Verif.QC
open Verif Verif.Geom Verif.Mesh

/-- `RealPoint` in `d` dimensions. -/
abbrev Pt (d : Nat) := Fin d → ℝ

/-- The member variables (L33-59), and `points` and `facets` of the base class. -/
structure State (d : Nat) where
  lowIn : Pt d
  highIn : Pt d
  lowOut : Pt d
  highOut : Pt d
  delta : ℝ
  rIn : ℝ
  rOut : ℝ
  centre : Pt d
  deg : ℝ
  coordMax : Int
  modified : Bool
  two : Bool
  points : List ℝ
  facets : List (List Nat)

variable {d : Nat}

/-- `clear` (L102-116): `mDegeneracy` and `mCoordMax` keep their values, whatever these are. -/
def clear (s : State d) : State d :=
  { s with lowIn := 0, highIn := 0, lowOut := 0, highOut := 0, centre := 0, rIn := 0, rOut := 0, delta := 0, modified := false, two := false, points := [], facets := [] }

/-- `degeneracy(x)` (L122-125). -/
def setDegeneracy (x : ℝ) (s : State d) : State d := { s with deg := x, modified := true }

/-- `infiniteRadius` (L135). -/
noncomputable def infiniteRadius (s : State d) : ℝ := max s.rIn s.rOut

open Classical in
/-- The loop L166-174, from some axis on. -/
noncomputable def radiusLoop (dbg : Bool) (low high : Pt d) : List (Fin d) → ℝ → Res ℝ
  | [], r => .ok r
  | j :: js, r => do
    Res.assert dbg (low j ≤ high j)
    let c := 1 / 2 * (high j + low j)
    let r := max r (3 / 4 * (high j - low j))
    Res.assert dbg (c - r < low j ∧ c + r > high j)
    radiusLoop dbg low high js r

open Classical in
/-- `computeBoundsFromRadius` (L429-439). -/
noncomputable def boundsFromRadius (dbg : Bool) (r : ℝ) (c low high : Pt d) : Res (Pt d × Pt d) := do
  Res.assert dbg (r > 0)
  let low' : Pt d := fun j => min (low j) (c j - r)
  let high' : Pt d := fun j => max (high j) (c j + r)
  Res.assert dbg (∀ j, low' j ≤ high' j)
  return (low', high')

/-- `setMaximumCoordinate` (L446-460), with `CoordHash` an `int`: the maximum coordinate. `POLY_VERIFY2` is always compiled in. -/
noncomputable def maximumCoordinate (size deg : ℝ) : Res Int :=
  if deg = 0 then .ub
  else do
    let m ← toInt (⌈size / deg⌉ : ℝ)
    if m < 2147483647 then .ok m else .abort

/-- The points of `storeBoundsAsPLCData` (L360-381) for two and three dimensions. -/
def boxPoints2 (low high : Pt 2) : List ℝ := [low 0, low 1, high 0, low 1, high 0, high 1, low 0, high 1]
def boxPoints3 (low high : Pt 3) : List ℝ :=
  [low 0, low 1, low 2, high 0, low 1, low 2, high 0, high 1, low 2, low 0, high 1, low 2, low 0, low 1, high 2, high 0, low 1, high 2, high 0, high 1, high 2, low 0, high 1, high 2]

/-- The facets in two dimensions (L366-369). -/
def boxFacets2 : List (List Nat) := (List.range 4).map fun j => [j, (j + 1) % 4]

/-- The facets in three dimensions (L383-389): six facets of zeros, then six assignments, all of them to facet 0. -/
def boxFacets3 : List (List Nat) :=
  [[0, 1, 2, 3], [4, 5, 6, 7], [0, 1, 5, 4], [2, 6, 7, 3], [0, 4, 7, 3], [1, 5, 6, 2]].foldl (fun fs f => fs.set 0 f) (List.replicate 6 (List.replicate 4 0))

/-- `storeBoundsAsPLCData` (L357-393). -/
def storeBounds : {d : Nat} → State d → State d
  | 2, s => { s with points := boxPoints2 s.lowIn s.highIn, facets := boxFacets2 }
  | 3, s => { s with points := boxPoints3 s.lowIn s.highIn, facets := boxFacets3 }
  | _, s => s

/-- The box of `globalBox` as two points. -/
def lowOf (box : List (ℝ × ℝ)) : Pt d := fun j => (box.getD j (0, 0)).1
def highOf (box : List (ℝ × ℝ)) : Pt d := fun j => (box.getD j (0, 0)).2

/-- The centre (L398-405 and again L168). -/
noncomputable def centreOf (low high : Pt d) : Pt d := fun j => 1 / 2 * (low j + high j)

open Classical in
/-- `initialize` (L145-189): `procs` are the coordinates on each process, and the state that results is that of every process. The test L150 is always true after `clear`. -/
noncomputable def init (dbg : Bool) (big : ℝ) (procs : List (List ℝ)) (degeneracy : ℝ) (s : State d) : Res (State d) := do
  let s := clear s
  let s := if s.modified then s else { s with deg := degeneracy, delta := degeneracy }
  let box ← globalBox dbg big d procs
  let low : Pt d := lowOf box
  let high : Pt d := highOf box
  Res.assert dbg (∀ j, low j ≤ high j)
  let c := centreOf low high
  let r ← radiusLoop dbg low high (List.finRange d) 0
  let b ← boundsFromRadius dbg r c low high
  let m ← maximumCoordinate (2 * r) s.deg
  let s := storeBounds { s with lowIn := b.1, highIn := b.2, centre := c, rIn := r, coordMax := m, modified := false }
  return { s with lowOut := s.lowIn, highOut := s.highIn, rOut := s.rIn }

open Classical in
/-- The loop L222-231 of `expand`, from some axis on: `boxHalf`. -/
noncomputable def halfLoop (dbg : Bool) (s : State d) (plow phigh : Pt d) : List (Fin d) → ℝ → Res ℝ
  | [], h => .ok h
  | j :: js, h => do
    Res.assert dbg (plow j ≤ phigh j)
    Res.assert dbg (s.centre j ≤ max (phigh j) (s.highOut j))
    Res.assert dbg (s.centre j ≥ min (plow j) (s.lowOut j))
    let h := max h (max (phigh j) (s.highOut j) - s.centre j)
    let h := max h (s.centre j - min (plow j) (s.lowOut j))
    halfLoop dbg s plow phigh js h

open Classical in
/-- `expand` up to the reduction (L208-237) on one process: the new box, which starts as two default points, and the new radius. -/
noncomputable def grow (dbg : Bool) (s : State d) (plow phigh : Pt d) : Res ((Pt d × Pt d) × ℝ) := do
  Res.assert dbg (s.points ≠ [] ∧ s.facets ≠ [])
  Res.assert dbg (s.rOut ≠ 0)
  Res.assert dbg (∀ j, plow j ≤ phigh j)
  let h ← halfLoop dbg s plow phigh (List.finRange d) 0
  let r := max s.rOut (3 * h)
  let b ← boundsFromRadius dbg r s.centre 0 0
  return (b, r)

open Classical in
/-- The rest of `expand` (L248-273). -/
noncomputable def adopt (dbg two : Bool) (s : State d) (low high : Pt d) (r : ℝ) : Res (State d) := do
  let s' ← if two then pure { s with lowOut := low, highOut := high, rOut := r, two := true, modified := false }
    else do
      let m ← maximumCoordinate (2 * r) s.deg
      pure { s with lowIn := low, highIn := high, rIn := r, lowOut := low, highOut := high, rOut := r, two := false, coordMax := m, modified := false }
  Res.assert dbg (s'.rOut > 0)
  return s'

/-- `expand` (L208-274) without MPI. -/
noncomputable def expand (dbg two : Bool) (s : State d) (plow phigh : Pt d) : Res (State d) := do
  let g ← grow dbg s plow phigh
  adopt dbg two s g.1.1 g.1.2 g.2

/-- `expand` with MPI (L239-246) on processes in the same state, each with its own bounds: the state of every process. -/
noncomputable def expandMPI [NeZero d] (dbg two : Bool) (s : State d) (procs : List (Pt d × Pt d)) : Res (State d) := do
  let gs ← procs.mapM fun p => grow dbg s p.1 p.2
  let low : Pt d := fun j => allReduce min (gs.map fun g => g.1.1 j)
  let high : Pt d := fun j => allReduce max (gs.map fun g => g.1.2 j)
  adopt dbg two s low high (1 / 2 * (high 0 - low 0))

/-- `isInner` (L300-309). -/
def isInner (s : State d) (p : Pt d) : Prop := s.two = false ∨ ∀ j, s.lowIn j ≤ p j ∧ p j ≤ s.highIn j

open Classical in
/-- `quantize` (L315-319): the coordinates of the point, one axis at a time (`Point.hh` L39-45, L114-121). -/
noncomputable def quantize (dbg : Bool) (s : State d) (p : Pt d) : Res (List Int) := do
  Res.assert dbg (isInner s p)
  Res.assert dbg (s.modified = false)
  (List.finRange d).mapM fun j => pointCoord (p j) (s.lowIn j) s.delta

open Classical in
/-- `dequantize` (L325-334). -/
noncomputable def dequantize (dbg : Bool) (s : State d) (k : Fin d → Int) : Res (Pt d) := do
  Res.assert dbg (s.modified = false)
  let p : Pt d := fun j => s.lowIn j + (k j : ℝ) * s.delta
  Res.assert dbg (isInner s p)
  return p

/-- `projectPoint` (L340-349) in two dimensions. -/
noncomputable def projectPoint (dbg : Bool) (s : State 2) (p n : V2 ℝ) : Res (V2 ℝ) := rayCircle dbg p n ⟨s.centre 0, s.centre 1⟩ s.rOut s.delta
end Verif.QC
