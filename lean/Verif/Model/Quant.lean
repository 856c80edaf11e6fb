import Verif.Model.Box
import Verif.Model.Hull
/-
Model of the integer coordinates: `/repo/src/QuantizedTessellation2d.cc`, `/repo/src/QuantizedTessellation3d.cc` (for `IntType = int`, 32 bits), and the quantizing
constructors of `/repo/src/Point.hh`. Reals are exact; division by zero followed by a conversion to `int` is undefined behaviour.
-/
namespace Verif.Geom
open Verif Verif.Mesh

/-- `int` addition: signed overflow is undefined behaviour. -/
def addInt (a b : Int) : Res Int := if -2147483648 ≤ a + b ∧ a + b ≤ 2147483647 then .ok (a + b) else .ub

/-- `IntType(num/den)`. -/
noncomputable def divToInt (num den : ℝ) : Res Int := if den = 0 then .ub else toInt (num / den)

/-- `coordMin`, `coordMax` in 2D (`QuantizedTessellation2d.cc` L164-170): `min()/2` and `max()/2`. -/
def cmin2 : Int := -1073741824
def cmax2 : Int := 1073741823
/-- In 3D (`QuantizedTessellation3d.cc` L117-123): `min()/3` and `max()/3`. -/
def cmin3 : Int := -715827882
def cmax3 : Int := 715827882

/-- The spacing `length/(coordMax - coordMin)`. -/
noncomputable def quantum (cmin cmax : Int) (length : ℝ) : ℝ := length / ((cmax - cmin : Int) : ℝ)

/-- One coordinate of `quantize` (2D L77-81, 3D L61-66). -/
noncomputable def quantize1 (cmin cmax : Int) (length xmin x : ℝ) : Res Int := do
  let k ← divToInt (x - xmin) (quantum cmin cmax length)
  addInt cmin k

/-- One coordinate of `dequantize` (2D L88-92, 3D L73-78). The subtraction of two coordinates in range does not overflow. -/
noncomputable def dequantize1 (cmin cmax : Int) (length xmin : ℝ) (k : Int) : ℝ := xmin + ((k - cmin : Int) : ℝ) * quantum cmin cmax length

/-- `IntPoint`: coordinates and index. -/
structure IPt where
  x : Int
  y : Int
  index : Nat
  deriving DecidableEq, Repr

/-- `QuantizedTessellation2d` (`.hh` L19-31). `xmax`, which is only used by the constructors, is left out. -/
structure QT where
  xmin : ℝ
  ymin : ℝ
  length : ℝ
  generators : List IPt := []
  guards : List IPt := []
  nodes : List IPt := []
  edges : List (Int × Int) := []
  cellEdges : List (List Int) := []

/-- The loop L144-147 of `construct`, from generator `i` on. -/
noncomputable def quantizeAll (length xmin ymin : ℝ) : List (ℝ × ℝ) → Nat → Res (List IPt)
  | [], _ => .ok []
  | p :: ps, i => do
    let x ← quantize1 cmin2 cmax2 length xmin p.1
    let y ← quantize1 cmin2 cmax2 length ymin p.2
    let rest ← quantizeAll length xmin ymin ps (i + 1)
    return ⟨x, y, i⟩ :: rest

/-- The guard generators L148-157. `coordMin + ix*dx` is computed in 32-bit unsigned arithmetic and converted back. -/
def guardCoord (ix : Nat) : Int := (cmin2 + ix * ((cmax2 - cmin2) / 2)).bmod (2 ^ 32)
def guardGens (k : Nat) : List IPt :=
  (List.range 3).flatMap fun ix => [⟨guardCoord ix, cmin2, k + 4 * ix⟩, ⟨guardCoord ix, cmax2, k + 4 * ix + 1⟩, ⟨cmin2, guardCoord ix, k + 4 * ix + 2⟩, ⟨cmax2, guardCoord ix, k + 4 * ix + 3⟩]

/-- `construct` (L138-159). The flat coordinate list is a list of points, so its assertion holds. -/
noncomputable def constructQT (length xmin ymin : ℝ) (points : List (ℝ × ℝ)) : Res QT := do
  let gens ← quantizeAll length xmin ymin points 0
  return { xmin := xmin, ymin := ymin, length := length, generators := gens, guards := guardGens points.length }

/-- First constructor (L21-34): `boundary` is the list of boundary coordinates each process passes. -/
noncomputable def boundaryQT (dbg : Bool) (big : ℝ) (boundary : List (List ℝ)) (points : List (ℝ × ℝ)) : Res QT := do
  let box ← globalBox dbg big 2 boundary
  let bx ← rd box 0
  let by' ← rd box 1
  let length := max (bx.2 - bx.1) (by'.2 - by'.1)
  constructQT (length * 5) (bx.1 - 2 * length) (by'.1 - 2 * length) points

/-- Second constructor (L39-50). -/
noncomputable def boundsQT (xlo ylo xhi yhi : ℝ) (points : List (ℝ × ℝ)) : Res QT := constructQT (max (xhi - xlo) (yhi - ylo)) xlo ylo points

/-- `quantize` and `dequantize` in 3D. -/
noncomputable def quantize3 (length : ℝ) (lo p : V3 ℝ) : Res (Int × Int × Int) := do
  let x ← quantize1 cmin3 cmax3 length lo.x p.x
  let y ← quantize1 cmin3 cmax3 length lo.y p.y
  let z ← quantize1 cmin3 cmax3 length lo.z p.z
  return (x, y, z)

open Classical in
/-- `construct` in 3D (`QuantizedTessellation3d.cc` L92-107), with its final assertion "Implement 3D guard generators!". -/
noncomputable def construct3 (dbg : Bool) (length : ℝ) (lo hi : V3 ℝ) (points : List (V3 ℝ)) : Res (List (Int × Int × Int)) := do
  Res.assert dbg (|hi.x - lo.x - length| < 1 / 10 ^ 10 * length)
  Res.assert dbg (|hi.y - lo.y - length| < 1 / 10 ^ 10 * length)
  Res.assert dbg (|hi.z - lo.z - length| < 1 / 10 ^ 10 * length)
  let gens ← points.mapM (quantize3 length lo)
  Res.assert dbg False
  return gens

/-- Second constructor in 3D (L41-53). The length ignores z, as written. -/
noncomputable def bounds3 (dbg : Bool) (lo hi : V3 ℝ) (points : List (V3 ℝ)) : Res (List (Int × Int × Int)) := construct3 dbg (max (hi.x - lo.x) (hi.y - lo.y)) lo hi points

/-- First constructor in 3D (L21-36), given the bounding box of the boundary. -/
noncomputable def boundary3 (dbg : Bool) (lo hi : V3 ℝ) (points : List (V3 ℝ)) : Res (List (Int × Int × Int)) :=
  let length := max (hi.x - lo.x) (max (hi.y - lo.y) (hi.z - lo.z))
  construct3 dbg (length * 5) ⟨lo.x - 2 * length, lo.y - 2 * length, lo.z - 2 * length⟩ ⟨hi.x + 2 * length, hi.y + 2 * length, hi.z + 2 * length⟩ points

/-- One coordinate of the quantizing constructor of `Point2`, `Point3` (`Point.hh` L39-45, L114-121) and of `realx` (L46, L122). -/
noncomputable def pointCoord (xi xlow dx : ℝ) : Res Int := if dx = 0 then .ub else toInt ((xi - xlow) / dx + 1 / 2)
def realCoord (xmin dx : ℝ) (k : Int) : ℝ := k * dx + xmin

/-! ### Reading out the mesh (`fillTessellation`, L99-131) -/

/-- Inner loop L119-128 for cell `i`. `n` is `numFaces`. -/
def fillCell (dbg : Bool) (n i : Nat) : List Int → List (List Int) → Res (List (List Int))
  | [], fc => .ok fc
  | k :: ks, fc => do
    if k < 0 then
      Res.assert dbg ((flip k).toNat < n)
      let l ← rd fc (flip k).toNat
      let fc ← wr fc (flip k).toNat (l ++ [flip i])
      fillCell dbg n i ks fc
    else
      Res.assert dbg (k.toNat < n)
      let l ← rd fc k.toNat
      let fc ← wr fc k.toNat (l ++ [(i : Int)])
      fillCell dbg n i ks fc

/-- Outer loop L117-130 over the generators, from `i` on, `todo` of them left: cell `i` must exist. -/
def fillCells (dbg : Bool) (n : Nat) (cells : List (List Int)) : Nat → Nat → List (List Int) → Res (List (List Int))
  | _, 0, fc => .ok fc
  | i, todo + 1, fc => do
    let c ← rd cells i
    let fc ← fillCell dbg n i c fc
    fillCells dbg n cells (i + 1) todo fc

/-- `vector::resize(n)` (or with a fill value). -/
def resizeTo {α : Type} (l : List α) (n : Nat) (v : α) : List α := l.take n ++ List.replicate (n - l.length) v

/-- `fillTessellation` into the mesh `m`. Edge ends, `int`s stored into `unsigned`s, are not negative here (`toNat`). A face left over in `m` with fewer
than two entries is written out of bounds. -/
noncomputable def fillTess (dbg : Bool) (q : QT) (m : Tess ℝ) : Res (Tess ℝ) := do
  let faces := resizeTo m.faces q.edges.length [0, 0]
  Res.assert dbg (∀ F ∈ faces, F.length = 2)
  if ∃ F ∈ faces, F.length < 2 then .ub
  let fc ← fillCells dbg q.edges.length q.cellEdges 0 q.generators.length (resizeTo m.faceCells q.edges.length [])
  return { m with
    nodes := q.nodes.flatMap fun p => [dequantize1 cmin2 cmax2 q.length q.xmin p.x, dequantize1 cmin2 cmax2 q.length q.ymin p.y]
    faces := List.zipWith (fun (F : List Nat) (e : Int × Int) => e.1.toNat :: e.2.toNat :: F.drop 2) faces q.edges
    faceCells := fc
    cells := q.cellEdges }
end Verif.Geom
