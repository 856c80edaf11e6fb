import Verif.Model.Cxx
/-
Model of the BSP trees of `/repo/src/PLC_CSG_2d.hh` L229-372 and `/repo/src/PLC_CSG_3d.hh` L235-377. The two files contain the same code, with segments and lines in one and
polygons and planes in the other; here the elements `E`, the planes `P` and the operations on them are parameters.
-/
namespace Verif.Csg
open Verif

/-- Where `splitSegment`/`splitPolygon` put an element or its pieces. -/
structure Parts (E : Type) where
  coFront : List E := []
  coBack : List E := []
  front : List E := []
  back : List E := []

/-- Elements, planes, and the operations of the two files on them. -/
structure Ops (E P : Type) where
  /-- `Line::ok`, `Plane::ok` -/
  ok : P → Bool
  /-- `Line::flip`, `Plane::flip` -/
  flipP : P → P
  /-- `Segment::flip`, `Polygon::flip` -/
  flipE : E → E
  /-- the member `line`, `plane` of an element -/
  plane : E → P
  /-- the default constructor -/
  none : P
  /-- `splitSegment`, `splitPolygon` -/
  split : P → E → Parts E

/-- `Node`. `nil` is a null pointer. At the root `nil` is also a node made from an empty list, without a plane and without children; every operation below treats the two in
the same way there. -/
inductive Tree (E P : Type) where
  | nil
  | node (els : List E) (plane : P) (front back : Tree E P)

variable {E P : Type} (O : Ops E P)

/-- `Node::invert` (2D L289-295, 3D L294-300). -/
def invert : Tree E P → Tree E P
  | .nil => .nil
  | .node els p f b => .node (els.map O.flipE) (O.flipP p) (invert b) (invert f)

/-- The elements that go to the front list of `clipSegments`, and to the back list (2D L303-306). -/
def clipFront (p : P) (l : List E) : List E := l.flatMap fun e => (O.split p e).coFront ++ (O.split p e).front
def clipBack (p : P) (l : List E) : List E := l.flatMap fun e => (O.split p e).coBack ++ (O.split p e).back

/-- `Node::clipSegments` (2D L300-313), `Node::clipPolygons` (3D L304-319). A call on a null pointer does not occur: a null front child keeps the list, a null back child
drops it. -/
def clip : Tree E P → List E → List E
  | .nil, l => l
  | .node _ p f b, l =>
    if !O.ok p then l
    else
      let back := match b with
        | .nil => []
        | b => clip b (clipBack O p l)
      clip f (clipFront O p l) ++ back

/-- `Node::clipTo` (2D L317-322, 3D L323-328). -/
def clipTo (other : Tree E P) : Tree E P → Tree E P
  | .nil => .nil
  | .node els p f b => .node (clip O other els) p (clipTo other f) (clipTo other b)

/-- `Node::allSegments` (2D L326-334), `Node::allPolygons` (3D L332-341). -/
def all : Tree E P → List E
  | .nil => []
  | .node els _ f b => els ++ all f ++ all b

/-- `Node::build` (2D L351-366, 3D L358-373), with a bound on the depth of the recursion: `none` means that the bound was reached. -/
def build : Nat → Tree E P → List E → Option (Tree E P)
  | _, t, [] => some t
  | 0, _, _ :: _ => none
  | n + 1, t, e :: l =>
    match (match t with
      | .nil => ([], O.none, .nil, .nil)
      | .node els p f b => (els, p, f, b) : List E × P × Tree E P × Tree E P) with
    | (els, p, f, b) =>
      let p := if O.ok p then p else O.plane e
      let co := (e :: l).flatMap fun x => (O.split p x).coFront ++ (O.split p x).coBack
      let lf := (e :: l).flatMap fun x => (O.split p x).front
      let lb := (e :: l).flatMap fun x => (O.split p x).back
      match build n f lf, build n b lb with
      | some f, some b => some (.node (els ++ co) p f b)
      | _, _ => none

/-- `csg_union` (2D L233-246, 3D L239-252). `clone` copies. -/
def unionT (n : Nat) (a b : Tree E P) : Option (Tree E P) :=
  let a := clipTo O b a
  let b := clipTo O a b
  let b := invert O b
  let b := clipTo O a b
  let b := invert O b
  (build O n a (all b)).bind fun a => build O n .nil (all a)

/-- `csg_subtract` (2D L251-266, 3D L257-272). -/
def subtractT (n : Nat) (a b : Tree E P) : Option (Tree E P) :=
  let a := invert O a
  let a := clipTo O b a
  let b := clipTo O a b
  let b := invert O b
  let b := clipTo O a b
  let b := invert O b
  (build O n a (all b)).bind fun a => build O n .nil (all (invert O a))

/-- `csg_intersect` (2D L271-285, 3D L277-291). -/
def intersectT (n : Nat) (a b : Tree E P) : Option (Tree E P) :=
  let a := invert O a
  let b := clipTo O a b
  let b := invert O b
  let a := clipTo O b a
  let b := clipTo O a b
  (build O n a (all b)).bind fun a => build O n .nil (all (invert O a))

end Verif.Csg
