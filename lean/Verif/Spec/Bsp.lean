import Verif.Model.Bsp
import Mathlib.Data.Set.Basic
import Mathlib.Algebra.Order.Field.Basic
import Mathlib.Algebra.Order.AbsoluteValue.Basic
/-
What a BSP tree means, and what is expected of the elements and the splitting.
-/
namespace Verif.Csg
open Verif

/-- The geometry of elements and planes: the points of an element, the height of a point above a plane, and the thickness of planes. -/
structure Geo (E P V K : Type) where
  pts : E → Set V
  side : P → V → K
  eps : K

section
variable {E P V K : Type} [Field K] [LinearOrder K]

/-- The points of a list of elements. -/
def Geo.points (G : Geo E P V K) (l : List E) : Set V := {q | ∃ e ∈ l, q ∈ G.pts e}

/-- `q` is strictly outside the solid. A point above a plane belongs to the front tree, a point below it to the back tree, and a point within `eps` of it must be outside according
to both. `d` says how a missing tree counts: what is in front of the last plane is outside, what is behind it is inside. A node without a plane is empty space. -/
def Out (O : Ops E P) (G : Geo E P V K) : Bool → Tree E P → V → Prop
  | d, .nil, _ => d = true
  | _, .node _ p f b, q => O.ok p = true → (-G.eps ≤ G.side p q → Out O G true f q) ∧ (G.side p q ≤ G.eps → Out O G false b q)

/-- `q` is strictly inside the solid. -/
def In (O : Ops E P) (G : Geo E P V K) : Bool → Tree E P → V → Prop
  | d, .nil, _ => d = false
  | _, .node _ p f b, q => O.ok p = true ∧ (-G.eps ≤ G.side p q → In O G true f q) ∧ (G.side p q ≤ G.eps → In O G false b q)

/-- What is expected of flipping. -/
structure FlipLaws (O : Ops E P) (G : Geo E P V K) : Prop where
  ok_flip : ∀ p, O.ok (O.flipP p) = O.ok p
  side_flip : ∀ p q, G.side (O.flipP p) q = - G.side p q
  flip_flip : ∀ p, O.flipP (O.flipP p) = p
  eflip_eflip : ∀ e, O.flipE (O.flipE e) = e

/-- What is expected of the elements in a set `W` and of splitting them. -/
structure SplitLaws (O : Ops E P) (G : Geo E P V K) (W : E → Prop) : Prop extends FlipLaws O G where
  eps_nonneg : 0 ≤ G.eps
  ok_none : O.ok O.none = false
  eflip_wf : ∀ e, W e → W (O.flipE e)
  eflip_pts : ∀ e, G.pts (O.flipE e) = G.pts e
  /-- pieces are good elements and part of what was split -/
  pieces : ∀ p e, W e → ∀ x, x ∈ (O.split p e).coFront ∨ x ∈ (O.split p e).coBack ∨ x ∈ (O.split p e).front ∨ x ∈ (O.split p e).back → W x ∧ G.pts x ⊆ G.pts e
  /-- together they are what was split -/
  cover : ∀ p e, W e → ∀ q ∈ G.pts e, ∃ x, (x ∈ (O.split p e).coFront ∨ x ∈ (O.split p e).coBack ∨ x ∈ (O.split p e).front ∨ x ∈ (O.split p e).back) ∧ q ∈ G.pts x
  /-- they are where they belong -/
  front_side : ∀ p e, W e → ∀ x, x ∈ (O.split p e).coFront ∨ x ∈ (O.split p e).front → ∀ q ∈ G.pts x, -G.eps ≤ G.side p q
  back_side : ∀ p e, W e → ∀ x, x ∈ (O.split p e).coBack ∨ x ∈ (O.split p e).back → ∀ q ∈ G.pts x, G.side p q ≤ G.eps
  /-- an element is in its own plane -/
  own : ∀ e, W e → (O.split (O.plane e) e).front = [] ∧ (O.split (O.plane e) e).back = []
  /-- at most one piece on each side -/
  one : ∀ p e, (O.split p e).front.length ≤ 1 ∧ (O.split p e).back.length ≤ 1

/-- The elements also have planes: none of them is degenerate. -/
structure Laws (O : Ops E P) (G : Geo E P V K) (W : E → Prop) : Prop extends SplitLaws O G W where
  ok_plane : ∀ e, W e → O.ok (O.plane e) = true
end
end Verif.Csg
