import Verif.Model.Clipper
import Mathlib.Data.Set.Lattice
/- What a user of `Clipper2d` relies on, in terms of the areas of rings. -/
namespace Verif.Clipper
variable {P : Type}

/-- Boost.Geometry answers rightly: `area r` is the closed area that the ring `r` bounds and `domain` the boundary polygon with its interior. -/
structure Right (B : Boost P) (area : List P → Set P) (domain : Set P) : Prop where
  vertex : ∀ r, ∀ x ∈ r, x ∈ area r
  intersects : ∀ r, B.intersects r = true ↔ (area r ∩ domain).Nonempty
  pieces : ∀ r, ⋃ q ∈ B.intersection r, area q = area r ∩ domain
  covered : ∀ x r, B.coveredBy x r = true ↔ x ∈ area r
  correct : ∀ r, area (B.correct r) = area r
  within : ∀ x, B.within x = true → x ∈ domain

/-- The cell and the orphans that `clipCell` added to the `old` ones are together the part of the area in the domain. -/
def NothingLost (area : List P → Set P) (domain : Set P) (ring : List P) (old : List (List P)) (result : List P × List (List P)) : Prop :=
  ∃ new, result.2 = old ++ new ∧ area result.1 ∪ ⋃ q ∈ new, area q = area ring ∩ domain
end Verif.Clipper
