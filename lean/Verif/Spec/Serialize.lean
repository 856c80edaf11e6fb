import Verif.Model.Serialize
/-
Specification side of serialization: which values the 32-bit length fields can represent.
-/
namespace Verif.Serialize

/-- Every container inside the value has fewer than 2^32 elements. -/
def Fits : (t : Ty) → t.denote → Prop
  | .prim _, _ => True
  | .vec t, v => v.length < 2 ^ 32 ∧ ∀ a ∈ v, Fits t a
  | .point2 _, _ => True
  | .point3 _, _ => True
  | .seg t, v => Fits t v.1 ∧ Fits t v.2
  | .plc, v =>
    (v.facets.length < 2 ^ 32 ∧ ∀ f ∈ v.facets, f.length < 2 ^ 32) ∧
    (v.holes.length < 2 ^ 32 ∧ ∀ h ∈ v.holes, h.length < 2 ^ 32 ∧ ∀ f ∈ h, f.length < 2 ^ 32)
  | .rplc, v =>
    (v.facets.length < 2 ^ 32 ∧ ∀ f ∈ v.facets, f.length < 2 ^ 32) ∧
    (v.holes.length < 2 ^ 32 ∧ ∀ h ∈ v.holes, h.length < 2 ^ 32 ∧ ∀ f ∈ h, f.length < 2 ^ 32) ∧
    v.points.length < 2 ^ 32

/-- Every value of a message fits. -/
def MsgFits (m : Msg) : Prop := ∀ x ∈ m, Fits x.1 x.2

end Verif.Serialize
