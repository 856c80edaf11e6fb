/-
Outcomes of C++ code.

`/repo/src/polytope_internal.hh` L17-37: `POLY_ASSERT` aborts the process when NDEBUG is not defined and is removed
otherwise. The flag `dbg` of the model is `true` when assertions are compiled in. Undefined behaviour (out-of-bounds
`operator[]`, iterator arithmetic outside a container, ...) is the separate outcome `ub`.
-/
namespace Verif

/-- Outcome of running a piece of C++: a value, a failed `POLY_ASSERT`, or undefined behaviour. -/
inductive Res (α : Type u) where
  | ok (a : α)
  | abort
  | ub
  deriving Repr, DecidableEq

namespace Res

/-- Sequencing: the first abort or undefined behaviour ends the run. -/
@[inline] protected def bind {α : Type u} {β : Type v} (x : Res α) (f : α → Res β) : Res β :=
  match x with
  | ok a => f a
  | abort => abort
  | ub => ub

instance : Monad Res where
  pure := ok
  bind := Res.bind

@[simp] theorem pure_eq (a : α) : (pure a : Res α) = ok a := rfl
@[simp] theorem bind_eq (x : Res α) (f : α → Res β) : (x >>= f) = x.bind f := rfl
@[simp] theorem bind_ok (a : α) (f : α → Res β) : (ok a).bind f = f a := rfl
@[simp] theorem bind_abort (f : α → Res β) : (abort : Res α).bind f = abort := rfl
@[simp] theorem bind_ub (f : α → Res β) : (ub : Res α).bind f = ub := rfl

theorem bind_eq_ok {x : Res α} {f : α → Res β} {b : β} :
    x.bind f = ok b ↔ ∃ a, x = ok a ∧ f a = ok b := by
  cases x <;> simp [Res.bind]

theorem bind_assoc' (x : Res α) (f : α → Res β) (g : β → Res γ) :
    (x.bind f).bind g = x.bind (fun a => (f a).bind g) := by
  cases x <;> rfl

instance : LawfulMonad Res := LawfulMonad.mk'
  (id_map := by intro α x; cases x <;> rfl)
  (pure_bind := by intros; rfl)
  (bind_assoc := by intro α β γ x f g; cases x <;> rfl)

/-- `POLY_ASSERT(p)` (`polytope_internal.hh` L17-37). -/
def assert (dbg : Bool) (p : Prop) [Decidable p] : Res Unit :=
  if dbg = true ∧ ¬ p then abort else ok ()

@[simp] theorem assert_true (dbg : Bool) {p : Prop} [Decidable p] (h : p) : assert dbg p = ok () := by
  simp [assert, h]

@[simp] theorem assert_release {p : Prop} [Decidable p] : assert false p = ok () := by
  simp [assert]

theorem assert_debug_false {p : Prop} [Decidable p] (h : ¬ p) : assert true p = abort := by
  simp [assert, h]

theorem assert_eq_ok {dbg : Bool} {p : Prop} [Decidable p] {u : Unit} :
    assert dbg p = ok u ↔ (dbg = true → p) := by
  unfold assert; split <;> simp_all

theorem assert_ne_ub {dbg : Bool} {p : Prop} [Decidable p] : assert dbg p ≠ ub := by
  unfold assert; split <;> simp

end Res

/-- `std::vector::operator[]` as an rvalue: out of bounds is undefined behaviour. -/
def rd (l : List α) (i : Nat) : Res α :=
  match l[i]? with
  | some a => .ok a
  | none => .ub

/-- `v[i] = a`: out of bounds is undefined behaviour. -/
def wr (l : List α) (i : Nat) (a : α) : Res (List α) :=
  if i < l.length then .ok (l.set i a) else .ub

@[simp] theorem rd_lt {l : List α} {i : Nat} (h : i < l.length) : rd l i = .ok l[i] := by
  simp [rd, h]

theorem rd_ge {l : List α} {i : Nat} (h : l.length ≤ i) : rd l i = .ub := by
  simp [rd, h]

theorem rd_eq_ok {l : List α} {i : Nat} {a : α} : rd l i = .ok a ↔ l[i]? = some a := by
  unfold rd; split <;> simp_all

@[simp] theorem wr_lt {l : List α} {i : Nat} {a : α} (h : i < l.length) : wr l i a = .ok (l.set i a) := by
  simp [wr, h]

theorem wr_ge {l : List α} {i : Nat} {a : α} (h : l.length ≤ i) : wr l i a = .ub := by
  simp [wr, Nat.not_lt.2 h]

theorem wr_eq_ok {l l' : List α} {i : Nat} {a : α} : wr l i a = .ok l' ↔ i < l.length ∧ l.set i a = l' := by
  unfold wr; split
  · simp_all
  · rename_i h; simp [h]

end Verif
