/-!
# Outcomes of modelled C++ functions

A modelled function either finishes normally, throws because a
`vigra_precondition` failed, runs into undefined behaviour (out-of-bounds access,
null dereference, ...), or does not terminate.
-/

namespace Verif

/-- Result of running a modelled C++ function.  `precond`: a `vigra_precondition`
(or `vigra_fail`) threw; `ub`: undefined behaviour; `hang`: a loop never ends. -/
inductive Outcome (α : Type u) where
  | ok (a : α)
  | precond
  | ub
  | hang
  deriving DecidableEq, Repr

namespace Outcome

/-- Sequencing: anything but `ok` propagates. -/
def bind {α : Type u} {β : Type v} : Outcome α → (α → Outcome β) → Outcome β
  | ok a, f => f a
  | precond, _ => precond
  | ub, _ => ub
  | hang, _ => hang

/-- Value transformation. -/
def map {α : Type u} {β : Type v} (f : α → β) (o : Outcome α) : Outcome β :=
  o.bind (fun a => ok (f a))

instance : Monad Outcome where
  pure := ok
  bind := bind

@[simp] theorem bind_ok {α : Type u} {β : Type v} (a : α) (f : α → Outcome β) : (ok a).bind f = f a := rfl
@[simp] theorem bind_precond {α : Type u} {β : Type v} (f : α → Outcome β) :
    (precond : Outcome α).bind f = precond := rfl
@[simp] theorem bind_ub {α : Type u} {β : Type v} (f : α → Outcome β) : (ub : Outcome α).bind f = ub := rfl
@[simp] theorem bind_hang {α : Type u} {β : Type v} (f : α → Outcome β) :
    (hang : Outcome α).bind f = hang := rfl

theorem bind_eq_ok {α : Type u} {β : Type v} {o : Outcome α} {f : α → Outcome β} {b : β} :
    o.bind f = ok b ↔ ∃ a, o = ok a ∧ f a = ok b := by
  cases o <;> simp [bind]

end Outcome

end Verif
