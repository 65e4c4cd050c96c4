/-!
# Outcomes

C++ functions of DNDSR either return, abort (`DNDS_assert`, `DNDS_check_throw`, uncaught
exception) or have undefined behaviour.  `Res` keeps the three apart so that no theorem can be
true only because an abort or UB was replaced by a default value.

Models: `DNDS_assert` / `DNDS_assert_info` in `src/DNDS/Defines.hpp:83-95` (active unless
`DNDS_NDEBUG`), which print and call `std::abort`.
-/

namespace DNDSR

/-- Outcome of a modelled C++ call. -/
inductive Res (α : Type u) where
  /-- normal return -/
  | ok (a : α)
  /-- the program stops: assertion, thrown exception or `std::abort` -/
  | abort
  /-- undefined behaviour -/
  | ub
  deriving Repr, DecidableEq

namespace Res

def bind {α : Type u} {β : Type v} (x : Res α) (f : α → Res β) : Res β :=
  match x with
  | ok a => f a
  | abort => abort
  | ub => ub

instance : Monad Res where
  pure := ok
  bind := bind

@[simp] theorem pure_eq {α : Type u} (a : α) : (pure a : Res α) = ok a := rfl
@[simp] theorem ok_bind {α β : Type u} (a : α) (f : α → Res β) : (ok a >>= f) = f a := rfl
@[simp] theorem abort_bind {α β : Type u} (f : α → Res β) : ((abort : Res α) >>= f) = abort := rfl
@[simp] theorem ub_bind {α β : Type u} (f : α → Res β) : ((ub : Res α) >>= f) = ub := rfl
@[simp] theorem bind_ok_iff {α β : Type u} (x : Res α) (f : α → Res β) (b : β) :
    (x >>= f) = ok b ↔ ∃ a, x = ok a ∧ f a = ok b := by
  cases x <;> simp

@[simp] theorem bind_ub_iff {α β : Type u} (x : Res α) (f : α → Res β) :
    (x >>= f) = ub ↔ x = ub ∨ ∃ a, x = ok a ∧ f a = ub := by
  cases x <;> simp

@[simp] theorem bind_abort_iff {α β : Type u} (x : Res α) (f : α → Res β) :
    (x >>= f) = abort ↔ x = abort ∨ ∃ a, x = ok a ∧ f a = abort := by
  cases x <;> simp

/-- Models `DNDS_assert(c)`, `src/DNDS/Defines.hpp:83-95`. -/
def assert (c : Prop) [Decidable c] : Res Unit := if c then ok () else abort

@[simp] theorem assert_ok_iff (c : Prop) [Decidable c] (u : Unit) : assert c = ok u ↔ c := by
  unfold assert; split <;> simp_all

@[simp] theorem assert_ne_ub (c : Prop) [Decidable c] : assert c ≠ ub := by
  unfold assert; split <;> simp

@[simp] theorem assert_abort_iff (c : Prop) [Decidable c] : assert c = abort ↔ ¬ c := by
  unfold assert; split <;> simp_all

theorem assert_true (c : Prop) [Decidable c] (h : c) : assert c = ok () := by simp [h]

/-- the call returned normally -/
def isOk {α : Type u} : Res α → Prop
  | ok _ => True
  | _ => False

end Res
end DNDSR
