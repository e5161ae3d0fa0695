/-!
Outcomes of modelled C functions.

`ok`   : the function returned success (with its results),
`fail` : it returned its error value (-1, NULL, negative errno ...),
`die`  : the process was ended on purpose (`die()`/`pdie()`/`abort()`, util.c:145-170, util.h `die`, `pdie`),
`ub`   : the C code executed undefined behaviour (out-of-bounds access, NULL dereference, ...).
-/
set_option autoImplicit false
namespace Minijail

/-- Outcome of a modelled C function (see the module comment; `die` is util.c:145-170). -/
inductive Res (α : Type) where
  | ok (a : α)
  | fail
  | die
  | ub
  deriving DecidableEq, Repr

namespace Res

/-- Sequencing: a failing statement (`goto out; return -1;`, e.g. syscall_filter.c:628-630) ends the function. -/
def bind {α β : Type} (x : Res α) (f : α → Res β) : Res β :=
  match x with
  | ok a => f a
  | fail => fail
  | die => die
  | ub => ub

instance : Monad Res where
  pure := ok
  bind := bind

@[simp] theorem bind_ok {α β} (a : α) (f : α → Res β) : (Res.ok a >>= f) = f a := rfl
@[simp] theorem bind_fail {α β} (f : α → Res β) : ((Res.fail : Res α) >>= f) = Res.fail := rfl
@[simp] theorem bind_die {α β} (f : α → Res β) : ((Res.die : Res α) >>= f) = Res.die := rfl
@[simp] theorem bind_ub {α β} (f : α → Res β) : ((Res.ub : Res α) >>= f) = Res.ub := rfl
@[simp] theorem pure_eq {α} (a : α) : (pure a : Res α) = Res.ok a := rfl

theorem bind_eq_ok {α β} {x : Res α} {f : α → Res β} {b : β} :
    (x >>= f) = Res.ok b ↔ ∃ a, x = Res.ok a ∧ f a = Res.ok b := by
  cases x <;> simp

/-- A C function that signals its error by a NULL / -1 result, as an outcome. -/
def ofOption {α : Type} : Option α → Res α
  | some a => ok a
  | none => fail

@[simp] theorem ofOption_some {α} (a : α) : ofOption (some a) = ok a := rfl
@[simp] theorem ofOption_none {α} : (ofOption none : Res α) = fail := rfl
theorem ofOption_eq_ok {α} {o : Option α} {a : α} : ofOption o = ok a ↔ o = some a := by
  cases o <;> simp [ofOption]

end Res
end Minijail
