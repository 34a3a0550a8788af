/-!
# Observable outcomes of a C++ routine

`ok` normal return, `status` an error `absl::Status` / Python exception that the caller sees,
`abort` process termination by `CHECK`/`LOG(FATAL)`, `throws` an uncaught C++ exception,
`ub` undefined behaviour (out-of-bounds access, empty optional dereferenced, ...).
-/
namespace Verif

inductive Outcome (α : Type) where
  | ok (a : α)
  | status (msg : String)
  | abort (msg : String)
  | throws (msg : String)
  | ub (what : String)
  deriving Repr, DecidableEq

namespace Outcome

def bind {α β : Type} (x : Outcome α) (f : α → Outcome β) : Outcome β :=
  match x with
  | ok a => f a
  | status m => status m
  | abort m => abort m
  | throws m => throws m
  | ub w => ub w

instance : Monad Outcome where
  pure := ok
  bind := bind

/-- the call returned normally -/
def IsOk {α : Type} (x : Outcome α) : Prop := ∃ a, x = ok a

/-- the call has defined behaviour -/
def Defined {α : Type} (x : Outcome α) : Prop := ∀ w, x ≠ ub w

@[simp] theorem pure_eq {α : Type} (a : α) : (pure a : Outcome α) = ok a := rfl
@[simp] theorem bind_ok {α β : Type} (a : α) (f : α → Outcome β) : (ok a >>= f) = f a := rfl
@[simp] theorem bind_status {α β : Type} (m : String) (f : α → Outcome β) :
    ((status m : Outcome α) >>= f) = status m := rfl
@[simp] theorem bind_abort {α β : Type} (m : String) (f : α → Outcome β) :
    ((abort m : Outcome α) >>= f) = abort m := rfl
@[simp] theorem bind_throws {α β : Type} (m : String) (f : α → Outcome β) :
    ((throws m : Outcome α) >>= f) = throws m := rfl
@[simp] theorem bind_ub {α β : Type} (m : String) (f : α → Outcome β) :
    ((ub m : Outcome α) >>= f) = ub m := rfl

end Outcome
end Verif
