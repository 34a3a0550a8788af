import Verif.Common.Outcome

namespace Verif

instance : LawfulMonad Outcome := LawfulMonad.mk' _
  (id_map := fun x => by cases x <;> rfl)
  (pure_bind := fun _ _ => rfl)
  (bind_assoc := fun x _ _ => by cases x <;> rfl)

end Verif
