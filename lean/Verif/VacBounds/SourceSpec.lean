import Verif.VacBounds.SourceModel
import Verif.VacBounds.Spec

/-!
# What it means that all accesses are in range (second set of arrays)
-/
namespace Verif.VacSrc
open Verif.VacBounds (Env In)

/-- every access of the list is to an existing element -/
def Safe (E : Env) (l : List Acc) : Prop :=
  ∀ x ∈ l, List.Forall₂ In x.idx (dims E x.arr)

/-- access of the table of the Green's function derivative -/
def isGreen : Acc → Bool
  | ⟨.greenp, _⟩ => true
  | _ => false

/-- access of the normal component of the field -/
def isNormalField : Acc → Bool
  | ⟨.bDotN, _⟩ => true
  | _ => false

end Verif.VacSrc
