import Verif.Spec.Prog
import Mathlib.Data.Finite.Card

/-! # A random element of a finite type -/

namespace CryptoPure.Prog

/-- Draw one of the elements, all equally likely. -/
noncomputable def draw (α : Type) [Finite α] : Prog α := .pick (Nat.card α) fun i => .done ((Finite.equivFin α).symm i)

end CryptoPure.Prog
