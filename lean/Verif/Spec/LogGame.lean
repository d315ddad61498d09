import Verif.Spec.EdGame

/-! # The discrete logarithm problem in the group of Ed25519 -/

namespace CryptoPure.LogGame
open Spec.Ed25519 EdGame

/-- Someone who is given a multiple of the base point `B` and looks for its logarithm; it may toss coins. -/
abbrev Solver := Point → Prog (Option Nat)

/-- The probability that the solver finds the logarithm of `A`. -/
noncomputable def chance (D : Solver) (A : Point) : ℚ := (D A).pr fun r => ∃ z, r = some z ∧ smul z B = A

/-- The probability that it finds the logarithm of a random multiple of `B`. -/
noncomputable def average (D : Solver) : ℚ := (∑ x : Fin L, chance D (smul x B)) / L

/-- Add a random multiple of `B`, call the solver, and subtract. -/
def shifted (D : Solver) : Solver := fun A =>
  scalar.bind fun r => (D (add A (smul r B))).bind fun z => .done (z.map fun z => (z + (L - r)) % L)

end CryptoPure.LogGame
