import Mathlib.Algebra.BigOperators.Group.Finset.Basic
import Mathlib.Data.Fintype.Basic
import Mathlib.Data.Rat.Defs
import Mathlib.Algebra.Field.Rat
import Mathlib.Data.Rat.Cast.Defs

/-! # Programs that toss coins -/

namespace CryptoPure

/-- A program that returns an `α`. `pick n next` draws one of `n` numbers, all equally likely, and goes on with `next`. -/
inductive Prog (α : Type) where
  | done (a : α)
  | pick (n : Nat) (next : Fin n → Prog α)

namespace Prog
variable {α β : Type}

/-- Run `p`, then go on with its result. -/
def bind : Prog α → (α → Prog β) → Prog β
  | .done a, f => f a
  | .pick n next, f => .pick n fun i => bind (next i) f

instance : Monad Prog where
  pure := done
  bind := bind

/-- The expectation of `g` of the result. -/
def ex : Prog α → (α → ℚ) → ℚ
  | .done a, g => g a
  | .pick n next, g => (∑ i, ex (next i) g) / n

open Classical in
/-- The probability that the result satisfies `E`. -/
noncomputable def pr (p : Prog α) (E : α → Prop) : ℚ := p.ex fun a => if E a then 1 else 0

/-- Every possible result satisfies `Q`. -/
def All : Prog α → (α → Prop) → Prop
  | .done a, Q => Q a
  | .pick _ next, Q => ∀ i, All (next i) Q

end Prog
end CryptoPure
