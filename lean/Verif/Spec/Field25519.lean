import Mathlib.Data.ZMod.Basic
import Mathlib.Algebra.BigOperators.Group.Finset.Basic
import Mathlib.Algebra.Order.Group.Unbundled.Abs

/-! # The field of RFC 7748 §4.1: integers modulo 2^255 - 19 -/

namespace CryptoPure.Spec

/-- The prime `2^255 - 19`. -/
def p25519 : Nat := 2 ^ 255 - 19

/-- Integers modulo `2^255 - 19`. -/
abbrev F := ZMod p25519

/-- The field element held by ten limbs in radix 2^25.5: limb `i` has weight `2^⌈25.5 i⌉`. -/
def limbValue (f : List Int) : F := ∑ i ∈ Finset.range 10, ((f.getD i 0 : Int) : F) * 2 ^ ((51 * i + 1) / 2)

/-- Ten limbs; the even ones at most `n * 1.1 * 2^25` in absolute value, the odd ones at most `n * 1.1 * 2^24`. -/
def LimbBound (n : Nat) (f : List Int) : Prop :=
  f.length = 10 ∧ ∀ i, i < 10 → |f.getD i 0| ≤ n * (if i % 2 = 0 then 36909875 else 18454937)

end CryptoPure.Spec
