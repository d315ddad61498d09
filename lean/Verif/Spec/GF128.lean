import Mathlib.RingTheory.AdjoinRoot
import Mathlib.Algebra.Field.ZMod

/-! # The ring GF(2)[x]/(x^128+x^7+x^2+x+1) in which GHASH computes, and the meaning of a block in it -/

namespace CryptoPure.Spec.GF128
open Polynomial

/-- `x^128 + x^7 + x^2 + x + 1`. -/
noncomputable def g : (ZMod 2)[X] := X ^ 128 + X ^ 7 + X ^ 2 + X + 1

/-- `GF(2)[x] / (x^128 + x^7 + x^2 + x + 1)`. -/
abbrev K := AdjoinRoot g

noncomputable abbrev α : K := AdjoinRoot.root g

/-- The ring element whose coefficient of `x^i` is bit `i` of the block, counted from the left. -/
noncomputable def elt (v : BitVec 128) : K := ∑ i ∈ Finset.range 128, if v.getMsbD i then α ^ i else 0

end CryptoPure.Spec.GF128
