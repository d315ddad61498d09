import Verif.Spec.X25519
import Verif.Spec.Ed25519
import Verif.Spec.Prog

/-! # The Diffie-Hellman problem of X25519 -/

namespace CryptoPure.DhGame
open Spec.X25519
open Spec.Ed25519 (L)

/-- Someone who is given two public keys and says what the shared secret is; it may toss coins. -/
abbrev Solver := Bytes → Bytes → Prog (Option Bytes)

/-- The X25519 function of RFC 7748 with the number `r` in place of a clamped scalar. -/
def times (r : Nat) (u : Bytes) : Bytes := encodeU (ladder r (decodeU u))

/-- The u-coordinate of the multiple of the base point by `a`. -/
def point (a : Nat) : Bytes := times a (9 :: zeros 31)

/-- The probability that the solver finds the multiple by `a b` from those by `a` and by `b`. (`L` times the base point is zero.) -/
noncomputable def chance (D : Solver) (a b : Nat) : ℚ := (D (point a) (point b)).pr fun z => z = some (point (a * b % L))

/-- The same for random multiples of the base point, other than zero. -/
noncomputable def average (D : Solver) : ℚ := (∑ a : Fin (L - 1), ∑ b : Fin (L - 1), chance D (a + 1) (b + 1)) / ((L - 1 : Nat) : ℚ) ^ 2

/-- A random number from `1` to `L - 1`. -/
def unit : Prog Nat := .pick (L - 1) fun i => .done (i + 1)

/-- The inverse modulo `L`. -/
def inverse (r : Nat) : Nat := ((r : ZMod L)⁻¹).val

/-- Multiply both public keys by random numbers, call the solver, and divide. -/
def masked (D : Solver) : Solver := fun u w => unit.bind fun r => unit.bind fun s =>
  (D (times r u) (times s w)).bind fun z => .done (z.map (times (inverse (r * s))))

end CryptoPure.DhGame
