import Verif.Basic
import Mathlib.Logic.Equiv.Defs

/-! # Attacks on a hash function built from a block cipher

The blocks of the message are the keys of the cipher. The attacker may encipher and decipher under any key, as often as it likes, each time with
arguments that may depend on all earlier answers. -/

namespace CryptoPure.CipherGame

variable {w : Nat} {R : Type}

/-- The Davies-Meyer construction: the chaining value is enciphered with the message block as the key, and added to the result. -/
def daviesMeyer (e : Bytes → Oct w → Oct w) : Oct w → Bytes → Oct w := fun H b => H.add (e b H)

/-- An attacker that enciphers and deciphers, and ends with some result. -/
inductive Prober (w : Nat) (R : Type) where
  | stop (result : R)
  | encipher (key : Bytes) (x : Oct w) (next : Oct w → Prober w R)
  | decipher (key : Bytes) (y : Oct w) (next : Oct w → Prober w R)

/-- The result when `e` enciphers and `d` deciphers. -/
def Prober.run (e d : Bytes → Oct w → Oct w) : Prober w R → R
  | .stop r => r
  | .encipher k x next => Prober.run e d (next (e k x))
  | .decipher k y next => Prober.run e d (next (d k y))

/-- Whatever the answers, at most `p` questions, with keys of `B` bytes. -/
def Prober.Within (B : Nat) : Prober w R → Nat → Prop
  | .stop _, _ => True
  | .encipher k _ next, p => k.length = B ∧ ∃ p', p = p' + 1 ∧ ∀ y, Prober.Within B (next y) p'
  | .decipher k _ next, p => k.length = B ∧ ∃ p', p = p' + 1 ∧ ∀ y, Prober.Within B (next y) p'

/-- Block ciphers on chaining values: for each key of `B` bytes a permutation. -/
abbrev Cipher (w B : Nat) := {b : Bytes // b.length = B} → Equiv.Perm (Oct w)

/-- Encipher; other keys do nothing. -/
def enc {B : Nat} (E : Cipher w B) (k : Bytes) (x : Oct w) : Oct w := if h : k.length = B then E ⟨k, h⟩ x else x

/-- Decipher. -/
def dec {B : Nat} (E : Cipher w B) (k : Bytes) (y : Oct w) : Oct w := if h : k.length = B then (E ⟨k, h⟩).symm y else y

end CryptoPure.CipherGame
