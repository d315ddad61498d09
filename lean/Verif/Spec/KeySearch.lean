import Verif.Spec.MultiDistinguisher
import Mathlib.Logic.Equiv.Defs

/-! # Attackers who can compute the block cipher

A block cipher is public: whoever attacks messages that are encrypted with it can encipher and decipher blocks under keys of its own choice, and so try
keys. There are `u` users, each with a key of type `K`; `C` are the blocks. -/

namespace CryptoPure.KeySearch
open MultiGame (Adversary)

/-- An adversary as in `MultiGame.Adversary` that also enciphers and deciphers. -/
inductive Attacker (u : Nat) (K C : Type) where
  | stop (guess : Bool)
  | encrypt (user : Fin u) (nonce data msg msg' buffer : Bytes) (next : Option (Bytes × Bytes) → Attacker u K C)
  | decrypt (user : Fin u) (nonce data ct tag buffer : Bytes) (next : Option (Bytes × Bool) → Attacker u K C)
  | encipher (key : K) (x : C) (next : C → Attacker u K C)
  | decipher (key : K) (y : C) (next : C → Attacker u K C)

variable {u : Nat} {K C : Type}

/-- What it does in a game when the block cipher is `E`. -/
def Attacker.given (E : K → Equiv.Perm C) : Attacker u K C → Adversary u
  | .stop guess => .stop guess
  | .encrypt i nonce data msg msg' buffer next => .encrypt i nonce data msg msg' buffer fun r => (next r).given E
  | .decrypt i nonce data ct tag buffer next => .decrypt i nonce data ct tag buffer fun r => (next r).given E
  | .encipher key x next => (next (E key x)).given E
  | .decipher key y next => (next ((E key).symm y)).given E

/-- Whatever the answers, at most `p` times it enciphers or deciphers. -/
def Attacker.Tries : Attacker u K C → Nat → Prop
  | .stop _, _ => True
  | .encrypt _ _ _ _ _ _ next, p => ∀ r, (next r).Tries p
  | .decrypt _ _ _ _ _ _ next, p => ∀ r, (next r).Tries p
  | .encipher _ _ next, p => ∃ p', p = p' + 1 ∧ ∀ y, (next y).Tries p'
  | .decipher _ _ next, p => ∃ p', p = p' + 1 ∧ ∀ x, (next x).Tries p'

end CryptoPure.KeySearch
