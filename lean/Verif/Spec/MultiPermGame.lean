import Verif.Spec.MultiGame
import Mathlib.Logic.Equiv.Defs

/-! # Attackers of many users who can compute a public permutation

As in Verif/Spec/PermGame.lean, but there are `u` users, each with a key. -/

namespace CryptoPure.MultiPermGame
open MultiGame (Adversary)

/-- An adversary as in `MultiGame.Adversary` that also applies a permutation and its inverse. -/
inductive Attacker (u : Nat) (C : Type) where
  | stop (guess : Bool)
  | encrypt (user : Fin u) (nonce data msg msg' buffer : Bytes) (next : Option (Bytes × Bytes) → Attacker u C)
  | decrypt (user : Fin u) (nonce data ct tag buffer : Bytes) (next : Option (Bytes × Bool) → Attacker u C)
  | permute (x : C) (next : C → Attacker u C)
  | unpermute (y : C) (next : C → Attacker u C)

variable {u : Nat} {C : Type}

/-- What it does in a game when the permutation is `P`. -/
def Attacker.given (P : Equiv.Perm C) : Attacker u C → Adversary u
  | .stop guess => .stop guess
  | .encrypt i nonce data msg msg' buffer next => .encrypt i nonce data msg msg' buffer fun r => (next r).given P
  | .decrypt i nonce data ct tag buffer next => .decrypt i nonce data ct tag buffer fun r => (next r).given P
  | .permute x next => (next (P x)).given P
  | .unpermute y next => (next (P.symm y)).given P

/-- Whatever the answers: at most `a` decryptions by all users together; `blocks` of the lengths of data and message at most `n` in each call; the calls
of all users cost at most `s` together, where a call with a message or ciphertext of length `l` costs `cost l`; and at most `p` uses of the permutation or
its inverse. -/
def Attacker.Within (blocks : Nat → Nat → Nat) (cost : Nat → Nat) (n : Nat) : Attacker u C → (a s p : Nat) → Prop
  | .stop _, _, _, _ => True
  | .encrypt _ _ data msg _ _ next, a, s, p =>
    blocks data.length msg.length ≤ n ∧ ∃ s', s = cost msg.length + s' ∧ ∀ r, (next r).Within blocks cost n a s' p
  | .decrypt _ _ data ct _ _ next, a, s, p =>
    blocks data.length ct.length ≤ n ∧ ∃ a', a = a' + 1 ∧ ∃ s', s = cost ct.length + s' ∧ ∀ r, (next r).Within blocks cost n a' s' p
  | .permute _ next, a, s, p => ∃ p', p = p' + 1 ∧ ∀ y, (next y).Within blocks cost n a s p'
  | .unpermute _ next, a, s, p => ∃ p', p = p' + 1 ∧ ∀ x, (next x).Within blocks cost n a s p'

end CryptoPure.MultiPermGame
