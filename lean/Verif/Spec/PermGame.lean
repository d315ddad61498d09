import Verif.Spec.Game
import Verif.Spec.ChaCha20
import Mathlib.Logic.Equiv.Defs

/-! # Attackers who can compute the rounds of ChaCha20, forwards and backwards

The 20 rounds of ChaCha20 have no key and are public: whoever attacks the cipher can apply them, and their inverse, to states of its choice. -/

namespace CryptoPure.PermGame
open Game (Adversary)

/-- RFC 8439 §2.3, with `P` in the place of the 20 rounds: the state is set up, `P` is applied, the state before is added word by word, and the words
are written out. -/
def blockFrom (P : Spec.ChaCha20.State → Spec.ChaCha20.State) (key : Bytes) (counter : U32) (nonce : Bytes) : Bytes :=
  (List.finRange 4).flatMap fun r => (List.finRange 4).flatMap fun c =>
    toLE 4 (P (Spec.ChaCha20.init key counter nonce) r c + Spec.ChaCha20.init key counter nonce r c).toNat

/-- A program that applies a permutation and its inverse, and asks for values of a function, each time depending on the earlier answers; at the end it
gives a verdict. -/
inductive Tester (I Z C : Type) where
  | verdict (b : Bool)
  | permute (x : C) (next : C → Tester I Z C)
  | unpermute (y : C) (next : C → Tester I Z C)
  | ask (i : I) (next : Z → Tester I Z C)

/-- The verdict for the permutation `P` and the function `F`. -/
def Tester.run {I Z C : Type} (P : Equiv.Perm C) (F : I → Z) : Tester I Z C → Bool
  | .verdict b => b
  | .permute x next => (next (P x)).run P F
  | .unpermute y next => (next (P.symm y)).run P F
  | .ask i next => (next (F i)).run P F

/-- Whatever the answers, at most `p` uses of the permutation or its inverse, and at most `s` of the function. -/
def Tester.Within {I Z C : Type} : Tester I Z C → Nat → Nat → Prop
  | .verdict _, _, _ => True
  | .permute _ next, p, s => ∃ p', p = p' + 1 ∧ ∀ y, (next y).Within p' s
  | .unpermute _ next, p, s => ∃ p', p = p' + 1 ∧ ∀ x, (next x).Within p' s
  | .ask _ next, p, s => ∃ s', s = s' + 1 ∧ ∀ z, (next z).Within p s'

/-- An adversary of an authenticated cipher, as in `Game.Adversary`, that also applies a permutation and its inverse. -/
inductive Attacker (C : Type) where
  | stop (guess : Bool)
  | encrypt (nonce data msg msg' buffer : Bytes) (next : Option (Bytes × Bytes) → Attacker C)
  | decrypt (nonce data ct tag buffer : Bytes) (next : Option (Bytes × Bool) → Attacker C)
  | permute (x : C) (next : C → Attacker C)
  | unpermute (y : C) (next : C → Attacker C)

/-- What it does in a game when the permutation is `P`. -/
def Attacker.given {C : Type} (P : Equiv.Perm C) : Attacker C → Adversary
  | .stop guess => .stop guess
  | .encrypt nonce data msg msg' buffer next => .encrypt nonce data msg msg' buffer fun r => (next r).given P
  | .decrypt nonce data ct tag buffer next => .decrypt nonce data ct tag buffer fun r => (next r).given P
  | .permute x next => (next (P x)).given P
  | .unpermute y next => (next (P.symm y)).given P

/-- Whatever the answers: at most `a` decryptions; `blocks` of the lengths of data and message at most `n` in each call; the calls cost at most `s`
together, where a call with a message or ciphertext of length `l` costs `cost l`; and at most `p` uses of the permutation or its inverse. -/
def Attacker.Within {C : Type} (blocks : Nat → Nat → Nat) (cost : Nat → Nat) (n : Nat) : Attacker C → (a s p : Nat) → Prop
  | .stop _, _, _, _ => True
  | .encrypt _ data msg _ _ next, a, s, p =>
    blocks data.length msg.length ≤ n ∧ ∃ s', s = cost msg.length + s' ∧ ∀ r, (next r).Within blocks cost n a s' p
  | .decrypt _ data ct _ _ next, a, s, p =>
    blocks data.length ct.length ≤ n ∧ ∃ a', a = a' + 1 ∧ ∃ s', s = cost ct.length + s' ∧ ∀ r, (next r).Within blocks cost n a' s' p
  | .permute _ next, a, s, p => ∃ p', p = p' + 1 ∧ ∀ y, (next y).Within blocks cost n a s p'
  | .unpermute _ next, a, s, p => ∃ p', p = p' + 1 ∧ ∀ x, (next x).Within blocks cost n a s p'

end CryptoPure.PermGame
