import Verif.Basic

/-! # Attacks on public-key encryption, and on the key agreement inside it

Someone seals messages for the holder of a public key. The attacker knows the public key, names two messages of which one is sealed, and has other boxes opened. -/

namespace CryptoPure.BoxGame

/-- A box: the sender's one-time public key, the ciphertext, the tag. -/
abbrev Sealed := Bytes × Bytes × Bytes

/-- Public-key encryption. `none` is a panic; opening gives the message, or `some none` for a rejection. -/
structure Box where
  pub : (secret : Bytes) → Option Bytes
  close : (pk oneTime data msg : Bytes) → Option Sealed
  opens : (secret data : Bytes) → Sealed → Option (Option Bytes)

/-- An attacker that chooses each step after seeing the answers to the earlier ones. -/
inductive Attacker where
  | stop (guess : Bool)
  | send (data msg msg' : Bytes) (next : Option Sealed → Attacker)
  | receive (data : Bytes) (box : Sealed) (next : Option (Option Bytes) → Attacker)

/-- The attack. The second message is sealed if `right`. Only one message is sealed; a second one, or two messages of different lengths, are refused, and so is opening the box that the
attacker got. A refusal looks like a panic. `got` is this box with its data. -/
def play (B : Box) (right : Bool) (pk secret oneTime : Bytes) : Attacker → Option (Bytes × Sealed) → Bool
  | .stop guess, _ => guess
  | .send data msg msg' next, got =>
    if got.isSome ∨ msg.length ≠ msg'.length then play B right pk secret oneTime (next none) got
    else match B.close pk oneTime data (if right then msg' else msg) with
      | none => play B right pk secret oneTime (next none) got
      | some box => play B right pk secret oneTime (next (some box)) (some (data, box))
  | .receive data box next, got =>
    if got = some (data, box) then play B right pk secret oneTime (next none) got
    else play B right pk secret oneTime (next (B.opens secret data box)) got

/-- The guess of an attacker who is given the public key. -/
def game (B : Box) (right : Bool) (A : Bytes → Attacker) (secret oneTime : Bytes) : Bool :=
  match B.pub secret with
  | none => false
  | some pk => play B right pk secret oneTime (A pk) none

/-- Whatever the answers, the attacker has at most `a` boxes opened, and `blocks` of the lengths of data and message is at most `n` in each call. -/
def Attacker.Within (blocks : Nat → Nat → Nat) (n : Nat) : Attacker → Nat → Prop
  | .stop _, _ => True
  | .send data msg _ next, a => blocks data.length msg.length ≤ n ∧ ∀ r, Within blocks n (next r) a
  | .receive data box next, a => blocks data.length box.2.1.length ≤ n ∧ ∃ b, a = b + 1 ∧ ∀ r, Within blocks n (next r) b

/-- Whatever the answers, the calls cost at most `s` together. -/
def Attacker.Costs (cost : Nat → Nat) : Attacker → Nat → Prop
  | .stop _, _ => True
  | .send _ msg _ next, s => ∃ s', s = cost msg.length + s' ∧ ∀ r, Costs cost (next r) s'
  | .receive _ box next, s => ∃ s', s = cost box.2.1.length + s' ∧ ∀ r, Costs cost (next r) s'

/-- Someone who is to tell an agreed key from a random one, and may have the holder of the secret key agree on keys with other public keys. -/
inductive Tester (K : Type) where
  | stop (guess : Bool)
  | derive (head : Bytes) (next : Option K → Tester K)

/-- The guess; `D` gives the key that the holder of the secret key agrees on with a public key, and is refused for the public key `E` in question. -/
def Tester.run {K : Type} (D : Bytes → Option K) (E : Bytes) : Tester K → Bool
  | .stop guess => guess
  | .derive head next => if head = E then (next none).run D E else (next (D head)).run D E

/-- Whatever the answers, at most `a` other keys. -/
def Tester.Asks {K : Type} : Tester K → Nat → Prop
  | .stop _, _ => True
  | .derive _ next, a => ∃ b, a = b + 1 ∧ ∀ r, Asks (next r) b

end CryptoPure.BoxGame
