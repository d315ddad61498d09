import Verif.Spec.MultiGame

/-! # Envelope encryption

Each of `u` files or users has a random key of its own, which encrypts its data. These keys are encrypted ("wrapped") under one master key, each with a nonce of
its own, and stored beside the data, where everybody can see them. -/

namespace CryptoPure.Envelope
open Game (Scheme Adversary)

/-- What is visible of the keys: for each its ciphertext and tag. -/
abbrev Wraps (u : Nat) := Fin u → Option (Bytes × Bytes)

variable {K : Type} {u : Nat}

/-- Each key, as a string, is encrypted under the master key. -/
def wraps (S : Scheme K) (master : K) (nonce data key : Fin u → Bytes) : Wraps u := fun i =>
  S.enc master (key i) (nonce i) (data i) (zeros (key i).length)

/-- The attack on the wrapping cipher that has the keys named in the list wrapped, or instead of each a key of zeros, and goes on with the results. -/
def askAll (nonce data key : Fin u → Bytes) : List (Fin u) → Wraps u → (Wraps u → Adversary) → Adversary
  | [], w, next => next w
  | i :: l, w, next => .encrypt (nonce i) (data i) (key i) (zeros (key i).length) (zeros (key i).length) fun r =>
    askAll nonce data key l (Function.update w i r) next

/-- The attack on the wrapping cipher, for keys that the attacker knows: have them wrapped, and end with what `report` says. -/
def tellWraps (nonce data key : Fin u → Bytes) (report : Wraps u → Bool) : Adversary :=
  askAll nonce data key (List.finRange u) (fun _ => none) fun w => .stop (report w)

/-- The attack on the wrapping cipher, for keys that the attacker knows: have them wrapped, and present the wrapped key that `candidate` names: nonce, data, ciphertext, tag, buffer. -/
def forgeWrap (nonce data key : Fin u → Bytes) (candidate : Wraps u → Bytes × Bytes × Bytes × Bytes × Bytes) : Adversary :=
  askAll nonce data key (List.finRange u) (fun _ => none) fun w =>
    .decrypt (candidate w).1 (candidate w).2.1 (candidate w).2.2.1 (candidate w).2.2.2.1 (candidate w).2.2.2.2 fun _ => .stop false

end CryptoPure.Envelope
