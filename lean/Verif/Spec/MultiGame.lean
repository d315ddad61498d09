import Verif.Spec.Game

/-! # The games of Verif/Spec/Game.lean with many keys

Each of `u` users has a key of its own; the attacker chooses for each call whose key is used. -/

namespace CryptoPure.MultiGame
open Game (Scheme)

/-- An adversary as in `Game.Adversary` that also chooses the user. -/
inductive Adversary (u : Nat) where
  | stop (guess : Bool)
  | encrypt (user : Fin u) (nonce data msg msg' buffer : Bytes) (next : Option (Bytes × Bytes) → Adversary u)
  | decrypt (user : Fin u) (nonce data ct tag buffer : Bytes) (next : Option (Bytes × Bool) → Adversary u)

/-- What was sent so far: user, nonce, data, ciphertext, tag. -/
abbrev Log (u : Nat) := List (Fin u × Bytes × Bytes × Bytes × Bytes)

variable {K : Type} {u : Nat}

/-- The guess of the adversary when user `i` has the key `k i`; the second message is encrypted if `right`. A nonce that the same user has used, or two messages of different lengths, are refused; so is the
decryption by a user of what an encryption by the same user returned. Different users may use equal nonces. -/
def play (S : Scheme K) (right : Bool) (k : Fin u → K) : Adversary u → Log u → Bool
  | .stop guess, _ => guess
  | .encrypt user nonce data msg msg' buffer next, log =>
    if (user, nonce) ∈ log.map (fun e => (e.1, e.2.1)) ∨ msg.length ≠ msg'.length then play S right k (next none) log
    else match S.enc (k user) (if right then msg' else msg) nonce data buffer with
      | none => play S right k (next none) log
      | some (ct, t) => play S right k (next (some (ct, t))) ((user, nonce, data, ct, t) :: log)
  | .decrypt user nonce data ct t buffer next, log =>
    if (user, nonce, data, ct, t) ∈ log then play S right k (next none) log
    else play S right k (next (S.dec (k user) ct nonce data t buffer)) log

/-- In this game some user's decryption succeeds that is not the decryption of what an encryption by that user returned. -/
def forges (S : Scheme K) (right : Bool) (k : Fin u → K) : Adversary u → Log u → Prop
  | .stop _, _ => False
  | .encrypt user nonce data msg msg' buffer next, log =>
    if (user, nonce) ∈ log.map (fun e => (e.1, e.2.1)) ∨ msg.length ≠ msg'.length then forges S right k (next none) log
    else match S.enc (k user) (if right then msg' else msg) nonce data buffer with
      | none => forges S right k (next none) log
      | some (ct, t) => forges S right k (next (some (ct, t))) ((user, nonce, data, ct, t) :: log)
  | .decrypt user nonce data ct t buffer next, log =>
    if (user, nonce, data, ct, t) ∈ log then forges S right k (next none) log
    else (∃ out, S.dec (k user) ct nonce data t buffer = some (out, true)) ∨
      forges S right k (next (S.dec (k user) ct nonce data t buffer)) log

/-- Whatever the answers, the adversary calls `decrypt` at most `a` times altogether, and `blocks` of the lengths of data and message
is at most `n` in each call. -/
def Within (blocks : Nat → Nat → Nat) (n : Nat) : Adversary u → Nat → Prop
  | .stop _, _ => True
  | .encrypt _ _ data msg _ _ next, a => blocks data.length msg.length ≤ n ∧ ∀ r, Within blocks n (next r) a
  | .decrypt _ _ data ct _ _ next, a => blocks data.length ct.length ≤ n ∧ ∃ b, a = b + 1 ∧ ∀ r, Within blocks n (next r) b

end CryptoPure.MultiGame
