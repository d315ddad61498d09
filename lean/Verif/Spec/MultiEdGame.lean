import Verif.Spec.EdGame

/-! # Forging Ed25519 signatures under one of many keys

As Verif/Spec/EdGame.lean, with `u` honest signers. The forger sees all their public keys, may ask each of them for signatures, may have the secret keys
of some of them, and chooses under which of the other keys it forges. `single` turns such a forger into one against a single signer: it makes the
keys of the other signers itself. -/

namespace CryptoPure.MultiEdGame
open Spec.Ed25519 Model.EdWith EdGame

variable {u : Nat}

/-- A forger against `u` signers that chooses each step after seeing the answers to the earlier ones. `corrupt` asks for a secret key. -/
inductive Forger (u : Nat) where
  | stop (user : Fin u) (message signature : Bytes)
  | hash (x : Bytes) (next : Bytes → Forger u)
  | sign (user : Fin u) (message : Bytes) (next : Bytes → Forger u)
  | corrupt (user : Fin u) (next : Bytes → Forger u)

/-- Whatever the answers (of 64 bytes, secret keys of 32 bytes), the forger calls the hash function at most `q` times and the signers at most `s` times
altogether; no argument of the hash function is longer than `N` bytes. -/
def Forger.Within (N : Nat) : Forger u → Nat → Nat → Prop
  | .stop _ message _, _, _ => message.length + 64 ≤ N
  | .hash x next, q, s => x.length ≤ N ∧ ∃ q', q = q' + 1 ∧ ∀ y, y.length = 64 → Within N (next y) q' s
  | .sign _ message next, q, s => message.length + 64 ≤ N ∧ ∃ s', s = s' + 1 ∧ ∀ y, y.length = 64 → Within N (next y) q s'
  | .corrupt _ next, q, s => ∀ y, y.length = 32 → Within N (next y) q s

/-- The forger succeeds: its signature verifies under the key of the user it names, it did not ask for the secret key of that user, and that user did not
sign the message. `log` holds who signed what so far, `bad` the users whose secret keys the forger has. -/
def wins (H : Bytes → Bytes) (secret : Fin u → Bytes) (signer : Fin u → Bytes → Option Bytes) (verifier : Fin u → Bytes → Bytes → Option Bool) :
    Forger u → List (Fin u × Bytes) → List (Fin u) → Prop
  | .stop user message signature, log, bad => user ∉ bad ∧ (user, message) ∉ log ∧ verifier user message signature = some true
  | .hash x next, log, bad => wins H secret signer verifier (next (H x)) log bad
  | .sign user message next, log, bad => match signer user message with
    | none => False
    | some signature => wins H secret signer verifier (next signature) ((user, message) :: log) bad
  | .corrupt user next, log, bad => wins H secret signer verifier (next (secret user)) log (user :: bad)

/-- The forger succeeds in a weaker sense: its signature verifies under the key of the user it names, it did not ask for the secret key of that user, and
the signature is none of the signatures `(R, S)` of that user for that message, also not up to multiples of `L` in `S`. -/
def winsStrong (H : Bytes → Bytes) (secret : Fin u → Bytes) (signer : Fin u → Bytes → Option Bytes)
    (verifier : Fin u → Bytes → Bytes → Option Bool) : Forger u → List (Fin u × Bytes × Bytes) → List (Fin u) → Prop
  | .stop user message signature, log, bad => user ∉ bad ∧ verifier user message signature = some true ∧ ∀ old, (user, message, old) ∈ log →
      ¬ (old.take 32 = signature.take 32 ∧ leNat (old.drop 32) % L = leNat (signature.drop 32) % L)
  | .hash x next, log, bad => winsStrong H secret signer verifier (next (H x)) log bad
  | .sign user message next, log, bad => match signer user message with
    | none => False
    | some signature => winsStrong H secret signer verifier (next signature) ((user, message, signature) :: log) bad
  | .corrupt user next, log, bad => winsStrong H secret signer verifier (next (secret user)) log (user :: bad)

/-! ## From many signers to one -/

/-- Give up. -/
def giveUp : EdGame.Forger := .stop [] []

/-- Ask for the digests of the secret keys of these users. -/
def expand (sks : Fin u → Bytes) : List (Fin u) → (Fin u → Bytes) → ((Fin u → Bytes) → EdGame.Forger) → EdGame.Forger
  | [], azs, next => next azs
  | j :: js, azs, next => .hash (sks j) fun y => expand sks js (Function.update azs j y) next

/-- The first half `R` of a signature does not depend on the challenge. -/
def commitment (m : Mode) (az r message : Bytes) : Bytes := ((signWith m az (fun _ => r) (fun _ => zeros 64) message).getD []).take 32

/-- Run a forger against all signers. Signatures of user `i` come from the signer; for those of the other users the two hashes are asked for
and the signature is computed from the digest of the secret key. -/
def simulate (m : Mode) (i : Fin u) (sks azs : Fin u → Bytes) : Forger u → EdGame.Forger
  | .stop user message signature => if user = i then .stop message signature else giveUp
  | .hash x next => .hash x fun y => simulate m i sks azs (next y)
  | .sign user message next =>
    if user = i then .sign message fun y => simulate m i sks azs (next y)
    else .hash ((azs user).drop 32 ++ message) fun r =>
      .hash (commitment m (azs user) r message ++ (genPkWith m (azs user)).getD [] ++ message) fun k =>
        simulate m i sks azs (next ((signWith m (azs user) (fun _ => r) (fun _ => k) message).getD []))
  | .corrupt user next => if user = i then giveUp else simulate m i sks azs (next (sks user))

/-- The forger against the signer `i`, whose public key is `pk`, when the secret keys of the others are `sks`. -/
def single (m : Mode) (i : Fin u) (sks : Fin u → Bytes) (f : (Fin u → Bytes) → Forger u) (pk : Bytes) : EdGame.Forger :=
  expand sks (List.finRange u) (fun _ => []) fun azs =>
    simulate m i sks azs (f fun j => if j = i then pk else (genPkWith m (azs j)).getD [])

end CryptoPure.MultiEdGame
