import Verif.Spec.Prog
import Verif.Spec.Ed25519
import Verif.Model.EdWith

/-! # Forging Ed25519 signatures when the hash function is random

The forger calls the hash function and the signer as often as it likes, each time with arguments that may depend on all earlier
answers, and ends with a message and a signature. `extract` runs a forger, simulating the hash function and the signer without knowing
the secret key, and tries to compute the discrete logarithm of the public key. -/

namespace CryptoPure.EdGame
open Spec.Ed25519 Model.EdWith

/-- A forger that chooses each step after seeing the answers to the earlier ones. -/
inductive Forger where
  | stop (message signature : Bytes)
  | hash (x : Bytes) (next : Bytes → Forger)
  | sign (message : Bytes) (next : Bytes → Forger)

/-- Whatever the answers (of 64 bytes), the forger calls the hash function at most `q` times and the signer at most `s` times; no
argument of the hash function is longer than `N` bytes. -/
def Forger.Within (N : Nat) : Forger → Nat → Nat → Prop
  | .stop message _, _, _ => message.length + 64 ≤ N
  | .hash x next, q, s => x.length ≤ N ∧ ∃ q', q = q' + 1 ∧ ∀ y, y.length = 64 → Within N (next y) q' s
  | .sign message next, q, s => message.length + 64 ≤ N ∧ ∃ s', s = s' + 1 ∧ ∀ y, y.length = 64 → Within N (next y) q s'

/-- The forger succeeds: its signature verifies, and the message was not signed. `log` holds the messages signed so far. A signer or a
verification that panics counts as a failure. -/
def wins (H : Bytes → Bytes) (signer : Bytes → Option Bytes) (verifier : Bytes → Bytes → Option Bool) : Forger → List Bytes → Prop
  | .stop message signature, log => message ∉ log ∧ verifier message signature = some true
  | .hash x next, log => wins H signer verifier (next (H x)) log
  | .sign message next, log => match signer message with
    | none => False
    | some signature => wins H signer verifier (next signature) (message :: log)

/-- The forger succeeds in a weaker sense: its signature verifies, and it is none of the signatures `(R, S)` that were handed out for the message,
and also none of those with a multiple of `L` added to `S`. `log` holds the messages signed so far with their signatures. -/
def winsStrong (H : Bytes → Bytes) (signer : Bytes → Option Bytes) (verifier : Bytes → Bytes → Option Bool) : Forger → List (Bytes × Bytes) → Prop
  | .stop message signature, log => verifier message signature = some true ∧ ∀ old, (message, old) ∈ log →
      ¬ (old.take 32 = signature.take 32 ∧ leNat (old.drop 32) % L = leNat (signature.drop 32) % L)
  | .hash x next, log => winsStrong H signer verifier (next (H x)) log
  | .sign message next, log => match signer message with
    | none => False
    | some signature => winsStrong H signer verifier (next signature) ((message, signature) :: log)

/-- The forger succeeds in the usual sense of strong unforgeability, for signatures with `S < L`: its signature verifies, and it was not handed out for
the message. -/
def winsNew (H : Bytes → Bytes) (signer : Bytes → Option Bytes) (verifier : Bytes → Bytes → Option Bool) : Forger → List (Bytes × Bytes) → Prop
  | .stop message signature, log => verifier message signature = some true ∧ (message, signature) ∉ log ∧ leNat (signature.drop 32) < L
  | .hash x next, log => winsNew H signer verifier (next (H x)) log
  | .sign message next, log => match signer message with
    | none => False
    | some signature => winsNew H signer verifier (next signature) ((message, signature) :: log)

/-! ## The extractor -/

/-- The number of digests. -/
def digests : Nat := 256 ^ 64

/-- A random digest. -/
def digest : Prog Bytes := .pick digests fun i => .done (toLE 64 i)

/-- A random number below `L`. -/
def scalar : Prog Nat := .pick L fun i => .done i

/-- The arguments and answers of the hash function. -/
abbrev Table := List (Bytes × Bytes)

/-- The signature with second half `S` that fits the challenge `k` under the public key `A`. -/
def simSign (A : Point) (k : Bytes) (S : Nat) : Bytes := encode (add (smul S B) (neg (smul (leNat k % L) A))) ++ toLE 32 S

/-- What a successful run ends with: a message, a signature and the hash of `R || key || message`. -/
structure Forgery where
  message : Bytes
  signature : Bytes
  challenge : Bytes

/-- What is hashed for the verification. -/
def point (A : Point) (message signature : Bytes) : Bytes := signature.take 32 ++ encode A ++ message

/-- The verification of this signature, when the hash is `k`, succeeds. -/
def accepts (m : Mode) (A : Point) (message signature k : Bytes) : Prop :=
  verifyWith m (fun _ => k) message signature (encode A) = some true

/-- No signature in the table is for this message and begins with the same `R`. -/
def fresh (S : Table) (message signature : Bytes) : Prop := ∀ old, S.lookup message = some old → old.take 32 ≠ signature.take 32

open Classical in
/-- Run the forger once. The hash function is answered at random, from the table where the argument was there before. The signer is
answered with a random `S`, a random challenge `k`, and the `R` that fits; `k` then goes to the table as the hash of `R || key || message`
(if the table has that already, the run fails). The run also fails if the forgery does not verify, if the signer gave a signature
for its message with the same `R`, or if the forger did not ask for the hash of its `R || key || message`. -/
noncomputable def run (m : Mode) (A : Point) : Forger → Table → Table → Prog (Option Forgery)
  | .stop message signature, T, S => match T.lookup (point A message signature) with
    | none => .done none
    | some k => if fresh S message signature ∧ accepts m A message signature k then .done (some ⟨message, signature, k⟩) else .done none
  | .hash x next, T, S => match T.lookup x with
    | some y => run m A (next y) T S
    | none => digest.bind fun y => run m A (next y) ((x, y) :: T) S
  | .sign message next, T, S => match S.lookup message with
    | some signature => run m A (next signature) T S
    | none => digest.bind fun k => scalar.bind fun s => match T.lookup (point A message (simSign A k s)) with
      | some _ => .done none
      | none => run m A (next (simSign A k s)) ((point A message (simSign A k s), k) :: T) ((message, simSign A k s) :: S)

open Classical in
/-- Run the forger once; if it succeeds, rewind it to where it asked for the hash of its `R || key || message`, give another random
answer and run it once more from there. The results of both runs. -/
noncomputable def fork (m : Mode) (A : Point) : Forger → Table → Table → Prog (Option Forgery × Option Forgery)
  | .stop message signature, T, S => (run m A (.stop message signature) T S).bind fun r => .done (r, none)
  | .hash x next, T, S => match T.lookup x with
    | some y => fork m A (next y) T S
    | none => digest.bind fun y => (fork m A (next y) ((x, y) :: T) S).bind fun r =>
      if ∃ f, r.1 = some f ∧ point A f.message f.signature = x then
        digest.bind fun y' => (run m A (next y') ((x, y') :: T) S).bind fun r' => .done (r.1, r')
      else .done r
  | .sign message next, T, S => match S.lookup message with
    | some signature => fork m A (next signature) T S
    | none => digest.bind fun k => scalar.bind fun s => match T.lookup (point A message (simSign A k s)) with
      | some _ => .done (none, none)
      | none => fork m A (next (simSign A k s)) ((point A message (simSign A k s), k) :: T) ((message, simSign A k s) :: S)

/-- `(S - S') / (k - k')` modulo `L`, for two signatures with second halves `S` and `S'` and challenges `k` and `k'`. -/
def solve (f f' : Forgery) : Nat :=
  (((leNat (f.signature.drop 32) : ZMod L) - leNat (f'.signature.drop 32)) *
    ((leNat f.challenge : ZMod L) - leNat f'.challenge)⁻¹).val

/-- Run, rewind, run again, and divide. -/
noncomputable def extract (m : Mode) (A : Point) (f : Forger) : Prog (Option Nat) := (fork m A f [] []).bind fun
  | (some r, some r') => .done (some (solve r r'))
  | _ => .done none

end CryptoPure.EdGame
