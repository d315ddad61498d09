import Verif.Spec.Game

/-! # The games of Verif/Spec/Game.lean when nonces are drawn at random

The caller draws a fresh 12-byte nonce for every encryption instead of counting; nothing stops a nonce from coming up twice. -/

namespace CryptoPure.RandomNonceGame
open Game (Scheme Log prob)

/-- A 12-byte nonce. -/
abbrev Nonce := {n : Bytes // n.length = 12}

/-- An adversary as in `Game.Adversary` that does not choose the nonces of the encryptions, but sees them. -/
inductive Adversary where
  | stop (guess : Bool)
  | encrypt (data msg msg' buffer : Bytes) (next : Bytes → Option (Bytes × Bytes) → Adversary)
  | decrypt (nonce data ct tag buffer : Bytes) (next : Option (Bytes × Bool) → Adversary)

variable {K : Type}

/-- The guess of the adversary with key `k`, if the nonces drawn are those in the list, one per encryption. Encryptions after the
list is used up are refused, and so are two messages of different lengths and the decryption of what an encryption
returned. -/
def play (S : Scheme K) (right : Bool) (k : K) : Adversary → List Nonce → Log → Bool
  | .stop guess, _, _ => guess
  | .encrypt _ _ _ _ next, [], log => play S right k (next [] none) [] log
  | .encrypt data msg msg' buffer next, nonce :: nonces, log =>
    if msg.length ≠ msg'.length then play S right k (next nonce.1 none) nonces log
    else match S.enc k (if right then msg' else msg) nonce.1 data buffer with
      | none => play S right k (next nonce.1 none) nonces log
      | some (ct, t) => play S right k (next nonce.1 (some (ct, t))) nonces ((nonce.1, data, ct, t) :: log)
  | .decrypt nonce data ct t buffer next, nonces, log =>
    if (nonce, data, ct, t) ∈ log then play S right k (next none) nonces log
    else play S right k (next (S.dec k ct nonce data t buffer)) nonces log

/-- In this game some decryption succeeds that is not the decryption of what an encryption returned. -/
def forges (S : Scheme K) (right : Bool) (k : K) : Adversary → List Nonce → Log → Prop
  | .stop _, _, _ => False
  | .encrypt _ _ _ _ next, [], log => forges S right k (next [] none) [] log
  | .encrypt data msg msg' buffer next, nonce :: nonces, log =>
    if msg.length ≠ msg'.length then forges S right k (next nonce.1 none) nonces log
    else match S.enc k (if right then msg' else msg) nonce.1 data buffer with
      | none => forges S right k (next nonce.1 none) nonces log
      | some (ct, t) => forges S right k (next nonce.1 (some (ct, t))) nonces ((nonce.1, data, ct, t) :: log)
  | .decrypt nonce data ct t buffer next, nonces, log =>
    if (nonce, data, ct, t) ∈ log then forges S right k (next none) nonces log
    else (∃ out, S.dec k ct nonce data t buffer = some (out, true)) ∨
      forges S right k (next (S.dec k ct nonce data t buffer)) nonces log

/-- Whatever the nonces and answers, the adversary calls `decrypt` at most `a` times, and `blocks` of the lengths of data and
message is at most `n` in each call. -/
def Within (blocks : Nat → Nat → Nat) (n : Nat) : Adversary → Nat → Prop
  | .stop _, _ => True
  | .encrypt data msg _ _ next, a => blocks data.length msg.length ≤ n ∧ ∀ v r, Within blocks n (next v r) a
  | .decrypt _ data ct _ _ next, a => blocks data.length ct.length ≤ n ∧ ∃ b, a = b + 1 ∧ ∀ r, Within blocks n (next r) b

/-- Whatever the nonces and answers, the calls of the adversary cost at most `s`, where a call with a message or ciphertext of length `l`
costs `cost l`. -/
def Costs (cost : Nat → Nat) : Adversary → Nat → Prop
  | .stop _, _ => True
  | .encrypt _ msg _ _ next, s => ∃ s', s = cost msg.length + s' ∧ ∀ v r, Costs cost (next v r) s'
  | .decrypt _ _ ct _ _ next, s => ∃ s', s = cost ct.length + s' ∧ ∀ r, Costs cost (next r) s'

/-- The probability, over the key and `q` independently drawn nonces, that the adversary guesses `true`. -/
noncomputable def guessProb (S : Scheme K) (q : Nat) (right : Bool) (A : Adversary) : ℚ :=
  prob fun x : K × (Fin q → Nonce) => play S right x.1 A (List.ofFn x.2) [] = true

/-- The probability, over the key and `q` independently drawn nonces, that the adversary forges. -/
noncomputable def forgeProb (S : Scheme K) (q : Nat) (right : Bool) (A : Adversary) : ℚ :=
  prob fun x : K × (Fin q → Nonce) => forges S right x.1 A (List.ofFn x.2) []

end CryptoPure.RandomNonceGame
