import Verif.Spec.Game

/-! # A game about messages and keys

Each of `u` users has a key. For each encryption the attacker names two users and two messages; the one message is encrypted for the one user, or the other
for the other. -/

namespace CryptoPure.KeyGame
open Game (Scheme)

/-- An adversary that chooses each call after seeing the answers to the earlier ones. -/
inductive Adversary (u : Nat) where
  | stop (guess : Bool)
  | encrypt (user user' : Fin u) (nonce data msg msg' buffer : Bytes) (next : Option (Bytes × Bytes) → Adversary u)
  | decrypt (user : Fin u) (nonce data ct tag buffer : Bytes) (next : Option (Bytes × Bool) → Adversary u)

/-- An encryption: the two users, and what was sent. -/
structure Entry (u : Nat) where
  user : Fin u
  user' : Fin u
  nonce : Bytes
  data : Bytes
  ct : Bytes
  tag : Bytes

variable {K : Type} {u : Nat}

/-- Refused are: messages of different lengths; a nonce that was, on its side, used before by the same user. -/
def Refused (log : List (Entry u)) (user user' : Fin u) (nonce msg msg' : Bytes) : Prop :=
  msg.length ≠ msg'.length ∨ ∃ e ∈ log, e.nonce = nonce ∧ (e.user = user ∨ e.user' = user')

/-- This was sent by or for one of the two users of an encryption. -/
def Known (log : List (Entry u)) (user : Fin u) (nonce data ct t : Bytes) : Prop :=
  ∃ e ∈ log, (e.user = user ∨ e.user' = user) ∧ e.nonce = nonce ∧ e.data = data ∧ e.ct = ct ∧ e.tag = t

open Classical in
/-- The guess of the adversary when user `i` has the key `k i`; the second message of each pair is encrypted for the second user if `right`, the first for the first if not. A user does not
decrypt what is known to have been sent, on the one side or the other, to it. A refusal looks like a panic. -/
noncomputable def play (S : Scheme K) (right : Bool) (k : Fin u → K) : Adversary u → List (Entry u) → Bool
  | .stop guess, _ => guess
  | .encrypt user user' nonce data msg msg' buffer next, log =>
    if Refused log user user' nonce msg msg' then play S right k (next none) log
    else match S.enc (k (if right then user' else user)) (if right then msg' else msg) nonce data buffer with
      | none => play S right k (next none) log
      | some (ct, t) => play S right k (next (some (ct, t))) (⟨user, user', nonce, data, ct, t⟩ :: log)
  | .decrypt user nonce data ct t buffer next, log =>
    if Known log user nonce data ct t then play S right k (next none) log
    else play S right k (next (S.dec (k user) ct nonce data t buffer)) log

/-- Whatever the answers, the adversary calls `decrypt` at most `a` times altogether, and `blocks` of the lengths of data and message
is at most `n` in each call. -/
def Within (blocks : Nat → Nat → Nat) (n : Nat) : Adversary u → Nat → Prop
  | .stop _, _ => True
  | .encrypt _ _ _ data msg _ _ next, a => blocks data.length msg.length ≤ n ∧ ∀ r, Within blocks n (next r) a
  | .decrypt _ _ data ct _ _ next, a => blocks data.length ct.length ≤ n ∧ ∃ b, a = b + 1 ∧ ∀ r, Within blocks n (next r) b

/-- Whatever the answers, the sum of `cost` of the lengths of messages and ciphertexts over all calls is at most `s`. -/
def Costs (cost : Nat → Nat) : Adversary u → Nat → Prop
  | .stop _, _ => True
  | .encrypt _ _ _ _ msg _ _ next, s => ∃ s', s = cost msg.length + s' ∧ ∀ r, Costs cost (next r) s'
  | .decrypt _ _ _ ct _ _ next, s => ∃ s', s = cost ct.length + s' ∧ ∀ r, Costs cost (next r) s'

end CryptoPure.KeyGame
