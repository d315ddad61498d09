import Verif.Basic
import Mathlib.Data.Set.Card
import Mathlib.Data.Rat.Defs

/-! # Security games for an authenticated cipher

The adversary calls encryption and decryption as often as it likes, each time with arguments that may depend on all earlier
answers. -/

namespace CryptoPure.Game

/-- An adversary that chooses each call after seeing the answers to the earlier ones. `encrypt` names two messages, one of which
is encrypted; `buffer` is the caller's output buffer. -/
inductive Adversary where
  | stop (guess : Bool)
  | encrypt (nonce data msg msg' buffer : Bytes) (next : Option (Bytes × Bytes) → Adversary)
  | decrypt (nonce data ct tag buffer : Bytes) (next : Option (Bytes × Bool) → Adversary)

/-- An authenticated cipher with keys of type `K`. `none` is a panic; decryption returns the buffer and the verdict. -/
structure Scheme (K : Type) where
  enc : K → (msg nonce data buffer : Bytes) → Option (Bytes × Bytes)
  dec : K → (ct nonce data tag buffer : Bytes) → Option (Bytes × Bool)

/-- What was sent so far: nonce, data, ciphertext, tag. -/
abbrev Log := List (Bytes × Bytes × Bytes × Bytes)

variable {K : Type}

/-- The guess of the adversary at the end of the game with key `k`, in which the second message is encrypted if `right`. A used
nonce, or two messages of different lengths, are refused; so is the decryption of what an encryption returned. A refusal
looks like a panic. -/
def play (S : Scheme K) (right : Bool) (k : K) : Adversary → Log → Bool
  | .stop guess, _ => guess
  | .encrypt nonce data msg msg' buffer next, log =>
    if nonce ∈ log.map Prod.fst ∨ msg.length ≠ msg'.length then play S right k (next none) log
    else match S.enc k (if right then msg' else msg) nonce data buffer with
      | none => play S right k (next none) log
      | some (ct, t) => play S right k (next (some (ct, t))) ((nonce, data, ct, t) :: log)
  | .decrypt nonce data ct t buffer next, log =>
    if (nonce, data, ct, t) ∈ log then play S right k (next none) log
    else play S right k (next (S.dec k ct nonce data t buffer)) log

/-- In this game some decryption succeeds that is not the decryption of what an encryption returned. -/
def forges (S : Scheme K) (right : Bool) (k : K) : Adversary → Log → Prop
  | .stop _, _ => False
  | .encrypt nonce data msg msg' buffer next, log =>
    if nonce ∈ log.map Prod.fst ∨ msg.length ≠ msg'.length then forges S right k (next none) log
    else match S.enc k (if right then msg' else msg) nonce data buffer with
      | none => forges S right k (next none) log
      | some (ct, t) => forges S right k (next (some (ct, t))) ((nonce, data, ct, t) :: log)
  | .decrypt nonce data ct t buffer next, log =>
    if (nonce, data, ct, t) ∈ log then forges S right k (next none) log
    else (∃ out, S.dec k ct nonce data t buffer = some (out, true)) ∨
      forges S right k (next (S.dec k ct nonce data t buffer)) log

/-- Whatever the answers, the adversary calls `decrypt` at most `a` times, and `blocks` of the lengths of data and message is at
most `n` in each call. -/
def Within (blocks : Nat → Nat → Nat) (n : Nat) : Adversary → Nat → Prop
  | .stop _, _ => True
  | .encrypt _ data msg _ _ next, a => blocks data.length msg.length ≤ n ∧ ∀ r, Within blocks n (next r) a
  | .decrypt _ data ct _ _ next, a => blocks data.length ct.length ≤ n ∧ ∃ b, a = b + 1 ∧ ∀ r, Within blocks n (next r) b

/-- The fraction of the keys for which `P` holds: the probability of `P` for a uniformly chosen key. -/
noncomputable def prob (P : K → Prop) : ℚ := ({k | P k}.ncard : ℚ) / (Nat.card K : ℚ)

end CryptoPure.Game
