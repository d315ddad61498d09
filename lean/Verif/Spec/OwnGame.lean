import Verif.Basic

/-! # One signature for two keys or two messages

The claimant knows everything, in particular all secret keys, which it may choose itself. It calls the hash function as often as it
likes, each time on an argument that may depend on the earlier answers, and ends with one signature and two pairs of a public key and a message. -/

namespace CryptoPure.OwnGame

/-- One signature, claimed to be valid under `key` for `message` and under `key'` for `message'`. -/
structure Claim where
  signature : Bytes
  key : Bytes
  message : Bytes
  key' : Bytes
  message' : Bytes

/-- A claimant that chooses each step after seeing the answers to the earlier ones. -/
inductive Claimant where
  | stop (claim : Claim)
  | hash (x : Bytes) (next : Bytes → Claimant)

/-- Whatever the answers (of 64 bytes), the claimant calls the hash function at most `q` times; no argument of the hash function is longer than `N` bytes,
also when the signature is checked. -/
def Claimant.Within (N : Nat) : Claimant → Nat → Prop
  | .stop c, _ => c.message.length + 64 ≤ N ∧ c.message'.length + 64 ≤ N
  | .hash x next, q => x.length ≤ N ∧ ∃ q', q = q' + 1 ∧ ∀ y, y.length = 64 → Within N (next y) q'

/-- What the claimant ends with. -/
def Claimant.run (H : Bytes → Bytes) : Claimant → Claim
  | .stop c => c
  | .hash x next => run H (next (H x))

end CryptoPure.OwnGame
