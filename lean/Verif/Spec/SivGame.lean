import Verif.Spec.Game

/-! # A security game for deterministic authenticated encryption

There is no nonce: equal messages with equal data give equal ciphertexts, and that is all an eavesdropper should learn. -/

namespace CryptoPure.SivGame

/-- A deterministic authenticated cipher with keys of type `K`. `none` is a panic. Wrapping returns tag and ciphertext; opening returns the buffer and the verdict. -/
structure Scheme (K : Type) where
  wrap : K → (data msg buffer : Bytes) → Option (Bytes × Bytes)
  unwrap : K → (data tag ct buffer : Bytes) → Option (Bytes × Bool)

/-- An adversary that chooses each call after seeing the answers to the earlier ones. `wrap` names two messages, one of which is wrapped. -/
inductive Adversary where
  | stop (guess : Bool)
  | wrap (data msg msg' buffer : Bytes) (next : Option (Bytes × Bytes) → Adversary)
  | unwrap (data tag ct buffer : Bytes) (next : Option (Bytes × Bool) → Adversary)

/-- What was wrapped: the data, the two messages, and the result. -/
structure Wrapped where
  data : Bytes
  msg : Bytes
  msg' : Bytes
  tag : Bytes
  ct : Bytes
deriving DecidableEq

variable {K : Type}

/-- The guess of the adversary at the end of the game with key `k`, in which the second message of each pair is wrapped if `right`. Refused are: two messages of different
lengths; a message that was, on its side, wrapped before with the same data; opening what `wrap` returned. A refusal looks like a panic. -/
def play (S : Scheme K) (right : Bool) (k : K) : Adversary → List Wrapped → Bool
  | .stop guess, _ => guess
  | .wrap data msg msg' buffer next, log =>
    if msg.length ≠ msg'.length ∨ ∃ e ∈ log, e.data = data ∧ (e.msg = msg ∨ e.msg' = msg') then play S right k (next none) log
    else match S.wrap k data (if right then msg' else msg) buffer with
      | none => play S right k (next none) log
      | some (t, ct) => play S right k (next (some (t, ct))) (⟨data, msg, msg', t, ct⟩ :: log)
  | .unwrap data t ct buffer next, log =>
    if ∃ e ∈ log, e.data = data ∧ e.tag = t ∧ e.ct = ct then play S right k (next none) log
    else play S right k (next (S.unwrap k data t ct buffer)) log

/-- In this game something is opened that `wrap` did not return. -/
def forges (S : Scheme K) (right : Bool) (k : K) : Adversary → List Wrapped → Prop
  | .stop _, _ => False
  | .wrap data msg msg' buffer next, log =>
    if msg.length ≠ msg'.length ∨ ∃ e ∈ log, e.data = data ∧ (e.msg = msg ∨ e.msg' = msg') then forges S right k (next none) log
    else match S.wrap k data (if right then msg' else msg) buffer with
      | none => forges S right k (next none) log
      | some (t, ct) => forges S right k (next (some (t, ct))) (⟨data, msg, msg', t, ct⟩ :: log)
  | .unwrap data t ct buffer next, log =>
    if ∃ e ∈ log, e.data = data ∧ e.tag = t ∧ e.ct = ct then forges S right k (next none) log
    else (∃ out, S.unwrap k data t ct buffer = some (out, true)) ∨ forges S right k (next (S.unwrap k data t ct buffer)) log

/-- Whatever the answers, at most `q` calls, `a` of them to open; data and message of a call have together at most `n` bytes. -/
def Within (n : Nat) : Adversary → Nat → Nat → Prop
  | .stop _, _, _ => True
  | .wrap data msg _ _ next, q, a => data.length + msg.length ≤ n ∧ ∃ q', q = q' + 1 ∧ ∀ r, Within n (next r) q' a
  | .unwrap data _ ct _ next, q, a => data.length + ct.length ≤ n ∧ ∃ q', q = q' + 1 ∧ ∃ a', a = a' + 1 ∧ ∀ r, Within n (next r) q' a'

end CryptoPure.SivGame
