import Verif.Spec.Game

/-! # Attacks on a channel whose key was derived with a hash function

As Verif/Spec/Game.lean; the attacker may also evaluate the compression function of the hash function. -/

namespace CryptoPure.ChannelGame
open Game

/-- An attacker that chooses each step after seeing the answers to the earlier ones. -/
inductive Attacker (w : Nat) where
  | stop (guess : Bool)
  | compress (state : Oct w) (block : Bytes) (next : Oct w → Attacker w)
  | encrypt (nonce data msg msg' buffer : Bytes) (next : Option (Bytes × Bytes) → Attacker w)
  | decrypt (nonce data ct tag buffer : Bytes) (next : Option (Bytes × Bool) → Attacker w)

/-- How an attack ends: the guess; whether some decryption succeeded that was not the decryption of what an encryption returned; the blocks on which the
attacker evaluated the compression function. -/
structure Outcome where
  guess : Bool
  forged : Bool
  compressed : List Bytes

/-- The decryption succeeds. -/
def accepted : Option (Bytes × Bool) → Bool
  | some (_, true) => true
  | _ => false

variable {w : Nat} {K : Type}

/-- The attack on the cipher `S` with key `k`, with the compression function `f`; the second message is encrypted if `right`. Refusals as in `Game.play`. -/
def run (f : Oct w → Bytes → Oct w) (S : Scheme K) (right : Bool) (k : K) : Attacker w → Log → Outcome
  | .stop guess, _ => ⟨guess, false, []⟩
  | .compress H b next, log =>
    let o := run f S right k (next (f H b)) log
    { o with compressed := b :: o.compressed }
  | .encrypt nonce data msg msg' buffer next, log =>
    if nonce ∈ log.map Prod.fst ∨ msg.length ≠ msg'.length then run f S right k (next none) log
    else match S.enc k (if right then msg' else msg) nonce data buffer with
      | none => run f S right k (next none) log
      | some (ct, t) => run f S right k (next (some (ct, t))) ((nonce, data, ct, t) :: log)
  | .decrypt nonce data ct t buffer next, log =>
    if (nonce, data, ct, t) ∈ log then run f S right k (next none) log
    else
      let r := S.dec k ct nonce data t buffer
      let o := run f S right k (next r) log
      { o with forged := accepted r || o.forged }

/-- Whatever the answers, at most `p` evaluations of the compression function, on blocks of `B` bytes, and at most `a` decryptions; `blocks` of the lengths of
data and message is at most `n` in each call. -/
def Attacker.Within (B : Nat) (blocks : Nat → Nat → Nat) (n : Nat) : Attacker w → Nat → Nat → Prop
  | .stop _, _, _ => True
  | .compress _ b next, p, a => b.length = B ∧ ∃ p', p = p' + 1 ∧ ∀ y, Within B blocks n (next y) p' a
  | .encrypt _ data msg _ _ next, p, a => blocks data.length msg.length ≤ n ∧ ∀ r, Within B blocks n (next r) p a
  | .decrypt _ data ct _ _ next, p, a => blocks data.length ct.length ≤ n ∧ ∃ a', a = a' + 1 ∧ ∀ r, Within B blocks n (next r) p a'

end CryptoPure.ChannelGame
