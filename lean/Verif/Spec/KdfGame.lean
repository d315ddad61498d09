import Verif.Basic

/-! # Attacks on a key derivation function built from a compression function

The attacker may evaluate the compression function and have keys derived for contexts that it chooses, as often as it likes, each time with
arguments that may depend on all earlier answers. -/

namespace CryptoPure.KdfGame

/-- An attacker that chooses each step after seeing the answers to the earlier ones, and ends with some result. -/
inductive Attacker (w : Nat) (R : Type) where
  | stop (result : R)
  | compress (state : Oct w) (block : Bytes) (next : Oct w → Attacker w R)
  | derive (info buffer : Bytes) (next : Bytes → Attacker w R)

/-- What answers the attacker: `derive info buffer` is what `buffer` holds afterwards. `none` is a panic. -/
structure World (w : Nat) where
  compress : Oct w → Bytes → Oct w
  derive : Bytes → Bytes → Option Bytes

variable {w : Nat} {R : Type}

/-- The result of the attacker in this world; `none` if something panics. -/
def play (W : World w) : Attacker w R → Option R
  | .stop r => some r
  | .compress H b next => play W (next (W.compress H b))
  | .derive info buffer next => match W.derive info buffer with
    | none => none
    | some d => play W (next d)

/-- Whatever the answers, the attacker evaluates the compression function at most `p` times, on blocks of `B` bytes; its contexts have at
most `I` bytes and its buffers at most `L`, and the sum of the costs (which depend on these two lengths) is at most `n`. -/
def Attacker.Within (B I L : Nat) (cost : Nat → Nat → Nat) : Attacker w R → Nat → Nat → Prop
  | .stop _, _, _ => True
  | .compress _ b next, p, n => b.length = B ∧ ∃ p', p = p' + 1 ∧ ∀ y, Within B I L cost (next y) p' n
  | .derive info buffer next, p, n => info.length ≤ I ∧ buffer.length ≤ L ∧
      ∃ n', n = n' + cost info.length buffer.length ∧ ∀ t, Within B I L cost (next t) p n'

/-- The attacker, which at the end says on which blocks it has evaluated the compression function (and those in `seen`). -/
def Attacker.logged : List Bytes → Attacker w R → Attacker w (List Bytes)
  | seen, .stop _ => .stop seen
  | seen, .compress H b next => .compress H b fun y => (next y).logged (b :: seen)
  | seen, .derive info buffer next => .derive info buffer fun t => (next t).logged seen

/-- In this world the attacker evaluates the compression function on a block that starts with `x`. -/
def Compresses (W : World w) (X : Attacker w R) (x : Bytes) : Prop := ∃ l, play W (X.logged []) = some l ∧ ∃ b ∈ l, x <+: b

/-- An attacker that only evaluates the compression function, and ends with some result. -/
inductive Prober (w : Nat) (R : Type) where
  | stop (result : R)
  | compress (state : Oct w) (block : Bytes) (next : Oct w → Prober w R)

/-- The result with the compression function `f`. -/
def Prober.run (f : Oct w → Bytes → Oct w) : Prober w R → R
  | .stop r => r
  | .compress H b next => Prober.run f (next (f H b))

/-- Whatever the answers, at most `p` evaluations, on blocks of `B` bytes. -/
def Prober.Within (B : Nat) : Prober w R → Nat → Prop
  | .stop _, _ => True
  | .compress _ b next, p => b.length = B ∧ ∃ p', p = p' + 1 ∧ ∀ y, Prober.Within B (next y) p'

end CryptoPure.KdfGame
