import Verif.Basic

/-! # Attacks on a message authentication code built from a compression function

The attacker may evaluate the compression function, ask for the tags of messages and have tags verified, as often as it likes, each time with
arguments that may depend on all earlier answers. -/

namespace CryptoPure.MacGame

/-- An attacker that chooses each step after seeing the answers to the earlier ones, and ends with some result. -/
inductive Attacker (w : Nat) (R : Type) where
  | stop (result : R)
  | compress (state : Oct w) (block : Bytes) (next : Oct w → Attacker w R)
  | tag (message : Bytes) (next : Bytes → Attacker w R)
  | verify (message tag : Bytes) (next : Bool → Attacker w R)

/-- What answers the attacker. `none` is a panic. -/
structure World (w : Nat) where
  compress : Oct w → Bytes → Oct w
  tag : Bytes → Option Bytes
  verify : Bytes → Bytes → Option Bool

variable {w : Nat} {R : Type}

/-- The result of the attacker in this world; `none` if something panics. -/
def play (W : World w) : Attacker w R → Option R
  | .stop r => some r
  | .compress H b next => play W (next (W.compress H b))
  | .tag M next => match W.tag M with
    | none => none
    | some t => play W (next t)
  | .verify M t next => match W.verify M t with
    | none => none
    | some b => play W (next b)

/-- At some time the attacker has a tag verified successfully, for a message whose tag it has not asked for. `log` holds the messages whose tags
it has asked for so far. -/
def forges (W : World w) : Attacker w R → List Bytes → Prop
  | .stop _, _ => False
  | .compress H b next, log => forges W (next (W.compress H b)) log
  | .tag M next, log => match W.tag M with
    | none => False
    | some t => forges W (next t) (M :: log)
  | .verify M t next, log => (M ∉ log ∧ W.verify M t = some true) ∨ match W.verify M t with
    | none => False
    | some b => forges W (next b) log

/-- Whatever the answers, the attacker evaluates the compression function at most `p` times, on blocks of `B` bytes; the messages it asks
about have at most `N` bytes, and the sum of their costs is at most `n`; at most `v` tags are verified. -/
def Attacker.Within (B N : Nat) (cost : Nat → Nat) : Attacker w R → Nat → Nat → Nat → Prop
  | .stop _, _, _, _ => True
  | .compress _ b next, p, n, v => b.length = B ∧ ∃ p', p = p' + 1 ∧ ∀ y, Within B N cost (next y) p' n v
  | .tag M next, p, n, v => M.length ≤ N ∧ ∃ n', n = n' + cost M.length ∧ ∀ t, Within B N cost (next t) p n' v
  | .verify M _ next, p, n, v => M.length ≤ N ∧ ∃ n', n = n' + cost M.length ∧ ∃ v', v = v' + 1 ∧ ∀ b, Within B N cost (next b) p n' v'

end CryptoPure.MacGame
