import Verif.Spec.MacGame

/-! # Attacks on a message authentication code with many keys

As Verif/Spec/MacGame.lean, with `u` users who have one key each. -/

namespace CryptoPure.MultiMacGame

variable {u w : Nat}

/-- An attacker that chooses each step after seeing the answers to the earlier ones. -/
inductive Attacker (u w : Nat) where
  | stop
  | compress (state : Oct w) (block : Bytes) (next : Oct w → Attacker u w)
  | tag (user : Fin u) (message : Bytes) (next : Bytes → Attacker u w)
  | verify (user : Fin u) (message tag : Bytes) (next : Bool → Attacker u w)

/-- At some time the attacker has a tag verified successfully by a user, for a message whose tag it has not asked that user for. `log`
holds the messages whose tags it has asked for so far. `W` answers for each user; `f` is the public compression function. -/
def forges (f : Oct w → Bytes → Oct w) (W : Fin u → MacGame.World w) : Attacker u w → List (Fin u × Bytes) → Prop
  | .stop, _ => False
  | .compress H b next, log => forges f W (next (f H b)) log
  | .tag user M next, log => match (W user).tag M with
    | none => False
    | some t => forges f W (next t) ((user, M) :: log)
  | .verify user M t next, log => ((user, M) ∉ log ∧ (W user).verify M t = some true) ∨ match (W user).verify M t with
    | none => False
    | some b => forges f W (next b) log

/-- Whatever the answers, the attacker asks the users at most `q` times altogether, of which at most `t` times to verify a tag; no
message is longer than `N` bytes. -/
def Attacker.Within (N : Nat) : Attacker u w → Nat → Nat → Prop
  | .stop, _, _ => True
  | .compress _ _ next, q, t => ∀ y, (next y).Within N q t
  | .tag _ M next, q, t => M.length ≤ N ∧ ∃ q', q = q' + 1 ∧ ∀ y, (next y).Within N q' t
  | .verify _ M _ next, q, t => M.length ≤ N ∧ ∃ q', q = q' + 1 ∧ ∃ t', t = t' + 1 ∧ ∀ b, (next b).Within N q' t'

/-- The attacker against user `i` alone: it answers for the other users itself. -/
def alone (W : Fin u → MacGame.World w) (i : Fin u) : Attacker u w → MacGame.Attacker w Unit
  | .stop => .stop ()
  | .compress H b next => .compress H b fun y => alone W i (next y)
  | .tag user M next =>
    if user = i then .tag M fun t => alone W i (next t)
    else match (W user).tag M with
      | none => .stop ()
      | some t => alone W i (next t)
  | .verify user M t next =>
    if user = i then .verify M t fun b => alone W i (next b)
    else match (W user).verify M t with
      | none => .stop ()
      | some b => alone W i (next b)

end CryptoPure.MultiMacGame
