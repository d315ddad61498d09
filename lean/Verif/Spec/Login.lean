import Verif.Spec.HmacTests

/-! # Logging in with a shared key

The server draws a random challenge, the client answers with the HMAC of the challenge, and the server verifies it. An attacker without the key may use the client and the server as it likes
before the challenge is drawn, and also afterwards, except that it cannot have this very challenge answered by the client. -/

namespace CryptoPure.Login
open MacGame

variable {w : Nat} {R T : Type}

/-- One attack after the other; the second one depends on the result of the first one. -/
def andThen : Attacker w R → (R → Attacker w T) → Attacker w T
  | .stop r, f => f r
  | .compress H b next, f => .compress H b fun y => andThen (next y) f
  | .tag M next, f => .tag M fun t => andThen (next t) f
  | .verify M t next, f => .verify M t fun b => andThen (next b) f

/-- The texts whose tags the attacker asks for in this world. -/
def tagged (W : World w) : Attacker w R → List Bytes
  | .stop _ => []
  | .compress H b next => tagged W (next (W.compress H b))
  | .tag M next => M :: match W.tag M with
    | none => []
    | some t => tagged W (next t)
  | .verify M t next => match W.verify M t with
    | none => []
    | some b => tagged W (next b)

/-- Whatever the answers, the result of the attacker has this property. -/
def Ends (P : R → Prop) : Attacker w R → Prop
  | .stop r => P r
  | .compress _ _ next => ∀ y, Ends P (next y)
  | .tag _ next => ∀ t, Ends P (next t)
  | .verify _ _ next => ∀ b, Ends P (next b)

/-- The attacker logs in: after the first part the challenge is drawn; in the second part the client is not asked to answer it; the answer that the attacker gives is accepted. -/
def logsIn {n : Nat} (W : World w) (X : Attacker w ({c : Bytes // c.length = n} → Attacker w Bytes)) (c : {c : Bytes // c.length = n}) : Prop :=
  ∃ second answer, play W X = some second ∧ c.1 ∉ tagged W (second c) ∧ play W (second c) = some answer ∧ W.verify c.1 answer = some true

/-- The attack on HMAC made of it, for a challenge. -/
def forgery {n : Nat} (X : Attacker w ({c : Bytes // c.length = n} → Attacker w Bytes)) (c : {c : Bytes // c.length = n}) : Attacker w Unit :=
  andThen X fun second => andThen (second c) fun answer => .verify c.1 answer fun _ => .stop ()

end CryptoPure.Login
