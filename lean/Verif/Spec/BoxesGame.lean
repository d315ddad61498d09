import Verif.Spec.BoxGame

/-! # Attacks on many boxes for one receiver -/

namespace CryptoPure.BoxGame

/-- The attack on many boxes: in each call, the second of two messages of the same length is sealed if `right`, with the next of the one-time secret keys, as long as there are some left. Boxes
that the attacker got (`got`, with their data) are not opened for him. A refusal looks like a panic. -/
def playMany (B : Box) (right : Bool) (pk secret : Bytes) : Attacker → List Bytes → List (Bytes × Sealed) → Bool
  | .stop guess, _, _ => guess
  | .send data msg msg' next, oneTime, got =>
    if msg.length ≠ msg'.length then playMany B right pk secret (next none) oneTime got
    else match oneTime with
      | [] => playMany B right pk secret (next none) [] got
      | x :: rest => match B.close pk x data (if right then msg' else msg) with
        | none => playMany B right pk secret (next none) rest got
        | some box => playMany B right pk secret (next (some box)) rest ((data, box) :: got)
  | .receive data box next, oneTime, got =>
    if (data, box) ∈ got then playMany B right pk secret (next none) oneTime got
    else playMany B right pk secret (next (B.opens secret data box)) oneTime got

/-- The guess of an attacker who is given the public key. -/
def gameMany (B : Box) (right : Bool) (A : Bytes → Attacker) (secret : Bytes) (oneTime : List Bytes) : Bool :=
  match B.pub secret with
  | none => false
  | some pk => playMany B right pk secret (A pk) oneTime []

end CryptoPure.BoxGame
