import Verif.Spec.Game
import Mathlib.Algebra.Order.Ring.Rat
import Mathlib.Algebra.Order.Group.Unbundled.Abs

/-! # Distinguishers, and attacks on a cipher turned into distinguishers

The security of AES or of the ChaCha20 block function is a hypothesis about distinguishers: programs that may ask for values of
an unknown function and then give a verdict. `forgeryTest` and `guessTest` run an attack on a cipher built from that
function, answering the attacker's calls from the values they ask for. -/

namespace CryptoPure.Distinguisher
open Game (Scheme Log Adversary prob)

/-- A program that asks for values of a function, each time depending on the earlier answers, and gives a verdict. -/
inductive Distinguisher (α β : Type) where
  | verdict (b : Bool)
  | ask (x : α) (next : β → Distinguisher α β)

variable {α β : Type}

/-- The verdict for the function `F`. -/
def Distinguisher.run (F : α → β) : Distinguisher α β → Bool
  | .verdict b => b
  | .ask x next => (next (F x)).run F

/-- Whatever the answers, at most `q` questions. -/
def Distinguisher.Asks : Distinguisher α β → Nat → Prop
  | .verdict _, _ => True
  | .ask _ next, q => ∃ q', q = q' + 1 ∧ ∀ y, (next y).Asks q'

/-- Ask for the values at all these points. -/
def askAll : List α → (List (α × β) → Distinguisher α β) → Distinguisher α β
  | [], next => next []
  | x :: xs, next => .ask x fun y => askAll xs fun answers => next ((x, y) :: answers)

/-- The function with these values. -/
def table [DecidableEq α] [Inhabited β] (answers : List (α × β)) (x : α) : β := (answers.lookup x).getD default

/-- The answer of a decryption that succeeds. -/
def accepted : Option (Bytes × Bool) → Bool
  | some (_, true) => true
  | _ => false

variable [DecidableEq α] [Inhabited β]

/-- Run the attack on the cipher `S`, whose key is the unknown function, and report whether it forges. `points` lists the values
that a call with this nonce and a message of this length may need. -/
def forgeryTest (S : Scheme (α → β)) (points : Bytes → Nat → List α) (right : Bool) : Adversary → Log → Distinguisher α β
  | .stop _, _ => .verdict false
  | .encrypt nonce data msg msg' buffer next, log =>
    if nonce ∈ log.map Prod.fst ∨ msg.length ≠ msg'.length then forgeryTest S points right (next none) log
    else askAll (points nonce msg.length) fun answers =>
      match S.enc (table answers) (if right then msg' else msg) nonce data buffer with
      | none => forgeryTest S points right (next none) log
      | some (ct, t) => forgeryTest S points right (next (some (ct, t))) ((nonce, data, ct, t) :: log)
  | .decrypt nonce data ct t buffer next, log =>
    if (nonce, data, ct, t) ∈ log then forgeryTest S points right (next none) log
    else askAll (points nonce ct.length) fun answers =>
      if accepted (S.dec (table answers) ct nonce data t buffer) then .verdict true
      else forgeryTest S points right (next (S.dec (table answers) ct nonce data t buffer)) log

/-- Run the attack on the cipher `S`, whose key is the unknown function, and report the attacker's guess. -/
def guessTest (S : Scheme (α → β)) (points : Bytes → Nat → List α) (right : Bool) : Adversary → Log → Distinguisher α β
  | .stop guess, _ => .verdict guess
  | .encrypt nonce data msg msg' buffer next, log =>
    if nonce ∈ log.map Prod.fst ∨ msg.length ≠ msg'.length then guessTest S points right (next none) log
    else askAll (points nonce msg.length) fun answers =>
      match S.enc (table answers) (if right then msg' else msg) nonce data buffer with
      | none => guessTest S points right (next none) log
      | some (ct, t) => guessTest S points right (next (some (ct, t))) ((nonce, data, ct, t) :: log)
  | .decrypt nonce data ct t buffer next, log =>
    if (nonce, data, ct, t) ∈ log then guessTest S points right (next none) log
    else askAll (points nonce ct.length) fun answers =>
      guessTest S points right (next (S.dec (table answers) ct nonce data t buffer)) log

/-- Whatever the answers, the calls of the adversary cost at most `s`, where a call with a message or ciphertext of length `l`
costs `cost l`. -/
def Costs (cost : Nat → Nat) : Adversary → Nat → Prop
  | .stop _, _ => True
  | .encrypt _ _ msg _ _ next, s => ∃ s', s = cost msg.length + s' ∧ ∀ r, Costs cost (next r) s'
  | .decrypt _ _ ct _ _ next, s => ∃ s', s = cost ct.length + s' ∧ ∀ r, Costs cost (next r) s'

/-- How well `D` tells the functions `real k`, for a random key `k`, from the functions `ideal i`, for a random `i`. -/
noncomputable def advantage {K I : Type} (real : K → α → β) (ideal : I → α → β) (D : Distinguisher α β) : ℚ :=
  |prob (fun k => D.run (real k) = true) - prob (fun i => D.run (ideal i) = true)|

end CryptoPure.Distinguisher
