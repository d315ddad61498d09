import Verif.Spec.MultiGame
import Verif.Spec.Distinguisher
import Mathlib.Logic.Function.Basic

/-! # Attacks with many keys turned into distinguishers

As in Verif/Spec/Distinguisher.lean; the unknown functions are those of all users, and a question names the user. The user is
put in front of the nonce, so that the attack becomes one on a cipher with a single key that consists of all the keys. -/

namespace CryptoPure.MultiGame
open Game (Scheme)
open Distinguisher (Distinguisher)

/-- A nonce with a user in front. -/
def code (i : Nat) (nonce : Bytes) : Bytes := List.replicate i 1 ++ 0 :: nonce

/-- The user and the nonce. -/
def decode : Bytes → Option (Nat × Bytes)
  | [] => none
  | b :: bs => if b = 0 then some (0, bs) else if b = 1 then (decode bs).map fun p => (p.1 + 1, p.2) else none

variable {K : Type} {u : Nat}

/-- The user and the nonce, if there is such a user. -/
def user (u : Nat) (b : Bytes) : Option (Fin u × Bytes) :=
  match decode b with
  | none => none
  | some (i, nonce) => if h : i < u then some (⟨i, h⟩, nonce) else none

/-- The cipher with all the keys, the nonce telling which to use. -/
def all (u : Nat) (S : Scheme K) : Scheme (Fin u → K) where
  enc k msg nonce data buffer := match user u nonce with
    | none => none
    | some (i, nonce) => S.enc (k i) msg nonce data buffer
  dec k ct nonce data t buffer := match user u nonce with
    | none => none
    | some (i, nonce) => S.dec (k i) ct nonce data t buffer

/-- The adversary against that cipher. -/
def single : Adversary u → Game.Adversary
  | .stop g => .stop g
  | .encrypt i nonce data msg msg' buffer next => .encrypt (code i nonce) data msg msg' buffer fun r => single (next r)
  | .decrypt i nonce data ct t buffer next => .decrypt (code i nonce) data ct t buffer fun r => single (next r)

variable {α β : Type}

/-- A cipher whose keys are functions, with the functions of all users as one. -/
def over (u : Nat) (S : Scheme (α → β)) : Scheme (Fin u × α → β) where
  enc F := (all u S).enc fun i x => F (i, x)
  dec F := (all u S).dec fun i x => F (i, x)

/-- The values that a call needs. -/
def pointsOver (u : Nat) (points : Bytes → Nat → List α) (nonce : Bytes) (l : Nat) : List (Fin u × α) :=
  match user u nonce with
  | none => []
  | some (i, nonce) => (points nonce l).map fun x => (i, x)

variable [DecidableEq α] [Inhabited β]

/-- Run the attack, the keys being the unknown functions, and report whether it forges. -/
def forgeryTest (S : Scheme (α → β)) (points : Bytes → Nat → List α) (right : Bool) (A : Adversary u) : Distinguisher (Fin u × α) β :=
  Distinguisher.forgeryTest (over u S) (pointsOver u points) right (single A) []

/-- Run the attack, the keys being the unknown functions, and report the guess. -/
def guessTest (S : Scheme (α → β)) (points : Bytes → Nat → List α) (right : Bool) (A : Adversary u) : Distinguisher (Fin u × α) β :=
  Distinguisher.guessTest (over u S) (pointsOver u points) right (single A) []

/-- Whatever the answers, the calls of the adversary cost at most `s`, where a call with a message or ciphertext of length `l`
costs `cost l`. -/
def Costs (cost : Nat → Nat) : Adversary u → Nat → Prop
  | .stop _, _ => True
  | .encrypt _ _ _ msg _ _ next, s => ∃ s', s = cost msg.length + s' ∧ ∀ r, Costs cost (next r) s'
  | .decrypt _ _ _ ct _ _ next, s => ∃ s', s = cost ct.length + s' ∧ ∀ r, Costs cost (next r) s'

/-- Whatever the answers, the calls for each single user cost at most `B`, when those so far have cost `used`. -/
def CostsEach (cost : Nat → Nat) (B : Nat) : Adversary u → (Fin u → Nat) → Prop
  | .stop _, _ => True
  | .encrypt i _ _ msg _ _ next, used =>
    used i + cost msg.length ≤ B ∧ ∀ r, CostsEach cost B (next r) (Function.update used i (used i + cost msg.length))
  | .decrypt i _ _ ct _ _ next, used =>
    used i + cost ct.length ≤ B ∧ ∀ r, CostsEach cost B (next r) (Function.update used i (used i + cost ct.length))

end CryptoPure.MultiGame
