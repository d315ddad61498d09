import Verif.Spec.Distinguisher
import Verif.Spec.StreamGame
import Mathlib.Logic.Function.Basic

/-! # An attack on a stream cipher turned into a distinguisher for its block function

The block function maps a nonce of 12 bytes and a counter to a block of 64 bytes. Byte `n` of the stream of a nonce is byte
`n mod 64` of its block `n / 64`. -/

namespace CryptoPure.StreamGame
open Distinguisher

/-- Where the block function is evaluated: nonce and counter. -/
abbrev Point := {n : Bytes // n.length = 12} × U32
/-- Its values. -/
abbrev Block := {b : Bytes // b.length = 64}

instance : Inhabited Block := ⟨⟨zeros 64, List.length_replicate⟩⟩

/-- The points that bytes `n`, …, `n + len - 1` of the stream of a nonce need. -/
def blockPoints (nonce : {n : Bytes // n.length = 12}) (n len : Nat) : List Point :=
  (List.range ((n + len + 63) / 64 - n / 64)).map fun i => (nonce, BitVec.ofNat 32 (n / 64 + i))

/-- Bytes `n`, …, `n + len - 1` of the stream of a nonce. -/
def keystream (F : Point → Block) (nonce : {n : Bytes // n.length = 12}) (n len : Nat) : Bytes :=
  (List.range len).map fun i => (F (nonce, BitVec.ofNat 32 ((n + i) / 64))).1.getD ((n + i) % 64) 0

/-- Run the attack on the streams of the unknown block function and report the attacker's guess. `at_` tells how many bytes the
stream of a nonce has processed. -/
def guessTest (right : Bool) : Adversary → ({n : Bytes // n.length = 12} → Option Nat) → Distinguisher Point Block
  | .stop guess, _ => .verdict guess
  | .start nonce next, at_ =>
    if h : nonce.length = 12 then
      if (at_ ⟨nonce, h⟩).isSome then guessTest right (next false) at_
      else guessTest right (next true) (Function.update at_ ⟨nonce, h⟩ (some 0))
    else guessTest right (next false) at_
  | .send nonce msg msg' buffer next, at_ =>
    if h : nonce.length = 12 then
      match at_ ⟨nonce, h⟩ with
      | none => guessTest right (next none) at_
      | some n =>
        if msg.length = msg'.length ∧ n + msg.length ≤ 2 ^ 38 ∧ msg.length = buffer.length then
          askAll (blockPoints ⟨nonce, h⟩ n msg.length) fun answers =>
            guessTest right (next (some (xorBytes (if right then msg' else msg) (keystream (table answers) ⟨nonce, h⟩ n msg.length))))
              (Function.update at_ ⟨nonce, h⟩ (some (n + msg.length)))
        else guessTest right (next none) at_
    else guessTest right (next none) at_

/-- Whatever the answers, the messages sent take at most `s` blocks: a message of `l` bytes touches at most `l / 64`, rounded up,
and one more blocks. -/
def Sends : Adversary → Nat → Prop
  | .stop _, _ => True
  | .start _ next, s => ∀ r, Sends (next r) s
  | .send _ msg _ _ next, s => ∃ s', s = (msg.length + 63) / 64 + 1 + s' ∧ ∀ r, Sends (next r) s'

end CryptoPure.StreamGame
