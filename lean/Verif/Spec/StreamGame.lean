import Verif.Spec.Game

/-! # A security game for an unauthenticated stream cipher

The adversary opens streams under nonces of its choice and sends data through them, interleaved as it likes, each call depending
on all earlier answers. -/

namespace CryptoPure.StreamGame

/-- An adversary that chooses each call after seeing the answers to the earlier ones. `start` opens a stream under a nonce and
learns whether that worked; `send` passes one of two messages through the stream of the nonce and sees the output. -/
inductive Adversary where
  | stop (guess : Bool)
  | start (nonce : Bytes) (next : Bool → Adversary)
  | send (nonce msg msg' buffer : Bytes) (next : Option Bytes → Adversary)

/-- A stream cipher with keys of type `K` and stream objects of type `S`. `none` is a panic. -/
structure Scheme (K S : Type) where
  new : K → (nonce : Bytes) → Option S
  process : S → (input buffer : Bytes) → Option (Bytes × S)

variable {K S : Type}

/-- The guess of the adversary at the end of the game with key `k`, in which the second message of each call is processed if
`right`. The list holds, for each nonce, the number of bytes processed so far and the stream object; the first entry for a nonce
counts. A nonce can be used for one stream only; two messages of different lengths are refused, and so is a message that would
take a stream beyond `2 ^ 38` bytes. A panic leaves the stream as it was. -/
def play (C : Scheme K S) (right : Bool) (k : K) : Adversary → List (Bytes × Nat × S) → Bool
  | .stop guess, _ => guess
  | .start nonce next, streams =>
    if nonce ∈ streams.map Prod.fst then play C right k (next false) streams
    else match C.new k nonce with
      | none => play C right k (next false) streams
      | some s => play C right k (next true) ((nonce, 0, s) :: streams)
  | .send nonce msg msg' buffer next, streams =>
    match streams.lookup nonce with
    | none => play C right k (next none) streams
    | some (n, s) =>
      if msg.length ≠ msg'.length ∨ 2 ^ 38 < n + msg.length then play C right k (next none) streams
      else match C.process s (if right then msg' else msg) buffer with
        | none => play C right k (next none) streams
        | some (out, s') => play C right k (next (some out)) ((nonce, n + msg.length, s') :: streams)

end CryptoPure.StreamGame
