import Verif.Spec.Game

/-! # Encrypting twice with two ciphers

A caller that does not want to depend on one cipher encrypts with one, and encrypts ciphertext and tag again with another one, under an independent key. -/

namespace CryptoPure.Layers
open Game

variable {K K' : Type}

/-- What the receiver makes of the answer of the outer cipher: the last 16 bytes are the tag of the inner cipher. -/
def peel (S : Scheme K) (k : K) (nonce data buffer : Bytes) : Option (Bytes × Bool) → Option (Bytes × Bool)
  | none => none
  | some (_, false) => some (buffer, false)
  | some (out, true) =>
    if out.length < 16 then some (buffer, false)
    else match S.dec k (out.take (out.length - 16)) nonce data (out.drop (out.length - 16)) (zeros (out.length - 16)) with
      | none => none
      | some (_, false) => some (buffer, false)
      | some (msg, true) => some (msg, true)

/-- The cipher `S` inside the cipher `S'`, with the same nonce and the same data. The buffer is for the outer ciphertext, which is 16 bytes longer than the message. -/
def layered (S : Scheme K) (S' : Scheme K') : Scheme (K × K') where
  enc k msg nonce data buffer := match S.enc k.1 msg nonce data (zeros msg.length) with
    | none => none
    | some (ct, t) => S'.enc k.2 (ct ++ t) nonce data buffer
  dec k ct nonce data tag buffer := peel S k.1 nonce data buffer (S'.dec k.2 ct nonce data tag buffer)

/-- An attack on both layers as an attack on the outer one, by someone who knows the key of the inner one. -/
def onOuter (S : Scheme K) (k : K) : Adversary → Adversary
  | .stop guess => .stop guess
  | .encrypt nonce data msg msg' buffer next =>
    if msg.length ≠ msg'.length then onOuter S k (next none)
    else match S.enc k msg nonce data (zeros msg.length), S.enc k msg' nonce data (zeros msg'.length) with
      | some (ct, t), some (ct', t') => .encrypt nonce data (ct ++ t) (ct' ++ t') buffer fun r => onOuter S k (next r)
      | _, _ => onOuter S k (next none)
  | .decrypt nonce data ct t buffer next => .decrypt nonce data ct t buffer fun r => onOuter S k (next (peel S k nonce data buffer r))

/-- An attack on both layers as an attack on the inner one, by someone who knows the key of the outer one. `log` is what was sent so far. -/
def onInner (S' : Scheme K') (k : K') : Adversary → Log → Adversary
  | .stop guess, _ => .stop guess
  | .encrypt nonce data msg msg' buffer next, log =>
    if S'.enc k (zeros (msg.length + 16)) nonce data buffer = none then onInner S' k (next none) log
    else .encrypt nonce data msg msg' (zeros msg.length) fun r => match r with
      | none => onInner S' k (next none) log
      | some (ct, t) => match S'.enc k (ct ++ t) nonce data buffer with
        | none => onInner S' k (next none) log
        | some (ct', t') => onInner S' k (next (some (ct', t'))) ((nonce, data, ct', t') :: log)
  | .decrypt nonce data ct t buffer next, log =>
    if (nonce, data, ct, t) ∈ log then onInner S' k (next none) log
    else match S'.dec k ct nonce data t buffer with
      | none => onInner S' k (next none) log
      | some (_, false) => onInner S' k (next (some (buffer, false))) log
      | some (out, true) =>
        if out.length < 16 then onInner S' k (next (some (buffer, false))) log
        else .decrypt nonce data (out.take (out.length - 16)) (out.drop (out.length - 16)) (zeros (out.length - 16)) fun r => match r with
          | none => onInner S' k (next none) log
          | some (_, false) => onInner S' k (next (some (buffer, false))) log
          | some (msg, true) => onInner S' k (next (some (msg, true))) log

end CryptoPure.Layers
