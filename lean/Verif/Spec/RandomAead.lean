import Verif.Spec.Game

/-! # The ideal authenticated cipher

Its ciphertexts and tags are random bytes, and it rejects everything. -/

namespace CryptoPure.Game

/-- Random bytes: `l` of them for each nonce. -/
abbrev RandomBytes (l : Nat) := {n : Bytes // n.length = 12} → {b : Bytes // b.length = l}

/-- For messages of at most `l` bytes. An encryption answers with the random bytes of the nonce: as many as the message has for the ciphertext, and the
next 16 for the tag; message and data are not looked at. A decryption leaves the buffer as it is and answers `false`. Both panic if the nonce does not have 12 bytes or the
buffer does not have the length of the input. -/
def randomAead (l : Nat) : Scheme (RandomBytes (l + 16)) where
  enc T msg nonce _ buffer :=
    if h : nonce.length = 12 then
      if buffer.length = msg.length then
        some ((T ⟨nonce, h⟩).1.take msg.length, ((T ⟨nonce, h⟩).1.drop msg.length).take 16)
      else none
    else none
  dec _ ct nonce _ _ buffer := if nonce.length = 12 ∧ buffer.length = ct.length then some (buffer, false) else none

end CryptoPure.Game
