import Verif.Spec.ChaCha20

/-! # RFC 8439 §2.5–2.8: Poly1305 and the ChaCha20-Poly1305 AEAD -/

namespace CryptoPure.Spec.Poly1305

/-- The prime `2^130 - 5`. -/
def P : Nat := 2 ^ 130 - 5

/-- `clamp(r)`, §2.5.1. -/
def clamp (r : Nat) : Nat := r &&& 0x0ffffffc0ffffffc0ffffffc0fffffff

/-- The accumulator after the 16-byte (or shorter) blocks, §2.5.1: `a = (r * (a + n)) % P`, `n` the block with a
byte 1 appended. -/
def accumulate (r : Nat) (blocks : List Bytes) : Nat :=
  blocks.foldl (fun a b => (r * (a + leNat (b ++ [1]))) % P) 0

/-- The accumulator of a message under a 32-byte one-time key, before `s` is added. -/
def acc (key msg : Bytes) : Nat := accumulate (clamp (leNat (key.take 16))) (chunks 16 msg)

/-- `poly1305_mac(msg, key)`, §2.5.1: the low 128 bits of `a + s`. -/
def mac (key msg : Bytes) : Bytes := toLE 16 (acc key msg + leNat (key.drop 16))

/-- `pad16`, §2.8.1. -/
def pad16 (x : Bytes) : Bytes := zeros ((16 - x.length % 16) % 16)

/-- `mac_data`, §2.8.1. -/
def macData (aad ciphertext : Bytes) : Bytes :=
  aad ++ pad16 aad ++ ciphertext ++ pad16 ciphertext ++ toLE 8 aad.length ++ toLE 8 ciphertext.length

/-- `poly1305_key_gen`, §2.6.1. -/
def oneTimeKey (key nonce : Bytes) : Bytes := (ChaCha20.block key 0 nonce).take 32

/-- ChaCha20 encryption of the pieces of a message with block counters `c, c+1, …` (32-bit words), §2.4.1. -/
def cryptBlocks (key nonce : Bytes) : U32 → List Bytes → Bytes
  | _, [] => []
  | c, b :: bs => xorBytes b (ChaCha20.block key c nonce) ++ cryptBlocks key nonce (c + 1) bs

/-- `chacha20_encrypt(key, 1, nonce, plaintext)`, §2.8.1. -/
def crypt (key nonce msg : Bytes) : Bytes := cryptBlocks key nonce 1 (chunks 64 msg)

/-- The AEAD tag, §2.8.1. -/
def tag (key nonce aad ciphertext : Bytes) : Bytes := mac (oneTimeKey key nonce) (macData aad ciphertext)

end CryptoPure.Spec.Poly1305
