import Verif.Basic

/-! # RFC 2104 (HMAC) and RFC 5869 (HKDF), for an arbitrary hash `hash : Bytes → Bytes` with block size `B`. -/

namespace CryptoPure.Spec

/-- RFC 2104 §2 step 1 (and §3 for long keys): the key brought to exactly one block by hashing keys longer
than a block, then appending zeros. -/
def hmacKey (hash : Bytes → Bytes) (B : Nat) (key : Bytes) : Bytes :=
  let k := if key.length > B then hash key else key
  k ++ zeros (B - k.length)

/-- RFC 2104 §2: `H(K xor opad, H(K xor ipad, text))`, ipad = 0x36 repeated, opad = 0x5c repeated. -/
def hmac (hash : Bytes → Bytes) (B : Nat) (key text : Bytes) : Bytes :=
  let k := hmacKey hash B key
  hash (xorBytes k (List.replicate B 0x5c) ++ hash (xorBytes k (List.replicate B 0x36) ++ text))

/-- RFC 5869 §2.3: `T(0)` is empty, `T(i) = HMAC(PRK, T(i-1) | info | i)` with a one-byte counter. -/
def hkdfT (hash : Bytes → Bytes) (B : Nat) (prk info : Bytes) : Nat → Bytes
  | 0 => []
  | i + 1 => hmac hash B prk (hkdfT hash B prk info i ++ info ++ [BitVec.ofNat 8 (i + 1)])

/-- RFC 5869 §2.3: the first `L` bytes of `T(1) | T(2) | ... | T(255)`. -/
def hkdfExpand (hash : Bytes → Bytes) (B : Nat) (prk info : Bytes) (L : Nat) : Bytes :=
  ((List.range 255).flatMap fun i => hkdfT hash B prk info (i + 1)).take L

/-- RFC 5869 §2.2: `PRK = HMAC(salt, IKM)`. -/
def hkdfExtract (hash : Bytes → Bytes) (B : Nat) (salt ikm : Bytes) : Bytes := hmac hash B salt ikm

end CryptoPure.Spec
