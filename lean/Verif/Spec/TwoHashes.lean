import Verif.Model.Hmac
import Verif.Spec.MacGame

/-! # Two hash functions at once

A caller that does not want to depend on one hash function puts the digests of two hash functions one after the other, and likewise the tags of two
MACs under independent keys. -/

namespace CryptoPure.TwoHashes
open Model MacGame

/-- Both digests of a message: two calls of functions like `sha256`, /repo/src/sha2.rs:134-137. -/
def digests (H H' : Sha2.HashFunction) (m : Mode) (M : Bytes) : Option Bytes := do
  let d ← Sha2.wrapper H m M
  let d' ← Sha2.wrapper H' m M
  some (d ++ d')

/-- Both tags of a message: two calls of functions like `hmac_sha256`, /repo/src/hmac.rs:33-41. -/
def tags (H H' : Sha2.HashFunction) (m : Mode) (key key' M : Bytes) : Option Bytes := do
  let t ← Hmac.wrapper H m key M
  let t' ← Hmac.wrapper H' m key' M
  some (t ++ t')

/-- Both parts of a tag are verified: two calls of `verify`, /repo/src/hmac.rs:117-122. -/
def check (H H' : Sha2.HashFunction) (m : Mode) (key key' M t : Bytes) : Option Bool := do
  let b ← Hmac.verify H m key M (t.take H.digestSize)
  let b' ← Hmac.verify H' m key' M (t.drop H.digestSize)
  some (b && b')

variable {w w' : Nat} {R : Type}

/-- An attack on the two MACs as an attack on the first one, by someone who can compute and verify the tags of the second one. The tags of the first one have `n` bytes. -/
def onFirst (W' : World w') (n : Nat) : Attacker w R → Attacker w (Option R)
  | .stop r => .stop (some r)
  | .compress H b next => .compress H b fun y => onFirst W' n (next y)
  | .tag M next => match W'.tag M with
    | none => .stop none
    | some t' => .tag M fun t => onFirst W' n (next (t ++ t'))
  | .verify M t next => match W'.verify M (t.drop n) with
    | none => .stop none
    | some b' => .verify M (t.take n) fun b => onFirst W' n (next (b && b'))

/-- An attack on the two MACs as an attack on the second one, by someone who can compute and verify the tags of the first one. -/
def onSecond (W : World w) (n : Nat) : Attacker w R → Attacker w' (Option R)
  | .stop r => .stop (some r)
  | .compress H b next => onSecond W n (next (W.compress H b))
  | .tag M next => match W.tag M with
    | none => .stop none
    | some t => .tag M fun t' => onSecond W n (next (t ++ t'))
  | .verify M t next => match W.verify M (t.take n) with
    | none => .stop none
    | some b => .verify M (t.drop n) fun b' => onSecond W n (next (b && b'))

end CryptoPure.TwoHashes
