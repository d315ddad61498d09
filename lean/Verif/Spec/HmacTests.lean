import Verif.Spec.MacGame
import Verif.Spec.Distinguisher
import Verif.Spec.ShaWith

/-! # Attacks on HMAC turned into tests of the compression function

A hash function is a compression function `f`, applied to one block after the other. HMAC is secure if `f` is a pseudorandom
function in two ways: with the chaining value as the key, and for the first block with a key in the block. Here are the programs that tell `f` from a
random function if an attack on HMAC succeeds. -/

namespace CryptoPure.MacGame
variable {w : Nat} {R : Type}

/-- The attacker that ends with `true` as soon as the given one has a tag accepted for a message whose tag it has not asked for, and otherwise with
`false`. -/
def forger : Attacker w R → List Bytes → Attacker w Bool
  | .stop _, _ => .stop false
  | .compress H b next, log => .compress H b fun y => forger (next y) log
  | .tag M next, log => .tag M fun t => forger (next t) (M :: log)
  | .verify M t next, log => .verify M t fun b => if b = true ∧ M ∉ log then .stop true else forger (next b) log

/-- Whatever the answers, at most `q` messages are tagged or verified, and at most `t` verified. -/
def Attacker.Uses : Attacker w R → Nat → Nat → Prop
  | .stop _, _, _ => True
  | .compress _ _ next, q, t => ∀ y, (next y).Uses q t
  | .tag _ next, q, t => ∃ q', q = q' + 1 ∧ ∀ y, (next y).Uses q' t
  | .verify _ _ next, q, t => ∃ q', q = q' + 1 ∧ ∃ t', t = t' + 1 ∧ ∀ b, (next b).Uses q' t'

/-- The messages have at most `N` bytes. -/
def Attacker.Short (N : Nat) : Attacker w R → Prop
  | .stop _ => True
  | .compress _ _ next => ∀ y, (next y).Short N
  | .tag M next => M.length ≤ N ∧ ∀ t, (next t).Short N
  | .verify M _ next => M.length ≤ N ∧ ∀ b, (next b).Short N

end CryptoPure.MacGame

namespace CryptoPure.Distinguisher
open Game (prob)
variable {α β : Type}

/-- How well `D` tells the functions `real k` from the functions `ideal i`, when it may use a random value of its own. -/
noncomputable def coinAdvantage {K I Coin : Type} (real : K → α → β) (ideal : I → α → β) (D : Coin → Distinguisher α β) : ℚ :=
  |prob (fun q : K × Coin => (D q.2).run (real q.1) = true) - prob (fun q : I × Coin => (D q.2).run (ideal q.1) = true)|

end CryptoPure.Distinguisher

namespace CryptoPure.HmacTests
open MacGame Distinguisher Spec.Sha2

/-! ## Tests for collisions -/

section
variable {C B : Type} [DecidableEq C] [DecidableEq B] (f : C → B → C)

/-- Ask for the values at `x` and `y`, continue with the blocks `X` and `Y`, and compare. -/
def equalTest (x : B) (X : List B) (y : B) (Y : List B) : Distinguisher B C :=
  .ask x fun u => .ask y fun v => .verdict (decide (X.foldl f u = Y.foldl f v))

/-- Ask for the value at `x`, continue with the blocks `X`, and compare with the result for the blocks `Y` after a random chaining value. -/
def valueTest (x : B) (X Y : List B) (coin : C) : Distinguisher B C :=
  .ask x fun u => .verdict (decide (X.foldl f u = Y.foldl f coin))

/-- One test for each block. -/
def valueTests : List B → List B → List (C → Distinguisher B C)
  | [], _ => []
  | x :: X, Y => valueTest f x X Y :: valueTests X Y

/-- The tests that find out whether two lists of blocks lead to the same chaining value more often than they should: one for each block of the
first list, and perhaps another one. `other` gives a different block. -/
def collisionTests (other : B → B) : List B → List B → List (C → Distinguisher B C)
  | [], [] => []
  | [], y :: Y => [fun _ => equalTest f (other y) [] y (Y ++ [other y])]
  | x :: X, [] => [fun _ => equalTest f x (X ++ [other x]) (other x) []]
  | x :: X, y :: Y => (fun _ => equalTest f x X y Y) :: if x = y then collisionTests other X Y else valueTests f X Y

end

/-! ## HMAC -/

/-- Blocks of `B` bytes. -/
abbrev Block (B : Nat) := {b : Bytes // b.length = B}

/-- A string of `B` bytes as a block. -/
def toBlock (B : Nat) (b : Bytes) : Block B := if h : b.length = B then ⟨b, h⟩ else ⟨zeros B, by simp [zeros]⟩

/-- Another block. -/
def otherBlock (B : Nat) (b : Block B) : Block B := if b.1 = zeros B then toBlock B (List.replicate B 1) else toBlock B (zeros B)

section
variable {w : Nat} (A : Alg w) (f : Oct w → Bytes → Oct w) (n : Nat)

/-- The first `n` bytes of a chaining value. -/
def digestBytes (H : Oct w) : Bytes := (H.toList.flatMap fun x => toBE (w / 8) x.toNat).take n

/-- A text with its padding, when one block has been hashed before. -/
def paddedText (M : Bytes) : Bytes := M ++ padding A (A.blockBytes + M.length) (8 * (A.blockBytes + M.length))

/-- The hash of a block followed by the text `M`, when `H` is the chaining value after the first block. -/
def hashAfter (H : Oct w) (M : Bytes) : Bytes := digestBytes n (hashBlocksF A f H (paddedText A M))

/-- HMAC, when `Ki` and `Ko` are the chaining values after the key has been absorbed in the two hashes. -/
def chainedWorld (Ki Ko : Oct w) : World w where
  compress := f
  tag M := some (hashAfter A f n Ko (hashAfter A f n Ki M))
  verify M t := some (decide (hashAfter A f n Ko (hashAfter A f n Ki M) = t))

/-- Ask for the values at the blocks of bytes 0x36 and 0x5c, and run the attack on HMAC with these two chaining values. -/
def keyTest (X : Attacker w Bool) : Distinguisher (Block A.blockBytes) (Oct w) :=
  .ask (toBlock _ (List.replicate A.blockBytes 0x36)) fun Ki => .ask (toBlock _ (List.replicate A.blockBytes 0x5c)) fun Ko =>
    .verdict (decide (play (chainedWorld A f n Ki Ko) X = some true))

/-- Run the attack on HMAC, with the chaining value `Ki` for the inner hash; ask for the last value of each outer hash. -/
def outerTest (Ki : Oct w) : Attacker w Bool → Distinguisher (Block A.blockBytes) (Oct w)
  | .stop b => .verdict b
  | .compress H b next => outerTest Ki (next (f H b))
  | .tag M next => .ask (toBlock _ (paddedText A (hashAfter A f n Ki M))) fun y => outerTest Ki (next (digestBytes n y))
  | .verify M t next => .ask (toBlock _ (paddedText A (hashAfter A f n Ki M))) fun y => outerTest Ki (next (decide (digestBytes n y = t)))

/-- The blocks of a padded text. -/
def textBlocks (M : Bytes) : List (Block A.blockBytes) := (chunks A.blockBytes (paddedText A M)).map (toBlock A.blockBytes)

/-- The compression function with the chaining value as the key. -/
def chainingKey (H : Oct w) (b : Block A.blockBytes) : Oct w := f H b.1

/-- The compression function with the key in the first block: the values at the key, filled up with zeros, xor the argument. -/
def blockKey (iv : Oct w) (key : Bytes) (x : Block A.blockBytes) : Oct w :=
  f iv (xorBytes (key ++ zeros (A.blockBytes - key.length)) x.1)

/-- The tests that find out whether two texts have the same hash more often than they should. -/
def textTests (M M' : Bytes) : List (Oct w → Distinguisher (Block A.blockBytes) (Oct w)) :=
  collisionTests (chainingKey A f) (otherBlock A.blockBytes) (textBlocks A M) (textBlocks A M')

end

end CryptoPure.HmacTests
