import Verif.Basic

/-! # RFC 8439 §2.1–2.4: ChaCha20. The state is a 4×4 matrix of words (row, column). -/

namespace CryptoPure.Spec.ChaCha20

abbrev State := Fin 4 → Fin 4 → U32

/-- The quarter round on four words, §2.1; the result is indexed by 0..3 for a, b, c, d. -/
def quarterRound (a b c d : U32) : Fin 4 → U32 :=
  let a := a + b; let d := (d ^^^ a).rotateLeft 16
  let c := c + d; let b := (b ^^^ c).rotateLeft 12
  let a := a + b; let d := (d ^^^ a).rotateLeft 8
  let c := c + d; let b := (b ^^^ c).rotateLeft 7
  fun | 0 => a | 1 => b | 2 => c | 3 => d

/-- A column round: the quarter round on every column. -/
def columnRound (s : State) : State := fun r c => quarterRound (s 0 c) (s 1 c) (s 2 c) (s 3 c) r

/-- A diagonal round: the quarter round on the diagonals, `(0,c), (1,c+1), (2,c+2), (3,c+3)` modulo 4. -/
def diagonalRound (s : State) : State := fun r c => columnRound (fun r c => s r (c + r)) r (c - r)

/-- `n` double rounds. -/
def doubleRounds : Nat → State → State
  | 0, s => s
  | n + 1, s => doubleRounds n (diagonalRound (columnRound s))

/-- Word `i` of a little-endian byte string. -/
def word (b : Bytes) (i : Nat) : U32 := BitVec.ofNat 32 (leNat ((b.drop (4 * i)).take 4))

/-- The initial state, §2.3: constants, key, block counter, nonce. -/
def init (key : Bytes) (counter : U32) (nonce : Bytes) : State := fun r c =>
  match r with
  | 0 => ([0x61707865, 0x3320646e, 0x79622d32, 0x6b206574] : List U32).getD c.val 0
  | 1 => word key c.val
  | 2 => word key (4 + c.val)
  | 3 => if c = 0 then counter else word nonce (c.val - 1)

/-- The 64-byte block function, §2.3. -/
def block (key : Bytes) (counter : U32) (nonce : Bytes) : Bytes :=
  (List.finRange 4).flatMap fun r => (List.finRange 4).flatMap fun c =>
    toLE 4 (doubleRounds 10 (init key counter nonce) r c + init key counter nonce r c).toNat

end CryptoPure.Spec.ChaCha20
