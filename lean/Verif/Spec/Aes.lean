import Verif.Basic

/-! # FIPS 197 (AES), written from the standard. -/

namespace CryptoPure.Spec.Aes

/-- Product of two polynomials over GF(2) whose coefficients are the bits of `a` and `b` (deg b < 8). -/
def clmul (a b : Nat) : Nat :=
  (List.range 8).foldl (fun acc i => if b.testBit i then acc ^^^ (a <<< i) else acc) 0

/-- Remainder modulo `m(x) = x^8 + x^4 + x^3 + x + 1` (§4.2) of a polynomial of degree at most 14: cancel
the coefficients of degree 14, 13, ..., 8 in turn. -/
def reduce (p : Nat) : Nat :=
  [6, 5, 4, 3, 2, 1, 0].foldl (fun acc i => if acc.testBit (i + 8) then acc ^^^ (0x11b <<< i) else acc) p

/-- Multiplication in GF(2^8), §4.2. -/
def gmul (a b : U8) : U8 := BitVec.ofNat 8 (reduce (clmul a.toNat b.toNat))

/-- `a^2`. -/
def gsq (a : U8) : U8 := gmul a a

/-- Multiplicative inverse in GF(2^8), with 0 mapped to itself, §4.2: `a^254 = a^2 a^4 a^8 a^16 a^32 a^64 a^128`.
(`Props.C14_inverse` shows that it is the inverse.) -/
def ginv (a : U8) : U8 :=
  let a2 := gsq a
  let a4 := gsq a2
  let a8 := gsq a4
  let a16 := gsq a8
  let a32 := gsq a16
  let a64 := gsq a32
  gmul a2 (gmul a4 (gmul a8 (gmul a16 (gmul a32 (gmul a64 (gsq a64))))))

/-- §5.1.1, equation (5.1): `b'_i = b_i + b_(i+4) + b_(i+5) + b_(i+6) + b_(i+7) + c_i`, `c = 0x63`,
indices modulo 8. -/
def affine (b : U8) : U8 :=
  BitVec.ofBoolListLE ((List.range 8).map fun i =>
    (b.getLsbD i ^^ b.getLsbD ((i + 4) % 8) ^^ b.getLsbD ((i + 5) % 8) ^^ b.getLsbD ((i + 6) % 8)
      ^^ b.getLsbD ((i + 7) % 8) ^^ (0x63 : U8).getLsbD i))

/-- The S-box, §5.1.1. -/
def sbox (b : U8) : U8 := affine (ginv b)

/-- The State: `s r c` is the byte in row `r`, column `c` (§3.4). Index arithmetic in `Fin 4` is modulo 4. -/
abbrev State := Fin 4 → Fin 4 → U8
/-- A four-byte word. -/
abbrev Word := Fin 4 → U8

/-- §3.4: `s[r, c] = in[r + 4c]`. -/
def load (inp : Bytes) : State := fun r c => inp.getD (r.val + 4 * c.val) 0
/-- §3.4: `out[r + 4c] = s[r, c]`. -/
def store (s : State) : Bytes :=
  [s 0 0, s 1 0, s 2 0, s 3 0, s 0 1, s 1 1, s 2 1, s 3 1,
   s 0 2, s 1 2, s 2 2, s 3 2, s 0 3, s 1 3, s 2 3, s 3 3]

/-- §5.1.1. -/
def subBytes (s : State) : State := fun r c => sbox (s r c)
/-- §5.1.2: row `r` is shifted left by `r`. -/
def shiftRows (s : State) : State := fun r c => s r (c + r)
/-- §5.1.3. -/
def mixColumns (s : State) : State := fun r c =>
  gmul 2 (s r c) ^^^ gmul 3 (s (r + 1) c) ^^^ s (r + 2) c ^^^ s (r + 3) c
/-- §5.1.4: column `c` is xored with word `w[4 * round + c]`. -/
def addRoundKey (w : Nat → Word) (round : Nat) (s : State) : State := fun r c =>
  s r c ^^^ w (4 * round + c.val) r

/-- §5.2. -/
def subWord (w : Word) : Word := fun j => sbox (w j)
/-- §5.2: `[a0, a1, a2, a3] ↦ [a1, a2, a3, a0]`. -/
def rotWord (w : Word) : Word := fun j => w (j + 1)
/-- `{02}^k`. -/
def xpow : Nat → U8
  | 0 => 1
  | k + 1 => gmul 2 (xpow k)
/-- §5.2: `Rcon[j] = [{02}^(j-1), 0, 0, 0]`. -/
def rcon (j : Nat) : Word := fun k => if k = 0 then xpow (j - 1) else 0

/-- §5.2: word `i` of the expanded key, `Nk > 0` the key length in words. -/
def keyWord (Nk : Nat) (key : Bytes) (i : Nat) : Word :=
  if h : i < Nk ∨ Nk = 0 then fun j => key.getD (4 * i + j.val) 0
  else
    let temp := keyWord Nk key (i - 1)
    let temp' : Word :=
      if i % Nk = 0 then fun j => subWord (rotWord temp) j ^^^ rcon (i / Nk) j
      else if Nk > 6 ∧ i % Nk = 4 then subWord temp
      else temp
    fun j => keyWord Nk key (i - Nk) j ^^^ temp' j
termination_by i
decreasing_by all_goals omega

/-- §5.1: the state after the initial AddRoundKey and `n` full rounds. -/
def rounds (w : Nat → Word) (s : State) : Nat → State
  | 0 => addRoundKey w 0 s
  | n + 1 => addRoundKey w (n + 1) (mixColumns (shiftRows (subBytes (rounds w s n))))

/-- §5.1: the cipher with `Nr` rounds. -/
def cipher (Nr : Nat) (w : Nat → Word) (inp : Bytes) : Bytes :=
  store (addRoundKey w Nr (shiftRows (subBytes (rounds w (load inp) (Nr - 1)))))

/-- AES with a key of `Nk` words (4, 6 or 8); `Nr = Nk + 6` (§5, figure 4). -/
def aes (Nk : Nat) (key block : Bytes) : Bytes := cipher (Nk + 6) (keyWord Nk key) block

end CryptoPure.Spec.Aes
