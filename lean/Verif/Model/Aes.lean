import Verif.Basic

/-! Model of /repo/src/aes.rs. `[u8; 16]` blocks and the key schedule are byte lists. -/

namespace CryptoPure.Model.Aes

/-- `(x as i8 >> 7) as u8`: all ones if the top bit is set, else zero (arithmetic shift),
as in src/aes.rs:133, 154, 250. -/
def signMask (x : U8) : U8 := x.sshiftRight 7

/-- `xtime`, src/aes.rs:132-135. -/
def xtime (byte : U8) : U8 := (byte <<< 1) ^^^ (0x1b &&& signMask byte)

/-- `A2X`, src/aes.rs:139. -/
def A2X : List U8 := [0x98, 0xF3, 0xF2, 0x48, 0x09, 0x81, 0xA9, 0xFF]
/-- `X2S`, src/aes.rs:140. -/
def X2S : List U8 := [0x58, 0x2D, 0x9E, 0x0B, 0xDC, 0x04, 0x03, 0x24]

/-- `g256_newbasis`, src/aes.rs:149-159. The fold state is `(x, y)`. -/
def g256Newbasis (x : U8) (b : List U8) : U8 :=
  (b.reverse.foldl (fun (p : U8 × U8) bi => (p.1 >>> 1, p.2 ^^^ (bi &&& signMask (p.1 <<< 7)))) (x, 0)).2

/-- `g4_mul`, src/aes.rs:203-212. -/
def g4Mul (x y : U8) : U8 :=
  let a := (x &&& 0x2) >>> 1
  let b := x &&& 0x1
  let c := (y &&& 0x2) >>> 1
  let d := y &&& 0x1
  let e := (a ^^^ b) &&& (c ^^^ d)
  let p := (a &&& c) ^^^ e
  let q := (b &&& d) ^^^ e
  (p <<< 1) ||| q

/-- `g4_scl_n`, src/aes.rs:214-220. -/
def g4SclN (x : U8) : U8 :=
  let a := (x &&& 0x2) >>> 1
  let b := x &&& 0x1
  let p := b
  let q := a ^^^ b
  (p <<< 1) ||| q

/-- `g4_scl_n2`, src/aes.rs:222-228. -/
def g4SclN2 (x : U8) : U8 :=
  let a := (x &&& 0x2) >>> 1
  let b := x &&& 0x1
  let p := a ^^^ b
  let q := a
  (p <<< 1) ||| q

/-- `g4_sq`, src/aes.rs:230-234. -/
def g4Sq (x : U8) : U8 :=
  let a := (x &&& 0x2) >>> 1
  let b := x &&& 0x1
  (b <<< 1) ||| a

/-- `g16_mul`, src/aes.rs:183-193. -/
def g16Mul (x y : U8) : U8 :=
  let a := (x &&& 0xc) >>> 2
  let b := x &&& 0x3
  let c := (y &&& 0xc) >>> 2
  let d := y &&& 0x3
  let e := g4SclN (g4Mul (a ^^^ b) (c ^^^ d))
  let p := g4Mul a c ^^^ e
  let q := g4Mul b d ^^^ e
  (p <<< 2) ||| q

/-- `g16_sq_scl`, src/aes.rs:195-201. -/
def g16SqScl (x : U8) : U8 :=
  let a := (x &&& 0xc) >>> 2
  let b := x &&& 0x3
  let p := g4Sq (a ^^^ b)
  let q := g4SclN2 (g4Sq b)
  (p <<< 2) ||| q

/-- `g16_inv`, src/aes.rs:172-181. -/
def g16Inv (x : U8) : U8 :=
  let a := (x &&& 0xc) >>> 2
  let b := x &&& 0x3
  let c := g4SclN (g4Sq (a ^^^ b))
  let d := g4Mul a b
  let e := g4Sq (c ^^^ d)
  let p := g4Mul e b
  let q := g4Mul e a
  (p <<< 2) ||| q

/-- `g256_inv`, src/aes.rs:161-170. -/
def g256Inv (x : U8) : U8 :=
  let a := (x &&& 0xf0) >>> 4
  let b := x &&& 0x0f
  let c := g16SqScl (a ^^^ b)
  let d := g16Mul a b
  let e := g16Inv (c ^^^ d)
  let p := g16Mul e b
  let q := g16Mul e a
  (p <<< 4) ||| q

/-- `s_box`, src/aes.rs:142-147. -/
def sBox (n : U8) : U8 :=
  let t := g256Newbasis n A2X
  let t := g256Inv t
  let t := g256Newbasis t X2S
  t ^^^ 0x63

/-- `sub_word`, src/aes.rs:84-88. -/
def subWord (word : Bytes) : Bytes := word.map sBox
/-- `sub_bytes`, src/aes.rs:90-94. -/
def subBytes (state : Bytes) : Bytes := state.map sBox

/-- `slice.swap(i, j)`, as used in src/aes.rs:102-103. -/
def swap (l : Bytes) (i j : Nat) : Bytes := (l.set i (l.getD j 0)).set j (l.getD i 0)

/-- `shift_rows`, src/aes.rs:96-109. -/
def shiftRows (state : Bytes) : Bytes :=
  let temp := state.getD 1 0
  let state := [0, 1, 2].foldl (fun st i => st.set (1 + 4 * i) (st.getD (1 + 4 * (i + 1)) 0)) state
  let state := state.set 13 temp
  let state := swap state 2 10
  let state := swap state 6 14
  let temp := state.getD 15 0
  let state := [2, 1, 0].foldl (fun st i => st.set (3 + 4 * (i + 1)) (st.getD (3 + 4 * i) 0)) state
  state.set 3 temp

/-- `xor_column`, src/aes.rs:124-126. -/
def xorColumn (a b : Bytes) : Bytes :=
  [a.getD 0 0 ^^^ b.getD 0 0, a.getD 1 0 ^^^ b.getD 1 0, a.getD 2 0 ^^^ b.getD 2 0,
   a.getD 3 0 ^^^ b.getD 3 0]

/-- `xtime_column`, src/aes.rs:128-130. -/
def xtimeColumn (c : Bytes) : Bytes :=
  [xtime (c.getD 0 0), xtime (c.getD 1 0), xtime (c.getD 2 0), xtime (c.getD 3 0)]

/-- Body of the loop of `mix_columns`, src/aes.rs:113-120. -/
def mixColumn (c : Bytes) : Bytes :=
  let x2 := xtimeColumn c
  let x3 := xorColumn x2 c
  [x2.getD 0 0 ^^^ x3.getD 1 0 ^^^ c.getD 2 0 ^^^ c.getD 3 0,
   x2.getD 1 0 ^^^ x3.getD 2 0 ^^^ c.getD 3 0 ^^^ c.getD 0 0,
   x2.getD 2 0 ^^^ x3.getD 3 0 ^^^ c.getD 0 0 ^^^ c.getD 1 0,
   x2.getD 3 0 ^^^ x3.getD 0 0 ^^^ c.getD 1 0 ^^^ c.getD 2 0]

/-- `mix_columns`, src/aes.rs:111-122. -/
def mixColumns (state : Bytes) : Bytes := (chunks 4 state).flatMap mixColumn

/-- State of the key-expansion loop: the schedule array and `rcon`, src/aes.rs:46-48. -/
structure KeyExp where
  schedule : Bytes
  rcon : U8

/-- Body of the loop of `key_expansion`, src/aes.rs:49-63, for index `i` (`nk` is `Self::NK`).
The inner `for j in 0..4` writes bytes `4 i + j`. -/
def keyExpStep (nk : Nat) (s : KeyExp) (i : Nat) : KeyExp :=
  let temp := (s.schedule.drop (4 * (i - 1))).take 4
  let (temp, rcon) :=
    if i % nk = 0 then
      let temp := subWord (temp.rotateLeft 1)
      (temp.set 0 (temp.getD 0 0 ^^^ s.rcon), xtime s.rcon)
    else if nk > 6 ∧ i % nk = 4 then (subWord temp, s.rcon)
    else (temp, s.rcon)
  { schedule := [0, 1, 2, 3].foldl
      (fun sch j => sch.set (4 * i + j) (sch.getD (4 * (i - nk) + j) 0 ^^^ temp.getD j 0)) s.schedule,
    rcon := rcon }

/-- `key_expansion`, src/aes.rs:44-65 with `NR = NK + 6` (src/aes.rs:41-42). -/
def keyExpansion (nk : Nat) (key : Bytes) : Option Bytes := do
  assert (4 * nk == key.length)
  let nr := nk + 6
  let s := (List.range' nk (4 * (nr + 1) - nk)).foldl (keyExpStep nk)
    { schedule := copyAt (zeros (16 * (nr + 1))) 0 key, rcon := 0x01 }
  some s.schedule

/-- `round_key`, src/aes.rs:73-75. -/
def roundKey (schedule : Bytes) (round : Nat) : Bytes := (schedule.drop (16 * round)).take 16

/-- `add_round_key`, src/aes.rs:67-71. -/
def addRoundKey (schedule state : Bytes) (round : Nat) : Bytes :=
  List.zipWith (· ^^^ ·) state (roundKey schedule round)

/-- `permute`, src/aes.rs:24-37. -/
def permute (nk : Nat) (schedule input : Bytes) : Bytes :=
  let nr := nk + 6
  let output := addRoundKey schedule input 0
  let output := (List.range' 1 (nr - 1)).foldl
    (fun st round => addRoundKey schedule (mixColumns (shiftRows (subBytes st))) round) output
  addRoundKey schedule (shiftRows (subBytes output)) nr

/-- The trait `BlockCipher`, src/aes.rs:7-13, as a record. -/
structure BlockCipher where
  State : Type
  new : Bytes → Option State
  permute : State → Bytes → Bytes

/-- `impl_cipher!`, src/aes.rs:15-78. -/
def implCipher (nk : Nat) : BlockCipher where
  State := Bytes
  new := keyExpansion nk
  permute := permute nk

/-- `Aes256`, src/aes.rs:80. -/
def Aes256 : BlockCipher := implCipher 8
/-- `Aes192`, src/aes.rs:81. -/
def Aes192 : BlockCipher := implCipher 6
/-- `Aes128`, src/aes.rs:82. -/
def Aes128 : BlockCipher := implCipher 4

end CryptoPure.Model.Aes
