import Verif.Leak.Basic
import Verif.Model.Aes

/-! Recorded version of /repo/src/aes.rs (see Verif/Model/Aes.lean). The functions `xtime`, `g256_inv`, `g16_*`, `g4_*`,
`xor_column`, `xtime_column` and `shift_rows` have no conditional and use literal positions only; they are taken from the
model as they are. -/

namespace CryptoPure.Leak.Aes
open Model.Aes (A2X X2S signMask g256Inv xtime mixColumn shiftRows KeyExp)

/-- `g256_newbasis`, src/aes.rs:149-159. -/
def g256Newbasis (x : U8) (b : List U8) : L U8 := do
  let p ← loop (fun (p : U8 × U8) bi => pure (p.1 >>> 1, p.2 ^^^ (bi &&& signMask (p.1 <<< 7)))) b.reverse (x, 0)
  pure p.2

/-- `s_box`, src/aes.rs:142-147. -/
def sBox (n : U8) : L U8 := do
  let t ← g256Newbasis n A2X
  let t := g256Inv t
  let t ← g256Newbasis t X2S
  pure (t ^^^ 0x63)

/-- `sub_word`, `sub_bytes`, src/aes.rs:84-94. -/
def subBytes (state : Bytes) : L Bytes := each sBox state

/-- `mix_columns`, src/aes.rs:111-122. -/
def mixColumns (state : Bytes) : L Bytes := do
  let cs ← each (fun c => pure (mixColumn c)) (chunks 4 state)
  pure cs.flatten

/-- Body of the loop of `key_expansion`, src/aes.rs:49-63. -/
def keyExpStep (nk : Nat) (s : KeyExp) (i : Nat) : L KeyExp := do
  let temp ← slice s.schedule (4 * (i - 1)) (4 * i)
  let (temp, rcon) ← (do
    if ← branch (decide (i % nk = 0)) then do
      let temp ← subBytes (temp.rotateLeft 1)
      pure (temp.set 0 (temp.getD 0 0 ^^^ s.rcon), xtime s.rcon)
    else do
      if ← branch (decide (nk > 6 ∧ i % nk = 4)) then do
        let temp ← subBytes temp
        pure (temp, s.rcon)
      else pure (temp, s.rcon))
  let schedule ← loop (fun sch j => do
    let a ← get sch (4 * (i - nk) + j) 0
    let t ← get temp j 0
    put sch (4 * i + j) (a ^^^ t)) [0, 1, 2, 3] s.schedule
  pure { schedule := schedule, rcon := rcon }

/-- `key_expansion`, src/aes.rs:44-65. -/
def keyExpansion (nk : Nat) (key : Bytes) : L Bytes := do
  check (4 * nk == key.length)
  let nr := nk + 6
  let s ← copy (zeros (16 * (nr + 1))) 0 key
  let s ← loop (keyExpStep nk) (List.range' nk (4 * (nr + 1) - nk)) { schedule := s, rcon := 0x01 }
  pure s.schedule

/-- `add_round_key`, `round_key`, src/aes.rs:67-75. -/
def addRoundKey (schedule state : Bytes) (round : Nat) : L Bytes := do
  let k ← slice schedule (16 * round) (16 * (round + 1))
  each (fun p => pure (p.1 ^^^ p.2)) (state.zip k)

/-- `permute`, src/aes.rs:24-37. -/
def permute (nk : Nat) (schedule input : Bytes) : L Bytes := do
  let nr := nk + 6
  let output ← addRoundKey schedule input 0
  let output ← loop (fun st round => do
    let st ← subBytes st
    let st ← mixColumns (shiftRows st)
    addRoundKey schedule st round) (List.range' 1 (nr - 1)) output
  let output ← subBytes output
  addRoundKey schedule (shiftRows output) nr

/-- The trait `BlockCipher`, src/aes.rs:7-13, recorded. -/
structure BlockCipher where
  State : Type
  new : Bytes → L State
  permute : State → Bytes → L Bytes

/-- `impl_cipher!`, src/aes.rs:15-78; `Aes128`, `Aes192`, `Aes256` are `nk = 4, 6, 8`. -/
def implCipher (nk : Nat) : BlockCipher where
  State := Bytes
  new := keyExpansion nk
  permute := permute nk

end CryptoPure.Leak.Aes
