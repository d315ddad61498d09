import Verif.Basic

/-! Model of /repo/src/ghash.rs -/

namespace CryptoPure.Model.GHash

/-- `GFBlock = u128`, src/ghash.rs:55. -/
abbrev U128 := BitVec 128

/-- `R0`, src/ghash.rs:11. -/
def R0 : U128 := 0xe1#128 <<< 120

/-- `PolyFunction`, src/ghash.rs:57-60. -/
structure PolyFunction where
  keyBlock : U128
  state : U128

/-- `PolyFunction::new`, src/ghash.rs:63-68. -/
def PolyFunction.new (key : Bytes) : PolyFunction :=
  { keyBlock := BitVec.ofNat 128 (beNat key), state := 0 }

/-- One iteration of the loop in `PolyFunction::process`, src/ghash.rs:76-85; the triple is
`(self.state, v, x)`. `(h as i128 >> 127) as u128` is the arithmetic shift. -/
def mulStep (p : U128 × U128 × U128) : U128 × U128 × U128 :=
  let (state, v, x) := p
  let h := x &&& (1#128 <<< 127)
  let m := h.sshiftRight 127
  let state := state ^^^ (v &&& m)
  let h := v <<< 127
  let m := h.sshiftRight 127
  let v := v >>> 1
  let v := v ^^^ (R0 &&& m)
  let x := x <<< 1
  (state, v, x)

/-- `n` iterations of the loop body, src/ghash.rs:76-85. -/
def mulLoop : Nat → U128 × U128 × U128 → U128 × U128 × U128
  | 0, p => p
  | n + 1, p => mulLoop n (mulStep p)

/-- `PolyFunction::process`, src/ghash.rs:70-86 (`input` has 16 bytes). -/
def PolyFunction.process (s : PolyFunction) (input : Bytes) : PolyFunction :=
  let state := s.state ^^^ BitVec.ofNat 128 (beNat input)
  { s with state := (mulLoop 128 (0, s.keyBlock, state)).1 }

/-- `PolyFunction::write_value`, src/ghash.rs:88-90. -/
def PolyFunction.value (s : PolyFunction) : Bytes := toBE 16 s.state.toNat

/-- `GHash`, src/ghash.rs:13-17. -/
structure GHash where
  function : PolyFunction
  dataLen : U64
  ciphertextLen : U64

/-- Body of the loop in `GHash::process`, src/ghash.rs:43-51. -/
def processChunk (f : PolyFunction) (chunk : Bytes) : PolyFunction :=
  if chunk.length < 16 then f.process (copyAt (zeros 16) 0 chunk) else f.process chunk

/-- `GHash::process`, src/ghash.rs:42-52 (acts on the field `function`). -/
def GHash.process (g : GHash) (input : Bytes) : GHash :=
  { g with function := (chunks 16 input).foldl processChunk g.function }

/-- `GHash::new`, src/ghash.rs:20-28. -/
def GHash.new (key data : Bytes) : GHash :=
  GHash.process { function := PolyFunction.new key, dataLen := BitVec.ofNat 64 data.length,
                  ciphertextLen := 0 } data

/-- `GHash::update`, src/ghash.rs:30-33. -/
def GHash.update (m : Mode) (g : GHash) (input : Bytes) : Option GHash := do
  let l ← addC m g.ciphertextLen (BitVec.ofNat 64 input.length)
  some (GHash.process { g with ciphertextLen := l } input)

/-- `GHash::write_tag`, src/ghash.rs:35-40. -/
def GHash.writeTag (m : Mode) (g : GHash) : Option Bytes := do
  let a ← mulC m 8 g.dataLen
  let c ← mulC m 8 g.ciphertextLen
  some ((g.function.process (toBE 8 a.toNat ++ toBE 8 c.toNat)).value)

/-- `ghash`, src/ghash.rs:3-9. -/
def ghash (m : Mode) (key data ciphertext : Bytes) : Option Bytes := do
  let g ← (GHash.new key data).update m ciphertext
  g.writeTag m

end CryptoPure.Model.GHash
