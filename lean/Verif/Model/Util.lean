import Verif.Basic

/-! Model of /repo/src/util.rs -/

namespace CryptoPure.Model.Util

/-- `verify_inner`, src/util.rs:8-13. `none` = the `assert_eq!` on the lengths fails. -/
def verifyInner (x y : Bytes) : Option U8 := do
  assert (x.length == y.length)
  some ((x.zip y).foldl (fun acc p => acc ||| (p.1 ^^^ p.2)) 0)

/-- `verify_16`, src/util.rs:3-6. `x` is the `[u8; 16]` argument; `&&` short-circuits. -/
def verify16 (x y : Bytes) : Option Bool :=
  if x.length == y.length then do
    let d ← verifyInner x y
    some (d == 0)
  else some false

end CryptoPure.Model.Util
