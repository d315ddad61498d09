import Verif.Leak.Basic
import Verif.Model.Util

/-! Recorded version of /repo/src/util.rs (see Verif/Model/Util.lean). -/

namespace CryptoPure.Leak.Util

/-- `verify_inner`, src/util.rs:8-13. -/
def verifyInner (x y : Bytes) : L U8 := do
  check (x.length == y.length)
  loop (fun acc p => pure (acc ||| (p.1 ^^^ p.2))) (x.zip y) 0

/-- `verify_16`, src/util.rs:3-6. -/
def verify16 (x y : Bytes) : L Bool := do
  if ← branch (x.length == y.length) then do
    let d ← verifyInner x y
    pure (d == 0)
  else pure false

end CryptoPure.Leak.Util
