import Verif.Basic

/-! # Straight-line signed integer code

The field and scalar routines of /repo/src/curve25519.rs and /repo/src/ed25519.rs are long straight-line sequences of
`let x = e;`, `x += e;` on `i32` and `i64` locals. They are modelled as data: a list of assignments to numbered
slots (`abbrev`s give the slots the Rust names), executed by `run` with Rust's semantics: every `+ - *` has the
type it has in the source and, out of that type's range, panics (`debug`) or wraps (`release`); `>>` is the arithmetic
shift; `<<` drops high bits in both modes; `as i32` wraps. -/

namespace CryptoPure.SL

/-- `i32`, `i64`: the types of the locals of src/curve25519.rs:120-519, 691-955 and src/ed25519.rs:180-335, 338-837, 872-1170. -/
inductive Ty where
  | i32
  | i64
deriving DecidableEq

/-- Number of bits (Rust's `i32`, `i64`; no line of its own in /repo). -/
def Ty.bits : Ty → Nat
  | .i32 => 32
  | .i64 => 64

/-- Least value (`i32::MIN`, `i64::MIN`; no line of its own in /repo). -/
def Ty.lo : Ty → Int
  | .i32 => -2147483648
  | .i64 => -9223372036854775808

/-- Greatest value (`i32::MAX`, `i64::MAX`; no line of its own in /repo). -/
def Ty.hi : Ty → Int
  | .i32 => 2147483647
  | .i64 => 9223372036854775807

/-- Two's complement value of the low bits (Rust's wrapping arithmetic and `as`; no line of its own in /repo). -/
def wrap (t : Ty) (x : Int) : Int := (BitVec.ofInt t.bits x).toInt

/-- Result of an arithmetic operation of type `t` whose exact value is `x` (Rust's overflow checks; no line of its
own in /repo). -/
def ck (m : Mode) (t : Ty) (x : Int) : Option Int :=
  if t.lo ≤ x ∧ x ≤ t.hi then some x
  else match m with
    | .debug => none
    | .release => some (wrap t x)

/-- Expressions occurring in src/curve25519.rs:120-519, 691-955 and src/ed25519.rs:180-335, 338-837, 872-1170. `var` reads a slot. -/
inductive Exp where
  | var (x : Nat)
  | lit (n : Int)
  | add (t : Ty) (a b : Exp)
  | sub (t : Ty) (a b : Exp)
  | mul (t : Ty) (a b : Exp)
  | shr (a : Exp) (k : Nat)
  | shl (t : Ty) (a : Exp) (k : Nat)
  | cast32 (a : Exp)

/-- The assignment `slot = rhs`: `let x = e;`, `x = e;`, `x += e;`, `x -= e;` in the same ranges of src/curve25519.rs and src/ed25519.rs. -/
structure Stmt where
  dst : Nat
  rhs : Exp

/-- Slot contents: the values of the locals (of src/curve25519.rs and src/ed25519.rs, as above). -/
abbrev Env := List Int

/-- Value of an expression; `none` is a panic (Rust's semantics of the expressions of src/curve25519.rs and src/ed25519.rs above). -/
def eval (m : Mode) (env : Env) : Exp → Option Int
  | .var x => some (env.getD x 0)
  | .lit n => some n
  | .add t a b => do
    let x ← eval m env a
    let y ← eval m env b
    ck m t (x + y)
  | .sub t a b => do
    let x ← eval m env a
    let y ← eval m env b
    ck m t (x - y)
  | .mul t a b => do
    let x ← eval m env a
    let y ← eval m env b
    ck m t (x * y)
  | .shr a k => do
    let x ← eval m env a
    some (x / 2 ^ k)
  | .shl t a k => do
    let x ← eval m env a
    some (wrap t (x * 2 ^ k))
  | .cast32 a => do
    let x ← eval m env a
    some (wrap .i32 x)

/-- Execute the assignments in order (Rust's semantics of the blocks of src/curve25519.rs and src/ed25519.rs above). -/
def run (m : Mode) : List Stmt → Env → Option Env
  | [], env => some env
  | s :: rest, env => do
    let x ← eval m env s.rhs
    run m rest (env.set s.dst x)

instance : Coe Nat Exp := ⟨.var⟩
instance (n : Nat) : OfNat Exp n := ⟨.lit n⟩

scoped infixl:65 " +₃₂ " => Exp.add Ty.i32
scoped infixl:65 " -₃₂ " => Exp.sub Ty.i32
scoped infixl:70 " *₃₂ " => Exp.mul Ty.i32
scoped infixl:65 " +₆₄ " => Exp.add Ty.i64
scoped infixl:65 " -₆₄ " => Exp.sub Ty.i64
scoped infixl:70 " *₆₄ " => Exp.mul Ty.i64
scoped infixl:60 " ≫ " => Exp.shr
scoped infixl:60 " ≪₃₂ " => Exp.shl Ty.i32
scoped infixl:60 " ≪₆₄ " => Exp.shl Ty.i64
scoped infix:50 " ≔ " => Stmt.mk

/-- `x` as an integer literal (of src/curve25519.rs and src/ed25519.rs above). -/
abbrev lit (n : Int) : Exp := .lit n

end CryptoPure.SL
