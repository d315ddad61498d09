import Verif.Basic

/-! # What a timing observer sees

The leakage of a run is the sequence of outcomes of its conditionals (including assertions and loop conditions) and of
the positions at which it accesses arrays and slices: the usual program-counter and cache model. The functions in
`Verif/Leak` repeat those of `Verif/Model`, for builds without overflow checks, and record this sequence. They are tied
to the model by theorems saying that the recorded functions compute the same values.

Not recorded: accesses at literal positions of fixed-size arrays, and straight-line arithmetic, since neither depends on
data. The duration of a single arithmetic instruction is taken not to depend on its operands. -/

namespace CryptoPure.Leak

/-- One observation: the outcome of a conditional, or the position of a memory access. -/
inductive Event where
  | branch (b : Bool)
  | access (i : Nat)
deriving DecidableEq, Repr

/-- A recorded computation: the observations and the result, `none` being a panic. -/
structure L (α : Type) where
  trace : List Event
  val : Option α

namespace L

/-- Do nothing, observe nothing. -/
def pure {α : Type} (x : α) : L α := ⟨[], some x⟩

/-- Sequencing; after a panic nothing happens. -/
def bind {α β : Type} (x : L α) (f : α → L β) : L β :=
  match x.val with
  | none => ⟨x.trace, none⟩
  | some a => ⟨x.trace ++ (f a).trace, (f a).val⟩

instance : Monad L where
  pure := L.pure
  bind := L.bind

end L

/-- Evaluate the condition of an `if`, `&&`, `||` or `match`. -/
def branch (b : Bool) : L Bool := ⟨[.branch b], some b⟩

/-- `assert!(b)`. -/
def check (b : Bool) : L Unit := ⟨[.branch b], if b then some () else none⟩

/-- `l[i]`, in range. -/
def get {α : Type} (l : List α) (i : Nat) (d : α) : L α := ⟨[.access i], some (l.getD i d)⟩

/-- `l[i]`, panicking out of range. -/
def index {α : Type} (l : List α) (i : Nat) : L α := ⟨[.access i], l[i]?⟩

/-- `l[i] = x`, in range. -/
def put {α : Type} (l : List α) (i : Nat) (x : α) : L (List α) := ⟨[.access i], some (l.set i x)⟩

/-- `&l[a..b]`, in range. -/
def slice {α : Type} (l : List α) (a b : Nat) : L (List α) := ⟨[.access a, .access b], some ((l.drop a).take (b - a))⟩

/-- `buf[off..off + src.len()].copy_from_slice(src)`, in range. -/
def copy {α : Type} (buf : List α) (off : Nat) (src : List α) : L (List α) :=
  ⟨[.access off, .access (off + src.length)], some (copyAt buf off src)⟩

/-- Straight-line arithmetic. -/
def op {α : Type} (o : Option α) : L α := ⟨[], o⟩

/-- `for x in xs { s = f(s, x) }`. -/
def loop {σ ι : Type} (f : σ → ι → L σ) : List ι → σ → L σ
  | [], s => ⟨[.branch false], some s⟩
  | x :: xs, s => do
    let _ ← branch true
    let s ← f s x
    loop f xs s

/-- `for x in xs { *x = f(*x) }`, or a loop writing one element per iteration. -/
def each {α β : Type} (f : α → L β) : List α → L (List β)
  | [] => ⟨[.branch false], some []⟩
  | x :: xs => do
    let _ ← branch true
    let y ← f x
    let ys ← each f xs
    pure (y :: ys)

end CryptoPure.Leak
