import Verif.Spec.RecordGame

/-! # Records under keys that were derived with a hash function

As Verif/Spec/RecordGame.lean; the attacker may also evaluate the compression function of the hash function. -/

namespace CryptoPure.TunnelGame
open Game (Scheme)
open RecordGame (State sendStep deliverStep)

/-- An attacker that owns the network, chooses what the senders send, and chooses each step after seeing the answers to the earlier
ones. -/
inductive Attacker (w u : Nat) where
  | stop (guess : Bool)
  | compress (state : Oct w) (block : Bytes) (next : Oct w → Attacker w u)
  | send (link : Fin u) (data msg msg' : Bytes) (next : Option (Bytes × Bytes) → Attacker w u)
  | deliver (link : Fin u) (data ct tag : Bytes) (next : Option Bool → Attacker w u)

/-- How an attack ends: the guess; whether at some time some receiver held anything but the first records sent over its link, in
order; the blocks on which the attacker evaluated the compression function. -/
structure Outcome where
  guess : Bool
  broken : Prop
  compressed : List Bytes

variable {w u : Nat} {K : Type}

/-- The attack on links that use the cipher `S` with the keys `k`, with the compression function `f`; the second messages are sent if
`right`, and two messages of different lengths are refused. -/
def run (f : Oct w → Bytes → Oct w) (S : Scheme K) (right : Bool) (k : Fin u → K) : Attacker w u → State u → Outcome
  | .stop guess, st => ⟨guess, ¬ st.Faithful, []⟩
  | .compress H b next, st =>
    let o := run f S right k (next (f H b)) st
    { o with compressed := b :: o.compressed }
  | .send link data msg msg' next, st =>
    if msg.length ≠ msg'.length then run f S right k (next none) st
    else
      let r := sendStep S k st link data (if right then msg' else msg)
      let o := run f S right k (next r.1) r.2
      { o with broken := ¬ st.Faithful ∨ o.broken }
  | .deliver link data ct tag next, st =>
    let r := deliverStep S k st link data ct tag
    let o := run f S right k (next r.1) r.2
    { o with broken := ¬ st.Faithful ∨ o.broken }

/-- Whatever it sees, the attacker evaluates the compression function at most `p` times, on blocks of `B` bytes, and delivers at most
`a` records; `blocks` of the lengths of data and message is at most `n` in each record that it delivers or has sent. -/
def Attacker.Within (B : Nat) (blocks : Nat → Nat → Nat) (n : Nat) : Attacker w u → Nat → Nat → Prop
  | .stop _, _, _ => True
  | .compress _ b next, p, a => b.length = B ∧ ∃ p', p = p' + 1 ∧ ∀ y, Within B blocks n (next y) p' a
  | .send _ data msg _ next, p, a => blocks data.length msg.length ≤ n ∧ ∀ r, Within B blocks n (next r) p a
  | .deliver _ data ct _ next, p, a => blocks data.length ct.length ≤ n ∧ ∃ a', a = a' + 1 ∧ ∀ r, Within B blocks n (next r) p a'

/-- Whatever the attacker sees, the records cost at most `s` together, where one with a message of length `l` costs `cost l`. -/
def Attacker.Costs (cost : Nat → Nat) : Attacker w u → Nat → Prop
  | .stop _, _ => True
  | .compress _ _ next, s => ∀ y, Costs cost (next y) s
  | .send _ _ msg _ next, s => ∃ s', s = cost msg.length + s' ∧ ∀ r, Costs cost (next r) s'
  | .deliver _ _ ct _ next, s => ∃ s', s = cost ct.length + s' ∧ ∀ r, Costs cost (next r) s'

/-- Whatever the attacker sees, the records of each single link cost at most `B`, when those so far have cost `used`. -/
def Attacker.CostsEach (cost : Nat → Nat) (B : Nat) : Attacker w u → (Fin u → Nat) → Prop
  | .stop _, _ => True
  | .compress _ _ next, used => ∀ y, CostsEach cost B (next y) used
  | .send i _ msg _ next, used =>
    used i + cost msg.length ≤ B ∧ ∀ r, CostsEach cost B (next r) (Function.update used i (used i + cost msg.length))
  | .deliver i _ ct _ next, used =>
    used i + cost ct.length ≤ B ∧ ∀ r, CostsEach cost B (next r) (Function.update used i (used i + cost ct.length))

/-- The same attack for the attacker that knows the compression function. -/
def Attacker.knowing (f : Oct w → Bytes → Oct w) : Attacker w u → RecordGame.Attacker u
  | .stop g => .stop g
  | .compress H b next => (next (f H b)).knowing f
  | .send link data msg msg' next => .send link data msg msg' fun r => (next r).knowing f
  | .deliver link data ct tag next => .deliver link data ct tag fun r => (next r).knowing f

end CryptoPure.TunnelGame
