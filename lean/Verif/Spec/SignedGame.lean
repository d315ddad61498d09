import Verif.Spec.TunnelGame
import Verif.Spec.MultiEdGame

/-! # A signed key exchange, and records under the keys from it

Two parties know each other's signature keys. Each makes a fresh key pair for the exchange and sends the public key. A party that gets
a public key signs its own public key followed by the one it got, and sends the signature. It accepts when it gets a signature of the
other party for the key it got followed by its own. The keys of the links then come from its secret key and the public key
it got. The network belongs to the attacker. -/

namespace CryptoPure.SignedGame
open Game (Scheme)
open RecordGame (State sendStep deliverStep)

/-- The other one of two parties. -/
def other (i : Fin 2) : Fin 2 := i.rev

/-- An attacker that owns the network and chooses what the senders send. It calls the hash function of the signatures and the compression
function of the key derivation, hands a public key to a party (and sees the signature it sends, unless it already has a
key), hands a signature to a party (and sees whether it is accepted), has a record sent, hands over a record, and gets the secret keys of the
signatures, once both parties have accepted. Each step may depend on all that the attacker saw before. -/
inductive Attacker (w u : Nat) where
  | stop (guess : Bool)
  | hash (x : Bytes) (next : Bytes → Attacker w u)
  | compress (state : Oct w) (block : Bytes) (next : Oct w → Attacker w u)
  | present (party : Fin 2) (pk : Bytes) (next : Option Bytes → Attacker w u)
  | confirm (party : Fin 2) (sig : Bytes) (next : Bool → Attacker w u)
  | send (link : Fin u) (data msg msg' : Bytes) (next : Option (Bytes × Bytes) → Attacker w u)
  | deliver (link : Fin u) (data ct tag : Bytes) (next : Option Bool → Attacker w u)
  | reveal (next : Option (Fin 2 → Bytes) → Attacker w u)

/-- How the parties derive and use their keys, and which party sends over which link. `own i` is the public key of party `i` for the
exchange, `derive i x` the keys that it gets when `x` is the public key it got. -/
structure Kit (w u : Nat) (K : Type) where
  compress : Oct w → Bytes → Oct w
  own : Fin 2 → Bytes
  derive : Fin 2 → Bytes → Fin u → Option K
  cipher : Scheme K
  sender : Fin u → Fin 2
  right : Bool

/-- And how they sign and verify, and with which secret keys. -/
structure World (w u : Nat) (K : Type) extends Kit w u K where
  hash : Bytes → Bytes
  sign : Fin 2 → Bytes → Option Bytes
  verify : Fin 2 → Bytes → Bytes → Option Bool
  secret : Fin 2 → Bytes

/-- The public key that each party got, whether it accepted, and the records so far. -/
structure Status (u : Nat) where
  got : Fin 2 → Option Bytes
  ok : Fin 2 → Bool
  records : State u

/-- Nothing was sent yet. -/
def start {u : Nat} : Status u := ⟨fun _ => none, fun _ => false, RecordGame.start⟩

/-- How an attack ends: the guess; whether at some time a receiver held anything but the first records sent over its link, in order;
whether at some time a party accepted although it was not the case that each party had got the other's public key. -/
structure Outcome where
  guess : Bool
  broken : Prop
  split : Prop

variable {w u : Nat} {K : Type}

/-- Each party has got the public key of the other. -/
def Agree (own : Fin 2 → Bytes) (got : Fin 2 → Option Bytes) : Prop := ∀ i, got i = some (own (other i))

instance (own : Fin 2 → Bytes) (got : Fin 2 → Option Bytes) : Decidable (Agree own got) :=
  inferInstanceAs (Decidable (∀ i, got i = some (own (other i))))

/-- The key that a party uses for a link, once it has accepted. -/
def keyOf (W : Kit w u K) (st : Status u) (party : Fin 2) (link : Fin u) : Option K :=
  if st.ok party then (st.got party).bind fun x => W.derive party x link else none

/-- The attack. -/
def run (W : World w u K) : Attacker w u → Status u → Outcome
  | .stop guess, st => ⟨guess, ¬ st.records.Faithful, False⟩
  | .hash x next, st => run W (next (W.hash x)) st
  | .compress H b next, st => run W (next (W.compress H b)) st
  | .present party pk next, st =>
    if (st.got party).isSome ∨ pk.length ≠ 32 then run W (next none) st
    else run W (next (W.sign party (W.own party ++ pk))) { st with got := Function.update st.got party (some pk) }
  | .confirm party sig next, st =>
    match st.got party with
    | none => run W (next false) st
    | some pk =>
      if W.verify (other party) (pk ++ W.own party) sig = some true then
        let o := run W (next true) { st with ok := Function.update st.ok party true }
        { o with split := ¬ Agree W.own st.got ∨ o.split }
      else run W (next false) st
  | .send link data msg msg' next, st =>
    match keyOf W.toKit st (W.sender link) link with
    | none => run W (next none) st
    | some k =>
      if msg.length ≠ msg'.length then run W (next none) st
      else
        let r := sendStep W.cipher (fun _ => k) st.records link data (if W.right then msg' else msg)
        let o := run W (next r.1) { st with records := r.2 }
        { o with broken := ¬ st.records.Faithful ∨ o.broken }
  | .deliver link data ct tag next, st =>
    match keyOf W.toKit st (other (W.sender link)) link with
    | none => run W (next none) st
    | some k =>
      let r := deliverStep W.cipher (fun _ => k) st.records link data ct tag
      let o := run W (next r.1) { st with records := r.2 }
      { o with broken := ¬ st.records.Faithful ∨ o.broken }
  | .reveal next, st => run W (next (if st.ok 0 && st.ok 1 then some W.secret else none)) st

/-- Whatever it sees, the attacker calls the hash function and hands over signatures at most `q` times together, with at most `N` bytes
in each call; evaluates the compression function at most `p` times, on blocks of `B` bytes; delivers at most `a` records;
`blocks` of the lengths of data and message is at most `n` in each record that it delivers or has sent. -/
def Attacker.Within (N B : Nat) (blocks : Nat → Nat → Nat) (n : Nat) : Attacker w u → Nat → Nat → Nat → Prop
  | .stop _, _, _, _ => True
  | .hash x next, q, p, a => x.length ≤ N ∧ ∃ q', q = q' + 1 ∧ ∀ y, Within N B blocks n (next y) q' p a
  | .compress _ b next, q, p, a => b.length = B ∧ ∃ p', p = p' + 1 ∧ ∀ y, Within N B blocks n (next y) q p' a
  | .present _ _ next, q, p, a => ∀ r, Within N B blocks n (next r) q p a
  | .confirm _ _ next, q, p, a => ∃ q', q = q' + 1 ∧ ∀ r, Within N B blocks n (next r) q' p a
  | .send _ data msg _ next, q, p, a => blocks data.length msg.length ≤ n ∧ ∀ r, Within N B blocks n (next r) q p a
  | .deliver _ data ct _ next, q, p, a =>
    blocks data.length ct.length ≤ n ∧ ∃ a', a = a' + 1 ∧ ∀ r, Within N B blocks n (next r) q p a'
  | .reveal next, q, p, a => ∀ r, Within N B blocks n (next r) q p a

/-- Whatever the attacker sees, its records cost at most `s`, where `cost` says what a record with a message of some length costs. -/
def Attacker.Costs (cost : Nat → Nat) : Attacker w u → Nat → Prop
  | .stop _, _ => True
  | .hash _ next, s => ∀ y, Costs cost (next y) s
  | .compress _ _ next, s => ∀ y, Costs cost (next y) s
  | .present _ _ next, s => ∀ r, Costs cost (next r) s
  | .confirm _ _ next, s => ∀ r, Costs cost (next r) s
  | .send _ _ msg _ next, s => ∃ s', s = cost msg.length + s' ∧ ∀ r, Costs cost (next r) s'
  | .deliver _ _ ct _ next, s => ∃ s', s = cost ct.length + s' ∧ ∀ r, Costs cost (next r) s'
  | .reveal next, s => ∀ r, Costs cost (next r) s

/-- Whatever the attacker sees, the records of each single link cost at most `B`, when those so far have cost `used`. -/
def Attacker.CostsEach (cost : Nat → Nat) (B : Nat) : Attacker w u → (Fin u → Nat) → Prop
  | .stop _, _ => True
  | .hash _ next, used => ∀ y, CostsEach cost B (next y) used
  | .compress _ _ next, used => ∀ y, CostsEach cost B (next y) used
  | .present _ _ next, used => ∀ r, CostsEach cost B (next r) used
  | .confirm _ _ next, used => ∀ r, CostsEach cost B (next r) used
  | .send i _ msg _ next, used =>
    used i + cost msg.length ≤ B ∧ ∀ r, CostsEach cost B (next r) (Function.update used i (used i + cost msg.length))
  | .deliver i _ ct _ next, used =>
    used i + cost ct.length ≤ B ∧ ∀ r, CostsEach cost B (next r) (Function.update used i (used i + cost ct.length))
  | .reveal next, used => ∀ r, CostsEach cost B (next r) used

/-! ## The attack as an attack on the signatures, and as an attack on the links -/

/-- The forger that runs the attack, computing everything but hashes and signatures. `ids` are the public keys of the signatures. When a
party accepts wrongly, the signature that it accepts is the forgery. The forger gives up when both have accepted and the attacker asks for the secret keys:
then it is too late. -/
def forger (m : Mode) (W : Kit w u K) (ids : Fin 2 → Bytes) : Attacker w u → Status u → MultiEdGame.Forger 2
  | .stop _, _ => .stop 0 [] []
  | .hash x next, st => .hash x fun y => forger m W ids (next y) st
  | .compress H b next, st => forger m W ids (next (W.compress H b)) st
  | .present party pk next, st =>
    if (st.got party).isSome ∨ pk.length ≠ 32 then forger m W ids (next none) st
    else .sign party (W.own party ++ pk) fun sig => forger m W ids (next (some sig)) { st with got := Function.update st.got party (some pk) }
  | .confirm party sig next, st =>
    match st.got party with
    | none => forger m W ids (next false) st
    | some pk => .hash (sig.take 32 ++ ids (other party) ++ (pk ++ W.own party)) fun y =>
      if Model.EdWith.verifyWith m (fun _ => y) (pk ++ W.own party) sig (ids (other party)) = some true then
        if Agree W.own st.got then forger m W ids (next true) { st with ok := Function.update st.ok party true }
        else .stop (other party) (pk ++ W.own party) sig
      else forger m W ids (next false) st
  | .send link data msg msg' next, st =>
    match keyOf W st (W.sender link) link with
    | none => forger m W ids (next none) st
    | some k =>
      if msg.length ≠ msg'.length then forger m W ids (next none) st
      else
        let r := sendStep W.cipher (fun _ => k) st.records link data (if W.right then msg' else msg)
        forger m W ids (next r.1) { st with records := r.2 }
  | .deliver link data ct tag next, st =>
    match keyOf W st (other (W.sender link)) link with
    | none => forger m W ids (next none) st
    | some k =>
      let r := deliverStep W.cipher (fun _ => k) st.records link data ct tag
      forger m W ids (next r.1) { st with records := r.2 }
  | .reveal next, st => if st.ok 0 && st.ok 1 then .stop 0 [] [] else forger m W ids (next none) st

/-- The attacker on the links that runs the attack, computing hashes and signatures itself, and stops when a party accepts wrongly. -/
def onLinks (hash : Bytes → Bytes) (own : Fin 2 → Bytes) (sign : Fin 2 → Bytes → Option Bytes)
    (verify : Fin 2 → Bytes → Bytes → Option Bool) (secret : Fin 2 → Bytes) (sender : Fin u → Fin 2) :
    Attacker w u → (Fin 2 → Option Bytes) → (Fin 2 → Bool) → TunnelGame.Attacker w u
  | .stop guess, _, _ => .stop guess
  | .hash x next, got, ok => onLinks hash own sign verify secret sender (next (hash x)) got ok
  | .compress H b next, got, ok => .compress H b fun y => onLinks hash own sign verify secret sender (next y) got ok
  | .present party pk next, got, ok =>
    if (got party).isSome ∨ pk.length ≠ 32 then onLinks hash own sign verify secret sender (next none) got ok
    else onLinks hash own sign verify secret sender (next (sign party (own party ++ pk))) (Function.update got party (some pk)) ok
  | .confirm party sig next, got, ok =>
    match got party with
    | none => onLinks hash own sign verify secret sender (next false) got ok
    | some pk =>
      if verify (other party) (pk ++ own party) sig = some true then
        if Agree own got then onLinks hash own sign verify secret sender (next true) got (Function.update ok party true)
        else .stop false
      else onLinks hash own sign verify secret sender (next false) got ok
  | .send link data msg msg' next, got, ok =>
    if ok (sender link) then .send link data msg msg' fun r => onLinks hash own sign verify secret sender (next r) got ok
    else onLinks hash own sign verify secret sender (next none) got ok
  | .deliver link data ct tag next, got, ok =>
    if ok (other (sender link)) then .deliver link data ct tag fun r => onLinks hash own sign verify secret sender (next r) got ok
    else onLinks hash own sign verify secret sender (next none) got ok
  | .reveal next, got, ok => onLinks hash own sign verify secret sender (next (if ok 0 && ok 1 then some secret else none)) got ok

end CryptoPure.SignedGame
