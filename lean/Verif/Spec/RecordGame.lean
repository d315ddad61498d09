import Verif.Spec.Game

/-! # Ordered records over links

How a protocol uses an authenticated cipher to carry a sequence of records: every link has a key of its own, its two ends count
the records, and the number of the record is the nonce. The network belongs to the attacker. Two peers that talk in both
directions have two links. -/

namespace CryptoPure.RecordGame
open Game (Scheme)

/-- An attacker that owns the network and chooses what the senders send. `send` names two messages, one of which is sent over the
link; the attacker sees the record, or that it could not be sent. `deliver` hands a record to the receiver of the link; the attacker
sees whether it was accepted. Each step may depend on all that the attacker saw before. -/
inductive Attacker (u : Nat) where
  | stop (guess : Bool)
  | send (link : Fin u) (data msg msg' : Bytes) (next : Option (Bytes × Bytes) → Attacker u)
  | deliver (link : Fin u) (data ct tag : Bytes) (next : Option Bool → Attacker u)

/-- What was sent over each link and what its receiver accepted, in order: the associated data and the message of each record. -/
structure State (u : Nat) where
  sent : Fin u → List (Bytes × Bytes)
  received : Fin u → List (Bytes × Bytes)

variable {K : Type} {u : Nat}

/-- Nothing was sent yet. -/
def start : State u := ⟨fun _ => [], fun _ => []⟩

/-- On every link the receiver has what was sent, in the order in which it was sent, without gaps or repetitions, up to some record. -/
def State.Faithful (st : State u) : Prop := ∀ link, st.received link <+: st.sent link

/-- The nonce of record number `i`: 12 bytes, most significant first. -/
def nonce (i : Nat) : Bytes := toBE 12 i

/-- The sender of a link encrypts its next record into a fresh buffer. It stops after `2^96` records. -/
def sendStep (S : Scheme K) (k : Fin u → K) (st : State u) (link : Fin u) (data msg : Bytes) : Option (Bytes × Bytes) × State u :=
  if 2 ^ 96 ≤ (st.sent link).length then (none, st)
  else match S.enc (k link) msg (nonce (st.sent link).length) data (zeros msg.length) with
    | none => (none, st)
    | some r => (some r, { st with sent := Function.update st.sent link (st.sent link ++ [(data, msg)]) })

/-- The receiver of a link decrypts what the network delivers into a fresh buffer, as the record that is next in order. -/
def deliverStep (S : Scheme K) (k : Fin u → K) (st : State u) (link : Fin u) (data ct tag : Bytes) : Option Bool × State u :=
  if 2 ^ 96 ≤ (st.received link).length then (none, st)
  else match S.dec (k link) ct (nonce (st.received link).length) data tag (zeros ct.length) with
    | none => (none, st)
    | some (_, false) => (some false, st)
    | some (out, true) => (some true, { st with received := Function.update st.received link (st.received link ++ [(data, out)]) })

/-- The attacker's guess. The second messages are sent if `right`; two messages of different lengths are refused. -/
def play (S : Scheme K) (right : Bool) (k : Fin u → K) : Attacker u → State u → Bool
  | .stop guess, _ => guess
  | .send link data msg msg' next, st =>
    if msg.length ≠ msg'.length then play S right k (next none) st
    else
      let r := sendStep S k st link data (if right then msg' else msg)
      play S right k (next r.1) r.2
  | .deliver link data ct tag next, st =>
    let r := deliverStep S k st link data ct tag
    play S right k (next r.1) r.2

/-- At some time during the attack some receiver has accepted anything but the first records sent over its link. -/
def breaks (S : Scheme K) (right : Bool) (k : Fin u → K) : Attacker u → State u → Prop
  | .stop _, st => ¬ st.Faithful
  | .send link data msg msg' next, st => ¬ st.Faithful ∨
    if msg.length ≠ msg'.length then breaks S right k (next none) st
    else
      let r := sendStep S k st link data (if right then msg' else msg)
      breaks S right k (next r.1) r.2
  | .deliver link data ct tag next, st => ¬ st.Faithful ∨
    let r := deliverStep S k st link data ct tag
    breaks S right k (next r.1) r.2

/-- Whatever it sees, the attacker delivers at most `a` records, and `blocks` of the lengths of data and message is at most `n` in
each of them and in each that it has sent. -/
def Within (blocks : Nat → Nat → Nat) (n : Nat) : Attacker u → Nat → Prop
  | .stop _, _ => True
  | .send _ data msg _ next, a => blocks data.length msg.length ≤ n ∧ ∀ r, Within blocks n (next r) a
  | .deliver _ data ct _ next, a => blocks data.length ct.length ≤ n ∧ ∃ b, a = b + 1 ∧ ∀ r, Within blocks n (next r) b

/-- Whatever the attacker sees, the records cost at most `s` together, where one with a message of length `l` costs `cost l`. -/
def Costs (cost : Nat → Nat) : Attacker u → Nat → Prop
  | .stop _, _ => True
  | .send _ _ msg _ next, s => ∃ s', s = cost msg.length + s' ∧ ∀ r, Costs cost (next r) s'
  | .deliver _ _ ct _ next, s => ∃ s', s = cost ct.length + s' ∧ ∀ r, Costs cost (next r) s'

/-- Whatever the attacker sees, the records of each single link cost at most `B`, when those so far have cost `used`. -/
def CostsEach (cost : Nat → Nat) (B : Nat) : Attacker u → (Fin u → Nat) → Prop
  | .stop _, _ => True
  | .send i _ msg _ next, used =>
    used i + cost msg.length ≤ B ∧ ∀ r, CostsEach cost B (next r) (Function.update used i (used i + cost msg.length))
  | .deliver i _ ct _ next, used =>
    used i + cost ct.length ≤ B ∧ ∀ r, CostsEach cost B (next r) (Function.update used i (used i + cost ct.length))

end CryptoPure.RecordGame
