import Verif.Spec.MultiEdGame

/-! # Signed key exchanges in a network of many users

Each user has a signature key, known to all. A user that wants to talk to the owner of some signature key opens a session, in one of two roles, with a
key pair for the exchange, and sends the public key. When it gets a public key, it signs its role, its own public key, the one it got and the peer's
signature key. It accepts when it gets a signature under the peer's key for the other role, the public key it got, its own, and its own signature key.

The attacker owns the network, lets users open sessions with peers of its choice (also with signature keys of its own making), chooses the secret keys
of the exchange, and takes over users: it gets their secret signature keys. -/

namespace CryptoPure.NetGame

variable {n : Nat}

/-- One user's end of an exchange: the user, its role, the signature key of the peer it wants to talk to, the key pair of the exchange, and the public key
it got, if any. -/
structure Session (n : Nat) where
  user : Fin n
  role : Bool
  peer : Bytes
  secret : Bytes
  own : Bytes
  got : Option Bytes

/-- What is signed. -/
def message (role : Bool) (own got peer : Bytes) : Bytes := (if role then 1 else 0) :: (own ++ got ++ peer)

/-- The attacker: it calls the hash function of the signatures, has a user open a session (and sees the public key), hands a public key to a session (and
sees the signature, unless the session already has a public key), hands a signature to a session (and sees whether it is accepted), takes over
a user (and sees the secret signature key). Sessions are numbered in the order in which they were opened. -/
inductive Attacker (n : Nat) where
  | stop
  | hash (x : Bytes) (next : Bytes → Attacker n)
  | join (user : Fin n) (role : Bool) (peer secret : Bytes) (next : Option Bytes → Attacker n)
  | present (session : Nat) (pk : Bytes) (next : Option Bytes → Attacker n)
  | confirm (session : Nat) (sig : Bytes) (next : Bool → Attacker n)
  | corrupt (user : Fin n) (next : Bytes → Attacker n)

/-- What the users compute: public keys and secrets of the exchange, signature keys, signatures; and the secret signature keys. -/
structure World (n : Nat) where
  genPk : Bytes → Option Bytes
  dh : Bytes → Bytes → Option Bytes
  hash : Bytes → Bytes
  id : Fin n → Bytes
  secret : Fin n → Bytes
  sign : Fin n → Bytes → Option Bytes
  verify : Bytes → Bytes → Bytes → Option Bool

/-- The session `t` belongs to user `j` and is the other end of session `s`: other role, each wants to talk to the other, each has got the public
key of the other, and both compute the same shared secret. -/
def Matches (dh : Bytes → Bytes → Option Bytes) (id : Fin n → Bytes) (s : Session n) (j : Fin n) (t : Session n) : Prop :=
  t.user = j ∧ t.role = !s.role ∧ id j = s.peer ∧ t.peer = id s.user ∧ s.got = some t.own ∧ t.got = some s.own ∧
    dh t.own s.secret ≠ none ∧ dh t.own s.secret = dh s.own t.secret

/-- It is wrong that `s` accepts: its peer is a user that was not taken over and that has no session that matches. -/
def Wrong (dh : Bytes → Bytes → Option Bytes) (id : Fin n → Bytes) (sessions : List (Session n)) (bad : List (Fin n)) (s : Session n) : Prop :=
  ∃ j, id j = s.peer ∧ j ∉ bad ∧ ∀ t ∈ sessions, ¬ Matches dh id s j t

/-- At some time in the attack a session accepts wrongly. `sessions` are those opened so far, `bad` the users taken over so far. -/
def fooled (W : World n) : Attacker n → List (Session n) → List (Fin n) → Prop
  | .stop, _, _ => False
  | .hash x next, sessions, bad => fooled W (next (W.hash x)) sessions bad
  | .join user role peer secret next, sessions, bad =>
    if peer.length ≠ 32 then fooled W (next none) sessions bad
    else match W.genPk secret with
      | none => fooled W (next none) sessions bad
      | some own => fooled W (next (some own)) (sessions ++ [⟨user, role, peer, secret, own, none⟩]) bad
  | .present k pk next, sessions, bad =>
    match sessions[k]? with
    | none => fooled W (next none) sessions bad
    | some s =>
      if s.got.isSome ∨ pk.length ≠ 32 then fooled W (next none) sessions bad
      else fooled W (next (W.sign s.user (message s.role s.own pk s.peer))) (sessions.set k { s with got := some pk }) bad
  | .confirm k sig next, sessions, bad =>
    match sessions[k]? with
    | none => fooled W (next false) sessions bad
    | some s => match s.got with
      | none => fooled W (next false) sessions bad
      | some pk =>
        if W.verify s.peer (message (!s.role) pk s.own (W.id s.user)) sig = some true then
          Wrong W.dh W.id sessions bad s ∨ fooled W (next true) sessions bad
        else fooled W (next false) sessions bad
  | .corrupt user next, sessions, bad => fooled W (next (W.secret user)) sessions (user :: bad)

/-- Whatever it sees, the attacker calls the hash function and hands over signatures at most `q` times together, with at most `N` bytes in each call, and
hands over public keys at most `s` times. -/
def Attacker.Within (N : Nat) : Attacker n → Nat → Nat → Prop
  | .stop, _, _ => True
  | .hash x next, q, s => x.length ≤ N ∧ ∃ q', q = q' + 1 ∧ ∀ y, Within N (next y) q' s
  | .join _ _ _ _ next, q, s => ∀ r, Within N (next r) q s
  | .present _ _ next, q, s => ∃ s', s = s' + 1 ∧ ∀ r, Within N (next r) q s'
  | .confirm _ _ next, q, s => ∃ q', q = q' + 1 ∧ ∀ r, Within N (next r) q' s
  | .corrupt _ next, q, s => ∀ r, Within N (next r) q s

instance (dh : Bytes → Bytes → Option Bytes) (id : Fin n → Bytes) (s : Session n) (j : Fin n) (t : Session n) : Decidable (Matches dh id s j t) :=
  inferInstanceAs (Decidable (_ ∧ _ ∧ _ ∧ _ ∧ _ ∧ _ ∧ _ ∧ _))

/-- The peer of a session that accepts wrongly. -/
def impersonated (dh : Bytes → Bytes → Option Bytes) (id : Fin n → Bytes) (sessions : List (Session n)) (bad : List (Fin n)) (s : Session n) : Option (Fin n) :=
  (List.finRange n).find? fun j => decide (id j = s.peer ∧ j ∉ bad ∧ ∀ t ∈ sessions, ¬ Matches dh id s j t)

/-- The forger that runs the attack. When a session accepts wrongly, the signature that it accepts is the forgery. -/
def forger [NeZero n] (m : Mode) (genPk : Bytes → Option Bytes) (dh : Bytes → Bytes → Option Bytes) (ids : Fin n → Bytes) :
    Attacker n → List (Session n) → List (Fin n) → MultiEdGame.Forger n
  | .stop, _, _ => .stop 0 [] []
  | .hash x next, sessions, bad => .hash x fun y => forger m genPk dh ids (next y) sessions bad
  | .join user role peer secret next, sessions, bad =>
    if peer.length ≠ 32 then forger m genPk dh ids (next none) sessions bad
    else match genPk secret with
      | none => forger m genPk dh ids (next none) sessions bad
      | some own => forger m genPk dh ids (next (some own)) (sessions ++ [⟨user, role, peer, secret, own, none⟩]) bad
  | .present k pk next, sessions, bad =>
    match sessions[k]? with
    | none => forger m genPk dh ids (next none) sessions bad
    | some s =>
      if s.got.isSome ∨ pk.length ≠ 32 then forger m genPk dh ids (next none) sessions bad
      else .sign s.user (message s.role s.own pk s.peer) fun sig => forger m genPk dh ids (next (some sig)) (sessions.set k { s with got := some pk }) bad
  | .confirm k sig next, sessions, bad =>
    match sessions[k]? with
    | none => forger m genPk dh ids (next false) sessions bad
    | some s => match s.got with
      | none => forger m genPk dh ids (next false) sessions bad
      | some pk => .hash (sig.take 32 ++ s.peer ++ message (!s.role) pk s.own (ids s.user)) fun y =>
        if Model.EdWith.verifyWith m (fun _ => y) (message (!s.role) pk s.own (ids s.user)) sig s.peer = some true then
          match impersonated dh ids sessions bad s with
          | some j => .stop j (message (!s.role) pk s.own (ids s.user)) sig
          | none => forger m genPk dh ids (next true) sessions bad
        else forger m genPk dh ids (next false) sessions bad
  | .corrupt user next, sessions, bad => .corrupt user fun sk => forger m genPk dh ids (next sk) sessions (user :: bad)

end CryptoPure.NetGame
