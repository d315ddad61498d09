import Verif.Spec.BoxGame
import Verif.Props.Session
import Verif.Props.KeyExchange
import Verif.Props.Reduction
import Verif.Props.ChaChaPerm
import Verif.Props.Files

/-! # C156: public-key encryption made of X25519, HKDF and an authenticated cipher

The sender draws a one-time secret key, agrees on a key with the receiver's public key, and encrypts one message with it. -/

namespace CryptoPure.Props.SealedBox
open CryptoPure.Model CryptoPure.Props Game BoxGame Distinguisher
open RecordGame (RoundTrip)

/-- Keys of `n` bytes. -/
abbrev Key (n : Nat) := {k : Bytes // k.length = n}

/-- `hkdf::extract` without salt and `hkdf::expand`: a key of `n` bytes. A cipher panics for keys of another length. -/
def keyFrom (v : Variant) (m : Mode) (n : Nat) (shared info : Bytes) : Option (Key n) := do
  let prk ← Hkdf.extract v.code m [] shared (zeros v.size)
  let key ← Hkdf.expand v.code m prk info (zeros n)
  if h : key.length = n then some ⟨key, h⟩ else none

/-- The key that the holder of the secret key agrees on with a public key; both public keys are part of the context. -/
def agreed (v : Variant) (m : Mode) (n : Nat) (secret head : Bytes) : Option (Key n) := do
  let pk ← Model.X25519.genPk m secret
  let shared ← Model.X25519.dh m head secret
  keyFrom v m n shared (head ++ pk)

/-- Seal and open with X25519, HKDF over the hash function `v`, and the cipher `S`. -/
def box {n : Nat} (S : Scheme (Key n)) (v : Variant) (m : Mode) : Box where
  pub := Model.X25519.genPk m
  close pk oneTime data msg := do
    let head ← Model.X25519.genPk m oneTime
    let shared ← Model.X25519.dh m pk oneTime
    let key ← keyFrom v m n shared (head ++ pk)
    let (ct, t) ← S.enc key msg (zeros 12) data (zeros msg.length)
    some (head, ct, t)
  opens secret data b := do
    let key ← agreed v m n secret b.1
    let (out, ok) ← S.dec key b.2.1 (zeros 12) data b.2.2 (zeros b.2.1.length)
    some (if ok then some out else none)

/-! ## The agreed key -/

theorem keyFrom_total (v : Variant) (m : Mode) (n : Nat) (hn : n ≤ 32) (shared info : Bytes) (hs : shared.length = 32) (hi : info.length = 64) :
    ∃ k, keyFrom v m n shared info = some k ∧ k.1 = Spec.hkdfExpand v.fips v.block (Spec.hkdfExtract v.fips v.block [] shared) info n := by
  have hb' : v.block ≤ 128 := by cases v <;> decide
  have hs1 : v.size ≤ 64 := by cases v <;> decide
  have hs2 : 28 ≤ v.size := by cases v <;> decide
  obtain ⟨prk, hp⟩ : ∃ prk, prk = Spec.hkdfExtract v.fips v.block [] shared := ⟨_, rfl⟩
  have hprk : prk.length = v.size := by
    rw [hp]
    show (Spec.hmac _ _ _ _).length = _
    rw [Spec.hmac, v.lawful.hashLen, v.digestSize_eq]
  have hext : Hkdf.extract v.code m [] shared (zeros v.size) = some prk := by
    rw [C10_extract v m [] shared _ (by simp) (by omega), if_pos (by simp), hp]
  have hne : Hkdf.expand v.code m prk info (zeros n) ≠ none := by
    cases m
    · rw [Ne, C13_expand_debug_panics v prk info _ (by omega) (by omega)]
      simp only [zeros_length]
      omega
    · rw [C11_expand_release v prk info _ (by omega) (by omega), if_pos (by simp only [zeros_length]; omega)]
      simp
  obtain ⟨out, ho⟩ := Option.ne_none_iff_exists'.mp hne
  obtain ⟨hv, hl⟩ := C11_expand_rfc5869 v m prk info _ out (by omega) (by omega) ho
  rw [zeros_length] at hl hv
  refine ⟨⟨out, hl⟩, ?_, by rw [← hp]; exact hv⟩
  unfold keyFrom
  rw [hext]
  simp only [Option.bind_eq_bind, Option.bind_some, ho]
  rw [dif_pos hl]

/-- Sender and receiver agree on the key, and nothing panics. -/
theorem agree (v : Variant) (m : Mode) (n : Nat) (hn : n ≤ 32) (secret oneTime : Bytes) (h1 : secret.length = 32) (h2 : oneTime.length = 32) :
    ∃ pk head shared key, Model.X25519.genPk m secret = some pk ∧ Model.X25519.genPk m oneTime = some head ∧ Model.X25519.dh m pk oneTime = some shared ∧
      keyFrom v m n shared (head ++ pk) = some key ∧ agreed v m n secret head = some key := by
  obtain ⟨pk, head, s, e1, e2, l1, l2, l3⟩ := C108_exchange m secret oneTime h1 h2
  unfold exchange at e1 e2
  cases g1 : Model.X25519.genPk m secret with
  | none => rw [g1] at e1; cases e1
  | some pk' =>
    cases g2 : Model.X25519.genPk m oneTime with
    | none => rw [g2] at e2; cases e2
    | some head' =>
      rw [g1, g2] at e1
      rw [g1, g2] at e2
      simp only [Option.bind_some, Option.map_eq_some_iff, Prod.mk.injEq] at e1 e2
      obtain ⟨s1, d1, ⟨rfl, rfl⟩, rfl⟩ := e1
      obtain ⟨s2, d2, -, rfl⟩ := e2
      obtain ⟨k, hk, -⟩ := keyFrom_total v m n hn s2 (head' ++ pk') l3 (by rw [List.length_append]; omega)
      refine ⟨pk', head', s2, k, rfl, rfl, d2, hk, ?_⟩
      unfold agreed
      rw [g1, d1]
      exact hk

/-! ## What one relies on without an attacker -/

variable {n : Nat} {S : Scheme (Key n)}

theorem box_roundTrip (hS : RoundTrip S) (v : Variant) (m : Mode) (hn : n ≤ 32) (secret oneTime : Bytes) (h1 : secret.length = 32) (h2 : oneTime.length = 32) (data msg : Bytes)
    (hE : ∀ k, ∃ r, S.enc k msg (zeros 12) data (zeros msg.length) = some r) :
    ∃ pk b, (box S v m).pub secret = some pk ∧ (box S v m).close pk oneTime data msg = some b ∧ (box S v m).opens secret data b = some (some msg) := by
  obtain ⟨pk, head, shared, key, g1, g2, g3, g4, g5⟩ := agree v m n hn secret oneTime h1 h2
  obtain ⟨⟨ct, t⟩, hr⟩ := hE key
  refine ⟨pk, (head, ct, t), g1, ?_, ?_⟩
  · show (Model.X25519.genPk m oneTime).bind _ = _
    rw [g2, Option.bind_some]
    show (Model.X25519.dh m pk oneTime).bind _ = _
    rw [g3, Option.bind_some]
    show (keyFrom v m n shared (head ++ pk)).bind _ = _
    rw [g4, Option.bind_some]
    show (S.enc key msg (zeros 12) data (zeros msg.length)).bind _ = _
    rw [hr, Option.bind_some]
  · show (agreed v m n secret head).bind _ = _
    rw [g5, Option.bind_some]
    show (S.dec key ct (zeros 12) data t (zeros ct.length)).bind _ = _
    rw [hS _ _ _ _ _ _ hr, Option.bind_some]
    rfl

/-! ## The attack with a given key -/

/-- Open with a given key. -/
def openWith (S : Scheme (Key n)) (key : Option (Key n)) (data : Bytes) (b : Sealed) : Option (Option Bytes) :=
  key.bind fun key => (S.dec key b.2.1 (zeros 12) data b.2.2 (zeros b.2.1.length)).map fun r => if r.2 then some r.1 else none

/-- The attack on the box, as someone who tells agreed keys from random ones: seal with the given key, open with it what comes with the public key `E`, and ask for the other keys. -/
def tester (S : Scheme (Key n)) (right : Bool) (E : Bytes) (k : Key n) : Attacker → Option (Bytes × Sealed) → Tester (Key n)
  | .stop guess, _ => .stop guess
  | .send data msg msg' next, got =>
    if got.isSome ∨ msg.length ≠ msg'.length then tester S right E k (next none) got
    else match S.enc k (if right then msg' else msg) (zeros 12) data (zeros msg.length) with
      | none => tester S right E k (next none) got
      | some r => tester S right E k (next (some (E, r.1, r.2))) (some (data, E, r.1, r.2))
  | .receive data b next, got =>
    if got = some (data, b) then tester S right E k (next none) got
    else if b.1 = E then tester S right E k (next (openWith S (some k) data b)) got
    else .derive b.1 fun k' => tester S right E k (next (openWith S k' data b)) got

theorem tester_asks (right : Bool) (E : Bytes) (k : Key n) {blocks : Nat → Nat → Nat} {l : Nat} (A : Attacker) :
    ∀ (a : Nat) (got), A.Within blocks l a → (tester S right E k A got).Asks a := by
  have mono : ∀ (T : Tester (Key n)) (a b : Nat), a ≤ b → T.Asks a → T.Asks b := by
    intro T
    induction T with
    | stop g => intros; trivial
    | derive head next ih =>
      rintro a b h ⟨a', rfl, h2⟩
      exact ⟨b - 1, by omega, fun r => ih r a' _ (by omega) (h2 r)⟩
  induction A with
  | stop g => intros; trivial
  | send data msg msg' next ih =>
    intro a got h
    rw [tester]
    split
    · exact ih _ _ _ (h.2 _)
    · split
      · exact ih _ _ _ (h.2 _)
      · exact ih _ _ _ (h.2 _)
  | receive data b next ih =>
    rintro a got ⟨-, a', rfl, h⟩
    rw [tester]
    split
    · exact mono _ _ _ (by omega) (ih _ _ _ (h _))
    · split
      · exact mono _ _ _ (by omega) (ih _ _ _ (h _))
      · exact ⟨a', rfl, fun r => ih _ _ _ (h _)⟩

/-- With the agreed key, the tester ends as the attack. -/
theorem tester_real (v : Variant) (m : Mode) (right : Bool) (pk secret oneTime head shared : Bytes) (key : Key n) (g2 : Model.X25519.genPk m oneTime = some head)
    (g3 : Model.X25519.dh m pk oneTime = some shared) (g4 : keyFrom v m n shared (head ++ pk) = some key) (g5 : agreed v m n secret head = some key) (A : Attacker) :
    ∀ got, (tester S right head key A got).run (agreed v m n secret) head = BoxGame.play (box S v m) right pk secret oneTime A got := by
  have hc : ∀ data msg, (box S v m).close pk oneTime data msg = (S.enc key msg (zeros 12) data (zeros msg.length)).map fun r => (head, r.1, r.2) := by
    intro data msg
    show (Model.X25519.genPk m oneTime).bind _ = _
    rw [g2, Option.bind_some]
    show (Model.X25519.dh m pk oneTime).bind _ = _
    rw [g3, Option.bind_some]
    show (keyFrom v m n shared (head ++ pk)).bind _ = _
    rw [g4, Option.bind_some]
    cases S.enc key msg (zeros 12) data (zeros msg.length) <;> rfl
  have ho : ∀ data b, (box S v m).opens secret data b = openWith S (agreed v m n secret b.1) data b := by
    intro data b
    unfold openWith
    show (agreed v m n secret b.1).bind _ = _
    cases agreed v m n secret b.1 with
    | none => rfl
    | some k =>
      simp only [Option.bind_some]
      cases S.dec k b.2.1 (zeros 12) data b.2.2 (zeros b.2.1.length) <;> rfl
  induction A with
  | stop g => intro got; rfl
  | send data msg msg' next ih =>
    intro got
    rw [tester, BoxGame.play]
    by_cases h : got.isSome ∨ msg.length ≠ msg'.length
    · rw [if_pos h, if_pos h, ih]
    · rw [if_neg h, if_neg h, hc]
      have hz : (if right then msg' else msg).length = msg.length := by
        have : msg.length = msg'.length := by by_contra hh; exact h (Or.inr hh)
        cases right <;> simp [this]
      rw [hz]
      cases S.enc key (if right then msg' else msg) (zeros 12) data (zeros msg.length) with
      | none => exact ih _ _
      | some r => exact ih _ _
  | receive data b next ih =>
    intro got
    rw [tester, BoxGame.play]
    by_cases h : got = some (data, b)
    · rw [if_pos h, if_pos h, ih]
    · rw [if_neg h, if_neg h, ho]
      by_cases hb : b.1 = head
      · rw [if_pos hb, ih, hb, g5]
      · rw [if_neg hb, Tester.run, if_neg hb, ih]

/-- The attack on the box with a random key, as an attack on the cipher: boxes with the public key `E` are opened by the cipher, others with the keys that `D` gives. -/
def onCipher (S : Scheme (Key n)) (E : Bytes) (D : Bytes → Option (Key n)) : Attacker → Option (Bytes × Sealed) → Adversary
  | .stop guess, _ => .stop guess
  | .send data msg msg' next, got =>
    if got.isSome then onCipher S E D (next none) got
    else .encrypt (zeros 12) data msg msg' (zeros msg.length) fun
      | none => onCipher S E D (next none) got
      | some r => onCipher S E D (next (some (E, r.1, r.2))) (some (data, E, r.1, r.2))
  | .receive data b next, got =>
    if got = some (data, b) then onCipher S E D (next none) got
    else if b.1 = E then .decrypt (zeros 12) data b.2.1 b.2.2 (zeros b.2.1.length) fun r => onCipher S E D (next (r.map fun r => if r.2 then some r.1 else none)) got
    else onCipher S E D (next (openWith S (D b.1) data b)) got

/-- What the cipher has sent. -/
def sent : Option (Bytes × Sealed) → Log
  | none => []
  | some g => [(zeros 12, g.1, g.2.2.1, g.2.2.2)]

theorem onCipher_play (right : Bool) (E : Bytes) (D : Bytes → Option (Key n)) (k : Key n) (A : Attacker) :
    ∀ got, (∀ g, got = some g → g.2.1 = E) → (tester S right E k A got).run D E = Game.play S right k (onCipher S E D A got) (sent got) := by
  induction A with
  | stop g => intros; rfl
  | send data msg msg' next ih =>
    intro got hg
    rw [tester, onCipher]
    cases got with
    | some g => rw [if_pos (Or.inl (by rfl)), if_pos (by rfl), ih _ _ hg]
    | none =>
      rw [if_neg (show ¬ ((none : Option (Bytes × Sealed)).isSome = true) by simp)]
      simp only [Game.play, sent, List.map_nil, List.not_mem_nil, false_or, Option.isSome_none, Bool.false_eq_true]
      by_cases hl : msg.length ≠ msg'.length
      · rw [if_pos hl, if_pos hl, ih _ _ hg]; rfl
      · rw [if_neg hl, if_neg hl]
        cases S.enc k (if right then msg' else msg) (zeros 12) data (zeros msg.length) with
        | none => exact ih _ _ hg
        | some r => exact ih _ _ (by rintro g ⟨⟩; rfl)
  | receive data b next ih =>
    intro got hg
    rw [tester, onCipher]
    by_cases h : got = some (data, b)
    · rw [if_pos h, if_pos h, ih _ _ hg]
    · rw [if_neg h, if_neg h]
      by_cases hb : b.1 = E
      · rw [if_pos hb, if_pos hb]
        simp only [Game.play]
        have hn : (zeros 12, data, b.2.1, b.2.2) ∉ sent got := by
          cases got with
          | none => simp [sent]
          | some g =>
            simp only [sent, List.mem_singleton, Prod.mk.injEq, true_and]
            rintro ⟨rfl, e1, e2⟩
            refine h ?_
            have := hg g rfl
            obtain ⟨d, x, y, z⟩ := g
            obtain ⟨x', y', z'⟩ := b
            simp_all
        rw [if_neg hn, ih _ _ hg]
        rfl
      · rw [if_neg hb, if_neg hb, Tester.run, if_neg hb, ih _ _ hg]

theorem within_le {blocks : Nat → Nat → Nat} {l : Nat} (A : Adversary) : ∀ a b, a ≤ b → Within blocks l A a → Within blocks l A b := by
  induction A with
  | stop g => intros; trivial
  | encrypt nonce data msg msg' buffer next ih => exact fun a b h hA => ⟨hA.1, fun r => ih r a b h (hA.2 r)⟩
  | decrypt nonce data ct tag buffer next ih =>
    rintro a b h ⟨h1, a', rfl, h2⟩
    exact ⟨h1, b - 1, by omega, fun r => ih r a' (b - 1) (by omega) (h2 r)⟩

theorem costs_le {cost : Nat → Nat} (A : Adversary) : ∀ s t, s ≤ t → Costs cost A s → Costs cost A t := by
  induction A with
  | stop g => intros; trivial
  | encrypt nonce data msg msg' buffer next ih =>
    rintro a b h ⟨a', rfl, h2⟩
    exact ⟨b - cost msg.length, by omega, fun r => ih r a' _ (by omega) (h2 r)⟩
  | decrypt nonce data ct tag buffer next ih =>
    rintro a b h ⟨a', rfl, h2⟩
    exact ⟨b - cost ct.length, by omega, fun r => ih r a' _ (by omega) (h2 r)⟩

theorem onCipher_within {blocks : Nat → Nat → Nat} {l : Nat} (E : Bytes) (D : Bytes → Option (Key n)) (A : Attacker) :
    ∀ (a : Nat) (got), A.Within blocks l a → Within blocks l (onCipher S E D A got) a := by
  induction A with
  | stop g => intros; trivial
  | send data msg msg' next ih =>
    intro a got h
    rw [onCipher]
    split
    · exact ih _ _ _ (h.2 _)
    · refine ⟨h.1, fun r => ?_⟩
      cases r with
      | none => exact ih _ _ _ (h.2 _)
      | some r => exact ih _ _ _ (h.2 _)
  | receive data b next ih =>
    rintro a got ⟨h1, a', rfl, h⟩
    rw [onCipher]
    split
    · exact within_le _ _ _ (by omega) (ih _ _ _ (h _))
    · split
      · exact ⟨h1, a', rfl, fun r => ih _ _ _ (h _)⟩
      · exact within_le _ _ _ (by omega) (ih _ _ _ (h _))

theorem onCipher_costs {cost : Nat → Nat} (E : Bytes) (D : Bytes → Option (Key n)) (A : Attacker) :
    ∀ (s : Nat) (got), A.Costs cost s → Costs cost (onCipher S E D A got) s := by
  induction A with
  | stop g => intros; trivial
  | send data msg msg' next ih =>
    rintro s got ⟨s', rfl, h⟩
    rw [onCipher]
    split
    · exact costs_le _ _ _ (by omega) (ih _ _ _ (h _))
    · refine ⟨s', rfl, fun r => ?_⟩
      cases r with
      | none => exact ih _ _ _ (h _)
      | some r => exact ih _ _ _ (h _)
  | receive data b next ih =>
    rintro s got ⟨s', rfl, h⟩
    rw [onCipher]
    split
    · exact costs_le _ _ _ (by omega) (ih _ _ _ (h _))
    · split
      · exact ⟨s', rfl, fun r => ih _ _ _ (h _)⟩
      · exact costs_le _ _ _ (by omega) (ih _ _ _ (h _))

/-! ## The assumption about the key agreement -/

/-- **The oracle Diffie-Hellman assumption about X25519 with HKDF**: how well `T` tells the agreed key of two random secret keys from a random key, when it is given both public keys, and
the keys that the first party agrees on with any other public keys. -/
noncomputable def agreementAdvantage (v : Variant) (m : Mode) (n : Nat) (T : Bytes → Bytes → Key n → Tester (Key n)) : ℚ :=
  |prob (fun q : SecretKey × SecretKey => ∃ pk head key, Model.X25519.genPk m q.1.1 = some pk ∧ Model.X25519.genPk m q.2.1 = some head ∧ agreed v m n q.1.1 head = some key ∧
      (T pk head key).run (agreed v m n q.1.1) head = true) -
    prob (fun q : Key n × (SecretKey × SecretKey) => ∃ pk head, Model.X25519.genPk m q.2.1.1 = some pk ∧ Model.X25519.genPk m q.2.2.1 = some head ∧
      (T pk head q.1).run (agreed v m n q.2.1.1) head = true)|

/-- The tester made of an attacker. -/
def agreementTester (S : Scheme (Key n)) (right : Bool) (A : Bytes → Attacker) (pk head : Bytes) (key : Key n) : Tester (Key n) := tester S right head key (A pk) none

/-- The attack on the cipher made of an attacker, for given secret keys. -/
def cipherAttack (S : Scheme (Key n)) (v : Variant) (m : Mode) (A : Bytes → Attacker) (secret oneTime : Bytes) : Adversary :=
  onCipher S ((Model.X25519.genPk m oneTime).getD []) (agreed v m n secret) (A ((Model.X25519.genPk m secret).getD [])) none

theorem game_real (v : Variant) (m : Mode) (hn : n ≤ 32) (right : Bool) (A : Bytes → Attacker) :
    prob (fun q : SecretKey × SecretKey => game (box S v m) right A q.1.1 q.2.1 = true) =
    prob (fun q : SecretKey × SecretKey => ∃ pk head key, Model.X25519.genPk m q.1.1 = some pk ∧ Model.X25519.genPk m q.2.1 = some head ∧ agreed v m n q.1.1 head = some key ∧
      (agreementTester S right A pk head key).run (agreed v m n q.1.1) head = true) := by
  refine prob_congr fun q => ?_
  obtain ⟨pk, head, shared, key, g1, g2, g3, g4, g5⟩ := agree v m n hn q.1.1 q.2.1 q.1.2 q.2.2
  have e := tester_real (S := S) v m right pk q.1.1 q.2.1 head shared key g2 g3 g4 g5 (A pk) none
  unfold game
  rw [show (box S v m).pub q.1.1 = some pk from g1]
  constructor
  · intro h
    exact ⟨pk, head, key, g1, g2, g5, by rw [agreementTester, e]; exact h⟩
  · rintro ⟨pk', head', key', h1, h2, h3, h4⟩
    obtain rfl := Option.some.inj (g1.symm.trans h1)
    obtain rfl := Option.some.inj (g2.symm.trans h2)
    obtain rfl := Option.some.inj (g5.symm.trans h3)
    rw [agreementTester, e] at h4
    exact h4

theorem game_ideal (v : Variant) (m : Mode) (right : Bool) (A : Bytes → Attacker) (k : Key n) (q : SecretKey × SecretKey) :
    (∃ pk head, Model.X25519.genPk m q.1.1 = some pk ∧ Model.X25519.genPk m q.2.1 = some head ∧ (agreementTester S right A pk head k).run (agreed v m n q.1.1) head = true) ↔
    Game.play S right k (cipherAttack S v m A q.1.1 q.2.1) [] = true := by
  obtain ⟨pk, head, s, e1, e2, -, -, -⟩ := C108_exchange m q.1.1 q.2.1 q.1.2 q.2.2
  unfold exchange at e1
  unfold cipherAttack
  cases g1 : Model.X25519.genPk m q.1.1 with
  | none => rw [g1] at e1; cases e1
  | some pk' =>
    cases g2 : Model.X25519.genPk m q.2.1 with
    | none => rw [g1, g2] at e1; cases e1
    | some head' =>
      have := onCipher_play (S := S) right head' (agreed v m n q.1.1) k (A pk') none (by simp)
      rw [Option.getD_some, Option.getD_some, ← show sent none = [] from rfl, ← this]
      constructor
      · rintro ⟨_, _, ⟨⟩, ⟨⟩, h⟩
        exact h
      · exact fun h => ⟨_, _, rfl, rfl, h⟩

/-- **Sealed boxes over any cipher.** -/
theorem secrecy [Finite (Key n)] (v : Variant) (m : Mode) (hn : n ≤ 32) (A : Bytes → Attacker) (c : ℚ)
    (hc : ∀ q : SecretKey × SecretKey, |prob (fun k => Game.play S false k (cipherAttack S v m A q.1.1 q.2.1) [] = true) -
      prob (fun k => Game.play S true k (cipherAttack S v m A q.1.1 q.2.1) [] = true)| ≤ c) :
    |prob (fun q : SecretKey × SecretKey => game (box S v m) false A q.1.1 q.2.1 = true) - prob (fun q : SecretKey × SecretKey => game (box S v m) true A q.1.1 q.2.1 = true)| ≤
      agreementAdvantage v m n (agreementTester S false A) + agreementAdvantage v m n (agreementTester S true A) + c := by
  rw [game_real v m hn, game_real v m hn]
  have : Nonempty SecretKey := ⟨⟨zeros 32, by decide⟩⟩
  have h3 := prob_prod_close (fun q : Key n × (SecretKey × SecretKey) => ∃ pk head, Model.X25519.genPk m q.2.1.1 = some pk ∧ Model.X25519.genPk m q.2.2.1 = some head ∧
      (agreementTester S false A pk head q.1).run (agreed v m n q.2.1.1) head = true)
    (fun q : Key n × (SecretKey × SecretKey) => ∃ pk head, Model.X25519.genPk m q.2.1.1 = some pk ∧ Model.X25519.genPk m q.2.2.1 = some head ∧
      (agreementTester S true A pk head q.1).run (agreed v m n q.2.1.1) head = true) c (fun q => by
        rw [prob_congr fun k => game_ideal (S := S) v m false A k q, prob_congr fun k => game_ideal (S := S) v m true A k q]
        exact hc q)
  unfold agreementAdvantage
  rw [abs_le] at h3 ⊢
  obtain ⟨a1, a2⟩ := h3
  constructor
  · have b1 := neg_abs_le (prob (fun q : SecretKey × SecretKey => ∃ pk head key, Model.X25519.genPk m q.1.1 = some pk ∧ Model.X25519.genPk m q.2.1 = some head ∧ agreed v m n q.1.1 head = some key ∧
      (agreementTester S false A pk head key).run (agreed v m n q.1.1) head = true) -
        prob (fun q : Key n × (SecretKey × SecretKey) => ∃ pk head, Model.X25519.genPk m q.2.1.1 = some pk ∧ Model.X25519.genPk m q.2.2.1 = some head ∧
      (agreementTester S false A pk head q.1).run (agreed v m n q.2.1.1) head = true))
    have b2 := le_abs_self (prob (fun q : SecretKey × SecretKey => ∃ pk head key, Model.X25519.genPk m q.1.1 = some pk ∧ Model.X25519.genPk m q.2.1 = some head ∧ agreed v m n q.1.1 head = some key ∧
      (agreementTester S true A pk head key).run (agreed v m n q.1.1) head = true) -
        prob (fun q : Key n × (SecretKey × SecretKey) => ∃ pk head, Model.X25519.genPk m q.2.1.1 = some pk ∧ Model.X25519.genPk m q.2.2.1 = some head ∧
      (agreementTester S true A pk head q.1).run (agreed v m n q.2.1.1) head = true))
    linarith
  · have b1 := le_abs_self (prob (fun q : SecretKey × SecretKey => ∃ pk head key, Model.X25519.genPk m q.1.1 = some pk ∧ Model.X25519.genPk m q.2.1 = some head ∧ agreed v m n q.1.1 head = some key ∧
      (agreementTester S false A pk head key).run (agreed v m n q.1.1) head = true) -
        prob (fun q : Key n × (SecretKey × SecretKey) => ∃ pk head, Model.X25519.genPk m q.2.1.1 = some pk ∧ Model.X25519.genPk m q.2.2.1 = some head ∧
      (agreementTester S false A pk head q.1).run (agreed v m n q.2.1.1) head = true))
    have b2 := neg_abs_le (prob (fun q : SecretKey × SecretKey => ∃ pk head key, Model.X25519.genPk m q.1.1 = some pk ∧ Model.X25519.genPk m q.2.1 = some head ∧ agreed v m n q.1.1 head = some key ∧
      (agreementTester S true A pk head key).run (agreed v m n q.1.1) head = true) -
        prob (fun q : Key n × (SecretKey × SecretKey) => ∃ pk head, Model.X25519.genPk m q.2.1.1 = some pk ∧ Model.X25519.genPk m q.2.2.1 = some head ∧
      (agreementTester S true A pk head q.1).run (agreed v m n q.2.1.1) head = true))
    linarith

/-! ## With the ciphers of the crate -/

theorem aesKey_le (k : AesKind) : 4 * k.Nk ≤ 32 := by cases k <;> decide

/-- **The receiver gets the message**, and nothing panics: for messages of at most `2^36 - 64` bytes and data of fewer than `2^61`. -/
theorem C156_round_trip (k : AesKind) (v : Variant) (m : Mode) (secret oneTime : Bytes) (h1 : secret.length = 32) (h2 : oneTime.length = 32) (data msg : Bytes)
    (hm : msg.length ≤ 2 ^ 36 - 64) (hd : data.length < 2 ^ 61) :
    (∃ pk b, (box (aesGcm k m) v m).pub secret = some pk ∧ (box (aesGcm k m) v m).close pk oneTime data msg = some b ∧
      (box (aesGcm k m) v m).opens secret data b = some (some msg)) ∧
    (∃ pk b, (box (chachaPoly m) v m).pub secret = some pk ∧ (box (chachaPoly m) v m).close pk oneTime data msg = some b ∧
      (box (chachaPoly m) v m).opens secret data b = some (some msg)) := by
  refine ⟨box_roundTrip (aesGcm_roundTrip k m) v m (aesKey_le k) secret oneTime h1 h2 data msg fun key => ?_,
    box_roundTrip (chachaPoly_roundTrip m) v m (le_refl _) secret oneTime h1 h2 data msg fun key => ?_⟩
  · cases k
    · exact Files.aead_seals (gcmAead Aes.Aes128, 16) (by simp [sessionAeads]) m key msg (zeros 12) data (by simp) hm hd
    · exact Files.aead_seals (gcmAead Aes.Aes192, 24) (by simp [sessionAeads]) m key msg (zeros 12) data (by simp) hm hd
    · exact Files.aead_seals (gcmAead Aes.Aes256, 32) (by simp [sessionAeads]) m key msg (zeros 12) data (by simp) hm hd
  · exact Files.aead_seals (ccpAead, 32) (by simp [sessionAeads]) m key msg (zeros 12) data (by simp) hm hd

/-- **The key of a box**: both sides use `n` bytes of HKDF-Expand (RFC 5869) of the X25519 secret, with the public key of the box and the public key of the receiver as context, and no
salt. -/
theorem C156_key (v : Variant) (m : Mode) (n : Nat) (hn : n ≤ 32) (secret head : Bytes) (h1 : secret.length = 32) (h2 : head.length = 32) :
    ∃ key, agreed v m n secret head = some key ∧
      key.1 = Spec.hkdfExpand v.fips v.block (Spec.hkdfExtract v.fips v.block [] (Spec.X25519.x25519 secret head)) (head ++ Spec.X25519.x25519 secret (9 :: zeros 31)) n := by
  obtain ⟨e1, e2⟩ := CryptoPure.Props.X25519.C35_dh_rfc7748 m head secret h2 h1
  have l : ∀ u, (Spec.X25519.x25519 secret u).length = 32 := fun u => by
    unfold Spec.X25519.x25519 Spec.X25519.encodeU
    exact toLE_length _ _
  obtain ⟨k, hk, hv⟩ := keyFrom_total v m n hn (Spec.X25519.x25519 secret head) (head ++ Spec.X25519.x25519 secret (9 :: zeros 31)) (l _) (by rw [List.length_append, l, h2])
  refine ⟨k, ?_, hv⟩
  unfold agreed
  rw [e1, e2]
  exact hk

/-- The testers made of an attacker ask for no more other keys than the attacker has boxes opened. -/
theorem C156_tester (right : Bool) (A : Bytes → Attacker) {blocks : Nat → Nat → Nat} {l a : Nat} (hA : ∀ pk, (A pk).Within blocks l a) (pk head : Bytes) (key : Key n) :
    (agreementTester S right A pk head key).Asks a := tester_asks right head key (A pk) a none (hA pk)

/-- **A sealed box (with ChaCha20-Poly1305 of the crate) shows nothing but the length of the message**, not even to an attacker who has any other boxes opened: unless the attack tells agreed
keys from random ones, or the ChaCha20 block function from a random one. -/
theorem C156_chacha_secrecy (v : Variant) (m : Mode) (A : Bytes → Attacker) (a l : Nat) (hl : l ≤ 2 ^ 34 - 16) (hA : ∀ pk, (A pk).Within authCount l a) (ε : ℚ)
    (hε : ∀ q : SecretKey × SecretKey, chachaAdvantage (chachaFromGuesser m false (cipherAttack (chachaPoly m) v m A q.1.1 q.2.1)) +
      chachaAdvantage (chachaFromGuesser m true (cipherAttack (chachaPoly m) v m A q.1.1 q.2.1)) ≤ ε) :
    |prob (fun q : SecretKey × SecretKey => game (box (chachaPoly m) v m) false A q.1.1 q.2.1 = true) -
      prob (fun q : SecretKey × SecretKey => game (box (chachaPoly m) v m) true A q.1.1 q.2.1 = true)| ≤
    agreementAdvantage v m 32 (agreementTester (chachaPoly m) false A) + agreementAdvantage v m 32 (agreementTester (chachaPoly m) true A) + (ε + 2 * (a * (1480 * l) / 2 ^ 106)) :=
  secrecy v m (le_refl _) A _ fun q =>
    le_trans (C120_ccp_confidentiality m _ a l hl (onCipher_within _ _ _ _ _ (hA _))) (by have := hε q; linarith)

/-- **A sealed box (with AES-GCM of the crate) shows nothing but the length of the message**, where `s` bounds the calls of AES. -/
theorem C156_aes_secrecy (k : AesKind) (v : Variant) (m : Mode) (A : Bytes → Attacker) (a l s : Nat) (hl : l ≤ 2 ^ 32 - 3) (hA : ∀ pk, (A pk).Within authCount l a)
    (hs : ∀ pk, (A pk).Costs gcmCost s) (ε : ℚ)
    (hε : ∀ q : SecretKey × SecretKey, aesAdvantage k (aesFromGuesser m false (cipherAttack (aesGcm k m) v m A q.1.1 q.2.1)) +
      aesAdvantage k (aesFromGuesser m true (cipherAttack (aesGcm k m) v m A q.1.1 q.2.1)) ≤ ε) :
    |prob (fun q : SecretKey × SecretKey => game (box (aesGcm k m) v m) false A q.1.1 q.2.1 = true) -
      prob (fun q : SecretKey × SecretKey => game (box (aesGcm k m) v m) true A q.1.1 q.2.1 = true)| ≤
    agreementAdvantage v m (4 * k.Nk) (agreementTester (aesGcm k m) false A) + agreementAdvantage v m (4 * k.Nk) (agreementTester (aesGcm k m) true A) +
      (ε + 2 * (a * l / 2 ^ 128) + s * (s - 1) / 2 ^ 128) :=
  secrecy v m (aesKey_le k) A _ fun q =>
    le_trans (C120_gcm_confidentiality k m _ a l s hl (onCipher_within _ _ _ _ _ (hA _)) (onCipher_costs _ _ _ _ _ (hs _))) (by have := hε q; linarith)

/-! ## Both public keys have to be part of the context

Public keys that differ in the top bit only give the same secret (C38), so a box with such a changed key would be opened if the context did not show the change. -/

/-- As `box`, without a context. -/
def boxWithoutContext (S : Scheme (Key n)) (v : Variant) (m : Mode) : Box where
  pub := Model.X25519.genPk m
  close pk oneTime data msg := do
    let head ← Model.X25519.genPk m oneTime
    let shared ← Model.X25519.dh m pk oneTime
    let key ← keyFrom v m n shared []
    let (ct, t) ← S.enc key msg (zeros 12) data (zeros msg.length)
    some (head, ct, t)
  opens secret data b := do
    let shared ← Model.X25519.dh m b.1 secret
    let key ← keyFrom v m n shared []
    let (out, ok) ← S.dec key b.2.1 (zeros 12) data b.2.2 (zeros b.2.1.length)
    some (if ok then some out else none)

/-- Another public key with the same secrets. -/
def flipTop (pk : Bytes) : Bytes := pk.take 31 ++ [pk.getD 31 0 ^^^ 128]

theorem flipTop_ne (pk : Bytes) (h : pk.length = 32) : flipTop pk ≠ pk := by
  intro e
  have := congrArg (fun x : Bytes => x.getD 31 0) e
  unfold flipTop at this
  have hl : (pk.take 31).length = 31 := by rw [List.length_take]; omega
  simp only [List.getD_eq_getElem?_getD, List.getElem?_append_right (Nat.le_of_eq hl), hl] at this
  simp at this
  generalize (pk[31]?.getD 0) = x at this
  have h2 := congrArg (· ^^^ x) this
  simp [BitVec.xor_comm, ← BitVec.xor_assoc] at h2

theorem flipTop_value (pk : Bytes) (h : pk.length = 32) : leNat (flipTop pk) % 2 ^ 255 = leNat pk % 2 ^ 255 := by
  have hl : (pk.take 31).length = 31 := by rw [List.length_take]; omega
  have hd : ∃ x, pk.drop 31 = [x] := List.length_eq_one_iff.mp (by rw [List.length_drop]; omega)
  obtain ⟨x, hx⟩ := hd
  have e : pk = pk.take 31 ++ [x] := by rw [← hx, List.take_append_drop]
  have ex : pk.getD 31 0 = x := by
    rw [e, List.getD_eq_getElem?_getD, List.getElem?_append_right (by omega), hl]
    rfl
  unfold flipTop
  rw [ex]
  conv_rhs => rw [e]
  rw [leNat_append, leNat_append, hl]
  have h1 : ∀ y : U8, leNat [y] = y.toNat := fun y => by simp [leNat]
  rw [h1, h1]
  have h2 : ∀ x : U8, (x ^^^ 128).toNat % 128 = x.toNat % 128 := by decide +kernel
  have h3 : (2 : Nat) ^ 255 = 256 ^ 31 * 128 := by norm_num
  rw [h3, Nat.add_mod, Nat.mul_mod_mul_left, h2, ← Nat.mul_mod_mul_left, ← Nat.add_mod]

/-- **Without the context, a changed box is opened**: with any cipher, the box with the other public key is opened as the box itself, though it is another one. An attacker who has it opened
learns the message. -/
theorem C156_context_needed (S : Scheme (Key n)) (v : Variant) (m : Mode) (secret data head ct t : Bytes) (hs : secret.length = 32) (hh : head.length = 32) :
    ((flipTop head, ct, t) : Sealed) ≠ (head, ct, t) ∧
    (boxWithoutContext S v m).opens secret data (flipTop head, ct, t) = (boxWithoutContext S v m).opens secret data (head, ct, t) := by
  refine ⟨fun e => flipTop_ne head hh (Prod.mk.inj e).1, ?_⟩
  have hl : (flipTop head).length = 32 := by
    unfold flipTop
    rw [List.length_append, List.length_take, List.length_singleton]
    omega
  have : Model.X25519.dh m (flipTop head) secret = Model.X25519.dh m head secret :=
    CryptoPure.Props.X25519.C38_dh_depends_only_on m _ _ secret secret hl hh hs hs rfl (by rw [flipTop_value head hh])
  show (Model.X25519.dh m (flipTop head) secret).bind _ = (Model.X25519.dh m head secret).bind _
  rw [this]

/-! ## Concrete cases -/

example (v : Variant) (m : Mode) := C156_round_trip .aes128 v m (zeros 32) (zeros 32) (by decide) (by decide) [1, 2, 3] [4, 5] (by norm_num) (by norm_num)

/-- Has the box it got opened with another public key, and tells which message was sealed from what comes out. -/
def flipKey (_ : Bytes) : Attacker :=
  .send [] (List.replicate 20 0) (List.replicate 20 1) fun
    | none => .stop false
    | some (head, ct, t) => .receive [] (flipTop head, ct.take 20, t) fun r => .stop (r == some (some (List.replicate 20 1)))

theorem flipKey_within (pk : Bytes) : (flipKey pk).Within authCount 4 1 := by
  refine ⟨by decide, fun r => ?_⟩
  rcases r with _ | ⟨head, ct, t⟩
  · trivial
  · refine ⟨?_, 0, rfl, fun _ => trivial⟩
    show authCount 0 (ct.take 20).length ≤ 4
    have : (ct.take 20).length ≤ 20 := List.length_take_le _ _
    unfold authCount
    omega

theorem flipKey_costs (pk : Bytes) : (flipKey pk).Costs gcmCost 8 := by
  refine ⟨8 - gcmCost 20, by decide, fun r => ?_⟩
  rcases r with _ | ⟨head, ct, t⟩
  · trivial
  · refine ⟨8 - gcmCost 20 - gcmCost (ct.take 20).length, ?_, fun _ => trivial⟩
    show 8 - gcmCost 20 = gcmCost (ct.take 20).length + _
    have : (ct.take 20).length ≤ 20 := List.length_take_le _ _
    have h : gcmCost (ct.take 20).length ≤ 4 := by unfold gcmCost; omega
    have : gcmCost 20 = 4 := by decide
    omega

example (v : Variant) (m : Mode) := C156_chacha_secrecy v m flipKey 1 4 (by norm_num) flipKey_within

example (k : AesKind) (v : Variant) (m : Mode) := C156_aes_secrecy k v m flipKey 1 4 8 (by norm_num) flipKey_within flipKey_costs

example (v : Variant) (m : Mode) := C156_key v m 32 (by decide) (zeros 32) (9 :: zeros 31) (by decide) (by decide)

example (right : Bool) (m : Mode) := C156_tester (S := chachaPoly m) right flipKey flipKey_within

end CryptoPure.Props.SealedBox
