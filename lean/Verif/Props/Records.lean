import Verif.Proofs.RecordGame
import Verif.Props.MultiPerm
import Verif.Props.SessionKeys

/-! # C132: ordered records

A protocol carries records over links with keys of their own and numbers them; see Verif/Spec/RecordGame.lean. -/

namespace CryptoPure.Props
open CryptoPure.Model CryptoPure.RecordGame
open Distinguisher (Distinguisher advantage)
open Game (Scheme prob)

variable {u : Nat}

/-- The attack on the cipher with one key for each link that an attack on the records is. -/
def recordAttack (A : Attacker u) : MultiGame.Adversary u := toMulti A (fun _ => []) (fun _ => 0)

theorem aead_roundTrip (C : AeadCipher) (hC : C ∈ aeads) (m : Mode) (L : Nat) : RoundTrip (withKeys (aeadScheme C m) L) := by
  intro k msg nonce data ct t h
  change ((C.new k.1).bind fun s => C.encrypt m s msg nonce data (zeros msg.length)) = some (ct, t) at h
  change ((C.new k.1).bind fun s => C.decrypt m s ct nonce data t (zeros ct.length)) = some (msg, true)
  cases hs : C.new k.1 with
  | none => rw [hs] at h; cases h
  | some s =>
    rw [hs] at h
    have c := C99_contract C hC k.1 s hs
    exact c.roundtrip m msg nonce data _ ct t h _ (by rw [zeros, List.length_replicate]; exact (c.lengths m _ _ _ _ _ _ h).1)

theorem aesGcm_roundTrip (k : AesKind) (m : Mode) : RoundTrip (aesGcm k m) :=
  aead_roundTrip _ (by cases k <;> simp [aeads, AesKind.code]) m _

theorem chachaPoly_roundTrip (m : Mode) : RoundTrip (chachaPoly m) := aead_roundTrip _ (by simp [aeads]) m _

theorem faithful_start : (start : State u).Faithful := fun _ => List.prefix_refl _

theorem records_forge {K : Type} {S : Scheme K} (hS : RoundTrip S) (right : Bool) (k : Fin u → K) (A : Attacker u)
    (h : breaks S right k A start) : MultiGame.forges S right k (recordAttack A) [] :=
  forges_of_breaks S hS right k A _ _ _ _ (inv_start S k) faithful_start h

theorem records_play {K : Type} {S : Scheme K} (hS : RoundTrip S) (right : Bool) (k : Fin u → K) (A : Attacker u) :
    MultiGame.play S right k (recordAttack A) [] = play S right k A start :=
  play_toMulti S hS right k A _ _ _ _ (inv_start S k)

theorem records_within {blocks : Nat → Nat → Nat} {n a : Nat} {A : Attacker u} (h : Within blocks n A a) :
    MultiGame.Within blocks n (recordAttack A) a := within_toMulti _ _ A _ _ _ h

/-! ## Without an attacker -/

theorem deliver_next {K : Type} {S : Scheme K} (hS : RoundTrip S) (k : Fin u → K) (st : State u) (link : Fin u) (data msg ct t : Bytes)
    (hl : (st.received link).length < 2 ^ 96)
    (he : S.enc (k link) msg (nonce (st.received link).length) data (zeros msg.length) = some (ct, t)) :
    deliverStep S k st link data ct t =
      (some true, { st with received := Function.update st.received link (st.received link ++ [(data, msg)]) }) := by
  rw [deliverStep, if_neg (by omega), hS _ _ _ _ _ _ he]

/-- **AES-GCM: the next record arrives.** Whatever happened before, if the receiver is given the record that the sender made with the
number that the receiver expects, it accepts it and has its message. -/
theorem C132_aes_delivery (k : AesKind) (m : Mode) (keys : Fin u → AesKey k) (st : State u) (link : Fin u) (data msg ct t : Bytes)
    (hl : (st.received link).length < 2 ^ 96)
    (he : (aesGcm k m).enc (keys link) msg (nonce (st.received link).length) data (zeros msg.length) = some (ct, t)) :
    deliverStep (aesGcm k m) keys st link data ct t =
      (some true, { st with received := Function.update st.received link (st.received link ++ [(data, msg)]) }) :=
  deliver_next (aesGcm_roundTrip k m) keys st link data msg ct t hl he

/-- **ChaCha20-Poly1305: the next record arrives.** -/
theorem C132_chacha_delivery (m : Mode) (keys : Fin u → ChaChaKey) (st : State u) (link : Fin u) (data msg ct t : Bytes)
    (hl : (st.received link).length < 2 ^ 96)
    (he : (chachaPoly m).enc (keys link) msg (nonce (st.received link).length) data (zeros msg.length) = some (ct, t)) :
    deliverStep (chachaPoly m) keys st link data ct t =
      (some true, { st with received := Function.update st.received link (st.received link ++ [(data, msg)]) }) :=
  deliver_next (chachaPoly_roundTrip m) keys st link data msg ct t hl he

/-! ## With an attacker that owns the network -/

/-- **AES-GCM: order.** The probability that any receiver ever holds anything but the first records sent over its link, in order, is
at most what the attack tells about AES, and what forging a tag of `n` blocks with `a` attempts gives. -/
theorem C132_aes_order (k : AesKind) (m : Mode) (A : Attacker u) (a n : Nat) (hn : n ≤ 2 ^ 32 - 3) (hA : Within authCount n A a)
    (right : Bool) :
    prob (fun keys : Fin u → AesKey k => breaks (aesGcm k m) right keys A start) ≤
      aesAdvantages u k (MultiGame.forgeryTest (gcmScheme oracle m) gcmPoints right (recordAttack A)) + a * n / 2 ^ 128 :=
  le_trans (Game.prob_mono fun keys => records_forge (aesGcm_roundTrip k m) right keys A)
    (C121_aes_forgery k m (recordAttack A) a n hn (records_within hA) right)

/-- **ChaCha20-Poly1305: order.** -/
theorem C132_chacha_order (m : Mode) (A : Attacker u) (a n : Nat) (hn : n ≤ 2 ^ 34 - 16) (hA : Within authCount n A a) (right : Bool) :
    prob (fun keys : Fin u → ChaChaKey => breaks (chachaPoly m) right keys A start) ≤
      chachaAdvantages u (MultiGame.forgeryTest (ccpOver m) ccpPoints right (recordAttack A)) + a * (1480 * n) / 2 ^ 106 :=
  le_trans (Game.prob_mono fun keys => records_forge (chachaPoly_roundTrip m) right keys A)
    (C121_chacha_forgery m (recordAttack A) a n hn (records_within hA) right)

/-- **AES-GCM: secrecy.** What the attacker sees of the records and of their fate hardly depends on which messages were sent. -/
theorem C132_aes_secrecy (k : AesKind) (m : Mode) (A : Attacker u) (a n : Nat) (hn : n ≤ 2 ^ 32 - 3) (hA : Within authCount n A a) :
    |prob (fun keys : Fin u → AesKey k => play (aesGcm k m) false keys A start = true) -
        prob (fun keys : Fin u → AesKey k => play (aesGcm k m) true keys A start = true)| ≤
      aesAdvantages u k (MultiGame.guessTest (gcmScheme oracle m) gcmPoints false (recordAttack A)) +
      aesAdvantages u k (MultiGame.guessTest (gcmScheme oracle m) gcmPoints true (recordAttack A)) + 2 * (a * n / 2 ^ 128) := by
  have h := C121_aes_confidentiality k m (recordAttack A) a n hn (records_within hA)
  simpa only [records_play (aesGcm_roundTrip k m)] using h

/-- **ChaCha20-Poly1305: secrecy.** -/
theorem C132_chacha_secrecy (m : Mode) (A : Attacker u) (a n : Nat) (hn : n ≤ 2 ^ 34 - 16) (hA : Within authCount n A a) :
    |prob (fun keys : Fin u → ChaChaKey => play (chachaPoly m) false keys A start = true) -
        prob (fun keys : Fin u → ChaChaKey => play (chachaPoly m) true keys A start = true)| ≤
      chachaAdvantages u (MultiGame.guessTest (ccpOver m) ccpPoints false (recordAttack A)) +
      chachaAdvantages u (MultiGame.guessTest (ccpOver m) ccpPoints true (recordAttack A)) + 2 * (a * (1480 * n) / 2 ^ 106) := by
  have h := C121_chacha_confidentiality m (recordAttack A) a n hn (records_within hA)
  simpa only [records_play (chachaPoly_roundTrip m)] using h

/-- **AES-GCM against random permutations.** The same with how well AES is told from random permutations, when the records together
make at most `s` and those of each link at most `B` calls of AES. -/
theorem C132_aes_order_perm (k : AesKind) (m : Mode) (A : Attacker u) (a n s B : Nat) (hn : n ≤ 2 ^ 32 - 3) (hA : Within authCount n A a)
    (hB1 : 1 ≤ B) (hs : Costs gcmCost A s) (hB : CostsEach gcmCost B A (fun _ => 0)) (right : Bool) :
    prob (fun keys : Fin u → AesKey k => breaks (aesGcm k m) right keys A start) ≤
      aesPermAdvantages u k (MultiGame.forgeryTest (gcmScheme oracle m) gcmPoints right (recordAttack A)) + a * n / 2 ^ 128 +
        s * (B - 1) / 2 ^ 129 :=
  le_trans (Game.prob_mono fun keys => records_forge (aesGcm_roundTrip k m) right keys A)
    (C125_forgery k m (recordAttack A) a n s B hn (records_within hA) hB1 (costs_toMulti _ A _ _ _ hs)
      (costsEach_toMulti _ _ A _ _ _ hB) right)

/-- The distinguishers of these bounds ask for no more blocks than the records make the code compute. -/
theorem C132_work (m : Mode) (A : Attacker u) (right : Bool) (s s' : Nat) (hs : Costs gcmCost A s) (hs' : Costs ccpCost A s') :
    (MultiGame.forgeryTest (gcmScheme oracle m) gcmPoints right (recordAttack A)).Asks s ∧
    (MultiGame.guessTest (gcmScheme oracle m) gcmPoints right (recordAttack A)).Asks s ∧
    (MultiGame.forgeryTest (ccpOver m) ccpPoints right (recordAttack A)).Asks s' ∧
    (MultiGame.guessTest (ccpOver m) ccpPoints right (recordAttack A)).Asks s' := by
  have h1 := MultiGame.tests_ask (S := gcmScheme oracle m) gcmPoints_length right (recordAttack A) s (costs_toMulti _ A _ _ _ hs)
  have h2 := MultiGame.tests_ask (S := ccpOver m) ccpPoints_length right (recordAttack A) s' (costs_toMulti _ A _ _ _ hs')
  exact ⟨h1.1, h1.2, h2.1, h2.2⟩

/-! ## With the keys of the links derived from one secret -/

/-- **AES-GCM: order, when the keys of the links are derived by HKDF from one secret.** -/
theorem C132_aes_session_order (k : AesKind) (v : Variant) (m : Mode) (kl I : Nat) (h1 : v.size ≤ kl) (h2 : kl ≤ v.block)
    (hI : v.block + (v.size + I + 1) < 2 ^ 61) (info : Fin u → Bytes) (hinj : Function.Injective info) (hi : ∀ i, (info i).length ≤ I)
    (δ : ℚ) (hδ0 : 0 ≤ δ)
    (hδ : ∀ M M' : Bytes, M.length ≤ v.size + I + 1 → M'.length ≤ v.size + I + 1 → M ≠ M' → innerCollision v M M' ≤ δ)
    (q : Nat) (hq : q = u * ((4 * k.Nk + v.size - 1) / v.size))
    (A : Attacker u) (a n : Nat) (hn : n ≤ 2 ^ 32 - 3) (hA : Within authCount n A a) (right : Bool) :
    prob (fun prk : {k : Bytes // k.length = kl} => ∃ keys : Fin u → AesKey k, Derived v m prk.1 info keys ∧
        breaks (aesGcm k m) right keys A start) ≤
      keysAdvantage v kl info (fun keys : Fin u → AesKey k => MultiGame.forges (aesGcm k m) right keys (recordAttack A) []) +
        q * (q - 1) / 2 * δ +
        (aesAdvantages u k (MultiGame.forgeryTest (gcmScheme oracle m) gcmPoints right (recordAttack A)) + a * n / 2 ^ 128) :=
  le_trans (Game.prob_mono fun prk ⟨keys, hd, hb⟩ => ⟨keys, hd, records_forge (aesGcm_roundTrip k m) right keys A hb⟩)
    (C124_aes_forgery k v m kl I h1 h2 hI info hinj hi δ hδ0 hδ q hq (recordAttack A) a n hn (records_within hA) right)

/-- **ChaCha20-Poly1305: order, when the keys of the links are derived by HKDF from one secret.** -/
theorem C132_chacha_session_order (v : Variant) (m : Mode) (kl I : Nat) (h1 : v.size ≤ kl) (h2 : kl ≤ v.block)
    (hI : v.block + (v.size + I + 1) < 2 ^ 61) (info : Fin u → Bytes) (hinj : Function.Injective info) (hi : ∀ i, (info i).length ≤ I)
    (δ : ℚ) (hδ0 : 0 ≤ δ)
    (hδ : ∀ M M' : Bytes, M.length ≤ v.size + I + 1 → M'.length ≤ v.size + I + 1 → M ≠ M' → innerCollision v M M' ≤ δ)
    (q : Nat) (hq : q = u * ((32 + v.size - 1) / v.size))
    (A : Attacker u) (a n : Nat) (hn : n ≤ 2 ^ 34 - 16) (hA : Within authCount n A a) (right : Bool) :
    prob (fun prk : {k : Bytes // k.length = kl} => ∃ keys : Fin u → ChaChaKey, Derived v m prk.1 info keys ∧
        breaks (chachaPoly m) right keys A start) ≤
      keysAdvantage v kl info (fun keys : Fin u → ChaChaKey => MultiGame.forges (chachaPoly m) right keys (recordAttack A) []) +
        q * (q - 1) / 2 * δ +
        (chachaAdvantages u (MultiGame.forgeryTest (ccpOver m) ccpPoints right (recordAttack A)) + a * (1480 * n) / 2 ^ 106) :=
  le_trans (Game.prob_mono fun prk ⟨keys, hd, hb⟩ => ⟨keys, hd, records_forge (chachaPoly_roundTrip m) right keys A hb⟩)
    (C124_chacha_forgery v m kl I h1 h2 hI info hinj hi δ hδ0 hδ q hq (recordAttack A) a n hn (records_within hA) right)

/-! ## Concrete cases -/

/-- A network that gives each record to the receiver twice. -/
def replayer : Attacker 2 :=
  .send 0 [1] (List.replicate 20 0) (List.replicate 20 1) fun r =>
    match r with
    | none => .stop false
    | some (ct, t) => .deliver 0 [1] (ct.take 20) t fun _ => .deliver 0 [1] (ct.take 20) t fun b => .stop (b == some true)

/-- A network that gives a record back to its sender, over the other link. -/
def reflector : Attacker 2 :=
  .send 0 [1] (List.replicate 20 0) (List.replicate 20 1) fun r =>
    match r with
    | none => .stop false
    | some (ct, t) => .deliver 1 [1] (ct.take 20) t fun b => .stop (b == some true)

theorem replayer_within : Within authCount 4 replayer 2 := by
  refine ⟨by decide, fun r => ?_⟩
  match r with
  | none => trivial
  | some (ct, t) =>
    have h : (ct.take 20).length ≤ 20 := by simp
    have h' : authCount 1 (ct.take 20).length ≤ 4 := by
      show (1 + 15) / 16 + (_ + 15) / 16 + 1 ≤ 4
      omega
    exact ⟨h', 1, rfl, fun _ => ⟨h', 0, rfl, fun _ => trivial⟩⟩

theorem reflector_within : Within authCount 4 reflector 1 := by
  refine ⟨by decide, fun r => ?_⟩
  match r with
  | none => trivial
  | some (ct, t) =>
    have h : (ct.take 20).length ≤ 20 := by simp
    have h' : authCount 1 (ct.take 20).length ≤ 4 := by
      show (1 + 15) / 16 + (_ + 15) / 16 + 1 ≤ 4
      omega
    exact ⟨h', 0, rfl, fun _ => trivial⟩

example : prob (fun keys => breaks (chachaPoly .release) false keys replayer start) ≤
    chachaAdvantages 2 (MultiGame.forgeryTest (ccpOver .release) ccpPoints false (recordAttack replayer)) + 2 * (1480 * 4) / 2 ^ 106 := by
  simpa using C132_chacha_order .release replayer 2 4 (by norm_num) replayer_within false

example : prob (fun keys => breaks (aesGcm .aes256 .debug) true keys reflector start) ≤
    aesAdvantages 2 .aes256 (MultiGame.forgeryTest (gcmScheme oracle .debug) gcmPoints true (recordAttack reflector)) + 1 * 4 / 2 ^ 128 := by
  simpa using C132_aes_order .aes256 .debug reflector 1 4 (by norm_num) reflector_within true

/-- A record that reaches the other link breaks the order: if both links have the same key, the reflection succeeds. -/
example (F : BlockFunction) : breaks (gcmScheme oracle .release) false (fun _ => F) reflector start := by
  have hp : Proofs.Gcm.Permitted (List.replicate 20 0) (zeros 12) [1] (zeros 20) := ⟨by simp, by simp, by simp, by simp⟩
  have e : Model.Gcm.encrypt oracle .release F (List.replicate 20 0) (zeros 12) [1] (zeros 20) = _ :=
    Proofs.Gcm.encrypt_ok oracle F _ (fun _ _ => rfl) (oracle_length F) .release _ _ _ _ hp (Or.inl rfl)
  have hl := Proofs.Gcm.crypt_length _ (oracle_length F) (zeros 12) (by simp) (List.replicate 20 0)
  rw [List.length_replicate] at hl
  have hz : nonce 0 = zeros 12 := by decide +kernel
  unfold reflector
  simp only [breaks, List.length_replicate, ne_eq, not_true_eq_false, if_false, sendStep, start, List.length_nil, Bool.false_eq_true,
    gcmScheme, hz, e]
  rw [if_neg (by norm_num)]
  refine .inr ?_
  dsimp only
  rw [List.take_of_length_le (by rw [← hl]; rfl)]
  simp only [breaks, deliverStep, List.length_nil, hz, hl]
  rw [Proofs.Gcm.decrypt_eq oracle F _ (fun _ _ => rfl) (oracle_length F) .release _ _ _ _ _
    ⟨by simp, hl.trans (by simp), by rw [hl]; norm_num, by simp⟩, if_pos rfl, if_pos (Or.inl rfl), if_neg (by norm_num)]
  refine .inr fun hf => ?_
  have := hf 1
  simp at this

end CryptoPure.Props
