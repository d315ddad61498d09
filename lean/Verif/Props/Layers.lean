import Verif.Proofs.Layers
import Verif.Props.Records
import Verif.Props.PanicLengths
import Verif.Props.Reduction
import Verif.Props.ChaChaPerm
import Verif.Props.Session

/-! # C159: encrypting twice, with AES-GCM and with ChaCha20-Poly1305

A message is encrypted with one cipher, and ciphertext and tag are encrypted with the other one under an independent key. This is at least as secure as the better of the two. -/

namespace CryptoPure.Props.Layers
open CryptoPure.Model CryptoPure.Props CryptoPure.Layers Game Distinguisher

theorem strict_aead (C : AeadCipher) (hC : C ∈ aeads) (m : Mode) (L : Nat) : Strict (withKeys (aeadScheme C m) L) where
  lengths k msg nonce data b ct t h := by
    obtain ⟨s, hs, h⟩ := Option.bind_eq_some_iff.mp (show (C.new k.1).bind _ = _ from h)
    exact (C99_contract C hC k.1 s hs).lengths m _ _ _ _ _ _ h
  panics k msg msg' nonce data b hl :=
    C127_encrypt C hC m k.1 msg nonce data b k.1 msg' nonce data b (by simp [SameLengths, hl])
  same k msg nonce data b b' r r' h h' := by
    obtain ⟨s, hs, h⟩ := Option.bind_eq_some_iff.mp (show (C.new k.1).bind _ = _ from h)
    obtain ⟨s', hs', h'⟩ := Option.bind_eq_some_iff.mp (show (C.new k.1).bind _ = _ from h')
    rw [hs] at hs'
    obtain rfl := Option.some.inj hs'
    have c := C99_contract C hC k.1 s hs
    obtain ⟨ct, t⟩ := r
    obtain ⟨ct', t'⟩ := r'
    have e := c.stream m m msg [] nonce data data b b' ct t ct' t' h (by rw [List.append_nil]; exact h')
    rw [← (c.lengths _ _ _ _ _ _ _ h').1, List.take_length] at e
    subst e
    have e := (c.unique m m ct nonce data t t' _ _ _ _ (c.roundtrip m _ _ _ _ _ _ h msg rfl) (c.roundtrip m _ _ _ _ _ _ h' msg rfl)).1
    rw [e]
  accept k ct nonce data t b out h := by
    obtain ⟨s, hs, h⟩ := Option.bind_eq_some_iff.mp (show (C.new k.1).bind _ = _ from h)
    show (C.new k.1).bind _ = _
    rw [hs]
    exact (C99_contract C hC k.1 s hs).accept m _ _ _ _ _ _ h

theorem strict_gcm (k : AesKind) (m : Mode) : Strict (aesGcm k m) := strict_aead _ (by cases k <;> simp [aeads, AesKind.code]) m _
theorem strict_chacha (m : Mode) : Strict (chachaPoly m) := strict_aead _ (by simp [aeads]) m _

/-! ## Without an attacker -/

/-- **The receiver gets the message.** For each two AEADs of the crate, all keys, nonces, data and messages within the limits, encryption with both layers works, the outer
ciphertext is 16 bytes longer than the message, and decryption gives the message. -/
theorem C159_round_trip (p p' : AeadCipher × Nat) (hp : p ∈ sessionAeads) (hp' : p' ∈ sessionAeads) (m : Mode) (key key' nonce data msg buffer : Bytes)
    (hk : key.length = p.2) (hk' : key'.length = p'.2) (hn : nonce.length = 12) (hd : data.length < 2 ^ 61) (hm : msg.length ≤ 2 ^ 36 - 80)
    (hb : buffer.length = msg.length + 16) :
    ∃ ct t, (layered (aeadScheme p.1 m) (aeadScheme p'.1 m)).enc (key, key') msg nonce data buffer = some (ct, t) ∧ ct.length = msg.length + 16 ∧ t.length = 16 ∧
      (layered (aeadScheme p.1 m) (aeadScheme p'.1 m)).dec (key, key') ct nonce data t buffer = some (msg, true) := by
  obtain ⟨s, hs⟩ := new_of_length p hp key hk
  obtain ⟨s', hs'⟩ := new_of_length p' hp' key' hk'
  have c := C99_contract p.1 (mem_aeads p hp) key s hs
  have c' := C99_contract p'.1 (mem_aeads p' hp') key' s' hs'
  obtain ⟨ct, t, h⟩ := aead_encrypts p.1 (mem_aeads p hp) key s hs msg nonce data (zeros msg.length) hn (by omega) hd (by simp)
  obtain ⟨l1, l2⟩ := c.lengths _ _ _ _ _ _ _ (h m)
  have hl : (ct ++ t).length = msg.length + 16 := by rw [List.length_append, l1, l2]
  obtain ⟨ct', t', h'⟩ := aead_encrypts p'.1 (mem_aeads p' hp') key' s' hs' (ct ++ t) nonce data buffer hn (by omega) hd (by omega)
  obtain ⟨l1', l2'⟩ := c'.lengths _ _ _ _ _ _ _ (h' m)
  refine ⟨ct', t', ?_, by omega, l2', ?_⟩
  · show (match (p.1.new key).bind fun s => p.1.encrypt m s msg nonce data (zeros msg.length) with
      | none => none
      | some (ct, t) => (p'.1.new key').bind fun s => p'.1.encrypt m s (ct ++ t) nonce data buffer) = _
    rw [hs, Option.bind_some, h m]
    dsimp only
    rw [hs', Option.bind_some, h' m]
  · have e : (aeadScheme p'.1 m).dec key' ct' nonce data t' buffer = some (ct ++ t, true) := by
      show (p'.1.new key').bind _ = _
      rw [hs', Option.bind_some]
      exact c'.roundtrip m _ _ _ _ _ _ (h' m) buffer (by omega)
    show peel (aeadScheme p.1 m) key nonce data buffer ((aeadScheme p'.1 m).dec key' ct' nonce data t' buffer) = _
    rw [e]
    unfold peel
    dsimp only
    have hi : (ct ++ t).length - 16 = ct.length := by omega
    rw [if_neg (by omega), hi, List.take_left, List.drop_left]
    have e2 : (aeadScheme p.1 m).dec key ct nonce data t (zeros ct.length) = some (msg, true) := by
      show (p.1.new key).bind _ = _
      rw [hs, Option.bind_some]
      exact c.roundtrip m _ _ _ _ _ _ (h m) _ (by rw [zeros, List.length_replicate, l1])
    rw [e2]

/-- **Only what encryption makes is accepted.** With whatever keys, nonce, data, ciphertext and tag: if decryption accepts, encrypting its result again gives this ciphertext and this tag. -/
theorem C159_accept (C C' : AeadCipher) (hC : C ∈ aeads) (hC' : C' ∈ aeads) (m : Mode) (key key' ct nonce data t buffer msg : Bytes)
    (h : (layered (aeadScheme C m) (aeadScheme C' m)).dec (key, key') ct nonce data t buffer = some (msg, true)) :
    (layered (aeadScheme C m) (aeadScheme C' m)).enc (key, key') msg nonce data buffer = some (ct, t) := by
  have s := strict_aead C hC m key.length
  have s' := strict_aead C' hC' m key'.length
  change peel (aeadScheme C m) key nonce data buffer ((aeadScheme C' m).dec key' ct nonce data t buffer) = some (msg, true) at h
  obtain ⟨out, ho⟩ := peel_true h
  rw [ho] at h
  unfold peel at h
  dsimp only at h
  split at h
  · cases h
  · split at h
    · cases h
    · cases h
    · rename_i hlen _ msg' hi
      obtain rfl : msg' = msg := congrArg Prod.fst (Option.some.inj h)
      have e := s.accept ⟨key, rfl⟩ _ _ _ _ _ _ hi
      have l := (s.lengths _ _ _ _ _ _ _ e).1
      rw [List.length_take] at l
      have e' := s'.accept ⟨key', rfl⟩ _ _ _ _ _ _ ho
      show (match (aeadScheme C m).enc key msg' nonce data (zeros msg'.length) with
        | none => none
        | some (ct, t) => (aeadScheme C' m).enc key' (ct ++ t) nonce data buffer) = _
      have l' : msg'.length = out.length - 16 := by omega
      rw [l', show (aeadScheme C m).enc key msg' nonce data (zeros (out.length - 16)) = _ from e]
      dsimp only
      rw [List.take_append_drop]
      exact e'

/-! ## Each layer protects -/

section
variable {K K' : Type} [Finite K] [Finite K'] [Nonempty K] [Nonempty K'] {S : Scheme K} {S' : Scheme K'} (hS : Strict S) (hS' : Strict S')
include hS hS'

theorem inner_forges (right : Bool) (A : Adversary) :
    ∃ k', prob (fun key => forges (layered S S') right key A []) ≤ prob (fun k => forges S right k (onInner S' k' A []) []) := by
  obtain ⟨k', h⟩ := exists_key_le fun key : K × K' => forges (layered S S') right key A []
  exact ⟨k', h.trans (prob_mono fun k => (onInner_both hS hS' right k k' A [] [] .nil).2)⟩

theorem outer_forges (right : Bool) (A : Adversary) :
    ∃ k, prob (fun key => forges (layered S S') right key A []) ≤ prob (fun k' => forges S' right k' (onOuter S k A) []) := by
  obtain ⟨k, h⟩ := exists_key_le fun x : K' × K => forges (layered S S') right (x.2, x.1) A []
  refine ⟨k, ?_⟩
  rw [swap_prob]
  exact h.trans (prob_mono fun k' => onOuter_forges hS S' right k k' A [])

theorem inner_tells (A : Adversary) :
    ∃ k', |prob (fun key => play (layered S S') false key A [] = true) - prob (fun key => play (layered S S') true key A [] = true)| ≤
      |prob (fun k => play S false k (onInner S' k' A []) [] = true) - prob (fun k => play S true k (onInner S' k' A []) [] = true)| := by
  obtain ⟨k', h⟩ := exists_key (fun key : K × K' => play (layered S S') false key A [] = true) (fun key : K × K' => play (layered S S') true key A [] = true)
  refine ⟨k', h.trans_eq ?_⟩
  simp only [(onInner_both hS hS' _ _ _ A [] [] .nil).1]

theorem outer_tells (A : Adversary) :
    ∃ k, |prob (fun key => play (layered S S') false key A [] = true) - prob (fun key => play (layered S S') true key A [] = true)| ≤
      |prob (fun k' => play S' false k' (onOuter S k A) [] = true) - prob (fun k' => play S' true k' (onOuter S k A) [] = true)| := by
  obtain ⟨k, h⟩ := exists_key (fun x : K' × K => play (layered S S') false (x.2, x.1) A [] = true) (fun x : K' × K => play (layered S S') true (x.2, x.1) A [] = true)
  refine ⟨k, ?_⟩
  rw [swap_prob (fun key : K × K' => play (layered S S') false key A [] = true), swap_prob (fun key : K × K' => play (layered S S') true key A [] = true)]
  refine h.trans_eq ?_
  simp only [onOuter_play hS S' _ _ _ A []]

end

theorem authCount_mono (d l l' : Nat) (h : l ≤ l') : authCount d l ≤ authCount d l' := by unfold authCount; omega
theorem gcmCost_mono (l l' : Nat) (h : l ≤ l') : gcmCost l ≤ gcmCost l' := by unfold gcmCost; omega

theorem within_short {n : Nat} {A : Adversary} {a : Nat} (h : Within (fun d l => authCount d (l + 16)) n A a) : Within authCount n A a := by
  induction A generalizing a with
  | stop g => trivial
  | encrypt nonce data msg msg' buffer next ih => exact ⟨(authCount_mono _ _ _ (by omega)).trans h.1, fun r => ih r (h.2 r)⟩
  | decrypt nonce data ct t buffer next ih =>
    obtain ⟨h1, b, rfl, h2⟩ := h
    exact ⟨(authCount_mono _ _ _ (by omega)).trans h1, b, rfl, fun r => ih r (h2 r)⟩

instance aesKeyNonempty (k : AesKind) : Nonempty (AesKey k) := ⟨⟨zeros (4 * k.Nk), by simp⟩⟩

variable (k : AesKind) (m : Mode) (A : Adversary) (a n s : Nat) (hn : n ≤ 2 ^ 32 - 3) (hA : Within (fun d l => authCount d (l + 16)) n A a)
include hn hA

/-- **Forging AES-GCM inside ChaCha20-Poly1305.** The keys are uniformly random and independent. The attack has `a` decryption attempts, calls of at most `n` blocks each (with the
16 additional bytes), and makes `s` applications of AES necessary. Its chance is bounded twice: by how well AES can be told from a random permutation, whatever ChaCha20 is, and by how well
the ChaCha20 block function can be told from a random one, whatever AES is. The distinguishers know the key of the other layer. -/
theorem C159_aes_in_chacha_forgery (hs : Costs gcmCost A s) (right : Bool) :
    (∃ key', prob (fun key => forges (layered (aesGcm k m) (chachaPoly m)) right key A []) ≤
      aesAdvantage k (aesFromForger m right (onInner (chachaPoly m) key' A [])) + a * n / 2 ^ 128 + s * (s - 1) / 2 ^ 129) ∧
    (∃ key, prob (fun key => forges (layered (aesGcm k m) (chachaPoly m)) right key A []) ≤
      chachaAdvantage (chachaFromForger m right (onOuter (aesGcm k m) key A)) + a * (1480 * n) / 2 ^ 106) := by
  obtain ⟨k', h1⟩ := inner_forges (strict_gcm k m) (strict_chacha m) right A
  obtain ⟨k'', h2⟩ := outer_forges (strict_gcm k m) (strict_chacha m) right A
  exact ⟨⟨k', h1.trans (C120_gcm_forgery k m _ a n s hn (onInner_within (strict_chacha m) k' authCount_mono A [] (within_short hA))
      (onInner_costs (strict_chacha m) k' gcmCost_mono A [] hs) right)⟩,
    ⟨k'', h2.trans (C120_ccp_forgery m _ a n (by omega) (onOuter_within (strict_gcm k m) k'' authCount_mono A hA) right)⟩⟩

/-- **Reading AES-GCM inside ChaCha20-Poly1305**, with the same double bound. -/
theorem C159_aes_in_chacha_confidentiality (hs : Costs gcmCost A s) :
    (∃ key', |prob (fun key => play (layered (aesGcm k m) (chachaPoly m)) false key A [] = true) -
        prob (fun key => play (layered (aesGcm k m) (chachaPoly m)) true key A [] = true)| ≤
      aesAdvantage k (aesFromGuesser m false (onInner (chachaPoly m) key' A [])) + aesAdvantage k (aesFromGuesser m true (onInner (chachaPoly m) key' A [])) +
      2 * (a * n / 2 ^ 128) + s * (s - 1) / 2 ^ 128) ∧
    (∃ key, |prob (fun key => play (layered (aesGcm k m) (chachaPoly m)) false key A [] = true) -
        prob (fun key => play (layered (aesGcm k m) (chachaPoly m)) true key A [] = true)| ≤
      chachaAdvantage (chachaFromGuesser m false (onOuter (aesGcm k m) key A)) + chachaAdvantage (chachaFromGuesser m true (onOuter (aesGcm k m) key A)) +
      2 * (a * (1480 * n) / 2 ^ 106)) := by
  obtain ⟨k', h1⟩ := inner_tells (strict_gcm k m) (strict_chacha m) A
  obtain ⟨k'', h2⟩ := outer_tells (strict_gcm k m) (strict_chacha m) A
  exact ⟨⟨k', h1.trans (C120_gcm_confidentiality k m _ a n s hn (onInner_within (strict_chacha m) k' authCount_mono A [] (within_short hA))
      (onInner_costs (strict_chacha m) k' gcmCost_mono A [] hs))⟩,
    ⟨k'', h2.trans (C120_ccp_confidentiality m _ a n (by omega) (onOuter_within (strict_gcm k m) k'' authCount_mono A hA))⟩⟩

/-- **Forging ChaCha20-Poly1305 inside AES-GCM.** -/
theorem C159_chacha_in_aes_forgery (hs : Costs (fun l => gcmCost (l + 16)) A s) (right : Bool) :
    (∃ key', prob (fun key => forges (layered (chachaPoly m) (aesGcm k m)) right key A []) ≤
      chachaAdvantage (chachaFromForger m right (onInner (aesGcm k m) key' A [])) + a * (1480 * n) / 2 ^ 106) ∧
    (∃ key, prob (fun key => forges (layered (chachaPoly m) (aesGcm k m)) right key A []) ≤
      aesAdvantage k (aesFromForger m right (onOuter (chachaPoly m) key A)) + a * n / 2 ^ 128 + s * (s - 1) / 2 ^ 129) := by
  obtain ⟨k', h1⟩ := inner_forges (strict_chacha m) (strict_gcm k m) right A
  obtain ⟨k'', h2⟩ := outer_forges (strict_chacha m) (strict_gcm k m) right A
  exact ⟨⟨k', h1.trans (C120_ccp_forgery m _ a n (by omega) (onInner_within (strict_gcm k m) k' authCount_mono A [] (within_short hA)) right)⟩,
    ⟨k'', h2.trans (C120_gcm_forgery k m _ a n s hn (onOuter_within (strict_chacha m) k'' authCount_mono A hA)
      (onOuter_costs (strict_chacha m) k'' gcmCost_mono A hs) right)⟩⟩

/-- **Reading ChaCha20-Poly1305 inside AES-GCM.** -/
theorem C159_chacha_in_aes_confidentiality (hs : Costs (fun l => gcmCost (l + 16)) A s) :
    (∃ key', |prob (fun key => play (layered (chachaPoly m) (aesGcm k m)) false key A [] = true) -
        prob (fun key => play (layered (chachaPoly m) (aesGcm k m)) true key A [] = true)| ≤
      chachaAdvantage (chachaFromGuesser m false (onInner (aesGcm k m) key' A [])) + chachaAdvantage (chachaFromGuesser m true (onInner (aesGcm k m) key' A [])) +
      2 * (a * (1480 * n) / 2 ^ 106)) ∧
    (∃ key, |prob (fun key => play (layered (chachaPoly m) (aesGcm k m)) false key A [] = true) -
        prob (fun key => play (layered (chachaPoly m) (aesGcm k m)) true key A [] = true)| ≤
      aesAdvantage k (aesFromGuesser m false (onOuter (chachaPoly m) key A)) + aesAdvantage k (aesFromGuesser m true (onOuter (chachaPoly m) key A)) +
      2 * (a * n / 2 ^ 128) + s * (s - 1) / 2 ^ 128) := by
  obtain ⟨k', h1⟩ := inner_tells (strict_chacha m) (strict_gcm k m) A
  obtain ⟨k'', h2⟩ := outer_tells (strict_chacha m) (strict_gcm k m) A
  exact ⟨⟨k', h1.trans (C120_ccp_confidentiality m _ a n (by omega) (onInner_within (strict_gcm k m) k' authCount_mono A [] (within_short hA)))⟩,
    ⟨k'', h2.trans (C120_gcm_confidentiality k m _ a n s hn (onOuter_within (strict_chacha m) k'' authCount_mono A hA)
      (onOuter_costs (strict_chacha m) k'' gcmCost_mono A hs))⟩⟩

omit hn hA

/-! ## A concrete case -/

/-- The attacker has a message of 4 bytes encrypted, and presents the ciphertext with its last bit changed. -/
def flipLayered : Adversary :=
  .encrypt (zeros 12) [1] [0, 0, 0, 0] [1, 1, 1, 1] (zeros 20) fun r => match r with
    | none => .stop false
    | some (ct, t) => .decrypt (zeros 12) [1] (xorBytes (ct.take 20) (zeros 19 ++ [1])) t (zeros 20) fun r => .stop (r.isSome && (r.map Prod.snd == some true))

theorem flipLayered_within : Within (fun d l => authCount d (l + 16)) 5 flipLayered 1 := by
  refine ⟨by decide, fun r => ?_⟩
  match r with
  | none => trivial
  | some (ct, t) =>
    refine ⟨?_, 0, rfl, fun _ => trivial⟩
    have h : (xorBytes (ct.take 20) (zeros 19 ++ [1])).length ≤ 20 := by simp
    show (1 + 15) / 16 + (_ + 16 + 15) / 16 + 1 ≤ 5
    omega

theorem flipLayered_costs : Costs gcmCost flipLayered 7 ∧ Costs (fun l => gcmCost (l + 16)) flipLayered 9 := by
  constructor
  · refine ⟨4, by decide, fun r => ?_⟩
    match r with
    | none => trivial
    | some (ct, t) =>
      have h : (xorBytes (ct.take 20) (zeros 19 ++ [1])).length ≤ 20 := by simp
      refine ⟨4 - gcmCost (xorBytes (ct.take 20) (zeros 19 ++ [1])).length, ?_, fun _ => trivial⟩
      unfold gcmCost
      omega
  · refine ⟨5, by decide, fun r => ?_⟩
    match r with
    | none => trivial
    | some (ct, t) =>
      have h : (xorBytes (ct.take 20) (zeros 19 ++ [1])).length ≤ 20 := by simp
      refine ⟨5 - gcmCost ((xorBytes (ct.take 20) (zeros 19 ++ [1])).length + 16), ?_, fun _ => trivial⟩
      dsimp only
      unfold gcmCost
      omega

/-- Its chance, when AES is excellent and nothing is known about ChaCha20. -/
example (ε : ℚ) (h : ∀ D : Distinguisher (BitVec 128) (BitVec 128), D.Asks 7 → aesAdvantage .aes256 D ≤ ε) :
    prob (fun key => forges (layered (aesGcm .aes256 .debug) (chachaPoly .debug)) true key flipLayered []) ≤ ε + 1 / 2 ^ 122 := by
  obtain ⟨⟨key', h1⟩, -⟩ := C159_aes_in_chacha_forgery .aes256 .debug flipLayered 1 5 7 (by norm_num) flipLayered_within flipLayered_costs.1 true
  have h2 := h _ (C120_gcm_distinguisher .debug _ 7 (onInner_costs (strict_chacha .debug) key' gcmCost_mono flipLayered [] flipLayered_costs.1) true).1
  refine h1.trans ?_
  norm_num at h2 ⊢
  linarith

/-- And when the ChaCha20 block function is excellent and nothing is known about AES. -/
example (ε : ℚ) (h : ∀ D, chachaAdvantage D ≤ ε) :
    prob (fun key => forges (layered (aesGcm .aes128 .release) (chachaPoly .release)) false key flipLayered []) ≤ ε + 1 / 2 ^ 93 := by
  obtain ⟨-, ⟨key, h1⟩⟩ := C159_aes_in_chacha_forgery .aes128 .release flipLayered 1 5 7 (by norm_num) flipLayered_within flipLayered_costs.1 false
  refine h1.trans ?_
  have h2 := h (chachaFromForger .release false (onOuter (aesGcm .aes128 .release) key flipLayered))
  norm_num at h2 ⊢
  linarith

/-- In the game the message is encrypted, whatever the keys. -/
example (key : AesKey .aes256) (key' : ChaChaKey) : ∃ ct t, (layered (aesGcm .aes256 .debug) (chachaPoly .debug)).enc (key, key') [1, 1, 1, 1] (zeros 12) [1] (zeros 20) = some (ct, t) ∧
    ct.length = 20 ∧ (layered (aesGcm .aes256 .debug) (chachaPoly .debug)).dec (key, key') ct (zeros 12) [1] t (zeros 20) = some ([1, 1, 1, 1], true) := by
  obtain ⟨ct, t, h1, h2, -, h3⟩ := C159_round_trip (gcmAead Aes.Aes256, 32) (ccpAead, 32) (by simp [sessionAeads]) (by simp [sessionAeads]) .debug key.1 key'.1 (zeros 12) [1] [1, 1, 1, 1] (zeros 20)
    key.2 key'.2 (by simp) (by simp) (by simp) (by simp)
  exact ⟨ct, t, h1, h2, h3⟩

end CryptoPure.Props.Layers
