import Verif.Props.SessionKeys
import Verif.Props.ChaChaPerm
import Verif.Props.Session
import Verif.Props.Collision
import Verif.Props.GcmMisuse
import Verif.Props.CcpCommit

/-! # C143: encryption that commits to the key

Neither AEAD of the crate commits to its key (C78, C118). An application that needs this derives two values from its key with `hkdf::expand`: a commitment, which it sends
along, and the key of the AEAD. -/

namespace CryptoPure.Props
open CryptoPure.Model Spec.Sha2 Proofs Proofs.HmacSha Proofs.HmacPrf HmacTests Distinguisher Game

/-- The sender: derive the commitment under the context `info 0` and the key of the AEAD under `info 1`, and encrypt. -/
def sealCommitted (A : AeadCipher) (keyLen : Nat) (v : Variant) (m : Mode) (info : Fin 2 → Bytes) (key nonce data msg : Bytes) : Option (Bytes × Bytes × Bytes) := do
  let com ← Hkdf.expand v.code m key (info 0) (zeros v.size)
  let k ← Hkdf.expand v.code m key (info 1) (zeros keyLen)
  let st ← A.new k
  let (ct, t) ← A.encrypt m st msg nonce data (zeros msg.length)
  some (com, ct, t)

/-- The receiver: derive the commitment, compare, derive the key of the AEAD, decrypt. `some none` is a rejection, `none` a panic. -/
def openCommitted (A : AeadCipher) (keyLen : Nat) (v : Variant) (m : Mode) (info : Fin 2 → Bytes) (key nonce data com ct t : Bytes) : Option (Option Bytes) := do
  let com' ← Hkdf.expand v.code m key (info 0) (zeros v.size)
  if com' = com then do
    let k ← Hkdf.expand v.code m key (info 1) (zeros keyLen)
    let st ← A.new k
    let (out, ok) ← A.decrypt m st ct nonce data t (zeros ct.length)
    some (if ok then some out else none)
  else some none

theorem expand_short (v : Variant) (key info : Bytes) (n : Nat) (hn : n ≤ 64) (hs : v.size ≤ key.length) (hk : key.length < 2 ^ 61) (hi : info.length < 2 ^ 60) :
    ∃ out : Bytes, out.length = n ∧ ∀ m, Hkdf.expand v.code m key info (zeros n) = some out := by
  have hs2 : 28 ≤ v.size := by cases v <;> decide
  have hexp : ∀ m, Hkdf.expand v.code m key info (zeros n) = some (Spec.hkdfExpand v.fips v.block key info n) := by
    intro m
    have hne : Hkdf.expand v.code m key info (zeros n) ≠ none := by
      cases m
      · rw [Ne, C13_expand_debug_panics v key info _ hk hi]
        simp only [zeros_length]
        omega
      · rw [C11_expand_release v key info _ hk hi, if_pos (by simp only [zeros_length]; omega)]
        simp
    obtain ⟨out, ho⟩ := Option.ne_none_iff_exists'.mp hne
    obtain ⟨e, -⟩ := C11_expand_rfc5869 v m key info _ out hk hi ho
    rw [ho, e, zeros_length]
  refine ⟨_, ?_, hexp⟩
  obtain ⟨e, hl⟩ := C11_expand_rfc5869 v .release key info _ _ hk hi (hexp .release)
  rw [hl, zeros_length]

/-- **Nothing panics and the receiver gets the message**, in whatever builds the two run. -/
theorem C143_round_trip (p : AeadCipher × Nat) (hp : p ∈ sessionAeads) (v : Variant) (m m' : Mode) (info : Fin 2 → Bytes) (key nonce data msg : Bytes)
    (hs : v.size ≤ key.length) (hk : key.length < 2 ^ 61) (hi : ∀ i, (info i).length < 2 ^ 60) (hn : nonce.length = 12) (hd : data.length < 2 ^ 61) (hm : msg.length ≤ 2 ^ 36 - 64) :
    ∃ com ct t, sealCommitted p.1 p.2 v m info key nonce data msg = some (com, ct, t) ∧ com.length = v.size ∧ ct.length = msg.length ∧ t.length = 16 ∧
      openCommitted p.1 p.2 v m' info key nonce data com ct t = some (some msg) := by
  have hp2 : p.2 ≤ 64 := by
    simp only [sessionAeads, List.mem_cons, List.not_mem_nil, or_false] at hp
    rcases hp with rfl | rfl | rfl | rfl <;> simp
  obtain ⟨com, hcl, hcom⟩ := expand_short v key (info 0) v.size (by cases v <;> decide) hs hk (hi 0)
  obtain ⟨k, hkl, hkk⟩ := expand_short v key (info 1) p.2 hp2 hs hk (hi 1)
  obtain ⟨st, hst⟩ := new_of_length p hp k hkl
  obtain ⟨ct, t, henc⟩ := aead_encrypts p.1 (mem_aeads p hp) k st hst msg nonce data (zeros msg.length) hn hm hd (by simp)
  have C := C99_contract p.1 (mem_aeads p hp) k st hst
  obtain ⟨hl1, hl2⟩ := C.lengths _ _ _ _ _ _ _ (henc m)
  refine ⟨com, ct, t, ?_, hcl, hl1, hl2, ?_⟩
  · unfold sealCommitted
    simp only [Option.bind_eq_bind, hcom, hkk, hst, henc, Option.bind_some]
  · unfold openCommitted
    simp only [Option.bind_eq_bind, hcom, hkk, hst, Option.bind_some, if_true]
    rw [C.roundtrip m' msg nonce data _ ct t (henc m') (zeros ct.length) (by simp [hl1])]
    simp

theorem opened {A : AeadCipher} {keyLen : Nat} {v : Variant} {m : Mode} {info : Fin 2 → Bytes} {key nonce data com ct t msg : Bytes}
    (h : openCommitted A keyLen v m info key nonce data com ct t = some (some msg)) :
    Hkdf.expand v.code m key (info 0) (zeros v.size) = some com ∧
    ∃ k st, Hkdf.expand v.code m key (info 1) (zeros keyLen) = some k ∧ A.new k = some st ∧ A.decrypt m st ct nonce data t (zeros ct.length) = some (msg, true) := by
  unfold openCommitted at h
  simp only [Option.bind_eq_bind, Option.bind_eq_some_iff] at h
  obtain ⟨com', h1, h2⟩ := h
  by_cases hc : com' = com
  · rw [if_pos hc] at h2
    simp only [Option.bind_eq_some_iff] at h2
    obtain ⟨k, hk, st, hst, ⟨out, ok⟩, hdec, h3⟩ := h2
    rw [hc] at h1
    refine ⟨h1, k, st, hk, hst, ?_⟩
    cases ok with
    | false => cases h3
    | true =>
      simp only [if_true, Option.some.injEq] at h3
      rw [hdec, h3]
  · rw [if_neg hc] at h2
    cases h2

theorem first_digest (v : Variant) (m : Mode) (key info out : Bytes) (hk : key.length < 2 ^ 61) (hi : info.length < 2 ^ 60)
    (h : Hkdf.expand v.code m key info (zeros v.size) = some out) : Hmac.wrapper v.code m key (info ++ [1]) = some out := by
  have hb : v.block ≤ 128 := by cases v <;> decide
  rw [C06_hmac_rfc2104 v m key _ hk (by rw [List.length_append, List.length_singleton]; omega), (C11_expand_rfc5869 v m key info _ out hk hi h).1, zeros_length]
  congr 1
  unfold Spec.hkdfExpand
  rw [show List.range 255 = List.range (254 + 1) from rfl, List.range_succ_eq_map, List.flatMap_cons,
    List.take_append_of_le_length (by
      rw [← v.blockSize_eq, Proofs.hkdfT_length key info v.lawful _ (Nat.succ_pos _), v.digestSize_eq])]
  refine (List.take_of_length_le ?_).symm
  have := Proofs.hkdfT_length key info v.lawful 1 Nat.one_pos
  rw [v.blockSize_eq, v.digestSize_eq] at this
  exact this.le

/-- **A ciphertext belongs to one key.** When ciphertexts with the same commitment are accepted under two keys of one length, at most a block of the hash - with whatever
AEADs, nonces, data, ciphertexts and tags - then the keys are the same, or the texts that HMAC hashes under the two keys are a collision of the hash. -/
theorem C143_commits (A A' : AeadCipher) (l l' : Nat) (v : Variant) (m m' : Mode) (info : Fin 2 → Bytes) (key key' nonce nonce' data data' com ct ct' t t' msg msg' : Bytes)
    (hl : key.length = key'.length) (hb : key.length ≤ v.block) (hi : (info 0).length < 2 ^ 60)
    (h : openCommitted A l v m info key nonce data com ct t = some (some msg))
    (h' : openCommitted A' l' v m' info key' nonce' data' com ct' t' = some (some msg')) :
    key = key' ∨
    HashCollision v (innerInput v key (info 0 ++ [1])) (innerInput v key' (info 0 ++ [1])) ∨
    HashCollision v (outerInput v key (info 0 ++ [1])) (outerInput v key' (info 0 ++ [1])) := by
  have hvb : v.block ≤ 128 := by cases v <;> decide
  have e1 := first_digest v m key (info 0) com (by omega) hi (opened h).1
  have e2 := first_digest v m' key' (info 0) com (by omega) hi (opened h').1
  have hlen : v.block + (info 0 ++ [1]).length < 2 ^ 61 := by rw [List.length_append, List.length_singleton]; omega
  refine (C64_hmac_collision v m m' key _ key' _ com (by omega) (by omega) hlen hlen e1 e2).imp_left fun e => ?_
  have e := e.1
  unfold Spec.hmacKey at e
  rw [if_neg (by omega), if_neg (by omega)] at e
  exact (List.append_inj e hl).1

/-- **So a ciphertext has one meaning**: with the same AEAD, nonce and data, and whatever the builds, two keys that open it give the same message, unless a collision of
the hash is exposed. -/
theorem C143_one_message (p : AeadCipher × Nat) (hp : p ∈ sessionAeads) (v : Variant) (m m' : Mode) (info : Fin 2 → Bytes) (key key' nonce data com ct t msg msg' : Bytes)
    (hl : key.length = key'.length) (hb : key.length ≤ v.block) (hi : ∀ i, (info i).length < 2 ^ 60)
    (h : openCommitted p.1 p.2 v m info key nonce data com ct t = some (some msg))
    (h' : openCommitted p.1 p.2 v m' info key' nonce data com ct t = some (some msg')) :
    (key = key' ∧ msg = msg') ∨
    HashCollision v (innerInput v key (info 0 ++ [1])) (innerInput v key' (info 0 ++ [1])) ∨
    HashCollision v (outerInput v key (info 0 ++ [1])) (outerInput v key' (info 0 ++ [1])) := by
  refine (C143_commits p.1 p.1 p.2 p.2 v m m' info key key' nonce nonce data data com ct ct t t msg msg' hl hb (hi 0) h h').imp_left fun e => ⟨e, ?_⟩
  subst e
  have hvb : v.block ≤ 128 := by cases v <;> decide
  obtain ⟨-, k, st, hk, hst, hdec⟩ := opened h
  obtain ⟨-, k', st', hk', hst', hdec'⟩ := opened h'
  obtain rfl : k = k' := by
    rw [(C11_expand_rfc5869 v m key (info 1) _ k (by omega) (hi 1) hk).1, (C11_expand_rfc5869 v m' key (info 1) _ k' (by omega) (hi 1) hk').1]
  obtain rfl : st = st' := Option.some.inj (hst.symm.trans hst')
  have C := C99_contract p.1 (mem_aeads p hp) k st hst
  exact (C.unique m m' ct nonce data t t _ _ msg msg' hdec hdec').2

/-! ## The commitment does not help an attacker -/

theorem pair_close {len : Nat} (v : Variant) (m : Mode) (kl I : Nat) (h1 : v.size ≤ kl) (h2 : kl ≤ v.block)
    (hI : v.block + (v.size + I + 1) < 2 ^ 61) (hlen : 0 < len) (hL : len ≤ v.size) (info : Fin 2 → Bytes)
    (hne : info 0 ≠ info 1) (hi : ∀ i, (info i).length ≤ I) (P : {k : Bytes // k.length = len} → {k : Bytes // k.length = len} → Prop)
    (δ : ℚ) (hδ0 : 0 ≤ δ)
    (hδ : ∀ M M' : Bytes, M.length ≤ v.size + I + 1 → M'.length ≤ v.size + I + 1 → M ≠ M' → innerCollision v M M' ≤ δ) :
    |prob (fun key : {k : Bytes // k.length = kl} => ∃ com k : {k : Bytes // k.length = len}, Hkdf.expand v.code m key.1 (info 0) (zeros len) = some com.1 ∧
      Hkdf.expand v.code m key.1 (info 1) (zeros len) = some k.1 ∧ P com k) -
      prob (fun q : {k : Bytes // k.length = len} × {k : Bytes // k.length = len} => P q.2 q.1)| ≤
      keysAdvantage v kl info (fun keys : Fin 2 → {k : Bytes // k.length = len} => P (keys 0) (keys 1)) + δ := by
  have hinj : Function.Injective info := by
    intro i j e
    match i, j with
    | 0, 0 => rfl
    | 1, 1 => rfl
    | 0, 1 => exact absurd e hne
    | 1, 0 => exact absurd e.symm hne
  have hs : 28 ≤ v.size := by cases v <;> decide
  have h := C124_session_keys v m kl I h1 h2 hI (by omega) (fun _ => by omega) info hinj hi (fun keys => P (keys 0) (keys 1)) δ hδ0 hδ 2
    (by rw [show (len + v.size - 1) / v.size = 1 from by
          rw [Nat.div_eq_iff (by omega)]; omega])
  have e4 : ((2 : Nat) : ℚ) * ((2 : Nat) - 1) / 2 * δ = δ := by push_cast; ring
  rw [e4] at h
  have e1 : prob (fun prk : {k : Bytes // k.length = kl} => ∃ keys : Fin 2 → {k : Bytes // k.length = len}, Derived v m prk.1 info keys ∧ P (keys 0) (keys 1)) =
      prob (fun key : {k : Bytes // k.length = kl} => ∃ com k : {k : Bytes // k.length = len}, Hkdf.expand v.code m key.1 (info 0) (zeros len) = some com.1 ∧
        Hkdf.expand v.code m key.1 (info 1) (zeros len) = some k.1 ∧ P com k) := by
    refine hmac_prob_congr fun key => ⟨?_, ?_⟩
    · rintro ⟨keys, hd, hP⟩
      exact ⟨keys 0, keys 1, hd 0, hd 1, hP⟩
    · rintro ⟨com, k, h0, h1, hP⟩
      refine ⟨![com, k], fun i => ?_, hP⟩
      match i with
      | 0 => exact h0
      | 1 => exact h1
  have e2 : prob (fun keys : Fin 2 → {k : Bytes // k.length = len} => P (keys 0) (keys 1)) =
      prob (fun q : {k : Bytes // k.length = len} × {k : Bytes // k.length = len} => P q.2 q.1) := by
    rw [← prob_equiv ((Equiv.prodComm _ _).trans (finTwoArrowEquiv {k : Bytes // k.length = len}).symm)]
    rfl
  rw [e1, e2] at h
  exact h

variable (m : Mode) (info : Fin 2 → Bytes) (I : Nat) (δ : ℚ)

/-- **Forging with the commitment in hand.** The key is uniform. The attacker is given the commitment, and then makes encryptions and decryptions with ChaCha20-Poly1305 of the
crate under the derived key. It forges with at most: the advantages of C124 for a test that looks at both derived values, the probability `δ` that two texts collide in the
inner hash, and the bound of C120 for a random key. -/
theorem C143_chacha_forgery (hne : info 0 ≠ info 1) (hI : 64 + (32 + I + 1) < 2 ^ 61)
    (hi : ∀ i, (info i).length ≤ I) (hδ0 : 0 ≤ δ)
    (hδ : ∀ M M' : Bytes, M.length ≤ 32 + I + 1 → M'.length ≤ 32 + I + 1 → M ≠ M' → innerCollision .sha256 M M' ≤ δ)
    (A : ChaChaKey → Adversary) (a b : Nat) (hb : b ≤ 2 ^ 34 - 16) (hA : ∀ com, Within authCount b (A com) a) (right : Bool) (ε : ℚ)
    (hε : ∀ com, chachaAdvantage (chachaFromForger m right (A com)) ≤ ε) :
    prob (fun key : {k : Bytes // k.length = 32} => ∃ com k : ChaChaKey, Hkdf.expand Variant.sha256.code m key.1 (info 0) (zeros 32) = some com.1 ∧
      Hkdf.expand Variant.sha256.code m key.1 (info 1) (zeros 32) = some k.1 ∧ forges (chachaPoly m) right k (A com) []) ≤
      keysAdvantage .sha256 32 info (fun keys : Fin 2 → ChaChaKey => forges (chachaPoly m) right (keys 1) (A (keys 0)) []) + δ +
        (ε + a * (1480 * b) / 2 ^ 106) := by
  refine event_le (pair_close (len := 32) .sha256 m 32 I (by decide) (by decide) hI (by decide) (by decide) info hne hi
    (fun com k => forges (chachaPoly m) right k (A com) []) δ hδ0 hδ) ?_
  refine prob_prod_le (α := ChaChaKey) (β := ChaChaKey) (fun q => forges (chachaPoly m) right q.1 (A q.2) []) _ fun com => ?_
  have := C120_ccp_forgery m (A com) a b hb (hA com) right
  have := hε com
  linarith

/-- **Reading with the commitment in hand.** Such an attacker tells the first messages of its pairs from the second ones with at most twice that. -/
theorem C143_chacha_confidentiality (hne : info 0 ≠ info 1) (hI : 64 + (32 + I + 1) < 2 ^ 61)
    (hi : ∀ i, (info i).length ≤ I) (hδ0 : 0 ≤ δ)
    (hδ : ∀ M M' : Bytes, M.length ≤ 32 + I + 1 → M'.length ≤ 32 + I + 1 → M ≠ M' → innerCollision .sha256 M M' ≤ δ)
    (A : ChaChaKey → Adversary) (a b : Nat) (hb : b ≤ 2 ^ 34 - 16) (hA : ∀ com, Within authCount b (A com) a) (ε : ℚ)
    (hε : ∀ com, chachaAdvantage (chachaFromGuesser m false (A com)) + chachaAdvantage (chachaFromGuesser m true (A com)) ≤ ε) :
    |prob (fun key : {k : Bytes // k.length = 32} => ∃ com k : ChaChaKey, Hkdf.expand Variant.sha256.code m key.1 (info 0) (zeros 32) = some com.1 ∧
      Hkdf.expand Variant.sha256.code m key.1 (info 1) (zeros 32) = some k.1 ∧ play (chachaPoly m) false k (A com) [] = true) -
     prob (fun key : {k : Bytes // k.length = 32} => ∃ com k : ChaChaKey, Hkdf.expand Variant.sha256.code m key.1 (info 0) (zeros 32) = some com.1 ∧
      Hkdf.expand Variant.sha256.code m key.1 (info 1) (zeros 32) = some k.1 ∧ play (chachaPoly m) true k (A com) [] = true)| ≤
      (keysAdvantage .sha256 32 info (fun keys : Fin 2 → ChaChaKey => play (chachaPoly m) false (keys 1) (A (keys 0)) [] = true) + δ) +
      (keysAdvantage .sha256 32 info (fun keys : Fin 2 → ChaChaKey => play (chachaPoly m) true (keys 1) (A (keys 0)) [] = true) + δ) +
        (ε + 2 * (a * (1480 * b) / 2 ^ 106)) := by
  have h := fun right => pair_close (len := 32) .sha256 m 32 I (by decide) (by decide) hI (by decide) (by decide) info hne hi
    (fun com k => play (chachaPoly m) right k (A com) [] = true) δ hδ0 hδ
  refine events_le (h false) (h true) ?_
  refine prob_prod_close (α := ChaChaKey) (β := ChaChaKey) (fun q => play (chachaPoly m) false q.1 (A q.2) [] = true)
    (fun q => play (chachaPoly m) true q.1 (A q.2) [] = true) _ fun com => ?_
  have := C120_ccp_confidentiality m (A com) a b hb (hA com)
  have := hε com
  linarith

/-- **The same with AES-256-GCM of the crate**, for attacks that make the code encrypt `s` blocks. -/
theorem C143_aes_forgery (hne : info 0 ≠ info 1) (hI : 64 + (32 + I + 1) < 2 ^ 61)
    (hi : ∀ i, (info i).length ≤ I) (hδ0 : 0 ≤ δ)
    (hδ : ∀ M M' : Bytes, M.length ≤ 32 + I + 1 → M'.length ≤ 32 + I + 1 → M ≠ M' → innerCollision .sha256 M M' ≤ δ)
    (A : AesKey .aes256 → Adversary) (a b s : Nat) (hb : b ≤ 2 ^ 32 - 3) (hA : ∀ com, Within authCount b (A com) a)
    (hs : ∀ com, Costs gcmCost (A com) s) (right : Bool) (ε : ℚ) (hε : ∀ com, aesAdvantage .aes256 (aesFromForger m right (A com)) ≤ ε) :
    prob (fun key : {k : Bytes // k.length = 32} => ∃ com k : AesKey .aes256, Hkdf.expand Variant.sha256.code m key.1 (info 0) (zeros 32) = some com.1 ∧
      Hkdf.expand Variant.sha256.code m key.1 (info 1) (zeros 32) = some k.1 ∧ forges (aesGcm .aes256 m) right k (A com) []) ≤
      keysAdvantage .sha256 32 info (fun keys : Fin 2 → AesKey .aes256 => forges (aesGcm .aes256 m) right (keys 1) (A (keys 0)) []) + δ +
        (ε + a * b / 2 ^ 128 + s * (s - 1) / 2 ^ 129) := by
  refine event_le (pair_close (len := 32) .sha256 m 32 I (by decide) (by decide) hI (by decide) (by decide) info hne hi
    (fun com k => forges (aesGcm .aes256 m) right k (A com) []) δ hδ0 hδ) ?_
  have : Nonempty (AesKey .aes256) := ⟨⟨zeros 32, by decide⟩⟩
  have : Finite (AesKey .aes256) := (inferInstance : Finite ChaChaKey)
  refine prob_prod_le (α := AesKey .aes256) (β := AesKey .aes256) (fun q => forges (aesGcm .aes256 m) right q.1 (A q.2) []) _ fun com => ?_
  have := C120_gcm_forgery .aes256 m (A com) a b s hb (hA com) (hs com) right
  have := hε com
  linarith

/-- **The same with AES-256-GCM of the crate.** -/
theorem C143_aes_confidentiality (hne : info 0 ≠ info 1) (hI : 64 + (32 + I + 1) < 2 ^ 61)
    (hi : ∀ i, (info i).length ≤ I) (hδ0 : 0 ≤ δ)
    (hδ : ∀ M M' : Bytes, M.length ≤ 32 + I + 1 → M'.length ≤ 32 + I + 1 → M ≠ M' → innerCollision .sha256 M M' ≤ δ)
    (A : AesKey .aes256 → Adversary) (a b s : Nat) (hb : b ≤ 2 ^ 32 - 3) (hA : ∀ com, Within authCount b (A com) a)
    (hs : ∀ com, Costs gcmCost (A com) s) (ε : ℚ)
    (hε : ∀ com, aesAdvantage .aes256 (aesFromGuesser m false (A com)) + aesAdvantage .aes256 (aesFromGuesser m true (A com)) ≤ ε) :
    |prob (fun key : {k : Bytes // k.length = 32} => ∃ com k : AesKey .aes256, Hkdf.expand Variant.sha256.code m key.1 (info 0) (zeros 32) = some com.1 ∧
      Hkdf.expand Variant.sha256.code m key.1 (info 1) (zeros 32) = some k.1 ∧ play (aesGcm .aes256 m) false k (A com) [] = true) -
     prob (fun key : {k : Bytes // k.length = 32} => ∃ com k : AesKey .aes256, Hkdf.expand Variant.sha256.code m key.1 (info 0) (zeros 32) = some com.1 ∧
      Hkdf.expand Variant.sha256.code m key.1 (info 1) (zeros 32) = some k.1 ∧ play (aesGcm .aes256 m) true k (A com) [] = true)| ≤
      (keysAdvantage .sha256 32 info (fun keys : Fin 2 → AesKey .aes256 => play (aesGcm .aes256 m) false (keys 1) (A (keys 0)) [] = true) + δ) +
      (keysAdvantage .sha256 32 info (fun keys : Fin 2 → AesKey .aes256 => play (aesGcm .aes256 m) true (keys 1) (A (keys 0)) [] = true) + δ) +
        (ε + 2 * (a * b / 2 ^ 128) + s * (s - 1) / 2 ^ 128) := by
  have h := fun right => pair_close (len := 32) .sha256 m 32 I (by decide) (by decide) hI (by decide) (by decide) info hne hi
    (fun com k => play (aesGcm .aes256 m) right k (A com) [] = true) δ hδ0 hδ
  refine events_le (h false) (h true) ?_
  have : Nonempty (AesKey .aes256) := ⟨⟨zeros 32, by decide⟩⟩
  have : Finite (AesKey .aes256) := (inferInstance : Finite ChaChaKey)
  refine prob_prod_close (α := AesKey .aes256) (β := AesKey .aes256) (fun q => play (aesGcm .aes256 m) false q.1 (A q.2) [] = true)
    (fun q => play (aesGcm .aes256 m) true q.1 (A q.2) [] = true) _ fun com => ?_
  have := C120_gcm_confidentiality .aes256 m (A com) a b s hb (hA com) (hs com)
  have := hε com
  linarith

/-! ## Concrete cases -/

/-- The hypotheses of the two statements about commitments are met by every message that was sent. -/
example (m m' : Mode) : ∃ com ct t, sealCommitted ccpAead 32 .sha256 m directions (zeros 32) (zeros 12) [1, 2] [3, 4, 5] = some (com, ct, t) ∧
    openCommitted ccpAead 32 .sha256 m directions (zeros 32) (zeros 12) [1, 2] com ct t = some (some [3, 4, 5]) ∧
    openCommitted ccpAead 32 .sha256 m' directions (zeros 32) (zeros 12) [1, 2] com ct t = some (some [3, 4, 5]) := by
  obtain ⟨com, ct, t, h1, -, -, -, h2⟩ := C143_round_trip (ccpAead, 32) (by simp [sessionAeads]) .sha256 m m' directions (zeros 32) (zeros 12) [1, 2] [3, 4, 5]
    (by decide) (by decide) (by decide) (by simp) (by decide) (by decide)
  obtain ⟨com', ct', t', h1', -, -, -, h2'⟩ := C143_round_trip (ccpAead, 32) (by simp [sessionAeads]) .sha256 m m directions (zeros 32) (zeros 12) [1, 2] [3, 4, 5]
    (by decide) (by decide) (by decide) (by simp) (by decide) (by decide)
  have e := h1.symm.trans h1'
  simp only [Option.some.injEq, Prod.mk.injEq] at e
  obtain ⟨rfl, rfl, rfl⟩ := e
  exact ⟨com, ct, t, h1, h2', h2⟩

/-- And without the commitment the claim is false: one ciphertext opens under two keys (C118). -/
example : ∃ c : Bytes, ∀ m, (∃ out, ccpAead.decrypt m (zeros 32) c (zeros 12) [] (zeros 16) (zeros c.length) = some (out, true)) ∧
    (∃ out, ccpAead.decrypt m (1 :: zeros 31) c (zeros 12) [] (zeros 16) (zeros c.length) = some (out, true)) := C118_example

/-- An attacker that encrypts two messages with the commitment as data and tries the first ciphertext with another tag. -/
def withCommitment (com : ChaChaKey) : Adversary :=
  .encrypt (zeros 12) com.1 (zeros 16) (List.replicate 16 1) (zeros 16) fun r =>
    match r with
    | none => .stop false
    | some (ct, t) => .decrypt (zeros 12) com.1 (ct.take 16) t.reverse (zeros 16) fun _ => .stop true

theorem withCommitment_within (k : ChaChaKey) : Within authCount 4 (withCommitment k) 1 := by
  have hk := k.2
  refine ⟨by unfold authCount; rw [hk]; decide, fun r => ?_⟩
  match r with
  | none => trivial
  | some (ct, t) =>
    refine ⟨?_, 0, rfl, fun _ => trivial⟩
    unfold authCount
    rw [hk, List.length_take]
    omega

example (m : Mode) (ε : ℚ) (hε : ∀ com, chachaAdvantage (chachaFromForger m true (withCommitment com)) ≤ ε) :
    prob (fun key : {k : Bytes // k.length = 32} => ∃ com k : ChaChaKey, Hkdf.expand Variant.sha256.code m key.1 (directions 0) (zeros 32) = some com.1 ∧
      Hkdf.expand Variant.sha256.code m key.1 (directions 1) (zeros 32) = some k.1 ∧ forges (chachaPoly m) true k (withCommitment com) []) ≤
      keysAdvantage .sha256 32 directions (fun keys : Fin 2 → ChaChaKey => forges (chachaPoly m) true (keys 1) (withCommitment (keys 0)) []) +
        ((Variant.sha256.blocks 34 + 1) * 1 + 1 / 256 ^ 32) + (ε + (1 : Nat) * (1480 * (4 : Nat)) / 2 ^ 106) :=
  C143_chacha_forgery m directions 1 _ (by decide) (by decide) (by decide) (by positivity)
    (C122_inner .sha256 (Or.inl rfl) 34 (by decide) 1 zero_le_one fun _ _ _ _ D _ => chainAdvantage_le_one .sha256 D) withCommitment 1 4 (by norm_num)
    withCommitment_within true ε hε

end CryptoPure.Props
