import Verif.Proofs.Gcm
import Verif.Props.Aes

/-! # Properties C18–C24 and C50 (GCM half) -/

namespace CryptoPure.Props
open CryptoPure.Model CryptoPure.Model.Aes CryptoPure.Spec.GF128

attribute [local irreducible] permute keyExpansion Spec.Aes.cipher toBE

/-! ## C18 -/

/-- The hash computed by the code is `Σ X_i · H^(n-i)`, `X_0 … X_(n-1)` being the authenticated blocks, in
`GF(2)[x]/(x^128+x^7+x^2+x+1)`; the output bytes are determined by that ring element (`C18_faithful`). -/
theorem C18_ghash (m : Mode) (key data ciphertext : Bytes)
    (hd : data.length < 2 ^ 61) (hc : ciphertext.length < 2 ^ 61) :
    ∃ out, GHash.ghash m key data ciphertext = some out ∧ out.length = 16 ∧
      elt (Spec.Gcm.bits out) =
        ∑ i ∈ Finset.range (Spec.Gcm.authBlocks data ciphertext).length,
          elt (Spec.Gcm.bits ((Spec.Gcm.authBlocks data ciphertext).getD i []))
            * elt (Spec.Gcm.bits key) ^ ((Spec.Gcm.authBlocks data ciphertext).length - i) := by
  refine ⟨_, Proofs.GHash.ghash_spec m key data ciphertext hd hc, Proofs.Gcm.bytes_length _, ?_⟩
  rw [← Proofs.GHash.elt_ghash]
  congr 1
  unfold Spec.Gcm.bits Spec.Gcm.bytes
  rw [beNat_toBE]
  generalize Spec.Gcm.ghash _ _ = x
  apply BitVec.eq_of_toNat_eq
  have := x.isLt
  rw [BitVec.toNat_ofNat]
  omega

/-- A 16-byte block is determined by the ring element it stands for. -/
theorem C18_faithful (x y : Bytes) (hx : x.length = 16) (hy : y.length = 16)
    (h : elt (Spec.Gcm.bits x) = elt (Spec.Gcm.bits y)) : x = y := by
  have := congrArg BitVec.toNat (Proofs.GHash.elt_injective h)
  have h1 := leNat_lt x.reverse
  have h2 := leNat_lt y.reverse
  rw [List.length_reverse] at h1 h2
  rw [hx] at h1; rw [hy] at h2
  unfold Spec.Gcm.bits at this
  rw [BitVec.toNat_ofNat, BitVec.toNat_ofNat] at this
  apply beNat_inj (hx.trans hy.symm)
  unfold beNat at this ⊢
  omega

/-- The padded blocks, spelled out: three bytes of data, none of ciphertext. -/
example : Spec.Gcm.authBlocks [1, 2, 3] [] =
    [[1, 2, 3, 0, 0, 0, 0, 0, 0, 0, 0, 0, 0, 0, 0, 0], [0, 0, 0, 0, 0, 0, 0, 24, 0, 0, 0, 0, 0, 0, 0, 0]] := by
  decide +kernel

/-! ## The AES instances -/

/-- FIPS 197 AES with this key, as a function on blocks. -/
def aesBlock (k : AesKind) (key : Bytes) : Bytes → Bytes := Spec.Aes.aes k.Nk key

theorem aesBlock_eq (k : AesKind) (key : Bytes) (st : k.code.State) (h : k.code.new key = some st) :
    ∀ x : Bytes, x.length = 16 → k.code.permute st x = aesBlock k key x :=
  fun x hx => C15_fips197 k key x hx st h

theorem aesBlock_length (k : AesKind) (key : Bytes) (st : k.code.State) (h : k.code.new key = some st) :
    ∀ x : Bytes, x.length = 16 → (aesBlock k key x).length = 16 :=
  fun x hx => by rw [← aesBlock_eq k key st h x hx]; exact C16_length k key st h x hx

/-- The conditions in the documentation of `encrypt`/`decrypt` (`output` has the length of `input`). -/
def GcmPermitted (input nonce data output : Bytes) : Prop :=
  nonce.length = 12 ∧ input.length = output.length ∧ input.length < 2 ^ 36 - 32 ∧ data.length < 2 ^ 61

/-! ## C19 -/

/-- `AesNNNGcm::new(key).encrypt(…)` writes the SP 800-38D ciphertext and returns the SP 800-38D tag. -/
theorem C19_encrypt (k : AesKind) (m : Mode) (key : Bytes) (st : k.code.State)
    (hk : Model.Gcm.new k.code key = some st) (input nonce data output out t : Bytes)
    (h : Model.Gcm.encrypt k.code m st input nonce data output = some (out, t)) :
    out = Spec.Gcm.crypt (aesBlock k key) nonce input ∧
    t = Spec.Gcm.tag (aesBlock k key) nonce data out := by
  by_cases hc : Proofs.Gcm.Permitted input nonce data output ∧
      (m = .release ∨ (input.length + 15) / 16 ≤ 2 ^ 32 - 4)
  · rw [Proofs.Gcm.encrypt_ok k.code st _ (aesBlock_eq k key st hk) (aesBlock_length k key st hk) m input nonce
      data output hc.1 hc.2] at h
    cases h
    exact ⟨rfl, rfl⟩
  · rw [Proofs.Gcm.encrypt_none k.code st _ (aesBlock_eq k key st hk) m input nonce data output hc] at h
    cases h

/-- The same for any block cipher object that maps 16-byte blocks to 16-byte blocks. -/
theorem C19_encrypt_any_cipher (E : BlockCipher) (m : Mode) (st : E.State)
    (hE : ∀ x : Bytes, x.length = 16 → (E.permute st x).length = 16)
    (input nonce data output out t : Bytes)
    (h : Model.Gcm.encrypt E m st input nonce data output = some (out, t)) :
    out = Spec.Gcm.crypt (E.permute st) nonce input ∧
    t = Spec.Gcm.tag (E.permute st) nonce data out := by
  by_cases hc : Proofs.Gcm.Permitted input nonce data output ∧
      (m = .release ∨ (input.length + 15) / 16 ≤ 2 ^ 32 - 4)
  · rw [Proofs.Gcm.encrypt_ok E st _ (fun _ _ => rfl) hE m input nonce data output hc.1 hc.2] at h
    cases h
    exact ⟨rfl, rfl⟩
  · rw [Proofs.Gcm.encrypt_none E st _ (fun _ _ => rfl) m input nonce data output hc] at h
    cases h

/-! ## C22 -/

/-- Without overflow checks, `encrypt` panics exactly under the documented conditions. -/
theorem C22_encrypt_release (k : AesKind) (key : Bytes) (st : k.code.State)
    (hk : Model.Gcm.new k.code key = some st) (input nonce data output : Bytes) :
    Model.Gcm.encrypt k.code .release st input nonce data output = none ↔
      ¬ GcmPermitted input nonce data output := by
  constructor
  · intro h hp
    rw [Proofs.Gcm.encrypt_ok k.code st _ (aesBlock_eq k key st hk) (aesBlock_length k key st hk) .release input
      nonce data output hp (.inl rfl)] at h
    cases h
  · intro hp
    exact Proofs.Gcm.encrypt_none k.code st _ (aesBlock_eq k key st hk) .release input nonce data output
      (fun h => hp h.1)

/-- With overflow checks, `encrypt` panics also when the message has more than `2^32 - 4` blocks. -/
theorem C22_encrypt_debug (k : AesKind) (key : Bytes) (st : k.code.State)
    (hk : Model.Gcm.new k.code key = some st) (input nonce data output : Bytes) :
    Model.Gcm.encrypt k.code .debug st input nonce data output = none ↔
      ¬ (GcmPermitted input nonce data output ∧ (input.length + 15) / 16 ≤ 2 ^ 32 - 4) := by
  constructor
  · rintro h ⟨hp, hb⟩
    rw [Proofs.Gcm.encrypt_ok k.code st _ (aesBlock_eq k key st hk) (aesBlock_length k key st hk) .debug input
      nonce data output hp (.inr hb)] at h
    cases h
  · intro hp
    exact Proofs.Gcm.encrypt_none k.code st _ (aesBlock_eq k key st hk) .debug input nonce data output
      (fun h => hp ⟨h.1, h.2.resolve_left (by decide)⟩)

/-- Without overflow checks, `decrypt` panics exactly under the documented conditions. -/
theorem C22_decrypt_release (k : AesKind) (key : Bytes) (st : k.code.State)
    (hk : Model.Gcm.new k.code key = some st) (input nonce data t output : Bytes) :
    Model.Gcm.decrypt k.code .release st input nonce data t output = none ↔
      ¬ GcmPermitted input nonce data output := by
  constructor
  · intro h hp
    rw [Proofs.Gcm.decrypt_eq k.code st _ (aesBlock_eq k key st hk) (aesBlock_length k key st hk) .release input
      nonce data t output hp] at h
    rw [if_pos (show Mode.release = .release ∨ (input.length + 15) / 16 ≤ 2 ^ 32 - 4 from .inl rfl)] at h
    split at h <;> cases h
  · exact Proofs.Gcm.decrypt_none k.code st .release input nonce data t output

/-- With overflow checks, `decrypt` panics also when the tag is right and there are more than `2^32 - 4` blocks. -/
theorem C22_decrypt_debug (k : AesKind) (key : Bytes) (st : k.code.State)
    (hk : Model.Gcm.new k.code key = some st) (input nonce data t output : Bytes) :
    Model.Gcm.decrypt k.code .debug st input nonce data t output = none ↔
      ¬ (GcmPermitted input nonce data output ∧
        ((input.length + 15) / 16 ≤ 2 ^ 32 - 4 ∨ t ≠ Spec.Gcm.tag (aesBlock k key) nonce data input)) := by
  by_cases hp : GcmPermitted input nonce data output
  · rw [Proofs.Gcm.decrypt_eq k.code st _ (aesBlock_eq k key st hk) (aesBlock_length k key st hk) .debug input
      nonce data t output hp]
    by_cases ht : t = Spec.Gcm.tag (aesBlock k key) nonce data input <;>
    by_cases hb : (input.length + 15) / 16 ≤ 2 ^ 32 - 4 <;> simp [ht, hb, hp]
  · simp only [hp, false_and, not_false_iff, iff_true]
    exact Proofs.Gcm.decrypt_none k.code st .debug input nonce data t output hp

/-- The permitted lengths that panic with overflow checks exist: exactly the last 31 byte lengths. -/
theorem C22_gap (n : Nat) : (n < 2 ^ 36 - 32 ∧ ¬ (n + 15) / 16 ≤ 2 ^ 32 - 4) ↔
    2 ^ 36 - 64 < n ∧ n < 2 ^ 36 - 32 := by omega

/-! ## C21 -/

/-- `decrypt` returns true exactly for the right tag (a tag of another length is never right), writing the
decryption; otherwise it returns false and leaves the output buffer as it was. -/
theorem C21_decrypt (k : AesKind) (m : Mode) (key : Bytes) (st : k.code.State)
    (hk : Model.Gcm.new k.code key = some st) (input nonce data t output out : Bytes) (ok : Bool)
    (h : Model.Gcm.decrypt k.code m st input nonce data t output = some (out, ok)) :
    (ok = true ↔ t = Spec.Gcm.tag (aesBlock k key) nonce data input) ∧
    (ok = true → out = Spec.Gcm.crypt (aesBlock k key) nonce input) ∧
    (ok = false → out = output) := by
  by_cases hp : GcmPermitted input nonce data output
  · rw [Proofs.Gcm.decrypt_eq k.code st _ (aesBlock_eq k key st hk) (aesBlock_length k key st hk) m input
      nonce data t output hp] at h
    split at h
    · rename_i ht
      split at h
      · cases h; exact ⟨⟨fun _ => ht, fun _ => rfl⟩, fun _ => rfl, fun h => by cases h⟩
      · cases h
    · rename_i ht
      cases h; exact ⟨⟨fun h => (by cases h), fun h => absurd h ht⟩, fun h => (by cases h), fun _ => rfl⟩
  · rw [Proofs.Gcm.decrypt_none k.code st m input nonce data t output hp] at h
    cases h

/-! ## C20 -/

/-- Decrypting what `encrypt` produced returns true and the message, whatever the output buffer held. -/
theorem C20_roundtrip (k : AesKind) (m : Mode) (key : Bytes) (st : k.code.State)
    (hk : Model.Gcm.new k.code key = some st) (message nonce data buf ciphertext t : Bytes)
    (h : Model.Gcm.encrypt k.code m st message nonce data buf = some (ciphertext, t))
    (buf' : Bytes) (hb : buf'.length = ciphertext.length) :
    Model.Gcm.decrypt k.code m st ciphertext nonce data t buf' = some (message, true) := by
  have hF := aesBlock_eq k key st hk
  have hlen := aesBlock_length k key st hk
  obtain ⟨h1, h2⟩ := C19_encrypt k m key st hk message nonce data buf ciphertext t h
  by_cases hc : Proofs.Gcm.Permitted message nonce data buf ∧
      (m = .release ∨ (message.length + 15) / 16 ≤ 2 ^ 32 - 4)
  · obtain ⟨hp, hm⟩ := hc
    have hl : ciphertext.length = message.length := by rw [h1]; exact Proofs.Gcm.crypt_length _ hlen nonce hp.1 _
    rw [Proofs.Gcm.decrypt_eq k.code st _ hF hlen m ciphertext nonce data t buf'
      ⟨hp.1, hb.symm, by rw [hl]; exact hp.2.2.1, hp.2.2.2⟩, if_pos h2, if_pos (by rw [hl]; exact hm)]
    congr 2
    unfold Spec.Gcm.crypt Spec.Gcm.gctr at h1 ⊢
    rw [Proofs.Gcm.J0_eq, Proofs.Gcm.inc32_ctr _ hp.1, Proofs.Gcm.gctrBlocks_xor _ hlen nonce hp.1] at h1 ⊢
    rw [hl]
    rw [h1]
    apply xorBytes_cancel
    rw [h1, xorBytes_length] at hl
    omega
  · rw [Proofs.Gcm.encrypt_none k.code st _ hF m message nonce data buf hc] at h
    cases h

/-! ## C23 -/

/-- The counter blocks `encrypt` feeds to the cipher for an `n`-byte message. -/
def gcmCounters (nonce : Bytes) (n : Nat) : List Bytes :=
  (List.range ((n + 15) / 16)).map (fun j => nonce ++ toBE 4 (j + 2))

/-- The ciphertext is the message xored with the encryptions of counter blocks that are pairwise different and
different from the tag's block and from the hash-key block; and the keystream blocks are pairwise different. -/
theorem C23_counters (k : AesKind) (m : Mode) (key : Bytes) (st : k.code.State)
    (hk : Model.Gcm.new k.code key = some st) (input nonce data output out t : Bytes)
    (h : Model.Gcm.encrypt k.code m st input nonce data output = some (out, t)) :
    out = xorBytes input ((gcmCounters nonce input.length).map (k.code.permute st)).flatten ∧
    16 * (gcmCounters nonce input.length).length ≥ input.length ∧
    (gcmCounters nonce input.length).Nodup ∧
    (nonce ++ [0, 0, 0, 1]) ∉ gcmCounters nonce input.length ∧
    zeros 16 ∉ gcmCounters nonce input.length ∧
    ((gcmCounters nonce input.length).map (k.code.permute st)).Nodup := by
  have hF := aesBlock_eq k key st hk
  have hlen := aesBlock_length k key st hk
  by_cases hc : Proofs.Gcm.Permitted input nonce data output ∧
      (m = .release ∨ (input.length + 15) / 16 ≤ 2 ^ 32 - 4)
  swap
  · rw [Proofs.Gcm.encrypt_none k.code st _ hF m input nonce data output hc] at h
    cases h
  obtain ⟨hp, hm⟩ := hc
  have hn := hp.1
  have h1 := (C19_encrypt k m key st hk input nonce data output out t h).1
  have hbig : (input.length + 15) / 16 + 2 ≤ 2 ^ 32 := by have := hp.2.2.1; omega
  have hinj : ∀ i j : Nat, i < 2 ^ 32 → j < 2 ^ 32 → nonce ++ toBE 4 i = nonce ++ toBE 4 j → i = j := by
    intro i j hi hj e
    exact toBE_inj (by omega) (by omega) (List.append_cancel_left e)
  have hnd : (gcmCounters nonce input.length).Nodup := by
    unfold gcmCounters
    apply List.Nodup.map_on _ List.nodup_range
    intro i hi j hj e
    rw [List.mem_range] at hi hj
    have := hinj _ _ (by omega) (by omega) e
    omega
  have hl16 : ∀ c ∈ gcmCounters nonce input.length, c.length = 16 := by
    intro c hc
    unfold gcmCounters at hc
    obtain ⟨j, _, rfl⟩ := List.mem_map.mp hc
    simp [hn]
  refine ⟨?_, ?_, hnd, ?_, ?_, ?_⟩
  · rw [h1]
    unfold Spec.Gcm.crypt Spec.Gcm.gctr
    rw [Proofs.Gcm.J0_eq, Proofs.Gcm.inc32_ctr _ hn, Proofs.Gcm.gctrBlocks_xor _ hlen nonce hn]
    congr 2
    unfold gcmCounters
    rw [List.map_map]
    apply List.map_congr_left
    intro j _
    exact (hF _ (by simp [hn])).symm
  · unfold gcmCounters
    rw [List.length_map, List.length_range]; omega
  · intro hmem
    unfold gcmCounters at hmem
    obtain ⟨j, hj, e⟩ := List.mem_map.mp hmem
    rw [List.mem_range] at hj
    rw [show ([0, 0, 0, 1] : Bytes) = toBE 4 1 by decide +kernel] at e
    have := hinj _ _ (by omega) (by omega) e
    omega
  · intro hmem
    unfold gcmCounters at hmem
    obtain ⟨j, hj, e⟩ := List.mem_map.mp hmem
    rw [List.mem_range] at hj
    have e2 := congrArg (List.drop 12) e
    rw [← hn, List.drop_left, hn, show (zeros 16).drop 12 = toBE 4 0 by decide +kernel] at e2
    have := toBE_inj (by omega) (by omega) e2
    omega
  · apply List.Nodup.map_on _ hnd
    intro x hx y hy e
    obtain ⟨z, _, hz⟩ := C16_permutation k key st hk (k.code.permute st y) (C16_length k key st hk y (hl16 y hy))
    rw [hz x ⟨hl16 x hx, e⟩, hz y ⟨hl16 y hy, rfl⟩]

/-! ## C24 (GHASH half) -/

theorem pad16_inj (a b : Bytes) (hl : a.length = b.length) (h : Spec.Gcm.pad16 a = Spec.Gcm.pad16 b) : a = b := by
  unfold Spec.Gcm.pad16 at h
  exact (List.append_inj h hl).1

/-- The authenticated blocks determine the data and the ciphertext. -/
theorem C24_ghash_blocks (a c a' c' : Bytes)
    (ha : a.length < 2 ^ 61) (hc : c.length < 2 ^ 61) (ha' : a'.length < 2 ^ 61) (hc' : c'.length < 2 ^ 61)
    (h : Spec.Gcm.authBlocks a c = Spec.Gcm.authBlocks a' c') : a = a' ∧ c = c' := by
  have h := congrArg List.flatten h
  unfold Spec.Gcm.authBlocks at h
  rw [chunks_flatten (by omega), chunks_flatten (by omega)] at h
  have hr := congrArg List.length h
  simp only [List.length_append, toBE_length] at hr
  obtain ⟨h1, h2⟩ := List.append_inj h (by simp only [List.length_append]; omega)
  obtain ⟨h3, h4⟩ := List.append_inj h2 (by simp)
  have hla : a.length = a'.length := by
    have := toBE_inj (by omega) (by omega) h3; omega
  have hlc : c.length = c'.length := by
    have := toBE_inj (by omega) (by omega) h4; omega
  obtain ⟨h5, h6⟩ := List.append_inj h1 (by simp only [Spec.Gcm.pad16, List.length_append, zeros_length, hla])
  exact ⟨pad16_inj _ _ hla h5, pad16_inj _ _ hlc h6⟩

/-! ## C50 (GCM half) -/

/-- The ciphertext has the message's length, the tag 16 bytes. -/
theorem C50_gcm_lengths (k : AesKind) (m : Mode) (key : Bytes) (st : k.code.State)
    (hk : Model.Gcm.new k.code key = some st) (input nonce data output out t : Bytes)
    (h : Model.Gcm.encrypt k.code m st input nonce data output = some (out, t)) :
    out.length = input.length ∧ out.length = output.length ∧ t.length = 16 := by
  have hF := aesBlock_eq k key st hk
  have hlen := aesBlock_length k key st hk
  obtain ⟨h1, h2⟩ := C19_encrypt k m key st hk input nonce data output out t h
  by_cases hc : Proofs.Gcm.Permitted input nonce data output ∧
      (m = .release ∨ (input.length + 15) / 16 ≤ 2 ^ 32 - 4)
  · have hl : out.length = input.length := by rw [h1]; exact Proofs.Gcm.crypt_length _ hlen nonce hc.1.1 _
    refine ⟨hl, hl.trans hc.1.2.1, ?_⟩
    rw [h2]
    unfold Spec.Gcm.tag
    rw [Proofs.Gcm.gctr_single _ _ _ (Proofs.Gcm.bytes_length _), xorBytes_length, Proofs.Gcm.bytes_length,
      hlen _ (by simp [Proofs.Gcm.J0_eq, hc.1.1])]
    rfl
  · rw [Proofs.Gcm.encrypt_none k.code st _ hF m input nonce data output hc] at h
    cases h

/-- Under one key and nonce, ciphertext xor message is the same for any two messages (and data, and buffers) of
equal length. -/
theorem C50_gcm_keystream (k : AesKind) (m m' : Mode) (key : Bytes) (st : k.code.State)
    (hk : Model.Gcm.new k.code key = some st) (nonce : Bytes)
    (input data output out t input' data' output' out' t' : Bytes)
    (h : Model.Gcm.encrypt k.code m st input nonce data output = some (out, t))
    (h' : Model.Gcm.encrypt k.code m' st input' nonce data' output' = some (out', t'))
    (hl : input.length = input'.length) :
    xorBytes out input = xorBytes out' input' := by
  have h1 := (C23_counters k m key st hk _ _ _ _ _ _ h)
  have h2 := (C23_counters k m' key st hk _ _ _ _ _ _ h')
  have hlen := C50_gcm_lengths k m key st hk _ _ _ _ _ _ h
  have hlen' := C50_gcm_lengths k m' key st hk _ _ _ _ _ _ h'
  rw [← hl] at h2
  generalize ((gcmCounters nonce input.length).map (k.code.permute st)).flatten = ks at h1 h2
  have e : ∀ x : Bytes, xorBytes (xorBytes x ks) x = ks.take x.length := by
    intro x
    rw [xorBytes_comm x ks]
    clear * -
    induction x generalizing ks with
    | nil => simp [xorBytes]
    | cons a x ih =>
      cases ks with
      | nil => simp [xorBytes]
      | cons b ks =>
        have := ih ks
        simp only [xorBytes, List.zipWith_cons_cons, List.length_cons, List.take_succ_cons] at this ⊢
        rw [this, BitVec.xor_assoc, BitVec.xor_self, BitVec.xor_zero]
  rw [h1.1, h2.1, e, e, hl]

/-! ## The hypotheses are met -/

/-- Every key of the right length and every permitted input (here of any length below `2^32`) is encrypted. -/
theorem gcm_reachable (k : AesKind) (m : Mode) (key input nonce data output : Bytes) (hk : key.length = 4 * k.Nk)
    (hn : nonce.length = 12) (ho : input.length = output.length) (hi : input.length < 2 ^ 32)
    (hd : data.length < 2 ^ 61) :
    ∃ st out t, Model.Gcm.new k.code key = some st ∧
      Model.Gcm.encrypt k.code m st input nonce data output = some (out, t) := by
  obtain ⟨st, hst⟩ := Option.ne_none_iff_exists'.mp (fun h => (C17_key_length k key).mp h hk)
  exact ⟨st, _, _, hst, Proofs.Gcm.encrypt_ok k.code st _ (aesBlock_eq k key st hst) (aesBlock_length k key st hst)
    m input nonce data output ⟨hn, ho, by omega, hd⟩ (.inr (by omega))⟩

/-- A 35-byte message: three blocks, the last partial. -/
example : ∃ st out t, Model.Gcm.new Aes256 (zeros 32) = some st ∧
    Model.Gcm.encrypt Aes256 .debug st (zeros 35) (zeros 12) [1, 2] (zeros 35) = some (out, t) ∧
    (gcmCounters (zeros 12) 35).length = 3 ∧
    Model.Gcm.decrypt Aes256 .debug st out (zeros 12) [1, 2] t (zeros 35) = some (zeros 35, true) := by
  obtain ⟨st, out, t, h1, h2⟩ := gcm_reachable .aes256 .debug (zeros 32) (zeros 35) (zeros 12) [1, 2] (zeros 35)
    (by simp [AesKind.Nk]) (by simp) (by simp) (by simp) (by simp)
  have hl := C50_gcm_lengths .aes256 .debug _ st h1 _ _ _ _ _ _ h2
  exact ⟨st, out, t, h1, h2, by simp [gcmCounters],
    C20_roundtrip .aes256 .debug _ st h1 _ _ _ _ _ _ h2 (zeros 35) (by rw [hl.1])⟩

/-! ## Further concrete cases -/

/-- C19, C21, C22, C23, C50: AES-128, a message of 35 bytes, both builds; a wrong tag, and a buffer that is too short. -/
example (m : Mode) : ∃ st out t, Model.Gcm.new Aes128 (zeros 16) = some st ∧
    Model.Gcm.encrypt Aes128 m st (zeros 35) (zeros 12) [1, 2] (zeros 35) = some (out, t) ∧
    out = Spec.Gcm.crypt (aesBlock .aes128 (zeros 16)) (zeros 12) (zeros 35) ∧
    t = Spec.Gcm.tag (aesBlock .aes128 (zeros 16)) (zeros 12) [1, 2] out ∧
    ((gcmCounters (zeros 12) 35).map (Aes128.permute st)).Nodup ∧
    (∀ t', t' ≠ t → ∀ o ok, Model.Gcm.decrypt Aes128 m st out (zeros 12) [1, 2] t' (zeros 35) = some (o, ok) → ok = false ∧ o = zeros 35) ∧
    Model.Gcm.encrypt Aes128 .release st (zeros 35) (zeros 12) [1, 2] (zeros 34) = none ∧
    Model.Gcm.encrypt Aes128 .debug st (zeros 35) (zeros 12) [1, 2] (zeros 35) ≠ none ∧
    Model.Gcm.decrypt Aes128 .release st (zeros 35) (zeros 11) [1, 2] t (zeros 35) = none ∧
    Model.Gcm.decrypt Aes128 .debug st (zeros 35) (zeros 12) [1, 2] t (zeros 35) ≠ none := by
  obtain ⟨st, out, t, h1, h2⟩ := gcm_reachable .aes128 m (zeros 16) (zeros 35) (zeros 12) [1, 2] (zeros 35)
    (by simp [AesKind.Nk]) (by simp) (by simp) (by simp) (by simp)
  obtain ⟨e1, e2⟩ := C19_encrypt .aes128 m _ st h1 _ _ _ _ _ _ h2
  have hc := C23_counters .aes128 m _ st h1 _ _ _ _ _ _ h2
  rw [zeros_length] at hc
  refine ⟨st, out, t, h1, h2, e1, e2, hc.2.2.2.2.2, fun t' hne o ok hd => ?_,
    (C22_encrypt_release .aes128 _ st h1 _ _ _ _).mpr (by simp [GcmPermitted]),
    fun e => absurd ((C22_encrypt_debug .aes128 _ st h1 _ _ _ _).mp e) (by simp [GcmPermitted]),
    (C22_decrypt_release .aes128 _ st h1 _ _ _ _ _).mpr (by simp [GcmPermitted]),
    fun e => absurd ((C22_decrypt_debug .aes128 _ st h1 _ _ _ _ _).mp e) (by simp [GcmPermitted])⟩
  obtain ⟨d1, -, d3⟩ := C21_decrypt .aes128 m _ st h1 _ _ _ _ _ _ _ hd
  cases ok
  · exact ⟨rfl, d3 rfl⟩
  · exact absurd ((d1.mp rfl).trans e2.symm) hne

/-- C18, C24. -/
example : (∃ out, GHash.ghash .debug (1 :: zeros 15) [1, 2, 3] (zeros 40) = some out ∧ out.length = 16) ∧
    Spec.Gcm.authBlocks [1, 2, 3] (zeros 40) ≠ Spec.Gcm.authBlocks [1, 2, 3, 0] (zeros 40) := by
  obtain ⟨out, h1, h2, -⟩ := C18_ghash .debug (1 :: zeros 15) [1, 2, 3] (zeros 40) (by simp) (by simp)
  exact ⟨⟨out, h1, h2⟩, fun h => absurd (C24_ghash_blocks _ _ _ _ (by simp) (by simp) (by simp) (by simp) h).1 (by simp)⟩

/-- C50: two messages under one nonce. -/
example : ∃ st out t out' t', Model.Gcm.new Aes192 (zeros 24) = some st ∧
    Model.Gcm.encrypt Aes192 .debug st (zeros 20) (zeros 12) [1, 2] (zeros 20) = some (out, t) ∧
    Model.Gcm.encrypt Aes192 .release st (7 :: zeros 19) (zeros 12) [] (zeros 20) = some (out', t') ∧
    xorBytes out (zeros 20) = xorBytes out' (7 :: zeros 19) := by
  obtain ⟨st, out, t, h1, h2⟩ := gcm_reachable .aes192 .debug (zeros 24) (zeros 20) (zeros 12) [1, 2] (zeros 20)
    (by simp [AesKind.Nk]) (by simp) (by simp) (by simp) (by simp)
  obtain ⟨st', out', t', h1', h2'⟩ := gcm_reachable .aes192 .release (zeros 24) (7 :: zeros 19) (zeros 12) [] (zeros 20)
    (by simp [AesKind.Nk]) (by simp) (by simp) (by simp) (by simp)
  obtain rfl : st = st' := Option.some.inj (h1.symm.trans h1')
  exact ⟨st, out, t, out', t', h1, h2, h2', C50_gcm_keystream .aes192 .debug .release _ st h1 _ _ _ _ _ _ _ _ _ _ _ h2 h2' (by simp)⟩

end CryptoPure.Props
