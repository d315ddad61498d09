import Verif.Props.Hash

/-! # Properties C06–C13: HMAC and HKDF

Length side conditions: keys shorter than 2^61 bytes and messages shorter than 2^61 - 128 bytes, so that the
SHA-2 length counter is not exceeded (see C05 for what happens beyond). -/

namespace CryptoPure.Props
open CryptoPure.Model

/-! ## C06 -/

/-- `hmac_sha224/256/384/512(key, message)` is RFC 2104 HMAC over the FIPS 180-4 hash. -/
theorem C06_hmac_rfc2104 (v : Variant) (m : Mode) (key msg : Bytes) (hk : key.length < 2 ^ 61)
    (hl : v.block + msg.length < 2 ^ 61) :
    Hmac.wrapper v.code m key msg = some (Spec.hmac v.fips v.block key msg) := by
  rw [← v.blockSize_eq] at *
  exact Proofs.hmac_wrapper_spec v.lawful m key msg hk hl

/-- The four public functions. -/
theorem C06_functions (m : Mode) (key msg : Bytes) (hk : key.length < 2 ^ 61)
    (hl : 128 + msg.length < 2 ^ 61) :
    Hmac.hmac_sha224 m key msg = some (Spec.hmac Spec.Sha2.sha224 64 key msg) ∧
    Hmac.hmac_sha256 m key msg = some (Spec.hmac Spec.Sha2.sha256 64 key msg) ∧
    Hmac.hmac_sha384 m key msg = some (Spec.hmac Spec.Sha2.sha384 128 key msg) ∧
    Hmac.hmac_sha512 m key msg = some (Spec.hmac Spec.Sha2.sha512 128 key msg) :=
  ⟨C06_hmac_rfc2104 .sha224 m key msg hk (show 64 + _ < _ by omega),
   C06_hmac_rfc2104 .sha256 m key msg hk (show 64 + _ < _ by omega),
   C06_hmac_rfc2104 .sha384 m key msg hk hl, C06_hmac_rfc2104 .sha512 m key msg hk hl⟩

set_option maxRecDepth 100000 in
/-- RFC 4231 test case 2 (key "Jefe"), through the theorem. -/
example : Spec.hmac Spec.Sha2.sha256 64 [0x4a, 0x65, 0x66, 0x65]
    [0x77, 0x68, 0x61, 0x74, 0x20, 0x64, 0x6f, 0x20, 0x79, 0x61, 0x20, 0x77, 0x61, 0x6e, 0x74, 0x20,
     0x66, 0x6f, 0x72, 0x20, 0x6e, 0x6f, 0x74, 0x68, 0x69, 0x6e, 0x67, 0x3f]
    = toBE 32 0x5bdcc146bf60754e6a042426089575c75a003f089d2739839dec58b964ec3843 := by
  have h := C06_hmac_rfc2104 .sha256 .debug [0x4a, 0x65, 0x66, 0x65]
    [0x77, 0x68, 0x61, 0x74, 0x20, 0x64, 0x6f, 0x20, 0x79, 0x61, 0x20, 0x77, 0x61, 0x6e, 0x74, 0x20,
     0x66, 0x6f, 0x72, 0x20, 0x6e, 0x6f, 0x74, 0x68, 0x69, 0x6e, 0x67, 0x3f] (by decide) (by decide)
  have e : Hmac.wrapper Variant.sha256.code .debug [0x4a, 0x65, 0x66, 0x65]
    [0x77, 0x68, 0x61, 0x74, 0x20, 0x64, 0x6f, 0x20, 0x79, 0x61, 0x20, 0x77, 0x61, 0x6e, 0x74, 0x20,
     0x66, 0x6f, 0x72, 0x20, 0x6e, 0x6f, 0x74, 0x68, 0x69, 0x6e, 0x67, 0x3f]
    = some (toBE 32 0x5bdcc146bf60754e6a042426089575c75a003f089d2739839dec58b964ec3843) := by
    decide +kernel
  rw [e] at h
  exact (Option.some.inj h).symm

/-! ## C07 -/

/-- `Hmac::new(key)`, one `update` per element of `parts`, then `tag()`. -/
def hmacParts (v : Variant) (m : Mode) (key : Bytes) (parts : List Bytes) : Option Bytes := do
  let h ← Hmac.new v.code m key
  let h ← parts.foldlM (Hmac.update m) h
  Hmac.tag m h

/-- Any split of the message gives the RFC 2104 tag of the concatenation. -/
theorem C07_split_independent (v : Variant) (m : Mode) (key : Bytes) (parts : List Bytes)
    (hk : key.length < 2 ^ 61) (hl : v.block + parts.flatten.length < 2 ^ 61) :
    hmacParts v m key parts = some (Spec.hmac v.fips v.block key parts.flatten) := by
  rw [← v.blockSize_eq] at *
  obtain ⟨h, e1, r1⟩ := Proofs.hmac_new_spec v.lawful m key hk
  obtain ⟨h2, e2, r2⟩ := Proofs.hmac_updates_spec v.lawful m key parts [] h r1 (by simpa using hl)
  unfold hmacParts
  rw [e1]; simp only [Option.bind_eq_bind, Option.bind_some]
  rw [e2]; simp only [Option.bind_some]
  exact Proofs.hmac_tag_spec v.lawful m key _ h2 r2 (by simpa using hl)

example : hmacParts .sha512 .debug [1, 2, 3] [[4], [], [5, 6]] =
    hmacParts .sha512 .debug [1, 2, 3] [[4, 5, 6]] := by
  rw [C07_split_independent .sha512 .debug _ _ (by simp) (by norm_num [Variant.block]),
    C07_split_independent .sha512 .debug _ _ (by simp) (by norm_num [Variant.block])]
  rfl

/-! ## C08 -/

/-- `hmac::verify` never panics and is true exactly when `tag` is the complete genuine tag. -/
theorem C08_verify_iff (v : Variant) (m : Mode) (key msg tag : Bytes) (hk : key.length < 2 ^ 61)
    (hl : v.block + msg.length < 2 ^ 61) :
    Hmac.verify v.code m key msg tag = some (decide (tag = Spec.hmac v.fips v.block key msg)) := by
  rw [← v.blockSize_eq] at *
  rw [Proofs.hmac_verify_spec v.lawful m key msg tag hk hl]
  congr 1
  exact decide_eq_decide.mpr eq_comm

/-- In particular every tag whose length is not the digest size (every truncation or extension) is rejected. -/
theorem C08_wrong_length_rejected (v : Variant) (m : Mode) (key msg tag : Bytes) (hk : key.length < 2 ^ 61)
    (hl : v.block + msg.length < 2 ^ 61) (ht : tag.length ≠ v.size) :
    Hmac.verify v.code m key msg tag = some false := by
  rw [C08_verify_iff v m key msg tag hk hl]
  have : tag ≠ Spec.hmac v.fips v.block key msg := by
    intro e
    apply ht
    rw [e, ← v.blockSize_eq, Proofs.hmac_length v.lawful, v.digestSize_eq]
  simp [this]

/-- Tags produced by the wrapper (any split) are accepted. -/
theorem C08_genuine_accepted (v : Variant) (m : Mode) (key : Bytes) (parts : List Bytes) (tag : Bytes)
    (hk : key.length < 2 ^ 61) (hl : v.block + parts.flatten.length < 2 ^ 61)
    (ht : hmacParts v m key parts = some tag) :
    Hmac.verify v.code m key parts.flatten tag = some true := by
  rw [C07_split_independent v m key parts hk hl] at ht
  rw [C08_verify_iff v m key _ tag hk hl]
  simp [Option.some.inj ht]

example : Hmac.verify Variant.sha256.code .debug [1] [2] [3] = some false :=
  C08_wrong_length_rejected .sha256 .debug [1] [2] [3] (by simp) (by norm_num [Variant.block]) (by decide)

example : ∃ tag, hmacParts .sha256 .release [1] [[2], [3]] = some tag ∧
    Hmac.verify Variant.sha256.code .release [1] [2, 3] tag = some true :=
  have h1 : ([1] : Bytes).length < 2 ^ 61 := by simp
  have h2 : Variant.block .sha256 + ([[2], [3]] : List Bytes).flatten.length < 2 ^ 61 := by
    norm_num [Variant.block]
  ⟨_, C07_split_independent .sha256 .release [1] [[2], [3]] h1 h2,
    C08_genuine_accepted .sha256 .release [1] [[2], [3]] _ h1 h2
      (C07_split_independent .sha256 .release [1] [[2], [3]] h1 h2)⟩

/-! ## C09 -/

/-- Trailing zero bytes of a key that still fits in a block are irrelevant. -/
theorem C09_trailing_zeros (v : Variant) (m : Mode) (key msg : Bytes) (n : Nat)
    (hn : key.length + n ≤ v.block) (hl : v.block + msg.length < 2 ^ 61) :
    Hmac.wrapper v.code m (key ++ zeros n) msg = Hmac.wrapper v.code m key msg := by
  have hb : v.block ≤ 128 := by cases v <;> decide
  rw [C06_hmac_rfc2104 v m _ msg (by simp; omega) hl, C06_hmac_rfc2104 v m _ msg (by omega) hl]
  have : Spec.hmacKey v.fips v.block (key ++ zeros n) = Spec.hmacKey v.fips v.block key := by
    simp only [Spec.hmacKey, List.length_append, zeros_length]
    rw [if_neg (by omega), if_neg (by omega)]
    simp only [List.length_append, zeros_length, List.append_assoc]
    congr 1
    simp only [zeros, List.replicate_append_replicate]
    congr 1; omega
  simp only [Spec.hmac, this]

/-- A key longer than a block is interchangeable with its digest. -/
theorem C09_long_key (v : Variant) (m : Mode) (key digest msg : Bytes) (hk : v.block < key.length)
    (hk' : key.length < 2 ^ 61) (hl : v.block + msg.length < 2 ^ 61)
    (hd : Sha2.wrapper v.code m key = some digest) :
    Hmac.wrapper v.code m key msg = Hmac.wrapper v.code m digest msg := by
  rw [C02_sha2_fips v m key hk'] at hd
  obtain rfl := Option.some.inj hd
  have hs : (v.fips key).length = v.size := by rw [v.lawful.hashLen, v.digestSize_eq]
  have hb : v.size ≤ v.block := by cases v <;> decide
  have hb' : v.block ≤ 128 := by cases v <;> decide
  rw [C06_hmac_rfc2104 v m _ msg hk' hl, C06_hmac_rfc2104 v m _ msg (by omega) hl]
  have : Spec.hmacKey v.fips v.block (v.fips key) = Spec.hmacKey v.fips v.block key := by
    simp only [Spec.hmacKey]
    rw [if_neg (by omega), if_pos hk]
  simp only [Spec.hmac, this]

example : Hmac.wrapper Variant.sha256.code .debug ([7] ++ zeros 63) [1] =
    Hmac.wrapper Variant.sha256.code .debug [7] [1] :=
  C09_trailing_zeros .sha256 .debug [7] [1] 63 (by decide) (by decide)

/-! ## C10 -/

/-- `hkdf::extract` writes RFC 5869 `HMAC(salt, ikm)` and panics exactly on a wrong `prk` length. -/
theorem C10_extract (v : Variant) (m : Mode) (salt ikm prk : Bytes) (hk : salt.length < 2 ^ 61)
    (hl : v.block + ikm.length < 2 ^ 61) :
    Hkdf.extract v.code m salt ikm prk =
      if prk.length = v.size then some (Spec.hkdfExtract v.fips v.block salt ikm) else none := by
  rw [← v.blockSize_eq] at *
  rw [← v.digestSize_eq]
  exact Proofs.extract_spec v.lawful m salt ikm prk hk hl

example : Hkdf.extract Variant.sha256.code .debug [1] [2] (zeros 31) = none := by
  rw [C10_extract .sha256 .debug [1] [2] (zeros 31) (by simp) (by norm_num [Variant.block])]; decide
example : Hkdf.extract Variant.sha256.code .debug [1] [2] (zeros 32)
    = some (Spec.hkdfExtract Spec.Sha2.sha256 64 [1] [2]) := by
  rw [C10_extract .sha256 .debug [1] [2] (zeros 32) (by simp) (by norm_num [Variant.block]), if_pos (by decide)]
  rfl

/-! ## C11, C12, C13 -/

/-- Without overflow checks `expand` is RFC 5869 HKDF-Expand and panics exactly as documented. -/
theorem C11_expand_release (v : Variant) (prk info okm : Bytes) (hk : prk.length < 2 ^ 61)
    (hl : info.length < 2 ^ 60) :
    Hkdf.expand v.code .release prk info okm =
      if v.size ≤ prk.length ∧ okm.length ≤ 255 * v.size
      then some (Spec.hkdfExpand v.fips v.block prk info okm.length) else none := by
  have hb' : v.block ≤ 128 := by cases v <;> decide
  have hs' : v.size ≤ 64 := by cases v <;> decide
  rw [← v.blockSize_eq] at *
  rw [← v.digestSize_eq] at *
  rw [Proofs.expand_spec prk info v.lawful .release okm hk (by omega)]
  simp

/-- In every build mode: whenever `expand` does not panic, `okm` is the RFC 5869 output. -/
theorem C11_expand_rfc5869 (v : Variant) (m : Mode) (prk info okm out : Bytes) (hk : prk.length < 2 ^ 61)
    (hl : info.length < 2 ^ 60) (h : Hkdf.expand v.code m prk info okm = some out) :
    out = Spec.hkdfExpand v.fips v.block prk info okm.length ∧ out.length = okm.length := by
  have hb' : v.block ≤ 128 := by cases v <;> decide
  have hs' : v.size ≤ 64 := by cases v <;> decide
  rw [← v.blockSize_eq] at *
  rw [← v.digestSize_eq] at *
  rw [Proofs.expand_spec prk info v.lawful m okm hk (by omega)] at h
  split at h
  · rename_i hc
    obtain rfl := Option.some.inj h
    refine ⟨rfl, ?_⟩
    unfold Spec.hkdfExpand
    rw [List.length_take, List.length_flatMap]
    simp only [Proofs.hkdfT_length prk info v.lawful _ (Nat.succ_pos _)]
    simp only [List.map_const', List.length_range, List.sum_replicate_nat]
    omega
  · cases h

/-- A shorter output is a prefix of a longer one. -/
theorem C12_expand_prefix (v : Variant) (m m' : Mode) (prk info okm okm' out out' : Bytes)
    (hk : prk.length < 2 ^ 61) (hl : info.length < 2 ^ 60) (hlen : okm.length ≤ okm'.length)
    (h : Hkdf.expand v.code m prk info okm = some out)
    (h' : Hkdf.expand v.code m' prk info okm' = some out') : out <+: out' := by
  obtain ⟨e, _⟩ := C11_expand_rfc5869 v m prk info okm out hk hl h
  obtain ⟨e', _⟩ := C11_expand_rfc5869 v m' prk info okm' out' hk hl h'
  rw [e, e']
  exact List.take_prefix_take_left hlen

/-- With overflow checks `expand` panics exactly when `prk` is too short or `okm` has at least 254 digests:
lengths from 254 to 255 digests, documented as allowed, panic. -/
theorem C13_expand_debug_panics (v : Variant) (prk info okm : Bytes) (hk : prk.length < 2 ^ 61)
    (hl : info.length < 2 ^ 60) :
    Hkdf.expand v.code .debug prk info okm = none ↔ prk.length < v.size ∨ 254 * v.size ≤ okm.length := by
  have hb' : v.block ≤ 128 := by cases v <;> decide
  have hs' : v.size ≤ 64 := by cases v <;> decide
  rw [← v.blockSize_eq] at *
  rw [← v.digestSize_eq] at *
  rw [Proofs.expand_spec prk info v.lawful .debug okm hk (by omega)]
  constructor
  · intro h
    split at h
    · cases h
    · rename_i hc
      simp only [true_implies] at hc
      omega
  · intro h
    rw [if_neg]
    simp only [true_implies]
    omega

/-- A documented call (255 digests) that panics with overflow checks and succeeds without. -/
example : Hkdf.expand Variant.sha256.code .debug (zeros 32) [] (zeros (255 * 32)) = none ∧
    Hkdf.expand Variant.sha256.code .release (zeros 32) [] (zeros (255 * 32)) ≠ none := by
  constructor
  · rw [C13_expand_debug_panics .sha256 (zeros 32) [] _ (by simp) (by simp)]
    right; simp [Variant.size]
  · rw [C11_expand_release .sha256 (zeros 32) [] _ (by simp) (by simp), if_pos (by simp [Variant.size])]
    simp

example : ∃ out out', Hkdf.expand Variant.sha512.code .debug (zeros 64) [1] (zeros 10) = some out ∧
    Hkdf.expand Variant.sha512.code .release (zeros 64) [1] (zeros 100) = some out' ∧ out <+: out' := by
  have h1 : Hkdf.expand Variant.sha512.code .debug (zeros 64) [1] (zeros 10) ≠ none := by
    rw [Ne, C13_expand_debug_panics .sha512 (zeros 64) [1] _ (by simp) (by simp)]
    simp [Variant.size]
  obtain ⟨out, h1⟩ := Option.ne_none_iff_exists'.mp h1
  have h2 := C11_expand_release .sha512 (zeros 64) [1] (zeros 100) (by simp) (by simp)
  rw [if_pos (by simp [Variant.size])] at h2
  exact ⟨out, _, h1, h2, C12_expand_prefix .sha512 .debug .release (zeros 64) [1] (zeros 10) (zeros 100) out _ (by simp)
    (by simp) (by simp) h1 h2⟩

/-! ## Further concrete cases -/

example : Hmac.hmac_sha384 .debug [1] [2, 3] = some (Spec.hmac Spec.Sha2.sha384 128 [1] [2, 3]) :=
  (C06_functions .debug [1] [2, 3] (by simp) (by simp)).2.2.1

example (tag : Bytes) : Hmac.verify Variant.sha384.code .debug [1] [2, 3] tag =
    some (decide (tag = Spec.hmac Variant.sha384.fips 128 [1] [2, 3])) :=
  C08_verify_iff .sha384 .debug [1] [2, 3] tag (by simp) (by simp [Variant.block])

/-- A key of 65 bytes and its digest. -/
example (msg : Bytes) (hl : msg.length < 2 ^ 60) : ∃ digest, Sha2.wrapper Variant.sha256.code .debug (zeros 65) = some digest ∧
    Hmac.wrapper Variant.sha256.code .debug (zeros 65) msg = Hmac.wrapper Variant.sha256.code .debug digest msg := by
  have h := C02_sha2_fips .sha256 .debug (zeros 65) (by simp)
  exact ⟨_, h, C09_long_key .sha256 .debug _ _ msg (by simp [Variant.block]) (by simp) (by simp [Variant.block]; omega) h⟩

/-- Three blocks of output, the last one incomplete. -/
example : ∃ out, Hkdf.expand Variant.sha256.code .release (zeros 32) [7] (zeros 80) = some out ∧ out.length = 80 := by
  obtain ⟨out, h⟩ : ∃ out, Hkdf.expand Variant.sha256.code .release (zeros 32) [7] (zeros 80) = some out := by
    rw [C11_expand_release .sha256 _ _ _ (by simp) (by simp), if_pos (by simp [Variant.size])]
    exact ⟨_, rfl⟩
  exact ⟨out, h, (C11_expand_rfc5869 .sha256 .release _ _ _ out (by simp) (by simp) h).2.trans (by simp)⟩

end CryptoPure.Props
