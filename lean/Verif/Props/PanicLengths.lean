import Verif.Props.Panic
import Verif.Props.Aead
import Verif.Props.HmacLong
import Verif.Props.Ed25519Long
import Verif.Props.X25519

/-! # C127: whether a call panics depends on lengths only

In both build modes, so a panic tells an observer nothing about keys, messages or tags that their lengths do not. The only exceptions
are calls that work on public data: `ed25519::verify`, and the decryption of a ciphertext of more than `2^36 - 64` bytes (GCM) or
`2^38 - 192` bytes (ChaCha20-Poly1305), which in builds with overflow checks panics only if the tag is right. -/

namespace CryptoPure.Props
open CryptoPure.Model

/-- The arguments have the same lengths, one by one. -/
def SameLengths (xs ys : List Bytes) : Prop := xs.map List.length = ys.map List.length

/-- One call panics if and only if the other does. -/
def BothPanic {α β : Type} (a : Option α) (b : Option β) : Prop := a = none ↔ b = none

theorem bothPanic_of {α β : Type} {a : Option α} {b : Option β} {P Q : Prop} (h1 : a = none ↔ P) (h2 : b = none ↔ Q) (h : P ↔ Q) :
    BothPanic a b := h1.trans (h.trans h2.symm)

theorem sameLengths_cons {x y : Bytes} {xs ys : List Bytes} (h : SameLengths (x :: xs) (y :: ys)) :
    x.length = y.length ∧ SameLengths xs ys := by
  unfold SameLengths at *
  simpa using h

/-! ## The AEADs -/

/-- Set up an AEAD with a key and encrypt. -/
def aeadEncrypt (A : AeadCipher) (m : Mode) (key input nonce data output : Bytes) : Option (Bytes × Bytes) :=
  (A.new key).bind fun st => A.encrypt m st input nonce data output

/-- Set up an AEAD with a key and decrypt. -/
def aeadDecrypt (A : AeadCipher) (m : Mode) (key input nonce data tag output : Bytes) : Option (Bytes × Bool) :=
  (A.new key).bind fun st => A.decrypt m st input nonce data tag output

theorem aes_mem {A : AeadCipher} (hA : A ∈ aeads) : (∃ k : AesKind, A = gcmAead k.code) ∨ A = ccpAead := by
  simp only [aeads, List.mem_cons, List.not_mem_nil, or_false] at hA
  rcases hA with rfl | rfl | rfl | rfl
  · exact .inl ⟨.aes128, rfl⟩
  · exact .inl ⟨.aes192, rfl⟩
  · exact .inl ⟨.aes256, rfl⟩
  · exact .inr rfl

theorem ccp_new_none (key : Bytes) : Model.Poly1305.new key = none ↔ key.length ≠ 32 := by
  unfold Model.Poly1305.new
  by_cases h : key.length = 32
  · simp [h, assert]
  · have : (32 == key.length) = false := beq_eq_false_iff_ne.mpr (Ne.symm h)
    simp [h, this, assert]

theorem new_cases {A : AeadCipher} (hA : A ∈ aeads) {key key' : Bytes} (h : key.length = key'.length) :
    (A.new key = none ∧ A.new key' = none) ∨ ∃ st st', A.new key = some st ∧ A.new key' = some st' := by
  have e : A.new key = none ↔ A.new key' = none := by
    rcases aes_mem hA with ⟨k, rfl⟩ | rfl
    · show k.code.new key = none ↔ k.code.new key' = none
      rw [C17_key_length, C17_key_length, h]
    · show Model.Poly1305.new key = none ↔ Model.Poly1305.new key' = none
      rw [ccp_new_none, ccp_new_none, h]
  cases h1 : A.new key with
  | none => exact .inl ⟨rfl, e.mp h1⟩
  | some st =>
    cases h2 : A.new key' with
    | none => rw [e.mpr h2] at h1; cases h1
    | some st' => exact .inr ⟨st, st', rfl, rfl⟩

/-- Encryption. -/
theorem C127_encrypt (A : AeadCipher) (hA : A ∈ aeads) (m : Mode) (key input nonce data output key' input' nonce' data' output' : Bytes)
    (h : SameLengths [key, input, nonce, data, output] [key', input', nonce', data', output']) :
    BothPanic (aeadEncrypt A m key input nonce data output) (aeadEncrypt A m key' input' nonce' data' output') := by
  simp only [SameLengths, List.map_cons, List.map_nil, List.cons.injEq, and_true] at h
  obtain ⟨hk, hi, hn, hd, ho⟩ := h
  unfold aeadEncrypt BothPanic
  rcases new_cases hA hk with ⟨h1, h2⟩ | ⟨st, st', h1, h2⟩
  · rw [h1, h2]; exact iff_of_true rfl rfl
  rw [h1, h2, Option.bind_some, Option.bind_some]
  rcases aes_mem hA with ⟨k, rfl⟩ | rfl
  · show Model.Gcm.encrypt k.code m st input nonce data output = none ↔ Model.Gcm.encrypt k.code m st' input' nonce' data' output' = none
    cases m
    · rw [C22_encrypt_debug k key st h1, C22_encrypt_debug k key' st' h2, GcmPermitted, GcmPermitted, hi, hn, hd, ho]
    · rw [C22_encrypt_release k key st h1, C22_encrypt_release k key' st' h2, GcmPermitted, GcmPermitted, hi, hn, hd, ho]
  · show Model.Poly1305.encrypt m st input nonce data output = none ↔ Model.Poly1305.encrypt m st' input' nonce' data' output' = none
    rw [C34_panics m key st _ _ _ _ h1, C34_panics m key' st' _ _ _ _ h2, hi, hn, ho]

/-- The decryption succeeds in builds without overflow checks. -/
def Accepted (A : AeadCipher) (key input nonce data tag output : Bytes) : Prop :=
  ∃ out, aeadDecrypt A .release key input nonce data tag output = some (out, true)

/-- Decryption: the tags may even have different lengths. For ciphertexts of more than `2^36 - 64` bytes, in builds with overflow
checks, the outcome depends also on whether the tag is right. -/
theorem C127_decrypt (A : AeadCipher) (hA : A ∈ aeads) (m : Mode) (key input nonce data tag output key' input' nonce' data' tag' output' : Bytes)
    (h : SameLengths [key, input, nonce, data, output] [key', input', nonce', data', output'])
    (hm : m = .release ∨ input.length ≤ 2 ^ 36 - 64 ∨
      (Accepted A key input nonce data tag output ↔ Accepted A key' input' nonce' data' tag' output')) :
    BothPanic (aeadDecrypt A m key input nonce data tag output) (aeadDecrypt A m key' input' nonce' data' tag' output') := by
  simp only [SameLengths, List.map_cons, List.map_nil, List.cons.injEq, and_true] at h
  obtain ⟨hk, hi, hn, hd, ho⟩ := h
  unfold Accepted aeadDecrypt at *
  unfold BothPanic
  rcases new_cases hA hk with ⟨h1, h2⟩ | ⟨st, st', h1, h2⟩
  · rw [h1, h2]; exact iff_of_true rfl rfl
  simp only [h1, h2, Option.bind_some] at hm ⊢
  rcases aes_mem hA with ⟨k, rfl⟩ | rfl
  · change Model.Gcm.decrypt k.code m st input nonce data tag output = none ↔ Model.Gcm.decrypt k.code m st' input' nonce' data' tag' output' = none
    cases m with
    | release => rw [C22_decrypt_release k key st h1, C22_decrypt_release k key' st' h2, GcmPermitted, GcmPermitted, hi, hn, hd, ho]
    | debug =>
      rw [C22_decrypt_debug k key st h1, C22_decrypt_debug k key' st' h2]
      by_cases hp : GcmPermitted input nonce data output
      · have hp' : GcmPermitted input' nonce' data' output' := by rw [GcmPermitted] at *; rwa [← hi, ← hn, ← hd, ← ho]
        rcases hm with hm | hm | hm
        · cases hm
        · have a1 : (input.length + 15) / 16 ≤ 2 ^ 32 - 4 := by omega
          have a2 : (input'.length + 15) / 16 ≤ 2 ^ 32 - 4 := by omega
          simp only [hp, hp', a1, a2, true_or, and_self]
        · have e : ∀ (key input nonce data tag output : Bytes) (st : k.code.State), k.code.new key = some st → GcmPermitted input nonce data output →
              ((∃ out, Model.Gcm.decrypt k.code .release st input nonce data tag output = some (out, true)) ↔
                tag = Spec.Gcm.tag (aesBlock k key) nonce data input) := by
            intro key input nonce data tag output st hs hp
            cases hd : Model.Gcm.decrypt k.code .release st input nonce data tag output with
            | none => exact absurd hp ((C22_decrypt_release k key st hs input nonce data tag output).mp hd)
            | some r =>
              obtain ⟨out, ok⟩ := r
              have := (C21_decrypt k .release key st hs input nonce data tag output out ok hd).1
              rw [← this]
              simp
          have hm : (∃ out, Model.Gcm.decrypt k.code .release st input nonce data tag output = some (out, true)) ↔
            (∃ out, Model.Gcm.decrypt k.code .release st' input' nonce' data' tag' output' = some (out, true)) := hm
          rw [e key _ _ _ _ _ st h1 hp, e key' _ _ _ _ _ st' h2 hp'] at hm
          simp only [hp, hp', true_and, hi, ne_eq, hm]
      · have hp' : ¬ GcmPermitted input' nonce' data' output' := by rw [GcmPermitted] at *; rwa [← hi, ← hn, ← hd, ← ho]
        simp [hp, hp']
  · change Model.Poly1305.decrypt m st input nonce data tag output = none ↔ Model.Poly1305.decrypt m st' input' nonce' data' tag' output' = none
    rw [C34_decrypt_panics_exactly m key st _ _ _ _ _ h1, C34_decrypt_panics_exactly m key' st' _ _ _ _ _ h2, ← hi, ← hn, ← ho]
    rcases hm with rfl | hm | hm
    · simp
    · have : ¬ 2 ^ 32 - 2 ≤ (input.length + 63) / 64 := by omega
      simp only [this, false_and, and_false]
    · have hm : (∃ out, Model.Poly1305.decrypt .release st input nonce data tag output = some (out, true)) ↔
        (∃ out, Model.Poly1305.decrypt .release st' input' nonce' data' tag' output' = some (out, true)) := hm
      rw [hm]

/-! ## ChaCha20 streams -/

/-- The length of a use: a byte, or a buffer. -/
def StreamUse.lengths : StreamUse → Option (Nat × Nat)
  | .next => none
  | .crypt input output => some (input.length, output.length)

/-- Two streams used in the same way, all panics caught: the same uses panic. -/
theorem C127_stream (m : Mode) (key nonce key' nonce' : Bytes) (s s' : ChaCha20.Stream) (h1 : ChaCha20.Stream.new key nonce = some s)
    (h2 : ChaCha20.Stream.new key' nonce' = some s') (uses uses' : List StreamUse) (h : uses.map StreamUse.lengths = uses'.map StreamUse.lengths) :
    (useStream m s uses).map Prod.snd = (useStream m s' uses').map Prod.snd := by
  rw [C85_history m key nonce s h1, C85_history m key' nonce' s' h2]
  generalize 0 = n
  induction uses generalizing uses' n with
  | nil =>
    cases uses' with
    | nil => rfl
    | cons u us => simp at h
  | cons u us ih =>
    cases uses' with
    | nil => simp at h
    | cons u' us' =>
      have e : u.lengths = u'.lengths := (List.cons.inj h).1
      replace h : us.map StreamUse.lengths = us'.map StreamUse.lengths := (List.cons.inj h).2
      cases u with
      | next =>
        cases u' with
        | next => simp only [specUses, List.map_cons, ih us' h]
        | crypt i o => cases e
      | crypt i o =>
        cases u' with
        | next => cases e
        | crypt i' o' =>
          simp only [StreamUse.lengths, Option.some.injEq, Prod.mk.injEq] at e
          unfold specUses
          rw [← e.1, ← e.2]
          by_cases hl : i.length = o.length
          · rw [if_pos hl, if_pos hl]
            simp only [List.map_cons, ih us' h]
          · rw [if_neg hl, if_neg hl]
            simp only [List.map_cons, ih us' h]

/-- Setting up a stream. -/
theorem C127_stream_new (key nonce key' nonce' : Bytes) (h : SameLengths [key, nonce] [key', nonce']) :
    BothPanic (ChaCha20.Stream.new key nonce) (ChaCha20.Stream.new key' nonce') := by
  simp only [SameLengths, List.map_cons, List.map_nil, List.cons.injEq, and_true] at h
  exact bothPanic_of (C28_new key nonce) (C28_new key' nonce') (by rw [h.1, h.2])

/-! ## Hashing, HMAC, HKDF

A slice has fewer than `2^64` bytes. -/

theorem flatten_length_eq {xs ys : List Bytes} (h : SameLengths xs ys) : xs.flatten.length = ys.flatten.length := by
  rw [List.length_flatten, List.length_flatten, h]

/-- Hashing a sequence of parts. -/
theorem C127_hash (v : Variant) (m : Mode) (parts parts' : List Bytes) (out out' : Bytes) (h : SameLengths parts parts') (ho : SameLengths [out] [out'])
    (hp : ∀ p ∈ parts, p.length < 2 ^ 64) : BothPanic (hashParts v m parts out) (hashParts v m parts' out') := by
  have hp' : ∀ p ∈ parts', p.length < 2 ^ 64 := by
    intro p hq
    have : p.length ∈ parts.map List.length := h ▸ List.mem_map_of_mem hq
    obtain ⟨q, hq, e⟩ := List.mem_map.mp this
    exact e ▸ hp q hq
  simp only [SameLengths, List.map_cons, List.map_nil, List.cons.injEq, and_true] at ho
  have e := flatten_length_eq h
  have key : ∀ (parts : List Bytes) (out : Bytes), (∀ p ∈ parts, p.length < 2 ^ 64) →
      (hashParts v m parts out = none ↔ out.length ≠ v.size ∨ (m = .debug ∧ 2 ^ 61 ≤ parts.flatten.length)) := by
    intro parts out hp
    by_cases ho : out.length = v.size
    · cases m with
      | release => rw [C05_release_wraps v parts out ho]; simp [ho]
      | debug =>
        by_cases hl : 2 ^ 61 ≤ parts.flatten.length
        · exact iff_of_true (C05_debug_panics v parts out hp hl) (.inr ⟨rfl, hl⟩)
        · rw [C03_split_fips v .debug parts out ho (by omega)]
          simp only [reduceCtorEq, false_iff, not_or, not_and]
          exact ⟨fun h => h ho, fun _ => hl⟩
    · refine iff_of_true ?_ (.inl ho)
      unfold hashParts
      cases hf : parts.foldlM (v.code.update m) v.code.default with
      | none => rfl
      | some s => exact C04_wrong_length_panics v m s out ho
  exact bothPanic_of (key parts out hp) (key parts' out' hp') (by rw [ho, e])

/-- HMAC over a sequence of parts. -/
theorem C127_hmac (v : Variant) (m : Mode) (key key' : Bytes) (parts parts' : List Bytes) (hk : key.length < 2 ^ 64)
    (hp : ∀ p ∈ parts, p.length < 2 ^ 64) (h : SameLengths (key :: parts) (key' :: parts')) :
    BothPanic (hmacParts v m key parts) (hmacParts v m key' parts') := by
  obtain ⟨h1, h⟩ := sameLengths_cons h
  have hp' : ∀ p ∈ parts', p.length < 2 ^ 64 := by
    intro p hq
    have : p.length ∈ parts.map List.length := h ▸ List.mem_map_of_mem hq
    obtain ⟨q, hq, e⟩ := List.mem_map.mp this
    exact e ▸ hp q hq
  have e := flatten_length_eq h
  unfold BothPanic
  rw [C111_hmac v m key parts hk hp, C111_hmac v m key' parts' (h1 ▸ hk) hp', h1, e]
  cases m
  · simp only
    split <;> simp
  · simp

/-- Checking an HMAC tag, which may have any length. -/
theorem C127_hmac_verify (v : Variant) (m : Mode) (key msg tag key' msg' tag' : Bytes) (hk : key.length < 2 ^ 64) (hm : msg.length < 2 ^ 64)
    (h : SameLengths [key, msg] [key', msg']) : BothPanic (Hmac.verify v.code m key msg tag) (Hmac.verify v.code m key' msg' tag') := by
  simp only [SameLengths, List.map_cons, List.map_nil, List.cons.injEq, and_true] at h
  unfold BothPanic
  rw [C111_verify v m key msg tag hk hm, C111_verify v m key' msg' tag' (h.1 ▸ hk) (h.2 ▸ hm), h.1, h.2]
  cases m
  · simp only
    split <;> simp
  · simp

/-- HKDF. -/
theorem C127_hkdf (v : Variant) (m : Mode) (salt ikm prk info okm salt' ikm' prk' info' okm' : Bytes)
    (h : SameLengths [salt, ikm, prk, info, okm] [salt', ikm', prk', info', okm'])
    (hs : ∀ x ∈ [salt, ikm, prk, info], x.length < 2 ^ 64) :
    BothPanic (Hkdf.extract v.code m salt ikm prk) (Hkdf.extract v.code m salt' ikm' prk') ∧
    BothPanic (Hkdf.expand v.code m prk info okm) (Hkdf.expand v.code m prk' info' okm') := by
  simp only [SameLengths, List.map_cons, List.map_nil, List.cons.injEq, and_true] at h
  simp only [List.mem_cons, List.not_mem_nil, or_false, forall_eq_or_imp, forall_eq] at hs
  obtain ⟨e1, e2, e3, e4, e5⟩ := h
  obtain ⟨l1, l2, l3, l4⟩ := hs
  constructor
  · unfold BothPanic
    rw [C111_extract v m salt ikm prk l1 l2, C111_extract v m salt' ikm' prk' (e1 ▸ l1) (e2 ▸ l2), e1, e2, e3]
    cases m <;> simp only <;> split <;> simp
  · unfold BothPanic
    rw [C111_expand v m prk info okm l3 l4, C111_expand v m prk' info' okm' (e3 ▸ l3) (e4 ▸ l4), e3, e4, e5]
    cases m <;> simp only <;> split <;> simp

/-! ## X25519, Ed25519 -/

/-- X25519. -/
theorem C127_x25519 (m : Mode) (pk sk pk' sk' : Bytes) (h : SameLengths [pk, sk] [pk', sk']) :
    BothPanic (Model.X25519.dh m pk sk) (Model.X25519.dh m pk' sk') ∧ BothPanic (Model.X25519.genPk m sk) (Model.X25519.genPk m sk') := by
  simp only [SameLengths, List.map_cons, List.map_nil, List.cons.injEq, and_true] at h
  exact ⟨bothPanic_of (CryptoPure.Props.X25519.C35_dh_panics m pk sk).1 (CryptoPure.Props.X25519.C35_dh_panics m pk' sk').1 (by rw [h.1, h.2]),
    bothPanic_of (CryptoPure.Props.X25519.C35_dh_panics m pk sk).2 (CryptoPure.Props.X25519.C35_dh_panics m pk' sk').2 (by rw [h.2])⟩

/-- Ed25519 key generation and signing. -/
theorem C127_ed25519 (m : Mode) (M sk M' sk' : Bytes) (h : SameLengths [M, sk] [M', sk']) (hM : M.length < 2 ^ 64) :
    BothPanic (Model.Ed25519.genPk m sk) (Model.Ed25519.genPk m sk') ∧ BothPanic (Model.Ed25519.sign m M sk) (Model.Ed25519.sign m M' sk') := by
  simp only [SameLengths, List.map_cons, List.map_nil, List.cons.injEq, and_true] at h
  refine ⟨bothPanic_of (CryptoPure.Props.Ed25519.C41_gen_pk_panics m sk) (CryptoPure.Props.Ed25519.C41_gen_pk_panics m sk') (by rw [h.2]), ?_⟩
  unfold BothPanic
  by_cases hs : sk.length = 32
  · rw [CryptoPure.Props.Ed25519.C113_sign m M sk hs hM, CryptoPure.Props.Ed25519.C113_sign m M' sk' (h.2 ▸ hs) (h.1 ▸ hM), h.1]
    cases m
    · simp only
      split <;> simp
    · simp
  · exact iff_of_true (CryptoPure.Props.Ed25519.C42_sign_panics m M sk hs) (CryptoPure.Props.Ed25519.C42_sign_panics m M' sk' (h.2 ▸ hs))

/-- Ed25519 verification, which works on public data: with messages of fewer than `2^61 - 64` bytes, or without overflow checks, only the
length of the public key matters; otherwise also whether signature and public key are well-formed. -/
theorem C127_ed25519_verify (m : Mode) (M sig pk M' sig' pk' : Bytes) (h : SameLengths [M, pk] [M', pk']) (hM : M.length < 2 ^ 64)
    (hm : m = .release ∨ M.length + 64 < 2 ^ 61 ∨ (CryptoPure.Props.Ed25519.WellFormed sig pk ↔ CryptoPure.Props.Ed25519.WellFormed sig' pk')) :
    BothPanic (Model.Ed25519.verify m M sig pk) (Model.Ed25519.verify m M' sig' pk') := by
  simp only [SameLengths, List.map_cons, List.map_nil, List.cons.injEq, and_true] at h
  refine bothPanic_of (CryptoPure.Props.Ed25519.C113_verify_panics_iff m M sig pk hM) (CryptoPure.Props.Ed25519.C113_verify_panics_iff m M' sig' pk' (h.1 ▸ hM)) ?_
  rw [← h.1, ← h.2]
  rcases hm with rfl | hm | hm
  · simp
  · have : ¬ 2 ^ 61 ≤ M.length + 64 := by omega
    simp only [this, false_and, and_false]
  · rw [hm]

/-! ## Concrete cases -/

/-- An all-zero key and message and any other key and message of these lengths: a 16-byte key for AES-256 panics, a 32-byte key does not. -/
example (key msg out : Bytes) (hk : key.length = 16) (hm : msg.length = 5) (ho : out.length = 5) :
    aeadEncrypt (gcmAead Aes.Aes256) .debug key msg (zeros 12) [] out = none := by
  refine (C127_encrypt (gcmAead Aes.Aes256) (by simp [aeads]) .debug key msg (zeros 12) [] out (zeros 16) (zeros 5) (zeros 12) [] (zeros 5)
    (by simp [SameLengths, hk, hm, ho])).mpr ?_
  unfold aeadEncrypt
  rw [show (gcmAead Aes.Aes256).new (zeros 16) = none from (C17_key_length .aes256 (zeros 16)).mpr (by simp [AesKind.Nk])]
  rfl

example (key msg out : Bytes) (hk : key.length = 32) (hm : msg.length = 5) (ho : out.length = 5) :
    aeadEncrypt ccpAead .debug key msg (zeros 12) [] out ≠ none := by
  intro h
  have := (C127_encrypt ccpAead (by simp [aeads]) .debug key msg (zeros 12) [] out (zeros 32) (zeros 5) (zeros 12) [] (zeros 5)
    (by simp [SameLengths, hk, hm, ho])).mp h
  have hn : Model.Poly1305.new (zeros 32) = some (zeros 32) := rfl
  generalize hz : zeros 32 = z at *
  change (Model.Poly1305.new z).bind (fun st => Model.Poly1305.encrypt .debug st (zeros 5) (zeros 12) [] (zeros 5)) = none at this
  rw [hn, Option.bind_some, C34_panics .debug z z _ _ _ _ hn] at this
  rcases this with h | h
  · exact h (by simp)
  · simp at h

end CryptoPure.Props
