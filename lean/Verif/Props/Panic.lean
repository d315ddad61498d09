import Verif.Proofs.Effects
import Verif.Props.Gcm
import Verif.Props.ChaCha20
import Verif.Props.ChaChaPoly
import Verif.Props.Hmac

/-! # Properties C83–C87: what a call leaves behind when it panics

`Outcome.buffer` is the `&mut [u8]` argument after the call, whether it returned or panicked; `Outcome.result` is
`none` when it panicked. -/

namespace CryptoPure.Props
open CryptoPure.Model CryptoPure.Model.Effects CryptoPure.Model.Aes

attribute [local irreducible] permute keyExpansion Spec.Aes.cipher toBE CryptoPure.Model.ChaCha20.block
  ChaCha20.setupState Spec.ChaCha20.block

/-! ## C83: GCM -/

/-- The number of bytes of `output` that the AES-GCM keystream loop writes: all of them, except that with overflow
checks it stops after `2^32 - 3` blocks. -/
def gcmReach : Mode → Nat → Nat
  | .release, len => len
  | .debug, len => min len (16 * (2 ^ 32 - 3))

theorem gcmReach_eq (m : Mode) (len : Nat) : gcmReach m len = Proofs.Effects.gcmWritten m len := by cases m <;> rfl

/-- The outcome model and the value model of `encrypt`/`decrypt` agree on every call, for every block cipher. -/
theorem C83_models_agree (E : BlockCipher) (m : Mode) (st : E.State) (input nonce data tag output : Bytes) :
    Model.Gcm.encrypt E m st input nonce data output =
      ((gcmEncrypt E m st input nonce data output).result.map
        fun t => ((gcmEncrypt E m st input nonce data output).buffer, t)) ∧
    Model.Gcm.decrypt E m st input nonce data tag output =
      ((gcmDecrypt E m st input nonce data tag output).result.map
        fun b => ((gcmDecrypt E m st input nonce data tag output).buffer, b)) :=
  ⟨Proofs.Effects.gcmEncrypt_value E st m input nonce data output,
   Proofs.Effects.gcmDecrypt_value E st m input nonce data tag output⟩

/-- After `encrypt`, returned or panicked, `output` holds the ciphertext of the first `gcmReach` bytes followed by its
old contents; a call that breaks a documented condition leaves it alone. -/
theorem C83_encrypt_buffer (k : AesKind) (m : Mode) (key : Bytes) (st : k.code.State)
    (hk : Model.Gcm.new k.code key = some st) (input nonce data output : Bytes) :
    (gcmEncrypt k.code m st input nonce data output).buffer =
      (open Classical in if GcmPermitted input nonce data output then
        Spec.Gcm.crypt (aesBlock k key) nonce (input.take (gcmReach m input.length)) ++
          output.drop (gcmReach m input.length)
      else output) := by
  unfold gcmEncrypt
  by_cases hp : GcmPermitted input nonce data output
  · rw [if_pos hp, Proofs.Gcm.checkBounds_some hp]
    simp only
    rw [Proofs.Effects.gcmProcess_spec k.code st _ (aesBlock_eq k key st hk) m nonce input output hp.1 hp.2.1,
      gcmReach_eq]
    by_cases hm : m = .release ∨ (input.length + 15) / 16 ≤ 2 ^ 32 - 4
    · rw [if_pos hm]
    · rw [if_neg hm]
  · rw [if_neg hp, Proofs.Gcm.checkBounds_none hp]

/-- Exact outcome of `decrypt`: `output` is touched only when the call is permitted and the tag is the right one. -/
theorem C83_decrypt_outcome (k : AesKind) (m : Mode) (key : Bytes) (st : k.code.State)
    (hk : Model.Gcm.new k.code key = some st) (input nonce data tag output : Bytes) :
    gcmDecrypt k.code m st input nonce data tag output =
      (open Classical in
      if ¬ GcmPermitted output nonce data input then ⟨output, none⟩
      else if tag ≠ Spec.Gcm.tag (aesBlock k key) nonce data input then ⟨output, some false⟩
      else ⟨Spec.Gcm.crypt (aesBlock k key) nonce (input.take (gcmReach m input.length)) ++
          output.drop (gcmReach m input.length),
        if m = .debug ∧ 2 ^ 32 - 4 < (input.length + 15) / 16 then none else some true⟩) := by
  unfold gcmDecrypt
  by_cases hp : GcmPermitted output nonce data input
  · rw [if_neg (not_not_intro hp), Proofs.Gcm.checkBounds_some hp]
    obtain ⟨hc, ht⟩ := Proofs.Gcm.counter_props nonce hp.1
    have hl : input.length < 2 ^ 61 := by have := hp.2.1; have := hp.2.2.1; omega
    simp only
    rw [Proofs.Gcm.tag_spec k.code st _ (aesBlock_eq k key st hk) m nonce data input _ hp.1 hc ht hp.2.2.2 hl,
      Option.bind_some]
    have htl : (Spec.Gcm.tag (aesBlock k key) nonce data input).length = 16 := by
      unfold Spec.Gcm.tag
      rw [Proofs.Gcm.gctr_single _ _ _ (Proofs.Gcm.bytes_length _)]
      have : (aesBlock k key (Spec.Gcm.J0 nonce)).length = 16 :=
        aesBlock_length k key st hk _ (by simp [Spec.Gcm.J0, hp.1])
      simp [xorBytes, Proofs.Gcm.bytes_length, this]
    rw [C01_verify16 _ _ htl]
    by_cases he : tag = Spec.Gcm.tag (aesBlock k key) nonce data input
    · rw [if_neg (not_not_intro he), decide_eq_true he.symm]
      simp only
      rw [Proofs.Effects.gcmProcess_spec k.code st _ (aesBlock_eq k key st hk) m nonce input output hp.1 hp.2.1.symm,
        gcmReach_eq]
      by_cases hm : m = .release ∨ (input.length + 15) / 16 ≤ 2 ^ 32 - 4
      · rw [if_pos hm, if_neg (by rintro ⟨rfl, h⟩; rcases hm with h' | h' <;> [cases h'; omega])]
      · rw [if_neg hm, if_pos (by
          rw [not_or] at hm
          cases m
          · exact ⟨rfl, by omega⟩
          · exact absurd rfl hm.1)]
    · rw [if_pos he, decide_eq_false (fun h => he h.symm)]
  · rw [if_pos hp, Proofs.Gcm.checkBounds_none hp]

/-- In particular no byte of unauthenticated plaintext is ever left in the buffer, not even by a panic. -/
theorem C83_no_unverified_plaintext (k : AesKind) (m : Mode) (key : Bytes) (st : k.code.State)
    (hk : Model.Gcm.new k.code key = some st) (input nonce data tag output : Bytes)
    (h : tag ≠ Spec.Gcm.tag (aesBlock k key) nonce data input) :
    (gcmDecrypt k.code m st input nonce data tag output).buffer = output := by
  rw [C83_decrypt_outcome k m key st hk]
  by_cases hp : GcmPermitted output nonce data input
  · rw [if_neg (not_not_intro hp), if_pos h]
  · rw [if_pos hp]

/-- The buffer keeps its length in every outcome. -/
theorem C83_length (k : AesKind) (m : Mode) (key : Bytes) (st : k.code.State)
    (hk : Model.Gcm.new k.code key = some st) (input nonce data tag output : Bytes) :
    (gcmEncrypt k.code m st input nonce data output).buffer.length = output.length ∧
    (gcmDecrypt k.code m st input nonce data tag output).buffer.length = output.length := by
  have hr : gcmReach m input.length ≤ input.length := by cases m <;> simp [gcmReach]
  have hlen : input.length = output.length → nonce.length = 12 →
      (Spec.Gcm.crypt (aesBlock k key) nonce (input.take (gcmReach m input.length)) ++
        output.drop (gcmReach m input.length)).length = output.length := by
    intro hl hn
    rw [List.length_append, Proofs.Gcm.crypt_length _ (aesBlock_length k key st hk) nonce hn _, List.length_take,
      List.length_drop]
    omega
  constructor
  · rw [C83_encrypt_buffer k m key st hk]
    split
    · rename_i hp; exact hlen hp.2.1 hp.1
    · rfl
  · rw [C83_decrypt_outcome k m key st hk]
    by_cases hp : GcmPermitted output nonce data input
    · rw [if_neg (not_not_intro hp)]
      split
      · rfl
      · exact hlen hp.2.1.symm hp.1
    · rw [if_pos hp]

/-- A wrong tag and a wrong-length nonce: both leave the buffer, the second by a panic. -/
example (st : AesKind.aes128.code.State) (hk : Model.Gcm.new AesKind.aes128.code (zeros 16) = some st) :
    (gcmDecrypt AesKind.aes128.code .debug st [1, 2] (zeros 11) [] (zeros 16) [7, 8]).result = none ∧
    (gcmDecrypt AesKind.aes128.code .debug st [1, 2] (zeros 11) [] (zeros 16) [7, 8]).buffer = [7, 8] := by
  rw [C83_decrypt_outcome .aes128 .debug (zeros 16) st hk, if_pos (by simp [GcmPermitted])]
  exact ⟨rfl, rfl⟩

/-- With overflow checks a message of `2^32 - 3` blocks is encrypted completely before the panic; one block more and
the last block keeps its old contents. -/
example : gcmReach .debug (16 * (2 ^ 32 - 3)) = 16 * (2 ^ 32 - 3) ∧
    gcmReach .debug (16 * (2 ^ 32 - 3) + 15) = 16 * (2 ^ 32 - 3) := by decide +kernel

/-! ## C84: ChaCha20-Poly1305 -/

/-- The number of bytes of `output` that the ChaCha20-Poly1305 keystream loop writes. -/
def ccpReach : Mode → Nat → Nat
  | .release, len => len
  | .debug, len => min len (64 * (2 ^ 32 - 2))

theorem ccpReach_eq (m : Mode) (len : Nat) : ccpReach m len = Proofs.Effects.ccpWritten m len := by cases m <;> rfl

/-- The outcome model and the value model agree on every call. -/
theorem C84_models_agree (m : Mode) (key input nonce data tag output : Bytes) :
    Model.Poly1305.encrypt m key input nonce data output =
      ((ccpEncrypt m key input nonce data output).result.map
        fun t => ((ccpEncrypt m key input nonce data output).buffer, t)) ∧
    Model.Poly1305.decrypt m key input nonce data tag output =
      ((ccpDecrypt m key input nonce data tag output).result.map
        fun b => ((ccpDecrypt m key input nonce data tag output).buffer, b)) :=
  ⟨Proofs.Effects.ccpEncrypt_value m key input nonce data output,
   Proofs.Effects.ccpDecrypt_value m key input nonce data tag output⟩

/-- After `encrypt`, returned or panicked, `output` holds the ciphertext of the first `ccpReach` bytes followed by its
old contents; it panics exactly when a documented condition is broken or, with overflow checks, when the message has
`2^32 - 2` blocks or more. -/
theorem C84_encrypt_outcome (m : Mode) (key k input nonce data output : Bytes)
    (hk : Model.Poly1305.new key = some k) :
    (ccpEncrypt m k input nonce data output).buffer =
      (open Classical in if CcpPermitted input nonce output then
        Spec.Poly1305.crypt key nonce (input.take (ccpReach m input.length)) ++
          output.drop (ccpReach m input.length)
      else output) ∧
    ((ccpEncrypt m k input nonce data output).result = none ↔
      ¬ CcpPermitted input nonce output ∨ (m = .debug ∧ 2 ^ 32 - 2 ≤ (input.length + 63) / 64)) := by
  obtain ⟨rfl, hk⟩ := new_eq hk
  unfold ccpEncrypt
  by_cases hp : CcpPermitted input nonce output
  · rw [if_pos hp, show (input.length == output.length) = true by simpa using hp.1, assert_true, Option.bind_some,
      chacha_new k nonce hk hp.2]
    simp only
    rw [Proofs.Effects.ccpProcess_spec k nonce hk hp.2 m input output hp.1, ccpReach_eq]
    by_cases hm : m = .release ∨ (input.length + 63) / 64 < 2 ^ 32 - 2
    · rw [if_pos hm]
      refine ⟨rfl, ?_⟩
      simp only
      obtain ⟨t, ht, -, -⟩ := Proofs.Poly1305.tag_exists k nonce hk hp.2 data
        (Spec.Poly1305.crypt k nonce (input.take (Proofs.Effects.ccpWritten m input.length)) ++
          output.drop (Proofs.Effects.ccpWritten m input.length))
      rw [ht m]
      simp only [reduceCtorEq, false_iff, not_or, not_not]
      refine ⟨hp, ?_⟩
      rintro ⟨rfl, h⟩
      rcases hm with h' | h'
      · cases h'
      · omega
    · rw [if_neg hm]
      refine ⟨rfl, iff_of_true rfl (.inr ?_)⟩
      rw [not_or] at hm
      cases m
      · exact ⟨rfl, by omega⟩
      · exact absurd rfl hm.1
  · rw [if_neg hp]
    have : (assert (input.length == output.length)).bind (fun _ => Model.ChaCha20.new k nonce) = none := by
      by_cases hl : input.length = output.length
      · rw [Proofs.ChaCha20.new_none k nonce (fun hc => hp ⟨hl, hc.2⟩)]
        cases assert (input.length == output.length) <;> rfl
      · rw [show (input.length == output.length) = false by simpa using hl]
        rfl
    rw [this]
    exact ⟨rfl, iff_of_true rfl (.inl hp)⟩

/-- Exact outcome of `decrypt`. There is one 16-byte tag (the RFC 8439 tag unless the accumulator is below `2^31`, see
C51) that depends on key, nonce, data and ciphertext only; `output` is touched only when the call is permitted and
given that tag, and then it receives the RFC 8439 plaintext up to `ccpReach`. -/
theorem C84_decrypt_outcome (key k nonce data input : Bytes) (hk : Model.Poly1305.new key = some k) :
    ∃ expected : Bytes, expected.length = 16 ∧
      (2 ^ 31 ≤ Spec.Poly1305.acc (Spec.Poly1305.oneTimeKey key nonce) (Spec.Poly1305.macData data input) →
        expected = Spec.Poly1305.tag key nonce data input) ∧
      ∀ (m : Mode) (tag output : Bytes),
        ccpDecrypt m k input nonce data tag output =
          (open Classical in
          if ¬ CcpPermitted input nonce output then ⟨output, none⟩
          else if tag ≠ expected then ⟨output, some false⟩
          else ⟨Spec.Poly1305.crypt key nonce (input.take (ccpReach m input.length)) ++
              output.drop (ccpReach m input.length),
            if m = .debug ∧ 2 ^ 32 - 2 ≤ (input.length + 63) / 64 then none else some true⟩) := by
  obtain ⟨rfl, hk⟩ := new_eq hk
  have hbad : ∀ (m : Mode) (tag output : Bytes), ¬ CcpPermitted input nonce output →
      ccpDecrypt m k input nonce data tag output = ⟨output, none⟩ := by
    intro m tag output hp
    unfold ccpDecrypt
    have : (assert (output.length == input.length)).bind (fun _ => Model.ChaCha20.new k nonce) = none := by
      by_cases hl : output.length = input.length
      · rw [Proofs.ChaCha20.new_none k nonce (fun hc => hp ⟨hl.symm, hc.2⟩)]
        cases assert (output.length == input.length) <;> rfl
      · rw [show (output.length == input.length) = false by simpa using hl]
        rfl
    rw [this]
  by_cases hn : nonce.length = 12
  · obtain ⟨t, ht, htl, hr⟩ := Proofs.Poly1305.tag_exists k nonce hk hn data input
    refine ⟨t, htl, hr, fun m tag output => ?_⟩
    by_cases hp : CcpPermitted input nonce output
    · rw [if_neg (not_not_intro hp)]
      unfold ccpDecrypt
      rw [show (output.length == input.length) = true by simpa using hp.1.symm, assert_true, Option.bind_some,
        chacha_new k nonce hk hn]
      simp only
      rw [ht m, Option.bind_some, C01_verify16 _ _ htl]
      by_cases he : tag = t
      · rw [if_neg (not_not_intro he), decide_eq_true he.symm]
        simp only
        rw [Proofs.Effects.ccpProcess_spec k nonce hk hn m input output hp.1, ccpReach_eq]
        by_cases hm : m = .release ∨ (input.length + 63) / 64 < 2 ^ 32 - 2
        · rw [if_pos hm, if_neg (by rintro ⟨rfl, h⟩; rcases hm with h' | h' <;> [cases h'; omega])]
        · rw [if_neg hm, if_pos (by
            rw [not_or] at hm
            cases m
            · exact ⟨rfl, by omega⟩
            · exact absurd rfl hm.1)]
      · rw [if_pos he, decide_eq_false (fun h => he h.symm)]
    · rw [if_pos hp]; exact hbad m tag output hp
  · refine ⟨Spec.Poly1305.tag k nonce data input, ?_, fun _ => rfl, fun m tag output => ?_⟩
    · simp [Spec.Poly1305.tag, Spec.Poly1305.mac]
    · have hp : ¬ CcpPermitted input nonce output := fun h => hn h.2
      rw [if_pos hp]; exact hbad m tag output hp

example : (ccpDecrypt .debug (zeros 32) [1, 2] (zeros 12) [] (zeros 16) [7]).buffer = [7] := by
  obtain ⟨t, -, -, h⟩ := C84_decrypt_outcome (zeros 32) (zeros 32) (zeros 12) [] [1, 2] (by decide)
  rw [h, if_pos (by simp [CcpPermitted])]

/-! ## C85: the ChaCha20 stream object -/

/-- One use of a stream: take a byte from the iterator, or `encrypt`/`decrypt` a slice into a buffer. -/
inductive StreamUse where
  | next
  | crypt (input output : Bytes)

/-- What the caller sees of one use: the buffer afterwards (the byte, if any, for `next`) and whether it returned. -/
abbrev Seen := Bytes × Bool

/-- A history of uses of one object, every panic being caught. -/
def useStream (m : Mode) : ChaCha20.Stream → List StreamUse → List Seen
  | _, [] => []
  | s, .next :: rest =>
    ((streamNext m s).1.toList, (streamNext m s).1.isSome) :: useStream m (streamNext m s).2 rest
  | s, .crypt input output :: rest =>
    ((streamProcess m s input output).1.buffer, (streamProcess m s input output).1.result.isSome) ::
      useStream m (streamProcess m s input output).2 rest

/-- How many of `len` requested bytes the keystream still has at position `n`: with overflow checks it ends after
`2^38` bytes. -/
def remaining : Mode → Nat → Nat → Nat
  | .release, _, len => len
  | .debug, n, len => min len (2 ^ 38 - n)

/-- The specification: the object is nothing but a position `n` in the RFC 8439 keystream. A use consumes the keystream
bytes it gets to see, writes exactly those, and returns iff it got all it asked for. -/
def specUses (m : Mode) (key nonce : Bytes) : Nat → List StreamUse → List Seen
  | _, [] => []
  | n, .next :: rest =>
    ((List.range (remaining m n 1)).map (fun i => rfcByte key nonce (n + i)), decide (remaining m n 1 = 1)) ::
      specUses m key nonce (n + remaining m n 1) rest
  | n, .crypt input output :: rest =>
    if input.length = output.length then
      (xorBytes (input.take (remaining m n input.length))
          ((List.range (remaining m n input.length)).map fun i => rfcByte key nonce (n + i)) ++
          output.drop (remaining m n input.length),
        decide (remaining m n input.length = input.length)) ::
        specUses m key nonce (n + remaining m n input.length) rest
    else (output, false) :: specUses m key nonce n rest

theorem remaining_eq (m : Mode) (n len : Nat) : remaining m n len = Proofs.Effects.available m n len := by
  cases m <;> rfl

/-- The outcome model and the value model of the stream agree on every call. -/
theorem C85_models_agree (m : Mode) (s : ChaCha20.Stream) (input output : Bytes) :
    s.next m = ((streamNext m s).1.map fun y => (y, (streamNext m s).2)) ∧
    s.process m input output = ((streamProcess m s input output).1.result.map
      fun _ => ((streamProcess m s input output).1.buffer, (streamProcess m s input output).2)) :=
  ⟨Proofs.Effects.streamNext_value m s, Proofs.Effects.streamProcess_value m s input output⟩

theorem useStream_at (m : Mode) (key nonce : Bytes) (hk : key.length = 32) (hn : nonce.length = 12)
    (uses : List StreamUse) (n : Nat) (h : m = .release ∨ n ≤ 2 ^ 38) :
    useStream m (Proofs.ChaCha20.streamAt key nonce n) uses = specUses m key nonce n uses := by
  induction uses generalizing n with
  | nil => rfl
  | cons u rest ih =>
    have hnext : ∀ len, m = .release ∨ n + remaining m n len ≤ 2 ^ 38 := by
      intro len
      cases m
      · right; simp at h; simp only [remaining]; omega
      · exact .inl rfl
    cases u with
    | next =>
      rw [useStream, specUses]
      by_cases hlt : m = .release ∨ n < 2 ^ 38
      · have hr : remaining m n 1 = 1 := by
          cases m
          · simp at hlt; simp only [remaining]; omega
          · rfl
        have := hnext 1
        rw [hr] at this
        rw [Proofs.Effects.streamNext_ok key nonce hk hn m n hlt, hr, ih (n + 1) this]
        simp [rfcByte, Proofs.ChaCha20.ksByte]
      · have hm : m = .debug ∧ n = 2 ^ 38 := by
          rw [not_or] at hlt
          cases m
          · exact ⟨rfl, by have := hlt.2; simp at h; omega⟩
          · exact absurd rfl hlt.1
        obtain ⟨rfl, rfl⟩ := hm
        have hr : remaining .debug (2 ^ 38) 1 = 0 := rfl
        rw [Proofs.Effects.streamNext_overflow key nonce, hr, Nat.add_zero, ih _ (.inr (Nat.le_refl _))]
        rfl
    | crypt input output =>
      rw [useStream, specUses]
      by_cases hl : input.length = output.length
      · rw [if_pos hl, Proofs.Effects.streamProcess_spec key nonce hk hn m n h input output hl, ← remaining_eq]
        simp only
        rw [ih _ (hnext _)]
        congr 1
        · rw [Prod.mk.injEq]
          refine ⟨rfl, ?_⟩
          by_cases he : remaining m n input.length = input.length
          · simp [he]
          · simp [he]
      · rw [if_neg hl]
        have : streamProcess m (Proofs.ChaCha20.streamAt key nonce n) input output =
            (⟨output, none⟩, Proofs.ChaCha20.streamAt key nonce n) := by
          unfold streamProcess
          rw [show (input.length == output.length) = false by simpa using hl]
          rfl
        rw [this]
        simp only
        rw [ih n h]
        rfl

/-- Every history of uses of a new stream, with all panics caught, shows exactly the keystream bytes in order: no
panic loses, repeats or alters a keystream byte, or writes past the bytes the stream could deliver. -/
theorem C85_history (m : Mode) (key nonce : Bytes) (s : ChaCha20.Stream) (h : ChaCha20.Stream.new key nonce = some s)
    (uses : List StreamUse) : useStream m s uses = specUses m key nonce 0 uses := by
  obtain ⟨hk, hn, rfl⟩ := new_some h
  exact useStream_at m key nonce hk hn uses 0 (.inr (by omega))

/-- Once the keystream is exhausted (with overflow checks), every later use that wants a byte panics and changes
nothing. -/
theorem C85_exhausted (key nonce : Bytes) (uses : List StreamUse) :
    specUses .debug key nonce (2 ^ 38) uses = uses.map fun
      | .next => ([], false)
      | .crypt input output => (output, decide (input = [] ∧ output = [])) := by
  induction uses with
  | nil => rfl
  | cons u rest ih =>
    cases u with
    | next =>
      have hr : remaining .debug (2 ^ 38) 1 = 0 := rfl
      rw [specUses, hr, Nat.add_zero, ih]; rfl
    | crypt input output =>
      have hr : ∀ len, remaining .debug (2 ^ 38) len = 0 := by intro len; simp [remaining]
      rw [specUses, hr, Nat.add_zero, ih, List.map_cons]
      by_cases hl : input.length = output.length
      · rw [if_pos hl]
        cases input with
        | nil =>
          have : output = [] := List.length_eq_zero_iff.mp hl.symm
          subst this; rfl
        | cons a as => simp [xorBytes]
      · rw [if_neg hl]
        congr 2
        symm
        rw [decide_eq_false_iff_not]
        rintro ⟨rfl, rfl⟩
        exact hl rfl

/-- Two bytes into the stream, a call with mismatched lengths panics; the next byte is the third of the keystream. -/
example (s : ChaCha20.Stream) (h : ChaCha20.Stream.new (zeros 32) (zeros 12) = some s) :
    useStream .debug s [.crypt [1, 2] [0, 0], .crypt [3] [], .next] =
      [([1 ^^^ rfcByte (zeros 32) (zeros 12) 0, 2 ^^^ rfcByte (zeros 32) (zeros 12) 1], true), ([], false),
       ([rfcByte (zeros 32) (zeros 12) 2], true)] := by
  rw [C85_history .debug _ _ s h]; rfl

/-! ## C86: HKDF -/

/-- The outcome model and the value model of `extract` and `expand` agree on every call, for every hash function. -/
theorem C86_models_agree (H : Sha2.HashFunction) (m : Mode) (salt ikm prk info okm : Bytes) :
    Hkdf.extract H m salt ikm prk = ((hkdfExtract H m salt ikm prk).result.map
      fun _ => (hkdfExtract H m salt ikm prk).buffer) ∧
    Hkdf.expand H m prk info okm = ((hkdfExpand H m prk info okm).result.map
      fun _ => (hkdfExpand H m prk info okm).buffer) :=
  ⟨Proofs.Effects.extract_value m salt ikm prk, Proofs.Effects.expand_value prk info m okm⟩

/-- `extract` writes all of `prk` or nothing, for every hash function. -/
theorem C86_extract_atomic (H : Sha2.HashFunction) (m : Mode) (salt ikm prk : Bytes)
    (h : (hkdfExtract H m salt ikm prk).result = none) : (hkdfExtract H m salt ikm prk).buffer = prk :=
  Proofs.Effects.extract_panic m salt ikm prk h

/-- After `expand`, returned or panicked, `okm` is unchanged if a documented condition is broken; otherwise it holds the
RFC 5869 output, up to block 254 if overflow checks are on, and its old contents after that. -/
theorem C86_expand_buffer (v : Variant) (m : Mode) (prk info okm : Bytes) (hk : prk.length < 2 ^ 61)
    (hl : info.length < 2 ^ 60) :
    (hkdfExpand v.code m prk info okm).buffer =
      if v.size ≤ prk.length ∧ okm.length ≤ 255 * v.size then
        let n := if m = .debug then min okm.length (254 * v.size) else okm.length
        Spec.hkdfExpand v.fips v.block prk info n ++ okm.drop n
      else okm := by
  have hb' : v.block ≤ 128 := by cases v <;> decide
  have hs' : v.size ≤ 64 := by cases v <;> decide
  rw [← v.blockSize_eq] at *
  rw [← v.digestSize_eq] at *
  by_cases hc : v.code.digestSize ≤ prk.length ∧ okm.length ≤ 255 * v.code.digestSize
  · rw [if_pos hc]
    by_cases hm : m = .debug ∧ 254 * v.code.digestSize ≤ okm.length
    · obtain ⟨rfl, h254⟩ := hm
      rw [Proofs.Effects.expand_panic prk info v.lawful okm hk (by omega) hc.1 hc.2 h254]
      simp only [if_true, Nat.min_eq_right h254]
    · have h1 := Proofs.expand_spec prk info v.lawful m okm hk (by omega)
      rw [if_pos ⟨hc.1, hc.2, fun e => by
        by_contra hn; exact hm ⟨e, by omega⟩⟩, Proofs.Effects.expand_value] at h1
      have hn : (if m = .debug then min okm.length (254 * v.code.digestSize) else okm.length) = okm.length := by
        split
        · rename_i e
          have : ¬ 254 * v.code.digestSize ≤ okm.length := fun h => hm ⟨e, h⟩
          omega
        · rfl
      simp only [hn]
      generalize hkdfExpand v.code m prk info okm = r at h1
      obtain ⟨b, o⟩ := r
      cases o with
      | none => cases h1
      | some u =>
        simp only [Option.map_some, Option.some.injEq] at h1
        simp [h1]
  · rw [if_neg hc]
    unfold hkdfExpand
    by_cases h1 : v.code.digestSize ≤ prk.length
    · have h2 : ¬ 255 * v.code.digestSize ≥ okm.length := fun h => hc ⟨h1, h⟩
      rw [decide_eq_true h1, decide_eq_false h2]
      rfl
    · rw [decide_eq_false h1]
      rfl

/-- 255 digests with overflow checks: a panic that leaves 254 good digests and one untouched. -/
example : (hkdfExpand Variant.sha256.code .debug (zeros 32) [] (zeros (255 * 32))).result = none ∧
    (hkdfExpand Variant.sha256.code .debug (zeros 32) [] (zeros (255 * 32))).buffer =
      Spec.hkdfExpand Spec.Sha2.sha256 64 (zeros 32) [] (254 * 32) ++ zeros 32 := by
  constructor
  · have h1 := (C13_expand_debug_panics .sha256 (zeros 32) [] (zeros (255 * 32)) (by simp) (by simp)).mpr
      (.inr (by simp [Variant.size]))
    rw [(C86_models_agree _ .debug [] [] _ _ _).2] at h1
    exact Option.map_eq_none_iff.mp h1
  · rw [C86_expand_buffer .sha256 .debug _ _ _ (by simp) (by simp), if_pos (by simp [Variant.size])]
    have : min (zeros (255 * 32)).length (254 * Variant.sha256.size) = 254 * 32 := by simp [Variant.size]
    simp only [if_true, this]
    rw [show (zeros (255 * 32)).drop (254 * 32) = zeros 32 from List.drop_replicate ..]
    rfl

/-! ## C87: SHA-2 and HMAC objects -/

/-- `update` on each of the four hash types: the object afterwards and whether the call returned. -/
def updateRun (v : Variant) (m : Mode) (s : v.code.State) (input : Bytes) : v.code.State × Bool :=
  match v with
  | .sha224 => shaUpdate Sha2.P256 m s input
  | .sha256 => shaUpdate Sha2.P256 m s input
  | .sha384 => shaUpdate Sha2.P512 m s input
  | .sha512 => shaUpdate Sha2.P512 m s input

/-- The object after a sequence of `update` calls whose panics are caught, and the inputs whose calls returned. -/
def feedCatching (v : Variant) (m : Mode) : v.code.State → List Bytes → v.code.State × List Bytes
  | s, [] => (s, [])
  | s, x :: xs =>
    let (s', ok) := updateRun v m s x
    let (s'', taken) := feedCatching v m s' xs
    (s'', if ok then x :: taken else taken)

theorem updateRun_cases (v : Variant) (m : Mode) (s : v.code.State) (x : Bytes) :
    (v.code.update m s x = none ∧ updateRun v m s x = (s, false)) ∨
    (∃ s', v.code.update m s x = some s' ∧ updateRun v m s x = (s', true)) := by
  have key : ∀ {w : Nat} (P : Sha2.Params w) (s : Sha2.Proc w),
      (Sha2.update P m s x = none ∧ shaUpdate P m s x = (s, false)) ∨
      (∃ s', Sha2.update P m s x = some s' ∧ shaUpdate P m s x = (s', true)) := by
    intro w P s
    have h1 := Proofs.Effects.shaUpdate_value P m s x
    have h2 := Proofs.Effects.shaUpdate_panic P m s x
    generalize shaUpdate P m s x = r at *
    obtain ⟨s', ok⟩ := r
    cases ok
    · left
      have e : s' = s := h2 rfl
      exact ⟨h1, by rw [e]⟩
    · right; exact ⟨s', h1, rfl⟩
  cases v <;> exact key _ s

/-- An object that has survived any sequence of `update` calls, some of which panicked, is the object that was given
only the inputs whose calls returned. -/
theorem C87_update_atomic (v : Variant) (m : Mode) (s : v.code.State) (inputs : List Bytes) :
    (feedCatching v m s inputs).2.foldlM (v.code.update m) s = some (feedCatching v m s inputs).1 := by
  induction inputs generalizing s with
  | nil => rfl
  | cons x xs ih =>
    rw [feedCatching]
    rcases updateRun_cases v m s x with ⟨-, h⟩ | ⟨s', h0, h⟩
    · rw [h]; exact ih s
    · rw [h]
      simp only [if_true, List.foldlM_cons]
      rw [h0]; exact ih s'

/-- So its digest is the FIPS 180-4 digest of the concatenation of the inputs whose calls returned, and `write_digest`
leaves the buffer alone when it panics. -/
theorem C87_digest (v : Variant) (m : Mode) (inputs : List Bytes) (out : Bytes)
    (hl : (feedCatching v m v.code.default inputs).2.flatten.length < 2 ^ 61) :
    let r := shaWriteDigest v.code m (feedCatching v m v.code.default inputs).1 out
    (out.length = v.size → r.result = some () ∧
      r.buffer = v.fips (feedCatching v m v.code.default inputs).2.flatten) ∧
    (out.length ≠ v.size → r.result = none ∧ r.buffer = out) := by
  intro r
  have h1 := C87_update_atomic v m v.code.default inputs
  constructor
  · intro ho
    have h2 := C03_split_fips v m (feedCatching v m v.code.default inputs).2 out ho hl
    unfold hashParts at h2
    rw [h1] at h2
    have : r = ⟨v.fips (feedCatching v m v.code.default inputs).2.flatten, some ()⟩ := by
      change (match v.code.writeDigest m _ out with
        | none => (⟨out, none⟩ : Outcome Unit)
        | some d => ⟨d, some ()⟩) = _
      rw [show v.code.writeDigest m (feedCatching v m v.code.default inputs).1 out = _ from h2]
    rw [this]
    exact ⟨rfl, rfl⟩
  · intro ho
    have : r = ⟨out, none⟩ := by
      change (match v.code.writeDigest m _ out with
        | none => (⟨out, none⟩ : Outcome Unit)
        | some d => ⟨d, some ()⟩) = _
      rw [C04_wrong_length_panics v m _ out ho]
    rw [this]
    exact ⟨rfl, rfl⟩

/-- Without overflow checks no `update` call panics. -/
theorem C87_release_takes_all (v : Variant) (s : v.code.State) (inputs : List Bytes) :
    (feedCatching v .release s inputs).2 = inputs := by
  have key : ∀ {w : Nat} (P : Sha2.Params w) (s : Sha2.Proc w) (x : Bytes), Sha2.update P .release s x ≠ none := by
    intro w P s x h
    unfold Sha2.update at h
    rw [addC_release] at h
    simp only [Option.bind_eq_bind, Option.bind_some] at h
    split at h
    · split at h <;> cases h
    · cases h
  induction inputs generalizing s with
  | nil => rfl
  | cons x xs ih =>
    rw [feedCatching]
    rcases updateRun_cases v .release s x with ⟨h0, -⟩ | ⟨s', h0, h⟩
    · exfalso; cases v <;> exact key _ s x h0
    · rw [h]
      simp only [if_true]
      rw [ih s']

/-- The inputs that fit: those that keep the total below `2^64` bytes. -/
def fitting : Nat → List Bytes → List Bytes
  | _, [] => []
  | total, x :: xs => if total + x.length < 2 ^ 64 then x :: fitting (total + x.length) xs else fitting total xs

/-- With overflow checks the calls that return are exactly those that keep the total length below `2^64` bytes. -/
theorem C87_debug_takes (v : Variant) (inputs : List Bytes) (hx : ∀ x ∈ inputs, x.length < 2 ^ 64) :
    (feedCatching v .debug v.code.default inputs).2 = fitting 0 inputs := by
  have step : ∀ {w : Nat} (P : Sha2.Params w) (hb : 0 < P.blockSize) (iv : Oct w) (msg x : Bytes) (s : Sha2.Proc w),
      Proofs.ShaRel P iv msg s → msg.length < 2 ^ 64 → x.length < 2 ^ 64 →
      (msg.length + x.length < 2 ^ 64 → ∃ s', Sha2.update P .debug s x = some s' ∧ Proofs.ShaRel P iv (msg ++ x) s') ∧
      (¬ msg.length + x.length < 2 ^ 64 → Sha2.update P .debug s x = none) := by
    intro w P hb iv msg x s hs hm hx
    constructor
    · intro h; exact Proofs.shaRel_update hb .debug iv msg x s hs (.inr (by omega))
    · intro h
      unfold Sha2.update
      rw [addC_debug_overflow]
      · rfl
      · rw [hs.2]; simp only [BitVec.toNat_ofNat]; omega
  have step' : ∀ (msg x : Bytes) (s : v.code.State), v.rel msg s → msg.length < 2 ^ 64 → x.length < 2 ^ 64 →
      (msg.length + x.length < 2 ^ 64 → ∃ s', v.code.update .debug s x = some s' ∧ v.rel (msg ++ x) s') ∧
      (¬ msg.length + x.length < 2 ^ 64 → v.code.update .debug s x = none) := by
    intro msg x s
    cases v <;> exact step _ (by decide) _ msg x s
  have main : ∀ (inputs : List Bytes) (msg : Bytes) (s : v.code.State), (∀ x ∈ inputs, x.length < 2 ^ 64) →
      v.rel msg s → msg.length < 2 ^ 64 → (feedCatching v .debug s inputs).2 = fitting msg.length inputs := by
    intro inputs
    induction inputs with
    | nil => intros; rfl
    | cons x xs ih =>
      intro msg s hx hr hm
      obtain ⟨h1, h2⟩ := step' msg x s hr hm (hx x (by simp))
      rw [feedCatching, fitting]
      rcases updateRun_cases v .debug s x with ⟨h0, h⟩ | ⟨s', h0, h⟩
      · have hn : ¬ msg.length + x.length < 2 ^ 64 := by
          intro hlt
          obtain ⟨s', e, -⟩ := h1 hlt
          rw [h0] at e; cases e
        rw [h, if_neg hn]
        exact ih msg s (fun y hy => hx y (by simp [hy])) hr hm
      · have hlt : msg.length + x.length < 2 ^ 64 := by
          by_contra hn
          rw [h2 hn] at h0; cases h0
        obtain ⟨s'', e, hr'⟩ := h1 hlt
        rw [h0] at e
        obtain rfl := Option.some.inj e
        rw [h, if_pos hlt]
        simp only [if_true]
        rw [ih (msg ++ x) s' (fun y hy => hx y (by simp [hy])) hr' (by rw [List.length_append]; exact hlt),
          List.length_append]
  exact main inputs [] _ hx v.lawful.init (by simp)

example : (feedCatching .sha256 .debug Variant.sha256.code.default [[1], [2, 3]]).2 = [[1], [2, 3]] := by
  decide +kernel

/-! ## Further concrete cases -/

/-- A permitted call: what `encrypt` leaves in the buffer is the ciphertext. -/
example (st : AesKind.aes128.code.State) (hk : Model.Gcm.new AesKind.aes128.code (zeros 16) = some st) :
    (gcmEncrypt AesKind.aes128.code .debug st [1, 2] (zeros 12) [] [7, 8]).buffer = Spec.Gcm.crypt (aesBlock .aes128 (zeros 16)) (zeros 12) [1, 2] := by
  rw [C83_encrypt_buffer .aes128 .debug (zeros 16) st hk, if_pos (by simp [GcmPermitted])]
  simp [gcmReach]

/-- A tag of the wrong length is never the right one. -/
example (st : AesKind.aes128.code.State) (hk : Model.Gcm.new AesKind.aes128.code (zeros 16) = some st) :
    (gcmDecrypt AesKind.aes128.code .debug st [1, 2] (zeros 12) [] [] [7, 8]).buffer.length = 2 :=
  (C83_length .aes128 .debug (zeros 16) st hk [1, 2] (zeros 12) [] [] [7, 8]).2

example (st : AesKind.aes128.code.State) (hk : Model.Gcm.new AesKind.aes128.code (zeros 16) = some st) (tag : Bytes)
    (h : tag ≠ Spec.Gcm.tag (aesBlock .aes128 (zeros 16)) (zeros 12) [] [1, 2]) :
    (gcmDecrypt AesKind.aes128.code .debug st [1, 2] (zeros 12) [] tag [7, 8]).buffer = [7, 8] :=
  C83_no_unverified_plaintext .aes128 .debug (zeros 16) st hk [1, 2] (zeros 12) [] tag [7, 8] h

example : (ccpEncrypt .debug (zeros 32) [1, 2] (zeros 12) [] [7]).result = none :=
  (C84_encrypt_outcome .debug (zeros 32) (zeros 32) [1, 2] (zeros 12) [] [7] (by decide)).2.mpr (.inl (by simp [CcpPermitted]))

/-- A buffer of the wrong size for `extract`. -/
example : (hkdfExtract Variant.sha256.code .debug [1] [2] (zeros 31)).buffer = zeros 31 :=
  C86_extract_atomic _ .debug [1] [2] (zeros 31) (by decide +kernel)

/-- Three `update` calls of which the second would overflow the length counter: it panics, the digest is the one of the others. -/
example (x : Bytes) (hx : x.length = 2 ^ 64 - 3) (out : Bytes) (ho : out.length = 32) :
    (feedCatching .sha256 .debug Variant.sha256.code.default [[1, 2, 3], x, [4]]).2 = [[1, 2, 3], [4]] := by
  rw [C87_debug_takes .sha256 _ (by simp [hx])]
  simp [fitting, hx]

end CryptoPure.Props
