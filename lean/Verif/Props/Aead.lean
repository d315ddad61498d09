import Verif.Model.Aead
import Verif.Props.UserCipher
import Verif.Props.ChaChaPoly

/-! # Property C99: what code generic in `AeadCipher` may rely on -/

namespace CryptoPure.Props
open CryptoPure.Model

/-- The contract of an AEAD object. -/
structure AeadContract (A : AeadCipher) (st : A.State) : Prop where
  /-- The ciphertext is as long as the message, the tag has 16 bytes. -/
  lengths : ∀ m input nonce data output ct t, A.encrypt m st input nonce data output = some (ct, t) →
    ct.length = input.length ∧ t.length = 16
  /-- What was in the output buffer does not matter to `encrypt`. -/
  buffer : ∀ m input nonce data output output', output.length = output'.length →
    A.encrypt m st input nonce data output = A.encrypt m st input nonce data output'
  /-- A message is encrypted to a prefix of the encryption of any longer one, whatever the data. -/
  stream : ∀ m m' p s nonce data data' output output' ct t ct' t',
    A.encrypt m st p nonce data output = some (ct, t) →
    A.encrypt m' st (p ++ s) nonce data' output' = some (ct', t') → ct = ct'.take p.length
  /-- Decryption of a ciphertext with its tag gives the message back, whatever was in the buffer. -/
  roundtrip : ∀ m input nonce data output ct t, A.encrypt m st input nonce data output = some (ct, t) →
    ∀ buf : Bytes, buf.length = input.length → A.decrypt m st ct nonce data t buf = some (input, true)
  /-- A rejected ciphertext leaves the buffer as it was. -/
  reject : ∀ m ct nonce data t buf out, A.decrypt m st ct nonce data t buf = some (out, false) → out = buf
  /-- Only what `encrypt` produces is accepted: encrypting the plaintext again gives this ciphertext and this tag. -/
  accept : ∀ m ct nonce data t buf out, A.decrypt m st ct nonce data t buf = some (out, true) →
    A.encrypt m st out nonce data buf = some (ct, t)
  /-- For a nonce, data and ciphertext at most one tag is accepted, in any build mode. -/
  unique : ∀ m m' ct nonce data t t' buf buf' out out', A.decrypt m st ct nonce data t buf = some (out, true) →
    A.decrypt m' st ct nonce data t' buf' = some (out', true) → t = t' ∧ out = out'
  /-- Whether a tag is accepted does not depend on the buffer: for another buffer of that length the answer is the same. -/
  answer : ∀ m ct nonce data t buf buf' out ok, buf.length = buf'.length →
    A.decrypt m st ct nonce data t buf = some (out, ok) →
    A.decrypt m st ct nonce data t buf' = some (if ok then out else buf', ok)

/-- A sufficient condition: `encrypt` and `decrypt` are, when they do not panic, a length-preserving involution compatible
with prefixes and a tag function. -/
theorem AeadContract.of (A : AeadCipher) (st : A.State) (crypt : Bytes → Bytes → Bytes) (tag : Bytes → Bytes → Bytes → Bytes)
    (ok : Mode → Nat → Bytes → Bytes → Prop) (perm : Nat → Bytes → Bytes → Prop)
    (hcl : ∀ nonce x, nonce.length = 12 → (crypt nonce x).length = x.length)
    (hci : ∀ nonce x, nonce.length = 12 → crypt nonce (crypt nonce x) = x)
    (hcp : ∀ nonce x y, nonce.length = 12 → crypt nonce x = (crypt nonce (x ++ y)).take x.length)
    (htl : ∀ nonce data ct, nonce.length = 12 → (tag nonce data ct).length = 16)
    (hn : ∀ m n nonce data, ok m n nonce data → nonce.length = 12 ∧ perm n nonce data)
    (he : ∀ m input nonce data output, A.encrypt m st input nonce data output =
      open Classical in if input.length = output.length ∧ ok m input.length nonce data then
        some (crypt nonce input, tag nonce data (crypt nonce input)) else none)
    (hd : ∀ m ct nonce data t output, A.decrypt m st ct nonce data t output =
      open Classical in if ct.length = output.length ∧ perm ct.length nonce data then
        if t = tag nonce data ct then
          if ok m ct.length nonce data then some (crypt nonce ct, true) else none
        else some (output, false)
      else none) : AeadContract A st := by
  have inv : ∀ m input nonce data output ct t, A.encrypt m st input nonce data output = some (ct, t) →
      input.length = output.length ∧ ok m input.length nonce data ∧ ct = crypt nonce input ∧ t = tag nonce data ct := by
    intro m input nonce data output ct t h
    rw [he] at h
    split at h
    · rename_i hc
      obtain ⟨rfl, rfl⟩ := Prod.mk.inj (Option.some.inj h)
      exact ⟨hc.1, hc.2, rfl, rfl⟩
    · cases h
  have dinv : ∀ m ct nonce data t buf out b, A.decrypt m st ct nonce data t buf = some (out, b) →
      ct.length = buf.length ∧ perm ct.length nonce data ∧
      ((b = true ∧ t = tag nonce data ct ∧ ok m ct.length nonce data ∧ out = crypt nonce ct) ∨
        (b = false ∧ t ≠ tag nonce data ct ∧ out = buf)) := by
    intro m ct nonce data t buf out b h
    rw [hd] at h
    split at h
    · rename_i hc
      refine ⟨hc.1, hc.2, ?_⟩
      split at h
      · rename_i ht
        split at h
        · rename_i hk
          obtain ⟨rfl, rfl⟩ := Prod.mk.inj (Option.some.inj h)
          exact .inl ⟨rfl, ht, hk, rfl⟩
        · cases h
      · rename_i ht
        obtain ⟨rfl, rfl⟩ := Prod.mk.inj (Option.some.inj h)
        exact .inr ⟨rfl, ht, rfl⟩
    · cases h
  refine ⟨?_, ?_, ?_, ?_, ?_, ?_, ?_, ?_⟩
  · intro m input nonce data output ct t h
    obtain ⟨-, hk, rfl, rfl⟩ := inv _ _ _ _ _ _ _ h
    have hn := (hn _ _ _ _ hk).1
    exact ⟨hcl _ _ hn, htl _ _ _ hn⟩
  · intro m input nonce data output output' h
    rw [he, he, h]
  · intro m m' p s nonce data data' output output' ct t ct' t' h h'
    obtain ⟨-, hk, rfl, -⟩ := inv _ _ _ _ _ _ _ h
    obtain ⟨-, -, rfl, -⟩ := inv _ _ _ _ _ _ _ h'
    exact hcp _ _ _ (hn _ _ _ _ hk).1
  · intro m input nonce data output ct t h buf hb
    obtain ⟨-, hk, rfl, rfl⟩ := inv _ _ _ _ _ _ _ h
    have hn' := hn _ _ _ _ hk
    have hl := hcl nonce input hn'.1
    rw [hd, if_pos ⟨by rw [hl, hb], by rw [hl]; exact hn'.2⟩, if_pos rfl, if_pos (by rw [hl]; exact hk), hci _ _ hn'.1]
  · intro m ct nonce data t buf out h
    obtain ⟨-, -, ⟨h, -⟩ | ⟨-, -, h⟩⟩ := dinv _ _ _ _ _ _ _ _ h
    · cases h
    · exact h
  · intro m ct nonce data t buf out h
    obtain ⟨hl, hp, ⟨-, ht, hk, rfl⟩ | ⟨h, -⟩⟩ := dinv _ _ _ _ _ _ _ _ h
    · have hn' := (hn _ _ _ _ hk).1
      have hcl' := hcl nonce ct hn'
      rw [he, if_pos ⟨by rw [hcl', hl], by rw [hcl']; exact hk⟩, hci _ _ hn', ht]
    · cases h
  · intro m m' ct nonce data t t' buf buf' out out' h h'
    obtain ⟨-, -, ⟨-, ht, -, rfl⟩ | ⟨h, -⟩⟩ := dinv _ _ _ _ _ _ _ _ h
    · obtain ⟨-, -, ⟨-, ht', -, rfl⟩ | ⟨h, -⟩⟩ := dinv _ _ _ _ _ _ _ _ h'
      · exact ⟨ht.trans ht'.symm, rfl⟩
      · cases h
    · cases h
  · intro m ct nonce data t buf buf' out b hb h
    obtain ⟨hl, hp, ⟨rfl, ht, hk, rfl⟩ | ⟨rfl, ht, rfl⟩⟩ := dinv _ _ _ _ _ _ _ _ h
    · rw [hd, if_pos ⟨hl.trans hb, hp⟩, if_pos ht, if_pos hk]
      rfl
    · rw [hd, if_pos ⟨hl.trans hb, hp⟩, if_neg ht]
      rfl

/-! ## The implementors -/

theorem xorBytes_take (x y ks : Bytes) (h : x.length ≤ ks.length) :
    xorBytes x ks = (xorBytes (x ++ y) ks).take x.length := by
  induction x generalizing ks with
  | nil => simp [xorBytes]
  | cons a x ih =>
    cases ks with
    | nil => simp at h
    | cons b ks =>
      have := ih ks (by simpa using h)
      simp only [xorBytes, List.cons_append, List.zipWith_cons_cons, List.length_cons, List.take_succ_cons] at this ⊢
      rw [this]

/-- Two keystreams that agree where both are needed. -/
theorem xorBytes_congr (x k1 k2 : Bytes) (h : k1.take x.length = k2.take x.length) : xorBytes x k1 = xorBytes x k2 := by
  have e : ∀ k : Bytes, xorBytes x k = xorBytes x (k.take x.length) := by
    intro k
    unfold xorBytes
    apply List.ext_getElem?
    intro i
    rw [List.getElem?_zipWith, List.getElem?_zipWith]
    rcases Nat.lt_or_ge i x.length with hi | hi
    · rw [List.getElem?_take_of_lt hi]
    · rw [List.getElem?_eq_none hi]
  rw [e k1, e k2, h]

theorem flatten_length_mul (B : Nat) (f : Nat → Bytes) (hf : ∀ j, (f j).length = B) (n : Nat) :
    (((List.range n).map f).flatten).length = B * n := by
  induction n with
  | zero => simp
  | succ n ih =>
    rw [List.range_succ, List.map_append, List.flatten_append, List.length_append, ih]
    simp [hf, Nat.mul_succ]

/-- Counter mode encrypts a prefix to a prefix. -/
theorem ctr_prefix (B : Nat) (f : Nat → Bytes) (hf : ∀ j, (f j).length = B) (x y : Bytes) (n d : Nat)
    (hx : x.length ≤ B * n) :
    xorBytes x (((List.range n).map f).flatten) =
      (xorBytes (x ++ y) (((List.range (n + d)).map f).flatten)).take x.length := by
  have hl := flatten_length_mul B f hf n
  rw [List.range_add, List.map_append, List.flatten_append, ← xorBytes_take _ _ _ (by rw [List.length_append]; omega)]
  apply xorBytes_congr
  rw [List.take_append_of_le_length (by omega)]

/-- C99 for GCM over any block cipher. -/
theorem C99_gcm (E : Aes.BlockCipher) (st : E.State) (hE : MapsBlocks E st) : AeadContract (gcmAead E) st := by
  classical
  have hx : ∀ nonce x : Bytes, nonce.length = 12 → Spec.Gcm.crypt (E.permute st) nonce x =
      xorBytes x (((List.range ((x.length + 15) / 16)).map (fun j => E.permute st (nonce ++ toBE 4 (j + 2)))).flatten) := by
    intro nonce x hn
    unfold Spec.Gcm.crypt Spec.Gcm.gctr
    rw [Proofs.Gcm.J0_eq, Proofs.Gcm.inc32_ctr _ hn, Proofs.Gcm.gctrBlocks_xor _ hE nonce hn]
  have hcl : ∀ nonce x : Bytes, nonce.length = 12 → (Spec.Gcm.crypt (E.permute st) nonce x).length = x.length :=
    fun nonce x hn => Proofs.Gcm.crypt_length _ hE nonce hn x
  refine AeadContract.of (gcmAead E) st (Spec.Gcm.crypt (E.permute st)) (Spec.Gcm.tag (E.permute st))
    (fun m n nonce data => (nonce.length = 12 ∧ n < 2 ^ 36 - 32 ∧ data.length < 2 ^ 61) ∧ Countable m n)
    (fun n nonce data => nonce.length = 12 ∧ n < 2 ^ 36 - 32 ∧ data.length < 2 ^ 61)
    hcl ?_ ?_ (fun nonce data ct hn => tag_length _ hE nonce data ct hn) (fun m n nonce data h => ⟨h.1.1, h.1⟩) ?_ ?_
  · intro nonce x hn
    have hl := hcl nonce x hn
    rw [hx nonce _ hn, hl]
    have h2 := hx nonce x hn
    rw [h2] at hl ⊢
    rw [xorBytes_length] at hl
    exact xorBytes_cancel _ _ (by omega)
  · intro nonce x y hn
    rw [hx nonce x hn, hx nonce (x ++ y) hn]
    obtain ⟨d, hd⟩ := Nat.exists_eq_add_of_le (show (x.length + 15) / 16 ≤ ((x ++ y).length + 15) / 16 by
      rw [List.length_append]; omega)
    rw [hd]
    exact ctr_prefix 16 _ (fun j => hE _ (by simp [hn])) x y _ d (by omega)
  · intro m input nonce data output
    split
    · rename_i h
      exact (C96_encrypt E m st hE input nonce data output).1 ⟨⟨h.2.1.1, h.1, h.2.1.2.1, h.2.1.2.2⟩, h.2.2⟩
    · rename_i h
      exact (C96_encrypt E m st hE input nonce data output).2 (fun hc => h ⟨hc.1.2.1, ⟨hc.1.1, hc.1.2.2.1, hc.1.2.2.2⟩, hc.2⟩)
  · intro m ct nonce data t output
    have hd := C96_decrypt E m st hE ct nonce data t output
    split
    · rename_i h
      have hp : GcmPermitted ct nonce data output := ⟨h.2.1, h.1, h.2.2.1, h.2.2.2⟩
      split
      · rename_i ht
        split
        · rename_i hk
          exact (hd.2.2 hp ht).1 hk.2
        · rename_i hk
          exact (hd.2.2 hp ht).2 (fun hc => hk ⟨h.2, hc⟩)
      · rename_i ht
        exact hd.2.1 hp ht
    · rename_i h
      exact hd.1 (fun hp => h ⟨hp.2.1, hp.1, hp.2.2.1, hp.2.2.2⟩)

/-- C99 for ChaCha20-Poly1305. -/
theorem C99_ccp (key k : Bytes) (hk : Model.Poly1305.new key = some k) : AeadContract ccpAead k := by
  classical
  obtain ⟨rfl, hk⟩ := new_eq hk
  have ht : ∀ nonce data ct : Bytes, ∃ t : Bytes, nonce.length = 12 → t.length = 16 ∧
      ∀ m, Model.Poly1305.tag m (ChaCha20.setupState k nonce) ct data = some t := by
    intro nonce data ct
    by_cases hn : nonce.length = 12
    · obtain ⟨t, h1, h2, -⟩ := Proofs.Poly1305.tag_exists k nonce hk hn data ct
      exact ⟨t, fun _ => ⟨h2, h1⟩⟩
    · exact ⟨[], fun h => absurd h hn⟩
  choose tag htag using ht
  have hx : ∀ nonce x : Bytes, Spec.Poly1305.crypt k nonce x = xorBytes x (((List.range ((x.length + 63) / 64)).map
      (fun j => Spec.ChaCha20.block k (BitVec.ofNat 32 (j + 1)) nonce)).flatten) :=
    fun nonce x => Proofs.Poly1305.cryptBlocks_xor k nonce x 1
  refine AeadContract.of ccpAead k (Spec.Poly1305.crypt k) tag
    (fun m n nonce data => nonce.length = 12 ∧ (m = .release ∨ (n + 63) / 64 < 2 ^ 32 - 2))
    (fun n nonce data => nonce.length = 12) (fun nonce x _ => Proofs.Poly1305.crypt_length k nonce x)
    (fun nonce x _ => Proofs.Poly1305.crypt_involutive k nonce x) ?_ (fun nonce data ct hn => (htag nonce data ct hn).1)
    (fun m n nonce data h => ⟨h.1, h.1⟩) ?_ ?_
  · intro nonce x y hn
    rw [hx nonce x, hx nonce (x ++ y)]
    obtain ⟨d, hd⟩ := Nat.exists_eq_add_of_le (show (x.length + 63) / 64 ≤ ((x ++ y).length + 63) / 64 by
      rw [List.length_append]; omega)
    rw [hd]
    exact ctr_prefix 64 _ (fun j => Proofs.ChaCha20.spec_block_length _ _ _) x y _ d (by omega)
  · intro m input nonce data output
    have he := ccp_encrypt m k input nonce data output hk
    split
    · rename_i h
      obtain ⟨t, e, ht⟩ := he.2 ⟨⟨h.1, h.2.1⟩, h.2.2⟩
      rw [(htag nonce data _ h.2.1).2 m] at ht
      rw [Option.some.inj ht]
      exact e
    · rename_i h
      exact he.1 (fun hc => h ⟨hc.1.1, hc.1.2, hc.2⟩)
  · intro m ct nonce data t output
    split
    · rename_i h
      obtain ⟨hl, hn⟩ := h
      have h1 := htag nonce data ct hn
      change Model.Poly1305.decrypt m k ct nonce data t output = _
      unfold Model.Poly1305.decrypt
      rw [show (output.length == ct.length) = true by simpa using hl.symm, assert_true, chacha_new k nonce hk hn]
      simp only [Option.bind_eq_bind, Option.bind_some]
      rw [h1.2 m]
      simp only [Option.bind_some]
      rw [C01_verify16 _ _ h1.1]
      simp only [Option.bind_some]
      rw [Proofs.Poly1305.process_spec' k nonce hk hn m ct output hl]
      by_cases hte : t = tag nonce data ct
      · subst hte
        by_cases hm : m = .release ∨ (ct.length + 63) / 64 < 2 ^ 32 - 2
        · rw [if_pos hm]
          simp only [decide_true, if_true, Option.bind_some]
          exact (if_pos ⟨hn, hm⟩).symm
        · rw [if_neg hm]
          simp only [decide_true, if_true, Option.bind_none]
          exact (if_neg (fun h => hm h.2)).symm
      · have hte' : ¬ tag nonce data ct = t := fun h => hte h.symm
        simp [hte, hte']
    · rename_i h
      exact (C34_decrypt_panics m k k ct nonce data t output (by simp [Model.Poly1305.new, hk, assert])).2 h

/-- C99: every object that the crate's four AEADs construct keeps the contract. -/
theorem C99_contract (A : AeadCipher) (hA : A ∈ aeads) (key : Bytes) (st : A.State) (h : A.new key = some st) :
    AeadContract A st := by
  simp only [aeads, List.mem_cons, List.not_mem_nil, or_false] at hA
  rcases hA with rfl | rfl | rfl | rfl
  · exact C99_gcm _ _ (fun x hx => C16_length .aes128 key st h x hx)
  · exact C99_gcm _ _ (fun x hx => C16_length .aes192 key st h x hx)
  · exact C99_gcm _ _ (fun x hx => C16_length .aes256 key st h x hx)
  · exact C99_ccp key st h

/-- The key lengths the constructors take; other lengths panic. -/
theorem C99_key_lengths (key : Bytes) :
    aeads.map (fun A => (A.new key).isSome) =
      [decide (key.length = 16), decide (key.length = 24), decide (key.length = 32), decide (key.length = 32)] := by
  have g : ∀ k : AesKind, (k.code.new key).isSome = decide (key.length = 4 * k.Nk) := by
    intro k
    have := C17_key_length k key
    by_cases h : key.length = 4 * k.Nk
    · rw [decide_eq_true h, Option.isSome_iff_ne_none]
      exact fun hc => this.mp hc h
    · rw [decide_eq_false h, this.mpr h]
      rfl
  have c : (Model.Poly1305.new key).isSome = decide (key.length = 32) := by
    by_cases h : key.length = 32
    · simp [Model.Poly1305.new, h, assert]
    · have : (32 == key.length) = false := by simpa using fun h' : 32 = key.length => h h'.symm
      simp [Model.Poly1305.new, this, h, assert]
  have e : aeads.map (fun A => (A.new key).isSome) = [(AesKind.aes128.code.new key).isSome,
    (AesKind.aes192.code.new key).isSome, (AesKind.aes256.code.new key).isSome, (Model.Poly1305.new key).isSome] := rfl
  rw [e, g, g, g, c]
  rfl

/-- All four AEADs construct objects that encrypt: the hypotheses are met. -/
example : ∀ A ∈ aeads, ∃ key st ct t, A.new key = some st ∧
    A.encrypt .debug st [1, 2, 3] (zeros 12) [4] (zeros 3) = some (ct, t) ∧
    A.decrypt .debug st ct (zeros 12) [4] t (zeros 3) = some ([1, 2, 3], true) := by
  have key : ∀ (A : AeadCipher) (hA : A ∈ aeads) (k : Bytes) (st : A.State), A.new k = some st →
      (A.encrypt .debug st [1, 2, 3] (zeros 12) [4] (zeros 3)).isSome →
      ∃ key st ct t, A.new key = some st ∧ A.encrypt .debug st [1, 2, 3] (zeros 12) [4] (zeros 3) = some (ct, t) ∧
        A.decrypt .debug st ct (zeros 12) [4] t (zeros 3) = some ([1, 2, 3], true) := by
    intro A hA k st h he
    obtain ⟨⟨ct, t⟩, he⟩ := Option.isSome_iff_exists.mp he
    exact ⟨k, st, ct, t, h, he, (C99_contract A hA k st h).roundtrip _ _ _ _ _ _ _ he _ rfl⟩
  have gk : ∀ k : AesKind, gcmAead k.code ∈ aeads → ∃ key st ct t, (gcmAead k.code).new key = some st ∧
      (gcmAead k.code).encrypt .debug st [1, 2, 3] (zeros 12) [4] (zeros 3) = some (ct, t) ∧
      (gcmAead k.code).decrypt .debug st ct (zeros 12) [4] t (zeros 3) = some ([1, 2, 3], true) := by
    intro k hA
    obtain ⟨st, out, t, h1, h2⟩ := gcm_reachable k .debug (zeros (4 * k.Nk)) [1, 2, 3] (zeros 12) [4] (zeros 3)
      (by simp) (by simp) (by simp) (by simp) (by simp)
    exact key _ hA _ st h1 (Option.isSome_iff_exists.mpr ⟨_, h2⟩)
  intro A hA
  have hA' := hA
  simp only [aeads, List.mem_cons, List.not_mem_nil, or_false] at hA'
  rcases hA' with rfl | rfl | rfl | rfl
  · exact gk .aes128 hA
  · exact gk .aes192 hA
  · exact gk .aes256 hA
  · exact key _ hA (zeros 32) (zeros 32) rfl (by decide +kernel)

/-! ## Further concrete cases -/

example : AeadContract ccpAead (zeros 32) := C99_ccp (zeros 32) (zeros 32) (by decide)

/-- A block cipher that adds a constant. -/
def xorCipher : Aes.BlockCipher := ⟨Unit, fun _ => some (), fun _ x => xorBytes x (List.replicate 16 5)⟩

/-- The contract holds over any block cipher that maps blocks to blocks. -/
example : AeadContract (gcmAead xorCipher) () :=
  C99_gcm xorCipher () fun x hx => by
    show (xorBytes x (List.replicate 16 5)).length = 16
    simp [xorBytes, hx]

/-- A key of 32 bytes fits AES-256-GCM and ChaCha20-Poly1305. -/
example : aeads.map (fun A => (A.new (zeros 32)).isSome) = [false, false, true, true] := by
  rw [C99_key_lengths]; decide

end CryptoPure.Props
