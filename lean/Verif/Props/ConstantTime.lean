import Verif.Proofs.LeakCurve
import Verif.Props.Gcm
import Verif.Props.ChaChaPoly
import Verif.Props.Hmac

/-! # Properties C66 to C71: timing does not depend on secrets

`Leak.L` records, along a run, the outcome of every conditional and the position of every memory access (see
Verif/Leak/Basic.lean for the exact leakage model). A function is constant-time here if two runs on inputs of equal
lengths produce the same record. All statements are about builds without overflow checks; the theorems `.._recorded`
say that the recorded functions are the modelled functions. -/

namespace CryptoPure.Props
open CryptoPure.Leak (L Event Alike SameLen)

/-- An observer of timing cannot tell the two runs apart: same outcomes of conditionals, same positions accessed, and
either both return or both panic. -/
def Indistinguishable {α : Type} (x y : L α) : Prop := x.trace = y.trace ∧ x.val.isSome = y.val.isSome

theorem indist {α : Type} {R : α → α → Prop} {x y : L α} (h : Alike R x y) : Indistinguishable x y := by
  refine ⟨h.trace, ?_⟩
  have := h.val
  revert this
  cases x.val <;> cases y.val <;> simp

/-- The notion is not empty: a comparison that stops at the first difference is told apart on inputs of equal length. -/
example :
    let early : Bytes × Bytes → L Bool := fun p =>
      Leak.loop (fun b (q : U8 × U8) => do if ← Leak.branch (q.1 == q.2) then pure b else pure false) (p.1.zip p.2) true
    ¬ Indistinguishable (early ([1, 2], [1, 2])) (early ([1, 2], [3, 2])) := by
  intro early h
  exact absurd h.1 (by decide)

/-- So is a look-up at a secret position. -/
example : ¬ Indistinguishable (Leak.get [5, 6, 7] 1 0) (Leak.get [5, 6, 7] 2 0) := by
  intro h
  exact absurd h.1 (by decide)

/-! ## C66: comparing tags -/

theorem C66_recorded (x y : Bytes) : (Leak.Util.verify16 x y).val = Model.Util.verify16 x y :=
  Leak.Util.verify16_val x y

/-- Comparing a tag with the expected one reveals neither whether nor where they differ. -/
theorem C66_comparison (x y x' y' : Bytes) (hx : x.length = x'.length) (hy : y.length = y'.length) :
    Indistinguishable (Leak.Util.verify16 x y) (Leak.Util.verify16 x' y') :=
  indist (Leak.Util.verify16_alike x y x' y' hx hy)

/-- An equal pair and a pair that differs at once. -/
example : Indistinguishable (Leak.Util.verify16 (zeros 16) (zeros 16)) (Leak.Util.verify16 (zeros 16) ((zeros 16).set 0 1)) ∧
    (Leak.Util.verify16 (zeros 16) (zeros 16)).val = some true ∧
    (Leak.Util.verify16 (zeros 16) ((zeros 16).set 0 1)).val = some false :=
  ⟨C66_comparison _ _ _ _ rfl rfl, by decide, by decide⟩

/-! ## C67: AES and GCM -/

/-- The recorded block cipher. -/
def AesKind.leak (k : AesKind) : Leak.Aes.BlockCipher := Leak.Aes.implCipher k.Nk

/-- `Aes..::new`, then one block. -/
def aesRun (k : AesKind) (key block : Bytes) : L Bytes := do
  let st ← k.leak.new key
  k.leak.permute st block

/-- `Gcm::new`, then `encrypt`. -/
def gcmEncryptRun (k : AesKind) (key input nonce data output : Bytes) : L (Bytes × Bytes) := do
  let st ← k.leak.new key
  Leak.Gcm.encrypt k.leak st input nonce data output

/-- `Gcm::new`, then `decrypt`. -/
def gcmDecryptRun (k : AesKind) (key input nonce data tag output : Bytes) : L (Bytes × Bool) := do
  let st ← k.leak.new key
  Leak.Gcm.decrypt k.leak st input nonce data tag output

attribute [local irreducible] Leak.Aes.permute Model.Aes.permute Leak.Aes.keyExpansion Model.Aes.keyExpansion
  Model.Gcm.encrypt Model.Gcm.decrypt Leak.Gcm.encrypt Leak.Gcm.decrypt

theorem aes_new_val (nk : Nat) (hnk : 0 < nk) (key : Bytes) :
    (((Leak.Aes.implCipher nk).new key : L _)).val = (Model.Aes.implCipher nk).new key :=
  Leak.Aes.keyExpansion_val nk hnk key

theorem gcm_run_val (nk : Nat) (hnk : 0 < nk) (key input nonce data tag output : Bytes) :
    (do let st ← (Leak.Aes.implCipher nk).new key
        Leak.Gcm.encrypt (Leak.Aes.implCipher nk) st input nonce data output : L (Bytes × Bytes)).val =
      (do let st ← (Model.Aes.implCipher nk).new key
          Model.Gcm.encrypt (Model.Aes.implCipher nk) .release st input nonce data output) ∧
    (do let st ← (Leak.Aes.implCipher nk).new key
        Leak.Gcm.decrypt (Leak.Aes.implCipher nk) st input nonce data tag output : L (Bytes × Bool)).val =
      (do let st ← (Model.Aes.implCipher nk).new key
          Model.Gcm.decrypt (Model.Aes.implCipher nk) .release st input nonce data tag output) ∧
    (do let st ← (Leak.Aes.implCipher nk).new key
        (Leak.Aes.implCipher nk).permute st input : L Bytes).val =
      (do let st ← (Model.Aes.implCipher nk).new key
          some ((Model.Aes.implCipher nk).permute st input)) := by
  have hE := Leak.Gcm.records_aes nk
  refine ⟨?_, ?_, ?_⟩ <;> rw [Leak.val_bind, aes_new_val nk hnk] <;> congr 1 <;> funext st
  · exact Leak.Gcm.encrypt_val hE st _ _ _ _
  · exact Leak.Gcm.decrypt_val hE st _ _ _ _ _
  · exact hE.permute st input

theorem C67_recorded (k : AesKind) (key input nonce data tag output : Bytes) :
    (gcmEncryptRun k key input nonce data output).val =
      (do let st ← Model.Gcm.new k.code key; Model.Gcm.encrypt k.code .release st input nonce data output) ∧
    (gcmDecryptRun k key input nonce data tag output).val =
      (do let st ← Model.Gcm.new k.code key; Model.Gcm.decrypt k.code .release st input nonce data tag output) ∧
    (aesRun k key input).val = (do let st ← k.code.new key; some (k.code.permute st input)) := by
  cases k
  · exact gcm_run_val 4 (by decide) key input nonce data tag output
  · exact gcm_run_val 6 (by decide) key input nonce data tag output
  · exact gcm_run_val 8 (by decide) key input nonce data tag output

theorem aes_new_alike (nk : Nat) (key key' : Bytes) (h : key.length = key'.length) :
    Alike SameLen ((Leak.Aes.implCipher nk).new key) ((Leak.Aes.implCipher nk).new key') :=
  Leak.Aes.keyExpansion_alike nk key key' h

/-- AES reveals neither key nor block: no table look-up and no conditional depends on them. -/
theorem C67_aes (k : AesKind) (key block key' block' : Bytes) (hk : key.length = key'.length)
    (hb : block.length = block'.length) : Indistinguishable (aesRun k key block) (aesRun k key' block') :=
  indist (.bind (aes_new_alike k.Nk key key' hk) fun _ _ h => (Leak.Gcm.steady_aes k.Nk).permute _ _ _ _ h hb)

/-- Encryption reveals only lengths. -/
theorem C67_encrypt (k : AesKind) (key input nonce data output key' input' nonce' data' output' : Bytes)
    (hk : key.length = key'.length) (hi : input.length = input'.length) (hn : nonce.length = nonce'.length)
    (hd : data.length = data'.length) (ho : output.length = output'.length) :
    Indistinguishable (gcmEncryptRun k key input nonce data output) (gcmEncryptRun k key' input' nonce' data' output') :=
  indist (.bind (aes_new_alike k.Nk key key' hk) fun _ _ h =>
    Leak.Gcm.encrypt_alike (Leak.Gcm.steady_aes k.Nk) _ _ h _ _ _ _ _ _ _ _ hi hn hd ho)

/-- Decryption reveals only lengths and whether the tag was accepted. -/
theorem C67_decrypt (k : AesKind) (key input nonce data tag output key' input' nonce' data' tag' output' : Bytes)
    (hk : key.length = key'.length) (hi : input.length = input'.length) (hn : nonce.length = nonce'.length)
    (hd : data.length = data'.length) (ht : tag.length = tag'.length) (ho : output.length = output'.length)
    (hok : ∀ r r', (gcmDecryptRun k key input nonce data tag output).val = some r →
      (gcmDecryptRun k key' input' nonce' data' tag' output').val = some r' → r.2 = r'.2) :
    (gcmDecryptRun k key input nonce data tag output).trace =
      (gcmDecryptRun k key' input' nonce' data' tag' output').trace :=
  Leak.trace_bind (aes_new_alike k.Nk key key' hk) (fun _ _ h hok =>
    Leak.Gcm.decrypt_alike (Leak.Gcm.steady_aes k.Nk) _ _ h _ _ _ _ _ _ _ _ _ _ hi hn hd ht ho hok) hok

/-- In particular two genuine ciphertexts of equal lengths, under whatever keys, take the same time to decrypt. -/
theorem C67_decrypt_genuine (k : AesKind) (key key' msg msg' nonce nonce' data data' buf buf' ct ct' t t' out out' : Bytes)
    (hk : key.length = key'.length) (hn : nonce.length = nonce'.length) (hd : data.length = data'.length)
    (h : (do let st ← Model.Gcm.new k.code key; Model.Gcm.encrypt k.code .release st msg nonce data buf) = some (ct, t))
    (h' : (do let st ← Model.Gcm.new k.code key'; Model.Gcm.encrypt k.code .release st msg' nonce' data' buf') = some (ct', t'))
    (hc : ct.length = ct'.length) (ho : out.length = ct.length) (ho' : out'.length = ct'.length) :
    (gcmDecryptRun k key ct nonce data t out).trace = (gcmDecryptRun k key' ct' nonce' data' t' out').trace := by
  have go : ∀ (key msg nonce data buf ct t out : Bytes), out.length = ct.length →
      (do let st ← Model.Gcm.new k.code key; Model.Gcm.encrypt k.code .release st msg nonce data buf) = some (ct, t) →
      t.length = 16 ∧ (gcmDecryptRun k key ct nonce data t out).val = some (msg, true) := by
    intro key msg nonce data buf ct t out ho h
    rw [(C67_recorded k key ct nonce data t out).2.1]
    cases hst : Model.Gcm.new k.code key with
    | none => rw [hst] at h; cases h
    | some st =>
      rw [hst] at h
      exact ⟨(C50_gcm_lengths k .release key st hst msg nonce data buf ct t h).2.2,
        C20_roundtrip k .release key st hst msg nonce data buf ct t h out ho⟩
  obtain ⟨a1, a2⟩ := go _ _ _ _ _ _ _ _ ho h
  obtain ⟨b1, b2⟩ := go _ _ _ _ _ _ _ _ ho' h'
  refine C67_decrypt k _ _ _ _ _ _ _ _ _ _ _ _ hk hc hn hd (by rw [a1, b1]) (by rw [ho, ho', hc]) ?_
  intro r r' hr hr'
  rw [a2] at hr
  rw [b2] at hr'
  cases hr
  cases hr'
  rfl

/-- Two different keys and messages. -/
example : Indistinguishable
    (gcmEncryptRun .aes128 (zeros 16) [1, 2, 3] (zeros 12) [] (zeros 3))
    (gcmEncryptRun .aes128 (List.replicate 16 0xff) [9, 9, 9] (zeros 12) [] (zeros 3)) :=
  C67_encrypt .aes128 _ _ _ _ _ _ _ _ _ _ (by simp [zeros]) rfl rfl rfl rfl

/-! ## C68: ChaCha20 and ChaCha20-Poly1305 -/

/-- A stream object: `Stream::new`, then any sequence of `encrypt`/`decrypt` calls. -/
def streamRun (key nonce : Bytes) (calls : List (Bytes × Bytes)) : L Model.ChaCha20.Stream := do
  let s ← Leak.ChaCha20.Stream.new key nonce
  Leak.loop (fun s c => do
    let (_, s) ← Leak.ChaCha20.Stream.process s c.1 c.2
    pure s) calls s

theorem C68_recorded (key input nonce data tag output : Bytes) (calls : List (Bytes × Bytes)) :
    (streamRun key nonce calls).val =
      (do let s ← Model.ChaCha20.Stream.new key nonce
          calls.foldlM (fun s c => do let (_, s) ← s.process .release c.1 c.2; some s) s) ∧
    (Leak.Poly1305.encrypt key input nonce data output).val = Model.Poly1305.encrypt .release key input nonce data output ∧
    (Leak.Poly1305.decrypt key input nonce data tag output).val =
      Model.Poly1305.decrypt .release key input nonce data tag output := by
  refine ⟨?_, Leak.Poly1305.encrypt_val _ _ _ _ _, Leak.Poly1305.decrypt_val _ _ _ _ _ _⟩
  unfold streamRun
  simp only [Leak.val_bind, Leak.ChaCha20.stream_new_val, Leak.val_loop, Leak.ChaCha20.process_val, Leak.val_pure,
    Option.bind_eq_bind]

/-- A ChaCha20 stream reveals only the lengths of the pieces it is given. -/
theorem C68_stream (key nonce key' nonce' : Bytes) (calls calls' : List (Bytes × Bytes)) (hk : key.length = key'.length)
    (hn : nonce.length = nonce'.length)
    (hc : List.Forall₂ (fun c c' => c.1.length = c'.1.length ∧ c.2.length = c'.2.length) calls calls') :
    Indistinguishable (streamRun key nonce calls) (streamRun key' nonce' calls') := by
  refine indist (.bind (Leak.ChaCha20.stream_new_alike _ _ _ _ hk hn) fun _ _ h => Leak.Alike.loop ?_ _ _ _ _ hc h)
  rintro s t c c' h ⟨h1, h2⟩
  exact .bind (Leak.ChaCha20.process_alike s t _ _ _ _ h h1 h2) fun _ _ h => .pure h.2

/-- Encryption reveals only lengths. -/
theorem C68_encrypt (key input nonce data output key' input' nonce' data' output' : Bytes)
    (hk : key.length = key'.length) (hi : input.length = input'.length) (hn : nonce.length = nonce'.length)
    (hd : data.length = data'.length) (ho : output.length = output'.length) :
    Indistinguishable (Leak.Poly1305.encrypt key input nonce data output)
      (Leak.Poly1305.encrypt key' input' nonce' data' output') :=
  indist (Leak.Poly1305.encrypt_alike _ _ _ _ _ _ _ _ _ _ hk hi hn hd ho)

/-- Decryption reveals only lengths and whether the tag was accepted. -/
theorem C68_decrypt (key input nonce data tag output key' input' nonce' data' tag' output' : Bytes)
    (hk : key.length = key'.length) (hi : input.length = input'.length) (hn : nonce.length = nonce'.length)
    (hd : data.length = data'.length) (ht : tag.length = tag'.length) (ho : output.length = output'.length)
    (hok : ∀ r r', (Leak.Poly1305.decrypt key input nonce data tag output).val = some r →
      (Leak.Poly1305.decrypt key' input' nonce' data' tag' output').val = some r' → r.2 = r'.2) :
    (Leak.Poly1305.decrypt key input nonce data tag output).trace =
      (Leak.Poly1305.decrypt key' input' nonce' data' tag' output').trace :=
  Leak.Poly1305.decrypt_alike _ _ _ _ _ _ _ _ _ _ _ _ hk hi hn hd ht ho hok

/-- Two keys, three pieces each, the second of which crosses a block boundary. -/
example : Indistinguishable (streamRun (zeros 32) (zeros 12) [([1], [0]), (zeros 100, zeros 100), ([], [])])
    (streamRun (List.replicate 32 7) (zeros 12) [([2], [5]), (List.replicate 100 3, zeros 100), ([], [])]) :=
  C68_stream _ _ _ _ _ _ (by simp [zeros]) rfl
    (.cons ⟨rfl, rfl⟩ (.cons ⟨by simp [zeros], rfl⟩ (.cons ⟨rfl, rfl⟩ .nil)))

/-- In particular two genuine ciphertexts of equal lengths, under whatever keys, take the same time to decrypt. -/
theorem C68_decrypt_genuine (key key' msg msg' nonce nonce' data data' buf buf' ct ct' t t' out out' : Bytes)
    (hk : key.length = 32) (hk' : key'.length = 32) (hn : nonce.length = nonce'.length) (hd : data.length = data'.length)
    (h : Model.Poly1305.encrypt .release key msg nonce data buf = some (ct, t))
    (h' : Model.Poly1305.encrypt .release key' msg' nonce' data' buf' = some (ct', t'))
    (hc : ct.length = ct'.length) (ho : out.length = ct.length) (ho' : out'.length = ct'.length) :
    (Leak.Poly1305.decrypt key ct nonce data t out).trace = (Leak.Poly1305.decrypt key' ct' nonce' data' t' out').trace := by
  have go : ∀ (key msg nonce data buf ct t out : Bytes), key.length = 32 → out.length = ct.length →
      Model.Poly1305.encrypt .release key msg nonce data buf = some (ct, t) →
      t.length = 16 ∧ (Leak.Poly1305.decrypt key ct nonce data t out).val = some (msg, true) := by
    intro key msg nonce data buf ct t out hk ho h
    rw [Leak.Poly1305.decrypt_val]
    have hn : Model.Poly1305.new key = some key := by simp [Model.Poly1305.new, assert, hk]
    exact ⟨(C50_ccp_lengths .release key key msg nonce data buf ct t hn h).2.2,
      C32_roundtrip .release key key msg nonce data buf ct t hn h out ho⟩
  obtain ⟨a1, a2⟩ := go _ _ _ _ _ _ _ _ hk ho h
  obtain ⟨b1, b2⟩ := go _ _ _ _ _ _ _ _ hk' ho' h'
  refine C68_decrypt _ _ _ _ _ _ _ _ _ _ _ _ (by rw [hk, hk']) hc hn hd (by rw [a1, b1]) (by rw [ho, ho', hc]) ?_
  intro r r' hr hr'
  rw [a2] at hr
  rw [b2] at hr'
  cases hr
  cases hr'
  rfl

/-! ## C69: SHA-2, HMAC, HKDF -/

/-- The recorded hash function. -/
def Variant.leak : Variant → Leak.Sha2.HashFunction
  | .sha224 => Leak.Sha2.Sha224
  | .sha256 => Leak.Sha2.Sha256
  | .sha384 => Leak.Sha2.Sha384
  | .sha512 => Leak.Sha2.Sha512

/-- A hash object: any sequence of `update` calls, then `write_digest`. -/
def hashRun (v : Variant) (parts : List Bytes) (out : Bytes) : L Bytes := do
  let s ← Leak.loop v.leak.update parts v.leak.default
  v.leak.writeDigest s out

/-- An HMAC object: `new`, any sequence of `update` calls, then `tag`. -/
def hmacRun (v : Variant) (key : Bytes) (parts : List Bytes) : L Bytes := do
  let h ← Leak.Hmac.new v.leak key
  let h ← Leak.loop Leak.Hmac.update parts h
  Leak.Hmac.tag h

theorem Variant.recorded (v : Variant) : ∃ f, Leak.Sha2.Records v.leak v.code f := by
  cases v <;> exact ⟨_, Leak.Sha2.records_impl _ _ _ _⟩

theorem Variant.steady (v : Variant) : ∃ R, Leak.Sha2.Steady v.leak R := by
  cases v <;> exact ⟨_, Leak.Sha2.steady_impl _ _ _ _⟩

theorem hmac_foldlM {H : Leak.Sha2.HashFunction} {M : Model.Sha2.HashFunction} {f : H.State → M.State}
    (hf : Leak.Sha2.Records H M f) : ∀ (l : List Bytes) (h : Leak.Hmac.Hmac H),
      (l.foldlM (fun h x => (Leak.Hmac.update h x).val) h).map (Leak.Hmac.conv f) =
        l.foldlM (Model.Hmac.update .release) (Leak.Hmac.conv f h)
  | [], _ => rfl
  | x :: l, h => by
    rw [List.foldlM_cons, List.foldlM_cons, ← Leak.Hmac.update_val hf]
    cases (Leak.Hmac.update h x).val with
    | none => rfl
    | some h => exact hmac_foldlM hf l h

theorem C69_recorded (v : Variant) (key msg tag salt ikm prk info okm out : Bytes) (parts : List Bytes) :
    (hashRun v parts out).val = hashParts v .release parts out ∧
    (hmacRun v key parts).val = hmacParts v .release key parts ∧
    (Leak.Hmac.verify v.leak key msg tag).val = Model.Hmac.verify v.code .release key msg tag ∧
    (Leak.Hkdf.extract v.leak salt ikm prk).val = Model.Hkdf.extract v.code .release salt ikm prk ∧
    (Leak.Hkdf.expand v.leak prk info okm).val = Model.Hkdf.expand v.code .release prk info okm := by
  obtain ⟨f, hf⟩ := v.recorded
  refine ⟨?_, ?_, Leak.Hmac.verify_val hf _ _ _, Leak.Hkdf.extract_val hf _ _ _, Leak.Hkdf.expand_val hf _ _ _⟩
  · unfold hashRun hashParts
    rw [Leak.val_bind, Leak.val_loop, ← hf.default,
      ← Leak.Hmac.foldlM_map _ _ (fun s x => hf.update s x)]
    cases List.foldlM (fun s x => (v.leak.update s x).val) v.leak.default parts with
    | none => rfl
    | some s => exact hf.writeDigest s out
  · unfold hmacRun hmacParts
    rw [Leak.val_bind, ← Leak.Hmac.new_val hf]
    cases (Leak.Hmac.new v.leak key).val with
    | none => rfl
    | some h =>
      rw [Option.bind_some, Leak.val_bind, Leak.val_loop, Option.map_some]
      simp only [Option.bind_eq_bind, Option.bind_some]
      rw [← hmac_foldlM hf]
      cases List.foldlM (fun h x => (Leak.Hmac.update h x).val) h parts with
      | none => rfl
      | some h => exact Leak.Hmac.tag_val hf h

/-- Hashing reveals only the lengths of the pieces. -/
theorem C69_hash (v : Variant) (parts parts' : List Bytes) (out out' : Bytes)
    (hp : List.Forall₂ (fun x y => x.length = y.length) parts parts') (ho : out.length = out'.length) :
    Indistinguishable (hashRun v parts out) (hashRun v parts' out') := by
  obtain ⟨R, hR⟩ := v.steady
  exact indist (.bind (Leak.Alike.loop (fun s t x y h hx => hR.update s t x y h hx) _ _ _ _ hp hR.default)
    fun _ _ h => hR.writeDigest _ _ _ _ h ho)

/-- HMAC reveals only the lengths of key and pieces; verification not even whether the tag is right. -/
theorem C69_hmac (v : Variant) (key key' : Bytes) (hk : key.length = key'.length) :
    (∀ parts parts' : List Bytes, List.Forall₂ (fun x y => x.length = y.length) parts parts' →
      Indistinguishable (hmacRun v key parts) (hmacRun v key' parts')) ∧
    (∀ msg msg' tag tag' : Bytes, msg.length = msg'.length → tag.length = tag'.length →
      Indistinguishable (Leak.Hmac.verify v.leak key msg tag) (Leak.Hmac.verify v.leak key' msg' tag')) := by
  obtain ⟨R, hR⟩ := v.steady
  refine ⟨fun parts parts' hp => ?_, fun _ _ _ _ hm ht => indist (Leak.Hmac.verify_alike hR _ _ _ _ _ _ hk hm ht)⟩
  exact indist (.bind (Leak.Hmac.new_alike hR key key' hk) fun _ _ h =>
    .bind (Leak.Alike.loop (fun s t x y h hx => Leak.Hmac.update_alike hR s t x y h hx) _ _ _ _ hp h) fun _ _ h =>
      Leak.Hmac.tag_alike hR _ _ h)

/-- HKDF reveals only lengths. -/
theorem C69_hkdf (v : Variant) (salt ikm prk info okm salt' ikm' prk' info' okm' : Bytes)
    (hs : salt.length = salt'.length) (hi : ikm.length = ikm'.length) (hp : prk.length = prk'.length)
    (hn : info.length = info'.length) (ho : okm.length = okm'.length) :
    Indistinguishable (Leak.Hkdf.extract v.leak salt ikm prk) (Leak.Hkdf.extract v.leak salt' ikm' prk') ∧
    Indistinguishable (Leak.Hkdf.expand v.leak prk info okm) (Leak.Hkdf.expand v.leak prk' info' okm') := by
  obtain ⟨R, hR⟩ := v.steady
  exact ⟨indist (Leak.Hkdf.extract_alike hR _ _ _ _ _ _ hs hi hp), indist (Leak.Hkdf.expand_alike hR _ _ _ _ _ _ hp hn ho)⟩

/-- Two keys and messages. -/
example : Indistinguishable (Leak.Hmac.verify Variant.sha256.leak [1, 2, 3] [4] (zeros 32))
    (Leak.Hmac.verify Variant.sha256.leak [9, 9, 9] [7] (List.replicate 32 8)) :=
  (C69_hmac .sha256 [1, 2, 3] [9, 9, 9] rfl).2 [4] [7] (zeros 32) (List.replicate 32 8) rfl (by simp [zeros])

/-! ## C70: X25519 -/

theorem C70_recorded (sk pk : Bytes) :
    (Leak.X25519.genPk sk).val = Model.X25519.genPk .release sk ∧ (Leak.X25519.dh pk sk).val = Model.X25519.dh .release pk sk := by
  unfold Leak.X25519.genPk Leak.X25519.dh Model.X25519.genPk Model.X25519.dh
  exact ⟨Leak.X25519.scalarmult_val _ _, Leak.X25519.scalarmult_val _ _⟩

/-- Neither key generation nor the key agreement reveals anything about the keys. -/
theorem C70_constant_time (sk sk' pk pk' : Bytes) (hs : sk.length = sk'.length) (hp : pk.length = pk'.length) :
    Indistinguishable (Leak.X25519.genPk sk) (Leak.X25519.genPk sk') ∧
    Indistinguishable (Leak.X25519.dh pk sk) (Leak.X25519.dh pk' sk') := by
  unfold Leak.X25519.genPk Leak.X25519.dh
  exact ⟨indist (Leak.X25519.scalarmult_alike _ _ _ _ hs rfl), indist (Leak.X25519.scalarmult_alike _ _ _ _ hs hp)⟩

/-- The all-zero and the all-one secret. -/
example : Indistinguishable (Leak.X25519.genPk (zeros 32)) (Leak.X25519.genPk (List.replicate 32 0xff)) :=
  (C70_constant_time (zeros 32) (List.replicate 32 0xff) [] [] (by simp [zeros]) rfl).1

/-! ## C71: Ed25519 -/

theorem C71_recorded (sk msg : Bytes) :
    (Leak.Ed25519.genPk sk).val = Model.Ed25519.genPk .release sk ∧
    (Leak.Ed25519.sign msg sk).val = Model.Ed25519.sign .release msg sk :=
  ⟨Leak.Ed25519.genPk_val sk, Leak.Ed25519.sign_val msg sk⟩

/-- Neither key generation nor signing reveals anything about the secret key; signing reveals the length of the message. -/
theorem C71_constant_time (sk sk' msg msg' : Bytes) (hs : sk.length = sk'.length) (hm : msg.length = msg'.length) :
    Indistinguishable (Leak.Ed25519.genPk sk) (Leak.Ed25519.genPk sk') ∧
    Indistinguishable (Leak.Ed25519.sign msg sk) (Leak.Ed25519.sign msg' sk') :=
  ⟨indist (Leak.Ed25519.genPk_alike _ _ hs), indist (Leak.Ed25519.sign_alike _ _ _ _ hm hs)⟩

example : Indistinguishable (Leak.Ed25519.sign [1] (zeros 32)) (Leak.Ed25519.sign [2] (List.replicate 32 0xff)) :=
  (C71_constant_time (zeros 32) (List.replicate 32 0xff) [1] [2] (by simp [zeros]) rfl).2

/-! ## Further concrete cases -/

example : (Leak.Util.verify16 [1, 2] [1, 2]).val = Model.Util.verify16 [1, 2] [1, 2] := C66_recorded _ _

example : Indistinguishable (aesRun .aes256 (zeros 32) (zeros 16)) (aesRun .aes256 (List.replicate 32 9) (List.replicate 16 0xff)) :=
  C67_aes .aes256 _ _ _ _ (by simp) (by simp)

/-- Two rejected ciphertexts: the tag is too short, so both answers are `false`. -/
example (key key' : Bytes) (hk : key.length = key'.length)
    (h : ∀ r, (gcmDecryptRun .aes128 key [1, 2] (zeros 12) [] [1] (zeros 2)).val = some r → r.2 = false)
    (h' : ∀ r, (gcmDecryptRun .aes128 key' [3, 4] (zeros 12) [] [2] (zeros 2)).val = some r → r.2 = false) :
    (gcmDecryptRun .aes128 key [1, 2] (zeros 12) [] [1] (zeros 2)).trace = (gcmDecryptRun .aes128 key' [3, 4] (zeros 12) [] [2] (zeros 2)).trace :=
  C67_decrypt .aes128 _ _ _ _ _ _ _ _ _ _ _ _ hk rfl rfl rfl rfl rfl fun r r' e e' => (h r e).trans (h' r' e').symm

example : Indistinguishable (Leak.Poly1305.encrypt (zeros 32) [1, 2] (zeros 12) [3] (zeros 2))
    (Leak.Poly1305.encrypt (List.replicate 32 9) [5, 6] (zeros 12) [4] (zeros 2)) :=
  C68_encrypt _ _ _ _ _ _ _ _ _ _ (by simp) rfl rfl rfl rfl

/-- Two genuine ciphertexts of the same length under different keys. -/
example (ct ct' t t' : Bytes) (h : Model.Poly1305.encrypt .release (zeros 32) [1, 2] (zeros 12) [3] (zeros 2) = some (ct, t))
    (h' : Model.Poly1305.encrypt .release (List.replicate 32 9) [5, 6] (zeros 12) [4] (zeros 2) = some (ct', t'))
    (hc : ct.length = 2) (hc' : ct'.length = 2) :
    (Leak.Poly1305.decrypt (zeros 32) ct (zeros 12) [3] t (zeros 2)).trace = (Leak.Poly1305.decrypt (List.replicate 32 9) ct' (zeros 12) [4] t' (zeros 2)).trace :=
  C68_decrypt_genuine _ _ _ _ _ _ _ _ _ _ ct ct' t t' (zeros 2) (zeros 2) (by simp) (by simp) rfl rfl h h' (hc.trans hc'.symm)
    (by simp [hc]) (by simp [hc'])

example : Indistinguishable (hashRun .sha384 [[1, 2], [], [3]] (zeros 48)) (hashRun .sha384 [[7, 7], [], [0]] (zeros 48)) :=
  C69_hash .sha384 _ _ _ _ (.cons rfl (.cons rfl (.cons rfl .nil))) rfl

example : Indistinguishable (Leak.Hkdf.expand Variant.sha512.leak (zeros 64) [1] (zeros 99))
    (Leak.Hkdf.expand Variant.sha512.leak (List.replicate 64 5) [2] (zeros 99)) :=
  (C69_hkdf .sha512 [] [] (zeros 64) [1] (zeros 99) [] [] (List.replicate 64 5) [2] (zeros 99) rfl rfl (by simp) rfl rfl).2

end CryptoPure.Props
