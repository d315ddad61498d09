import Verif.Props.Aead
import Verif.Props.Hmac
import Verif.Props.X25519
import Verif.Props.Ed25519

/-! # C101: the modules together

A signed key exchange as an application would write it with the crate: X25519, HKDF, an AEAD, Ed25519. -/

namespace CryptoPure.Props
open CryptoPure.Model

/-- The AEADs with their key lengths. -/
def sessionAeads : List (AeadCipher × Nat) :=
  [(gcmAead Aes.Aes128, 16), (gcmAead Aes.Aes192, 24), (gcmAead Aes.Aes256, 32), (ccpAead, 32)]

/-- An application derives an AEAD object from its own X25519 secret and the peer's public key:
`dh`, `hkdf::extract`, `hkdf::expand`, `new`. `v` chooses the hash of HKDF. -/
def derive (A : AeadCipher) (keyLen : Nat) (v : Variant) (m : Mode) (peer secret salt info : Bytes) : Option A.State := do
  let shared ← Model.X25519.dh m peer secret
  let prk ← Hkdf.extract v.code m salt shared (zeros v.size)
  let key ← Hkdf.expand v.code m prk info (zeros keyLen)
  A.new key

/-- The sender: derive the key, encrypt, sign ciphertext and tag. -/
def send (A : AeadCipher) (keyLen : Nat) (v : Variant) (m : Mode) (peer secret salt info nonce data signKey msg : Bytes) :
    Option (Bytes × Bytes × Bytes) := do
  let st ← derive A keyLen v m peer secret salt info
  let (ct, t) ← A.encrypt m st msg nonce data (zeros msg.length)
  let sig ← Model.Ed25519.sign m (ct ++ t) signKey
  some (ct, t, sig)

/-- The receiver: check the signature, derive the key, decrypt. `some none` is a rejection, `none` a panic. -/
def receive (A : AeadCipher) (keyLen : Nat) (v : Variant) (m : Mode) (peer secret salt info nonce data verifyKey ct t sig : Bytes) :
    Option (Option Bytes) := do
  let ok ← Model.Ed25519.verify m (ct ++ t) sig verifyKey
  if ok then do
    let st ← derive A keyLen v m peer secret salt info
    let (out, ok) ← A.decrypt m st ct nonce data t (zeros ct.length)
    some (if ok then some out else none)
  else some none

/-- Each AEAD takes keys of its length. -/
theorem new_of_length (p : AeadCipher × Nat) (hp : p ∈ sessionAeads) (key : Bytes) (hk : key.length = p.2) :
    ∃ st, p.1.new key = some st := by
  have h := C99_key_lengths key
  simp only [aeads, List.map_cons, List.map_nil, List.cons.injEq, and_true] at h
  simp only [sessionAeads, List.mem_cons, List.not_mem_nil, or_false] at hp
  rcases hp with rfl | rfl | rfl | rfl
  · exact Option.isSome_iff_exists.mp (h.1.trans (decide_eq_true hk))
  · exact Option.isSome_iff_exists.mp (h.2.1.trans (decide_eq_true hk))
  · exact Option.isSome_iff_exists.mp (h.2.2.1.trans (decide_eq_true hk))
  · exact Option.isSome_iff_exists.mp (h.2.2.2.trans (decide_eq_true hk))

theorem mem_aeads (p : AeadCipher × Nat) (hp : p ∈ sessionAeads) : p.1 ∈ aeads := by
  simp only [sessionAeads, List.mem_cons, List.not_mem_nil, or_false] at hp
  rcases hp with rfl | rfl | rfl | rfl <;> simp [aeads]

/-- Encryption within the limits works, with the same result in every build. -/
theorem aead_encrypts (A : AeadCipher) (hA : A ∈ aeads) (key : Bytes) (st : A.State) (h : A.new key = some st)
    (msg nonce data output : Bytes) (hn : nonce.length = 12) (hm : msg.length ≤ 2 ^ 36 - 64) (hd : data.length < 2 ^ 61)
    (ho : msg.length = output.length) : ∃ ct t, ∀ m, A.encrypt m st msg nonce data output = some (ct, t) := by
  have g : ∀ (E : Aes.BlockCipher) (st : E.State), MapsBlocks E st →
      ∃ ct t, ∀ m, (gcmAead E).encrypt m st msg nonce data output = some (ct, t) := fun E st hE =>
    ⟨_, _, fun m => (C96_encrypt E m st hE msg nonce data output).1 ⟨⟨hn, ho, by omega, hd⟩, Or.inr (by omega)⟩⟩
  simp only [aeads, List.mem_cons, List.not_mem_nil, or_false] at hA
  rcases hA with rfl | rfl | rfl | rfl
  · exact g _ _ (fun x hx => C16_length .aes128 key st h x hx)
  · exact g _ _ (fun x hx => C16_length .aes192 key st h x hx)
  · exact g _ _ (fun x hx => C16_length .aes256 key st h x hx)
  · obtain ⟨rfl, hk⟩ := new_eq h
    obtain ⟨t, ht, htl, -⟩ := Proofs.Poly1305.tag_exists st nonce hk hn data (Spec.Poly1305.crypt st nonce msg)
    refine ⟨Spec.Poly1305.crypt st nonce msg, t, fun m => ?_⟩
    obtain ⟨t', e, ht'⟩ := (ccp_encrypt m st msg nonce data output hk).2 ⟨⟨ho, hn⟩, Or.inr (by omega)⟩
    rw [ht m] at ht'
    rw [Option.some.inj ht']
    exact e

/-- Both parties of a key exchange get the same AEAD object, in any builds. -/
theorem C101_same_key (p : AeadCipher × Nat) (hp : p ∈ sessionAeads) (v : Variant) (a b salt info : Bytes)
    (ha : a.length = 32) (hb : b.length = 32) (hs : salt.length < 2 ^ 61) (hi : info.length < 2 ^ 60) :
    ∃ pa pb key st, p.1.new key = some st ∧ ∀ m, Model.X25519.genPk m a = some pa ∧ Model.X25519.genPk m b = some pb ∧
      derive p.1 p.2 v m pb a salt info = some st ∧ derive p.1 p.2 v m pa b salt info = some st := by
  have hk : p.2 ≤ 32 := by
    simp only [sessionAeads, List.mem_cons, List.not_mem_nil, or_false] at hp
    rcases hp with rfl | rfl | rfl | rfl <;> simp
  have hb' : v.block ≤ 128 := by cases v <;> decide
  have hs1 : v.size ≤ 64 := by cases v <;> decide
  have hs2 : 28 ≤ v.size := by cases v <;> decide
  obtain ⟨pa, pb, s, h1, h2, h3, h4⟩ := Props.X25519.C37_key_agreement .release a b ha hb
  have hu : ∀ m m' x y, Model.X25519.dh m x y = Model.X25519.dh m' x y := by
    intro m m' x y
    by_cases hc : x.length = 32 ∧ y.length = 32
    · rw [(Props.X25519.C35_dh_rfc7748 m x y hc.1 hc.2).1, (Props.X25519.C35_dh_rfc7748 m' x y hc.1 hc.2).1]
    · rw [(Props.X25519.C35_dh_panics m x y).1.mpr (by tauto), (Props.X25519.C35_dh_panics m' x y).1.mpr (by tauto)]
  have hg : ∀ m m' y, y.length = 32 → Model.X25519.genPk m y = Model.X25519.genPk m' y := by
    intro m m' y hy
    rw [(Props.X25519.C35_dh_rfc7748 m (zeros 32) y (by simp) hy).2, (Props.X25519.C35_dh_rfc7748 m' (zeros 32) y (by simp) hy).2]
  have hsl : s.length = 32 := by
    obtain ⟨e1, e2⟩ : pa.length = 32 ∧ b.length = 32 := by
      by_contra hc
      have := (Props.X25519.C35_dh_panics .release pa b).1.mpr (by tauto)
      rw [this] at h3
      cases h3
    rw [(Props.X25519.C35_dh_rfc7748 .release pa b e1 e2).1] at h3
    rw [← Option.some.inj h3]
    simp [Spec.X25519.x25519, Spec.X25519.encodeU]
  let prk := Spec.hkdfExtract v.fips v.block salt s
  have hprk : prk.length = v.size := by
    show (Spec.hmac _ _ _ _).length = _
    rw [Spec.hmac, v.lawful.hashLen, v.digestSize_eq]
  have hext : ∀ m, Hkdf.extract v.code m salt s (zeros v.size) = some prk := by
    intro m
    rw [C10_extract v m salt s _ hs (by omega), if_pos (by simp)]
  let key := Spec.hkdfExpand v.fips v.block prk info p.2
  have hexp : ∀ m, Hkdf.expand v.code m prk info (zeros p.2) = some key := by
    intro m
    have hne : Hkdf.expand v.code m prk info (zeros p.2) ≠ none := by
      cases m
      · rw [Ne, C13_expand_debug_panics v prk info _ (by omega) hi]
        simp only [zeros_length]
        omega
      · rw [C11_expand_release v prk info _ (by omega) hi, if_pos (by simp only [zeros_length]; omega)]
        simp
    obtain ⟨out, ho⟩ := Option.ne_none_iff_exists'.mp hne
    obtain ⟨e, -⟩ := C11_expand_rfc5869 v m prk info _ out (by omega) hi ho
    rw [ho, e, zeros_length]
  have hkl : key.length = p.2 := by
    obtain ⟨e, hl⟩ := C11_expand_rfc5869 v .release prk info _ key (by omega) hi (hexp .release)
    rw [hl, zeros_length]
  obtain ⟨st, hst⟩ := new_of_length p hp key hkl
  refine ⟨pa, pb, key, st, hst, fun m => ⟨?_, ?_, ?_, ?_⟩⟩
  · rw [hg m .release a ha]; exact h1
  · rw [hg m .release b hb]; exact h2
  · unfold derive
    rw [hu m .release, h4]
    simp only [Option.bind_eq_bind, Option.bind_some, hext, hexp]
    exact hst
  · unfold derive
    rw [hu m .release, h3]
    simp only [Option.bind_eq_bind, Option.bind_some, hext, hexp]
    exact hst

/-- C101: whatever the message, the keys, the hash and the AEAD, and in whatever builds the two parties run: nothing panics, and
the receiver gets the message that was sent. -/
theorem C101_session (p : AeadCipher × Nat) (hp : p ∈ sessionAeads) (v : Variant) (m m' : Mode) (a b salt info nonce data signKey msg : Bytes)
    (ha : a.length = 32) (hb : b.length = 32) (hk : signKey.length = 32) (hn : nonce.length = 12) (hs : salt.length < 2 ^ 61)
    (hi : info.length < 2 ^ 60) (hd : data.length < 2 ^ 61) (hm : msg.length ≤ 2 ^ 36 - 64) :
    ∃ pa pb vk ct t sig, Model.X25519.genPk m a = some pa ∧ Model.X25519.genPk m' b = some pb ∧ Model.Ed25519.genPk m signKey = some vk ∧
      send p.1 p.2 v m pb a salt info nonce data signKey msg = some (ct, t, sig) ∧
      receive p.1 p.2 v m' pa b salt info nonce data vk ct t sig = some (some msg) := by
  obtain ⟨pa, pb, key, st, hst, hder⟩ := C101_same_key p hp v a b salt info ha hb hs hi
  obtain ⟨ct, t, henc⟩ := aead_encrypts p.1 (mem_aeads p hp) key st hst msg nonce data (zeros msg.length) hn hm hd (by simp)
  have C := C99_contract p.1 (mem_aeads p hp) key st hst
  obtain ⟨hl1, hl2⟩ := C.lengths _ _ _ _ _ _ _ (henc m)
  have hlen : (ct ++ t).length + 64 < 2 ^ 61 := by rw [List.length_append]; omega
  obtain ⟨vk, sig, hpk, hsig, -⟩ := Props.Ed25519.C43_sign_verifies m (ct ++ t) signKey hk (Or.inr hlen)
  obtain ⟨vk', sig', hpk', hsig', hver⟩ := Props.Ed25519.C43_sign_verifies m' (ct ++ t) signKey hk (Or.inr hlen)
  have e1 : vk' = vk := by
    rw [Props.Ed25519.C41_gen_pk_rfc8032 _ _ hk] at hpk hpk'
    rw [← Option.some.inj hpk, ← Option.some.inj hpk']
  have e2 : sig' = sig := by
    rw [Props.Ed25519.C42_sign_rfc8032 _ _ _ hk hlen] at hsig hsig'
    rw [← Option.some.inj hsig, ← Option.some.inj hsig']
  subst e1 e2
  refine ⟨pa, pb, vk', ct, t, sig', (hder m).1, (hder m').2.1, hpk, ?_, ?_⟩
  · unfold send
    rw [(hder m).2.2.1]
    simp only [Option.bind_eq_bind, Option.bind_some, henc, hsig]
  · unfold receive
    rw [hver, (hder m').2.2.2]
    simp only [Option.bind_eq_bind, Option.bind_some, if_true]
    rw [C.roundtrip m' msg nonce data _ ct t (henc m') (zeros ct.length) (by simp [hl1])]
    simp

/-- What the receiver accepts was encrypted under the derived key with the receiver's nonce and data, and signed: encrypting the
output again gives the received ciphertext and tag. -/
theorem C101_accepts_only (p : AeadCipher × Nat) (hp : p ∈ sessionAeads) (v : Variant) (m : Mode)
    (peer b salt info nonce data vk ct t sig msg : Bytes)
    (h : receive p.1 p.2 v m peer b salt info nonce data vk ct t sig = some (some msg)) :
    Model.Ed25519.verify m (ct ++ t) sig vk = some true ∧
    ∃ st, derive p.1 p.2 v m peer b salt info = some st ∧ p.1.encrypt m st msg nonce data (zeros msg.length) = some (ct, t) := by
  unfold receive at h
  cases hv : Model.Ed25519.verify m (ct ++ t) sig vk with
  | none => rw [hv] at h; cases h
  | some ok =>
    rw [hv] at h
    cases ok with
    | false => cases h
    | true =>
      refine ⟨rfl, ?_⟩
      simp only [Option.bind_eq_bind, Option.bind_some, if_true] at h
      cases hd : derive p.1 p.2 v m peer b salt info with
      | none => rw [hd] at h; cases h
      | some st =>
        refine ⟨st, rfl, ?_⟩
        rw [hd, Option.bind_some] at h
        have hnew : ∃ key, p.1.new key = some st := by
          unfold derive at hd
          simp only [Option.bind_eq_bind, Option.bind_eq_some_iff] at hd
          obtain ⟨-, -, -, -, key, -, hk⟩ := hd
          exact ⟨key, hk⟩
        obtain ⟨key, hnew⟩ := hnew
        have C := C99_contract p.1 (mem_aeads p hp) key st hnew
        cases hdec : p.1.decrypt m st ct nonce data t (zeros ct.length) with
        | none => rw [hdec] at h; cases h
        | some r =>
          obtain ⟨out, ok⟩ := r
          rw [hdec] at h
          cases ok with
          | false => cases h
          | true =>
            obtain rfl : out = msg := by
              simp only [Option.bind_some, if_true] at h
              exact Option.some.inj (Option.some.inj h)
            have he := C.accept m ct nonce data t _ out hdec
            have hl := (C.lengths _ _ _ _ _ _ _ he).1
            rw [← hl]
            exact he

example : (gcmAead Aes.Aes256, 32) ∈ sessionAeads ∧ (ccpAead, 32) ∈ sessionAeads := by simp [sessionAeads]

/-- A concrete session: sender in a debug build, receiver in a release build. -/
example : ∃ pa pb vk ct t sig, Model.X25519.genPk .debug (zeros 32) = some pa ∧ Model.X25519.genPk .release (List.replicate 32 1) = some pb ∧
    Model.Ed25519.genPk .debug (List.replicate 32 2) = some vk ∧
    send ccpAead 32 .sha512 .debug pb (zeros 32) [] [1] (zeros 12) [2, 3] (List.replicate 32 2) [4, 5, 6] = some (ct, t, sig) ∧
    receive ccpAead 32 .sha512 .release pa (List.replicate 32 1) [] [1] (zeros 12) [2, 3] vk ct t sig = some (some [4, 5, 6]) :=
  C101_session (ccpAead, 32) (by simp [sessionAeads]) .sha512 .debug .release (zeros 32) (List.replicate 32 1) [] [1] (zeros 12) [2, 3]
    (List.replicate 32 2) [4, 5, 6] (by simp) (by simp) (by simp) (by simp) (by simp) (by simp) (by simp) (by simp)

/-! ## Further concrete cases -/

example (salt info : Bytes) (hs : salt.length < 2 ^ 61) (hi : info.length < 2 ^ 60) :=
  C101_same_key (ccpAead, 32) (by simp [sessionAeads]) .sha256 (zeros 32) (List.replicate 32 7) salt info (by simp) (by simp) hs hi

example (peer b salt info nonce data vk ct t sig msg : Bytes)
    (h : receive ccpAead 32 .sha256 .debug peer b salt info nonce data vk ct t sig = some (some msg)) :
    Model.Ed25519.verify .debug (ct ++ t) sig vk = some true :=
  (C101_accepts_only (ccpAead, 32) (by simp [sessionAeads]) .sha256 .debug peer b salt info nonce data vk ct t sig msg h).1

end CryptoPure.Props
