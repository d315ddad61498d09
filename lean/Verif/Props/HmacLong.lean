import Verif.Proofs.HmacLong
import Verif.Props.Panic

/-! # C111: HMAC and HKDF for inputs of every length; C112: an HMAC object survives caught panics -/

namespace CryptoPure.Props
open CryptoPure.Model CryptoPure.Model.Sha2 CryptoPure.Proofs

/-! ## C111 -/

/-- The FIPS 180-4 computation with the bit length in the padding taken modulo `2^64`; for messages shorter than `2^61`
bytes this is the FIPS 180-4 digest. -/
def Variant.wrapped (v : Variant) (msg : Bytes) : Bytes := v.fipsWithLength msg (8 * msg.length % 2 ^ 64)

theorem C111_wrapped_short (v : Variant) (msg : Bytes) (h : msg.length < 2 ^ 61) : v.wrapped msg = v.fips msg := by
  rw [C05_fips_length]
  unfold Variant.wrapped
  rw [Nat.mod_eq_of_lt (by omega)]

theorem Variant.lawfulR (v : Variant) : Long.LawfulR v.code v.wrapped v.rel := by
  cases v
  · have := Long.lawfulR_impl Proofs.Sha2.matches256 iv224 28 (by decide) (by decide) (by decide) (by decide)
    rw [show (fun msg => Spec.Sha2.digestWith Spec.Sha2.alg256 iv224 28 msg (8 * msg.length % 2 ^ 64)) = Variant.wrapped .sha224 by
      rw [Proofs.Sha2.iv224_eq]; rfl] at this
    exact this
  · have := Long.lawfulR_impl Proofs.Sha2.matches256 iv256 32 (by decide) (by decide) (by decide) (by decide)
    rw [show (fun msg => Spec.Sha2.digestWith Spec.Sha2.alg256 iv256 32 msg (8 * msg.length % 2 ^ 64)) = Variant.wrapped .sha256 by
      rw [Proofs.Sha2.iv256_eq]; rfl] at this
    exact this
  · have := Long.lawfulR_impl Proofs.Sha2.matches512 iv384 48 (by decide) (by decide) (by decide) (by decide)
    rw [show (fun msg => Spec.Sha2.digestWith Spec.Sha2.alg512 iv384 48 msg (8 * msg.length % 2 ^ 64)) = Variant.wrapped .sha384 by
      rw [Proofs.Sha2.iv384_eq]; rfl] at this
    exact this
  · have := Long.lawfulR_impl Proofs.Sha2.matches512 iv512 64 (by decide) (by decide) (by decide) (by decide)
    rw [show (fun msg => Spec.Sha2.digestWith Spec.Sha2.alg512 iv512 64 msg (8 * msg.length % 2 ^ 64)) = Variant.wrapped .sha512 by
      rw [Proofs.Sha2.iv512_eq]; rfl] at this
    exact this

theorem Variant.lawfulD (v : Variant) : Long.LawfulD v.code v.rel := by
  cases v
  · exact Long.lawfulD_impl Proofs.Sha2.matches256 iv224 28 64
  · exact Long.lawfulD_impl Proofs.Sha2.matches256 iv256 32 64
  · exact Long.lawfulD_impl Proofs.Sha2.matches512 iv384 48 128
  · exact Long.lawfulD_impl Proofs.Sha2.matches512 iv512 64 128

/-- Both forms of the hash function give the same tag when nothing is too long. -/
theorem hmac_wrapped_short (v : Variant) (key msg : Bytes) (hk : key.length < 2 ^ 61) (hl : v.block + msg.length < 2 ^ 61) :
    Spec.hmac v.wrapped v.block key msg = Spec.hmac v.fips v.block key msg := by
  have hb : v.block ≤ 128 := by cases v <;> decide
  have hs : v.code.digestSize ≤ 64 := v.lawful.digestMax
  have hkey : Spec.hmacKey v.wrapped v.block key = Spec.hmacKey v.fips v.block key := by
    unfold Spec.hmacKey
    rw [C111_wrapped_short v key hk]
  have hlen : (Spec.hmacKey v.fips v.block key).length = v.block := by
    rw [← v.blockSize_eq]; exact hmacKey_length v.lawful key
  unfold Spec.hmac
  simp only [hkey]
  rw [C111_wrapped_short v (_ ++ msg), C111_wrapped_short]
  · rw [List.length_append, xorBytes_length, hlen, List.length_replicate, v.lawful.hashLen]; omega
  · rw [List.length_append, xorBytes_length, hlen, List.length_replicate]; omega

/-- `Hmac::new(key)`, any `update` calls and `tag()`, for keys and messages of every length a slice can have. Without
overflow checks the tag is RFC 2104 over the hash function whose length field wraps; with overflow checks it is the
RFC 2104 tag unless the key, or a block and the message together, have `2^61` bytes or more, and then there is a
panic. -/
theorem C111_hmac (v : Variant) (m : Mode) (key : Bytes) (parts : List Bytes) (hk : key.length < 2 ^ 64)
    (hp : ∀ p ∈ parts, p.length < 2 ^ 64) :
    hmacParts v m key parts = match m with
      | .release => some (Spec.hmac v.wrapped v.block key parts.flatten)
      | .debug => if key.length < 2 ^ 61 ∧ v.block + parts.flatten.length < 2 ^ 61
          then some (Spec.hmac v.fips v.block key parts.flatten) else none := by
  cases m with
  | release =>
    obtain ⟨h, e1, r1⟩ := Long.hmac_new_spec v.lawfulR key
    obtain ⟨h2, e2, r2⟩ := Long.hmac_updates_spec v.lawfulR key parts [] h r1
    simp only [← v.blockSize_eq]
    unfold hmacParts
    rw [e1]; simp only [Option.bind_eq_bind, Option.bind_some]
    rw [e2]; simp only [Option.bind_some]
    exact Long.hmac_tag_spec v.lawfulR key _ h2 r2
  | debug =>
    by_cases h : key.length < 2 ^ 61 ∧ v.block + parts.flatten.length < 2 ^ 61
    · simp only [if_pos h]
      exact C07_split_independent v .debug key parts h.1 h.2
    · simp only [if_neg h]
      rw [← v.blockSize_eq] at h
      exact Long.parts_debug v.lawful v.lawfulD key parts (Hmac.tag .debug) hk hp
        (fun msg g r h1 h2 => Long.tag_debug_none v.lawful v.lawfulD key msg g r h1 h2) h

/-- The one-shot functions `hmac_sha224/256/384/512`. -/
theorem C111_one_shot (v : Variant) (m : Mode) (key msg : Bytes) (hk : key.length < 2 ^ 64) (hm : msg.length < 2 ^ 64) :
    Hmac.wrapper v.code m key msg = match m with
      | .release => some (Spec.hmac v.wrapped v.block key msg)
      | .debug => if key.length < 2 ^ 61 ∧ v.block + msg.length < 2 ^ 61
          then some (Spec.hmac v.fips v.block key msg) else none := by
  cases m with
  | release => simp only [← v.blockSize_eq]; exact Long.hmac_wrapper_spec v.lawfulR key msg
  | debug =>
    by_cases h : key.length < 2 ^ 61 ∧ v.block + msg.length < 2 ^ 61
    · simp only [if_pos h]
      exact C06_hmac_rfc2104 v .debug key msg h.1 h.2
    · simp only [if_neg h]
      rw [← v.blockSize_eq] at h
      have := Long.parts_debug v.lawful v.lawfulD key [msg] (fun g => Hmac.writeTag .debug g (zeros v.code.digestSize)) hk
        (by simpa using hm)
        (fun msg g r h1 h2 => Long.writeTag_debug_none v.lawful v.lawfulD key msg _ g r h1 h2) (by simpa using h)
      simpa only [List.foldlM_cons, List.foldlM_nil, Option.bind_eq_bind, Option.pure_def, Option.bind_assoc, Hmac.wrapper, Option.bind_some] using this

/-- `hmac::verify` accepts exactly the complete tag, also where the tag differs from RFC 2104. -/
theorem C111_verify (v : Variant) (m : Mode) (key msg tag : Bytes) (hk : key.length < 2 ^ 64) (hm : msg.length < 2 ^ 64) :
    Hmac.verify v.code m key msg tag = match m with
      | .release => some (decide (tag = Spec.hmac v.wrapped v.block key msg))
      | .debug => if key.length < 2 ^ 61 ∧ v.block + msg.length < 2 ^ 61
          then some (decide (tag = Spec.hmac v.fips v.block key msg)) else none := by
  cases m with
  | release =>
    simp only [← v.blockSize_eq]
    rw [Long.hmac_verify_spec v.lawfulR key msg tag]
    congr 1
    exact decide_eq_decide.mpr eq_comm
  | debug =>
    by_cases h : key.length < 2 ^ 61 ∧ v.block + msg.length < 2 ^ 61
    · simp only [if_pos h]
      exact C08_verify_iff v .debug key msg tag h.1 h.2
    · simp only [if_neg h]
      rw [← v.blockSize_eq] at h
      have := Long.parts_debug v.lawful v.lawfulD key [msg] (fun g => (Hmac.tag .debug g).bind fun expected =>
          if expected.length == tag.length then (do
            let d ← Util.verifyInner expected tag
            some (d == 0))
          else some false) hk
        (by simpa using hm)
        (fun msg g r h1 h2 => by rw [Long.tag_debug_none v.lawful v.lawfulD key msg g r h1 h2]; rfl) (by simpa using h)
      simpa only [List.foldlM_cons, List.foldlM_nil, Option.bind_eq_bind, Option.pure_def, Option.bind_assoc, Hmac.verify, Option.bind_some] using this

/-- `hkdf::extract` for every length. -/
theorem C111_extract (v : Variant) (m : Mode) (salt ikm prk : Bytes) (hk : salt.length < 2 ^ 64) (hm : ikm.length < 2 ^ 64) :
    Hkdf.extract v.code m salt ikm prk = match m with
      | .release => if prk.length = v.size then some (Spec.hkdfExtract v.wrapped v.block salt ikm) else none
      | .debug => if prk.length = v.size ∧ salt.length < 2 ^ 61 ∧ v.block + ikm.length < 2 ^ 61
          then some (Spec.hkdfExtract v.fips v.block salt ikm) else none := by
  cases m with
  | release =>
    simp only [← v.blockSize_eq, ← v.digestSize_eq]
    exact Long.extract_spec v.lawfulR salt ikm prk
  | debug =>
    by_cases h : salt.length < 2 ^ 61 ∧ v.block + ikm.length < 2 ^ 61
    · simp only [h, and_self, and_true]
      exact C10_extract v .debug salt ikm prk h.1 h.2
    · simp only [if_neg (fun (c : _ ∧ _) => h c.2)]
      rw [← v.blockSize_eq] at h
      have := Long.parts_debug v.lawful v.lawfulD salt [ikm] (fun g => (Hmac.tag .debug g).bind fun t => (assert (prk.length == t.length)).bind fun _ => some t) hk
        (by simpa using hm)
        (fun msg g r h1 h2 => by rw [Long.tag_debug_none v.lawful v.lawfulD salt msg g r h1 h2]; rfl) (by simpa using h)
      simp only [List.foldlM_cons, List.foldlM_nil, Option.bind_eq_bind, Option.pure_def, Option.bind_assoc, Option.bind_some] at this
      unfold Hkdf.extract
      simp only [Option.bind_eq_bind]
      rw [this]
      cases assert (v.code.digestSize == prk.length) <;> rfl

/-- `hkdf::expand` for every length. The inputs of HMAC inside are `info` and one byte for the first block of output,
and a digest more for the others; with overflow checks the longest of them must stay below `2^61` bytes. -/
theorem C111_expand (v : Variant) (m : Mode) (prk info okm : Bytes) (hk : prk.length < 2 ^ 64) (hi : info.length < 2 ^ 64) :
    Hkdf.expand v.code m prk info okm = match m with
      | .release => if v.size ≤ prk.length ∧ okm.length ≤ 255 * v.size
          then some (Spec.hkdfExpand v.wrapped v.block prk info okm.length) else none
      | .debug => if v.size ≤ prk.length ∧ prk.length < 2 ^ 61 ∧ okm.length < 254 * v.size ∧
            (0 < okm.length → v.block + info.length + 1 < 2 ^ 61) ∧
            (v.size < okm.length → v.block + v.size + info.length + 1 < 2 ^ 61)
          then some (Spec.hkdfExpand v.fips v.block prk info okm.length) else none := by
  have hb' : v.block ≤ 128 := by cases v <;> decide
  have hs' : 0 < v.size := by cases v <;> decide
  cases m with
  | release =>
    simp only [← v.blockSize_eq, ← v.digestSize_eq]
    exact Long.expand_spec prk info v.lawfulR okm
  | debug =>
    simp only
    rw [Long.expand_debug prk info v.lawful v.lawfulD okm hk hi, v.blockSize_eq, v.digestSize_eq]
    congr 1
    simp only [eq_iff_iff, Long.longest]
    split
    · constructor <;> intro h <;> refine ⟨h.1, h.2.1, h.2.2.1, ?_⟩ <;> [constructor; skip] <;> omega
    · split
      · constructor <;> intro h <;> refine ⟨h.1, h.2.1, h.2.2.1, ?_⟩ <;> [constructor; have := h.2.2.2.1] <;> omega
      · constructor <;> intro h <;> refine ⟨h.1, h.2.1, h.2.2.1, ?_⟩ <;> [constructor; have := h.2.2.2.2] <;> omega

/-- A message of `2^61` bytes: a panic with overflow checks; without, a tag in which the message counts as empty. -/
example (msg : Bytes) (h : msg.length = 2 ^ 61) : Hmac.wrapper Variant.sha256.code .debug [1] msg = none ∧
    Hmac.wrapper Variant.sha256.code .release [1] msg = some (Spec.hmac Variant.sha256.wrapped 64 [1] msg) := by
  constructor
  · rw [C111_one_shot .sha256 .debug [1] msg (by simp) (by rw [h]; norm_num)]
    exact if_neg (by rw [h]; simp [Variant.block])
  · exact C111_one_shot .sha256 .release [1] msg (by simp) (by rw [h]; norm_num)

/-- A key of `2^61` bytes. -/
example (key : Bytes) (h : key.length = 2 ^ 61) (tag : Bytes) : Hmac.verify Variant.sha512.code .debug key [1] tag = none := by
  rw [C111_verify .sha512 .debug key [1] tag (by rw [h]; norm_num) (by simp)]
  exact if_neg (by rw [h]; simp)

/-- One block of output is still possible with an `info` for which two are not. -/
example (info : Bytes) (h : info.length = 2 ^ 61 - 66) :
    Hkdf.expand Variant.sha256.code .debug (zeros 32) info (zeros 32) =
      some (Spec.hkdfExpand Spec.Sha2.sha256 64 (zeros 32) info 32) ∧
    Hkdf.expand Variant.sha256.code .debug (zeros 32) info (zeros 33) = none := by
  constructor
  · rw [C111_expand .sha256 .debug (zeros 32) info (zeros 32) (by simp) (by rw [h]; norm_num)]
    simp only [zeros_length]
    exact if_pos ⟨by simp [Variant.size], by simp, by simp [Variant.size], by simp [Variant.block, h], by simp [Variant.size]⟩
  · rw [C111_expand .sha256 .debug (zeros 32) info (zeros 33) (by simp) (by rw [h]; norm_num)]
    exact if_neg (by simp [Variant.size, Variant.block, h])

/-! ## C112 -/

/-- `Hmac::update` when panics are caught: the object afterwards and whether the call returned. -/
def hmacUpdateRun (v : Variant) (m : Mode) (h : Hmac.Hmac v.code) (input : Bytes) : Hmac.Hmac v.code × Bool :=
  Effects.hmacUpdate (updateRun v m) h input

/-- The object after a sequence of `update` calls whose panics are caught, and the inputs whose calls returned. -/
def feedHmac (v : Variant) (m : Mode) : Hmac.Hmac v.code → List Bytes → Hmac.Hmac v.code × List Bytes
  | h, [] => (h, [])
  | h, x :: xs =>
    let (h', ok) := hmacUpdateRun v m h x
    let (h'', taken) := feedHmac v m h' xs
    (h'', if ok then x :: taken else taken)

theorem hmacUpdateRun_cases (v : Variant) (m : Mode) (h : Hmac.Hmac v.code) (x : Bytes) :
    (Hmac.update m h x = none ∧ hmacUpdateRun v m h x = (h, false)) ∨
    (∃ h', Hmac.update m h x = some h' ∧ hmacUpdateRun v m h x = (h', true)) := by
  unfold hmacUpdateRun Effects.hmacUpdate Hmac.update
  rcases updateRun_cases v m h.inner x with ⟨h0, h1⟩ | ⟨s, h0, h1⟩
  · left; rw [h0, h1]; exact ⟨rfl, rfl⟩
  · right; rw [h0, h1]; exact ⟨_, rfl, rfl⟩

/-- An object that has survived any sequence of `update` calls, some of which panicked, is the object that was given
only the inputs whose calls returned. -/
theorem C112_update_atomic (v : Variant) (m : Mode) (h : Hmac.Hmac v.code) (inputs : List Bytes) :
    (feedHmac v m h inputs).2.foldlM (Hmac.update m) h = some (feedHmac v m h inputs).1 := by
  induction inputs generalizing h with
  | nil => rfl
  | cons x xs ih =>
    rw [feedHmac]
    rcases hmacUpdateRun_cases v m h x with ⟨-, e⟩ | ⟨h', h0, e⟩
    · rw [e]; exact ih h
    · rw [e]
      simp only [if_true, List.foldlM_cons]
      rw [h0]; exact ih h'

/-- Which calls return: all of them without overflow checks; with overflow checks those that keep a block and the bytes
taken together below `2^64`. -/
theorem C112_taken (v : Variant) (m : Mode) (key : Bytes) (h : Hmac.Hmac v.code) (inputs : List Bytes)
    (hk : key.length < 2 ^ 64) (hn : Hmac.new v.code m key = some h) (hx : ∀ x ∈ inputs, x.length < 2 ^ 64) :
    (feedHmac v m h inputs).2 = match m with
      | .release => inputs
      | .debug => fitting v.block inputs := by
  have hb' : v.block ≤ 128 := by cases v <;> decide
  cases m with
  | release =>
    simp only
    obtain ⟨g, e, r⟩ := Long.hmac_new_spec v.lawfulR key
    rw [hn] at e
    obtain rfl := Option.some.inj e
    generalize ([] : Bytes) = msg at r
    clear hn hx e
    induction inputs generalizing h msg with
    | nil => rfl
    | cons x xs ih =>
      rw [feedHmac]
      obtain ⟨g, e, r'⟩ := Long.hmac_update_spec v.lawfulR key msg x h r
      rcases hmacUpdateRun_cases v .release h x with ⟨h0, -⟩ | ⟨h', h0, e'⟩
      · rw [h0] at e; cases e
      · rw [h0] at e
        obtain rfl := Option.some.inj e
        rw [e']
        simp only [if_true]
        rw [ih (h := h') (r := r')]
  | debug =>
    simp only
    have hk' : key.length < 2 ^ 61 := by
      by_contra hc
      rw [Long.new_debug_none v.lawful v.lawfulD key (by omega) hk] at hn
      cases hn
    obtain ⟨g, e, r⟩ := Proofs.hmac_new_spec v.lawful .debug key hk'
    rw [hn] at e
    obtain rfl := Option.some.inj e
    have main : ∀ (inputs : List Bytes) (msg : Bytes) (h : Hmac.Hmac v.code), (∀ x ∈ inputs, x.length < 2 ^ 64) →
        HmacRel v.fips v.rel key msg h → v.block + msg.length < 2 ^ 64 →
        (feedHmac v .debug h inputs).2 = fitting (v.block + msg.length) inputs := by
      intro inputs
      induction inputs with
      | nil => intros; rfl
      | cons x xs ih =>
        intro msg h hx r hm
        have hu := Long.update_debug v.lawful v.lawfulD key msg x h r (by rw [v.blockSize_eq]; exact hm) (hx x (by simp))
        rw [v.blockSize_eq] at hu
        rw [feedHmac, fitting]
        rcases hmacUpdateRun_cases v .debug h x with ⟨h0, e⟩ | ⟨h', h0, e⟩
        · have hlt : ¬ v.block + msg.length + x.length < 2 ^ 64 := by
            intro hlt
            obtain ⟨h', e', -⟩ := hu.1 hlt
            rw [h0] at e'; cases e'
          rw [e, if_neg hlt]
          exact ih msg h (fun y hy => hx y (by simp [hy])) r hm
        · have hlt : v.block + msg.length + x.length < 2 ^ 64 := by
            by_contra hc
            rw [hu.2 hc] at h0; cases h0
          obtain ⟨h'', e', r'⟩ := hu.1 hlt
          rw [h0] at e'
          obtain rfl := Option.some.inj e'
          rw [e, if_pos hlt]
          simp only [if_true]
          rw [ih (msg ++ x) h' (fun y hy => hx y (by simp [hy])) r' (by rw [List.length_append]; omega), List.length_append,
            Nat.add_assoc]
    exact main inputs [] h hx r (by simp; omega)

/-- The tag of an object that has survived any sequence of `update` calls is the one of the concatenation of the inputs
whose calls returned (with overflow checks there is a panic when those have too many bytes). -/
theorem C112_tag (v : Variant) (m : Mode) (key : Bytes) (h : Hmac.Hmac v.code) (inputs : List Bytes)
    (hk : key.length < 2 ^ 64) (hn : Hmac.new v.code m key = some h) (hx : ∀ x ∈ inputs, x.length < 2 ^ 64) :
    let r := feedHmac v m h inputs
    Hmac.tag m r.1 = match m with
      | .release => some (Spec.hmac v.wrapped v.block key r.2.flatten)
      | .debug => if v.block + r.2.flatten.length < 2 ^ 61 then some (Spec.hmac v.fips v.block key r.2.flatten) else none := by
  intro r
  have h1 := C112_update_atomic v m h inputs
  have hsub : ∀ p ∈ r.2, p.length < 2 ^ 64 := by
    have aux : ∀ (inputs : List Bytes) (h : Hmac.Hmac v.code), ∀ p ∈ (feedHmac v m h inputs).2, p ∈ inputs := by
      intro inputs
      induction inputs with
      | nil => intro h p hp; exact hp
      | cons x xs ih =>
        intro h p hp
        rw [feedHmac] at hp
        simp only at hp
        split at hp
        · rcases List.mem_cons.mp hp with rfl | hp
          · simp
          · exact List.mem_cons_of_mem _ (ih _ p hp)
        · exact List.mem_cons_of_mem _ (ih _ p hp)
    exact fun p hp => hx p (aux inputs h p hp)
  have h2 := C111_hmac v m key r.2 hk hsub
  unfold hmacParts at h2
  rw [hn] at h2
  simp only [Option.bind_eq_bind, Option.bind_some] at h2
  rw [h1] at h2
  simp only [Option.bind_some] at h2
  rw [h2]
  cases m with
  | release => rfl
  | debug =>
    have hk' : key.length < 2 ^ 61 := by
      by_contra hc
      rw [Long.new_debug_none v.lawful v.lawfulD key (by omega) hk] at hn
      cases hn
    simp only [hk', true_and]

/-- The second of three calls would overflow the length counter: it panics, and the tag is the one of the other two. -/
example (x : Bytes) (hx : x.length = 2 ^ 64 - 3) (h : Hmac.Hmac Variant.sha256.code) (hn : Hmac.new Variant.sha256.code .debug [5] = some h) :
    Hmac.tag .debug (feedHmac .sha256 .debug h [[1, 2, 3], x, [4]]).1 = some (Spec.hmac Spec.Sha2.sha256 64 [5] [1, 2, 3, 4]) := by
  have hx' : ∀ y ∈ [[1, 2, 3], x, [4]], y.length < 2 ^ 64 := by simp [hx]
  have e := C112_taken .sha256 .debug [5] h _ (by simp) hn hx'
  simp only at e
  rw [show fitting (Variant.block .sha256) [[1, 2, 3], x, [4]] = [[1, 2, 3], [4]] by simp [fitting, hx, Variant.block]] at e
  have := C112_tag .sha256 .debug [5] h _ (by simp) hn hx'
  simp only [e] at this
  rw [this]
  exact if_pos (by simp [Variant.block])

end CryptoPure.Props
