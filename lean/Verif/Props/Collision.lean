import Verif.Proofs.MerkleDamgard
import Verif.Props.Hmac
import Mathlib.Data.Fintype.Pigeonhole

/-! # Properties C63, C64: collisions of SHA-2, HMAC and HKDF come from explicit collisions below

A collision of a function with more arguments than values always exists, so "there is a collision" would say nothing.
The statements name where the collision is: among the arguments that were actually hashed. -/

namespace CryptoPure.Props
open CryptoPure.Model CryptoPure.Spec.Sha2

/-- Word size in bits (FIPS 180-4 §1). -/
def Variant.width : Variant → Nat
  | .sha224 | .sha256 => 32
  | .sha384 | .sha512 => 64

/-- The algorithm parameters of FIPS 180-4. -/
def Variant.alg : (v : Variant) → Alg v.width
  | .sha224 | .sha256 => alg256
  | .sha384 | .sha512 => alg512

/-- The initial value of FIPS 180-4 §5.3. -/
def Variant.iv : (v : Variant) → Oct v.width
  | .sha224 => iv224
  | .sha256 => ivRoots 32 0
  | .sha384 => ivRoots 64 8
  | .sha512 => ivRoots 64 0

/-- The successive arguments (chaining value, block) of the compression function, starting from chaining value `H`. -/
def compressions {w : Nat} (A : Alg w) : Oct w → List Bytes → List (Oct w × Bytes)
  | _, [] => []
  | H, b :: bs => (H, b) :: compressions A (compress A H b) bs

/-- The arguments of the compression function met when hashing `msg`. -/
def Variant.compressions (v : Variant) (msg : Bytes) : List (Oct v.width × Bytes) :=
  Props.compressions v.alg v.iv (chunks v.block (msg ++ padding v.alg msg.length (8 * msg.length)))

/-- The digest read off a final chaining value: its words in big-endian order, truncated. -/
def Variant.output (v : Variant) (H : Oct v.width) : Bytes :=
  (H.toList.flatMap fun x => toBE (v.width / 8) x.toNat).take v.size

theorem compressions_eq {w : Nat} (A : Alg w) (H : Oct w) (bs : List Bytes) :
    compressions A H bs = Proofs.MerkleDamgard.calls (compress A) H bs := by
  induction bs generalizing H with
  | nil => rfl
  | cons b bs ih => rw [compressions, Proofs.MerkleDamgard.calls, ih]

theorem Variant.fips_eq (v : Variant) (M : Bytes) : v.fips M = digest v.alg v.iv v.size M := by
  cases v <;> rfl

/-- Two different messages (below the length limit) for which the code returns the same digest yield, among the
arguments of the compression function met while hashing them, two different ones with the same (truncated) result. -/
theorem C63_sha2_collision (v : Variant) (m m' : Mode) (M M' d : Bytes) (hM : M.length < 2 ^ 61)
    (hM' : M'.length < 2 ^ 61) (hne : M ≠ M') (h : Model.Sha2.wrapper v.code m M = some d)
    (h' : Model.Sha2.wrapper v.code m' M' = some d) :
    ∃ p ∈ v.compressions M, ∃ p' ∈ v.compressions M',
      p ≠ p' ∧ v.output (compress v.alg p.1 p.2) = v.output (compress v.alg p'.1 p'.2) := by
  rw [C02_sha2_fips v m M hM] at h
  rw [C02_sha2_fips v m' M' hM'] at h'
  have e : v.fips M = v.fips M' := (Option.some.inj h).trans (Option.some.inj h').symm
  rw [v.fips_eq, v.fips_eq] at e
  have hb : v.block = v.alg.blockBytes := by cases v <;> rfl
  unfold Variant.compressions
  rw [compressions_eq, compressions_eq, hb]
  exact Proofs.MerkleDamgard.sha_collision v.alg (by cases v <;> decide) (by cases v <;> decide) v.iv v.size M M' hM hM' hne e

theorem take_words_inj (k : Nat) (H H' : Oct (8 * k))
    (h : (H.toList.flatMap fun x => toBE k x.toNat).take (8 * k) = (H'.toList.flatMap fun x => toBE k x.toNat).take (8 * k)) :
    H = H' := by
  have hlen : ∀ H : Oct (8 * k), (H.toList.flatMap fun x => toBE k x.toNat).length = 8 * k := by
    intro H
    rw [List.length_flatMap]
    simp only [toBE_length, Oct.toList, List.map_cons, List.map_nil, List.sum_cons, List.sum_nil]
    omega
  rw [List.take_of_length_le (le_of_eq (hlen _)), List.take_of_length_le (le_of_eq (hlen _))] at h
  exact Proofs.MerkleDamgard.words_inj k _ _ h

/-- For SHA-256 and SHA-512, whose output is the whole chaining value, this is a collision of the compression function. -/
theorem C63_sha256_sha512_collision (v : Variant) (hv : v = .sha256 ∨ v = .sha512) (m m' : Mode) (M M' d : Bytes)
    (hM : M.length < 2 ^ 61) (hM' : M'.length < 2 ^ 61) (hne : M ≠ M')
    (h : Model.Sha2.wrapper v.code m M = some d) (h' : Model.Sha2.wrapper v.code m' M' = some d) :
    ∃ p ∈ v.compressions M, ∃ p' ∈ v.compressions M',
      p ≠ p' ∧ compress v.alg p.1 p.2 = compress v.alg p'.1 p'.2 := by
  obtain ⟨p, h1, p', h2, h3, h4⟩ := C63_sha2_collision v m m' M M' d hM hM' hne h h'
  refine ⟨p, h1, p', h2, h3, ?_⟩
  unfold Variant.output at h4
  rcases hv with rfl | rfl
  · exact take_words_inj 4 _ _ h4
  · exact take_words_inj 8 _ _ h4

set_option maxRecDepth 100000 in
/-- The trace is what it should be: the digest is the output of the last call, and a 100-byte message takes two. -/
example : (Variant.compressions .sha256 (zeros 100)).length = 2 ∧
    ((Variant.compressions .sha256 (zeros 100)).getLast?.map
      (fun p => Variant.output .sha256 (compress alg256 p.1 p.2))) = Model.Sha2.sha256 .debug (zeros 100) := by
  constructor
  · decide +kernel
  · rw [(C02_functions .debug (zeros 100) (by simp)).2.1]
    rfl

theorem pigeonhole (f : Bytes → Bytes) (n : Nat) (hf : ∀ x, (f x).length = n) :
    ∃ M M' : Bytes, M.length = n + 1 ∧ M'.length = n + 1 ∧ M ≠ M' ∧ f M = f M' := by
  obtain ⟨x, y, hne, he⟩ := Fintype.exists_ne_map_eq_of_card_lt
    (fun x : Fin (256 ^ (n + 1)) => (⟨leNat (f (toLE (n + 1) x)), by
      have := leNat_lt (f (toLE (n + 1) x)); rwa [hf] at this⟩ : Fin (256 ^ n)))
    (by rw [Fintype.card_fin, Fintype.card_fin]; exact Nat.pow_lt_pow_right (by omega) (by omega))
  refine ⟨toLE (n + 1) x, toLE (n + 1) y, toLE_length _ _, toLE_length _ _, ?_, ?_⟩
  · intro e
    exact hne (Fin.ext (toLE_inj x.isLt y.isLt e))
  · have := congrArg Fin.val he
    exact leNat_inj (by rw [hf, hf]) this

/-- The hypotheses of the two theorems are met (nobody knows by what): some pair of messages, one byte longer than the
digest, collides. -/
example (v : Variant) (m : Mode) : ∃ M M' d : Bytes, M.length < 2 ^ 61 ∧ M'.length < 2 ^ 61 ∧ M ≠ M' ∧
    Model.Sha2.wrapper v.code m M = some d ∧ Model.Sha2.wrapper v.code m M' = some d := by
  obtain ⟨M, M', h1, h2, h3, h4⟩ := pigeonhole v.fips v.size (fun x => by rw [v.lawful.hashLen, v.digestSize_eq])
  have hs : v.size ≤ 64 := by cases v <;> decide
  exact ⟨M, M', v.fips M, by omega, by omega, h3, C02_sha2_fips v m M (by omega), by
    rw [h4]; exact C02_sha2_fips v m M' (by omega)⟩

/-! ## C64: HMAC and HKDF -/

/-- Two different inputs of the code's hash with the same digest. -/
def HashCollision (v : Variant) (x y : Bytes) : Prop :=
  x ≠ y ∧ ∃ d, ∀ m, Model.Sha2.wrapper v.code m x = some d ∧ Model.Sha2.wrapper v.code m y = some d

/-- What HMAC feeds to the inner hash for a normalised key (RFC 2104). -/
def innerInput (v : Variant) (key msg : Bytes) : Bytes :=
  xorBytes (Spec.hmacKey v.fips v.block key) (List.replicate v.block 0x36) ++ msg

/-- What HMAC feeds to the outer hash. -/
def outerInput (v : Variant) (key msg : Bytes) : Bytes :=
  xorBytes (Spec.hmacKey v.fips v.block key) (List.replicate v.block 0x5c) ++ v.fips (innerInput v key msg)

theorem hmac_inputs (v : Variant) (key msg : Bytes) :
    Spec.hmac v.fips v.block key msg = v.fips (outerInput v key msg) := rfl

theorem normalised_length (v : Variant) (key : Bytes) : (Spec.hmacKey v.fips v.block key).length = v.block := by
  rw [← v.blockSize_eq]; exact Proofs.hmacKey_length v.lawful key

theorem fips_length (v : Variant) (x : Bytes) : (v.fips x).length = v.size := by rw [v.lawful.hashLen, v.digestSize_eq]

theorem hashCollision_of (v : Variant) (x y : Bytes) (hx : x.length < 2 ^ 61) (hy : y.length < 2 ^ 61) (hne : x ≠ y)
    (h : v.fips x = v.fips y) : HashCollision v x y :=
  ⟨hne, v.fips y, fun m => ⟨by rw [C02_sha2_fips v m x hx, h], C02_sha2_fips v m y hy⟩⟩

/-- If the code computes the same HMAC tag for two (key, message) pairs, then the pairs are the same (the keys up to
their normalisation to one block), or the inner or the outer inputs are a collision of the hash. -/
theorem C64_hmac_collision (v : Variant) (m m' : Mode) (key msg key' msg' tag : Bytes) (hk : key.length < 2 ^ 61)
    (hk' : key'.length < 2 ^ 61) (hl : v.block + msg.length < 2 ^ 61) (hl' : v.block + msg'.length < 2 ^ 61)
    (h : Hmac.wrapper v.code m key msg = some tag) (h' : Hmac.wrapper v.code m' key' msg' = some tag) :
    (Spec.hmacKey v.fips v.block key = Spec.hmacKey v.fips v.block key' ∧ msg = msg') ∨
    HashCollision v (innerInput v key msg) (innerInput v key' msg') ∨
    HashCollision v (outerInput v key msg) (outerInput v key' msg') := by
  rw [C06_hmac_rfc2104 v m key msg hk hl] at h
  rw [C06_hmac_rfc2104 v m' key' msg' hk' hl'] at h'
  have e := (Option.some.inj h).trans (Option.some.inj h').symm
  rw [hmac_inputs, hmac_inputs] at e
  have hlen : ∀ k pad, (xorBytes (Spec.hmacKey v.fips v.block k) (List.replicate v.block pad)).length = v.block := by
    intro k pad
    rw [xorBytes_length, normalised_length, List.length_replicate, Nat.min_self]
  have hb : v.block ≤ 128 := by cases v <;> decide
  have hs : v.size ≤ 64 := by cases v <;> decide
  by_cases ho : outerInput v key msg = outerInput v key' msg'
  · obtain ⟨h1, h2⟩ := List.append_inj ho (by rw [hlen, hlen])
    have h1 := congrArg (xorBytes · (List.replicate v.block 0x5c)) h1
    rw [xorBytes_cancel _ _ (by rw [normalised_length, List.length_replicate]),
      xorBytes_cancel _ _ (by rw [normalised_length, List.length_replicate])] at h1
    by_cases hi : innerInput v key msg = innerInput v key' msg'
    · exact .inl ⟨h1, (List.append_inj hi (by rw [hlen, hlen])).2⟩
    · refine .inr (.inl (hashCollision_of v _ _ ?_ ?_ hi h2)) <;>
      · unfold innerInput
        rw [List.length_append, hlen]; omega
  · refine .inr (.inr (hashCollision_of v _ _ ?_ ?_ ho e)) <;>
    · unfold outerInput
      rw [List.length_append, hlen, fips_length]; omega

/-- In particular, under one key, two different messages with the same tag are a collision of the hash. -/
theorem C64_hmac_messages (v : Variant) (m m' : Mode) (key msg msg' tag : Bytes) (hk : key.length < 2 ^ 61)
    (hl : v.block + msg.length < 2 ^ 61) (hl' : v.block + msg'.length < 2 ^ 61) (hne : msg ≠ msg')
    (h : Hmac.wrapper v.code m key msg = some tag) (h' : Hmac.wrapper v.code m' key msg' = some tag) :
    HashCollision v (innerInput v key msg) (innerInput v key msg') ∨
    HashCollision v (outerInput v key msg) (outerInput v key msg') :=
  (C64_hmac_collision v m m' key msg key msg' tag hk hk hl hl' h h').resolve_left (fun e => hne e.2)

/-- Under every key some pair of messages does collide. -/
example (v : Variant) (m : Mode) (key : Bytes) (hk : key.length < 2 ^ 61) : ∃ M M' tag : Bytes, M ≠ M' ∧
    v.block + M.length < 2 ^ 61 ∧ v.block + M'.length < 2 ^ 61 ∧
    Hmac.wrapper v.code m key M = some tag ∧ Hmac.wrapper v.code m key M' = some tag := by
  obtain ⟨M, M', h1, h2, h3, h4⟩ := pigeonhole (Spec.hmac v.fips v.block key) v.size
    (fun x => by rw [hmac_inputs, fips_length])
  have hs : v.size ≤ 64 := by cases v <;> decide
  have hb : v.block ≤ 128 := by cases v <;> decide
  exact ⟨M, M', _, h3, by omega, by omega, C06_hmac_rfc2104 v m key M hk (by omega), by
    rw [h4]; exact C06_hmac_rfc2104 v m key M' hk (by omega)⟩

/-- Two different `info` strings for which `expand` derives the same first digest-size bytes under one `prk` are a
collision of the hash, at the first HMAC evaluation. -/
theorem C64_hkdf_info (v : Variant) (m m' : Mode) (prk info info' okm okm' out out' : Bytes) (hk : prk.length < 2 ^ 61)
    (hl : info.length < 2 ^ 60) (hl' : info'.length < 2 ^ 60) (hne : info ≠ info')
    (ho : v.size ≤ okm.length) (ho' : v.size ≤ okm'.length)
    (h : Hkdf.expand v.code m prk info okm = some out) (h' : Hkdf.expand v.code m' prk info' okm' = some out')
    (heq : out.take v.size = out'.take v.size) :
    HashCollision v (innerInput v prk (info ++ [1])) (innerInput v prk (info' ++ [1])) ∨
    HashCollision v (outerInput v prk (info ++ [1])) (outerInput v prk (info' ++ [1])) := by
  have hb : v.block ≤ 128 := by cases v <;> decide
  have first : ∀ (i : Bytes) (n : Nat), v.size ≤ n →
      (Spec.hkdfExpand v.fips v.block prk i n).take v.size = Spec.hmac v.fips v.block prk (i ++ [1]) := by
    intro i n hn
    unfold Spec.hkdfExpand
    rw [List.take_take, Nat.min_eq_left hn, show List.range 255 = List.range (254 + 1) from rfl, List.range_succ_eq_map, List.flatMap_cons,
      List.take_append_of_le_length (by
        rw [← v.blockSize_eq, Proofs.hkdfT_length prk i v.lawful _ (Nat.succ_pos _), v.digestSize_eq])]
    exact List.take_of_length_le (by
        rw [← v.blockSize_eq, Proofs.hkdfT_length prk i v.lawful _ (Nat.succ_pos _), v.digestSize_eq])
  rw [(C11_expand_rfc5869 v m prk info okm out hk hl h).1, (C11_expand_rfc5869 v m' prk info' okm' out' hk hl' h').1,
    first _ _ ho, first _ _ ho'] at heq
  have l1 : v.block + (info ++ [1]).length < 2 ^ 61 := by
    rw [List.length_append, List.length_singleton]; omega
  have l2 : v.block + (info' ++ [1]).length < 2 ^ 61 := by
    rw [List.length_append, List.length_singleton]; omega
  refine C64_hmac_messages v .release .release prk (info ++ [1]) (info' ++ [1]) _ hk l1 l2
    (fun e => hne (List.append_inj_left' e rfl)) (C06_hmac_rfc2104 v .release prk _ hk l1) ?_
  rw [heq]
  exact C06_hmac_rfc2104 v .release prk _ hk l2

end CryptoPure.Props
